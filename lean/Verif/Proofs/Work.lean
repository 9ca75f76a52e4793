import Verif.Model.Work
import Verif.Proofs.Cow
/-!
# Steps: same outcomes, and bounds
-/

namespace Cafebabe
open Spec Timed

namespace Timed

@[simp] theorem out_bind {α β : Type} (t : Timed α) (f : α → Timed β) : (t >>= f).out = (t.out >>= fun a => (f a).out) := by
  show (Timed.bind t f).out = Res.bind t.out _
  unfold Timed.bind Res.bind
  cases t.out <;> rfl

@[simp] theorem out_free {α : Type} (r : Res α) : (free r).out = r := rfl
@[simp] theorem out_tick (n : Nat) : (tick n).out = .ok () := rfl
@[simp] theorem out_mapErr {α : Type} (t : Timed α) (c : String) : (t.mapErr c).out = t.out.mapErr c := rfl
@[simp] theorem steps_free {α : Type} (r : Res α) : (free r).steps = 0 := rfl
@[simp] theorem steps_tick (n : Nat) : (tick n).steps = n := rfl
@[simp] theorem steps_mapErr {α : Type} (t : Timed α) (c : String) : (t.mapErr c).steps = t.steps := rfl

@[simp] theorem steps_tick_bind {β : Type} (n : Nat) (f : Unit → Timed β) : (tick n >>= f).steps = n + (f ()).steps := rfl

theorem steps_bind_ok {α β : Type} {t : Timed α} {f : α → Timed β} {a : α} (h : t.out = .ok a) : (t >>= f).steps = t.steps + (f a).steps := by
  show (Timed.bind t f).steps = _
  unfold Timed.bind
  rw [h]

/-- Either the first part returned `Ok` and the second ran, or only the first part counts. -/
theorem steps_bind {α β : Type} (t : Timed α) (f : α → Timed β) :
    (∃ a, t.out = .ok a ∧ (t >>= f).steps = t.steps + (f a).steps) ∨ ((∀ a, t.out ≠ .ok a) ∧ (t >>= f).steps = t.steps) := by
  cases h : t.out with
  | ok a => exact .inl ⟨a, rfl, steps_bind_ok h⟩
  | err e => refine .inr ⟨nofun, ?_⟩; show (Timed.bind t f).steps = _; unfold Timed.bind; rw [h]
  | panic e => refine .inr ⟨nofun, ?_⟩; show (Timed.bind t f).steps = _; unfold Timed.bind; rw [h]
  | diverge => refine .inr ⟨nofun, ?_⟩; show (Timed.bind t f).steps = _; unfold Timed.bind; rw [h]

theorem steps_bind_le {α β : Type} {t : Timed α} {f : α → Timed β} {m n : Nat} (h1 : t.steps ≤ m) (h2 : ∀ a, t.out = .ok a → (f a).steps ≤ n) :
    (t >>= f).steps ≤ m + n := by
  rcases steps_bind t f with ⟨a, h, e⟩ | ⟨-, e⟩
  · rw [e]; exact Nat.add_le_add h1 (h2 a h)
  · rw [e]; omega

theorem steps_free_bind_le {α β : Type} {r : Res α} {f : α → Timed β} {n : Nat} (h2 : ∀ a, r = .ok a → (f a).steps ≤ n) : (free r >>= f).steps ≤ n := by
  have := steps_bind_le (t := free r) (f := f) (m := 0) (n := n) (Nat.le_refl _) h2
  omega

end Timed

theorem res_bind_ok {α β : Type} (a : α) (f : α → Res β) : ((Res.ok a : Res α) >>= f) = f a := rfl
theorem res_bind_fail {α β : Type} (m : String) (f : α → Res β) : ((Res.fail m : Res α) >>= f) = Res.fail m := rfl

/-! ## Same outcomes -/

theorem allT_out (f : Char → Bool) : ∀ s, (allT f s).out = .ok (s.all f)
  | [] => rfl
  | c :: rest => by
    unfold allT
    simp only [out_bind, out_tick, res_bind_ok]
    cases h : f c
    · simp [h]
    · simp [h, allT_out f rest]

theorem isUnqualifiedNameT_out (s : Str) : (isUnqualifiedNameT s).out = .ok (isUnqualifiedName s) := by
  unfold isUnqualifiedNameT isUnqualifiedName
  cases s.isEmpty <;> simp [allT_out]

theorem segmentsT_out : ∀ l, (segmentsT l).out = .ok (l.all isUnqualifiedName)
  | [] => rfl
  | s :: rest => by
    unfold segmentsT
    simp only [out_bind, out_tick, res_bind_ok, isUnqualifiedNameT_out]
    cases h : isUnqualifiedName s
    · simp [h]
    · simp [h, segmentsT_out rest]

theorem isBinaryNameT_out (s : Str) : (isBinaryNameT s).out = .ok (isBinaryName s) := segmentsT_out _

theorem isUnqualifiedMethodNameT_out (s : Str) (a b : Bool) : (isUnqualifiedMethodNameT s a b).out = .ok (isUnqualifiedMethodName s a b) := by
  unfold isUnqualifiedMethodNameT isUnqualifiedMethodName
  cases s with
  | nil => rfl
  | cons x r =>
    simp only [out_bind, out_tick, res_bind_ok]
    by_cases h : (x == '<') = true
    · rw [if_pos h, if_pos h]; rfl
    · rw [if_neg h, if_neg h]
      by_cases h2 : (!isValidUnqualifiedMethodChar x) = true
      · rw [if_pos h2, if_pos h2]; rfl
      · rw [if_neg h2, if_neg h2, allT_out]

theorem isModuleNameT_out (s : Str) : (isModuleNameT s).out = .ok (isModuleName s) := by
  induction s using isModuleName.induct <;> (unfold isModuleNameT isModuleName; simp_all [out_bind, res_bind_ok])
  case case7 c rest h _ _ ih =>
    rw [if_neg (by omega), ih, decide_eq_false (by omega)]
    rfl

theorem segmentAuxT_out (data : Str) : ∀ (s : Str) (ix : Nat), (parseUnqualifiedSegmentAuxT data ix s).out = parseUnqualifiedSegmentAux data ix s
  | [], _ => rfl
  | c :: rest, ix => by
    unfold parseUnqualifiedSegmentAuxT parseUnqualifiedSegmentAux
    simp only [out_bind, out_tick, res_bind_ok]
    split; · rfl
    split; · rfl
    split; · simp
    split; · rfl
    exact segmentAuxT_out data rest _

theorem segmentT_out (s : Str) : (parseUnqualifiedSegmentT s).out = parseUnqualifiedSegment s := segmentAuxT_out s s 0

theorem classNameLoopT_out (value : Str) : ∀ (fuel index : Nat), (classNameLoopT value fuel index).out = classNameLoop value fuel index
  | 0, _ => rfl
  | fuel + 1, index => by
    unfold classNameLoopT classNameLoop
    simp only [out_bind, out_tick, out_free, res_bind_ok, segmentT_out]
    congr 1; funext tail
    congr 1; funext r
    rcases r with ⟨seg, _ | c⟩
    · rfl
    · dsimp only
      split; · rfl
      split; · exact classNameLoopT_out value fuel _
      rfl

theorem tryFromT_out (s : Str) : (ClassName.tryFromT s).out = ClassName.tryFrom s := by
  unfold ClassName.tryFromT ClassName.tryFrom
  simp [classNameLoopT_out]

theorem classLoopT_out (data : Str) (index : Nat) : ∀ (fuel next : Nat), (classDescriptorLoopT data index fuel next).out = classDescriptorLoop data index fuel next
  | 0, _ => rfl
  | fuel + 1, next => by
    unfold classDescriptorLoopT classDescriptorLoop
    simp only [out_bind, out_tick, out_free, res_bind_ok, segmentT_out]
    congr 1; funext tail
    congr 1; funext r
    rcases r with ⟨seg, _ | c⟩
    · rfl
    · dsimp only
      split; · simp [res_bind_ok]
      split; · exact classLoopT_out data index fuel _
      rfl

theorem classT_out (data : Str) (i : Nat) : (parseClassDescriptorT data i).out = parseClassDescriptor data i := classLoopT_out data i _ _

theorem fieldTypeT_out (data : Str) (i : Nat) (c : Char) : (fieldTypeT data i c).out = parseTypeArm data i c := by
  unfold fieldTypeT parseTypeArm
  repeat (split; · first | rfl | simp [classT_out])
  rfl

theorem fieldLoopT_out (data : Str) (index : Nat) : ∀ (s : Str) (n : Nat), (parseFieldDescriptorLoopT data index n s).out = parseFieldDescriptorLoop data index n s
  | [], _ => rfl
  | c :: rest, n => by
    by_cases hc : c = '['
    · subst hc
      unfold parseFieldDescriptorLoopT parseFieldDescriptorLoop
      simp only [out_bind, out_tick, res_bind_ok, beq_self_eq_true, if_true]
      split; · rfl
      exact fieldLoopT_out data index rest _
    · rw [parseFieldDescriptorLoop_cons _ _ _ _ _ hc]
      unfold parseFieldDescriptorLoopT
      simp only [out_bind, out_tick, res_bind_ok, beq_iff_eq, if_neg hc, fieldTypeT_out, out_free]

theorem fieldT_out (data : Str) (i : Nat) : (parseFieldDescriptorT data i).out = parseFieldDescriptor data i := by
  unfold parseFieldDescriptorT parseFieldDescriptor
  simp [fieldLoopT_out]

theorem returnT_out (data : Str) (i : Nat) : (parseReturnDescriptorT data i).out = parseReturnDescriptor data i := by
  unfold parseReturnDescriptorT parseReturnDescriptor
  simp only [out_bind, out_tick, out_free, res_bind_ok]
  congr 1; funext tail
  split; · rfl
  simp [fieldT_out]

theorem parametersT_out (data : Str) (bytes : Bytes) : ∀ (fuel i : Nat), (parametersLoopT data bytes fuel i).out = parametersLoop data bytes fuel i
  | 0, _ => rfl
  | fuel + 1, i => by
    unfold parametersLoopT parametersLoop
    simp only [out_bind, out_tick, res_bind_ok]
    split; · rfl
    simp only [out_bind, fieldT_out, parametersT_out data bytes fuel, out_free]

theorem methodT_out (data : Str) (i : Nat) : (parseMethodDescriptorT data i).out = parseMethodDescriptor data i := by
  unfold parseMethodDescriptorT parseMethodDescriptor
  dsimp only
  split; · rfl
  simp only [out_bind, parametersT_out, returnT_out, out_free]

theorem arrayT_out (data : Str) : (parseArrayDescriptorT data).out = parseArrayDescriptor data := by
  unfold parseArrayDescriptorT parseArrayDescriptor
  split; · rfl
  simp only [out_bind, fieldT_out]
  congr 1; funext d
  split <;> rfl

theorem isFieldT_out (s : Str) : (isFieldDescriptorT s).out = isFieldDescriptor s := by
  unfold isFieldDescriptorT lenMatchesT isFieldDescriptor
  rw [fieldT_out]

theorem isArrayT_out (s : Str) : (isArrayDescriptorT s).out = isArrayDescriptor s := by
  unfold isArrayDescriptorT isArrayDescriptor
  simp only [out_bind, isFieldT_out]
  congr 1; funext b
  cases b <;> simp

theorem isMethodT_out (s : Str) : (isMethodDescriptorT s).out = isMethodDescriptor s := by
  unfold isMethodDescriptorT lenMatchesT isMethodDescriptor addUpT
  simp only [out_bind, methodT_out, out_tick, out_free, res_bind_ok]
  cases parseMethodDescriptor s 0 <;> rfl

theorem peelT_out (pool : Pool) (r : CPRef) : (peelT pool r).out = peel pool r := by
  unfold peelT; simp [res_bind_ok]

theorem ensureTypeT_out (pool : Pool) (x : CPRef) (a : UInt32) : (x.ensureTypeT pool a).out = x.ensureType pool a := by
  unfold CPRef.ensureTypeT CPRef.ensureType; simp [peelT_out]

theorem classinfoNameT_out (e : Entry) : e.validateClassinfoNameT.out = e.validateClassinfoName := by
  unfold Entry.validateClassinfoNameT Entry.validateClassinfoName
  simp only [out_bind, out_free, isBinaryNameT_out, res_bind_ok]
  congr 1; funext x
  cases isBinaryName x <;> simp [isArrayT_out]

theorem binaryNameT_out (e : Entry) : e.validateBinaryNameT.out = e.validateBinaryName := by
  unfold Entry.validateBinaryNameT Entry.validateBinaryName
  simp only [out_bind, out_free, isBinaryNameT_out, res_bind_ok]

theorem unqualifiedNameT_out (e : Entry) : e.validateUnqualifiedNameT.out = e.validateUnqualifiedName := by
  unfold Entry.validateUnqualifiedNameT Entry.validateUnqualifiedName
  simp only [out_bind, out_free, isUnqualifiedNameT_out, res_bind_ok]
  congr 1; funext x
  cases isUnqualifiedName x <;> simp [isUnqualifiedMethodNameT_out, res_bind_ok, okIf]

theorem moduleNameT_out (e : Entry) : e.validateModuleNameT.out = e.validateModuleName := by
  unfold Entry.validateModuleNameT Entry.validateModuleName
  simp only [out_bind, out_free, isModuleNameT_out, res_bind_ok]

theorem validateFieldT_out (pool : Pool) (e : Entry) : (e.validateFieldDescriptorT pool).out = e.validateFieldDescriptor pool := by
  unfold Entry.validateFieldDescriptorT Entry.validateFieldDescriptor
  cases e <;> simp [peelT_out, isFieldT_out]

theorem validateMethodT_out (pool : Pool) : ∀ (d : Nat) (e : Entry), (e.validateMethodDescriptorT pool d).out = e.validateMethodDescriptor pool d
  | 0, _ => rfl
  | d + 1, e => by
    unfold Entry.validateMethodDescriptorT Entry.validateMethodDescriptor
    cases e <;> simp [peelT_out, isMethodT_out, validateMethodT_out pool d]

theorem validateT_out (d : Nat) (pool : Pool) (major : UInt16) (e : Entry) : (e.validateT d pool major).out = e.validate d pool major := by
  unfold Entry.validateT Entry.validate
  cases e <;> simp [peelT_out, ensureTypeT_out, classinfoNameT_out, binaryNameT_out, unqualifiedNameT_out, moduleNameT_out, validateFieldT_out, validateMethodT_out]

theorem validateFromT_out (d : Nat) (pool : Pool) (major : UInt16) : ∀ (es : List Entry) (i : Nat), (validateFromT d pool major i es).out = validateFrom d pool major i es
  | [], _ => rfl
  | e :: es, i => by
    unfold validateFromT validateFrom
    simp only [out_bind, out_tick, res_bind_ok, out_mapErr, validateT_out, validateFromT_out d pool major es]

end Cafebabe
