import Verif.Spec.BytecodeTrail
import Verif.Proofs.PanicsCode
import Verif.Proofs.TrailBase
/-!
# Proofs: which instruction an error in the code is about
-/

namespace Cafebabe
open Spec

/-! ## Code that is cut off -/

def CutAt (code : Bytes) (start : Nat) (e : ParseError) : Prop :=
  ∃ (what : String) (size N : Nat), (what, size) ∈ numberNames ∧ start < N ∧ N < code.length + 4 ∧ code.length < N + size ∧
    e = ⟨s!"Unexpected end of stream reading {what} at index {N}", []⟩

theorem CutAt.says {checks : Bool} {pool : Pool} {code : Bytes} {start : Nat} {e : ParseError} (h : CutAt code start e) (hs : start < code.length) :
    InsnSays checks pool start (code.drop start) e := by
  obtain ⟨what, size, N, h1, h2, h3, h4, rfl⟩ := h
  refine .cut ?_ h1 h2 ?_ ?_
  · simpa using hs
  · simp; omega
  · simp; omega

/-- The only errors of `p` are about the end of the code. -/
def Cuts {α : Type} (p : P α) : Prop := ∀ (code : Bytes) (start ix : Nat), start < ix → ix < code.length + 4 →
  (∀ e, p code ix = .err e → CutAt code start e) ∧ ∀ a ix', p code ix = .ok (a, ix') → start < ix' ∧ ix' < code.length + 4

theorem Cuts.pure {α : Type} (a : α) : Cuts (Pure.pure a : P α) := fun code start ix h1 h2 =>
  ⟨fun e h => (by cases h), fun b ix' h => by cases h; exact ⟨h1, h2⟩⟩

theorem Cuts.bind {α β : Type} {p : P α} {f : α → P β} (hp : Cuts p) (hf : ∀ a, Cuts (f a)) : Cuts (p >>= f) := by
  intro code start ix h1 h2
  obtain ⟨he, ho⟩ := hp code start ix h1 h2
  constructor
  · intro e h
    rcases P.bind_errs.mp h with h | ⟨a, ix', ha, h⟩
    · exact he e h
    · obtain ⟨h3, h4⟩ := ho a ix' ha
      exact (hf a code start ix' h3 h4).1 e h
  · intro b ix'' h
    obtain ⟨a, ix', ha, h⟩ := P.bind_ok.mp h
    obtain ⟨h3, h4⟩ := ho a ix' ha
    exact (hf a code start ix' h3 h4).2 b ix'' h

theorem readU1_err {code : Bytes} {ix : Nat} {e : ParseError} (h : readU1 code ix = .err e) :
    code.length < ix + 1 ∧ e = ⟨s!"Unexpected end of stream reading u1 at index {ix}", []⟩ := by
  unfold readU1 at h
  split at h
  · cases h; exact ⟨by omega, rfl⟩
  · exact absurd h (Quiet.bind (Quiet.byteAt _ _) (fun _ => Quiet.ok _) e)

theorem readU2_err {code : Bytes} {ix : Nat} {e : ParseError} (h : readU2 code ix = .err e) :
    code.length < ix + 2 ∧ e = ⟨s!"Unexpected end of stream reading u2 at index {ix}", []⟩ := by
  unfold readU2 at h
  split at h
  · cases h; exact ⟨by omega, rfl⟩
  · exact absurd h (Quiet.bind (Quiet.byteAt _ _) (fun _ => Quiet.bind (Quiet.byteAt _ _) fun _ => Quiet.ok _) e)

theorem readU4_err {code : Bytes} {ix : Nat} {e : ParseError} (h : readU4 code ix = .err e) :
    code.length < ix + 4 ∧ e = ⟨s!"Unexpected end of stream reading u4 at index {ix}", []⟩ := by
  unfold readU4 at h
  split at h
  · cases h; exact ⟨by omega, rfl⟩
  · exact absurd h (Quiet.bind (Quiet.byteAt _ _) (fun _ => Quiet.bind (Quiet.byteAt _ _) fun _ => Quiet.bind (Quiet.byteAt _ _) fun _ =>
      Quiet.bind (Quiet.byteAt _ _) fun _ => Quiet.ok _) e)

theorem read_bounds {α : Type} {p : P α} {F : α → Lang} {k : Nat} (hx : ∀ N, Exact N p F) (hk : ∀ a s, F a s → s.length = k)
    {code : Bytes} {ix ix' : Nat} {a : α} (hix : ix ≤ code.length) (h : p code ix = .ok (a, ix')) : ix' = ix + k ∧ ix' ≤ code.length := by
  obtain ⟨seg, rest, hd, hF, rfl⟩ := (hx (code.length + 1) code ix hix (by omega) a ix').mp h
  have := length_of_drop_eq hix hd
  have := hk a seg hF
  omega

theorem Cuts.readU1 : Cuts Cafebabe.readU1 := by
  intro code start ix h1 h2
  refine ⟨fun e h => ?_, fun a ix' h => ?_⟩
  · obtain ⟨h3, rfl⟩ := readU1_err h
    exact ⟨"u1", 1, ix, by simp [numberNames], h1, h2, h3, rfl⟩
  · have hix : ix ≤ code.length := by
      unfold Cafebabe.readU1 at h
      split at h
      · cases h
      · omega
    have := read_bounds (k := 1) (fun N => Exact.readU1) (fun a s (h : s = u1 a) => by rw [h]; rfl) hix h
    omega

theorem Cuts.readU2 : Cuts Cafebabe.readU2 := by
  intro code start ix h1 h2
  refine ⟨fun e h => ?_, fun a ix' h => ?_⟩
  · obtain ⟨h3, rfl⟩ := readU2_err h
    exact ⟨"u2", 2, ix, by simp [numberNames], h1, h2, h3, rfl⟩
  · have hix : ix ≤ code.length := by
      unfold Cafebabe.readU2 at h
      split at h
      · cases h
      · omega
    have := read_bounds (k := 2) (fun N => Exact.readU2) (fun a s (h : s = u2 a) => by rw [h]; rfl) hix h
    omega

theorem Cuts.readU4 : Cuts Cafebabe.readU4 := by
  intro code start ix h1 h2
  refine ⟨fun e h => ?_, fun a ix' h => ?_⟩
  · obtain ⟨h3, rfl⟩ := readU4_err h
    exact ⟨"u4", 4, ix, by simp [numberNames], h1, h2, h3, rfl⟩
  · have hix : ix ≤ code.length := by
      unfold Cafebabe.readU4 at h
      split at h
      · cases h
      · omega
    have := read_bounds (k := 4) (fun N => Exact.readU4) (fun a s (h : s = u4 a) => by rw [h]; rfl) hix h
    omega

theorem Cuts.readI4 : Cuts Cafebabe.readI4 := Cuts.bind Cuts.readU4 fun _ => Cuts.pure _

theorem Cuts.forRangeFrom {α : Type} {f : Nat → P α} (hf : ∀ i, Cuts (f i)) : ∀ n i : Nat, Cuts (P.forRangeFrom f i n)
  | 0, _ => Cuts.pure []
  | n + 1, i => Cuts.bind (hf i) fun x => Cuts.bind (Cuts.forRangeFrom hf n (i + 1)) fun xs => Cuts.pure (x :: xs)

/-! ## What is said about constants -/

/-- All errors are one of the complaints, without a context. -/
def Complains {α : Type} (L : List String) (r : Res α) : Prop := ∀ e, r = .err e → e.contexts = [] ∧ e.msg ∈ L

theorem Complains.bind {α β : Type} {L : List String} {r : Res α} {f : α → Res β} (hr : Complains L r) (hf : ∀ a, Complains L (f a)) :
    Complains L (r >>= f) := by
  intro e h
  cases r with
  | ok a => exact hf a e h
  | panic k => cases h
  | diverge => cases h
  | err e' => cases h; exact hr _ rfl

theorem Complains.ok {α : Type} {L : List String} (a : α) : Complains L (.ok a : Res α) := fun _ h => by cases h
theorem Complains.panic {α : Type} {L : List String} (k : PanicKind) : Complains L (.panic k : Res α) := fun _ h => by cases h
theorem Complains.diverge {α : Type} {L : List String} : Complains L (.diverge : Res α) := fun _ h => by cases h
theorem Complains.fail {α : Type} {L : List String} {m : String} (h : m ∈ L) : Complains L (Res.fail m : Res α) := fun _ he => by cases he; exact ⟨rfl, h⟩
theorem Complains.ite {α : Type} {L : List String} {c : Prop} [Decidable c] {r q : Res α} (h1 : Complains L r) (h2 : Complains L q) :
    Complains L (if c then r else q) := by
  split
  · exact h1
  · exact h2

theorem Complains.of_quiet {α : Type} {L : List String} {r : Res α} (h : Quiet r) : Complains L r := fun e he => absurd he (h e)

theorem quiet_peel (pool : Pool) (x : CPRef) : Quiet (peel pool x) := by
  unfold peel
  cases x with
  | unresolved _ => exact fun _ h => by cases h
  | resolved i =>
    show Quiet (match pool[i]? with | some e => Res.ok e | none => .panic .dangling)
    cases pool[i]? <;> exact fun _ h => by cases h

theorem quiet_getUtf8 (e : Entry) : Quiet e.getUtf8 := by
  cases e <;> exact fun _ h => by cases h

theorem quiet_peelUtf8 (pool : Pool) (x : CPRef) : Quiet (peelUtf8 pool x) := Quiet.bind (quiet_peel _ _) fun _ => quiet_getUtf8 _

theorem quiet_stringLiteral (pool : Pool) (x : CPRef) : Quiet (peelStringLiteral pool x) :=
  Quiet.bind (quiet_peel _ _) fun e => by cases e <;> exact fun _ h => by cases h

theorem quiet_classinfo (pool : Pool) (x : CPRef) : Quiet (peelClassinfo pool x) :=
  Quiet.bind (quiet_peel _ _) fun e => by
    cases e
    case classInfo => exact quiet_peelUtf8 _ _
    all_goals exact fun _ h => by cases h

theorem quiet_nat (pool : Pool) (x : CPRef) : Quiet (peelNameAndType pool x) :=
  Quiet.bind (quiet_peel _ _) fun e => by
    cases e
    case nameAndType => exact Quiet.bind (quiet_peelUtf8 _ _) fun _ => Quiet.bind (quiet_peelUtf8 _ _) fun _ => Quiet.ok _
    all_goals exact fun _ h => by cases h

theorem quiet_memberRef (pool : Pool) (c m : CPRef) : Quiet (makeMemberRef pool c m) :=
  Quiet.bind (quiet_classinfo _ _) fun _ => Quiet.bind (quiet_nat _ _) fun _ => Quiet.ok _

theorem quiet_dynamic (pool : Pool) (x : UInt16) (y : CPRef) : Quiet (makeDynamic pool x y) := Quiet.bind (quiet_nat _ _) fun _ => Quiet.ok _

theorem quiet_handleFrom (pool : Pool) (x : ReferenceKind) (k : MemberKind) (c m : CPRef) : Quiet (makeHandleFrom pool x k c m) :=
  Quiet.bind (quiet_classinfo _ _) fun _ => Quiet.bind (quiet_nat _ _) fun _ => Quiet.ok _

theorem handle_complains (pool : Pool) (x : ReferenceKind) (y : CPRef) : Complains kindComplaints (makeMethodHandle pool x y) :=
  Complains.bind (.of_quiet (quiet_peel _ _)) fun e => by
    cases e
    case fieldRef | methodRef | interfaceMethodRef => exact .of_quiet (quiet_handleFrom _ _ _ _ _)
    all_goals exact .fail (by decide)

theorem Complains.mono {α : Type} {L M : List String} {r : Res α} (h : Complains L r) (hs : ∀ m ∈ L, m ∈ M) : Complains M r :=
  fun e he => ⟨(h e he).1, hs _ (h e he).2⟩

theorem strFrom_quiet : ∀ (s : Str) (i : Nat), Quiet (strFrom s i)
  | s, 0 => by cases s <;> exact fun _ h => by cases h
  | [], _ + 1 => fun _ h => by cases h
  | c :: s, i + 1 => by
    unfold strFrom
    split
    · exact strFrom_quiet s _
    · exact fun _ h => by cases h

theorem strTo_quiet : ∀ (s : Str) (i : Nat), Quiet (strTo s i)
  | s, 0 => by cases s <;> exact fun _ h => by cases h
  | [], _ + 1 => fun _ h => by cases h
  | c :: s, i + 1 => by
    unfold strTo
    split
    · exact Quiet.bind (strTo_quiet s _) fun _ => Quiet.ok _
    · exact fun _ h => by cases h

theorem strSlice_quiet (s : Str) (i j : Nat) : Quiet (strSlice s i j) := by
  unfold strSlice
  split
  · exact Quiet.bind (strFrom_quiet _ _) fun _ => strTo_quiet _ _
  · exact fun _ h => by cases h

theorem segment_complains (data : Str) : ∀ (l : Str) (ix : Nat), Complains descriptorComplaints (parseUnqualifiedSegmentAux data ix l)
  | [], _ => .ok _
  | c :: l, ix => by
    unfold parseUnqualifiedSegmentAux
    refine .ite (.fail (by decide)) (.ite (.fail (by decide)) (.ite ?_ (.ite (.fail (by decide)) (segment_complains data l _))))
    exact .bind (.of_quiet (strSlice_quiet _ _ _)) fun _ => .ok _

theorem classDescriptor_complains (data : Str) (index : Nat) : ∀ fuel next : Nat, Complains descriptorComplaints (classDescriptorLoop data index fuel next)
  | 0, _ => .diverge
  | fuel + 1, next => by
    unfold classDescriptorLoop
    refine .bind (.of_quiet (strFrom_quiet _ _)) fun tail => .bind (segment_complains _ _ _) fun x => ?_
    obtain ⟨seg, _ | c⟩ := x
    · exact .fail (by decide)
    · refine .ite (.bind (.of_quiet (strSlice_quiet _ _ _)) fun _ => .ok _) (.ite (classDescriptor_complains data index fuel _) (.panic _))

theorem fieldDescriptor_complains (data : Str) (index : Nat) : ∀ (l : Str) (d : Nat), Complains descriptorComplaints (parseFieldDescriptorLoop data index d l)
  | [], _ => .fail (by decide)
  | c :: l, d => by
    unfold parseFieldDescriptorLoop
    refine .ite (.ite (.fail (by decide)) (fieldDescriptor_complains data index l _)) ?_
    have k : ∀ t : FieldType, Complains descriptorComplaints (Res.ok t >>= fun t => Res.ok { dimensions := UInt8.ofNat d, fieldType := t : FieldDescriptor }) :=
      fun t => .bind (.ok _) fun _ => .ok _
    refine .ite (k _) (.ite (k _) (.ite (k _) (.ite (k _) (.ite (k _) (.ite (k _) (.ite (k _) (.ite (k _) (.ite ?_ ?_))))))))
    · exact .bind (classDescriptor_complains _ _ _ _) fun _ => k _
    · exact .bind (.fail (by decide)) fun _ => .ok _

theorem arrayDescriptor_complains (s : Str) : Complains descriptorComplaints (parseArrayDescriptor s) := by
  unfold parseArrayDescriptor
  refine .ite (.ok _) (.bind (.bind (.of_quiet (strFrom_quiet _ _)) fun _ => fieldDescriptor_complains _ _ _ _) fun d => .ite (.fail (by decide)) (.ok _))

theorem poolAt_quiet (pool : Pool) (i : Nat) : Quiet (poolAt pool i) := by
  unfold poolAt
  cases pool[i]? <;> exact fun _ h => by cases h

theorem loadable_says {pool : Pool} {i : Nat} {e : ParseError} (h : getCpLoadable i pool = .err e) : ConstantSays pool i e := by
  unfold getCpLoadable at h
  split at h
  · cases h; exact ⟨rfl, .inl ⟨by omega, rfl⟩⟩
  · rename_i hlt
    have : Complains kindComplaints (poolAt pool i >>= fun x => (match x with
        | .integer v => .ok (.literalConstant (.integer v))
        | .float v => .ok (.literalConstant (.float v))
        | .long v => .ok (.literalConstant (.long v))
        | .double v => .ok (.literalConstant (.double v))
        | .string v => do
          let l ← peelStringLiteral pool v
          .ok (.literalConstant l)
        | .classInfo x => do
          let s ← peelUtf8 pool x
          .ok (.classInfo s)
        | .methodHandle x y => do
          let h ← makeMethodHandle pool x y
          .ok (.methodHandle h)
        | .methodType x => do
          let s ← peelUtf8 pool x
          .ok (.methodType s)
        | .dynamic x y => do
          let d ← makeDynamic pool x y
          .ok (.dynamic d)
        | _ => Res.fail "Unexpected non-loadable constant pool reference found" : Res Loadable)) := by
      refine .bind (.of_quiet (poolAt_quiet _ _)) fun x => ?_
      cases x
      case integer | float | long | double => exact .ok _
      case string => exact .bind (.of_quiet (quiet_stringLiteral _ _)) fun _ => .ok _
      case classInfo | methodType => exact .bind (.of_quiet (quiet_peelUtf8 _ _)) fun _ => .ok _
      case methodHandle => exact .bind (handle_complains _ _ _) fun _ => .ok _
      case dynamic => exact .bind (.of_quiet (quiet_dynamic _ _ _)) fun _ => .ok _
      all_goals exact .fail (by decide)
    obtain ⟨h1, h2⟩ := this e h
    exact ⟨h1, .inr ⟨by omega, List.mem_append_left _ h2⟩⟩

/-- All errors of `p` are one of the complaints, without a context. -/
def PComplains {α : Type} (p : P α) : Prop := ∀ code ix, Complains (kindComplaints ++ descriptorComplaints) (p code ix)

theorem PComplains.lift {α : Type} {r : Res α} (h : Complains (kindComplaints ++ descriptorComplaints) r) : PComplains (P.lift r) := by
  intro code ix e he
  unfold P.lift at he
  cases r with
  | ok a => cases he
  | err e' => cases he; exact h _ rfl
  | panic k => cases he
  | diverge => cases he

theorem PComplains.quiet {α : Type} {r : Res α} (h : Quiet r) : PComplains (P.lift r) := .lift (.of_quiet h)

theorem PComplains.bind {α β : Type} {p : P α} {f : α → P β} (hp : PComplains p) (hf : ∀ a, PComplains (f a)) : PComplains (p >>= f) := by
  intro code ix e h
  rcases P.bind_errs.mp h with h | ⟨a, ix', -, h⟩
  · exact hp code ix e h
  · exact hf a code ix' e h

theorem PComplains.pure {α : Type} (a : α) : PComplains (Pure.pure a : P α) := fun _ _ _ h => by cases h
theorem PComplains.bad {α : Type} : PComplains (badType : P α) := fun _ _ _ h => by cases h; exact ⟨rfl, by decide⟩

theorem member_complains (pool : Pool) (allowed : UInt32) (x : Entry) : PComplains (do
    P.lift (x.ensureType allowed)
    match x with
    | .fieldRef c m => P.lift (makeMemberRef pool c m)
    | .methodRef c m => P.lift (makeMemberRef pool c m)
    | .interfaceMethodRef c m => P.lift (makeMemberRef pool c m)
    | _ => badType : P MemberRef) := by
  refine .bind (.lift (.ite (.ok _) (.fail (by decide)))) fun _ => ?_
  cases x
  case fieldRef | methodRef | interfaceMethodRef => exact .quiet (quiet_memberRef _ _ _)
  all_goals exact .bad

theorem dynamic_complains (pool : Pool) (x : Entry) : PComplains (match x with
    | .invokeDynamic x y => P.lift (makeDynamic pool x y)
    | _ => badType : P DynamicRef) := by
  cases x
  case invokeDynamic => exact .quiet (quiet_dynamic _ _ _)
  all_goals exact .bad

theorem classinfo_complains (pool : Pool) (x : Entry) : PComplains (match x with
    | .classInfo x => P.lift (peelUtf8 pool x)
    | _ => badType : P Str) := by
  cases x
  case classInfo => exact .quiet (quiet_peelUtf8 _ _)
  all_goals exact .bad

theorem objectType_complains (pool : Pool) (x : Entry) : PComplains (match x with
    | .classInfo x => do
      let name ← P.lift (peelUtf8 pool x)
      match ← P.lift (parseArrayDescriptor name) with
      | some desc => pure (.arrayType desc)
      | none => pure (.binaryName name)
    | _ => badType : P ObjectArrayType) := by
  cases x
  case classInfo =>
    refine .bind (.quiet (quiet_peelUtf8 _ _)) fun name => .bind (.lift ((arrayDescriptor_complains _).mono fun m => List.mem_append_right _)) fun d => ?_
    cases d <;> exact .pure _
  all_goals exact .bad

/-! ## Constants -/

/-- A reader of a constant fails because the index is cut off or because no suitable constant has this index. -/
theorem ref_err {α : Type} {pool : Pool} {f : Entry → P α} {At : Nat → α → Prop} (hx : ∀ N, Exact N (readCpRefAny pool >>= f) (fun a => ref fun i => At i a))
    (hf : ∀ en, PComplains (f en)) {code : Bytes} {ix : Nat} {e : ParseError} (hix : ix ≤ code.length)
    (h : (readCpRefAny pool >>= f) code ix = .err e) : readU2 code ix = .err e ∨
      ∃ (i : UInt16) (rest : Bytes), code.drop ix = u2 i ++ rest ∧ (∀ a, ¬ At i.toNat a) ∧ ConstantSays pool i.toNat e := by
  have hno : ∀ (i : UInt16) (rest : Bytes), code.drop ix = u2 i ++ rest → ∀ a, ¬ At i.toNat a := by
    intro i rest hd a ha
    rw [(hx (code.length + 1) code ix hix (by omega) a _).mpr ⟨_, rest, hd, ⟨i, ha, rfl⟩, rfl⟩] at h
    cases h
  have hstep : ∀ (i : UInt16) (ix' : Nat), readU2 code ix = .ok (i, ix') → ∃ rest, code.drop ix = u2 i ++ rest := by
    intro i ix' hr
    obtain ⟨seg, rest, hd, rfl, rfl⟩ := (Exact.readU2 (N := code.length + 1) code ix hix (by omega) i ix').mp hr
    exact ⟨rest, hd⟩
  rcases P.bind_errs.mp h with h | ⟨en, ix', hen, h⟩
  · unfold readCpRefAny at h
    rcases P.bind_errs.mp h with h | ⟨i, ix1, hi, h⟩
    · exact .inl h
    · obtain ⟨rest, hd⟩ := hstep i ix1 hi
      refine .inr ⟨i, rest, hd, hno i rest hd, ?_⟩
      split at h
      · cases h
        exact ⟨rfl, .inl ⟨by omega, rfl⟩⟩
      · exact absurd (by
          unfold P.lift at h
          cases hp : poolAt pool i.toNat with
          | err e' => rw [hp] at h; cases h; rfl
          | ok a => rw [hp] at h; cases h
          | panic k => rw [hp] at h; cases h
          | diverge => rw [hp] at h; cases h) (poolAt_quiet pool i.toNat e)
  · unfold readCpRefAny at hen
    obtain ⟨i, ix1, hi, hen⟩ := P.bind_ok.mp hen
    obtain ⟨rest, hd⟩ := hstep i ix1 hi
    obtain ⟨h1, h2⟩ := hf en code ix' e h
    refine .inr ⟨i, rest, hd, hno i rest hd, h1, .inr ⟨?_, h2⟩⟩
    split at hen
    · cases hen
    · omega

/-! ## Single steps -/

theorem stepU1 {code : Bytes} {ix ix' : Nat} {v : UInt8} (h : readU1 code ix = .ok (v, ix')) :
    ix' = ix + 1 ∧ ix + 1 ≤ code.length ∧ code.drop ix = v :: code.drop (ix + 1) := by
  have hix : ix ≤ code.length := by
    unfold Cafebabe.readU1 at h
    split at h
    · cases h
    · omega
  obtain ⟨seg, rest, hd, rfl, rfl⟩ := (Exact.readU1 (N := code.length + 1) code ix hix (by omega) v ix').mp h
  have := length_of_drop_eq hix hd
  have hu : (u1 v).length = 1 := rfl
  exact ⟨rfl, by omega, by rw [hd, show code.drop (ix + 1) = rest from drop_of_drop_eq hd]; rfl⟩

theorem stepU2 {code : Bytes} {ix ix' : Nat} {v : UInt16} (h : readU2 code ix = .ok (v, ix')) :
    ix' = ix + 2 ∧ ix + 2 ≤ code.length ∧ code.drop ix = u2 v ++ code.drop (ix + 2) := by
  have hix : ix ≤ code.length := by
    unfold Cafebabe.readU2 at h
    split at h
    · cases h
    · omega
  obtain ⟨seg, rest, hd, rfl, rfl⟩ := (Exact.readU2 (N := code.length + 1) code ix hix (by omega) v ix').mp h
  have := length_of_drop_eq hix hd
  have hu : (u2 v).length = 2 := rfl
  exact ⟨rfl, by omega, by rw [hd, show code.drop (ix + 2) = rest from drop_of_drop_eq hd]⟩

theorem stepI4 {code : Bytes} {ix ix' : Nat} {v : Int32} (h : readI4 code ix = .ok (v, ix')) :
    ix' = ix + 4 ∧ ix + 4 ≤ code.length ∧ code.drop ix = s4 v ++ code.drop (ix + 4) := by
  have hix : ix ≤ code.length := by
    by_contra hn
    obtain ⟨e, he⟩ := readI4_past code ix (by omega)
    rw [he] at h; cases h
  obtain ⟨seg, rest, hd, rfl, rfl⟩ := (readI4_exact (N := code.length + 1) code ix hix (by omega) v ix').mp h
  have := length_of_drop_eq hix hd
  have hu : (s4 v).length = 4 := rfl
  exact ⟨rfl, by omega, by rw [hd, show code.drop (ix + 4) = rest from drop_of_drop_eq hd]⟩

theorem jumpSpan_negative {checks : Bool} {low high span : Int32} (hle : ¬ low > high) (h : jumpSpan checks low high = .ok span)
    (hn : span.toInt < 0) : checks = false ∧ 2147483648 ≤ high.toInt - low.toInt + 1 := by
  have hle : low.toInt ≤ high.toInt := by
    by_contra hc
    exact hle (Int32.lt_iff_toInt_lt.mpr (by omega))
  have l1 := int32_low low; have h1 := int32_high low
  have l2 := int32_low high; have h2 := int32_high high
  have hsub : (high - low).toInt = (high.toInt - low.toInt).bmod 4294967296 := Int32.toInt_sub ..
  have hadd : (high - low + 1).toInt = ((high - low).toInt + 1).bmod 4294967296 := Int32.toInt_add ..
  have bm : ∀ x : Int, x.bmod 4294967296 = if x % 4294967296 < 2147483648 then x % 4294967296 else x % 4294967296 - 4294967296 := by
    intro x; rw [Int.bmod_def]; rfl
  rw [bm] at hsub hadd
  unfold jumpSpan at h
  split at h
  · cases h
  · split at h
    · cases h
    · rename_i ha hb
      cases h
      simp only [Bool.and_eq_true, Bool.or_eq_true, decide_eq_true_eq, not_and, not_or] at ha hb
      cases checks with
      | false =>
        refine ⟨rfl, ?_⟩
        split at hsub <;> split at hadd <;> omega
      | true =>
        exfalso
        have := ha rfl
        have := hb rfl
        split at hsub <;> split at hadd <;> omega

/-! ## The switches -/

theorem align_pad {code : Bytes} {ix : Nat} (h : ix ≤ code.length) (h' : alignUp4 ix ≤ code.length) :
    ∃ pad : Bytes, padding ix pad ∧ alignUp4 ix = ix + pad.length ∧ code.drop ix = pad ++ code.drop (alignUp4 ix) := by
  have hal : alignUp4 ix = ix + (alignUp4 ix - ix) ∧ alignUp4 ix - ix < 4 ∧ (ix + (alignUp4 ix - ix)) % 4 = 0 := by
    unfold alignUp4; omega
  obtain ⟨e, hlt, hmod⟩ := hal
  have hk : ((code.drop ix).take (alignUp4 ix - ix)).length = alignUp4 ix - ix := by simp; omega
  refine ⟨(code.drop ix).take (alignUp4 ix - ix), ⟨by omega, by rw [hk]; exact hmod⟩, by omega, ?_⟩
  have : code.drop (alignUp4 ix) = (code.drop ix).drop (alignUp4 ix - ix) := by rw [List.drop_drop, ← e]
  rw [this, List.take_append_drop]

section
variable {checks : Bool} {pool : Pool} {code : Bytes} {start : Nat} (hs : start < code.length)
include hs

theorem align_bounds : start < alignUp4 (start + 1) ∧ alignUp4 (start + 1) < code.length + 4 := by
  unfold alignUp4; omega

theorem tableswitch_says (hb : code.drop start = 0xaa :: code.drop (start + 1)) {e : ParseError}
    (h : readTableswitch checks code (start + 1) = .err e) : InsnSays checks pool start (code.drop start) e := by
  obtain ⟨hA1, hA2⟩ := align_bounds hs
  have hcut : ∀ {ix : Nat} {e : ParseError}, start < ix → ix < code.length + 4 → readI4 code ix = .err e →
      InsnSays checks pool start (code.drop start) e := fun h1 h2 he => ((Cuts.readI4 code start _ h1 h2).1 _ he).says hs
  unfold readTableswitch at h
  rcases P.bind_errs.mp h with h | ⟨⟨d, low, high, n⟩, ix', hh, h⟩
  · unfold tableswitchHeader at h
    change (readI4 >>= _) code (alignUp4 (start + 1)) = _ at h
    rcases P.bind_errs.mp h with h | ⟨d, ix1, h1, h⟩
    · exact hcut hA1 hA2 h
    obtain ⟨rfl, hl1, hd1⟩ := stepI4 h1
    rcases P.bind_errs.mp h with h | ⟨low, ix2, h2, h⟩
    · exact hcut (by omega) (by omega) h
    obtain ⟨rfl, hl2, hd2⟩ := stepI4 h2
    rcases P.bind_errs.mp h with h | ⟨high, ix3, h3, h⟩
    · exact hcut (by omega) (by omega) h
    obtain ⟨rfl, hl3, hd3⟩ := stepI4 h3
    obtain ⟨pad, hp, hA, hd0⟩ := align_pad (code := code) (ix := start + 1) hs (by omega)
    rw [hb, hd0, hd1, hd2, hd3]
    change (if low > high then _ else _ : P _) code _ = _ at h
    have hidx : alignUp4 (start + 1) + 4 + 4 + 4 - 4 = start + 1 + pad.length + 8 := by omega
    split at h
    · rename_i hgt
      cases h
      rw [hidx]
      exact .lowHigh hp (Int32.lt_iff_toInt_lt.mp hgt)
    · rename_i hgt
      rcases P.bind_errs.mp h with h | ⟨span, ix4, h4, h⟩
      · exfalso
        cases hj : jumpSpan checks low high with
        | err e' =>
          unfold jumpSpan at hj
          split at hj
          · cases hj
          · split at hj <;> cases hj
        | ok a => unfold P.lift at h; rw [hj] at h; cases h
        | panic k => unfold P.lift at h; rw [hj] at h; cases h
        | diverge => unfold P.lift at h; rw [hj] at h; cases h
      · have hsp : jumpSpan checks low high = .ok span := by
          unfold P.lift at h4
          cases hj : jumpSpan checks low high with
          | ok a => rw [hj] at h4; cases h4; rfl
          | err e => rw [hj] at h4; cases h4
          | panic k => rw [hj] at h4; cases h4
          | diverge => rw [hj] at h4; cases h4
        split at h
        · rename_i hneg
          cases h
          rw [hidx]
          obtain ⟨hc, hbig⟩ := jumpSpan_negative hgt hsp hneg
          exact .span hc hp hbig
        · cases h
  · have hix' : start < ix' ∧ ix' < code.length + 4 := by
      obtain ⟨seg, rest, hd, -, rfl⟩ := (tableswitchHeader_exact checks (start + 1) code hs _ _).mp hh
      have := length_of_drop_eq (Nat.succ_le_of_lt hs) hd
      omega
    exact (((Cuts.bind (Cuts.forRangeFrom (fun _ => Cuts.readI4) n 0) fun _ => Cuts.pure _) code start ix' hix'.1 hix'.2).1 e h).says hs

theorem lookupswitch_says (hb : code.drop start = 0xab :: code.drop (start + 1)) {e : ParseError}
    (h : readLookupswitch code (start + 1) = .err e) : InsnSays checks pool start (code.drop start) e := by
  obtain ⟨hA1, hA2⟩ := align_bounds hs
  have hcut : ∀ {ix : Nat} {e : ParseError}, start < ix → ix < code.length + 4 → readI4 code ix = .err e →
      InsnSays checks pool start (code.drop start) e := fun h1 h2 he => ((Cuts.readI4 code start _ h1 h2).1 _ he).says hs
  unfold readLookupswitch at h
  rcases P.bind_errs.mp h with h | ⟨⟨d, n⟩, ix', hh, h⟩
  · unfold lookupswitchHeader at h
    change (readI4 >>= _) code (alignUp4 (start + 1)) = _ at h
    rcases P.bind_errs.mp h with h | ⟨d, ix1, h1, h⟩
    · exact hcut hA1 hA2 h
    obtain ⟨rfl, hl1, hd1⟩ := stepI4 h1
    rcases P.bind_errs.mp h with h | ⟨n, ix2, h2, h⟩
    · exact hcut (by omega) (by omega) h
    obtain ⟨rfl, hl2, hd2⟩ := stepI4 h2
    obtain ⟨pad, hp, hA, hd0⟩ := align_pad (code := code) (ix := start + 1) hs (by omega)
    rw [hb, hd0, hd1, hd2]
    change (if n.toInt < 0 then _ else _ : P _) code _ = _ at h
    have hidx : alignUp4 (start + 1) + 4 + 4 - 4 = start + 1 + pad.length + 4 := by omega
    split at h
    · rename_i hneg
      cases h
      rw [hidx]
      exact .pairs hp hneg
    · cases h
  · have hix' : start < ix' ∧ ix' < code.length + 4 := by
      obtain ⟨seg, rest, hd, -, rfl⟩ := (lookupswitchHeader_exact (start + 1) code hs _ _).mp hh
      have := length_of_drop_eq (Nat.succ_le_of_lt hs) hd
      omega
    exact (((Cuts.bind (Cuts.forRangeFrom (fun _ => Cuts.bind Cuts.readI4 fun _ => Cuts.bind Cuts.readI4 fun _ => Cuts.pure _) n 0) fun _ =>
      Cuts.pure _) code start ix' hix'.1 hix'.2).1 e h).says hs

/-! ## The other instructions -/

omit hs in
theorem lift_err {α : Type} {r : Res α} {ix : Nat} {e : ParseError} (h : P.lift r code ix = .err e) : r = .err e := by
  unfold P.lift at h
  cases r with
  | ok a => cases h
  | err e' => cases h; rfl
  | panic k => cases h
  | diverge => cases h

theorem cuts_says {α : Type} {p : P α} (hp : Cuts p) {e : ParseError} {ix : Nat} (h1 : start < ix) (h2 : ix < code.length + 4) (h : p code ix = .err e) :
    InsnSays checks pool start (code.drop start) e := ((hp code start ix h1 h2).1 e h).says hs

/-- A constant after the opcode. -/
theorem ref_says {α : Type} {f : Entry → P α} {At : Nat → α → Prop} (hx : ∀ N, Exact N (readCpRefAny pool >>= f) (fun a => ref fun i => At i a))
    (hf : ∀ en, PComplains (f en)) {v : UInt8} (hb : code.drop start = v :: code.drop (start + 1))
    (hv : v ∈ constantOpcodes) (hat : ∀ i, SuitableConstant pool v i → ∃ a, At i a) {e : ParseError} (h : (readCpRefAny pool >>= f) code (start + 1) = .err e) :
    InsnSays checks pool start (code.drop start) e := by
  rcases ref_err hx hf hs h with h | ⟨i, rest, hd, hno, hsay⟩
  · exact cuts_says hs Cuts.readU2 (by omega) (by omega) h
  · rw [hb, hd]
    exact .constant hv (fun hc => (hat _ hc).elim fun a ha => hno a ha) hsay

/-- What follows a constant: it starts two bytes after the opcode. -/
theorem ref_next {α : Type} {p : P α} {At : Nat → α → Prop} (hx : ∀ N, Exact N p (fun a => ref fun i => At i a)) {a : α} {ix' : Nat}
    (h : p code (start + 1) = .ok (a, ix')) :
    ∃ i : UInt16, ix' = start + 3 ∧ start + 3 ≤ code.length ∧ code.drop (start + 1) = u2 i ++ code.drop (start + 3) := by
  obtain ⟨seg, rest, hd, ⟨i, -, rfl⟩, rfl⟩ := (hx (code.length + 1) code (start + 1) hs (by omega) a ix').mp h
  have := length_of_drop_eq (Nat.succ_le_of_lt hs) hd
  have hu : (u2 i).length = 2 := rfl
  have hr := drop_of_drop_eq hd
  rw [hu] at hr this ⊢
  exact ⟨i, rfl, by omega, by rw [hd, hr]⟩

end

/-- The opcodes of the forms with constants, and of the special forms. -/
def rowCheck (v : UInt8) : Shape → Bool
  | .load8 _ => v == 0x12
  | .load16 _ => v == 0x13 || v == 0x14
  | .member _ a => (v == 0xb2 || v == 0xb3 || v == 0xb4 || v == 0xb5) && a == EntryTypes.FIELD_REF || v == 0xb6 && a == EntryTypes.METHOD_REF ||
      (v == 0xb7 || v == 0xb8) && a == EntryTypes.NEW_METHOD_REFS
  | .objArray _ => v == 0xbd || v == 0xc0 || v == 0xc1
  | .tableswitch => v == 0xaa
  | .lookupswitch => v == 0xab
  | .invokeinterface => v == 0xb9
  | .invokedynamic => v == 0xba
  | .new => v == 0xbb
  | .newarray => v == 0xbc
  | .wide => v == 0xc4
  | .multianewarray => v == 0xc5
  | _ => true

theorem rows_shape {v : UInt8} {sh : Shape} (h : shapeOf v = some sh) : rowCheck v sh = true := by
  have : ∀ x ∈ opcodeTable, rowCheck x.1 x.2 = true := by decide +kernel
  exact this _ (lookup_mem h)

theorem shapeOf_none {v : UInt8} (h : shapeOf v = none) : 0xca < v.toNat ∧ v.toNat < 0xfe := by
  have : ∀ n : Fin 256, (shapeOf (UInt8.ofNat n)).isNone = true → 0xca < n.val ∧ n.val < 0xfe := by decide +kernel
  have hv : UInt8.ofNat v.toNat = v := by simp
  have := this ⟨v.toNat, v.toNat_lt⟩
  rw [hv, h] at this
  exact this rfl

theorem wideTable_none {v : UInt8} (h1 : (v == 0x84) = false) (h : wideTable.lookup v = none) : v ∉ wideOpcodes := by
  intro hm
  simp only [wideOpcodes, List.mem_cons, List.not_mem_nil, or_false] at hm
  rcases hm with rfl | rfl | rfl | rfl | rfl | rfl | rfl | rfl | rfl | rfl | rfl | rfl
  all_goals first | exact absurd h1 (by decide) | cases h

theorem readOpcode_says {checks : Bool} {pool : Pool} {code : Bytes} {start : Nat} (hs : start < code.length) {e : ParseError}
    (h : readOpcode checks pool code start = .err e) : InsnSays checks pool start (code.drop start) e := by
  unfold readOpcode at h
  rcases P.bind_errs.mp h with h | ⟨v, ix', hv, h⟩
  · have := (readU1_err h).1
    omega
  obtain ⟨rfl, -, hb⟩ := stepU1 hv
  cases hsh : shapeOf v with
  | none =>
    rw [hsh] at h
    obtain ⟨h1, h2⟩ := shapeOf_none hsh
    cases h
    rw [hb, show start + 1 - 1 = start from rfl]
    exact .opcode h1 h2
  | some sh =>
    rw [hsh] at h
    simp only at h
    have hrow := rows_shape hsh
    unfold rowCheck at hrow
    cases sh with
    | simple o => cases h
    | i8 f => exact cuts_says hs (Cuts.bind Cuts.readU1 fun _ => Cuts.pure _) (by omega) (by omega) h
    | i16 f => exact cuts_says hs (Cuts.bind Cuts.readU2 fun _ => Cuts.pure _) (by omega) (by omega) h
    | local8 f => exact cuts_says hs (Cuts.bind Cuts.readU1 fun _ => Cuts.pure _) (by omega) (by omega) h
    | branch16 f => exact cuts_says hs (Cuts.bind Cuts.readU2 fun _ => Cuts.pure _) (by omega) (by omega) h
    | branch32 f => exact cuts_says hs (Cuts.bind Cuts.readI4 fun _ => Cuts.pure _) (by omega) (by omega) h
    | iinc => exact cuts_says hs (Cuts.bind Cuts.readU1 fun _ => Cuts.bind Cuts.readU1 fun _ => Cuts.pure _) (by omega) (by omega) h
    | load8 f =>
      obtain rfl : v = 0x12 := by simpa using hrow
      rcases P.bind_errs.mp h with h | ⟨i, ix', hi, h⟩
      · exact cuts_says hs Cuts.readU1 (by omega) (by omega) h
      obtain ⟨rfl, -, hd⟩ := stepU1 hi
      rcases P.bind_errs.mp h with h | ⟨_, _, _, h⟩
      · rw [hb, hd]
        refine .ldc (fun hc => ?_) (loadable_says (lift_err h))
        cases hc with
        | load _ hl => rw [getCpLoadable_ok.mpr hl] at h; cases h
        | field hm _ | method hm _ | interfaceMethod hm _ | type hm _ => exact absurd hm (by decide)
      · cases h
    | load16 f =>
      have hrow : v = 0x13 ∨ v = 0x14 := by simpa using hrow
      rcases P.bind_errs.mp h with h | ⟨i, ix', hi, h⟩
      · exact cuts_says hs Cuts.readU2 (by omega) (by omega) h
      obtain ⟨rfl, -, hd⟩ := stepU2 hi
      rcases P.bind_errs.mp h with h | ⟨_, _, _, h⟩
      · rw [hb, hd]
        refine .constant (by rcases hrow with rfl | rfl <;> decide) (fun hc => ?_) (loadable_says (lift_err h))
        cases hc with
        | load _ hl => rw [getCpLoadable_ok.mpr hl] at h; cases h
        | field hm _ | method hm _ | interfaceMethod hm _ | type hm _ => rcases hrow with rfl | rfl <;> exact absurd hm (by decide)
        | dynamic _ | ofClass _ => rcases hrow with hr | hr <;> exact absurd hr (by decide)
      · cases h
    | member f allowed =>
      rcases P.bind_errs.mp h with h | ⟨_, _, _, h⟩
      · simp only [Bool.or_eq_true, Bool.and_eq_true, beq_iff_eq] at hrow
        refine ref_says hs (fun N => readCpMemberref_exact pool allowed) (member_complains pool allowed) hb ?_ ?_ h
        · rcases hrow with (⟨((rfl | rfl) | rfl) | rfl, -⟩ | ⟨rfl, -⟩) | ⟨rfl | rfl, -⟩ <;> decide
        · intro i hc
          cases hc with
          | field hm ha =>
            rcases hrow with (⟨-, rfl⟩ | ⟨rfl, -⟩) | ⟨rfl | rfl, -⟩
            · exact ⟨_, (memberMask_field _ _ _).mpr ha⟩
            all_goals exact absurd hm (by decide)
          | method hm ha =>
            rcases hrow with (⟨((rfl | rfl) | rfl) | rfl, -⟩ | ⟨-, rfl⟩) | ⟨-, rfl⟩
            · exact absurd hm (by decide)
            · exact absurd hm (by decide)
            · exact absurd hm (by decide)
            · exact absurd hm (by decide)
            · exact ⟨_, (memberMask_method _ _ _).mpr ha⟩
            · exact ⟨_, (memberMask_methods _ _ _).mpr (.inl ha)⟩
          | interfaceMethod hm ha =>
            rcases hrow with (⟨((rfl | rfl) | rfl) | rfl, -⟩ | ⟨rfl, -⟩) | ⟨-, rfl⟩
            · exact absurd hm (by decide)
            · exact absurd hm (by decide)
            · exact absurd hm (by decide)
            · exact absurd hm (by decide)
            · exact absurd hm (by decide)
            · exact ⟨_, (memberMask_methods _ _ _).mpr (.inr ha)⟩
          | load hm _ | type hm _ =>
            rcases hrow with (⟨((rfl | rfl) | rfl) | rfl, -⟩ | ⟨rfl, -⟩) | ⟨rfl | rfl, -⟩ <;> exact absurd hm (by decide)
          | dynamic _ | ofClass _ => simp at hrow
      · cases h
    | objArray f =>
      rcases P.bind_errs.mp h with h | ⟨_, _, _, h⟩
      · simp only [Bool.or_eq_true, beq_iff_eq] at hrow
        refine ref_says hs (fun N => readCpObjectArrayType_exact pool) (objectType_complains pool) hb ?_ ?_ h
        · rcases hrow with (rfl | rfl) | rfl <;> decide
        · intro i hc
          cases hc with
          | type hm ha => exact ⟨_, ha⟩
          | field hm _ | method hm _ | interfaceMethod hm _ | load hm _ => rcases hrow with (rfl | rfl) | rfl <;> exact absurd hm (by decide)
          | dynamic _ | ofClass _ => exact absurd hrow (by decide)
      · cases h
    | tableswitch =>
      obtain rfl : v = 0xaa := by simpa using hrow
      exact tableswitch_says hs hb h
    | lookupswitch =>
      obtain rfl : v = 0xab := by simpa using hrow
      exact lookupswitch_says hs hb h
    | invokeinterface =>
      obtain rfl : v = 0xb9 := by simpa using hrow
      change readInvokeinterface pool code (start + 1) = _ at h
      unfold readInvokeinterface at h
      rcases P.bind_errs.mp h with h | ⟨m, ix1, hm, h⟩
      · refine ref_says hs (fun N => readCpMemberref_exact pool _) (member_complains pool _) hb (by decide) (fun i hc => ?_) h
        cases hc with
        | interfaceMethod _ ha => exact ⟨_, (memberMask_imethod _ _ _).mpr ha⟩
        | field hm _ | method hm _ | type hm _ | load hm _ => exact absurd hm (by decide)
      obtain ⟨i, rfl, hl, hd⟩ := ref_next hs (fun N => readCpMemberref_exact pool _) hm
      rcases P.bind_errs.mp h with h | ⟨k, ix2, hk, h⟩
      · exact cuts_says hs Cuts.readU1 (by omega) (by omega) h
      obtain ⟨rfl, hl2, hd2⟩ := stepU1 hk
      rcases P.bind_errs.mp h with h | ⟨z, ix3, hz, h⟩
      · exact cuts_says hs Cuts.readU1 (by omega) (by omega) h
      obtain ⟨rfl, hl3, hd3⟩ := stepU1 hz
      change (if z != 0 then _ else _ : P _) code _ = _ at h
      split at h
      · rename_i hne
        cases h
        rw [hb, hd, hd2, hd3, show start + 3 + 1 + 1 - 1 = start + 4 from rfl]
        exact .invokeinterface (by simpa using hne)
      · cases h
    | invokedynamic =>
      obtain rfl : v = 0xba := by simpa using hrow
      change readInvokedynamic pool code (start + 1) = _ at h
      unfold readInvokedynamic at h
      rcases P.bind_errs.mp h with h | ⟨m, ix1, hm, h⟩
      · refine ref_says hs (fun N => readCpInvokedynamic_exact pool) (dynamic_complains pool) hb (by decide) (fun i hc => ?_) h
        cases hc with
        | dynamic ha => exact ⟨_, ha⟩
        | field hm _ | method hm _ | interfaceMethod hm _ | type hm _ | load hm _ => exact absurd hm (by decide)
      obtain ⟨i, rfl, hl, hd⟩ := ref_next hs (fun N => readCpInvokedynamic_exact pool) hm
      rcases P.bind_errs.mp h with h | ⟨z, ix2, hz, h⟩
      · exact cuts_says hs Cuts.readU2 (by omega) (by omega) h
      obtain ⟨rfl, hl2, hd2⟩ := stepU2 hz
      change (if z != 0 then _ else _ : P _) code _ = _ at h
      split at h
      · rename_i hne
        cases h
        rw [hb, hd, hd2, show start + 3 + 2 - 2 = start + 3 from rfl]
        exact .invokedynamic (by simpa using hne)
      · cases h
    | new =>
      obtain rfl : v = 0xbb := by simpa using hrow
      rcases P.bind_errs.mp h with h | ⟨_, _, _, h⟩
      · refine ref_says hs (fun N => readCpClassinfo_exact pool) (classinfo_complains pool) hb (by decide) (fun i hc => ?_) h
        cases hc with
        | ofClass ha => exact ⟨_, ha⟩
        | field hm _ | method hm _ | interfaceMethod hm _ | type hm _ | load hm _ => exact absurd hm (by decide)
      · cases h
    | newarray =>
      obtain rfl : v = 0xbc := by simpa using hrow
      change readNewarray code (start + 1) = _ at h
      unfold readNewarray at h
      rcases P.bind_errs.mp h with h | ⟨n, ix1, hn, h⟩
      · exact cuts_says hs Cuts.readU1 (by omega) (by omega) h
      obtain ⟨rfl, hl, hd⟩ := stepU1 hn
      cases hk : primitiveArrayTypeOf n with
      | some k => rw [hk] at h; cases h
      | none =>
        rw [hk] at h
        cases h
        rw [hb, hd, show start + 1 + 1 - 1 = start + 1 from rfl]
        refine .newarray fun a ha => ?_
        rw [(arrayType_iff n a).mpr ha] at hk
        cases hk
    | wide =>
      obtain rfl : v = 0xc4 := by simpa using hrow
      change readWide code (start + 1) = _ at h
      unfold readWide at h
      rcases P.bind_errs.mp h with h | ⟨b, ix1, hn, h⟩
      · exact cuts_says hs Cuts.readU1 (by omega) (by omega) h
      obtain ⟨rfl, hl, hd⟩ := stepU1 hn
      split at h
      · exact cuts_says hs (Cuts.bind Cuts.readU2 fun _ => Cuts.bind Cuts.readU2 fun _ => Cuts.pure _) (by omega) (by omega) h
      · rename_i hne
        cases hk : wideTable.lookup b with
        | some f =>
          rw [hk] at h
          exact cuts_says hs (Cuts.bind Cuts.readU2 fun _ => Cuts.pure _) (by omega) (by omega) h
        | none =>
          rw [hk] at h
          cases h
          rw [hb, hd, show start + 1 + 1 - 1 = start + 1 from rfl]
          exact .wide (wideTable_none (by simpa using hne) hk)
    | multianewarray =>
      obtain rfl : v = 0xc5 := by simpa using hrow
      rcases P.bind_errs.mp h with h | ⟨m, ix1, hm, h⟩
      · refine ref_says hs (fun N => readCpObjectArrayType_exact pool) (objectType_complains pool) hb (by decide) (fun i hc => ?_) h
        cases hc with
        | type _ ha => exact ⟨_, ha⟩
        | field hm _ | method hm _ | interfaceMethod hm _ | load hm _ => exact absurd hm (by decide)
      obtain ⟨i, rfl, hl, hd⟩ := ref_next hs (fun N => readCpObjectArrayType_exact pool) hm
      exact cuts_says hs (Cuts.bind Cuts.readU1 fun _ => Cuts.pure _) (by omega) (by omega) h

/-! ## The instructions -/

theorem readOpcodesLoop_says {checks : Bool} {pool : Pool} {code : Bytes} {e : ParseError} :
    ∀ (fuel ix : Nat), ix ≤ code.length → readOpcodesLoop checks pool code fuel ix = .err e →
      ∃ (ops : List (Nat × Opcode)) (s t : Bytes), code.drop ix = s ++ t ∧ InsnsEnc checks pool ix ops s ∧ t ≠ [] ∧
        (∀ op s' rest, t = s' ++ rest → ¬ InsnEnc checks pool (ix + s.length) op s') ∧ InsnSays checks pool (ix + s.length) t e := by
  intro fuel
  induction fuel with
  | zero => intro ix h1 h; cases h
  | succ fuel ih =>
    intro ix h1 h
    unfold readOpcodesLoop at h
    split at h
    · rename_i hlt
      cases hr : readOpcode checks pool code ix with
      | err e' =>
        rw [hr] at h
        cases h
        refine ⟨[], [], code.drop ix, rfl, .nil _, by simpa using hlt, fun op s' rest hd hi => ?_, readOpcode_says hlt hr⟩
        rw [(readOpcode_exact checks pool ix code h1 op _).mpr ⟨s', rest, hd, hi, rfl⟩] at hr
        cases hr
      | ok x =>
        obtain ⟨op, ix'⟩ := x
        obtain ⟨seg, r, hd, hi, rfl⟩ := (readOpcode_exact checks pool ix code h1 op ix').mp hr
        have hl := length_of_drop_eq h1 hd
        rw [hr] at h
        change (readOpcodesLoop checks pool code fuel (ix + seg.length) >>= _) = _ at h
        cases hr' : readOpcodesLoop checks pool code fuel (ix + seg.length) with
        | err e' =>
          rw [hr'] at h
          cases h
          obtain ⟨ops, s, t, hd', hops, ht, hno, hsay⟩ := ih _ (by omega) hr'
          rw [drop_of_drop_eq hd] at hd'
          have e1 : ix + seg.length + s.length = ix + (seg ++ s).length := by simp; omega
          rw [e1] at hno hsay
          exact ⟨(ix, op) :: ops, seg ++ s, t, by rw [hd, hd', List.append_assoc], .cons hi hops, ht, hno, hsay⟩
        | ok y => rw [hr'] at h; cases h
        | panic k => rw [hr'] at h; cases h
        | diverge => rw [hr'] at h; cases h
      | panic k => rw [hr] at h; cases h
      | diverge => rw [hr] at h; cases h
    · cases h

/-! ## The jumps -/

theorem mapErr_err {α : Type} {r : Res α} {c : String} {e : ParseError} (h : r.mapErr c = .err e) : ∃ e', e = ParseErrorIn e' c ∧ r = .err e' := by
  unfold Res.mapErr at h
  cases r with
  | ok a => cases h
  | panic k => cases h
  | diverge => cases h
  | err e' => cases h; exact ⟨e', rfl, rfl⟩

theorem bind_err_cases {α β : Type} {r : Res α} {f : α → Res β} {e : ParseError} (h : (r >>= f) = .err e) :
    r = .err e ∨ ∃ a, r = .ok a ∧ f a = .err e := by
  cases r with
  | ok a => exact .inr ⟨a, rfl, h⟩
  | panic k => cases h
  | diverge => cases h
  | err e' => cases h; exact .inl rfl

section
variable {checks : Bool} {bc : ByteCode} (hi : Increasing bc.opcodes) {off : Nat} (ho : off < 2147483648)
include hi ho

omit hi in
theorem source_toInt : (Int32.ofNat off).toInt = off := by
  rw [Int32.toInt_ofNat', Int.bmod_def]
  simp only [Int32.size]
  split <;> omega

theorem validateJump_good {j : Int32} : bc.validateJump checks (Int32.ofNat off) j = .ok () ↔ GoodJump bc.opcodes off j := by
  have hs := source_toInt ho
  rw [validateJump_ok hi (by omega), hs]
  rfl

theorem validateJump_err {j : Int32} {e : ParseError} (h : bc.validateJump checks (Int32.ofNat off) j = .err e) :
    ∃ m, e = ⟨m, []⟩ ∧ BadJump checks bc.opcodes off j m := by
  have hs := source_toInt ho
  have l2 := int32_low j; have h2 := int32_high j
  have hadd : (Int32.ofNat off + j).toInt = ((Int32.ofNat off).toInt + j.toInt).bmod 4294967296 := Int32.toInt_add ..
  have bm : ∀ x : Int, x.bmod 4294967296 = if x % 4294967296 < 2147483648 then x % 4294967296 else x % 4294967296 - 4294967296 := by
    intro x; rw [Int.bmod_def]; rfl
  rw [bm, hs] at hadd
  unfold ByteCode.validateJump at h
  rcases bind_err_cases h with h | ⟨sum, hsum, h⟩
  · unfold addI32 at h
    split at h <;> cases h
  unfold addI32 at hsum
  rw [hs] at hsum
  split at hsum
  · cases hsum
  rename_i hover
  cases hsum
  simp only [Bool.and_eq_true, Bool.or_eq_true, decide_eq_true_eq, not_and, not_or] at hover
  split at h
  · rename_i hneg
    cases h
    refine ⟨_, rfl, ?_⟩
    by_cases hlow : (off : Int) + j.toInt < 0
    · exact .before hlow
    · refine .beyond ?_ ?_
      · cases checks with
        | false => rfl
        | true => exfalso; have := hover rfl; split at hadd <;> omega
      · split at hadd <;> omega
  · rename_i hpos
    have hsum : (Int32.ofNat off + j).toInt = off + j.toInt := by split at hadd <;> omega
    obtain ⟨r, hr⟩ := getOpcodeIndex_returns bc (Int32.ofNat off + j).toInt.toNat
    rcases bind_err_cases h with h | ⟨r', hr', h⟩
    · rw [hr] at h; cases h
    · cases r' with
      | some i => cases h
      | none =>
        cases h
        have u := int32_high (Int32.ofNat off + j)
        refine ⟨_, rfl, .between (by omega) (by omega) fun o' op' hm heq => ?_⟩
        obtain ⟨i, hget⟩ := List.getElem?_of_mem hm
        have : (Int32.ofNat off + j).toInt.toNat = o' := by omega
        rw [this, (getOpcodeIndex_some bc hi _ i).mpr ⟨op', hget⟩] at hr'
        cases hr'

theorem validateMatchOffsets_err {e : ParseError} : ∀ l : List (Int32 × Int32), validateMatchOffsets checks bc (Int32.ofNat off) l = .err e →
    ∃ (before after : List (Int32 × Int32)) (key j : Int32) (m : String), l = before ++ (key, j) :: after ∧
      (∀ p ∈ before, GoodJump bc.opcodes off p.2) ∧ BadJump checks bc.opcodes off j m ∧ e = ⟨m, [s!"match offset {key}"]⟩
  | [], h => by cases h
  | (key, j) :: l, h => by
    unfold validateMatchOffsets at h
    rcases bind_err_cases h with h | ⟨_, hok, h⟩
    · obtain ⟨e', rfl, hj⟩ := mapErr_err h
      obtain ⟨m, rfl, hb⟩ := validateJump_err hi ho hj
      exact ⟨[], l, key, j, m, rfl, by simp, hb, rfl⟩
    · have hg := (validateJump_good (checks := checks) hi ho).mp (Res.mapErr_ok.mp hok)
      obtain ⟨before, after, key', j', m, rfl, hb, hbad, rfl⟩ := validateMatchOffsets_err l h
      refine ⟨(key, j) :: before, after, key', j', m, rfl, ?_, hbad, rfl⟩
      intro p hp
      rcases List.mem_cons.mp hp with rfl | hp
      · exact hg
      · exact hb p hp

theorem validateRangeOffsets_err {e : ParseError} : ∀ (l : List Int32) (i : Nat), validateRangeOffsets checks bc (Int32.ofNat off) i l = .err e →
    ∃ (before after : List Int32) (j : Int32) (m : String), l = before ++ j :: after ∧
      (∀ j' ∈ before, GoodJump bc.opcodes off j') ∧ BadJump checks bc.opcodes off j m ∧ e = ⟨m, [s!"range offset {i + before.length}"]⟩
  | [], _, h => by cases h
  | j :: l, i, h => by
    unfold validateRangeOffsets at h
    rcases bind_err_cases h with h | ⟨_, hok, h⟩
    · obtain ⟨e', rfl, hj⟩ := mapErr_err h
      obtain ⟨m, rfl, hb⟩ := validateJump_err hi ho hj
      exact ⟨[], l, j, m, rfl, by simp, hb, rfl⟩
    · have hg := (validateJump_good (checks := checks) hi ho).mp (Res.mapErr_ok.mp hok)
      obtain ⟨before, after, j', m, rfl, hb, hbad, rfl⟩ := validateRangeOffsets_err l (i + 1) h
      refine ⟨j :: before, after, j', m, rfl, ?_, hbad, ?_⟩
      · intro p hp
        rcases List.mem_cons.mp hp with rfl | hp
        · exact hg
        · exact hb p hp
      · rw [show i + 1 + before.length = i + (j :: before).length by simp; omega]

end

theorem validateOpcodeJumps_err {checks : Bool} {bc : ByteCode} (hi : Increasing bc.opcodes) {off : Nat} {op : Opcode} {e : ParseError}
    (h : bc.validateOpcodeJumps checks off op = .err e) : JumpSays checks bc.opcodes off op e := by
  unfold ByteCode.validateOpcodeJumps at h
  split at h
  · cases h
    exact .far (by omega)
  · have ho : off < 2147483648 := by omega
    cases op
    case lookupswitch t =>
      rcases bind_err_cases h with h | ⟨_, hok, h⟩
      · obtain ⟨e', rfl, hj⟩ := mapErr_err h
        obtain ⟨m, rfl, hb⟩ := validateJump_err hi ho hj
        exact .lookupDefault ho hb
      · have hg := (validateJump_good (checks := checks) hi ho).mp (Res.mapErr_ok.mp hok)
        obtain ⟨before, after, key, j, m, hl, hb, hbad, rfl⟩ := validateMatchOffsets_err hi ho _ h
        exact .pair ho hg hl hb hbad
    case tableswitch t =>
      rcases bind_err_cases h with h | ⟨_, hok, h⟩
      · obtain ⟨e', rfl, hj⟩ := mapErr_err h
        obtain ⟨m, rfl, hb⟩ := validateJump_err hi ho hj
        exact .rangeDefault ho hb
      · have hg := (validateJump_good (checks := checks) hi ho).mp (Res.mapErr_ok.mp hok)
        obtain ⟨before, after, j, m, hl, hb, hbad, rfl⟩ := validateRangeOffsets_err hi ho _ 0 h
        rw [Nat.zero_add]
        exact .range ho hg hl hb hbad
    all_goals first
      | cases h
      | (obtain ⟨m, rfl, hb⟩ := validateJump_err hi ho h
         exact .jump ho (by intro t ht; cases ht) (by intro t ht; cases ht) rfl hb)

theorem validateJumpsFrom_err {checks : Bool} {bc : ByteCode} (hi : Increasing bc.opcodes) {e : ParseError} :
    ∀ l : List (Nat × Opcode), bc.validateJumpsFrom checks l = .err e →
      ∃ (before after : List (Nat × Opcode)) (off : Nat) (op : Opcode) (e' : ParseError), l = before ++ (off, op) :: after ∧
        (∀ p ∈ before, p.1 < 2147483648 ∧ ∀ j ∈ jumpsOf p.2, GoodJump bc.opcodes p.1 j) ∧ JumpSays checks bc.opcodes off op e' ∧
        e = ParseErrorIn e' s!"opcode at offset {off}"
  | [], h => by cases h
  | (off, op) :: l, h => by
    unfold ByteCode.validateJumpsFrom at h
    rcases bind_err_cases h with h | ⟨_, hok, h⟩
    · obtain ⟨e', rfl, hj⟩ := mapErr_err h
      exact ⟨[], l, off, op, e', rfl, by simp, validateOpcodeJumps_err hi hj, rfl⟩
    · have hg := (validateOpcodeJumps_ok hi off op).mp (Res.mapErr_ok.mp hok)
      obtain ⟨before, after, off', op', e', rfl, hb, hsay, rfl⟩ := validateJumpsFrom_err hi l h
      refine ⟨(off, op) :: before, after, off', op', e', rfl, ?_, hsay, rfl⟩
      intro p hp
      rcases List.mem_cons.mp hp with rfl | hp
      · exact hg
      · exact hb p hp

/-- The errors of `ByteCode::from`. -/
theorem ofCode_err {checks : Bool} {pool : Pool} {code : Bytes} {e : ParseError} (h : ByteCode.ofCode checks code pool = .err e) :
    BytecodeTrail checks pool code e := by
  unfold ByteCode.ofCode at h
  rcases bind_err_cases h with h | ⟨ops, hok, h⟩
  · obtain ⟨ops, s, t, hd, hops, ht, hno, hsay⟩ := readOpcodesLoop_says _ 0 (Nat.zero_le _) h
    rw [List.drop_zero] at hd
    rw [hd]
    rw [Nat.zero_add] at hno hsay
    exact .instruction hops ht hno hsay
  · have henc := (readOpcodes_ok checks pool code ops).mp hok
    rcases bind_err_cases h with h | ⟨_, _, h⟩
    · obtain ⟨before, after, off, op, ⟨m, cs⟩, hl, hb, hsay, rfl⟩ := validateJumpsFrom_err (bc := ⟨ops⟩) (insnsEnc_offsets henc).1 _ h
      obtain rfl : ops = _ := hl
      exact .jump henc hb hsay
    · cases h

end Cafebabe
