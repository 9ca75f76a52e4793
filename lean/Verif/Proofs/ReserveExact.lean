import Verif.Proofs.ReserveBound
import Verif.Spec.Reserve
/-!
# What is reserved is what the result holds

`Spends p bytes ix Q`: if the counting reader `p` returns a value, then `Q` holds of it, the index behind it and the rows reserved.
`Keeps p rows`: every row reserved for a value is a row of the value.
-/

namespace Cafebabe
open Spec Timed

/-- If `p` returns a value then `Q` holds of it, the index behind it and the rows reserved. -/
def Spends {α : Type} (p : PT α) (bytes : Bytes) (ix : Nat) (Q : α → Nat → Nat → Prop) : Prop :=
  ∀ a ix', (p bytes ix).out = .ok (a, ix') → Q a ix' (p bytes ix).steps

/-- Every row reserved for a value is a row of the value. -/
def Keeps {α : Type} (p : PT α) (rows : α → Nat) : Prop := ∀ bytes ix, Spends p bytes ix fun a _ n => n = rows a

namespace Spends

theorem pure {α : Type} {a : α} {bytes : Bytes} {ix : Nat} {Q : α → Nat → Nat → Prop} (h : Q a ix 0) : Spends (Pure.pure a : PT α) bytes ix Q :=
  fun _ _ e => by cases e; exact h

theorem plain {α : Type} {p : P α} {bytes : Bytes} {ix : Nat} {Q : α → Nat → Nat → Prop} (h : ∀ a ix', p bytes ix = .ok (a, ix') → Q a ix' 0) :
    Spends (PT.plain p) bytes ix Q := fun a ix' e => h a ix' e

theorem fail {α : Type} {m : String} {bytes : Bytes} {ix : Nat} {Q : α → Nat → Nat → Prop} : Spends (PT.plain (P.fail m)) bytes ix Q := fun _ _ e => by cases e

theorem failCtx {α : Type} {m c : String} {bytes : Bytes} {ix : Nat} {Q : α → Nat → Nat → Prop} : Spends (PT.plain (P.failCtx m c)) bytes ix Q := fun _ _ e => by cases e

theorem bind {α β : Type} {p : PT α} {f : α → PT β} {bytes : Bytes} {ix : Nat} {Q : β → Nat → Nat → Prop}
    (h : Spends p bytes ix fun a ix1 n => Spends (f a) bytes ix1 fun b ix2 m => Q b ix2 (n + m)) : Spends (p >>= f) bytes ix Q := fun b ix' e => by
  have hdef : (p >>= f) bytes ix = (p bytes ix >>= fun r => f r.1 bytes r.2) := rfl
  rw [hdef] at e ⊢
  rw [out_bind] at e
  cases hp : (p bytes ix).out with
  | ok r =>
    rw [hp] at e
    rw [steps_bind_ok hp]
    exact h r.1 r.2 hp b ix' e
  | _ => rw [hp] at e; cases e

theorem mapErr {α : Type} {p : PT α} {c : String} {bytes : Bytes} {ix : Nat} {Q : α → Nat → Nat → Prop} (h : Spends p bytes ix Q) :
    Spends (p.mapErr c) bytes ix Q := fun a ix' e => by
  refine h a ix' ?_
  have e' : (p bytes ix).out.mapErr c = .ok (a, ix') := e
  cases hp : (p bytes ix).out with
  | ok r => rw [hp] at e'; exact e'
  | _ => rw [hp] at e'; cases e'

theorem tick {n : Nat} {bytes : Bytes} {ix : Nat} {Q : Unit → Nat → Nat → Prop} (h : Q () ix n) : Spends (PT.tick n) bytes ix Q :=
  fun _ _ e => by cases e; exact h

theorem ite {α : Type} {c : Prop} {i : Decidable c} {p q : PT α} {bytes : Bytes} {ix : Nat} {Q : α → Nat → Nat → Prop} (h : Spends p bytes ix Q) (h' : Spends q bytes ix Q) :
    Spends (if c then p else q) bytes ix Q := by
  split
  · exact h
  · exact h'

theorem of {α : Type} {p : PT α} {rows : α → Nat} (h : Keeps p rows) {bytes : Bytes} {ix : Nat} {Q : α → Nat → Nat → Prop} (hq : ∀ a ix', Q a ix' (rows a)) :
    Spends p bytes ix Q := fun a ix' e => by rw [h bytes ix a ix' e]; exact hq a ix'

end Spends

theorem Keeps.plain {α : Type} (p : P α) : Keeps (PT.plain p) fun _ => 0 := fun _ _ => Spends.plain fun _ _ _ => rfl

theorem Keeps.mapErr {α : Type} {p : PT α} {rows : α → Nat} (h : Keeps p rows) {c : String} : Keeps (p.mapErr c) rows := fun bytes ix => Spends.mapErr (h bytes ix)

theorem Keeps.diverge {α : Type} {rows : α → Nat} : Keeps (PT.diverge : PT α) rows := fun _ _ _ _ e => by cases e

theorem Keeps.forRangeFromR {α : Type} {f : Nat → PT α} {rows : α → Nat} (h : ∀ i, Keeps (f i) rows) :
    ∀ (n i : Nat), ∀ bytes ix, Spends (Cafebabe.forRangeFromR f i n) bytes ix fun l _ m => n + m = sizeOfList rows l
  | 0, _, _, _ => Spends.pure rfl
  | n + 1, i, bytes, ix => Spends.bind (Spends.of (h i) fun a ix1 => Spends.bind fun l ix2 e => by
      have := forRangeFromR h n (i + 1) bytes ix1 l ix2 e
      refine Spends.pure ?_
      unfold sizeOfList
      omega)

theorem Keeps.forRangeR {α : Type} {f : Nat → PT α} {rows : α → Nat} {n : Nat} (h : ∀ i, Keeps (f i) rows) : Keeps (Cafebabe.forRangeR n f) (sizeOfList rows) :=
  fun bytes ix => Spends.bind (Spends.tick fun a ix' e => forRangeFromR h n 0 bytes ix a ix' e)

theorem Keeps.readTable2R {α : Type} {f : Nat → PT α} {rows : α → Nat} (h : ∀ i, Keeps (f i) rows) : Keeps (Cafebabe.readTable2R f) (sizeOfList rows) :=
  fun _ _ => Spends.bind (Spends.plain fun _ _ _ => Spends.of (Keeps.forRangeR h) fun _ _ => by omega)

theorem Keeps.readTable1R {α : Type} {f : Nat → PT α} {rows : α → Nat} (h : ∀ i, Keeps (f i) rows) : Keeps (Cafebabe.readTable1R f) (sizeOfList rows) :=
  fun _ _ => Spends.bind (Spends.plain fun _ _ _ => Spends.of (Keeps.forRangeR h) fun _ _ => by omega)

theorem sizeOfList_flat {α : Type} : ∀ l : List α, sizeOfList (fun _ => 0) l = l.length
  | [] => rfl
  | _ :: l => by rw [sizeOfList, sizeOfList_flat l, List.length_cons]; omega

theorem Keeps.flat2 {α : Type} {f : Nat → PT α} (h : ∀ i, Keeps (f i) fun _ => 0) : Keeps (Cafebabe.readTable2R f) List.length :=
  fun bytes ix a ix' e => (Keeps.readTable2R h bytes ix a ix' e).trans (sizeOfList_flat a)

theorem Keeps.flat1 {α : Type} {f : Nat → PT α} (h : ∀ i, Keeps (f i) fun _ => 0) : Keeps (Cafebabe.readTable1R f) List.length :=
  fun bytes ix a ix' e => (Keeps.readTable1R h bytes ix a ix' e).trans (sizeOfList_flat a)

theorem Keeps.flat {α : Type} {n : Nat} {f : Nat → PT α} (h : ∀ i, Keeps (f i) fun _ => 0) : Keeps (Cafebabe.forRangeR n f) List.length :=
  fun bytes ix a ix' e => (Keeps.forRangeR h bytes ix a ix' e).trans (sizeOfList_flat a)

/-- One more step of a reader made of readers that reserve nothing and of tables of such. -/
syntax "spend1" : tactic
macro_rules | `(tactic| spend1) => `(tactic| with_reducible refine Spends.bind ?_)
macro_rules | `(tactic| spend1) => `(tactic| with_reducible refine Spends.plain fun _ _ _ => ?_)
macro_rules | `(tactic| spend1) => `(tactic| with_reducible refine Spends.mapErr ?_)
macro_rules | `(tactic| spend1) => `(tactic| with_reducible refine Spends.ite ?_ ?_)
macro_rules | `(tactic| spend1) => `(tactic| with_reducible refine Spends.of (Keeps.flat2 fun _ => (by first | exact Keeps.plain _ | exact (Keeps.plain _).mapErr)) fun _ _ => ?_)
macro_rules | `(tactic| spend1) => `(tactic| with_reducible refine Spends.of (Keeps.flat1 fun _ => (by first | exact Keeps.plain _ | exact (Keeps.plain _).mapErr)) fun _ _ => ?_)
macro_rules | `(tactic| spend1) => `(tactic| with_reducible refine Spends.of (Keeps.flat fun _ => (by first | exact Keeps.plain _ | exact (Keeps.plain _).mapErr)) fun _ _ => ?_)
macro_rules | `(tactic| spend1) => `(tactic| with_reducible exact Spends.fail)
macro_rules | `(tactic| spend1) => `(tactic| with_reducible exact Spends.failCtx)
macro_rules | `(tactic| spend1) => `(tactic| with_reducible refine Spends.pure ?_)

macro "spend" : tactic => `(tactic| repeat' (first | spend1 | (unfold PT.failIf) | (unfold PT.okOr) | (unfold PT.getIx) | (unfold PT.fail)))

/-! ## Attributes -/

theorem capacities_rows (ops : List (Nat × Opcode)) : (ops.filterMap fun p => tableSize p.2).sum = targetRows ops := by
  induction ops with
  | nil => rfl
  | cons p ops ih =>
    obtain ⟨pos, op⟩ := p
    rw [targetRows, ← ih]
    cases op <;> simp [tableSize, insnSize]

theorem ofCode_insns {checks : Bool} {code : Bytes} {pool : Pool} {b : ByteCode} (h : ByteCode.ofCode checks code pool = .ok b) :
    InsnsEnc checks pool 0 b.opcodes code := ((ofCode_ok _ _ _ _).mp h).1

theorem bytecodeR_keeps (env : Env) (code : Bytes) (pool : Pool) : Keeps (bytecodeR env code pool) bytecodeRows := fun bytes ix => by
  unfold bytecodeR
  refine Spends.ite ?_ (Spends.pure rfl)
  refine Spends.bind ?_
  intro b ix1 e
  have hout : ((ByteCode.ofCodeR env.overflowChecks code pool).mapErr "bytecode").out = .ok b := by
    have e' : (((ByteCode.ofCodeR env.overflowChecks code pool).mapErr "bytecode") >>= fun a => (⟨.ok (a, ix), 0⟩ : Timed _)).out = .ok (b, ix1) := e
    rw [out_bind] at e'
    cases h : ((ByteCode.ofCodeR env.overflowChecks code pool).mapErr "bytecode").out with
    | ok x => rw [h] at e'; cases e'; rfl
    | _ => rw [h] at e'; cases e'
  have hsteps : (PT.lift ((ByteCode.ofCodeR env.overflowChecks code pool).mapErr "bytecode") bytes ix).steps = (capacities env.overflowChecks code pool).sum :=
    (steps_bind_ok (f := fun a => (⟨.ok (a, ix), 0⟩ : Timed _)) hout)
  have hok : ByteCode.ofCode env.overflowChecks code pool = .ok b := by
    have h' : (ByteCode.ofCode env.overflowChecks code pool).mapErr "bytecode" = .ok b := hout
    cases h : ByteCode.ofCode env.overflowChecks code pool with
    | ok x => rw [h] at h'; exact h'
    | _ => rw [h] at h'; cases h'
  refine Spends.pure ?_
  rw [hsteps, C44_valid (ofCode_insns hok)]
  exact capacities_rows _

theorem readCodeDataWithR_keeps (env : Env) {q : PT (List AttributeInfo)} (h : Keeps q attrsRows) (pool : Pool) : Keeps (readCodeDataWithR env q pool) codeRows := fun bytes ix => by
  unfold readCodeDataWithR
  spend
  refine Spends.of h fun as _ => ?_
  spend
  refine Spends.of (bytecodeR_keeps env _ _) fun b _ => ?_
  spend
  simp only [codeRows]
  omega

theorem readStackMapEntryR_keeps (pool : Pool) (i : Nat) : Keeps (readStackMapEntryR pool i) frameSize := fun bytes ix => by
  unfold readStackMapEntryR readStackMapEntryBodyR
  spend
  all_goals simp [frameSize]

theorem readAnnotationWithR_keeps {q : PT AnnotationElementValue} (h : Keeps q valueRows) (pool : Pool) : Keeps (readAnnotationWithR q pool) annotationRows := fun bytes ix => by
  have he : ∀ i, Keeps (readAnnotationElementWithR q pool i) fun e => valueRows e.value := fun i bytes ix => by
    unfold readAnnotationElementWithR
    spend
    refine Spends.of h fun v _ => ?_
    spend
    simp
  have hl : ∀ es : List AnnotationElement, sizeOfList (fun e => valueRows e.value) es = elementsRows es := fun es => by
    induction es with
    | nil => rfl
    | cons e es ih => cases e; simp only [sizeOfList, elementsRows, ih]
  unfold readAnnotationWithR
  spend
  refine Spends.of (Keeps.readTable2R he) fun es _ => ?_
  spend
  simp only [annotationRows, hl]
  omega

theorem valuesRows_eq : ∀ vs : List AnnotationElementValue, sizeOfList valueRows vs = valuesRows vs
  | [] => rfl
  | v :: vs => by simp only [sizeOfList, valuesRows, valuesRows_eq vs]

theorem readAnnotationElementValueR_keeps (pool : Pool) : ∀ depth, Keeps (readAnnotationElementValueR pool depth) valueRows
  | 0 => Keeps.diverge
  | depth + 1 => fun bytes ix => by
    have h := readAnnotationElementValueR_keeps pool depth
    unfold readAnnotationElementValueR readElementValueWithR readElementValueBodyR
    spend
    all_goals first
      | (simp only [valueRows])
      | (refine Spends.of (readAnnotationWithR_keeps h pool) fun a _ => ?_
         spend
         simp only [valueRows]; omega)
      | (refine Spends.of (Keeps.readTable2R fun _ => h.mapErr) fun vs _ => ?_
         spend
         simp only [valueRows, valuesRows_eq]; omega)

theorem readAnnotationR_keeps (pool : Pool) (depth : Nat) : Keeps (readAnnotationR pool depth) annotationRows :=
  readAnnotationWithR_keeps (readAnnotationElementValueR_keeps pool depth) pool

theorem readAnnotationDataR_keeps (pool : Pool) (depth : Nat) : Keeps (readAnnotationDataR pool depth) (sizeOfList annotationRows) :=
  Keeps.readTable2R fun _ => (readAnnotationR_keeps pool depth).mapErr

theorem readParameterAnnotationDataR_keeps (pool : Pool) (depth : Nat) :
    Keeps (readParameterAnnotationDataR pool depth) (sizeOfList fun p => sizeOfList annotationRows p.annotations) :=
  Keeps.readTable1R fun _ _ _ => Spends.bind (Spends.of (Keeps.readTable2R fun _ => (readAnnotationR_keeps pool depth).mapErr) fun _ _ => Spends.pure rfl)

theorem readTypeAnnotationTargetR_keeps (i : Nat) (v : UInt8) : Keeps (readTypeAnnotationTargetR i v) targetSize := fun bytes ix => by
  unfold readTypeAnnotationTargetR
  spend
  all_goals simp [targetSize]

theorem readTypeAnnotationR_keeps (pool : Pool) (depth i : Nat) : Keeps (readTypeAnnotationR pool depth i) typeAnnotationRows := fun bytes ix => by
  unfold readTypeAnnotationR
  spend
  refine Spends.of (readTypeAnnotationTargetR_keeps i _) fun _ _ => ?_
  spend
  refine Spends.of (readAnnotationR_keeps pool depth) fun _ _ => ?_
  spend
  simp only [typeAnnotationRows]
  omega

theorem readBootstrapMethodEntryR_keeps (pool : Pool) (i : Nat) : Keeps (readBootstrapMethodEntryR pool i) fun e => e.arguments.length := fun bytes ix => by
  unfold readBootstrapMethodEntryR
  spend
  simp

theorem readModuleExportsR_keeps (pool : Pool) (i : Nat) : Keeps (readModuleExportsR pool i) fun e => e.exportsTo.length := fun bytes ix => by
  unfold readModuleExportsR
  spend
  simp

theorem readModuleOpensR_keeps (pool : Pool) (i : Nat) : Keeps (readModuleOpensR pool i) fun e => e.opensTo.length := fun bytes ix => by
  unfold readModuleOpensR
  spend
  simp

theorem readModuleProvidesR_keeps (pool : Pool) (i : Nat) : Keeps (readModuleProvidesR pool i) fun e => e.providesWith.length := fun bytes ix => by
  unfold readModuleProvidesR
  spend
  simp

theorem readModuleDataR_keeps (pool : Pool) : Keeps (readModuleDataR pool) moduleSize := fun bytes ix => by
  unfold readModuleDataR
  spend
  refine Spends.of (Keeps.readTable2R (readModuleExportsR_keeps pool)) fun _ _ => ?_
  spend
  refine Spends.of (Keeps.readTable2R (readModuleOpensR_keeps pool)) fun _ _ => ?_
  spend
  refine Spends.of (Keeps.readTable2R (readModuleProvidesR_keeps pool)) fun _ _ => ?_
  spend
  simp only [moduleSize]
  omega

theorem componentsRows_eq : ∀ cs : List RecordComponentEntry, sizeOfList (fun c => attrsRows c.attributes) cs = componentsRows cs
  | [] => by simp only [sizeOfList, componentsRows]
  | ⟨_, _, _⟩ :: cs => by simp only [sizeOfList, componentsRows, componentRows, componentsRows_eq cs]

theorem readRecordDataWithR_keeps {q : PT (List AttributeInfo)} (h : Keeps q attrsRows) (pool : Pool) : Keeps (readRecordDataWithR q pool) componentsRows := fun bytes ix => by
  have hc : ∀ i, Keeps (readRecordComponentWithR q pool i) fun c => attrsRows c.attributes := fun i bytes ix => by
    unfold readRecordComponentWithR
    spend
    refine Spends.of h fun _ _ => ?_
    spend
    simp
  unfold readRecordDataWithR
  exact Spends.of (Keeps.readTable2R hc) fun cs _ => componentsRows_eq cs

theorem readAttributeData_flat {env : Env} {depth : Nat} {rec : P (List AttributeInfo)} {pool : Pool} {i length : Nat} {k : AttrKind} (hk : Tableless k)
    {bytes : Bytes} {ix : Nat} {d : AttributeData} {ix' : Nat} (h : readAttributeData env depth rec pool i length k bytes ix = .ok (d, ix')) : 0 = dataRows d := by
  rcases hk with rfl | rfl | rfl | rfl | rfl | rfl | rfl | rfl | rfl | rfl <;> unfold readAttributeData at h
  case inr.inr.inr.inr.inr.inl =>
    simp only [P.bind_ok] at h
    obtain ⟨data, ix1, -, e⟩ := h
    cases hd : env.decode data with
    | some s => rw [hd] at e; cases e; rfl
    | none => rw [hd] at e; cases e
  case inr.inr.inr.inr.inr.inr.inr.inr.inr =>
    simp only [P.bind_ok] at h
    obtain ⟨data, ix1, -, e⟩ := h
    cases e; rfl
  all_goals simp only [P.bind_ok] at h
  all_goals first
    | (obtain ⟨_, _, -, e⟩ := h; cases e; rfl)
    | (obtain ⟨_, _, -, _, _, -, e⟩ := h; cases e; rfl)
    | (obtain ⟨_, _, -, _, _, -, _, _, -, e⟩ := h; cases e; rfl)

theorem readAttributeDataR_keeps (env : Env) (depth : Nat) {q : PT (List AttributeInfo)} (h : Keeps q attrsRows) (pool : Pool) (i length : Nat) (k : AttrKind) :
    Keeps (readAttributeDataR env depth q pool i length k) dataRows := fun bytes ix => by
  cases k <;> unfold readAttributeDataR <;>
    first
    | exact Spends.plain fun _ _ e => readAttributeData_flat (by unfold Tableless; simp) e
    | refine Spends.bind (Spends.mapErr ?_)
  case code => exact Spends.of (readCodeDataWithR_keeps env h pool) fun _ _ => Spends.pure (by simp only [dataRows]; omega)
  case stackMapTable => exact Spends.of (Keeps.readTable2R (readStackMapEntryR_keeps pool)) fun _ _ => Spends.pure (by simp only [dataRows]; omega)
  case runtimeVisibleAnnotations | runtimeInvisibleAnnotations =>
    exact Spends.of (readAnnotationDataR_keeps pool depth) fun _ _ => Spends.pure (by simp only [dataRows]; omega)
  case runtimeVisibleParameterAnnotations | runtimeInvisibleParameterAnnotations =>
    exact Spends.of (readParameterAnnotationDataR_keeps pool depth) fun _ _ => Spends.pure (by simp only [dataRows]; omega)
  case runtimeVisibleTypeAnnotations | runtimeInvisibleTypeAnnotations =>
    exact Spends.of (Keeps.readTable2R (readTypeAnnotationR_keeps pool depth)) fun _ _ => Spends.pure (by simp only [dataRows]; omega)
  case annotationDefault => exact Spends.of (readAnnotationElementValueR_keeps pool depth) fun _ _ => Spends.pure (by simp only [dataRows]; omega)
  case bootstrapMethods => exact Spends.of (Keeps.readTable2R (readBootstrapMethodEntryR_keeps pool)) fun _ _ => Spends.pure (by simp only [dataRows]; omega)
  case moduleAttr => exact Spends.of (readModuleDataR_keeps pool) fun _ _ => Spends.pure (by simp only [dataRows]; omega)
  case record => exact Spends.of (readRecordDataWithR_keeps h pool) fun _ _ => Spends.pure (by simp only [dataRows]; omega)
  all_goals
    (try unfold readExceptionsDataR)
    (try unfold readInnerclassesDataR)
    (try unfold readLinenumberDataR)
    (try unfold readLocalvariableDataR)
    (try unfold readLocalvariabletypeDataR)
    (try unfold readMethodparametersDataR)
    (try unfold readModulepackagesDataR)
    (try unfold readNestmembersDataR)
    (try unfold readPermittedSubclassesDataR)
    spend
    simp only [dataRows]
    omega

theorem attrsRows_eq : ∀ as : List AttributeInfo, sizeOfList (fun a => dataRows a.data) as = attrsRows as
  | [] => by simp only [sizeOfList, attrsRows]
  | ⟨_, _⟩ :: as => by simp only [sizeOfList, attrsRows, attrsRows_eq as]

theorem readAttributesR_keeps (env : Env) (pool : Pool) : ∀ depth, Keeps (readAttributesR env pool depth) attrsRows
  | 0 => Keeps.diverge
  | depth + 1 => fun bytes ix => by
    have ih := readAttributesR_keeps env pool depth
    have ha : ∀ i, Keeps (readAttributeWithR env depth (readAttributesR env pool depth) pool i) fun a => dataRows a.data := fun i bytes ix => by
      unfold readAttributeWithR
      spend
      refine Spends.of (readAttributeDataR_keeps env depth ih pool i _ _) fun _ _ => ?_
      spend
      simp
    unfold readAttributesR
    exact Spends.of (Keeps.readTable2R ha) fun as _ => attrsRows_eq as

/-! ## Class files -/

theorem readFieldsFromR_keeps (env : Env) (pool : Pool) : ∀ (n i : Nat) (seen : List (Str × FieldDescriptor)), ∀ bytes ix,
    Spends (readFieldsFromR env pool seen i n) bytes ix fun l _ m => n + m = sizeOfList (fun f => attrsRows f.attributes) l
  | 0, _, _, _, _ => Spends.pure rfl
  | n + 1, i, seen, bytes, ix => by
    unfold readFieldsFromR
    refine Spends.bind ?_
    unfold readFieldR
    spend
    refine Spends.of (readAttributesR_keeps env pool _) fun _ _ => ?_
    spend
    intro l ix2 e
    have := readFieldsFromR_keeps env pool n (i + 1) _ _ _ l ix2 e
    dsimp only at this
    refine Spends.pure ?_
    simp only [sizeOfList]
    omega

theorem readMethodsFromR_keeps (env : Env) (pool : Pool) (b : Bool) (major : UInt16) : ∀ (n i : Nat) (seen : List (Str × MethodDescriptor)), ∀ bytes ix,
    Spends (readMethodsFromR env pool b major seen i n) bytes ix fun l _ m => n + m = sizeOfList (fun f => attrsRows f.attributes) l
  | 0, _, _, _, _ => Spends.pure rfl
  | n + 1, i, seen, bytes, ix => by
    unfold readMethodsFromR
    refine Spends.bind ?_
    unfold readMethodR
    spend
    refine Spends.of (readAttributesR_keeps env pool _) fun _ _ => ?_
    spend
    intro l ix2 e
    have := readMethodsFromR_keeps env pool b major n (i + 1) _ _ _ l ix2 e
    dsimp only at this
    refine Spends.pure ?_
    simp only [sizeOfList]
    omega

theorem readFieldsR_keeps (env : Env) (pool : Pool) : Keeps (readFieldsR env pool) (sizeOfList fun f => attrsRows f.attributes) := fun bytes ix => by
  unfold readFieldsR
  spend
  refine Spends.tick ?_
  intro l ix' e
  have := readFieldsFromR_keeps env pool _ _ _ _ _ l ix' e
  omega

theorem readMethodsR_keeps (env : Env) (pool : Pool) (b : Bool) (major : UInt16) : Keeps (readMethodsR env pool b major) (sizeOfList fun f => attrsRows f.attributes) := fun bytes ix => by
  unfold readMethodsR
  spend
  refine Spends.tick ?_
  intro l ix' e
  have := readMethodsFromR_keeps env pool b major _ _ _ _ _ l ix' e
  omega

theorem readConstantPoolR_spends (env : Env) (major : UInt16) (bytes : Bytes) (ix : Nat) :
    Spends (readConstantPoolR env major) bytes ix fun _ _ n => ∃ (count : UInt16) (ix1 : Nat), readU2 bytes ix = .ok (count, ix1) ∧ n = count.toNat := by
  unfold readConstantPoolR readRawPoolR
  refine Spends.bind (Spends.bind (Spends.plain fun count ix1 h => Spends.bind (Spends.tick (Spends.bind (Spends.plain fun _ _ _ => Spends.pure ?_)))))
  spend
  exact ⟨_, _, h, by omega⟩

theorem readU4_ends {bytes : Bytes} {ix ix' : Nat} {a : UInt32} (hix : ix ≤ bytes.length) (h : readU4 bytes ix = .ok (a, ix')) : ix' = ix + 4 ∧ ix' ≤ bytes.length := by
  have g := Eats.readU4 bytes ix a ix' hix h
  rw [(Exact.readU4 : Exact (bytes.length + 1) readU4 fun b => lit (u4 b)) bytes ix hix (by omega) a ix'] at h
  obtain ⟨seg, r, -, rfl, rfl⟩ := h
  exact ⟨rfl, g.2⟩

theorem readU2_ends {bytes : Bytes} {ix ix' : Nat} {a : UInt16} (hix : ix ≤ bytes.length) (h : readU2 bytes ix = .ok (a, ix')) : ix' = ix + 2 ∧ ix' ≤ bytes.length := by
  have g := Eats.readU2 bytes ix a ix' hix h
  rw [(Exact.readU2 : Exact (bytes.length + 1) readU2 fun b => lit (u2 b)) bytes ix hix (by omega) a ix'] at h
  obtain ⟨seg, r, -, rfl, rfl⟩ := h
  exact ⟨rfl, g.2⟩

/-- All that is reserved for an accepted file: the declared number of constants and the rows of the tables in the result. -/
theorem readClassFileR_spends (env : Env) (bytes : Bytes) :
    Spends (readClassFileR env) bytes 0 fun cf _ n => ∃ (count : UInt16) (ix1 : Nat), readU2 bytes 8 = .ok (count, ix1) ∧ n = count.toNat + classRows cf := by
  unfold readClassFileR
  refine Spends.bind (Spends.plain fun magic ix1 h1 => ?_)
  unfold PT.failIf
  refine Spends.bind (Spends.plain fun _ ix2 h2 => Spends.bind (Spends.plain fun minor ix3 h3 => Spends.bind (Spends.plain fun major ix4 h4 => Spends.bind ?_)))
  have h2' : ix2 = ix1 := by
    unfold P.failIf at h2
    split at h2 <;> cases h2
    rfl
  subst h2'
  obtain ⟨rfl, hl⟩ := readU4_ends (Nat.zero_le _) h1
  obtain ⟨rfl, hl⟩ := readU2_ends hl h3
  obtain ⟨rfl, hl⟩ := readU2_ends hl h4
  intro pool ix5 e
  obtain ⟨count, ix6, hc, hn⟩ := readConstantPoolR_spends env major bytes 8 pool ix5 e
  rw [hn]
  unfold readInterfacesR
  spend
  refine Spends.of (readFieldsR_keeps env pool) fun _ _ => ?_
  spend
  refine Spends.of (readMethodsR_keeps env pool _ _) fun _ _ => ?_
  spend
  refine Spends.of (readAttributesR_keeps env pool _) fun _ _ => ?_
  spend
  refine ⟨count, ix6, hc, ?_⟩
  simp only [classRows]
  omega

end Cafebabe
