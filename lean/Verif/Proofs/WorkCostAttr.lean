import Verif.Proofs.WorkCode
/-!
# How many steps: attributes
-/

namespace Cafebabe
open Spec Timed

macro_rules | `(tactic| costh) => `(tactic| focus (with_reducible refine Cost.readTable2 (Q := fun _ => True) (by assumption) ?_; intro _; cost; done))
macro_rules | `(tactic| costh) => `(tactic| focus (with_reducible refine Cost.readTable1 (Q := fun _ => True) (by assumption) ?_; intro _; cost; done))
macro_rules | `(tactic| costh) => `(tactic| focus (with_reducible refine Cost.forRange (Q := fun _ => True) (by assumption) ?_ _; intro _; cost; done))

theorem readLineNumberEntry_tame {N : Nat} {A : PanicKind → Prop} : Tame N A 2 readLineNumberEntry :=
  Tame.seqK Tame.readU2 fun _ => Tame.seqK Tame.readU2 fun _ => Tame.pure _
theorem readLocalVarTarget_tame {N : Nat} {A : PanicKind → Prop} : Tame N A 2 readLocalVarTarget :=
  Tame.seqK Tame.readU2 fun _ => Tame.seqK Tame.readU2 fun _ => Tame.seqK Tame.readU2 fun _ => Tame.pure _
theorem readTargetPathEntry_tame1 {N : Nat} {A : PanicKind → Prop} (i j : Nat) : Tame N A 1 (readTargetPathEntry i j) := by
  refine Tame.seqK (m := 0) Tame.readU1 fun v => ?_
  cases pathKindOf v with
  | none => exact Tame.failCtx
  | some k => exact Tame.seq (m := 0) Tame.readU1 fun _ => Tame.pure _

section
variable {pool : Pool} {n : Nat} {W L : Int} (r : Rate pool n W L)
include r

omit r in
theorem strLen_le (s : Str) : strLen s ≤ 4 * s.length := by
  induction s with
  | nil => exact Nat.le_refl _
  | cons c s ih =>
    have : c.utf8Size ≤ 4 := Char.utf8Size_le_four c
    simp only [strLen, List.length_cons]
    omega

omit r in
theorem methodPrefix_text {d : MethodDescriptor} {s : Str} (h : MethodPrefix d s) : ∃ rest, s = methodText d ++ rest := by
  obtain ⟨-, t, rfl, ht⟩ := h
  unfold ReturnPrefix at ht
  unfold methodText
  split at ht
  · rename_i e; subst ht; exact ⟨[], by rw [e]; simp [returnText]⟩
  · rename_i e; obtain ⟨-, j, rfl⟩ := ht; exact ⟨j, by rw [e]; simp [returnText]⟩

theorem parseFieldDescriptorT_cost {s : Str} (h : s.length ≤ n) : Cost L (fun d => d.byteLen ≤ 4 * n) W W (PT.lift (parseFieldDescriptorT s 0)) := by
  have hw := r.work
  refine Cost.lift (n := 3 * n + 1) r.pos (Nat.le_trans (fieldT_le [] s).1 (by omega)) (by push_cast; omega) (by push_cast; omega) fun d hd => ?_
  rw [fieldT_out] at hd
  obtain ⟨-, rest, e⟩ := ((parseFieldDescriptor_decides [] s).1 d).mp hd
  have h1 := strLen_le s
  rw [e, strLen_append, strLen_fieldText, ← e] at h1
  omega

theorem parseMethodDescriptorT_cost {s : Str} (h : s.length ≤ n) : Cost L (fun d => d.byteLen ≤ 4 * n) W W (PT.lift (parseMethodDescriptorT s 0)) := by
  have hw := r.work
  refine Cost.lift (n := 4 * n) r.pos (Nat.le_trans (methodT_le s) (by omega)) (by push_cast; omega) (by push_cast; omega) fun d hd => ?_
  rw [methodT_out] at hd
  have hp := ((parseMethodDescriptor_decides s).1 d).mp hd
  have h1 := strLen_le s
  obtain ⟨rest, e⟩ := methodPrefix_text hp
  rw [e, strLen_append, strLen_methodText, ← e] at h1
  omega

theorem optNameT_cost {o : Option Str} (h : ∀ s, o = some s → s.length ≤ n) : Cost L (fun _ => True) W W (PT.lift (optNameT o)) := by
  have hw := r.work
  cases o with
  | none => exact (Cost.free r).mono (by omega) (by omega) fun _ h => h
  | some s => exact isUnqualifiedNameT_cost r (h s rfl)

theorem uniqueT_cost {a b : Nat} (ha : a ≤ n) (hb : b ≤ 4 * n) : Cost L (fun _ => True) W W (PT.lift (uniqueT a b)) :=
  Cost.work r (show 3 * (a + b) + 1 ≤ _ by omega)

end

macro_rules | `(tactic| costh) => `(tactic| with_reducible exact parseFieldDescriptorT_cost (by assumption) (by assumption))
macro_rules | `(tactic| costh) => `(tactic| with_reducible exact parseMethodDescriptorT_cost (by assumption) (by assumption))
macro_rules | `(tactic| costh) => `(tactic| with_reducible exact optNameT_cost (by assumption) (by assumption))
macro_rules | `(tactic| costh) => `(tactic| with_reducible exact uniqueT_cost (by assumption) (by assumption) (by assumption))
macro_rules | `(tactic| costh) => `(tactic| with_reducible exact Cost.once1 (by assumption) readLineNumberEntry_tame)
macro_rules | `(tactic| costh) => `(tactic| with_reducible exact Cost.once1 (by assumption) readLocalVarTarget_tame)
macro_rules | `(tactic| costh) => `(tactic| with_reducible exact Cost.once1 (by assumption) (readTargetPathEntry_tame1 _ _))
macro_rules | `(tactic| costh) => `(tactic| with_reducible exact Cost.once1 (by assumption) (readCpInteger_tame))
macro_rules | `(tactic| costh) => `(tactic| with_reducible exact Cost.once1 (by assumption) (readCpFloat_tame))
macro_rules | `(tactic| costh) => `(tactic| with_reducible exact Cost.once1 (by assumption) (readCpLong_tame))
macro_rules | `(tactic| costh) => `(tactic| with_reducible exact Cost.once1 (by assumption) (readCpDouble_tame))

section
variable {pool : Pool} {n : Nat} {W L : Int} (r : Rate pool n W L)
include r

theorem readFieldDescriptorT_cost  : Cost L (fun d => d.byteLen ≤ 4 * n) (-4 * W) (4 * W) (readFieldDescriptorT pool) := by
  unfold readFieldDescriptorT; cost

end

macro_rules | `(tactic| costh) => `(tactic| with_reducible exact readFieldDescriptorT_cost (by assumption))

section
variable {pool : Pool} {n : Nat} {W L : Int} (r : Rate pool n W L)
include r

theorem readExceptionTableEntryT_cost (i : Nat) : Cost L (fun _ => True) (-4 * W) (4 * W) (readExceptionTableEntryT pool i) := by
  unfold readExceptionTableEntryT; cost

end

macro_rules | `(tactic| costh) => `(tactic| with_reducible exact readExceptionTableEntryT_cost (by assumption) _)

section
variable {pool : Pool} {n : Nat} {W L : Int} (r : Rate pool n W L)
include r

theorem readStackmaptableVerificationT_cost  : Cost L (fun _ => True) (-4 * W) (4 * W) (readStackmaptableVerificationT pool) := by
  have hw := r.work
  refine Cost.bind (Cost.once1 r Tame.readU1) (by omega) fun v _ => ?_
  split <;> cost

end

macro_rules | `(tactic| costh) => `(tactic| with_reducible exact readStackmaptableVerificationT_cost (by assumption))

section
variable {pool : Pool} {n : Nat} {W L : Int} (r : Rate pool n W L)
include r

theorem readStackMapEntryBodyT_cost (i : Nat) (v : UInt8) : Cost L (fun _ => True) (2 * W) (4 * W) (readStackMapEntryBodyT pool i v) := by
  unfold readStackMapEntryBodyT; cost

end

macro_rules | `(tactic| costh) => `(tactic| with_reducible exact readStackMapEntryBodyT_cost (by assumption) _ _)

section
variable {pool : Pool} {n : Nat} {W L : Int} (r : Rate pool n W L)
include r

theorem readStackMapEntryT_cost (i : Nat) : Cost L (fun _ => True) (-4 * W) (4 * W) (readStackMapEntryT pool i) := by
  unfold readStackMapEntryT; cost

end

macro_rules | `(tactic| costh) => `(tactic| with_reducible exact readStackMapEntryT_cost (by assumption) _)

section
variable {pool : Pool} {n : Nat} {W L : Int} (r : Rate pool n W L)
include r

theorem readStackmaptableDataT_cost  : Cost L (fun _ => True) (-4 * W) (4 * W) (readStackmaptableDataT pool) := by
  unfold readStackmaptableDataT; cost

end

macro_rules | `(tactic| costh) => `(tactic| with_reducible exact readStackmaptableDataT_cost (by assumption))

section
variable {pool : Pool} {n : Nat} {W L : Int} (r : Rate pool n W L)
include r

theorem readExceptionsDataT_cost  : Cost L (fun _ => True) (-4 * W) (4 * W) (readExceptionsDataT pool) := by
  unfold readExceptionsDataT; cost

end

macro_rules | `(tactic| costh) => `(tactic| with_reducible exact readExceptionsDataT_cost (by assumption))

section
variable {pool : Pool} {n : Nat} {W L : Int} (r : Rate pool n W L)
include r

theorem readInnerClassEntryT_cost (i : Nat) : Cost L (fun _ => True) (-4 * W) (4 * W) (readInnerClassEntryT pool i) := by
  unfold readInnerClassEntryT; cost

end

macro_rules | `(tactic| costh) => `(tactic| with_reducible exact readInnerClassEntryT_cost (by assumption) _)

section
variable {pool : Pool} {n : Nat} {W L : Int} (r : Rate pool n W L)
include r

theorem readInnerclassesDataT_cost  : Cost L (fun _ => True) (-4 * W) (4 * W) (readInnerclassesDataT pool) := by
  unfold readInnerclassesDataT; cost

end

macro_rules | `(tactic| costh) => `(tactic| with_reducible exact readInnerclassesDataT_cost (by assumption))

section
variable {pool : Pool} {n : Nat} {W L : Int} (r : Rate pool n W L)
include r

theorem readLinenumberDataT_cost  : Cost L (fun _ => True) (-4 * W) (4 * W) readLinenumberDataT := by
  unfold readLinenumberDataT; cost

end

macro_rules | `(tactic| costh) => `(tactic| with_reducible exact readLinenumberDataT_cost (by assumption))

section
variable {pool : Pool} {n : Nat} {W L : Int} (r : Rate pool n W L)
include r

theorem readLocalVariableEntryT_cost (i : Nat) : Cost L (fun _ => True) (-4 * W) (4 * W) (readLocalVariableEntryT pool i) := by
  unfold readLocalVariableEntryT; cost

end

macro_rules | `(tactic| costh) => `(tactic| with_reducible exact readLocalVariableEntryT_cost (by assumption) _)

section
variable {pool : Pool} {n : Nat} {W L : Int} (r : Rate pool n W L)
include r

theorem readLocalvariableDataT_cost  : Cost L (fun _ => True) (-4 * W) (4 * W) (readLocalvariableDataT pool) := by
  unfold readLocalvariableDataT; cost

end

macro_rules | `(tactic| costh) => `(tactic| with_reducible exact readLocalvariableDataT_cost (by assumption))

section
variable {pool : Pool} {n : Nat} {W L : Int} (r : Rate pool n W L)
include r

theorem readLocalVariableTypeEntryT_cost (i : Nat) : Cost L (fun _ => True) (-4 * W) (4 * W) (readLocalVariableTypeEntryT pool i) := by
  unfold readLocalVariableTypeEntryT; cost

end

macro_rules | `(tactic| costh) => `(tactic| with_reducible exact readLocalVariableTypeEntryT_cost (by assumption) _)

section
variable {pool : Pool} {n : Nat} {W L : Int} (r : Rate pool n W L)
include r

theorem readLocalvariabletypeDataT_cost  : Cost L (fun _ => True) (-4 * W) (4 * W) (readLocalvariabletypeDataT pool) := by
  unfold readLocalvariabletypeDataT; cost

end

macro_rules | `(tactic| costh) => `(tactic| with_reducible exact readLocalvariabletypeDataT_cost (by assumption))

section
variable {pool : Pool} {n : Nat} {W L : Int} (r : Rate pool n W L)
include r

theorem readAnnotationElementWithT_cost {q : PT AnnotationElementValue} (h : Cost L (fun _ => True) (-4 * W) (4 * W) q) (i : Nat) : Cost L (fun _ => True) (-4 * W) (4 * W) (readAnnotationElementWithT q pool i) := by
  unfold readAnnotationElementWithT; cost

end

macro_rules | `(tactic| costh) => `(tactic| with_reducible exact readAnnotationElementWithT_cost (by assumption) (by assumption) _)

section
variable {pool : Pool} {n : Nat} {W L : Int} (r : Rate pool n W L)
include r

theorem readAnnotationWithT_cost {q : PT AnnotationElementValue} (h : Cost L (fun _ => True) (-4 * W) (4 * W) q)  : Cost L (fun _ => True) (-4 * W) (4 * W) (readAnnotationWithT q pool) := by
  unfold readAnnotationWithT; cost

end

macro_rules | `(tactic| costh) => `(tactic| with_reducible exact readAnnotationWithT_cost (by assumption) (by assumption))

section
variable {pool : Pool} {n : Nat} {W L : Int} (r : Rate pool n W L)
include r

theorem readElementValueBodyT_cost {q : PT AnnotationElementValue} (h : Cost L (fun _ => True) (-4 * W) (4 * W) q) (v : UInt8) : Cost L (fun _ => True) (2 * W) (4 * W) (readElementValueBodyT q pool v) := by
  unfold readElementValueBodyT; cost

end

macro_rules | `(tactic| costh) => `(tactic| with_reducible exact readElementValueBodyT_cost (by assumption) (by assumption) _)

section
variable {pool : Pool} {n : Nat} {W L : Int} (r : Rate pool n W L)
include r

theorem readElementValueWithT_cost {q : PT AnnotationElementValue} (h : Cost L (fun _ => True) (-4 * W) (4 * W) q)  : Cost L (fun _ => True) (-4 * W) (4 * W) (readElementValueWithT q pool) := by
  unfold readElementValueWithT; cost

end

macro_rules | `(tactic| costh) => `(tactic| with_reducible exact readElementValueWithT_cost (by assumption) (by assumption))

section
variable {pool : Pool} {n : Nat} {W L : Int} (r : Rate pool n W L)
include r

theorem readAnnotationElementValueT_cost : ∀ d, Cost L (fun _ => True) (-4 * W) (4 * W) (readAnnotationElementValueT pool d)
  | 0 => Cost.diverge r (by have := r.work; omega)
  | d + 1 => readElementValueWithT_cost r (readAnnotationElementValueT_cost d)

end

macro_rules | `(tactic| costh) => `(tactic| with_reducible exact readAnnotationElementValueT_cost (by assumption) _)

section
variable {pool : Pool} {n : Nat} {W L : Int} (r : Rate pool n W L)
include r

theorem readAnnotationT_cost (d : Nat) : Cost L (fun _ => True) (-4 * W) (4 * W) (readAnnotationT pool d) := by
  unfold readAnnotationT; exact readAnnotationWithT_cost r (readAnnotationElementValueT_cost r d)

end

macro_rules | `(tactic| costh) => `(tactic| with_reducible exact readAnnotationT_cost (by assumption) _)

section
variable {pool : Pool} {n : Nat} {W L : Int} (r : Rate pool n W L)
include r

theorem readAnnotationDataT_cost (d : Nat) : Cost L (fun _ => True) (-4 * W) (4 * W) (readAnnotationDataT pool d) := by
  unfold readAnnotationDataT; cost

end

macro_rules | `(tactic| costh) => `(tactic| with_reducible exact readAnnotationDataT_cost (by assumption) _)

section
variable {pool : Pool} {n : Nat} {W L : Int} (r : Rate pool n W L)
include r

theorem readParameterAnnotationT_cost (d i : Nat) : Cost L (fun _ => True) (-4 * W) (4 * W) (readParameterAnnotationT pool d i) := by
  unfold readParameterAnnotationT; cost

end

macro_rules | `(tactic| costh) => `(tactic| with_reducible exact readParameterAnnotationT_cost (by assumption) _ _)

section
variable {pool : Pool} {n : Nat} {W L : Int} (r : Rate pool n W L)
include r

theorem readParameterAnnotationDataT_cost (d : Nat) : Cost L (fun _ => True) (-4 * W) (4 * W) (readParameterAnnotationDataT pool d) := by
  unfold readParameterAnnotationDataT; cost

end

macro_rules | `(tactic| costh) => `(tactic| with_reducible exact readParameterAnnotationDataT_cost (by assumption) _)

section
variable {pool : Pool} {n : Nat} {W L : Int} (r : Rate pool n W L)
include r

theorem readTypeAnnotationTargetT_cost (i : Nat) (v : UInt8) : Cost L (fun _ => True) (2 * W) (4 * W) (readTypeAnnotationTargetT i v) := by
  unfold readTypeAnnotationTargetT; cost

end

macro_rules | `(tactic| costh) => `(tactic| with_reducible exact readTypeAnnotationTargetT_cost (by assumption) _ _)

section
variable {pool : Pool} {n : Nat} {W L : Int} (r : Rate pool n W L)
include r

theorem readTypeAnnotationT_cost (d i : Nat) : Cost L (fun _ => True) (-4 * W) (4 * W) (readTypeAnnotationT pool d i) := by
  unfold readTypeAnnotationT; cost

end

macro_rules | `(tactic| costh) => `(tactic| with_reducible exact readTypeAnnotationT_cost (by assumption) _ _)

section
variable {pool : Pool} {n : Nat} {W L : Int} (r : Rate pool n W L)
include r

theorem readTypeAnnotationDataT_cost (d : Nat) : Cost L (fun _ => True) (-4 * W) (4 * W) (readTypeAnnotationDataT pool d) := by
  unfold readTypeAnnotationDataT; cost

end

macro_rules | `(tactic| costh) => `(tactic| with_reducible exact readTypeAnnotationDataT_cost (by assumption) _)

section
variable {pool : Pool} {n : Nat} {W L : Int} (r : Rate pool n W L)
include r

theorem readBootstrapMethodEntryT_cost (i : Nat) : Cost L (fun _ => True) (-4 * W) (4 * W) (readBootstrapMethodEntryT pool i) := by
  unfold readBootstrapMethodEntryT; cost

end

macro_rules | `(tactic| costh) => `(tactic| with_reducible exact readBootstrapMethodEntryT_cost (by assumption) _)

section
variable {pool : Pool} {n : Nat} {W L : Int} (r : Rate pool n W L)
include r

theorem readBootstrapmethodsDataT_cost  : Cost L (fun _ => True) (-4 * W) (4 * W) (readBootstrapmethodsDataT pool) := by
  unfold readBootstrapmethodsDataT; cost

end

macro_rules | `(tactic| costh) => `(tactic| with_reducible exact readBootstrapmethodsDataT_cost (by assumption))

section
variable {pool : Pool} {n : Nat} {W L : Int} (r : Rate pool n W L)
include r

theorem readMethodParameterEntryT_cost (i : Nat) : Cost L (fun _ => True) (-4 * W) (4 * W) (readMethodParameterEntryT pool i) := by
  unfold readMethodParameterEntryT; cost

end

macro_rules | `(tactic| costh) => `(tactic| with_reducible exact readMethodParameterEntryT_cost (by assumption) _)

section
variable {pool : Pool} {n : Nat} {W L : Int} (r : Rate pool n W L)
include r

theorem readMethodparametersDataT_cost  : Cost L (fun _ => True) (-4 * W) (4 * W) (readMethodparametersDataT pool) := by
  unfold readMethodparametersDataT; cost

end

macro_rules | `(tactic| costh) => `(tactic| with_reducible exact readMethodparametersDataT_cost (by assumption))

section
variable {pool : Pool} {n : Nat} {W L : Int} (r : Rate pool n W L)
include r

theorem readModuleRequireT_cost (i : Nat) : Cost L (fun _ => True) (-4 * W) (4 * W) (readModuleRequireT pool i) := by
  unfold readModuleRequireT; cost

end

macro_rules | `(tactic| costh) => `(tactic| with_reducible exact readModuleRequireT_cost (by assumption) _)

section
variable {pool : Pool} {n : Nat} {W L : Int} (r : Rate pool n W L)
include r

theorem readModuleExportsT_cost (i : Nat) : Cost L (fun _ => True) (-4 * W) (4 * W) (readModuleExportsT pool i) := by
  unfold readModuleExportsT; cost

end

macro_rules | `(tactic| costh) => `(tactic| with_reducible exact readModuleExportsT_cost (by assumption) _)

section
variable {pool : Pool} {n : Nat} {W L : Int} (r : Rate pool n W L)
include r

theorem readModuleOpensT_cost (i : Nat) : Cost L (fun _ => True) (-4 * W) (4 * W) (readModuleOpensT pool i) := by
  unfold readModuleOpensT; cost

end

macro_rules | `(tactic| costh) => `(tactic| with_reducible exact readModuleOpensT_cost (by assumption) _)

section
variable {pool : Pool} {n : Nat} {W L : Int} (r : Rate pool n W L)
include r

theorem readModuleProvidesT_cost (i : Nat) : Cost L (fun _ => True) (-4 * W) (4 * W) (readModuleProvidesT pool i) := by
  unfold readModuleProvidesT; cost

end

macro_rules | `(tactic| costh) => `(tactic| with_reducible exact readModuleProvidesT_cost (by assumption) _)

section
variable {pool : Pool} {n : Nat} {W L : Int} (r : Rate pool n W L)
include r

theorem readModuleDataT_cost  : Cost L (fun _ => True) (-4 * W) (4 * W) (readModuleDataT pool) := by
  unfold readModuleDataT; cost

end

macro_rules | `(tactic| costh) => `(tactic| with_reducible exact readModuleDataT_cost (by assumption))

section
variable {pool : Pool} {n : Nat} {W L : Int} (r : Rate pool n W L)
include r

theorem readModulepackagesDataT_cost  : Cost L (fun _ => True) (-4 * W) (4 * W) (readModulepackagesDataT pool) := by
  unfold readModulepackagesDataT; cost

end

macro_rules | `(tactic| costh) => `(tactic| with_reducible exact readModulepackagesDataT_cost (by assumption))

section
variable {pool : Pool} {n : Nat} {W L : Int} (r : Rate pool n W L)
include r

theorem readNestmembersDataT_cost  : Cost L (fun _ => True) (-4 * W) (4 * W) (readNestmembersDataT pool) := by
  unfold readNestmembersDataT; cost

end

macro_rules | `(tactic| costh) => `(tactic| with_reducible exact readNestmembersDataT_cost (by assumption))

section
variable {pool : Pool} {n : Nat} {W L : Int} (r : Rate pool n W L)
include r

theorem readPermittedSubclassesDataT_cost  : Cost L (fun _ => True) (-4 * W) (4 * W) (readPermittedSubclassesDataT pool) := by
  unfold readPermittedSubclassesDataT; cost

end

macro_rules | `(tactic| costh) => `(tactic| with_reducible exact readPermittedSubclassesDataT_cost (by assumption))

section
variable {pool : Pool} {n : Nat} {W L : Int} (r : Rate pool n W L)
include r

theorem readRecordComponentWithT_cost {q : PT (List AttributeInfo)} (h : Cost L (fun _ => True) (-4 * W) (4 * W) q) (i : Nat) : Cost L (fun _ => True) (-4 * W) (4 * W) (readRecordComponentWithT q pool i) := by
  unfold readRecordComponentWithT; cost

end

macro_rules | `(tactic| costh) => `(tactic| with_reducible exact readRecordComponentWithT_cost (by assumption) (by assumption) _)

section
variable {pool : Pool} {n : Nat} {W L : Int} (r : Rate pool n W L)
include r

theorem readRecordDataWithT_cost {q : PT (List AttributeInfo)} (h : Cost L (fun _ => True) (-4 * W) (4 * W) q)  : Cost L (fun _ => True) (-4 * W) (4 * W) (readRecordDataWithT q pool) := by
  unfold readRecordDataWithT; cost

end

macro_rules | `(tactic| costh) => `(tactic| with_reducible exact readRecordDataWithT_cost (by assumption) (by assumption))

section
variable {pool : Pool} {n : Nat} {W L : Int} (r : Rate pool n W L)
include r

theorem bytecodeT_cost (env : Env) {code : Bytes} (hc : code.length < 2 ^ 32) :
    Cost L (fun _ => True) (5 * W + 11 * (W * code.length)) (5 * W + 11 * (W * code.length)) (bytecodeT env code pool) := by
  have hw := r.work
  have hW : (0 : Int) ≤ W * code.length := Int.mul_nonneg (by omega) (by omega)
  unfold bytecodeT
  refine Cost.ite ?_ (Cost.pure r.pos trivial (by omega) (by omega))
  have h := ofCodeT_le ⟨r.texts, r.work, Int.le_refl _⟩ env.overflowChecks (pool := pool) hc
  refine Cost.bind (c1 := 5 * W + 11 * (W * code.length)) (e1 := 5 * W + 11 * (W * code.length)) (Q := fun _ => True) ?_ (by omega) fun _ _ => Cost.pure r.pos trivial (by omega) (by omega)
  exact Cost.lift (n := (ByteCode.ofCodeT env.overflowChecks code pool).steps) r.pos (Nat.le_refl _) h h fun _ _ => trivial

theorem readCodeDataWithT_cost (h11 : 11 * W ≤ L) {q : PT (List AttributeInfo)} (h : Cost L (fun _ => True) (-4 * W) (4 * W) q) (env : Env) :
    Cost L (fun _ => True) (-4 * W) (4 * W) (readCodeDataWithT env q pool) := by
  have hw := r.work
  have hp := r.pay
  unfold readCodeDataWithT
  refine Cost.bind (Cost.once1 r Tame.readU2) (by omega) fun _ _ => Cost.bind (Cost.once1 r Tame.readU2) (by omega) fun _ _ => Cost.bind (Cost.once1 r Tame.readU4) (by omega) fun k _ => ?_
  refine Cost.bind (Cost.getIx r) (by omega) fun _ _ => Cost.bind (takeBytes_cost r k.toNat _) (by omega) fun code hk => ?_
  have hk2 : code.length < 2 ^ 32 := by rw [hk]; exact k.toNat_lt
  have hpay : 11 * (W * code.length) ≤ L * k.toNat := by
    rw [hk, ← Int.mul_assoc]
    exact Int.mul_le_mul_of_nonneg_right h11 (by omega)
  have hW : (0 : Int) ≤ W * code.length := Int.mul_nonneg (by omega) (by omega)
  refine Cost.bind (Cost.readTable2 (Q := fun _ => True) r fun i => (readExceptionTableEntryT_cost r i).mono (by omega) (by omega) fun _ h => h) (by omega) fun _ _ => ?_
  refine Cost.bind (h.mapErr _) (by omega) fun _ _ => Cost.bind (bytecodeT_cost r env hk2) (by omega) fun _ _ => Cost.pure r.pos trivial (by omega) (by omega)

end

macro_rules | `(tactic| costh) => `(tactic| with_reducible exact readCodeDataWithT_cost (by assumption) (by assumption) (by assumption) _)

section
variable {pool : Pool} {n : Nat} {W L : Int} (r : Rate pool n W L)
include r

theorem readAttributeDataT_cost (h11 : 11 * W ≤ L) {q : PT (List AttributeInfo)} (h : Cost L (fun _ => True) (-4 * W) (4 * W) q) (env : Env) (d i length : Nat) (k : AttrKind) :
    Cost L (fun _ => True) W (4 * W) (readAttributeDataT env d q pool i length k) := by
  cases k <;> unfold readAttributeDataT
  case sourceDebugExtension =>
    have hw := r.work
    have := r.enough length
    refine Cost.bind (takeSlice_cost r length) (by omega) fun b hb => Cost.bind (Cost.tick r) (by rw [hb]; omega) fun _ _ => ?_
    rw [hb]
    cases env.decode b with
    | none => exact Cost.plainFailCtx r (by omega)
    | some s => exact Cost.pure r.pos trivial (by omega) (by omega)
  case other =>
    have hw := r.work
    have := r.enough length
    exact Cost.bind (takeSlice_cost r length) (by omega) fun b hb => Cost.pure r.pos trivial (by omega) (by omega)
  all_goals cost

theorem readAttributeWithT_cost (h11 : 11 * W ≤ L) {q : PT (List AttributeInfo)} (h : Cost L (fun _ => True) (-4 * W) (4 * W) q) (env : Env) (d i : Nat) :
    Cost L (fun _ => True) (-4 * W) (4 * W) (readAttributeWithT env d q pool i) := by
  have hw := r.work
  have ht : attrTable.length ≤ 48 := by decide
  unfold readAttributeWithT
  refine Cost.bind ((readCpUtf8T_cost r).mapErr _) (by omega) fun name _ => Cost.bind (Cost.once1 r Tame.readU4) (by omega) fun l _ => ?_
  refine Cost.bind (Cost.once0 (k := 0) r ?_) (by omega) fun e _ => Cost.bind (Cost.tick r) (by omega) fun _ _ => ?_
  · intro bytes ix hix
    unfold TameAt checkEnd
    split
    · rename_i heq
      split at heq
      · cases heq
      · cases heq; exact ⟨Nat.le_refl _, hix⟩
    · trivial
    · trivial
    · omega
  refine Cost.bind (readAttributeDataT_cost r h11 h env d i l.toNat (attrKindOf name)) (by omega) fun data _ => Cost.bind (Cost.getIx r) (by omega) fun ix _ => ?_
  exact Cost.ite (Cost.fail r (by omega)) (Cost.pure r.pos trivial (by omega) (by omega))

theorem readAttributesT_cost (h11 : 11 * W ≤ L) (env : Env) : ∀ d, Cost L (fun _ => True) (-4 * W) (4 * W) (readAttributesT env pool d)
  | 0 => Cost.diverge r (by have := r.work; omega)
  | d + 1 => by
    have hw := r.work
    exact (Cost.readTable2 (Q := fun _ => True) r fun i => (readAttributeWithT_cost r h11 (readAttributesT_cost h11 env d) env d i).mono (by omega) (by omega) fun _ h => h).mono (by omega) (by omega) fun _ _ => trivial

end

macro_rules | `(tactic| costh) => `(tactic| with_reducible exact readAttributesT_cost (by assumption) (by assumption) _ _)

end Cafebabe
