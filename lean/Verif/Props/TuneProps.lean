import Verif.Proofs.Tune
import Verif.Proofs.Run
import Verif.Props.RichFacts
/-!
# C53 Numbers that describe code are not checked

Positions, ranges, line numbers, variable slots, stack sizes, the numbers of type annotation targets and the flags of members and inner
classes are handed on as they are: whatever they are changed to, the class stays acceptable.
-/

namespace Cafebabe
open Spec Examples

theorem bootstrapTables_zero : ∀ as : List AttributeInfo, bootstrapTables (zeroAttrs as) = bootstrapTables as
  | [] => by rw [zeroAttrs]
  | ⟨n, d⟩ :: as => by
    rw [zeroAttrs, zeroAttr]
    have ih := bootstrapTables_zero as
    unfold bootstrapTables at ih ⊢
    simp only [List.filterMap_cons, ih]
    cases d <;> simp [zeroData]

theorem pairwise_zero {α : Type} {z : α → α} {R : α → α → Prop} (hz : ∀ a b, R (z a) (z b) ↔ R a b) {l l' : List α} (e : l.map z = l'.map z)
    (h : l.Pairwise R) : l'.Pairwise R := by
  have h1 : (l.map z).Pairwise R := List.pairwise_map.mpr (h.imp fun {a b} h => (hz a b).mpr h)
  rw [e] at h1
  exact (List.pairwise_map.mp h1).imp fun {a b} h => (hz a b).mp h

/-- Any other class that differs from an accepted one only in these numbers (its flags being known ones) is the result of parsing some
file of the same length. -/
theorem C53_tuned {o : Opts} {bytes : Bytes} {cf cf' : ClassFile} (h : Accepts o bytes cf) (e : zeroed cf' = zeroed cf) (hf : KnownFlags cf') :
    ∃ bytes', bytes'.length = bytes.length ∧ Accepts o bytes' cf' := by
  simp only [accepts_iff_enc] at h ⊢
  obtain ⟨minor, major, pool, flags, this, super, ifs, fs, ms, as⟩ := cf
  obtain ⟨minor', major', pool', flags', this', super', ifs', fs', ms', as'⟩ := cf'
  simp only [zeroed, ClassFile.mk.injEq] at e
  obtain ⟨rfl, rfl, rfl, rfl, rfl, rfl, rfl, e1, e2, e3⟩ := e
  obtain ⟨k1, k2, k3⟩ := hf
  refine turns_when ?_ (turns_cat turns_refl (turns_cat turns_refl (turns_cat turns_refl (turns_cat turns_refl (turns_cat turns_refl
    (turns_cat turns_refl (turns_cat turns_refl (turns_cat turns_refl (turns_cat ?_ (turns_cat ?_ ?_)))))))))) bytes h
  · rintro ⟨h1, h2, h3, h4⟩
    refine ⟨pairwise_zero ?_ e1.symm h1, pairwise_zero ?_ e2.symm h2, fun hm => ?_, ?_⟩
    · intro a b; simp
    · intro a b; simp
    · obtain ⟨a, b, c, d, f, g⟩ := h3 hm
      dsimp only at f g
      subst f g
      exact ⟨a, b, c, d, by simpa using e1, by simpa using e2⟩
    · intro x r hx
      obtain ⟨l, hl, hlt⟩ := h4 x r hx
      dsimp only at hl ⊢
      rw [← bootstrapTables_zero, ← e3, bootstrapTables_zero] at hl
      exact ⟨l, hl, hlt⟩
  · refine turns_table2 (fun f => f.accessFlags &&& 0x50DF = f.accessFlags ∧ KnownAttrs f.attributes) (fun a b e k => ?_) e1.symm k1
    obtain ⟨a1, a2, a3, a4⟩ := a
    obtain ⟨b1, b2, b3, b4⟩ := b
    simp only [FieldInfo.mk.injEq, true_and] at e
    obtain ⟨rfl, rfl, e⟩ := e
    refine turns_when id (turns_cat (turns_flags k.1) (turns_cat turns_refl (turns_cat turns_refl (turns_counted2 (lens_of_zero e) ?_))))
    have := attrs_turn (pool := pool') o a4 b4 e k.2
    rwa [attrsEnc_eq, attrsEnc_eq] at this
  · refine turns_table2 (fun f => f.accessFlags &&& 0x1DFF = f.accessFlags ∧ KnownAttrs f.attributes) (fun a b e k => ?_) e2.symm k2
    obtain ⟨a1, a2, a3, a4⟩ := a
    obtain ⟨b1, b2, b3, b4⟩ := b
    simp only [MethodInfo.mk.injEq, true_and] at e
    obtain ⟨rfl, rfl, e⟩ := e
    refine turns_when id (turns_cat (turns_flags k.1) (turns_cat turns_refl (turns_cat turns_refl (turns_counted2 (lens_of_zero e) ?_))))
    have := attrs_turn (pool := pool') o a4 b4 e k.2
    rwa [attrsEnc_eq, attrsEnc_eq] at this
  · have := attrs_turn (pool := pool') o as as' e3.symm k3
    rw [attrsEnc_eq, attrsEnc_eq] at this
    exact turns_counted2 (lens_of_zero e3.symm) this

/-! ## All numbers zero -/

theorem zeroVerification_idem (v : VerificationType) : zeroVerification (zeroVerification v) = zeroVerification v := by cases v <;> rfl

theorem zeroVerifications_idem (l : List VerificationType) : (l.map zeroVerification).map zeroVerification = l.map zeroVerification := by
  simp [zeroVerification_idem]

theorem zeroFrame_idem (v : StackMapEntry) : zeroFrame (zeroFrame v) = zeroFrame v := by
  cases v <;> simp [zeroFrame, zeroVerification_idem]

theorem zeroTarget_idem (v : TypeAnnotationTarget) : zeroTarget (zeroTarget v) = zeroTarget v := by
  cases v <;> simp [zeroTarget, zeroLocalVar]

theorem zeroTypeAnnotation_idem (v : TypeAnnotation) : zeroTypeAnnotation (zeroTypeAnnotation v) = zeroTypeAnnotation v := by
  simp [zeroTypeAnnotation, zeroTarget_idem, zeroPath]

mutual
theorem zeroCode_idem : ∀ c : CodeData, zeroCode (zeroCode c) = zeroCode c
  | ⟨ms, ml, code, bc, et, as⟩ => by
    rw [zeroCode, zeroCode, zeroAttrs_idem as]
    simp [zeroException]

theorem zeroComponent_idem : ∀ c : RecordComponentEntry, zeroComponent (zeroComponent c) = zeroComponent c
  | ⟨n, d, as⟩ => by rw [zeroComponent, zeroComponent, zeroAttrs_idem as]

theorem zeroComponents_idem : ∀ c : List RecordComponentEntry, zeroComponents (zeroComponents c) = zeroComponents c
  | [] => by rw [zeroComponents, zeroComponents]
  | c :: cs => by rw [zeroComponents, zeroComponents, zeroComponent_idem c, zeroComponents_idem cs]

theorem zeroData_idem : ∀ d : AttributeData, zeroData (zeroData d) = zeroData d
  | .code c => by rw [zeroData, zeroData, zeroCode_idem c]
  | .record c => by rw [zeroData, zeroData, zeroComponents_idem c]
  | .stackMapTable t => by simp [zeroData, zeroFrame_idem]
  | .innerClasses t => by simp [zeroData, zeroInner]
  | .lineNumberTable t => by simp [zeroData, zeroLine]
  | .localVariableTable t => by simp [zeroData, zeroLocal]
  | .localVariableTypeTable t => by simp [zeroData, zeroLocalType]
  | .runtimeVisibleTypeAnnotations t => by simp [zeroData, zeroTypeAnnotation_idem]
  | .runtimeInvisibleTypeAnnotations t => by simp [zeroData, zeroTypeAnnotation_idem]
  | .constantValue _ | .exceptions _ | .nestMembers _ | .permittedSubclasses _
  | .enclosingMethod _ _ | .synthetic | .deprecated | .sourceDebugExtension _ | .other _
  | .signature _ | .sourceFile _ | .runtimeVisibleAnnotations _ | .runtimeInvisibleAnnotations _
  | .runtimeVisibleParameterAnnotations _ | .runtimeInvisibleParameterAnnotations _ | .annotationDefault _
  | .bootstrapMethods _ | .methodParameters _ | .moduleAttr _ | .modulePackages _
  | .moduleMainClass _ | .nestHost _ => by simp [zeroData]

theorem zeroAttr_idem : ∀ a : AttributeInfo, zeroAttr (zeroAttr a) = zeroAttr a
  | ⟨n, d⟩ => by rw [zeroAttr, zeroAttr, zeroData_idem d]

theorem zeroAttrs_idem : ∀ a : List AttributeInfo, zeroAttrs (zeroAttrs a) = zeroAttrs a
  | [] => by rw [zeroAttrs, zeroAttrs]
  | a :: as => by rw [zeroAttrs, zeroAttrs, zeroAttr_idem a, zeroAttrs_idem as]
end

mutual
theorem zeroCode_known : ∀ c : CodeData, KnownCode (zeroCode c)
  | ⟨ms, ml, code, bc, et, as⟩ => by rw [zeroCode, KnownCode]; exact zeroAttrs_known as

theorem zeroComponent_known : ∀ c : RecordComponentEntry, KnownComponent (zeroComponent c)
  | ⟨n, d, as⟩ => by rw [zeroComponent, KnownComponent]; exact zeroAttrs_known as

theorem zeroComponents_known : ∀ c : List RecordComponentEntry, KnownComponents (zeroComponents c)
  | [] => by rw [zeroComponents, KnownComponents]; trivial
  | c :: cs => by rw [zeroComponents, KnownComponents]; exact ⟨zeroComponent_known c, zeroComponents_known cs⟩

theorem zeroData_known : ∀ d : AttributeData, KnownData (zeroData d)
  | .code c => by rw [zeroData, KnownData]; exact zeroCode_known c
  | .record c => by rw [zeroData, KnownData]; exact zeroComponents_known c
  | .innerClasses t => by simp [zeroData, KnownData, zeroInner]
  | .stackMapTable _ | .lineNumberTable _ | .localVariableTable _ | .localVariableTypeTable _ | .runtimeVisibleTypeAnnotations _
  | .runtimeInvisibleTypeAnnotations _ | .constantValue _ | .exceptions _ | .nestMembers _ | .permittedSubclasses _
  | .enclosingMethod _ _ | .synthetic | .deprecated | .sourceDebugExtension _ | .other _
  | .signature _ | .sourceFile _ | .runtimeVisibleAnnotations _ | .runtimeInvisibleAnnotations _
  | .runtimeVisibleParameterAnnotations _ | .runtimeInvisibleParameterAnnotations _ | .annotationDefault _
  | .bootstrapMethods _ | .methodParameters _ | .moduleAttr _ | .modulePackages _
  | .moduleMainClass _ | .nestHost _ => by simp [zeroData, KnownData]

theorem zeroAttr_known : ∀ a : AttributeInfo, KnownAttr (zeroAttr a)
  | ⟨n, d⟩ => by rw [zeroAttr, KnownAttr]; exact zeroData_known d

theorem zeroAttrs_known : ∀ a : List AttributeInfo, KnownAttrs (zeroAttrs a)
  | [] => by rw [zeroAttrs, KnownAttrs]; trivial
  | a :: as => by rw [zeroAttrs, KnownAttrs]; exact ⟨zeroAttr_known a, zeroAttrs_known as⟩
end

/-- For instance all of them may be zero at once: every handler at 0, every range empty, no stack, no locals. -/
theorem C53_zero {o : Opts} {bytes : Bytes} {cf : ClassFile} (h : Accepts o bytes cf) :
    ∃ bytes', bytes'.length = bytes.length ∧ Accepts o bytes' (zeroed cf) := by
  refine C53_tuned h ?_ ⟨?_, ?_, ?_⟩
  · simp only [zeroed, List.map_map, Function.comp_def, zeroAttrs_idem]
  · intro f hf
    simp only [zeroed, List.mem_map] at hf
    obtain ⟨f, -, rfl⟩ := hf
    exact ⟨by simp, zeroAttrs_known _⟩
  · intro f hf
    simp only [zeroed, List.mem_map] at hf
    obtain ⟨f, -, rfl⟩ := hf
    exact ⟨by simp, zeroAttrs_known _⟩
  · exact zeroAttrs_known _

/-- The hypotheses are met by a class with a handler, line numbers and stack map frames; its numbers are not zero. -/
example : Accepts debug rich richCf ∧ ∃ m ∈ richCf.methods, ∃ c ∈ codesOf m.attributes, c.maxStack ≠ 0 ∧ ∃ e ∈ c.exceptionTable, e.endPc ≠ 0 :=
  ⟨rich_accepted, by decide +kernel⟩

end Cafebabe
