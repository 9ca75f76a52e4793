import Verif.Props.RichFacts
import Verif.Proofs.Attributes
import Verif.Spec.Nested
/-!
# A class with every kind of attribute

Shows that hypotheses about particular attributes can be met. Evaluated by the kernel.
-/

namespace Cafebabe.Examples
open Spec

/-- The constant pool of `full`. -/
def fullPool : Bytes :=
  u2 44 ++
  text "A" ++
  [7, 0, 1] ++
  text "I" ++
  text "()V" ++
  text "x" ++
  [12, 0, 5, 0, 4] ++
  [10, 0, 2, 0, 6] ++
  [15, 6, 0, 7] ++
  [3, 0, 0, 0, 7] ++
  [19, 0, 5] ++
  [20, 0, 5] ++
  text "LA;" ++
  text "ConstantValue" ++
  text "Code" ++
  text "StackMapTable" ++
  text "Exceptions" ++
  text "InnerClasses" ++
  text "EnclosingMethod" ++
  text "Synthetic" ++
  text "Signature" ++
  text "SourceFile" ++
  text "SourceDebugExtension" ++
  text "LineNumberTable" ++
  text "LocalVariableTable" ++
  text "LocalVariableTypeTable" ++
  text "Deprecated" ++
  text "RuntimeVisibleAnnotations" ++
  text "RuntimeInvisibleAnnotations" ++
  text "RuntimeVisibleParameterAnnotations" ++
  text "RuntimeInvisibleParameterAnnotations" ++
  text "RuntimeVisibleTypeAnnotations" ++
  text "RuntimeInvisibleTypeAnnotations" ++
  text "AnnotationDefault" ++
  text "BootstrapMethods" ++
  text "MethodParameters" ++
  text "Module" ++
  text "ModulePackages" ++
  text "ModuleMainClass" ++
  text "NestHost" ++
  text "NestMembers" ++
  text "PermittedSubclasses" ++
  text "Record" ++
  text "Zzz"

/-- One attribute of each kind. -/
def fullAttrs : List Bytes := [
  attr 13 (u2 9),
  attr 14 (u2 1 ++ u2 1 ++ u4 1 ++ [0xb1] ++ u2 0 ++ u2 0),
  attr 15 (u2 2 ++ [3] ++ [252, 0, 1, 7, 0, 2]),
  attr 16 (u2 1 ++ u2 2),
  attr 17 (u2 1 ++ u2 2 ++ u2 0 ++ u2 5 ++ u2 0xFFFF),
  attr 18 (u2 2 ++ u2 6),
  attr 19 ([]),
  attr 20 (u2 5),
  attr 21 (u2 5),
  attr 22 ([65, 66]),
  attr 23 (u2 1 ++ u2 0 ++ u2 9),
  attr 24 (u2 1 ++ u2 0 ++ u2 1 ++ u2 5 ++ u2 3 ++ u2 0),
  attr 25 (u2 1 ++ u2 0 ++ u2 1 ++ u2 5 ++ u2 3 ++ u2 0),
  attr 26 ([]),
  attr 27 (u2 1 ++ u2 12 ++ u2 0),
  attr 28 (u2 1 ++ u2 12 ++ u2 1 ++ u2 5 ++ [64] ++ u2 12 ++ u2 0),
  attr 29 ([1] ++ u2 1 ++ u2 12 ++ u2 0),
  attr 30 ([2] ++ u2 0 ++ u2 0),
  attr 31 (u2 1 ++ [0x13] ++ [1, 3, 0] ++ u2 12 ++ u2 0),
  attr 32 (u2 1 ++ [0x40] ++ u2 1 ++ [0, 1, 0, 2, 0, 3] ++ [0] ++ u2 12 ++ u2 0),
  attr 33 ([91] ++ u2 2 ++ [73] ++ u2 9 ++ [91] ++ u2 0),
  attr 34 (u2 1 ++ u2 8 ++ u2 1 ++ u2 9),
  attr 35 ([2] ++ u2 5 ++ u2 0x8010 ++ u2 0 ++ u2 0x1000),
  attr 36 (u2 10 ++ u2 0x8020 ++ u2 5 ++ (u2 1 ++ u2 10 ++ u2 0x0060 ++ u2 0) ++ (u2 1 ++ u2 11 ++ u2 0x1000 ++ u2 1 ++ u2 10) ++ (u2 1 ++ u2 11 ++ u2 0x8000 ++ u2 0) ++ (u2 1 ++ u2 2) ++ (u2 1 ++ u2 2 ++ u2 1 ++ u2 2)),
  attr 37 (u2 1 ++ u2 11),
  attr 38 (u2 2),
  attr 39 (u2 2),
  attr 40 (u2 1 ++ u2 2),
  attr 41 (u2 2 ++ u2 2 ++ u2 2),
  attr 42 (u2 1 ++ u2 5 ++ u2 3 ++ u2 1 ++ attr 43 [1, 2]),
  attr 43 ([1, 2, 3])]

/-- A class (flags with unknown bits set) with a field, a method and one attribute of each kind. -/
def full : Bytes :=
  header 0 60 ++ fullPool ++ u2 0x0FFF ++ u2 2 ++ u2 0 ++ u2 0 ++
  (u2 1 ++ u2 0xFFFF ++ u2 5 ++ u2 3 ++ u2 0) ++ (u2 1 ++ u2 0xFFFF ++ u2 5 ++ u2 4 ++ u2 0) ++ u2 31 ++ fullAttrs.flatten

/-- The class file `full` parses to. -/
def fullCf : ClassFile :=
  match run debug 9 full with
  | .ok cf => cf
  | _ => { majorVersion := 0, minorVersion := 0, constantPool := [], accessFlags := 0, thisClass := ⟨[]⟩, superClass := none, interfaces := [],
           fields := [], methods := [], attributes := [] }

/-- All attribute kinds. -/
def allKinds : List AttrKind :=
    [.constantValue, .code, .stackMapTable, .exceptions, .innerClasses, .enclosingMethod, .synthetic, .signature, .sourceFile,
     .sourceDebugExtension, .lineNumberTable, .localVariableTable, .localVariableTypeTable, .deprecated, .runtimeVisibleAnnotations,
     .runtimeInvisibleAnnotations, .runtimeVisibleParameterAnnotations, .runtimeInvisibleParameterAnnotations, .runtimeVisibleTypeAnnotations,
     .runtimeInvisibleTypeAnnotations, .annotationDefault, .bootstrapMethods, .methodParameters, .moduleAttr, .modulePackages, .moduleMainClass,
     .nestHost, .nestMembers, .permittedSubclasses, .record, .other]

/-- Selected facts, as one Boolean. -/
def fullChecks (cf : ClassFile) : Bool :=
  cf.attributes.map (fun a => dataKind a.data) == allKinds && cf.accessFlags == 0x0631 && cf.fields.map (·.accessFlags) == [0x50DF] &&
    cf.methods.map (·.accessFlags) == [0x1DFF] && cf.superClass.isNone &&
    (match cf.attributes[30]? with | some (AttributeInfo.mk n (.other b)) => b == [1, 2, 3] && n == "Zzz".toList | _ => false) &&
    (match cf.constantPool[0]? with | some (Entry.utf8 _) => false | _ => true)

/-- Evaluated once. -/
theorem full_run : (match run debug 9 full with | .ok cf => fullChecks cf | _ => false) = true := by decide +kernel

theorem full_accepted : Accepts debug full fullCf := by
  refine ⟨9, ?_⟩
  have h := full_run
  unfold fullCf
  cases hr : run debug 9 full with
  | ok cf => rfl
  | err e => rw [hr] at h; cases h
  | panic k => rw [hr] at h; cases h
  | diverge => rw [hr] at h; cases h

theorem full_checks : fullChecks fullCf = true := by
  have h := full_run
  unfold fullCf
  cases hr : run debug 9 full with
  | ok cf => rw [hr] at h; exact h
  | err e => rw [hr] at h; cases h
  | panic k => rw [hr] at h; cases h
  | diverge => rw [hr] at h; cases h

/-- The kinds of the class attributes of `full`, in order. -/
theorem full_kinds : fullCf.attributes.map (fun a => dataKind a.data) = allKinds := by
  have h := full_checks
  simp only [fullChecks, Bool.and_eq_true, beq_iff_eq] at h
  exact h.1.1.1.1.1.1

/-- The flags of `full`, its field and its method. -/
theorem full_flags : fullCf.accessFlags = 0x0631 ∧ fullCf.fields.map (·.accessFlags) = [0x50DF] ∧ fullCf.methods.map (·.accessFlags) = [0x1DFF] := by
  have h := full_checks
  simp only [fullChecks, Bool.and_eq_true, beq_iff_eq] at h
  exact ⟨h.1.1.1.1.1.2, h.1.1.1.1.2, h.1.1.1.2⟩

/-- The last attribute of `full` is an unknown one. -/
theorem full_other : ∃ name, AttrOf fullCf ⟨name, .other [1, 2, 3]⟩ ∧ name ∉ predefinedNames := by
  have h := full_checks
  simp only [fullChecks, Bool.and_eq_true] at h
  have hk := h.1.2
  split at hk
  · rename_i n b hb
    simp only [Bool.and_eq_true, beq_iff_eq] at hk
    obtain ⟨rfl, rfl⟩ := hk
    exact ⟨_, .inl (.here (List.mem_of_getElem? hb)), by decide +kernel⟩
  · cases hk

/-- Slot 0 of the pool of `full` is not a text. -/
theorem full_slot0 (s : Str) : fullCf.constantPool[0]? ≠ some (Entry.utf8 s) := by
  have h := full_checks
  simp only [fullChecks, Bool.and_eq_true] at h
  intro hs
  have hk := h.2
  rw [hs] at hk
  cases hk

/-- `full` has an attribute of every kind. -/
theorem full_has (k : AttrKind) : ∃ a, AttrOf fullCf a ∧ dataKind a.data = k := by
  have hm : k ∈ fullCf.attributes.map (fun a => dataKind a.data) := by
    rw [full_kinds]; cases k <;> decide
  obtain ⟨a, ha, hk⟩ := List.mem_map.mp hm
  exact ⟨a, .inl (.here ha), hk⟩

end Cafebabe.Examples
