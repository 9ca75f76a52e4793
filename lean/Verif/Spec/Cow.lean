import Verif.Model.Cow
import Verif.Spec.Mutf8
import Verif.Spec.Strings
/-!
# Specification: text without copying (C60)
-/

namespace Cafebabe.Spec

/-- `c` is borrowed: it is a slice of the input, and the slice is the UTF-8 encoding of its text. -/
def Lent (bytes : Bytes) (c : Cow) : Prop := ∃ pre post, bytes = pre ++ utf8 c.text ++ post ∧ c.start = some pre.length

/-- `c` is owned: its text was copied. -/
def Copied (c : Cow) : Prop := c.start = none

/-- The text needs no modified UTF-8: no U+0000 and no character above U+FFFF. -/
def Plain (s : Str) : Prop := ∀ c ∈ s, c.toNat ≠ 0 ∧ c.toNat < 0x10000

/-- The class named by a type, if any. -/
def typeNames : FieldTypeCow → List Cow
  | .prim _ => []
  | .object c => [c]

/-- The classes named by a field descriptor. -/
def fieldNames (d : FieldDescriptorCow) : List Cow := typeNames d.fieldType

/-- The classes named by a return descriptor. -/
def returnNames : ReturnDescriptorCow → List Cow
  | none => []
  | some d => fieldNames d

/-- The classes named by a method descriptor. -/
def methodNames (d : MethodDescriptorCow) : List Cow := d.parameters.flatMap fieldNames ++ returnNames d.returnType

/-- The plain value of a type: ownership forgotten. -/
def plainType : FieldTypeCow → FieldType
  | .prim t => t
  | .object c => .object ⟨c.text⟩

/-- The plain value of a field descriptor. -/
def plainField (d : FieldDescriptorCow) : FieldDescriptor := ⟨d.dimensions, plainType d.fieldType⟩

/-- The plain value of a return descriptor. -/
def plainReturn : ReturnDescriptorCow → ReturnDescriptor
  | none => .void
  | some d => .ret (plainField d)

/-- The plain value of a method descriptor. -/
def plainMethod (d : MethodDescriptorCow) : MethodDescriptor := ⟨d.parameters.map plainField, plainReturn d.returnType⟩

/-- The name of the class a type names, if any. -/
def typeTexts : FieldType → List Str
  | .object c => [c.name]
  | _ => []

/-- The texts in something shown: itself, or the names of the classes in a descriptor. -/
def textsIn : Shown → List Str
  | .text s => [s]
  | .field d => typeTexts d.fieldType
  | .method d => d.parameters.flatMap (fun p => typeTexts p.fieldType) ++ (match d.returnType with | .ret f => typeTexts f.fieldType | .void => [])
  | .raw _ => []

/-- The same outcome, with this relation between the values: same errors, same panics. -/
def SameOutcome {α β : Type} (f : α → β) : Res α → Res β → Prop
  | .ok a, .ok b => f a = b
  | .err e, .err e' => e = e'
  | .panic k, .panic k' => k = k'
  | .diverge, .diverge => True
  | _, _ => False

end Cafebabe.Spec
