import Verif.Model.Descriptors
import Verif.Spec.Grammar
/-!
# Specification: comparing class names and descriptors

Which values a user of the library can hold, and the order of texts by code points.
-/

namespace Cafebabe.Spec

/-- A class name that `ClassName::try_from` returned (C17) or that stands in a parsed descriptor: the field is private, there are no
others. -/
def HeldClass (c : ClassName) : Prop := LaxShape c.name

/-- A field type a user can hold, parsed or put together by hand. -/
def HeldType : FieldType → Prop
  | .object c => HeldClass c
  | _ => True

/-- A field descriptor a user can hold. -/
def HeldField (d : FieldDescriptor) : Prop := HeldType d.fieldType

/-- A return descriptor a user can hold. -/
def HeldReturn : ReturnDescriptor → Prop
  | .ret d => HeldField d
  | .void => True

/-- A method descriptor a user can hold. -/
def HeldMethod (d : MethodDescriptor) : Prop := (∀ p ∈ d.parameters, HeldField p) ∧ HeldReturn d.returnType

/-- Dictionary order by code points. -/
inductive Before : Str → Str → Prop where
  | shorter {c : Char} {s : Str} : Before [] (c :: s)
  | smaller {c d : Char} {s t : Str} : c.toNat < d.toNat → Before (c :: s) (d :: t)
  | same {c : Char} {s t : Str} : Before s t → Before (c :: s) (c :: t)

end Cafebabe.Spec
