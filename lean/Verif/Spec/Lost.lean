import Verif.Spec.Replace
/-!
# Specification: distinctions of the class-file format that a parsed class does not show
-/

namespace Cafebabe.Spec

/-- The `target_type` bytes (JVMS tables 4.7.20-A and 4.7.20-B) that are returned as this target. -/
def targetKinds : TypeAnnotationTarget → List UInt8
  | .typeParameter _ => [0x00, 0x01]
  | .supertype _ => [0x10]
  | .typeParameterBound _ _ => [0x11, 0x12]
  | .empty => [0x13, 0x14, 0x15]
  | .formalParameter _ => [0x16]
  | .throws _ => [0x17]
  | .localVar _ => [0x40, 0x41]
  | .catch_ _ => [0x42]
  | .offset _ => [0x43, 0x44, 0x45, 0x46]
  | .typeArgument _ _ => [0x47, 0x48, 0x49, 0x4A, 0x4B]

/-- The type annotations of an attribute. -/
def typeAnnotationsOf : AttributeData → Option (List TypeAnnotation)
  | .runtimeVisibleTypeAnnotations l | .runtimeInvisibleTypeAnnotations l => some l
  | _ => none

/-- A frame without new locals and with an offset below 64: it has a short form (frame types 0 to 63, 64 to 127) and an extended one (251, 247). -/
def ShortFrame : StackMapEntry → Prop
  | .same d | .sameLocals1StackItem d _ => d < 64
  | _ => False

end Cafebabe.Spec
