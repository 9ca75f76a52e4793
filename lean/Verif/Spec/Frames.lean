import Verif.Spec.Attributes
/-!
# Specification: stack map frames and annotations cut off just before a nested tag
-/

namespace Cafebabe.Spec

/-- A stack map frame cut off just before one of its verification types. -/
inductive OpenFrame (pool : Pool) : Bytes → Prop where
  | sameLocals1 {d : UInt8} : d < 64 → OpenFrame pool [64 + d]
  | sameLocals1Extended {d : UInt16} : OpenFrame pool ([247] ++ u2 d)
  | append {k : UInt8} {d : UInt16} {locals : List VerificationType} {s : Bytes} : 1 ≤ k → k ≤ 3 → seq (VerificationEnc pool) locals s →
      locals.length < k.toNat → OpenFrame pool ([251 + k] ++ u2 d ++ s)
  | fullLocals {d count : UInt16} {locals : List VerificationType} {s : Bytes} : seq (VerificationEnc pool) locals s →
      locals.length < count.toNat → OpenFrame pool ([255] ++ u2 d ++ (u2 count ++ s))
  | fullStack {d count : UInt16} {locals stack : List VerificationType} {s t : Bytes} : table2 (VerificationEnc pool) locals s →
      seq (VerificationEnc pool) stack t → stack.length < count.toNat → OpenFrame pool ([255] ++ u2 d ++ s ++ (u2 count ++ t))

/-- What a frame type byte and the fixed-size words after it mean (JVMS 4.7.4). -/
def FrameKind (b : UInt8) (f : StackMapEntry) : Prop :=
  match f with
  | .same d => (b < 64 ∧ d = b.toUInt16) ∨ b = 251
  | .sameLocals1StackItem d _ => (64 ≤ b ∧ b < 128 ∧ d = b.toUInt16 - 64) ∨ b = 247
  | .chop _ k => 248 ≤ b ∧ b ≤ 250 ∧ k = 251 - b.toUInt16
  | .append _ locals => 252 ≤ b ∧ b ≤ 254 ∧ locals.length = b.toNat - 251
  | .fullFrame _ _ _ => b = 255

mutual
/-- An element value cut off just before an element value nested in it at any depth (possibly itself). -/
inductive OpenValue (pool : Pool) : Bytes → Prop where
  | here : OpenValue pool []
  | annotation {pre : Bytes} : OpenAnnotation pool pre → OpenValue pool ([64] ++ pre)
  | array {count : UInt16} {vs : List AnnotationElementValue} {s pre : Bytes} : seq (ElementValueEnc pool) vs s → vs.length < count.toNat →
      OpenValue pool pre → OpenValue pool ([91] ++ u2 count ++ s ++ pre)

/-- An annotation cut off just before an element value nested in it at any depth. -/
inductive OpenAnnotation (pool : Pool) : Bytes → Prop where
  | element {type count name : UInt16} {es : List AnnotationElement} {s pre : Bytes} : ElementsEnc pool es s → es.length < count.toNat →
      OpenValue pool pre → OpenAnnotation pool (u2 type ++ u2 count ++ s ++ u2 name ++ pre)
end

/-- The content of an annotation attribute cut off just before an element value, at any nesting depth. -/
inductive OpenContent (pool : Pool) : Str → Bytes → Prop where
  | ofDefault {pre : Bytes} : OpenValue pool pre → OpenContent pool "AnnotationDefault".toList pre
  | ofAnnotations {name : Str} {count : UInt16} {as : List Annotation} {s pre : Bytes} :
      name = "RuntimeVisibleAnnotations".toList ∨ name = "RuntimeInvisibleAnnotations".toList → seq (AnnotationEnc pool) as s →
      as.length < count.toNat → OpenAnnotation pool pre → OpenContent pool name (u2 count ++ s ++ pre)
  | ofParameters {name : Str} {nparams : UInt8} {count : UInt16} {ps : List ParameterAnnotation} {as : List Annotation} {s t pre : Bytes} :
      name = "RuntimeVisibleParameterAnnotations".toList ∨ name = "RuntimeInvisibleParameterAnnotations".toList →
      seq (ParameterAnnotationEnc pool) ps s → ps.length < nparams.toNat → seq (AnnotationEnc pool) as t → as.length < count.toNat →
      OpenAnnotation pool pre → OpenContent pool name (nparams :: s ++ (u2 count ++ t) ++ pre)
  | ofTypes {name : Str} {count : UInt16} {ts : List TypeAnnotation} {target : TypeAnnotationTarget} {path : List TypeAnnotationTargetPathEntry}
      {s t p pre : Bytes} : name = "RuntimeVisibleTypeAnnotations".toList ∨ name = "RuntimeInvisibleTypeAnnotations".toList →
      seq (TypeAnnotationEnc pool) ts s → ts.length < count.toNat → TargetEnc target t → table1 PathEnc path p → OpenAnnotation pool pre →
      OpenContent pool name (u2 count ++ s ++ (t ++ p) ++ pre)

/-- JVMS table 4.7.16.1-A. -/
def elementTags : List UInt8 := [66, 67, 68, 70, 73, 74, 83, 90, 115, 101, 99, 64, 91]

/-- JVMS tables 4.7.20-A, 4.7.20-B. -/
def targetTypes : List UInt8 :=
  [0x00, 0x01, 0x10, 0x11, 0x12, 0x13, 0x14, 0x15, 0x16, 0x17, 0x40, 0x41, 0x42, 0x43, 0x44, 0x45, 0x46, 0x47, 0x48, 0x49, 0x4A, 0x4B]

end Cafebabe.Spec
