import Verif.Spec.ClassFile
/-!
# Specification: a class with its unchecked numbers set to zero

Two classes with the same `zeroed` differ only in numbers that describe code (sizes, code positions, line numbers, variable slots, targets of
type annotations) and in the flags of fields, methods and inner classes.
-/

namespace Cafebabe.Spec

/-- Without the range and the handler. -/
def zeroException (e : ExceptionTableEntry) : ExceptionTableEntry := { e with startPc := 0, endPc := 0, handlerPc := 0 }

/-- Without the position of the `new` instruction. -/
def zeroVerification : VerificationType → VerificationType
  | .uninitialized _ => .uninitialized 0
  | v => v

/-- Without the positions. (`same` and `same_locals_1_stack_item` frames have a short form for small numbers; their number is kept.) -/
def zeroFrame : StackMapEntry → StackMapEntry
  | .same d => .same d
  | .sameLocals1StackItem d v => .sameLocals1StackItem d (zeroVerification v)
  | .chop _ k => .chop 0 k
  | .append _ ls => .append 0 (ls.map zeroVerification)
  | .fullFrame _ ls st => .fullFrame 0 (ls.map zeroVerification) (st.map zeroVerification)

/-- Without the flags. -/
def zeroInner (e : InnerClassEntry) : InnerClassEntry := { e with accessFlags := 0 }

/-- Without all numbers. -/
def zeroLine (_ : LineNumberEntry) : LineNumberEntry := ⟨0, 0⟩

/-- Without range and slot. -/
def zeroLocal (e : LocalVariableEntry) : LocalVariableEntry := { e with startPc := 0, length := 0, index := 0 }

/-- Without range and slot. -/
def zeroLocalType (e : LocalVariableTypeEntry) : LocalVariableTypeEntry := { e with startPc := 0, length := 0, index := 0 }

/-- Without range and slot. -/
def zeroLocalVar (_ : TypeAnnotationLocalVarTargetEntry) : TypeAnnotationLocalVarTargetEntry := ⟨0, 0, 0⟩

/-- The kind of the target only. -/
def zeroTarget : TypeAnnotationTarget → TypeAnnotationTarget
  | .typeParameter _ => .typeParameter 0
  | .supertype _ => .supertype 0
  | .typeParameterBound _ _ => .typeParameterBound 0 0
  | .empty => .empty
  | .formalParameter _ => .formalParameter 0
  | .throws _ => .throws 0
  | .localVar vs => .localVar (vs.map zeroLocalVar)
  | .catch_ _ => .catch_ 0
  | .offset _ => .offset 0
  | .typeArgument _ _ => .typeArgument 0 0

/-- Without the index of the type argument. -/
def zeroPath (e : TypeAnnotationTargetPathEntry) : TypeAnnotationTargetPathEntry := { e with argumentIndex := 0 }

/-- Without the numbers of target and path. -/
def zeroTypeAnnotation (t : TypeAnnotation) : TypeAnnotation :=
  { t with targetType := zeroTarget t.targetType, targetPath := t.targetPath.map zeroPath }

mutual
/-- Without sizes and positions, at any depth. -/
def zeroCode : CodeData → CodeData
  | ⟨_, _, code, bytecode, exceptionTable, attributes⟩ => ⟨0, 0, code, bytecode, exceptionTable.map zeroException, zeroAttrs attributes⟩

/-- The component with zeros in its attributes. -/
def zeroComponent : RecordComponentEntry → RecordComponentEntry
  | ⟨name, descriptor, attributes⟩ => ⟨name, descriptor, zeroAttrs attributes⟩

/-- Each component. -/
def zeroComponents : List RecordComponentEntry → List RecordComponentEntry
  | [] => []
  | c :: cs => zeroComponent c :: zeroComponents cs

/-- The content with zeros, at any depth. -/
def zeroData : AttributeData → AttributeData
  | .code c => .code (zeroCode c)
  | .record l => .record (zeroComponents l)
  | .stackMapTable t => .stackMapTable (t.map zeroFrame)
  | .innerClasses l => .innerClasses (l.map zeroInner)
  | .lineNumberTable l => .lineNumberTable (l.map zeroLine)
  | .localVariableTable l => .localVariableTable (l.map zeroLocal)
  | .localVariableTypeTable l => .localVariableTypeTable (l.map zeroLocalType)
  | .runtimeVisibleTypeAnnotations l => .runtimeVisibleTypeAnnotations (l.map zeroTypeAnnotation)
  | .runtimeInvisibleTypeAnnotations l => .runtimeInvisibleTypeAnnotations (l.map zeroTypeAnnotation)
  | d => d

/-- The attribute with zeros, at any depth. -/
def zeroAttr : AttributeInfo → AttributeInfo
  | ⟨name, data⟩ => ⟨name, zeroData data⟩

/-- Each attribute. -/
def zeroAttrs : List AttributeInfo → List AttributeInfo
  | [] => []
  | a :: as => zeroAttr a :: zeroAttrs as
end

/-- The class with all those numbers, and the flags of fields and methods, set to zero. -/
def zeroed (cf : ClassFile) : ClassFile :=
  { cf with
    fields := cf.fields.map fun f => { f with accessFlags := 0, attributes := zeroAttrs f.attributes }
    methods := cf.methods.map fun m => { m with accessFlags := 0, attributes := zeroAttrs m.attributes }
    attributes := zeroAttrs cf.attributes }

mutual
/-- The flags of inner classes are known ones, at any depth. -/
def KnownCode : CodeData → Prop
  | ⟨_, _, _, _, _, attributes⟩ => KnownAttrs attributes

/-- In the attributes of the component. -/
def KnownComponent : RecordComponentEntry → Prop
  | ⟨_, _, attributes⟩ => KnownAttrs attributes

/-- In each component. -/
def KnownComponents : List RecordComponentEntry → Prop
  | [] => True
  | c :: cs => KnownComponent c ∧ KnownComponents cs

/-- The flags of inner classes are known ones, at any depth. -/
def KnownData : AttributeData → Prop
  | .code c => KnownCode c
  | .record l => KnownComponents l
  | .innerClasses l => ∀ e ∈ l, e.accessFlags &&& 0x761F = e.accessFlags
  | _ => True

/-- In the content of the attribute. -/
def KnownAttr : AttributeInfo → Prop
  | ⟨_, data⟩ => KnownData data

/-- In each attribute. -/
def KnownAttrs : List AttributeInfo → Prop
  | [] => True
  | a :: as => KnownAttr a ∧ KnownAttrs as
end

/-- The flags of fields, methods and inner classes are flags the crate knows for them. -/
def KnownFlags (cf : ClassFile) : Prop :=
  (∀ f ∈ cf.fields, f.accessFlags &&& 0x50DF = f.accessFlags ∧ KnownAttrs f.attributes) ∧
    (∀ m ∈ cf.methods, m.accessFlags &&& 0x1DFF = m.accessFlags ∧ KnownAttrs m.attributes) ∧ KnownAttrs cf.attributes

end Cafebabe.Spec
