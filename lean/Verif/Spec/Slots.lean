import Verif.Spec.ClassFile
import Batteries.Data.List.Basic
/-!
# Specification: two class files that differ in their constants only

`P` is a pair of constant pools. Two results correspond if they are equal but for what was taken from the pools, and each thing taken from
the first pool corresponds to the thing that the second pool has in the same slot.
-/

namespace Cafebabe.Spec

/-- Some slot stands for `a` in the first pool and for `b` in the second. -/
def Both {α : Type} (P : Pool × Pool) (F : Pool → Nat → α → Prop) (a b : α) : Prop := ∃ i, F P.1 i a ∧ F P.2 i b

/-- Slot `i` is an Integer constant. -/
def IntegerAt (pool : Pool) (i : Nat) (v : Int32) : Prop := pool[i]? = some (.integer v)

/-- Slot `i` is a Float constant. -/
def FloatAt (pool : Pool) (i : Nat) (v : UInt32) : Prop := pool[i]? = some (.float v)

/-- Slot `i` is a Long constant. -/
def LongAt (pool : Pool) (i : Nat) (v : Int64) : Prop := pool[i]? = some (.long v)

/-- Slot `i` is a Double constant. -/
def DoubleAt (pool : Pool) (i : Nat) (v : UInt64) : Prop := pool[i]? = some (.double v)

/-- Slot `i` is a method reference of either sort. -/
def AnyMethodAt (pool : Pool) (i : Nat) (m : MemberRef) : Prop := MethodRefAt pool i m ∨ InterfaceMethodRefAt pool i m

/-- The attributes with a predefined layout are the same on both sides. -/
def SameAttributeNames (P : Pool × Pool) : Prop :=
  ∀ s t, Both P TextAt s t → (s ∈ predefinedNames ∨ t ∈ predefinedNames) → s = t

/-! ## Code -/

/-- An instruction that refers to no constant. -/
def constantFree : Opcode → Bool
  | .ldc _ | .ldcW _ | .ldc2W _ | .getstatic _ | .putstatic _ | .getfield _ | .putfield _ | .invokevirtual _ | .invokespecial _
  | .invokestatic _ | .invokeinterface _ _ | .invokedynamic _ | .new _ | .anewarray _ | .checkcast _ | .instanceof _ | .multianewarray _ _ => false
  | _ => true

/-- Corresponding instructions. -/
inductive OpcodePair (P : Pool × Pool) : Opcode → Opcode → Prop where
  | same {op : Opcode} : constantFree op = true → OpcodePair P op op
  | ldc {a b : Loadable} : Both P LoadableAt a b → OpcodePair P (.ldc a) (.ldc b)
  | ldcW {a b : Loadable} : Both P LoadableAt a b → OpcodePair P (.ldcW a) (.ldcW b)
  | ldc2W {a b : Loadable} : Both P LoadableAt a b → OpcodePair P (.ldc2W a) (.ldc2W b)
  | getstatic {a b : MemberRef} : Both P FieldRefAt a b → OpcodePair P (.getstatic a) (.getstatic b)
  | putstatic {a b : MemberRef} : Both P FieldRefAt a b → OpcodePair P (.putstatic a) (.putstatic b)
  | getfield {a b : MemberRef} : Both P FieldRefAt a b → OpcodePair P (.getfield a) (.getfield b)
  | putfield {a b : MemberRef} : Both P FieldRefAt a b → OpcodePair P (.putfield a) (.putfield b)
  | invokevirtual {a b : MemberRef} : Both P MethodRefAt a b → OpcodePair P (.invokevirtual a) (.invokevirtual b)
  | invokespecial {a b : MemberRef} : Both P AnyMethodAt a b → OpcodePair P (.invokespecial a) (.invokespecial b)
  | invokestatic {a b : MemberRef} : Both P AnyMethodAt a b → OpcodePair P (.invokestatic a) (.invokestatic b)
  | invokeinterface {a b : MemberRef} {k : UInt8} : Both P InterfaceMethodRefAt a b → OpcodePair P (.invokeinterface a k) (.invokeinterface b k)
  | invokedynamic {a b : DynamicRef} : Both P InvokeDynamicAt a b → OpcodePair P (.invokedynamic a) (.invokedynamic b)
  | new {a b : Str} : Both P ClassAt a b → OpcodePair P (.new a) (.new b)
  | anewarray {a b : ObjectArrayType} : Both P ObjectTypeAt a b → OpcodePair P (.anewarray a) (.anewarray b)
  | checkcast {a b : ObjectArrayType} : Both P ObjectTypeAt a b → OpcodePair P (.checkcast a) (.checkcast b)
  | instanceof {a b : ObjectArrayType} : Both P ObjectTypeAt a b → OpcodePair P (.instanceof a) (.instanceof b)
  | multianewarray {a b : ObjectArrayType} {k : UInt8} : Both P ObjectTypeAt a b → OpcodePair P (.multianewarray a k) (.multianewarray b k)

/-- Corresponding bytecode: the same offsets, corresponding instructions; or none on either side. -/
inductive BytecodePair (P : Pool × Pool) : Option ByteCode → Option ByteCode → Prop where
  | none : BytecodePair P none none
  | some {a b : ByteCode} : List.Forall₂ (fun x y => x.1 = y.1 ∧ OpcodePair P x.2 y.2) a.opcodes b.opcodes → BytecodePair P (some a) (some b)

/-- Corresponding exception table rows. -/
def ExceptionPair (P : Pool × Pool) (a b : ExceptionTableEntry) : Prop :=
  a.startPc = b.startPc ∧ a.endPc = b.endPc ∧ a.handlerPc = b.handlerPc ∧ Both P (OptAt ClassAt) a.catchType b.catchType

/-- Corresponding verification types. -/
inductive VerificationPair (P : Pool × Pool) : VerificationType → VerificationType → Prop where
  | same {v : VerificationType} : (∀ c, v ≠ .object c) → VerificationPair P v v
  | object {c d : Str} : Both P ClassAt c d → VerificationPair P (.object c) (.object d)

/-- Corresponding stack map frames. -/
inductive FramePair (P : Pool × Pool) : StackMapEntry → StackMapEntry → Prop where
  | same {d : UInt16} : FramePair P (.same d) (.same d)
  | oneItem {d : UInt16} {v w : VerificationType} : VerificationPair P v w → FramePair P (.sameLocals1StackItem d v) (.sameLocals1StackItem d w)
  | chop {d k : UInt16} : FramePair P (.chop d k) (.chop d k)
  | append {d : UInt16} {l m : List VerificationType} : List.Forall₂ (VerificationPair P) l m → FramePair P (.append d l) (.append d m)
  | full {d : UInt16} {l m s t : List VerificationType} :
      List.Forall₂ (VerificationPair P) l m → List.Forall₂ (VerificationPair P) s t → FramePair P (.fullFrame d l s) (.fullFrame d m t)

/-! ## Tables -/

/-- Corresponding inner classes. -/
def InnerClassPair (P : Pool × Pool) (a b : InnerClassEntry) : Prop :=
  Both P ClassAt a.innerClassInfo b.innerClassInfo ∧ Both P (OptAt ClassAt) a.outerClassInfo b.outerClassInfo ∧
    Both P (OptAt TextAt) a.innerName b.innerName ∧ a.accessFlags = b.accessFlags

/-- Corresponding local variables. -/
def LocalVariablePair (P : Pool × Pool) (a b : LocalVariableEntry) : Prop :=
  a.startPc = b.startPc ∧ a.length = b.length ∧ Both P TextAt a.name b.name ∧ Both P FieldDescriptorAt a.descriptor b.descriptor ∧ a.index = b.index

/-- Corresponding local variables with generic types. -/
def LocalVariableTypePair (P : Pool × Pool) (a b : LocalVariableTypeEntry) : Prop :=
  a.startPc = b.startPc ∧ a.length = b.length ∧ Both P TextAt a.name b.name ∧ Both P TextAt a.signature b.signature ∧ a.index = b.index

/-- Corresponding bootstrap methods. -/
def BootstrapMethodPair (P : Pool × Pool) (a b : BootstrapMethodEntry) : Prop :=
  Both P MethodHandleAt a.method b.method ∧ List.Forall₂ (Both P BootstrapArgumentAt) a.arguments b.arguments

/-- Corresponding method parameters. -/
def MethodParameterPair (P : Pool × Pool) (a b : MethodParameterEntry) : Prop := Both P (OptAt TextAt) a.name b.name ∧ a.accessFlags = b.accessFlags

/-- Corresponding `requires`. -/
def RequirePair (P : Pool × Pool) (a b : ModuleRequireEntry) : Prop :=
  Both P ModuleAt a.name b.name ∧ a.flags = b.flags ∧ Both P (OptAt TextAt) a.version b.version

/-- Corresponding `exports`. -/
def ExportsPair (P : Pool × Pool) (a b : ModuleExportsEntry) : Prop :=
  Both P PackageAt a.packageName b.packageName ∧ a.flags = b.flags ∧ List.Forall₂ (Both P ModuleAt) a.exportsTo b.exportsTo

/-- Corresponding `opens`. -/
def OpensPair (P : Pool × Pool) (a b : ModuleOpensEntry) : Prop :=
  Both P PackageAt a.packageName b.packageName ∧ a.flags = b.flags ∧ List.Forall₂ (Both P ModuleAt) a.opensTo b.opensTo

/-- Corresponding `provides`. -/
def ProvidesPair (P : Pool × Pool) (a b : ModuleProvidesEntry) : Prop :=
  Both P ClassAt a.serviceInterfaceName b.serviceInterfaceName ∧ List.Forall₂ (Both P ClassAt) a.providesWith b.providesWith

/-- Corresponding modules. -/
def ModulePair (P : Pool × Pool) (a b : ModuleData) : Prop :=
  Both P ModuleAt a.name b.name ∧ a.accessFlags = b.accessFlags ∧ Both P (OptAt TextAt) a.version b.version ∧
    List.Forall₂ (RequirePair P) a.requires b.requires ∧ List.Forall₂ (ExportsPair P) a.exports b.exports ∧
    List.Forall₂ (OpensPair P) a.opens b.opens ∧ List.Forall₂ (Both P ClassAt) a.uses b.uses ∧ List.Forall₂ (ProvidesPair P) a.provides b.provides

/-! ## Annotations -/

mutual
/-- Corresponding element values. -/
inductive ElementValuePair (P : Pool × Pool) : AnnotationElementValue → AnnotationElementValue → Prop where
  | byteConstant {a b : Int32} : Both P IntegerAt a b → ElementValuePair P (.byteConstant a) (.byteConstant b)
  | charConstant {a b : Int32} : Both P IntegerAt a b → ElementValuePair P (.charConstant a) (.charConstant b)
  | doubleConstant {a b : UInt64} : Both P DoubleAt a b → ElementValuePair P (.doubleConstant a) (.doubleConstant b)
  | floatConstant {a b : UInt32} : Both P FloatAt a b → ElementValuePair P (.floatConstant a) (.floatConstant b)
  | intConstant {a b : Int32} : Both P IntegerAt a b → ElementValuePair P (.intConstant a) (.intConstant b)
  | longConstant {a b : Int64} : Both P LongAt a b → ElementValuePair P (.longConstant a) (.longConstant b)
  | shortConstant {a b : Int32} : Both P IntegerAt a b → ElementValuePair P (.shortConstant a) (.shortConstant b)
  | booleanConstant {a b : Int32} : Both P IntegerAt a b → ElementValuePair P (.booleanConstant a) (.booleanConstant b)
  | stringConstant {a b : Str} : Both P TextAt a b → ElementValuePair P (.stringConstant a) (.stringConstant b)
  | enumConstant {a b : FieldDescriptor} {c d : Str} :
      Both P FieldDescriptorAt a b → Both P TextAt c d → ElementValuePair P (.enumConstant a c) (.enumConstant b d)
  | classLiteral {a b : Str} : Both P TextAt a b → ElementValuePair P (.classLiteral a) (.classLiteral b)
  | annotationValue {a b : Annotation} : AnnotationPair P a b → ElementValuePair P (.annotationValue a) (.annotationValue b)
  | arrayValue {l m : List AnnotationElementValue} : ElementValuesPair P l m → ElementValuePair P (.arrayValue l) (.arrayValue m)

/-- Corresponding lists of element values, of the same length. -/
inductive ElementValuesPair (P : Pool × Pool) : List AnnotationElementValue → List AnnotationElementValue → Prop where
  | nil : ElementValuesPair P [] []
  | cons {a b : AnnotationElementValue} {l m : List AnnotationElementValue} :
      ElementValuePair P a b → ElementValuesPair P l m → ElementValuesPair P (a :: l) (b :: m)

/-- Corresponding annotations. -/
inductive AnnotationPair (P : Pool × Pool) : Annotation → Annotation → Prop where
  | mk {a b : FieldDescriptor} {l m : List AnnotationElement} :
      Both P FieldDescriptorAt a b → ElementsPair P l m → AnnotationPair P ⟨a, l⟩ ⟨b, m⟩

/-- Corresponding lists of element-value pairs, of the same length. -/
inductive ElementsPair (P : Pool × Pool) : List AnnotationElement → List AnnotationElement → Prop where
  | nil : ElementsPair P [] []
  | cons {a b : Str} {v w : AnnotationElementValue} {l m : List AnnotationElement} :
      Both P TextAt a b → ElementValuePair P v w → ElementsPair P l m → ElementsPair P (⟨a, v⟩ :: l) (⟨b, w⟩ :: m)
end

/-- Corresponding annotations of a parameter. -/
def ParameterAnnotationPair (P : Pool × Pool) (a b : ParameterAnnotation) : Prop := List.Forall₂ (AnnotationPair P) a.annotations b.annotations

/-- Corresponding type annotations: the same target and path. -/
def TypeAnnotationPair (P : Pool × Pool) (a b : TypeAnnotation) : Prop :=
  a.targetType = b.targetType ∧ a.targetPath = b.targetPath ∧ AnnotationPair P a.annotation b.annotation

/-! ## Attributes and the class -/

mutual
/-- Corresponding code: the same bytes. -/
inductive CodePair (P : Pool × Pool) : CodeData → CodeData → Prop where
  | mk {maxStack maxLocals : UInt16} {code : Bytes} {b c : Option ByteCode} {t u : List ExceptionTableEntry} {l m : List AttributeInfo} :
      BytecodePair P b c → List.Forall₂ (ExceptionPair P) t u → AttrsPair P l m →
        CodePair P ⟨maxStack, maxLocals, code, b, t, l⟩ ⟨maxStack, maxLocals, code, c, u, m⟩

/-- Corresponding lists of record components, of the same length. -/
inductive ComponentsPair (P : Pool × Pool) : List RecordComponentEntry → List RecordComponentEntry → Prop where
  | nil : ComponentsPair P [] []
  | cons {a b : Str} {d e : FieldDescriptor} {l m : List AttributeInfo} {cs ds : List RecordComponentEntry} :
      Both P TextAt a b → Both P FieldDescriptorAt d e → AttrsPair P l m → ComponentsPair P cs ds →
        ComponentsPair P (⟨a, d, l⟩ :: cs) (⟨b, e, m⟩ :: ds)

/-- Corresponding contents of attributes. -/
inductive DataPair (P : Pool × Pool) : AttributeData → AttributeData → Prop where
  | constantValue {a b : LiteralConstant} : Both P LiteralAt a b → DataPair P (.constantValue a) (.constantValue b)
  | code {a b : CodeData} : CodePair P a b → DataPair P (.code a) (.code b)
  | stackMapTable {l m : List StackMapEntry} : List.Forall₂ (FramePair P) l m → DataPair P (.stackMapTable l) (.stackMapTable m)
  | exceptions {l m : List Str} : List.Forall₂ (Both P ClassAt) l m → DataPair P (.exceptions l) (.exceptions m)
  | innerClasses {l m : List InnerClassEntry} : List.Forall₂ (InnerClassPair P) l m → DataPair P (.innerClasses l) (.innerClasses m)
  | enclosingMethod {a b : Str} {x y : Option NameAndType} :
      Both P ClassAt a b → Both P (OptAt NameAndTypeAt) x y → DataPair P (.enclosingMethod a x) (.enclosingMethod b y)
  | synthetic : DataPair P .synthetic .synthetic
  | signature {a b : Str} : Both P TextAt a b → DataPair P (.signature a) (.signature b)
  | sourceFile {a b : Str} : Both P TextAt a b → DataPair P (.sourceFile a) (.sourceFile b)
  | sourceDebugExtension {s : Str} : DataPair P (.sourceDebugExtension s) (.sourceDebugExtension s)
  | lineNumberTable {l : List LineNumberEntry} : DataPair P (.lineNumberTable l) (.lineNumberTable l)
  | localVariableTable {l m : List LocalVariableEntry} :
      List.Forall₂ (LocalVariablePair P) l m → DataPair P (.localVariableTable l) (.localVariableTable m)
  | localVariableTypeTable {l m : List LocalVariableTypeEntry} :
      List.Forall₂ (LocalVariableTypePair P) l m → DataPair P (.localVariableTypeTable l) (.localVariableTypeTable m)
  | deprecated : DataPair P .deprecated .deprecated
  | runtimeVisibleAnnotations {l m : List Annotation} :
      List.Forall₂ (AnnotationPair P) l m → DataPair P (.runtimeVisibleAnnotations l) (.runtimeVisibleAnnotations m)
  | runtimeInvisibleAnnotations {l m : List Annotation} :
      List.Forall₂ (AnnotationPair P) l m → DataPair P (.runtimeInvisibleAnnotations l) (.runtimeInvisibleAnnotations m)
  | runtimeVisibleParameterAnnotations {l m : List ParameterAnnotation} : List.Forall₂ (ParameterAnnotationPair P) l m →
      DataPair P (.runtimeVisibleParameterAnnotations l) (.runtimeVisibleParameterAnnotations m)
  | runtimeInvisibleParameterAnnotations {l m : List ParameterAnnotation} : List.Forall₂ (ParameterAnnotationPair P) l m →
      DataPair P (.runtimeInvisibleParameterAnnotations l) (.runtimeInvisibleParameterAnnotations m)
  | runtimeVisibleTypeAnnotations {l m : List TypeAnnotation} :
      List.Forall₂ (TypeAnnotationPair P) l m → DataPair P (.runtimeVisibleTypeAnnotations l) (.runtimeVisibleTypeAnnotations m)
  | runtimeInvisibleTypeAnnotations {l m : List TypeAnnotation} :
      List.Forall₂ (TypeAnnotationPair P) l m → DataPair P (.runtimeInvisibleTypeAnnotations l) (.runtimeInvisibleTypeAnnotations m)
  | annotationDefault {v w : AnnotationElementValue} : ElementValuePair P v w → DataPair P (.annotationDefault v) (.annotationDefault w)
  | bootstrapMethods {l m : List BootstrapMethodEntry} :
      List.Forall₂ (BootstrapMethodPair P) l m → DataPair P (.bootstrapMethods l) (.bootstrapMethods m)
  | methodParameters {l m : List MethodParameterEntry} :
      List.Forall₂ (MethodParameterPair P) l m → DataPair P (.methodParameters l) (.methodParameters m)
  | moduleAttr {a b : ModuleData} : ModulePair P a b → DataPair P (.moduleAttr a) (.moduleAttr b)
  | modulePackages {l m : List Str} : List.Forall₂ (Both P PackageAt) l m → DataPair P (.modulePackages l) (.modulePackages m)
  | moduleMainClass {a b : Str} : Both P ClassAt a b → DataPair P (.moduleMainClass a) (.moduleMainClass b)
  | nestHost {a b : Str} : Both P ClassAt a b → DataPair P (.nestHost a) (.nestHost b)
  | nestMembers {l m : List Str} : List.Forall₂ (Both P ClassAt) l m → DataPair P (.nestMembers l) (.nestMembers m)
  | permittedSubclasses {l m : List Str} : List.Forall₂ (Both P ClassAt) l m → DataPair P (.permittedSubclasses l) (.permittedSubclasses m)
  | record {l m : List RecordComponentEntry} : ComponentsPair P l m → DataPair P (.record l) (.record m)
  | other {b : Bytes} : DataPair P (.other b) (.other b)

/-- Corresponding lists of attributes, of the same length. -/
inductive AttrsPair (P : Pool × Pool) : List AttributeInfo → List AttributeInfo → Prop where
  | nil : AttrsPair P [] []
  | cons {a b : Str} {d e : AttributeData} {l m : List AttributeInfo} :
      Both P TextAt a b → DataPair P d e → AttrsPair P l m → AttrsPair P (⟨a, d⟩ :: l) (⟨b, e⟩ :: m)
end

/-- Corresponding fields. -/
def FieldPair (P : Pool × Pool) (a b : FieldInfo) : Prop :=
  a.accessFlags = b.accessFlags ∧ Both P TextAt a.name b.name ∧ Both P FieldDescriptorAt a.descriptor b.descriptor ∧ AttrsPair P a.attributes b.attributes

/-- Corresponding methods. -/
def MethodPair (P : Pool × Pool) (a b : MethodInfo) : Prop :=
  a.accessFlags = b.accessFlags ∧ Both P TextAt a.name b.name ∧ Both P MethodDescriptorAt a.descriptor b.descriptor ∧ AttrsPair P a.attributes b.attributes

/-- Corresponding classes. -/
structure ClassPair (P : Pool × Pool) (a b : ClassFile) : Prop where
  accessFlags : a.accessFlags = b.accessFlags
  thisClass : Both P ClassNameAt a.thisClass b.thisClass
  superClass : Both P (OptAt ClassNameAt) a.superClass b.superClass
  interfaces : List.Forall₂ (Both P ClassNameAt) a.interfaces b.interfaces
  fields : List.Forall₂ (FieldPair P) a.fields b.fields
  methods : List.Forall₂ (MethodPair P) a.methods b.methods
  attributes : AttrsPair P a.attributes b.attributes

end Cafebabe.Spec
