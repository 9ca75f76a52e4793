import Verif.Model.Attributes
import Verif.Spec.Bytecode
/-!
# Specification: attributes (JVMS 4.7)

Only data types of the model are used, none of its functions.
-/

namespace Cafebabe.Spec

/-- What the format depends on besides the bytes: how modified UTF-8 is decoded, whether the build has overflow checks, and whether
bytecode is parsed. -/
structure Opts where
  decode : Bytes → Option Str
  checks : Bool
  parseBytecode : Bool

/-- Slot `i` is the text of a field descriptor (trailing text ignored). -/
def FieldDescriptorAt (pool : Pool) (i : Nat) (d : FieldDescriptor) : Prop := ∃ s, TextAt pool i s ∧ FieldPrefix d s

/-- Slot `i` is the text of a method descriptor (trailing text ignored). -/
def MethodDescriptorAt (pool : Pool) (i : Nat) (d : MethodDescriptor) : Prop := ∃ s, TextAt pool i s ∧ MethodPrefix d s

/-- A flag word of which the bits outside `mask` are dropped. -/
def maskedFlags (mask : UInt16) (flags : UInt16) : Lang := fun seg => ∃ bits : UInt16, flags = bits &&& mask ∧ seg = u2 bits

/-- A flag word without bits outside `mask`. -/
def strictFlags (mask : UInt16) (flags : UInt16) : Lang := fun seg => flags &&& mask = flags ∧ seg = u2 flags

/-! ## Code, StackMapTable -/

/-- JVMS 4.7.3 exception table row. -/
def ExceptionEnc (pool : Pool) (e : ExceptionTableEntry) : Lang :=
  lit (u2 e.startPc) ⬝ lit (u2 e.endPc) ⬝ lit (u2 e.handlerPc) ⬝ ref fun i => OptAt ClassAt pool i e.catchType

/-- JVMS 4.7.4 verification type. -/
def VerificationEnc (pool : Pool) (v : VerificationType) : Lang :=
  match v with
  | .top => lit [0]
  | .integer => lit [1]
  | .float => lit [2]
  | .double => lit [3]
  | .long => lit [4]
  | .null => lit [5]
  | .uninitializedThis => lit [6]
  | .object c => lit [7] ⬝ ref fun i => ClassAt pool i c
  | .uninitialized o => lit [8] ⬝ lit (u2 o)

/-- JVMS 4.7.4 stack map frame. -/
def FrameEnc (pool : Pool) (f : StackMapEntry) : Lang :=
  match f with
  | .same d => fun seg => (d < 64 ∧ seg = [d.toUInt8]) ∨ seg = [251] ++ u2 d
  | .sameLocals1StackItem d v => fun seg =>
    (d < 64 ∧ (lit [64 + d.toUInt8] ⬝ VerificationEnc pool v) seg) ∨ (lit ([247] ++ u2 d) ⬝ VerificationEnc pool v) seg
  | .chop d k => fun seg => 1 ≤ k ∧ k ≤ 3 ∧ seg = [251 - k.toUInt8] ++ u2 d
  | .append d locals =>
    when (1 ≤ locals.length ∧ locals.length ≤ 3)
      (lit ([251 + UInt8.ofNat locals.length] ++ u2 d) ⬝ seq (VerificationEnc pool) locals)
  | .fullFrame d locals stack =>
    lit ([255] ++ u2 d) ⬝ table2 (VerificationEnc pool) locals ⬝ table2 (VerificationEnc pool) stack

/-! ## Fixed-layout tables -/

/-- JVMS 4.7.6. -/
def InnerClassEnc (pool : Pool) (e : InnerClassEntry) : Lang :=
  (ref fun i => ClassAt pool i e.innerClassInfo) ⬝ (ref fun i => OptAt ClassAt pool i e.outerClassInfo) ⬝
    (ref fun i => OptAt TextAt pool i e.innerName) ⬝ maskedFlags 0x761F e.accessFlags

/-- JVMS 4.7.12. -/
def LineNumberEnc (e : LineNumberEntry) : Lang := lit (u2 e.startPc) ⬝ lit (u2 e.lineNumber)

/-- JVMS 4.7.13. -/
def LocalVariableEnc (pool : Pool) (e : LocalVariableEntry) : Lang :=
  when (UnqualifiedName e.name)
    (lit (u2 e.startPc) ⬝ lit (u2 e.length) ⬝ (ref fun i => TextAt pool i e.name) ⬝
      (ref fun i => FieldDescriptorAt pool i e.descriptor) ⬝ lit (u2 e.index))

/-- JVMS 4.7.14. -/
def LocalVariableTypeEnc (pool : Pool) (e : LocalVariableTypeEntry) : Lang :=
  when (UnqualifiedName e.name)
    (lit (u2 e.startPc) ⬝ lit (u2 e.length) ⬝ (ref fun i => TextAt pool i e.name) ⬝
      (ref fun i => TextAt pool i e.signature) ⬝ lit (u2 e.index))

/-- JVMS 4.7.23. -/
def BootstrapMethodEnc (pool : Pool) (e : BootstrapMethodEntry) : Lang :=
  (ref fun i => MethodHandleAt pool i e.method) ⬝
    table2 (fun a => ref fun i => BootstrapArgumentAt pool i a) e.arguments

/-- JVMS 4.7.24. -/
def MethodParameterEnc (pool : Pool) (e : MethodParameterEntry) : Lang :=
  when (∀ n, e.name = some n → UnqualifiedName n)
    ((ref fun i => OptAt TextAt pool i e.name) ⬝ strictFlags 0x9010 e.accessFlags)

/-- JVMS 4.7.25 `requires`. -/
def RequireEnc (pool : Pool) (e : ModuleRequireEntry) : Lang :=
  (ref fun i => ModuleAt pool i e.name) ⬝ strictFlags 0x9060 e.flags ⬝ ref fun i => OptAt TextAt pool i e.version

/-- JVMS 4.7.25 `exports`. -/
def ExportsEnc (pool : Pool) (e : ModuleExportsEntry) : Lang :=
  (ref fun i => PackageAt pool i e.packageName) ⬝ strictFlags 0x9000 e.flags ⬝
    table2 (fun s => ref fun i => ModuleAt pool i s) e.exportsTo

/-- JVMS 4.7.25 `opens`. -/
def OpensEnc (pool : Pool) (e : ModuleOpensEntry) : Lang :=
  (ref fun i => PackageAt pool i e.packageName) ⬝ strictFlags 0x9000 e.flags ⬝
    table2 (fun s => ref fun i => ModuleAt pool i s) e.opensTo

/-- JVMS 4.7.25 `provides`. -/
def ProvidesEnc (pool : Pool) (e : ModuleProvidesEntry) : Lang :=
  (ref fun i => ClassAt pool i e.serviceInterfaceName) ⬝ table2 (fun s => ref fun i => ClassAt pool i s) e.providesWith

/-- JVMS 4.7.25. -/
def ModuleDataEnc (pool : Pool) (d : ModuleData) : Lang :=
  (ref fun i => ModuleAt pool i d.name) ⬝ strictFlags 0x9020 d.accessFlags ⬝
    (ref fun i => OptAt TextAt pool i d.version) ⬝ table2 (RequireEnc pool) d.requires ⬝
    table2 (ExportsEnc pool) d.exports ⬝ table2 (OpensEnc pool) d.opens ⬝
    table2 (fun s => ref fun i => ClassAt pool i s) d.uses ⬝ table2 (ProvidesEnc pool) d.provides

/-! ## Annotations -/

mutual
/-- JVMS 4.7.16.1 `element_value`. -/
def ElementValueEnc (pool : Pool) : AnnotationElementValue → Lang
  | .byteConstant v => lit [66] ⬝ ref fun i => pool[i]? = some (.integer v)
  | .charConstant v => lit [67] ⬝ ref fun i => pool[i]? = some (.integer v)
  | .doubleConstant v => lit [68] ⬝ ref fun i => pool[i]? = some (.double v)
  | .floatConstant v => lit [70] ⬝ ref fun i => pool[i]? = some (.float v)
  | .intConstant v => lit [73] ⬝ ref fun i => pool[i]? = some (.integer v)
  | .longConstant v => lit [74] ⬝ ref fun i => pool[i]? = some (.long v)
  | .shortConstant v => lit [83] ⬝ ref fun i => pool[i]? = some (.integer v)
  | .booleanConstant v => lit [90] ⬝ ref fun i => pool[i]? = some (.integer v)
  | .stringConstant s => lit [115] ⬝ ref fun i => TextAt pool i s
  | .enumConstant t c => lit [101] ⬝ (ref fun i => FieldDescriptorAt pool i t) ⬝ ref fun i => TextAt pool i c
  | .classLiteral s => lit [99] ⬝ ref fun i => TextAt pool i s ∧ IsReturnDescriptor s
  | .annotationValue a => lit [64] ⬝ AnnotationEnc pool a
  | .arrayValue vs => lit [91] ⬝ counted2 vs.length (ElementValuesEnc pool vs)

/-- Element values one after the other. -/
def ElementValuesEnc (pool : Pool) : List AnnotationElementValue → Lang
  | [] => lit []
  | v :: vs => ElementValueEnc pool v ⬝ ElementValuesEnc pool vs

/-- JVMS 4.7.16 `annotation`. -/
def AnnotationEnc (pool : Pool) : Annotation → Lang
  | ⟨d, es⟩ => (ref fun i => FieldDescriptorAt pool i d) ⬝ counted2 es.length (ElementsEnc pool es)

/-- Element-value pairs one after the other. -/
def ElementsEnc (pool : Pool) : List AnnotationElement → Lang
  | [] => lit []
  | ⟨n, v⟩ :: es => ((ref fun i => TextAt pool i n) ⬝ ElementValueEnc pool v) ⬝ ElementsEnc pool es
end

/-- JVMS 4.7.18, one parameter. -/
def ParameterAnnotationEnc (pool : Pool) (p : ParameterAnnotation) : Lang := table2 (AnnotationEnc pool) p.annotations

/-- JVMS 4.7.20.1 local variable target row. -/
def LocalVarEnc (e : TypeAnnotationLocalVarTargetEntry) : Lang :=
  lit (u2 e.startPc) ⬝ lit (u2 e.length) ⬝ lit (u2 e.index)

/-- One byte satisfying `p`. -/
def byteIn (p : UInt8 → Prop) : Lang := fun seg => ∃ b, p b ∧ seg = [b]

/-- JVMS 4.7.20.1 `target_type` byte with `target_info`. -/
def TargetEnc (t : TypeAnnotationTarget) : Lang :=
  match t with
  | .typeParameter k => byteIn (fun b => b = 0x00 ∨ b = 0x01) ⬝ lit (u1 k)
  | .supertype k => lit [0x10] ⬝ lit (u2 k)
  | .typeParameterBound k l => byteIn (fun b => b = 0x11 ∨ b = 0x12) ⬝ lit (u1 k) ⬝ lit (u1 l)
  | .empty => byteIn (fun b => 0x13 ≤ b ∧ b ≤ 0x15)
  | .formalParameter k => lit [0x16] ⬝ lit (u1 k)
  | .throws k => lit [0x17] ⬝ lit (u2 k)
  | .localVar vs => byteIn (fun b => b = 0x40 ∨ b = 0x41) ⬝ table2 LocalVarEnc vs
  | .catch_ k => lit [0x42] ⬝ lit (u2 k)
  | .offset o => byteIn (fun b => 0x43 ≤ b ∧ b ≤ 0x46) ⬝ lit (u2 o)
  | .typeArgument o k => byteIn (fun b => 0x47 ≤ b ∧ b ≤ 0x4B) ⬝ lit (u2 o) ⬝ lit (u1 k)

/-- JVMS 4.7.20.2 `type_path_kind`. -/
def pathKindByte : TypeAnnotationTargetPathKind → UInt8
  | .deeperArray => 0
  | .deeperNested => 1
  | .wildcardTypeArgument => 2
  | .typeArgument => 3

/-- JVMS 4.7.20.2 path element. -/
def PathEnc (e : TypeAnnotationTargetPathEntry) : Lang := lit [pathKindByte e.pathKind, e.argumentIndex]

/-- JVMS 4.7.20 `type_annotation`. -/
def TypeAnnotationEnc (pool : Pool) (t : TypeAnnotation) : Lang :=
  TargetEnc t.targetType ⬝ table1 PathEnc t.targetPath ⬝ AnnotationEnc pool t.annotation

/-! ## Attributes -/

/-- The attribute names with a predefined layout. -/
def predefinedNames : List Str := [
  "ConstantValue", "Code", "StackMapTable", "Exceptions", "InnerClasses", "EnclosingMethod", "Synthetic", "Signature",
  "SourceFile", "SourceDebugExtension", "LineNumberTable", "LocalVariableTable", "LocalVariableTypeTable", "Deprecated",
  "RuntimeVisibleAnnotations", "RuntimeInvisibleAnnotations", "RuntimeVisibleParameterAnnotations",
  "RuntimeInvisibleParameterAnnotations", "RuntimeVisibleTypeAnnotations", "RuntimeInvisibleTypeAnnotations",
  "AnnotationDefault", "BootstrapMethods", "MethodParameters", "Module", "ModulePackages", "ModuleMainClass", "NestHost",
  "NestMembers", "PermittedSubclasses", "Record"].map String.toList

/-- The bytecode field of a Code attribute: present exactly when bytecode is parsed, and then the code is its encoding. -/
def BytecodeField (o : Opts) (pool : Pool) (b : Option ByteCode) (code : Bytes) : Prop :=
  match b with
  | some bc => o.parseBytecode = true ∧ ByteCodeEnc o.checks pool bc code
  | none => o.parseBytecode = false

/-- A four-byte length, then the body, which has that length. -/
def sized4 (body : Lang) : Lang := fun seg => ∃ (n : UInt32) (b : Bytes), n.toNat = b.length ∧ body b ∧ seg = u4 n ++ b

mutual
/-- JVMS 4.7.3. -/
def CodeEnc (o : Opts) (pool : Pool) : CodeData → Lang
  | ⟨maxStack, maxLocals, code, bytecode, exceptionTable, attributes⟩ =>
    when (BytecodeField o pool bytecode code)
      (lit (u2 maxStack) ⬝ lit (u2 maxLocals) ⬝ sized4 (lit code) ⬝ table2 (ExceptionEnc pool) exceptionTable ⬝
        counted2 attributes.length (AttrsEnc o pool attributes))

/-- JVMS 4.7.30 component. -/
def ComponentEnc (o : Opts) (pool : Pool) : RecordComponentEntry → Lang
  | ⟨name, descriptor, attributes⟩ =>
    when (UnqualifiedName name)
      ((ref fun i => TextAt pool i name) ⬝ (ref fun i => FieldDescriptorAt pool i descriptor) ⬝
        counted2 attributes.length (AttrsEnc o pool attributes))

/-- Record components one after the other. -/
def ComponentsEnc (o : Opts) (pool : Pool) : List RecordComponentEntry → Lang
  | [] => lit []
  | c :: cs => ComponentEnc o pool c ⬝ ComponentsEnc o pool cs

/-- The content of an attribute of the given name. -/
def DataEnc (o : Opts) (pool : Pool) (name : Str) : AttributeData → Lang
  | .constantValue c => when (name = "ConstantValue".toList) (ref fun i => LiteralAt pool i c)
  | .code c => when (name = "Code".toList) (CodeEnc o pool c)
  | .stackMapTable t => when (name = "StackMapTable".toList) (table2 (FrameEnc pool) t)
  | .exceptions l => when (name = "Exceptions".toList) (table2 (fun s => ref fun i => ClassAt pool i s) l)
  | .innerClasses l => when (name = "InnerClasses".toList) (table2 (InnerClassEnc pool) l)
  | .enclosingMethod c m =>
    when (name = "EnclosingMethod".toList)
      ((ref fun i => ClassAt pool i c) ⬝ ref fun i => OptAt NameAndTypeAt pool i m)
  | .synthetic => when (name = "Synthetic".toList) (lit [])
  | .signature s => when (name = "Signature".toList) (ref fun i => TextAt pool i s)
  | .sourceFile s => when (name = "SourceFile".toList) (ref fun i => TextAt pool i s)
  | .sourceDebugExtension s => when (name = "SourceDebugExtension".toList) (fun seg => o.decode seg = some s)
  | .lineNumberTable l => when (name = "LineNumberTable".toList) (table2 LineNumberEnc l)
  | .localVariableTable l => when (name = "LocalVariableTable".toList) (table2 (LocalVariableEnc pool) l)
  | .localVariableTypeTable l => when (name = "LocalVariableTypeTable".toList) (table2 (LocalVariableTypeEnc pool) l)
  | .deprecated => when (name = "Deprecated".toList) (lit [])
  | .runtimeVisibleAnnotations l => when (name = "RuntimeVisibleAnnotations".toList) (table2 (AnnotationEnc pool) l)
  | .runtimeInvisibleAnnotations l => when (name = "RuntimeInvisibleAnnotations".toList) (table2 (AnnotationEnc pool) l)
  | .runtimeVisibleParameterAnnotations l =>
    when (name = "RuntimeVisibleParameterAnnotations".toList) (table1 (ParameterAnnotationEnc pool) l)
  | .runtimeInvisibleParameterAnnotations l =>
    when (name = "RuntimeInvisibleParameterAnnotations".toList) (table1 (ParameterAnnotationEnc pool) l)
  | .runtimeVisibleTypeAnnotations l =>
    when (name = "RuntimeVisibleTypeAnnotations".toList) (table2 (TypeAnnotationEnc pool) l)
  | .runtimeInvisibleTypeAnnotations l =>
    when (name = "RuntimeInvisibleTypeAnnotations".toList) (table2 (TypeAnnotationEnc pool) l)
  | .annotationDefault v => when (name = "AnnotationDefault".toList) (ElementValueEnc pool v)
  | .bootstrapMethods l => when (name = "BootstrapMethods".toList) (table2 (BootstrapMethodEnc pool) l)
  | .methodParameters l => when (name = "MethodParameters".toList) (table1 (MethodParameterEnc pool) l)
  | .moduleAttr d => when (name = "Module".toList) (ModuleDataEnc pool d)
  | .modulePackages l => when (name = "ModulePackages".toList) (table2 (fun s => ref fun i => PackageAt pool i s) l)
  | .moduleMainClass s => when (name = "ModuleMainClass".toList) (ref fun i => ClassAt pool i s)
  | .nestHost s => when (name = "NestHost".toList) (ref fun i => ClassAt pool i s)
  | .nestMembers l => when (name = "NestMembers".toList) (table2 (fun s => ref fun i => ClassAt pool i s) l)
  | .permittedSubclasses l => when (name = "PermittedSubclasses".toList) (table2 (fun s => ref fun i => ClassAt pool i s) l)
  | .record l => when (name = "Record".toList) (counted2 l.length (ComponentsEnc o pool l))
  | .other b => when (name ∉ predefinedNames) (lit b)

/-- JVMS 4.7 `attribute_info`: name, declared length, exactly that many bytes of content. -/
def AttrEnc (o : Opts) (pool : Pool) : AttributeInfo → Lang
  | ⟨name, data⟩ => (ref fun i => TextAt pool i name) ⬝ sized4 (DataEnc o pool name data)

/-- Attributes one after the other. -/
def AttrsEnc (o : Opts) (pool : Pool) : List AttributeInfo → Lang
  | [] => lit []
  | a :: as => AttrEnc o pool a ⬝ AttrsEnc o pool as
end

end Cafebabe.Spec
