import Verif.Spec.Numbers
import Verif.Spec.Nested
import Verif.Spec.Iter
/-!
# Specification: every piece of text a parsed class file shows
-/

namespace Cafebabe.Spec

/-- Something that came from a Utf8 constant: text, a parsed descriptor, or undecoded bytes. -/
inductive Shown where
  | text (s : Str)
  | field (d : FieldDescriptor)
  | method (d : MethodDescriptor)
  | raw (b : Bytes)

/-- Text that may be absent. -/
def shownOpt : Option Str → List Shown
  | some s => [.text s]
  | none => []

def shownNameAndType (n : NameAndType) : List Shown := [.text n.name, .text n.descriptor]

def shownMember (m : MemberRef) : List Shown := .text m.className :: shownNameAndType m.nameAndType

def shownHandle (h : MethodHandle) : List Shown := .text h.className :: shownNameAndType h.memberRef

def shownLiteral : LiteralConstant → List Shown
  | .string s => [.text s]
  | .stringBytes b => [.raw b]
  | _ => []

def shownLoadable : Loadable → List Shown
  | .literalConstant c => shownLiteral c
  | .classInfo s => [.text s]
  | .methodHandle h => shownHandle h
  | .methodType s => [.text s]
  | .dynamic d => shownNameAndType d.nameAndType

def shownArgument : BootstrapArgument → List Shown
  | .literalConstant c => shownLiteral c
  | .classInfo s => [.text s]
  | .methodHandle h => shownHandle h
  | .methodType s => [.text s]

def shownObject : ObjectArrayType → List Shown
  | .arrayType d => [.field d]
  | .binaryName s => [.text s]

/-- The text operands of an instruction. -/
def shownOpcode : Opcode → List Shown
  | .ldc l | .ldcW l | .ldc2W l => shownLoadable l
  | .getstatic m | .putstatic m | .getfield m | .putfield m => shownMember m
  | .invokevirtual m | .invokespecial m | .invokestatic m | .invokeinterface m _ => shownMember m
  | .invokedynamic d => shownNameAndType d.nameAndType
  | .new s => [.text s]
  | .anewarray t | .checkcast t | .instanceof t | .multianewarray t _ => shownObject t
  | _ => []

def shownVerification : VerificationType → List Shown
  | .object c => [.text c]
  | _ => []

def shownFrame : StackMapEntry → List Shown
  | .sameLocals1StackItem _ v => shownVerification v
  | .append _ locals => locals.flatMap shownVerification
  | .fullFrame _ locals stack => locals.flatMap shownVerification ++ stack.flatMap shownVerification
  | _ => []

mutual
def shownValue : AnnotationElementValue → List Shown
  | .stringConstant s => [.text s]
  | .enumConstant t c => [.field t, .text c]
  | .classLiteral s => [.text s]
  | .annotationValue a => shownAnnotation a
  | .arrayValue vs => shownValues vs
  | _ => []

def shownValues : List AnnotationElementValue → List Shown
  | [] => []
  | v :: vs => shownValue v ++ shownValues vs

def shownAnnotation : Annotation → List Shown
  | ⟨d, es⟩ => .field d :: shownElements es

def shownElements : List AnnotationElement → List Shown
  | [] => []
  | ⟨n, v⟩ :: es => .text n :: (shownValue v ++ shownElements es)
end

def shownModule (d : ModuleData) : List Shown :=
  .text d.name :: (shownOpt d.version ++ d.requires.flatMap (fun e => .text e.name :: shownOpt e.version) ++
    d.exports.flatMap (fun e => .text e.packageName :: e.exportsTo.map .text) ++
    d.opens.flatMap (fun e => .text e.packageName :: e.opensTo.map .text) ++ d.uses.map .text ++
    d.provides.flatMap (fun e => .text e.serviceInterfaceName :: e.providesWith.map .text))

/-- What an attribute shows, nested attributes not included. SourceDebugExtension text does not come from a constant: see `C39_source_debug`. -/
def shownData : AttributeData → List Shown
  | .constantValue c => shownLiteral c
  | .code c => c.exceptionTable.flatMap (fun e => shownOpt e.catchType) ++
      (match c.bytecode with | some bc => bc.opcodes.flatMap fun p => shownOpcode p.2 | none => [])
  | .stackMapTable t => t.flatMap shownFrame
  | .exceptions l => l.map .text
  | .innerClasses l => l.flatMap fun e => .text e.innerClassInfo :: (shownOpt e.outerClassInfo ++ shownOpt e.innerName)
  | .enclosingMethod c m => .text c :: (match m with | some n => shownNameAndType n | none => [])
  | .synthetic => []
  | .signature s => [.text s]
  | .sourceFile s => [.text s]
  | .sourceDebugExtension _ => []
  | .lineNumberTable _ => []
  | .localVariableTable l => l.flatMap fun e => [.text e.name, .field e.descriptor]
  | .localVariableTypeTable l => l.flatMap fun e => [.text e.name, .text e.signature]
  | .deprecated => []
  | .runtimeVisibleAnnotations l | .runtimeInvisibleAnnotations l => l.flatMap shownAnnotation
  | .runtimeVisibleParameterAnnotations l | .runtimeInvisibleParameterAnnotations l => l.flatMap fun p => p.annotations.flatMap shownAnnotation
  | .runtimeVisibleTypeAnnotations l | .runtimeInvisibleTypeAnnotations l => l.flatMap fun t => shownAnnotation t.annotation
  | .annotationDefault v => shownValue v
  | .bootstrapMethods l => l.flatMap fun e => shownHandle e.method ++ e.arguments.flatMap shownArgument
  | .methodParameters l => l.flatMap fun e => shownOpt e.name
  | .moduleAttr d => shownModule d
  | .modulePackages l | .nestMembers l | .permittedSubclasses l => l.map .text
  | .moduleMainClass s | .nestHost s => [.text s]
  | .record l => l.flatMap fun r => [.text r.name, .field r.descriptor]
  | .other _ => []

/-- What an item of the constant-pool iterator shows. -/
def shownItem : ConstantPoolItem → List Shown
  | .literalConstant c => shownLiteral c
  | .classInfo s | .methodType s | .moduleInfo s | .packageInfo s => [.text s]
  | .fieldRef m | .methodRef m | .interfaceMethodRef m => shownMember m
  | .nameAndType n => shownNameAndType n
  | .methodHandle h => shownHandle h
  | .dynamic d | .invokeDynamic d => shownNameAndType d.nameAndType

/-- Everything a parsed class file shows: names, descriptors, attributes at any depth, constants. -/
inductive ShownBy (cf : ClassFile) : Shown → Prop where
  | thisClass : ShownBy cf (.text cf.thisClass.name)
  | superClass {c : ClassName} : cf.superClass = some c → ShownBy cf (.text c.name)
  | interface {c : ClassName} : c ∈ cf.interfaces → ShownBy cf (.text c.name)
  | fieldName {f : FieldInfo} : f ∈ cf.fields → ShownBy cf (.text f.name)
  | fieldDescriptor {f : FieldInfo} : f ∈ cf.fields → ShownBy cf (.field f.descriptor)
  | methodName {m : MethodInfo} : m ∈ cf.methods → ShownBy cf (.text m.name)
  | methodDescriptor {m : MethodInfo} : m ∈ cf.methods → ShownBy cf (.method m.descriptor)
  | attributeName {a : AttributeInfo} : AttrOf cf a → ShownBy cf (.text a.name)
  | attributeData {a : AttributeInfo} {x : Shown} : AttrOf cf a → x ∈ shownData a.data → ShownBy cf x
  | item {i : Nat} {t : ConstantPoolItem} {x : Shown} : ItemAt cf.constantPool i t → x ∈ shownItem t → ShownBy cf x

/-- `s` is the decoded content of some Utf8 constant of the file. -/
def Decoded (o : Opts) (bytes : Bytes) (s : Str) : Prop := ∃ i data, RawUtf8 bytes i data ∧ o.decode data = some s

/-- Where something shown comes from: text is the decoded content of a Utf8 constant, a descriptor is parsed from such text, and undecoded bytes
are exactly the content of a Utf8 constant that cannot be decoded. -/
def FromConstant (o : Opts) (bytes : Bytes) : Shown → Prop
  | .text s => Decoded o bytes s
  | .field d => ∃ s, Decoded o bytes s ∧ FieldPrefix d s
  | .method d => ∃ s, Decoded o bytes s ∧ MethodPrefix d s
  | .raw b => (∃ i, RawUtf8 bytes i b) ∧ o.decode b = none

end Cafebabe.Spec
