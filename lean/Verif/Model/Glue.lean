import Verif.Model.ClassFile
/-!
# Model: dropping and printing a parsed class

What the compiler generates for the types of the crate: drop glue, and `fmt` of `#[derive(Debug)]`. Both start at the class and go down: a
value is visited by a call that visits the values directly inside it, one after the other. So the code is described by the tree of values.

Simplified: strings (`Cow<str>`), byte slices, numbers, flags and other values of a type without fields are `leaf`, also where drop glue does not visit
them. A `Vec`, an `Option` with something in it, a tuple, a struct, and a variant of an enum with fields are one level each. The constants of
the class are left out (see `Model/Memory` and `Model/Threads`). Printing is `{:?}`; the writers that indent for `{:#?}` add calls of their own.
-/

namespace Cafebabe

/-- A value and the values directly inside it, in order. -/
inductive Value where
  | of (inside : List Value)

namespace Value

/-- A value with nothing inside. -/
abbrev leaf : Value := .of []

/-- A `Vec`. -/
def vec {α : Type} (f : α → Value) (l : List α) : Value := .of (l.map f)

/-- An `Option`. -/
def option {α : Type} (f : α → Value) : Option α → Value
  | none => leaf
  | some a => .of [f a]

mutual
/-- Visit a value, with at most `depth` calls inside each other: the number of values visited. -/
def visit : Nat → Value → Option Nat
  | 0, _ => none
  | depth + 1, .of inside => (visitAll depth inside).map (· + 1)

/-- Visit values one after the other. -/
def visitAll : Nat → List Value → Option Nat
  | _, [] => some 0
  | depth, v :: vs =>
    match visit depth v with
    | none => none
    | some n => (visitAll depth vs).map (n + ·)
end

end Value

open Value

/-- `/repo/src/descriptors.rs:28-29` `struct ClassName`. -/
def ClassName.value (_ : ClassName) : Value := .of [leaf]

/-- `/repo/src/descriptors.rs:101-112` `enum FieldType`. -/
def FieldType.value : FieldType → Value
  | .object c => .of [c.value]
  | _ => leaf

/-- `/repo/src/descriptors.rs:140-145` `struct FieldDescriptor`. -/
def FieldDescriptor.value (d : FieldDescriptor) : Value := .of [leaf, d.fieldType.value]

/-- `/repo/src/descriptors.rs:199-203` `enum ReturnDescriptor`. -/
def ReturnDescriptor.value : ReturnDescriptor → Value
  | .ret d => .of [d.value]
  | .void => leaf

/-- `/repo/src/descriptors.rs:235-239` `struct MethodDescriptor`. -/
def MethodDescriptor.value (d : MethodDescriptor) : Value := .of [vec FieldDescriptor.value d.parameters, d.returnType.value]

/-- `/repo/src/constant_pool.rs:791-795` `struct NameAndType`. -/
def NameAndType.value (_ : NameAndType) : Value := .of [leaf, leaf]

/-- `/repo/src/constant_pool.rs:813-821` `enum LiteralConstant`. -/
def LiteralConstant.value (_ : LiteralConstant) : Value := .of [leaf]

/-- `/repo/src/constant_pool.rs:887-891` `struct MemberRef`. -/
def MemberRef.value (m : MemberRef) : Value := .of [leaf, m.nameAndType.value]

/-- `/repo/src/constant_pool.rs:914-918` `struct InvokeDynamic`, `/repo/src/constant_pool.rs:935-939` `struct Dynamic`. -/
def DynamicRef.value (d : DynamicRef) : Value := .of [leaf, d.nameAndType.value]

/-- `/repo/src/constant_pool.rs:988-994` `struct MethodHandle`. -/
def MethodHandle.value (h : MethodHandle) : Value := .of [leaf, leaf, leaf, h.memberRef.value]

/-- `/repo/src/constant_pool.rs:941-948` `enum Loadable`. -/
def Loadable.value : Loadable → Value
  | .literalConstant c => .of [c.value]
  | .classInfo _ | .methodType _ => .of [leaf]
  | .methodHandle h => .of [h.value]
  | .dynamic d => .of [d.value]

/-- `/repo/src/constant_pool.rs:1038-1044` `enum BootstrapArgument`. -/
def BootstrapArgument.value : BootstrapArgument → Value
  | .literalConstant c => .of [c.value]
  | .classInfo _ | .methodType _ => .of [leaf]
  | .methodHandle h => .of [h.value]

/-- `/repo/src/constant_pool.rs:1077-1081` `enum ObjectArrayType`. -/
def ObjectArrayType.value : ObjectArrayType → Value
  | .arrayType d => .of [d.value]
  | .binaryName _ => .of [leaf]

/-- `/repo/src/bytecode.rs:15-19` `struct LookupTable`. -/
def LookupTable.value (t : LookupTable) : Value := .of [leaf, vec (fun _ => .of [leaf, leaf]) t.matchOffsets]

/-- `/repo/src/bytecode.rs:21-27` `struct RangeTable`. -/
def RangeTable.value (t : RangeTable) : Value := .of [leaf, leaf, leaf, vec (fun _ => leaf) t.jumps]

/-- `/repo/src/bytecode.rs:41-205` `enum Opcode`. Simplified: an instruction with at most numbers inside has one leaf, whether it has a number or
not (`iinc` has two). -/
def Opcode.value : Opcode → Value
  | .anewarray t | .checkcast t | .instanceof t => .of [t.value]
  | .multianewarray t _ => .of [t.value, leaf]
  | .getfield m | .getstatic m | .invokespecial m | .invokestatic m | .invokevirtual m | .putfield m | .putstatic m => .of [m.value]
  | .invokeinterface m _ => .of [m.value, leaf]
  | .invokedynamic d => .of [d.value]
  | .ldc l | .ldcW l | .ldc2W l => .of [l.value]
  | .lookupswitch t => .of [t.value]
  | .tableswitch t => .of [t.value]
  | _ => .of [leaf]

/-- `/repo/src/bytecode.rs:207-214` `struct ByteCode`. -/
def ByteCode.value (c : ByteCode) : Value := .of [vec (fun x => .of [leaf, x.2.value]) c.opcodes]

/-- `/repo/src/attributes.rs:18-24` `struct ExceptionTableEntry`. -/
def ExceptionTableEntry.value (e : ExceptionTableEntry) : Value := .of [leaf, leaf, leaf, option (fun _ => leaf) e.catchType]

/-- `/repo/src/attributes.rs:36-47` `enum VerificationType`. -/
def VerificationType.value : VerificationType → Value
  | .uninitialized _ | .object _ => .of [leaf]
  | _ => leaf

/-- `/repo/src/attributes.rs:49-71` `enum StackMapEntry`. -/
def StackMapEntry.value : StackMapEntry → Value
  | .same _ => .of [leaf]
  | .sameLocals1StackItem _ t => .of [leaf, t.value]
  | .chop _ _ => .of [leaf, leaf]
  | .append _ l => .of [leaf, vec VerificationType.value l]
  | .fullFrame _ l s => .of [leaf, vec VerificationType.value l, vec VerificationType.value s]

/-- `/repo/src/attributes.rs:88-94` `struct InnerClassEntry`. -/
def InnerClassEntry.value (e : InnerClassEntry) : Value :=
  .of [leaf, option (fun _ => leaf) e.outerClassInfo, option (fun _ => leaf) e.innerName, leaf]

/-- `/repo/src/attributes.rs:96-100` `struct LineNumberEntry`. -/
def LineNumberEntry.value (_ : LineNumberEntry) : Value := .of [leaf, leaf]

/-- `/repo/src/attributes.rs:102-109` `struct LocalVariableEntry`. -/
def LocalVariableEntry.value (e : LocalVariableEntry) : Value := .of [leaf, leaf, leaf, e.descriptor.value, leaf]

/-- `/repo/src/attributes.rs:111-118` `struct LocalVariableTypeEntry`. -/
def LocalVariableTypeEntry.value (_ : LocalVariableTypeEntry) : Value := .of [leaf, leaf, leaf, leaf, leaf]

mutual
/-- `/repo/src/attributes.rs:120-140` `enum AnnotationElementValue`. -/
def AnnotationElementValue.value : AnnotationElementValue → Value
  | .annotationValue a => .of [a.value]
  | .arrayValue vs => .of [.of (elementValues vs)]
  | .enumConstant t _ => .of [t.value, leaf]
  | _ => .of [leaf]

/-- The elements of a `Vec<AnnotationElementValue>` (`/repo/src/attributes.rs:139`). -/
def elementValues : List AnnotationElementValue → List Value
  | [] => []
  | v :: vs => v.value :: elementValues vs

/-- `/repo/src/attributes.rs:148-152` `struct Annotation`. -/
def Annotation.value : Annotation → Value
  | ⟨t, es⟩ => .of [t.value, .of (annotationElements es)]

/-- The elements of a `Vec<AnnotationElement>`; `/repo/src/attributes.rs:142-146` `struct AnnotationElement`. -/
def annotationElements : List AnnotationElement → List Value
  | [] => []
  | ⟨_, v⟩ :: es => .of [leaf, v.value] :: annotationElements es
end

/-- `/repo/src/attributes.rs:154-157` `struct ParameterAnnotation`. -/
def ParameterAnnotation.value (p : ParameterAnnotation) : Value := .of [vec Annotation.value p.annotations]

/-- `/repo/src/attributes.rs:166-196` `enum TypeAnnotationTarget`; `/repo/src/attributes.rs:159-164` `struct TypeAnnotationLocalVarTargetEntry`. -/
def TypeAnnotationTarget.value : TypeAnnotationTarget → Value
  | .localVar vars => .of [vec (fun _ => .of [leaf, leaf, leaf]) vars]
  | .empty => leaf
  | .typeParameterBound _ _ | .typeArgument _ _ => .of [leaf, leaf]
  | _ => .of [leaf]

/-- `/repo/src/attributes.rs:212-217` `struct TypeAnnotation`; `/repo/src/attributes.rs:206-210` `struct TypeAnnotationTargetPathEntry`. -/
def TypeAnnotation.value (t : TypeAnnotation) : Value :=
  .of [t.targetType.value, vec (fun _ => .of [leaf, leaf]) t.targetPath, t.annotation.value]

/-- `/repo/src/attributes.rs:219-223` `struct BootstrapMethodEntry`. -/
def BootstrapMethodEntry.value (e : BootstrapMethodEntry) : Value := .of [e.method.value, vec BootstrapArgument.value e.arguments]

/-- `/repo/src/attributes.rs:233-237` `struct MethodParameterEntry`. -/
def MethodParameterEntry.value (e : MethodParameterEntry) : Value := .of [option (fun _ => leaf) e.name, leaf]

/-- `/repo/src/attributes.rs:256-261` `struct ModuleRequireEntry`. -/
def ModuleRequireEntry.value (e : ModuleRequireEntry) : Value := .of [leaf, leaf, option (fun _ => leaf) e.version]

/-- `/repo/src/attributes.rs:270-275` `struct ModuleExportsEntry`. -/
def ModuleExportsEntry.value (e : ModuleExportsEntry) : Value := .of [leaf, leaf, vec (fun _ => leaf) e.exportsTo]

/-- `/repo/src/attributes.rs:284-289` `struct ModuleOpensEntry`. -/
def ModuleOpensEntry.value (e : ModuleOpensEntry) : Value := .of [leaf, leaf, vec (fun _ => leaf) e.opensTo]

/-- `/repo/src/attributes.rs:291-295` `struct ModuleProvidesEntry`. -/
def ModuleProvidesEntry.value (e : ModuleProvidesEntry) : Value := .of [leaf, vec (fun _ => leaf) e.providesWith]

/-- `/repo/src/attributes.rs:297-307` `struct ModuleData`. -/
def ModuleData.value (d : ModuleData) : Value :=
  .of [leaf, leaf, option (fun _ => leaf) d.version, vec ModuleRequireEntry.value d.requires, vec ModuleExportsEntry.value d.exports,
    vec ModuleOpensEntry.value d.opens, vec (fun _ => leaf) d.uses, vec ModuleProvidesEntry.value d.provides]

mutual
/-- `/repo/src/attributes.rs:26-34` `struct CodeData`. -/
def CodeData.value : CodeData → Value
  | ⟨_, _, _, bytecode, exceptionTable, attributes⟩ =>
    .of [leaf, leaf, leaf, option ByteCode.value bytecode, vec ExceptionTableEntry.value exceptionTable, .of (attributeValues attributes)]

/-- The elements of a `Vec<RecordComponentEntry>`; `/repo/src/attributes.rs:309-314` `struct RecordComponentEntry`. -/
def componentValues : List RecordComponentEntry → List Value
  | [] => []
  | ⟨_, descriptor, attributes⟩ :: cs => .of [leaf, descriptor.value, .of (attributeValues attributes)] :: componentValues cs

/-- `/repo/src/attributes.rs:316-352` `enum AttributeData`. -/
def AttributeData.value : AttributeData → Value
  | .constantValue c => .of [c.value]
  | .code c => .of [c.value]
  | .stackMapTable t => .of [vec StackMapEntry.value t]
  | .innerClasses l => .of [vec InnerClassEntry.value l]
  | .enclosingMethod _ method => .of [leaf, option NameAndType.value method]
  | .synthetic | .deprecated => leaf
  | .signature _ | .sourceFile _ | .sourceDebugExtension _ | .moduleMainClass _ | .nestHost _ | .other _ => .of [leaf]
  | .lineNumberTable l => .of [vec LineNumberEntry.value l]
  | .localVariableTable l => .of [vec LocalVariableEntry.value l]
  | .localVariableTypeTable l => .of [vec LocalVariableTypeEntry.value l]
  | .runtimeVisibleAnnotations l | .runtimeInvisibleAnnotations l => .of [vec Annotation.value l]
  | .runtimeVisibleParameterAnnotations l | .runtimeInvisibleParameterAnnotations l => .of [vec ParameterAnnotation.value l]
  | .runtimeVisibleTypeAnnotations l | .runtimeInvisibleTypeAnnotations l => .of [vec TypeAnnotation.value l]
  | .annotationDefault v => .of [v.value]
  | .bootstrapMethods l => .of [vec BootstrapMethodEntry.value l]
  | .methodParameters l => .of [vec MethodParameterEntry.value l]
  | .moduleAttr d => .of [d.value]
  | .exceptions l | .modulePackages l | .nestMembers l | .permittedSubclasses l => .of [vec (fun _ => leaf) l]
  | .record l => .of [.of (componentValues l)]

/-- The elements of a `Vec<AttributeInfo>`; `/repo/src/attributes.rs:354-358` `struct AttributeInfo`. -/
def attributeValues : List AttributeInfo → List Value
  | [] => []
  | ⟨_, data⟩ :: as => .of [leaf, data.value] :: attributeValues as
end

/-- `/repo/src/lib.rs:153-159` `struct FieldInfo`. -/
def FieldInfo.value (f : FieldInfo) : Value := .of [leaf, leaf, f.descriptor.value, .of (attributeValues f.attributes)]

/-- `/repo/src/lib.rs:217-223` `struct MethodInfo`. -/
def MethodInfo.value (m : MethodInfo) : Value := .of [leaf, leaf, m.descriptor.value, .of (attributeValues m.attributes)]

/-- `/repo/src/lib.rs:321-333` `struct ClassFile`, without its constants. -/
def ClassFile.value (cf : ClassFile) : Value :=
  .of [leaf, leaf, leaf, cf.thisClass.value, option ClassName.value cf.superClass, vec ClassName.value cf.interfaces,
    vec FieldInfo.value cf.fields, vec MethodInfo.value cf.methods, .of (attributeValues cf.attributes)]

/-- Dropping or printing the class, except its constants, with at most `depth` calls inside each other: the number of values visited, or `none` if
the depth is not enough. -/
def ClassFile.visit (cf : ClassFile) (depth : Nat) : Option Nat := cf.value.visit depth

end Cafebabe
