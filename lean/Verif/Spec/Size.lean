import Verif.Spec.ClassFile
/-!
# Specification: the size of a parsed class

The number of elements of all lists in it, at any depth. Texts and descriptors are not taken apart.
-/

namespace Cafebabe.Spec

/-- The elements of a list, each with what it contains. -/
def sizeOfList {α : Type} (size : α → Nat) : List α → Nat
  | [] => 0
  | a :: l => (1 + size a) + sizeOfList size l

/-- Verification types in a frame. -/
def frameSize : StackMapEntry → Nat
  | .append _ locals => locals.length
  | .fullFrame _ locals stack => locals.length + stack.length
  | _ => 0

/-- Targets in an instruction. -/
def insnSize : Opcode → Nat
  | .tableswitch t => t.jumps.length
  | .lookupswitch t => t.matchOffsets.length
  | _ => 0

/-- Instructions with their targets. -/
def bytecodeSize (bc : Option ByteCode) : Nat :=
  match bc with
  | some b => sizeOfList (fun p => insnSize p.2) b.opcodes
  | none => 0

mutual
/-- What an element value contains. -/
def valueSize : AnnotationElementValue → Nat
  | .annotationValue a => 1 + annotationSize a
  | .arrayValue vs => valuesSize vs
  | _ => 0

/-- Element values with what they contain. -/
def valuesSize : List AnnotationElementValue → Nat
  | [] => 0
  | v :: vs => (1 + valueSize v) + valuesSize vs

/-- The elements of an annotation with what they contain. -/
def annotationSize : Annotation → Nat
  | ⟨_, es⟩ => elementsSize es

/-- Elements with what they contain. -/
def elementsSize : List AnnotationElement → Nat
  | [] => 0
  | ⟨_, v⟩ :: es => (1 + valueSize v) + elementsSize es
end

/-- Rows of a local-variable target. -/
def targetSize : TypeAnnotationTarget → Nat
  | .localVar vs => vs.length
  | _ => 0

/-- Target rows, path elements and annotation elements. -/
def typeAnnotationSize (t : TypeAnnotation) : Nat := targetSize t.targetType + t.targetPath.length + annotationSize t.annotation

/-- The elements of the tables of a module. -/
def moduleSize (d : ModuleData) : Nat :=
  d.requires.length + sizeOfList (fun e : ModuleExportsEntry => e.exportsTo.length) d.exports +
    sizeOfList (fun e : ModuleOpensEntry => e.opensTo.length) d.opens + d.uses.length +
    sizeOfList (fun e : ModuleProvidesEntry => e.providesWith.length) d.provides

mutual
/-- Instructions, exception table rows and nested attributes. -/
def codeSize : CodeData → Nat
  | ⟨_, _, _, bytecode, exceptionTable, attributes⟩ => bytecodeSize bytecode + exceptionTable.length + attrsSize attributes

/-- The attributes of a record component. -/
def componentSize : RecordComponentEntry → Nat
  | ⟨_, _, attributes⟩ => attrsSize attributes

/-- Components with what they contain. -/
def componentsSize : List RecordComponentEntry → Nat
  | [] => 0
  | c :: cs => (1 + componentSize c) + componentsSize cs

/-- What an attribute contains. -/
def dataSize : AttributeData → Nat
  | .code c => codeSize c
  | .stackMapTable t => sizeOfList frameSize t
  | .exceptions l | .nestMembers l | .permittedSubclasses l | .modulePackages l => l.length
  | .innerClasses l => l.length
  | .lineNumberTable l => l.length
  | .localVariableTable l => l.length
  | .localVariableTypeTable l => l.length
  | .runtimeVisibleAnnotations l | .runtimeInvisibleAnnotations l => sizeOfList annotationSize l
  | .runtimeVisibleParameterAnnotations l | .runtimeInvisibleParameterAnnotations l =>
    sizeOfList (fun p => sizeOfList annotationSize p.annotations) l
  | .runtimeVisibleTypeAnnotations l | .runtimeInvisibleTypeAnnotations l => sizeOfList typeAnnotationSize l
  | .annotationDefault v => valueSize v
  | .bootstrapMethods l => sizeOfList (fun e => e.arguments.length) l
  | .methodParameters l => l.length
  | .moduleAttr d => moduleSize d
  | .record l => componentsSize l
  | _ => 0

/-- Attributes with what they contain, at any depth. -/
def attrsSize : List AttributeInfo → Nat
  | [] => 0
  | ⟨_, d⟩ :: as => (1 + dataSize d) + attrsSize as
end

/-- Constants, interfaces, fields, methods and attributes with what they contain, at any depth. -/
def classSize (cf : ClassFile) : Nat :=
  cf.constantPool.length + cf.interfaces.length + sizeOfList (fun f => attrsSize f.attributes) cf.fields +
    sizeOfList (fun m => attrsSize m.attributes) cf.methods + attrsSize cf.attributes

end Cafebabe.Spec
