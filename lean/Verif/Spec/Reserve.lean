import Verif.Spec.Size
/-!
# Specification: the rows of the tables of a parsed class

As `Spec/Size`, but without the constants and the instructions, whose lists are not tables with a declared number of rows; the targets of a
switch are such a table.
-/

namespace Cafebabe.Spec

/-- Targets of the switches. -/
def targetRows : List (Nat × Opcode) → Nat
  | [] => 0
  | (_, op) :: ops => insnSize op + targetRows ops

/-- Targets of the switches, if the code was taken apart. -/
def bytecodeRows : Option ByteCode → Nat
  | some b => targetRows b.opcodes
  | none => 0

mutual
/-- Rows in an element value. -/
def valueRows : AnnotationElementValue → Nat
  | .annotationValue a => annotationRows a
  | .arrayValue vs => valuesRows vs
  | _ => 0

/-- Element values with their rows. -/
def valuesRows : List AnnotationElementValue → Nat
  | [] => 0
  | v :: vs => (1 + valueRows v) + valuesRows vs

/-- The elements of an annotation with their rows. -/
def annotationRows : Annotation → Nat
  | ⟨_, es⟩ => elementsRows es

/-- Elements with their rows. -/
def elementsRows : List AnnotationElement → Nat
  | [] => 0
  | ⟨_, v⟩ :: es => (1 + valueRows v) + elementsRows es
end

/-- Target rows, path elements and annotation elements. -/
def typeAnnotationRows (t : TypeAnnotation) : Nat := targetSize t.targetType + t.targetPath.length + annotationRows t.annotation

mutual
/-- Switch targets, exception table rows and nested attributes. -/
def codeRows : CodeData → Nat
  | ⟨_, _, _, bytecode, exceptionTable, attributes⟩ => bytecodeRows bytecode + exceptionTable.length + attrsRows attributes

/-- The attributes of a record component. -/
def componentRows : RecordComponentEntry → Nat
  | ⟨_, _, attributes⟩ => attrsRows attributes

/-- Components with what they contain. -/
def componentsRows : List RecordComponentEntry → Nat
  | [] => 0
  | c :: cs => (1 + componentRows c) + componentsRows cs

/-- What an attribute contains. -/
def dataRows : AttributeData → Nat
  | .code c => codeRows c
  | .stackMapTable t => sizeOfList frameSize t
  | .exceptions l | .nestMembers l | .permittedSubclasses l | .modulePackages l => l.length
  | .innerClasses l => l.length
  | .lineNumberTable l => l.length
  | .localVariableTable l => l.length
  | .localVariableTypeTable l => l.length
  | .runtimeVisibleAnnotations l | .runtimeInvisibleAnnotations l => sizeOfList annotationRows l
  | .runtimeVisibleParameterAnnotations l | .runtimeInvisibleParameterAnnotations l =>
    sizeOfList (fun p => sizeOfList annotationRows p.annotations) l
  | .runtimeVisibleTypeAnnotations l | .runtimeInvisibleTypeAnnotations l => sizeOfList typeAnnotationRows l
  | .annotationDefault v => valueRows v
  | .bootstrapMethods l => sizeOfList (fun e => e.arguments.length) l
  | .methodParameters l => l.length
  | .moduleAttr d => moduleSize d
  | .record l => componentsRows l
  | _ => 0

/-- Attributes with what they contain, at any depth. -/
def attrsRows : List AttributeInfo → Nat
  | [] => 0
  | ⟨_, d⟩ :: as => (1 + dataRows d) + attrsRows as
end

/-- Interfaces, fields, methods and attributes with what they contain, at any depth. -/
def classRows (cf : ClassFile) : Nat :=
  cf.interfaces.length + sizeOfList (fun f => attrsRows f.attributes) cf.fields + sizeOfList (fun m => attrsRows m.attributes) cf.methods +
    attrsRows cf.attributes

end Cafebabe.Spec
