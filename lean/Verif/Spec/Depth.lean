import Verif.Spec.Nested
/-!
# Specification: how deeply a class file is nested
-/

namespace Cafebabe.Spec

/-- The largest number of a list (0 for the empty list). -/
def largest : List Nat → Nat
  | [] => 0
  | x :: xs => max x (largest xs)

mutual
/-- Nesting of an element value: 1 for a constant, one more than the deepest value inside for an array or an annotation. -/
def valueNesting : AnnotationElementValue → Nat
  | .annotationValue a => annotationNesting a + 1
  | .arrayValue vs => valuesNesting vs + 1
  | _ => 1

/-- The deepest of the values. -/
def valuesNesting : List AnnotationElementValue → Nat
  | [] => 0
  | v :: vs => max (valueNesting v) (valuesNesting vs)

/-- The deepest element value of an annotation. -/
def annotationNesting : Annotation → Nat
  | ⟨_, es⟩ => elementsNesting es

/-- The deepest value of the elements. -/
def elementsNesting : List AnnotationElement → Nat
  | [] => 0
  | ⟨_, v⟩ :: es => max (valueNesting v) (elementsNesting es)
end

mutual
/-- What is nested in the content of an attribute: further attributes (Code, Record) or element values. -/
def dataNesting : AttributeData → Nat
  | .code c => codeNesting c
  | .record l => componentsNesting l
  | .runtimeVisibleAnnotations l | .runtimeInvisibleAnnotations l => largest (l.map annotationNesting)
  | .runtimeVisibleParameterAnnotations l | .runtimeInvisibleParameterAnnotations l =>
    largest (l.map fun p => largest (p.annotations.map annotationNesting))
  | .runtimeVisibleTypeAnnotations l | .runtimeInvisibleTypeAnnotations l => largest (l.map fun t => annotationNesting t.annotation)
  | .annotationDefault v => valueNesting v
  | _ => 0

/-- One level for the attribute table of the Code attribute. -/
def codeNesting : CodeData → Nat
  | ⟨_, _, _, _, _, as⟩ => attrsNesting as + 1

/-- One level for the attribute table of each component. -/
def componentsNesting : List RecordComponentEntry → Nat
  | [] => 0
  | ⟨_, _, as⟩ :: cs => max (attrsNesting as + 1) (componentsNesting cs)

/-- The deepest attribute of a table. -/
def attrsNesting : List AttributeInfo → Nat
  | [] => 0
  | ⟨_, d⟩ :: as => max (dataNesting d) (attrsNesting as)
end

/-- Nesting of a class file: attribute tables and element values that lie inside each other. -/
def nesting (cf : ClassFile) : Nat :=
  1 + max (largest (cf.fields.map fun f => attrsNesting f.attributes))
    (max (largest (cf.methods.map fun m => attrsNesting m.attributes)) (attrsNesting cf.attributes))

end Cafebabe.Spec
