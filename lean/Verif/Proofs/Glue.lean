import Verif.Spec.Glue
/-!
# Lemmas for C78
-/

namespace Cafebabe
open Spec

namespace Value

mutual
/-- Calls inside each other that visiting a value takes. -/
def height : Value → Nat
  | .of l => heightAll l + 1

/-- The deepest of the values. -/
def heightAll : List Value → Nat
  | [] => 0
  | v :: vs => max (height v) (heightAll vs)
end

mutual
/-- Values visited. -/
def size : Value → Nat
  | .of l => sizeAll l + 1

/-- Values visited, one after the other. -/
def sizeAll : List Value → Nat
  | [] => 0
  | v :: vs => size v + sizeAll vs
end

mutual
theorem visit_eq : ∀ (d : Nat) (v : Value), visit d v = if height v ≤ d then some (size v) else none
  | 0, .of l => by simp [visit, height]
  | d + 1, .of l => by
    simp only [visit, height, size, visitAll_eq d l, Nat.add_le_add_iff_right]
    split <;> rfl

theorem visitAll_eq : ∀ (d : Nat) (vs : List Value), visitAll d vs = if heightAll vs ≤ d then some (sizeAll vs) else none
  | d, [] => by simp [visitAll, heightAll, sizeAll]
  | d, v :: vs => by
    simp only [visitAll, heightAll, sizeAll, visit_eq d v, visitAll_eq d vs]
    have : max (height v) (heightAll vs) ≤ d ↔ height v ≤ d ∧ heightAll vs ≤ d := by omega
    simp only [this]
    by_cases h1 : height v ≤ d <;> by_cases h2 : heightAll vs ≤ d <;> simp [h1, h2]
end

theorem heightAll_map_le {α : Type} {f : α → Value} {l : List α} {n : Nat} (h : ∀ a ∈ l, height (f a) ≤ n) : heightAll (l.map f) ≤ n := by
  induction l with
  | nil => exact Nat.zero_le _
  | cons a l ih =>
    simp only [List.map_cons, heightAll]
    have h1 := h a (by simp)
    have h2 := ih fun b hb => h b (List.mem_cons_of_mem _ hb)
    omega

theorem height_vec_le {α : Type} {f : α → Value} {l : List α} {n : Nat} (h : ∀ a ∈ l, height (f a) ≤ n) : height (vec f l) ≤ n + 1 := by
  have := heightAll_map_le h
  simp only [vec, height]
  omega

theorem height_option_le {α : Type} {f : α → Value} {x : Option α} {n : Nat} (h : ∀ a, height (f a) ≤ n) : height (option f x) ≤ n + 1 := by
  cases x with
  | none => simp [option, height, heightAll]
  | some a => have := h a; simp [option, height, heightAll]; omega

theorem height_leaf : height leaf = 1 := rfl

theorem le_heightAll_map {α : Type} {f : α → Value} {g : α → Nat} {c : Nat} {l : List α} (h : ∀ a ∈ l, g a + c ≤ height (f a)) :
    l = [] ∨ largest (l.map g) + c ≤ heightAll (l.map f) := by
  induction l with
  | nil => exact .inl rfl
  | cons a l ih =>
    right
    simp only [List.map_cons, heightAll, largest]
    have h1 := h a (by simp)
    rcases ih fun b hb => h b (List.mem_cons_of_mem _ hb) with rfl | h2
    · simp [largest, heightAll]; omega
    · omega

end Value

open Value

namespace Glue

/-! ## Values without nesting -/

theorem className_height (c : ClassName) : height c.value = 2 := rfl

theorem fieldDescriptor_height (d : FieldDescriptor) : height d.value ≤ 4 := by
  rcases d with ⟨n, t⟩
  cases t <;> simp [FieldDescriptor.value, FieldType.value, ClassName.value, height, heightAll]

theorem methodDescriptor_height (d : MethodDescriptor) : height d.value ≤ 6 := by
  have h := height_vec_le (l := d.parameters) fun a _ => fieldDescriptor_height a
  have h2 : height d.returnType.value ≤ 5 := by
    cases d.returnType with
    | ret d => have := fieldDescriptor_height d; simp [ReturnDescriptor.value, height, heightAll]; omega
    | void => simp [ReturnDescriptor.value, height, heightAll]
  simp only [MethodDescriptor.value, height, heightAll]
  omega

theorem nameAndType_height (n : NameAndType) : height n.value = 2 := rfl

theorem literal_height (c : LiteralConstant) : height c.value = 2 := rfl

theorem memberRef_height (m : MemberRef) : height m.value = 3 := rfl

theorem dynamicRef_height (m : DynamicRef) : height m.value = 3 := rfl

theorem methodHandle_height (m : MethodHandle) : height m.value = 3 := rfl

theorem loadable_height (l : Loadable) : height l.value ≤ 4 := by
  cases l <;> simp [Loadable.value, height, heightAll, literal_height, methodHandle_height, dynamicRef_height]

theorem argument_height (l : BootstrapArgument) : height l.value ≤ 4 := by
  cases l <;> simp [BootstrapArgument.value, height, heightAll, literal_height, methodHandle_height]

theorem objectArray_height (t : ObjectArrayType) : height t.value ≤ 5 := by
  cases t with
  | arrayType d => have := fieldDescriptor_height d; simp [ObjectArrayType.value, height, heightAll]; omega
  | binaryName s => simp [ObjectArrayType.value, height, heightAll]

theorem lookup_height (t : LookupTable) : height t.value ≤ 4 := by
  have h := height_vec_le (f := fun _ => Value.of [leaf, leaf]) (l := t.matchOffsets) (n := 2) fun _ _ => by simp [height, heightAll]
  simp only [LookupTable.value, height, heightAll]
  omega

theorem range_height (t : RangeTable) : height t.value ≤ 3 := by
  have h := height_vec_le (f := fun _ => leaf) (l := t.jumps) (n := 1) fun _ _ => Nat.le_refl _
  simp only [RangeTable.value, height, heightAll]
  omega

theorem one_height {v : Value} {n : Nat} (h : height v ≤ n) : height (.of [v]) ≤ n + 1 := by
  simp only [height, heightAll]; omega

theorem opcode_height (op : Opcode) : height op.value ≤ 6 := by
  unfold Opcode.value
  split
  all_goals first
    | (simp [height, heightAll, memberRef_height, dynamicRef_height]; done)
    | exact Nat.le_trans (one_height (objectArray_height _)) (by omega)
    | exact Nat.le_trans (one_height (loadable_height _)) (by omega)
    | exact Nat.le_trans (one_height (lookup_height _)) (by omega)
    | exact Nat.le_trans (one_height (range_height _)) (by omega)
    | (simp only [height, heightAll]; have := objectArray_height ‹_›; omega)

theorem bytecode_height (c : ByteCode) : height c.value ≤ 9 := by
  have h := height_vec_le (f := fun x : Nat × Opcode => .of [leaf, x.2.value]) (l := c.opcodes) (n := 7) fun x _ => by
    have := opcode_height x.2
    simp only [height, heightAll]
    omega
  exact one_height h

theorem exceptionEntry_height (e : ExceptionTableEntry) : height e.value ≤ 3 := by
  have := height_option_le (f := fun _ => leaf) (x := e.catchType) (n := 1) fun _ => Nat.le_refl _
  simp only [ExceptionTableEntry.value, height, heightAll]
  omega

theorem verification_height (t : VerificationType) : height t.value ≤ 2 := by cases t <;> simp [VerificationType.value, height, heightAll]

theorem frame_height (f : StackMapEntry) : height f.value ≤ 4 := by
  cases f with
  | same d => simp [StackMapEntry.value, height, heightAll]
  | sameLocals1StackItem d t => have := verification_height t; simp only [StackMapEntry.value, height, heightAll]; omega
  | chop d c => simp [StackMapEntry.value, height, heightAll]
  | append d l =>
    have := height_vec_le (l := l) fun t _ => verification_height t
    simp only [StackMapEntry.value, height, heightAll]; omega
  | fullFrame d l s =>
    have := height_vec_le (l := l) fun t _ => verification_height t
    have := height_vec_le (l := s) fun t _ => verification_height t
    simp only [StackMapEntry.value, height, heightAll]; omega

theorem text_vec {α : Type} (l : List α) : height (vec (fun _ => leaf) l) ≤ 2 := height_vec_le fun _ _ => Nat.le_refl _

theorem text_option {α : Type} (x : Option α) : height (option (fun _ => leaf) x) ≤ 2 := height_option_le fun _ => Nat.le_refl _

theorem innerClass_height (e : InnerClassEntry) : height e.value ≤ 3 := by
  have := text_option e.outerClassInfo
  have := text_option e.innerName
  simp only [InnerClassEntry.value, height, heightAll]; omega

theorem localVariable_height (e : LocalVariableEntry) : height e.value ≤ 5 := by
  have := fieldDescriptor_height e.descriptor
  simp only [LocalVariableEntry.value, height, heightAll]; omega

theorem bootstrap_height (e : BootstrapMethodEntry) : height e.value ≤ 6 := by
  have := height_vec_le (l := e.arguments) fun a _ => argument_height a
  simp only [BootstrapMethodEntry.value, height, heightAll, methodHandle_height]; omega

theorem parameter_height (e : MethodParameterEntry) : height e.value ≤ 3 := by
  have := text_option e.name
  simp only [MethodParameterEntry.value, height, heightAll]; omega

theorem module_height (d : ModuleData) : height d.value ≤ 5 := by
  have := text_option d.version
  have := text_vec d.uses
  have := height_vec_le (f := ModuleRequireEntry.value) (l := d.requires) (n := 3) fun e _ => by
    have := text_option e.version
    simp only [ModuleRequireEntry.value, height, heightAll]; omega
  have := height_vec_le (f := ModuleExportsEntry.value) (l := d.exports) (n := 3) fun e _ => by
    have := text_vec e.exportsTo
    simp only [ModuleExportsEntry.value, height, heightAll]; omega
  have := height_vec_le (f := ModuleOpensEntry.value) (l := d.opens) (n := 3) fun e _ => by
    have := text_vec e.opensTo
    simp only [ModuleOpensEntry.value, height, heightAll]; omega
  have := height_vec_le (f := ModuleProvidesEntry.value) (l := d.provides) (n := 3) fun e _ => by
    have := text_vec e.providesWith
    simp only [ModuleProvidesEntry.value, height, heightAll]; omega
  simp only [ModuleData.value, height, heightAll]; omega

theorem target_height (t : TypeAnnotationTarget) : height t.value ≤ 4 := by
  cases t with
  | localVar vars =>
    have := height_vec_le (f := fun _ => Value.of [leaf, leaf, leaf]) (l := vars) (n := 2) fun _ _ => by simp [height, heightAll]
    simp only [TypeAnnotationTarget.value, height, heightAll]; omega
  | _ => simp [TypeAnnotationTarget.value, height, heightAll]

/-! ## Annotations -/

mutual
theorem value_height : ∀ v : AnnotationElementValue, 2 * valueNesting v ≤ height v.value ∧ height v.value ≤ 4 * valueNesting v + 2
  | .annotationValue a => by
    have := annotation_height a
    simp only [AnnotationElementValue.value, valueNesting, height, heightAll]; omega
  | .arrayValue vs => by
    have := values_height vs
    simp only [AnnotationElementValue.value, valueNesting, height, heightAll]; omega
  | .enumConstant t n => by
    have := fieldDescriptor_height t
    simp only [AnnotationElementValue.value, valueNesting, height, heightAll]; omega
  | .byteConstant _ | .charConstant _ | .doubleConstant _ | .floatConstant _ | .intConstant _ | .longConstant _ | .shortConstant _
  | .booleanConstant _ | .stringConstant _ | .classLiteral _ => by simp [AnnotationElementValue.value, valueNesting, height, heightAll]

theorem values_height : ∀ vs : List AnnotationElementValue, 2 * valuesNesting vs ≤ heightAll (elementValues vs) ∧
    heightAll (elementValues vs) ≤ 4 * valuesNesting vs + 2
  | [] => by simp [elementValues, valuesNesting, heightAll]
  | v :: vs => by
    have h1 := value_height v
    have h2 := values_height vs
    simp only [elementValues, valuesNesting, heightAll]; omega

theorem annotation_height : ∀ a : Annotation, 2 * annotationNesting a + 1 ≤ height a.value ∧ height a.value ≤ 4 * annotationNesting a + 5
  | ⟨t, es⟩ => by
    have h1 := fieldDescriptor_height t
    have h2 := elements_height es
    simp only [Annotation.value, annotationNesting, height, heightAll]; omega

theorem elements_height : ∀ es : List AnnotationElement, 2 * elementsNesting es ≤ heightAll (annotationElements es) ∧
    heightAll (annotationElements es) ≤ 4 * elementsNesting es + 3
  | [] => by simp [annotationElements, elementsNesting, heightAll]
  | ⟨_, v⟩ :: es => by
    have h1 := value_height v
    have h2 := elements_height es
    simp only [annotationElements, elementsNesting, height, heightAll]; omega
end

theorem largest_le_heightAll {α : Type} {f : α → Value} {g : α → Nat} {l : List α} (h : ∀ a ∈ l, 2 * g a ≤ height (f a)) :
    2 * largest (l.map g) ≤ heightAll (l.map f) := by
  induction l with
  | nil => simp [largest]
  | cons a l ih =>
    have h1 := h a (by simp)
    have h2 := ih fun b hb => h b (List.mem_cons_of_mem _ hb)
    simp only [List.map_cons, heightAll, largest]
    omega

theorem le_largest {α : Type} {g : α → Nat} {l : List α} {a : α} (h : a ∈ l) : g a ≤ largest (l.map g) := by
  induction l with
  | nil => cases h
  | cons b l ih =>
    simp only [List.map_cons, largest]
    rcases List.mem_cons.mp h with rfl | h
    · omega
    · have := ih h; omega

theorem heightAll_le_largest {α : Type} {f : α → Value} {g : α → Nat} {c k : Nat} {l : List α} (h : ∀ a ∈ l, height (f a) ≤ k * g a + c) :
    heightAll (l.map f) ≤ k * largest (l.map g) + c :=
  heightAll_map_le fun a ha => Nat.le_trans (h a ha) (Nat.add_le_add_right (Nat.mul_le_mul_left _ (le_largest ha)) _)

theorem annotations_height (l : List Annotation) : 2 * largest (l.map annotationNesting) + 1 ≤ height (vec Annotation.value l) ∧
    height (vec Annotation.value l) ≤ 4 * largest (l.map annotationNesting) + 6 := by
  have h1 := largest_le_heightAll (l := l) fun a _ => Nat.le_of_succ_le (annotation_height a).1
  have h2 := heightAll_le_largest (l := l) fun a _ => (annotation_height a).2
  simp only [vec, height]; omega

theorem parameterAnnotations_height (l : List ParameterAnnotation) :
    2 * largest (l.map fun p => largest (p.annotations.map annotationNesting)) ≤ height (vec ParameterAnnotation.value l) ∧
    height (vec ParameterAnnotation.value l) ≤ 4 * largest (l.map fun p => largest (p.annotations.map annotationNesting)) + 8 := by
  have h1 := largest_le_heightAll (l := l) (f := ParameterAnnotation.value) (g := fun p => largest (p.annotations.map annotationNesting)) fun p _ => by
    have := annotations_height p.annotations
    simp only [ParameterAnnotation.value, height, heightAll] at this ⊢; omega
  have h2 := heightAll_le_largest (l := l) (f := ParameterAnnotation.value) (g := fun p => largest (p.annotations.map annotationNesting))
      (k := 4) (c := 7) fun p _ => by
    have := annotations_height p.annotations
    simp only [ParameterAnnotation.value, height, heightAll] at this ⊢; omega
  simp only [vec, height] at h1 h2 ⊢; omega

theorem typeAnnotations_height (l : List TypeAnnotation) :
    2 * largest (l.map fun t => annotationNesting t.annotation) ≤ height (vec TypeAnnotation.value l) ∧
    height (vec TypeAnnotation.value l) ≤ 4 * largest (l.map fun t => annotationNesting t.annotation) + 7 := by
  have h1 := largest_le_heightAll (l := l) (f := TypeAnnotation.value) (g := fun t => annotationNesting t.annotation) fun t _ => by
    have := annotation_height t.annotation
    simp only [TypeAnnotation.value, height, heightAll]; omega
  have h2 := heightAll_le_largest (l := l) (f := TypeAnnotation.value) (g := fun t => annotationNesting t.annotation)
      (k := 4) (c := 6) fun t _ => by
    have := annotation_height t.annotation
    have := target_height t.targetType
    have := height_vec_le (f := fun _ => Value.of [leaf, leaf]) (l := t.targetPath) (n := 2) fun _ _ => by simp [height, heightAll]
    simp only [TypeAnnotation.value, height, heightAll]; omega
  simp only [vec, height] at h1 h2 ⊢; omega

/-! ## Attributes -/

theorem flat_height {v : Value} {n : Nat} (h : height v ≤ n) (hn : n ≤ 8) : 2 * 0 ≤ height (.of [v]) ∧ height (.of [v]) ≤ 5 * 0 + 9 := by
  have := one_height h; omega

theorem flat_vec {α : Type} {f : α → Value} {l : List α} {n : Nat} (h : ∀ a, height (f a) ≤ n) (hn : n ≤ 7) :
    2 * 0 ≤ height (.of [vec f l]) ∧ height (.of [vec f l]) ≤ 5 * 0 + 9 :=
  flat_height (height_vec_le fun a _ => h a) (by omega)

mutual
theorem data_height : ∀ d : AttributeData, 2 * dataNesting d ≤ height d.value ∧ height d.value ≤ 5 * dataNesting d + 9
  | .code c => by
    have := code_height c
    simp only [AttributeData.value, dataNesting, height, heightAll]; omega
  | .record l => by
    have := components_height l
    simp only [AttributeData.value, dataNesting, height, heightAll]; omega
  | .runtimeVisibleAnnotations l | .runtimeInvisibleAnnotations l => by
    have := annotations_height l
    simp only [AttributeData.value, dataNesting, height, heightAll]; omega
  | .runtimeVisibleParameterAnnotations l | .runtimeInvisibleParameterAnnotations l => by
    have := parameterAnnotations_height l
    simp only [AttributeData.value, dataNesting]
    generalize vec ParameterAnnotation.value l = v at *
    simp only [height, heightAll]; omega
  | .runtimeVisibleTypeAnnotations l | .runtimeInvisibleTypeAnnotations l => by
    have := typeAnnotations_height l
    simp only [AttributeData.value, dataNesting]
    generalize vec TypeAnnotation.value l = v at *
    simp only [height, heightAll]; omega
  | .annotationDefault v => by
    have := value_height v
    simp only [AttributeData.value, dataNesting, height, heightAll]; omega
  | .constantValue c => flat_height (Nat.le_of_eq (literal_height c)) (by omega)
  | .stackMapTable t => flat_vec frame_height (by omega)
  | .innerClasses l => flat_vec innerClass_height (by omega)
  | .enclosingMethod _ method => by
    have := height_option_le (x := method) fun n => Nat.le_of_eq (nameAndType_height n)
    simp only [AttributeData.value, dataNesting, height, heightAll]; omega
  | .synthetic | .deprecated => by simp [AttributeData.value, dataNesting, height, heightAll]
  | .signature _ | .sourceFile _ | .sourceDebugExtension _ | .moduleMainClass _ | .nestHost _ | .other _ => by
    simp [AttributeData.value, dataNesting, height, heightAll]
  | .lineNumberTable l => flat_vec (n := 2) (fun e => Nat.le_refl _) (by omega)
  | .localVariableTable l => flat_vec localVariable_height (by omega)
  | .localVariableTypeTable l => flat_vec (n := 2) (fun e => Nat.le_refl _) (by omega)
  | .bootstrapMethods l => flat_vec bootstrap_height (by omega)
  | .methodParameters l => flat_vec parameter_height (by omega)
  | .moduleAttr d => flat_height (module_height d) (by omega)
  | .exceptions l | .modulePackages l | .nestMembers l | .permittedSubclasses l => flat_vec (n := 1) (fun _ => Nat.le_refl _) (by omega)

theorem code_height : ∀ c : CodeData, 2 * codeNesting c ≤ height c.value + 1 ∧ height c.value ≤ 5 * codeNesting c + 8
  | ⟨_, _, _, bytecode, exceptionTable, attributes⟩ => by
    have h1 := attributes_height attributes
    have h2 := height_option_le (x := bytecode) bytecode_height
    have h3 := height_vec_le (l := exceptionTable) fun e _ => exceptionEntry_height e
    simp only [CodeData.value, codeNesting, height, heightAll]; omega

theorem components_height : ∀ l : List RecordComponentEntry, 2 * componentsNesting l ≤ heightAll (componentValues l) ∧
    heightAll (componentValues l) ≤ 5 * componentsNesting l + 7
  | [] => by simp [componentValues, componentsNesting, heightAll]
  | ⟨_, descriptor, attributes⟩ :: cs => by
    have h1 := attributes_height attributes
    have h2 := fieldDescriptor_height descriptor
    have h3 := components_height cs
    simp only [componentValues, componentsNesting, height, heightAll]; omega

theorem attributes_height : ∀ l : List AttributeInfo, 2 * attrsNesting l ≤ heightAll (attributeValues l) ∧
    heightAll (attributeValues l) ≤ 5 * attrsNesting l + 10
  | [] => by simp [attributeValues, attrsNesting, heightAll]
  | ⟨_, data⟩ :: as => by
    have h1 := data_height data
    have h2 := attributes_height as
    simp only [attributeValues, attrsNesting, height, heightAll]; omega
end

/-! ## Classes -/

theorem field_height (f : FieldInfo) : 2 * attrsNesting f.attributes ≤ height f.value ∧ height f.value ≤ 5 * attrsNesting f.attributes + 12 := by
  have h1 := attributes_height f.attributes
  have h2 := fieldDescriptor_height f.descriptor
  simp only [FieldInfo.value, height, heightAll]; omega

theorem method_height (m : MethodInfo) : 2 * attrsNesting m.attributes ≤ height m.value ∧ height m.value ≤ 5 * attrsNesting m.attributes + 12 := by
  have h1 := attributes_height m.attributes
  have h2 := methodDescriptor_height m.descriptor
  simp only [MethodInfo.value, height, heightAll]; omega

theorem class_height (cf : ClassFile) : 2 * nesting cf ≤ height cf.value ∧ height cf.value ≤ 5 * nesting cf + 9 := by
  have h1 := largest_le_heightAll (l := cf.fields) fun f _ => (field_height f).1
  have h2 := heightAll_le_largest (l := cf.fields) fun f _ => (field_height f).2
  have h3 := largest_le_heightAll (l := cf.methods) fun m _ => (method_height m).1
  have h4 := heightAll_le_largest (l := cf.methods) fun m _ => (method_height m).2
  have h5 := attributes_height cf.attributes
  have h6 := height_option_le (x := cf.superClass) fun c => Nat.le_of_eq (className_height c)
  have h7 := height_vec_le (l := cf.interfaces) fun c _ => Nat.le_of_eq (className_height c)
  simp only [ClassFile.value, nesting, height, heightAll, vec, className_height] at *
  omega

theorem visits (cf : ClassFile) : Visits cf (size cf.value) (height cf.value) := by
  constructor
  · intro d hd
    unfold ClassFile.visit
    rw [visit_eq, if_pos hd]
  · intro d hd
    unfold ClassFile.visit
    rw [visit_eq, if_neg (by omega)]

end Glue

end Cafebabe
