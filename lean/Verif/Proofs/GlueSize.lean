import Verif.Proofs.Glue
import Verif.Spec.Size
/-!
# Lemmas for C78: the number of values visited
-/

namespace Cafebabe
open Spec Value

namespace Glue

theorem sizeAll_map_le {α : Type} {f : α → Value} {n : Nat} {l : List α} (h : ∀ a ∈ l, size (f a) ≤ n) : sizeAll (l.map f) ≤ n * l.length := by
  induction l with
  | nil => simp [sizeAll]
  | cons a l ih =>
    have h1 := h a (by simp)
    have h2 := ih fun b hb => h b (List.mem_cons_of_mem _ hb)
    simp only [List.map_cons, sizeAll, List.length_cons, Nat.mul_add]
    omega

theorem sizeAll_list_le {α : Type} {f : α → Value} {g : α → Nat} {n : Nat} {l : List α} (h : ∀ a ∈ l, size (f a) ≤ n * (1 + g a)) :
    sizeAll (l.map f) ≤ n * sizeOfList g l := by
  induction l with
  | nil => simp [sizeAll, sizeOfList]
  | cons a l ih =>
    have h1 := h a (by simp)
    have h2 := ih fun b hb => h b (List.mem_cons_of_mem _ hb)
    simp only [List.map_cons, sizeAll, sizeOfList, Nat.mul_add] at *
    omega

theorem vec_size_le {α : Type} {f : α → Value} {n : Nat} (l : List α) (h : ∀ a, size (f a) ≤ n) : size (vec f l) ≤ n * l.length + 1 := by
  have := sizeAll_map_le (l := l) fun a _ => h a
  simp only [vec, size]
  omega

theorem vec_list_size_le {α : Type} {f : α → Value} {g : α → Nat} {n : Nat} (l : List α) (h : ∀ a, size (f a) ≤ n * (1 + g a)) :
    size (vec f l) ≤ n * sizeOfList g l + 1 := by
  have := sizeAll_list_le (l := l) fun a _ => h a
  simp only [vec, size]
  omega

theorem option_size_le {α : Type} {f : α → Value} {n : Nat} (x : Option α) (h : ∀ a, size (f a) ≤ n) : size (option f x) ≤ n + 1 := by
  cases x with
  | none => simp [option, size, sizeAll]
  | some a => have := h a; simp [option, size, sizeAll]; omega

theorem text_option_size {α : Type} (x : Option α) : size (option (fun _ => leaf) x) ≤ 2 := option_size_le x fun _ => Nat.le_refl _

theorem text_vec_size {α : Type} (l : List α) : size (vec (fun _ => leaf) l) ≤ 1 * l.length + 1 := vec_size_le l fun _ => Nat.le_refl _

theorem one_size (v : Value) : size (.of [v]) = size v + 1 := by simp [size, sizeAll]

theorem fieldDescriptor_size (d : FieldDescriptor) : size d.value ≤ 5 := by
  rcases d with ⟨n, t⟩
  cases t <;> simp [FieldDescriptor.value, FieldType.value, ClassName.value, size, sizeAll]

theorem methodDescriptor_size (d : MethodDescriptor) : size d.value ≤ 5 * d.parameters.length + 8 := by
  have h := vec_size_le d.parameters fieldDescriptor_size
  have h2 : size d.returnType.value ≤ 6 := by
    cases d.returnType with
    | ret d => have := fieldDescriptor_size d; simp [ReturnDescriptor.value, size, sizeAll]; omega
    | void => simp [ReturnDescriptor.value, size, sizeAll]
  simp only [MethodDescriptor.value, size, sizeAll]
  omega

theorem loadable_size (l : Loadable) : size l.value ≤ 8 := by
  cases l <;> simp [Loadable.value, size, sizeAll, LiteralConstant.value, MethodHandle.value, DynamicRef.value, NameAndType.value]

theorem argument_size (l : BootstrapArgument) : size l.value ≤ 8 := by
  cases l <;> simp [BootstrapArgument.value, size, sizeAll, LiteralConstant.value, MethodHandle.value, NameAndType.value]

theorem objectArray_size (t : ObjectArrayType) : size t.value ≤ 6 := by
  cases t with
  | arrayType d => have := fieldDescriptor_size d; simp [ObjectArrayType.value, size, sizeAll]; omega
  | binaryName s => simp [ObjectArrayType.value, size, sizeAll]

theorem lookup_size (t : LookupTable) : size t.value ≤ 3 * t.matchOffsets.length + 3 := by
  have h := vec_size_le (f := fun _ => Value.of [leaf, leaf]) (n := 3) t.matchOffsets fun _ => by simp [size, sizeAll]
  simp only [LookupTable.value, size, sizeAll]
  omega

theorem range_size (t : RangeTable) : size t.value ≤ t.jumps.length + 5 := by
  have h := text_vec_size t.jumps
  simp only [RangeTable.value, size, sizeAll]
  omega

theorem opcode_size (op : Opcode) : size op.value ≤ 3 * insnSize op + 9 := by
  unfold Opcode.value
  split
  all_goals first
    | (simp [size, sizeAll, MemberRef.value, DynamicRef.value, NameAndType.value]; done)
    | (rename_i t; have := objectArray_size t; simp only [size, sizeAll]; omega)
    | (rename_i t _; have := objectArray_size t; simp only [size, sizeAll]; omega)
    | (rename_i l; have := loadable_size l; simp only [size, sizeAll]; omega)
    | (rename_i t; have := lookup_size t; simp only [size, sizeAll, insnSize]; omega)
    | (rename_i t; have := range_size t; simp only [size, sizeAll, insnSize]; omega)

theorem bytecode_size (c : Option ByteCode) : size (option ByteCode.value c) ≤ 16 * bytecodeSize c + 3 := by
  cases c with
  | none => simp [option, size, sizeAll]
  | some c =>
    have h := vec_list_size_le (f := fun x : Nat × Opcode => Value.of [leaf, x.2.value]) (g := fun p => insnSize p.2) (n := 16) c.opcodes fun x => by
      have := opcode_size x.2
      simp only [size, sizeAll]
      omega
    simp only [option, ByteCode.value, one_size, bytecodeSize]
    omega

theorem exceptionEntry_size (e : ExceptionTableEntry) : size e.value ≤ 16 := by
  have := text_option_size e.catchType
  simp only [ExceptionTableEntry.value, size, sizeAll]
  omega

theorem verification_size (t : VerificationType) : size t.value ≤ 2 := by cases t <;> simp [VerificationType.value, size, sizeAll]

theorem frame_size (f : StackMapEntry) : size f.value ≤ 16 * (1 + frameSize f) := by
  cases f with
  | same d => simp [StackMapEntry.value, size, sizeAll]; omega
  | sameLocals1StackItem d t => have := verification_size t; simp only [StackMapEntry.value, size, sizeAll]; omega
  | chop d c => simp [StackMapEntry.value, size, sizeAll]; omega
  | append d l =>
    have := vec_size_le l verification_size
    simp only [StackMapEntry.value, size, sizeAll, frameSize]; omega
  | fullFrame d l s =>
    have := vec_size_le l verification_size
    have := vec_size_le s verification_size
    simp only [StackMapEntry.value, size, sizeAll, frameSize]; omega

theorem innerClass_size (e : InnerClassEntry) : size e.value ≤ 16 := by
  have := text_option_size e.outerClassInfo
  have := text_option_size e.innerName
  simp only [InnerClassEntry.value, size, sizeAll]; omega

theorem localVariable_size (e : LocalVariableEntry) : size e.value ≤ 16 := by
  have := fieldDescriptor_size e.descriptor
  simp only [LocalVariableEntry.value, size, sizeAll]; omega

theorem bootstrap_size (e : BootstrapMethodEntry) : size e.value ≤ 16 * (1 + e.arguments.length) := by
  have := vec_size_le e.arguments argument_size
  simp only [BootstrapMethodEntry.value, MethodHandle.value, NameAndType.value, size, sizeAll]; omega

theorem parameter_size (e : MethodParameterEntry) : size e.value ≤ 16 := by
  have := text_option_size e.name
  simp only [MethodParameterEntry.value, size, sizeAll]; omega

theorem module_size (d : ModuleData) : size d.value ≤ 16 * moduleSize d + 10 := by
  have := text_option_size d.version
  have := text_vec_size d.uses
  have := vec_size_le (f := ModuleRequireEntry.value) (n := 16) d.requires fun e => by
    have := text_option_size e.version
    simp only [ModuleRequireEntry.value, size, sizeAll]; omega
  have := vec_list_size_le (f := ModuleExportsEntry.value) (g := fun e => e.exportsTo.length) (n := 16) d.exports fun e => by
    have := text_vec_size e.exportsTo
    simp only [ModuleExportsEntry.value, size, sizeAll]; omega
  have := vec_list_size_le (f := ModuleOpensEntry.value) (g := fun e => e.opensTo.length) (n := 16) d.opens fun e => by
    have := text_vec_size e.opensTo
    simp only [ModuleOpensEntry.value, size, sizeAll]; omega
  have := vec_list_size_le (f := ModuleProvidesEntry.value) (g := fun e => e.providesWith.length) (n := 16) d.provides fun e => by
    have := text_vec_size e.providesWith
    simp only [ModuleProvidesEntry.value, size, sizeAll]; omega
  simp only [ModuleData.value, size, sizeAll, moduleSize]; omega

theorem target_size (t : TypeAnnotationTarget) : size t.value ≤ 4 * targetSize t + 3 := by
  cases t with
  | localVar vars =>
    have := vec_size_le (f := fun _ => Value.of [leaf, leaf, leaf]) (n := 4) vars fun _ => by simp [size, sizeAll]
    simp only [TypeAnnotationTarget.value, size, sizeAll, targetSize]; omega
  | _ => simp [TypeAnnotationTarget.value, size, sizeAll]

mutual
theorem value_size : ∀ v : AnnotationElementValue, size v.value ≤ 16 * valueSize v + 9
  | .annotationValue a => by
    have := annotation_size a
    simp only [AnnotationElementValue.value, valueSize, size, sizeAll]; omega
  | .arrayValue vs => by
    have := values_size vs
    simp only [AnnotationElementValue.value, valueSize, size, sizeAll]; omega
  | .enumConstant t n => by
    have := fieldDescriptor_size t
    simp only [AnnotationElementValue.value, valueSize, size, sizeAll]; omega
  | .byteConstant _ | .charConstant _ | .doubleConstant _ | .floatConstant _ | .intConstant _ | .longConstant _ | .shortConstant _
  | .booleanConstant _ | .stringConstant _ | .classLiteral _ => by simp [AnnotationElementValue.value, valueSize, size, sizeAll]

theorem values_size : ∀ vs : List AnnotationElementValue, sizeAll (elementValues vs) ≤ 16 * valuesSize vs
  | [] => by simp [elementValues, valuesSize, sizeAll]
  | v :: vs => by
    have h1 := value_size v
    have h2 := values_size vs
    simp only [elementValues, valuesSize, sizeAll]; omega

theorem annotation_size : ∀ a : Annotation, size a.value ≤ 16 * annotationSize a + 7
  | ⟨t, es⟩ => by
    have h1 := fieldDescriptor_size t
    have h2 := elements_size es
    simp only [Annotation.value, annotationSize, size, sizeAll]; omega

theorem elements_size : ∀ es : List AnnotationElement, sizeAll (annotationElements es) ≤ 16 * elementsSize es
  | [] => by simp [annotationElements, elementsSize, sizeAll]
  | ⟨_, v⟩ :: es => by
    have h1 := value_size v
    have h2 := elements_size es
    simp only [annotationElements, elementsSize, size, sizeAll]; omega
end

theorem annotations_size (l : List Annotation) : size (vec Annotation.value l) ≤ 16 * sizeOfList annotationSize l + 1 :=
  vec_list_size_le l fun a => by have := annotation_size a; omega

theorem parameterAnnotations_size (l : List ParameterAnnotation) :
    size (vec ParameterAnnotation.value l) ≤ 16 * sizeOfList (fun p => sizeOfList annotationSize p.annotations) l + 1 :=
  vec_list_size_le l fun p => by
    have := annotations_size p.annotations
    simp only [ParameterAnnotation.value, one_size]; omega

theorem typeAnnotations_size (l : List TypeAnnotation) : size (vec TypeAnnotation.value l) ≤ 16 * sizeOfList typeAnnotationSize l + 1 :=
  vec_list_size_le l fun t => by
    have := annotation_size t.annotation
    have := target_size t.targetType
    have := vec_size_le (f := fun _ => Value.of [leaf, leaf]) (n := 3) t.targetPath fun _ => by simp [size, sizeAll]
    simp only [TypeAnnotation.value, size, sizeAll, typeAnnotationSize]; omega

theorem flat_size {α : Type} {f : α → Value} {n : Nat} (hn : n ≤ 16) (l : List α) (h : ∀ a, size (f a) ≤ n) :
    size (.of [vec f l]) ≤ 16 * l.length + 12 := by
  have := vec_size_le l fun a => Nat.le_trans (h a) hn
  rw [one_size]; omega

mutual
theorem data_size : ∀ d : AttributeData, size d.value ≤ 16 * dataSize d + 12
  | .code c => by
    have := code_size c
    simp only [AttributeData.value, dataSize, one_size]; omega
  | .record l => by
    have := components_size l
    simp only [AttributeData.value, dataSize, size, sizeAll]; omega
  | .runtimeVisibleAnnotations l | .runtimeInvisibleAnnotations l => by
    have := annotations_size l
    simp only [AttributeData.value, dataSize, one_size]; omega
  | .runtimeVisibleParameterAnnotations l | .runtimeInvisibleParameterAnnotations l => by
    have := parameterAnnotations_size l
    simp only [AttributeData.value, dataSize, one_size]; omega
  | .runtimeVisibleTypeAnnotations l | .runtimeInvisibleTypeAnnotations l => by
    have := typeAnnotations_size l
    simp only [AttributeData.value, dataSize, one_size]; omega
  | .annotationDefault v => by
    have := value_size v
    simp only [AttributeData.value, dataSize, one_size]; omega
  | .constantValue c => by simp [AttributeData.value, LiteralConstant.value, dataSize, size, sizeAll]
  | .stackMapTable t => by
    have := vec_list_size_le t frame_size
    simp only [AttributeData.value, dataSize, one_size]; omega
  | .innerClasses l => flat_size (Nat.le_refl _) l innerClass_size
  | .enclosingMethod _ method => by
    have := option_size_le (f := NameAndType.value) (n := 3) method fun n => Nat.le_refl _
    simp only [AttributeData.value, dataSize, size, sizeAll]; omega
  | .synthetic | .deprecated => by simp [AttributeData.value, dataSize, size, sizeAll]
  | .signature _ | .sourceFile _ | .sourceDebugExtension _ | .moduleMainClass _ | .nestHost _ | .other _ => by
    simp [AttributeData.value, dataSize, size, sizeAll]
  | .lineNumberTable l => flat_size (n := 3) (by omega) l (fun e => Nat.le_refl _)
  | .localVariableTable l => flat_size (Nat.le_refl _) l localVariable_size
  | .localVariableTypeTable l => flat_size (n := 6) (by omega) l (fun e => Nat.le_refl _)
  | .bootstrapMethods l => by
    have := vec_list_size_le l bootstrap_size
    simp only [AttributeData.value, dataSize, one_size]; omega
  | .methodParameters l => flat_size (Nat.le_refl _) l parameter_size
  | .moduleAttr d => by
    have := module_size d
    simp only [AttributeData.value, dataSize, one_size]; omega
  | .exceptions l | .modulePackages l | .nestMembers l | .permittedSubclasses l => flat_size (n := 1) (by omega) l (fun _ => Nat.le_refl _)

theorem code_size : ∀ c : CodeData, size c.value ≤ 16 * codeSize c + 9
  | ⟨_, _, _, bytecode, exceptionTable, attributes⟩ => by
    have h1 := attributes_size attributes
    have h2 := bytecode_size bytecode
    have h3 := vec_size_le exceptionTable exceptionEntry_size
    simp only [CodeData.value, codeSize, size, sizeAll]; omega

theorem components_size : ∀ l : List RecordComponentEntry, sizeAll (componentValues l) ≤ 16 * componentsSize l
  | [] => by simp [componentValues, componentsSize, sizeAll]
  | ⟨_, descriptor, attributes⟩ :: cs => by
    have h1 := attributes_size attributes
    have h2 := fieldDescriptor_size descriptor
    have h3 := components_size cs
    simp only [componentValues, componentsSize, componentSize, size, sizeAll]; omega

theorem attributes_size : ∀ l : List AttributeInfo, sizeAll (attributeValues l) ≤ 16 * attrsSize l
  | [] => by simp [attributeValues, attrsSize, sizeAll]
  | ⟨_, data⟩ :: as => by
    have h1 := data_size data
    have h2 := attributes_size as
    simp only [attributeValues, attrsSize, size, sizeAll]; omega
end

theorem fields_size (l : List FieldInfo) : size (vec FieldInfo.value l) ≤ 16 * sizeOfList (fun f => attrsSize f.attributes) l + 1 :=
  vec_list_size_le l fun f => by
    have h1 := attributes_size f.attributes
    have h2 := fieldDescriptor_size f.descriptor
    simp only [FieldInfo.value, size, sizeAll]; omega

theorem methods_size : ∀ l : List MethodInfo, sizeAll (l.map MethodInfo.value) ≤
    16 * sizeOfList (fun m => attrsSize m.attributes) l + 5 * (l.map fun m => m.descriptor.parameters.length).sum
  | [] => by simp [sizeAll]
  | m :: l => by
    have h1 := attributes_size m.attributes
    have h2 := methodDescriptor_size m.descriptor
    have h3 := methods_size l
    simp only [List.map_cons, MethodInfo.value, size, sizeAll, sizeOfList, List.sum_cons] at *; omega

theorem class_size (cf : ClassFile) : size cf.value ≤ 16 * classSize cf + 5 * (cf.methods.map fun m => m.descriptor.parameters.length).sum + 13 := by
  have h1 := fields_size cf.fields
  have h2 := methods_size cf.methods
  have h3 := attributes_size cf.attributes
  have h4 := option_size_le (f := ClassName.value) (n := 2) cf.superClass fun c => Nat.le_refl _
  have h5 := vec_size_le (f := ClassName.value) (n := 2) cf.interfaces fun c => Nat.le_refl _
  have h6 : size (vec MethodInfo.value cf.methods) = sizeAll (cf.methods.map MethodInfo.value) + 1 := rfl
  have h7 : size cf.thisClass.value = 2 := rfl
  simp only [ClassFile.value, size, sizeAll, classSize, h6, h7]; omega

end Glue

end Cafebabe
