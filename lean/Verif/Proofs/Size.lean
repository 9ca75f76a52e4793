import Verif.Spec.Size
import Verif.Proofs.Exact
/-!
# Encodings are at least as long as what they encode is large
-/

namespace Cafebabe
open Spec

/-- Every string of `F` has at least `w` bytes. -/
def Fits (F : Lang) (w : Nat) : Prop := ∀ s, F s → w ≤ s.length

theorem Fits.mono {F : Lang} {w w' : Nat} (h : Fits F w) (hw : w' ≤ w) : Fits F w' := fun s hs => Nat.le_trans hw (h s hs)

theorem fits_zero {F : Lang} : Fits F 0 := fun _ _ => Nat.zero_le _

theorem fits_lit (b : Bytes) : Fits (lit b) b.length := by rintro _ rfl; exact Nat.le_refl _

theorem fits_cat {F G : Lang} {a b : Nat} (h : Fits F a) (h' : Fits G b) : Fits (F ⬝ G) (a + b) := by
  rintro _ ⟨s, t, rfl, hs, ht⟩
  have := h s hs; have := h' t ht
  rw [List.length_append]; omega

theorem fits_when {p : Prop} {F : Lang} {w : Nat} (h : Fits F w) : Fits (when p F) w := fun s hs => h s hs.2

theorem fits_ref {At : Nat → Prop} : Fits (ref At) 2 := by rintro _ ⟨i, -, rfl⟩; exact Nat.le_refl _

theorem fits_masked {m f : UInt16} : Fits (maskedFlags m f) 2 := by rintro _ ⟨i, -, rfl⟩; exact Nat.le_refl _

theorem fits_strict {m f : UInt16} : Fits (strictFlags m f) 2 := by rintro _ ⟨-, rfl⟩; exact Nat.le_refl _

theorem fits_counted2 {n w : Nat} {F : Lang} (h : Fits F w) : Fits (counted2 n F) (2 + w) := by
  rintro _ ⟨c, -, s, t, rfl, rfl, ht⟩
  have := h t ht
  rw [List.length_append, u2_length]; omega

theorem fits_counted1 {n w : Nat} {F : Lang} (h : Fits F w) : Fits (counted1 n F) (1 + w) := by
  rintro _ ⟨c, -, s, t, rfl, rfl, ht⟩
  have := h t ht
  rw [List.length_append, u1_length]; omega

theorem fits_sized4 {w : Nat} {F : Lang} (h : Fits F w) : Fits (sized4 F) (4 + w) := by
  rintro _ ⟨n, b, -, hb, rfl⟩
  have := h b hb
  rw [List.length_append, u4_length]; omega

theorem fits_seq {α : Type} {F : α → Lang} {size : α → Nat} (h : ∀ a, Fits (F a) (1 + size a)) : ∀ l : List α, Fits (seq F l) (sizeOfList size l)
  | [] => fits_zero
  | a :: l => fits_cat (h a) (fits_seq h l)

theorem size_zero {α : Type} : ∀ l : List α, sizeOfList (fun _ => 0) l = l.length
  | [] => rfl
  | a :: l => by simp [sizeOfList, size_zero l]; omega

theorem fits_seq' {α : Type} {F : α → Lang} (h : ∀ a, Fits (F a) 1) (l : List α) : Fits (seq F l) l.length := by
  rw [← size_zero l]; exact fits_seq h l

theorem fits_table2 {α : Type} {F : α → Lang} {size : α → Nat} (h : ∀ a, Fits (F a) (1 + size a)) (l : List α) :
    Fits (table2 F l) (2 + sizeOfList size l) := fits_counted2 (fits_seq h l)

theorem fits_table2' {α : Type} {F : α → Lang} (h : ∀ a, Fits (F a) 1) (l : List α) : Fits (table2 F l) (2 + l.length) :=
  fits_counted2 (fits_seq' h l)

theorem fits_table1 {α : Type} {F : α → Lang} {size : α → Nat} (h : ∀ a, Fits (F a) (1 + size a)) (l : List α) :
    Fits (table1 F l) (1 + sizeOfList size l) := fits_counted1 (fits_seq h l)

theorem fits_table1' {α : Type} {F : α → Lang} (h : ∀ a, Fits (F a) 1) (l : List α) : Fits (table1 F l) (1 + l.length) :=
  fits_counted1 (fits_seq' h l)

/-! ## Bytecode -/

theorem fits_local {code base : UInt8} {n : UInt16} : Fits (localEnc code base n) 1 := by
  rintro _ (⟨-, rfl⟩ | ⟨k, -, rfl⟩ | rfl) <;> simp

theorem fits_branch {code : UInt8} {j : Int32} : Fits (branchEnc code j) 1 := by
  rintro _ ⟨v, -, rfl⟩; simp

theorem fits_insn {checks : Bool} {pool : Pool} {pos : Nat} (op : Opcode) : Fits (InsnEnc checks pool pos op) (1 + insnSize op) := by
  cases op with
  | iload n | lload n | fload n | dload n | aload n | istore n | lstore n | fstore n | dstore n | astore n => exact fits_local
  | ret n => rintro _ (⟨k, -, rfl⟩ | rfl) <;> simp [insnSize]
  | goto j | jsr j => rintro _ (⟨k, -, rfl⟩ | rfl) <;> simp [insnSize]
  | ifeq j | ifne j | iflt j | ifge j | ifgt j | ifle j | ifIcmpeq j | ifIcmpne j | ifIcmplt j | ifIcmpge j | ifIcmpgt j | ifIcmple j
  | ifAcmpeq j | ifAcmpne j | ifnull j | ifnonnull j => exact fits_branch
  | bipush v | sipush v => rintro _ rfl; simp [insnSize]
  | ldc l => rintro _ ⟨i, -, rfl⟩; simp [insnSize]
  | ldcW l | ldc2W l | getstatic m | putstatic m | getfield m | putfield m | invokevirtual m | invokespecial m | invokestatic m | new s
  | anewarray t | checkcast t | instanceof t => exact (fits_cat (fits_lit _) fits_ref).mono (by simp [insnSize])
  | invokeinterface m k | invokedynamic d | multianewarray t k => exact (fits_cat (fits_lit _) fits_zero).mono (by simp [insnSize])
  | iinc n v => rintro _ (⟨k, w, -, -, rfl⟩ | rfl) <;> simp [insnSize]
  | tableswitch t =>
    exact fits_when ((fits_cat (fits_lit _) (fits_cat fits_zero (fits_cat (fits_lit _) (fits_cat (fits_lit _) (fits_cat (fits_lit _)
      (fits_seq' (fun j => (fits_lit _).mono (by simp [s4, u4])) _)))))).mono (by simp [insnSize]; omega))
  | lookupswitch t =>
    rintro s ⟨n, -, hs⟩
    exact ((fits_cat (fits_lit _) (fits_cat fits_zero (fits_cat (fits_lit _) (fits_cat (fits_lit _)
      (fits_seq' (fun j => (fits_lit _).mono (by simp [s4, u4])) _))))).mono (by simp [insnSize]; omega)) s hs
  | _ => exact (fits_lit _).mono (by simp [insnSize])

theorem fits_insns {checks : Bool} {pool : Pool} {pos : Nat} {ops : List (Nat × Opcode)} {code : Bytes} (h : InsnsEnc checks pool pos ops code) :
    sizeOfList (fun p => insnSize p.2) ops ≤ code.length := by
  induction h with
  | nil => exact Nat.le_refl _
  | @cons pos op ops s t hs _ ih =>
    have := fits_insn op s hs
    rw [sizeOfList, List.length_append]; simp only; omega

theorem fits_bytecode {o : Opts} {pool : Pool} {bc : Option ByteCode} {code : Bytes} (h : BytecodeField o pool bc code) :
    bytecodeSize bc ≤ code.length := by
  cases bc with
  | none => exact Nat.zero_le _
  | some b => exact fits_insns h.2.1

/-! ## Tables -/

theorem fits_verification {pool : Pool} (v : VerificationType) : Fits (VerificationEnc pool v) 1 := by
  cases v with
  | object c => exact (fits_cat (fits_lit _) fits_zero).mono (by simp)
  | uninitialized c => exact (fits_cat (fits_lit _) fits_zero).mono (by simp)
  | _ => exact (fits_lit _).mono (by simp)

theorem fits_frame {pool : Pool} (f : StackMapEntry) : Fits (FrameEnc pool f) (1 + frameSize f) := by
  cases f with
  | same d => rintro _ (⟨-, rfl⟩ | rfl) <;> simp [frameSize]
  | chop d k => rintro _ ⟨-, -, rfl⟩; simp [frameSize]
  | sameLocals1StackItem d v =>
    rintro s (⟨-, hs⟩ | hs)
    · exact ((fits_cat (fits_lit _) fits_zero).mono (by simp [frameSize])) s hs
    · exact ((fits_cat (fits_lit _) fits_zero).mono (by simp [frameSize])) s hs
  | append d ls => exact fits_when ((fits_cat (fits_lit _) (fits_seq' fits_verification _)).mono (by simp [frameSize]))
  | fullFrame d ls st =>
    exact (fits_cat (fits_lit _) (fits_cat (fits_table2' fits_verification _) (fits_table2' fits_verification _))).mono
      (by simp [frameSize]; omega)

theorem fits_refs {α : Type} {At : α → Nat → Prop} (l : List α) : Fits (table2 (fun a => ref (At a)) l) (2 + l.length) :=
  fits_table2' (fun _ => fits_ref.mono (by omega)) l

theorem fits_module {pool : Pool} (d : ModuleData) : Fits (ModuleDataEnc pool d) (moduleSize d) :=
  (fits_cat fits_zero (fits_cat fits_zero (fits_cat fits_zero (fits_cat (fits_table2' (F := RequireEnc pool) (fun e => (fits_cat fits_ref fits_zero).mono (by omega)) _)
    (fits_cat (fits_table2 (F := ExportsEnc pool) (size := fun e : ModuleExportsEntry => e.exportsTo.length) (fun e => (fits_cat fits_ref (fits_cat fits_zero (fits_refs _))).mono (by omega)) _)
      (fits_cat (fits_table2 (F := OpensEnc pool) (size := fun e : ModuleOpensEntry => e.opensTo.length) (fun e => (fits_cat fits_ref (fits_cat fits_zero (fits_refs _))).mono (by omega)) _)
        (fits_cat (fits_refs _)
          (fits_table2 (F := ProvidesEnc pool) (size := fun e : ModuleProvidesEntry => e.providesWith.length) (fun e => (fits_cat fits_ref (fits_refs _)).mono (by omega)) _)))))))).mono
    (by unfold moduleSize; omega)

/-! ## Annotations -/

mutual
theorem fits_value (pool : Pool) : ∀ v : AnnotationElementValue, Fits (ElementValueEnc pool v) (1 + valueSize v)
  | .byteConstant v | .charConstant v | .doubleConstant v | .floatConstant v | .intConstant v | .longConstant v | .shortConstant v
  | .booleanConstant v | .stringConstant s | .classLiteral s => by
    rw [ElementValueEnc, valueSize]
    · exact (fits_cat (fits_lit _) fits_zero).mono (by simp)
    all_goals (intros; contradiction)
  | .enumConstant t c => by
    rw [ElementValueEnc, valueSize]
    · exact (fits_cat (fits_lit _) fits_zero).mono (by simp)
    all_goals (intros; contradiction)
  | .annotationValue a => by
    rw [ElementValueEnc, valueSize]
    exact (fits_cat (fits_lit _) (fits_annotation pool a)).mono (by simp)
  | .arrayValue vs => by
    rw [ElementValueEnc, valueSize]
    exact (fits_cat (fits_lit _) (fits_counted2 (fits_values pool vs))).mono (by simp)

theorem fits_values (pool : Pool) : ∀ vs : List AnnotationElementValue, Fits (ElementValuesEnc pool vs) (valuesSize vs)
  | [] => by rw [valuesSize]; exact fits_zero
  | v :: vs => by rw [ElementValuesEnc, valuesSize]; exact fits_cat (fits_value pool v) (fits_values pool vs)

theorem fits_annotation (pool : Pool) : ∀ a : Annotation, Fits (AnnotationEnc pool a) (1 + annotationSize a)
  | ⟨d, es⟩ => by
    rw [AnnotationEnc, annotationSize]
    exact (fits_cat fits_ref (fits_counted2 (fits_elements pool es))).mono (by omega)

theorem fits_elements (pool : Pool) : ∀ es : List AnnotationElement, Fits (ElementsEnc pool es) (elementsSize es)
  | [] => by rw [elementsSize]; exact fits_zero
  | ⟨n, v⟩ :: es => by
    rw [ElementsEnc, elementsSize]
    exact (fits_cat (fits_cat fits_ref (fits_value pool v)) (fits_elements pool es)).mono (by omega)
end

theorem fits_annotations (pool : Pool) (l : List Annotation) : Fits (table2 (AnnotationEnc pool) l) (2 + sizeOfList annotationSize l) :=
  fits_table2 (fits_annotation pool) l

theorem fits_byteIn {p : UInt8 → Prop} : Fits (byteIn p) 1 := by rintro _ ⟨b, -, rfl⟩; simp

theorem fits_target (t : TypeAnnotationTarget) : Fits (TargetEnc t) (1 + targetSize t) := by
  cases t with
  | localVar vs => exact (fits_cat fits_byteIn (fits_table2' (fun e => (fits_cat (fits_lit _) fits_zero).mono (by simp [u2])) _)).mono (by simp [targetSize])
  | empty => exact fits_byteIn
  | typeParameter k => exact (fits_cat fits_byteIn fits_zero)
  | typeParameterBound k l => exact (fits_cat fits_byteIn fits_zero)
  | offset k => exact (fits_cat fits_byteIn fits_zero)
  | typeArgument k l => exact (fits_cat fits_byteIn fits_zero)
  | supertype k => exact (fits_cat (fits_lit _) fits_zero)
  | formalParameter k => exact (fits_cat (fits_lit _) fits_zero)
  | throws k => exact (fits_cat (fits_lit _) fits_zero)
  | catch_ k => exact (fits_cat (fits_lit _) fits_zero)

theorem fits_typeAnnotation (pool : Pool) (t : TypeAnnotation) : Fits (TypeAnnotationEnc pool t) (1 + typeAnnotationSize t) :=
  (fits_cat (fits_target _) (fits_cat (fits_table1' (fun e => (fits_lit _).mono (by simp)) _) (fits_annotation pool _))).mono
    (by unfold typeAnnotationSize; omega)

/-! ## Attributes -/

mutual
theorem fits_code (o : Opts) (pool : Pool) : ∀ c : CodeData, Fits (CodeEnc o pool c) (codeSize c)
  | ⟨ms, ml, code, bc, et, as⟩ => by
    rw [CodeEnc, codeSize]
    rintro s ⟨h0, hs⟩
    have := fits_bytecode h0
    have := fits_cat fits_zero (fits_cat fits_zero (fits_cat (fits_sized4 (fits_lit code)) (fits_cat
      (fits_table2' (fun e => (fits_cat (fits_lit _) fits_zero).mono (by simp [u2])) et) (fits_counted2 (fits_attrs o pool as))))) s hs
    omega

theorem fits_component (o : Opts) (pool : Pool) : ∀ c : RecordComponentEntry, Fits (ComponentEnc o pool c) (1 + componentSize c)
  | ⟨n, d, as⟩ => by
    rw [ComponentEnc, componentSize]
    exact fits_when ((fits_cat fits_ref (fits_cat fits_ref (fits_counted2 (fits_attrs o pool as)))).mono (by omega))

theorem fits_components (o : Opts) (pool : Pool) : ∀ cs : List RecordComponentEntry, Fits (ComponentsEnc o pool cs) (componentsSize cs)
  | [] => by rw [componentsSize]; exact fits_zero
  | c :: cs => by rw [ComponentsEnc, componentsSize]; exact fits_cat (fits_component o pool c) (fits_components o pool cs)

theorem fits_data (o : Opts) (pool : Pool) (name : Str) : ∀ d : AttributeData, Fits (DataEnc o pool name d) (dataSize d)
  | .code c => by rw [DataEnc, dataSize]; exact fits_when (fits_code o pool c)
  | .record l => by rw [DataEnc, dataSize]; exact fits_when ((fits_counted2 (fits_components o pool l)).mono (by omega))
  | .stackMapTable l => by rw [DataEnc, dataSize]; exact fits_when ((fits_table2 fits_frame l).mono (by omega))
  | .exceptions l | .nestMembers l | .permittedSubclasses l | .modulePackages l => by
    rw [DataEnc, dataSize]; exact fits_when ((fits_refs l).mono (by omega))
  | .innerClasses l => by
    rw [DataEnc, dataSize]; exact fits_when ((fits_table2' (fun _ => (fits_cat fits_ref fits_zero).mono (by omega)) l).mono (by omega))
  | .lineNumberTable l => by
    rw [DataEnc, dataSize]; exact fits_when ((fits_table2' (fun _ => (fits_cat (fits_lit _) fits_zero).mono (by simp [u2])) l).mono (by omega))
  | .localVariableTable l => by
    rw [DataEnc, dataSize]
    exact fits_when ((fits_table2' (fun _ => fits_when ((fits_cat (fits_lit _) fits_zero).mono (by simp [u2]))) l).mono (by omega))
  | .localVariableTypeTable l => by
    rw [DataEnc, dataSize]
    exact fits_when ((fits_table2' (fun _ => fits_when ((fits_cat (fits_lit _) fits_zero).mono (by simp [u2]))) l).mono (by omega))
  | .runtimeVisibleAnnotations l | .runtimeInvisibleAnnotations l => by
    rw [DataEnc, dataSize]; exact fits_when ((fits_annotations pool l).mono (by omega))
  | .runtimeVisibleParameterAnnotations l | .runtimeInvisibleParameterAnnotations l => by
    rw [DataEnc, dataSize]
    exact fits_when ((fits_table1 (F := ParameterAnnotationEnc pool) (size := fun p => sizeOfList annotationSize p.annotations)
      (fun p => (fits_annotations pool p.annotations).mono (by omega)) l).mono (by omega))
  | .runtimeVisibleTypeAnnotations l | .runtimeInvisibleTypeAnnotations l => by
    rw [DataEnc, dataSize]; exact fits_when ((fits_table2 (fits_typeAnnotation pool) l).mono (by omega))
  | .annotationDefault v => by rw [DataEnc, dataSize]; exact fits_when ((fits_value pool v).mono (by omega))
  | .bootstrapMethods l => by
    rw [DataEnc, dataSize]
    exact fits_when ((fits_table2 (F := BootstrapMethodEnc pool) (size := fun e : BootstrapMethodEntry => e.arguments.length)
      (fun e => (fits_cat fits_ref (fits_refs _)).mono (by omega)) l).mono (by omega))
  | .methodParameters l => by
    rw [DataEnc, dataSize]
    exact fits_when ((fits_table1' (fun _ => fits_when ((fits_cat fits_ref fits_zero).mono (by omega))) l).mono (by omega))
  | .moduleAttr d => by rw [DataEnc, dataSize]; exact fits_when (fits_module d)
  | .constantValue _ | .enclosingMethod _ _ | .synthetic | .signature _ | .sourceFile _ | .sourceDebugExtension _ | .deprecated
  | .moduleMainClass _ | .nestHost _ | .other _ => by
    rw [dataSize]
    · exact fits_zero
    all_goals (intros; contradiction)

theorem fits_attrs (o : Opts) (pool : Pool) : ∀ as : List AttributeInfo, Fits (AttrsEnc o pool as) (attrsSize as)
  | [] => by rw [attrsSize]; exact fits_zero
  | ⟨n, d⟩ :: as => by
    rw [AttrsEnc, attrsSize, AttrEnc]
    exact (fits_cat (fits_cat fits_ref (fits_sized4 (fits_data o pool n d))) (fits_attrs o pool as)).mono (by omega)
end

end Cafebabe
