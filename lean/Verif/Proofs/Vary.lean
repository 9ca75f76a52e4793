import Verif.Spec.Vary
import Verif.Proofs.Open
import Verif.Proofs.Nested
/-!
# Proofs: two encodings of the same value
-/

namespace Cafebabe
open Spec

section
variable {o : Opts} {pool : Pool}

/-- Any two encodings are ways of writing the same. -/
def Vs (o : Opts) (pool : Pool) (F : Lang) : Prop := ∀ s t, F s → F t → Vary o pool s t

theorem Vs.lit {b : Bytes} : Vs o pool (lit b) := by rintro _ _ rfl rfl; exact .same

theorem Vs.cat {F G : Lang} (h : Vs o pool F) (h' : Vs o pool G) : Vs o pool (F ⬝ G) := by
  rintro _ _ ⟨s, s', rfl, a, a'⟩ ⟨t, t', rfl, b, b'⟩
  exact .both (h s t a b) (h' s' t' a' b')

theorem Vs.when {p : Prop} {F : Lang} (h : Vs o pool F) : Vs o pool (Spec.when p F) := fun s t a b => h s t a.2 b.2

theorem Vs.ref {At : Nat → Prop} (h : ∀ i j, At i → At j → Alike pool i j) : Vs o pool (Spec.ref At) := by
  rintro _ _ ⟨i, hi, rfl⟩ ⟨j, hj, rfl⟩
  exact .index (h _ _ hi hj)

theorem Vs.opt {α : Type} {F : Pool → Nat → α → Prop} {a : Option α} (h : ∀ a i j, F pool i a → F pool j a → Alike pool i j) :
    Vs o pool (Spec.ref fun i => OptAt F pool i a) := Vs.ref fun i j hi hj => by
  cases a with
  | none => exact .absent hi hj
  | some a => exact h a i j hi hj

theorem Vs.seq {α : Type} {F : α → Lang} (h : ∀ a, Vs o pool (F a)) : ∀ l, Vs o pool (Spec.seq F l)
  | [] => Vs.lit
  | a :: l => (h a).cat (Vs.seq h l)

theorem Vs.counted2 {n : Nat} {F : Lang} (h : Vs o pool F) : Vs o pool (Spec.counted2 n F) := by
  rintro s t ⟨c, hc, hs⟩ ⟨d, hd, ht⟩
  obtain rfl : c = d := UInt16.toNat_inj.mp (hc.trans hd.symm)
  exact (Vs.lit.cat h) s t hs ht

theorem Vs.counted1 {n : Nat} {F : Lang} (h : Vs o pool F) : Vs o pool (Spec.counted1 n F) := by
  rintro s t ⟨c, hc, hs⟩ ⟨d, hd, ht⟩
  obtain rfl : c = d := UInt8.toNat_inj.mp (hc.trans hd.symm)
  exact (Vs.lit.cat h) s t hs ht

theorem Vs.table2 {α : Type} {F : α → Lang} (h : ∀ a, Vs o pool (F a)) (l : List α) : Vs o pool (Spec.table2 F l) := Vs.counted2 (Vs.seq h l)
theorem Vs.table1 {α : Type} {F : α → Lang} (h : ∀ a, Vs o pool (F a)) (l : List α) : Vs o pool (Spec.table1 F l) := Vs.counted1 (Vs.seq h l)

theorem Vs.masked {m a : UInt16} (hm : m ∈ [0xF631, 0x50DF, 0x1DFF, 0x761F]) : Vs o pool (maskedFlags m a) := by
  rintro _ _ ⟨x, hx, rfl⟩ ⟨y, hy, rfl⟩
  exact .flags hm (hx.symm.trans hy)

theorem Vs.strict {m a : UInt16} : Vs o pool (strictFlags m a) := by
  rintro _ _ ⟨_, rfl⟩ ⟨_, rfl⟩
  exact .same

theorem Vs.sized4 {F : Lang} (h : Vs o pool F) : Vs o pool (Spec.sized4 F) := by
  rintro _ _ ⟨n, s, hn, hs, rfl⟩ ⟨m, t, hm, ht, rfl⟩
  exact .sized (h s t hs ht) hn hm

theorem vs_text {s : Str} : Vs o pool (ref fun i => TextAt pool i s) := Vs.ref fun _ _ => .text
theorem vs_class {s : Str} : Vs o pool (ref fun i => ClassAt pool i s) := Vs.ref fun _ _ => .class
theorem vs_module {s : Str} : Vs o pool (ref fun i => ModuleAt pool i s) := Vs.ref fun _ _ => .module
theorem vs_package {s : Str} : Vs o pool (ref fun i => PackageAt pool i s) := Vs.ref fun _ _ => .package
theorem vs_field {d : FieldDescriptor} : Vs o pool (ref fun i => FieldDescriptorAt pool i d) := Vs.ref fun _ _ => .fieldDescriptor
theorem vs_method {d : MethodDescriptor} : Vs o pool (ref fun i => MethodDescriptorAt pool i d) := Vs.ref fun _ _ => .methodDescriptor
theorem vs_literal {c : LiteralConstant} : Vs o pool (ref fun i => LiteralAt pool i c) := Vs.ref fun _ _ => .literal
theorem vs_handle {h : MethodHandle} : Vs o pool (ref fun i => MethodHandleAt pool i h) := Vs.ref fun _ _ => .methodHandle
theorem vs_optClass {a : Option Str} : Vs o pool (ref fun i => OptAt ClassAt pool i a) := Vs.opt fun _ _ _ => .class
theorem vs_optText {a : Option Str} : Vs o pool (ref fun i => OptAt TextAt pool i a) := Vs.opt fun _ _ _ => .text
theorem vs_optNameAndType {a : Option NameAndType} : Vs o pool (ref fun i => OptAt NameAndTypeAt pool i a) := Vs.opt fun _ _ _ => .nameAndType
theorem vs_className {c : ClassName} : Vs o pool (ref fun i => ClassNameAt pool i c) := Vs.ref fun _ _ h h' => .class h.1 h'.1
theorem vs_optClassName {a : Option ClassName} : Vs o pool (ref fun i => OptAt ClassNameAt pool i a) := Vs.opt fun _ _ _ h h' => .class h.1 h'.1

theorem vs_argument {a : BootstrapArgument} : Vs o pool (ref fun i => BootstrapArgumentAt pool i a) := Vs.ref fun i j h h' => by
  cases a with
  | literalConstant c => exact .literal h h'
  | classInfo s => exact .class h h'
  | methodHandle m => exact .methodHandle h h'
  | methodType s => exact .methodType h h'

theorem vs_exception (e : ExceptionTableEntry) : Vs o pool (ExceptionEnc pool e) := Vs.lit.cat (Vs.lit.cat (Vs.lit.cat vs_optClass))

theorem vs_verification (v : VerificationType) : Vs o pool (VerificationEnc pool v) := by
  cases v with
  | object c => exact Vs.lit.cat vs_class
  | uninitialized k => exact Vs.lit.cat Vs.lit
  | _ => exact Vs.lit

theorem vs_frame (f : StackMapEntry) : Vs o pool (FrameEnc pool f) := by
  cases f with
  | same d =>
    rintro s t (⟨hd, rfl⟩ | rfl) (⟨hd', rfl⟩ | rfl)
    · exact .same
    · exact .sameFrame hd
    · exact (Vary.sameFrame hd').symm
    · exact .same
  | sameLocals1StackItem d v =>
    rintro s t (⟨hd, s1, s2, rfl, rfl, hs⟩ | ⟨s1, s2, rfl, rfl, hs⟩) (⟨hd', t1, t2, rfl, rfl, ht⟩ | ⟨t1, t2, rfl, rfl, ht⟩)
    · exact .both .same (vs_verification v _ _ hs ht)
    · exact .both (.oneItemFrame hd) (vs_verification v _ _ hs ht)
    · exact .both (Vary.oneItemFrame hd').symm (vs_verification v _ _ hs ht)
    · exact .both .same (vs_verification v _ _ hs ht)
  | chop d k =>
    rintro _ _ ⟨_, _, rfl⟩ ⟨_, _, rfl⟩
    exact .same
  | append d l => exact (Vs.lit.cat (Vs.seq vs_verification l)).when
  | fullFrame d l m => exact Vs.lit.cat ((Vs.table2 vs_verification l).cat (Vs.table2 vs_verification m))

theorem vs_innerClass (e : InnerClassEntry) : Vs o pool (InnerClassEnc pool e) :=
  vs_class.cat (vs_optClass.cat (vs_optText.cat (Vs.masked (by simp))))

theorem vs_lineNumber (e : LineNumberEntry) : Vs o pool (LineNumberEnc e) := Vs.lit.cat Vs.lit

theorem vs_localVariable (e : LocalVariableEntry) : Vs o pool (LocalVariableEnc pool e) :=
  (Vs.lit.cat (Vs.lit.cat (vs_text.cat (vs_field.cat Vs.lit)))).when

theorem vs_localVariableType (e : LocalVariableTypeEntry) : Vs o pool (LocalVariableTypeEnc pool e) :=
  (Vs.lit.cat (Vs.lit.cat (vs_text.cat (vs_text.cat Vs.lit)))).when

theorem vs_bootstrapMethod (e : BootstrapMethodEntry) : Vs o pool (BootstrapMethodEnc pool e) := vs_handle.cat (Vs.table2 (fun _ => vs_argument) _)
theorem vs_methodParameter (e : MethodParameterEntry) : Vs o pool (MethodParameterEnc pool e) := (vs_optText.cat Vs.strict).when
theorem vs_require (e : ModuleRequireEntry) : Vs o pool (RequireEnc pool e) := vs_module.cat (Vs.strict.cat vs_optText)
theorem vs_exports (e : ModuleExportsEntry) : Vs o pool (ExportsEnc pool e) := vs_package.cat (Vs.strict.cat (Vs.table2 (fun _ => vs_module) _))
theorem vs_opens (e : ModuleOpensEntry) : Vs o pool (OpensEnc pool e) := vs_package.cat (Vs.strict.cat (Vs.table2 (fun _ => vs_module) _))
theorem vs_provides (e : ModuleProvidesEntry) : Vs o pool (ProvidesEnc pool e) := vs_class.cat (Vs.table2 (fun _ => vs_class) _)

theorem vs_moduleData (d : ModuleData) : Vs o pool (ModuleDataEnc pool d) :=
  vs_module.cat (Vs.strict.cat (vs_optText.cat ((Vs.table2 vs_require _).cat ((Vs.table2 vs_exports _).cat ((Vs.table2 vs_opens _).cat
    ((Vs.table2 (fun _ => vs_class) _).cat (Vs.table2 vs_provides _)))))))

mutual
theorem vs_elementValue : ∀ v : AnnotationElementValue, Vs o pool (ElementValueEnc pool v)
  | .byteConstant v | .charConstant v | .intConstant v | .shortConstant v | .booleanConstant v => by
    rw [ElementValueEnc]; exact Vs.lit.cat (vs_literal (c := .integer v))
  | .doubleConstant v => by rw [ElementValueEnc]; exact Vs.lit.cat (vs_literal (c := .double v))
  | .floatConstant v => by rw [ElementValueEnc]; exact Vs.lit.cat (vs_literal (c := .float v))
  | .longConstant v => by rw [ElementValueEnc]; exact Vs.lit.cat (vs_literal (c := .long v))
  | .stringConstant s => by rw [ElementValueEnc]; exact Vs.lit.cat vs_text
  | .enumConstant t c => by rw [ElementValueEnc]; exact Vs.lit.cat (vs_field.cat vs_text)
  | .classLiteral s => by rw [ElementValueEnc]; exact Vs.lit.cat (Vs.ref fun _ _ h h' => .text h.1 h'.1)
  | .annotationValue a => by rw [ElementValueEnc]; exact Vs.lit.cat (vs_annotation a)
  | .arrayValue vs => by rw [ElementValueEnc]; exact Vs.lit.cat (Vs.counted2 (vs_elementValues vs))

theorem vs_elementValues : ∀ l : List AnnotationElementValue, Vs o pool (ElementValuesEnc pool l)
  | [] => by rw [ElementValuesEnc]; exact Vs.lit
  | v :: l => by rw [ElementValuesEnc]; exact (vs_elementValue v).cat (vs_elementValues l)

theorem vs_annotation : ∀ a : Annotation, Vs o pool (AnnotationEnc pool a)
  | ⟨d, es⟩ => by rw [AnnotationEnc]; exact vs_field.cat (Vs.counted2 (vs_elements es))

theorem vs_elements : ∀ l : List AnnotationElement, Vs o pool (ElementsEnc pool l)
  | [] => by rw [ElementsEnc]; exact Vs.lit
  | ⟨n, v⟩ :: l => by rw [ElementsEnc]; exact (vs_text.cat (vs_elementValue v)).cat (vs_elements l)
end

theorem vs_parameterAnnotation (p : ParameterAnnotation) : Vs o pool (ParameterAnnotationEnc pool p) := Vs.table2 vs_annotation _

theorem vs_byteIn {p : UInt8 → Prop} (t : TypeAnnotationTarget) (h : ∀ b, p b → b ∈ targetKinds t) : Vs o pool (byteIn p) := by
  rintro _ _ ⟨a, ha, rfl⟩ ⟨b, hb, rfl⟩
  exact .target (h a ha) (h b hb)

theorem vs_target (t : TypeAnnotationTarget) : Vs o pool (TargetEnc t) := by
  cases t with
  | typeParameter k => exact (vs_byteIn (.typeParameter k) (by simp [targetKinds])).cat Vs.lit
  | supertype k => exact Vs.lit.cat Vs.lit
  | typeParameterBound k l => exact (vs_byteIn (.typeParameterBound k l) (by simp [targetKinds])).cat (Vs.lit.cat Vs.lit)
  | empty => exact vs_byteIn .empty (fun b ⟨h1, h2⟩ => by
    have h1 := UInt8.le_iff_toNat_le.mp h1; have h2 := UInt8.le_iff_toNat_le.mp h2
    simp only [targetKinds, List.mem_cons, List.not_mem_nil, or_false, ← UInt8.toNat_inj] at h1 h2 ⊢
    simp only [UInt8.reduceToNat] at h1 h2 ⊢; omega)
  | formalParameter k => exact Vs.lit.cat Vs.lit
  | throws k => exact Vs.lit.cat Vs.lit
  | localVar vs => exact (vs_byteIn (.localVar vs) (by simp [targetKinds])).cat (Vs.table2 (fun _ => Vs.lit.cat (Vs.lit.cat Vs.lit)) _)
  | catch_ k => exact Vs.lit.cat Vs.lit
  | offset k => exact (vs_byteIn (.offset k) (fun b ⟨h1, h2⟩ => by
    have h1 := UInt8.le_iff_toNat_le.mp h1; have h2 := UInt8.le_iff_toNat_le.mp h2
    simp only [targetKinds, List.mem_cons, List.not_mem_nil, or_false, ← UInt8.toNat_inj] at h1 h2 ⊢
    simp only [UInt8.reduceToNat] at h1 h2 ⊢; omega)).cat Vs.lit
  | typeArgument k l => exact (vs_byteIn (.typeArgument k l) (fun b ⟨h1, h2⟩ => by
    have h1 := UInt8.le_iff_toNat_le.mp h1; have h2 := UInt8.le_iff_toNat_le.mp h2
    simp only [targetKinds, List.mem_cons, List.not_mem_nil, or_false, ← UInt8.toNat_inj] at h1 h2 ⊢
    simp only [UInt8.reduceToNat] at h1 h2 ⊢; omega)).cat (Vs.lit.cat Vs.lit)

theorem vs_typeAnnotation (t : TypeAnnotation) : Vs o pool (TypeAnnotationEnc pool t) :=
  (vs_target _).cat ((Vs.table1 (fun _ => Vs.lit) _).cat (vs_annotation _))

mutual
theorem vs_code : ∀ c : CodeData, Vs o pool (CodeEnc o pool c)
  | ⟨ms, ml, code, bc, t, l⟩ => by
    rw [CodeEnc]
    exact (Vs.lit.cat (Vs.lit.cat ((Vs.sized4 Vs.lit).cat ((Vs.table2 vs_exception t).cat (Vs.counted2 (vs_attrs l)))))).when

theorem vs_components : ∀ l : List RecordComponentEntry, Vs o pool (ComponentsEnc o pool l)
  | [] => by rw [ComponentsEnc]; exact Vs.lit
  | ⟨n, d, as⟩ :: l => by
    rw [ComponentsEnc, ComponentEnc]
    exact (vs_text.cat (vs_field.cat (Vs.counted2 (vs_attrs as)))).when.cat (vs_components l)

theorem vs_data (name : Str) : ∀ d : AttributeData, Vs o pool (sized4 (DataEnc o pool name d))
  | .constantValue _ => by rw [DataEnc]; exact (vs_literal.when).sized4
  | .code c => by rw [DataEnc]; exact (vs_code c).when.sized4
  | .stackMapTable l => by rw [DataEnc]; exact (Vs.table2 vs_frame l).when.sized4
  | .exceptions l => by rw [DataEnc]; exact (Vs.table2 (fun _ => vs_class) l).when.sized4
  | .innerClasses l => by rw [DataEnc]; exact (Vs.table2 vs_innerClass l).when.sized4
  | .enclosingMethod _ _ => by rw [DataEnc]; exact (vs_class.cat vs_optNameAndType).when.sized4
  | .synthetic => by rw [DataEnc]; exact Vs.lit.when.sized4
  | .signature _ => by rw [DataEnc]; exact vs_text.when.sized4
  | .sourceFile _ => by rw [DataEnc]; exact vs_text.when.sized4
  | .sourceDebugExtension s => by
    rw [DataEnc]
    rintro _ _ ⟨n, a, hn, ha, rfl⟩ ⟨m, b, hm, hb, rfl⟩
    exact .content ha.2 hb.2 hn hm
  | .lineNumberTable l => by rw [DataEnc]; exact (Vs.table2 vs_lineNumber l).when.sized4
  | .localVariableTable l => by rw [DataEnc]; exact (Vs.table2 vs_localVariable l).when.sized4
  | .localVariableTypeTable l => by rw [DataEnc]; exact (Vs.table2 vs_localVariableType l).when.sized4
  | .deprecated => by rw [DataEnc]; exact Vs.lit.when.sized4
  | .runtimeVisibleAnnotations l => by rw [DataEnc]; exact (Vs.table2 vs_annotation l).when.sized4
  | .runtimeInvisibleAnnotations l => by rw [DataEnc]; exact (Vs.table2 vs_annotation l).when.sized4
  | .runtimeVisibleParameterAnnotations l => by rw [DataEnc]; exact (Vs.table1 vs_parameterAnnotation l).when.sized4
  | .runtimeInvisibleParameterAnnotations l => by rw [DataEnc]; exact (Vs.table1 vs_parameterAnnotation l).when.sized4
  | .runtimeVisibleTypeAnnotations l => by rw [DataEnc]; exact (Vs.table2 vs_typeAnnotation l).when.sized4
  | .runtimeInvisibleTypeAnnotations l => by rw [DataEnc]; exact (Vs.table2 vs_typeAnnotation l).when.sized4
  | .annotationDefault v => by rw [DataEnc]; exact (vs_elementValue v).when.sized4
  | .bootstrapMethods l => by rw [DataEnc]; exact (Vs.table2 vs_bootstrapMethod l).when.sized4
  | .methodParameters l => by rw [DataEnc]; exact (Vs.table1 vs_methodParameter l).when.sized4
  | .moduleAttr d => by rw [DataEnc]; exact (vs_moduleData d).when.sized4
  | .modulePackages l => by rw [DataEnc]; exact (Vs.table2 (fun _ => vs_package) l).when.sized4
  | .moduleMainClass _ => by rw [DataEnc]; exact vs_class.when.sized4
  | .nestHost _ => by rw [DataEnc]; exact vs_class.when.sized4
  | .nestMembers l => by rw [DataEnc]; exact (Vs.table2 (fun _ => vs_class) l).when.sized4
  | .permittedSubclasses l => by rw [DataEnc]; exact (Vs.table2 (fun _ => vs_class) l).when.sized4
  | .record l => by rw [DataEnc]; exact (Vs.counted2 (vs_components l)).when.sized4
  | .other _ => by rw [DataEnc]; exact Vs.lit.when.sized4

theorem vs_attrs : ∀ l : List AttributeInfo, Vs o pool (AttrsEnc o pool l)
  | [] => by rw [AttrsEnc]; exact Vs.lit
  | ⟨n, d⟩ :: l => by
    rw [AttrsEnc, AttrEnc]
    exact (vs_text.cat (vs_data n d)).cat (vs_attrs l)
end

theorem vs_attributes (l : List AttributeInfo) : Vs o pool (AttributesEnc o pool l) := by
  unfold AttributesEnc table2
  rw [← attrsEnc_eq]
  exact Vs.counted2 (vs_attrs l)

theorem vs_fieldInfo (f : FieldInfo) : Vs o pool (FieldEnc o pool f) :=
  ((Vs.masked (by simp)).cat (vs_text.cat (vs_field.cat (vs_attributes _)))).when

theorem vs_methodInfo {p : Prop} {v : UInt16} (m : MethodInfo) : Vs o pool (MethodEnc o pool p v m) :=
  ((Vs.masked (by simp)).cat (vs_text.cat (vs_method.cat (vs_attributes _)))).when

/-! ## The constants -/

theorem vs_entry {major : UInt16} (e : Entry) : Vs o pool (EntryEnc o.decode major e) := by
  intro s t h h'
  unfold EntryEnc at h h'
  split at h <;> simp only at h'
  case h_1 => 
    obtain ⟨n, a, hn, ha, rfl⟩ := h
    obtain ⟨m, b, hm, hb, rfl⟩ := h'
    exact .text ha hb hn hm
  case h_2 =>
    obtain ⟨n, hn, _, rfl⟩ := h
    obtain ⟨m, hm, _, rfl⟩ := h'
    obtain rfl : n = m := UInt16.toNat_inj.mp (hn.trans hm.symm)
    exact .same
  all_goals first
    | (rw [h, h']; exact .same)
    | (rw [h.2, h'.2]; exact .same)

/-- A constant as it is written: its references are indices. -/
def Written (e : Entry) : Prop := ∃ (decode : Bytes → Option Str) (major : UInt16) (s : Bytes), EntryEnc decode major e s

theorem linkEntry_written {e e' : Entry} (h : Written e) (h' : Written e') (he : linkEntry e = linkEntry e') : e = e' := by
  obtain ⟨_, _, _, h⟩ := h
  obtain ⟨_, _, _, h'⟩ := h'
  unfold EntryEnc at h h'
  split at h
  all_goals (split at h' <;> first | exact h.elim | exact h'.elim | (simp only [linkEntry, link] at he; first | cases he | skip))
  all_goals (try simp only [Entry.classInfo.injEq, Entry.string.injEq, Entry.fieldRef.injEq, Entry.methodRef.injEq, Entry.interfaceMethodRef.injEq,
    Entry.nameAndType.injEq, Entry.methodHandle.injEq, Entry.methodType.injEq, Entry.dynamic.injEq, Entry.invokeDynamic.injEq, Entry.moduleInfo.injEq,
    Entry.packageInfo.injEq, CPRef.resolved.injEq, UInt16.toNat_inj] at he)
  all_goals first | rfl | (simp [he]) | (cases he)

theorem slots_first (e : Entry) : slots e = [e] ∨ slots e = [e, .unused] := by
  cases e <;> simp [slots]

theorem slots_tail {e : Entry} (he : (slots e).length = 2) : slots e = [e, .unused] := by
  rcases slots_first e with h | h
  · rw [h] at he; cases he
  · exact h

theorem entries_written : ∀ {es es' : List Entry}, (∀ e ∈ es, Written e) → (∀ e ∈ es', Written e) →
    (es.flatMap slots).map linkEntry = (es'.flatMap slots).map linkEntry → es = es'
  | [], [], _, _, _ => rfl
  | [], e :: l, _, _, h => by
    rw [List.flatMap_cons] at h
    rcases slots_first e with h' | h' <;> rw [h'] at h <;> cases h
  | e :: l, [], _, _, h => by
    rw [List.flatMap_cons] at h
    rcases slots_first e with h' | h' <;> rw [h'] at h <;> cases h
  | e :: l, e' :: l', hw, hw', h => by
    have he : e = e' := by
      refine linkEntry_written (hw e (by simp)) (hw' e' (by simp)) ?_
      rw [List.flatMap_cons, List.flatMap_cons] at h
      rcases slots_first e with h1 | h1 <;> rcases slots_first e' with h2 | h2 <;> rw [h1, h2] at h <;> injection h
    subst he
    rw [List.flatMap_cons, List.flatMap_cons, List.map_append, List.map_append] at h
    rw [entries_written (fun x hx => hw x (by simp [hx])) (fun x hx => hw' x (by simp [hx])) (List.append_cancel_left h)]

theorem seq_written {decode : Bytes → Option Str} {major : UInt16} : ∀ {es : List Entry} {s : Bytes}, seq (EntryEnc decode major) es s → ∀ e ∈ es, Written e
  | [], _, _, e, he => by cases he
  | e :: es, _, ⟨s, t, rfl, h1, h2⟩, x, hx => by
    rcases List.mem_cons.mp hx with rfl | hx
    · exact ⟨decode, major, s, h1⟩
    · exact seq_written h2 x hx

theorem count_vary {checks : Bool} {n m : UInt16} {es : List Entry} (h : CountOK checks n es) (h' : CountOK checks m es) (hlt : n.toNat < m.toNat)
    (hne : es ≠ []) : (Entry.zero :: es.flatMap slots).getLast? = some .unused ∧ n.toNat + 1 = m.toNat ∧
      m.toNat = (Entry.zero :: es.flatMap slots).length % 65536 := by
  obtain ⟨l, e, rfl⟩ : ∃ l e, es = l ++ [e] := ⟨es.dropLast, es.getLast hne, (List.dropLast_append_getLast hne).symm⟩
  have h1 := h.1 l.length (by simp)
  rw [List.take_left] at h1
  have h2 := h'.2.1
  have hs : slotCount (l ++ [e]) = slotCount l + (slots e).length := by simp [slotCount]; omega
  have hl : (Entry.zero :: (l ++ [e]).flatMap slots).length = slotCount (l ++ [e]) := by simp [slotCount]; omega
  have h3 : (slots e).length = 1 ∨ (slots e).length = 2 := by rcases slots_first e with h | h <;> rw [h] <;> simp
  rw [hl]
  rw [hs] at h2 ⊢
  have h4 : (slots e).length = 2 := by omega
  refine ⟨?_, by omega, by omega⟩
  rw [List.flatMap_append, List.flatMap_singleton, slots_tail h4]
  simp [List.getLast?_cons, List.getLast?_append]

theorem map_getLast {l : List Entry} {f : Entry → Entry} {e : Entry} (h : l.getLast? = some e) : (l.map f).getLast? = some (f e) := by
  rw [List.getLast?_map, h]; rfl

theorem vs_pool {major : UInt16} (hne : pool.length ≠ 1) : Vs o pool (PoolEnc o.decode o.checks major pool) := by
  rintro _ _ ⟨raw, ⟨n, es, body, hc, rfl, rfl, hs⟩, hp, _⟩ ⟨raw', ⟨m, es', body', hc', rfl, rfl, hs'⟩, hp', _⟩
  have he : es = es' := entries_written (seq_written hs) (seq_written hs') (by
    have := hp.symm.trans hp'
    rw [List.map_cons, List.map_cons] at this
    exact List.tail_eq_of_cons_eq this)
  subst he
  have hne' : es ≠ [] := by
    rintro rfl
    rw [hp] at hne
    simp at hne
  refine .both ?_ (Vs.seq vs_entry es body body' hs hs')
  have hl : pool.length = (Entry.zero :: es.flatMap slots).length := by rw [hp, List.length_map]
  rcases Nat.lt_trichotomy n.toNat m.toNat with h | h | h
  · obtain ⟨h1, h2, h3⟩ := count_vary hc hc' h hne'
    exact .count (by rw [hp]; exact map_getLast h1) h2 (by rw [hl]; exact h3)
  · rw [UInt16.toNat_inj.mp h]; exact .same
  · obtain ⟨h1, h2, h3⟩ := count_vary hc' hc h hne'
    exact (Vary.count (by rw [hp]; exact map_getLast h1) h2 (by rw [hl]; exact h3)).symm

end
end Cafebabe
