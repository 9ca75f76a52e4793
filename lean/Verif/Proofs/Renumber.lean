import Verif.Spec.Renumber
/-!
# Renumbered encodings
-/

namespace Cafebabe
open Spec

/-! ## Byte strings -/

theorem Spec.Rewritten.rfl' {π : Nat → Nat} : ∀ s : Bytes, Rewritten π s s
  | [] => .nil
  | _ :: s => .same (Rewritten.rfl' s)

theorem Spec.Rewritten.append {π : Nat → Nat} {s t s' t' : Bytes} (h : Rewritten π s t) (h' : Rewritten π s' t') :
    Rewritten π (s ++ s') (t ++ t') := by
  induction h with
  | nil => exact h'
  | same _ ih => exact .same ih
  | index1 e _ ih => exact .index1 e ih
  | index2 e _ ih => rw [List.append_assoc, List.append_assoc]; exact .index2 e ih

theorem Spec.Rewritten.length {π : Nat → Nat} {s t : Bytes} (h : Rewritten π s t) : t.length = s.length := by
  induction h with
  | nil => rfl
  | same _ ih => simp [ih]
  | index1 _ _ ih => simp [ih]
  | index2 _ _ ih => simp [ih, u2]

theorem Spec.Rewritten.eq {π : Nat → Nat} (hπ : ∀ i, i < 65536 → π i = i) {s t : Bytes} (h : Rewritten π s t) : t = s := by
  induction h with
  | nil => rfl
  | same _ ih => rw [ih]
  | @index1 i j _ _ e _ ih =>
    rw [hπ _ (by have := i.toNat_lt; omega)] at e
    rw [ih, UInt8.toNat_inj.mp e]
  | @index2 i j _ _ e _ ih =>
    rw [hπ _ i.toNat_lt] at e
    rw [ih, UInt16.toNat_inj.mp e]

/-- Every string of `F` can be rewritten to one of `G`. -/
def Goes (π : Nat → Nat) (F G : Lang) : Prop := ∀ s, F s → ∃ t, Rewritten π s t ∧ G t

theorem goes_refl {π : Nat → Nat} {F : Lang} : Goes π F F := fun s h => ⟨s, Rewritten.rfl' s, h⟩

theorem goes_cat {π : Nat → Nat} {F G F' G' : Lang} (h : Goes π F F') (h' : Goes π G G') : Goes π (F ⬝ G) (F' ⬝ G') := by
  rintro _ ⟨s, t, rfl, hs, ht⟩
  obtain ⟨s', r, hs'⟩ := h s hs
  obtain ⟨t', r', ht'⟩ := h' t ht
  exact ⟨s' ++ t', r.append r', s', t', rfl, hs', ht'⟩

theorem goes_when {π : Nat → Nat} {p : Prop} {F F' : Lang} (h : Goes π F F') : Goes π (when p F) (when p F') := by
  rintro s ⟨hp, hs⟩
  obtain ⟨t, r, ht⟩ := h s hs
  exact ⟨t, r, hp, ht⟩

theorem goes_seq {π : Nat → Nat} {α : Type} {F F' : α → Lang} (h : ∀ a, Goes π (F a) (F' a)) : ∀ l : List α, Goes π (seq F l) (seq F' l)
  | [] => goes_refl
  | a :: l => goes_cat (h a) (goes_seq h l)

theorem goes_counted2 {π : Nat → Nat} {n : Nat} {F F' : Lang} (h : Goes π F F') : Goes π (counted2 n F) (counted2 n F') := by
  rintro s ⟨c, hc, hs⟩
  obtain ⟨t, r, ht⟩ := goes_cat goes_refl h s hs
  exact ⟨t, r, c, hc, ht⟩

theorem goes_counted1 {π : Nat → Nat} {n : Nat} {F F' : Lang} (h : Goes π F F') : Goes π (counted1 n F) (counted1 n F') := by
  rintro s ⟨c, hc, hs⟩
  obtain ⟨t, r, ht⟩ := goes_cat goes_refl h s hs
  exact ⟨t, r, c, hc, ht⟩

theorem goes_table2 {π : Nat → Nat} {α : Type} {F F' : α → Lang} (h : ∀ a, Goes π (F a) (F' a)) (l : List α) :
    Goes π (table2 F l) (table2 F' l) := goes_counted2 (goes_seq h l)

theorem goes_table1 {π : Nat → Nat} {α : Type} {F F' : α → Lang} (h : ∀ a, Goes π (F a) (F' a)) (l : List α) :
    Goes π (table1 F l) (table1 F' l) := goes_counted1 (goes_seq h l)

theorem goes_sized4 {π : Nat → Nat} {F F' : Lang} (h : Goes π F F') : Goes π (sized4 F) (sized4 F') := by
  rintro _ ⟨n, b, hn, hb, rfl⟩
  obtain ⟨t, r, ht⟩ := h b hb
  exact ⟨u4 n ++ t, (Rewritten.rfl' _).append r, n, t, by rw [hn, r.length], ht, rfl⟩

/-! ## References -/

section
variable {π : Nat → Nat} {pool pool' : Pool} (R : Renumbers π pool pool')
include R

theorem goes_ref {At At' : Nat → Prop} (h : ∀ i, At i → At' (π i)) : Goes π (ref At) (ref At') := by
  rintro _ ⟨i, hi, rfl⟩
  have hb := R.fits i.toNat i.toNat_lt
  have e : (UInt16.ofNat (π i.toNat)).toNat = π i.toNat := by
    rw [UInt16.toNat_ofNat']; exact Nat.mod_eq_of_lt hb
  refine ⟨u2 (UInt16.ofNat (π i.toNat)), ?_, _, by rw [e]; exact h _ hi, rfl⟩
  have := Rewritten.index2 (π := π) (i := i) (j := UInt16.ofNat (π i.toNat)) e .nil
  simpa using this

theorem text_moves {i : Nat} {s : Str} (h : TextAt pool i s) : TextAt pool' (π i) s := R.moved i _ h (by simp)

theorem class_moves {i : Nat} {s : Str} : ClassAt pool i s → ClassAt pool' (π i) s := fun ⟨x, h, ht⟩ =>
  ⟨π x, R.moved i _ h (by simp), text_moves R ht⟩

theorem module_moves {i : Nat} {s : Str} : ModuleAt pool i s → ModuleAt pool' (π i) s := fun ⟨x, h, ht⟩ =>
  ⟨π x, R.moved i _ h (by simp), text_moves R ht⟩

theorem package_moves {i : Nat} {s : Str} : PackageAt pool i s → PackageAt pool' (π i) s := fun ⟨x, h, ht⟩ =>
  ⟨π x, R.moved i _ h (by simp), text_moves R ht⟩

theorem nat_moves {i : Nat} {n : NameAndType} : NameAndTypeAt pool i n → NameAndTypeAt pool' (π i) n := fun ⟨x, y, h, ht, ht'⟩ =>
  ⟨π x, π y, R.moved i _ h (by simp), text_moves R ht, text_moves R ht'⟩

theorem literal_moves {i : Nat} {c : LiteralConstant} (h : LiteralAt pool i c) : LiteralAt pool' (π i) c := by
  cases c with
  | string s =>
    obtain ⟨x, h, h'⟩ := h
    exact ⟨π x, R.moved i _ h (by simp), R.moved x _ h' (by simp)⟩
  | stringBytes s =>
    obtain ⟨x, h, h'⟩ := h
    exact ⟨π x, R.moved i _ h (by simp), R.moved x _ h' (by simp)⟩
  | _ => exact R.moved i _ h (by simp)

theorem member_moves {c n : Nat} {m : MemberRef} : MemberOf pool c n m → MemberOf pool' (π c) (π n) m := fun ⟨h, h'⟩ =>
  ⟨class_moves R h, nat_moves R h'⟩

theorem fieldRef_moves {i : Nat} {m : MemberRef} : FieldRefAt pool i m → FieldRefAt pool' (π i) m := fun ⟨c, n, h, h'⟩ =>
  ⟨π c, π n, R.moved i _ h (by simp), member_moves R h'⟩

theorem methodRef_moves {i : Nat} {m : MemberRef} : MethodRefAt pool i m → MethodRefAt pool' (π i) m := fun ⟨c, n, h, h'⟩ =>
  ⟨π c, π n, R.moved i _ h (by simp), member_moves R h'⟩

theorem interfaceMethodRef_moves {i : Nat} {m : MemberRef} : InterfaceMethodRefAt pool i m → InterfaceMethodRefAt pool' (π i) m :=
  fun ⟨c, n, h, h'⟩ => ⟨π c, π n, R.moved i _ h (by simp), member_moves R h'⟩

theorem memberRef_moves {i : Nat} {k : MemberKind} {m : MemberRef} (h : MemberRefAt pool i k m) : MemberRefAt pool' (π i) k m := by
  cases k with
  | field => exact fieldRef_moves R h
  | method => exact methodRef_moves R h
  | interfaceMethod => exact interfaceMethodRef_moves R h

theorem invokeDynamic_moves {i : Nat} {d : DynamicRef} : InvokeDynamicAt pool i d → InvokeDynamicAt pool' (π i) d := fun ⟨n, h, h'⟩ =>
  ⟨π n, R.moved i _ h (by simp), nat_moves R h'⟩

theorem dynamic_moves {i : Nat} {d : DynamicRef} : DynamicAt pool i d → DynamicAt pool' (π i) d := fun ⟨n, h, h'⟩ =>
  ⟨π n, R.moved i _ h (by simp), nat_moves R h'⟩

theorem methodHandle_moves {i : Nat} {m : MethodHandle} : MethodHandleAt pool i m → MethodHandleAt pool' (π i) m := fun ⟨n, h, h'⟩ =>
  ⟨π n, R.moved i _ h (by simp), memberRef_moves R h'⟩

theorem methodType_moves {i : Nat} {s : Str} : MethodTypeAt pool i s → MethodTypeAt pool' (π i) s := fun ⟨x, h, ht⟩ =>
  ⟨π x, R.moved i _ h (by simp), text_moves R ht⟩

theorem loadable_moves {i : Nat} {l : Loadable} (h : LoadableAt pool i l) : LoadableAt pool' (π i) l := by
  cases l with
  | literalConstant c => exact literal_moves R h
  | classInfo s => exact class_moves R h
  | methodHandle s => exact methodHandle_moves R h
  | methodType s => exact methodType_moves R h
  | dynamic s => exact dynamic_moves R h

theorem argument_moves {i : Nat} {l : BootstrapArgument} (h : BootstrapArgumentAt pool i l) : BootstrapArgumentAt pool' (π i) l := by
  cases l with
  | literalConstant c => exact literal_moves R h
  | classInfo s => exact class_moves R h
  | methodHandle s => exact methodHandle_moves R h
  | methodType s => exact methodType_moves R h

theorem objectType_moves {i : Nat} {t : ObjectArrayType} (h : ObjectTypeAt pool i t) : ObjectTypeAt pool' (π i) t := by
  cases t with
  | arrayType d => exact ⟨class_moves R h.1, h.2⟩
  | binaryName d => exact ⟨class_moves R h.1, h.2⟩

theorem opt_moves {α : Type} {F : Pool → Nat → α → Prop} (hF : ∀ {i : Nat} {a : α}, F pool i a → F pool' (π i) a) {i : Nat} {a : Option α}
    (h : OptAt F pool i a) : OptAt F pool' (π i) a := by
  cases a with
  | none => exact R.moved i _ h (by simp)
  | some a => exact hF h

theorem fieldDescriptor_moves {i : Nat} {d : FieldDescriptor} : FieldDescriptorAt pool i d → FieldDescriptorAt pool' (π i) d :=
  fun ⟨s, h, h'⟩ => ⟨s, text_moves R h, h'⟩

theorem methodDescriptor_moves {i : Nat} {d : MethodDescriptor} : MethodDescriptorAt pool i d → MethodDescriptorAt pool' (π i) d :=
  fun ⟨s, h, h'⟩ => ⟨s, text_moves R h, h'⟩

theorem className_moves {i : Nat} {c : ClassName} : ClassNameAt pool i c → ClassNameAt pool' (π i) c := fun ⟨h, h'⟩ => ⟨class_moves R h, h'⟩

/-! ## Bytecode -/

theorem insn_goes {checks : Bool} {pos : Nat} (op : Opcode) : Goes π (InsnEnc checks pool pos op) (InsnEnc checks pool' pos op) := by
  cases op with
  | ldc l =>
    rintro _ ⟨i, hi, rfl⟩
    have hb := R.small i.toNat i.toNat_lt
    have e : (UInt8.ofNat (π i.toNat)).toNat = π i.toNat := by
      rw [UInt8.toNat_ofNat']; exact Nat.mod_eq_of_lt hb
    exact ⟨[0x12] ++ u1 (UInt8.ofNat (π i.toNat)), (Rewritten.rfl' [0x12]).append (.index1 e .nil), UInt8.ofNat (π i.toNat),
      by rw [e]; exact loadable_moves R hi, rfl⟩
  | ldcW l => exact goes_cat goes_refl (goes_ref R fun _ h => loadable_moves R h)
  | ldc2W l => exact goes_cat goes_refl (goes_ref R fun _ h => loadable_moves R h)
  | getstatic m => exact goes_cat goes_refl (goes_ref R fun _ h => fieldRef_moves R h)
  | putstatic m => exact goes_cat goes_refl (goes_ref R fun _ h => fieldRef_moves R h)
  | getfield m => exact goes_cat goes_refl (goes_ref R fun _ h => fieldRef_moves R h)
  | putfield m => exact goes_cat goes_refl (goes_ref R fun _ h => fieldRef_moves R h)
  | invokevirtual m => exact goes_cat goes_refl (goes_ref R fun _ h => methodRef_moves R h)
  | invokespecial m => exact goes_cat goes_refl (goes_ref R fun _ h => h.imp (fun h => methodRef_moves R h) fun h => interfaceMethodRef_moves R h)
  | invokestatic m => exact goes_cat goes_refl (goes_ref R fun _ h => h.imp (fun h => methodRef_moves R h) fun h => interfaceMethodRef_moves R h)
  | invokeinterface m k => exact goes_cat goes_refl (goes_cat (goes_ref R fun _ h => interfaceMethodRef_moves R h) goes_refl)
  | invokedynamic d => exact goes_cat goes_refl (goes_cat (goes_ref R fun _ h => invokeDynamic_moves R h) goes_refl)
  | new s => exact goes_cat goes_refl (goes_ref R fun _ h => class_moves R h)
  | anewarray t => exact goes_cat goes_refl (goes_ref R fun _ h => objectType_moves R h)
  | checkcast t => exact goes_cat goes_refl (goes_ref R fun _ h => objectType_moves R h)
  | instanceof t => exact goes_cat goes_refl (goes_ref R fun _ h => objectType_moves R h)
  | multianewarray t k => exact goes_cat goes_refl (goes_cat (goes_ref R fun _ h => objectType_moves R h) goes_refl)
  | _ => exact goes_refl

theorem insns_go {checks : Bool} {pos : Nat} {ops : List (Nat × Opcode)} {code : Bytes} (h : InsnsEnc checks pool pos ops code) :
    ∃ code', Rewritten π code code' ∧ InsnsEnc checks pool' pos ops code' := by
  induction h with
  | nil => exact ⟨[], .nil, .nil _⟩
  | @cons pos op ops s t hs _ ih =>
    obtain ⟨s', r, hs'⟩ := insn_goes R op s hs
    obtain ⟨t', r', ht'⟩ := ih
    exact ⟨s' ++ t', r.append r', .cons hs' (by rw [r.length]; exact ht')⟩

theorem bytecode_goes {checks : Bool} {bc : ByteCode} {code : Bytes} (h : ByteCodeEnc checks pool bc code) :
    ∃ code', Rewritten π code code' ∧ ByteCodeEnc checks pool' bc code' := by
  obtain ⟨h1, h2⟩ := h
  obtain ⟨code', r, h1'⟩ := insns_go R h1
  exact ⟨code', r, h1', h2⟩

theorem bytecodeField_goes {o : Opts} {bc : Option ByteCode} {code : Bytes} (h : BytecodeField o pool bc code) :
    ∃ code', Rewritten π code code' ∧ BytecodeField o pool' bc code' := by
  cases bc with
  | none => exact ⟨code, Rewritten.rfl' _, h⟩
  | some b =>
    obtain ⟨h1, h2⟩ := h
    obtain ⟨c, r, h2'⟩ := bytecode_goes R h2
    exact ⟨c, r, h1, h2'⟩

/-! ## Tables -/

theorem exception_goes (e : ExceptionTableEntry) : Goes π (ExceptionEnc pool e) (ExceptionEnc pool' e) :=
  goes_cat goes_refl (goes_cat goes_refl (goes_cat goes_refl (goes_ref R fun _ h => opt_moves R (class_moves R) h)))

theorem verification_goes (v : VerificationType) : Goes π (VerificationEnc pool v) (VerificationEnc pool' v) := by
  cases v with
  | object c => exact goes_cat goes_refl (goes_ref R fun _ h => class_moves R h)
  | _ => exact goes_refl

theorem frame_goes (f : StackMapEntry) : Goes π (FrameEnc pool f) (FrameEnc pool' f) := by
  cases f with
  | same d => exact goes_refl
  | chop d k => exact goes_refl
  | sameLocals1StackItem d v =>
    rintro s (⟨hd, hs⟩ | hs)
    · obtain ⟨t, r, ht⟩ := goes_cat goes_refl (verification_goes R v) s hs
      exact ⟨t, r, .inl ⟨hd, ht⟩⟩
    · obtain ⟨t, r, ht⟩ := goes_cat goes_refl (verification_goes R v) s hs
      exact ⟨t, r, .inr ht⟩
  | append d ls => exact goes_when (goes_cat goes_refl (goes_seq (verification_goes R) _))
  | fullFrame d ls st => exact goes_cat goes_refl (goes_cat (goes_table2 (verification_goes R) _) (goes_table2 (verification_goes R) _))

theorem innerClass_goes (e : InnerClassEntry) : Goes π (InnerClassEnc pool e) (InnerClassEnc pool' e) :=
  goes_cat (goes_ref R fun _ h => class_moves R h) (goes_cat (goes_ref R fun _ h => opt_moves R (class_moves R) h)
    (goes_cat (goes_ref R fun _ h => opt_moves R (text_moves R) h) goes_refl))

theorem localVariable_goes (e : LocalVariableEntry) : Goes π (LocalVariableEnc pool e) (LocalVariableEnc pool' e) :=
  goes_when (goes_cat goes_refl (goes_cat goes_refl (goes_cat (goes_ref R fun _ h => text_moves R h)
    (goes_cat (goes_ref R fun _ h => fieldDescriptor_moves R h) goes_refl))))

theorem localVariableType_goes (e : LocalVariableTypeEntry) : Goes π (LocalVariableTypeEnc pool e) (LocalVariableTypeEnc pool' e) :=
  goes_when (goes_cat goes_refl (goes_cat goes_refl (goes_cat (goes_ref R fun _ h => text_moves R h)
    (goes_cat (goes_ref R fun _ h => text_moves R h) goes_refl))))

theorem bootstrapMethod_goes (e : BootstrapMethodEntry) : Goes π (BootstrapMethodEnc pool e) (BootstrapMethodEnc pool' e) :=
  goes_cat (goes_ref R fun _ h => methodHandle_moves R h) (goes_table2 (fun _ => goes_ref R fun _ h => argument_moves R h) _)

theorem methodParameter_goes (e : MethodParameterEntry) : Goes π (MethodParameterEnc pool e) (MethodParameterEnc pool' e) :=
  goes_when (goes_cat (goes_ref R fun _ h => opt_moves R (text_moves R) h) goes_refl)

theorem classes_go (l : List Str) : Goes π (table2 (fun s => ref fun i => ClassAt pool i s) l) (table2 (fun s => ref fun i => ClassAt pool' i s) l) :=
  goes_table2 (fun _ => goes_ref R fun _ h => class_moves R h) l

theorem modules_go (l : List Str) :
    Goes π (table2 (fun s => ref fun i => ModuleAt pool i s) l) (table2 (fun s => ref fun i => ModuleAt pool' i s) l) :=
  goes_table2 (fun _ => goes_ref R fun _ h => module_moves R h) l

theorem moduleData_goes (d : ModuleData) : Goes π (ModuleDataEnc pool d) (ModuleDataEnc pool' d) :=
  goes_cat (goes_ref R fun _ h => module_moves R h) (goes_cat goes_refl (goes_cat (goes_ref R fun _ h => opt_moves R (text_moves R) h)
    (goes_cat (goes_table2 (fun _ => goes_cat (goes_ref R fun _ h => module_moves R h)
        (goes_cat goes_refl (goes_ref R fun _ h => opt_moves R (text_moves R) h))) _)
      (goes_cat (goes_table2 (fun _ => goes_cat (goes_ref R fun _ h => package_moves R h) (goes_cat goes_refl (modules_go R _))) _)
        (goes_cat (goes_table2 (fun _ => goes_cat (goes_ref R fun _ h => package_moves R h) (goes_cat goes_refl (modules_go R _))) _)
          (goes_cat (classes_go R _) (goes_table2 (fun _ => goes_cat (goes_ref R fun _ h => class_moves R h) (classes_go R _)) _)))))))

/-! ## Annotations -/

mutual
theorem elementValue_goes : ∀ v : AnnotationElementValue, Goes π (ElementValueEnc pool v) (ElementValueEnc pool' v)
  | .byteConstant v | .charConstant v | .doubleConstant v | .floatConstant v | .intConstant v | .longConstant v | .shortConstant v
  | .booleanConstant v => by
    rw [ElementValueEnc, ElementValueEnc]
    exact goes_cat goes_refl (goes_ref R fun i h => R.moved i _ h (by simp))
  | .stringConstant s => by
    rw [ElementValueEnc, ElementValueEnc]
    exact goes_cat goes_refl (goes_ref R fun i h => text_moves R h)
  | .enumConstant t c => by
    rw [ElementValueEnc, ElementValueEnc]
    exact goes_cat goes_refl (goes_cat (goes_ref R fun i h => fieldDescriptor_moves R h) (goes_ref R fun i h => text_moves R h))
  | .classLiteral s => by
    rw [ElementValueEnc, ElementValueEnc]
    exact goes_cat goes_refl (goes_ref R fun i h => ⟨text_moves R h.1, h.2⟩)
  | .annotationValue a => by
    rw [ElementValueEnc, ElementValueEnc]
    exact goes_cat goes_refl (annotation_goes a)
  | .arrayValue vs => by
    rw [ElementValueEnc, ElementValueEnc]
    exact goes_cat goes_refl (goes_counted2 (elementValues_go vs))

theorem elementValues_go : ∀ vs : List AnnotationElementValue, Goes π (ElementValuesEnc pool vs) (ElementValuesEnc pool' vs)
  | [] => by rw [ElementValuesEnc, ElementValuesEnc]; exact goes_refl
  | v :: vs => by rw [ElementValuesEnc, ElementValuesEnc]; exact goes_cat (elementValue_goes v) (elementValues_go vs)

theorem annotation_goes : ∀ a : Annotation, Goes π (AnnotationEnc pool a) (AnnotationEnc pool' a)
  | ⟨d, es⟩ => by
    rw [AnnotationEnc, AnnotationEnc]
    exact goes_cat (goes_ref R fun _ h => fieldDescriptor_moves R h) (goes_counted2 (elements_go es))

theorem elements_go : ∀ es : List AnnotationElement, Goes π (ElementsEnc pool es) (ElementsEnc pool' es)
  | [] => by rw [ElementsEnc, ElementsEnc]; exact goes_refl
  | ⟨n, v⟩ :: es => by
    rw [ElementsEnc, ElementsEnc]
    exact goes_cat (goes_cat (goes_ref R fun _ h => text_moves R h) (elementValue_goes v)) (elements_go es)
end

theorem annotations_go (l : List Annotation) : Goes π (table2 (AnnotationEnc pool) l) (table2 (AnnotationEnc pool') l) :=
  goes_table2 (annotation_goes R) l

theorem typeAnnotation_goes (t : TypeAnnotation) : Goes π (TypeAnnotationEnc pool t) (TypeAnnotationEnc pool' t) :=
  goes_cat goes_refl (goes_cat goes_refl (annotation_goes R _))

/-! ## Attributes -/

omit R in
theorem blank_lens : ∀ as : List AttributeInfo, (blankAttrs as).length = as.length
  | [] => by rw [blankAttrs]
  | a :: as => by rw [blankAttrs]; simp [blank_lens as]

omit R in
theorem blank_comps_lens : ∀ as : List RecordComponentEntry, (blankComponents as).length = as.length
  | [] => by rw [blankComponents]
  | a :: as => by rw [blankComponents]; simp [blank_comps_lens as]

omit R in
theorem lens_of_blank {as bs : List AttributeInfo} (h : blankAttrs as = blankAttrs bs) : as.length = bs.length := by
  rw [← blank_lens as, h, blank_lens]

omit R in
theorem comps_lens_of_blank {as bs : List RecordComponentEntry} (h : blankComponents as = blankComponents bs) : as.length = bs.length := by
  rw [← blank_comps_lens as, h, blank_comps_lens]

/-- An encoding of `d` can be rewritten to an encoding of some `d'` that differs from `d` in raw code only. -/
def GoesTo {β : Type} (π : Nat → Nat) (E E' : β → Lang) (blank : β → β) (d : β) : Prop :=
  ∀ s, E d s → ∃ d' t, Rewritten π s t ∧ E' d' t ∧ blank d' = blank d ∧ ((∀ i, i < 65536 → π i = i) → d' = d)

omit R in
theorem goesTo_leaf {β : Type} {E E' : β → Lang} {blank : β → β} {d : β} (h : Goes π (E d) (E' d)) : GoesTo π E E' blank d := by
  intro s hs
  obtain ⟨t, r, ht⟩ := h s hs
  exact ⟨d, t, r, ht, rfl, fun _ => rfl⟩

omit R in
theorem data_leaf (o : Opts) (name : Str) (d : AttributeData) (h : Goes π (DataEnc o pool name d) (DataEnc o pool' name d)) :
    GoesTo π (DataEnc o pool name) (DataEnc o pool' name) blankData d := goesTo_leaf h

mutual
theorem code_goes (o : Opts) : ∀ c : CodeData, GoesTo π (CodeEnc o pool) (CodeEnc o pool') blankCode c
  | ⟨ms, ml, code, bc, et, as⟩ => by
    intro s h
    rw [CodeEnc] at h
    obtain ⟨h0, s1, _, rfl, h1, s2, _, rfl, h2, s3, _, rfl, ⟨n, _, hn, rfl, rfl⟩, s4, _, rfl, h4, c, hc, s5, t5, rfl, h5, h⟩ := h
    obtain ⟨code', rc, h0'⟩ := bytecodeField_goes R h0
    obtain ⟨s4', r4, h4'⟩ := goes_table2 (exception_goes R) et s4 h4
    obtain ⟨as', t5', r5, h', hb, hid⟩ := attrs_go o as t5 h
    refine ⟨⟨ms, ml, code', bc, et, as'⟩, s1 ++ (s2 ++ ((u4 n ++ code') ++ (s4' ++ (s5 ++ t5')))),
      (Rewritten.rfl' _).append ((Rewritten.rfl' _).append (((Rewritten.rfl' _).append rc).append (r4.append ((Rewritten.rfl' _).append r5)))), ?_, ?_, ?_⟩
    · rw [CodeEnc]
      exact ⟨h0', s1, _, rfl, h1, s2, _, rfl, h2, u4 n ++ code', _, rfl, ⟨n, code', by rw [hn, rc.length], rfl, rfl⟩, s4', _, rfl, h4', c,
        by rw [hc, lens_of_blank hb], s5, t5', rfl, h5, h'⟩
    · rw [blankCode, blankCode, hb]
    · intro hπ
      rw [hid hπ, rc.eq hπ]

theorem component_goes (o : Opts) : ∀ c : RecordComponentEntry, GoesTo π (ComponentEnc o pool) (ComponentEnc o pool') blankComponent c
  | ⟨n, d, as⟩ => by
    intro s h
    rw [ComponentEnc] at h
    obtain ⟨h0, s1, _, rfl, h1, s2, _, rfl, h2, c, hc, s5, t5, rfl, h5, h⟩ := h
    obtain ⟨s1', r1, h1'⟩ := goes_ref R (At' := fun i => TextAt pool' i n) (fun i h => text_moves R h) s1 h1
    obtain ⟨s2', r2, h2'⟩ := goes_ref R (At' := fun i => FieldDescriptorAt pool' i d) (fun i h => fieldDescriptor_moves R h) s2 h2
    obtain ⟨as', t5', r5, h', hb, hid⟩ := attrs_go o as t5 h
    refine ⟨⟨n, d, as'⟩, s1' ++ (s2' ++ (s5 ++ t5')), r1.append (r2.append ((Rewritten.rfl' _).append r5)), ?_, ?_, ?_⟩
    · rw [ComponentEnc]
      exact ⟨h0, s1', _, rfl, h1', s2', _, rfl, h2', c, by rw [hc, lens_of_blank hb], s5, t5', rfl, h5, h'⟩
    · rw [blankComponent, blankComponent, hb]
    · intro hπ
      rw [hid hπ]

theorem components_go (o : Opts) : ∀ cs : List RecordComponentEntry, GoesTo π (ComponentsEnc o pool) (ComponentsEnc o pool') blankComponents cs
  | [] => goesTo_leaf (by rw [ComponentsEnc, ComponentsEnc]; exact goes_refl)
  | c :: cs => by
    intro s h
    rw [ComponentsEnc] at h
    obtain ⟨s, t, rfl, h1, h2⟩ := h
    obtain ⟨c', s', r, h1', e, f⟩ := component_goes o c s h1
    obtain ⟨cs', t', r', h2', e', f'⟩ := components_go o cs t h2
    refine ⟨c' :: cs', s' ++ t', r.append r', ?_, ?_, ?_⟩
    · rw [ComponentsEnc]; exact ⟨s', t', rfl, h1', h2'⟩
    · rw [blankComponents, blankComponents, e, e']
    · intro hπ; rw [f hπ, f' hπ]

theorem data_goes (o : Opts) (name : Str) : ∀ d : AttributeData, GoesTo π (DataEnc o pool name) (DataEnc o pool' name) blankData d
  | .code c => by
    intro s h
    rw [DataEnc] at h
    obtain ⟨c', t, r, h', e, f⟩ := code_goes o c s h.2
    refine ⟨.code c', t, r, ?_, ?_, ?_⟩
    · rw [DataEnc]; exact ⟨h.1, h'⟩
    · rw [blankData, blankData, e]
    · intro hπ; rw [f hπ]
  | .record l => by
    intro s h
    rw [DataEnc] at h
    obtain ⟨h0, c, hc, s, t, rfl, h1, h2⟩ := h
    obtain ⟨l', t', r, h', e, f⟩ := components_go o l t h2
    refine ⟨.record l', s ++ t', (Rewritten.rfl' _).append r, ?_, ?_, ?_⟩
    · rw [DataEnc]; exact ⟨h0, c, by rw [hc, comps_lens_of_blank e], s, t', rfl, h1, h'⟩
    · rw [blankData, blankData, e]
    · intro hπ; rw [f hπ]
  | .constantValue _ => data_leaf o name _ (by rw [DataEnc, DataEnc]; exact goes_when (goes_ref R fun _ h => literal_moves R h))
  | .stackMapTable _ => data_leaf o name _ (by rw [DataEnc, DataEnc]; exact goes_when (goes_table2 (frame_goes R) _))
  | .exceptions _ | .nestMembers _ | .permittedSubclasses _ => data_leaf o name _ (by rw [DataEnc, DataEnc]; exact goes_when (classes_go R _))
  | .innerClasses _ => data_leaf o name _ (by rw [DataEnc, DataEnc]; exact goes_when (goes_table2 (innerClass_goes R) _))
  | .enclosingMethod _ _ => data_leaf o name _ (by
      rw [DataEnc, DataEnc]
      exact goes_when (goes_cat (goes_ref R fun _ h => class_moves R h) (goes_ref R fun _ h => opt_moves R (nat_moves R) h)))
  | .synthetic | .deprecated | .lineNumberTable _ | .sourceDebugExtension _ | .other _ =>
    data_leaf o name _ (by rw [DataEnc, DataEnc]; exact goes_refl)
  | .signature _ | .sourceFile _ => data_leaf o name _ (by rw [DataEnc, DataEnc]; exact goes_when (goes_ref R fun _ h => text_moves R h))
  | .localVariableTable _ => data_leaf o name _ (by rw [DataEnc, DataEnc]; exact goes_when (goes_table2 (localVariable_goes R) _))
  | .localVariableTypeTable _ => data_leaf o name _ (by rw [DataEnc, DataEnc]; exact goes_when (goes_table2 (localVariableType_goes R) _))
  | .runtimeVisibleAnnotations _ | .runtimeInvisibleAnnotations _ =>
    data_leaf o name _ (by rw [DataEnc, DataEnc]; exact goes_when (annotations_go R _))
  | .runtimeVisibleParameterAnnotations _ | .runtimeInvisibleParameterAnnotations _ =>
    data_leaf o name _ (by rw [DataEnc, DataEnc]; exact goes_when (goes_table1 (fun _ => annotations_go R _) _))
  | .runtimeVisibleTypeAnnotations _ | .runtimeInvisibleTypeAnnotations _ =>
    data_leaf o name _ (by rw [DataEnc, DataEnc]; exact goes_when (goes_table2 (typeAnnotation_goes R) _))
  | .annotationDefault _ => data_leaf o name _ (by rw [DataEnc, DataEnc]; exact goes_when (elementValue_goes R _))
  | .bootstrapMethods _ => data_leaf o name _ (by rw [DataEnc, DataEnc]; exact goes_when (goes_table2 (bootstrapMethod_goes R) _))
  | .methodParameters _ => data_leaf o name _ (by rw [DataEnc, DataEnc]; exact goes_when (goes_table1 (methodParameter_goes R) _))
  | .moduleAttr _ => data_leaf o name _ (by rw [DataEnc, DataEnc]; exact goes_when (moduleData_goes R _))
  | .modulePackages _ => data_leaf o name _ (by
      rw [DataEnc, DataEnc]; exact goes_when (goes_table2 (fun _ => goes_ref R fun _ h => package_moves R h) _))
  | .moduleMainClass _ | .nestHost _ => data_leaf o name _ (by
      rw [DataEnc, DataEnc]; exact goes_when (goes_ref R fun _ h => class_moves R h))

theorem attr_goes (o : Opts) : ∀ a : AttributeInfo, GoesTo π (AttrEnc o pool) (AttrEnc o pool') blankAttr a
  | ⟨n, d⟩ => by
    intro s h
    rw [AttrEnc] at h
    obtain ⟨s, _, rfl, h1, k, b, hk, h2, rfl⟩ := h
    obtain ⟨s', r, h1'⟩ := goes_ref R (At' := fun i => TextAt pool' i n) (fun i h => text_moves R h) s h1
    obtain ⟨d', b', r', h2', e, f⟩ := data_goes o n d b h2
    refine ⟨⟨n, d'⟩, s' ++ (u4 k ++ b'), r.append ((Rewritten.rfl' _).append r'), ?_, ?_, ?_⟩
    · rw [AttrEnc]; exact ⟨s', _, rfl, h1', k, b', by rw [hk, r'.length], h2', rfl⟩
    · rw [blankAttr, blankAttr, e]
    · intro hπ; rw [f hπ]

theorem attrs_go (o : Opts) : ∀ as : List AttributeInfo, GoesTo π (AttrsEnc o pool) (AttrsEnc o pool') blankAttrs as
  | [] => goesTo_leaf (by rw [AttrsEnc, AttrsEnc]; exact goes_refl)
  | a :: as => by
    intro s h
    rw [AttrsEnc] at h
    obtain ⟨s, t, rfl, h1, h2⟩ := h
    obtain ⟨c', s', r, h1', e, f⟩ := attr_goes o a s h1
    obtain ⟨cs', t', r', h2', e', f'⟩ := attrs_go o as t h2
    refine ⟨c' :: cs', s' ++ t', r.append r', ?_, ?_, ?_⟩
    · rw [AttrsEnc]; exact ⟨s', t', rfl, h1', h2'⟩
    · rw [blankAttrs, blankAttrs, e, e']
    · intro hπ; rw [f hπ, f' hπ]
end

end

end Cafebabe
