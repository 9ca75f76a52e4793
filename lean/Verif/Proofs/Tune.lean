import Verif.Spec.Tune
/-!
# Encodings of classes that differ in unchecked numbers only
-/

namespace Cafebabe
open Spec

/-- Each string of `F` can be exchanged for one of `G` of the same length. -/
def Turns (F G : Lang) : Prop := ∀ s, F s → ∃ t, t.length = s.length ∧ G t

theorem turns_refl {F : Lang} : Turns F F := fun s h => ⟨s, rfl, h⟩

theorem turns_u2 (a b : UInt16) : Turns (lit (u2 a)) (lit (u2 b)) := fun s h => ⟨u2 b, by rw [show s = u2 a from h]; simp [u2], rfl⟩

theorem turns_u1 (a b : UInt8) : Turns (lit (u1 a)) (lit (u1 b)) := fun s h => ⟨u1 b, by rw [show s = u1 a from h]; simp [u1], rfl⟩

theorem turns_lit {a b : Bytes} (e : b.length = a.length) : Turns (lit a) (lit b) := fun s h => ⟨b, by rw [show s = a from h, e], rfl⟩

theorem turns_cat {F G F' G' : Lang} (h : Turns F F') (h' : Turns G G') : Turns (F ⬝ G) (F' ⬝ G') := by
  rintro _ ⟨s, t, rfl, hs, ht⟩
  obtain ⟨s', e, hs'⟩ := h s hs
  obtain ⟨t', e', ht'⟩ := h' t ht
  exact ⟨s' ++ t', by simp [e, e'], s', t', rfl, hs', ht'⟩

theorem turns_when {p q : Prop} {F F' : Lang} (hp : p → q) (h : Turns F F') : Turns (when p F) (when q F') := by
  rintro s ⟨h0, hs⟩
  obtain ⟨t, e, ht⟩ := h s hs
  exact ⟨t, e, hp h0, ht⟩

theorem turns_seq {α : Type} {F : α → Lang} {z : α → α} (P : α → Prop) (h : ∀ a b, z a = z b → P b → Turns (F a) (F b)) : ∀ l l' : List α,
    l.map z = l'.map z → (∀ b ∈ l', P b) → Turns (seq F l) (seq F l')
  | [], [], _, _ => turns_refl
  | [], _ :: _, e, _ => by simp at e
  | _ :: _, [], e, _ => by simp at e
  | a :: l, b :: l', e, hP => by
    simp only [List.map_cons, List.cons.injEq] at e
    exact turns_cat (h a b e.1 (hP b (by simp))) (turns_seq P h l l' e.2 fun x hx => hP x (by simp [hx]))

theorem turns_counted2 {n m : Nat} {F F' : Lang} (e : m = n) (h : Turns F F') : Turns (counted2 n F) (counted2 m F') := by
  subst e
  rintro s ⟨c, hc, hs⟩
  obtain ⟨t, r, ht⟩ := turns_cat turns_refl h s hs
  exact ⟨t, r, c, hc, ht⟩

theorem turns_counted1 {n m : Nat} {F F' : Lang} (e : m = n) (h : Turns F F') : Turns (counted1 n F) (counted1 m F') := by
  subst e
  rintro s ⟨c, hc, hs⟩
  obtain ⟨t, r, ht⟩ := turns_cat turns_refl h s hs
  exact ⟨t, r, c, hc, ht⟩

theorem map_lens {α β : Type} {z : α → β} {l l' : List α} (e : l.map z = l'.map z) : l'.length = l.length := by
  have := congrArg List.length e
  simpa using this.symm

theorem turns_table2 {α : Type} {F : α → Lang} {z : α → α} (P : α → Prop) (h : ∀ a b, z a = z b → P b → Turns (F a) (F b)) {l l' : List α}
    (e : l.map z = l'.map z) (hP : ∀ b ∈ l', P b) : Turns (table2 F l) (table2 F l') :=
  turns_counted2 (map_lens e) (turns_seq P h l l' e hP)

theorem turns_table1 {α : Type} {F : α → Lang} {z : α → α} (h : ∀ a b, z a = z b → Turns (F a) (F b)) {l l' : List α}
    (e : l.map z = l'.map z) : Turns (table1 F l) (table1 F l') :=
  turns_counted1 (map_lens e) (turns_seq (fun _ => True) (fun a b e _ => h a b e) l l' e fun _ _ => trivial)

theorem turns_sized4 {F F' : Lang} (h : Turns F F') : Turns (sized4 F) (sized4 F') := by
  rintro _ ⟨n, b, hn, hb, rfl⟩
  obtain ⟨t, r, ht⟩ := h b hb
  exact ⟨u4 n ++ t, by simp [r], n, t, by rw [hn, r], ht, rfl⟩

theorem turns_flags {mask a b : UInt16} (hb : b &&& mask = b) : Turns (maskedFlags mask a) (maskedFlags mask b) := by
  rintro _ ⟨bits, -, rfl⟩
  exact ⟨u2 b, by simp [u2], b, hb.symm, rfl⟩

/-! ## Rows -/

section
variable {pool : Pool}

theorem exception_turns (a b : ExceptionTableEntry) (e : zeroException a = zeroException b) : Turns (ExceptionEnc pool a) (ExceptionEnc pool b) := by
  have h : a.catchType = b.catchType := by simpa [zeroException] using e
  unfold ExceptionEnc
  rw [h]
  exact turns_cat (turns_u2 _ _) (turns_cat (turns_u2 _ _) (turns_cat (turns_u2 _ _) turns_refl))

theorem verification_turns (a b : VerificationType) (e : zeroVerification a = zeroVerification b) :
    Turns (VerificationEnc pool a) (VerificationEnc pool b) := by
  cases a <;> cases b <;> simp only [zeroVerification, reduceCtorEq, VerificationType.object.injEq] at e <;> first
    | exact turns_refl
    | exact turns_cat turns_refl (turns_u2 _ _)
    | (subst e; exact turns_refl)

theorem verifications_turn {l l' : List VerificationType} (e : l.map zeroVerification = l'.map zeroVerification) :
    Turns (seq (VerificationEnc pool) l) (seq (VerificationEnc pool) l') :=
  turns_seq (fun _ => True) (fun a b e _ => verification_turns a b e) l l' e fun _ _ => trivial

theorem frame_turns (a b : StackMapEntry) (e : zeroFrame a = zeroFrame b) : Turns (FrameEnc pool a) (FrameEnc pool b) := by
  cases a <;> cases b <;> simp only [zeroFrame, reduceCtorEq, StackMapEntry.same.injEq, StackMapEntry.sameLocals1StackItem.injEq,
    StackMapEntry.chop.injEq, StackMapEntry.append.injEq, StackMapEntry.fullFrame.injEq, true_and] at e
  · subst e; exact turns_refl
  · obtain ⟨rfl, e⟩ := e
    rintro s (⟨hd, hs⟩ | hs)
    · obtain ⟨t, r, ht⟩ := turns_cat turns_refl (verification_turns _ _ e) s hs
      exact ⟨t, r, .inl ⟨hd, ht⟩⟩
    · obtain ⟨t, r, ht⟩ := turns_cat turns_refl (verification_turns _ _ e) s hs
      exact ⟨t, r, .inr ht⟩
  · subst e
    rintro s ⟨h1, h2, rfl⟩
    exact ⟨_, by simp [u2], h1, h2, rfl⟩
  · have hl := map_lens e
    refine turns_when (by rw [hl]; exact id) (turns_cat ?_ (verifications_turn e))
    rw [hl]
    exact turns_lit (by simp [u2])
  · exact turns_cat (turns_lit (by simp [u2])) (turns_cat (turns_counted2 (map_lens e.1) (verifications_turn e.1))
      (turns_counted2 (map_lens e.2) (verifications_turn e.2)))

theorem innerClass_turns (a b : InnerClassEntry) (e : zeroInner a = zeroInner b) (hb : b.accessFlags &&& 0x761F = b.accessFlags) :
    Turns (InnerClassEnc pool a) (InnerClassEnc pool b) := by
  obtain ⟨a1, a2, a3, a4⟩ := a
  obtain ⟨b1, b2, b3, b4⟩ := b
  simp only [zeroInner, InnerClassEntry.mk.injEq, and_true] at e
  obtain ⟨rfl, rfl, rfl⟩ := e
  exact turns_cat turns_refl (turns_cat turns_refl (turns_cat turns_refl (turns_flags hb)))

theorem line_turns (a b : LineNumberEntry) : Turns (LineNumberEnc a) (LineNumberEnc b) := turns_cat (turns_u2 _ _) (turns_u2 _ _)

theorem local_turns (a b : LocalVariableEntry) (e : zeroLocal a = zeroLocal b) : Turns (LocalVariableEnc pool a) (LocalVariableEnc pool b) := by
  obtain ⟨a1, a2, a3, a4, a5⟩ := a
  obtain ⟨b1, b2, b3, b4, b5⟩ := b
  simp only [zeroLocal, LocalVariableEntry.mk.injEq, and_true, true_and] at e
  obtain ⟨rfl, rfl⟩ := e
  exact turns_when id (turns_cat (turns_u2 _ _) (turns_cat (turns_u2 _ _) (turns_cat turns_refl (turns_cat turns_refl (turns_u2 _ _)))))

theorem localType_turns (a b : LocalVariableTypeEntry) (e : zeroLocalType a = zeroLocalType b) :
    Turns (LocalVariableTypeEnc pool a) (LocalVariableTypeEnc pool b) := by
  obtain ⟨a1, a2, a3, a4, a5⟩ := a
  obtain ⟨b1, b2, b3, b4, b5⟩ := b
  simp only [zeroLocalType, LocalVariableTypeEntry.mk.injEq, and_true, true_and] at e
  obtain ⟨rfl, rfl⟩ := e
  exact turns_when id (turns_cat (turns_u2 _ _) (turns_cat (turns_u2 _ _) (turns_cat turns_refl (turns_cat turns_refl (turns_u2 _ _)))))

theorem localVar_turns (a b : TypeAnnotationLocalVarTargetEntry) : Turns (LocalVarEnc a) (LocalVarEnc b) :=
  turns_cat (turns_u2 _ _) (turns_cat (turns_u2 _ _) (turns_u2 _ _))

theorem target_turns (a b : TypeAnnotationTarget) (e : zeroTarget a = zeroTarget b) : Turns (TargetEnc a) (TargetEnc b) := by
  cases a <;> cases b <;> simp only [zeroTarget, reduceCtorEq, TypeAnnotationTarget.localVar.injEq] at e <;> first
    | exact turns_refl
    | exact turns_cat turns_refl (turns_u2 _ _)
    | exact turns_cat turns_refl (turns_u1 _ _)
    | exact turns_cat turns_refl (turns_cat (turns_u1 _ _) (turns_u1 _ _))
    | exact turns_cat turns_refl (turns_cat (turns_u2 _ _) (turns_u1 _ _))
    | exact turns_cat turns_refl (turns_table2 (fun _ => True) (fun a b _ _ => localVar_turns a b) e fun _ _ => trivial)

theorem path_turns (a b : TypeAnnotationTargetPathEntry) (e : zeroPath a = zeroPath b) : Turns (PathEnc a) (PathEnc b) :=
  turns_lit (by simp)

theorem typeAnnotation_turns (a b : TypeAnnotation) (e : zeroTypeAnnotation a = zeroTypeAnnotation b) :
    Turns (TypeAnnotationEnc pool a) (TypeAnnotationEnc pool b) := by
  obtain ⟨a1, a2, a3⟩ := a
  obtain ⟨b1, b2, b3⟩ := b
  simp only [zeroTypeAnnotation, TypeAnnotation.mk.injEq] at e
  obtain ⟨e1, e2, rfl⟩ := e
  exact turns_cat (target_turns _ _ e1) (turns_cat (turns_table1 path_turns e2) turns_refl)

/-! ## Attributes -/

theorem zero_lens : ∀ as : List AttributeInfo, (zeroAttrs as).length = as.length
  | [] => by rw [zeroAttrs]
  | a :: as => by rw [zeroAttrs]; simp [zero_lens as]

theorem zero_comps_lens : ∀ as : List RecordComponentEntry, (zeroComponents as).length = as.length
  | [] => by rw [zeroComponents]
  | a :: as => by rw [zeroComponents]; simp [zero_comps_lens as]

theorem lens_of_zero {as bs : List AttributeInfo} (h : zeroAttrs as = zeroAttrs bs) : bs.length = as.length := by
  rw [← zero_lens as, h, zero_lens]

theorem comps_lens_of_zero {as bs : List RecordComponentEntry} (h : zeroComponents as = zeroComponents bs) : bs.length = as.length := by
  rw [← zero_comps_lens as, h, zero_comps_lens]

/-- Contents without such numbers. -/
theorem data_same (o : Opts) (name : Str) {a b : AttributeData} (e : a = zeroData b) (h : zeroData a = a)
    (hx : ∀ c, a ≠ .code c) (hr : ∀ c, a ≠ .record c) (h1 : ∀ c, a ≠ .stackMapTable c) (h2 : ∀ c, a ≠ .innerClasses c)
    (h3 : ∀ c, a ≠ .lineNumberTable c) (h4 : ∀ c, a ≠ .localVariableTable c) (h5 : ∀ c, a ≠ .localVariableTypeTable c)
    (h6 : ∀ c, a ≠ .runtimeVisibleTypeAnnotations c) (h7 : ∀ c, a ≠ .runtimeInvisibleTypeAnnotations c) :
    Turns (DataEnc o pool name a) (DataEnc o pool name b) := by
  have : a = b := by
    cases b <;> simp only [zeroData] at e <;> first
      | exact e
      | exact absurd e (hx _)
      | exact absurd e (hr _)
      | exact absurd e (h1 _)
      | exact absurd e (h2 _)
      | exact absurd e (h3 _)
      | exact absurd e (h4 _)
      | exact absurd e (h5 _)
      | exact absurd e (h6 _)
      | exact absurd e (h7 _)
  rw [this]
  exact turns_refl

mutual
theorem code_turns (o : Opts) : ∀ c c' : CodeData, zeroCode c = zeroCode c' → KnownCode c' → Turns (CodeEnc o pool c) (CodeEnc o pool c')
  | ⟨ms, ml, code, bc, et, as⟩, ⟨ms', ml', code', bc', et', as'⟩, e, k => by
    rw [zeroCode, zeroCode] at e
    rw [KnownCode] at k
    simp only [CodeData.mk.injEq, true_and] at e
    obtain ⟨rfl, rfl, e1, e2⟩ := e
    rw [CodeEnc, CodeEnc]
    exact turns_when id (turns_cat (turns_u2 _ _) (turns_cat (turns_u2 _ _) (turns_cat turns_refl (turns_cat
      (turns_table2 (fun _ => True) (fun a b e _ => exception_turns a b e) e1 fun _ _ => trivial)
      (turns_counted2 (lens_of_zero e2) (attrs_turn o as as' e2 k))))))

theorem component_turns (o : Opts) : ∀ c c' : RecordComponentEntry, zeroComponent c = zeroComponent c' → KnownComponent c' →
    Turns (ComponentEnc o pool c) (ComponentEnc o pool c')
  | ⟨n, d, as⟩, ⟨n', d', as'⟩, e, k => by
    rw [zeroComponent, zeroComponent] at e
    rw [KnownComponent] at k
    simp only [RecordComponentEntry.mk.injEq] at e
    obtain ⟨rfl, rfl, e⟩ := e
    rw [ComponentEnc, ComponentEnc]
    exact turns_when id (turns_cat turns_refl (turns_cat turns_refl (turns_counted2 (lens_of_zero e) (attrs_turn o as as' e k))))

theorem components_turn (o : Opts) : ∀ c c' : List RecordComponentEntry, zeroComponents c = zeroComponents c' → KnownComponents c' →
    Turns (ComponentsEnc o pool c) (ComponentsEnc o pool c')
  | [], [], _, _ => turns_refl
  | [], _ :: _, e, _ => by rw [zeroComponents, zeroComponents] at e; cases e
  | _ :: _, [], e, _ => by rw [zeroComponents, zeroComponents] at e; cases e
  | c :: cs, c' :: cs', e, k => by
    rw [zeroComponents, zeroComponents] at e
    rw [KnownComponents] at k
    simp only [List.cons.injEq] at e
    rw [ComponentsEnc, ComponentsEnc]
    exact turns_cat (component_turns o c c' e.1 k.1) (components_turn o cs cs' e.2 k.2)

theorem data_turns (o : Opts) (name : Str) : ∀ d d' : AttributeData, zeroData d = zeroData d' → KnownData d' →
    Turns (DataEnc o pool name d) (DataEnc o pool name d')
  | .code c, d', e, k => by
    cases d' with
    | code c' =>
      rw [zeroData, zeroData] at e
      rw [KnownData] at k
      rw [DataEnc, DataEnc]
      exact turns_when id (code_turns o c c' (by simpa using e) k)
    | _ => simp [zeroData] at e
  | .record l, d', e, k => by
    cases d' with
    | record c' =>
      rw [zeroData, zeroData] at e
      rw [KnownData] at k
      have e : zeroComponents l = zeroComponents c' := by simpa using e
      rw [DataEnc, DataEnc]
      exact turns_when id (turns_counted2 (comps_lens_of_zero e) (components_turn o l c' e k))
    | _ => simp [zeroData] at e
  | .stackMapTable t, d', e, k => by
    cases d' with
    | stackMapTable t' =>
      rw [zeroData, zeroData] at e
      rw [DataEnc, DataEnc]
      exact turns_when id (turns_table2 (fun _ => True) (fun a b e _ => frame_turns a b e) (by simpa using e) fun _ _ => trivial)
    | _ => simp [zeroData] at e
  | .innerClasses t, d', e, k => by
    cases d' with
    | innerClasses t' =>
      rw [zeroData, zeroData] at e
      rw [KnownData] at k
      rw [DataEnc, DataEnc]
      exact turns_when id (turns_table2 _ innerClass_turns (by simpa using e) k)
    | _ => simp [zeroData] at e
  | .lineNumberTable t, d', e, k => by
    cases d' with
    | lineNumberTable t' =>
      rw [zeroData, zeroData] at e
      rw [DataEnc, DataEnc]
      have e : t.map zeroLine = t'.map zeroLine := by injection e
      exact turns_when id (turns_table2 (fun _ => True) (fun a b _ _ => line_turns a b) e fun _ _ => trivial)
    | _ => simp [zeroData] at e
  | .localVariableTable t, d', e, k => by
    cases d' with
    | localVariableTable t' =>
      rw [zeroData, zeroData] at e
      rw [DataEnc, DataEnc]
      exact turns_when id (turns_table2 (fun _ => True) (fun a b e _ => local_turns a b e) (by simpa using e) fun _ _ => trivial)
    | _ => simp [zeroData] at e
  | .localVariableTypeTable t, d', e, k => by
    cases d' with
    | localVariableTypeTable t' =>
      rw [zeroData, zeroData] at e
      rw [DataEnc, DataEnc]
      exact turns_when id (turns_table2 (fun _ => True) (fun a b e _ => localType_turns a b e) (by simpa using e) fun _ _ => trivial)
    | _ => simp [zeroData] at e
  | .runtimeVisibleTypeAnnotations t, d', e, k => by
    cases d' with
    | runtimeVisibleTypeAnnotations t' =>
      rw [zeroData, zeroData] at e
      rw [DataEnc, DataEnc]
      exact turns_when id (turns_table2 (fun _ => True) (fun a b e _ => typeAnnotation_turns a b e) (by simpa using e) fun _ _ => trivial)
    | _ => simp [zeroData] at e
  | .runtimeInvisibleTypeAnnotations t, d', e, k => by
    cases d' with
    | runtimeInvisibleTypeAnnotations t' =>
      rw [zeroData, zeroData] at e
      rw [DataEnc, DataEnc]
      exact turns_when id (turns_table2 (fun _ => True) (fun a b e _ => typeAnnotation_turns a b e) (by simpa using e) fun _ _ => trivial)
    | _ => simp [zeroData] at e
  | .constantValue _, d', e, _ | .exceptions _, d', e, _ | .nestMembers _, d', e, _ | .permittedSubclasses _, d', e, _
  | .enclosingMethod _ _, d', e, _ | .synthetic, d', e, _ | .deprecated, d', e, _ | .sourceDebugExtension _, d', e, _ | .other _, d', e, _
  | .signature _, d', e, _ | .sourceFile _, d', e, _ | .runtimeVisibleAnnotations _, d', e, _ | .runtimeInvisibleAnnotations _, d', e, _
  | .runtimeVisibleParameterAnnotations _, d', e, _ | .runtimeInvisibleParameterAnnotations _, d', e, _ | .annotationDefault _, d', e, _
  | .bootstrapMethods _, d', e, _ | .methodParameters _, d', e, _ | .moduleAttr _, d', e, _ | .modulePackages _, d', e, _
  | .moduleMainClass _, d', e, _ | .nestHost _, d', e, _ => by
    rw [zeroData.eq_def] at e
    exact data_same o name e (by simp [zeroData]) nofun nofun nofun nofun nofun nofun nofun nofun nofun

theorem attr_turns (o : Opts) : ∀ a a' : AttributeInfo, zeroAttr a = zeroAttr a' → KnownAttr a' → Turns (AttrEnc o pool a) (AttrEnc o pool a')
  | ⟨n, d⟩, ⟨n', d'⟩, e, k => by
    rw [zeroAttr, zeroAttr] at e
    rw [KnownAttr] at k
    simp only [AttributeInfo.mk.injEq] at e
    obtain ⟨rfl, e⟩ := e
    rw [AttrEnc, AttrEnc]
    exact turns_cat turns_refl (turns_sized4 (data_turns o n d d' e k))

theorem attrs_turn (o : Opts) : ∀ c c' : List AttributeInfo, zeroAttrs c = zeroAttrs c' → KnownAttrs c' →
    Turns (AttrsEnc o pool c) (AttrsEnc o pool c')
  | [], [], _, _ => turns_refl
  | [], _ :: _, e, _ => by rw [zeroAttrs, zeroAttrs] at e; cases e
  | _ :: _, [], e, _ => by rw [zeroAttrs, zeroAttrs] at e; cases e
  | c :: cs, c' :: cs', e, k => by
    rw [zeroAttrs, zeroAttrs] at e
    rw [KnownAttrs] at k
    simp only [List.cons.injEq] at e
    rw [AttrsEnc, AttrsEnc]
    exact turns_cat (attr_turns o c c' e.1 k.1) (attrs_turn o cs cs' e.2 k.2)
end

end

end Cafebabe
