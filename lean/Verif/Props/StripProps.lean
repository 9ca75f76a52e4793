import Verif.Spec.Strip
import Verif.Props.CodeProps
/-!
# C33: `parse_bytecode` only affects the bytecode field
-/

namespace Cafebabe
open Spec Examples

theorem strip_lens : ∀ as : List AttributeInfo, (stripAttrs as).length = as.length
  | [] => by rw [stripAttrs]
  | a :: as => by rw [stripAttrs]; simp [strip_lens as]

theorem strip_comps_lens : ∀ as : List RecordComponentEntry, (stripComponents as).length = as.length
  | [] => by rw [stripComponents]
  | a :: as => by rw [stripComponents]; simp [strip_comps_lens as]

mutual
theorem strip_code (o : Opts) (pool : Pool) : ∀ (c : CodeData) (seg : Bytes),
    CodeEnc (withBytecode o) pool c seg → CodeEnc (withoutBytecode o) pool (stripCode c) seg
  | ⟨ms, ml, code, bc, et, as⟩, seg, h => by
    rw [CodeEnc] at h
    rw [stripCode, CodeEnc, strip_lens]
    obtain ⟨-, s1, t1, e1, h1, s2, t2, e2, h2, s3, t3, e3, h3, s4, t4, e4, h4, c, hc, s5, t5, e5, h5, h⟩ := h
    exact ⟨rfl, s1, t1, e1, h1, s2, t2, e2, h2, s3, t3, e3, h3, s4, t4, e4, h4, c, hc, s5, t5, e5, h5, strip_attrs o pool as _ h⟩

theorem strip_component (o : Opts) (pool : Pool) : ∀ (c : RecordComponentEntry) (seg : Bytes),
    ComponentEnc (withBytecode o) pool c seg → ComponentEnc (withoutBytecode o) pool (stripComponent c) seg
  | ⟨n, d, as⟩, seg, h => by
    rw [ComponentEnc] at h
    rw [stripComponent, ComponentEnc, strip_lens]
    obtain ⟨h0, s1, t1, e1, h1, s2, t2, e2, h2, c, hc, s5, t5, e5, h5, h⟩ := h
    exact ⟨h0, s1, t1, e1, h1, s2, t2, e2, h2, c, hc, s5, t5, e5, h5, strip_attrs o pool as _ h⟩

theorem strip_components (o : Opts) (pool : Pool) : ∀ (cs : List RecordComponentEntry) (seg : Bytes),
    ComponentsEnc (withBytecode o) pool cs seg → ComponentsEnc (withoutBytecode o) pool (stripComponents cs) seg
  | [], seg, h => by rw [ComponentsEnc] at h; rw [stripComponents, ComponentsEnc]; exact h
  | c :: cs, seg, h => by
    rw [ComponentsEnc] at h; rw [stripComponents, ComponentsEnc]
    obtain ⟨s, t, e, h1, h2⟩ := h
    exact ⟨s, t, e, strip_component o pool c s h1, strip_components o pool cs t h2⟩

theorem strip_data (o : Opts) (pool : Pool) (name : Str) : ∀ (d : AttributeData) (seg : Bytes),
    DataEnc (withBytecode o) pool name d seg → DataEnc (withoutBytecode o) pool name (stripData d) seg
  | .code c, seg, h => by
    rw [DataEnc] at h; rw [stripData, DataEnc]
    exact ⟨h.1, strip_code o pool c seg h.2⟩
  | .record l, seg, h => by
    rw [DataEnc] at h; rw [stripData, DataEnc, strip_comps_lens]
    obtain ⟨h0, c, hc, s, t, e, h1, h2⟩ := h
    exact ⟨h0, c, hc, s, t, e, h1, strip_components o pool l t h2⟩
  | .constantValue _, seg, h | .stackMapTable _, seg, h | .exceptions _, seg, h | .innerClasses _, seg, h | .enclosingMethod _ _, seg, h
  | .synthetic, seg, h | .signature _, seg, h | .sourceFile _, seg, h | .sourceDebugExtension _, seg, h | .lineNumberTable _, seg, h
  | .localVariableTable _, seg, h | .localVariableTypeTable _, seg, h | .deprecated, seg, h | .runtimeVisibleAnnotations _, seg, h
  | .runtimeInvisibleAnnotations _, seg, h | .runtimeVisibleParameterAnnotations _, seg, h
  | .runtimeInvisibleParameterAnnotations _, seg, h | .runtimeVisibleTypeAnnotations _, seg, h
  | .runtimeInvisibleTypeAnnotations _, seg, h | .annotationDefault _, seg, h | .bootstrapMethods _, seg, h | .methodParameters _, seg, h
  | .moduleAttr _, seg, h | .modulePackages _, seg, h | .moduleMainClass _, seg, h | .nestHost _, seg, h | .nestMembers _, seg, h
  | .permittedSubclasses _, seg, h | .other _, seg, h => by
    rw [DataEnc] at h; rw [stripData, DataEnc] <;> first | exact h | (intros; contradiction)

theorem strip_attr (o : Opts) (pool : Pool) : ∀ (a : AttributeInfo) (seg : Bytes),
    AttrEnc (withBytecode o) pool a seg → AttrEnc (withoutBytecode o) pool (stripAttr a) seg
  | ⟨n, d⟩, seg, h => by
    rw [AttrEnc] at h; rw [stripAttr, AttrEnc]
    obtain ⟨s, t, e, h1, k, b, hk, h2, h3⟩ := h
    exact ⟨s, t, e, h1, k, b, hk, strip_data o pool n d b h2, h3⟩

theorem strip_attrs (o : Opts) (pool : Pool) : ∀ (as : List AttributeInfo) (seg : Bytes),
    AttrsEnc (withBytecode o) pool as seg → AttrsEnc (withoutBytecode o) pool (stripAttrs as) seg
  | [], seg, h => by rw [AttrsEnc] at h; rw [stripAttrs, AttrsEnc]; exact h
  | a :: as, seg, h => by
    rw [AttrsEnc] at h; rw [stripAttrs, AttrsEnc]
    obtain ⟨s, t, e, h1, h2⟩ := h
    exact ⟨s, t, e, strip_attr o pool a s h1, strip_attrs o pool as t h2⟩
end

/-- Every Code attribute in `as`, at any depth, has well-formed bytecode. -/
def CodesOK (o : Opts) (pool : Pool) (as : List AttributeInfo) : Prop :=
  ∀ name c, AttrIn ⟨name, .code c⟩ as → ∃ bc, ByteCodeEnc o.checks pool bc c.code

theorem attrIn_cons_left {x a : AttributeInfo} {as : List AttributeInfo} (h : AttrIn x [a]) : AttrIn x (a :: as) := by
  cases h with
  | here h => exact .here (by simp at h; simp [h])
  | code h h' => exact .code (by rw [List.mem_singleton] at h; rw [h]; exact List.mem_cons_self) h'
  | record h h' h'' => exact .record (by rw [List.mem_singleton] at h; rw [h]; exact List.mem_cons_self) h' h''

theorem attrIn_cons_right {x a : AttributeInfo} {as : List AttributeInfo} (h : AttrIn x as) : AttrIn x (a :: as) := by
  cases h with
  | here h => exact .here (List.mem_cons_of_mem _ h)
  | code h h' => exact .code (List.mem_cons_of_mem _ h) h'
  | record h h' h'' => exact .record (List.mem_cons_of_mem _ h) h' h''

theorem unstrip_leaf {o : Opts} {pool : Pool} {name : Str} {d : AttributeData} {seg : Bytes} (h : DataEnc (withoutBytecode o) pool name d seg)
    (hs : stripData d = d) (he : DataEnc (withoutBytecode o) pool name d = DataEnc (withBytecode o) pool name d) :
    ∃ d', stripData d' = d ∧ DataEnc (withBytecode o) pool name d' seg := ⟨d, hs, he ▸ h⟩

mutual
theorem unstrip_code (o : Opts) (pool : Pool) : ∀ (c : CodeData) (seg : Bytes), CodeEnc (withoutBytecode o) pool c seg →
    (∃ bc, ByteCodeEnc o.checks pool bc c.code) → CodesOK o pool c.attributes →
    ∃ c', stripCode c' = c ∧ CodeEnc (withBytecode o) pool c' seg
  | ⟨ms, ml, code, bc, et, as⟩, seg, h, ⟨b, hb⟩, hc => by
    rw [CodeEnc] at h
    obtain ⟨h0, s1, t1, e1, h1, s2, t2, e2, h2, s3, t3, e3, h3, s4, t4, e4, h4, n, hn, s5, t5, e5, h5, h⟩ := h
    obtain ⟨as', rfl, h'⟩ := unstrip_attrs o pool as _ h hc
    cases bc with
    | some _ => cases h0.1
    | none =>
      refine ⟨⟨ms, ml, code, some b, et, as'⟩, by rw [stripCode], ?_⟩
      rw [CodeEnc, ← strip_lens]
      exact ⟨⟨rfl, hb⟩, s1, t1, e1, h1, s2, t2, e2, h2, s3, t3, e3, h3, s4, t4, e4, h4, n, hn, s5, t5, e5, h5, h'⟩

theorem unstrip_component (o : Opts) (pool : Pool) : ∀ (c : RecordComponentEntry) (seg : Bytes), ComponentEnc (withoutBytecode o) pool c seg →
    CodesOK o pool c.attributes → ∃ c', stripComponent c' = c ∧ ComponentEnc (withBytecode o) pool c' seg
  | ⟨n, d, as⟩, seg, h, hc => by
    rw [ComponentEnc] at h
    obtain ⟨h0, s1, t1, e1, h1, s2, t2, e2, h2, c, hn, s5, t5, e5, h5, h⟩ := h
    obtain ⟨as', rfl, h'⟩ := unstrip_attrs o pool as _ h hc
    refine ⟨⟨n, d, as'⟩, by rw [stripComponent], ?_⟩
    rw [ComponentEnc, ← strip_lens]
    exact ⟨h0, s1, t1, e1, h1, s2, t2, e2, h2, c, hn, s5, t5, e5, h5, h'⟩

theorem unstrip_components (o : Opts) (pool : Pool) : ∀ (cs : List RecordComponentEntry) (seg : Bytes),
    ComponentsEnc (withoutBytecode o) pool cs seg → (∀ r ∈ cs, CodesOK o pool r.attributes) →
    ∃ cs', stripComponents cs' = cs ∧ ComponentsEnc (withBytecode o) pool cs' seg
  | [], seg, h, _ => ⟨[], by rw [stripComponents], by rw [ComponentsEnc] at h ⊢; exact h⟩
  | c :: cs, seg, h, hc => by
    rw [ComponentsEnc] at h
    obtain ⟨s, t, e, h1, h2⟩ := h
    obtain ⟨c', rfl, h1'⟩ := unstrip_component o pool c s h1 (hc c List.mem_cons_self)
    obtain ⟨cs', rfl, h2'⟩ := unstrip_components o pool cs t h2 fun r hr => hc r (List.mem_cons_of_mem _ hr)
    exact ⟨c' :: cs', by rw [stripComponents], by rw [ComponentsEnc]; exact ⟨s, t, e, h1', h2'⟩⟩

theorem unstrip_data (o : Opts) (pool : Pool) (name : Str) : ∀ (d : AttributeData) (seg : Bytes),
    DataEnc (withoutBytecode o) pool name d seg → CodesOK o pool [⟨name, d⟩] →
    ∃ d', stripData d' = d ∧ DataEnc (withBytecode o) pool name d' seg
  | .code c, seg, h, hc => by
    rw [DataEnc] at h
    obtain ⟨c', rfl, h'⟩ := unstrip_code o pool c seg h.2 (hc name c (.here List.mem_cons_self))
      fun n x hx => hc n x (.code List.mem_cons_self hx)
    exact ⟨.code c', by rw [stripData], by rw [DataEnc]; exact ⟨h.1, h'⟩⟩
  | .record l, seg, h, hc => by
    rw [DataEnc] at h
    obtain ⟨h0, c, hn, s, t, e, h1, h2⟩ := h
    obtain ⟨l', rfl, h'⟩ := unstrip_components o pool l t h2 fun r hr n x hx => hc n x (.record List.mem_cons_self hr hx)
    exact ⟨.record l', by rw [stripData], by rw [DataEnc, ← strip_comps_lens]; exact ⟨h0, c, hn, s, t, e, h1, h'⟩⟩
  | .constantValue _, seg, h, _ | .stackMapTable _, seg, h, _ | .exceptions _, seg, h, _ | .innerClasses _, seg, h, _
  | .enclosingMethod _ _, seg, h, _
  | .synthetic, seg, h, _ | .signature _, seg, h, _ | .sourceFile _, seg, h, _ | .sourceDebugExtension _, seg, h, _
  | .lineNumberTable _, seg, h, _
  | .localVariableTable _, seg, h, _ | .localVariableTypeTable _, seg, h, _ | .deprecated, seg, h, _ | .runtimeVisibleAnnotations _, seg, h, _
  | .runtimeInvisibleAnnotations _, seg, h, _ | .runtimeVisibleParameterAnnotations _, seg, h, _
  | .runtimeInvisibleParameterAnnotations _, seg, h, _ | .runtimeVisibleTypeAnnotations _, seg, h, _
  | .runtimeInvisibleTypeAnnotations _, seg, h, _ | .annotationDefault _, seg, h, _ | .bootstrapMethods _, seg, h, _
  | .methodParameters _, seg, h, _
  | .moduleAttr _, seg, h, _ | .modulePackages _, seg, h, _ | .moduleMainClass _, seg, h, _ | .nestHost _, seg, h, _ | .nestMembers _, seg, h, _
  | .permittedSubclasses _, seg, h, _ | .other _, seg, h, _ => by
    exact unstrip_leaf h (by rw [stripData] <;> (intros; contradiction)) (by rw [DataEnc, DataEnc] <;> rfl)

theorem unstrip_attr (o : Opts) (pool : Pool) : ∀ (a : AttributeInfo) (seg : Bytes),
    AttrEnc (withoutBytecode o) pool a seg → CodesOK o pool [a] → ∃ a', stripAttr a' = a ∧ AttrEnc (withBytecode o) pool a' seg
  | ⟨n, d⟩, seg, h, hc => by
    rw [AttrEnc] at h
    obtain ⟨s, t, e, h1, k, b, hk, h2, h3⟩ := h
    obtain ⟨d', rfl, h'⟩ := unstrip_data o pool n d b h2 hc
    exact ⟨⟨n, d'⟩, by rw [stripAttr], by rw [AttrEnc]; exact ⟨s, t, e, h1, k, b, hk, h', h3⟩⟩

theorem unstrip_attrs (o : Opts) (pool : Pool) : ∀ (as : List AttributeInfo) (seg : Bytes),
    AttrsEnc (withoutBytecode o) pool as seg → CodesOK o pool as → ∃ as', stripAttrs as' = as ∧ AttrsEnc (withBytecode o) pool as' seg
  | [], seg, h, _ => ⟨[], by rw [stripAttrs], by rw [AttrsEnc] at h ⊢; exact h⟩
  | a :: as, seg, h, hc => by
    rw [AttrsEnc] at h
    obtain ⟨s, t, e, h1, h2⟩ := h
    obtain ⟨a', rfl, h1'⟩ := unstrip_attr o pool a s h1 fun n x hx => hc n x (attrIn_cons_left hx)
    obtain ⟨as', rfl, h2'⟩ := unstrip_attrs o pool as t h2 fun n x hx => hc n x (attrIn_cons_right hx)
    exact ⟨a' :: as', by rw [stripAttrs], by rw [AttrsEnc]; exact ⟨s, t, e, h1', h2'⟩⟩
end

/-! ## Class files -/

theorem strip_attributes (o : Opts) (pool : Pool) (as : List AttributeInfo) (seg : Bytes)
    (h : AttributesEnc (withBytecode o) pool as seg) : AttributesEnc (withoutBytecode o) pool (stripAttrs as) seg := by
  unfold AttributesEnc table2 at h ⊢
  rw [← attrsEnc_eq] at h ⊢
  rw [strip_lens]
  obtain ⟨c, hc, s, t, e, h1, h2⟩ := h
  exact ⟨c, hc, s, t, e, h1, strip_attrs o pool as t h2⟩

theorem unstrip_attributes (o : Opts) (pool : Pool) (as : List AttributeInfo) (seg : Bytes)
    (h : AttributesEnc (withoutBytecode o) pool as seg) (hc : CodesOK o pool as) :
    ∃ as', stripAttrs as' = as ∧ AttributesEnc (withBytecode o) pool as' seg := by
  unfold AttributesEnc table2 at h ⊢
  rw [← attrsEnc_eq] at h
  obtain ⟨c, hn, s, t, e, h1, h2⟩ := h
  obtain ⟨as', rfl, h'⟩ := unstrip_attrs o pool as t h2 hc
  exact ⟨as', rfl, by rw [← attrsEnc_eq, ← strip_lens as']; exact ⟨c, hn, s, t, e, h1, h'⟩⟩

theorem seq_map {α : Type} {F G : α → Lang} {f : α → α} (h : ∀ x seg, F x seg → G (f x) seg) :
    ∀ (xs : List α) (seg : Bytes), seq F xs seg → seq G (xs.map f) seg
  | [], _, e => e
  | x :: xs, _, ⟨s, t, e, h1, h2⟩ => ⟨s, t, e, h x s h1, seq_map h xs t h2⟩

theorem table2_map {α : Type} {F G : α → Lang} {f : α → α} (h : ∀ x seg, F x seg → G (f x) seg) (xs : List α) (seg : Bytes)
    (hx : table2 F xs seg) : table2 G (xs.map f) seg := by
  obtain ⟨c, hc, s, t, e, h1, h2⟩ := hx
  exact ⟨c, by simpa using hc, s, t, e, h1, seq_map h xs t h2⟩

theorem seq_unmap {α : Type} {F G : α → Lang} {f : α → α} : ∀ (xs : List α) (seg : Bytes),
    (∀ x ∈ xs, ∀ seg, F x seg → ∃ y, f y = x ∧ G y seg) → seq F xs seg → ∃ ys, ys.map f = xs ∧ seq G ys seg
  | [], _, _, e => ⟨[], rfl, e⟩
  | x :: xs, _, h, ⟨s, t, e, h1, h2⟩ => by
    obtain ⟨y, rfl, hy⟩ := h x List.mem_cons_self s h1
    obtain ⟨ys, rfl, hys⟩ := seq_unmap xs t (fun z hz => h z (List.mem_cons_of_mem _ hz)) h2
    exact ⟨y :: ys, rfl, s, t, e, hy, hys⟩

theorem table2_unmap {α : Type} {F G : α → Lang} {f : α → α} (xs : List α) (seg : Bytes)
    (h : ∀ x ∈ xs, ∀ seg, F x seg → ∃ y, f y = x ∧ G y seg) (hx : table2 F xs seg) : ∃ ys, ys.map f = xs ∧ table2 G ys seg := by
  obtain ⟨c, hc, s, t, e, h1, h2⟩ := hx
  obtain ⟨ys, rfl, h'⟩ := seq_unmap xs t h h2
  exact ⟨ys, rfl, c, by simpa using hc, s, t, e, h1, h'⟩

theorem bootstrap_strip : ∀ as : List AttributeInfo, bootstrapTables (stripAttrs as) = bootstrapTables as
  | [] => by rw [stripAttrs]
  | ⟨n, d⟩ :: as => by
    rw [stripAttrs, stripAttr]
    have ih := bootstrap_strip as
    unfold bootstrapTables at ih ⊢
    rw [List.filterMap_cons, List.filterMap_cons, ih]
    cases d <;> rw [stripData] <;> first | rfl | (intros; contradiction)

theorem strip_enc (o : Opts) (cf : ClassFile) (bytes : Bytes) (h : ClassFileEnc (withBytecode o) cf bytes) :
    ClassFileEnc (withoutBytecode o) (strip cf) bytes := by
  obtain ⟨⟨h1, h2, h3, h4⟩, a1, b1, e1, k1, a2, b2, e2, k2, a3, b3, e3, k3, a4, b4, e4, k4, a5, b5, e5, k5, a6, b6, e6, k6, a7, b7, e7, k7,
    a8, b8, e8, k8, a9, b9, e9, k9, a10, b10, e10, k10, h⟩ := h
  refine ⟨⟨?_, ?_, ?_, ?_⟩, a1, b1, e1, k1, a2, b2, e2, k2, a3, b3, e3, k3, a4, b4, e4, k4, a5, b5, e5, k5, a6, b6, e6, k6, a7, b7, e7, k7,
    a8, b8, e8, k8, a9, b9, e9, ?_, a10, b10, e10, ?_, strip_attributes o _ _ _ h⟩
  · exact List.pairwise_map.mpr h1
  · exact List.pairwise_map.mpr h2
  · intro hm
    obtain ⟨x1, x2, x3, x4, x5, x6⟩ := h3 hm
    exact ⟨x1, x2, x3, x4, by show List.map _ _ = _; rw [x5]; rfl, by show List.map _ _ = _; rw [x6]; rfl⟩
  · intro x r hx
    obtain ⟨l, hl, hlt⟩ := h4 x r hx
    exact ⟨l, by rw [← hl]; exact bootstrap_strip _, hlt⟩
  · refine table2_map (F := FieldEnc (withBytecode o) cf.constantPool) (G := FieldEnc (withoutBytecode o) cf.constantPool) ?_ _ _ k9
    rintro f seg ⟨y0, c1, d1, f1, y1, c2, d2, f2, y2, c3, d3, f3, y3, y⟩
    exact ⟨y0, c1, d1, f1, y1, c2, d2, f2, y2, c3, d3, f3, y3, strip_attributes o _ _ _ y⟩
  · refine table2_map (F := MethodEnc (withBytecode o) cf.constantPool _ _) (G := MethodEnc (withoutBytecode o) cf.constantPool _ _) ?_ _ _ k10
    rintro f seg ⟨y0, c1, d1, f1, y1, c2, d2, f2, y2, c3, d3, f3, y3, y⟩
    exact ⟨y0, c1, d1, f1, y1, c2, d2, f2, y2, c3, d3, f3, y3, strip_attributes o _ _ _ y⟩

theorem unstrip_enc (o : Opts) (cf : ClassFile) (bytes : Bytes) (h : ClassFileEnc (withoutBytecode o) cf bytes)
    (hc : ∀ c, CodeOf cf c → ∃ bc, ByteCodeEnc o.checks cf.constantPool bc c.code) :
    ∃ cf', strip cf' = cf ∧ ClassFileEnc (withBytecode o) cf' bytes := by
  obtain ⟨⟨h1, h2, h3, h4⟩, a1, b1, e1, k1, a2, b2, e2, k2, a3, b3, e3, k3, a4, b4, e4, k4, a5, b5, e5, k5, a6, b6, e6, k6, a7, b7, e7, k7,
    a8, b8, e8, k8, a9, b9, e9, k9, a10, b10, e10, k10, h⟩ := h
  obtain ⟨as', ha, has⟩ := unstrip_attributes o _ _ _ h fun n c hx => hc c ⟨n, .inl hx⟩
  obtain ⟨fs', hf, hfs⟩ := table2_unmap (f := fun f : FieldInfo => { f with attributes := stripAttrs f.attributes })
    (G := FieldEnc (withBytecode o) cf.constantPool) _ _ (by
      rintro f hf seg ⟨y0, c1, d1, f1, y1, c2, d2, f2, y2, c3, d3, f3, y3, y⟩
      obtain ⟨as, hs, y'⟩ := unstrip_attributes o _ _ _ y fun n c hx => hc c ⟨n, .inr (.inl ⟨f, hf, hx⟩)⟩
      exact ⟨{ f with attributes := as }, by rw [hs], y0, c1, d1, f1, y1, c2, d2, f2, y2, c3, d3, f3, y3, y'⟩) k9
  obtain ⟨ms', hm, hms⟩ := table2_unmap (f := fun f : MethodInfo => { f with attributes := stripAttrs f.attributes })
    (G := MethodEnc (withBytecode o) cf.constantPool (IsInterface cf.accessFlags) cf.majorVersion) _ _ (by
      rintro f hf seg ⟨y0, c1, d1, f1, y1, c2, d2, f2, y2, c3, d3, f3, y3, y⟩
      obtain ⟨as, hs, y'⟩ := unstrip_attributes o _ _ _ y fun n c hx => hc c ⟨n, .inr (.inr ⟨f, hf, hx⟩)⟩
      exact ⟨{ f with attributes := as }, by rw [hs], y0, c1, d1, f1, y1, c2, d2, f2, y2, c3, d3, f3, y3, y'⟩) k10
  refine ⟨{ cf with fields := fs', methods := ms', attributes := as' }, ?_, ⟨?_, ?_, ?_, ?_⟩, a1, b1, e1, k1, a2, b2, e2, k2, a3, b3, e3, k3,
    a4, b4, e4, k4, a5, b5, e5, k5, a6, b6, e6, k6, a7, b7, e7, k7, a8, b8, e8, k8, a9, b9, e9, hfs, a10, b10, e10, hms, has⟩
  · show { cf with fields := List.map _ fs', methods := List.map _ ms', attributes := stripAttrs as' } = cf
    rw [hf, hm, ha]
  · have := h1; rw [← hf] at this; exact List.pairwise_map.mp this
  · have := h2; rw [← hm] at this; exact List.pairwise_map.mp this
  · intro hmod
    obtain ⟨x1, x2, x3, x4, x5, x6⟩ := h3 hmod
    exact ⟨x1, x2, x3, x4, by rw [← hf] at x5; simpa using x5, by rw [← hm] at x6; simpa using x6⟩
  · intro x r hx
    obtain ⟨l, hl, hlt⟩ := h4 x r hx
    exact ⟨l, by rw [← hl, ← ha, bootstrap_strip], hlt⟩

theorem strip_mem : ∀ {as : List AttributeInfo} {b : AttributeInfo}, b ∈ stripAttrs as → ∃ a ∈ as, b = stripAttr a
  | [], b, h => by rw [stripAttrs] at h; cases h
  | a :: as, b, h => by
    rw [stripAttrs] at h
    rcases List.mem_cons.mp h with rfl | h
    · exact ⟨a, List.mem_cons_self, rfl⟩
    · obtain ⟨x, hx, e⟩ := strip_mem h
      exact ⟨x, List.mem_cons_of_mem _ hx, e⟩

theorem strip_comp_mem : ∀ {as : List RecordComponentEntry} {b : RecordComponentEntry}, b ∈ stripComponents as → ∃ a ∈ as, b = stripComponent a
  | [], b, h => by rw [stripComponents] at h; cases h
  | a :: as, b, h => by
    rw [stripComponents] at h
    rcases List.mem_cons.mp h with rfl | h
    · exact ⟨a, List.mem_cons_self, rfl⟩
    · obtain ⟨x, hx, e⟩ := strip_comp_mem h
      exact ⟨x, List.mem_cons_of_mem _ hx, e⟩

theorem strip_is_code {a : AttributeInfo} {n : Str} {c : CodeData} (h : ⟨n, .code c⟩ = stripAttr a) :
    ∃ c', a = ⟨n, .code c'⟩ ∧ c = stripCode c' := by
  obtain ⟨n', d⟩ := a
  rw [stripAttr] at h
  cases d <;> rw [stripData] at h <;> cases h
  exact ⟨_, rfl, rfl⟩

theorem strip_is_record {a : AttributeInfo} {n : Str} {l : List RecordComponentEntry} (h : ⟨n, .record l⟩ = stripAttr a) :
    ∃ l', a = ⟨n, .record l'⟩ ∧ l = stripComponents l' := by
  obtain ⟨n', d⟩ := a
  rw [stripAttr] at h
  cases d <;> rw [stripData] at h <;> cases h
  exact ⟨_, rfl, rfl⟩

theorem attrIn_unstrip {b : AttributeInfo} {bs : List AttributeInfo} (h : AttrIn b bs) :
    ∀ {as : List AttributeInfo}, bs = stripAttrs as → ∃ a, b = stripAttr a ∧ AttrIn a as := by
  induction h with
  | here h =>
    rintro as rfl
    obtain ⟨a, ha, e⟩ := strip_mem h
    exact ⟨a, e, .here ha⟩
  | code h _ ih =>
    rintro as rfl
    obtain ⟨a, ha, e⟩ := strip_mem h
    obtain ⟨c', rfl, rfl⟩ := strip_is_code e
    obtain ⟨x, hx, hin⟩ := ih (as := c'.attributes) (by obtain ⟨ms, ml, code, bc, et, as⟩ := c'; rw [stripCode])
    exact ⟨x, hx, .code ha hin⟩
  | record h hr _ ih =>
    rintro as rfl
    obtain ⟨a, ha, e⟩ := strip_mem h
    obtain ⟨l', rfl, rfl⟩ := strip_is_record e
    obtain ⟨r', hr', rfl⟩ := strip_comp_mem hr
    obtain ⟨x, hx, hin⟩ := ih (as := r'.attributes) (by obtain ⟨n, d, as⟩ := r'; rw [stripComponent])
    exact ⟨x, hx, .record ha hr' hin⟩

theorem codeOf_unstrip {cf : ClassFile} {c : CodeData} (h : CodeOf (strip cf) c) : ∃ c', CodeOf cf c' ∧ c.code = c'.code := by
  obtain ⟨n, h⟩ := h
  have key : ∃ a, (⟨n, .code c⟩ : AttributeInfo) = stripAttr a ∧ AttrOf cf a := by
    rcases h with h | ⟨f, hf, h⟩ | ⟨f, hf, h⟩
    · obtain ⟨a, e, ha⟩ := attrIn_unstrip h rfl
      exact ⟨a, e, .inl ha⟩
    · obtain ⟨g, hg, rfl⟩ := List.mem_map.mp hf
      obtain ⟨a, e, ha⟩ := attrIn_unstrip h rfl
      exact ⟨a, e, .inr (.inl ⟨g, hg, ha⟩)⟩
    · obtain ⟨g, hg, rfl⟩ := List.mem_map.mp hf
      obtain ⟨a, e, ha⟩ := attrIn_unstrip h rfl
      exact ⟨a, e, .inr (.inr ⟨g, hg, ha⟩)⟩
  obtain ⟨a, e, ha⟩ := key
  obtain ⟨c', rfl, rfl⟩ := strip_is_code e
  exact ⟨c', ⟨n, ha⟩, by obtain ⟨ms, ml, code, bc, et, as⟩ := c'; rw [stripCode]⟩

/-! ## C33 -/

/-- If parsing with `parse_bytecode(true)` returns `cf`, parsing with `parse_bytecode(false)` returns `cf` with the bytecode of each Code
attribute removed and nothing else changed. With the option on every Code attribute, at any depth, has its bytecode; with the option off none
has. -/
theorem C33_option {o : Opts} {bytes : Bytes} {cf : ClassFile} (h : Accepts (withBytecode o) bytes cf) :
    Accepts (withoutBytecode o) bytes (strip cf) ∧ (∀ c, CodeOf cf c → ∃ bc, c.bytecode = some bc) ∧
      ∀ c, CodeOf (strip cf) c → c.bytecode = none := by
  have h' : Accepts (withoutBytecode o) bytes (strip cf) := accepts_iff_enc.mpr (strip_enc o cf bytes (accepts_iff_enc.mp h))
  refine ⟨h', ?_, ?_⟩
  · rintro c ⟨n, hc⟩
    obtain ⟨s, hs, -⟩ := attrOf_enc (accepts_iff_enc.mp h) hc
    obtain ⟨t, ht, -⟩ := attrEnc_data hs
    rw [DataEnc, codeEnc_eq] at ht
    have := ht.2.1
    unfold BytecodeField at this
    cases hb : c.bytecode with
    | some b => exact ⟨b, rfl⟩
    | none => rw [hb] at this; cases this
  · rintro c ⟨n, hc⟩
    obtain ⟨s, hs, -⟩ := attrOf_enc (accepts_iff_enc.mp h') hc
    obtain ⟨t, ht, -⟩ := attrEnc_data hs
    rw [DataEnc, codeEnc_eq] at ht
    have := ht.2.1
    unfold BytecodeField at this
    cases hb : c.bytecode with
    | none => rfl
    | some b => rw [hb] at this; cases this.1

/-- Conversely, a file accepted with `parse_bytecode(false)` is accepted with `parse_bytecode(true)` exactly when the code of each of its
Code attributes, at any depth, is well-formed bytecode; the results then differ in the bytecode only. -/
theorem C33_only_code {o : Opts} {bytes : Bytes} {cf : ClassFile} (h : Accepts (withoutBytecode o) bytes cf) :
    (∃ cf', Accepts (withBytecode o) bytes cf' ∧ strip cf' = cf) ↔
      ∀ c, CodeOf cf c → ∃ bc, ByteCodeEnc o.checks cf.constantPool bc c.code := by
  constructor
  · rintro ⟨cf', h', rfl⟩ c hc
    obtain ⟨c', ⟨n, hc'⟩, e⟩ := codeOf_unstrip hc
    obtain ⟨s, hs, -⟩ := attrOf_enc (accepts_iff_enc.mp h') hc'
    obtain ⟨t, ht, -⟩ := attrEnc_data hs
    rw [DataEnc, codeEnc_eq] at ht
    have := ht.2.1
    unfold BytecodeField at this
    rw [e]
    cases hb : c'.bytecode with
    | some b => rw [hb] at this; exact ⟨b, this.2⟩
    | none => rw [hb] at this; cases this
  · intro hc
    obtain ⟨cf', h1, h2⟩ := unstrip_enc o cf bytes (accepts_iff_enc.mp h) hc
    exact ⟨cf', accepts_iff_enc.mpr h2, h1⟩

/-- `parse_class` is `parse_class_with_options` with options that decode bytecode: what it returns has the bytecode of every Code attribute,
at any depth, and is what a call with the option switched on (whatever it was before) returns. Switching the option off gives the same class
without bytecode. The option is what it was last set to. -/
theorem C33_default (o : Opts) (d : Nat) (bytes : Bytes) (opts : ParseOptions) :
    let env : Env := { decode := o.decode, overflowChecks := o.checks, depth := d, parseBytecode := o.parseBytecode }
    parseClass env bytes = run (withBytecode o) d bytes ∧
      parseClass env bytes = parseClassWithOptions (env.withOptions (opts.setParseBytecode true)) bytes ∧
      (∀ cf, parseClass env bytes = .ok cf → (∀ c, CodeOf cf c → ∃ bc, c.bytecode = some bc) ∧
        ∃ e : Nat, parseClassWithOptions { env.withOptions (opts.setParseBytecode false) with depth := e } bytes = .ok (strip cf)) ∧
      ∀ b b', (opts.setParseBytecode b').setParseBytecode b = opts.setParseBytecode b ∧
        (opts.setParseBytecode b).parseBytecode = b := by
  refine ⟨rfl, rfl, fun cf h => ?_, fun _ _ => ⟨rfl, rfl⟩⟩
  obtain ⟨⟨e, he⟩, h2, -⟩ := C33_option (o := o) ⟨d, h⟩
  exact ⟨h2, e, he⟩

/-- The hypotheses are met by a file with a Code attribute whose instructions are returned. -/
example : ∃ c bc, Accepts (withBytecode debug) rich richCf ∧ CodeOf richCf c ∧ c.bytecode = some bc ∧ c.code = richCode := by
  obtain ⟨c, bc, h1, h2, h3, -⟩ := rich_code
  exact ⟨c, bc, rich_accepted, h1, h2, h3⟩

example : Accepts (withoutBytecode debug) rich (strip richCf) ∧ ∃ cf', Accepts (withBytecode debug) rich cf' ∧ strip cf' = strip richCf :=
  ⟨(C33_option (o := debug) rich_accepted).1, _, rich_accepted, rfl⟩

end Cafebabe
