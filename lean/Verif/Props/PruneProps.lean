import Verif.Spec.Prune
import Verif.Props.StripProps
import Verif.Props.FullFacts
/-!
# C48: interfaces, members and attributes are independent of each other
-/

namespace Cafebabe
open Spec Examples

theorem prune_comps_lens (keep : AttributeInfo → Bool) : ∀ as : List RecordComponentEntry, (pruneComponents keep as).length = as.length
  | [] => by rw [pruneComponents]
  | a :: as => by rw [pruneComponents]; simp [prune_comps_lens keep as]

theorem prune_lens (keep : AttributeInfo → Bool) : ∀ as : List AttributeInfo, (pruneAttrs keep as).length ≤ as.length
  | [] => by rw [pruneAttrs]
  | a :: as => by
    rw [pruneAttrs]
    have := prune_lens keep as
    split <;> simp only [List.length_cons] <;> omega

/-- A smaller count fits where the larger one did. -/
theorem small2 {n m : Nat} {c : UInt16} (hc : c.toNat = n) (h : m ≤ n) : ∃ c' : UInt16, c'.toNat = m :=
  ⟨UInt16.ofNat m, by have := c.toNat_lt; rw [UInt16.toNat_ofNat']; omega⟩

theorem small4 {n m : Nat} {c : UInt32} (hc : c.toNat = n) (h : m ≤ n) : ∃ c' : UInt32, c'.toNat = m :=
  ⟨UInt32.ofNat m, by have := c.toNat_lt; rw [UInt32.toNat_ofNat']; omega⟩

section
variable (keep : AttributeInfo → Bool) (o : Opts) (pool : Pool)

mutual
theorem prune_code : ∀ (c : CodeData) (seg : Bytes), CodeEnc o pool c seg →
    ∃ seg', seg'.length ≤ seg.length ∧ CodeEnc o pool (pruneCode keep c) seg'
  | ⟨ms, ml, code, bc, et, as⟩, seg, h => by
    rw [CodeEnc] at h
    obtain ⟨h0, s1, t1, rfl, h1, s2, t2, rfl, h2, s3, t3, rfl, h3, s4, t4, rfl, h4, c, hc, s5, t5, rfl, h5, h⟩ := h
    obtain ⟨t', hl, h'⟩ := prune_attrs as _ h
    obtain ⟨c', hc'⟩ := small2 hc (prune_lens keep as)
    refine ⟨s1 ++ (s2 ++ (s3 ++ (s4 ++ (u2 c' ++ t')))), ?_, ?_⟩
    · have : s5 = u2 c := h5
      subst this
      simp [u2]; omega
    · rw [pruneCode, CodeEnc]
      exact ⟨h0, _, _, rfl, h1, _, _, rfl, h2, _, _, rfl, h3, _, _, rfl, h4, c', hc', _, _, rfl, rfl, h'⟩

theorem prune_component : ∀ (c : RecordComponentEntry) (seg : Bytes), ComponentEnc o pool c seg →
    ∃ seg', seg'.length ≤ seg.length ∧ ComponentEnc o pool (pruneComponent keep c) seg'
  | ⟨n, d, as⟩, seg, h => by
    rw [ComponentEnc] at h
    obtain ⟨h0, s1, t1, rfl, h1, s2, t2, rfl, h2, c, hc, s5, t5, rfl, h5, h⟩ := h
    obtain ⟨t', hl, h'⟩ := prune_attrs as _ h
    obtain ⟨c', hc'⟩ := small2 hc (prune_lens keep as)
    refine ⟨s1 ++ (s2 ++ (u2 c' ++ t')), ?_, ?_⟩
    · have : s5 = u2 c := h5
      subst this
      simp [u2]; omega
    · rw [pruneComponent, ComponentEnc]
      exact ⟨h0, _, _, rfl, h1, _, _, rfl, h2, c', hc', _, _, rfl, rfl, h'⟩

theorem prune_components : ∀ (cs : List RecordComponentEntry) (seg : Bytes), ComponentsEnc o pool cs seg →
    ∃ seg', seg'.length ≤ seg.length ∧ ComponentsEnc o pool (pruneComponents keep cs) seg'
  | [], seg, h => ⟨seg, Nat.le_refl _, by rw [ComponentsEnc] at h; rw [pruneComponents, ComponentsEnc]; exact h⟩
  | c :: cs, seg, h => by
    rw [ComponentsEnc] at h
    obtain ⟨s, t, rfl, h1, h2⟩ := h
    obtain ⟨s', hs, h1'⟩ := prune_component c s h1
    obtain ⟨t', ht, h2'⟩ := prune_components cs t h2
    refine ⟨s' ++ t', by simp; omega, ?_⟩
    rw [pruneComponents, ComponentsEnc]
    exact ⟨_, _, rfl, h1', h2'⟩

theorem prune_data (name : Str) : ∀ (d : AttributeData) (seg : Bytes), DataEnc o pool name d seg →
    ∃ seg', seg'.length ≤ seg.length ∧ DataEnc o pool name (pruneData keep d) seg'
  | .code c, seg, h => by
    rw [DataEnc] at h
    obtain ⟨s, hs, h'⟩ := prune_code c seg h.2
    exact ⟨s, hs, by rw [pruneData, DataEnc]; exact ⟨h.1, h'⟩⟩
  | .record l, seg, h => by
    rw [DataEnc] at h
    obtain ⟨h0, c, hc, s, t, rfl, h1, h2⟩ := h
    obtain ⟨t', ht, h'⟩ := prune_components l t h2
    refine ⟨s ++ t', by simp; omega, ?_⟩
    rw [pruneData, DataEnc, prune_comps_lens]
    exact ⟨h0, c, hc, _, _, rfl, h1, h'⟩
  | .constantValue _, seg, h | .stackMapTable _, seg, h | .exceptions _, seg, h | .innerClasses _, seg, h | .enclosingMethod _ _, seg, h
  | .synthetic, seg, h | .signature _, seg, h | .sourceFile _, seg, h | .sourceDebugExtension _, seg, h | .lineNumberTable _, seg, h
  | .localVariableTable _, seg, h | .localVariableTypeTable _, seg, h | .deprecated, seg, h | .runtimeVisibleAnnotations _, seg, h
  | .runtimeInvisibleAnnotations _, seg, h | .runtimeVisibleParameterAnnotations _, seg, h
  | .runtimeInvisibleParameterAnnotations _, seg, h | .runtimeVisibleTypeAnnotations _, seg, h
  | .runtimeInvisibleTypeAnnotations _, seg, h | .annotationDefault _, seg, h | .bootstrapMethods _, seg, h | .methodParameters _, seg, h
  | .moduleAttr _, seg, h | .modulePackages _, seg, h | .moduleMainClass _, seg, h | .nestHost _, seg, h | .nestMembers _, seg, h
  | .permittedSubclasses _, seg, h | .other _, seg, h => by
    refine ⟨seg, Nat.le_refl _, ?_⟩
    rw [pruneData] <;> first | exact h | (intros; contradiction)

theorem prune_attr : ∀ (a : AttributeInfo) (seg : Bytes), AttrEnc o pool a seg →
    ∃ seg', seg'.length ≤ seg.length ∧ AttrEnc o pool (pruneAttr keep a) seg'
  | ⟨n, d⟩, seg, h => by
    rw [AttrEnc] at h
    obtain ⟨s, t, rfl, h1, k, b, hk, h2, rfl⟩ := h
    obtain ⟨b', hb, h'⟩ := prune_data n d b h2
    obtain ⟨k', hk'⟩ := small4 hk hb
    refine ⟨s ++ (u4 k' ++ b'), by simp [u4]; omega, ?_⟩
    rw [pruneAttr, AttrEnc]
    exact ⟨_, _, rfl, h1, k', b', hk', h', rfl⟩

theorem prune_attrs : ∀ (as : List AttributeInfo) (seg : Bytes), AttrsEnc o pool as seg →
    ∃ seg', seg'.length ≤ seg.length ∧ AttrsEnc o pool (pruneAttrs keep as) seg'
  | [], seg, h => ⟨seg, Nat.le_refl _, by rw [AttrsEnc] at h; rw [pruneAttrs, AttrsEnc]; exact h⟩
  | a :: as, seg, h => by
    rw [AttrsEnc] at h
    obtain ⟨s, t, rfl, h1, h2⟩ := h
    obtain ⟨t', ht, h2'⟩ := prune_attrs as t h2
    rw [pruneAttrs]
    split
    · obtain ⟨s', hs, h1'⟩ := prune_attr a s h1
      refine ⟨s' ++ t', by simp; omega, ?_⟩
      rw [AttrsEnc]
      exact ⟨_, _, rfl, h1', h2'⟩
    · exact ⟨t', by simp; omega, h2'⟩
end

theorem prune_table {as : List AttributeInfo} {seg : Bytes} (h : AttributesEnc o pool as seg) :
    ∃ seg', seg'.length ≤ seg.length ∧ AttributesEnc o pool (pruneAttrs keep as) seg' := by
  obtain ⟨c, hc, s, t, rfl, h1, h2⟩ := h
  rw [← attrsEnc_eq] at h2
  obtain ⟨t', ht, h2'⟩ := prune_attrs keep o pool as t h2
  obtain ⟨c', hc'⟩ := small2 hc (prune_lens keep as)
  have : s = u2 c := h1
  subst this
  refine ⟨u2 c' ++ t', by simp [u2]; omega, c', hc', _, _, rfl, rfl, ?_⟩
  rw [← attrsEnc_eq]
  exact h2'

end

/-- Dropping and changing elements of a table. -/
theorem table2_prune {α : Type} {F G : α → Lang} {p : α → Bool} {f : α → α} (hf : ∀ x s, F x s → p x = true → ∃ s', s'.length ≤ s.length ∧ G (f x) s')
    {xs : List α} {seg : Bytes} (h : table2 F xs seg) : ∃ seg', seg'.length ≤ seg.length ∧ table2 G ((xs.filter p).map f) seg' := by
  obtain ⟨c, hc, s, t, rfl, h1, h2⟩ := h
  have key : ∀ (xs : List α) (t : Bytes), seq F xs t → ∃ t', t'.length ≤ t.length ∧ seq G ((xs.filter p).map f) t' := by
    intro xs
    induction xs with
    | nil => intro t ht; exact ⟨t, Nat.le_refl _, ht⟩
    | cons x xs ih =>
      rintro _ ⟨s, t, rfl, hs, ht⟩
      obtain ⟨t', hl, h'⟩ := ih t ht
      rw [List.filter_cons]
      split
      · rename_i hp
        obtain ⟨s', hl', hs'⟩ := hf x s hs hp
        exact ⟨s' ++ t', by simp; omega, _, _, rfl, hs', h'⟩
      · exact ⟨t', by simp; omega, h'⟩
  obtain ⟨t', ht, h'⟩ := key xs t h2
  obtain ⟨c', hc'⟩ := small2 hc (m := ((xs.filter p).map f).length) (by rw [List.length_map]; exact List.length_filter_le _ _)
  have : s = u2 c := h1
  subst this
  exact ⟨u2 c' ++ t', by simp [u2]; omega, c', hc', _, _, rfl, rfl, h'⟩

theorem bootstrap_prune {k : AttributeInfo → Bool} : ∀ {as : List AttributeInfo}, (∀ a ∈ as, (∃ l, a.data = .bootstrapMethods l) → k a = true) →
    bootstrapTables (pruneAttrs k as) = bootstrapTables as
  | [], _ => by rw [pruneAttrs]
  | a :: as, h => by
    have ih := bootstrap_prune (k := k) (as := as) fun b hb => h b (List.mem_cons_of_mem _ hb)
    have ha := h a List.mem_cons_self
    obtain ⟨n, d⟩ := a
    rw [pruneAttrs]
    split
    · rw [pruneAttr]
      unfold bootstrapTables at ih ⊢
      rw [List.filterMap_cons, List.filterMap_cons, ih]
      cases d <;> rfl
    · rename_i hk
      rw [ih]
      unfold bootstrapTables
      rw [List.filterMap_cons]
      cases d <;> try rfl
      exact absurd (ha ⟨_, rfl⟩) hk

theorem distinct_filter {α : Type} {R : α → α → Prop} {p : α → Bool} {f : α → α} (hf : ∀ x y, R x y → R (f x) (f y)) {xs : List α}
    (h : xs.Pairwise R) : ((xs.filter p).map f).Pairwise R :=
  List.pairwise_map.mpr ((h.filter p).imp fun h => hf _ _ h)

/-- Take any interfaces, fields, methods and attributes (at any depth) out of an accepted class file, adjusting counts and lengths: the
result is an accepted class file, and parses to exactly what is left. So nothing that is kept needs what was removed, except that Dynamic
and InvokeDynamic constants need the BootstrapMethods attribute. -/
theorem C48_removal {o : Opts} {bytes : Bytes} {cf : ClassFile} (h : Accepts o bytes cf) (k : Keep) (hb : KeepsBootstrap k cf) :
    ∃ bytes', bytes'.length ≤ bytes.length ∧ Accepts o bytes' (prune k cf) := by
  obtain ⟨⟨hd1, hd2, hm, hbs⟩, s, t, rfl, rfl, s, t, rfl, rfl, s, t, rfl, rfl, pool, t, rfl, hp, s1, t, rfl, hf, s2, t, rfl, ht,
    s3, t, rfl, hsup, s4, t, rfl, hi, sf, t, rfl, hfs, sm, as, rfl, hms, has⟩ := accepts_iff_enc.mp h
  obtain ⟨s4', l4, h4⟩ := table2_prune (p := k.iface) (f := id) (fun x s hx _ => ⟨s, Nat.le_refl _, hx⟩) hi
  rw [List.map_id] at h4
  obtain ⟨sf', lf, hf'⟩ := table2_prune (p := k.field) (f := fun f => { f with attributes := pruneAttrs k.attr f.attributes }) (G := FieldEnc o cf.constantPool)
    (by
      rintro f _ ⟨h0, s, t, rfl, h1, s', t, rfl, h2, s'', t, rfl, h3, h4⟩ -
      obtain ⟨t', hl, h5⟩ := prune_table k.attr o cf.constantPool h4
      exact ⟨s ++ (s' ++ (s'' ++ t')), by simp; omega, h0, _, _, rfl, h1, _, _, rfl, h2, _, _, rfl, h3, h5⟩) hfs
  obtain ⟨sm', lm, hm'⟩ := table2_prune (p := k.method) (f := fun f => { f with attributes := pruneAttrs k.attr f.attributes })
    (G := MethodEnc o cf.constantPool (IsInterface cf.accessFlags) cf.majorVersion)
    (by
      rintro f _ ⟨h0, s, t, rfl, h1, s', t, rfl, h2, s'', t, rfl, h3, h4⟩ -
      obtain ⟨t', hl, h5⟩ := prune_table k.attr o cf.constantPool h4
      exact ⟨s ++ (s' ++ (s'' ++ t')), by simp; omega, h0, _, _, rfl, h1, _, _, rfl, h2, _, _, rfl, h3, h5⟩) hms
  obtain ⟨as', la, ha'⟩ := prune_table k.attr o cf.constantPool has
  refine ⟨[0xCA, 0xFE, 0xBA, 0xBE] ++ (u2 cf.minorVersion ++ (u2 cf.majorVersion ++ (pool ++ (s1 ++ (s2 ++ (s3 ++ (s4' ++ (sf' ++ (sm' ++ as'))))))))),
    by simp; omega, accepts_iff_enc.mpr ⟨⟨?_, ?_, ?_, ?_⟩, _, _, rfl, rfl, _, _, rfl, rfl, _, _, rfl, rfl, _, _, rfl, hp, _, _, rfl, hf, _, _, rfl, ht,
      _, _, rfl, hsup, _, _, rfl, h4, _, _, rfl, hf', _, _, rfl, hm', ha'⟩⟩
  · exact distinct_filter (p := k.field) (f := fun f => { f with attributes := pruneAttrs k.attr f.attributes }) (fun x y h => h) hd1
  · exact distinct_filter (p := k.method) (f := fun f => { f with attributes := pruneAttrs k.attr f.attributes }) (fun x y h => h) hd2
  · intro hmod
    obtain ⟨h1, h2, h3, h4, h5, h6⟩ := hm hmod
    exact ⟨h1, h2, h3, by simp [prune, h4], by simp [prune, h5], by simp [prune, h6]⟩
  · intro x r hx
    rcases hb with hb | hb
    · have := hbs x r hx
      rwa [← bootstrap_prune hb] at this
    · rcases hx with hx | hx
      · exact absurd hx (hb x r).1
      · exact absurd hx (hb x r).2

/-- In particular all attributes with unknown names can be removed, everywhere, and nothing else changes. -/
theorem C48_unknown_attributes {o : Opts} {bytes : Bytes} {cf : ClassFile} (h : Accepts o bytes cf) :
    ∃ bytes', bytes'.length ≤ bytes.length ∧
      Accepts o bytes' (prune ⟨fun _ => true, fun _ => true, fun _ => true, fun a => decide (a.name ∈ predefinedNames)⟩ cf) := by
  refine C48_removal h _ (.inl fun a ha ⟨l, hl⟩ => ?_)
  obtain ⟨pre, body, post, i, n, -, -, -, -, hd⟩ := C22_exact_length h (.inl (.here ha))
  rw [hl, DataEnc] at hd
  have : a.name ∈ predefinedNames := by rw [hd.1]; decide +kernel
  exact decide_eq_true this

/-! ### Insertion -/

theorem insertIn_enc {o : Opts} {pool : Pool} {a : AttributeInfo} {sa : Bytes} (ha : AttrEnc o pool a sa) {as as' : List AttributeInfo} (h : InsertIn a as as') :
    ∀ {seg : Bytes}, AttributesEnc o pool as seg → seg.length + sa.length < 4294967296 →
      ∃ seg', seg'.length = seg.length + sa.length ∧ AttributesEnc o pool as' seg' := by
  induction h with
  | here xs ys hc =>
    rintro _ ⟨c, hc', s, t, rfl, hs, ht⟩ -
    obtain ⟨t1, t2, rfl, h1, h2⟩ := seq_append_iff.mp ht
    have : s = u2 c := hs
    subst this
    refine ⟨u2 (UInt16.ofNat (xs.length + ys.length + 1)) ++ t1 ++ sa ++ t2, by simp [u2]; omega, table2_split.mpr ⟨_, t1, sa, t2, ?_, rfl, h1, ha, h2⟩⟩
    rw [UInt16.toNat_ofNat']; omega
  | code xs ys name c as' _ ih =>
    intro seg hs hl
    obtain ⟨k, s, t, u, hk, rfl, h1, h2, h3⟩ := table2_split.mp hs
    rw [AttrEnc] at h2
    obtain ⟨_, _, rfl, ⟨i, hi, rfl⟩, n, b, hn, hd, rfl⟩ := h2
    rw [DataEnc, codeEnc_eq] at hd
    obtain ⟨rfl, hb, s1, t1, rfl, rfl, s2, t2, rfl, rfl, s3, t3, rfl, hcode, s4, t4, rfl, h4, h5⟩ := hd
    simp only [List.length_append] at hl hn
    obtain ⟨t5, hl5, h6⟩ := ih h5 (by omega)
    refine ⟨u2 k ++ s ++ (u2 i ++ (u4 (UInt32.ofNat (n.toNat + sa.length)) ++ (u2 c.maxStack ++ (u2 c.maxLocals ++ (s3 ++ (s4 ++ t5)))))) ++ u, ?_,
      table2_split.mpr ⟨k, s, _, u, hk, rfl, h1, ?_, h3⟩⟩
    · simp [u2, u4, hl5]; omega
    · rw [AttrEnc]
      refine ⟨_, _, rfl, ⟨i, hi, rfl⟩, _, _, ?_, ?_, rfl⟩
      · rw [UInt32.toNat_ofNat']
        simp only [List.length_append, hl5]
        omega
      · rw [DataEnc, codeEnc_eq]
        exact ⟨rfl, hb, _, _, rfl, rfl, _, _, rfl, rfl, _, _, rfl, hcode, _, _, rfl, h4, h6⟩
  | record xs ys name rs ts r as' _ ih =>
    intro seg hs hl
    obtain ⟨k, s, t, u, hk, rfl, h1, h2, h3⟩ := table2_split.mp hs
    rw [AttrEnc] at h2
    obtain ⟨_, _, rfl, ⟨i, hi, rfl⟩, n, b, hn, hd, rfl⟩ := h2
    rw [DataEnc, componentsEnc_eq] at hd
    obtain ⟨rfl, hd⟩ := hd
    obtain ⟨k', s', t', u', hk', rfl, h4, h6, h4'⟩ := table2_split.mp hd
    rw [componentEnc_eq] at h6
    obtain ⟨hu, _, _, rfl, ⟨j1, hj1, rfl⟩, _, t2, rfl, ⟨j2, hj2, rfl⟩, h7⟩ := h6
    simp only [List.length_append] at hl hn
    obtain ⟨t5, hl5, h8⟩ := ih h7 (by omega)
    refine ⟨u2 k ++ s ++ (u2 i ++ (u4 (UInt32.ofNat (n.toNat + sa.length)) ++ (u2 k' ++ s' ++ (u2 j1 ++ (u2 j2 ++ t5)) ++ u'))) ++ u, ?_,
      table2_split.mpr ⟨k, s, _, u, hk, rfl, h1, ?_, h3⟩⟩
    · simp [u2, u4, hl5]; omega
    · rw [AttrEnc]
      refine ⟨_, _, rfl, ⟨i, hi, rfl⟩, _, _, ?_, ?_, rfl⟩
      · rw [UInt32.toNat_ofNat']
        simp only [List.length_append, hl5]
        omega
      · rw [DataEnc, componentsEnc_eq]
        refine ⟨rfl, table2_split.mpr ⟨k', s', _, u', hk', rfl, h4, ?_, h4'⟩⟩
        rw [componentEnc_eq]
        exact ⟨hu, _, _, rfl, ⟨j1, hj1, rfl⟩, _, _, rfl, ⟨j2, hj2, rfl⟩, h8⟩

theorem insertIn_bootstrap {a : AttributeInfo} {as as' : List AttributeInfo} (h : InsertIn a as as') (ha : NotBootstrap a) :
    bootstrapTables as' = bootstrapTables as := by
  have key : ∀ (x y : AttributeInfo), NotBootstrap x → NotBootstrap y → ∀ xs ys, bootstrapTables (xs ++ y :: ys) = bootstrapTables (xs ++ x :: ys) := by
    intro x y hx hy xs ys
    rw [bootstrapTables_append, bootstrapTables_append, bootstrapTables_not hx, bootstrapTables_not hy]
  cases h with
  | here xs ys => rw [bootstrapTables_append, bootstrapTables_append, bootstrapTables_not ha]
  | code xs ys name c as' _ => exact key _ _ (by intro l h; cases h) (by intro l h; cases h) xs ys
  | record xs ys name rs ts r as' _ => exact key _ _ (by intro l h; cases h) (by intro l h; cases h) xs ys

/-- Put a well-formed attribute (not BootstrapMethods) into any attribute table of an accepted class file that has room for it, adjusting
count and lengths (the file stays below 4 GiB, so that the lengths fit): the result is accepted, and parses to the class with that
attribute added and nothing else changed. -/
theorem C48_insertion {o : Opts} {bytes : Bytes} {cf cf' : ClassFile} (h : Accepts o bytes cf) {a : AttributeInfo} {sa : Bytes}
    (ha : AttrEnc o cf.constantPool a sa) (hb : NotBootstrap a) (hi : InsertOf a cf cf') (hl : bytes.length + sa.length < 4294967296) :
    ∃ bytes', bytes'.length = bytes.length + sa.length ∧ Accepts o bytes' cf' := by
  obtain ⟨⟨hd1, hd2, hm, hbs⟩, s, t, rfl, rfl, s, t, rfl, rfl, s, t, rfl, rfl, pool, t, rfl, hp, s1, t, rfl, hf, s2, t, rfl, ht,
    s3, t, rfl, hsup, s4, t, rfl, hif, sf, t, rfl, hfs, sm, as, rfl, hms, has⟩ := accepts_iff_enc.mp h
  simp only [List.length_append] at hl
  cases hi with
  | ofClass as' hr =>
    obtain ⟨seg, hs, henc⟩ := insertIn_enc ha hr has (by omega)
    refine ⟨[0xCA, 0xFE, 0xBA, 0xBE] ++ (u2 cf.minorVersion ++ (u2 cf.majorVersion ++ (pool ++ (s1 ++ (s2 ++ (s3 ++ (s4 ++ (sf ++ (sm ++ seg))))))))),
      by simp only [List.length_append, hs]; omega, accepts_iff_enc.mpr ⟨⟨hd1, hd2, hm, ?_⟩, _, _, rfl, rfl, _, _, rfl, rfl, _, _, rfl, rfl, _, _, rfl, hp, _, _, rfl, hf, _, _, rfl, ht, _, _, rfl,
        hsup, _, _, rfl, hif, _, _, rfl, hfs, _, _, rfl, hms, henc⟩⟩
    intro x r hx
    show ∃ l, bootstrapTables as' = [l] ∧ _
    rw [insertIn_bootstrap hr hb]
    exact hbs x r hx
  | ofField fs gs f as' he hr =>
    rw [he] at hfs
    obtain ⟨k, u, v, w, hk, rfl, h1, h2, h3⟩ := table2_split.mp hfs
    obtain ⟨hn, _, _, rfl, ⟨j0, hj0, rfl⟩, _, _, rfl, ⟨j1, hj1, rfl⟩, _, t2, rfl, ⟨j2, hj2, rfl⟩, h5⟩ := h2
    simp only [List.length_append] at hl
    obtain ⟨seg, hs, henc⟩ := insertIn_enc ha hr h5 (by omega)
    refine ⟨[0xCA, 0xFE, 0xBA, 0xBE] ++ (u2 cf.minorVersion ++ (u2 cf.majorVersion ++ (pool ++ (s1 ++ (s2 ++ (s3 ++ (s4 ++
        ((u2 k ++ u ++ (u2 j0 ++ (u2 j1 ++ (u2 j2 ++ seg))) ++ w) ++ (sm ++ as))))))))),
      by simp only [List.length_append, hs]; omega, accepts_iff_enc.mpr ⟨⟨?_, hd2, ?_, hbs⟩, _, _, rfl, rfl, _, _, rfl, rfl, _, _, rfl, rfl, _, _, rfl, hp, _, _, rfl, hf, _, _, rfl, ht, _, _, rfl,
        hsup, _, _, rfl, hif, _, _, rfl, ?_, _, _, rfl, hms, has⟩⟩
    · unfold FieldsDistinct at hd1 ⊢
      rw [he] at hd1
      simp only [List.pairwise_append, List.pairwise_cons, List.mem_cons, forall_eq_or_imp] at hd1 ⊢
      exact hd1
    · exact moduleRestrictions_fields hm rfl rfl rfl rfl (by rw [he]; simp) (fun h => h)
    · exact table2_split.mpr ⟨k, u, _, w, hk, rfl, h1, ⟨hn, _, _, rfl, ⟨j0, hj0, rfl⟩, _, _, rfl, ⟨j1, hj1, rfl⟩, _, _, rfl, ⟨j2, hj2, rfl⟩,
        henc⟩, h3⟩
  | ofMethod fs gs f as' he hr =>
    rw [he] at hms
    obtain ⟨k, u, v, w, hk, rfl, h1, h2, h3⟩ := table2_split.mp hms
    obtain ⟨hn, _, _, rfl, ⟨j0, hj0, rfl⟩, _, _, rfl, ⟨j1, hj1, rfl⟩, _, t2, rfl, ⟨j2, hj2, rfl⟩, h5⟩ := h2
    simp only [List.length_append] at hl
    obtain ⟨seg, hs, henc⟩ := insertIn_enc ha hr h5 (by omega)
    refine ⟨[0xCA, 0xFE, 0xBA, 0xBE] ++ (u2 cf.minorVersion ++ (u2 cf.majorVersion ++ (pool ++ (s1 ++ (s2 ++ (s3 ++ (s4 ++ (sf ++
        ((u2 k ++ u ++ (u2 j0 ++ (u2 j1 ++ (u2 j2 ++ seg))) ++ w) ++ as))))))))),
      by simp only [List.length_append, hs]; omega, accepts_iff_enc.mpr ⟨⟨hd1, ?_, ?_, hbs⟩, _, _, rfl, rfl, _, _, rfl, rfl, _, _, rfl, rfl, _, _, rfl, hp, _, _, rfl, hf, _, _, rfl, ht, _, _, rfl,
        hsup, _, _, rfl, hif, _, _, rfl, hfs, _, _, rfl, ?_, has⟩⟩
    · unfold MethodsDistinct at hd2 ⊢
      rw [he] at hd2
      simp only [List.pairwise_append, List.pairwise_cons, List.mem_cons, forall_eq_or_imp] at hd2 ⊢
      exact hd2
    · exact moduleRestrictions_fields hm rfl rfl rfl rfl (fun h => h) (by rw [he]; simp)
    · exact table2_split.mpr ⟨k, u, _, w, hk, rfl, h1, ⟨hn, _, _, rfl, ⟨j0, hj0, rfl⟩, _, _, rfl, ⟨j1, hj1, rfl⟩, _, _, rfl, ⟨j2, hj2, rfl⟩,
        henc⟩, h3⟩

/-- An attribute with an unknown name and any content can be inserted anywhere. -/
theorem C48_insert_unknown {o : Opts} {bytes : Bytes} {cf cf' : ClassFile} (h : Accepts o bytes cf) {i : UInt16} {name : Str} {b : Bytes}
    (ht : TextAt cf.constantPool i.toNat name) (hn : name ∉ predefinedNames) (hi : InsertOf ⟨name, .other b⟩ cf cf')
    (hl : bytes.length + (6 + b.length) < 4294967296) : ∃ bytes', bytes'.length = bytes.length + (6 + b.length) ∧ Accepts o bytes' cf' := by
  have hlen : (u2 i ++ (u4 (UInt32.ofNat b.length) ++ b)).length = 6 + b.length := by simp [u2, u4]; omega
  have := C48_insertion h (a := ⟨name, .other b⟩) (sa := u2 i ++ (u4 (UInt32.ofNat b.length) ++ b)) (by
    rw [AttrEnc]
    refine ⟨_, _, rfl, ⟨i, ht, rfl⟩, _, b, by rw [UInt32.toNat_ofNat']; omega, ?_, rfl⟩
    rw [DataEnc]
    exact ⟨hn, rfl⟩) (by intro l h; cases h) hi (by rw [hlen]; exact hl)
  rwa [hlen] at this

/-! ### Concrete cases -/

/-- `full` has attributes of all kinds; all but BootstrapMethods can be removed. -/
example : ∃ bytes', bytes'.length ≤ full.length ∧ Accepts debug bytes'
    (prune ⟨fun _ => false, fun _ => false, fun _ => false, fun a => decide (dataKind a.data = .bootstrapMethods)⟩ fullCf) :=
  C48_removal full_accepted _ (.inl fun a _ ⟨l, hl⟩ => by show decide _ = true; rw [hl]; rfl)

/-- An unknown attribute in front of the class attributes (the general case, so that the next example need not unfold `rich`). -/
theorem insert_front {o : Opts} {bytes : Bytes} {cf : ClassFile} (h : Accepts o bytes cf) {i : UInt16} {name : Str} {b : Bytes}
    (ht : TextAt cf.constantPool i.toNat name) (hn : name ∉ predefinedNames) (hr : cf.attributes.length < 65535)
    (hl : bytes.length + (6 + b.length) < 4294967296) : ∃ bytes' cf', bytes'.length = bytes.length + (6 + b.length) ∧
      cf'.attributes = ⟨name, .other b⟩ :: cf.attributes ∧ cf'.methods = cf.methods ∧ Accepts o bytes' cf' := by
  obtain ⟨bytes', hb, ha⟩ := C48_insert_unknown h ht hn (.ofClass _ (.here [] _ (by simpa using hr))) hl
  exact ⟨bytes', { cf with attributes := ⟨name, .other b⟩ :: cf.attributes }, hb, rfl, rfl, ha⟩

/-- An attribute named "A" with three bytes of content can be put in front of the two class attributes of `rich`. -/
example : ∃ bytes' cf', cf'.attributes = ⟨['A'], .other [1, 2, 3]⟩ :: richCf.attributes ∧ cf'.methods = richCf.methods ∧
    Accepts debug bytes' cf' := by
  have hlen : rich.length + (6 + ([1, 2, 3] : Bytes).length) < 4294967296 := by decide +kernel
  obtain ⟨bytes', cf', -, h⟩ := insert_front (i := 1) rich_accepted rich_pool.2.2.2.2.2.1 (by decide +kernel)
    (by rw [rich_shape.2.2.2.2.2]; exact Nat.le_of_ble_eq_true rfl) hlen
  exact ⟨bytes', cf', h⟩

end Cafebabe
