import Verif.Spec.Replace
import Verif.Proofs.Open
/-!
# Proofs: replacing one attribute by another of the same size
-/

namespace Cafebabe
open Spec

theorem seq_append_iff {α : Type} {F : α → Lang} : ∀ {xs ys : List α} {seg : Bytes}, seq F (xs ++ ys) seg ↔ ∃ s t, seg = s ++ t ∧ seq F xs s ∧ seq F ys t
  | [], ys, seg => by
    constructor
    · intro h; exact ⟨[], seg, rfl, rfl, h⟩
    · rintro ⟨s, t, rfl, rfl, h⟩; exact h
  | x :: xs, ys, seg => by
    constructor
    · rintro ⟨s, t, rfl, hs, ht⟩
      obtain ⟨t1, t2, rfl, h1, h2⟩ := seq_append_iff.mp ht
      exact ⟨s ++ t1, t2, by simp, ⟨s, t1, rfl, hs, h1⟩, h2⟩
    · rintro ⟨_, t, rfl, ⟨s, s', rfl, hs, hs'⟩, ht⟩
      exact ⟨s, s' ++ t, by simp, hs, seq_append_iff.mpr ⟨s', t, rfl, hs', ht⟩⟩

theorem seq_split {α : Type} {F : α → Lang} {xs ys : List α} {x : α} {seg : Bytes} : seq F (xs ++ x :: ys) seg ↔
    ∃ s t u, seg = s ++ t ++ u ∧ seq F xs s ∧ F x t ∧ seq F ys u := by
  rw [seq_append_iff]
  constructor
  · rintro ⟨s, _, rfl, h1, t, u, rfl, h2, h3⟩; exact ⟨s, t, u, by simp, h1, h2, h3⟩
  · rintro ⟨s, t, u, rfl, h1, h2, h3⟩; exact ⟨s, t ++ u, by simp, h1, t, u, rfl, h2, h3⟩

theorem table2_split {α : Type} {F : α → Lang} {xs ys : List α} {x : α} {seg : Bytes} : table2 F (xs ++ x :: ys) seg ↔
    ∃ (c : UInt16) (s t u : Bytes), c.toNat = xs.length + (ys.length + 1) ∧ seg = u2 c ++ s ++ t ++ u ∧ seq F xs s ∧ F x t ∧ seq F ys u := by
  unfold table2 counted2
  rw [List.length_append, List.length_cons]
  constructor
  · rintro ⟨c, hc, _, _, rfl, rfl, h⟩
    obtain ⟨s, t, u, rfl, h'⟩ := seq_split.mp h
    exact ⟨c, s, t, u, hc, by simp, h'⟩
  · rintro ⟨c, s, t, u, hc, rfl, h⟩
    exact ⟨c, hc, u2 c, s ++ t ++ u, by simp, rfl, seq_split.mpr ⟨s, t, u, rfl, h⟩⟩

theorem replaceIn_enc {o : Opts} {pool : Pool} {a a' : AttributeInfo} {as as' : List AttributeInfo} (h : ReplaceIn a a' as as') :
    ∀ {seg : Bytes}, AttributesEnc o pool as seg → ∃ pre s post, seg = pre ++ s ++ post ∧ OpenAttrs o pool pre ∧ AttrEnc o pool a s ∧
      ∀ s', AttrEnc o pool a' s' → s'.length = s.length → AttributesEnc o pool as' (pre ++ s' ++ post) := by
  induction h with
  | here xs ys =>
    intro seg hs
    obtain ⟨c, s, t, u, hc, rfl, h1, h2, h3⟩ := table2_split.mp hs
    exact ⟨u2 c ++ s, t, u, by simp, .here h1 (by omega), h2, fun s' hs' _ => table2_split.mpr ⟨c, s, s', u, hc, by simp, h1, hs', h3⟩⟩
  | code xs ys name c as' _ ih =>
    intro seg hs
    obtain ⟨k, s, t, u, hk, rfl, h1, h2, h3⟩ := table2_split.mp hs
    rw [AttrEnc] at h2
    obtain ⟨_, _, rfl, ⟨i, hi, rfl⟩, n, b, hn, hd, rfl⟩ := h2
    rw [DataEnc, codeEnc_eq] at hd
    obtain ⟨rfl, hb, s1, t1, rfl, rfl, s2, t2, rfl, rfl, s3, t3, rfl, hcode, s4, t4, rfl, h4, h5⟩ := hd
    obtain ⟨pre, x, post, rfl, h6, h7, h8⟩ := ih h5
    refine ⟨u2 k ++ s ++ (u2 i ++ u4 n) ++ (u2 c.maxStack ++ u2 c.maxLocals ++ s3 ++ s4) ++ pre, x, post ++ u, by simp, .code (n := n) (maxStack := c.maxStack) (maxLocals := c.maxLocals) h1 (by omega) hi hcode h4 h6, h7,
      fun s' hs' hl => ?_⟩
    refine table2_split.mpr ⟨k, s, u2 i ++ (u4 n ++ (u2 c.maxStack ++ (u2 c.maxLocals ++ (s3 ++ (s4 ++ (pre ++ s' ++ post)))))), u, hk, by simp, h1, ?_, h3⟩
    rw [AttrEnc]
    refine ⟨_, _, rfl, ⟨i, hi, rfl⟩, n, _, ?_, ?_, rfl⟩
    · rw [hn]; simp only [List.length_append, hl]
    · rw [DataEnc, codeEnc_eq]
      exact ⟨rfl, hb, _, _, rfl, rfl, _, _, rfl, rfl, _, _, rfl, hcode, _, _, rfl, h4, h8 s' hs' hl⟩
  | record xs ys name rs ts r as' _ ih =>
    intro seg hs
    obtain ⟨k, s, t, u, hk, rfl, h1, h2, h3⟩ := table2_split.mp hs
    rw [AttrEnc] at h2
    obtain ⟨_, _, rfl, ⟨i, hi, rfl⟩, n, b, hn, hd, rfl⟩ := h2
    rw [DataEnc, componentsEnc_eq] at hd
    obtain ⟨rfl, hd⟩ := hd
    obtain ⟨k', s', t', u', hk', rfl, h4, h6, h4'⟩ := table2_split.mp hd
    rw [componentEnc_eq] at h6
    obtain ⟨hu, _, _, rfl, ⟨j1, hj1, rfl⟩, _, t2, rfl, ⟨j2, hj2, rfl⟩, h7⟩ := h6
    obtain ⟨pre, x, post, rfl, h8, h9, h10⟩ := ih h7
    refine ⟨u2 k ++ s ++ (u2 i ++ u4 n) ++ (u2 k' ++ s' ++ (u2 j1 ++ u2 j2)) ++ pre, x, post ++ (u' ++ u), by simp, .record (n := n) (name := j1) (descriptor := j2) h1 (by omega) hi h4 (by omega) h8, h9, fun w hw hl => ?_⟩
    refine table2_split.mpr ⟨k, s, u2 i ++ (u4 n ++ (u2 k' ++ s' ++ (u2 j1 ++ (u2 j2 ++ (pre ++ w ++ post))) ++ u')), u, hk, by simp, h1, ?_, h3⟩
    rw [AttrEnc]
    refine ⟨_, _, rfl, ⟨i, hi, rfl⟩, n, _, ?_, ?_, rfl⟩
    · rw [hn]; simp only [List.length_append, hl]
    · rw [DataEnc, componentsEnc_eq]
      refine ⟨rfl, table2_split.mpr ⟨k', s', _, u', hk', rfl, h4, ?_, h4'⟩⟩
      rw [componentEnc_eq]
      exact ⟨hu, _, _, rfl, ⟨j1, hj1, rfl⟩, _, _, rfl, ⟨j2, hj2, rfl⟩, h10 w hw hl⟩

theorem bootstrapTables_append (xs ys : List AttributeInfo) : bootstrapTables (xs ++ ys) = bootstrapTables xs ++ bootstrapTables ys := by
  simp [bootstrapTables]

theorem bootstrapTables_not {a : AttributeInfo} (h : NotBootstrap a) (ys : List AttributeInfo) : bootstrapTables (a :: ys) = bootstrapTables ys := by
  obtain ⟨n, d⟩ := a
  unfold bootstrapTables
  rw [List.filterMap_cons]
  cases d <;> first | rfl | exact absurd rfl (h _)

theorem replaceIn_bootstrap {a a' : AttributeInfo} {as as' : List AttributeInfo} (h : ReplaceIn a a' as as') (ha : NotBootstrap a) (ha' : NotBootstrap a') :
    bootstrapTables as' = bootstrapTables as := by
  have key : ∀ (x y : AttributeInfo), NotBootstrap x → NotBootstrap y → ∀ xs ys, bootstrapTables (xs ++ y :: ys) = bootstrapTables (xs ++ x :: ys) := by
    intro x y hx hy xs ys
    rw [bootstrapTables_append, bootstrapTables_append, bootstrapTables_not hx, bootstrapTables_not hy]
  cases h with
  | here xs ys => exact key _ _ ha ha' xs ys
  | code xs ys name c as' _ => exact key _ _ (by intro l h; cases h) (by intro l h; cases h) xs ys
  | record xs ys name rs ts r as' _ => exact key _ _ (by intro l h; cases h) (by intro l h; cases h) xs ys

theorem moduleRestrictions_fields {cf cf' : ClassFile} (h : ModuleRestrictions cf) (h1 : cf'.accessFlags = cf.accessFlags)
    (h2 : cf'.majorVersion = cf.majorVersion) (h3 : cf'.superClass = cf.superClass) (h4 : cf'.interfaces = cf.interfaces)
    (h5 : cf.fields = [] → cf'.fields = []) (h6 : cf.methods = [] → cf'.methods = []) : ModuleRestrictions cf' := by
  intro hm
  rw [h1] at hm
  obtain ⟨a, b, c, d, e, f⟩ := h hm
  exact ⟨h2 ▸ a, h1 ▸ b, h3 ▸ c, h4 ▸ d, h5 e, h6 f⟩

/-- Replacing an attribute by one encoded with the same number of bytes. -/
theorem replace_enc {o : Opts} {cf cf' : ClassFile} {a a' : AttributeInfo} {bytes : Bytes} (hr : ReplaceOf a a' cf cf') (h : ClassFileEnc o cf bytes)
    (ha : NotBootstrap a) (ha' : NotBootstrap a') :
    ∃ pre s post, bytes = pre ++ s ++ post ∧ OpenFile o cf.constantPool pre ∧ AttrEnc o cf.constantPool a s ∧
      ∀ s', AttrEnc o cf.constantPool a' s' → s'.length = s.length → ClassFileEnc o cf' (pre ++ s' ++ post) := by
  obtain ⟨front, nf, nm, fs0, ms0, as0, -, hfr, -⟩ := enc_front h
  clear front hfr
  obtain ⟨⟨hd1, hd2, hm, hbs⟩, s, t, rfl, rfl, s, t, rfl, rfl, s, t, rfl, rfl, pool, t, rfl, hp, s1, t, rfl, hf, s2, t, rfl, ht,
    s3, t, rfl, hsup, s4, t, rfl, hi, sf, t, rfl, hfs, sm, as, rfl, hms, has⟩ := h
  have hfr : FrontEnc o cf.minorVersion cf.majorVersion cf.constantPool cf.accessFlags
      (header cf.minorVersion cf.majorVersion ++ (pool ++ (s1 ++ (s2 ++ (s3 ++ s4))))) :=
    ⟨_, _, _, ⟨_, _, rfl, rfl, _, _, rfl, hp, _, _, rfl, hf, _, _, rfl, ht, _, _, rfl, hsup, hi⟩, fun h => ⟨(hm h).1, (hm h).2.1⟩⟩
  cases hr with
  | ofClass as' hr =>
    obtain ⟨pre, s, post, rfl, hop, hs, hnew⟩ := replaceIn_enc hr has
    refine ⟨_, s, post, ?_, .ofClass hfr hfs hms hop, hs, fun s' hs' hl => ?_⟩
    · simp [header]
    · refine ⟨⟨hd1, hd2, hm, ?_⟩, [0xCA, 0xFE, 0xBA, 0xBE], u2 cf.minorVersion ++ (u2 cf.majorVersion ++ (pool ++ (s1 ++ (s2 ++ (s3 ++ (s4 ++ (sf ++
        (sm ++ (pre ++ s' ++ post))))))))), by simp [header], rfl, _, _, rfl, rfl, _, _, rfl, rfl, _, _, rfl, hp, _, _, rfl, hf, _, _, rfl, ht, _, _, rfl,
        hsup, _, _, rfl, hi, _, _, rfl, hfs, _, _, rfl, hms, hnew s' hs' hl⟩
      intro x r hx
      show ∃ l, bootstrapTables as' = [l] ∧ _
      rw [replaceIn_bootstrap hr ha ha']
      exact hbs x r hx
  | ofField fs gs f as' he hr =>
    rw [he] at hfs
    obtain ⟨k, u, v, w, hk, rfl, h1, h2, h3⟩ := table2_split.mp hfs
    obtain ⟨hn, _, _, rfl, ⟨j0, hj0, rfl⟩, _, _, rfl, ⟨j1, hj1, rfl⟩, _, t2, rfl, ⟨j2, hj2, rfl⟩, h5⟩ := h2
    obtain ⟨pre, s, post, rfl, hop, hs, hnew⟩ := replaceIn_enc hr h5
    refine ⟨_, s, post ++ (w ++ (sm ++ as)), ?_, .ofField (bits := j0) (name := j1) (descriptor := j2) hfr h1 (count := k) (by omega) hop, hs, fun s' hs' hl => ?_⟩
    · simp [header]
    · refine ⟨⟨?_, hd2, ?_, hbs⟩, [0xCA, 0xFE, 0xBA, 0xBE], u2 cf.minorVersion ++ (u2 cf.majorVersion ++ (pool ++ (s1 ++ (s2 ++ (s3 ++ (s4 ++
        ((u2 k ++ u ++ (u2 j0 ++ (u2 j1 ++ (u2 j2 ++ (pre ++ s' ++ post)))) ++ w) ++
        (sm ++ as)))))))), by simp [header], rfl, _, _, rfl, rfl, _, _, rfl, rfl, _, _, rfl, hp, _, _, rfl, hf, _, _, rfl, ht, _, _, rfl,
        hsup, _, _, rfl, hi, _, _, rfl, ?_, _, _, rfl, hms, has⟩
      · unfold FieldsDistinct at hd1 ⊢
        rw [he] at hd1
        simp only [List.pairwise_append, List.pairwise_cons, List.mem_cons, forall_eq_or_imp] at hd1 ⊢
        exact hd1
      · exact moduleRestrictions_fields hm rfl rfl rfl rfl (by rw [he]; simp) (fun h => h)
      · exact table2_split.mpr ⟨k, u, _, w, hk, rfl, h1, ⟨hn, _, _, rfl, ⟨j0, hj0, rfl⟩, _, _, rfl, ⟨j1, hj1, rfl⟩, _, _, rfl, ⟨j2, hj2, rfl⟩,
          hnew s' hs' hl⟩, h3⟩
  | ofMethod fs gs f as' he hr =>
    rw [he] at hms
    obtain ⟨k, u, v, w, hk, rfl, h1, h2, h3⟩ := table2_split.mp hms
    obtain ⟨hn, _, _, rfl, ⟨j0, hj0, rfl⟩, _, _, rfl, ⟨j1, hj1, rfl⟩, _, t2, rfl, ⟨j2, hj2, rfl⟩, h5⟩ := h2
    obtain ⟨pre, s, post, rfl, hop, hs, hnew⟩ := replaceIn_enc hr h5
    refine ⟨_, s, post ++ (w ++ as), ?_, .ofMethod (bits := j0) (name := j1) (descriptor := j2) hfr hfs h1 (count := k) (by omega) hop, hs, fun s' hs' hl => ?_⟩
    · simp [header]
    · refine ⟨⟨hd1, ?_, ?_, hbs⟩, [0xCA, 0xFE, 0xBA, 0xBE], u2 cf.minorVersion ++ (u2 cf.majorVersion ++ (pool ++ (s1 ++ (s2 ++ (s3 ++ (s4 ++ (sf ++
        ((u2 k ++ u ++ (u2 j0 ++ (u2 j1 ++ (u2 j2 ++ (pre ++ s' ++ post)))) ++ w) ++
        as)))))))), by simp [header], rfl, _, _, rfl, rfl, _, _, rfl, rfl, _, _, rfl, hp, _, _, rfl, hf, _, _, rfl, ht, _, _, rfl,
        hsup, _, _, rfl, hi, _, _, rfl, hfs, _, _, rfl, ?_, has⟩
      · unfold MethodsDistinct at hd2 ⊢
        rw [he] at hd2
        simp only [List.pairwise_append, List.pairwise_cons, List.mem_cons, forall_eq_or_imp] at hd2 ⊢
        exact hd2
      · exact moduleRestrictions_fields hm rfl rfl rfl rfl (fun h => h) (by rw [he]; simp)
      · exact table2_split.mpr ⟨k, u, _, w, hk, rfl, h1, ⟨hn, _, _, rfl, ⟨j0, hj0, rfl⟩, _, _, rfl, ⟨j1, hj1, rfl⟩, _, _, rfl, ⟨j2, hj2, rfl⟩,
          hnew s' hs' hl⟩, h3⟩

theorem replaceIn_exists {a : AttributeInfo} (a' : AttributeInfo) {as : List AttributeInfo} (h : AttrIn a as) : ∃ as', ReplaceIn a a' as as' := by
  induction h with
  | here h => obtain ⟨xs, ys, rfl⟩ := List.append_of_mem h; exact ⟨_, .here xs ys⟩
  | code h _ ih =>
    obtain ⟨xs, ys, rfl⟩ := List.append_of_mem h
    obtain ⟨as', h⟩ := ih
    exact ⟨_, .code xs ys _ _ as' h⟩
  | record h hr _ ih =>
    obtain ⟨xs, ys, rfl⟩ := List.append_of_mem h
    obtain ⟨rs, ts, rfl⟩ := List.append_of_mem hr
    obtain ⟨as', h⟩ := ih
    exact ⟨_, .record xs ys _ rs ts _ as' h⟩

theorem replaceOf_exists {a : AttributeInfo} (a' : AttributeInfo) {cf : ClassFile} (h : AttrOf cf a) : ∃ cf', ReplaceOf a a' cf cf' := by
  rcases h with h | ⟨f, hf, h⟩ | ⟨f, hf, h⟩
  · obtain ⟨as', h⟩ := replaceIn_exists a' h; exact ⟨_, .ofClass as' h⟩
  · obtain ⟨xs, ys, he⟩ := List.append_of_mem hf
    obtain ⟨as', h⟩ := replaceIn_exists a' h; exact ⟨_, .ofField xs ys f as' he h⟩
  · obtain ⟨xs, ys, he⟩ := List.append_of_mem hf
    obtain ⟨as', h⟩ := replaceIn_exists a' h; exact ⟨_, .ofMethod xs ys f as' he h⟩

end Cafebabe
