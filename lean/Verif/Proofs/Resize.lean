import Verif.Proofs.Replace
/-!
# Proofs: replacing one attribute by another of any size

The lengths of the attributes around it are adapted.
-/

namespace Cafebabe
open Spec

theorem fitsU4 {n : Nat} (h : n < 2 ^ 32) : (UInt32.ofNat n).toNat = n := by
  rw [UInt32.toNat_ofNat']; exact Nat.mod_eq_of_lt h

theorem resizeIn_enc {o : Opts} {pool : Pool} {a a' : AttributeInfo} {as as' : List AttributeInfo} (h : ReplaceIn a a' as as') :
    ∀ {seg : Bytes}, AttributesEnc o pool as seg → ∃ s, AttrEnc o pool a s ∧ s.length ≤ seg.length ∧
      ∀ s', AttrEnc o pool a' s' → seg.length + s'.length < 2 ^ 32 + s.length →
        ∃ seg', AttributesEnc o pool as' seg' ∧ seg'.length + s.length = seg.length + s'.length := by
  induction h with
  | here xs ys =>
    intro seg hs
    obtain ⟨c, s, t, u, hc, rfl, h1, h2, h3⟩ := table2_split.mp hs
    exact ⟨t, h2, by simp only [List.length_append]; omega, fun s' hs' _ => ⟨_, table2_split.mpr ⟨c, s, s', u, hc, rfl, h1, hs', h3⟩, by simp only [List.length_append]; omega⟩⟩
  | code xs ys name c as' _ ih =>
    intro seg hs
    obtain ⟨k, s, t, u, hk, rfl, h1, h2, h3⟩ := table2_split.mp hs
    rw [AttrEnc] at h2
    obtain ⟨_, _, rfl, ⟨i, hi, rfl⟩, n, b, hn, hd, rfl⟩ := h2
    rw [DataEnc, codeEnc_eq] at hd
    obtain ⟨rfl, hb, s1, t1, rfl, rfl, s2, t2, rfl, rfl, s3, t3, rfl, hcode, s4, t4, rfl, h4, h5⟩ := hd
    obtain ⟨x, h7, hx, h8⟩ := ih h5
    refine ⟨x, h7, by simp only [List.length_append]; omega, fun s' hs' hl => ?_⟩
    simp only [List.length_append] at hl
    obtain ⟨seg', h9, h10⟩ := h8 s' hs' (by omega)
    have hn' := fitsU4 (n := (u2 c.maxStack ++ (u2 c.maxLocals ++ (s3 ++ (s4 ++ seg')))).length) (by simp only [List.length_append]; omega)
    refine ⟨_, table2_split.mpr ⟨k, s, u2 i ++ (u4 (UInt32.ofNat (u2 c.maxStack ++ (u2 c.maxLocals ++ (s3 ++ (s4 ++ seg')))).length) ++
      (u2 c.maxStack ++ (u2 c.maxLocals ++ (s3 ++ (s4 ++ seg'))))), u, hk, rfl, h1, ?_, h3⟩, ?_⟩
    · rw [AttrEnc]
      refine ⟨_, _, rfl, ⟨i, hi, rfl⟩, _, _, hn', ?_, rfl⟩
      rw [DataEnc, codeEnc_eq]
      exact ⟨rfl, hb, _, _, rfl, rfl, _, _, rfl, rfl, _, _, rfl, hcode, _, _, rfl, h4, h9⟩
    · have e : ∀ v w : UInt32, (u4 v).length = (u4 w).length := fun _ _ => rfl
      simp only [List.length_append, e _ n]
      omega
  | record xs ys name rs ts r as' _ ih =>
    intro seg hs
    obtain ⟨k, s, t, u, hk, rfl, h1, h2, h3⟩ := table2_split.mp hs
    rw [AttrEnc] at h2
    obtain ⟨_, _, rfl, ⟨i, hi, rfl⟩, n, b, hn, hd, rfl⟩ := h2
    rw [DataEnc, componentsEnc_eq] at hd
    obtain ⟨rfl, hd⟩ := hd
    obtain ⟨k', s', t', u', hk', rfl, h4, h6, h4'⟩ := table2_split.mp hd
    rw [componentEnc_eq] at h6
    obtain ⟨hu, _, _, rfl, ⟨j1, hj1, rfl⟩, _, t2, rfl, ⟨j2, hj2, rfl⟩, h7⟩ := h6
    obtain ⟨x, h9, hx, h10⟩ := ih h7
    refine ⟨x, h9, by simp only [List.length_append]; omega, fun w hw hl => ?_⟩
    simp only [List.length_append] at hl
    obtain ⟨seg', h11, h12⟩ := h10 w hw (by omega)
    have hn' := fitsU4 (n := (u2 k' ++ s' ++ (u2 j1 ++ (u2 j2 ++ seg')) ++ u').length) (by simp only [List.length_append]; omega)
    refine ⟨_, table2_split.mpr ⟨k, s, u2 i ++ (u4 (UInt32.ofNat (u2 k' ++ s' ++ (u2 j1 ++ (u2 j2 ++ seg')) ++ u').length) ++
      (u2 k' ++ s' ++ (u2 j1 ++ (u2 j2 ++ seg')) ++ u')), u, hk, rfl, h1, ?_, h3⟩, ?_⟩
    · rw [AttrEnc]
      refine ⟨_, _, rfl, ⟨i, hi, rfl⟩, _, _, hn', ?_, rfl⟩
      rw [DataEnc, componentsEnc_eq]
      refine ⟨rfl, table2_split.mpr ⟨k', s', _, u', hk', rfl, h4, ?_, h4'⟩⟩
      rw [componentEnc_eq]
      exact ⟨hu, _, _, rfl, ⟨j1, hj1, rfl⟩, _, _, rfl, ⟨j2, hj2, rfl⟩, h11⟩
    · have e : ∀ v w : UInt32, (u4 v).length = (u4 w).length := fun _ _ => rfl
      simp only [List.length_append, e _ n]
      omega

/-- Replacing an attribute by one of any size, in a file that stays below 4 GB. -/
theorem resize_enc {o : Opts} {cf cf' : ClassFile} {a a' : AttributeInfo} {bytes : Bytes} (hr : ReplaceOf a a' cf cf') (h : ClassFileEnc o cf bytes)
    (ha : NotBootstrap a) (ha' : NotBootstrap a') :
    ∃ s, AttrEnc o cf.constantPool a s ∧ s.length ≤ bytes.length ∧ ∀ s', AttrEnc o cf.constantPool a' s' → bytes.length + s'.length < 2 ^ 32 + s.length →
      ∃ bytes', ClassFileEnc o cf' bytes' ∧ bytes'.length + s.length = bytes.length + s'.length := by
  obtain ⟨⟨hd1, hd2, hm, hbs⟩, s, t, rfl, rfl, s, t, rfl, rfl, s, t, rfl, rfl, pool, t, rfl, hp, s1, t, rfl, hf, s2, t, rfl, ht,
    s3, t, rfl, hsup, s4, t, rfl, hi, sf, t, rfl, hfs, sm, as, rfl, hms, has⟩ := h
  cases hr with
  | ofClass as' hr =>
    obtain ⟨s, hs, hle, hnew⟩ := resizeIn_enc hr has
    refine ⟨s, hs, by simp only [List.length_append]; omega, fun s' hs' hl => ?_⟩
    simp only [List.length_append] at hl
    obtain ⟨seg', h9, h10⟩ := hnew s' hs' (by omega)
    · refine ⟨_, ⟨⟨hd1, hd2, hm, ?_⟩, [0xCA, 0xFE, 0xBA, 0xBE], u2 cf.minorVersion ++ (u2 cf.majorVersion ++ (pool ++ (s1 ++ (s2 ++ (s3 ++ (s4 ++ (sf ++
        (sm ++ seg')))))))), rfl, rfl, _, _, rfl, rfl, _, _, rfl, rfl, _, _, rfl, hp, _, _, rfl, hf, _, _, rfl, ht, _, _, rfl,
        hsup, _, _, rfl, hi, _, _, rfl, hfs, _, _, rfl, hms, h9⟩, by simp only [List.length_append]; omega⟩
      intro x r hx
      show ∃ l, bootstrapTables as' = [l] ∧ _
      rw [replaceIn_bootstrap hr ha ha']
      exact hbs x r hx
  | ofField fs gs f as' he hr =>
    rw [he] at hfs
    obtain ⟨k, u, v, w, hk, rfl, h1, h2, h3⟩ := table2_split.mp hfs
    obtain ⟨hn, _, _, rfl, ⟨j0, hj0, rfl⟩, _, _, rfl, ⟨j1, hj1, rfl⟩, _, t2, rfl, ⟨j2, hj2, rfl⟩, h5⟩ := h2
    obtain ⟨s, hs, hle, hnew⟩ := resizeIn_enc hr h5
    refine ⟨s, hs, by simp only [List.length_append]; omega, fun s' hs' hl => ?_⟩
    simp only [List.length_append] at hl
    obtain ⟨seg', h9, h10⟩ := hnew s' hs' (by omega)
    · refine ⟨_, ⟨⟨?_, hd2, ?_, hbs⟩, [0xCA, 0xFE, 0xBA, 0xBE], u2 cf.minorVersion ++ (u2 cf.majorVersion ++ (pool ++ (s1 ++ (s2 ++ (s3 ++ (s4 ++
        ((u2 k ++ u ++ (u2 j0 ++ (u2 j1 ++ (u2 j2 ++ seg'))) ++ w) ++
        (sm ++ as)))))))), rfl, rfl, _, _, rfl, rfl, _, _, rfl, rfl, _, _, rfl, hp, _, _, rfl, hf, _, _, rfl, ht, _, _, rfl,
        hsup, _, _, rfl, hi, _, _, rfl, ?_, _, _, rfl, hms, has⟩, by simp only [List.length_append]; omega⟩
      · unfold FieldsDistinct at hd1 ⊢
        rw [he] at hd1
        simp only [List.pairwise_append, List.pairwise_cons, List.mem_cons, forall_eq_or_imp] at hd1 ⊢
        exact hd1
      · exact moduleRestrictions_fields hm rfl rfl rfl rfl (by rw [he]; simp) (fun h => h)
      · exact table2_split.mpr ⟨k, u, _, w, hk, rfl, h1, ⟨hn, _, _, rfl, ⟨j0, hj0, rfl⟩, _, _, rfl, ⟨j1, hj1, rfl⟩, _, _, rfl, ⟨j2, hj2, rfl⟩,
          h9⟩, h3⟩
  | ofMethod fs gs f as' he hr =>
    rw [he] at hms
    obtain ⟨k, u, v, w, hk, rfl, h1, h2, h3⟩ := table2_split.mp hms
    obtain ⟨hn, _, _, rfl, ⟨j0, hj0, rfl⟩, _, _, rfl, ⟨j1, hj1, rfl⟩, _, t2, rfl, ⟨j2, hj2, rfl⟩, h5⟩ := h2
    obtain ⟨s, hs, hle, hnew⟩ := resizeIn_enc hr h5
    refine ⟨s, hs, by simp only [List.length_append]; omega, fun s' hs' hl => ?_⟩
    simp only [List.length_append] at hl
    obtain ⟨seg', h9, h10⟩ := hnew s' hs' (by omega)
    · refine ⟨_, ⟨⟨hd1, ?_, ?_, hbs⟩, [0xCA, 0xFE, 0xBA, 0xBE], u2 cf.minorVersion ++ (u2 cf.majorVersion ++ (pool ++ (s1 ++ (s2 ++ (s3 ++ (s4 ++ (sf ++
        ((u2 k ++ u ++ (u2 j0 ++ (u2 j1 ++ (u2 j2 ++ seg'))) ++ w) ++
        as)))))))), rfl, rfl, _, _, rfl, rfl, _, _, rfl, rfl, _, _, rfl, hp, _, _, rfl, hf, _, _, rfl, ht, _, _, rfl,
        hsup, _, _, rfl, hi, _, _, rfl, hfs, _, _, rfl, ?_, has⟩, by simp only [List.length_append]; omega⟩
      · unfold MethodsDistinct at hd2 ⊢
        rw [he] at hd2
        simp only [List.pairwise_append, List.pairwise_cons, List.mem_cons, forall_eq_or_imp] at hd2 ⊢
        exact hd2
      · exact moduleRestrictions_fields hm rfl rfl rfl rfl (fun h => h) (by rw [he]; simp)
      · exact table2_split.mpr ⟨k, u, _, w, hk, rfl, h1, ⟨hn, _, _, rfl, ⟨j0, hj0, rfl⟩, _, _, rfl, ⟨j1, hj1, rfl⟩, _, _, rfl, ⟨j2, hj2, rfl⟩,
          h9⟩, h3⟩


end Cafebabe
