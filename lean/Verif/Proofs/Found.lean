import Verif.Proofs.Open
/-!
# What is read at a place where an attribute starts
-/

namespace Cafebabe
open Spec

theorem open_attrs_found {o : Opts} {pool : Pool} {pre : Bytes} (h : OpenAttrs o pool pre) : ∀ {rest r : Bytes} {seg : Bytes} {as : List AttributeInfo},
    AttributesEnc o pool as seg → pre ++ rest = seg ++ r → ∃ a s t, rest = s ++ t ∧ AttrEnc o pool a s ∧ AttrIn a as := by
  induction h with
  | here hs hc =>
    intro rest r seg as has he
    obtain ⟨b, cs, u, v, hmem, hb, -, hr⟩ := (attr_unique o pool).table2_peel hs hc has he
    exact ⟨b, u, v ++ r, by simpa using hr, hb, .here (by rw [hmem]; simp)⟩
  | @code count i ms ml n as0 s c es pre code et hs hc hi hcode het _ ih =>
    intro rest r seg as has he
    obtain ⟨b, cs, u, v, hmem, hb, -, hr⟩ := (attr_unique o pool).table2_peel hs hc has
      (r := u2 i ++ u4 n ++ (u2 ms ++ u2 ml ++ c ++ es ++ (pre ++ rest))) (by simpa using he)
    obtain ⟨hnm, w, -, hw, hd⟩ := attrEnc_split hb (r := u2 ms ++ u2 ml ++ c ++ es ++ (pre ++ rest)) (t := v ++ r) (by simpa using hr) hi
    obtain ⟨x, hda, hx⟩ := dataEnc_of_code rfl hd
    rw [codeEnc_eq] at hx
    obtain ⟨-, s1, t1, rfl, rfl, s2, t2, rfl, rfl, s3, t3, rfl, ⟨m3, b3, hb3, rfl, rfl⟩, s4, t4, rfl, h4, h5⟩ := hx
    obtain ⟨m, b2, hm, hbc, rfl⟩ := hcode
    obtain ⟨rfl, hw1⟩ := u2_split (a := ms) (r := u2 ml ++ (u4 m ++ (b2 ++ (es ++ (pre ++ rest)))))
      (r' := u2 x.maxLocals ++ (u4 m3 ++ (x.code ++ (s4 ++ (t4 ++ (v ++ r)))))) (by simpa using hw)
    obtain ⟨rfl, hw2⟩ := u2_split hw1
    obtain ⟨rfl, hw3⟩ := u4_split hw2
    obtain ⟨-, hw4⟩ := List.append_inj hw3 (by omega)
    obtain ⟨-, -, hw5⟩ := (exception_unique pool).table2.split het h4 hw4
    obtain ⟨a, s', t', h6, h7, h8⟩ := ih h5 hw5
    refine ⟨a, s', t', h6, h7, .code (name := b.name) (c := x) ?_ h8⟩
    rw [hmem]; obtain ⟨nm, d⟩ := b; cases hda; simp
  | @record count i count' nm ds n as0 s cs pre comps hs hc hi hcs hc' _ ih =>
    intro rest r seg as has he
    obtain ⟨b, cs', u, v, hmem, hb, -, hr⟩ := (attr_unique o pool).table2_peel hs hc has
      (r := u2 i ++ u4 n ++ (u2 count' ++ cs ++ (u2 nm ++ u2 ds) ++ (pre ++ rest))) (by simpa using he)
    obtain ⟨hnm, w, -, hw, hd⟩ := attrEnc_split hb (r := u2 count' ++ cs ++ (u2 nm ++ u2 ds) ++ (pre ++ rest)) (t := v ++ r) (by simpa using hr) hi
    obtain ⟨l, hda, hl⟩ := dataEnc_of_record rfl hd
    obtain ⟨x, xs, p, q, hmem2, hx, -, hr2⟩ := (component_unique o pool).table2_peel hcs hc' hl
      (r := u2 nm ++ (u2 ds ++ (pre ++ rest))) (by simpa using hw)
    rw [componentEnc_eq] at hx
    obtain ⟨-, _, _, rfl, ⟨j1, -, rfl⟩, _, t2, rfl, ⟨j2, -, rfl⟩, h5⟩ := hx
    obtain ⟨rfl, hw1⟩ := u2_split (b := j1) (r' := u2 j2 ++ (t2 ++ (q ++ (v ++ r)))) (by simpa using hr2)
    obtain ⟨rfl, hw2⟩ := u2_split hw1
    obtain ⟨a, s', t', h6, h7, h8⟩ := ih h5 hw2
    refine ⟨a, s', t', h6, h7, .record (name := b.name) (l := l) (r := x) ?_ (by rw [hmem2]; simp) h8⟩
    rw [hmem]; obtain ⟨nm, d⟩ := b; cases hda; simp

theorem open_file_found {o : Opts} {pool : Pool} {pre rest : Bytes} (h : OpenFile o pool pre) {cf : ClassFile}
    (hcf : ClassFileEnc o cf (pre ++ rest)) : cf.constantPool = pool ∧ ∃ a s t, rest = s ++ t ∧ AttrEnc o pool a s ∧ AttrOf cf a := by
  obtain ⟨front', nf, nm, fs', ms', as', hb, hfr', hnf, hfs', hnm, hms', has⟩ := enc_front hcf
  have hF := seq_rows.mpr ⟨fs', rfl, hfs'⟩
  have hM := seq_rows.mpr ⟨ms', rfl, hms'⟩
  cases h with
  | @ofClass minor major flags front fs ms pre fields methods hfr hfs hms hop =>
    obtain ⟨rfl, rfl, rfl, rfl, h1⟩ := front_split hfr hfr' (r := fs ++ (ms ++ (pre ++ rest)))
      (r' := u2 nf ++ fs'.flatten ++ (u2 nm ++ ms'.flatten ++ as')) (by simpa using hb)
    obtain ⟨rfl, rfl, h2⟩ := (field_unique o _).table2.split hfs (t := u2 nf ++ fs'.flatten) ⟨nf, hnf, _, _, rfl, rfl, hF⟩ h1
    obtain ⟨rfl, rfl, h3⟩ := (method_unique o _ _ _).table2.split hms (t := u2 nm ++ ms'.flatten) ⟨nm, hnm, _, _, rfl, rfl, hM⟩ h2
    obtain ⟨a, s', t', h6, h7, h8⟩ := open_attrs_found hop has (r := []) (by simpa using h3)
    exact ⟨rfl, a, s', t', h6, h7, .inl h8⟩
  | @ofField minor major flags count bits name desc front fs pre fields hfr hfs hc hop =>
    obtain ⟨rfl, rfl, rfl, rfl, h1⟩ := front_split hfr hfr' (r := u2 count ++ fs ++ (u2 bits ++ u2 name ++ u2 desc ++ (pre ++ rest)))
      (r' := u2 nf ++ fs'.flatten ++ (u2 nm ++ ms'.flatten ++ as')) (by simpa using hb)
    obtain ⟨f, cs, u, v, hmem, hf, -, hr⟩ := (field_unique o _).table2_peel hfs hc (t := u2 nf ++ fs'.flatten) ⟨nf, hnf, _, _, rfl, rfl, hF⟩ h1
    obtain ⟨-, _, _, rfl, ⟨j0, -, rfl⟩, _, _, rfl, ⟨j1, -, rfl⟩, _, t2, rfl, ⟨j2, -, rfl⟩, h5⟩ := hf
    obtain ⟨rfl, hw0⟩ := u2_split (b := j0) (r := u2 name ++ (u2 desc ++ (pre ++ rest)))
      (r' := u2 j1 ++ (u2 j2 ++ (t2 ++ (v ++ (u2 nm ++ ms'.flatten ++ as'))))) (by simpa using hr)
    obtain ⟨rfl, hw1⟩ := u2_split hw0
    obtain ⟨rfl, hw2⟩ := u2_split hw1
    obtain ⟨a, s', t', h6, h7, h8⟩ := open_attrs_found hop h5 hw2
    exact ⟨rfl, a, s', t', h6, h7, .inr (.inl ⟨f, by rw [hmem]; simp, h8⟩)⟩
  | @ofMethod minor major flags count bits name desc front fs ms pre fields methods hfr hfs hms hc hop =>
    obtain ⟨rfl, rfl, rfl, rfl, h1⟩ := front_split hfr hfr' (r := fs ++ (u2 count ++ ms ++ (u2 bits ++ u2 name ++ u2 desc ++ (pre ++ rest))))
      (r' := u2 nf ++ fs'.flatten ++ (u2 nm ++ ms'.flatten ++ as')) (by simpa using hb)
    obtain ⟨rfl, rfl, h2⟩ := (field_unique o _).table2.split hfs (t := u2 nf ++ fs'.flatten) ⟨nf, hnf, _, _, rfl, rfl, hF⟩ h1
    obtain ⟨f, cs, u, v, hmem, hf, -, hr⟩ := (method_unique o _ _ _).table2_peel hms hc (t := u2 nm ++ ms'.flatten) ⟨nm, hnm, _, _, rfl, rfl, hM⟩ h2
    obtain ⟨-, _, _, rfl, ⟨j0, -, rfl⟩, _, _, rfl, ⟨j1, -, rfl⟩, _, t2, rfl, ⟨j2, -, rfl⟩, h5⟩ := hf
    obtain ⟨rfl, hw0⟩ := u2_split (b := j0) (r := u2 name ++ (u2 desc ++ (pre ++ rest)))
      (r' := u2 j1 ++ (u2 j2 ++ (t2 ++ (v ++ as')))) (by simpa using hr)
    obtain ⟨rfl, hw1⟩ := u2_split hw0
    obtain ⟨rfl, hw2⟩ := u2_split hw1
    obtain ⟨a, s', t', h6, h7, h8⟩ := open_attrs_found hop h5 hw2
    exact ⟨rfl, a, s', t', h6, h7, .inr (.inr ⟨f, by rw [hmem]; simp, h8⟩)⟩

end Cafebabe
