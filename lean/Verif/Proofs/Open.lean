import Verif.Spec.Open
import Verif.Proofs.Front
import Verif.Props.Whole
/-!
# Proofs: the grammar determines where each part ends; refusal of files with a bad attribute
-/

namespace Cafebabe
open Spec

/-- Two encodings at the start of the same bytes are equal and encode the same value. -/
def Unique {α : Type} (F : α → Lang) : Prop := ∀ (a b : α) (s t r r' : Bytes), F a s → F b t → s ++ r = t ++ r' → a = b ∧ s = t

theorem Exact.unique {α : Type} {F : α → Lang} (h : ∀ N, ∃ p, Exact N p F) : Unique F := by
  intro a b s t r r' ha hb he
  obtain ⟨p, hp⟩ := h ((s ++ r).length + 1)
  have h1 := (hp (s ++ r) 0 (Nat.zero_le _) (by omega) a s.length).mpr ⟨s, r, rfl, ha, by simp⟩
  have h2 := (hp (s ++ r) 0 (Nat.zero_le _) (by omega) b t.length).mpr ⟨t, r', he, hb, by simp⟩
  rw [h1, Res.ok.injEq, Prod.mk.injEq] at h2
  exact ⟨h2.1, List.append_inj_left he h2.2⟩

theorem u2_unique : Unique (fun v => lit (u2 v)) := Exact.unique fun _ => ⟨_, Exact.readU2⟩
theorem u4_unique : Unique (fun v => lit (u4 v)) := Exact.unique fun _ => ⟨_, Exact.readU4⟩

theorem u2_split {a b : UInt16} {r r' : Bytes} (h : u2 a ++ r = u2 b ++ r') : a = b ∧ r = r' :=
  ⟨(u2_unique _ _ _ _ _ _ rfl rfl h).1, (List.append_inj h rfl).2⟩

theorem u4_split {a b : UInt32} {r r' : Bytes} (h : u4 a ++ r = u4 b ++ r') : a = b ∧ r = r' :=
  ⟨(u4_unique _ _ _ _ _ _ rfl rfl h).1, (List.append_inj h rfl).2⟩

theorem Unique.split {α : Type} {F : α → Lang} (h : Unique F) {a b : α} {s t r r' : Bytes} (ha : F a s) (hb : F b t) (he : s ++ r = t ++ r') :
    a = b ∧ s = t ∧ r = r' := by
  obtain ⟨h1, rfl⟩ := h a b s t r r' ha hb he
  exact ⟨h1, rfl, List.append_cancel_left he⟩

/-- Peel known elements off a longer sequence. -/
theorem Unique.seq_peel {α : Type} {F : α → Lang} (h : Unique F) : ∀ {as bs : List α} {s t r r' : Bytes}, seq F as s → seq F bs t →
    s ++ r = t ++ r' → as.length < bs.length → ∃ b cs u v, bs = as ++ b :: cs ∧ F b u ∧ seq F cs v ∧ r = u ++ v ++ r'
  | [], b :: bs, _, _, r, r', rfl, ⟨u, v, rfl, hu, hv⟩, he, _ => ⟨b, bs, u, v, rfl, hu, hv, by simpa using he⟩
  | a :: as, b :: bs, _, _, r, r', ⟨s1, s2, rfl, h1, h2⟩, ⟨t1, t2, rfl, h3, h4⟩, he, hl => by
    obtain ⟨rfl, rfl, he'⟩ := h.split h1 h3 (r := s2 ++ r) (r' := t2 ++ r') (by simpa using he)
    obtain ⟨b, cs, u, v, rfl, h5, h6, h7⟩ := h.seq_peel h2 h4 he' (by simpa using hl)
    exact ⟨b, cs, u, v, rfl, h5, h6, h7⟩

theorem Unique.seq {α : Type} {F : α → Lang} (h : Unique F) : ∀ {as bs : List α} {s t r r' : Bytes}, seq F as s → seq F bs t →
    s ++ r = t ++ r' → as.length = bs.length → as = bs ∧ s = t ∧ r = r'
  | [], [], _, _, r, r', rfl, rfl, he, _ => ⟨rfl, rfl, he⟩
  | a :: as, b :: bs, _, _, r, r', ⟨s1, s2, rfl, h1, h2⟩, ⟨t1, t2, rfl, h3, h4⟩, he, hl => by
    obtain ⟨rfl, rfl, he'⟩ := h.split h1 h3 (r := s2 ++ r) (r' := t2 ++ r') (by simpa using he)
    obtain ⟨rfl, rfl, h7⟩ := h.seq h2 h4 he' (by simpa using hl)
    exact ⟨rfl, rfl, h7⟩

theorem Unique.table2 {α : Type} {F : α → Lang} (h : Unique F) : Unique (table2 F) := by
  rintro as bs s t r r' ⟨c, hc, s1, s2, rfl, rfl, h1⟩ ⟨d, hd, t1, t2, rfl, rfl, h2⟩ he
  obtain ⟨rfl, he'⟩ := u2_split (r := s2 ++ r) (r' := t2 ++ r') (by simpa using he)
  obtain ⟨rfl, rfl, -⟩ := h.seq h1 h2 he' (by omega)
  exact ⟨rfl, rfl⟩

/-- Peel known rows off a table with more rows. -/
theorem Unique.table2_peel {α : Type} {F : α → Lang} (h : Unique F) {as bs : List α} {count : UInt16} {s t r r' : Bytes} (hs : Spec.seq F as s)
    (hc : as.length < count.toNat) (ht : Spec.table2 F bs t) (he : u2 count ++ s ++ r = t ++ r') :
    ∃ b cs u v, bs = as ++ b :: cs ∧ F b u ∧ Spec.seq F cs v ∧ r = u ++ v ++ r' := by
  obtain ⟨d, hd, t1, t2, rfl, rfl, h2⟩ := ht
  obtain ⟨rfl, he'⟩ := u2_split (a := count) (b := d) (r := s ++ r) (r' := t2 ++ r') (by simpa using he)
  exact h.seq_peel hs h2 he' (by omega)

theorem ref_unique {α : Type} {At : α → Nat → Prop} (h : ∀ a b i, At a i → At b i → a = b) : Unique (fun a => ref (At a)) := by
  rintro a b s t r r' ⟨i, hi, rfl⟩ ⟨j, hj, rfl⟩ he
  obtain ⟨rfl, -⟩ := u2_split he
  exact ⟨h a b _ hi hj, rfl⟩

theorem attr_unique (o : Opts) (pool : Pool) : Unique (AttrEnc o pool) := Exact.unique fun N =>
  ⟨_, readAttributeWith_exact (env := envOf o N) (Nat.le_refl N) (readAttributes_exact (envOf o N) pool N) 0⟩

theorem attrs_unique (o : Opts) (pool : Pool) : Unique (AttributesEnc o pool) := (attr_unique o pool).table2

theorem component_unique (o : Opts) (pool : Pool) : Unique (ComponentEnc o pool) := Exact.unique fun N =>
  ⟨_, readRecordComponentWith_exact (readAttributes_exact (envOf o N) pool N) 0⟩

theorem exception_unique (pool : Pool) : Unique (ExceptionEnc pool) := Exact.unique fun _ => ⟨_, readExceptionTableEntry_exact pool 0⟩

theorem field_unique (o : Opts) (pool : Pool) : Unique (FieldEnc o pool) := Exact.unique fun N =>
  ⟨_, (readField_exact (envOf o N) pool [] 0).congr fun f seg => by simp [envOf_opts]⟩

theorem method_unique (o : Opts) (pool : Pool) (flags major : UInt16) : Unique (MethodEnc o pool (IsInterface flags) major) := Exact.unique fun N =>
  ⟨_, (readMethod_exact (envOf o N) pool (flags &&& 0x0200 != 0) major [] 0).congr fun f seg => by
    simp [envOf_opts, IsInterface]⟩

theorem pool_unique (o : Opts) (major : UInt16) : Unique (PoolEnc o.decode o.checks major) := Exact.unique fun N =>
  ⟨_, (readConstantPool_exact (N := N) (envOf o 2) (Nat.le_refl _) major)⟩

theorem classNameAt_unique {pool : Pool} {a b : ClassName} {i : Nat} (ha : ClassNameAt pool i a) (hb : ClassNameAt pool i b) : a = b := by
  obtain ⟨⟨x, hx, hs⟩, -⟩ := ha
  obtain ⟨⟨y, hy, ht⟩, -⟩ := hb
  rw [hx] at hy; cases hy
  rw [TextAt, hs] at ht
  cases a; cases b; cases ht; rfl

theorem header_peel {a b c d : UInt16} {r r' : Bytes} (h : header a b ++ r = header c d ++ r') : a = c ∧ b = d ∧ r = r' := by
  have h1 : u2 a ++ (u2 b ++ r) = u2 c ++ (u2 d ++ r') := by simpa [header] using h
  obtain ⟨h2, h3⟩ := u2_split h1
  obtain ⟨h4, h5⟩ := u2_split h3
  exact ⟨h2, h4, h5⟩

theorem front_split {o : Opts} {minor major minor' major' flags flags' : UInt16} {pool pool' : Pool} {s t r r' : Bytes}
    (h : FrontEnc o minor major pool flags s) (h' : FrontEnc o minor' major' pool' flags' t) (he : s ++ r = t ++ r') :
    minor = minor' ∧ major = major' ∧ pool = pool' ∧ flags = flags' ∧ r = r' := by
  obtain ⟨a1, a2, a3, ⟨s1, t1, rfl, rfl, s2, t2, rfl, h2, s3, t3, rfl, ⟨bits, h3, rfl⟩, s4, t4, rfl, ⟨i4, h4, rfl⟩, s5, s6, rfl, ⟨i5, h5, rfl⟩, h6⟩, -⟩ := h
  obtain ⟨b1, b2, b3, ⟨u1, v1, rfl, rfl, u2', v2, rfl, g2, u3, v3, rfl, ⟨bits', g3, rfl⟩, u4', v4, rfl, ⟨j4, g4, rfl⟩, u5, u6, rfl, ⟨j5, g5, rfl⟩, g6⟩, -⟩ := h'
  obtain ⟨rfl, rfl, he1⟩ := header_peel (r := s2 ++ (u2 bits ++ (u2 i4 ++ (u2 i5 ++ (s6 ++ r)))))
    (r' := u2' ++ (u2 bits' ++ (u2 j4 ++ (u2 j5 ++ (u6 ++ r'))))) (by simpa using he)
  obtain ⟨rfl, rfl, he2⟩ := (pool_unique o major).split h2 g2 he1
  obtain ⟨rfl, he3⟩ := u2_split he2
  obtain ⟨rfl, he4⟩ := u2_split he3
  obtain ⟨rfl, he5⟩ := u2_split he4
  have hu : Unique fun c => ref fun i => ClassNameAt pool i c := ref_unique fun a b i h h' => classNameAt_unique h h'
  obtain ⟨-, -, he6⟩ := hu.table2.split h6 g6 he5
  exact ⟨rfl, rfl, rfl, h3.trans g3.symm, he6⟩

theorem dataEnc_of_code {o : Opts} {pool : Pool} {name : Str} (hn : name = "Code".toList) {d : AttributeData} {seg : Bytes}
    (h : DataEnc o pool name d seg) : ∃ c, d = .code c ∧ CodeEnc o pool c seg := by
  have hk := dataEnc_kind h
  rw [hn, show attrKindOf "Code".toList = .code from by decide +kernel] at hk
  cases d <;> try (cases hk; done)
  rw [DataEnc] at h
  exact ⟨_, rfl, h.2⟩

theorem dataEnc_of_record {o : Opts} {pool : Pool} {name : Str} (hn : name = "Record".toList) {d : AttributeData} {seg : Bytes}
    (h : DataEnc o pool name d seg) : ∃ l, d = .record l ∧ table2 (ComponentEnc o pool) l seg := by
  have hk := dataEnc_kind h
  rw [hn, show attrKindOf "Record".toList = .record from by decide +kernel] at hk
  cases d <;> try (cases hk; done)
  rw [DataEnc, componentsEnc_eq] at h
  exact ⟨_, rfl, h.2⟩

/-- The header of an attribute: its name and declared length. -/
theorem attrEnc_split {o : Opts} {pool : Pool} {a : AttributeInfo} {s t r : Bytes} {i : UInt16} {n : UInt32} {name : Str}
    (h : AttrEnc o pool a s) (he : u2 i ++ u4 n ++ r = s ++ t) (hi : TextAt pool i.toNat name) :
    a.name = name ∧ ∃ b, n.toNat = b.length ∧ r = b ++ t ∧ DataEnc o pool name a.data b := by
  obtain ⟨nm, d⟩ := a
  rw [AttrEnc] at h
  obtain ⟨_, _, rfl, ⟨j, hj, rfl⟩, m, b, hm, hd, rfl⟩ := h
  obtain ⟨rfl, he1⟩ := u2_split (a := i) (b := j) (r := u4 n ++ r) (r' := u4 m ++ (b ++ t)) (by simpa using he)
  obtain ⟨rfl, he2⟩ := u4_split he1
  rw [TextAt] at hi hj
  rw [hi] at hj
  cases hj
  exact ⟨rfl, b, hm, he2, hd⟩

theorem open_attrs {o : Opts} {pool : Pool} {pre : Bytes} (h : OpenAttrs o pool pre) : ∀ {rest r : Bytes} {seg : Bytes} {as : List AttributeInfo},
    NoAttr o pool rest → AttributesEnc o pool as seg → pre ++ rest = seg ++ r → False := by
  induction h with
  | here hs hc =>
    intro rest r seg as hno has he
    obtain ⟨b, cs, u, v, -, hb, -, hr⟩ := (attr_unique o pool).table2_peel hs hc has he
    exact hno b u (v ++ r) (by simpa using hr) hb
  | @code count i ms ml n as0 s c es pre code et hs hc hi hcode het _ ih =>
    intro rest r seg as hno has he
    obtain ⟨b, cs, u, v, -, hb, -, hr⟩ := (attr_unique o pool).table2_peel hs hc has
      (r := u2 i ++ u4 n ++ (u2 ms ++ u2 ml ++ c ++ es ++ (pre ++ rest))) (by simpa using he)
    obtain ⟨-, w, -, hw, hd⟩ := attrEnc_split hb (r := u2 ms ++ u2 ml ++ c ++ es ++ (pre ++ rest)) (t := v ++ r) (by simpa using hr) hi
    obtain ⟨x, -, hx⟩ := dataEnc_of_code rfl hd
    rw [codeEnc_eq] at hx
    obtain ⟨-, s1, t1, rfl, rfl, s2, t2, rfl, rfl, s3, t3, rfl, ⟨m3, b3, hb3, rfl, rfl⟩, s4, t4, rfl, h4, h5⟩ := hx
    obtain ⟨m, b, hm, hbc, rfl⟩ := hcode
    obtain ⟨rfl, hw1⟩ := u2_split (a := ms) (r := u2 ml ++ (u4 m ++ (b ++ (es ++ (pre ++ rest)))))
      (r' := u2 x.maxLocals ++ (u4 m3 ++ (x.code ++ (s4 ++ (t4 ++ (v ++ r)))))) (by simpa using hw)
    obtain ⟨rfl, hw2⟩ := u2_split hw1
    obtain ⟨rfl, hw3⟩ := u4_split hw2
    obtain ⟨-, hw4⟩ := List.append_inj hw3 (by omega)
    obtain ⟨-, -, hw5⟩ := (exception_unique pool).table2.split het h4 hw4
    exact ih hno h5 hw5
  | @record count i count' nm ds n as0 s cs pre comps hs hc hi hcs hc' _ ih =>
    intro rest r seg as hno has he
    obtain ⟨b, cs', u, v, -, hb, -, hr⟩ := (attr_unique o pool).table2_peel hs hc has
      (r := u2 i ++ u4 n ++ (u2 count' ++ cs ++ (u2 nm ++ u2 ds) ++ (pre ++ rest))) (by simpa using he)
    obtain ⟨-, w, -, hw, hd⟩ := attrEnc_split hb (r := u2 count' ++ cs ++ (u2 nm ++ u2 ds) ++ (pre ++ rest)) (t := v ++ r) (by simpa using hr) hi
    obtain ⟨l, -, hl⟩ := dataEnc_of_record rfl hd
    obtain ⟨x, xs, p, q, -, hx, -, hr2⟩ := (component_unique o pool).table2_peel hcs hc' hl
      (r := u2 nm ++ (u2 ds ++ (pre ++ rest))) (by simpa using hw)
    rw [componentEnc_eq] at hx
    obtain ⟨-, _, _, rfl, ⟨j1, -, rfl⟩, _, t2, rfl, ⟨j2, -, rfl⟩, h5⟩ := hx
    obtain ⟨rfl, hw1⟩ := u2_split (b := j1) (r' := u2 j2 ++ (t2 ++ (q ++ (v ++ r)))) (by simpa using hr2)
    obtain ⟨rfl, hw2⟩ := u2_split hw1
    exact ih hno h5 hw2

theorem open_file {o : Opts} {pool : Pool} {pre rest : Bytes} (h : OpenFile o pool pre) (hno : NoAttr o pool rest) (cf : ClassFile) :
    ¬ ClassFileEnc o cf (pre ++ rest) := by
  intro hcf
  obtain ⟨front', nf, nm, fs', ms', as', hb, hfr', hnf, hfs', hnm, hms', has⟩ := enc_front hcf
  have hF := seq_rows.mpr ⟨fs', rfl, hfs'⟩
  have hM := seq_rows.mpr ⟨ms', rfl, hms'⟩
  cases h with
  | @ofClass minor major flags front fs ms pre fields methods hfr hfs hms hop =>
    obtain ⟨rfl, rfl, rfl, rfl, h1⟩ := front_split hfr hfr' (r := fs ++ (ms ++ (pre ++ rest)))
      (r' := u2 nf ++ fs'.flatten ++ (u2 nm ++ ms'.flatten ++ as')) (by simpa using hb)
    obtain ⟨rfl, rfl, h2⟩ := (field_unique o _).table2.split hfs (t := u2 nf ++ fs'.flatten) ⟨nf, hnf, _, _, rfl, rfl, hF⟩ h1
    obtain ⟨rfl, rfl, h3⟩ := (method_unique o _ _ _).table2.split hms (t := u2 nm ++ ms'.flatten) ⟨nm, hnm, _, _, rfl, rfl, hM⟩ h2
    exact open_attrs hop hno has (r := []) (by simpa using h3)
  | @ofField minor major flags count bits name desc front fs pre fields hfr hfs hc hop =>
    obtain ⟨rfl, rfl, rfl, rfl, h1⟩ := front_split hfr hfr' (r := u2 count ++ fs ++ (u2 bits ++ u2 name ++ u2 desc ++ (pre ++ rest)))
      (r' := u2 nf ++ fs'.flatten ++ (u2 nm ++ ms'.flatten ++ as')) (by simpa using hb)
    obtain ⟨f, cs, u, v, -, hf, -, hr⟩ := (field_unique o _).table2_peel hfs hc (t := u2 nf ++ fs'.flatten) ⟨nf, hnf, _, _, rfl, rfl, hF⟩ h1
    obtain ⟨-, _, _, rfl, ⟨j0, -, rfl⟩, _, _, rfl, ⟨j1, -, rfl⟩, _, t2, rfl, ⟨j2, -, rfl⟩, h5⟩ := hf
    obtain ⟨rfl, hw0⟩ := u2_split (b := j0) (r := u2 name ++ (u2 desc ++ (pre ++ rest)))
      (r' := u2 j1 ++ (u2 j2 ++ (t2 ++ (v ++ (u2 nm ++ ms'.flatten ++ as'))))) (by simpa using hr)
    obtain ⟨rfl, hw1⟩ := u2_split hw0
    obtain ⟨rfl, hw2⟩ := u2_split hw1
    exact open_attrs hop hno h5 hw2
  | @ofMethod minor major flags count bits name desc front fs ms pre fields methods hfr hfs hms hc hop =>
    obtain ⟨rfl, rfl, rfl, rfl, h1⟩ := front_split hfr hfr' (r := fs ++ (u2 count ++ ms ++ (u2 bits ++ u2 name ++ u2 desc ++ (pre ++ rest))))
      (r' := u2 nf ++ fs'.flatten ++ (u2 nm ++ ms'.flatten ++ as')) (by simpa using hb)
    obtain ⟨rfl, rfl, h2⟩ := (field_unique o _).table2.split hfs (t := u2 nf ++ fs'.flatten) ⟨nf, hnf, _, _, rfl, rfl, hF⟩ h1
    obtain ⟨f, cs, u, v, -, hf, -, hr⟩ := (method_unique o _ _ _).table2_peel hms hc (t := u2 nm ++ ms'.flatten) ⟨nm, hnm, _, _, rfl, rfl, hM⟩ h2
    obtain ⟨-, _, _, rfl, ⟨j0, -, rfl⟩, _, _, rfl, ⟨j1, -, rfl⟩, _, t2, rfl, ⟨j2, -, rfl⟩, h5⟩ := hf
    obtain ⟨rfl, hw0⟩ := u2_split (b := j0) (r := u2 name ++ (u2 desc ++ (pre ++ rest)))
      (r' := u2 j1 ++ (u2 j2 ++ (t2 ++ (v ++ as')))) (by simpa using hr)
    obtain ⟨rfl, hw1⟩ := u2_split hw0
    obtain ⟨rfl, hw2⟩ := u2_split hw1
    exact open_attrs hop hno h5 hw2

/-- A valid pool has no cycle of descriptors, so the call returns. -/
theorem not_hangs_of_pool {o : Opts} {minor major : UInt16} {pool : Pool} {seg rest : Bytes} (hp : PoolEnc o.decode o.checks major pool seg) :
    ¬ Hangs o (header minor major ++ seg ++ rest) := by
  intro hh
  obtain ⟨minor', major', raw, seg', rest', hb, henc, i, j, ⟨x, hx⟩, hj⟩ := stuck_has_cycle (hangs_iff_stuck.mp hh)
  obtain ⟨raw', henc', hmap, hok⟩ := hp
  obtain ⟨rfl, rfl, he⟩ := header_peel (r := seg ++ rest) (r' := seg' ++ rest') (by simpa using hb)
  have hu : Unique (RawPoolEnc o.decode o.checks major) := Exact.unique fun N => ⟨_, readRawPool_exact (N := N) (envOf o 0) major⟩
  obtain ⟨rfl, -, -⟩ := hu.split henc' henc he
  rw [← hmap] at hx hj
  obtain ⟨k, hk, hu⟩ := natUtf8_of_ok hok i x _ hx
  cases hk
  cases hj with
  | refl => rcases hu with ⟨s, hs⟩ | ⟨s, hs⟩ <;> rw [hx] at hs <;> cases hs
  | step h' _ =>
    obtain ⟨x', hx'⟩ := h'
    rcases hu with ⟨s, hs⟩ | ⟨s, hs⟩ <;> rw [hx'] at hs <;> cases hs

theorem openFile_front {o : Opts} {pool : Pool} {pre : Bytes} (h : OpenFile o pool pre) :
    ∃ minor major flags front r, FrontEnc o minor major pool flags front ∧ pre = front ++ r := by
  cases h with
  | ofClass h => exact ⟨_, _, _, _, _, h, by simp only [List.append_assoc]; rfl⟩
  | ofField h => exact ⟨_, _, _, _, _, h, by simp only [List.append_assoc]; rfl⟩
  | ofMethod h => exact ⟨_, _, _, _, _, h, by simp only [List.append_assoc]; rfl⟩

theorem openFile_pool {o : Opts} {pool : Pool} {pre : Bytes} (h : OpenFile o pool pre) :
    ∃ minor major seg r, PoolEnc o.decode o.checks major pool seg ∧ pre = header minor major ++ seg ++ r := by
  obtain ⟨minor, major, flags, front, r, ⟨_, _, _, ⟨_, _, rfl, rfl, s, t, rfl, hp, -⟩, -⟩, rfl⟩ := openFile_front h
  exact ⟨minor, major, s, t ++ r, hp, by simp⟩

/-- A file cut off before an attribute and continued with something that does not start with an attribute is refused. -/
theorem refused_of_noAttr {o : Opts} {pool : Pool} {pre rest : Bytes} (h : OpenFile o pool pre) (hno : NoAttr o pool rest) : Refused o (pre ++ rest) := by
  rcases outcome_cases o (pre ++ rest) with ⟨cf, hc⟩ | h1 | h2 | h3
  · exact absurd (accepts_iff_enc.mp hc) (open_file h hno cf)
  · exact .inl h1
  · exact .inr h2
  · obtain ⟨minor, major, seg, r, hp, rfl⟩ := openFile_pool h
    rw [List.append_assoc] at h3
    exact absurd h3 (not_hangs_of_pool hp)

theorem seq_mem_split {α : Type} {F : α → Lang} {x : α} : ∀ {xs : List α} {seg : Bytes}, seq F xs seg → x ∈ xs →
    ∃ as bs s t u, xs = as ++ x :: bs ∧ seg = s ++ t ++ u ∧ seq F as s ∧ F x t ∧ seq F bs u
  | y :: ys, _, ⟨s, t, rfl, hs, ht⟩, h => by
    rcases List.mem_cons.mp h with rfl | h
    · exact ⟨[], ys, [], s, t, rfl, rfl, rfl, hs, ht⟩
    · obtain ⟨as, bs, s1, t1, u1, rfl, rfl, h1, h2, h3⟩ := seq_mem_split ht h
      exact ⟨y :: as, bs, s ++ s1, t1, u1, rfl, by simp, ⟨s, s1, rfl, hs, h1⟩, h2, h3⟩

theorem table2_mem_split {α : Type} {F : α → Lang} {x : α} {xs : List α} {seg : Bytes} (h : table2 F xs seg) (hx : x ∈ xs) :
    ∃ (count : UInt16) (as : List α) (s t u : Bytes), seg = u2 count ++ s ++ t ++ u ∧ seq F as s ∧ as.length < count.toNat ∧ F x t := by
  obtain ⟨c, hc, s, t, rfl, rfl, h⟩ := h
  obtain ⟨as, bs, s, t, u, rfl, rfl, h1, h2, h3⟩ := seq_mem_split h hx
  exact ⟨c, as, s, t, u, by simp, h1, by rw [hc]; simp, h2⟩

theorem attrIn_open {o : Opts} {pool : Pool} {a : AttributeInfo} {as : List AttributeInfo} (h : AttrIn a as) :
    ∀ {seg : Bytes}, AttributesEnc o pool as seg → ∃ pre s post, seg = pre ++ s ++ post ∧ OpenAttrs o pool pre ∧ AttrEnc o pool a s := by
  induction h with
  | here h =>
    intro seg hs
    obtain ⟨c, as, s, t, u, rfl, h1, h2, h3⟩ := table2_mem_split hs h
    exact ⟨u2 c ++ s, t, u, by simp, .here h1 h2, h3⟩
  | @code as name c hc _ ih =>
    intro seg hs
    obtain ⟨k, as, s, t, u, rfl, h1, h2, h3⟩ := table2_mem_split hs hc
    rw [AttrEnc] at h3
    obtain ⟨_, _, rfl, ⟨i, hi, rfl⟩, n, b, hn, hd, rfl⟩ := h3
    rw [DataEnc, codeEnc_eq] at hd
    obtain ⟨rfl, -, s1, t1, rfl, rfl, s2, t2, rfl, rfl, s3, t3, rfl, hcode, s4, t4, rfl, h4, h5⟩ := hd
    obtain ⟨pre, x, post, rfl, h6, h7⟩ := ih h5
    exact ⟨_, x, post ++ u, by simp, .code (n := n) (maxStack := c.maxStack) (maxLocals := c.maxLocals) h1 h2 hi hcode h4 h6, h7⟩
  | @record as name l r hc hr _ ih =>
    intro seg hs
    obtain ⟨k, as, s, t, u, rfl, h1, h2, h3⟩ := table2_mem_split hs hc
    rw [AttrEnc] at h3
    obtain ⟨_, _, rfl, ⟨i, hi, rfl⟩, n, b, hn, hd, rfl⟩ := h3
    rw [DataEnc, componentsEnc_eq] at hd
    obtain ⟨rfl, hd⟩ := hd
    obtain ⟨k', cs, s', t', u', rfl, h4, h5, h6⟩ := table2_mem_split hd hr
    rw [componentEnc_eq] at h6
    obtain ⟨-, _, _, rfl, ⟨j1, -, rfl⟩, _, t2, rfl, ⟨j2, -, rfl⟩, h7⟩ := h6
    obtain ⟨pre, x, post, rfl, h8, h9⟩ := ih h7
    exact ⟨_, x, post ++ (u' ++ u), by simp, .record (n := n) (name := j1) (descriptor := j2) h1 h2 hi h4 h5 h8, h9⟩

/-- Where an attribute of an accepted file is. -/
theorem attrOf_open {o : Opts} {bytes : Bytes} {cf : ClassFile} (h : ClassFileEnc o cf bytes) {a : AttributeInfo} (ha : AttrOf cf a) :
    ∃ pre s post, bytes = pre ++ s ++ post ∧ OpenFile o cf.constantPool pre ∧ AttrEnc o cf.constantPool a s := by
  obtain ⟨front, nf, nm, fs, ms, as, rfl, hfr, hnf, hfs, hnm, hms, has⟩ := enc_front h
  have hF : table2 (FieldEnc o cf.constantPool) cf.fields (u2 nf ++ fs.flatten) := ⟨nf, hnf, _, _, rfl, rfl, seq_rows.mpr ⟨fs, rfl, hfs⟩⟩
  have hM : table2 (MethodEnc o cf.constantPool (IsInterface cf.accessFlags) cf.majorVersion) cf.methods (u2 nm ++ ms.flatten) :=
    ⟨nm, hnm, _, _, rfl, rfl, seq_rows.mpr ⟨ms, rfl, hms⟩⟩
  rcases ha with ha | ⟨f, hf, ha⟩ | ⟨m, hm, ha⟩
  · obtain ⟨pre, s, post, rfl, h1, h2⟩ := attrIn_open ha has
    exact ⟨_, s, post, by simp, .ofClass hfr hF hM h1, h2⟩
  · obtain ⟨k, fs', s, t, u, he, h1, h2, h3⟩ := table2_mem_split hF hf
    obtain ⟨-, _, _, rfl, ⟨j0, -, rfl⟩, _, _, rfl, ⟨j1, -, rfl⟩, _, t2, rfl, ⟨j2, -, rfl⟩, h5⟩ := h3
    obtain ⟨pre, x, post, rfl, h6, h7⟩ := attrIn_open ha h5
    refine ⟨_, x, post ++ (u ++ (u2 nm ++ ms.flatten ++ as)), ?_, .ofField (bits := j0) (name := j1) (descriptor := j2) hfr h1 h2 h6, h7⟩
    calc _ = front ++ (u2 nf ++ fs.flatten) ++ (u2 nm ++ ms.flatten ++ as) := by simp
      _ = _ := by rw [he]; simp
  · obtain ⟨k, fs', s, t, u, he, h1, h2, h3⟩ := table2_mem_split hM hm
    obtain ⟨-, _, _, rfl, ⟨j0, -, rfl⟩, _, _, rfl, ⟨j1, -, rfl⟩, _, t2, rfl, ⟨j2, -, rfl⟩, h5⟩ := h3
    obtain ⟨pre, x, post, rfl, h6, h7⟩ := attrIn_open ha h5
    refine ⟨_, x, post ++ (u ++ as), ?_, .ofMethod (bits := j0) (name := j1) (descriptor := j2) hfr hF h1 h2 h6, h7⟩
    calc _ = front ++ (u2 nf ++ fs.flatten) ++ (u2 nm ++ ms.flatten) ++ as := by simp
      _ = _ := by rw [he]; simp

end Cafebabe
