import Verif.Spec.Nested
import Verif.Proofs.Extend
/-!
# Proofs: every attribute at any depth is encoded inside its parent
-/

namespace Cafebabe
open Spec

theorem infix_left {a b c : Bytes} (h : a <:+: b) : a <:+: b ++ c := h.trans (List.prefix_append b c).isInfix
theorem infix_right {a b c : Bytes} (h : a <:+: c) : a <:+: b ++ c := h.trans (List.suffix_append b c).isInfix

theorem seq_mem {α : Type} {F : α → Lang} {x : α} : ∀ {xs : List α} {seg : Bytes}, seq F xs seg → x ∈ xs → ∃ s, F x s ∧ s <:+: seg
  | y :: ys, _, ⟨s, t, rfl, hs, ht⟩, h => by
    rcases List.mem_cons.mp h with rfl | h
    · exact ⟨s, hs, infix_left (List.infix_refl _)⟩
    · obtain ⟨u, hu, hi⟩ := seq_mem ht h
      exact ⟨u, hu, infix_right hi⟩

theorem table2_mem {α : Type} {F : α → Lang} {x : α} {xs : List α} {seg : Bytes} (h : table2 F xs seg) (hx : x ∈ xs) :
    ∃ s, F x s ∧ s <:+: seg := by
  obtain ⟨c, -, s, t, rfl, rfl, h⟩ := h
  obtain ⟨u, hu, hi⟩ := seq_mem h hx
  exact ⟨u, hu, infix_right hi⟩

theorem dataEnc_code {o : Opts} {pool : Pool} {name : Str} {c : CodeData} {seg : Bytes} (h : DataEnc o pool name (.code c) seg) :
    ∃ s, AttributesEnc o pool c.attributes s ∧ s <:+: seg := by
  rw [DataEnc] at h
  obtain ⟨-, h⟩ := h
  obtain ⟨ms, ml, code, bc, et, as⟩ := c
  rw [CodeEnc, attrsEnc_eq] at h
  obtain ⟨-, s1, t1, rfl, -, s2, t2, rfl, -, s3, t3, rfl, -, s4, t4, rfl, -, h⟩ := h
  exact ⟨t4, h, infix_right (infix_right (infix_right (infix_right (List.infix_refl _))))⟩

theorem dataEnc_record {o : Opts} {pool : Pool} {name : Str} {l : List RecordComponentEntry} {seg : Bytes}
    (h : DataEnc o pool name (.record l) seg) {r : RecordComponentEntry} (hr : r ∈ l) :
    ∃ s, AttributesEnc o pool r.attributes s ∧ s <:+: seg := by
  rw [DataEnc, componentsEnc_eq] at h
  obtain ⟨-, h⟩ := h
  obtain ⟨s, hs, hi⟩ := table2_mem h hr
  obtain ⟨n, d, as⟩ := r
  rw [ComponentEnc, attrsEnc_eq] at hs
  obtain ⟨-, s1, t1, rfl, -, s2, t2, rfl, -, h⟩ := hs
  exact ⟨t2, h, (infix_right (infix_right (List.infix_refl _))).trans hi⟩

theorem attrEnc_data {o : Opts} {pool : Pool} {name : Str} {d : AttributeData} {seg : Bytes} (h : AttrEnc o pool ⟨name, d⟩ seg) :
    ∃ s, DataEnc o pool name d s ∧ s <:+: seg := by
  rw [AttrEnc] at h
  obtain ⟨s, t, rfl, -, n, b, -, h, rfl⟩ := h
  exact ⟨b, h, infix_right (infix_right (List.infix_refl _))⟩

theorem attrIn_enc {o : Opts} {pool : Pool} {a : AttributeInfo} {as : List AttributeInfo} (h : AttrIn a as) :
    ∀ {seg : Bytes}, AttributesEnc o pool as seg → ∃ s, AttrEnc o pool a s ∧ s <:+: seg := by
  induction h with
  | here h => exact fun hs => table2_mem hs h
  | code hc _ ih =>
    intro seg hs
    obtain ⟨s1, h1, i1⟩ := table2_mem hs hc
    obtain ⟨s2, h2, i2⟩ := attrEnc_data h1
    obtain ⟨s3, h3, i3⟩ := dataEnc_code h2
    obtain ⟨s4, h4, i4⟩ := ih h3
    exact ⟨s4, h4, i4.trans (i3.trans (i2.trans i1))⟩
  | record hc hr _ ih =>
    intro seg hs
    obtain ⟨s1, h1, i1⟩ := table2_mem hs hc
    obtain ⟨s2, h2, i2⟩ := attrEnc_data h1
    obtain ⟨s3, h3, i3⟩ := dataEnc_record h2 hr
    obtain ⟨s4, h4, i4⟩ := ih h3
    exact ⟨s4, h4, i4.trans (i3.trans (i2.trans i1))⟩

theorem seq_refs {α : Type} {At : α → Nat → Prop} : ∀ {xs : List α} {seg : Bytes}, seq (fun x => ref (At x)) xs seg →
    ∃ ixs : List UInt16, seg = indices ixs ∧ ixs.length = xs.length ∧
      ∀ (k : Nat) (i : UInt16) (x : α), ixs[k]? = some i → xs[k]? = some x → At x i.toNat
  | [], _, rfl => ⟨[], rfl, rfl, by simp⟩
  | x :: xs, _, ⟨_, t, rfl, ⟨i, hi, rfl⟩, ht⟩ => by
    obtain ⟨ixs, rfl, hl, h⟩ := seq_refs ht
    refine ⟨i :: ixs, rfl, by simp [hl], fun k j y hj hy => ?_⟩
    cases k with
    | zero => simp at hj hy; subst hj hy; exact hi
    | succ k => exact h k j y (by simpa using hj) (by simpa using hy)

/-- The parts of an accepted file. -/
theorem enc_parts {o : Opts} {bytes : Bytes} {cf : ClassFile} (h : ClassFileEnc o cf bytes) :
    ∃ (pool fs ms as : Bytes) (flags this super n : UInt16) (ixs : List UInt16),
      bytes = header cf.minorVersion cf.majorVersion ++ pool ++ u2 flags ++ u2 this ++ u2 super ++ u2 n ++ indices ixs ++ fs ++ ms ++ as ∧
      PoolEnc o.decode o.checks cf.majorVersion cf.constantPool pool ∧ cf.accessFlags = flags &&& 0xF631 ∧
      ClassNameAt cf.constantPool this.toNat cf.thisClass ∧ OptAt ClassNameAt cf.constantPool super.toNat cf.superClass ∧
      n.toNat = ixs.length ∧ ixs.length = cf.interfaces.length ∧
      (∀ (k : Nat) (i : UInt16) (c : ClassName), ixs[k]? = some i → cf.interfaces[k]? = some c → ClassNameAt cf.constantPool i.toNat c) ∧
      table2 (FieldEnc o cf.constantPool) cf.fields fs ∧
      table2 (MethodEnc o cf.constantPool (IsInterface cf.accessFlags) cf.majorVersion) cf.methods ms ∧
      AttributesEnc o cf.constantPool cf.attributes as := by
  obtain ⟨-, s, t, rfl, rfl, s, t, rfl, rfl, s, t, rfl, rfl, pool, t, rfl, hp, s, t, rfl, ⟨flags, hf, rfl⟩, s, t, rfl, ⟨this, ht, rfl⟩,
    s, t, rfl, ⟨super, hsup, rfl⟩, s, t, rfl, ⟨n, hn, s1, t1, rfl, rfl, hi⟩, fs, t, rfl, hfs, ms, as, rfl, hms, has⟩ := h
  obtain ⟨ixs, rfl, hl, hix⟩ := seq_refs (At := fun c i => ClassNameAt cf.constantPool i c) hi
  exact ⟨pool, fs, ms, as, flags, this, super, n, ixs, by simp [header], hp, hf, ht, hsup, by omega, hl, hix, hfs, hms, has⟩

theorem attrOf_enc {o : Opts} {bytes : Bytes} {cf : ClassFile} (h : ClassFileEnc o cf bytes) {a : AttributeInfo} (ha : AttrOf cf a) :
    ∃ s, AttrEnc o cf.constantPool a s ∧ s <:+: bytes := by
  obtain ⟨pool, fs, ms, as, flags, this, super, n, ixs, rfl, -, -, -, -, -, -, -, hfs, hms, has⟩ := enc_parts h
  rcases ha with ha | ⟨f, hf, ha⟩ | ⟨m, hm, ha⟩
  · obtain ⟨s, h1, h2⟩ := attrIn_enc ha has
    exact ⟨s, h1, infix_right h2⟩
  · obtain ⟨s, h1, h2⟩ := table2_mem hfs hf
    obtain ⟨-, s1, t1, rfl, -, s2, t2, rfl, -, s3, t3, rfl, -, h3⟩ := h1
    obtain ⟨u, h4, h5⟩ := attrIn_enc ha h3
    refine ⟨u, h4, h5.trans ((infix_right (infix_right (infix_right (List.infix_refl _)))).trans (h2.trans ?_))⟩
    exact infix_left (infix_left (infix_right (List.infix_refl _)))
  · obtain ⟨s, h1, h2⟩ := table2_mem hms hm
    obtain ⟨-, s1, t1, rfl, -, s2, t2, rfl, -, s3, t3, rfl, -, h3⟩ := h1
    obtain ⟨u, h4, h5⟩ := attrIn_enc ha h3
    refine ⟨u, h4, h5.trans ((infix_right (infix_right (infix_right (List.infix_refl _)))).trans (h2.trans ?_))⟩
    exact infix_left (infix_right (List.infix_refl _))

theorem seq_rows {α : Type} {F : α → Lang} : ∀ {xs : List α} {seg : Bytes}, seq F xs seg ↔ ∃ segs, seg = segs.flatten ∧ Rows F xs segs
  | [], seg => by
    constructor
    · rintro rfl; exact ⟨[], rfl, rfl, by simp⟩
    · rintro ⟨segs, rfl, hl, -⟩
      rw [List.length_nil, List.length_eq_zero_iff] at hl
      subst hl; rfl
  | x :: xs, seg => by
    constructor
    · rintro ⟨s, t, rfl, hs, ht⟩
      obtain ⟨segs, rfl, hl, h⟩ := seq_rows.mp ht
      refine ⟨s :: segs, rfl, by simp [hl], fun k u y hu hy => ?_⟩
      cases k with
      | zero => simp at hu hy; subst hu hy; exact hs
      | succ k => exact h k u y (by simpa using hu) (by simpa using hy)
    · rintro ⟨segs, rfl, hl, h⟩
      cases segs with
      | nil => simp at hl
      | cons s segs =>
        refine ⟨s, segs.flatten, rfl, h 0 s x rfl rfl, seq_rows.mpr ⟨segs, rfl, by simpa using hl, fun k u y hu hy => ?_⟩⟩
        exact h (k + 1) u y (by simpa using hu) (by simpa using hy)

/-- An accepted file: front part, fields, methods, attributes. -/
theorem enc_front {o : Opts} {bytes : Bytes} {cf : ClassFile} (h : ClassFileEnc o cf bytes) :
    ∃ (front : Bytes) (nf nm : UInt16) (fs ms : List Bytes) (as : Bytes),
      bytes = front ++ u2 nf ++ fs.flatten ++ u2 nm ++ ms.flatten ++ as ∧
      FrontEnc o cf.minorVersion cf.majorVersion cf.constantPool cf.accessFlags front ∧
      nf.toNat = cf.fields.length ∧ Rows (FieldEnc o cf.constantPool) cf.fields fs ∧
      nm.toNat = cf.methods.length ∧
      Rows (MethodEnc o cf.constantPool (IsInterface cf.accessFlags) cf.majorVersion) cf.methods ms ∧
      AttributesEnc o cf.constantPool cf.attributes as := by
  obtain ⟨⟨-, -, hm, -⟩, s, t, rfl, rfl, s, t, rfl, rfl, s, t, rfl, rfl, pool, t, rfl, hp, s1, t, rfl, hf, s2, t, rfl, ht,
    s3, t, rfl, hsup, s4, t, rfl, hi, s, t, rfl, ⟨nf, hnf, s, t, rfl, rfl, hfs⟩, s, as, rfl, ⟨nm, hnm, s, t, rfl, rfl, hms⟩, has⟩ := h
  obtain ⟨fs, rfl, hfs'⟩ := seq_rows.mp hfs
  obtain ⟨ms, rfl, hms'⟩ := seq_rows.mp hms
  refine ⟨header cf.minorVersion cf.majorVersion ++ (pool ++ (s1 ++ (s2 ++ (s3 ++ s4)))), nf, nm, fs, ms, as, by simp [header], ?_, hnf, hfs', hnm,
    hms', has⟩
  exact ⟨_, _, _, ⟨_, _, rfl, rfl, _, _, rfl, hp, _, _, rfl, hf, _, _, rfl, ht, _, _, rfl, hsup, hi⟩, fun h => ⟨(hm h).1, (hm h).2.1⟩⟩

/-- Bytecode of an accepted file is an encoding of its code array. -/
theorem codeOf_enc {o : Opts} {bytes : Bytes} {cf : ClassFile} (h : ClassFileEnc o cf bytes) {c : CodeData} (hc : CodeOf cf c) :
    ∃ s, CodeEnc o cf.constantPool c s ∧ s <:+: bytes := by
  obtain ⟨name, ha⟩ := hc
  obtain ⟨s, h1, h2⟩ := attrOf_enc h ha
  obtain ⟨t, h3, h4⟩ := attrEnc_data h1
  rw [DataEnc] at h3
  exact ⟨t, h3.2, h4.trans h2⟩

end Cafebabe
