import Verif.Proofs.Moved
import Verif.Props.CodeProps
/-!
# C45 Parsing is a function of the bytes and options
-/

namespace Cafebabe
open Spec Examples

/-- Tables of attributes, fields, methods and interfaces, annotations and annotation values, and single constants are read the same way
wherever they stand: whatever precedes them, the outcome is the same up to the position. This covers errors (the same contexts), panics and
endless recursion too. -/
theorem C45_moved (env : Env) (pool : Pool) :
    (∀ d, Movable (readAttributes env pool d)) ∧ Movable (readFields env pool) ∧ (∀ inInterface major, Movable (readMethods env pool inInterface major)) ∧
      Movable (readInterfaces pool) ∧ (∀ d, Movable (readAnnotation pool d)) ∧ (∀ d, Movable (readAnnotationElementValue pool d)) ∧
      ∀ major tag, Movable (readConstant env major tag) :=
  ⟨fun d before => readAttributes_moved (before := before) env pool d, fun before => readFields_moved (before := before) env pool,
    fun ii major before => readMethods_moved (before := before) env pool ii major, fun before => readInterfaces_moved (before := before) pool,
    fun d before => readAnnotation_moved (before := before) pool d, fun d before => readAnnotationElementValue_moved (before := before) pool d,
    fun major tag before => readConstant_moved (before := before) env major tag⟩

/-- An instruction is read the same way at any two offsets of a code array that differ by a multiple of four. -/
theorem C45_instruction (checks : Bool) (pool : Pool) (before code : Bytes) (ix : Nat) (h : before.length % 4 = 0) :
    MovedOutcome before.length (readOpcode checks pool code ix) (readOpcode checks pool (before ++ code) (before.length + ix)) :=
  readOpcode_moved h checks pool code ix

/-- The multiple of four is needed: the same bytes are an instruction of twelve bytes at offset 0 and of eleven bytes at offset 1. -/
example (pool : Pool) : ∃ code op op', readOpcode true pool code 0 = .ok (op, 12) ∧ readOpcode true pool ([0x00] ++ code) 1 = .ok (op', 1 + 11) :=
  ⟨[0xab] ++ [0, 0, 0] ++ [0, 0, 0, 0] ++ [0, 0, 0, 0], .lookupswitch ⟨0, []⟩, .lookupswitch ⟨0, []⟩, rfl, rfl⟩

/-- What is read is determined by the bytes of the structure alone: read from the start of some bytes or from the middle of a file, with anything
before and after, the table of attributes is the same. -/
theorem C45_embedded (env : Env) (pool : Pool) (d : Nat) (before s after : Bytes) (as : List AttributeInfo) (k : Nat)
    (h : readAttributes env pool d s 0 = .ok (as, k)) :
    readAttributes env pool d (before ++ (s ++ after)) before.length = .ok (as, before.length + k) := by
  have h1 : readAttributes env pool d (s ++ after) 0 = .ok (as, k) := by
    rcases readAttributes_grows env pool d 0 s (Nat.zero_le _) with (⟨e, m, n, he, -⟩ | he) | ⟨he, -⟩
    · simp only at he; rw [h] at he; cases he
    · simp only at he; rw [h] at he; cases he
    · rw [he after, h]
  have h2 := readAttributes_moved (before := before) env pool d (s ++ after) 0
  rw [h1] at h2
  rw [Nat.add_zero] at h2
  generalize readAttributes env pool d (before ++ (s ++ after)) before.length = r at h2
  cases h2 with
  | ok => rfl

/-- Two code arrays with the same bytes in files with the same constant pool, read with the same options, have the same instructions, wherever they
stand and whatever else the files contain. -/
theorem C45_bytecode {o o' : Opts} {bytes bytes' : Bytes} {cf cf' : ClassFile} (h : Accepts o bytes cf) (h' : Accepts o' bytes' cf')
    (hch : o.checks = o'.checks) (hpool : cf.constantPool = cf'.constantPool) {c c' : CodeData} (hc : CodeOf cf c) (hc' : CodeOf cf' c')
    {bc bc' : ByteCode} (hb : c.bytecode = some bc) (hb' : c'.bytecode = some bc') (hcode : c.code = c'.code) : bc = bc' := by
  have h1 := (code_bytecode h hc hb).1
  have h2 := (code_bytecode h' hc' hb').1
  rw [← hch, ← hpool, ← hcode] at h2
  have := insnsEnc_unique h1 h2
  cases bc; cases bc'; cases this; rfl

example : ∃ c bc, Accepts debug rich richCf ∧ CodeOf richCf c ∧ c.bytecode = some bc := by
  obtain ⟨c, bc, h1, h2, -⟩ := rich_code
  exact ⟨c, bc, rich_accepted, h1, h2⟩

/-! ## Whole files: blocks can be put in any order -/

theorem seq_pairs {α : Type} {F : α → Lang} : ∀ {xs : List α} {seg : Bytes}, seq F xs seg →
    ∃ ps : List (α × Bytes), ps.map (·.1) = xs ∧ seg = (ps.map (·.2)).flatten ∧ ∀ p ∈ ps, F p.1 p.2
  | [], seg, h => ⟨[], rfl, h, by simp⟩
  | x :: xs, seg, h => by
    obtain ⟨s, t, rfl, h1, h2⟩ := h
    obtain ⟨ps, rfl, rfl, h3⟩ := seq_pairs h2
    refine ⟨(x, s) :: ps, rfl, rfl, fun p hp => ?_⟩
    rcases List.mem_cons.mp hp with rfl | hp
    · exact h1
    · exact h3 p hp

theorem pairs_seq {α : Type} {F : α → Lang} : ∀ {ps : List (α × Bytes)}, (∀ p ∈ ps, F p.1 p.2) → seq F (ps.map (·.1)) (ps.map (·.2)).flatten
  | [], _ => rfl
  | p :: ps, h => ⟨p.2, _, rfl, h p List.mem_cons_self, pairs_seq fun q hq => h q (List.mem_cons_of_mem _ hq)⟩

theorem table2_pairs {α : Type} {F : α → Lang} {xs : List α} {seg : Bytes} (h : table2 F xs seg) :
    ∃ (c : UInt16) (ps : List (α × Bytes)), ps.map (·.1) = xs ∧ seg = u2 c ++ (ps.map (·.2)).flatten ∧
      ∀ ps' : List (α × Bytes), ps'.Perm ps → table2 F (ps'.map (·.1)) (u2 c ++ (ps'.map (·.2)).flatten) := by
  obtain ⟨c, hc, _, t, rfl, rfl, h⟩ := h
  obtain ⟨ps, rfl, rfl, h1⟩ := seq_pairs h
  refine ⟨c, ps, rfl, rfl, fun ps' hp => ⟨c, ?_, _, _, rfl, rfl, pairs_seq fun p hm => h1 p (hp.mem_iff.mp hm)⟩⟩
  rw [hc, List.length_map, List.length_map, hp.length_eq]

theorem nil_of_perm {α : Type} {l l' : List α} (h : l'.Perm l) (he : l = []) : l' = [] := by
  subst he; exact h.eq_nil

/-- The fields of an accepted file may be put in any order: the bytes of the file are a head, one block per field, and a tail, and with the blocks in any
other order the file is accepted with the fields in that order and everything else unchanged. -/
theorem C45_field_order {o : Opts} {bytes : Bytes} {cf : ClassFile} (h : Accepts o bytes cf) :
    ∃ (head tail : Bytes) (blocks : List (FieldInfo × Bytes)), blocks.map (·.1) = cf.fields ∧ bytes = head ++ (blocks.map (·.2)).flatten ++ tail ∧
      ∀ blocks' : List (FieldInfo × Bytes), blocks'.Perm blocks →
        Accepts o (head ++ (blocks'.map (·.2)).flatten ++ tail) { cf with fields := blocks'.map (·.1) } := by
  obtain ⟨⟨hd1, hd2, hm, hbs⟩, s, t, rfl, rfl, s, t, rfl, rfl, s, t, rfl, rfl, pool, t, rfl, hp, s1, t, rfl, hf, s2, t, rfl, ht,
    s3, t, rfl, hsup, s4, t, rfl, hi, sf, t, rfl, hfs, sm, as, rfl, hms, has⟩ := accepts_iff_enc.mp h
  obtain ⟨c, ps, h1, rfl, h2⟩ := table2_pairs hfs
  refine ⟨[0xCA, 0xFE, 0xBA, 0xBE] ++ (u2 cf.minorVersion ++ (u2 cf.majorVersion ++ (pool ++ (s1 ++ (s2 ++ (s3 ++ (s4 ++ u2 c))))))),
    sm ++ as, ps, h1, by simp, fun ps' hperm => accepts_iff_enc.mpr ?_⟩
  have hfl : (ps'.map (·.1)).Perm cf.fields := h1 ▸ hperm.map _
  refine ⟨⟨(hfl.pairwise_iff fun hab hba => hab ⟨hba.1.symm, hba.2.symm⟩).mpr hd1, hd2, fun hmod => ?_, hbs⟩, _, _, ?_, rfl, _, _, rfl, rfl, _, _, rfl, rfl, pool, _, rfl, hp,
    s1, _, rfl, hf, s2, _, rfl, ht, s3, _, rfl, hsup, s4, _, rfl, hi, _, _, rfl, h2 ps' hperm, sm, as, rfl, hms, has⟩
  · obtain ⟨m1, m2, m3, m4, m5, m6⟩ := hm hmod
    exact ⟨m1, m2, m3, m4, nil_of_perm hfl m5, m6⟩
  · simp

/-- The same for methods. -/
theorem C45_method_order {o : Opts} {bytes : Bytes} {cf : ClassFile} (h : Accepts o bytes cf) :
    ∃ (head tail : Bytes) (blocks : List (MethodInfo × Bytes)), blocks.map (·.1) = cf.methods ∧ bytes = head ++ (blocks.map (·.2)).flatten ++ tail ∧
      ∀ blocks' : List (MethodInfo × Bytes), blocks'.Perm blocks →
        Accepts o (head ++ (blocks'.map (·.2)).flatten ++ tail) { cf with methods := blocks'.map (·.1) } := by
  obtain ⟨⟨hd1, hd2, hm, hbs⟩, s, t, rfl, rfl, s, t, rfl, rfl, s, t, rfl, rfl, pool, t, rfl, hp, s1, t, rfl, hf, s2, t, rfl, ht,
    s3, t, rfl, hsup, s4, t, rfl, hi, sf, t, rfl, hfs, sm, as, rfl, hms, has⟩ := accepts_iff_enc.mp h
  obtain ⟨c, ps, h1, rfl, h2⟩ := table2_pairs hms
  refine ⟨[0xCA, 0xFE, 0xBA, 0xBE] ++ (u2 cf.minorVersion ++ (u2 cf.majorVersion ++ (pool ++ (s1 ++ (s2 ++ (s3 ++ (s4 ++ (sf ++ u2 c)))))))),
    as, ps, h1, by simp, fun ps' hperm => accepts_iff_enc.mpr ?_⟩
  have hfl : (ps'.map (·.1)).Perm cf.methods := h1 ▸ hperm.map _
  refine ⟨⟨hd1, (hfl.pairwise_iff fun hab hba => hab ⟨hba.1.symm, hba.2.symm⟩).mpr hd2, fun hmod => ?_, hbs⟩, _, _, ?_, rfl, _, _, rfl, rfl, _, _, rfl, rfl, pool, _, rfl, hp,
    s1, _, rfl, hf, s2, _, rfl, ht, s3, _, rfl, hsup, s4, _, rfl, hi, sf, _, rfl, hfs, _, as, rfl, h2 ps' hperm, has⟩
  · obtain ⟨m1, m2, m3, m4, m5, m6⟩ := hm hmod
    exact ⟨m1, m2, m3, m4, m5, nil_of_perm hfl m6⟩
  · simp

theorem bootstrapTables_perm {as as' : List AttributeInfo} (h : as'.Perm as) : (bootstrapTables as').Perm (bootstrapTables as) := h.filterMap _

/-- The same for the attributes of the class. -/
theorem C45_attribute_order {o : Opts} {bytes : Bytes} {cf : ClassFile} (h : Accepts o bytes cf) :
    ∃ (head : Bytes) (blocks : List (AttributeInfo × Bytes)), blocks.map (·.1) = cf.attributes ∧ bytes = head ++ (blocks.map (·.2)).flatten ∧
      ∀ blocks' : List (AttributeInfo × Bytes), blocks'.Perm blocks →
        Accepts o (head ++ (blocks'.map (·.2)).flatten) { cf with attributes := blocks'.map (·.1) } := by
  obtain ⟨⟨hd1, hd2, hm, hbs⟩, s, t, rfl, rfl, s, t, rfl, rfl, s, t, rfl, rfl, pool, t, rfl, hp, s1, t, rfl, hf, s2, t, rfl, ht,
    s3, t, rfl, hsup, s4, t, rfl, hi, sf, t, rfl, hfs, sm, as, rfl, hms, has⟩ := accepts_iff_enc.mp h
  obtain ⟨c, ps, h1, rfl, h2⟩ := table2_pairs has
  refine ⟨[0xCA, 0xFE, 0xBA, 0xBE] ++ (u2 cf.minorVersion ++ (u2 cf.majorVersion ++ (pool ++ (s1 ++ (s2 ++ (s3 ++ (s4 ++ (sf ++ (sm ++ u2 c))))))))),
    ps, h1, by simp, fun ps' hperm => accepts_iff_enc.mpr ?_⟩
  have hfl : (ps'.map (·.1)).Perm cf.attributes := h1 ▸ hperm.map _
  refine ⟨⟨hd1, hd2, hm, fun x r hx => ?_⟩, _, _, ?_, rfl, _, _, rfl, rfl, _, _, rfl, rfl, pool, _, rfl, hp,
    s1, _, rfl, hf, s2, _, rfl, ht, s3, _, rfl, hsup, s4, _, rfl, hi, sf, _, rfl, hfs, sm, _, rfl, hms, h2 ps' hperm⟩
  · obtain ⟨l, hl, hx'⟩ := hbs x r hx
    refine ⟨l, ?_, hx'⟩
    have := bootstrapTables_perm hfl
    rw [hl] at this
    exact this.eq_singleton
  · simp

/-- `full` has many class attributes; reversing their order gives an accepted file with the attributes reversed. -/
example : 1 < fullCf.attributes.length ∧ ∃ bytes, Accepts debug bytes { fullCf with attributes := fullCf.attributes.reverse } := by
  obtain ⟨head, blocks, h1, h2, h3⟩ := C45_attribute_order full_accepted
  refine ⟨by decide +kernel, head ++ (blocks.reverse.map (·.2)).flatten, ?_⟩
  have := h3 _ (List.reverse_perm blocks)
  have hr : blocks.reverse.map (·.1) = fullCf.attributes.reverse := by rw [← h1, List.map_reverse]
  rw [hr] at this
  exact this

end Cafebabe
