import Verif.Spec.Cycles
import Verif.Proofs.Extend
import Verif.Props.Examples
/-!
# Properties of the parser as a whole: C01 - C07
-/

namespace Cafebabe
open Spec Examples

/-! ## C01 Magic number and version words -/

theorem enc_header {o : Opts} {bytes : Bytes} {cf : ClassFile} (h : ClassFileEnc o cf bytes) :
    ∃ rest, bytes = header cf.minorVersion cf.majorVersion ++ rest := by
  obtain ⟨-, s, t, rfl, rfl, s, t, rfl, rfl, s, t, rfl, rfl, -⟩ := h
  exact ⟨t, by simp [header]⟩

theorem byte_split (v : UInt16) : v.toNat = 256 * (byte (v.toNat / 256)).toNat + (byte v.toNat).toNat := by
  rw [toNat_byte, toNat_byte]
  have := v.toNat_lt
  omega

/-- An accepted input starts with the magic number, and the reported versions are the big-endian words that follow it. -/
theorem C01_header {o : Opts} {bytes : Bytes} {cf : ClassFile} (h : Accepts o bytes cf) :
    ∃ b4 b5 b6 b7 rest, bytes = [0xCA, 0xFE, 0xBA, 0xBE, b4, b5, b6, b7] ++ rest ∧
      cf.minorVersion.toNat = 256 * b4.toNat + b5.toNat ∧ cf.majorVersion.toNat = 256 * b6.toNat + b7.toNat := by
  obtain ⟨rest, rfl⟩ := enc_header (accepts_iff_enc.mp h)
  exact ⟨_, _, _, _, rest, rfl, byte_split _, byte_split _⟩

theorem readHeader_err {o : Opts} {d : Nat} {bytes : Bytes} {e : ParseError} (h : readHeader bytes 0 = .err e) : run o d bytes = .err e := by
  rw [run_eq, readClassFile_eq]
  show Res.bind (P.bind _ _ bytes 0) _ = _
  unfold P.bind
  rw [h]
  rfl

/-- An input that does not start with the magic number (in particular one that is too short) is rejected. -/
theorem C01_bad_magic (o : Opts) (bytes : Bytes) (h : ¬ [0xCA, 0xFE, 0xBA, 0xBE] <+: bytes) : ∃ e, Rejects o bytes e := by
  have hx := readHeader_exact (N := bytes.length + 1) bytes 0 (Nat.zero_le _) (by omega)
  have ht := readHeader_tame (N := bytes.length + 1) (A := fun _ => False) bytes 0 (Nat.zero_le _)
  unfold TameAt at ht
  cases hr : readHeader bytes 0 with
  | ok a =>
    obtain ⟨v, ix⟩ := a
    obtain ⟨seg, rest, hd, rfl, -⟩ := (hx v ix).mp hr
    rw [List.drop_zero] at hd
    exact absurd ⟨u2 v.1 ++ u2 v.2 ++ rest, by rw [hd]; simp⟩ h
  | err e => exact ⟨e, 0, readHeader_err hr⟩
  | panic k => rw [hr] at ht; exact ht.elim
  | diverge => rw [hr] at ht; simp only at ht; omega

example : ∃ cf, Accepts debug tiny cf := accepted tiny_ok
example : ¬ [0xCA, 0xFE, 0xBA, 0xBE] <+: (0xCB :: tiny.tail) := by decide +kernel

/-! ## C02 Whole input is consumed -/

/-- No proper extension of an accepted input is accepted: it is rejected with an error. -/
theorem C02_extension {o : Opts} {bytes extra : Bytes} {cf : ClassFile} (h : Accepts o bytes cf) (hx : extra ≠ []) :
    ∃ e, Rejects o (bytes ++ extra) e := rejects_extension h hx

/-- No proper prefix of an accepted input is accepted: it is rejected with an error (it neither panics nor hangs). -/
theorem C02_truncation {o : Opts} {bytes p : Bytes} {cf : ClassFile} (h : Accepts o bytes cf) (hp : p <+: bytes) (hne : p ≠ bytes) :
    ∃ e, Rejects o p e := by
  obtain ⟨extra, rfl⟩ := hp
  exact rejects_truncation h (by rintro rfl; simp at hne)

example : ∃ cf, Accepts debug rich cf := accepted rich_ok
example : rich.take 100 <+: rich ∧ rich.take 100 ≠ rich := ⟨List.take_prefix _ _, by decide +kernel⟩

/-! ## C03 Acceptance is exactly the class-file grammar -/

/-- The parser returns `Ok(cf)` exactly for the encodings of `cf`. -/
theorem C03_accepts_iff_grammar (o : Opts) (bytes : Bytes) (cf : ClassFile) : Accepts o bytes cf ↔ ClassFileEnc o cf bytes :=
  accepts_iff_enc

/-- The grammar is unambiguous: an input encodes at most one class file. -/
theorem C03_unambiguous {o : Opts} {bytes : Bytes} {cf cf' : ClassFile} (h : ClassFileEnc o cf bytes) (h' : ClassFileEnc o cf' bytes) :
    cf = cf' := by
  have h := accepts_iff.mp (accepts_iff_enc.mpr h)
  have h' := accepts_iff.mp (accepts_iff_enc.mpr h')
  rw [h] at h'
  cases h'
  rfl

/-- Each call has exactly one outcome. -/
theorem C03_one_outcome (o : Opts) (bytes : Bytes) :
    ((∃ cf, Accepts o bytes cf) ∨ (∃ e, Rejects o bytes e) ∨ (∃ k, Panics o bytes k) ∨ Hangs o bytes) ∧
      (∀ cf e, Accepts o bytes cf → ¬ Rejects o bytes e) ∧ (∀ cf k, Accepts o bytes cf → ¬ Panics o bytes k) ∧
      (∀ e k, Rejects o bytes e → ¬ Panics o bytes k) ∧ (∀ cf, Accepts o bytes cf → ¬ Hangs o bytes) ∧
      (∀ e, Rejects o bytes e → ¬ Hangs o bytes) ∧ (∀ k, Panics o bytes k → ¬ Hangs o bytes) := by
  simp only [accepts_iff, rejects_iff, panics_iff, hangs_iff]
  refine ⟨?_, ?_, ?_, ?_, ?_, ?_, ?_⟩
  · have := outcome_cases o bytes
    simp only [accepts_iff, rejects_iff, panics_iff, hangs_iff] at this
    exact this
  all_goals intros; simp_all

example : ∃ cf, ClassFileEnc debug cf rich := by
  obtain ⟨cf, h⟩ := accepted rich_ok
  exact ⟨cf, (C03_accepts_iff_grammar _ _ _).mp h⟩

/-! ## C04 Parsing always returns -/

theorem leadsTo_steps {pool : Pool} {f : Nat → Nat} (h : ∀ k, DescriptorOf pool (f k) (f (k + 1))) (a : Nat) : ∀ n, LeadsTo pool (f a) (f (a + n))
  | 0 => .refl _
  | n + 1 => by
    refine .step (h a) ?_
    rw [show a + (n + 1) = (a + 1) + n by omega]
    exact leadsTo_steps h (a + 1) n

/-- A chain of descriptors is endless exactly when it gets to a cycle. -/
theorem endless_iff_cycle {pool : Pool} {i : Nat} : Endless pool i ↔ ReachesCycle pool i := by
  constructor
  · rintro ⟨f, rfl, h⟩
    have hmap : ∀ a ∈ Finset.range (pool.length + 1), f a ∈ Finset.range pool.length := fun a _ => by
      rw [Finset.mem_range]
      exact descriptorOf_lt (h a)
    obtain ⟨a, -, b, -, hne, he⟩ := Finset.exists_ne_map_eq_of_card_lt_of_maps_to (by simp) hmap
    have key : ∀ a b, a < b → f a = f b → ReachesCycle pool (f 0) := by
      intro a b hab he
      have h0 := leadsTo_steps h 0 a
      rw [Nat.zero_add] at h0
      refine ⟨f a, h0, f (a + 1), h a, ?_⟩
      have h1 := leadsTo_steps h (a + 1) (b - (a + 1))
      rw [show a + 1 + (b - (a + 1)) = b by omega, ← he] at h1
      exact h1
    rcases Nat.lt_or_gt_of_ne hne with hlt | hgt
    · exact key a b hlt he
    · exact key b a hgt he.symm
  · rintro ⟨j, hij, k, hjk, hkj⟩
    -- every slot on the way can be left by one more step
    have step : ∀ x y, LeadsTo pool x y → (∃ z, DescriptorOf pool y z) → ∃ z, DescriptorOf pool x z := by
      intro x y hxy
      induction hxy with
      | refl => exact fun h => h
      | step h _ _ => exact fun _ => ⟨_, h⟩
    have inv : ∀ x, LeadsTo pool x j → ∃ z, DescriptorOf pool x z ∧ LeadsTo pool z j := by
      intro x hx
      cases hx with
      | refl => exact ⟨k, hjk, hkj⟩
      | step h h' => exact ⟨_, h, h'⟩
    refine endless_of_steps fun n => ?_
    have : ∀ n, LeadsTo pool (steps pool n i) j := by
      intro n
      induction n with
      | zero => exact hij
      | succ n ih =>
        obtain ⟨z, hz, hzj⟩ := inv _ ih
        show LeadsTo pool (next pool (steps pool n i)) j
        rw [next_of hz]
        exact hzj
    obtain ⟨z, hz, -⟩ := inv _ (this n)
    show DescriptorOf pool _ (next pool (steps pool n i))
    rw [next_of hz]
    exact hz

theorem stuck_has_cycle {o : Opts} {bytes : Bytes} (h : StuckInput o bytes) : HasDescriptorCycle o bytes := by
  obtain ⟨minor, major, raw, seg, rest, hb, henc, -, k, e, -, hs, -⟩ := h
  refine ⟨minor, major, raw, seg, rest, hb, henc, ?_⟩
  have : ∃ i, Endless (raw.map linkEntry) i := by
    unfold EntryStuck at hs
    split at hs
    · exact ⟨_, hs.2⟩
    · exact ⟨_, hs.2⟩
    · exact ⟨_, hs⟩
    · exact hs.elim
  obtain ⟨i, hi⟩ := this
  obtain ⟨j, -, hj⟩ := endless_iff_cycle.mp hi
  exact ⟨j, hj⟩

/-- Without a cycle of NameAndType descriptors the call comes back: with every recursion budget of at least the input length plus two the
run finishes, always with the same outcome. -/
theorem C04_returns {o : Opts} {bytes : Bytes} (h : ¬ HasDescriptorCycle o bytes) :
    ¬ Hangs o bytes ∧ ∀ d, bytes.length + 2 ≤ d → run o d bytes ≠ .diverge ∧ run o d bytes = run o (bytes.length + 2) bytes := by
  have h1 : ¬ Hangs o bytes := fun hh => h (stuck_has_cycle (hangs_iff_stuck.mp hh))
  refine ⟨h1, fun d hd => ⟨fun hr => h1 ?_, run_enough hd⟩⟩
  rw [run_enough hd] at hr
  exact hangs_iff.mpr hr

/-- Whatever the input, a run that finishes at all finishes within recursion depth "input length plus two". -/
theorem C04_depth_linear {o : Opts} {bytes : Bytes} {d : Nat} (h : run o d bytes ≠ .diverge) :
    run o (bytes.length + 2) bytes = run o d bytes := run_done rfl h

/-- Every accepted input satisfies the hypothesis of `C04_returns`. -/
theorem C04_accepted {o : Opts} {bytes : Bytes} {cf : ClassFile} (h : Accepts o bytes cf) : ¬ HasDescriptorCycle o bytes := by
  rintro ⟨minor, major, raw, seg, rest, hb, henc, i, j, ⟨x, hx⟩, hj⟩
  obtain ⟨-, s, t, rfl, rfl, s, t, rfl, rfl, s, t, rfl, rfl, s, t, rfl, ⟨raw', henc', hmap, hok⟩, -⟩ := accepts_iff_enc.mp h
  have hb' : header cf.minorVersion cf.majorVersion ++ (s ++ t) = header minor major ++ (seg ++ rest) := by
    rw [← List.append_assoc, ← List.append_assoc, ← hb]
    simp [header]
  obtain ⟨hh, ht⟩ := List.append_inj hb' rfl
  have hm : cf.majorVersion = major := by
    have := (List.append_inj hh rfl).2
    exact u2_inj this
  subst hm
  have e1 := (readRawPool_exact (N := (s ++ t).length + 1) (envOf o 0) cf.majorVersion (s ++ t) 0 (Nat.zero_le _) (by omega) raw' s.length).mpr
    ⟨s, t, rfl, henc', by simp⟩
  have e2 := (readRawPool_exact (N := (s ++ t).length + 1) (envOf o 0) cf.majorVersion (s ++ t) 0 (Nat.zero_le _) (by omega) raw seg.length).mpr
    ⟨seg, rest, ht, henc, by simp⟩
  rw [e1, Res.ok.injEq, Prod.mk.injEq] at e2
  obtain ⟨rfl, -⟩ := e2
  rw [← hmap] at hx hj
  obtain ⟨k, hk, hu⟩ := natUtf8_of_ok hok i x _ hx
  cases hk
  cases hj with
  | refl => rcases hu with ⟨s, hs⟩ | ⟨s, hs⟩ <;> rw [hx] at hs <;> cases hs
  | step h' _ =>
    obtain ⟨x', hx'⟩ := h'
    rcases hu with ⟨s, hs⟩ | ⟨s, hs⟩ <;> rw [hx'] at hs <;> cases hs

example : ∃ bytes, ¬ HasDescriptorCycle debug bytes := by
  obtain ⟨cf, h⟩ := accepted rich_ok
  exact ⟨rich, C04_accepted h⟩

/-! ## C05 Cyclic NameAndType descriptors -/

/-- The call hangs exactly when the pool is readable with all indices in range and some MethodRef, InterfaceMethodRef or InvokeDynamic
constant leads to a cycle of descriptors while all constants before it pass their check. -/
theorem C05_hangs_iff (o : Opts) (bytes : Bytes) : Hangs o bytes ↔ StuckInput o bytes := hangs_iff_stuck

/-- "Endless" in the definition of `StuckInput` means: gets to a cycle. -/
theorem C05_endless_iff_cycle (pool : Pool) (i : Nat) : Endless pool i ↔ ReachesCycle pool i := endless_iff_cycle

/-- The expectation "such a file is rejected" is false of the code: `cyclic` makes the call recurse without end. -/
theorem C05_cyclic_hangs : Hangs debug cyclic ∧ ¬ ∃ e, Rejects debug cyclic e := by
  refine ⟨hung cyclic_diverges, ?_⟩
  rintro ⟨e, d, h⟩
  have := hung cyclic_diverges d
  rw [h] at this
  cases this

/-- No accepted input has such a cycle. -/
theorem C05_accepted_no_cycle {o : Opts} {bytes : Bytes} {cf : ClassFile} (h : Accepts o bytes cf) : ¬ ∃ i, OnCycle cf.constantPool i := by
  obtain ⟨-, s, t, rfl, rfl, s, t, rfl, rfl, s, t, rfl, rfl, s, t, rfl, ⟨raw, -, -, hok⟩, -⟩ := accepts_iff_enc.mp h
  rintro ⟨i, j, ⟨x, hx⟩, hj⟩
  obtain ⟨k, hk, hu⟩ := natUtf8_of_ok hok i x _ hx
  cases hk
  cases hj with
  | refl => rcases hu with ⟨s, hs⟩ | ⟨s, hs⟩ <;> rw [hx] at hs <;> cases hs
  | step h' _ =>
    obtain ⟨x', hx'⟩ := h'
    rcases hu with ⟨s, hs⟩ | ⟨s, hs⟩ <;> rw [hx'] at hs <;> cases hs

/-! ## C06 Parsing does not panic -/

/-- All causes of panics. A panic is either an arithmetic overflow in a build with overflow checks (of the pool's slot counter, or, after
a valid pool, in bytecode), or the text of an undecodable NameAndType descriptor being demanded in a file that names EnclosingMethod. No
other panic (index out of bounds, string slicing, unresolved or mistyped constant, ...) can happen for any input. -/
theorem C06_panic_causes {o : Opts} {bytes : Bytes} {k : PanicKind} (h : Panics o bytes k) :
    (k = .overflow ∧ o.checks = true ∧
      (CounterOverflow o bytes ∨ (o.parseBytecode = true ∧ StartsWithPool o bytes fun _ => True))) ∨
    (k = .nonUtf8 ∧ StartsWithPool o bytes fun pool => Entry.utf8 "EnclosingMethod".toList ∈ pool ∧ BadDescriptor pool) :=
  panics_cause h

/-- Without overflow checks the EnclosingMethod panic is the only one. -/
theorem C06_release {o : Opts} {bytes : Bytes} {k : PanicKind} (ho : o.checks = false) (h : Panics o bytes k) :
    k = .nonUtf8 ∧ StartsWithPool o bytes fun pool => Entry.utf8 "EnclosingMethod".toList ∈ pool ∧ BadDescriptor pool := by
  rcases C06_panic_causes h with ⟨-, hc, -⟩ | h
  · rw [ho] at hc; cases hc
  · exact h

/-- If every Utf8 constant decodes, a build without overflow checks never panics. -/
theorem C06_release_decodable {o : Opts} {bytes : Bytes} (ho : o.checks = false) (hd : ∀ b, (o.decode b).isSome) (k : PanicKind) :
    ¬ Panics o bytes k := by
  intro h
  obtain ⟨-, minor, major, pool, seg, rest, -, ⟨raw, ⟨count, es, body, -, rfl, -, hseq⟩, rfl, -⟩, -, i, x, y, b, -, hy⟩ := C06_release ho h
  rw [List.getElem?_map, Option.map_eq_some_iff] at hy
  obtain ⟨e, he, hl⟩ := hy
  obtain rfl : e = .utf8Bytes b := by cases e <;> simp_all [linkEntry]
  have hm := List.mem_of_getElem? he
  rcases List.mem_cons.mp hm with h0 | hm
  · cases h0
  obtain ⟨f, hf, hm⟩ := List.mem_flatMap.mp hm
  have : f = .utf8Bytes b := by
    rcases slots_mem hm with h | h
    · exact h.symm
    · cases h
  subst this
  obtain ⟨s, hs⟩ := (seq_enc_mem hseq).1 _ hf
  obtain ⟨n, -, hn, -⟩ := hs
  have := hd b
  rw [hn] at this
  cases this

/-- The claim "parse_class never panics" is false of the code: both kinds of panic happen. -/
theorem C06_witnesses : Panics release oddEnclosing .nonUtf8 ∧ Panics debug fullRange .overflow ∧ Panics debug farJump .overflow :=
  ⟨panicked oddEnclosing_panics_release, panicked fullRange_panics, panicked farJump_panics⟩

/-! ## C07 Build modes agree -/

/-- The same options with overflow checks on or off. -/
def Spec.Opts.withChecks (o : Opts) (c : Bool) : Opts := { o with checks := c }

/-- If the build with overflow checks does not stop with an overflow panic, the build without gives the identical outcome. -/
theorem C07_modes_agree (o : Opts) (bytes : Bytes) (h : ¬ Panics (o.withChecks true) bytes .overflow) :
    (∀ cf, Accepts (o.withChecks true) bytes cf ↔ Accepts (o.withChecks false) bytes cf) ∧
    (∀ e, Rejects (o.withChecks true) bytes e ↔ Rejects (o.withChecks false) bytes e) ∧
    (∀ k, Panics (o.withChecks true) bytes k ↔ Panics (o.withChecks false) bytes k) ∧
    (Hangs (o.withChecks true) bytes ↔ Hangs (o.withChecks false) bytes) := by
  have key : run (o.withChecks true) (bytes.length + 2) bytes = run (o.withChecks false) (bytes.length + 2) bytes := by
    rcases parseClassWithOptions_agree (b := .overflow) (e := envOf (o.withChecks true) (bytes.length + 2))
      (f := envOf (o.withChecks false) (bytes.length + 2)) ⟨rfl, rfl, .inl rfl, .inr ⟨rfl, rfl, rfl⟩⟩ bytes with h1 | h1
    · exact absurd (panics_iff.mpr h1) h
    · exact h1
  simp only [accepts_iff, rejects_iff, panics_iff, hangs_iff, key]
  exact ⟨fun _ => trivial, fun _ => trivial, fun _ => trivial, trivial⟩

example : ¬ Panics debug rich .overflow := by
  intro h
  obtain ⟨cf, hc⟩ := accepted rich_ok
  exact (C03_one_outcome debug rich).2.2.1 cf _ hc h

/-- The modes do differ where the checked build panics. -/
theorem C07_differ : Panics debug fullRange .overflow ∧ ∃ cf, Accepts release fullRange cf :=
  ⟨panicked fullRange_panics, accepted fullRange_release⟩

end Cafebabe
