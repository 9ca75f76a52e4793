import Verif.Model.Capacity
import Verif.Spec.Capacity
import Verif.Props.CodeProps
/-!
# C44 Memory reserved before validation
-/

namespace Cafebabe
open Spec Examples

theorem readU1_iff {bytes : Bytes} {ix : Nat} (h : ix ≤ bytes.length) (b : UInt8) (ix' : Nat) :
    readU1 bytes ix = .ok (b, ix') ↔ ∃ r, bytes.drop ix = b :: r ∧ ix' = ix + 1 := by
  rw [(Exact.readU1 : Exact (bytes.length + 1) readU1 fun b => lit (u1 b)) bytes ix h (by omega) b ix']
  constructor
  · rintro ⟨seg, r, hd, rfl, rfl⟩; exact ⟨r, hd, rfl⟩
  · rintro ⟨r, hd, rfl⟩; exact ⟨u1 b, r, hd, rfl, rfl⟩

theorem capacityAt_some {checks : Bool} {code : Bytes} {ix n : Nat} (h : ix ≤ code.length) :
    capacityAt checks code ix = some n ↔ ∃ hd rest, code.drop ix = hd ++ rest ∧ SwitchHeader checks ix n hd := by
  have hcons : ∀ {s : Bytes} {b : UInt8} {r : Bytes}, code.drop ix = b :: r → code.drop (ix + 1) = r := by
    intro s b r hd
    rw [← List.drop_drop, hd]; rfl
  constructor
  · intro hc
    unfold capacityAt at hc
    split at hc
    · rename_i v ix' hr
      obtain ⟨r, hd, rfl⟩ := (readU1_iff h v ix').mp hr
      have hd' := hcons (s := []) hd
      have hlen : ix + 1 ≤ code.length := by
        have := congrArg List.length hd; simp at this; omega
      split at hc
      · rename_i hv
        have hv : v = 0xaa := by simpa using hv
        subst hv
        split at hc
        · rename_i d low high m ix'' hh
          cases hc
          obtain ⟨seg, rest, hs, ⟨s1, t1, rfl, hpad, ⟨hle, hn⟩, h3⟩, -⟩ := (tableswitchHeader_exact checks (ix + 1) code hlen _ _).mp hh
          refine ⟨0xaa :: (s1 ++ t1), rest, by rw [hd, ← hd', hs]; rfl, .inl ⟨d, low, high, hle, hn, [0xaa], s1 ++ t1, rfl, rfl, s1, t1, rfl, hpad, h3⟩⟩
        · cases hc
      · split at hc
        · rename_i hv
          have hv : v = 0xab := by simpa using hv
          subst hv
          split at hc
          · rename_i d m ix'' hh
            cases hc
            obtain ⟨seg, rest, hs, ⟨s1, t1, rfl, hpad, np, hn, h3⟩, -⟩ := (lookupswitchHeader_exact (ix + 1) code hlen _ _).mp hh
            exact ⟨0xab :: (s1 ++ t1), rest, by rw [hd, ← hd', hs]; rfl, .inr ⟨d, np, hn, [0xab], s1 ++ t1, rfl, rfl, s1, t1, rfl, hpad, h3⟩⟩
          · cases hc
        · cases hc
    · cases hc
  · rintro ⟨hd, rest, hs, ⟨d, low, high, hle, hn, s0, t0, rfl, rfl, s1, t1, rfl, hpad, h3⟩ | ⟨d, np, hn, s0, t0, rfl, rfl, s1, t1, rfl, hpad, h3⟩⟩
    · have hd' : code.drop (ix + 1) = (s1 ++ t1) ++ rest := hcons (s := []) hs
      have hlen : ix + 1 ≤ code.length := by
        have := congrArg List.length hs; simp at this; omega
      have hr := (readU1_iff h 0xaa (ix + 1)).mpr ⟨_, hs, rfl⟩
      have hh := (tableswitchHeader_exact checks (ix + 1) code hlen (d, low, high, n) _).mpr
        ⟨s1 ++ t1, rest, hd', ⟨s1, t1, rfl, hpad, ⟨hle, hn⟩, h3⟩, rfl⟩
      unfold capacityAt
      rw [hr]
      simp only [beq_self_eq_true, if_true]
      rw [hh]
    · have hd' : code.drop (ix + 1) = (s1 ++ t1) ++ rest := hcons (s := []) hs
      have hlen : ix + 1 ≤ code.length := by
        have := congrArg List.length hs; simp at this; omega
      have hr := (readU1_iff h 0xab (ix + 1)).mpr ⟨_, hs, rfl⟩
      have hh := (lookupswitchHeader_exact (ix + 1) code hlen (d, n) _).mpr
        ⟨s1 ++ t1, rest, hd', ⟨s1, t1, rfl, hpad, np, hn, h3⟩, rfl⟩
      unfold capacityAt
      rw [hr]
      simp only [beq_self_eq_true, if_true]
      rw [if_neg (by decide), hh]

theorem capacitiesLoop_mem {checks : Bool} {pool : Pool} {code : Bytes} {n : Nat} :
    ∀ (fuel ix : Nat), ix ≤ code.length → code.length - ix < fuel →
      (n ∈ capacitiesLoop checks pool code fuel ix ↔
        ∃ ops pre hd rest, code.drop ix = pre ++ (hd ++ rest) ∧ InsnsEnc checks pool ix ops pre ∧ SwitchHeader checks (ix + pre.length) n hd) := by
  intro fuel
  induction fuel with
  | zero => intro ix h1 h2; omega
  | succ fuel ih =>
    intro ix h1 h2
    unfold capacitiesLoop
    have hhd : ∀ {p m : Nat} {hd : Bytes}, SwitchHeader checks p m hd → 0 < hd.length := by
      rintro p m hd (⟨d, low, high, hle, hn, s0, t0, rfl, rfl, -⟩ | ⟨d, np, hn, s0, t0, rfl, rfl, -⟩) <;> simp
    split
    · rename_i hlt
      rw [List.mem_append, Option.mem_toList, capacityAt_some h1]
      constructor
      · rintro (⟨hd, rest, h3, h4⟩ | h)
        · exact ⟨[], [], hd, rest, h3, .nil _, h4⟩
        · split at h
          · rename_i op ix' ho
            obtain ⟨seg, r, hd, hi, rfl⟩ := (readOpcode_exact checks pool ix code h1 op ix').mp ho
            have hl := length_of_drop_eq h1 hd
            have hne := List.length_pos_iff.mpr (insnEnc_ne_nil hi)
            obtain ⟨ops, pre, hd', rest, h3, h4, h5⟩ := (ih (ix + seg.length) (by omega) (by omega)).mp h
            rw [drop_of_drop_eq hd] at h3
            refine ⟨(ix, op) :: ops, seg ++ pre, hd', rest, by rw [hd, h3]; simp, .cons hi h4, ?_⟩
            rwa [List.length_append, ← Nat.add_assoc]
          · cases h
      · rintro ⟨ops, pre, hd, rest, h3, h4, h5⟩
        cases h4 with
        | nil => exact .inl ⟨hd, rest, h3, h5⟩
        | @cons _ op ops s t hi ht =>
          right
          rw [List.append_assoc] at h3
          have hl := length_of_drop_eq h1 h3
          have hne := List.length_pos_iff.mpr (insnEnc_ne_nil hi)
          have ho := (readOpcode_exact checks pool ix code h1 op _).mpr ⟨s, _, h3, hi, rfl⟩
          rw [ho]
          refine (ih (ix + s.length) (by omega) (by omega)).mpr ⟨ops, t, hd, rest, drop_of_drop_eq h3, ht, ?_⟩
          rwa [List.length_append, ← Nat.add_assoc] at h5
    · rename_i hge
      constructor
      · intro h; cases h
      · rintro ⟨ops, pre, hd, rest, h3, h4, h5⟩
        have h6 := congrArg List.length h3
        have := hhd h5
        simp at h6
        omega

/-- Which requests are made: memory for `n` table entries is requested exactly when, after complete instructions, the header of a switch with
`n` entries can be read; whether the entries are there plays no role. -/
theorem C44_requests (checks : Bool) (pool : Pool) (code : Bytes) (n : Nat) :
    n ∈ capacities checks code pool ↔
      ∃ ops pre hd rest, code = pre ++ hd ++ rest ∧ InsnsEnc checks pool 0 ops pre ∧ SwitchHeader checks pre.length n hd := by
  unfold capacities
  rw [capacitiesLoop_mem _ 0 (Nat.zero_le _) (by omega)]
  simp

/-- No request is for more than 2^31 - 1 entries. -/
theorem C44_bound (checks : Bool) (pool : Pool) (code : Bytes) (n : Nat) (h : n ∈ capacities checks code pool) : n ≤ 2147483647 := by
  obtain ⟨ops, pre, hd, rest, -, -, ⟨d, low, high, -, h | h, -⟩ | ⟨d, np, h, -⟩⟩ := (C44_requests checks pool code n).mp h
  · omega
  · omega
  · have := int32_high np; omega

theorem capacityAt_insn {checks : Bool} {pool : Pool} {code s t : Bytes} {ix : Nat} {op : Opcode} (h1 : ix ≤ code.length)
    (hd : code.drop ix = s ++ t) (hi : InsnEnc checks pool ix op s) : capacityAt checks code ix = tableSize op := by
  have ho := (readOpcode_exact checks pool ix code h1 op _).mpr ⟨s, t, hd, hi, rfl⟩
  cases hz : tableSize op with
  | some n =>
    rw [capacityAt_some h1]
    unfold tableSize at hz
    split at hz
    · rename_i tb
      cases hz
      obtain ⟨⟨hle, hn⟩, s0, t0, rfl, rfl, s1, t1, rfl, hpad, _, t2, rfl, rfl, _, t3, rfl, rfl, _, t4, rfl, rfl, h3⟩ := hi
      refine ⟨_, t4 ++ t, ?_, .inl ⟨tb.default, _, _, hle, ?_, _, _, rfl, rfl, s1, _, rfl, hpad, _, _, rfl, rfl, _, _, rfl, rfl, rfl⟩⟩
      · rw [hd]; simp
      · rcases hn with hn | ⟨h4, h5, h6, h7⟩
        · exact .inl hn
        · exact .inr ⟨h4, h5, h6, by rw [h7]; rfl⟩
    · rename_i tb
      cases hz
      obtain ⟨np, hn, s0, t0, rfl, rfl, s1, t1, rfl, hpad, _, t2, rfl, rfl, _, t3, rfl, rfl, h3⟩ := hi
      refine ⟨_, t3 ++ t, ?_, .inr ⟨tb.default, np, hn, _, _, rfl, rfl, s1, _, rfl, hpad, _, _, rfl, rfl, rfl⟩⟩
      rw [hd]; simp
    · cases hz
  | none =>
    unfold capacityAt
    unfold readOpcode at ho
    rw [P.bind_ok] at ho
    obtain ⟨v, ix', hr, ho⟩ := ho
    rw [hr]
    simp only
    split
    · rename_i hv
      have hv : v = 0xaa := by simpa using hv
      subst hv
      have ho : readTableswitch checks code ix' = _ := ho
      unfold readTableswitch at ho
      rw [P.bind_ok] at ho
      obtain ⟨⟨d, low, high, n⟩, ix2, -, ho⟩ := ho
      rw [P.bind_ok] at ho
      obtain ⟨jumps, ix3, -, ho⟩ := ho
      cases ho
      cases hz
    · split
      · rename_i hv
        have hv : v = 0xab := by simpa using hv
        subst hv
        have ho : readLookupswitch code ix' = _ := ho
        unfold readLookupswitch at ho
        rw [P.bind_ok] at ho
        obtain ⟨⟨d, n⟩, ix2, -, ho⟩ := ho
        rw [P.bind_ok] at ho
        obtain ⟨jumps, ix3, -, ho⟩ := ho
        cases ho
        cases hz
      · rfl

theorem capacitiesLoop_insns {checks : Bool} {pool : Pool} {code : Bytes} :
    ∀ (fuel ix : Nat) (ops : List (Nat × Opcode)), ix ≤ code.length → code.length - ix < fuel → InsnsEnc checks pool ix ops (code.drop ix) →
      capacitiesLoop checks pool code fuel ix = ops.filterMap (fun p => tableSize p.2) := by
  intro fuel
  induction fuel with
  | zero => intro ix ops h1 h2; omega
  | succ fuel ih =>
    intro ix ops h1 h2 h
    unfold capacitiesLoop
    generalize hd : code.drop ix = d at h
    cases h with
    | nil =>
      have h3 := congrArg List.length hd
      simp at h3
      rw [if_neg (by omega)]
      rfl
    | @cons _ op ops s t hi ht =>
      have hl := length_of_drop_eq h1 hd
      have hne := List.length_pos_iff.mpr (insnEnc_ne_nil hi)
      rw [if_pos (by omega), (readOpcode_exact checks pool ix code h1 op _).mpr ⟨s, t, hd, hi, rfl⟩]
      rw [List.filterMap_cons]
      simp only
      rw [ih (ix + s.length) ops (by omega) (by omega) (by rw [drop_of_drop_eq hd]; exact ht)]
      have hcap := capacityAt_insn h1 hd hi
      rw [hcap]
      cases tableSize op <;> rfl

/-- A valid code array: one request per switch, for exactly the number of entries its table has. -/
theorem C44_valid {checks : Bool} {pool : Pool} {code : Bytes} {ops : List (Nat × Opcode)} (h : InsnsEnc checks pool 0 ops code) :
    capacities checks code pool = ops.filterMap fun p => tableSize p.2 :=
  capacitiesLoop_insns _ 0 ops (Nat.zero_le _) (by omega) h

theorem tableSize_le {checks : Bool} {pool : Pool} {pos n : Nat} {op : Opcode} {s : Bytes} (h : InsnEnc checks pool pos op s)
    (hz : tableSize op = some n) : 4 * n ≤ s.length := by
  unfold tableSize at hz
  split at hz
  · cases hz
    obtain ⟨-, s0, t0, rfl, rfl, s1, t1, rfl, hpad, _, t2, rfl, rfl, _, t3, rfl, rfl, _, t4, rfl, rfl, h3⟩ := h
    have := seq_length_eq (k := 4) (by rintro a s rfl; rfl) h3
    simp only [List.length_append]
    omega
  · cases hz
    obtain ⟨np, hn, s0, t0, rfl, rfl, s1, t1, rfl, hpad, _, t2, rfl, rfl, _, t3, rfl, rfl, h3⟩ := h
    have := seq_length_eq (k := 8) (by rintro a s rfl; rfl) h3
    simp only [List.length_append]
    omega
  · cases hz

/-- For a valid code array all requests together are for at most a quarter as many entries as the array has bytes. -/
theorem C44_proportional {checks : Bool} {pool : Pool} {pos : Nat} {code : Bytes} {ops : List (Nat × Opcode)} (h : InsnsEnc checks pool pos ops code) :
    4 * (ops.filterMap fun p => tableSize p.2).sum ≤ code.length := by
  induction h with
  | nil pos => simp
  | @cons pos op ops s t hi ht ih =>
    rw [List.filterMap_cons, List.length_append]
    simp only
    split
    · omega
    · rename_i n hn
      have := tableSize_le hi hn
      rw [List.sum_cons]
      omega

/-- The same for every code array of an accepted file. -/
theorem C44_accepted {o : Opts} {bytes : Bytes} {cf : ClassFile} (h : Accepts o bytes cf) {c : CodeData} (hc : CodeOf cf c) {bc : ByteCode}
    (hb : c.bytecode = some bc) :
    capacities o.checks c.code cf.constantPool = (bc.opcodes.filterMap fun p => tableSize p.2) ∧
      4 * (capacities o.checks c.code cf.constantPool).sum ≤ c.code.length := by
  have hbc := (code_bytecode h hc hb).1
  exact ⟨C44_valid hbc, by rw [C44_valid hbc]; exact C44_proportional hbc⟩

/-- `rich` has a `tableswitch` of one entry: one request, for one entry. -/
example : ∃ c, Accepts debug rich richCf ∧ CodeOf richCf c ∧ 1 ∈ capacities true c.code richCf.constantPool := by
  obtain ⟨c, bc, h1, h2, h3, h4, -⟩ := rich_code
  obtain ⟨-, ⟨t, h5, rfl⟩, -⟩ := rich_jumps
  refine ⟨c, rich_accepted, h1, ?_⟩
  rw [show true = debug.checks from rfl, (C44_accepted rich_accepted h1 h2).1, List.mem_filterMap]
  exact ⟨_, by rw [h4]; exact h5, rfl⟩

theorem pad3 {s : Bytes} (h : padding (0 + 1) s) : s.length = 3 := by
  obtain ⟨h1, h2⟩ := h; omega

/-- A `tableswitch` at offset 0 with a header for `n` entries and no entries. -/
def bareTable (n : Nat) : Bytes := [0xaa, 0, 0, 0] ++ s4 0 ++ s4 1 ++ s4 (Int32.ofNat n)

/-- A `lookupswitch` at offset 0 with a header for `n` entries and no entries. -/
def bareLookup (n : Nat) : Bytes := [0xab, 0, 0, 0] ++ s4 0 ++ s4 (Int32.ofNat n)

theorem toInt_ofNat {n : Nat} (h : n ≤ 2147483647) : (Int32.ofNat n).toInt = n := by
  rw [Int32.toInt_ofNat_of_lt (by omega)]

theorem bareTable_header (checks : Bool) {n : Nat} (h0 : 1 ≤ n) (h : n ≤ 2147483647) : SwitchHeader checks 0 n (bareTable n) := by
  have ht := toInt_ofNat h
  refine .inl ⟨0, 1, Int32.ofNat n, ?_, .inl ⟨?_, by omega⟩, [0xaa], _, rfl, rfl, [0, 0, 0], _, rfl, ⟨by decide, by decide⟩, _, _, rfl, rfl, _, _, rfl, rfl, rfl⟩
  · rw [Int32.le_iff_toInt_le, ht]; show (1 : Int) ≤ n; omega
  · rw [ht]; show (n : Int) = n - 1 + 1; omega

theorem bareLookup_header (checks : Bool) {n : Nat} (h : n ≤ 2147483647) : SwitchHeader checks 0 n (bareLookup n) :=
  .inr ⟨0, Int32.ofNat n, toInt_ofNat h, [0xab], _, rfl, rfl, [0, 0, 0], _, rfl, ⟨by decide, by decide⟩, _, _, rfl, rfl, rfl⟩

theorem bare_insn {checks : Bool} {pool : Pool} {code s t : Bytes} {n : Nat} {op : Opcode} (hh : SwitchHeader checks 0 n code) (h0 : 1 ≤ n)
    (hi : InsnEnc checks pool 0 op s) (he : code = s ++ t) : False := by
  have hz : tableSize op = some n := by
    rw [← capacityAt_insn (checks := checks) (code := code) (ix := 0) (Nat.zero_le _) he hi]
    exact (capacityAt_some (Nat.zero_le _)).mpr ⟨code, [], by simp, hh⟩
  have hl := congrArg List.length he
  rw [List.length_append] at hl
  unfold tableSize at hz
  split at hz
  · cases hz
    obtain ⟨-, s0, t0, rfl, rfl, s1, t1, rfl, hpad, _, t2, rfl, rfl, _, t3, rfl, rfl, _, t4, rfl, rfl, h3⟩ := hi
    have h4 := seq_length_eq (k := 4) (by rintro a s rfl; rfl) h3
    have h5 := pad3 hpad
    simp only [List.length_append, List.length_singleton, s4, u4_length] at hl
    rcases hh with ⟨d, low, high, hle, hn, s0, t0, rfl, rfl, s1', t1, rfl, hpad', _, t2, rfl, rfl, _, t3, rfl, rfl, rfl⟩ |
      ⟨d, np, hn, s0, t0, rfl, rfl, s1', t1, rfl, hpad', _, t2, rfl, rfl, rfl⟩
    · have h6 := pad3 hpad'
      simp only [List.length_append, List.length_singleton, s4, u4_length] at hl
      omega
    · cases he
  · cases hz
    obtain ⟨np, hn, s0, t0, rfl, rfl, s1, t1, rfl, hpad, _, t2, rfl, rfl, _, t3, rfl, rfl, h3⟩ := hi
    have h4 := seq_length_eq (k := 8) (by rintro a s rfl; rfl) h3
    have h5 := pad3 hpad
    simp only [List.length_append, List.length_singleton, s4, u4_length] at hl
    rcases hh with ⟨d, low, high, hle, hn, s0, t0, rfl, rfl, s1', t1, rfl, hpad', _, t2, rfl, rfl, _, t3, rfl, rfl, rfl⟩ |
      ⟨d, np, hn, s0, t0, rfl, rfl, s1', t1, rfl, hpad', _, t2, rfl, rfl, rfl⟩
    · cases he
    · have h6 := pad3 hpad'
      simp only [List.length_append, List.length_singleton, s4, u4_length] at hl
      omega
  · cases hz

theorem bare_capacities {checks : Bool} {pool : Pool} {code : Bytes} {n : Nat} (hh : SwitchHeader checks 0 n code) (h0 : 1 ≤ n) :
    capacities checks code pool = [n] ∧ ∀ ops, ¬ InsnsEnc checks pool 0 ops code := by
  have hcap : capacityAt checks code 0 = some n := (capacityAt_some (Nat.zero_le _)).mpr ⟨code, [], by simp, hh⟩
  have hpos : 0 < code.length := by
    rcases hh with ⟨d, low, high, hle, hn, s0, t0, rfl, rfl, -⟩ | ⟨d, np, hn, s0, t0, rfl, rfl, -⟩ <;> simp
  constructor
  · unfold capacities capacitiesLoop
    rw [if_pos hpos, hcap]
    have : ∀ op ix', readOpcode checks pool code 0 ≠ .ok (op, ix') := by
      intro op ix' ho
      obtain ⟨seg, r, hd, hi, rfl⟩ := (readOpcode_exact checks pool 0 code (Nat.zero_le _) op ix').mp ho
      exact bare_insn hh h0 hi hd
    split
    · rename_i op ix' ho; exact (this op ix' ho).elim
    · rfl
  · intro ops h
    generalize hc : code = d at h
    cases h with
    | nil => rw [hc] at hpos; cases hpos
    | @cons _ op ops s t hi ht => exact bare_insn hh h0 hi hc

/-- Sixteen bytes make the parser request memory for any number of `tableswitch` entries up to 2^31 - 1, after which it finds none of them:
the code array is refused. -/
theorem C44_tableswitch (checks : Bool) (pool : Pool) (n : Nat) (h0 : 1 ≤ n) (h : n ≤ 2147483647) :
    ∃ code : Bytes, code.length = 16 ∧ capacities checks code pool = [n] ∧ ∀ ops, ¬ InsnsEnc checks pool 0 ops code :=
  ⟨bareTable n, rfl, bare_capacities (bareTable_header checks h0 h) h0⟩

/-- Twelve bytes do the same for `lookupswitch`. -/
theorem C44_lookupswitch (checks : Bool) (pool : Pool) (n : Nat) (h0 : 1 ≤ n) (h : n ≤ 2147483647) :
    ∃ code : Bytes, code.length = 12 ∧ capacities checks code pool = [n] ∧ ∀ ops, ¬ InsnsEnc checks pool 0 ops code :=
  ⟨bareLookup n, rfl, bare_capacities (bareLookup_header checks h) h0⟩

/-- In a file: wherever a Code attribute may stand, one with such a code array reserves the memory and is then refused, whatever follows. -/
theorem C44_refused {o : Opts} {pool : Pool} {pre rest : Bytes} {i maxStack maxLocals : UInt16} {n : UInt32} (hop : OpenFile o pool pre)
    (hi : TextAt pool i.toNat "Code".toList) (hp : o.parseBytecode = true) (k : Nat) (h0 : 1 ≤ k) (h : k ≤ 2147483647) :
    ∃ code : Bytes, capacities o.checks code pool = [k] ∧
      Refused o (pre ++ (u2 i ++ u4 n ++ (u2 maxStack ++ u2 maxLocals ++ (u4 12 ++ code) ++ rest))) := by
  obtain ⟨code, h1, h2, h3⟩ := C44_lookupswitch o.checks pool k h0 h
  exact ⟨code, h2, code_refused hop hi hp (by rw [h1]; rfl) fun bc hbc => h3 _ hbc.1⟩

example : ∃ (pre : Bytes) (i : UInt16), OpenFile debug fullCf.constantPool pre ∧ TextAt fullCf.constantPool i.toNat "Code".toList ∧
    debug.parseBytecode = true := by
  obtain ⟨pre, i, h1, h2⟩ := full_open_code
  exact ⟨pre, i, h1, h2, rfl⟩

end Cafebabe
