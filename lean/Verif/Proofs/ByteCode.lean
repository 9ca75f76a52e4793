import Verif.Proofs.Insn
/-!
# Proofs: a code array is decoded exactly when it is a sequence of instructions whose jumps land on instructions
-/

namespace Cafebabe
open Spec

theorem readOpcodesLoop_ok (checks : Bool) (pool : Pool) (code : Bytes) :
    ∀ (fuel ix : Nat), ix ≤ code.length → code.length - ix < fuel → ∀ ops,
      readOpcodesLoop checks pool code fuel ix = .ok ops ↔ InsnsEnc checks pool ix ops (code.drop ix) := by
  intro fuel
  induction fuel with
  | zero => intro ix h1 h2; omega
  | succ fuel ih =>
    intro ix h1 h2 ops
    unfold readOpcodesLoop
    split
    · rename_i hlt
      rw [Res.bind_ok]
      constructor
      · rintro ⟨⟨op, ix'⟩, ho, h⟩
        obtain ⟨rest, hr, h⟩ := Res.bind_ok.mp h
        cases h
        obtain ⟨seg, r, hd, hi, rfl⟩ := (readOpcode_exact checks pool ix code h1 op ix').mp ho
        have hl := length_of_drop_eq h1 hd
        have hne := List.length_pos_iff.mpr (insnEnc_ne_nil hi)
        rw [hd]
        refine .cons hi ?_
        have := (ih (ix + seg.length) (by omega) (by omega) rest).mp hr
        rwa [drop_of_drop_eq hd] at this
      · intro h
        generalize hd : code.drop ix = d at h
        cases h with
        | nil => have := congrArg List.length hd; simp at this; omega
        | @cons _ op ops s t hi ht =>
          have hl := length_of_drop_eq h1 hd
          have hne := List.length_pos_iff.mpr (insnEnc_ne_nil hi)
          refine ⟨(op, ix + s.length), (readOpcode_exact checks pool ix code h1 op _).mpr ⟨s, t, hd, hi, rfl⟩, ?_⟩
          refine Res.bind_ok.mpr ⟨ops, (ih (ix + s.length) (by omega) (by omega) ops).mpr ?_, rfl⟩
          rw [drop_of_drop_eq hd]; exact ht
    · rename_i hge
      have : code.drop ix = [] := List.drop_eq_nil_iff.mpr (by omega)
      rw [this]
      constructor
      · intro h; cases h; exact .nil _
      · intro h
        generalize hd : ([] : Bytes) = d at h
        cases h with
        | nil => rfl
        | @cons _ op ops s t hi ht =>
          have := insnEnc_ne_nil hi
          simp_all

theorem readOpcodes_ok (checks : Bool) (pool : Pool) (code : Bytes) (ops : List (Nat × Opcode)) :
    readOpcodes checks code pool = .ok ops ↔ InsnsEnc checks pool 0 ops code := by
  unfold readOpcodes
  rw [readOpcodesLoop_ok checks pool code _ 0 (Nat.zero_le _) (by omega) ops]
  simp

/-! ## Offsets increase -/

/-- Offsets strictly increase. -/
def Increasing (ops : List (Nat × Opcode)) : Prop := ops.Pairwise fun a b => a.1 < b.1

theorem insnsEnc_offsets {checks : Bool} {pool : Pool} {pos : Nat} {ops : List (Nat × Opcode)} {code : Bytes}
    (h : InsnsEnc checks pool pos ops code) : Increasing ops ∧ ∀ x ∈ ops, pos ≤ x.1 ∧ x.1 < pos + code.length := by
  induction h with
  | nil pos => exact ⟨List.Pairwise.nil, by simp⟩
  | @cons pos op ops s t hi ht ih =>
    have hne := List.length_pos_iff.mpr (insnEnc_ne_nil hi)
    refine ⟨List.Pairwise.cons (fun x hx => ?_) ih.1, ?_⟩
    · have := (ih.2 x hx).1; simp only; omega
    · rw [List.length_append]
      rintro x hx
      rcases List.mem_cons.mp hx with rfl | hx
      · simp only; omega
      · have := ih.2 x hx; omega

/-! ## Binary search -/

theorem increasing_get {ops : List (Nat × Opcode)} (hs : Increasing ops) {i j : Nat} {x y : Nat × Opcode}
    (hi : ops[i]? = some x) (hj : ops[j]? = some y) (hij : i < j) : x.1 < y.1 := by
  obtain ⟨h1, rfl⟩ := List.getElem?_eq_some_iff.mp hi
  obtain ⟨h2, rfl⟩ := List.getElem?_eq_some_iff.mp hj
  exact List.pairwise_iff_getElem.mp hs i j h1 h2 hij

theorem opcodeIndexLoop_returns (ops : List (Nat × Opcode)) (offset : Nat) :
    ∀ (fuel min max : Nat), max ≤ ops.length → max - min < fuel → ∃ r, opcodeIndexLoop ops offset fuel min max = .ok r := by
  intro fuel
  induction fuel with
  | zero => intro min max h1 h2; omega
  | succ fuel ih =>
    intro min max h1 h2
    unfold opcodeIndexLoop
    split
    · rename_i hlt
      have hmid : (min + max) / 2 < ops.length := by omega
      simp only [List.getElem?_eq_getElem hmid]
      split
      · exact ⟨_, rfl⟩
      · split
        · exact ih _ _ (by omega) (by omega)
        · split
          · exact ⟨_, rfl⟩
          · rename_i hne
            have hne : min ≠ (min + max) / 2 := by simpa using hne
            exact ih _ _ h1 (by omega)
    · exact ⟨_, rfl⟩

theorem opcodeIndexLoop_sound (ops : List (Nat × Opcode)) (offset : Nat) :
    ∀ (fuel min max i : Nat), opcodeIndexLoop ops offset fuel min max = .ok (some i) → ∃ op, ops[i]? = some (offset, op) := by
  intro fuel
  induction fuel with
  | zero => intro min max i h; cases h
  | succ fuel ih =>
    intro min max i h
    unfold opcodeIndexLoop at h
    split at h
    · simp only at h
      split at h
      · cases h
      · rename_i m op hm
        split at h
        · rename_i he
          cases h
          exact ⟨op, by rw [hm, eq_of_beq he]⟩
        · split at h
          · exact ih _ _ _ h
          · split at h
            · cases h
            · exact ih _ _ _ h
    · cases h

theorem opcodeIndexLoop_complete (ops : List (Nat × Opcode)) (hs : Increasing ops) (offset : Nat) (i : Nat) (op : Opcode)
    (hi : ops[i]? = some (offset, op)) :
    ∀ (fuel min max : Nat), max ≤ ops.length → max - min < fuel → min ≤ i → i < max →
      opcodeIndexLoop ops offset fuel min max = .ok (some i) := by
  intro fuel
  induction fuel with
  | zero => intro min max h1 h2; omega
  | succ fuel ih =>
    intro min max h1 h2 h3 h4
    unfold opcodeIndexLoop
    rw [if_pos (by omega)]
    have hmid : (min + max) / 2 < ops.length := by omega
    have hm := List.getElem?_eq_getElem hmid
    generalize ops[(min + max) / 2] = x at hm
    obtain ⟨m, op'⟩ := x
    simp only [hm]
    have l1 : i < (min + max) / 2 → offset < m := fun h => increasing_get hs hi hm h
    have l2 : (min + max) / 2 < i → m < offset := fun h => increasing_get hs hm hi h
    split
    · rename_i he
      have he := eq_of_beq he
      have : i = (min + max) / 2 := by
        rcases Nat.lt_trichotomy i ((min + max) / 2) with h | h | h
        · have := l1 h; omega
        · exact h
        · have := l2 h; omega
      rw [this]
    · rename_i he
      have hne : i ≠ (min + max) / 2 := by
        intro h
        rw [← h, hi] at hm
        cases hm
        simp at he
      split
      · rename_i hgt
        refine ih _ _ (by omega) (by omega) h3 ?_
        rcases Nat.lt_or_gt_of_ne hne with h | h
        · exact h
        · have := l2 h; omega
      · rename_i hle
        have hlt : (min + max) / 2 < i := by
          rcases Nat.lt_or_gt_of_ne hne with h | h
          · have := l1 h; omega
          · exact h
        have hne' : (min == (min + max) / 2) = false := by
          rw [beq_eq_false_iff_ne]; omega
        rw [hne']
        exact ih _ _ h1 (by omega) (by omega) h4

theorem getOpcodeIndex_returns (bc : ByteCode) (offset : Nat) : ∃ r, bc.getOpcodeIndex offset = .ok r :=
  opcodeIndexLoop_returns _ _ _ _ _ (Nat.le_refl _) (by omega)

theorem getOpcodeIndex_some (bc : ByteCode) (hs : Increasing bc.opcodes) (offset i : Nat) :
    bc.getOpcodeIndex offset = .ok (some i) ↔ ∃ op, bc.opcodes[i]? = some (offset, op) := by
  constructor
  · exact opcodeIndexLoop_sound _ _ _ _ _ _
  · rintro ⟨op, h⟩
    obtain ⟨hl, -⟩ := List.getElem?_eq_some_iff.mp h
    exact opcodeIndexLoop_complete _ hs _ _ op h _ _ _ (Nat.le_refl _) (by omega) (Nat.zero_le _) hl

/-! ## Jumps -/

theorem addI32_ok {checks : Bool} {a b s : Int32} (ha : 0 ≤ a.toInt) :
    (addI32 checks a b = .ok s ∧ ¬ s.toInt < 0) ↔
      (s.toInt = a.toInt + b.toInt ∧ 0 ≤ a.toInt + b.toInt ∧ a.toInt + b.toInt ≤ 2147483647) := by
  have l1 := int32_low a; have h1 := int32_high a
  have l2 := int32_low b; have h2 := int32_high b
  have hadd : (a + b).toInt = (a.toInt + b.toInt).bmod 4294967296 := Int32.toInt_add ..
  have bm : ∀ x : Int, x.bmod 4294967296 = if x % 4294967296 < 2147483648 then x % 4294967296 else x % 4294967296 - 4294967296 := by
    intro x; rw [Int.bmod_def]; rfl
  rw [bm] at hadd
  unfold addI32
  split
  · rename_i h
    simp only [Bool.and_eq_true, Bool.or_eq_true, decide_eq_true_eq] at h
    simp only [reduceCtorEq, false_and, false_iff]
    omega
  · simp only [Res.ok.injEq]
    constructor
    · rintro ⟨rfl, h⟩
      split at hadd <;> omega
    · rintro ⟨h, h3, h4⟩
      refine ⟨Int32.toInt_inj.mp ?_, by omega⟩
      rw [h]
      split at hadd <;> omega

theorem validateJump_ok {checks : Bool} {bc : ByteCode} (hs : Increasing bc.opcodes) {src jump : Int32} (h0 : 0 ≤ src.toInt) :
    bc.validateJump checks src jump = .ok () ↔
      ∃ o op, (o, op) ∈ bc.opcodes ∧ (o : Int) = src.toInt + jump.toInt ∧ o < 2147483648 := by
  unfold ByteCode.validateJump
  rw [Res.bind_ok]
  constructor
  · rintro ⟨s, hs', h⟩
    split at h
    · cases h
    · rename_i hneg
      obtain ⟨r, hr, h⟩ := Res.bind_ok.mp h
      cases r with
      | none => cases h
      | some i =>
        obtain ⟨op, hop⟩ := (getOpcodeIndex_some bc hs _ i).mp hr
        have := (addI32_ok h0).mp ⟨hs', hneg⟩
        exact ⟨_, op, List.mem_of_getElem? hop, by omega, by omega⟩
  · rintro ⟨o, op, hm, ho, hlt⟩
    obtain ⟨i, hi⟩ := List.getElem?_of_mem hm
    have hs32 : (Int32.ofInt (src.toInt + jump.toInt)).toInt = src.toInt + jump.toInt := by
      rw [Int32.toInt_ofInt, Int.bmod_def]
      simp only [Int32.size]
      split <;> omega
    obtain ⟨hadd, hneg⟩ := (addI32_ok (checks := checks) (a := src) (b := jump) (s := Int32.ofInt (src.toInt + jump.toInt)) h0).mpr
      ⟨hs32, by omega, by omega⟩
    refine ⟨_, hadd, ?_⟩
    rw [if_neg hneg]
    have : (Int32.ofInt (src.toInt + jump.toInt)).toInt.toNat = o := by omega
    rw [this]
    exact Res.bind_ok.mpr ⟨some i, (getOpcodeIndex_some bc hs _ i).mpr ⟨op, hi⟩, rfl⟩

/-- Where one jump lands. -/
def Lands (ops : List (Nat × Opcode)) (o : Nat) (j : Int32) : Prop :=
  ∃ (o' : Nat) (op' : Opcode), (o', op') ∈ ops ∧ (o' : Int) = (o : Int) + j.toInt ∧ o' < 2147483648

theorem validateMatchOffsets_ok {checks : Bool} {bc : ByteCode} (hs : Increasing bc.opcodes) {src : Int32} (h0 : 0 ≤ src.toInt) :
    ∀ (l : List (Int32 × Int32)), validateMatchOffsets checks bc src l = .ok () ↔
      ∀ j ∈ l.map (·.2), ∃ o op, (o, op) ∈ bc.opcodes ∧ (o : Int) = src.toInt + j.toInt ∧ o < 2147483648
  | [] => by simp [validateMatchOffsets]
  | (i, j) :: l => by
    unfold validateMatchOffsets
    rw [Res.bind_ok, List.map_cons, List.forall_mem_cons, ← validateMatchOffsets_ok hs h0 l, ← validateJump_ok (checks := checks) hs h0]
    simp only [Res.mapErr_ok]
    constructor
    · rintro ⟨_, h, h'⟩; exact ⟨h, h'⟩
    · rintro ⟨h, h'⟩; exact ⟨(), h, h'⟩

theorem validateRangeOffsets_ok {checks : Bool} {bc : ByteCode} (hs : Increasing bc.opcodes) {src : Int32} (h0 : 0 ≤ src.toInt) :
    ∀ (l : List Int32) (i : Nat), validateRangeOffsets checks bc src i l = .ok () ↔
      ∀ j ∈ l, ∃ o op, (o, op) ∈ bc.opcodes ∧ (o : Int) = src.toInt + j.toInt ∧ o < 2147483648
  | [], i => by simp [validateRangeOffsets]
  | j :: l, i => by
    unfold validateRangeOffsets
    rw [Res.bind_ok, List.forall_mem_cons, ← validateRangeOffsets_ok hs h0 l (i + 1), ← validateJump_ok (checks := checks) hs h0]
    simp only [Res.mapErr_ok]
    constructor
    · rintro ⟨_, h, h'⟩; exact ⟨h, h'⟩
    · rintro ⟨h, h'⟩; exact ⟨(), h, h'⟩

theorem validateOpcodeJumps_ok {checks : Bool} {bc : ByteCode} (hs : Increasing bc.opcodes) (o : Nat) (op : Opcode) :
    bc.validateOpcodeJumps checks o op = .ok () ↔ o < 2147483648 ∧ ∀ j ∈ jumpsOf op, Lands bc.opcodes o j := by
  unfold ByteCode.validateOpcodeJumps
  split
  · constructor
    · intro h; cases h
    · rintro ⟨h, -⟩; omega
  · rename_i hle
    have hlt : o < 2147483648 := by omega
    have hsrc : (Int32.ofNat o).toInt = o := by
      rw [Int32.toInt_ofNat']
      rw [Int.bmod_def]
      simp only [Int32.size]
      split <;> omega
    have h0 : 0 ≤ (Int32.ofNat o).toInt := by omega
    simp only [hlt, true_and, Lands, ← hsrc]
    cases op <;> simp only [jumpsOf, List.not_mem_nil, false_implies, implies_true, List.forall_mem_singleton, validateJump_ok hs h0, List.forall_mem_cons]
    · rw [Res.bind_ok, ← validateMatchOffsets_ok (checks := checks) hs h0, ← validateJump_ok (checks := checks) hs h0]
      simp only [Res.mapErr_ok]
      constructor
      · rintro ⟨_, h, h'⟩; exact ⟨h, h'⟩
      · rintro ⟨h, h'⟩; exact ⟨(), h, h'⟩
    · rename_i t
      rw [Res.bind_ok, ← validateRangeOffsets_ok (checks := checks) hs h0 t.jumps 0, ← validateJump_ok (checks := checks) hs h0]
      simp only [Res.mapErr_ok]
      constructor
      · rintro ⟨_, h, h'⟩; exact ⟨h, h'⟩
      · rintro ⟨h, h'⟩; exact ⟨(), h, h'⟩

theorem validateJumpsFrom_ok {checks : Bool} {bc : ByteCode} (hs : Increasing bc.opcodes) :
    ∀ (l : List (Nat × Opcode)), bc.validateJumpsFrom checks l = .ok () ↔
      ∀ x ∈ l, x.1 < 2147483648 ∧ ∀ j ∈ jumpsOf x.2, Lands bc.opcodes x.1 j
  | [] => by simp [ByteCode.validateJumpsFrom]
  | (o, op) :: l => by
    unfold ByteCode.validateJumpsFrom
    rw [Res.bind_ok, List.forall_mem_cons, ← validateJumpsFrom_ok hs l, ← validateOpcodeJumps_ok (checks := checks) hs o op]
    simp only [Res.mapErr_ok]
    constructor
    · rintro ⟨_, h, h'⟩; exact ⟨h, h'⟩
    · rintro ⟨h, h'⟩; exact ⟨(), h, h'⟩

theorem ofCode_ok (checks : Bool) (code : Bytes) (pool : Pool) (bc : ByteCode) :
    ByteCode.ofCode checks code pool = .ok bc ↔ ByteCodeEnc checks pool bc code := by
  unfold ByteCode.ofCode ByteCodeEnc
  rw [Res.bind_ok]
  constructor
  · rintro ⟨ops, ho, h⟩
    obtain ⟨_, hv, h⟩ := Res.bind_ok.mp h
    cases h
    have henc := (readOpcodes_ok checks pool code ops).mp ho
    have hv := (validateJumpsFrom_ok (insnsEnc_offsets henc).1 _).mp hv
    refine ⟨henc, fun o op hm => (hv _ hm).1, fun o op hm j hj => ?_⟩
    obtain ⟨o', op', h1, h2, -⟩ := (hv _ hm).2 j hj
    exact ⟨o', op', h1, h2⟩
  · rintro ⟨henc, hlt, hj⟩
    refine ⟨bc.opcodes, (readOpcodes_ok checks pool code _).mpr henc, ?_⟩
    refine Res.bind_ok.mpr ⟨(), (validateJumpsFrom_ok (insnsEnc_offsets henc).1 _).mpr ?_, rfl⟩
    rintro ⟨o, op⟩ hm
    refine ⟨hlt o op hm, fun j hjm => ?_⟩
    obtain ⟨o', op', h1, h2⟩ := hj o op hm j hjm
    exact ⟨o', op', h1, h2, hlt _ _ h1⟩

end Cafebabe
