import Verif.Spec.Numbers
import Verif.Props.CodeProps
/-!
# Numbers are bit-exact, strings are never lossy: C38, C39
-/

namespace Cafebabe
open Spec Examples

/-! ## Bytes of constants -/

theorem beNat_u1 (v : UInt8) : beNat (u1 v) = v.toNat := by simp [beNat, u1]

theorem beNat_u2 (v : UInt16) : beNat (u2 v) = v.toNat := by
  have := v.toNat_lt
  simp only [beNat, u2, List.foldl_cons, List.foldl_nil, toNat_byte]
  omega

theorem beNat_u4 (v : UInt32) : beNat (u4 v) = v.toNat := by
  have := v.toNat_lt
  simp only [beNat, u4, List.foldl_cons, List.foldl_nil, toNat_byte]
  omega

theorem beNat_u8 (v : UInt64) : beNat (u8 v) = v.toNat := by
  have := v.toNat_lt
  simp only [beNat, u8, List.foldl_cons, List.foldl_nil, toNat_byte]
  omega

theorem twos_s1 (v : Int8) : twos 8 (beNat (s1 v)) = v.toInt := by
  rw [s1, beNat_u1]
  show twos 8 v.toBitVec.toNat = v.toBitVec.toInt
  rw [BitVec.toInt_eq_toNat_cond]
  simp [twos]

theorem twos_s2 (v : Int16) : twos 16 (beNat (s2 v)) = v.toInt := by
  rw [s2, beNat_u2]
  show twos 16 v.toBitVec.toNat = v.toBitVec.toInt
  rw [BitVec.toInt_eq_toNat_cond]
  simp [twos]

theorem twos_s4 (v : Int32) : twos 32 (beNat (s4 v)) = v.toInt := by
  rw [s4, beNat_u4]
  show twos 32 v.toBitVec.toNat = v.toBitVec.toInt
  rw [BitVec.toInt_eq_toNat_cond]
  simp [twos]

theorem twos_s8 (v : Int64) : twos 64 (beNat (u8 v.toUInt64)) = v.toInt := by
  rw [beNat_u8]
  show twos 64 v.toBitVec.toNat = v.toBitVec.toInt
  rw [BitVec.toInt_eq_toNat_cond]
  simp [twos]

/-- The length and the slots of an encoded constant can be read off its bytes. -/
theorem constantLength_enc {decode : Bytes → Option Str} {major : UInt16} {e : Entry} {seg rest : Bytes} (h : EntryEnc decode major e seg) :
    ∃ tag t, seg = tag :: t ∧ constantLength (seg ++ rest) = some seg.length ∧ (slots e).length = slotWidth tag := by
  have h2 : ∀ (n : UInt16) (b : Bytes), n.toNat = b.length → constantLength ([1] ++ u2 n ++ b ++ rest) = some ([1] ++ u2 n ++ b).length := by
    intro n b hn
    have : constantLength ([1] ++ u2 n ++ b ++ rest) = some (3 + beNat (u2 n)) := rfl
    rw [this, beNat_u2, hn]
    simp [u2]
    omega
  cases e with
  | utf8 s => obtain ⟨n, b, hn, -, rfl⟩ := h; exact ⟨_, _, rfl, h2 n b hn, rfl⟩
  | utf8Bytes b => obtain ⟨n, hn, -, rfl⟩ := h; exact ⟨_, _, rfl, h2 n b hn, rfl⟩
  | integer | float | long | double => obtain rfl := h; exact ⟨_, _, rfl, rfl, rfl⟩
  | classInfo x | string x => cases x <;> first | exact h.elim | (obtain rfl := h; exact ⟨_, _, rfl, rfl, rfl⟩)
  | methodType x | moduleInfo x | packageInfo x => cases x <;> first | exact h.elim | (obtain ⟨-, rfl⟩ := h; exact ⟨_, _, rfl, rfl, rfl⟩)
  | methodHandle k x | dynamic k x | invokeDynamic k x => cases x <;> first | exact h.elim | (obtain ⟨-, rfl⟩ := h; exact ⟨_, _, rfl, rfl, rfl⟩)
  | fieldRef x y | methodRef x y | interfaceMethodRef x y | nameAndType x y =>
    cases x <;> cases y <;> first | exact h.elim | (obtain rfl := h; exact ⟨_, _, rfl, rfl, rfl⟩)
  | zero | unused => exact h.elim

theorem slots_head (e : Entry) : ∃ l, slots e = e :: l ∧ ∀ f ∈ l, f = .unused := by
  cases e <;> simp [slots]

/-- Bytes of the constant that put an entry into a slot. -/
theorem constantBytes_of_slot {decode : Bytes → Option Str} {major : UInt16} : ∀ {es : List Entry} {body : Bytes} (k i : Nat) (rest : Bytes) {e : Entry},
    seq (EntryEnc decode major) es body → (es.flatMap slots)[i]? = some e → e ≠ .unused →
      ∃ seg, ConstantBytes k (body ++ rest) (k + i) seg ∧ EntryEnc decode major e seg
  | [], _, _, _, _, _, _, h, _ => by simp at h
  | f :: es, _, k, i, rest, e, ⟨s, t, rfl, hs, ht⟩, h, hu => by
    obtain ⟨tag, t', rfl, hlen, hw⟩ := constantLength_enc (rest := t ++ rest) hs
    obtain ⟨l, hl, hl'⟩ := slots_head f
    rw [List.flatMap_cons] at h
    by_cases hi : i < (slots f).length
    · rw [List.getElem?_append_left hi, hl] at h
      rcases i with - | i
      · simp only [List.getElem?_cons_zero, Option.some.injEq] at h
        subst h
        rw [List.append_assoc]
        exact ⟨_, .here hlen, hs⟩
      · rw [List.getElem?_cons_succ] at h
        exact absurd (hl' e (List.mem_of_getElem? h)) hu
    · rw [List.getElem?_append_right (by omega)] at h
      obtain ⟨seg, h1, h2⟩ := constantBytes_of_slot (k + slotWidth tag) (i - (slots f).length) rest ht h hu
      refine ⟨seg, ?_, h2⟩
      rw [List.append_assoc]
      refine .next hlen ?_
      rwa [show k + slotWidth tag + (i - (slots f).length) = k + i by omega] at h1

theorem constantBytes_ge {k i : Nat} {body seg : Bytes} (h : ConstantBytes k body i seg) : k ≤ i := by
  induction h with
  | here => exact Nat.le_refl _
  | next => omega

theorem slotWidth_pos (tag : UInt8) : 0 < slotWidth tag := by unfold slotWidth; split <;> omega

/-- A slot has one constant. -/
theorem constantBytes_unique {k i : Nat} {body seg seg' : Bytes} (h : ConstantBytes k body i seg) (h' : ConstantBytes k body i seg') : seg = seg' := by
  induction h with
  | @here k seg rest hl =>
    generalize hb : seg ++ rest = body at h' hl
    cases h' with
    | here hl' =>
      rw [hl'] at hl
      exact (List.append_inj hb (by injection hl with h; exact h.symm)).1
    | @next _ _ tag _ _ _ hl' h' => have := constantBytes_ge h'; have := slotWidth_pos tag; omega
  | @next k i tag t rest seg hl h ih =>
    have hge := constantBytes_ge h
    generalize hb : tag :: t ++ rest = body at h' hl
    cases h' with
    | here hl' => have := slotWidth_pos tag; omega
    | @next _ _ tag' t' rest' _ hl' h' =>
      rw [hl'] at hl
      obtain ⟨h1, h2⟩ := List.append_inj hb (by injection hl with h; exact h.symm)
      cases h1
      subst h2
      exact ih h'

/-- Slot `i` of an accepted file holds the linked form of the constant its bytes encode. -/
theorem raw_of_slot {o : Opts} {bytes : Bytes} {cf : ClassFile} (h : Accepts o bytes cf) {i : Nat} {e : Entry}
    (hi : cf.constantPool[i]? = some e) (h0 : e ≠ .zero) (hu : e ≠ .unused) :
    ∃ seg raw, RawConstant bytes i seg ∧ e = linkEntry raw ∧ EntryEnc o.decode cf.majorVersion raw seg := by
  obtain ⟨count, es, body, rest, rfl, -, hmap, hs, -⟩ := enc_pool (accepts_iff_enc.mp h)
  rw [hmap, List.getElem?_map, Option.map_eq_some_iff] at hi
  obtain ⟨raw, hr, rfl⟩ := hi
  rcases i with - | i
  · cases hr; exact absurd rfl h0
  rw [List.getElem?_cons_succ] at hr
  have hu' : raw ≠ .unused := by rintro rfl; exact hu rfl
  obtain ⟨seg, h1, h2⟩ := constantBytes_of_slot 1 i rest hs hr hu'
  refine ⟨seg, raw, ?_, rfl, h2⟩
  unfold RawConstant
  have : (header cf.minorVersion cf.majorVersion ++ u2 count ++ body ++ rest).drop 10 = body ++ rest := rfl
  rw [this, Nat.add_comm i 1]
  exact h1

/-- The bytes of the constant in a slot are an encoding of what the slot holds. -/
theorem slot_of_constantBytes {decode : Bytes → Option Str} {major : UInt16} : ∀ {es : List Entry} {body : Bytes} {k i : Nat} {rest seg : Bytes},
    seq (EntryEnc decode major) es body → ConstantBytes k (body ++ rest) i seg → i < k + (es.flatMap slots).length →
      ∃ e, (es.flatMap slots)[i - k]? = some e ∧ EntryEnc decode major e seg
  | [], _, k, i, rest, seg, _, h, hl => by
    have := constantBytes_ge h
    simp at hl
    omega
  | f :: es, _, k, i, rest, seg, ⟨s, t, rfl, hs, ht⟩, h, hl => by
    obtain ⟨tag, t', rfl, hlen, hw⟩ := constantLength_enc (rest := t ++ rest) hs
    obtain ⟨l, hl1, -⟩ := slots_head f
    by_cases hik : i = k
    · subst hik
      rw [List.append_assoc] at h
      obtain rfl := constantBytes_unique h (.here hlen)
      exact ⟨f, by simp [hl1], hs⟩
    · rw [List.append_assoc] at h
      generalize hb : tag :: t' ++ (t ++ rest) = body at h hlen
      cases h with
      | here => exact absurd rfl hik
      | @next _ _ tag2 t2 rest2 _ hlen2 h2 =>
        rw [hlen2] at hlen
        obtain ⟨h3, h4⟩ := List.append_inj hb (by injection hlen with h; exact h.symm)
        cases h3
        subst h4
        have := constantBytes_ge h2
        rw [List.flatMap_cons, List.length_append] at hl
        obtain ⟨e, h5, h6⟩ := slot_of_constantBytes ht h2 (by omega)
        refine ⟨e, ?_, h6⟩
        rw [List.flatMap_cons, List.getElem?_append_right (by omega), show i - k - (slots f).length = i - (k + slotWidth tag) by omega]
        exact h5

theorem slot_of_raw {o : Opts} {bytes : Bytes} {cf : ClassFile} (h : Accepts o bytes cf) {i : Nat} {seg : Bytes}
    (hr : RawConstant bytes i seg) (hi : i < cf.constantPool.length) :
    ∃ raw, cf.constantPool[i]? = some (linkEntry raw) ∧ EntryEnc o.decode cf.majorVersion raw seg := by
  obtain ⟨count, es, body, rest, rfl, -, hmap, hs, -⟩ := enc_pool (accepts_iff_enc.mp h)
  have hge := constantBytes_ge hr
  rw [hmap, List.length_map, List.length_cons] at hi
  have : (header cf.minorVersion cf.majorVersion ++ u2 count ++ body ++ rest).drop 10 = body ++ rest := rfl
  unfold RawConstant at hr
  rw [this] at hr
  obtain ⟨e, h1, h2⟩ := slot_of_constantBytes hs hr (by omega)
  refine ⟨e, ?_, h2⟩
  rw [hmap, List.getElem?_map, show i = (i - 1) + 1 by omega, List.getElem?_cons_succ, h1]
  rfl

/-! ## C38 Numeric constants are bit-exact -/

/-- Where the constants of a file are does not depend on how they are read: every slot has at most one constant, and all slots of an accepted
pool have one, except slot 0 and the second slots of Long and Double constants. -/
theorem C38_slots {o : Opts} {bytes : Bytes} {cf : ClassFile} (h : Accepts o bytes cf) :
    (∀ i seg seg', RawConstant bytes i seg → RawConstant bytes i seg' → seg = seg') ∧
      ∀ i e, cf.constantPool[i]? = some e → e ≠ .zero → e ≠ .unused → ∃ seg, RawConstant bytes i seg := by
  refine ⟨fun i seg seg' => constantBytes_unique, fun i e hi h0 hu => ?_⟩
  obtain ⟨seg, -, h1, -⟩ := raw_of_slot h hi h0 hu
  exact ⟨seg, h1⟩

/-- Integer, Float, Long and Double constants are exactly what the bytes after the tag say: signed numbers in two's complement, floating point
numbers bit by bit. -/
theorem C38_constants {o : Opts} {bytes : Bytes} {cf : ClassFile} (h : Accepts o bytes cf) {i : Nat} {tag : UInt8} {b : Bytes}
    (hr : RawConstant bytes i (tag :: b)) (hi : i < cf.constantPool.length) :
    (tag = 3 → ∃ v : Int32, LiteralAt cf.constantPool i (.integer v) ∧ v.toInt = twos 32 (beNat b)) ∧
      (tag = 4 → ∃ v : UInt32, LiteralAt cf.constantPool i (.float v) ∧ v.toNat = beNat b) ∧
      (tag = 5 → ∃ v : Int64, LiteralAt cf.constantPool i (.long v) ∧ v.toInt = twos 64 (beNat b)) ∧
      (tag = 6 → ∃ v : UInt64, LiteralAt cf.constantPool i (.double v) ∧ v.toNat = beNat b) := by
  obtain ⟨raw, h1, h2⟩ := slot_of_raw h hr hi
  cases raw with
  | integer v => cases h2; exact ⟨fun _ => ⟨v, h1, (twos_s4 v).symm⟩, fun h => absurd h (by decide), fun h => absurd h (by decide), fun h => absurd h (by decide)⟩
  | float v => cases h2; exact ⟨fun h => absurd h (by decide), fun _ => ⟨v, h1, (beNat_u4 v).symm⟩, fun h => absurd h (by decide), fun h => absurd h (by decide)⟩
  | long v => cases h2; exact ⟨fun h => absurd h (by decide), fun h => absurd h (by decide), fun _ => ⟨v, h1, (twos_s8 v).symm⟩, fun h => absurd h (by decide)⟩
  | double v => cases h2; exact ⟨fun h => absurd h (by decide), fun h => absurd h (by decide), fun h => absurd h (by decide), fun _ => ⟨v, h1, (beNat_u8 v).symm⟩⟩
  | utf8 s => obtain ⟨n, d, -, -, h3⟩ := h2; cases h3; exact ⟨fun h => absurd h (by decide), fun h => absurd h (by decide), fun h => absurd h (by decide), fun h => absurd h (by decide)⟩
  | utf8Bytes d => obtain ⟨n, -, -, h3⟩ := h2; cases h3; exact ⟨fun h => absurd h (by decide), fun h => absurd h (by decide), fun h => absurd h (by decide), fun h => absurd h (by decide)⟩
  | classInfo x | string x => cases x <;> first | exact h2.elim | (cases h2; exact ⟨fun h => absurd h (by decide), fun h => absurd h (by decide), fun h => absurd h (by decide), fun h => absurd h (by decide)⟩)
  | methodType x | moduleInfo x | packageInfo x =>
    cases x <;> first | exact h2.elim | (obtain ⟨-, h3⟩ := h2; cases h3; exact ⟨fun h => absurd h (by decide), fun h => absurd h (by decide), fun h => absurd h (by decide), fun h => absurd h (by decide)⟩)
  | methodHandle k x | dynamic k x | invokeDynamic k x =>
    cases x <;> first | exact h2.elim | (obtain ⟨-, h3⟩ := h2; cases h3; exact ⟨fun h => absurd h (by decide), fun h => absurd h (by decide), fun h => absurd h (by decide), fun h => absurd h (by decide)⟩)
  | fieldRef x y | methodRef x y | interfaceMethodRef x y | nameAndType x y =>
    cases x <;> cases y <;> first | exact h2.elim | (cases h2; exact ⟨fun h => absurd h (by decide), fun h => absurd h (by decide), fun h => absurd h (by decide), fun h => absurd h (by decide)⟩)
  | zero | unused => exact h2.elim

/-- Conversely a numeric constant of the result comes from bytes with the tag of its kind and that value. -/
theorem C38_values {o : Opts} {bytes : Bytes} {cf : ClassFile} (h : Accepts o bytes cf) (i : Nat) :
    (∀ v, LiteralAt cf.constantPool i (.integer v) → ∃ b, b.length = 4 ∧ RawConstant bytes i (3 :: b) ∧ v.toInt = twos 32 (beNat b)) ∧
      (∀ v, LiteralAt cf.constantPool i (.float v) → ∃ b, b.length = 4 ∧ RawConstant bytes i (4 :: b) ∧ v.toNat = beNat b) ∧
      (∀ v, LiteralAt cf.constantPool i (.long v) → ∃ b, b.length = 8 ∧ RawConstant bytes i (5 :: b) ∧ v.toInt = twos 64 (beNat b)) ∧
      (∀ v, LiteralAt cf.constantPool i (.double v) → ∃ b, b.length = 8 ∧ RawConstant bytes i (6 :: b) ∧ v.toNat = beNat b) := by
  refine ⟨fun v hv => ?_, fun v hv => ?_, fun v hv => ?_, fun v hv => ?_⟩
  all_goals
    obtain ⟨seg, raw, h1, h2, h3⟩ := raw_of_slot h hv (by intro h; cases h) (by intro h; cases h)
    cases raw <;> cases h2
    cases h3
  · exact ⟨_, rfl, h1, (twos_s4 v).symm⟩
  · exact ⟨_, rfl, h1, (beNat_u4 v).symm⟩
  · exact ⟨_, rfl, h1, (twos_s8 v).symm⟩
  · exact ⟨_, rfl, h1, (beNat_u8 v).symm⟩

/-- `rich` has the Long constant 5 in slot 13 (so C38_values gives its bytes, and C38_constants applies to them), a Double with a NaN payload, and
an Integer with all bits set. -/
example : LiteralAt richCf.constantPool 13 (.long 5) ∧ ∃ b, RawConstant rich 13 (5 :: b) ∧ 13 < richCf.constantPool.length ∧ twos 64 (beNat b) = 5 := by
  obtain ⟨h0, -, -, -, -, -, h1, -⟩ := rich_pool
  obtain ⟨b, -, h2, h3⟩ := (C38_values rich_accepted 13).2.2.1 5 h1
  exact ⟨h1, b, h2, by rw [h0]; decide, h3.symm⟩
example : twos 32 (beNat [255, 255, 255, 255]) = -1 ∧ beNat [0x7F, 0xF8, 0, 0, 0, 0, 0, 1] = 0x7FF8000000000001 := by decide

theorem bytesAt_seg {code s t : Bytes} {off : Nat} (h : code.drop off = s ++ t) (p n : Nat) (hp : p + n ≤ s.length) :
    bytesAt code (off + p) n = bytesAt s p n := by
  unfold bytesAt
  rw [← List.drop_drop, h, List.drop_append_of_le_length (by omega), List.take_append_of_le_length (by simp; omega)]

/-- Operands of `bipush`, `sipush` and `iinc` (narrow and wide) are the sign extension of their bytes. -/
theorem C38_operands {o : Opts} {bytes : Bytes} {cf : ClassFile} (h : Accepts o bytes cf) {c : CodeData} (hc : CodeOf cf c) {bc : ByteCode}
    (hb : c.bytecode = some bc) (off : Nat) :
    (∀ v, (off, Opcode.bipush v) ∈ bc.opcodes → v.toInt = twos 8 (beNat (bytesAt c.code (off + 1) 1))) ∧
      (∀ v, (off, Opcode.sipush v) ∈ bc.opcodes → v.toInt = twos 16 (beNat (bytesAt c.code (off + 1) 2))) ∧
      (∀ n v, (off, Opcode.iinc n v) ∈ bc.opcodes →
        bytesAt c.code off 1 = [0x84] ∧ n.toNat = beNat (bytesAt c.code (off + 1) 1) ∧ v.toInt = twos 8 (beNat (bytesAt c.code (off + 2) 1)) ∨
        bytesAt c.code off 2 = [0xc4, 0x84] ∧ n.toNat = beNat (bytesAt c.code (off + 2) 2) ∧
          v.toInt = twos 16 (beNat (bytesAt c.code (off + 4) 2))) := by
  refine ⟨fun v hv => ?_, fun v hv => ?_, fun n v hv => ?_⟩
  · obtain ⟨seg, rest, hd, rfl⟩ := C31_decoded h hc hb hv
    rw [bytesAt_seg hd 1 1 (Nat.le_of_ble_eq_true rfl)]
    exact (twos_s1 v).symm
  · obtain ⟨seg, rest, hd, rfl⟩ := C31_decoded h hc hb hv
    rw [bytesAt_seg hd 1 2 (Nat.le_of_ble_eq_true rfl)]
    exact (twos_s2 v).symm
  · obtain ⟨seg, rest, hd, ⟨k, w, hk, hw, rfl⟩ | rfl⟩ := C31_decoded h hc hb hv
    · refine .inl ⟨?_, ?_, ?_⟩
      · exact bytesAt_seg hd 0 1 (Nat.le_of_ble_eq_true rfl)
      · rw [bytesAt_seg hd 1 1 (Nat.le_of_ble_eq_true rfl), ← hk]; exact (beNat_u1 k).symm
      · rw [bytesAt_seg hd 2 1 (Nat.le_of_ble_eq_true rfl), ← hw]; exact (twos_s1 w).symm
    · refine .inr ⟨?_, ?_, ?_⟩
      · exact bytesAt_seg hd 0 2 (Nat.le_of_ble_eq_true rfl)
      · rw [bytesAt_seg hd 2 2 (Nat.le_of_ble_eq_true rfl)]; exact (beNat_u2 n).symm
      · rw [bytesAt_seg hd 4 2 (Nat.le_of_ble_eq_true rfl)]; exact (twos_s2 v).symm

/-- A method with `bipush -1; sipush -2; iinc 3 -4; wide iinc 259 -5; return`. -/
def pushes : Bytes := withCode [0x10, 0xff, 0x11, 0xff, 0xfe, 0x84, 3, 0xfc, 0xc4, 0x84, 1, 3, 0xff, 0xfb, 0xb1]

theorem pushes_accepted : ∃ cf c bc, Accepts debug pushes cf ∧ CodeOf cf c ∧ c.bytecode = some bc ∧ (0, Opcode.bipush (-1)) ∈ bc.opcodes ∧
    (2, Opcode.sipush (-2)) ∈ bc.opcodes ∧ (5, Opcode.iinc 3 (-4)) ∈ bc.opcodes ∧ (8, Opcode.iinc 259 (-5)) ∈ bc.opcodes := by
  have h : (match run debug 9 pushes with
    | .ok cf => match firstCode cf with
      | some c => match c.bytecode with
        | some bc => match bc.opcodes with
          | [(0, .bipush a), (2, .sipush b), (5, .iinc n v), (8, .iinc m w), _] => a == -1 && b == -2 && n == 3 && v == -4 && m == 259 && w == -5
          | _ => false
        | none => false
      | none => false
    | _ => false) = true := by decide +kernel
  split at h
  · rename_i cf hcf
    split at h
    · rename_i c hc
      split at h
      · rename_i bc hbc
        split at h
        · rename_i a b n v m w x hops
          simp only [Bool.and_eq_true, beq_iff_eq] at h
          obtain ⟨⟨⟨⟨⟨rfl, rfl⟩, rfl⟩, rfl⟩, rfl⟩, rfl⟩ := h
          exact ⟨cf, c, bc, ⟨9, hcf⟩, firstCode_of hc, hbc, by rw [hops]; simp, by rw [hops]; simp, by rw [hops]; simp, by rw [hops]; simp⟩
        · cases h
      · cases h
    · cases h
  · cases h

/-- The offset of a branch is the sign extension of its two bytes, or all four bytes for `goto_w` and `jsr_w`. -/
theorem C38_branches {o : Opts} {bytes : Bytes} {cf : ClassFile} (h : Accepts o bytes cf) {c : CodeData} (hc : CodeOf cf c) {bc : ByteCode}
    (hb : c.bytecode = some bc) {off : Nat} {op : Opcode} (hop : (off, op) ∈ bc.opcodes) (ht : ∀ t, op ≠ .tableswitch t)
    (hl : ∀ t, op ≠ .lookupswitch t) {j : Int32} (hj : j ∈ jumpsOf op) :
    ∃ code, c.code[off]? = some code ∧ if code = 0xc8 ∨ code = 0xc9
      then j.toInt = twos 32 (beNat (bytesAt c.code (off + 1) 4)) else j.toInt = twos 16 (beNat (bytesAt c.code (off + 1) 2)) := by
  obtain ⟨seg, rest, hd, he⟩ := C31_decoded h hc hb hop
  have key : ∀ code, branchEnc code j seg → code ≠ 0xc8 → code ≠ 0xc9 → ∃ code, c.code[off]? = some code ∧ if code = 0xc8 ∨ code = 0xc9
      then j.toInt = twos 32 (beNat (bytesAt c.code (off + 1) 4)) else j.toInt = twos 16 (beNat (bytesAt c.code (off + 1) 2)) := by
    rintro code ⟨w, hw, rfl⟩ h1 h2
    refine ⟨code, ?_, ?_⟩
    · have := getElem?_of_drop hd 0
      exact this
    · rw [if_neg (by rintro (h | h) <;> contradiction), bytesAt_seg hd 1 2 (Nat.le_of_ble_eq_true rfl), ← hw]
      exact (twos_s2 w).symm
  have key2 : ∀ code, lit ([code] ++ s4 j) seg → code = 0xc8 ∨ code = 0xc9 → ∃ code, c.code[off]? = some code ∧ if code = 0xc8 ∨ code = 0xc9
      then j.toInt = twos 32 (beNat (bytesAt c.code (off + 1) 4)) else j.toInt = twos 16 (beNat (bytesAt c.code (off + 1) 2)) := by
    rintro code rfl h1
    refine ⟨code, ?_, ?_⟩
    · have := getElem?_of_drop hd 0
      exact this
    · rw [if_pos h1, bytesAt_seg hd 1 4 (Nat.le_of_ble_eq_true rfl)]
      exact (twos_s4 j).symm
  cases op <;> simp only [jumpsOf, List.not_mem_nil, List.mem_singleton] at hj
  case tableswitch t => exact absurd rfl (ht t)
  case lookupswitch t => exact absurd rfl (hl t)
  all_goals subst hj
  case goto | jsr =>
    rcases he with he | he
    · exact key _ he (by decide) (by decide)
    · exact key2 _ he (by decide)
  all_goals exact key _ he (by decide) (by decide)

example : ∃ c bc, Accepts debug rich richCf ∧ CodeOf richCf c ∧ c.bytecode = some bc ∧ (27, Opcode.goto (-23)) ∈ bc.opcodes := by
  obtain ⟨c, bc, h1, h2, h3, h4, -⟩ := rich_code
  obtain ⟨-, -, j, h5, rfl⟩ := rich_jumps
  exact ⟨c, bc, rich_accepted, h1, h2, by rw [h4]; exact h5⟩

theorem padding_align {pos : Nat} {seg : Bytes} (h : padding pos seg) : pos + seg.length = align4 pos := by
  obtain ⟨h1, h2⟩ := h
  unfold align4
  omega

theorem seq_word {α : Type} {F : α → Lang} {w : Nat} (hF : ∀ x seg, F x seg → seg.length = w) : ∀ {xs : List α} {seg : Bytes} (k : Nat) (x : α),
    seq F xs seg → xs[k]? = some x → F x (bytesAt seg (w * k) w) ∧ w * k + w ≤ seg.length
  | [], _, _, _, _, h => by simp at h
  | y :: xs, _, k, x, ⟨s, t, rfl, hs, ht⟩, h => by
    have hlen := hF y s hs
    rcases k with - | k
    · simp only [List.getElem?_cons_zero, Option.some.injEq] at h
      subst h
      refine ⟨?_, by simp [hlen]⟩
      unfold bytesAt
      rw [Nat.mul_zero, List.drop_zero, ← hlen, List.take_left]
      exact hs
    · rw [List.getElem?_cons_succ] at h
      obtain ⟨h1, h2⟩ := seq_word hF k x ht h
      rw [Nat.mul_add, Nat.mul_one]
      refine ⟨?_, by simp [hlen]; omega⟩
      unfold bytesAt at h1 ⊢
      rw [Nat.add_comm, ← List.drop_drop, ← hlen, List.drop_left, hlen]
      exact h1

/-- Every number in a switch is a four-byte two's complement word; the words start at the first multiple of four after the opcode byte. -/
theorem C38_tableswitch {o : Opts} {bytes : Bytes} {cf : ClassFile} (h : Accepts o bytes cf) {c : CodeData} (hc : CodeOf cf c) {bc : ByteCode}
    (hb : c.bytecode = some bc) {off : Nat} {t : RangeTable} (hop : (off, Opcode.tableswitch t) ∈ bc.opcodes) :
    t.default.toInt = twos 32 (beNat (bytesAt c.code (align4 (off + 1)) 4)) ∧
      t.low.toInt = twos 32 (beNat (bytesAt c.code (align4 (off + 1) + 4) 4)) ∧
      t.high.toInt = twos 32 (beNat (bytesAt c.code (align4 (off + 1) + 8) 4)) ∧
      ∀ k j, t.jumps[k]? = some j → j.toInt = twos 32 (beNat (bytesAt c.code (align4 (off + 1) + 12 + 4 * k) 4)) := by
  obtain ⟨seg, rest, hd, -, s, _, rfl, rfl, pad, _, rfl, hpad, s, _, rfl, rfl, s, _, rfl, rfl, s, body, rfl, rfl, hs⟩ := C31_decoded h hc hb hop
  have hp := padding_align hpad
  have hd' : c.code.drop (align4 (off + 1)) = (s4 t.default ++ (s4 t.low ++ (s4 t.high ++ body))) ++ rest := by
    rw [← hp, Nat.add_assoc, ← List.drop_drop, hd, List.append_assoc, List.append_assoc, ← List.drop_drop, List.drop_append_of_le_length (by simp)]
    simp
  refine ⟨?_, ?_, ?_, fun k j hk => ?_⟩
  · rw [← Nat.add_zero (align4 (off + 1)), bytesAt_seg hd' 0 4 (by simp only [s4, List.length_append, u4_length]; omega)]; exact (twos_s4 t.default).symm
  · rw [bytesAt_seg hd' 4 4 (by simp only [s4, List.length_append, u4_length]; omega)]; exact (twos_s4 t.low).symm
  · rw [bytesAt_seg hd' 8 4 (by simp only [s4, List.length_append, u4_length]; omega)]; exact (twos_s4 t.high).symm
  · obtain ⟨h1, h2⟩ := seq_word (w := 4) (fun x seg h => by obtain rfl := h; rfl) k j hs hk
    rw [Nat.add_assoc, bytesAt_seg hd' (12 + 4 * k) 4 (by simp only [s4, List.length_append, u4_length]; omega)]
    have : bytesAt (s4 t.default ++ (s4 t.low ++ (s4 t.high ++ body))) (12 + 4 * k) 4 = bytesAt body (4 * k) 4 := by
      unfold bytesAt
      rw [← List.drop_drop]
      rfl
    rw [this, h1]
    exact (twos_s4 j).symm

example : ∃ c bc t, Accepts debug rich richCf ∧ CodeOf richCf c ∧ c.bytecode = some bc ∧ (4, Opcode.tableswitch t) ∈ bc.opcodes ∧ t.jumps = [20] := by
  obtain ⟨c, bc, h1, h2, h3, h4, -⟩ := rich_code
  obtain ⟨-, ⟨t, h5, rfl⟩, -⟩ := rich_jumps
  exact ⟨c, bc, _, rich_accepted, h1, h2, by rw [h4]; exact h5, rfl⟩

/-- The same for `lookupswitch`: default, number of pairs, then pairs of a match and an offset. -/
theorem C38_lookupswitch {o : Opts} {bytes : Bytes} {cf : ClassFile} (h : Accepts o bytes cf) {c : CodeData} (hc : CodeOf cf c) {bc : ByteCode}
    (hb : c.bytecode = some bc) {off : Nat} {t : LookupTable} (hop : (off, Opcode.lookupswitch t) ∈ bc.opcodes) :
    t.default.toInt = twos 32 (beNat (bytesAt c.code (align4 (off + 1)) 4)) ∧
      (t.matchOffsets.length : Int) = twos 32 (beNat (bytesAt c.code (align4 (off + 1) + 4) 4)) ∧
      ∀ k m j, t.matchOffsets[k]? = some (m, j) → m.toInt = twos 32 (beNat (bytesAt c.code (align4 (off + 1) + 8 + 8 * k) 4)) ∧
        j.toInt = twos 32 (beNat (bytesAt c.code (align4 (off + 1) + 8 + 8 * k + 4) 4)) := by
  obtain ⟨seg, rest, hd, n, hn, s, _, rfl, rfl, pad, _, rfl, hpad, s, _, rfl, rfl, s, body, rfl, rfl, hs⟩ := C31_decoded h hc hb hop
  have hp := padding_align hpad
  have hd' : c.code.drop (align4 (off + 1)) = (s4 t.default ++ (s4 n ++ body)) ++ rest := by
    rw [← hp, Nat.add_assoc, ← List.drop_drop, hd, List.append_assoc, List.append_assoc, ← List.drop_drop, List.drop_append_of_le_length (by simp)]
    simp
  refine ⟨?_, ?_, fun k m j hk => ?_⟩
  · rw [← Nat.add_zero (align4 (off + 1)), bytesAt_seg hd' 0 4 (by simp only [s4, List.length_append, u4_length]; omega)]; exact (twos_s4 t.default).symm
  · rw [bytesAt_seg hd' 4 4 (by simp only [s4, List.length_append, u4_length]; omega), ← hn]; exact (twos_s4 n).symm
  · obtain ⟨h1, h2⟩ := seq_word (w := 8) (fun x seg h => by obtain rfl := h; rfl) k (m, j) hs hk
    have hw : ∀ p, p + 4 ≤ 8 → bytesAt (s4 t.default ++ (s4 n ++ body)) (8 + 8 * k + p) 4 = bytesAt (s4 m ++ s4 j) p 4 := by
      intro p hp
      have : bytesAt (s4 t.default ++ (s4 n ++ body)) (8 + 8 * k + p) 4 = bytesAt (bytesAt body (8 * k) 8) p 4 := by
        have e : (s4 t.default ++ (s4 n ++ body)).drop 8 = body := rfl
        unfold bytesAt
        conv_rhs => rw [List.drop_take, List.take_take, Nat.min_eq_left (by omega), List.drop_drop, ← e, List.drop_drop, ← Nat.add_assoc]
      rw [this, h1]
    constructor
    · have := hw 0 (by omega)
      rw [Nat.add_zero] at this
      rw [Nat.add_assoc, bytesAt_seg hd' _ 4 (by simp only [s4, List.length_append, u4_length]; omega), this]
      exact (twos_s4 m).symm
    · rw [Nat.add_assoc, Nat.add_assoc, ← Nat.add_assoc 8, bytesAt_seg hd' _ 4 (by simp only [s4, List.length_append, u4_length]; omega), hw 4 (by omega)]
      exact (twos_s4 j).symm

/-- A method with a lookupswitch of two pairs. -/
def lookup : Bytes := withCode ([0xab, 0, 0, 0] ++ [0, 0, 0, 28] ++ [0, 0, 0, 2] ++ [255, 255, 255, 255, 0, 0, 0, 28] ++ [0, 0, 0, 7, 0, 0, 0, 28] ++ [0xb1])

example : ∃ cf c bc t, Accepts debug lookup cf ∧ CodeOf cf c ∧ c.bytecode = some bc ∧ (0, Opcode.lookupswitch t) ∈ bc.opcodes ∧
    t.matchOffsets = [(-1, 28), (7, 28)] := by
  have h : (match run debug 9 lookup with
    | .ok cf => match firstCode cf with
      | some c => match c.bytecode with
        | some bc => match bc.opcodes with
          | [(0, .lookupswitch t), _] => t.matchOffsets == [(-1, 28), (7, 28)]
          | _ => false
        | none => false
      | none => false
    | _ => false) = true := by decide +kernel
  split at h
  · rename_i cf hcf
    split at h
    · rename_i c hc
      split at h
      · rename_i bc hbc
        split at h
        · rename_i t x hops
          simp only [beq_iff_eq] at h
          exact ⟨cf, c, bc, t, ⟨9, hcf⟩, firstCode_of hc, hbc, by rw [hops]; simp, h⟩
        · cases h
      · cases h
    · cases h
  · cases h

end Cafebabe
