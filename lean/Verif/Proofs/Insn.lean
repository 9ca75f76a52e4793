import Verif.Proofs.PoolRefs
import Verif.Spec.Bytecode
/-!
# Proofs: one instruction is read exactly when it is encoded at that offset
-/

namespace Cafebabe
open Spec

/-- `Exact` at one index. -/
def ExactAt {α : Type} (ix : Nat) (p : P α) (F : α → Lang) : Prop :=
  ∀ (bytes : Bytes), ix ≤ bytes.length → ∀ (a : α) (ix' : Nat),
    p bytes ix = .ok (a, ix') ↔ ∃ seg rest, bytes.drop ix = seg ++ rest ∧ F a seg ∧ ix' = ix + seg.length

theorem Exact.at {α : Type} {ix : Nat} {p : P α} {F : α → Lang} (h : ∀ N, Exact N p F) : ExactAt ix p F :=
  fun bytes h1 => h (bytes.length + 1) bytes ix h1 (by omega)

theorem ExactAt.congr {α : Type} {ix : Nat} {p : P α} {F G : α → Lang} (h : ExactAt ix p F)
    (hFG : ∀ a seg, F a seg ↔ G a seg) : ExactAt ix p G := by
  intro bytes h1 a ix'
  rw [h bytes h1 a ix']
  simp only [hFG]

theorem skipPadding_exact {α : Type} {ix : Nat} {f : Unit → P α} {G : α → Lang} (hf : ∀ i, ExactAt i (f ()) G)
    (hs : ∀ bytes i, bytes.length < i → ∀ x, f () bytes i ≠ .ok x) :
    ExactAt ix (skipPadding >>= f) (fun a => padding ix ⬝ G a) := by
  intro bytes h1 a ix'
  have hal : alignUp4 ix = ix + (alignUp4 ix - ix) ∧ alignUp4 ix - ix < 4 ∧ (ix + (alignUp4 ix - ix)) % 4 = 0 := by
    unfold alignUp4; omega
  obtain ⟨e, hlt, hmod⟩ := hal
  generalize alignUp4 ix - ix = k at e hlt hmod
  have : (skipPadding >>= f) bytes ix = f () bytes (ix + k) := by
    show P.bind skipPadding f bytes ix = _
    unfold P.bind skipPadding
    simp only [e]
  rw [this]
  by_cases hle : ix + k ≤ bytes.length
  · rw [hf (ix + k) bytes hle a ix']
    constructor
    · rintro ⟨seg, rest, hd, hG, rfl⟩
      have hk : ((bytes.drop ix).take k).length = k := by simp; omega
      refine ⟨(bytes.drop ix).take k ++ seg, rest, ?_, ⟨_, seg, rfl, ⟨by omega, by rw [hk]; exact hmod⟩, hG⟩, ?_⟩
      · rw [List.append_assoc, ← hd, ← List.drop_drop, List.take_append_drop]
      · rw [List.length_append, hk]; omega
    · rintro ⟨seg, rest, hd, ⟨s, t, rfl, ⟨hs1, hs2⟩, hG⟩, rfl⟩
      have hk : s.length = k := by omega
      refine ⟨t, rest, ?_, hG, ?_⟩
      · rw [List.append_assoc] at hd
        rw [← hk]; exact drop_of_drop_eq hd
      · rw [List.length_append, hk]; omega
  · constructor
    · intro h; exact absurd h (hs bytes (ix + k) (by omega) _)
    · rintro ⟨seg, rest, hd, ⟨s, t, rfl, ⟨hs1, hs2⟩, hG⟩, rfl⟩
      have hl := length_of_drop_eq h1 hd
      rw [List.length_append] at hl
      have hk : s.length = k := by omega
      omega

/-- Language of the operands of an instruction form; `pos` is the offset of the first operand byte. -/
def ShapeLang (checks : Bool) (pool : Pool) (pos : Nat) (sh : Shape) (op : Opcode) : Lang := fun seg =>
  match sh with
  | .simple o => op = o ∧ seg = []
  | .i8 f => ∃ v : Int8, op = f v ∧ seg = s1 v
  | .i16 f => ∃ v : Int16, op = f v ∧ seg = s2 v
  | .load8 f => ∃ l, op = f l ∧ ∃ i : UInt8, LoadableAt pool i.toNat l ∧ seg = u1 i
  | .load16 f => ∃ l, op = f l ∧ ref (fun i => LoadableAt pool i l) seg
  | .local8 f => ∃ n : UInt16, op = f n ∧ ∃ k : UInt8, k.toNat = n.toNat ∧ seg = u1 k
  | .branch16 f => ∃ j : Int32, op = f j ∧ ∃ v : Int16, v.toInt = j.toInt ∧ seg = s2 v
  | .branch32 f => ∃ j : Int32, op = f j ∧ seg = s4 j
  | .member f allowed => ∃ m, op = f m ∧ ref (fun i => MemberMask pool allowed i m) seg
  | .objArray f => ∃ t, op = f t ∧ ref (fun i => ObjectTypeAt pool i t) seg
  | .iinc => ∃ (n : UInt16) (v : Int16), op = .iinc n v ∧
      ∃ (k : UInt8) (w : Int8), k.toNat = n.toNat ∧ w.toInt = v.toInt ∧ seg = u1 k ++ s1 w
  | .tableswitch => ∃ t, op = .tableswitch t ∧ (t.low ≤ t.high ∧ JumpCount checks t) ∧
      (padding pos ⬝ lit (s4 t.default) ⬝ lit (s4 t.low) ⬝ lit (s4 t.high) ⬝ seq (fun j => lit (s4 j)) t.jumps) seg
  | .lookupswitch => ∃ t, op = .lookupswitch t ∧ ∃ npairs : Int32, npairs.toInt = t.matchOffsets.length ∧
      (padding pos ⬝ lit (s4 t.default) ⬝ lit (s4 npairs) ⬝ seq (fun p => lit (s4 p.1 ++ s4 p.2)) t.matchOffsets) seg
  | .invokeinterface => ∃ m k, op = .invokeinterface m k ∧ ((ref fun i => InterfaceMethodRefAt pool i m) ⬝ lit [k, 0]) seg
  | .invokedynamic => ∃ d, op = .invokedynamic d ∧ ((ref fun i => InvokeDynamicAt pool i d) ⬝ lit [0, 0]) seg
  | .new => ∃ s, op = .new s ∧ ref (fun i => ClassAt pool i s) seg
  | .newarray => ∃ t, op = .newarray t ∧ seg = [arrayTypeByte t]
  | .wide => (∃ n v, op = .iinc n v ∧ seg = [0x84] ++ u2 n ++ s2 v) ∨
      ∃ row n, row ∈ wideTable ∧ op = row.2 n ∧ seg = [row.1] ++ u2 n
  | .multianewarray => ∃ t k, op = .multianewarray t k ∧ ((ref fun i => ObjectTypeAt pool i t) ⬝ lit [k]) seg

theorem s1_toInt8 (v : UInt8) : s1 v.toInt8 = u1 v := by simp [s1]
theorem s2_toInt16 (v : UInt16) : s2 v.toInt16 = u2 v := by simp [s2]
theorem s4_toInt32 (v : UInt32) : s4 v.toInt32 = u4 v := by simp [s4]

theorem readI4_exact {N : Nat} : Exact N readI4 (fun v => lit (s4 v)) := by
  unfold readI4
  refine (exact_map Exact.readU4 _).congr ?_
  intro v seg
  constructor
  · rintro ⟨a, rfl, rfl⟩; exact (s4_toInt32 a).symm
  · rintro rfl; exact ⟨v.toUInt32, by simp, rfl⟩

theorem readI4_past (bytes : Bytes) (i : Nat) (h : bytes.length < i) : ∃ e, readI4 bytes i = .err e := by
  refine ⟨ParseError.new s!"Unexpected end of stream reading u4 at index {i}", ?_⟩
  show P.bind readU4 _ bytes i = _
  unfold P.bind readU4
  rw [if_pos (by omega)]
  rfl

theorem P.bind_err {α β : Type} {p : P α} {f : α → P β} {bytes : Bytes} {ix : Nat} {e : ParseError}
    (h : p bytes ix = .err e) : (p >>= f) bytes ix = .err e := by
  show P.bind p f bytes ix = _
  unfold P.bind
  rw [h]

theorem int32_low (v : Int32) : -2147483648 ≤ v.toInt := v.le_toInt
theorem int32_high (v : Int32) : v.toInt ≤ 2147483647 := Int.le_of_lt_add_one v.toInt_lt

/-- The `jump_count` computation. -/
theorem jumpSpan_count {checks : Bool} {low high : Int32} (hle : low ≤ high) (n : Nat) :
    (∃ span, jumpSpan checks low high = .ok span ∧ ¬ span.toInt < 0 ∧ n = span.toInt.toNat) ↔
      ((n : Int) = high.toInt - low.toInt + 1 ∧ n < 2147483648) ∨
        (checks = false ∧ low.toInt = -2147483648 ∧ high.toInt = 2147483647 ∧ n = 0) := by
  have hle' : low.toInt ≤ high.toInt := Int32.le_iff_toInt_le.mp hle
  have l1 := int32_low low; have h1 := int32_high low
  have l2 := int32_low high; have h2 := int32_high high
  have hsub : (high - low).toInt = (high.toInt - low.toInt).bmod 4294967296 := Int32.toInt_sub ..
  have hadd : (high - low + 1).toInt = ((high - low).toInt + 1).bmod 4294967296 := Int32.toInt_add ..
  have bm : ∀ x : Int, x.bmod 4294967296 = if x % 4294967296 < 2147483648 then x % 4294967296 else x % 4294967296 - 4294967296 := by
    intro x; rw [Int.bmod_def]; rfl
  rw [bm] at hsub hadd
  unfold jumpSpan
  cases checks with
  | true =>
    simp only [Bool.true_and, Bool.true_eq_false, false_and, or_false]
    split
    · rename_i h
      simp only [Bool.or_eq_true, decide_eq_true_eq] at h
      simp only [reduceCtorEq, false_and, exists_const, false_iff]
      omega
    · rename_i h
      simp only [Bool.or_eq_true, decide_eq_true_eq, not_or] at h
      split
      · rename_i h'
        simp only [decide_eq_true_eq] at h'
        simp only [reduceCtorEq, false_and, exists_const, false_iff]
        split at hsub <;> omega
      · rename_i h'
        simp only [decide_eq_true_eq] at h'
        simp only [Res.ok.injEq, exists_eq_left']
        split at hsub <;> split at hadd <;> omega
  | false =>
    simp only [Bool.false_and, Bool.false_eq_true, if_false, Res.ok.injEq, exists_eq_left', true_and]
    split at hsub <;> split at hadd <;> omega

theorem ExactAt.bind {α β : Type} {ix : Nat} {p : P α} {f : α → P β} {F : α → Lang} {G : α → β → Lang}
    (hp : ExactAt ix p F) (hf : ∀ a N, Exact N (f a) (G a)) : ExactAt ix (p >>= f) (fun b seg => ∃ a, (F a ⬝ G a b) seg) := by
  intro bytes h1 b ix''
  rw [P.bind_ok]
  constructor
  · rintro ⟨a, ix', hpa, hfa⟩
    obtain ⟨s, r, hd, hF, rfl⟩ := (hp bytes h1 a ix').mp hpa
    have hl := length_of_drop_eq h1 hd
    obtain ⟨t, r', hd', hG, rfl⟩ := (hf a (bytes.length + 1) bytes _ (by omega) (by omega) b ix'').mp hfa
    rw [drop_of_drop_eq hd] at hd'
    exact ⟨s ++ t, r', by rw [hd, hd', List.append_assoc], ⟨a, s, t, rfl, hF, hG⟩, by rw [List.length_append]; omega⟩
  · rintro ⟨seg, rest, hd, ⟨a, s, t, rfl, hF, hG⟩, rfl⟩
    rw [List.append_assoc] at hd
    have hl := length_of_drop_eq h1 hd
    refine ⟨a, ix + s.length, (hp bytes h1 a _).mpr ⟨s, t ++ rest, hd, hF, rfl⟩, ?_⟩
    exact (hf a (bytes.length + 1) bytes _ (by omega) (by omega) b _).mpr
      ⟨t, rest, drop_of_drop_eq hd, hG, by rw [List.length_append]; omega⟩

theorem seq_length_eq {α : Type} {F : α → Lang} {k : Nat} (hF : ∀ a s, F a s → s.length = k) :
    ∀ {xs : List α} {seg : Bytes}, seq F xs seg → seg.length = k * xs.length
  | [], seg, h => by cases h; simp
  | x :: xs, seg, h => by
    obtain ⟨s, t, rfl, h1, h2⟩ := h
    rw [List.length_append, hF _ _ h1, seq_length_eq hF h2, List.length_cons, Nat.mul_add]; omega

theorem tableswitchHeader_exact (checks : Bool) (pos : Nat) :
    ExactAt pos (tableswitchHeader checks) (fun h => padding pos ⬝ fun seg => (h.2.1 ≤ h.2.2.1 ∧
      ((h.2.2.2 : Int) = h.2.2.1.toInt - h.2.1.toInt + 1 ∧ h.2.2.2 < 2147483648 ∨
        checks = false ∧ h.2.1.toInt = -2147483648 ∧ h.2.2.1.toInt = 2147483647 ∧ h.2.2.2 = 0)) ∧
      (lit (s4 h.1) ⬝ lit (s4 h.2.1) ⬝ lit (s4 h.2.2.1)) seg) := by
  unfold tableswitchHeader
  refine skipPadding_exact (fun i => Exact.at fun N => ?_) ?_
  · refine (Exact.bind readI4_exact fun d => Exact.bind readI4_exact fun low => Exact.bind readI4_exact
      (G := fun high h seg => seg = [] ∧ low ≤ high ∧ h.1 = d ∧ h.2.1 = low ∧ h.2.2.1 = high ∧
        ∃ span, jumpSpan checks low high = .ok span ∧ ¬ span.toInt < 0 ∧ h.2.2.2 = span.toInt.toNat) fun high =>
      Exact.getIxBind fun ix => ?_).congr ?_
    · split
      · rename_i hlt
        refine Exact.fail.congr ?_
        intro h seg
        simp only [false_iff]
        rintro ⟨-, hle, -⟩
        exact Int32.not_lt.mpr hle hlt
      · rename_i hle
        refine (Exact.bind (Exact.lift _) fun span => Exact.ite (fun _ => Exact.fail) fun _ => Exact.pure _).congr ?_
        rintro ⟨d', low', high', n⟩ seg
        constructor
        · rintro ⟨span, s, t, rfl, ⟨h1, rfl⟩, h⟩
          split at h
          · exact h.elim
          · rename_i hsp
            obtain ⟨h, rfl⟩ := h
            cases h
            exact ⟨rfl, Int32.not_lt.mp hle, rfl, rfl, rfl, span, h1, hsp, rfl⟩
        · rintro ⟨rfl, -, rfl, rfl, rfl, span, h1, h2, h3⟩
          refine ⟨span, [], [], rfl, ⟨h1, rfl⟩, ?_⟩
          simp only at h3
          simp only [if_neg h2]
          exact ⟨by rw [h3], trivial⟩
    · rintro ⟨d, low, high, n⟩ seg
      constructor
      · rintro ⟨d', s1, t1, rfl, rfl, low', s2, t2, rfl, rfl, high', s3, t3, rfl, rfl, rfl, hle, rfl, rfl, rfl, h⟩
        exact ⟨⟨hle, (jumpSpan_count hle _).mp h⟩, _, _, rfl, rfl, _, _, rfl, rfl, by simp [lit]⟩
      · rintro ⟨⟨hle, hn⟩, s1, t1, rfl, rfl, s2, t2, rfl, rfl, rfl⟩
        exact ⟨d, _, _, rfl, rfl, low, _, _, rfl, rfl, high, _, [], by simp, rfl, rfl, hle, rfl, rfl, rfl,
          (jumpSpan_count hle n).mpr hn⟩
  · intro bytes i hi x
    obtain ⟨e, he⟩ := readI4_past bytes i hi
    rw [P.bind_err he]
    simp

theorem tableswitch_exact (checks : Bool) (pool : Pool) (pos : Nat) :
    ExactAt pos (readTableswitch checks) (fun op => ShapeLang checks pool pos .tableswitch op) := by
  unfold readTableswitch
  refine ((tableswitchHeader_exact checks pos).bind fun h N =>
    exact_map (Exact.forRange (fun _ => readI4_exact) _) _).congr ?_
  intro op seg
  constructor
  · rintro ⟨⟨d, low, high, n⟩, s, t, rfl, ⟨s1, t1, rfl, hpad, ⟨hle, hn⟩, s2, t2, rfl, rfl, s3, t3, rfl, rfl, rfl⟩, jumps, rfl, hl, hj⟩
    refine ⟨_, rfl, ⟨hle, ?_⟩, s1, s4 d ++ (s4 low ++ (s4 high ++ t)), by simp, hpad, _, _, rfl, rfl, _, _, rfl, rfl, _, _,
      rfl, rfl, hj⟩
    simp only at hn hl
    subst hl
    rcases hn with hn | ⟨h1, h2, h3, h4⟩
    · exact .inl hn
    · exact .inr ⟨h1, h2, h3, List.length_eq_zero_iff.mp h4⟩
  · rintro ⟨t, rfl, ⟨hle, hn⟩, s1, t1, rfl, hpad, s2, t2, rfl, rfl, s3, t3, rfl, rfl, s4', t4, rfl, rfl, hj⟩
    refine ⟨⟨t.default, t.low, t.high, t.jumps.length⟩, s1 ++ (s4 t.default ++ (s4 t.low ++ s4 t.high)), t4, by simp, ?_, ?_⟩
    · refine ⟨s1, _, rfl, hpad, ⟨hle, ?_⟩, _, _, rfl, rfl, _, _, rfl, rfl, rfl⟩
      rcases hn with hn | ⟨h1, h2, h3, h4⟩
      · exact .inl hn
      · exact .inr ⟨h1, h2, h3, List.length_eq_zero_iff.mpr h4⟩
    · exact ⟨t.jumps, rfl, rfl, hj⟩

theorem lookupswitchHeader_exact (pos : Nat) :
    ExactAt pos lookupswitchHeader (fun h => padding pos ⬝ fun seg => ∃ npairs : Int32, npairs.toInt = h.2 ∧
      (lit (s4 h.1) ⬝ lit (s4 npairs)) seg) := by
  unfold lookupswitchHeader
  refine skipPadding_exact (fun i => Exact.at fun N => ?_) ?_
  · refine (Exact.bind readI4_exact fun d => Exact.bind readI4_exact (G := fun np h seg => seg = [] ∧ h.1 = d ∧ np.toInt = h.2)
      fun n => Exact.getIxBind fun ix => ?_).congr ?_
    · split
      · refine Exact.fail.congr ?_
        rintro ⟨d', n'⟩ seg
        simp only [false_iff]
        rintro ⟨-, -, h⟩
        omega
      · refine (Exact.pure _).congr ?_
        rintro ⟨d', n'⟩ seg
        simp only [Prod.mk.injEq]
        constructor
        · rintro ⟨⟨rfl, rfl⟩, rfl⟩; exact ⟨rfl, rfl, by omega⟩
        · rintro ⟨rfl, rfl, h⟩; exact ⟨⟨rfl, by omega⟩, rfl⟩
    · rintro ⟨d, n⟩ seg
      constructor
      · rintro ⟨d', s1, t1, rfl, rfl, np, s2, t2, rfl, rfl, rfl, rfl, h⟩
        exact ⟨np, h, _, _, rfl, rfl, by simp [lit]⟩
      · rintro ⟨np, hn, s1, t1, rfl, rfl, rfl⟩
        exact ⟨d, _, _, rfl, rfl, np, _, [], by simp, rfl, rfl, rfl, hn⟩
  · intro bytes i hi x
    obtain ⟨e, he⟩ := readI4_past bytes i hi
    rw [P.bind_err he]
    simp

theorem lookupswitch_exact (checks : Bool) (pool : Pool) (pos : Nat) :
    ExactAt pos readLookupswitch (fun op => ShapeLang checks pool pos .lookupswitch op) := by
  unfold readLookupswitch
  refine ((lookupswitchHeader_exact pos).bind fun h N =>
    exact_map (Exact.forRange (F := fun (p : Int32 × Int32) => lit (s4 p.1 ++ s4 p.2)) (fun _ => ?_) _) _).congr ?_
  · refine (Exact.bind readI4_exact fun a => exact_map readI4_exact _).congr ?_
    rintro ⟨a, b⟩ seg
    constructor
    · rintro ⟨a', s, t, rfl, rfl, b', h, rfl⟩
      cases h
      rfl
    · rintro rfl
      exact ⟨a, _, _, rfl, rfl, b, rfl, rfl⟩
  · intro op seg
    constructor
    · rintro ⟨⟨d, n⟩, s, t, rfl, ⟨s1, t1, rfl, hpad, np, hn, s2, t2, rfl, rfl, rfl⟩, ps, rfl, hl, hj⟩
      refine ⟨_, rfl, np, ?_, s1, s4 d ++ (s4 np ++ t), by simp, hpad, _, _, rfl, rfl, _, _, rfl, rfl, hj⟩
      simp only at hn hl ⊢
      rw [hn, hl]
    · rintro ⟨t, rfl, np, hn, s1, t1, rfl, hpad, s2, t2, rfl, rfl, s3, t3, rfl, rfl, hj⟩
      refine ⟨⟨t.default, t.matchOffsets.length⟩, s1 ++ (s4 t.default ++ s4 np), t3, by simp, ?_, ?_⟩
      · exact ⟨s1, _, rfl, hpad, np, hn, _, _, rfl, rfl, rfl⟩
      · exact ⟨t.matchOffsets, rfl, rfl, hj⟩

theorem arrayType_iff (n : UInt8) (k : PrimitiveArrayType) : primitiveArrayTypeOf n = some k ↔ n = arrayTypeByte k := by
  unfold primitiveArrayTypeOf
  constructor
  · intro h
    split at h <;> rename_i hn <;> cases h <;> exact UInt8.toNat_inj.mp (by rw [hn]; rfl)
  · rintro rfl
    cases k <;> rfl

theorem lookup_mem {α : Type} : ∀ {l : List (UInt8 × α)} {v : UInt8} {a : α}, l.lookup v = some a → (v, a) ∈ l
  | [], v, a, h => by simp at h
  | (w, b) :: l, v, a, h => by
    rw [List.lookup_cons] at h
    split at h
    · rename_i hv
      simp at hv; cases h; rw [hv]; simp
    · exact List.mem_cons_of_mem _ (lookup_mem h)

theorem lookup_of_mem {α : Type} : ∀ {l : List (UInt8 × α)} {v : UInt8} {a : α}, (l.map (·.1)).Nodup → (v, a) ∈ l →
    l.lookup v = some a
  | [], v, a, _, h => by simp at h
  | (w, b) :: l, v, a, hn, h => by
    rw [List.map_cons, List.nodup_cons] at hn
    rw [List.lookup_cons]
    rcases List.mem_cons.mp h with h' | h'
    · cases h'; simp
    · have : (v == w) = false := by
        rw [beq_eq_false_iff_ne]
        rintro rfl
        exact hn.1 (List.mem_map.mpr ⟨_, h', rfl⟩)
      rw [this]
      exact lookup_of_mem hn.2 h'

theorem wideTable_nodup : (wideTable.map (·.1)).Nodup := by decide

theorem opcodeTable_nodup : (opcodeTable.map (·.1)).Nodup := by decide +kernel

theorem wide_exact {N : Nat} (checks : Bool) (pool : Pool) (pos : Nat) :
    Exact N readWide (fun op => ShapeLang checks pool pos .wide op) := by
  unfold readWide
  refine (Exact.bind Exact.readU1 (G := fun v op seg => (v = 0x84 ∧ ∃ n c, op = .iinc n c ∧ seg = u2 n ++ s2 c) ∨
    ∃ f n, (v, f) ∈ wideTable ∧ op = f n ∧ seg = u2 n) fun v => ?_).congr ?_
  · split
    · rename_i hv
      have hv : v = 0x84 := by simpa using hv
      refine (Exact.bind Exact.readU2 fun n => exact_map Exact.readU2 _).congr ?_
      intro op seg
      have hno : ∀ f, (v, f) ∉ wideTable := by
        intro f hf
        have := lookup_of_mem wideTable_nodup hf
        rw [hv] at this
        cases this
      constructor
      · rintro ⟨n, s, t, rfl, rfl, c, rfl, rfl⟩
        exact .inl ⟨hv, n, _, rfl, by rw [s2_toInt16]⟩
      · rintro (⟨-, n, c, rfl, rfl⟩ | ⟨f, n, hf, -⟩)
        · exact ⟨n, _, _, rfl, rfl, c.toUInt16, by simp, rfl⟩
        · exact absurd hf (hno f)
    · rename_i hv
      have hv : v ≠ 0x84 := by simpa using hv
      split
      · rename_i f hf
        refine (exact_map Exact.readU2 _).congr ?_
        intro op seg
        constructor
        · rintro ⟨n, rfl, rfl⟩; exact .inr ⟨f, n, lookup_mem hf, rfl, rfl⟩
        · rintro (⟨h, -⟩ | ⟨f', n, hf', rfl, rfl⟩)
          · exact absurd h hv
          · have := lookup_of_mem wideTable_nodup hf'
            rw [hf] at this
            cases this
            exact ⟨n, rfl, rfl⟩
      · rename_i hf
        refine (Exact.getIxBind fun _ => Exact.fail).congr ?_
        intro op seg
        simp only [false_iff]
        rintro (⟨h, -⟩ | ⟨f', n, hf', rfl, rfl⟩)
        · exact hv h
        · have := lookup_of_mem wideTable_nodup hf'
          rw [hf] at this
          cases this
  · intro op seg
    constructor
    · rintro ⟨v, s, t, rfl, rfl, ⟨rfl, n, c, rfl, rfl⟩ | ⟨f, n, hf, rfl, rfl⟩⟩
      · exact .inl ⟨n, c, rfl, by simp [u1]⟩
      · exact .inr ⟨_, n, hf, rfl, rfl⟩
    · rintro (⟨n, c, rfl, rfl⟩ | ⟨⟨v, f⟩, n, hf, rfl, rfl⟩)
      · exact ⟨0x84, [0x84], u2 n ++ s2 c, by rw [List.append_assoc], rfl, .inl ⟨rfl, n, c, rfl, rfl⟩⟩
      · exact ⟨v, _, _, rfl, rfl, .inr ⟨f, n, hf, rfl, rfl⟩⟩

theorem exact_ref {α β : Type} {N : Nat} {p : P α} {At : α → Nat → Prop} (h : Exact N p (fun a => ref (At a))) (f : α → β) :
    Exact N (p >>= fun a => (pure (f a) : P β)) (fun b seg => ∃ a, b = f a ∧ ref (At a) seg) := exact_map h f

theorem readShape_exact (checks : Bool) (pool : Pool) (pos : Nat) (sh : Shape) :
    ExactAt pos (readShape checks pool sh) (ShapeLang checks pool pos sh) := by
  cases sh with
  | simple o => exact Exact.at fun N => Exact.pure o
  | i8 f =>
    refine Exact.at fun N => (exact_map Exact.readU1 _).congr fun op seg => ?_
    constructor
    · rintro ⟨v, rfl, rfl⟩; exact ⟨_, rfl, (s1_toInt8 v).symm⟩
    · rintro ⟨v, rfl, rfl⟩; exact ⟨v.toUInt8, by simp, rfl⟩
  | i16 f =>
    refine Exact.at fun N => (exact_map Exact.readU2 _).congr fun op seg => ?_
    constructor
    · rintro ⟨v, rfl, rfl⟩; exact ⟨_, rfl, (s2_toInt16 v).symm⟩
    · rintro ⟨v, rfl, rfl⟩; exact ⟨v.toUInt16, by simp, rfl⟩
  | load8 f =>
    refine Exact.at fun N => (Exact.bind Exact.readU1 fun i => exact_map (Exact.lift _) _).congr fun op seg => ?_
    constructor
    · rintro ⟨i, s, t, rfl, rfl, l, rfl, h, rfl⟩; exact ⟨l, rfl, i, getCpLoadable_ok.mp h, by simp⟩
    · rintro ⟨l, rfl, i, h, rfl⟩; exact ⟨i, _, [], by simp, rfl, l, rfl, getCpLoadable_ok.mpr h, rfl⟩
  | load16 f =>
    refine Exact.at fun N => (Exact.bind Exact.readU2 fun i => exact_map (Exact.lift _) _).congr fun op seg => ?_
    constructor
    · rintro ⟨i, s, t, rfl, rfl, l, rfl, h, rfl⟩; exact ⟨l, rfl, i, getCpLoadable_ok.mp h, by simp⟩
    · rintro ⟨l, rfl, i, h, rfl⟩; exact ⟨i, _, [], by simp, rfl, l, rfl, getCpLoadable_ok.mpr h, rfl⟩
  | local8 f =>
    refine Exact.at fun N => (exact_map Exact.readU1 _).congr fun op seg => ?_
    constructor
    · rintro ⟨v, rfl, rfl⟩; exact ⟨_, rfl, v, by simp, rfl⟩
    · rintro ⟨n, rfl, k, hk, rfl⟩
      exact ⟨k, by rw [show k.toUInt16 = n from UInt16.toNat_inj.mp (by simpa using hk)], rfl⟩
  | branch16 f =>
    refine Exact.at fun N => (exact_map Exact.readU2 _).congr fun op seg => ?_
    constructor
    · rintro ⟨v, rfl, rfl⟩; exact ⟨_, rfl, v.toInt16, by simp, (s2_toInt16 v).symm⟩
    · rintro ⟨j, rfl, v, hv, rfl⟩
      exact ⟨v.toUInt16, by rw [show v.toUInt16.toInt16.toInt32 = j from Int32.toInt_inj.mp (by simpa using hv)], rfl⟩
  | branch32 f => exact Exact.at fun N => exact_map readI4_exact _
  | member f allowed => exact Exact.at fun N => exact_map (readCpMemberref_exact pool allowed) _
  | objArray f => exact Exact.at fun N => exact_map (readCpObjectArrayType_exact pool) _
  | iinc =>
    refine Exact.at fun N => (Exact.bind Exact.readU1 fun n => exact_map Exact.readU1 _).congr fun op seg => ?_
    constructor
    · rintro ⟨n, s, t, rfl, rfl, c, rfl, rfl⟩
      exact ⟨_, _, rfl, n, c.toInt8, by simp, by simp, by rw [s1_toInt8]⟩
    · rintro ⟨n, v, rfl, k, w, hk, hw, rfl⟩
      refine ⟨k, _, _, rfl, rfl, w.toUInt8, ?_, rfl⟩
      rw [show k.toUInt16 = n from UInt16.toNat_inj.mp (by simpa using hk),
        show w.toUInt8.toInt8.toInt16 = v from Int16.toInt_inj.mp (by simpa using hw)]
  | tableswitch => exact tableswitch_exact checks pool pos
  | lookupswitch => exact lookupswitch_exact checks pool pos
  | invokeinterface =>
    refine Exact.at fun N => (Exact.bind (readCpMemberref_exact pool _) fun m => Exact.bind Exact.readU1 fun k =>
      Exact.bind Exact.readU1 (G := fun z op seg => seg = [] ∧ z = 0 ∧ op = .invokeinterface m k) fun z =>
        Exact.getIxBind fun _ => ?_).congr fun op seg => ?_
    · split
      · rename_i hz
        exact Exact.fail.congr (by intro a seg; simp_all)
      · rename_i hz
        exact (Exact.pure _).congr (by intro a seg; simp_all [and_comm])
    · simp only [memberMask_imethod]
      constructor
      · rintro ⟨m, s, t, rfl, hm, k, s2, t2, rfl, rfl, z, s3, t3, rfl, rfl, rfl, rfl, rfl⟩
        exact ⟨m, k, rfl, s, _, rfl, hm, by simp [u1, lit]⟩
      · rintro ⟨m, k, rfl, s, t, rfl, hm, rfl⟩
        exact ⟨m, s, _, rfl, hm, k, [k], [0], rfl, rfl, 0, [0], [], rfl, rfl, rfl, rfl, rfl⟩
  | invokedynamic =>
    refine Exact.at fun N => (Exact.bind (readCpInvokedynamic_exact pool) fun m => Exact.bind Exact.readU2
      (G := fun z op seg => seg = [] ∧ z = 0 ∧ op = .invokedynamic m) fun z =>
      Exact.getIxBind fun _ => ?_).congr fun op seg => ?_
    · split
      · rename_i hz
        exact Exact.fail.congr (by intro a seg; simp_all)
      · rename_i hz
        exact (Exact.pure _).congr (by intro a seg; simp_all [and_comm])
    · constructor
      · rintro ⟨m, s, t, rfl, hm, z, s2, t2, rfl, rfl, rfl, rfl, rfl⟩
        exact ⟨m, rfl, s, _, rfl, hm, rfl⟩
      · rintro ⟨m, rfl, s, t, rfl, hm, rfl⟩
        exact ⟨m, s, _, rfl, hm, 0, [0, 0], [], rfl, rfl, rfl, rfl, rfl⟩
  | new => exact Exact.at fun N => exact_map (readCpClassinfo_exact pool) _
  | newarray =>
    refine Exact.at fun N => (Exact.bind Exact.readU1 (G := fun n op seg => seg = [] ∧ ∃ t, n = arrayTypeByte t ∧ op = .newarray t)
      fun n => ?_).congr fun op seg => ?_
    · cases hk : primitiveArrayTypeOf n with
      | none =>
        refine (Exact.getIxBind fun _ => Exact.fail).congr ?_
        intro e seg
        simp only [false_iff]
        rintro ⟨-, k, hn, -⟩
        rw [(arrayType_iff n k).mpr hn] at hk
        cases hk
      | some k =>
        refine (Exact.pure _).congr ?_
        intro e seg
        constructor
        · rintro ⟨rfl, rfl⟩; exact ⟨rfl, k, (arrayType_iff n k).mp hk, rfl⟩
        · rintro ⟨rfl, k', hk', rfl⟩
          rw [(arrayType_iff n k').mpr hk'] at hk
          cases hk
          exact ⟨rfl, rfl⟩
    · constructor
      · rintro ⟨n, s, t, rfl, rfl, rfl, t, rfl, rfl⟩; exact ⟨t, rfl, rfl⟩
      · rintro ⟨t, rfl, rfl⟩; exact ⟨_, _, [], rfl, rfl, rfl, t, rfl, rfl⟩
  | wide => exact Exact.at fun N => wide_exact checks pool pos
  | multianewarray =>
    refine Exact.at fun N => (Exact.bind (readCpObjectArrayType_exact pool) fun m => exact_map Exact.readU1 _).congr fun op seg => ?_
    constructor
    · rintro ⟨t, s, s', rfl, ht, k, rfl, rfl⟩; exact ⟨t, k, rfl, s, _, rfl, ht, rfl⟩
    · rintro ⟨t, k, rfl, s, s', rfl, ht, rfl⟩; exact ⟨t, s, _, rfl, ht, k, rfl, rfl⟩

theorem row_simple {checks : Bool} {pool : Pool} {pos : Nat} {o : Opcode} {b : UInt8} (h : InsnEnc checks pool pos o [b]) :
    ∀ op seg, ShapeLang checks pool (pos + 1) (.simple o) op seg → InsnEnc checks pool pos op (b :: seg) := by
  rintro op seg ⟨rfl, rfl⟩; exact h

theorem row_wide {checks : Bool} {pool : Pool} {pos : Nat} {b : UInt8} {f : UInt16 → Opcode} {n : UInt16}
    (h : (b, f) ∈ wideTable) : InsnEnc checks pool pos (f n) ([0xc4, b] ++ u2 n) := by
  revert h
  generalize hr : (b, f) = row
  revert row
  have : ∀ row ∈ wideTable, InsnEnc checks pool pos (row.2 n) ([0xc4, row.1] ++ u2 n) := by
    unfold wideTable
    repeat refine List.forall_mem_cons.mpr ⟨by first | exact .inr (.inr rfl) | exact .inr rfl, ?_⟩
    simp
  rintro row rfl h
  exact this _ h

theorem rows_sound (checks : Bool) (pool : Pool) (pos : Nat) :
    ∀ row ∈ opcodeTable, ∀ op seg, ShapeLang checks pool (pos + 1) row.2 op seg → InsnEnc checks pool pos op (row.1 :: seg) := by
  unfold opcodeTable
  repeat refine List.forall_mem_cons.mpr ⟨by
    first
    | exact row_simple (checks := checks) (pool := pool) (pos := pos) rfl
    | exact row_simple (checks := checks) (pool := pool) (pos := pos) (.inl ⟨by decide, rfl⟩)
    | (rintro op seg ⟨v, rfl, rfl⟩; rfl)
    | (rintro op seg ⟨l, rfl, i, h, rfl⟩; exact ⟨i, h, rfl⟩)
    | (rintro op seg ⟨l, rfl, i, h, rfl⟩; exact .inr (.inl ⟨i, h, rfl⟩))
    | (rintro op seg ⟨l, rfl, i, h, rfl⟩; exact .inl ⟨i, h, rfl⟩)
    | (rintro op seg ⟨j, rfl, rfl⟩; exact .inr rfl)
    | (rintro op seg ⟨m, rfl, h⟩; exact ⟨_, _, rfl, rfl, h⟩)
    | (rintro op seg ⟨m, rfl, h⟩
       simp only [memberMask_field, memberMask_method, memberMask_methods] at h
       exact ⟨_, _, rfl, rfl, h⟩)
    | (rintro op seg ⟨n, v, rfl, k, w, h1, h2, rfl⟩; exact .inl ⟨k, w, h1, h2, rfl⟩)
    | (rintro op seg ⟨m, k, rfl, h⟩; exact ⟨_, _, rfl, rfl, h⟩)
    | (rintro op seg ⟨t, rfl, h1, h2⟩; exact ⟨h1, _, _, rfl, rfl, h2⟩)
    | (rintro op seg ⟨t, rfl, n, h1, h2⟩; exact ⟨n, h1, _, _, rfl, rfl, h2⟩)
    | (rintro op seg (⟨n, v, rfl, rfl⟩ | ⟨row, n, h, rfl, rfl⟩)
       · exact .inr rfl
       · exact row_wide h), ?_⟩
  simp


/-- The rows of the table are in order: row `i` is opcode byte `i` up to `0xca`. -/
def RowFor (checks : Bool) (pool : Pool) (pos : Nat) (op : Opcode) (seg : Bytes) : Prop :=
  ∃ row ∈ opcodeTable, ∃ t, seg = row.1 :: t ∧ ShapeLang checks pool (pos + 1) row.2 op t

theorem rowFor {checks : Bool} {pool : Pool} {pos : Nat} {op : Opcode} {sh : Shape} {v : UInt8} {t : Bytes} (i : Nat)
    (h : opcodeTable[i]? = some (v, sh)) (hs : ShapeLang checks pool (pos + 1) sh op t) : RowFor checks pool pos op (v :: t) :=
  ⟨(v, sh), List.mem_of_getElem? h, t, rfl, hs⟩

theorem rowFor_lit {checks : Bool} {pool : Pool} {pos : Nat} {op : Opcode} {v : UInt8} {seg : Bytes} (i : Nat)
    (h : opcodeTable[i]? = some (v, .simple op)) (hs : lit [v] seg) : RowFor checks pool pos op seg := by
  cases hs; exact rowFor i h ⟨rfl, rfl⟩

theorem lt4_cases {n : UInt16} (h : n < 4) : n = 0 ∨ n = 1 ∨ n = 2 ∨ n = 3 := by
  have h : n.toNat < 4 := h
  simp only [← UInt16.toNat_inj]
  rw [show (0 : UInt16).toNat = 0 from rfl, show (1 : UInt16).toNat = 1 from rfl, show (2 : UInt16).toNat = 2 from rfl,
    show (3 : UInt16).toNat = 3 from rfl]
  omega

theorem rowFor_local {checks : Bool} {pool : Pool} {pos : Nat} {f : UInt16 → Opcode} {code base : UInt8} {n : UInt16} {seg : Bytes}
    (i j k : Nat) (he : opcodeTable[i]? = some (code, .local8 f)) (hw : wideTable[j]? = some (code, f))
    (h0 : opcodeTable[k]? = some (base + (0 : UInt16).toUInt8, .simple (f 0)))
    (h1 : opcodeTable[k + 1]? = some (base + (1 : UInt16).toUInt8, .simple (f 1)))
    (h2 : opcodeTable[k + 2]? = some (base + (2 : UInt16).toUInt8, .simple (f 2)))
    (h3 : opcodeTable[k + 3]? = some (base + (3 : UInt16).toUInt8, .simple (f 3)))
    (h : localEnc code base n seg) : RowFor checks pool pos (f n) seg := by
  rcases h with ⟨hn, rfl⟩ | ⟨b, hb, rfl⟩ | rfl
  · rcases lt4_cases hn with rfl | rfl | rfl | rfl
    · exact rowFor k h0 ⟨rfl, rfl⟩
    · exact rowFor _ h1 ⟨rfl, rfl⟩
    · exact rowFor _ h2 ⟨rfl, rfl⟩
    · exact rowFor _ h3 ⟨rfl, rfl⟩
  · exact rowFor i he ⟨n, rfl, b, hb, rfl⟩
  · exact rowFor 0xc4 rfl (.inr ⟨(code, f), n, List.mem_of_getElem? hw, rfl, rfl⟩)

theorem rowFor_ref {checks : Bool} {pool : Pool} {pos : Nat} {op : Opcode} {sh : Shape} {v : UInt8} {A : Nat → Prop} {seg : Bytes} (i : Nat)
    (h : opcodeTable[i]? = some (v, sh)) (hs : ∀ t, ref A t → ShapeLang checks pool (pos + 1) sh op t)
    (hr : (lit [v] ⬝ ref A) seg) : RowFor checks pool pos op seg := by
  obtain ⟨s, t, rfl, rfl, hr⟩ := hr
  exact rowFor i h (hs t hr)

theorem rows_complete (checks : Bool) (pool : Pool) (pos : Nat) (op : Opcode) (seg : Bytes) (h : InsnEnc checks pool pos op seg) :
    RowFor checks pool pos op seg := by
  cases op
  case aaload => exact rowFor_lit 50 rfl h
  case aastore => exact rowFor_lit 83 rfl h
  case aconstNull => exact rowFor_lit 1 rfl h
  case aload n => exact rowFor_local 25 4 42 rfl rfl rfl rfl rfl rfl h
  case anewarray t => exact rowFor_ref 189 rfl (fun t' ht => ⟨t, rfl, ht⟩) h
  case areturn => exact rowFor_lit 176 rfl h
  case arraylength => exact rowFor_lit 190 rfl h
  case astore n => exact rowFor_local 58 9 75 rfl rfl rfl rfl rfl rfl h
  case athrow => exact rowFor_lit 191 rfl h
  case baload => exact rowFor_lit 51 rfl h
  case bastore => exact rowFor_lit 84 rfl h
  case bipush v => cases h; exact rowFor 16 rfl ⟨v, rfl, rfl⟩
  case breakpoint => exact rowFor_lit 202 rfl h
  case caload => exact rowFor_lit 52 rfl h
  case castore => exact rowFor_lit 85 rfl h
  case checkcast t => exact rowFor_ref 192 rfl (fun t' ht => ⟨t, rfl, ht⟩) h
  case d2f => exact rowFor_lit 144 rfl h
  case d2i => exact rowFor_lit 142 rfl h
  case d2l => exact rowFor_lit 143 rfl h
  case dadd => exact rowFor_lit 99 rfl h
  case daload => exact rowFor_lit 49 rfl h
  case dastore => exact rowFor_lit 82 rfl h
  case dcmpg => exact rowFor_lit 152 rfl h
  case dcmpl => exact rowFor_lit 151 rfl h
  case dconst0 => exact rowFor_lit 14 rfl h
  case dconst1 => exact rowFor_lit 15 rfl h
  case ddiv => exact rowFor_lit 111 rfl h
  case dload n => exact rowFor_local 24 3 38 rfl rfl rfl rfl rfl rfl h
  case dmul => exact rowFor_lit 107 rfl h
  case dneg => exact rowFor_lit 119 rfl h
  case drem => exact rowFor_lit 115 rfl h
  case dreturn => exact rowFor_lit 175 rfl h
  case dstore n => exact rowFor_local 57 8 71 rfl rfl rfl rfl rfl rfl h
  case dsub => exact rowFor_lit 103 rfl h
  case dup => exact rowFor_lit 89 rfl h
  case dupX1 => exact rowFor_lit 90 rfl h
  case dupX2 => exact rowFor_lit 91 rfl h
  case dup2 => exact rowFor_lit 92 rfl h
  case dup2X1 => exact rowFor_lit 93 rfl h
  case dup2X2 => exact rowFor_lit 94 rfl h
  case f2d => exact rowFor_lit 141 rfl h
  case f2i => exact rowFor_lit 139 rfl h
  case f2l => exact rowFor_lit 140 rfl h
  case fadd => exact rowFor_lit 98 rfl h
  case faload => exact rowFor_lit 48 rfl h
  case fastore => exact rowFor_lit 81 rfl h
  case fcmpg => exact rowFor_lit 150 rfl h
  case fcmpl => exact rowFor_lit 149 rfl h
  case fconst0 => exact rowFor_lit 11 rfl h
  case fconst1 => exact rowFor_lit 12 rfl h
  case fconst2 => exact rowFor_lit 13 rfl h
  case fdiv => exact rowFor_lit 110 rfl h
  case fload n => exact rowFor_local 23 2 34 rfl rfl rfl rfl rfl rfl h
  case fmul => exact rowFor_lit 106 rfl h
  case fneg => exact rowFor_lit 118 rfl h
  case frem => exact rowFor_lit 114 rfl h
  case freturn => exact rowFor_lit 174 rfl h
  case fstore n => exact rowFor_local 56 7 67 rfl rfl rfl rfl rfl rfl h
  case fsub => exact rowFor_lit 102 rfl h
  case getfield m => exact rowFor_ref 180 rfl (fun t ht => ⟨m, rfl, by simpa only [memberMask_field, memberMask_method, memberMask_methods] using ht⟩) h
  case getstatic m => exact rowFor_ref 178 rfl (fun t ht => ⟨m, rfl, by simpa only [memberMask_field, memberMask_method, memberMask_methods] using ht⟩) h
  case goto j => 
    rcases h with ⟨v, hv, rfl⟩ | rfl
    · exact rowFor 167 rfl ⟨j, rfl, v, hv, rfl⟩
    · exact rowFor 200 rfl ⟨j, rfl, rfl⟩
  case i2b => exact rowFor_lit 145 rfl h
  case i2c => exact rowFor_lit 146 rfl h
  case i2d => exact rowFor_lit 135 rfl h
  case i2f => exact rowFor_lit 134 rfl h
  case i2l => exact rowFor_lit 133 rfl h
  case i2s => exact rowFor_lit 147 rfl h
  case iadd => exact rowFor_lit 96 rfl h
  case iaload => exact rowFor_lit 46 rfl h
  case iand => exact rowFor_lit 126 rfl h
  case iastore => exact rowFor_lit 79 rfl h
  case iconstM1 => exact rowFor_lit 2 rfl h
  case iconst0 => exact rowFor_lit 3 rfl h
  case iconst1 => exact rowFor_lit 4 rfl h
  case iconst2 => exact rowFor_lit 5 rfl h
  case iconst3 => exact rowFor_lit 6 rfl h
  case iconst4 => exact rowFor_lit 7 rfl h
  case iconst5 => exact rowFor_lit 8 rfl h
  case idiv => exact rowFor_lit 108 rfl h
  case ifAcmpeq j => obtain ⟨v, hv, rfl⟩ := h; exact rowFor 165 rfl ⟨j, rfl, v, hv, rfl⟩
  case ifAcmpne j => obtain ⟨v, hv, rfl⟩ := h; exact rowFor 166 rfl ⟨j, rfl, v, hv, rfl⟩
  case ifIcmpeq j => obtain ⟨v, hv, rfl⟩ := h; exact rowFor 159 rfl ⟨j, rfl, v, hv, rfl⟩
  case ifIcmpge j => obtain ⟨v, hv, rfl⟩ := h; exact rowFor 162 rfl ⟨j, rfl, v, hv, rfl⟩
  case ifIcmpgt j => obtain ⟨v, hv, rfl⟩ := h; exact rowFor 163 rfl ⟨j, rfl, v, hv, rfl⟩
  case ifIcmple j => obtain ⟨v, hv, rfl⟩ := h; exact rowFor 164 rfl ⟨j, rfl, v, hv, rfl⟩
  case ifIcmplt j => obtain ⟨v, hv, rfl⟩ := h; exact rowFor 161 rfl ⟨j, rfl, v, hv, rfl⟩
  case ifIcmpne j => obtain ⟨v, hv, rfl⟩ := h; exact rowFor 160 rfl ⟨j, rfl, v, hv, rfl⟩
  case ifeq j => obtain ⟨v, hv, rfl⟩ := h; exact rowFor 153 rfl ⟨j, rfl, v, hv, rfl⟩
  case ifge j => obtain ⟨v, hv, rfl⟩ := h; exact rowFor 156 rfl ⟨j, rfl, v, hv, rfl⟩
  case ifgt j => obtain ⟨v, hv, rfl⟩ := h; exact rowFor 157 rfl ⟨j, rfl, v, hv, rfl⟩
  case ifle j => obtain ⟨v, hv, rfl⟩ := h; exact rowFor 158 rfl ⟨j, rfl, v, hv, rfl⟩
  case iflt j => obtain ⟨v, hv, rfl⟩ := h; exact rowFor 155 rfl ⟨j, rfl, v, hv, rfl⟩
  case ifne j => obtain ⟨v, hv, rfl⟩ := h; exact rowFor 154 rfl ⟨j, rfl, v, hv, rfl⟩
  case ifnonnull j => obtain ⟨v, hv, rfl⟩ := h; exact rowFor 199 rfl ⟨j, rfl, v, hv, rfl⟩
  case ifnull j => obtain ⟨v, hv, rfl⟩ := h; exact rowFor 198 rfl ⟨j, rfl, v, hv, rfl⟩
  case iinc n v => 
    rcases h with ⟨k, w, hk, hw, rfl⟩ | rfl
    · exact rowFor 132 rfl ⟨n, v, rfl, k, w, hk, hw, rfl⟩
    · exact rowFor 0xc4 rfl (.inl ⟨n, v, rfl, rfl⟩)
  case iload n => exact rowFor_local 21 0 26 rfl rfl rfl rfl rfl rfl h
  case impdep1 => exact rowFor_lit 203 rfl h
  case impdep2 => exact rowFor_lit 204 rfl h
  case imul => exact rowFor_lit 104 rfl h
  case ineg => exact rowFor_lit 116 rfl h
  case instanceof t => exact rowFor_ref 193 rfl (fun t' ht => ⟨t, rfl, ht⟩) h
  case invokedynamic d => obtain ⟨s, t, rfl, rfl, h⟩ := h; exact rowFor 186 rfl ⟨d, rfl, h⟩
  case invokeinterface m k => obtain ⟨s, t, rfl, rfl, h⟩ := h; exact rowFor 185 rfl ⟨m, k, rfl, h⟩
  case invokespecial m => exact rowFor_ref 183 rfl (fun t ht => ⟨m, rfl, by simpa only [memberMask_field, memberMask_method, memberMask_methods] using ht⟩) h
  case invokestatic m => exact rowFor_ref 184 rfl (fun t ht => ⟨m, rfl, by simpa only [memberMask_field, memberMask_method, memberMask_methods] using ht⟩) h
  case invokevirtual m => exact rowFor_ref 182 rfl (fun t ht => ⟨m, rfl, by simpa only [memberMask_field, memberMask_method, memberMask_methods] using ht⟩) h
  case ior => exact rowFor_lit 128 rfl h
  case irem => exact rowFor_lit 112 rfl h
  case ireturn => exact rowFor_lit 172 rfl h
  case ishl => exact rowFor_lit 120 rfl h
  case ishr => exact rowFor_lit 122 rfl h
  case istore n => exact rowFor_local 54 5 59 rfl rfl rfl rfl rfl rfl h
  case isub => exact rowFor_lit 100 rfl h
  case iushr => exact rowFor_lit 124 rfl h
  case ixor => exact rowFor_lit 130 rfl h
  case jsr j => 
    rcases h with ⟨v, hv, rfl⟩ | rfl
    · exact rowFor 168 rfl ⟨j, rfl, v, hv, rfl⟩
    · exact rowFor 201 rfl ⟨j, rfl, rfl⟩
  case l2d => exact rowFor_lit 138 rfl h
  case l2f => exact rowFor_lit 137 rfl h
  case l2i => exact rowFor_lit 136 rfl h
  case ladd => exact rowFor_lit 97 rfl h
  case laload => exact rowFor_lit 47 rfl h
  case land => exact rowFor_lit 127 rfl h
  case lastore => exact rowFor_lit 80 rfl h
  case lcmp => exact rowFor_lit 148 rfl h
  case lconst0 => exact rowFor_lit 9 rfl h
  case lconst1 => exact rowFor_lit 10 rfl h
  case ldc l => obtain ⟨i, hi, rfl⟩ := h; exact rowFor 18 rfl ⟨l, rfl, i, hi, rfl⟩
  case ldcW l => exact rowFor_ref 19 rfl (fun t ht => ⟨l, rfl, ht⟩) h
  case ldc2W l => exact rowFor_ref 20 rfl (fun t ht => ⟨l, rfl, ht⟩) h
  case ldiv => exact rowFor_lit 109 rfl h
  case lload n => exact rowFor_local 22 1 30 rfl rfl rfl rfl rfl rfl h
  case lmul => exact rowFor_lit 105 rfl h
  case lneg => exact rowFor_lit 117 rfl h
  case lookupswitch t => obtain ⟨np, h1, s, t', rfl, rfl, h⟩ := h; exact rowFor 171 rfl ⟨t, rfl, np, h1, h⟩
  case lor => exact rowFor_lit 129 rfl h
  case lrem => exact rowFor_lit 113 rfl h
  case lreturn => exact rowFor_lit 173 rfl h
  case lshl => exact rowFor_lit 121 rfl h
  case lshr => exact rowFor_lit 123 rfl h
  case lstore n => exact rowFor_local 55 6 63 rfl rfl rfl rfl rfl rfl h
  case lsub => exact rowFor_lit 101 rfl h
  case lushr => exact rowFor_lit 125 rfl h
  case lxor => exact rowFor_lit 131 rfl h
  case monitorenter => exact rowFor_lit 194 rfl h
  case monitorexit => exact rowFor_lit 195 rfl h
  case multianewarray t k => obtain ⟨s, t', rfl, rfl, h⟩ := h; exact rowFor 197 rfl ⟨t, k, rfl, h⟩
  case new s => exact rowFor_ref 187 rfl (fun t ht => ⟨s, rfl, ht⟩) h
  case newarray t => cases h; exact rowFor 188 rfl ⟨t, rfl, rfl⟩
  case nop => exact rowFor_lit 0 rfl h
  case pop => exact rowFor_lit 87 rfl h
  case pop2 => exact rowFor_lit 88 rfl h
  case putfield m => exact rowFor_ref 181 rfl (fun t ht => ⟨m, rfl, by simpa only [memberMask_field, memberMask_method, memberMask_methods] using ht⟩) h
  case putstatic m => exact rowFor_ref 179 rfl (fun t ht => ⟨m, rfl, by simpa only [memberMask_field, memberMask_method, memberMask_methods] using ht⟩) h
  case ret n => 
    rcases h with ⟨b, hb, rfl⟩ | rfl
    · exact rowFor 169 rfl ⟨n, rfl, b, hb, rfl⟩
    · exact rowFor 0xc4 rfl (.inr ⟨(0xa9, .ret), n, List.mem_of_getElem? (i := 10) rfl, rfl, rfl⟩)
  case return_ => exact rowFor_lit 177 rfl h
  case saload => exact rowFor_lit 53 rfl h
  case sastore => exact rowFor_lit 86 rfl h
  case sipush v => cases h; exact rowFor 17 rfl ⟨v, rfl, rfl⟩
  case swap => exact rowFor_lit 95 rfl h
  case tableswitch t => obtain ⟨h1, s, t', rfl, rfl, h⟩ := h; exact rowFor 170 rfl ⟨t, rfl, h1, h⟩

theorem ExactAt.bind' {α β : Type} {ix : Nat} {p : P α} {f : α → P β} {F : α → Lang} {G : α → β → Lang} {k : Nat}
    (hp : ExactAt ix p F) (hk : ∀ a s, F a s → s.length = k) (hf : ∀ a, ExactAt (ix + k) (f a) (G a)) :
    ExactAt ix (p >>= f) (fun b seg => ∃ a, (F a ⬝ G a b) seg) := by
  intro bytes h1 b ix''
  rw [P.bind_ok]
  constructor
  · rintro ⟨a, ix', hpa, hfa⟩
    obtain ⟨s, r, hd, hF, rfl⟩ := (hp bytes h1 a ix').mp hpa
    have hl := length_of_drop_eq h1 hd
    rw [hk a s hF] at hl hfa
    obtain ⟨t, r', hd', hG, rfl⟩ := (hf a bytes (by omega) b ix'').mp hfa
    rw [← hk a s hF, drop_of_drop_eq hd] at hd'
    exact ⟨s ++ t, r', by rw [hd, hd', List.append_assoc], ⟨a, s, t, rfl, hF, hG⟩, by rw [List.length_append, hk a s hF]; omega⟩
  · rintro ⟨seg, rest, hd, ⟨a, s, t, rfl, hF, hG⟩, rfl⟩
    rw [List.append_assoc] at hd
    have hl := length_of_drop_eq h1 hd
    refine ⟨a, ix + s.length, (hp bytes h1 a _).mpr ⟨s, t ++ rest, hd, hF, rfl⟩, ?_⟩
    have hd' := drop_of_drop_eq hd
    rw [hk a s hF] at hl hd' ⊢
    exact (hf a bytes (by omega) b _).mpr
      ⟨t, rest, hd', hG, by rw [List.length_append, hk a s hF]; omega⟩

theorem readOpcode_exact (checks : Bool) (pool : Pool) (pos : Nat) :
    ExactAt pos (readOpcode checks pool) (InsnEnc checks pool pos) := by
  unfold readOpcode
  refine (ExactAt.bind' (k := 1) (Exact.at fun N => Exact.readU1)
    (G := fun v op t => ∃ sh, (v, sh) ∈ opcodeTable ∧ ShapeLang checks pool (pos + 1) sh op t) ?_ fun v => ?_).congr ?_
  · rintro a s rfl; rfl
  · cases hv : shapeOf v with
    | some sh =>
      refine (readShape_exact checks pool (pos + 1) sh).congr ?_
      intro op t
      constructor
      · intro h; exact ⟨sh, lookup_mem hv, h⟩
      · rintro ⟨sh', hm, h⟩
        have := lookup_of_mem opcodeTable_nodup hm
        unfold shapeOf at hv
        rw [hv] at this
        cases this
        exact h
    | none =>
      refine Exact.at fun N => (Exact.getIxBind fun _ => Exact.fail).congr ?_
      intro op t
      simp only [false_iff]
      rintro ⟨sh', hm, h⟩
      have := lookup_of_mem opcodeTable_nodup hm
      unfold shapeOf at hv
      rw [hv] at this
      cases this
  · intro op seg
    constructor
    · rintro ⟨v, s, t, rfl, rfl, sh, hm, h⟩
      exact rows_sound checks pool pos _ hm op t h
    · intro h
      obtain ⟨⟨v, sh⟩, hm, t, rfl, h'⟩ := rows_complete checks pool pos op seg h
      exact ⟨v, [v], t, rfl, rfl, sh, hm, h'⟩

theorem insnEnc_ne_nil {checks : Bool} {pool : Pool} {pos : Nat} {op : Opcode} {seg : Bytes} (h : InsnEnc checks pool pos op seg) :
    seg ≠ [] := by
  obtain ⟨_, _, t, rfl, _⟩ := rows_complete checks pool pos op seg h
  simp
end Cafebabe
