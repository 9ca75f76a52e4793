import Verif.Spec.Panics
import Verif.Proofs.Front
/-!
# Proofs: when exactly a reader panics

`Breaks N p G`: on inputs with fewer than `N` bytes left, `p` panics in the way `k` exactly when what is left is in `G k`. Here: the
framework, and the decoder of a code array.
-/

namespace Cafebabe
open Spec

/-- On inputs with fewer than `N` bytes left, `p` panics in the way `k` exactly when what is left is in `G k`. -/
def Breaks {α : Type} (N : Nat) (p : P α) (G : PanicKind → Lang) : Prop :=
  ∀ (bytes : Bytes) (ix : Nat), ix ≤ bytes.length → bytes.length < ix + N → ∀ k, p bytes ix = .panic k ↔ G k (bytes.drop ix)

theorem Breaks.congr {α : Type} {N : Nat} {p : P α} {G H : PanicKind → Lang} (h : Breaks N p G) (he : ∀ k s, G k s ↔ H k s) :
    Breaks N p H := fun bytes ix h1 h2 k => (h bytes ix h1 h2 k).trans (he k _)

theorem Breaks.mono {α : Type} {N M : Nat} {p : P α} {G : PanicKind → Lang} (h : Breaks M p G) (hle : N ≤ M) : Breaks N p G :=
  fun bytes ix h1 h2 => h bytes ix h1 (by omega)

theorem Breaks.calm {α : Type} {N M c : Nat} {p : P α} (h : Tame M (fun _ => False) c p) : Breaks N p (fun _ _ => False) := by
  intro bytes ix h1 h2 k
  have := h bytes ix h1
  unfold TameAt at this
  constructor
  · intro hk; rw [hk] at this; exact this
  · exact False.elim

theorem Breaks.mapErr {α : Type} {N : Nat} {p : P α} {G : PanicKind → Lang} (h : Breaks N p G) (c : String) : Breaks N (p.mapErr c) G := by
  intro bytes ix h1 h2 k
  rw [← h bytes ix h1 h2 k]
  unfold P.mapErr Res.mapErr
  cases p bytes ix <;> simp

theorem P.bind_panic {α β : Type} {p : P α} {f : α → P β} {bytes : Bytes} {ix : Nat} {k : PanicKind} :
    (p >>= f) bytes ix = .panic k ↔ p bytes ix = .panic k ∨ ∃ a ix', p bytes ix = .ok (a, ix') ∧ f a bytes ix' = .panic k := by
  show P.bind p f bytes ix = _ ↔ _
  unfold P.bind
  cases h : p bytes ix with
  | ok x => obtain ⟨a, ix'⟩ := x; simp [and_assoc]
  | err e => simp
  | panic k => simp
  | diverge => simp

/-- Sequencing: the first reader panics, or it succeeds (consuming at least `c` bytes) and the second panics. -/
theorem Breaks.bindK {α β : Type} {N M : Nat} (c : Nat) {p : P α} {f : α → P β} {F : α → Lang} {G : PanicKind → Lang}
    {H : α → PanicKind → Lang} (hb : Breaks N p G) (hp : Exact N p F) (hk : ∀ a seg, F a seg → c ≤ seg.length) (hNM : N ≤ M + c)
    (hf : ∀ a, (∃ seg, F a seg) → Breaks M (f a) (H a)) : Breaks N (p >>= f) (fun k s => G k s ∨ ∃ a, (F a ⬝ H a k) s) := by
  intro bytes ix h1 h2 k
  rw [P.bind_panic, hb bytes ix h1 h2 k]
  refine or_congr_right ⟨?_, ?_⟩
  · rintro ⟨a, ix', hpa, hfa⟩
    obtain ⟨s, r, hd, hF, rfl⟩ := (hp bytes ix h1 h2 a ix').mp hpa
    have hl := length_of_drop_eq h1 hd
    have := hk a s hF
    have hH := (hf a ⟨s, hF⟩ bytes _ (by omega) (by omega) k).mp hfa
    rw [drop_of_drop_eq hd] at hH
    exact ⟨a, s, r, hd, hF, hH⟩
  · rintro ⟨a, s, r, hd, hF, hH⟩
    have hl := length_of_drop_eq h1 hd
    have := hk a s hF
    refine ⟨a, ix + s.length, (hp bytes ix h1 h2 a _).mpr ⟨s, r, hd, hF, rfl⟩, ?_⟩
    refine (hf a ⟨s, hF⟩ bytes _ (by omega) (by omega) k).mpr ?_
    rw [drop_of_drop_eq hd]; exact hH

theorem Breaks.bind {α β : Type} {N : Nat} {p : P α} {f : α → P β} {F : α → Lang} {G : PanicKind → Lang}
    {H : α → PanicKind → Lang} (hb : Breaks N p G) (hp : Exact N p F) (hf : ∀ a, Breaks N (f a) (H a)) :
    Breaks N (p >>= f) (fun k s => G k s ∨ ∃ a, (F a ⬝ H a k) s) :=
  Breaks.bindK 0 hb hp (fun _ _ _ => Nat.zero_le _) (Nat.le_refl _) fun a _ => hf a

/-- Sequencing where the first reader cannot panic. -/
theorem Breaks.seq {α β : Type} {N M c : Nat} {p : P α} {f : α → P β} {F : α → Lang} {H : α → PanicKind → Lang}
    (ht : Tame M (fun _ => False) c p) (hp : Exact N p F) (hf : ∀ a, Breaks N (f a) (H a)) :
    Breaks N (p >>= f) (fun k s => ∃ a, (F a ⬝ H a k) s) :=
  (Breaks.bind (Breaks.calm ht) hp hf).congr fun k s => by simp

theorem Breaks.seqK {α β : Type} {N M M' c : Nat} (c' : Nat) {p : P α} {f : α → P β} {F : α → Lang} {H : α → PanicKind → Lang}
    (ht : Tame M' (fun _ => False) c p) (hp : Exact N p F) (hk : ∀ a seg, F a seg → c' ≤ seg.length) (hNM : N ≤ M + c')
    (hf : ∀ a, Breaks M (f a) (H a)) : Breaks N (p >>= f) (fun k s => ∃ a, (F a ⬝ H a k) s) :=
  (Breaks.bindK c' (Breaks.calm ht) hp hk hNM fun a _ => hf a).congr fun k s => by simp

/-- The same, knowing that the value read has an encoding. -/
theorem Breaks.seqW {α β : Type} {N M c : Nat} {p : P α} {f : α → P β} {F : α → Lang} {H : α → PanicKind → Lang}
    (ht : Tame M (fun _ => False) c p) (hp : Exact N p F) (hf : ∀ a, (∃ seg, F a seg) → Breaks N (f a) (H a)) :
    Breaks N (p >>= f) (fun k s => ∃ a, (F a ⬝ H a k) s) :=
  (Breaks.bindK 0 (Breaks.calm ht) hp (fun _ _ _ => Nat.zero_le _) (Nat.le_refl _) hf).congr fun k s => by simp

/-- Sequencing where what follows cannot panic. -/
theorem Breaks.first {α β : Type} {N : Nat} {p : P α} {f : α → P β} {G : PanicKind → Lang} (hb : Breaks N p G)
    (hf : ∀ a bytes ix k, f a bytes ix ≠ .panic k) : Breaks N (p >>= f) G := by
  intro bytes ix h1 h2 k
  rw [P.bind_panic, hb bytes ix h1 h2 k]
  exact ⟨fun h => h.elim id fun ⟨a, ix', _, h⟩ => absurd h (hf a bytes ix' k), .inl⟩

theorem Breaks.getIx {α : Type} {N : Nat} {f : Nat → P α} {G : PanicKind → Lang} (h : ∀ i, Breaks N (f i) G) :
    Breaks N (P.getIx >>= f) G := fun bytes ix h1 h2 k => h ix bytes ix h1 h2 k

theorem Breaks.lift {α : Type} {N : Nat} (r : Res α) : Breaks N (P.lift r) (fun k _ => r = .panic k) := by
  intro bytes ix h1 h2 k
  unfold P.lift
  cases r <;> simp

/-- A guard. -/
theorem Breaks.failIf {β : Type} {N : Nat} {b : Bool} {m : String} {q : Unit → P β} {H : PanicKind → Lang}
    (hq : b = false → Breaks N (q ()) H) : Breaks N (P.failIf b m >>= q) (fun k s => b = false ∧ H k s) := by
  cases b with
  | true =>
    intro bytes ix h1 h2 k
    constructor
    · intro h; cases h
    · rintro ⟨h, -⟩; cases h
  | false => exact (hq rfl : Breaks N (q ()) H).congr fun k s => by simp

theorem Breaks.forRangeFrom {α : Type} {N : Nat} {f : Nat → P α} {F : α → Lang} {G : PanicKind → Lang} (hx : ∀ i, Exact N (f i) F)
    (hf : ∀ i, Breaks N (f i) G) : ∀ (n i : Nat), Breaks N (P.forRangeFrom f i n) (fun k s => ∃ xs, xs.length < n ∧ (Spec.seq F xs ⬝ G k) s)
  | 0, i => (Breaks.calm (M := 0) (Tame.pure [])).congr fun k s => by simp
  | n + 1, i => by
    refine (Breaks.bind (hf i) (hx i) fun x => Breaks.first (f := fun xs => (pure (x :: xs) : P _)) (Breaks.forRangeFrom hx hf n (i + 1))
      (fun _ _ _ _ h => by cases h)).congr fun k s => ?_
    constructor
    · rintro (h | ⟨x, s1, t1, rfl, hx, xs, hl, s2, t2, rfl, hs, hG⟩)
      · exact ⟨[], Nat.succ_pos n, [], s, rfl, rfl, h⟩
      · exact ⟨x :: xs, by simpa using hl, s1 ++ s2, t2, by simp, ⟨s1, s2, rfl, hx, hs⟩, hG⟩
    · rintro ⟨xs, hl, s1, t, rfl, hs, hG⟩
      cases xs with
      | nil => cases hs; exact .inl hG
      | cons x xs =>
        obtain ⟨s2, s3, rfl, hx, hs⟩ := hs
        exact .inr ⟨x, s2, s3 ++ t, by simp, hx, xs, by simpa using hl, s3, t, rfl, hs, hG⟩

/-- A table panics when some elements are read and the next one panics. -/
theorem Breaks.readTable2K {α : Type} {N : Nat} {f : Nat → P α} {F : α → Lang} {G : PanicKind → Lang} (hx : ∀ i, Exact N (f i) F)
    (hf : ∀ i, Breaks N (f i) G) : Breaks (N + 2) (Cafebabe.readTable2 f) (fun k s =>
      ∃ (count : UInt16) (xs : List α) (s1 t : Bytes), s = u2 count ++ (s1 ++ t) ∧ xs.length < count.toNat ∧ Spec.seq F xs s1 ∧ G k t) := by
  unfold Cafebabe.readTable2
  refine (Breaks.seqK (M := N) 2 (Tame.readU2 (N := 0)) Exact.readU2 ?_ (Nat.le_refl _) fun c => Breaks.forRangeFrom hx hf c.toNat 0).congr ?_
  · rintro a seg rfl; simp [u2_length]
  · intro k s
    constructor
    · rintro ⟨c, s1, t1, rfl, rfl, xs, hl, s2, t2, rfl, hs, hG⟩; exact ⟨c, xs, s2, t2, rfl, hl, hs, hG⟩
    · rintro ⟨c, xs, s2, t2, rfl, hl, hs, hG⟩; exact ⟨c, _, _, rfl, rfl, xs, hl, s2, t2, rfl, hs, hG⟩

/-! ## Instructions -/

theorem jumpSpan_panic {low high : Int32} (hle : low.toInt ≤ high.toInt) {k : PanicKind} :
    jumpSpan true low high = .panic k ↔ k = .overflow ∧ 2147483647 < high.toInt - low.toInt + 1 := by
  have l1 := int32_low low; have h1 := int32_high low
  have l2 := int32_low high; have h2 := int32_high high
  have hsub : (high - low).toInt = (high.toInt - low.toInt).bmod 4294967296 := Int32.toInt_sub ..
  unfold jumpSpan
  by_cases hbig : high.toInt - low.toInt > 2147483647
  · rw [if_pos (by simp only [Bool.true_and, Bool.or_eq_true, decide_eq_true_eq]; exact .inl hbig)]
    constructor
    · intro h; cases h; exact ⟨rfl, by omega⟩
    · rintro ⟨rfl, -⟩; rfl
  · have e : (high - low).toInt = high.toInt - low.toInt := by
      rw [hsub, Int.bmod_eq_of_le_mul_two] <;> omega
    rw [if_neg (by simp only [Bool.true_and, Bool.or_eq_true, decide_eq_true_eq]; omega), e]
    split
    · rename_i hc
      simp only [Bool.true_and, decide_eq_true_eq] at hc
      constructor
      · intro h; cases h; exact ⟨rfl, by omega⟩
      · rintro ⟨rfl, -⟩; rfl
    · rename_i hc
      simp only [Bool.true_and, decide_eq_true_eq] at hc
      constructor
      · intro h; cases h
      · rintro ⟨-, h⟩; omega

theorem tableswitch_panic {code : Bytes} {ix : Nat} (hix : ix ≤ code.length) {k : PanicKind} :
    readTableswitch true code ix = .panic k ↔ k = .overflow ∧ ∃ (pad rest : Bytes) (d low high : Int32),
      code.drop ix = pad ++ (s4 d ++ (s4 low ++ (s4 high ++ rest))) ∧ padding ix pad ∧ low.toInt ≤ high.toInt ∧
        2147483647 < high.toInt - low.toInt + 1 := by
  have e1 : readTableswitch true code ix = .panic k ↔ tableswitchHeader true code ix = .panic k := by
    unfold readTableswitch
    rw [P.bind_panic]
    constructor
    · rintro (h | ⟨⟨d, l, h, n⟩, ix', hh, hp⟩)
      · exact h
      · exfalso
        by_cases hle : ix' ≤ code.length
        · have : Tame 0 (fun _ => False) 0 (P.forRange n (fun _ => readI4) >>= fun jumps =>
              (pure (.tableswitch { default := d, low := l, high := h, jumps := jumps }) : P Opcode)) :=
            Tame.seq (Tame.forRange (fun _ => readI4_tame) n) fun _ => Tame.pure _
          have := this code ix' hle
          unfold TameAt at this
          dsimp only at hp
          rw [hp] at this
          exact this
        · have : tableswitchHeader true code ix = .ok ((d, l, h, n), ix') := hh
          obtain ⟨seg, rest, hd, -, rfl⟩ := (tableswitchHeader_exact true ix code hix _ _).mp this
          have := length_of_drop_eq hix hd
          omega
    · exact .inl
  rw [e1]
  have e2 : tableswitchHeader true code ix = (readI4 >>= fun default => readI4 >>= fun low => readI4 >>= fun high => P.getIx >>= fun ix =>
      if low > high then P.fail s!"The low value must be less than or equal to the high value in tableswitch at index {ix - 4}"
      else P.lift (jumpSpan true low high) >>= fun span =>
        if span.toInt < 0 then P.fail s!"Unable to convert range to usize in tableswitch at index {ix - 4}"
        else pure (default, low, high, span.toInt.toNat)) code (alignUp4 ix) := rfl
  rw [e2]
  have hb : Breaks (code.length + 1) (readI4 >>= fun default => readI4 >>= fun low => readI4 >>= fun high => P.getIx >>= fun ix =>
      if low > high then P.fail s!"The low value must be less than or equal to the high value in tableswitch at index {ix - 4}"
      else P.lift (jumpSpan true low high) >>= fun span =>
        if span.toInt < 0 then P.fail s!"Unable to convert range to usize in tableswitch at index {ix - 4}"
        else (pure (default, low, high, span.toInt.toNat) : P (Int32 × Int32 × Int32 × Nat))) (fun k s =>
      ∃ d, (lit (s4 d) ⬝ fun s => ∃ low, (lit (s4 low) ⬝ fun s => ∃ high, (lit (s4 high) ⬝ fun _ =>
        k = .overflow ∧ low.toInt ≤ high.toInt ∧ 2147483647 < high.toInt - low.toInt + 1) s) s) s) := by
    refine Breaks.seq (readI4_tame (N := 0)) readI4_exact fun d => Breaks.seq (readI4_tame (N := 0)) readI4_exact fun low =>
      Breaks.seq (readI4_tame (N := 0)) readI4_exact fun high => Breaks.getIx fun i => ?_
    by_cases hgt : low > high
    · rw [if_pos hgt]
      refine (Breaks.calm (M := 0) (Tame.fail (k := 0))).congr fun k s => ?_
      simp only [false_iff]
      rintro ⟨-, h, -⟩
      have := Int32.lt_iff_toInt_lt.mp hgt
      omega
    · rw [if_neg hgt]
      have hle : low.toInt ≤ high.toInt := by
        have := mt Int32.lt_iff_toInt_lt.mpr hgt
        omega
      refine (Breaks.first (Breaks.lift _) ?_).congr fun k s => ?_
      · intro span bytes ix k h
        split at h <;> cases h
      · rw [jumpSpan_panic hle]
        simp [hle]
  have hal : alignUp4 ix = ix + (alignUp4 ix - ix) ∧ alignUp4 ix - ix < 4 ∧ (ix + (alignUp4 ix - ix)) % 4 = 0 := by
    unfold alignUp4; omega
  obtain ⟨e, hlt, hmod⟩ := hal
  generalize alignUp4 ix - ix = n at e hlt hmod
  rw [e]
  by_cases hle : ix + n ≤ code.length
  · rw [hb code (ix + n) hle (by omega) k]
    constructor
    · rintro ⟨d, s1, t1, hd, rfl, low, s2, t2, rfl, rfl, high, s3, t3, rfl, rfl, rfl, h1, h2⟩
      have hk : ((code.drop ix).take n).length = n := by simp; omega
      refine ⟨rfl, (code.drop ix).take n, t3, d, low, high, ?_, ⟨by omega, by rw [hk]; exact hmod⟩, h1, h2⟩
      rw [← hd, ← List.drop_drop, List.take_append_drop]
    · rintro ⟨rfl, pad, rest, d, low, high, hd, ⟨hp1, hp2⟩, h1, h2⟩
      have hk : pad.length = n := by omega
      have := drop_of_drop_eq hd
      rw [hk] at this
      rw [this]
      exact ⟨d, _, _, rfl, rfl, low, _, _, rfl, rfl, high, _, _, rfl, rfl, rfl, h1, h2⟩
  · constructor
    · intro h
      obtain ⟨er, he⟩ := readI4_past code (ix + n) (by omega)
      rw [P.bind_err he] at h
      cases h
    · rintro ⟨rfl, pad, rest, d, low, high, hd, ⟨hp1, hp2⟩, h1, h2⟩
      have hl := length_of_drop_eq hix hd
      have hk : pad.length = n := by omega
      omega

theorem readShape_checks {pool : Pool} {sh : Shape} (h : sh ≠ .tableswitch) : readShape true pool sh = readShape false pool sh := by
  cases sh <;> first | rfl | exact absurd rfl h

theorem shapeOf_tableswitch {v : UInt8} : shapeOf v = some .tableswitch ↔ v = 0xaa := by
  constructor
  · intro h
    have hm := lookup_mem h
    have : ∀ x ∈ opcodeTable, (match x.2 with | .tableswitch => x.1 == 0xaa | _ => true) = true := by decide +kernel
    have := this _ hm
    simpa using this
  · rintro rfl; rfl

section
variable {major : UInt16} {pool : Pool} (hok : PoolOK major pool)
include hok

/-- In a checked build an instruction panics exactly when it is a `tableswitch` whose range is too large. -/
theorem readOpcode_panic {code : Bytes} {ix : Nat} (hix : ix ≤ code.length) {k : PanicKind} :
    readOpcode true pool code ix = .panic k ↔ k = .overflow ∧ SwitchOverflow ix (code.drop ix) := by
  unfold readOpcode
  rw [P.bind_panic]
  have h1 : readU1 code ix ≠ .panic k := by
    have := Tame.readU1 (N := 0) (A := fun _ => False) code ix hix
    unfold TameAt at this
    intro h; rw [h] at this; exact this
  simp only [h1, false_or]
  have hx := Exact.readU1 (N := code.length + 1) code ix hix (by omega)
  constructor
  · rintro ⟨v, ix', hv, hp⟩
    obtain ⟨seg, rest, hd, rfl, rfl⟩ := (hx v ix').mp hv
    have hl := length_of_drop_eq hix hd
    have hlen : (u1 v).length = 1 := rfl
    cases hs : shapeOf v with
    | none =>
      rw [hs] at hp
      cases hp
    | some sh =>
      rw [hs] at hp
      simp only at hp
      by_cases hsw : sh = .tableswitch
      · subst hsw
        obtain rfl := shapeOf_tableswitch.mp hs
        obtain ⟨rfl, pad, r, d, low, high, hd', hpad, h⟩ := (tableswitch_panic (by omega)).mp hp
        refine ⟨rfl, pad, r, d, low, high, ?_, hpad, h⟩
        rw [hd, ← hd', drop_of_drop_eq hd]
        rfl
      · rw [readShape_checks hsw] at hp
        have := readShape_tame (N := 0) (A := fun _ => False) (checks := false) (by simp) hok sh code (ix + (u1 v).length) (by omega)
        unfold TameAt at this
        rw [hp] at this
        exact this.elim
  · rintro ⟨rfl, pad, r, d, low, high, hd, hpad, h⟩
    have hl := length_of_drop_eq hix hd
    refine ⟨0xaa, ix + 1, (hx _ _).mpr ⟨_, _, hd, rfl, rfl⟩, ?_⟩
    rw [shapeOf_tableswitch.mpr rfl]
    refine (tableswitch_panic (by simp at hl; omega)).mpr ⟨rfl, pad, r, d, low, high, ?_, hpad, h⟩
    exact drop_of_drop_eq hd

theorem readOpcodesLoop_panic (code : Bytes) {k : PanicKind} :
    ∀ (fuel ix : Nat), ix ≤ code.length → code.length - ix < fuel → (readOpcodesLoop true pool code fuel ix = .panic k ↔ k = .overflow ∧
      ∃ (ops : List (Nat × Opcode)) (s t : Bytes), code.drop ix = s ++ t ∧ InsnsEnc true pool ix ops s ∧ SwitchOverflow (ix + s.length) t) := by
  intro fuel
  induction fuel with
  | zero => intro ix h1 h2; omega
  | succ fuel ih =>
    intro ix h1 h2
    unfold readOpcodesLoop
    split
    · rename_i hlt
      have ho := readOpcode_panic hok h1 (k := k)
      constructor
      · intro h
        cases hr : readOpcode true pool code ix with
        | err e => rw [hr] at h; cases h
        | diverge => rw [hr] at h; cases h
        | panic k' =>
          rw [hr] at h
          cases h
          obtain ⟨rfl, hs⟩ := ho.mp hr
          exact ⟨rfl, [], [], _, rfl, .nil _, hs⟩
        | ok a =>
          obtain ⟨op, ix'⟩ := a
          obtain ⟨seg, r, hd, hi, rfl⟩ := (readOpcode_exact true pool ix code h1 op ix').mp hr
          have hl := length_of_drop_eq h1 hd
          have hne := List.length_pos_iff.mpr (insnEnc_ne_nil hi)
          rw [hr] at h
          have hp : readOpcodesLoop true pool code fuel (ix + seg.length) = .panic k := by
            cases hq : readOpcodesLoop true pool code fuel (ix + seg.length) with
            | ok a => simp only [Bind.bind, Res.bind, hq] at h; cases h
            | err a => simp only [Bind.bind, Res.bind, hq] at h; cases h
            | diverge => simp only [Bind.bind, Res.bind, hq] at h; cases h
            | panic k' => simp only [Bind.bind, Res.bind, hq] at h; cases h; rfl
          obtain ⟨rfl, ops, s, t, hd', hin, hsw⟩ := (ih (ix + seg.length) (by omega) (by omega)).mp hp
          rw [drop_of_drop_eq hd] at hd'
          refine ⟨rfl, (ix, op) :: ops, seg ++ s, t, by rw [hd, hd', List.append_assoc], .cons hi hin, ?_⟩
          rw [List.length_append, ← Nat.add_assoc]; exact hsw
      · rintro ⟨rfl, ops, s, t, hd, hin, hsw⟩
        cases hin with
        | nil => rw [ho.mpr ⟨rfl, by rw [hd]; exact hsw⟩]; rfl
        | @cons _ op ops s1 s2 hi hin =>
          rw [List.append_assoc] at hd
          have hl := length_of_drop_eq h1 hd
          have hne := List.length_pos_iff.mpr (insnEnc_ne_nil hi)
          rw [(readOpcode_exact true pool ix code h1 op _).mpr ⟨s1, s2 ++ t, hd, hi, rfl⟩]
          have := (ih (ix + s1.length) (by omega) (by omega)).mpr ⟨rfl, ops, s2, t, drop_of_drop_eq hd, hin, by
            rw [List.length_append, ← Nat.add_assoc] at hsw; exact hsw⟩
          simp only [Bind.bind, Res.bind, this]
    · rename_i hge
      have : code.drop ix = [] := List.drop_eq_nil_iff.mpr (by omega)
      rw [this]
      constructor
      · intro h; cases h
      · rintro ⟨-, ops, s, t, hd, -, pad, r, d, low, high, rfl, -⟩
        simp at hd

end

/-! ## Jumps -/

theorem Res.bind_panic {α β : Type} {r : Res α} {f : α → Res β} {k : PanicKind} :
    (r >>= f) = .panic k ↔ r = .panic k ∨ ∃ a, r = .ok a ∧ f a = .panic k := by
  show Res.bind r f = _ ↔ _
  unfold Res.bind
  cases r <;> simp

theorem Res.mapErr_panic {α : Type} {r : Res α} {c : String} {k : PanicKind} : r.mapErr c = .panic k ↔ r = .panic k := by
  cases r <;> simp [Res.mapErr]

theorem validateJump_panic {bc : ByteCode} {src jump : Int32} (h0 : 0 ≤ src.toInt) {k : PanicKind} :
    bc.validateJump true src jump = .panic k ↔ k = .overflow ∧ 2147483647 < src.toInt + jump.toInt := by
  have l2 := int32_low jump
  unfold ByteCode.validateJump
  rw [Res.bind_panic]
  have ha : addI32 true src jump = .panic k ↔ k = .overflow ∧ 2147483647 < src.toInt + jump.toInt := by
    unfold addI32
    split
    · rename_i h
      simp only [Bool.true_and, Bool.or_eq_true, decide_eq_true_eq] at h
      constructor
      · intro h'; cases h'; exact ⟨rfl, by omega⟩
      · rintro ⟨rfl, -⟩; rfl
    · rename_i h
      simp only [Bool.true_and, Bool.or_eq_true, decide_eq_true_eq] at h
      constructor
      · intro h'; cases h'
      · rintro ⟨-, h'⟩; omega
  rw [ha]
  refine ⟨fun h => h.elim id ?_, .inl⟩
  rintro ⟨sum, -, h⟩
  split at h
  · cases h
  · obtain ⟨r, hr⟩ := getOpcodeIndex_returns bc sum.toInt.toNat
    rw [hr] at h
    cases r <;> cases h

theorem validateOpcodeJumps_panic {bc : ByteCode} (hs : Increasing bc.opcodes) (o : Nat) (op : Opcode) {k : PanicKind} :
    bc.validateOpcodeJumps true o op = .panic k ↔ k = .overflow ∧ ∃ (js js' : List Int32) (j : Int32), jumpsOf op = js ++ j :: js' ∧
      (∀ i ∈ js, JumpLands bc.opcodes o i) ∧ o < 2147483648 ∧ 2147483647 < (o : Int) + j.toInt := by
  unfold ByteCode.validateOpcodeJumps
  split
  · constructor
    · intro h; cases h
    · rintro ⟨-, js, js', j, -, -, h, -⟩; omega
  · rename_i hle
    have hlt : o < 2147483648 := by omega
    have hsrc : (Int32.ofNat o).toInt = o := by
      rw [Int32.toInt_ofNat']
      rw [Int.bmod_def]
      simp only [Int32.size]
      split <;> omega
    have h0 : 0 ≤ (Int32.ofNat o).toInt := by omega
    simp only [hlt, true_and]
    have one : ∀ j0 : Int32, (bc.validateJump true (Int32.ofNat o) j0 = .panic k ↔ k = .overflow ∧ ∃ (js js' : List Int32) (j : Int32),
        [j0] = js ++ j :: js' ∧ (∀ i ∈ js, JumpLands bc.opcodes o i) ∧ 2147483647 < (o : Int) + j.toInt) := by
      intro j0
      rw [validateJump_panic h0, hsrc]
      constructor
      · rintro ⟨rfl, h⟩; exact ⟨rfl, [], [], j0, rfl, by simp, h⟩
      · rintro ⟨rfl, js, js', j, he, -, h⟩
        cases js with
        | nil => cases he; exact ⟨rfl, h⟩
        | cons x js => cases js <;> cases he
    have two : ∀ (c : String) (j0 : Int32) (l : List Int32) (r : Res Unit), (r = .panic k ↔ k = .overflow ∧ ∃ (js js' : List Int32) (j : Int32),
        l = js ++ j :: js' ∧ (∀ i ∈ js, JumpLands bc.opcodes o i) ∧ 2147483647 < (o : Int) + j.toInt) →
        (((bc.validateJump true (Int32.ofNat o) j0).mapErr c >>= fun _ => r) = .panic k ↔ k = .overflow ∧ ∃ (js js' : List Int32) (j : Int32),
        j0 :: l = js ++ j :: js' ∧ (∀ i ∈ js, JumpLands bc.opcodes o i) ∧ 2147483647 < (o : Int) + j.toInt) := by
      intro c j0 l r hr
      rw [Res.bind_panic, Res.mapErr_panic, validateJump_panic h0, hsrc, hr]
      constructor
      · rintro (⟨rfl, h⟩ | ⟨_, h1, rfl, js, js', i, rfl, h2, h3⟩)
        · exact ⟨rfl, [], l, j0, rfl, by simp, h⟩
        · rw [Res.mapErr_ok, validateJump_ok hs h0, hsrc] at h1
          refine ⟨rfl, j0 :: js, js', i, rfl, ?_, h3⟩
          intro x hx
          rcases List.mem_cons.mp hx with rfl | hx
          · exact h1
          · exact h2 x hx
      · rintro ⟨rfl, js, js', i, he, h2, h3⟩
        cases js with
        | nil => cases he; exact .inl ⟨rfl, h3⟩
        | cons x js =>
          cases he
          refine .inr ⟨(), ?_, rfl, js, js', i, rfl, fun y hy => h2 y (List.mem_cons_of_mem _ hy), h3⟩
          rw [Res.mapErr_ok, validateJump_ok hs h0, hsrc]
          exact h2 j0 (by simp)
    have many : ∀ (l : List (Int32 × Int32)), validateMatchOffsets true bc (Int32.ofNat o) l = .panic k ↔ k = .overflow ∧
        ∃ (js js' : List Int32) (j : Int32), l.map (·.2) = js ++ j :: js' ∧ (∀ i ∈ js, JumpLands bc.opcodes o i) ∧
          2147483647 < (o : Int) + j.toInt := by
      intro l
      induction l with
      | nil => simp [validateMatchOffsets]
      | cons x l ih => exact two _ x.2 _ _ ih
    have range : ∀ (l : List Int32) (n : Nat), validateRangeOffsets true bc (Int32.ofNat o) n l = .panic k ↔ k = .overflow ∧
        ∃ (js js' : List Int32) (j : Int32), l = js ++ j :: js' ∧ (∀ i ∈ js, JumpLands bc.opcodes o i) ∧
          2147483647 < (o : Int) + j.toInt := by
      intro l
      induction l with
      | nil => intro n; simp [validateRangeOffsets]
      | cons x l ih => intro n; exact two _ x _ _ (ih (n + 1))
    cases op <;> simp only [jumpsOf] <;> first
      | exact one _
      | simp
      | exact two _ _ _ _ (many _)
      | exact two _ _ _ _ (range _ 0)

theorem validateJumpsFrom_panic {bc : ByteCode} (hs : Increasing bc.opcodes) {k : PanicKind} :
    ∀ l : List (Nat × Opcode), bc.validateJumpsFrom true l = .panic k ↔ k = .overflow ∧
      ∃ (before after : List (Nat × Opcode)) (o : Nat) (op : Opcode) (js js' : List Int32) (j : Int32),
        l = before ++ (o, op) :: after ∧ jumpsOf op = js ++ j :: js' ∧
        (∀ x ∈ before, x.1 < 2147483648 ∧ ∀ i ∈ jumpsOf x.2, JumpLands bc.opcodes x.1 i) ∧ (∀ i ∈ js, JumpLands bc.opcodes o i) ∧
        o < 2147483648 ∧ 2147483647 < (o : Int) + j.toInt
  | [] => by simp [ByteCode.validateJumpsFrom]
  | (o, op) :: l => by
    unfold ByteCode.validateJumpsFrom
    rw [Res.bind_panic, Res.mapErr_panic, validateOpcodeJumps_panic hs, validateJumpsFrom_panic hs l]
    constructor
    · rintro (⟨rfl, js, js', j, he, h1, h2, h3⟩ | ⟨_, hok, rfl, before, after, o', op', js, js', j, rfl, he, hb, h1, h2, h3⟩)
      · exact ⟨rfl, [], l, o, op, js, js', j, rfl, he, by simp, h1, h2, h3⟩
      · rw [Res.mapErr_ok, validateOpcodeJumps_ok hs] at hok
        refine ⟨rfl, (o, op) :: before, after, o', op', js, js', j, rfl, he, ?_, h1, h2, h3⟩
        intro x hx
        rcases List.mem_cons.mp hx with rfl | hx
        · exact hok
        · exact hb x hx
    · rintro ⟨rfl, before, after, o', op', js, js', j, hl, he, hb, h1, h2, h3⟩
      cases before with
      | nil => cases hl; exact .inl ⟨rfl, js, js', j, he, h1, h2, h3⟩
      | cons x before =>
        cases hl
        refine .inr ⟨(), ?_, rfl, before, after, o', op', js, js', j, rfl, he, fun y hy => hb y (List.mem_cons_of_mem _ hy), h1, h2, h3⟩
        rw [Res.mapErr_ok, validateOpcodeJumps_ok hs]
        exact hb (o, op) (by simp)

/-- Decoding a code array panics exactly when it overflows. -/
theorem ofCode_panic {major : UInt16} {pool : Pool} (hok : PoolOK major pool) {code : Bytes} {k : PanicKind} :
    ByteCode.ofCode true code pool = .panic k ↔ k = .overflow ∧ CodeOverflows pool code := by
  unfold ByteCode.ofCode
  rw [Res.bind_panic]
  have hr : readOpcodes true code pool = .panic k ↔ _ := readOpcodesLoop_panic hok code _ 0 (Nat.zero_le _) (by omega)
  rw [hr]
  simp only [List.drop_zero, Nat.zero_add]
  constructor
  · rintro (⟨rfl, h⟩ | ⟨ops, ho, h⟩)
    · exact ⟨rfl, .inl h⟩
    · have henc := (readOpcodes_ok true pool code ops).mp ho
      rw [Res.bind_panic] at h
      rcases h with h | ⟨_, -, h⟩
      · obtain ⟨rfl, before, after, o, op, js, js', j, h1, h2, h3, h4⟩ := (validateJumpsFrom_panic (insnsEnc_offsets henc).1 _).mp h
        exact ⟨rfl, .inr ⟨ops, henc, before, after, o, op, js, js', j, h1, h2, fun x hx => (h3 x hx).2, h4⟩⟩
      · cases h
  · rintro ⟨rfl, h | ⟨ops, henc, before, after, o, op, js, js', j, h1, h2, h3, h4, h5, h6⟩⟩
    · exact .inl ⟨rfl, h⟩
    · refine .inr ⟨ops, (readOpcodes_ok true pool code ops).mpr henc, ?_⟩
      rw [Res.bind_panic]
      refine .inl ((validateJumpsFrom_panic (insnsEnc_offsets henc).1 _).mpr ⟨rfl, before, after, o, op, js, js', j, h1, h2, ?_, h4, h5, h6⟩)
      intro x hx
      refine ⟨?_, h3 x hx⟩
      have hinc := (insnsEnc_offsets henc).1
      have h1' : ops = before ++ (o, op) :: after := h1
      rw [h1'] at hinc
      have := (List.pairwise_append.mp hinc).2.2 x hx (o, op) (by simp)
      simp only at this
      omega

end Cafebabe
