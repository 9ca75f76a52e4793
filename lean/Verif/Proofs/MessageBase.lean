import Verif.Spec.Message
import Verif.Proofs.Faults
import Verif.Proofs.TextMessage
/-!
# Proofs: the error for an input, the framework

`Names C L N p R`: on inputs of length `L` with fewer than `N` bytes left, the errors of `p` for which `C` holds are those that `R` relates to
what is left.
-/

namespace Cafebabe
open Spec

def Names {α : Type} (C : ParseError → Prop) (L N : Nat) (p : P α) (R : Bytes → ParseError → Prop) : Prop :=
  ∀ (bytes : Bytes) (ix : Nat), bytes.length = L → ix ≤ L → L < ix + N → ∀ e, C e → (p bytes ix = .err e ↔ R (bytes.drop ix) e)

/-- No condition. -/
def anyError : ParseError → Prop := fun _ => True

section
variable {α β : Type} {C : ParseError → Prop} {L N : Nat}

theorem Names.congr {p : P α} {R S : Bytes → ParseError → Prop} (h : Names C L N p R) (he : ∀ s e, C e → (R s e ↔ S s e)) : Names C L N p S :=
  fun bytes ix h1 h2 h3 e hC => (h bytes ix h1 h2 h3 e hC).trans (he _ e hC)

theorem Names.weaken {p : P α} {R : Bytes → ParseError → Prop} (h : Names anyError L N p R) : Names C L N p R :=
  fun bytes ix h1 h2 h3 e _ => h bytes ix h1 h2 h3 e trivial

theorem withContext_eq (c : String) (e : ParseError) : e.withContext c = inside c e := rfl

theorem mapErr_inside {p : P α} {c : String} {bytes : Bytes} {ix : Nat} {e : ParseError} :
    p.mapErr c bytes ix = .err e ↔ ∃ e', p bytes ix = .err e' ∧ e = inside c e' := by
  unfold P.mapErr Res.mapErr
  cases hp : p bytes ix with
  | ok a => simp
  | panic k => simp
  | diverge => simp
  | err e' =>
    simp only [Res.err.injEq, exists_eq_left']
    exact ⟨fun h => h.symm, fun h => h.symm⟩

theorem Names.ctx {p : P α} {R : Bytes → ParseError → Prop} (h : Names anyError L N p R) (c : String) :
    Names C L N (p.mapErr c) (fun s e => ∃ e', R s e' ∧ e = inside c e') := by
  intro bytes ix h1 h2 h3 e _
  rw [mapErr_inside]
  simp only [h bytes ix h1 h2 h3 _ trivial]

/-- A reader all of whose errors are left out. -/
theorem Names.skip {p : P α} {c : String} (h : ∀ e, ¬ C (inside c e)) : Names C L N (p.mapErr c) (fun _ _ => False) := by
  intro bytes ix h1 h2 h3 e hC
  rw [mapErr_inside]
  constructor
  · rintro ⟨e', -, rfl⟩; exact h _ hC
  · exact False.elim

theorem Names.bindW {p : P α} {f : α → P β} {F : α → Lang} {G : Bytes → ParseError → Prop} {H : α → Bytes → ParseError → Prop}
    (hb : Names C L N p G) (hp : Exact N p F) (hf : ∀ a, (∃ seg, F a seg) → Names C L N (f a) (H a)) :
    Names C L N (p >>= f) (fun s e => G s e ∨ ∃ a s1 t, s = s1 ++ t ∧ F a s1 ∧ H a t e) := by
  intro bytes ix h1 h2 h3 e hC
  rw [P.bind_errs, hb bytes ix h1 h2 h3 e hC]
  refine or_congr_right ?_
  constructor
  · rintro ⟨a, ix', hpa, h⟩
    obtain ⟨s, r, hd, hF, rfl⟩ := (hp bytes ix (by omega) (by omega) a ix').mp hpa
    have hl := length_of_drop_eq (by omega) hd
    have := (hf a ⟨s, hF⟩ bytes _ h1 (by omega) (by omega) e hC).mp h
    rw [drop_of_drop_eq hd] at this
    exact ⟨a, s, r, hd, hF, this⟩
  · rintro ⟨a, s, r, hd, hF, hH⟩
    have hl := length_of_drop_eq (by omega) hd
    refine ⟨a, ix + s.length, (hp bytes ix (by omega) (by omega) a _).mpr ⟨s, r, hd, hF, rfl⟩, ?_⟩
    refine (hf a ⟨s, hF⟩ bytes _ h1 (by omega) (by omega) e hC).mpr ?_
    rw [drop_of_drop_eq hd]; exact hH

theorem Names.bind {p : P α} {f : α → P β} {F : α → Lang} {G : Bytes → ParseError → Prop} {H : α → Bytes → ParseError → Prop}
    (hb : Names C L N p G) (hp : Exact N p F) (hf : ∀ a, Names C L N (f a) (H a)) :
    Names C L N (p >>= f) (fun s e => G s e ∨ ∃ a s1 t, s = s1 ++ t ∧ F a s1 ∧ H a t e) := Names.bindW hb hp fun a _ => hf a

theorem Names.first {p : P α} {f : α → P β} {G : Bytes → ParseError → Prop} (hb : Names C L N p G) (hf : ∀ a bytes ix e, f a bytes ix ≠ .err e) :
    Names C L N (p >>= f) G := by
  intro bytes ix h1 h2 h3 e hC
  rw [P.bind_errs, hb bytes ix h1 h2 h3 e hC]
  constructor
  · rintro (h | ⟨a, ix', -, h⟩)
    · exact h
    · exact absurd h (hf _ _ _ _)
  · exact .inl

theorem Names.pure (a : α) : Names C L N (Pure.pure a : P α) (fun _ _ => False) := by
  intro bytes ix h1 h2 h3 e _
  exact ⟨fun h => (by cases h), False.elim⟩

theorem Names.failWith (m : String) : Names C L N (P.fail m : P α) (fun _ e => e = plainly m) := by
  intro bytes ix h1 h2 h3 e _
  exact ⟨fun h => (by cases h; rfl), fun h => (by subst h; rfl)⟩

theorem Names.lift (r : Res α) : Names C L N (P.lift r) (fun _ e => r = .err e) := by
  intro bytes ix h1 h2 h3 e _
  unfold P.lift
  cases r <;> simp

theorem Names.fails {r : Res α} {S : String → Prop} (h : Fails r S) : Names C L N (P.lift r) (fun _ e => ∃ m, S m ∧ e = plainly m) :=
  (Names.lift r).congr fun s e _ => (h e).trans ⟨fun ⟨m, a, b⟩ => ⟨m, b, a⟩, fun ⟨m, a, b⟩ => ⟨m, b, a⟩⟩

theorem Names.failIf {b : Bool} {m : String} {f : Unit → P β} {H : Bytes → ParseError → Prop}
    (hq : b = false → Names C L N (f ()) H) : Names C L N (P.failIf b m >>= f) (fun s e => (b = true ∧ e = plainly m) ∨ (b = false ∧ H s e)) := by
  cases b with
  | true =>
    intro bytes ix h1 h2 h3 e _
    constructor
    · intro h; cases h; exact .inl ⟨rfl, rfl⟩
    · rintro (⟨-, rfl⟩ | ⟨h, -⟩)
      · rfl
      · cases h
  | false => exact (hq rfl : Names C L N (f ()) H).congr fun s e _ => by simp

theorem Names.ite {c : Prop} {inst : Decidable c} {p q : P α} {R S : Bytes → ParseError → Prop} (hp : c → Names C L N p R) (hq : ¬ c → Names C L N q S) :
    Names C L N (if c then p else q) (fun s e => (c ∧ R s e) ∨ (¬ c ∧ S s e)) := by
  split
  · rename_i h; exact (hp h).congr fun s e _ => by simp [h]
  · rename_i h; exact (hq h).congr fun s e _ => by simp [h]

/-- A loop: some elements are read, the next one fails. -/
theorem Names.forRangeFrom {f : Nat → P α} {F : α → Lang} {G : Nat → Bytes → ParseError → Prop} (hx : ∀ i, Exact N (f i) F)
    (hf : ∀ i, Names C L N (f i) (G i)) : ∀ (n i : Nat),
    Names C L N (P.forRangeFrom f i n) (fun s e => ∃ xs s1 t, xs.length < n ∧ s = s1 ++ t ∧ Spec.seq F xs s1 ∧ G (i + xs.length) t e)
  | 0, i => (Names.pure []).congr fun _ _ _ => by simp
  | n + 1, i => by
    refine (Names.bind (hf i) (hx i) fun x => Names.first (f := fun xs => (Pure.pure (x :: xs) : P _)) (Names.forRangeFrom hx hf n (i + 1))
      (fun _ _ _ _ h => by cases h)).congr fun s e _ => ?_
    constructor
    · rintro (h | ⟨x, s1, t1, rfl, hx, xs, s2, t2, hl, rfl, hs, hG⟩)
      · exact ⟨[], [], s, Nat.succ_pos n, rfl, rfl, h⟩
      · refine ⟨x :: xs, s1 ++ s2, t2, by simpa using hl, by simp, ⟨s1, s2, rfl, hx, hs⟩, ?_⟩
        rw [List.length_cons, Nat.add_comm xs.length 1, ← Nat.add_assoc]; exact hG
    · rintro ⟨xs, s1, t, hl, rfl, hs, hG⟩
      cases xs with
      | nil => cases hs; exact .inl hG
      | cons x xs =>
        obtain ⟨s2, s3, rfl, hx, hs⟩ := hs
        rw [List.length_cons, Nat.add_comm xs.length 1, ← Nat.add_assoc] at hG
        exact .inr ⟨x, s2, s3 ++ t, by simp, hx, xs, s3, t, by simpa using hl, rfl, hs, hG⟩

/-- A loop over distinct elements; `pre` are those already read. -/
theorem names_distinct {κ : Type} (key : α → κ) {loop : List κ → Nat → Nat → P (List α)} {read : List κ → Nat → P α}
    {E : α → Lang} {H : List α → Bytes → ParseError → Prop} (h0 : ∀ seen i, loop seen i 0 = pure [])
    (hs : ∀ seen i n, loop seen i (n + 1) = read seen i >>= fun f => loop (key f :: seen) (i + 1) n >>= fun fs => pure (f :: fs))
    (hr : ∀ seen i, Exact N (read seen i) (fun f seg => key f ∉ seen ∧ E f seg))
    (hb : ∀ pre : List α, Names C L N (read (pre.map key).reverse pre.length) (H pre)) : ∀ (n : Nat) (pre : List α),
    Names C L N (loop (pre.map key).reverse pre.length n) (fun s e => ∃ (fs : List α) (s1 t : Bytes), s = s1 ++ t ∧ fs.length < n ∧
      (fs.Pairwise fun f g => ¬ key f = key g) ∧ (∀ f ∈ fs, key f ∉ pre.map key) ∧ seq E fs s1 ∧ H (pre ++ fs) t e)
  | 0, pre => by
    rw [h0]
    exact (Names.pure []).congr fun k s _ => by simp
  | n + 1, pre => by
    rw [hs]
    have ih : ∀ f : α, Names C L N (loop (key f :: (pre.map key).reverse) (pre.length + 1) n) _ := fun f => by
      have := names_distinct key h0 hs hr hb n (pre ++ [f])
      simpa using this
    refine (Names.bind (hb pre) (hr _ _) fun f => Names.first (f := fun fs => (Pure.pure (f :: fs) : P _)) (ih f) fun _ _ _ _ h => by cases h).congr
      fun s e _ => ?_
    simp only [List.mem_reverse]
    constructor
    · rintro (h | ⟨f, s1, t1, rfl, ⟨hf, hE⟩, fs, s2, t2, rfl, hl, hp, hn, hq, hH⟩)
      · exact ⟨[], [], s, rfl, Nat.succ_pos _, .nil, by simp, rfl, by simpa using h⟩
      · refine ⟨f :: fs, s1 ++ s2, t2, by simp, by simpa using hl, List.pairwise_cons.mpr ⟨fun g hg he => (hn g hg).2 he.symm, hp⟩, ?_,
          ⟨s1, s2, rfl, hE, hq⟩, hH⟩
        intro g hg
        rcases List.mem_cons.mp hg with rfl | hg
        · exact hf
        · intro h
          obtain ⟨x, hx, he⟩ := List.mem_map.mp h
          exact (hn g hg).1 x hx he
    · rintro ⟨fs, s1, t, rfl, hl, hp, hn, hq, hH⟩
      cases fs with
      | nil => cases hq; exact .inl (by simpa using hH)
      | cons f fs =>
        obtain ⟨s2, s3, rfl, hE, hq⟩ := hq
        rw [List.pairwise_cons] at hp
        refine .inr ⟨f, s2, s3 ++ t, by simp, ⟨hn f (by simp), hE⟩, fs, s3, t, rfl, by simpa using hl, hp.2, ?_, hq, hH⟩
        intro g hg
        exact ⟨fun x hx he => hn g (List.mem_cons_of_mem _ hg) (List.mem_map.mpr ⟨x, hx, he⟩), fun he => hp.1 g hg he.symm⟩

/-! ## Numbers -/

theorem cutOff_drop {bytes : Bytes} {ix : Nat} (h1 : bytes.length = L) (h2 : ix ≤ L) (what : String) :
    (⟨s!"Unexpected end of stream reading {what} at index {ix}", []⟩ : ParseError) = cutOff L what (bytes.drop ix) := by
  unfold cutOff
  rw [List.length_drop, show L - (bytes.length - ix) = ix by omega]

/-- A reader that fails with this message when fewer than `size` bytes are left, and else reads something. -/
theorem Names.sized {p : P α} {size : Nat} {what : String} {F : α → Lang} (hx : Exact N p F) (hF : ∀ s : Bytes, s.length = size → ∃ a, F a s)
    (he : ∀ bytes ix, bytes.length < ix + size → p bytes ix = Res.fail s!"Unexpected end of stream reading {what} at index {ix}") :
    Names C L N p (fun s e => s.length < size ∧ e = cutOff L what s) := by
  intro bytes ix h1 h2 h3 e _
  dsimp only
  rw [List.length_drop]
  constructor
  · intro h
    by_cases hl : bytes.length < ix + size
    · rw [he _ _ hl] at h
      cases h
      exact ⟨by omega, cutOff_drop h1 h2 what⟩
    · obtain ⟨a, ha⟩ := hF ((bytes.drop ix).take size) (by rw [List.length_take, List.length_drop]; omega)
      rw [(hx bytes ix (by omega) (by omega) a _).mpr ⟨_, (bytes.drop ix).drop size, (List.take_append_drop _ _).symm, ha, rfl⟩] at h
      cases h
  · rintro ⟨hl, rfl⟩
    rw [he _ _ (by omega), ← cutOff_drop h1 h2]
    rfl

theorem list1 : ∀ s : Bytes, s.length = 1 → ∃ a, s = [a]
  | [a], _ => ⟨a, rfl⟩
theorem list2 : ∀ s : Bytes, s.length = 2 → ∃ a b, s = [a, b]
  | [a, b], _ => ⟨a, b, rfl⟩

theorem list4 : ∀ s : Bytes, s.length = 4 → ∃ a b c d, s = [a, b, c, d]
  | [a, b, c, d], _ => ⟨a, b, c, d, rfl⟩
theorem list8 : ∀ s : Bytes, s.length = 8 → ∃ a b c d a' b' c' d', s = [a, b, c, d, a', b', c', d']
  | [a, b, c, d, a', b', c', d'], _ => ⟨a, b, c, d, a', b', c', d', rfl⟩

theorem cut_text {w : String} {whole : String} (h : "Unexpected end of stream reading " ++ w ++ " at index " = whole) (ix : Nat) :
    whole ++ toString ix = s!"Unexpected end of stream reading {w} at index {ix}" := by
  subst h; rfl

theorem Names.readU1 : Names C L N Cafebabe.readU1 (fun s e => s = [] ∧ e = cutOff L "u1" s) := by
  refine (Names.sized (size := 1) (what := "u1") Exact.readU1 (fun s hs => ?_) fun bytes ix h => ?_).congr fun s e _ => ?_
  · obtain ⟨a, rfl⟩ := list1 s hs; exact ⟨a, rfl⟩
  · unfold Cafebabe.readU1; rw [if_pos h, ← cut_text (w := "u1") rfl]; rfl
  · rw [show (s.length < 1 ↔ s = []) by rw [Nat.lt_one_iff, List.length_eq_zero_iff]]

theorem Names.readU2 : Names C L N Cafebabe.readU2 (fun s e => s.length < 2 ∧ e = cutOff L "u2" s) := by
  refine Names.sized (size := 2) Exact.readU2 (fun s hs => ?_) fun bytes ix h => ?_
  · obtain ⟨a, b, rfl⟩ := list2 s hs; exact ⟨_, (u2_of_bytes a b).symm⟩
  · unfold Cafebabe.readU2; rw [if_pos h, ← cut_text (w := "u2") rfl]; rfl

theorem Names.readU4 : Names C L N Cafebabe.readU4 (fun s e => s.length < 4 ∧ e = cutOff L "u4" s) := by
  refine Names.sized (size := 4) Exact.readU4 (fun s hs => ?_) fun bytes ix h => ?_
  · obtain ⟨a, b, c, d, rfl⟩ := list4 s hs; exact ⟨_, (u4_of_bytes a b c d).symm⟩
  · unfold Cafebabe.readU4; rw [if_pos h, ← cut_text (w := "u4") rfl]; rfl

theorem Names.readU8 : Names C L N Cafebabe.readU8 (fun s e => s.length < 8 ∧ e = cutOff L "u8" s) := by
  refine Names.sized (size := 8) Exact.readU8 (fun s hs => ?_) fun bytes ix h => ?_
  · obtain ⟨a, b, c, d, a', b', c', d', rfl⟩ := list8 s hs; exact ⟨_, (u8_of_bytes a b c d a' b' c' d').symm⟩
  · unfold Cafebabe.readU8; rw [if_pos h, ← cut_text (w := "u8") rfl]; rfl

/-- The part read first has at least `k` bytes. -/
theorem Names.bindK {M : Nat} (k : Nat) {p : P α} {f : α → P β} {F : α → Lang} {G : Bytes → ParseError → Prop} {H : α → Bytes → ParseError → Prop}
    (hb : Names C L N p G) (hp : Exact N p F) (hk : ∀ a seg, F a seg → k ≤ seg.length) (hle : N ≤ M + k) (hf : ∀ a, Names C L M (f a) (H a)) :
    Names C L N (p >>= f) (fun s e => G s e ∨ ∃ a s1 t, s = s1 ++ t ∧ F a s1 ∧ H a t e) := by
  intro bytes ix h1 h2 h3 e hC
  rw [P.bind_errs, hb bytes ix h1 h2 h3 e hC]
  refine or_congr_right ?_
  constructor
  · rintro ⟨a, ix', hpa, h⟩
    obtain ⟨s, r, hd, hF, rfl⟩ := (hp bytes ix (by omega) (by omega) a ix').mp hpa
    have hl := length_of_drop_eq (by omega) hd
    have hks := hk a s hF
    have := (hf a bytes _ h1 (by omega) (by omega) e hC).mp h
    rw [drop_of_drop_eq hd] at this
    exact ⟨a, s, r, hd, hF, this⟩
  · rintro ⟨a, s, r, hd, hF, hH⟩
    have hl := length_of_drop_eq (by omega) hd
    have hks := hk a s hF
    refine ⟨a, ix + s.length, (hp bytes ix (by omega) (by omega) a _).mpr ⟨s, r, hd, hF, rfl⟩, ?_⟩
    refine (hf a bytes _ h1 (by omega) (by omega) e hC).mpr ?_
    rw [drop_of_drop_eq hd]; exact hH

theorem Names.getIxBind {f : Nat → P α} {H : Nat → Bytes → ParseError → Prop} (h : ∀ i, Names C L N (f i) (H i)) :
    Names C L N (P.getIx >>= f) (fun s e => H (L - s.length) s e) := by
  intro bytes ix h1 h2 h3 e hC
  have := h ix bytes ix h1 h2 h3 e hC
  dsimp only
  rw [List.length_drop, show L - (bytes.length - ix) = ix by omega]
  exact this

theorem Names.takeBytes (n : Nat) (m : String) : Names C L N (Cafebabe.takeBytes n m) (fun s e => s.length < n ∧ e = plainly m) := by
  intro bytes ix h1 h2 h3 e _
  unfold Cafebabe.takeBytes
  dsimp only
  rw [List.length_drop]
  split
  · rename_i h
    exact ⟨fun h' => (by cases h'; exact ⟨by omega, rfl⟩), fun ⟨_, h'⟩ => (by subst h'; rfl)⟩
  · rename_i h
    rw [slice_ok (by omega)]
    constructor
    · intro h'; cases h'
    · rintro ⟨h', -⟩; omega

/-- A reader with no errors. -/
theorem Names.never {p : P α} (h : ∀ bytes ix e, p bytes ix ≠ .err e) : Names C L N p (fun _ _ => False) := by
  intro bytes ix h1 h2 h3 e _
  exact ⟨fun h' => h _ _ _ h', False.elim⟩

end
end Cafebabe
