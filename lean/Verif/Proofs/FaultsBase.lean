import Verif.Spec.Faults
import Verif.Proofs.Panics
/-!
# Proofs: which place an error names

`Blames N p G`: on inputs with fewer than `N` bytes left, `p` returns an error whose outermost context is that of place `q` exactly when
what is left is in `G q` (up to places with the same context). Here: the framework.
-/

namespace Cafebabe
open Spec

/-- On inputs with fewer than `N` bytes left, `p` returns an error exactly when what is left is in `E`. -/
def Errs {α : Type} (N : Nat) (p : P α) (E : Lang) : Prop :=
  ∀ (bytes : Bytes) (ix : Nat), ix ≤ bytes.length → bytes.length < ix + N → ((∃ e, p bytes ix = .err e) ↔ E (bytes.drop ix))

/-- The outermost context of an error. -/
def lastContext (e : ParseError) : Option String := e.contexts.getLast?

/-- On inputs with fewer than `N` bytes left, the errors of `p` and their outermost contexts are those of `G`. -/
def Blames {α : Type} (N : Nat) (p : P α) (G : Place → Lang) : Prop :=
  ∀ (bytes : Bytes) (ix : Nat), ix ≤ bytes.length → bytes.length < ix + N → ∀ c : Option String,
    (∃ e, p bytes ix = .err e ∧ lastContext e = c) ↔ ∃ q : Place, q.context = c ∧ G q (bytes.drop ix)

theorem Blames.congr {α : Type} {N : Nat} {p : P α} {G H : Place → Lang} (h : Blames N p G) (he : ∀ q s, G q s ↔ H q s) : Blames N p H := by
  intro bytes ix h1 h2 c
  rw [h bytes ix h1 h2 c]
  simp only [he]

theorem Errs.congr {α : Type} {N : Nat} {p : P α} {E F : Lang} (h : Errs N p E) (he : ∀ s, E s ↔ F s) : Errs N p F :=
  fun bytes ix h1 h2 => (h bytes ix h1 h2).trans (he _)

/-- A reader that neither panics nor exhausts its budget returns an error exactly when it cannot read a value. -/
theorem Errs.calm {α : Type} {N M c : Nat} {p : P α} {F : α → Lang} (ht : Tame M (fun _ => False) c p) (hNM : N ≤ M) (hx : Exact N p F) :
    Errs N p (NoneOf F) := by
  intro bytes ix h1 h2
  have := ht bytes ix h1
  unfold TameAt at this
  constructor
  · rintro ⟨e, he⟩ a seg rest hs hF
    have := (hx bytes ix h1 h2 a _).mpr ⟨seg, rest, hs, hF, rfl⟩
    rw [he] at this
    cases this
  · intro hn
    cases hp : p bytes ix with
    | ok a =>
      obtain ⟨a, ix'⟩ := a
      obtain ⟨seg, rest, hs, hF, -⟩ := (hx bytes ix h1 h2 a ix').mp hp
      exact absurd hF (hn a seg rest hs)
    | err e => exact ⟨e, rfl⟩
    | panic k => rw [hp] at this; exact this.elim
    | diverge => rw [hp] at this; simp only at this; omega

/-- The same for a reader whose panics are known. -/
theorem Errs.broken {α : Type} {N c : Nat} {A : PanicKind → Prop} {p : P α} {F : α → Lang} {B : PanicKind → Lang} (ht : Tame N A c p)
    (hx : Exact N p F) (hb : Breaks N p B) : Errs N p (fun s => NoneOf F s ∧ ∀ k, ¬ B k s) := by
  intro bytes ix h1 h2
  have := ht bytes ix h1
  unfold TameAt at this
  constructor
  · rintro ⟨e, he⟩
    refine ⟨fun a seg rest hs hF => ?_, fun k hk => ?_⟩
    · have := (hx bytes ix h1 h2 a _).mpr ⟨seg, rest, hs, hF, rfl⟩
      rw [he] at this
      cases this
    · have := (hb bytes ix h1 h2 k).mpr hk
      rw [he] at this
      cases this
  · rintro ⟨hn, hk⟩
    cases hp : p bytes ix with
    | ok a =>
      obtain ⟨a, ix'⟩ := a
      obtain ⟨seg, rest, hs, hF, -⟩ := (hx bytes ix h1 h2 a ix').mp hp
      exact absurd hF (hn a seg rest hs)
    | err e => exact ⟨e, rfl⟩
    | panic k => exact absurd ((hb bytes ix h1 h2 k).mp hp) (hk k)
    | diverge => rw [hp] at this; simp only at this; omega

/-- A reader with a context added. -/
theorem Blames.ctx {α : Type} {N : Nat} {p : P α} {E : Lang} (q₀ : Place) {c₀ : String} (hq : q₀.context = some c₀) (h : Errs N p E) :
    Blames N (p.mapErr c₀) (fun q s => q = q₀ ∧ E s) := by
  intro bytes ix h1 h2 c
  have := h bytes ix h1 h2
  constructor
  · rintro ⟨e, he, rfl⟩
    unfold P.mapErr Res.mapErr at he
    cases hp : p bytes ix with
    | ok a => rw [hp] at he; cases he
    | panic k => rw [hp] at he; cases he
    | diverge => rw [hp] at he; cases he
    | err e' =>
      rw [hp] at he
      cases he
      exact ⟨q₀, by simp [lastContext, ParseError.withContext, hq], rfl, this.mp ⟨e', hp⟩⟩
  · rintro ⟨q, rfl, rfl, hE⟩
    obtain ⟨e, he⟩ := this.mpr hE
    exact ⟨e.withContext c₀, by simp [P.mapErr, Res.mapErr, he], by simp [lastContext, ParseError.withContext, hq]⟩

/-- Errors without context. -/
def BareR {α : Type} (r : Res α) : Prop := ∀ e, r = .err e → e.contexts = []
def Bare {α : Type} (p : P α) : Prop := ∀ bytes ix, BareR (p bytes ix)

theorem Blames.bare {α : Type} {N : Nat} {p : P α} {E : Lang} (hb : Bare p) (h : Errs N p E) : Blames N p (fun q s => q = .plain ∧ E s) := by
  intro bytes ix h1 h2 c
  have := h bytes ix h1 h2
  constructor
  · rintro ⟨e, he, rfl⟩
    exact ⟨.plain, by simp [Place.context, lastContext, hb _ _ _ he], rfl, this.mp ⟨e, he⟩⟩
  · rintro ⟨q, rfl, rfl, hE⟩
    obtain ⟨e, he⟩ := this.mpr hE
    exact ⟨e, he, by simp [Place.context, lastContext, hb _ _ _ he]⟩

theorem P.bind_errs {α β : Type} {p : P α} {f : α → P β} {bytes : Bytes} {ix : Nat} {e : ParseError} :
    (p >>= f) bytes ix = .err e ↔ p bytes ix = .err e ∨ ∃ a ix', p bytes ix = .ok (a, ix') ∧ f a bytes ix' = .err e := by
  show P.bind p f bytes ix = _ ↔ _
  unfold P.bind
  cases h : p bytes ix with
  | ok x => obtain ⟨a, ix'⟩ := x; simp [and_assoc]
  | err e => simp
  | panic k => simp
  | diverge => simp

/-- Sequencing: the first reader fails, or it succeeds and the second fails. -/
theorem Blames.bindW {α β : Type} {N : Nat} {p : P α} {f : α → P β} {F : α → Lang} {G : Place → Lang} {H : α → Place → Lang}
    (hb : Blames N p G) (hp : Exact N p F) (hf : ∀ a, (∃ seg, F a seg) → Blames N (f a) (H a)) :
    Blames N (p >>= f) (fun q s => G q s ∨ ∃ a, (F a ⬝ H a q) s) := by
  intro bytes ix h1 h2 c
  have key : (∃ e, (p >>= f) bytes ix = .err e ∧ lastContext e = c) ↔ (∃ e, p bytes ix = .err e ∧ lastContext e = c) ∨
      ∃ a ix', p bytes ix = .ok (a, ix') ∧ ∃ e, f a bytes ix' = .err e ∧ lastContext e = c := by
    simp only [P.bind_errs, or_and_right, exists_or]
    refine or_congr_right ⟨?_, ?_⟩
    · rintro ⟨e, ⟨a, ix', h, h'⟩, hc⟩; exact ⟨a, ix', h, e, h', hc⟩
    · rintro ⟨a, ix', h, e, h', hc⟩; exact ⟨e, ⟨a, ix', h, h'⟩, hc⟩
  rw [key, hb bytes ix h1 h2 c]
  constructor
  · rintro (⟨q, hq, hG⟩ | ⟨a, ix', hpa, h⟩)
    · exact ⟨q, hq, .inl hG⟩
    · obtain ⟨s, r, hd, hF, rfl⟩ := (hp bytes ix h1 h2 a ix').mp hpa
      have hl := length_of_drop_eq h1 hd
      obtain ⟨q, hq, hH⟩ := (hf a ⟨s, hF⟩ bytes _ (by omega) (by omega) c).mp h
      rw [drop_of_drop_eq hd] at hH
      exact ⟨q, hq, .inr ⟨a, s, r, hd, hF, hH⟩⟩
  · rintro ⟨q, hq, hG | ⟨a, s, r, hd, hF, hH⟩⟩
    · exact .inl ⟨q, hq, hG⟩
    · have hl := length_of_drop_eq h1 hd
      refine .inr ⟨a, ix + s.length, (hp bytes ix h1 h2 a _).mpr ⟨s, r, hd, hF, rfl⟩, ?_⟩
      refine (hf a ⟨s, hF⟩ bytes _ (by omega) (by omega) c).mpr ⟨q, hq, ?_⟩
      rw [drop_of_drop_eq hd]; exact hH

theorem Blames.bind {α β : Type} {N : Nat} {p : P α} {f : α → P β} {F : α → Lang} {G : Place → Lang} {H : α → Place → Lang}
    (hb : Blames N p G) (hp : Exact N p F) (hf : ∀ a, Blames N (f a) (H a)) :
    Blames N (p >>= f) (fun q s => G q s ∨ ∃ a, (F a ⬝ H a q) s) := Blames.bindW hb hp fun a _ => hf a

/-- Sequencing where what follows cannot fail. -/
theorem Blames.first {α β : Type} {N : Nat} {p : P α} {f : α → P β} {G : Place → Lang} (hb : Blames N p G)
    (hf : ∀ a bytes ix e, f a bytes ix ≠ .err e) : Blames N (p >>= f) G := by
  intro bytes ix h1 h2 c
  rw [← hb bytes ix h1 h2 c]
  simp only [P.bind_errs]
  constructor
  · rintro ⟨e, h | ⟨a, ix', -, h⟩, hc⟩
    · exact ⟨e, h, hc⟩
    · exact absurd h (hf _ _ _ _)
  · rintro ⟨e, h, hc⟩; exact ⟨e, .inl h, hc⟩

/-- A guard. -/
theorem Blames.failIf {β : Type} {N : Nat} {b : Bool} {m : String} {f : Unit → P β} {H : Place → Lang}
    (hq : b = false → Blames N (f ()) H) : Blames N (P.failIf b m >>= f) (fun q s => (b = true ∧ q = .plain) ∨ (b = false ∧ H q s)) := by
  cases b with
  | true =>
    intro bytes ix h1 h2 c
    constructor
    · rintro ⟨e, he, rfl⟩
      cases he
      exact ⟨.plain, rfl, .inl ⟨rfl, rfl⟩⟩
    · rintro ⟨q, rfl, ⟨-, rfl⟩ | ⟨h, -⟩⟩
      · exact ⟨_, rfl, rfl⟩
      · cases h
  | false => exact (hq rfl : Blames N (f ()) H).congr fun k s => by simp

theorem Blames.pure {α : Type} {N : Nat} (a : α) : Blames N (Pure.pure a : P α) (fun _ _ => False) := by
  intro bytes ix h1 h2 c
  constructor
  · rintro ⟨e, he, -⟩; cases he
  · rintro ⟨_, _, h⟩; exact h.elim

theorem Errs.lift {α : Type} {N : Nat} (r : Res α) : Errs N (P.lift r) (fun _ => ∃ e, r = .err e) := by
  intro bytes ix h1 h2
  unfold P.lift
  cases r <;> simp

theorem Bare.lift {α : Type} {r : Res α} (h : BareR r) : Bare (P.lift r) := by
  intro bytes ix e he
  unfold P.lift at he
  cases r with
  | ok a => cases he
  | err e' => cases he; exact h _ rfl
  | panic k => cases he
  | diverge => cases he

/-- A loop: some elements are read, the next one fails. -/
theorem Blames.forRangeFrom {α : Type} {N : Nat} {f : Nat → P α} {F : α → Lang} {G : Nat → Place → Lang} (hx : ∀ i, Exact N (f i) F)
    (hf : ∀ i, Blames N (f i) (G i)) : ∀ (n i : Nat),
    Blames N (P.forRangeFrom f i n) (fun q s => ∃ xs, xs.length < n ∧ (Spec.seq F xs ⬝ G (i + xs.length) q) s)
  | 0, i => (Blames.pure []).congr fun k s => by simp
  | n + 1, i => by
    refine (Blames.bind (hf i) (hx i) fun x => Blames.first (f := fun xs => (Pure.pure (x :: xs) : P _)) (Blames.forRangeFrom hx hf n (i + 1))
      (fun _ _ _ _ h => by cases h)).congr fun k s => ?_
    constructor
    · rintro (h | ⟨x, s1, t1, rfl, hx, xs, hl, s2, t2, rfl, hs, hG⟩)
      · exact ⟨[], Nat.succ_pos n, [], s, rfl, rfl, h⟩
      · refine ⟨x :: xs, by simpa using hl, s1 ++ s2, t2, by simp, ⟨s1, s2, rfl, hx, hs⟩, ?_⟩
        rw [List.length_cons, Nat.add_comm xs.length 1, ← Nat.add_assoc]; exact hG
    · rintro ⟨xs, hl, s1, t, rfl, hs, hG⟩
      cases xs with
      | nil => cases hs; exact .inl hG
      | cons x xs =>
        obtain ⟨s2, s3, rfl, hx, hs⟩ := hs
        rw [List.length_cons, Nat.add_comm xs.length 1, ← Nat.add_assoc] at hG
        exact .inr ⟨x, s2, s3 ++ t, by simp, hx, xs, by simpa using hl, s3, t, rfl, hs, hG⟩

/-- A loop over distinct elements; `pre` are those already read. -/
theorem blames_distinct {α κ : Type} {N : Nat} (key : α → κ) {loop : List κ → Nat → Nat → P (List α)} {read : List κ → Nat → P α}
    {E : α → Lang} {H : List α → Place → Lang} (h0 : ∀ seen i, loop seen i 0 = pure [])
    (hs : ∀ seen i n, loop seen i (n + 1) = read seen i >>= fun f => loop (key f :: seen) (i + 1) n >>= fun fs => pure (f :: fs))
    (hr : ∀ seen i, Exact N (read seen i) (fun f seg => key f ∉ seen ∧ E f seg))
    (hb : ∀ pre : List α, Blames N (read (pre.map key).reverse pre.length) (H pre)) : ∀ (n : Nat) (pre : List α),
    Blames N (loop (pre.map key).reverse pre.length n) (fun q s => ∃ (fs : List α) (s1 t : Bytes), s = s1 ++ t ∧ fs.length < n ∧
      (fs.Pairwise fun f g => ¬ key f = key g) ∧ (∀ f ∈ fs, key f ∉ pre.map key) ∧ seq E fs s1 ∧ H (pre ++ fs) q t)
  | 0, pre => by
    rw [h0]
    exact (Blames.pure []).congr fun k s => by simp
  | n + 1, pre => by
    rw [hs]
    have ih : ∀ f : α, Blames N (loop (key f :: (pre.map key).reverse) (pre.length + 1) n) _ := fun f => by
      have := blames_distinct key h0 hs hr hb n (pre ++ [f])
      simpa using this
    refine (Blames.bind (hb pre) (hr _ _) fun f => Blames.first (f := fun fs => (Pure.pure (f :: fs) : P _)) (ih f) fun _ _ _ _ h => by cases h).congr
      fun k s => ?_
    simp only [List.mem_reverse]
    constructor
    · rintro (h | ⟨f, s1, t1, rfl, ⟨hf, hE⟩, fs, s2, t2, rfl, hl, hp, hn, hq, hH⟩)
      · exact ⟨[], [], s, rfl, Nat.succ_pos _, .nil, by simp, rfl, by simpa using h⟩
      · refine ⟨f :: fs, s1 ++ s2, t2, by simp, by simpa using hl, List.pairwise_cons.mpr ⟨fun g hg he => (hn g hg).2 he.symm, hp⟩, ?_,
          ⟨s1, s2, rfl, hE, hq⟩, hH⟩
        intro g hg
        rcases List.mem_cons.mp hg with rfl | hg
        · exact hf
        · intro h
          obtain ⟨x, hx, he⟩ := List.mem_map.mp h
          exact (hn g hg).1 x hx he
    · rintro ⟨fs, s1, t, rfl, hl, hp, hn, hq, hH⟩
      cases fs with
      | nil => cases hq; exact .inl (by simpa using hH)
      | cons f fs =>
        obtain ⟨s2, s3, rfl, hE, hq⟩ := hq
        rw [List.pairwise_cons] at hp
        refine .inr ⟨f, s2, s3 ++ t, by simp, ⟨hn f (by simp), hE⟩, fs, s3, t, rfl, by simpa using hl, hp.2, ?_, hq, hH⟩
        intro g hg
        exact ⟨fun x hx he => hn g (List.mem_cons_of_mem _ hg) (List.mem_map.mpr ⟨x, hx, he⟩), fun he => hp.1 g hg he.symm⟩

/-! ## Readers whose errors have no context -/

section
variable {α β : Type}

theorem BareR.ok (a : α) : BareR (.ok a) := fun _ h => by cases h
theorem BareR.fail (m : String) : BareR (Res.fail m : Res α) := fun _ h => by cases h; rfl
theorem BareR.panic (k : PanicKind) : BareR (.panic k : Res α) := fun _ h => by cases h
theorem BareR.diverge : BareR (.diverge : Res α) := fun _ h => by cases h
theorem BareR.bind {r : Res α} {f : α → Res β} (hr : BareR r) (hf : ∀ a, BareR (f a)) : BareR (r >>= f) := by
  cases r with
  | ok a => exact hf a
  | err e => intro e' h; cases h; exact hr _ rfl
  | panic k => exact BareR.panic k
  | diverge => exact BareR.diverge
theorem BareR.ite {c : Prop} {inst : Decidable c} {r s : Res α} (hr : c → BareR r) (hs : ¬ c → BareR s) : BareR (if c then r else s) := by
  split
  · exact hr ‹_›
  · exact hs ‹_›

theorem Bare.bind {p : P α} {f : α → P β} (hp : Bare p) (hf : ∀ a, Bare (f a)) : Bare (p >>= f) := by
  intro bytes ix e he
  rcases P.bind_errs.mp he with h | ⟨a, ix', -, h⟩
  · exact hp _ _ _ h
  · exact hf a _ _ _ h
theorem Bare.pure (a : α) : Bare (Pure.pure a : P α) := fun _ _ _ h => by cases h
theorem Bare.fail (m : String) : Bare (P.fail m : P α) := fun _ _ _ h => by cases h; rfl
theorem Bare.diverge : Bare (P.diverge : P α) := fun _ _ _ h => by cases h
theorem Bare.getIx : Bare P.getIx := fun _ _ _ h => by cases h
theorem Bare.failIf (b : Bool) (m : String) : Bare (P.failIf b m) := by
  unfold P.failIf
  cases b
  · exact Bare.pure ()
  · exact Bare.fail m
theorem Bare.ite {c : Prop} {inst : Decidable c} {p q : P α} (hr : c → Bare p) (hs : ¬ c → Bare q) : Bare (if c then p else q) := by
  split
  · exact hr ‹_›
  · exact hs ‹_›

theorem BareR.byteAt (bytes : Bytes) (i : Nat) : BareR (Cafebabe.byteAt bytes i) := by
  unfold Cafebabe.byteAt
  cases bytes[i]?
  · exact BareR.panic _
  · exact BareR.ok _
theorem Bare.readU1 : Bare Cafebabe.readU1 := fun _ _ =>
  BareR.ite (fun _ => BareR.fail _) fun _ => BareR.bind (BareR.byteAt _ _) fun _ => BareR.ok _
theorem Bare.readU2 : Bare Cafebabe.readU2 := fun _ _ =>
  BareR.ite (fun _ => BareR.fail _) fun _ => BareR.bind (BareR.byteAt _ _) fun _ => BareR.bind (BareR.byteAt _ _) fun _ => BareR.ok _
theorem Bare.readU4 : Bare Cafebabe.readU4 := fun _ _ =>
  BareR.ite (fun _ => BareR.fail _) fun _ => BareR.bind (BareR.byteAt _ _) fun _ => BareR.bind (BareR.byteAt _ _) fun _ =>
    BareR.bind (BareR.byteAt _ _) fun _ => BareR.bind (BareR.byteAt _ _) fun _ => BareR.ok _

theorem Bare.readU8 : Bare Cafebabe.readU8 := fun _ _ =>
  BareR.ite (fun _ => BareR.fail _) fun _ => BareR.bind (BareR.byteAt _ _) fun _ => BareR.bind (BareR.byteAt _ _) fun _ =>
    BareR.bind (BareR.byteAt _ _) fun _ => BareR.bind (BareR.byteAt _ _) fun _ => BareR.bind (BareR.byteAt _ _) fun _ =>
    BareR.bind (BareR.byteAt _ _) fun _ => BareR.bind (BareR.byteAt _ _) fun _ => BareR.bind (BareR.byteAt _ _) fun _ => BareR.ok _
theorem BareR.sliceBytes (bytes : Bytes) (i j : Nat) : BareR (Cafebabe.sliceBytes bytes i j) :=
  BareR.ite (fun _ => BareR.ok _) fun _ => BareR.panic _
theorem Bare.takeBytes (n : Nat) (m : String) : Bare (Cafebabe.takeBytes n m) := fun _ _ =>
  BareR.ite (fun _ => BareR.fail _) fun _ => BareR.bind (BareR.sliceBytes _ _ _) fun _ => BareR.ok _

end

/-! ## Descriptors -/

theorem BareR.strFrom : ∀ (s : Str) (i : Nat), BareR (Cafebabe.strFrom s i)
  | s, 0 => by cases s <;> exact BareR.ok _
  | [], _ + 1 => BareR.panic _
  | c :: s, i + 1 => by
    unfold Cafebabe.strFrom
    exact BareR.ite (fun _ => BareR.strFrom s _) fun _ => BareR.panic _

theorem BareR.strTo : ∀ (s : Str) (i : Nat), BareR (Cafebabe.strTo s i)
  | s, 0 => by cases s <;> exact BareR.ok _
  | [], _ + 1 => BareR.panic _
  | c :: s, i + 1 => by
    unfold Cafebabe.strTo
    exact BareR.ite (fun _ => BareR.bind (BareR.strTo s _) fun _ => BareR.ok _) fun _ => BareR.panic _

theorem BareR.strSlice (s : Str) (i j : Nat) : BareR (Cafebabe.strSlice s i j) :=
  BareR.ite (fun _ => BareR.bind (BareR.strFrom s i) fun _ => BareR.strTo _ _) fun _ => BareR.panic _

theorem BareR.segment (data : Str) : ∀ (s : Str) (ix : Nat), BareR (parseUnqualifiedSegmentAux data ix s)
  | [], _ => BareR.ok _
  | c :: s, ix => by
    unfold parseUnqualifiedSegmentAux
    exact BareR.ite (fun _ => BareR.fail _) fun _ => BareR.ite (fun _ => BareR.fail _) fun _ => BareR.ite
      (fun _ => BareR.bind (BareR.strSlice _ _ _) fun _ => BareR.ok _) fun _ => BareR.ite (fun _ => BareR.fail _) fun _ => BareR.segment data s _

theorem BareR.classDescriptorLoop (data : Str) (index : Nat) : ∀ fuel i : Nat, BareR (Cafebabe.classDescriptorLoop data index fuel i)
  | 0, _ => BareR.diverge
  | fuel + 1, i => by
    unfold Cafebabe.classDescriptorLoop
    refine BareR.bind (BareR.strFrom _ _) fun t => BareR.bind (BareR.segment _ _ _) fun r => ?_
    obtain ⟨seg, c⟩ := r
    cases c with
    | none => exact BareR.fail _
    | some c => exact BareR.ite (fun _ => BareR.bind (BareR.strSlice _ _ _) fun _ => BareR.ok _) fun _ =>
        BareR.ite (fun _ => BareR.classDescriptorLoop data index fuel _) fun _ => BareR.panic _

theorem BareR.fieldDescriptorLoop (data : Str) (index : Nat) : ∀ (s : Str) (d : Nat), BareR (parseFieldDescriptorLoop data index d s)
  | [], _ => BareR.fail _
  | c :: s, d => by
    unfold parseFieldDescriptorLoop
    refine BareR.ite (fun _ => BareR.ite (fun _ => BareR.fail _) fun _ => BareR.fieldDescriptorLoop data index s _) fun _ => ?_
    dsimp only
    iterate 8 (refine BareR.ite (fun _ => BareR.bind (BareR.ok _) fun _ => BareR.ok _) fun _ => ?_)
    exact BareR.ite (fun _ => BareR.bind (BareR.classDescriptorLoop _ _ _ _) fun _ => BareR.bind (BareR.ok _) fun _ => BareR.ok _) fun _ =>
      BareR.bind (BareR.fail _) fun _ => BareR.ok _

theorem BareR.parseFieldDescriptor (s : Str) (i : Nat) : BareR (Cafebabe.parseFieldDescriptor s i) :=
  BareR.bind (BareR.strFrom _ _) fun _ => BareR.fieldDescriptorLoop _ _ _ _

/-! ## The constant pool -/

theorem Bare.ref : Bare readUnresolvedCpRef := Bare.bind Bare.readU2 fun _ => Bare.pure _

theorem Bare.readConstant (env : Env) (major : UInt16) (t : UInt8) : Bare (Cafebabe.readConstant env major t) := by
  have h1 : ∀ f : CPRef → Entry, Bare (readUnresolvedCpRef >>= fun x => Pure.pure (f x)) := fun f => Bare.bind Bare.ref fun _ => Bare.pure _
  have h2 : ∀ f : CPRef → CPRef → Entry, Bare (readUnresolvedCpRef >>= fun x => readUnresolvedCpRef >>= fun y => Pure.pure (f x y)) := fun f =>
    Bare.bind Bare.ref fun _ => h1 _
  have hu : Bare (unexpectedTag t major) := Bare.bind Bare.getIx fun _ => Bare.fail _
  have hd : ∀ f : UInt16 → CPRef → Entry, Bare (Cafebabe.readU2 >>= fun b => readUnresolvedCpRef >>= fun y => Pure.pure (f b y)) := fun f =>
    Bare.bind Bare.readU2 fun _ => h1 _
  have h4 : ∀ f : UInt32 → Entry, Bare (Cafebabe.readU4 >>= fun x => Pure.pure (f x)) := fun f => Bare.bind Bare.readU4 fun _ => Bare.pure _
  have h8 : ∀ f : UInt64 → Entry, Bare (Cafebabe.readU8 >>= fun x => Pure.pure (f x)) := fun f => Bare.bind Bare.readU8 fun _ => Bare.pure _
  unfold Cafebabe.readConstant
  split
  · refine Bare.bind Bare.readU2 fun n => Bare.bind Bare.getIx fun i => Bare.bind (Bare.takeBytes _ _) fun b => ?_
    cases env.decode b <;> exact Bare.pure _
  · exact h4 _
  · exact h4 _
  · exact h8 _
  · exact h8 _
  · exact h1 _
  · exact h1 _
  · exact h2 _
  · exact h2 _
  · exact h2 _
  · exact h2 _
  · refine Bare.ite (fun _ => Bare.bind Bare.readU1 fun n => ?_) fun _ => hu
    cases referenceKindOf n
    · exact Bare.bind Bare.getIx fun _ => Bare.fail _
    · exact h1 _
  · exact Bare.ite (fun _ => h1 _) fun _ => hu
  · exact Bare.ite (fun _ => hd _) fun _ => hu
  · exact Bare.ite (fun _ => hd _) fun _ => hu
  · exact Bare.ite (fun _ => h1 _) fun _ => hu
  · exact Bare.ite (fun _ => h1 _) fun _ => hu
  · exact hu

theorem BareR.incr (checks : Bool) (x : UInt16) : BareR (incrU16 checks x) := BareR.ite (fun _ => BareR.panic _) fun _ => BareR.ok _

theorem Bare.poolLoop (env : Env) (major count : UInt16) : ∀ (fuel : Nat) (i : UInt16), Bare (constantPoolLoop env major count fuel i)
  | 0, _ => Bare.diverge
  | fuel + 1, i => by
    unfold constantPoolLoop
    exact Bare.ite (fun _ => Bare.bind Bare.readU1 fun t => Bare.bind (Bare.readConstant env major t) fun e =>
      Bare.bind (Bare.lift (BareR.incr _ _)) fun i => Bare.ite (fun _ => Bare.bind (Bare.lift (BareR.incr _ _)) fun i =>
        Bare.bind (Bare.poolLoop env major count fuel i) fun _ => Bare.pure _) fun _ =>
        Bare.bind (Bare.poolLoop env major count fuel i) fun _ => Bare.pure _) fun _ => Bare.pure _

theorem Bare.readRawPool (env : Env) (major : UInt16) : Bare (Cafebabe.readRawPool env major) :=
  Bare.bind Bare.readU2 fun c => Bare.bind (fun bytes ix => Bare.poolLoop env major c _ _ bytes ix) fun _ => Bare.pure _

theorem BareR.resolveRef (x : CPRef) (i : Nat) (pool : Pool) : BareR (x.resolve i pool) := by
  cases x with
  | unresolved j => exact BareR.ite (fun _ => BareR.fail _) fun _ => BareR.ite (fun _ => BareR.fail _) fun _ => BareR.ok _
  | resolved t => exact BareR.ok _

theorem BareR.resolveEntry (e : Entry) (i : Nat) (pool : Pool) : BareR (e.resolve i pool) := by
  cases e <;> first
    | exact BareR.ok _
    | exact BareR.bind (BareR.resolveRef _ _ _) fun _ => BareR.ok _
    | exact BareR.bind (BareR.resolveRef _ _ _) fun _ => BareR.bind (BareR.resolveRef _ _ _) fun _ => BareR.ok _

theorem BareR.resolveFrom (pool : Pool) : ∀ (es : List Entry) (i : Nat), BareR (Cafebabe.resolveFrom pool i es)
  | [], _ => BareR.ok _
  | e :: es, i => BareR.bind (BareR.resolveEntry e i pool) fun _ => BareR.bind (BareR.resolveFrom pool es (i + 1)) fun _ => BareR.ok _

/-! ## The final checks -/

theorem BareR.count (x : UInt16) : ∀ (as : List AttributeInfo) (n : Nat), BareR (countBootstrapMethods x n as)
  | [], _ => BareR.ok _
  | a :: as, n => by
    unfold countBootstrapMethods
    split
    · exact BareR.ite (fun _ => BareR.fail _) fun _ => BareR.count x as _
    · exact BareR.count x as _

theorem BareR.bootstrap (as : List AttributeInfo) : ∀ pool : Pool, BareR (validateBootstrapMethods pool as)
  | [] => BareR.ok _
  | e :: pool => by
    have h : ∀ x, BareR (checkBootstrapIndex x as) := fun x => BareR.bind (BareR.count x as 0) fun _ => BareR.ite (fun _ => BareR.fail _) fun _ => BareR.ok _
    unfold validateBootstrapMethods
    split
    · exact BareR.bind (h _) fun _ => BareR.bootstrap as pool
    · exact BareR.bind (h _) fun _ => BareR.bootstrap as pool
    · exact BareR.bootstrap as pool

theorem Bare.moduleFlags (a b : UInt16) : Bare (checkModuleFlags a b) :=
  Bare.ite (fun _ => Bare.ite (fun _ => Bare.fail _) fun _ => Bare.ite (fun _ => Bare.fail _) fun _ => Bare.pure _) fun _ => Bare.pure _

theorem Bare.atEnd : Bare checkAtEnd := fun _ _ => BareR.ite (fun _ => BareR.fail _) fun _ => BareR.ok _

theorem Bare.moduleEmpty (a : UInt16) (s : Option ClassName) (i : List ClassName) (f : List FieldInfo) (m : List MethodInfo) :
    Bare (checkModuleEmpty a s i f m) := by
  refine Bare.ite (fun _ => ?_) fun _ => Bare.pure _
  cases s with
  | some c => exact Bare.fail _
  | none => exact Bare.ite (fun _ => Bare.fail _) fun _ => Bare.ite (fun _ => Bare.fail _) fun _ => Bare.ite (fun _ => Bare.fail _) fun _ => Bare.pure _

theorem Bare.header : Bare readHeader :=
  Bare.bind Bare.readU4 fun _ => Bare.bind (Bare.failIf _ _) fun _ => Bare.bind Bare.readU2 fun _ => Bare.bind Bare.readU2 fun _ => Bare.pure _

end Cafebabe
