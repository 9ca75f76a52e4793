import Verif.Spec.Trail
import Verif.Proofs.Faults
/-!
# Proofs: what an error tells (framework)

`Tells N p R`: on inputs with fewer than `N` bytes left, every error `e` of `p` satisfies `R s e`, where `s` is what is left.
-/

namespace Cafebabe
open Spec

def Tells {α : Type} (N : Nat) (p : P α) (R : Bytes → ParseError → Prop) : Prop :=
  ∀ (bytes : Bytes) (ix : Nat), ix ≤ bytes.length → bytes.length < ix + N → ∀ e, p bytes ix = .err e → R (bytes.drop ix) e

section
variable {α β : Type} {N M : Nat} {R S : Bytes → ParseError → Prop}

theorem Tells.imp {p : P α} (h : Tells N p R) (hi : ∀ s e, R s e → S s e) : Tells N p S := fun bytes ix h1 h2 e he => hi _ _ (h bytes ix h1 h2 e he)

theorem Tells.mono {p : P α} (h : Tells M p R) (hle : N ≤ M) : Tells N p R := fun bytes ix h1 h2 => h bytes ix h1 (by omega)

theorem Tells.and {p : P α} (h : Tells N p R) (h' : Tells N p S) : Tells N p (fun s e => R s e ∧ S s e) :=
  fun bytes ix h1 h2 e he => ⟨h bytes ix h1 h2 e he, h' bytes ix h1 h2 e he⟩

theorem Tells.none {p : P α} {F : α → Lang} (hx : Exact N p F) : Tells N p (fun s _ => NoneOf F s) := by
  intro bytes ix h1 h2 e he a seg rest hs hF
  have := (hx bytes ix h1 h2 a _).mpr ⟨seg, rest, hs, hF, rfl⟩
  rw [he] at this
  cases this

theorem mapErr_errs {p : P α} {c : String} {bytes : Bytes} {ix : Nat} {e : ParseError} (h : p.mapErr c bytes ix = .err e) :
    ∃ e', e = ParseErrorIn e' c ∧ p bytes ix = .err e' := by
  unfold P.mapErr Res.mapErr at h
  cases hp : p bytes ix with
  | ok a => rw [hp] at h; cases h
  | panic k => rw [hp] at h; cases h
  | diverge => rw [hp] at h; cases h
  | err e' => rw [hp] at h; cases h; exact ⟨e', rfl, rfl⟩

theorem Tells.mapErr {p : P α} (h : Tells N p R) (c : String) : Tells N (p.mapErr c) (fun s e => ∃ e', e = ParseErrorIn e' c ∧ R s e') := by
  intro bytes ix h1 h2 e he
  obtain ⟨e', rfl, he'⟩ := mapErr_errs he
  exact ⟨e', rfl, h bytes ix h1 h2 e' he'⟩

theorem Tells.bindK {p : P α} {f : α → P β} {F : α → Lang} {T : α → Bytes → ParseError → Prop} (k : Nat) (h : Tells N p R) (hx : Exact N p F)
    (hk : ∀ a seg, F a seg → k ≤ seg.length) (hNM : N ≤ M + k) (hf : ∀ a, (∃ seg, F a seg) → Tells M (f a) (T a)) :
    Tells N (p >>= f) (fun s e => R s e ∨ ∃ (a : α) (seg rest : Bytes), s = seg ++ rest ∧ F a seg ∧ T a rest e) := by
  intro bytes ix h1 h2 e he
  rcases P.bind_errs.mp he with he | ⟨a, ix', ha, he⟩
  · exact .inl (h bytes ix h1 h2 e he)
  · obtain ⟨seg, rest, hs, hF, rfl⟩ := (hx bytes ix h1 h2 a ix').mp ha
    have hl := length_of_drop_eq h1 hs
    have := hk a seg hF
    have := hf a ⟨seg, hF⟩ bytes _ (by omega) (by omega) e he
    rw [drop_of_drop_eq hs] at this
    exact .inr ⟨a, seg, rest, hs, hF, this⟩

theorem Tells.bindW {p : P α} {f : α → P β} {F : α → Lang} {T : α → Bytes → ParseError → Prop} (h : Tells N p R) (hx : Exact N p F)
    (hf : ∀ a, (∃ seg, F a seg) → Tells N (f a) (T a)) :
    Tells N (p >>= f) (fun s e => R s e ∨ ∃ (a : α) (seg rest : Bytes), s = seg ++ rest ∧ F a seg ∧ T a rest e) :=
  Tells.bindK 0 h hx (fun _ _ _ => Nat.zero_le _) (Nat.le_refl _) hf

theorem Tells.bind {p : P α} {f : α → P β} {F : α → Lang} {T : α → Bytes → ParseError → Prop} (h : Tells N p R) (hx : Exact N p F)
    (hf : ∀ a, Tells N (f a) (T a)) :
    Tells N (p >>= f) (fun s e => R s e ∨ ∃ (a : α) (seg rest : Bytes), s = seg ++ rest ∧ F a seg ∧ T a rest e) :=
  Tells.bindW h hx fun a _ => hf a

/-- Sequencing where what follows cannot fail. -/
theorem Tells.first {p : P α} {f : α → P β} (h : Tells N p R) (hf : ∀ a bytes ix e, f a bytes ix ≠ .err e) : Tells N (p >>= f) R := by
  intro bytes ix h1 h2 e he
  rcases P.bind_errs.mp he with he | ⟨a, ix', -, he⟩
  · exact h bytes ix h1 h2 e he
  · exact absurd he (hf _ _ _ _)

theorem Tells.pure (a : α) : Tells N (Pure.pure a : P α) (fun _ _ => False) := fun _ _ _ _ _ h => by cases h

theorem Tells.failIf {b : Bool} {m : String} {f : Unit → P β} (h : b = false → Tells N (f ()) R) :
    Tells N (P.failIf b m >>= f) (fun s e => (b = true ∧ e = ⟨m, []⟩) ∨ (b = false ∧ R s e)) := by
  cases b with
  | true => intro bytes ix h1 h2 e he; cases he; exact .inl ⟨rfl, rfl⟩
  | false => exact (h rfl : Tells N (f ()) R).imp fun s e h => .inr ⟨rfl, h⟩

theorem Tells.of_blames {p : P α} {G : Place → Lang} (h : Blames N p G) : Tells N p (fun s e => ∃ q : Place, q.context = lastContext e ∧ G q s) :=
  fun bytes ix h1 h2 e he => (h bytes ix h1 h2 (lastContext e)).mp ⟨e, he, rfl⟩

/-- A result that is not an error. -/
def Quiet (r : Res α) : Prop := ∀ e, r ≠ .err e

theorem Quiet.bind {r : Res α} {f : α → Res β} (hr : Quiet r) (hf : ∀ a, Quiet (f a)) : Quiet (r >>= f) := by
  cases r with
  | ok a => exact hf a
  | err e => exact absurd rfl (hr e)
  | panic k => exact fun _ h => by cases h
  | diverge => exact fun _ h => by cases h
theorem Quiet.ok (a : α) : Quiet (.ok a) := fun _ h => by cases h
theorem Quiet.byteAt (bytes : Bytes) (i : Nat) : Quiet (Cafebabe.byteAt bytes i) := by
  unfold Cafebabe.byteAt
  cases bytes[i]? <;> exact fun _ h => by cases h
theorem Quiet.sliceBytes (bytes : Bytes) (i j : Nat) : Quiet (Cafebabe.sliceBytes bytes i j) := by
  unfold Cafebabe.sliceBytes
  split <;> exact fun _ h => by cases h

theorem saysEnd_append (s : String) : SaysEnd ("Unexpected end of stream" ++ s) := by
  unfold SaysEnd
  rw [String.toList_append]
  exact List.prefix_append _ _

theorem plainEnd_u (what : String) (ix : Nat) : PlainEnd (ParseError.new s!"Unexpected end of stream reading {what} at index {ix}") := by
  refine ⟨rfl, ?_⟩
  have : s!"Unexpected end of stream reading {what} at index {ix}" = "Unexpected end of stream" ++ (" reading " ++ what ++ " at index " ++ toString ix) := by
    rw [← String.toList_inj]
    have ts : ∀ s : String, toString s = s := fun _ => rfl
    simp [String.toList_append, ts]
  rw [ParseError.new, this]
  exact saysEnd_append _

theorem Tells.readU2 : Tells N Cafebabe.readU2 (fun s e => s.length < 2 ∧ PlainEnd e) := by
  intro bytes ix h1 h2 e he
  refine ⟨(noneOf_u2 _).mp (Tells.none Exact.readU2 bytes ix h1 h2 e he), ?_⟩
  unfold Cafebabe.readU2 at he
  split at he
  · cases he; exact plainEnd_u "u2" ix
  · exact absurd he (Quiet.bind (Quiet.byteAt _ _) (fun _ => Quiet.bind (Quiet.byteAt _ _) fun _ => Quiet.ok _) e)

theorem Tells.readU4 : Tells N Cafebabe.readU4 (fun s e => s.length < 4 ∧ PlainEnd e) := by
  intro bytes ix h1 h2 e he
  unfold Cafebabe.readU4 at he
  split at he
  · cases he; exact ⟨by simp; omega, plainEnd_u "u4" ix⟩
  · exact absurd he (Quiet.bind (Quiet.byteAt _ _) (fun _ => Quiet.bind (Quiet.byteAt _ _) fun _ => Quiet.bind (Quiet.byteAt _ _) fun _ =>
      Quiet.bind (Quiet.byteAt _ _) fun _ => Quiet.ok _) e)

theorem Tells.takeBytes {n : Nat} {m : String} : Tells N (Cafebabe.takeBytes n m) (fun s e => s.length < n ∧ e = ⟨m, []⟩) := by
  intro bytes ix h1 h2 e he
  unfold Cafebabe.takeBytes at he
  split at he
  · cases he; exact ⟨by simp; omega, rfl⟩
  · exact absurd he (Quiet.bind (Quiet.sliceBytes _ _ _) (fun _ => Quiet.ok _) e)

/-- A loop: some elements are read, the next one fails. -/
theorem Tells.forRangeFrom {f : Nat → P α} {F : α → Lang} {T : Nat → Bytes → ParseError → Prop} (hx : ∀ i, Exact N (f i) F)
    (hf : ∀ i, Tells N (f i) (T i)) : ∀ n i : Nat, Tells N (P.forRangeFrom f i n) (fun s e => ∃ (xs : List α) (s1 t : Bytes), s = s1 ++ t ∧
      xs.length < n ∧ Spec.seq F xs s1 ∧ T (i + xs.length) t e)
  | 0, i => (Tells.pure []).imp fun _ _ h => h.elim
  | n + 1, i => by
    refine (Tells.bind (hf i) (hx i) fun x => Tells.first (f := fun xs => (Pure.pure (x :: xs) : P _)) (Tells.forRangeFrom hx hf n (i + 1))
      (fun _ _ _ _ h => by cases h)).imp fun s e => ?_
    rintro (h | ⟨x, s1, t1, rfl, hx, xs, s2, t2, rfl, hl, hs, hT⟩)
    · exact ⟨[], [], s, rfl, Nat.succ_pos n, rfl, h⟩
    · refine ⟨x :: xs, s1 ++ s2, t2, by simp, by simpa using hl, ⟨s1, s2, rfl, hx, hs⟩, ?_⟩
      rw [List.length_cons, Nat.add_comm xs.length 1, ← Nat.add_assoc]; exact hT

theorem Tells.readTable2K {f : Nat → P α} {F : α → Lang} {T : Nat → Bytes → ParseError → Prop} (hx : ∀ i, Exact N (f i) F)
    (hf : ∀ i, Tells N (f i) (T i)) : Tells (N + 2) (Cafebabe.readTable2 f) (fun s e => (s.length < 2 ∧ PlainEnd e) ∨
      ∃ (count : UInt16) (xs : List α) (before t : Bytes), s = u2 count ++ (before ++ t) ∧ xs.length < count.toNat ∧ Spec.seq F xs before ∧
        NoneOf F t ∧ T xs.length t e) := by
  unfold Cafebabe.readTable2
  refine (Tells.bindK 2 Tells.readU2 Exact.readU2 (by rintro a seg rfl; simp [u2_length]) (Nat.le_refl _) fun c _ =>
    Tells.forRangeFrom hx (fun i => (Tells.none (hx i)).and (hf i)) c.toNat 0).imp fun s e => ?_
  rintro (h | ⟨c, s1, t1, rfl, rfl, xs, s2, t2, rfl, hl, hs, hn, hT⟩)
  · exact .inl h
  · exact .inr ⟨c, xs, s2, t2, rfl, hl, hs, hn, by simpa using hT⟩

/-- A loop over distinct elements; `pre` are those already read. -/
theorem tells_distinct {κ : Type} (key : α → κ) {loop : List κ → Nat → Nat → P (List α)} {read : List κ → Nat → P α}
    {E : α → Lang} {H : List α → Bytes → ParseError → Prop} (h0 : ∀ seen i, loop seen i 0 = Pure.pure [])
    (hs : ∀ seen i n, loop seen i (n + 1) = read seen i >>= fun f => loop (key f :: seen) (i + 1) n >>= fun fs => Pure.pure (f :: fs))
    (hr : ∀ seen i, Exact N (read seen i) (fun f seg => key f ∉ seen ∧ E f seg))
    (hb : ∀ pre : List α, Tells N (read (pre.map key).reverse pre.length) (H pre)) : ∀ (n : Nat) (pre : List α),
    Tells N (loop (pre.map key).reverse pre.length n) (fun s e => ∃ (fs : List α) (s1 t : Bytes), s = s1 ++ t ∧ fs.length < n ∧
      (fs.Pairwise fun f g => ¬ key f = key g) ∧ (∀ f ∈ fs, key f ∉ pre.map key) ∧ Spec.seq E fs s1 ∧ H (pre ++ fs) t e)
  | 0, pre => by
    rw [h0]
    exact (Tells.pure []).imp fun _ _ h => h.elim
  | n + 1, pre => by
    rw [hs]
    have ih : ∀ f : α, Tells N (loop (key f :: (pre.map key).reverse) (pre.length + 1) n) _ := fun f => by
      have := tells_distinct key h0 hs hr hb n (pre ++ [f])
      simpa using this
    refine (Tells.bind (hb pre) (hr _ _) fun f => Tells.first (f := fun fs => (Pure.pure (f :: fs) : P _)) (ih f) fun _ _ _ _ h => by cases h).imp
      fun s e => ?_
    simp only [List.mem_reverse]
    rintro (h | ⟨f, s1, t1, rfl, ⟨hf, hE⟩, fs, s2, t2, rfl, hl, hp, hn, hq, hH⟩)
    · exact ⟨[], [], s, rfl, Nat.succ_pos _, .nil, by simp, rfl, by simpa using h⟩
    · refine ⟨f :: fs, s1 ++ s2, t2, by simp, by simpa using hl, List.pairwise_cons.mpr ⟨fun g hg he => (hn g hg).2 he.symm, hp⟩, ?_,
        ⟨s1, s2, rfl, hE, hq⟩, hH⟩
      intro g hg
      rcases List.mem_cons.mp hg with rfl | hg
      · exact hf
      · intro h
        obtain ⟨x, hx, he⟩ := List.mem_map.mp h
        exact (hn g hg).1 x hx he

/-! ## Readers all of whose errors have a context -/

/-- Every error of `p` has an outermost context in `C`. -/
def InCtx (C : String → Prop) (p : P α) : Prop := ∀ bytes ix e, p bytes ix = .err e → ∃ c e', e = ParseErrorIn e' c ∧ C c

variable {C : String → Prop}

theorem InCtx.mapErr {p : P α} {c : String} (h : C c) : InCtx C (p.mapErr c) := by
  intro bytes ix e he
  obtain ⟨e', rfl, -⟩ := mapErr_errs he
  exact ⟨c, e', rfl, h⟩
theorem InCtx.bind {p : P α} {f : α → P β} (hp : InCtx C p) (hf : ∀ a, InCtx C (f a)) : InCtx C (p >>= f) := by
  intro bytes ix e he
  rcases P.bind_errs.mp he with h | ⟨a, ix', -, h⟩
  · exact hp _ _ _ h
  · exact hf a _ _ _ h
theorem InCtx.pure (a : α) : InCtx C (Pure.pure a : P α) := fun _ _ _ h => by cases h
theorem InCtx.takeSlice (n : Nat) : InCtx C (Cafebabe.takeSlice n) := by
  intro bytes ix e he
  unfold Cafebabe.takeSlice at he
  exact absurd he (Quiet.bind (Quiet.sliceBytes _ _ _) (fun _ => Quiet.ok _) e)

end

end Cafebabe
