import Verif.Model.ClassFile
import Verif.Proofs.ClassFile
/-!
# Proof framework: how a reader can stop

`Tame N A k p`: started inside the input, `p` panics only in the ways `A`, exhausts the recursion budget only when at least `N` bytes
are left, and on success has consumed at least `k` bytes and is still inside the input.
-/

namespace Cafebabe
open Spec

/-- The outcome neither exhausts the budget nor panics otherwise than in the ways `A`. -/
def Calm {α : Type} (A : PanicKind → Prop) (r : Res α) : Prop := (∀ k, r = .panic k → A k) ∧ r ≠ .diverge

theorem Calm.ok {α : Type} {A : PanicKind → Prop} {a : α} : Calm A (.ok a) := ⟨fun _ h => (by cases h), fun h => (by cases h)⟩
theorem Calm.err {α : Type} {A : PanicKind → Prop} {e : ParseError} : Calm A (.err e : Res α) :=
  ⟨fun _ h => (by cases h), fun h => (by cases h)⟩
theorem Calm.fail {α : Type} {A : PanicKind → Prop} {m : String} : Calm A (Res.fail m : Res α) := Calm.err

theorem Calm.panic {α : Type} {A : PanicKind → Prop} {k : PanicKind} (h : A k) : Calm A (.panic k : Res α) :=
  ⟨fun _ h' => (by cases h'; exact h), fun h' => (by cases h')⟩

theorem Calm.bind {α β : Type} {A : PanicKind → Prop} {r : Res α} {f : α → Res β} (h : Calm A r)
    (hf : ∀ a, r = .ok a → Calm A (f a)) : Calm A (r >>= f) := by
  cases r with
  | ok a => exact hf a rfl
  | err e => exact Calm.err
  | panic k => exact Calm.panic (h.1 k rfl)
  | diverge => exact absurd rfl h.2

theorem Calm.mapErr {α : Type} {A : PanicKind → Prop} {r : Res α} (h : Calm A r) (c : String) : Calm A (r.mapErr c) := by
  cases r with
  | ok a => exact Calm.ok
  | err e => exact Calm.err
  | panic k => exact Calm.panic (h.1 k rfl)
  | diverge => exact absurd rfl h.2

theorem Calm.ite {α : Type} {A : PanicKind → Prop} {c : Prop} {inst : Decidable c} {r s : Res α} (h : c → Calm A r) (h' : ¬ c → Calm A s) :
    Calm A (if c then r else s) := by
  split
  · exact h ‹_›
  · exact h' ‹_›

theorem Calm.mono {α : Type} {A B : PanicKind → Prop} {r : Res α} (h : Calm A r) (hAB : ∀ k, A k → B k) : Calm B r :=
  ⟨fun k hk => hAB k (h.1 k hk), h.2⟩

theorem Decides.calm {α : Type} {A : PanicKind → Prop} {r : Res α} {S : α → Prop} (h : Decides r S) : Calm A r := by
  rcases h.2 with ⟨a, rfl⟩ | ⟨e, rfl⟩
  · exact Calm.ok
  · exact Calm.err

theorem Checks.calm {A : PanicKind → Prop} {r : Res Bool} {Q : Prop} (h : Checks r Q) : Calm A r := by
  obtain ⟨b, rfl, -⟩ := h
  exact Calm.ok

theorem okIf_calm {A : PanicKind → Prop} {b : Bool} {m : String} : Calm A (okIf b m) := Calm.ite (fun _ => Calm.ok) fun _ => Calm.fail

/-- How `p` stops when started at `ix`. -/
def TameAt {α : Type} (N : Nat) (A : PanicKind → Prop) (k : Nat) (p : P α) (bytes : Bytes) (ix : Nat) : Prop :=
  match p bytes ix with
  | .ok (_, ix') => ix + k ≤ ix' ∧ ix' ≤ bytes.length
  | .err _ => True
  | .panic x => A x
  | .diverge => N + ix ≤ bytes.length

/-- How `p` stops when started anywhere inside the input. -/
def Tame {α : Type} (N : Nat) (A : PanicKind → Prop) (k : Nat) (p : P α) : Prop :=
  ∀ (bytes : Bytes) (ix : Nat), ix ≤ bytes.length → TameAt N A k p bytes ix

theorem TameAt.bind {α β : Type} {N M k m : Nat} {A : PanicKind → Prop} {p : P α} {f : α → P β} {bytes : Bytes} {ix : Nat}
    (hNM : N ≤ M + k) (h : TameAt N A k p bytes ix)
    (hf : ∀ a ix', p bytes ix = .ok (a, ix') → ix' ≤ bytes.length → TameAt M A m (f a) bytes ix') :
    TameAt N A (k + m) (p >>= f) bytes ix := by
  unfold TameAt at h ⊢
  show match P.bind p f bytes ix with | .ok (_, ix') => _ | .err _ => _ | .panic x => _ | .diverge => _
  unfold P.bind
  cases hp : p bytes ix with
  | ok a =>
    obtain ⟨a, ix'⟩ := a
    rw [hp] at h
    have h2 := hf a ix' hp h.2
    unfold TameAt at h2
    simp only
    cases hq : f a bytes ix' with
    | ok b => obtain ⟨b, ix''⟩ := b; rw [hq] at h2; simp only at h h2 ⊢; omega
    | err e => simp
    | panic x => rw [hq] at h2; exact h2
    | diverge => rw [hq] at h2; simp only at h h2 ⊢; omega
  | err e => simp
  | panic x => rw [hp] at h; exact h
  | diverge => rw [hp] at h; exact h

theorem Tame.bindK {α β : Type} {N M k m : Nat} {A : PanicKind → Prop} {p : P α} {f : α → P β} (hNM : N ≤ M + k)
    (h : Tame N A k p) (hf : ∀ a, Tame M A m (f a)) : Tame N A (k + m) (p >>= f) :=
  fun bytes ix hix => TameAt.bind hNM (h bytes ix hix) fun a ix' _ hix' => hf a bytes ix' hix'

theorem Tame.weaken {α : Type} {N M k m : Nat} {A : PanicKind → Prop} {p : P α} (h : Tame M A k p) (hN : N ≤ M) (hk : m ≤ k) :
    Tame N A m p := by
  intro bytes ix hix
  have := h bytes ix hix
  unfold TameAt at this ⊢
  cases hp : p bytes ix with
  | ok a => obtain ⟨a, ix'⟩ := a; rw [hp] at this; simp only at this ⊢; omega
  | err e => simp
  | panic x => rw [hp] at this; exact this
  | diverge => rw [hp] at this; simp only at this ⊢; omega

theorem TameAt.zero {α : Type} {N k : Nat} {A : PanicKind → Prop} {p : P α} {bytes : Bytes} {ix : Nat} (h : TameAt N A k p bytes ix) :
    TameAt N A 0 p bytes ix := by
  unfold TameAt at h ⊢
  cases hp : p bytes ix with
  | ok a => obtain ⟨a, ix'⟩ := a; rw [hp] at h; simp only at h ⊢; omega
  | err e => simp
  | panic x => rw [hp] at h; exact h
  | diverge => rw [hp] at h; exact h

theorem Tame.zero {α : Type} {N k : Nat} {A : PanicKind → Prop} {p : P α} (h : Tame N A k p) : Tame N A 0 p :=
  h.weaken (Nat.le_refl _) (Nat.zero_le _)

/-- Sequencing, forgetting consumption. -/
theorem Tame.seq {α β : Type} {N k m : Nat} {A : PanicKind → Prop} {p : P α} {f : α → P β}
    (h : Tame N A k p) (hf : ∀ a, Tame N A m (f a)) : Tame N A 0 (p >>= f) :=
  (Tame.bindK (Nat.le_add_right _ _) h hf).zero

/-- Sequencing, keeping what the first consumed. -/
theorem Tame.seqK {α β : Type} {N k m : Nat} {A : PanicKind → Prop} {p : P α} {f : α → P β}
    (h : Tame N A k p) (hf : ∀ a, Tame N A m (f a)) : Tame N A k (p >>= f) :=
  (Tame.bindK (Nat.le_add_right _ _) h hf).weaken (Nat.le_refl _) (Nat.le_add_right _ _)

theorem Tame.pure {α : Type} {N : Nat} {A : PanicKind → Prop} (a : α) : Tame N A 0 (Pure.pure a : P α) :=
  fun _ _ hix => ⟨Nat.le_refl _, hix⟩

theorem Tame.fail {α : Type} {N k : Nat} {A : PanicKind → Prop} {m : String} : Tame N A k (P.fail m : P α) := fun _ _ _ => trivial

theorem Tame.mapErr {α : Type} {N k : Nat} {A : PanicKind → Prop} {p : P α} (h : Tame N A k p) (c : String) :
    Tame N A k (p.mapErr c) := by
  intro bytes ix hix
  have := h bytes ix hix
  unfold TameAt P.mapErr Res.mapErr at *
  cases hp : p bytes ix with
  | ok a => rw [hp] at this; exact this
  | err e => simp
  | panic x => rw [hp] at this; exact this
  | diverge => rw [hp] at this; exact this

theorem Tame.failCtx {α : Type} {N k : Nat} {A : PanicKind → Prop} {m c : String} : Tame N A k (P.failCtx m c : P α) :=
  Tame.mapErr Tame.fail c

theorem Tame.lift {α : Type} {N : Nat} {A : PanicKind → Prop} {r : Res α} (h : Calm A r) : Tame N A 0 (P.lift r) := by
  intro bytes ix hix
  unfold TameAt P.lift
  cases r with
  | ok a => exact ⟨Nat.le_refl _, hix⟩
  | err e => trivial
  | panic k => exact h.1 k rfl
  | diverge => exact absurd rfl h.2

theorem Tame.getIx {α : Type} {N k : Nat} {A : PanicKind → Prop} {f : Nat → P α} (h : ∀ i, Tame N A k (f i)) :
    Tame N A k (P.getIx >>= f) := fun bytes ix hix => h ix bytes ix hix

theorem Tame.failIf {N : Nat} {A : PanicKind → Prop} {b : Bool} {m : String} : Tame N A 0 (P.failIf b m) := by
  unfold P.failIf
  split
  · exact Tame.fail
  · exact Tame.pure ()

theorem Tame.okOr {α : Type} {N : Nat} {A : PanicKind → Prop} {o : Option α} {m : String} : Tame N A 0 (P.okOr o m) := by
  cases o with
  | none => exact Tame.fail
  | some a => exact Tame.pure a

theorem Tame.ite {α : Type} {N k : Nat} {A : PanicKind → Prop} {c : Prop} {inst : Decidable c} {p q : P α} (h : c → Tame N A k p)
    (h' : ¬ c → Tame N A k q) : Tame N A k (if c then p else q) := by
  split
  · exact h ‹_›
  · exact h' ‹_›

theorem Tame.ensureLength {N : Nat} {A : PanicKind → Prop} {l e : Nat} : Tame N A 0 (Cafebabe.ensureLength l e) :=
  Tame.ite (fun _ => Tame.fail) fun _ => Tame.pure ()

theorem Tame.diverge {α : Type} {A : PanicKind → Prop} : Tame 0 A 0 (P.diverge : P α) := fun bytes ix hix => by
  show 0 + ix ≤ bytes.length
  omega

theorem Tame.forRangeFrom {α : Type} {N k : Nat} {A : PanicKind → Prop} {f : Nat → P α} (h : ∀ i, Tame N A k (f i)) :
    ∀ n i, Tame N A 0 (P.forRangeFrom f i n)
  | 0, _ => Tame.pure _
  | n + 1, i => Tame.seq (h i) fun _ => Tame.seq (Tame.forRangeFrom h n (i + 1)) fun _ => Tame.pure _

theorem Tame.forRange {α : Type} {N k : Nat} {A : PanicKind → Prop} {f : Nat → P α} (h : ∀ i, Tame N A k (f i)) (n : Nat) :
    Tame N A 0 (P.forRange n f) := Tame.forRangeFrom h n 0

/-! ## Integer readers -/

theorem byteAt_ok {bytes : Bytes} {i : Nat} (h : i < bytes.length) : ∃ b, byteAt bytes i = .ok b := by
  unfold byteAt
  rw [List.getElem?_eq_getElem h]
  exact ⟨_, rfl⟩

theorem Tame.readU1 {N : Nat} {A : PanicKind → Prop} : Tame N A 1 Cafebabe.readU1 := by
  intro bytes ix hix
  unfold TameAt Cafebabe.readU1
  by_cases h : bytes.length < ix + 1
  · simp only [h, if_true]; trivial
  · obtain ⟨b, hb⟩ := byteAt_ok (bytes := bytes) (i := ix) (by omega)
    simp only [h, if_false, hb]
    exact ⟨Nat.le_refl _, by omega⟩

theorem Tame.readU2 {N : Nat} {A : PanicKind → Prop} : Tame N A 2 Cafebabe.readU2 := by
  intro bytes ix hix
  unfold TameAt Cafebabe.readU2
  by_cases h : bytes.length < ix + 2
  · simp only [h, if_true]; trivial
  · obtain ⟨b, hb⟩ := byteAt_ok (bytes := bytes) (i := ix + 0) (by omega)
    obtain ⟨b1, hb1⟩ := byteAt_ok (bytes := bytes) (i := ix + 1) (by omega)
    simp only [h, if_false, hb, hb1]
    exact ⟨Nat.le_refl _, by omega⟩

theorem Tame.readU4 {N : Nat} {A : PanicKind → Prop} : Tame N A 4 Cafebabe.readU4 := by
  intro bytes ix hix
  unfold TameAt Cafebabe.readU4
  by_cases h : bytes.length < ix + 4
  · simp only [h, if_true]; trivial
  · obtain ⟨b, hb⟩ := byteAt_ok (bytes := bytes) (i := ix + 0) (by omega)
    obtain ⟨b1, hb1⟩ := byteAt_ok (bytes := bytes) (i := ix + 1) (by omega)
    obtain ⟨b2, hb2⟩ := byteAt_ok (bytes := bytes) (i := ix + 2) (by omega)
    obtain ⟨b3, hb3⟩ := byteAt_ok (bytes := bytes) (i := ix + 3) (by omega)
    simp only [h, if_false, hb, hb1, hb2, hb3]
    exact ⟨Nat.le_refl _, by omega⟩

theorem Tame.readU8 {N : Nat} {A : PanicKind → Prop} : Tame N A 8 Cafebabe.readU8 := by
  intro bytes ix hix
  unfold TameAt Cafebabe.readU8
  by_cases h : bytes.length < ix + 8
  · simp only [h, if_true]; trivial
  · obtain ⟨b, hb⟩ := byteAt_ok (bytes := bytes) (i := ix + 0) (by omega)
    obtain ⟨b1, hb1⟩ := byteAt_ok (bytes := bytes) (i := ix + 1) (by omega)
    obtain ⟨b2, hb2⟩ := byteAt_ok (bytes := bytes) (i := ix + 2) (by omega)
    obtain ⟨b3, hb3⟩ := byteAt_ok (bytes := bytes) (i := ix + 3) (by omega)
    obtain ⟨b4, hb4⟩ := byteAt_ok (bytes := bytes) (i := ix + 4) (by omega)
    obtain ⟨b5, hb5⟩ := byteAt_ok (bytes := bytes) (i := ix + 5) (by omega)
    obtain ⟨b6, hb6⟩ := byteAt_ok (bytes := bytes) (i := ix + 6) (by omega)
    obtain ⟨b7, hb7⟩ := byteAt_ok (bytes := bytes) (i := ix + 7) (by omega)
    simp only [h, if_false, hb, hb1, hb2, hb3, hb4, hb5, hb6, hb7]
    exact ⟨Nat.le_refl _, by omega⟩

theorem TameAt.takeSlice {N n : Nat} {A : PanicKind → Prop} {bytes : Bytes} {ix : Nat} (h : ix + n ≤ bytes.length) :
    TameAt N A n (Cafebabe.takeSlice n) bytes ix := by
  unfold TameAt Cafebabe.takeSlice sliceBytes
  rw [if_pos ⟨by omega, h⟩]
  exact ⟨Nat.le_refl _, h⟩

theorem Tame.takeBytes {N n : Nat} {A : PanicKind → Prop} {msg : String} : Tame N A n (Cafebabe.takeBytes n msg) := by
  intro bytes ix hix
  unfold TameAt Cafebabe.takeBytes
  by_cases h : bytes.length < ix + n
  · rw [if_pos h]; trivial
  · rw [if_neg h]; unfold sliceBytes
    rw [if_pos ⟨by omega, by omega⟩]
    exact ⟨Nat.le_refl _, by show ix + n ≤ bytes.length; omega⟩

theorem Tame.readTable2 {α : Type} {N M k : Nat} {A : PanicKind → Prop} {f : Nat → P α} (hM : N ≤ M + 2) (h : ∀ i, Tame M A k (f i)) :
    Tame N A 2 (Cafebabe.readTable2 f) :=
  Tame.bindK (m := 0) hM Tame.readU2 fun c => Tame.forRange h c.toNat

theorem Tame.readTable1 {α : Type} {N M k : Nat} {A : PanicKind → Prop} {f : Nat → P α} (hM : N ≤ M + 1) (h : ∀ i, Tame M A k (f i)) :
    Tame N A 1 (Cafebabe.readTable1 f) :=
  Tame.bindK (m := 0) hM Tame.readU1 fun c => Tame.forRange h c.toNat

/-! ## Constant-pool references, in a valid pool -/

theorem peel_resolved {pool : Pool} {k : Nat} {e : Entry} (h : pool[k]? = some e) : peel pool (.resolved k) = .ok e :=
  peel_ok.mpr ⟨k, rfl, h⟩

theorem peelUtf8_text {pool : Pool} {k : Nat} {s : Str} (h : TextAt pool k s) : peelUtf8 pool (.resolved k) = .ok s :=
  peelUtf8_ok.mpr ⟨k, rfl, h⟩

section
variable {major : UInt16} {pool : Pool} (hok : PoolOK major pool) {i : Nat}
include hok

theorem class_total {x : CPRef} (h : pool[i]? = some (.classInfo x)) : ∃ s, peelUtf8 pool x = .ok s ∧ ClassAt pool i s := by
  have := hok i _ h
  cases x with
  | unresolved _ => exact this.elim
  | resolved k =>
    obtain ⟨s, ht, -⟩ := this
    exact ⟨s, peelUtf8_text ht, k, h, ht⟩

theorem module_total {x : CPRef} (h : pool[i]? = some (.moduleInfo x)) : ∃ s, peelUtf8 pool x = .ok s := by
  have := hok i _ h
  cases x with
  | unresolved _ => exact this.elim
  | resolved k => obtain ⟨s, ht, -⟩ := this; exact ⟨s, peelUtf8_text ht⟩

theorem package_total {x : CPRef} (h : pool[i]? = some (.packageInfo x)) : ∃ s, peelUtf8 pool x = .ok s := by
  have := hok i _ h
  cases x with
  | unresolved _ => exact this.elim
  | resolved k => obtain ⟨s, ht, -⟩ := this; exact ⟨s, peelUtf8_text ht⟩

theorem methodType_total {x : CPRef} (h : pool[i]? = some (.methodType x)) : ∃ s, peelUtf8 pool x = .ok s := by
  have := hok i _ h
  cases x with
  | unresolved _ => exact this.elim
  | resolved k => obtain ⟨s, ht, -⟩ := this; exact ⟨s, peelUtf8_text ht⟩

theorem string_total {x : CPRef} (h : pool[i]? = some (.string x)) : ∃ l, peelStringLiteral pool x = .ok l := by
  have := hok i _ h
  cases x with
  | unresolved _ => exact this.elim
  | resolved k =>
    rcases this with ⟨s, hs⟩ | ⟨b, hb⟩
    · exact ⟨.string s, by unfold peelStringLiteral; rw [peel_resolved hs]; rfl⟩
    · exact ⟨.stringBytes b, by unfold peelStringLiteral; rw [peel_resolved hb]; rfl⟩

theorem nat_name {x y : CPRef} (h : pool[i]? = some (.nameAndType x y)) :
    ∃ k k' s, x = .resolved k ∧ y = .resolved k' ∧ TextAt pool k s ∧ Utf8At pool k' := by
  have := hok i _ h
  cases x with
  | unresolved _ => cases y <;> exact this.elim
  | resolved k =>
    cases y with
    | unresolved _ => exact this.elim
    | resolved k' => obtain ⟨⟨s, hs, -⟩, hu⟩ := this; exact ⟨k, k', s, rfl, rfl, hs, hu⟩

theorem hasDescriptor_total {D : Str → Prop} (h : HasDescriptor pool i D) : ∃ n, peelNameAndType pool (.resolved i) = .ok n := by
  obtain ⟨x, y, s, hi, ht, -⟩ := h
  obtain ⟨k, k', s', rfl, hy, hs', -⟩ := nat_name hok hi
  cases hy
  exact ⟨⟨s', s⟩, peelNameAndType_ok.mpr ⟨i, rfl, k, y, hi, hs', ht⟩⟩

theorem isClass_total (h : IsClass pool i) : ∃ s, peelClassinfo pool (.resolved i) = .ok s := by
  obtain ⟨x, hx⟩ := h
  obtain ⟨s, -, hc⟩ := class_total hok hx
  exact ⟨s, peelClassinfo_ok.mpr ⟨i, rfl, hc⟩⟩

theorem member_total' {c m : CPRef} (h : pool[i]? = some (.fieldRef c m) ∨ pool[i]? = some (.methodRef c m) ∨
    pool[i]? = some (.interfaceMethodRef c m)) :
    ∃ (s : Str) (n : NameAndType), peelClassinfo pool c = .ok s ∧ peelNameAndType pool m = .ok n := by
  have key : ∀ (D : Str → Prop), (∃ k l, c = .resolved k ∧ m = .resolved l ∧ IsClass pool k ∧ HasDescriptor pool l D) →
      ∃ (s : Str) (n : NameAndType), peelClassinfo pool c = .ok s ∧ peelNameAndType pool m = .ok n := by
    rintro D ⟨k, l, rfl, rfl, hc, hd⟩
    obtain ⟨s, hs⟩ := isClass_total hok hc
    obtain ⟨n, hn⟩ := hasDescriptor_total hok hd
    exact ⟨s, n, hs, hn⟩
  rcases h with h | h | h
  · have := hok i _ h
    cases c with
    | unresolved _ => cases m <;> exact this.elim
    | resolved k => cases m with
      | unresolved _ => exact this.elim
      | resolved l => exact key _ ⟨k, l, rfl, rfl, this⟩
  · have := hok i _ h
    cases c with
    | unresolved _ => cases m <;> exact this.elim
    | resolved k => cases m with
      | unresolved _ => exact this.elim
      | resolved l => exact key _ ⟨k, l, rfl, rfl, this⟩
  · have := hok i _ h
    cases c with
    | unresolved _ => cases m <;> exact this.elim
    | resolved k => cases m with
      | unresolved _ => exact this.elim
      | resolved l => exact key _ ⟨k, l, rfl, rfl, this⟩

theorem member_total {c m : CPRef} (h : pool[i]? = some (.fieldRef c m) ∨ pool[i]? = some (.methodRef c m) ∨
    pool[i]? = some (.interfaceMethodRef c m)) : ∃ r, makeMemberRef pool c m = .ok r := by
  obtain ⟨s, n, hs, hn⟩ := member_total' hok h
  exact ⟨⟨s, n⟩, by unfold makeMemberRef; rw [hs]; show (peelNameAndType pool m >>= _) = _; rw [hn]; rfl⟩

theorem handle_total {k : ReferenceKind} {y : CPRef} (h : pool[i]? = some (.methodHandle k y)) :
    ∃ r, makeMethodHandle pool k y = .ok r := by
  have := hok i _ h
  cases y with
  | unresolved _ => exact this.elim
  | resolved m =>
    have key : ∃ c n, pool[m]? = some (.fieldRef c n) ∨ pool[m]? = some (.methodRef c n) ∨
        pool[m]? = some (.interfaceMethodRef c n) := by
      cases k with
      | getField => obtain ⟨c, n, h⟩ := this; exact ⟨c, n, .inl h⟩
      | getStatic => obtain ⟨c, n, h⟩ := this; exact ⟨c, n, .inl h⟩
      | putField => obtain ⟨c, n, h⟩ := this; exact ⟨c, n, .inl h⟩
      | putStatic => obtain ⟨c, n, h⟩ := this; exact ⟨c, n, .inl h⟩
      | invokeVirtual => obtain ⟨c, n, h⟩ := this; exact ⟨c, n, .inr (.inl h)⟩
      | newInvokeSpecial => obtain ⟨c, n, h⟩ := this; exact ⟨c, n, .inr (.inl h)⟩
      | invokeStatic =>
        rcases this with ⟨c, n, h⟩ | ⟨-, c, n, h⟩
        · exact ⟨c, n, .inr (.inl h)⟩
        · exact ⟨c, n, .inr (.inr h)⟩
      | invokeSpecial =>
        rcases this with ⟨c, n, h⟩ | ⟨-, c, n, h⟩
        · exact ⟨c, n, .inr (.inl h)⟩
        · exact ⟨c, n, .inr (.inr h)⟩
      | invokeInterface => obtain ⟨c, n, h⟩ := this; exact ⟨c, n, .inr (.inr h)⟩
    obtain ⟨c, n, hm⟩ := key
    obtain ⟨s, nt, hs, hn⟩ := member_total' hok hm
    have hh : ∀ mk, ∃ r, makeHandleFrom pool k mk c n = .ok r := by
      intro mk
      exact ⟨⟨k, s, mk, nt⟩, by unfold makeHandleFrom; rw [hs]; show (peelNameAndType pool n >>= _) = _; rw [hn]; rfl⟩
    unfold makeMethodHandle
    rcases hm with hm | hm | hm <;> rw [peel_resolved hm] <;> exact hh _

theorem dynamic_total {x : UInt16} {y : CPRef} (h : pool[i]? = some (.dynamic x y) ∨ pool[i]? = some (.invokeDynamic x y)) :
    ∃ r, makeDynamic pool x y = .ok r := by
  have key : ∃ (D : Str → Prop) (l : Nat), y = .resolved l ∧ HasDescriptor pool l D := by
    rcases h with h | h
    · have := hok i _ h
      cases y with
      | unresolved _ => exact this.elim
      | resolved l => exact ⟨_, l, rfl, this⟩
    · have := hok i _ h
      cases y with
      | unresolved _ => exact this.elim
      | resolved l => exact ⟨_, l, rfl, this⟩
  obtain ⟨D, l, rfl, hd⟩ := key
  obtain ⟨n, hn⟩ := hasDescriptor_total hok hd
  exact ⟨⟨x, n⟩, by unfold makeDynamic; rw [hn]; rfl⟩

end

theorem Calm.of_ok {α : Type} {A : PanicKind → Prop} {r : Res α} (h : ∃ a, r = .ok a) : Calm A r := by
  obtain ⟨a, rfl⟩ := h; exact Calm.ok

theorem Calm.of_ok' {α : Type} {A : PanicKind → Prop} {r : Res α} {Q : α → Prop} (h : ∃ a, r = .ok a ∧ Q a) : Calm A r := by
  obtain ⟨a, rfl, -⟩ := h; exact Calm.ok

/-- A reader that looks up a pool entry and goes on with it. -/
theorem Tame.cp {α : Type} {N k : Nat} {A : PanicKind → Prop} {pool : Pool} {f : Entry → P α}
    (h : ∀ (i : Nat) (e : Entry), pool[i]? = some e → Tame N A k (f e)) : Tame N A 2 (readCpRefAny pool >>= f) := by
  have key : Tame N A 2 (Cafebabe.readU2 >>= fun cpIndex : UInt16 =>
      if cpIndex.toNat ≥ pool.length then (P.fail s!"Out-of-bounds index {cpIndex} in constant pool reference" : P α)
      else (P.lift (poolAt pool cpIndex.toNat) >>= f)) := by
    refine Tame.seqK Tame.readU2 fun c => Tame.ite (k := 0) (fun _ => Tame.fail) fun hc => ?_
    have hlt : c.toNat < pool.length := by omega
    intro bytes ix hix
    have hp : poolAt pool c.toNat = .ok pool[c.toNat] := by unfold poolAt; rw [List.getElem?_eq_getElem hlt]
    have := (h c.toNat _ (List.getElem?_eq_getElem hlt)).zero bytes ix hix
    rw [hp]
    exact this
  intro bytes ix hix
  have := key bytes ix hix
  unfold TameAt at this ⊢
  rw [show (readCpRefAny pool >>= f) bytes ix = (Cafebabe.readU2 >>= fun cpIndex : UInt16 =>
      if cpIndex.toNat ≥ pool.length then (P.fail s!"Out-of-bounds index {cpIndex} in constant pool reference" : P α)
      else (P.lift (poolAt pool cpIndex.toNat) >>= f)) bytes ix from ?_]
  · exact this
  · unfold readCpRefAny
    show P.bind (P.bind _ _) _ bytes ix = P.bind _ _ bytes ix
    unfold P.bind
    cases Cafebabe.readU2 bytes ix with
    | ok a =>
      simp only
      by_cases hc : a.1.toNat ≥ pool.length
      · rw [if_pos hc, if_pos hc]; rfl
      · rw [if_neg hc, if_neg hc]; rfl
    | err _ => rfl
    | panic _ => rfl
    | diverge => rfl

theorem badType_tame {α : Type} {N k : Nat} {A : PanicKind → Prop} : Tame N A k (badType : P α) := Tame.fail

theorem lift_map_tame {α β : Type} {N : Nat} {A : PanicKind → Prop} {r : Res α} {f : α → β} (h : Calm A r) :
    Tame N A 0 (do let x ← P.lift r; Pure.pure (f x)) := Tame.seq (Tame.lift h) fun _ => Tame.pure _

section
variable {N : Nat} {A : PanicKind → Prop} {major : UInt16} {pool : Pool}

theorem readCpUtf8_tame : Tame N A 2 (readCpUtf8 pool) :=
  Tame.cp (k := 0) fun i e _ => by cases e <;> first | exact Tame.pure _ | exact badType_tame

theorem readCpUtf8Opt_tame : Tame N A 2 (readCpUtf8Opt pool) :=
  Tame.cp (k := 0) fun i e _ => by cases e <;> first | exact Tame.pure _ | exact badType_tame

theorem readCpInteger_tame : Tame N A 2 (readCpInteger pool) :=
  Tame.cp (k := 0) fun i e _ => by cases e <;> first | exact Tame.pure _ | exact badType_tame

theorem readCpFloat_tame : Tame N A 2 (readCpFloat pool) :=
  Tame.cp (k := 0) fun i e _ => by cases e <;> first | exact Tame.pure _ | exact badType_tame

theorem readCpLong_tame : Tame N A 2 (readCpLong pool) :=
  Tame.cp (k := 0) fun i e _ => by cases e <;> first | exact Tame.pure _ | exact badType_tame

theorem readCpDouble_tame : Tame N A 2 (readCpDouble pool) :=
  Tame.cp (k := 0) fun i e _ => by cases e <;> first | exact Tame.pure _ | exact badType_tame

variable (hok : PoolOK major pool)
include hok

theorem readCpClassinfo_tame : Tame N A 2 (readCpClassinfo pool) :=
  Tame.cp (k := 0) fun i e h => by
    cases e <;> first | exact Tame.lift (Calm.of_ok' (class_total hok h)) | exact badType_tame

theorem readCpClassinfoOpt_tame : Tame N A 2 (readCpClassinfoOpt pool) :=
  Tame.cp (k := 0) fun i e h => by
    cases e <;> first | exact Tame.pure _ | exact lift_map_tame (Calm.of_ok' (class_total hok h)) | exact badType_tame

theorem readCpModuleinfo_tame : Tame N A 2 (readCpModuleinfo pool) :=
  Tame.cp (k := 0) fun i e h => by
    cases e <;> first | exact Tame.lift (Calm.of_ok (module_total hok h)) | exact badType_tame

theorem readCpPackageinfo_tame : Tame N A 2 (readCpPackageinfo pool) :=
  Tame.cp (k := 0) fun i e h => by
    cases e <;> first | exact Tame.lift (Calm.of_ok (package_total hok h)) | exact badType_tame

theorem readCpLiteralconstant_tame : Tame N A 2 (readCpLiteralconstant pool) :=
  Tame.cp (k := 0) fun i e h => by
    cases e <;> first | exact Tame.pure _ | exact Tame.lift (Calm.of_ok (string_total hok h)) | exact badType_tame

theorem readCpMemberref_tame {allowed : UInt32} : Tame N A 2 (readCpMemberref pool allowed) :=
  Tame.cp (k := 0) fun i e h => by
    refine Tame.seq (m := 0) (Tame.lift (Calm.ite (fun _ => Calm.ok) fun _ => Calm.fail)) fun _ => ?_
    cases e with
    | fieldRef c m => exact Tame.lift (Calm.of_ok (member_total hok (.inl h)))
    | methodRef c m => exact Tame.lift (Calm.of_ok (member_total hok (.inr (.inl h))))
    | interfaceMethodRef c m => exact Tame.lift (Calm.of_ok (member_total hok (.inr (.inr h))))
    | _ => exact badType_tame

theorem readCpInvokedynamic_tame : Tame N A 2 (readCpInvokedynamic pool) :=
  Tame.cp (k := 0) fun i e h => by
    cases e <;> first | exact Tame.lift (Calm.of_ok (dynamic_total hok (.inr h))) | exact badType_tame

theorem readCpMethodhandle_tame : Tame N A 2 (readCpMethodhandle pool) :=
  Tame.cp (k := 0) fun i e h => by
    cases e <;> first | exact Tame.lift (Calm.of_ok (handle_total hok h)) | exact badType_tame

theorem bootstrapArgumentOf_calm {i : Nat} {e : Entry} (h : pool[i]? = some e) : Calm A (bootstrapArgumentOf pool e) := by
  cases e with
  | string x => exact Calm.bind (Calm.of_ok (string_total hok h)) fun _ _ => Calm.ok
  | classInfo x => exact Calm.bind (Calm.of_ok' (class_total hok h)) fun _ _ => Calm.ok
  | methodHandle k x => exact Calm.bind (Calm.of_ok (handle_total hok h)) fun _ _ => Calm.ok
  | methodType x => exact Calm.bind (Calm.of_ok (methodType_total hok h)) fun _ _ => Calm.ok
  | _ => first | exact Calm.ok | exact Calm.fail

theorem readCpBootstrapArgument_tame : Tame N A 2 (readCpBootstrapArgument pool) :=
  Tame.cp fun _ _ h => Tame.lift (bootstrapArgumentOf_calm hok h)

theorem getCpLoadable_calm (n : Nat) : Calm A (getCpLoadable n pool) := by
  unfold getCpLoadable
  refine Calm.ite (fun _ => Calm.fail) fun hc => ?_
  have hlt : n < pool.length := by omega
  have hi := List.getElem?_eq_getElem hlt
  have hp : poolAt pool n = .ok pool[n] := by unfold poolAt; rw [hi]
  rw [hp]
  simp only [bind, Res.bind]
  generalize pool[n] = e at hi ⊢
  cases e with
  | string x => exact Calm.bind (Calm.of_ok (string_total hok hi)) fun _ _ => Calm.ok
  | classInfo x => exact Calm.bind (Calm.of_ok' (class_total hok hi)) fun _ _ => Calm.ok
  | methodHandle k x => exact Calm.bind (Calm.of_ok (handle_total hok hi)) fun _ _ => Calm.ok
  | methodType x => exact Calm.bind (Calm.of_ok (methodType_total hok hi)) fun _ _ => Calm.ok
  | dynamic b x => exact Calm.bind (Calm.of_ok (dynamic_total hok (.inl hi))) fun _ _ => Calm.ok
  | _ => first | exact Calm.ok | exact Calm.fail

theorem readCpObjectArrayType_tame : Tame N A 2 (readCpObjectArrayType pool) :=
  Tame.cp (k := 0) fun i e h => by
    cases e with
    | classInfo x =>
      refine Tame.seq (Tame.lift (Calm.of_ok' (class_total hok h))) fun name =>
        Tame.seq (m := 0) (Tame.lift (parseArrayDescriptor_decides name).calm) fun o => ?_
      cases o <;> exact Tame.pure _
    | _ => exact badType_tame

/-- The one reference reader that can panic in a valid pool: a NameAndType whose descriptor is not decodable. -/
theorem readCpNameandtypeOpt_tame
    (hA : (∃ (i : Nat) (x : CPRef) (y : Nat) (b : Bytes), pool[i]? = some (Entry.nameAndType x (.resolved y)) ∧
      pool[y]? = some (Entry.utf8Bytes b)) → A .nonUtf8) :
    Tame N A 2 (readCpNameandtypeOpt pool) :=
  Tame.cp (k := 0) fun i e h => by
    cases e with
    | zero => exact Tame.pure _
    | nameAndType x y =>
      obtain ⟨k, k', s, rfl, rfl, ht, hu⟩ := nat_name hok h
      refine Tame.seq (Tame.lift (Calm.of_ok ⟨s, peelUtf8_text ht⟩)) fun name => Tame.seq (Tame.lift ?_) fun _ => Tame.pure _
      rcases hu with ⟨t, hu⟩ | ⟨b, hu⟩
      · exact Calm.of_ok ⟨t, peelUtf8_text hu⟩
      · have : peelUtf8 pool (.resolved k') = .panic .nonUtf8 := by unfold peelUtf8; rw [peel_resolved hu]; rfl
        rw [this]
        exact Calm.panic (hA ⟨i, _, k', b, h, hu⟩)
    | _ => exact badType_tame

end

end Cafebabe
