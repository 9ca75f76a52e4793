import Verif.Proofs.WorkAttributes
import Verif.Proofs.WorkPool
import Verif.Proofs.TameAttr
/-!
# How many steps a reader takes: the framework, constants and bytecode

A byte of the input pays for `L` steps. `CostAt L Q c e p`: when the counting reader `p` returns a value, the value satisfies `Q`, and the steps
are paid by the bytes consumed and `c` more (`c` negative: something is left over); in any outcome the steps are paid by the bytes left and `e` more.
-/

namespace Cafebabe
open Spec Timed

/-- Paid when started at `ix`. -/
def CostAt {α : Type} (L : Int) (Q : α → Prop) (c e : Int) (p : PT α) (bytes : Bytes) (ix : Nat) : Prop :=
  (∀ a ix', (p bytes ix).out = .ok (a, ix') → Q a ∧ ix ≤ ix' ∧ ix' ≤ bytes.length ∧
    ((p bytes ix).steps : Int) + L * (bytes.length - ix' : Int) ≤ c + L * (bytes.length - ix : Int)) ∧
  ((p bytes ix).steps : Int) ≤ e + L * (bytes.length - ix : Int)

/-- Paid wherever started inside the input. -/
def Cost {α : Type} (L : Int) (Q : α → Prop) (c e : Int) (p : PT α) : Prop := ∀ bytes ix, ix ≤ bytes.length → CostAt L Q c e p bytes ix

theorem CostAt.bind {α β : Type} {L c c1 e e1 : Int} {Q : α → Prop} {R : β → Prop} {p : PT α} {f : α → PT β} {bytes : Bytes} {ix : Nat}
    (hp : CostAt L Q c1 e1 p bytes ix) (he : e1 ≤ e)
    (hf : ∀ a ix', (p bytes ix).out = .ok (a, ix') → Q a → ix' ≤ bytes.length → CostAt L R (c - c1) (e - c1) (f a) bytes ix') :
    CostAt L R c e (p >>= f) bytes ix := by
  unfold CostAt at *
  have hdef : (p >>= f) bytes ix = (p bytes ix >>= fun r => f r.1 bytes r.2) := rfl
  rw [hdef]
  rcases steps_bind (p bytes ix) (fun r => f r.1 bytes r.2) with ⟨⟨a, i⟩, ha, hs⟩ | ⟨hn, hs⟩
  · obtain ⟨hq, h1, h2, h3⟩ := hp.1 a i ha
    obtain ⟨hf1, hf2⟩ := hf a i ha hq h2
    rw [hs, out_bind, ha, res_bind_ok]
    simp only at hf1 hf2 ⊢
    refine ⟨fun b i' hb => ?_, ?_⟩
    · obtain ⟨hr, g1, g2, g3⟩ := hf1 b i' hb
      exact ⟨hr, Nat.le_trans h1 g1, g2, by push_cast; omega⟩
    · push_cast; omega
  · rw [hs]
    refine ⟨fun b i' hb => ?_, by omega⟩
    rw [out_bind] at hb
    cases ho : (p bytes ix).out with
    | ok r => exact absurd ho (hn r)
    | _ => rw [ho] at hb; cases hb

theorem Cost.bind {α β : Type} {L c c1 e e1 : Int} {Q : α → Prop} {R : β → Prop} {p : PT α} {f : α → PT β}
    (hp : Cost L Q c1 e1 p) (he : e1 ≤ e) (hf : ∀ a, Q a → Cost L R (c - c1) (e - c1) (f a)) : Cost L R c e (p >>= f) :=
  fun bytes ix hix => (hp bytes ix hix).bind he fun a ix' _ hq hix' => hf a hq bytes ix' hix'

theorem Cost.mono {α : Type} {L c c' e e' : Int} {Q R : α → Prop} {p : PT α} (h : Cost L Q c e p) (hc : c ≤ c') (he : e ≤ e') (hq : ∀ a, Q a → R a) :
    Cost L R c' e' p := fun bytes ix hix => by
  obtain ⟨h1, h2⟩ := h bytes ix hix
  refine ⟨fun a i ha => ?_, by omega⟩
  obtain ⟨hQ, g1, g2, g3⟩ := h1 a i ha
  exact ⟨hq a hQ, g1, g2, by omega⟩

theorem mul_nonneg_sub {L : Int} (hL : 0 ≤ L) {bytes : Bytes} {ix : Nat} (hix : ix ≤ bytes.length) : 0 ≤ L * ((bytes.length : Int) - ix) :=
  Int.mul_nonneg hL (by omega)

theorem Cost.pure {α : Type} {L c e : Int} (hL : 0 ≤ L) {Q : α → Prop} {a : α} (hq : Q a) (hc : 0 ≤ c) (he : 0 ≤ e) : Cost L Q c e (Pure.pure a : PT α) := fun bytes ix hix => by
  have := mul_nonneg_sub hL hix
  refine ⟨fun b i hb => ?_, ?_⟩
  · cases hb
    exact ⟨hq, Nat.le_refl _, hix, by show ((0 : Nat) : Int) + _ ≤ _; omega⟩
  · show ((0 : Nat) : Int) ≤ _; omega

theorem Cost.lift {α : Type} {L : Int} (hL : 0 ≤ L) {t : Timed α} {n : Nat} {c e : Int} {Q : α → Prop} (h : t.steps ≤ n) (hc : (n : Int) ≤ c) (he : (n : Int) ≤ e) (hq : ∀ a, t.out = .ok a → Q a) : Cost L Q c e (PT.lift t) :=
  fun bytes ix hix => by
  have hm := mul_nonneg_sub hL hix
  have hs : (PT.lift t bytes ix).steps ≤ n := by
    rcases steps_bind t (fun a => (⟨.ok (a, ix), 0⟩ : Timed (α × Nat))) with ⟨a, -, e⟩ | ⟨-, e⟩
    · show (t >>= _).steps ≤ _; rw [e]; exact h
    · show (t >>= _).steps ≤ _; rw [e]; exact h
  refine ⟨fun a i ha => ?_, by omega⟩
  have ha' : (t.out >>= fun a => Res.ok (a, ix)) = .ok (a, i) := by
    unfold PT.lift at ha; rw [out_bind] at ha; exact ha
  cases ho : t.out with
  | ok b =>
    rw [ho] at ha'
    cases ha'
    exact ⟨hq a ho, Nat.le_refl _, hix, by omega⟩
  | _ => rw [ho] at ha'; cases ha'

/-- A reader without a loop, consuming at least `k` bytes. -/
theorem Cost.counted {α : Type} {L : Int} (hL : 0 ≤ L) {p : P α} {k m : Nat} (h : Tame 0 (fun _ => True) k p) {c e : Int} (hc : m - L * k ≤ c) (he : m ≤ e)
    {Q : α → Prop} (hq : ∀ bytes ix a ix', p bytes ix = .ok (a, ix') → Q a) : Cost L Q c e (fun bytes ix => ⟨p bytes ix, m⟩) := fun bytes ix hix => by
  have hm := mul_nonneg_sub hL hix
  refine ⟨fun a i ha => ?_, by show (m : Int) ≤ _; omega⟩
  have ht := h bytes ix hix
  unfold TameAt at ht
  rw [show p bytes ix = .ok (a, i) from ha] at ht
  simp only at ht
  refine ⟨hq bytes ix a i ha, by omega, ht.2, ?_⟩
  show (m : Int) + _ ≤ _
  have h1 : L * ((bytes.length : Int) - i) + L * k ≤ L * ((bytes.length : Int) - ix) := by
    rw [← Int.mul_add]
    exact Int.mul_le_mul_of_nonneg_left (by omega) hL
  omega

theorem Cost.mapErr {α : Type} {L c e : Int} {Q : α → Prop} {p : PT α} (h : Cost L Q c e p) (s : String) : Cost L Q c e (p.mapErr s) := fun bytes ix hix => by
  obtain ⟨h1, h2⟩ := h bytes ix hix
  refine ⟨fun a i ha => h1 a i ?_, h2⟩
  unfold PT.mapErr at ha
  rw [out_mapErr] at ha
  cases ho : (p bytes ix).out with
  | ok r => rw [ho] at ha; exact ha
  | _ => rw [ho] at ha; cases ha

theorem Cost.ite {α : Type} {L c e : Int} {Q : α → Prop} {x : Prop} {i : Decidable x} {p q : PT α} (h : Cost L Q c e p) (h' : Cost L Q c e q) :
    Cost L Q c e (if x then p else q) := by
  split
  · exact h
  · exact h'

theorem Cost.forRangeFrom {α : Type} {L e : Int} (hL : 0 ≤ L) (he : 0 ≤ e) {Q : α → Prop} {f : Nat → PT α} (h : ∀ i, Cost L Q (-1) e (f i)) :
    ∀ (n i : Nat), Cost L (fun l => l.length = n ∧ ∀ x ∈ l, Q x) 0 (e + 1) (forRangeFromT f i n)
  | 0, _ => Cost.pure hL ⟨rfl, by simp⟩ (by omega) (by omega)
  | n + 1, i => by
    refine Cost.bind (c1 := 1) (e1 := 1) (Q := fun _ => True) (Cost.lift hL (n := 1) (Nat.le_refl _) (by omega) (by omega) (fun _ _ => trivial)) (by omega) fun _ _ => ?_
    refine Cost.bind (h i) (by omega) fun a ha => Cost.bind (Cost.forRangeFrom hL he h n (i + 1)) (by omega) fun l hl => Cost.pure hL ⟨by simp [hl.1], ?_⟩ (by omega) (by omega)
    rintro x (_ | hx)
    · exact ha
    · exact hl.2 x ‹_›

/-! ## Rates -/

/-- `W` covers one look-up and check of texts up to `n` characters, and a byte pays for `L`. -/
structure Rate (pool : Pool) (n : Nat) (W L : Int) : Prop where
  texts : TextsUpTo pool n
  work : 16 * n + 48 ≤ W
  pay : 10 * W ≤ L

theorem Rate.pos {pool : Pool} {n : Nat} {W L : Int} (r : Rate pool n W L) : 0 ≤ L := by have := r.work; have := r.pay; omega

section
variable {pool : Pool} {n : Nat} {W L : Int}

theorem Cost.once1 {α : Type} (r : Rate pool n W L) {p : P α} {k : Nat} (h : Tame 0 (fun _ => True) (k + 1) p) : Cost L (fun _ => True) (-8 * W) W (PT.once p) := by
  refine Cost.counted (m := 1) r.pos (h.weaken (m := 1) (Nat.le_refl _) (by omega)) ?_ ?_ fun _ _ _ _ _ => trivial
  · have := r.work; have := r.pay; omega
  · have := r.work; omega

theorem Cost.once0 {α : Type} (r : Rate pool n W L) {p : P α} {k : Nat} (h : Tame 0 (fun _ => True) k p) : Cost L (fun _ => True) 1 1 (PT.once p) := by
  have := r.pos
  exact Cost.counted (m := 1) r.pos h.zero (by omega) (by omega) fun _ _ _ _ _ => trivial

theorem Cost.plain0 {α : Type} (r : Rate pool n W L) {p : P α} {k : Nat} (h : Tame 0 (fun _ => True) k p) : Cost L (fun _ => True) 0 0 (PT.plain p) := by
  have := r.pos
  exact Cost.counted (m := 0) r.pos h.zero (by omega) (by omega) fun _ _ _ _ _ => trivial

theorem Cost.plainFail {α : Type} (r : Rate pool n W L) {Q : α → Prop} {c e : Int} {m : String} (he : 0 ≤ e) : Cost L Q c e (PT.plain (P.fail m)) := fun bytes ix hix => by
  have := mul_nonneg_sub r.pos hix
  exact ⟨fun a i ha => (by cases ha), by show ((0 : Nat) : Int) ≤ _; omega⟩

theorem Cost.plainFailCtx {α : Type} (r : Rate pool n W L) {Q : α → Prop} {c e : Int} {m s : String} (he : 0 ≤ e) : Cost L Q c e (PT.plain (P.failCtx m s)) := fun bytes ix hix => by
  have := mul_nonneg_sub r.pos hix
  exact ⟨fun a i ha => (by cases ha), by show ((0 : Nat) : Int) ≤ _; omega⟩

theorem Cost.fail {α : Type} (r : Rate pool n W L) {Q : α → Prop} {c e : Int} {m : String} (he : 0 ≤ e) : Cost L Q c e (PT.fail m) := Cost.plainFail r he

theorem Cost.badType {α : Type} (r : Rate pool n W L) {Q : α → Prop} {c e : Int} (he : 0 ≤ e) : Cost L Q c e (PT.plain (badType : P α)) := Cost.plainFail r he

theorem Cost.failIf (r : Rate pool n W L) {b : Bool} {m : String} : Cost L (fun _ => True) 0 0 (PT.failIf b m) := Cost.plain0 r Tame.failIf

theorem Cost.okOr {α : Type} (r : Rate pool n W L) {o : Option α} {m : String} : Cost L (fun _ => True) 0 0 (PT.okOr o m) := Cost.plain0 r Tame.okOr

theorem Cost.diverge {α : Type} (r : Rate pool n W L) {Q : α → Prop} {c e : Int} (he : 0 ≤ e) : Cost L Q c e (PT.diverge : PT α) := fun bytes ix hix => by
  have := mul_nonneg_sub r.pos hix
  exact ⟨fun a i ha => (by cases ha), by show ((0 : Nat) : Int) ≤ _; omega⟩

theorem Cost.getIx (r : Rate pool n W L) : Cost L (fun _ => True) 0 0 PT.getIx :=
  Cost.plain0 (k := 0) r (fun _ _ hix => ⟨Nat.le_refl _, hix⟩)

theorem Cost.tick (r : Rate pool n W L) {m : Nat} : Cost L (fun _ => True) m m (PT.tick m) := Cost.lift r.pos (Nat.le_refl _) (Int.le_refl _) (Int.le_refl _) fun _ _ => trivial

/-- Taking `k` bytes. -/
theorem Cost.slice (r : Rate pool n W L) {p : P Bytes} {k : Nat} (h : Tame 0 (fun _ => True) k p) (hk : ∀ bytes ix a ix', p bytes ix = .ok (a, ix') → a.length = k) :
    Cost L (fun b => b.length = k) (1 - L * k) 1 (PT.once p) := Cost.counted (m := 1) r.pos h (Int.le_refl _) (Int.le_refl _) hk

theorem Cost.free (r : Rate pool n W L) {α : Type} {x : Res α} : Cost L (fun _ => True) 0 0 (PT.lift (free x)) :=
  Cost.lift r.pos (n := 0) (Nat.le_refl _) (Int.le_refl _) (Int.le_refl _) fun _ _ => trivial

theorem Cost.forRange (r : Rate pool n W L) {α : Type} {Q : α → Prop} {f : Nat → PT α} (h : ∀ i, Cost L Q (-W) (4 * W) (f i)) (k : Nat) :
    Cost L (fun l => l.length = k ∧ ∀ x ∈ l, Q x) 0 (5 * W) (forRangeT k f) := by
  have h1 := r.work
  refine (Cost.forRangeFrom r.pos (e := 4 * W) (by omega) (fun i => (h i).mono (by omega) (Int.le_refl _) fun _ h => h) k 0).mono (Int.le_refl _) (by omega) fun _ h => h

theorem Cost.readTable2 (r : Rate pool n W L) {α : Type} {Q : α → Prop} {f : Nat → PT α} (h : ∀ i, Cost L Q (-W) (4 * W) (f i)) :
    Cost L (fun l => ∀ x ∈ l, Q x) (-7 * W) (4 * W) (readTable2T f) := by
  have h1 := r.work
  exact Cost.bind (Cost.once1 r Tame.readU2) (by omega) fun c _ => (Cost.forRange r h c.toNat).mono (by omega) (by omega) fun _ h => h.2

theorem Cost.readTable1 (r : Rate pool n W L) {α : Type} {Q : α → Prop} {f : Nat → PT α} (h : ∀ i, Cost L Q (-W) (4 * W) (f i)) :
    Cost L (fun l => ∀ x ∈ l, Q x) (-7 * W) (4 * W) (readTable1T f) := by
  have h1 := r.work
  exact Cost.bind (Cost.once1 r Tame.readU1) (by omega) fun c _ => (Cost.forRange r h c.toNat).mono (by omega) (by omega) fun _ h => h.2

end

/-- Head of a sequence: the cost is read off. -/
syntax "costh" : tactic
/-- A goal whose cost is given: sequences are split, the rest is left. -/
syntax "cost1" : tactic

macro_rules | `(tactic| costh) => `(tactic| with_reducible exact Cost.once1 (by assumption) Tame.readU1)
macro_rules | `(tactic| costh) => `(tactic| with_reducible exact Cost.once1 (by assumption) Tame.readU2)
macro_rules | `(tactic| costh) => `(tactic| with_reducible exact Cost.once1 (by assumption) Tame.readU4)
macro_rules | `(tactic| costh) => `(tactic| with_reducible exact Cost.once1 (by assumption) readI4_tame)
macro_rules | `(tactic| costh) => `(tactic| with_reducible exact Cost.getIx (by assumption))
macro_rules | `(tactic| costh) => `(tactic| with_reducible exact Cost.tick (by assumption))
macro_rules | `(tactic| costh) => `(tactic| with_reducible exact Cost.free (by assumption))
macro_rules | `(tactic| costh) => `(tactic| with_reducible exact Cost.failIf (by assumption))
macro_rules | `(tactic| costh) => `(tactic| with_reducible exact Cost.okOr (by assumption))
macro_rules | `(tactic| costh) => `(tactic| with_reducible exact Cost.plain0 (by assumption) Tame.ensureLength)
macro_rules | `(tactic| costh) => `(tactic| (with_reducible apply Cost.mapErr; costh))
macro_rules | `(tactic| costh) => `(tactic| with_reducible assumption)

macro_rules | `(tactic| cost1) => `(tactic| (with_reducible apply Cost.mono <;> first | costh | omega | (intros; trivial)))
macro_rules | `(tactic| cost1) => `(tactic| (with_reducible apply Cost.ite))
macro_rules | `(tactic| cost1) => `(tactic| (with_reducible apply Cost.pure (Rate.pos (by assumption)) <;> first | trivial | omega | assumption))
macro_rules | `(tactic| cost1) => `(tactic| (with_reducible refine Cost.plainFail (by assumption) ?_; omega))
macro_rules | `(tactic| cost1) => `(tactic| (with_reducible refine Cost.fail (by assumption) ?_; omega))
macro_rules | `(tactic| cost1) => `(tactic| (with_reducible refine Cost.badType (by assumption) ?_; omega))
macro_rules | `(tactic| cost1) => `(tactic| (with_reducible refine Cost.plainFailCtx (by assumption) ?_; omega))
macro_rules | `(tactic| cost1) => `(tactic| (with_reducible apply Cost.bind; costh; omega))

/-- Splits a goal `Cost L Q c e p`. -/
macro "cost" : tactic => `(tactic| (have hwork := Rate.work (by assumption); have hpay := Rate.pay (by assumption); repeat' (first | cost1 | intro _)))

/-! ## Looking up constants -/

section
variable {pool : Pool} {n : Nat} (ht : TextsUpTo pool n)
include ht

theorem peelUtf8T_le (x : CPRef) : (peelUtf8T pool x).steps ≤ n + 1 := by
  have := steps_bind_le (t := peelT pool x) (f := fun e => free e.getUtf8 >>= fun s => copyT s) (m := 1) (n := n) (by rw [peelT_steps]) fun e he => steps_free_bind_le fun s hs => by
    rw [peelT_out] at he
    have : e = .utf8 s := by cases e <;> simp_all [Entry.getUtf8]
    exact ht s (this ▸ peel_mem he)
  unfold peelUtf8T
  omega

theorem peelUtf8T_short {x : CPRef} {s : Str} (h : (peelUtf8T pool x).out = .ok s) : s.length ≤ n := by
  rw [peelUtf8T_out] at h
  unfold peelUtf8 at h
  cases hp : peel pool x with
  | ok e =>
    rw [hp] at h
    have : e = .utf8 s := by cases e <;> simp_all [Entry.getUtf8]
    exact ht s (this ▸ peel_mem hp)
  | _ => rw [hp] at h; cases h

theorem classinfoT_le (e : Entry) : (e.classinfoT pool).steps ≤ n + 1 := by
  cases e <;> first | exact peelUtf8T_le ht _ | exact Nat.zero_le _

theorem nameAndTypeOfT_le (e : Entry) : (e.nameAndTypeOfT pool).steps ≤ 2 * n + 2 := by
  cases e with
  | nameAndType x y =>
    have := steps_bind_le (peelUtf8T_le ht x) fun (name : Str) _ => steps_bind_le (n := 0) (f := fun descriptor => free (.ok (NameAndType.mk name descriptor))) (peelUtf8T_le ht y) fun _ _ => Nat.le_refl _
    show (peelUtf8T pool x >>= fun name => peelUtf8T pool y >>= fun descriptor => free (.ok (NameAndType.mk name descriptor))).steps ≤ _
    omega
  | _ => exact Nat.zero_le _

theorem peelClassinfoT_le (x : CPRef) : (peelClassinfoT pool x).steps ≤ n + 2 := by
  have := steps_bind_le (t := peelT pool x) (f := fun e => e.classinfoT pool) (m := 1) (by rw [peelT_steps]) fun e _ => classinfoT_le ht e
  unfold peelClassinfoT
  omega

theorem peelNameAndTypeT_le (x : CPRef) : (peelNameAndTypeT pool x).steps ≤ 2 * n + 3 := by
  have := steps_bind_le (t := peelT pool x) (f := fun e => e.nameAndTypeOfT pool) (m := 1) (by rw [peelT_steps]) fun e _ => nameAndTypeOfT_le ht e
  unfold peelNameAndTypeT
  omega

theorem peelStringLiteralT_le (x : CPRef) : (peelStringLiteralT pool x).steps ≤ n + 1 := by
  have := steps_bind_le (t := peelT pool x) (f := fun e => free e.stringLiteral >>= fun l => tick (literalSize l) >>= fun _ => free (.ok l)) (m := 1) (n := n) (by rw [peelT_steps])
    fun e he => steps_free_bind_le fun l hl => by
    rw [steps_tick_bind, steps_free, Nat.add_zero]
    rw [peelT_out] at he
    cases e with
    | utf8 s => cases hl; exact ht s (peel_mem he)
    | utf8Bytes b => cases hl; exact Nat.zero_le _
    | _ => cases hl
  unfold peelStringLiteralT
  omega

theorem makeMemberRefT_le (c m : CPRef) : (makeMemberRefT pool c m).steps ≤ 3 * n + 5 := by
  have := steps_bind_le (peelClassinfoT_le ht c) fun (cn : Str) _ => steps_bind_le (n := 0) (f := fun nt => free (.ok (MemberRef.mk cn nt))) (peelNameAndTypeT_le ht m) fun _ _ => Nat.le_refl _
  unfold makeMemberRefT
  omega

theorem makeDynamicT_le (x : UInt16) (y : CPRef) : (makeDynamicT pool x y).steps ≤ 2 * n + 3 :=
  steps_bind_le (n := 0) (peelNameAndTypeT_le ht y) fun _ _ => Nat.le_refl _

theorem makeHandleFromT_le (x : ReferenceKind) (k : MemberKind) (c m : CPRef) : (makeHandleFromT pool x k c m).steps ≤ 3 * n + 5 := by
  have := steps_bind_le (peelClassinfoT_le ht c) fun (cn : Str) _ => steps_bind_le (n := 0) (f := fun nt => free (.ok (MethodHandle.mk x cn k nt))) (peelNameAndTypeT_le ht m) fun _ _ => Nat.le_refl _
  unfold makeHandleFromT
  omega

theorem makeMethodHandleT_le (x : ReferenceKind) (y : CPRef) : (makeMethodHandleT pool x y).steps ≤ 3 * n + 6 := by
  unfold makeMethodHandleT
  refine Nat.le_trans (steps_bind_le (m := 1) (n := 3 * n + 5) (by rw [peelT_steps]) fun e _ => ?_) (by omega)
  cases e <;> first | exact makeHandleFromT_le ht _ _ _ _ | exact Nat.zero_le _

theorem bootstrapArgumentOfT_le (e : Entry) : (bootstrapArgumentOfT pool e).steps ≤ 3 * n + 6 := by
  cases e with
  | string v => exact Nat.le_trans (steps_bind_le (n := 0) (peelStringLiteralT_le ht v) fun _ _ => Nat.le_refl _) (by omega)
  | classInfo v => exact Nat.le_trans (steps_bind_le (n := 0) (peelUtf8T_le ht v) fun _ _ => Nat.le_refl _) (by omega)
  | methodType v => exact Nat.le_trans (steps_bind_le (n := 0) (peelUtf8T_le ht v) fun _ _ => Nat.le_refl _) (by omega)
  | methodHandle x y => exact Nat.le_trans (steps_bind_le (n := 0) (makeMethodHandleT_le ht x y) fun _ _ => Nat.le_refl _) (by omega)
  | _ => exact Nat.zero_le _

theorem getCpLoadableT_le (i : Nat) : (getCpLoadableT i pool).steps ≤ 3 * n + 7 := by
  unfold getCpLoadableT
  split
  · exact Nat.zero_le _
  · rw [steps_tick_bind]
    have : (free (poolAt pool i) >>= fun e => match e with
      | .integer v => free (.ok (.literalConstant (.integer v)))
      | .float v => free (.ok (.literalConstant (.float v)))
      | .long v => free (.ok (.literalConstant (.long v)))
      | .double v => free (.ok (.literalConstant (.double v)))
      | .string v => do
        let l ← peelStringLiteralT pool v
        free (.ok (.literalConstant l))
      | .classInfo x => do
        let s ← peelUtf8T pool x
        free (.ok (.classInfo s))
      | .methodHandle x y => do
        let h ← makeMethodHandleT pool x y
        free (.ok (.methodHandle h))
      | .methodType x => do
        let s ← peelUtf8T pool x
        free (.ok (.methodType s))
      | .dynamic x y => do
        let d ← makeDynamicT pool x y
        free (.ok (.dynamic d))
      | _ => free (Res.fail "Unexpected non-loadable constant pool reference found") : Timed Loadable).steps ≤ 3 * n + 6 := by
      refine steps_free_bind_le fun e _ => ?_
      cases e with
      | string v => exact Nat.le_trans (steps_bind_le (n := 0) (peelStringLiteralT_le ht v) fun _ _ => Nat.le_refl _) (by omega)
      | classInfo v => exact Nat.le_trans (steps_bind_le (n := 0) (peelUtf8T_le ht v) fun _ _ => Nat.le_refl _) (by omega)
      | methodType v => exact Nat.le_trans (steps_bind_le (n := 0) (peelUtf8T_le ht v) fun _ _ => Nat.le_refl _) (by omega)
      | methodHandle x y => exact Nat.le_trans (steps_bind_le (n := 0) (makeMethodHandleT_le ht x y) fun _ _ => Nat.le_refl _) (by omega)
      | dynamic x y => exact Nat.le_trans (steps_bind_le (n := 0) (makeDynamicT_le ht x y) fun _ _ => Nat.le_refl _) (by omega)
      | _ => exact Nat.zero_le _
    have h2 : ∀ a : Nat, a ≤ 3 * n + 6 → 1 + a ≤ 3 * n + 7 := by omega
    exact h2 _ this

end

section
variable {pool : Pool} {n : Nat} {W L : Int} (r : Rate pool n W L)
include r

/-- A look-up or check of texts. -/
theorem Cost.work {α : Type} {t : Timed α} (h : t.steps ≤ 16 * n + 48) : Cost L (fun _ => True) W W (PT.lift t) :=
  Cost.lift r.pos h (by have := r.work; push_cast; omega) (by have := r.work; push_cast; omega) fun _ _ => trivial

theorem peelUtf8T_cost (x : CPRef) : Cost L (fun s => s.length ≤ n) W W (PT.lift (peelUtf8T pool x)) :=
  Cost.lift r.pos (peelUtf8T_le r.texts x) (by have := r.work; push_cast; omega) (by have := r.work; push_cast; omega) fun _ h => peelUtf8T_short r.texts h

theorem copyT_cost {s : Str} (h : s.length ≤ n) : Cost L (fun s => s.length ≤ n) W W (PT.lift (copyT s)) :=
  Cost.lift (n := n) r.pos h (by have := r.work; omega) (by have := r.work; omega) fun _ h' => by cases h'; exact h

theorem peelStringLiteralT_cost (x : CPRef) : Cost L (fun _ => True) W W (PT.lift (peelStringLiteralT pool x)) := Cost.work r (Nat.le_trans (peelStringLiteralT_le r.texts x) (by omega))
theorem makeMemberRefT_cost (x y : CPRef) : Cost L (fun _ => True) W W (PT.lift (makeMemberRefT pool x y)) := Cost.work r (Nat.le_trans (makeMemberRefT_le r.texts x y) (by omega))
theorem makeDynamicT_cost (x : UInt16) (y : CPRef) : Cost L (fun _ => True) W W (PT.lift (makeDynamicT pool x y)) := Cost.work r (Nat.le_trans (makeDynamicT_le r.texts x y) (by omega))
theorem makeMethodHandleT_cost (x : ReferenceKind) (y : CPRef) : Cost L (fun _ => True) W W (PT.lift (makeMethodHandleT pool x y)) := Cost.work r (Nat.le_trans (makeMethodHandleT_le r.texts x y) (by omega))
theorem bootstrapArgumentOfT_cost (e : Entry) : Cost L (fun _ => True) W W (PT.lift (bootstrapArgumentOfT pool e)) := Cost.work r (Nat.le_trans (bootstrapArgumentOfT_le r.texts e) (by omega))
theorem getCpLoadableT_cost (i : Nat) : Cost L (fun _ => True) W W (PT.lift (getCpLoadableT i pool)) := Cost.work r (Nat.le_trans (getCpLoadableT_le r.texts i) (by omega))
theorem parseArrayDescriptorT_cost {s : Str} (h : s.length ≤ n) : Cost L (fun _ => True) W W (PT.lift (parseArrayDescriptorT s)) := Cost.work r (Nat.le_trans (arrayT_le s) (by omega))
theorem tryFromT_cost {s : Str} (h : s.length ≤ n) : Cost L (fun _ => True) W W (PT.lift (ClassName.tryFromT s)) := Cost.work r (Nat.le_trans (tryFromT_le s) (by omega))
theorem isUnqualifiedNameT_cost {s : Str} (h : s.length ≤ n) : Cost L (fun _ => True) W W (PT.lift (isUnqualifiedNameT s)) := Cost.work r (Nat.le_trans (unqualifiedT_le s) (by omega))
theorem isUnqualifiedMethodNameT_cost {s : Str} (h : s.length ≤ n) (a b : Bool) : Cost L (fun _ => True) W W (PT.lift (isUnqualifiedMethodNameT s a b)) := Cost.work r (Nat.le_trans (methodNameT_le s a b) (by omega))
theorem isReturnDescriptorT_cost {s : Str} (h : s.length ≤ n) : Cost L (fun _ => True) W W (PT.lift (isReturnDescriptorT s)) :=
  Cost.work r (Nat.le_trans (returnT_le [] s) (by omega))

theorem readCpRefAny_cost : Cost L (fun e => e ∈ pool) (-8 * W) W (PT.once (readCpRefAny pool)) := by
  refine Cost.counted (m := 1) (k := 1) r.pos ?_ ?_ ?_ ?_
  · refine Tame.seqK (m := 0) (Tame.readU2.weaken (Nat.le_refl _) (by omega)) fun i => Tame.ite (fun _ => Tame.fail) fun _ => Tame.lift ?_
    unfold poolAt
    split
    · exact Calm.ok
    · exact Calm.panic trivial
  · have := r.work; have := r.pay; omega
  · have := r.work; omega
  · intro bytes ix e ix' h
    obtain ⟨i, j, h1, h2⟩ := P.bind_ok.mp h
    split at h2
    · cases h2
    · unfold P.lift poolAt at h2
      cases hp : pool[(i.toNat : Nat)]? with
      | none => rw [hp] at h2; cases h2
      | some e' => rw [hp] at h2; cases h2; exact List.mem_of_getElem? hp

end

macro_rules | `(tactic| costh) => `(tactic| with_reducible exact readCpRefAny_cost (by assumption))
macro_rules | `(tactic| costh) => `(tactic| with_reducible exact peelUtf8T_cost (by assumption) _)
macro_rules | `(tactic| costh) => `(tactic| with_reducible exact peelStringLiteralT_cost (by assumption) _)
macro_rules | `(tactic| costh) => `(tactic| with_reducible exact makeMemberRefT_cost (by assumption) _ _)
macro_rules | `(tactic| costh) => `(tactic| with_reducible exact makeDynamicT_cost (by assumption) _ _)
macro_rules | `(tactic| costh) => `(tactic| with_reducible exact makeMethodHandleT_cost (by assumption) _ _)
macro_rules | `(tactic| costh) => `(tactic| with_reducible exact bootstrapArgumentOfT_cost (by assumption) _)
macro_rules | `(tactic| costh) => `(tactic| with_reducible exact getCpLoadableT_cost (by assumption) _)
macro_rules | `(tactic| costh) => `(tactic| with_reducible exact copyT_cost (by assumption) (by assumption))
macro_rules | `(tactic| costh) => `(tactic| with_reducible exact parseArrayDescriptorT_cost (by assumption) (by assumption))
macro_rules | `(tactic| costh) => `(tactic| with_reducible exact tryFromT_cost (by assumption) (by assumption))
macro_rules | `(tactic| costh) => `(tactic| with_reducible exact isUnqualifiedNameT_cost (by assumption) (by assumption))
macro_rules | `(tactic| costh) => `(tactic| with_reducible exact isUnqualifiedMethodNameT_cost (by assumption) (by assumption) _ _)
macro_rules | `(tactic| costh) => `(tactic| with_reducible exact isReturnDescriptorT_cost (by assumption) (by assumption))

section
variable {pool : Pool} {n : Nat} {W L : Int} (r : Rate pool n W L)
include r

theorem readCpUtf8T_cost : Cost L (fun s => s.length ≤ n) (-6 * W) (2 * W) (readCpUtf8T pool) := by
  have hw := r.work
  refine Cost.bind (readCpRefAny_cost r) (by omega) fun e he => ?_
  cases e with
  | utf8 s => have := r.texts s he; dsimp only; cost
  | _ => dsimp only; cost

theorem readCpUtf8OptT_cost : Cost L (fun o => ∀ s, o = some s → s.length ≤ n) (-6 * W) (2 * W) (readCpUtf8OptT pool) := by
  have hw := r.work
  refine Cost.bind (readCpRefAny_cost r) (by omega) fun e he => ?_
  cases e with
  | utf8 s =>
    have := r.texts s he
    exact Cost.bind (copyT_cost r this) (by omega) fun s hs => Cost.pure r.pos (fun t ht => by cases ht; exact hs) (by omega) (by omega)
  | zero => exact Cost.pure r.pos nofun (by omega) (by omega)
  | _ => dsimp only; cost

theorem readCpClassinfoOptT_cost : Cost L (fun o => ∀ s, o = some s → s.length ≤ n) (-6 * W) (2 * W) (readCpClassinfoOptT pool) := by
  have hw := r.work
  refine Cost.bind (readCpRefAny_cost r) (by omega) fun e he => ?_
  cases e with
  | classInfo x => exact Cost.bind (peelUtf8T_cost r x) (by omega) fun s hs => Cost.pure r.pos (fun t ht => by cases ht; exact hs) (by omega) (by omega)
  | zero => exact Cost.pure r.pos nofun (by omega) (by omega)
  | _ => dsimp only; cost

theorem readCpClassinfoT_cost : Cost L (fun s => s.length ≤ n) (-6 * W) (2 * W) (readCpClassinfoT pool) := by
  have hw := r.work
  refine Cost.bind (readCpRefAny_cost r) (by omega) fun e he => ?_
  cases e <;> dsimp only <;> cost

theorem readCpModuleinfoT_cost : Cost L (fun s => s.length ≤ n) (-6 * W) (2 * W) (readCpModuleinfoT pool) := by
  have hw := r.work
  refine Cost.bind (readCpRefAny_cost r) (by omega) fun e he => ?_
  cases e <;> dsimp only <;> cost

theorem readCpPackageinfoT_cost : Cost L (fun s => s.length ≤ n) (-6 * W) (2 * W) (readCpPackageinfoT pool) := by
  have hw := r.work
  refine Cost.bind (readCpRefAny_cost r) (by omega) fun e he => ?_
  cases e <;> dsimp only <;> cost

theorem readCpNameandtypeOptT_cost : Cost L (fun _ => True) (-6 * W) (2 * W) (readCpNameandtypeOptT pool) := by
  have hw := r.work
  refine Cost.bind (readCpRefAny_cost r) (by omega) fun e he => ?_
  cases e <;> dsimp only <;> cost

theorem readCpLiteralconstantT_cost : Cost L (fun _ => True) (-6 * W) (2 * W) (readCpLiteralconstantT pool) := by
  have hw := r.work
  refine Cost.bind (readCpRefAny_cost r) (by omega) fun e he => ?_
  cases e <;> dsimp only <;> cost

theorem readCpInvokedynamicT_cost : Cost L (fun _ => True) (-6 * W) (2 * W) (readCpInvokedynamicT pool) := by
  have hw := r.work
  refine Cost.bind (readCpRefAny_cost r) (by omega) fun e he => ?_
  cases e <;> dsimp only <;> cost

theorem readCpMethodhandleT_cost : Cost L (fun _ => True) (-6 * W) (2 * W) (readCpMethodhandleT pool) := by
  have hw := r.work
  refine Cost.bind (readCpRefAny_cost r) (by omega) fun e he => ?_
  cases e <;> dsimp only <;> cost

theorem readCpMemberrefT_cost (a : UInt32) : Cost L (fun _ => True) (-6 * W) (2 * W) (readCpMemberrefT pool a) := by
  have hw := r.work
  refine Cost.bind (readCpRefAny_cost r) (by omega) fun e he => Cost.bind (Cost.free r) (by omega) fun _ _ => ?_
  cases e <;> dsimp only <;> cost

theorem readCpBootstrapArgumentT_cost : Cost L (fun _ => True) (-6 * W) (2 * W) (readCpBootstrapArgumentT pool) := by
  unfold readCpBootstrapArgumentT
  cost

theorem readCpObjectArrayTypeT_cost : Cost L (fun _ => True) (-6 * W) (4 * W) (readCpObjectArrayTypeT pool) := by
  have hw := r.work
  refine Cost.bind (readCpRefAny_cost r) (by omega) fun e he => ?_
  cases e with
  | classInfo x =>
    refine Cost.bind (peelUtf8T_cost r x) (by omega) fun s hs => Cost.bind (parseArrayDescriptorT_cost r hs) (by omega) fun d _ => ?_
    cases d <;> dsimp only <;> cost
  | _ => dsimp only; cost

end

macro_rules | `(tactic| costh) => `(tactic| with_reducible exact readCpUtf8T_cost (by assumption))
macro_rules | `(tactic| costh) => `(tactic| with_reducible exact readCpUtf8OptT_cost (by assumption))
macro_rules | `(tactic| costh) => `(tactic| with_reducible exact readCpClassinfoOptT_cost (by assumption))
macro_rules | `(tactic| costh) => `(tactic| with_reducible exact readCpClassinfoT_cost (by assumption))
macro_rules | `(tactic| costh) => `(tactic| with_reducible exact readCpModuleinfoT_cost (by assumption))
macro_rules | `(tactic| costh) => `(tactic| with_reducible exact readCpPackageinfoT_cost (by assumption))
macro_rules | `(tactic| costh) => `(tactic| with_reducible exact readCpNameandtypeOptT_cost (by assumption))
macro_rules | `(tactic| costh) => `(tactic| with_reducible exact readCpLiteralconstantT_cost (by assumption))
macro_rules | `(tactic| costh) => `(tactic| with_reducible exact readCpInvokedynamicT_cost (by assumption))
macro_rules | `(tactic| costh) => `(tactic| with_reducible exact readCpMethodhandleT_cost (by assumption))
macro_rules | `(tactic| costh) => `(tactic| with_reducible exact readCpBootstrapArgumentT_cost (by assumption))
macro_rules | `(tactic| costh) => `(tactic| with_reducible exact readCpObjectArrayTypeT_cost (by assumption))
macro_rules | `(tactic| costh) => `(tactic| with_reducible exact readCpMemberrefT_cost (by assumption) _)

end Cafebabe
