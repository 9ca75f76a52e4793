import Lean.Elab.Tactic
import Verif.Spec.Width
/-!
# Proofs: readers in a `usize` of `w` bits compared with unbounded indices
-/

namespace Cafebabe

/-- A reader that succeeds moves the index forward and stays within the input. -/
def Stays {α : Type} (p : P α) : Prop :=
  ∀ (bytes : Bytes) (ix : Nat), ix ≤ bytes.length → ∀ a ix', p bytes ix = .ok (a, ix') → ix ≤ ix' ∧ ix' ≤ bytes.length

theorem Stays.of_none {α : Type} {p : P α} (h : ∀ bytes ix x, p bytes ix ≠ .ok x) : Stays p := fun _ _ _ _ _ h' => absurd h' (h _ _ _)

theorem Stays.of_here {α : Type} {p : P α} (h : ∀ bytes ix a ix', p bytes ix = .ok (a, ix') → ix' = ix) : Stays p :=
  fun _ _ hix _ _ h' => by rw [h _ _ _ _ h']; exact ⟨Nat.le_refl _, hix⟩

theorem Stays.pure {α : Type} (a : α) : Stays (Pure.pure a : P α) := .of_here fun _ _ _ _ h => by cases h; rfl
theorem Stays.fail {α : Type} {m : String} : Stays (P.fail m : P α) := .of_none fun _ _ _ h => by cases h
theorem Stays.diverge {α : Type} : Stays (P.diverge : P α) := .of_none fun _ _ _ h => by cases h
theorem Stays.getIx : Stays P.getIx := .of_here fun _ _ _ _ h => by cases h; rfl

theorem Stays.lift {α : Type} (r : Res α) : Stays (P.lift r) := .of_here fun _ _ _ _ h => by
  unfold P.lift at h; cases r <;> cases h; rfl

theorem Stays.bind {α β : Type} {p : P α} {f : α → P β} (h : Stays p) (hf : ∀ a, Stays (f a)) : Stays (p >>= f) := by
  intro bytes ix hix b ix' hb
  replace hb : P.bind p f bytes ix = .ok (b, ix') := hb
  unfold P.bind at hb
  cases hp : p bytes ix with
  | ok x =>
    rw [hp] at hb
    have h1 := h bytes ix hix x.1 x.2 hp
    have h2 := hf x.1 bytes x.2 h1.2 b ix' hb
    omega
  | err e => rw [hp] at hb; cases hb
  | panic k => rw [hp] at hb; cases hb
  | diverge => rw [hp] at hb; cases hb

theorem Stays.mapErr {α : Type} {p : P α} (h : Stays p) (c : String) : Stays (p.mapErr c) := by
  intro bytes ix hix b ix' hb
  unfold P.mapErr Res.mapErr at hb
  cases hp : p bytes ix <;> rw [hp] at hb <;> cases hb
  exact h bytes ix hix _ _ hp

theorem Stays.failCtx {α : Type} {m c : String} : Stays (P.failCtx m c : P α) := Stays.mapErr Stays.fail c

theorem Stays.failIf {b : Bool} {m : String} : Stays (P.failIf b m) := by
  unfold P.failIf
  cases b
  · exact Stays.pure ()
  · exact Stays.fail

theorem Stays.okOr {α : Type} {o : Option α} {m : String} : Stays (P.okOr o m) := by
  unfold P.okOr
  cases o with
  | none => exact Stays.fail
  | some a => exact Stays.pure a

theorem Stays.ite {α : Type} {c : Prop} {ic : Decidable c} {p p' : P α} (h : Stays p) (h' : Stays p') : Stays (if c then p else p') := by
  split <;> assumption

theorem Stays.forRangeFrom {α : Type} {f : Nat → P α} (h : ∀ i, Stays (f i)) : ∀ n i, Stays (P.forRangeFrom f i n)
  | 0, _ => Stays.pure _
  | n + 1, i => Stays.bind (h i) fun _ => Stays.bind (Stays.forRangeFrom h n (i + 1)) fun _ => Stays.pure _

theorem Stays.forRange {α : Type} {f : Nat → P α} (h : ∀ i, Stays (f i)) (n : Nat) : Stays (P.forRange n f) := Stays.forRangeFrom h n 0

theorem Res.bind_eq_ok {α β : Type} {r : Res α} {f : α → Res β} {b : β} (h : (r >>= f) = .ok b) : ∃ a, r = .ok a ∧ f a = .ok b := by
  cases r with
  | ok a => exact ⟨a, rfl, h⟩
  | err e => cases h
  | panic k => cases h
  | diverge => cases h

theorem Stays.readU1 : Stays readU1 := by
  intro bytes ix hix a ix' h
  unfold Cafebabe.readU1 at h
  split at h
  · cases h
  · obtain ⟨_, -, h⟩ := Res.bind_eq_ok h
    cases h
    omega

theorem Stays.readU2 : Stays readU2 := by
  intro bytes ix hix a ix' h
  unfold Cafebabe.readU2 at h
  split at h
  · cases h
  · obtain ⟨_, -, h⟩ := Res.bind_eq_ok h
    obtain ⟨_, -, h⟩ := Res.bind_eq_ok h
    cases h
    omega

theorem Stays.readU4 : Stays readU4 := by
  intro bytes ix hix a ix' h
  unfold Cafebabe.readU4 at h
  split at h
  · cases h
  · iterate 4 obtain ⟨_, -, h⟩ := Res.bind_eq_ok h
    cases h
    omega

theorem Stays.readU8 : Stays readU8 := by
  intro bytes ix hix a ix' h
  unfold Cafebabe.readU8 at h
  split at h
  · cases h
  · iterate 8 obtain ⟨_, -, h⟩ := Res.bind_eq_ok h
    cases h
    omega

theorem sliceBytes_eq_ok {bytes s : Bytes} {i j : Nat} (h : sliceBytes bytes i j = .ok s) : i ≤ j ∧ j ≤ bytes.length := by
  unfold sliceBytes at h
  split at h
  · assumption
  · cases h

theorem Stays.takeSlice {n : Nat} : Stays (takeSlice n) := by
  intro bytes ix hix a ix' h
  unfold Cafebabe.takeSlice at h
  obtain ⟨s, hs, h⟩ := Res.bind_eq_ok h
  cases h
  exact sliceBytes_eq_ok hs

theorem Stays.takeBytes {n : Nat} {m : String} : Stays (takeBytes n m) := by
  intro bytes ix hix a ix' h
  unfold Cafebabe.takeBytes at h
  split at h
  · cases h
  · obtain ⟨s, hs, h⟩ := Res.bind_eq_ok h
    cases h
    exact sliceBytes_eq_ok hs

theorem Stays.checkAtEnd : Stays checkAtEnd := .of_here fun bytes ix a ix' h => by
  unfold Cafebabe.checkAtEnd at h
  split at h <;> cases h
  rfl

/-- One step of a straight-line reader, chosen by the head of the reader. -/
syntax "stays1" : tactic

open Lean Elab Tactic Meta in
elab_rules : tactic
  | `(tactic| stays1) => withMainContext do
    let t ← instantiateMVars (← (← getMainGoal).getType)
    let p := t.consumeMData.appArg!.consumeMData
    let run (s : TSyntax `tactic) : TacticM Unit := evalTactic s
    match p.getAppFn.constName? with
    | some ``Pure.pure => run (← `(tactic| exact Stays.pure _))
    | some ``P.fail => run (← `(tactic| exact Stays.fail))
    | some ``badType => run (← `(tactic| exact Stays.fail))
    | some ``P.failCtx => run (← `(tactic| exact Stays.failCtx))
    | some ``P.getIx => run (← `(tactic| exact Stays.getIx))
    | some ``readU1 => run (← `(tactic| exact Stays.readU1))
    | some ``readU2 => run (← `(tactic| exact Stays.readU2))
    | some ``readU4 => run (← `(tactic| exact Stays.readU4))
    | some ``readU8 => run (← `(tactic| exact Stays.readU8))
    | some ``takeBytes => run (← `(tactic| exact Stays.takeBytes))
    | some ``takeSlice => run (← `(tactic| exact Stays.takeSlice))
    | some ``checkAtEnd => run (← `(tactic| exact Stays.checkAtEnd))
    | some ``P.failIf => run (← `(tactic| exact Stays.failIf))
    | some ``P.okOr => run (← `(tactic| exact Stays.okOr))
    | some ``P.lift => run (← `(tactic| exact Stays.lift _))
    | some ``P.diverge => run (← `(tactic| exact Stays.diverge))
    | some ``P.mapErr => run (← `(tactic| refine Stays.mapErr ?_ _))
    | some ``Bind.bind => run (← `(tactic| refine Stays.bind ?_ fun _ => ?_))
    | some ``_root_.ite => run (← `(tactic| refine Stays.ite ?_ ?_))
    | some ``P.forRange => run (← `(tactic| refine Stays.forRange (fun _ => ?_) _))
    | some n =>
      if (← getMatcherInfo? n).isSome then run (← `(tactic| split))
      else run (← `(tactic| first | with_reducible assumption | (unfold $(mkIdent n); try dsimp only)))
    | none => run (← `(tactic| with_reducible assumption))

macro "stays" : tactic => `(tactic| repeat' stays1)

theorem readConstant_stays (env : Env) (major : UInt16) (t : UInt8) : Stays (readConstant env major t) := by
  stays

theorem constantPoolLoop_stays (env : Env) (major count : UInt16) : ∀ fuel cpIx, Stays (constantPoolLoop env major count fuel cpIx)
  | 0, _ => by unfold constantPoolLoop; exact Stays.diverge
  | n + 1, _ => by
    have ih := constantPoolLoop_stays env major count n
    unfold constantPoolLoop
    refine Stays.ite (Stays.bind Stays.readU1 fun _ => Stays.bind (readConstant_stays _ _ _) fun _ => Stays.bind (Stays.lift _) fun _ =>
      Stays.ite (Stays.bind (Stays.lift _) fun _ => Stays.bind (ih _) fun _ => Stays.pure _) (Stays.bind (ih _) fun _ => Stays.pure _)) (Stays.pure _)

theorem readConstantPool_stays (env : Env) (major : UInt16) : Stays (readConstantPool env major) := by
  unfold readConstantPool readRawPool
  refine Stays.bind (Stays.bind Stays.readU2 fun count => Stays.bind (fun bytes ix => ?_) fun _ => Stays.pure _) fun _ => Stays.bind (Stays.lift _) fun _ =>
    Stays.bind (Stays.lift _) fun _ => Stays.pure _
  exact constantPoolLoop_stays env major count _ _ bytes ix

theorem readAnnotationElementValue_stays (pool : Pool) : ∀ d, Stays (readAnnotationElementValue pool d)
  | 0 => Stays.diverge
  | d + 1 => by
    have ih := readAnnotationElementValue_stays pool d
    unfold readAnnotationElementValue readElementValueWith readElementValueBody
    stays

theorem readAnnotation_stays (pool : Pool) (d : Nat) : Stays (readAnnotation pool d) := by
  have ih := readAnnotationElementValue_stays pool d
  unfold readAnnotation
  stays



open Spec

def NarrowAt {α : Type} (w : Nat) (checks : Bool) (p q : P α) (bytes : Bytes) (ix : Nat) : Prop :=
  (p bytes ix = q bytes ix ∧ ∀ a ix', p bytes ix = .ok (a, ix') → ix ≤ ix' ∧ ix' ≤ bytes.length) ∨
    Wrapped w checks bytes (p bytes ix) (q bytes ix)

/-- `p` is the reader in `w` bits, `q` the one with unbounded indices. -/
def Narrow {α : Type} (w : Nat) (checks : Bool) (p q : P α) : Prop :=
  ∀ (bytes : Bytes) (ix : Nat), bytes.length < 2 ^ w → ix ≤ bytes.length → NarrowAt w checks p q bytes ix

section
variable {w : Nat} {checks : Bool}

theorem Stays.narrow {α : Type} {p : P α} (h : Stays p) : Narrow w checks p p := fun bytes ix _ hix => .inl ⟨rfl, h bytes ix hix⟩

theorem NarrowAt.bind {α β : Type} {p q : P α} {f g : α → P β} {bytes : Bytes} {ix : Nat} (h : NarrowAt w checks p q bytes ix)
    (hf : ∀ a ix', ix ≤ ix' → ix' ≤ bytes.length → q bytes ix = .ok (a, ix') → NarrowAt w checks (f a) (g a) bytes ix') :
    NarrowAt w checks (p >>= f) (q >>= g) bytes ix := by
  show (P.bind p f bytes ix = P.bind q g bytes ix ∧ ∀ a ix', P.bind p f bytes ix = .ok (a, ix') → _) ∨
    Wrapped w checks bytes (P.bind p f bytes ix) (P.bind q g bytes ix)
  unfold P.bind
  rcases h with ⟨h1, h2⟩ | ⟨h1, ⟨e, h2⟩, h3, h4⟩
  · rw [← h1]
    cases hp : p bytes ix with
    | ok x =>
      obtain ⟨h5, h6⟩ := h2 x.1 x.2 hp
      rcases hf x.1 x.2 h5 h6 (by rw [← h1, hp]) with ⟨h7, h8⟩ | h7
      · exact .inl ⟨h7, fun a ix' h => ⟨Nat.le_trans h5 (h8 a ix' h).1, (h8 a ix' h).2⟩⟩
      · exact .inr h7
    | err e => exact .inl ⟨rfl, fun _ _ h => by cases h⟩
    | panic k => exact .inl ⟨rfl, fun _ _ h => by cases h⟩
    | diverge => exact .inl ⟨rfl, fun _ _ h => by cases h⟩
  · right
    rw [h2]
    refine ⟨h1, ⟨e, rfl⟩, fun x hx => ?_, fun hc => ?_⟩
    · cases hp : p bytes ix with
      | ok x => exact h3 x hp
      | err e => rw [hp] at hx; cases hx
      | panic k => rw [hp] at hx; cases hx
      | diverge => rw [hp] at hx; cases hx
    · rw [h4 hc]

theorem Narrow.bind {α β : Type} {p q : P α} {f g : α → P β} (h : Narrow w checks p q) (hf : ∀ a, Narrow w checks (f a) (g a)) :
    Narrow w checks (p >>= f) (q >>= g) :=
  fun bytes ix hl hix => (h bytes ix hl hix).bind fun a ix' _ h' _ => hf a bytes ix' hl h'

theorem NarrowAt.mapErr {α : Type} {p q : P α} {bytes : Bytes} {ix : Nat} (h : NarrowAt w checks p q bytes ix) (c : String) :
    NarrowAt w checks (p.mapErr c) (q.mapErr c) bytes ix := by
  show ((p bytes ix).mapErr c = (q bytes ix).mapErr c ∧ ∀ a ix', (p bytes ix).mapErr c = .ok (a, ix') → _) ∨
    Wrapped w checks bytes ((p bytes ix).mapErr c) ((q bytes ix).mapErr c)
  rcases h with ⟨h1, h2⟩ | ⟨h1, ⟨e, h2⟩, h3, h4⟩
  · rw [← h1]
    refine .inl ⟨rfl, fun a ix' h => h2 a ix' ?_⟩
    cases hp : p bytes ix <;> rw [hp] at h <;> cases h
    rfl
  · right
    rw [h2]
    refine ⟨h1, ⟨_, rfl⟩, fun x hx => ?_, fun hc => ?_⟩
    · cases hp : p bytes ix <;> rw [hp] at hx <;> cases hx
      exact h3 _ hp
    · rw [h4 hc]; rfl

theorem Narrow.mapErr {α : Type} {p q : P α} (h : Narrow w checks p q) (c : String) : Narrow w checks (p.mapErr c) (q.mapErr c) :=
  fun bytes ix hl hix => (h bytes ix hl hix).mapErr c

theorem Narrow.forRangeFrom {α : Type} {f g : Nat → P α} (h : ∀ i, Narrow w checks (f i) (g i)) :
    ∀ n i, Narrow w checks (P.forRangeFrom f i n) (P.forRangeFrom g i n)
  | 0, _ => (Stays.pure _).narrow
  | n + 1, i => Narrow.bind (h i) fun _ => Narrow.bind (Narrow.forRangeFrom h n (i + 1)) fun _ => (Stays.pure _).narrow

theorem Narrow.readTable2 {α : Type} {f g : Nat → P α} (h : ∀ i, Narrow w checks (f i) (g i)) :
    Narrow w checks (readTable2 f) (readTable2 g) :=
  Narrow.bind Stays.readU2.narrow fun _ => Narrow.forRangeFrom h _ 0

/-- A sum that leaves `usize` wraps to less than either operand (`b` comes from four bytes). -/
theorem addUsize_cases (hw : 32 ≤ w) {a b : Nat} (ha : a < 2 ^ w) (hb : b < 2 ^ 32) :
    (a + b < 2 ^ w ∧ addUsize w checks a b = .ok (a + b)) ∨
      (2 ^ w ≤ a + b ∧ ((checks = true ∧ addUsize w checks a b = .panic .overflow) ∨
        (checks = false ∧ addUsize w checks a b = .ok (a + b - 2 ^ w) ∧ a + b - 2 ^ w < a))) := by
  unfold addUsize
  have hp : 2 ^ 32 ≤ 2 ^ w := Nat.pow_le_pow_right (by omega) hw
  by_cases h : a + b < 2 ^ w
  · rw [if_pos h]; exact .inl ⟨h, rfl⟩
  · rw [if_neg h]
    refine .inr ⟨by omega, ?_⟩
    cases checks
    · refine .inr ⟨rfl, ?_, by omega⟩
      have : (a + b) % 2 ^ w = a + b - 2 ^ w := by
        rw [Nat.mod_eq_sub_mod (by omega), Nat.mod_eq_of_lt (by omega)]
      simp [this]
    · exact .inl ⟨rfl, rfl⟩

theorem sliceBytes_back {bytes : Bytes} {i j : Nat} (h : j < i) : sliceBytes bytes i j = .panic .bounds := by
  unfold sliceBytes; rw [if_neg (by omega)]

theorem takeBytesW_narrow (hw : 32 ≤ w) {n : Nat} (hn : n < 2 ^ 32) {m : String} : Narrow w checks (takeBytesW w checks n m) (takeBytes n m) := by
  intro bytes ix hl hix
  rcases addUsize_cases (checks := checks) hw (a := ix) (b := n) (by omega) hn with ⟨h, he⟩ | ⟨h, hc⟩
  · refine .inl ?_
    have : takeBytesW w checks n m bytes ix = takeBytes n m bytes ix := by
      unfold takeBytesW takeBytes
      rw [he]
      rfl
    exact ⟨this, this ▸ Stays.takeBytes bytes ix hix⟩
  · refine .inr ⟨by omega, ⟨ParseError.new m, ?_⟩, ?_, ?_⟩
    · unfold takeBytes; rw [if_pos (by omega)]; rfl
    · rcases hc with ⟨-, hc⟩ | ⟨-, hc, hlt⟩
      · intro x hx
        unfold takeBytesW at hx; rw [hc] at hx; cases hx
      · intro x hx
        unfold takeBytesW at hx; rw [hc] at hx
        obtain ⟨y, hy, hx⟩ := Res.bind_eq_ok hx
        cases hy
        rw [if_neg (by omega)] at hx
        obtain ⟨y, hy, hx⟩ := Res.bind_eq_ok hx
        cases hy
        rw [sliceBytes_back hlt] at hx
        cases hx
    · rintro rfl
      rcases hc with ⟨-, hc⟩ | ⟨hc, -⟩
      · unfold takeBytesW; rw [hc]; rfl
      · cases hc

theorem takeSliceW_eq {n : Nat} {bytes : Bytes} {ix : Nat} (hl : bytes.length < 2 ^ w) (h : ix + n ≤ bytes.length) :
    takeSliceW w checks n bytes ix = takeSlice n bytes ix := by
  unfold takeSliceW takeSlice addUsize
  rw [if_pos (by omega)]
  rfl

theorem takeBackW_eq {n : Nat} {bytes : Bytes} {ix : Nat} (hl : bytes.length < 2 ^ w) (h : ix + n ≤ bytes.length) :
    takeBackW w checks n bytes ix = takeSlice n bytes ix := by
  unfold takeBackW takeSlice addUsize subUsize
  rw [if_pos (by omega)]
  show (do let i ← (if n ≤ ix + n then Res.ok (ix + n - n) else _); _) = _
  rw [if_pos (by omega), Nat.add_sub_cancel]
  rfl

/-- When the end check wrapped, the slice at the end of an unknown attribute is out of range. -/
theorem takeSliceW_wrap {n : Nat} {bytes : Bytes} {ix : Nat} (hw : 32 ≤ w) (hix : ix < 2 ^ w) (hn : n < 2 ^ 32) (h : 2 ^ w ≤ ix + n) :
    takeSliceW w checks n bytes ix = .panic (if checks then .overflow else .bounds) := by
  unfold takeSliceW
  rcases addUsize_cases (checks := checks) hw (a := ix) (b := n) (by omega) hn with ⟨h', -⟩ | ⟨-, ⟨rfl, hc⟩ | ⟨rfl, hc, hlt⟩⟩
  · omega
  · rw [hc]; rfl
  · rw [hc]
    show (sliceBytes bytes ix _ >>= _) = _
    rw [sliceBytes_back hlt]
    rfl

theorem takeBackW_wrap {n : Nat} {bytes : Bytes} {ix : Nat} (hw : 32 ≤ w) (hix : ix < 2 ^ w) (hn : n < 2 ^ 32) (h : 2 ^ w ≤ ix + n) :
    takeBackW w checks n bytes ix = .panic (if checks then .overflow else .bounds) := by
  unfold takeBackW
  rcases addUsize_cases (checks := checks) hw (a := ix) (b := n) (by omega) hn with ⟨h', -⟩ | ⟨-, ⟨rfl, hc⟩ | ⟨rfl, hc, hlt⟩⟩
  · omega
  · rw [hc]; rfl
  · have hp : 2 ^ 32 ≤ 2 ^ w := Nat.pow_le_pow_right (by omega) hw
    rw [hc]
    show (subUsize w false (ix + n - 2 ^ w) n >>= _) = _
    unfold subUsize
    rw [if_neg (by omega), if_neg (by simp), show ix + n - 2 ^ w + 2 ^ w - n = ix from by omega, Nat.mod_eq_of_lt hix]
    show (sliceBytes bytes ix _ >>= _) = _
    rw [sliceBytes_back hlt]
    rfl

theorem readCodeDataWithW_narrow (hw : 32 ≤ w) {env : Env} {rec rec' : P (List AttributeInfo)} {pool : Pool}
    (h : Narrow w env.overflowChecks rec rec') : Narrow w env.overflowChecks (readCodeDataWithW w env rec pool) (readCodeDataWith env rec' pool) := by
  unfold readCodeDataWithW readCodeDataWith
  refine Narrow.bind Stays.readU2.narrow fun _ => Narrow.bind Stays.readU2.narrow fun _ => Narrow.bind Stays.readU4.narrow fun n =>
    Narrow.bind Stays.getIx.narrow fun _ => Narrow.bind (takeBytesW_narrow hw n.toNat_lt) fun _ => Narrow.bind ?_ fun _ =>
    Narrow.bind (h.mapErr _) fun _ => ?_
  · exact Stays.narrow (by stays)
  · dsimp only
    exact Stays.narrow (by stays)

/-- The kinds of attribute whose contents are a slice of the declared length. -/
def sliceKind : AttrKind → Bool
  | .sourceDebugExtension => true
  | .other => true
  | _ => false

theorem readAttributeDataW_narrow (hw : 32 ≤ w) {env : Env} {d : Nat} {rec rec' : P (List AttributeInfo)} {pool : Pool} {i n : Nat} {k : AttrKind}
    (h : Narrow w env.overflowChecks rec rec') (hk : sliceKind k = false) :
    Narrow w env.overflowChecks (readAttributeDataW w env d rec pool i n k) (readAttributeData env d rec' pool i n k) := by
  have ha := readAnnotation_stays pool d
  have hv := readAnnotationElementValue_stays pool d
  cases k
  case code =>
    unfold readAttributeDataW readAttributeData
    exact Narrow.bind (Narrow.mapErr (readCodeDataWithW_narrow hw h) _) fun _ => (Stays.pure _).narrow
  case record =>
    unfold readAttributeDataW readAttributeData readRecordDataWith readRecordComponentWith
    refine Narrow.bind (Narrow.mapErr (Narrow.readTable2 fun i => ?_) _) fun _ => (Stays.pure _).narrow
    refine Narrow.bind (Stays.narrow ?_) fun _ => Narrow.bind (Stays.narrow ?_) fun _ => Narrow.bind (Stays.narrow ?_) fun _ =>
      Narrow.bind (h.mapErr _) fun _ => (Stays.pure _).narrow
    all_goals stays
  case sourceDebugExtension => cases hk
  case other => cases hk
  all_goals
    unfold readAttributeDataW readAttributeData
    dsimp only
    refine Stays.narrow ?_
    stays

theorem readAttributeDataW_slice {env : Env} {d : Nat} {rec rec' : P (List AttributeInfo)} {pool : Pool} {i n : Nat} {k : AttrKind}
    (hk : sliceKind k = true) {bytes : Bytes} {ix : Nat} (hl : bytes.length < 2 ^ w) (hix : ix + n ≤ bytes.length) :
    NarrowAt w env.overflowChecks (readAttributeDataW w env d rec pool i n k) (readAttributeData env d rec' pool i n k) bytes ix := by
  have hs := Stays.takeSlice (n := n) bytes ix (by omega)
  cases k <;> first | cases hk; done | skip
  · unfold readAttributeDataW readAttributeData
    refine NarrowAt.bind (.inl ?_) fun a ix' _ h' _ => ?_
    · rw [takeSliceW_eq hl hix]; exact ⟨rfl, hs⟩
    · refine Stays.narrow ?_ bytes ix' hl h'
      stays
  · unfold readAttributeDataW readAttributeData
    refine NarrowAt.bind (.inl ?_) fun a ix' _ h' _ => ?_
    · rw [takeBackW_eq hl hix]; exact ⟨rfl, hs⟩
    · exact Stays.narrow (Stays.pure _) bytes ix' hl h'

theorem readAttributeDataW_wrap (hw : 32 ≤ w) {env : Env} {d : Nat} {rec : P (List AttributeInfo)} {pool : Pool} {i n : Nat} {k : AttrKind}
    (hk : sliceKind k = true) {bytes : Bytes} {ix : Nat} (hix : ix < 2 ^ w) (hn : n < 2 ^ 32) (h : 2 ^ w ≤ ix + n) :
    readAttributeDataW w env d rec pool i n k bytes ix = .panic (if env.overflowChecks then .overflow else .bounds) := by
  cases k <;> first | cases hk; done | skip
  · unfold readAttributeDataW
    show P.bind _ _ _ _ = _
    unfold P.bind
    rw [takeSliceW_wrap hw hix hn h]
  · unfold readAttributeDataW
    show P.bind _ _ _ _ = _
    unfold P.bind
    rw [takeBackW_wrap hw hix hn h]

theorem readAttributeWithW_narrow (hw : 32 ≤ w) {env : Env} {d : Nat} {rec rec' : P (List AttributeInfo)} {pool : Pool} {i : Nat}
    (h : Narrow w env.overflowChecks rec rec') :
    Narrow w env.overflowChecks (readAttributeWithW w env d rec pool i) (readAttributeWith env d rec' pool i) := by
  unfold readAttributeWithW readAttributeWith
  refine Narrow.bind (Stays.narrow (by stays)) fun name => Narrow.bind Stays.readU4.narrow fun n => ?_
  intro bytes ix hl hix
  rcases addUsize_cases (checks := env.overflowChecks) hw (a := ix) (b := n.toNat) (by omega) n.toNat_lt with ⟨hlt, he⟩ | ⟨hge, hc⟩
  · refine NarrowAt.bind (.inl ?_) fun e ix' _ h' hq => ?_
    · have : checkEndW w env.overflowChecks n.toNat bytes ix = checkEnd n.toNat bytes ix := by
        unfold checkEndW checkEnd; rw [he]; rfl
      rw [this]
      refine ⟨rfl, fun a ix' h => ?_⟩
      unfold checkEnd at h
      split at h <;> cases h
      omega
    · unfold checkEnd at hq
      split at hq <;> cases hq
      refine NarrowAt.bind ?_ fun _ ix'' _ h'' _ => Stays.narrow (by stays) bytes ix'' hl h''
      cases hk : sliceKind (attrKindOf name) with
      | true => exact readAttributeDataW_slice hk hl (by omega)
      | false => exact readAttributeDataW_narrow hw h hk bytes ix hl hix
  · right
    have hq : ∃ e, checkEnd n.toNat bytes ix = .err e := ⟨_, by unfold checkEnd; rw [if_pos (by omega)]; rfl⟩
    obtain ⟨e, hq⟩ := hq
    refine ⟨by have := n.toNat_lt; omega, ⟨e, ?_⟩, ?_, ?_⟩
    · show P.bind _ _ _ _ = _
      unfold P.bind
      rw [hq]
    · intro x hx
      replace hx : P.bind (checkEndW w env.overflowChecks n.toNat) _ bytes ix = .ok x := hx
      rcases hc with ⟨-, hc⟩ | ⟨-, hc, hlt⟩
      · unfold P.bind checkEndW at hx; rw [hc] at hx; cases hx
      · have hce : checkEndW w env.overflowChecks n.toNat bytes ix = .ok (ix + n.toNat - 2 ^ w, ix) := by
          unfold checkEndW; rw [hc]
          show (if _ then _ else _) = _
          rw [if_neg (by omega)]
        unfold P.bind at hx
        rw [hce] at hx
        replace hx : P.bind (readAttributeDataW w env d rec pool i n.toNat (attrKindOf name)) _ bytes ix = .ok x := hx
        unfold P.bind at hx
        cases hk : sliceKind (attrKindOf name) with
        | true =>
          rw [readAttributeDataW_wrap hw hk (by omega) n.toNat_lt hge] at hx
          cases hx
        | false =>
          rcases readAttributeDataW_narrow hw (d := d) (pool := pool) (i := i) (n := n.toNat) h hk bytes ix hl hix with ⟨-, h2⟩ | ⟨-, -, h3, -⟩
          · cases hp : readAttributeDataW w env d rec pool i n.toNat (attrKindOf name) bytes ix with
            | ok y =>
              rw [hp] at hx
              have := h2 y.1 y.2 hp
              replace hx : (if ix + n.toNat - 2 ^ w ≠ y.2 then P.fail _ else pure _ : P AttributeInfo) bytes y.2 = .ok x := hx
              rw [if_pos (by omega)] at hx
              cases hx
            | err e => rw [hp] at hx; cases hx
            | panic k => rw [hp] at hx; cases hx
            | diverge => rw [hp] at hx; cases hx
          · cases hp : readAttributeDataW w env d rec pool i n.toNat (attrKindOf name) bytes ix with
            | ok y => exact h3 y hp
            | err e => rw [hp] at hx; cases hx
            | panic k => rw [hp] at hx; cases hx
            | diverge => rw [hp] at hx; cases hx
    · intro hcc
      rcases hc with ⟨-, hc⟩ | ⟨hc, -⟩
      · show P.bind _ _ _ _ = _
        unfold P.bind checkEndW
        rw [hc]
        rfl
      · rw [hcc] at hc; cases hc

theorem readAttributesW_narrow (hw : 32 ≤ w) (env : Env) (pool : Pool) :
    ∀ d, Narrow w env.overflowChecks (readAttributesW w env pool d) (readAttributes env pool d)
  | 0 => Stays.diverge.narrow
  | d + 1 => Narrow.readTable2 fun _ => readAttributeWithW_narrow hw (readAttributesW_narrow hw env pool d)

theorem readFieldsFromW_narrow (hw : 32 ≤ w) (env : Env) (pool : Pool) : ∀ n seen i,
    Narrow w env.overflowChecks (readFieldsFromW w env pool seen i n) (readFieldsFrom env pool seen i n)
  | 0, _, _ => (Stays.pure _).narrow
  | n + 1, seen, i => by
    have ih := readFieldsFromW_narrow hw env pool n
    have ha := readAttributesW_narrow hw env pool env.depth
    unfold readFieldsFromW readFieldsFrom
    refine Narrow.bind ?_ fun _ => Narrow.bind (ih _ _) fun _ => (Stays.pure _).narrow
    unfold readFieldW readField
    refine Narrow.bind (Stays.narrow ?_) fun _ => Narrow.bind (Stays.narrow ?_) fun _ => Narrow.bind (Stays.narrow ?_) fun _ =>
      Narrow.bind (Stays.narrow ?_) fun _ => Narrow.bind (Stays.narrow ?_) fun _ => Narrow.bind (Stays.narrow ?_) fun _ =>
      Narrow.bind (ha.mapErr _) fun _ => (Stays.pure _).narrow
    all_goals stays

theorem readMethodsFromW_narrow (hw : 32 ≤ w) (env : Env) (pool : Pool) (ii : Bool) (major : UInt16) : ∀ n seen i,
    Narrow w env.overflowChecks (readMethodsFromW w env pool ii major seen i n) (readMethodsFrom env pool ii major seen i n)
  | 0, _, _ => (Stays.pure _).narrow
  | n + 1, seen, i => by
    have ih := readMethodsFromW_narrow hw env pool ii major n
    have ha := readAttributesW_narrow hw env pool env.depth
    unfold readMethodsFromW readMethodsFrom
    refine Narrow.bind ?_ fun _ => Narrow.bind (ih _ _) fun _ => (Stays.pure _).narrow
    unfold readMethodW readMethod
    dsimp only
    refine Narrow.bind (Stays.narrow ?_) fun _ => Narrow.bind (Stays.narrow ?_) fun _ => Narrow.bind (Stays.narrow ?_) fun _ =>
      Narrow.bind (Stays.narrow ?_) fun _ => Narrow.bind (Stays.narrow ?_) fun _ => Narrow.bind (Stays.narrow ?_) fun _ =>
      Narrow.bind (Stays.narrow ?_) fun _ => Narrow.bind (Stays.narrow ?_) fun _ =>
      Narrow.bind (ha.mapErr _) fun _ => (Stays.pure _).narrow
    all_goals stays

theorem readFieldsW_narrow (hw : 32 ≤ w) (env : Env) (pool : Pool) :
    Narrow w env.overflowChecks (readFieldsW w env pool) (readFields env pool) :=
  Narrow.bind Stays.readU2.narrow fun _ => readFieldsFromW_narrow hw env pool _ _ _

theorem readMethodsW_narrow (hw : 32 ≤ w) (env : Env) (pool : Pool) (ii : Bool) (major : UInt16) :
    Narrow w env.overflowChecks (readMethodsW w env pool ii major) (readMethods env pool ii major) :=
  Narrow.bind Stays.readU2.narrow fun _ => readMethodsFromW_narrow hw env pool ii major _ _ _

theorem readClassFileW_narrow (hw : 32 ≤ w) (env : Env) : Narrow w env.overflowChecks (readClassFileW w env) (readClassFile env) := by
  unfold readClassFileW readClassFile
  refine Narrow.bind (Stays.narrow ?_) fun _ => Narrow.bind (Stays.narrow ?_) fun _ => Narrow.bind (Stays.narrow ?_) fun _ =>
    Narrow.bind (Stays.narrow ?_) fun _ => Narrow.bind (readConstantPool_stays _ _).narrow fun pool => Narrow.bind (Stays.narrow ?_) fun _ => ?_
  all_goals try stays
  dsimp only
  refine Narrow.bind (Stays.narrow ?_) fun _ => Narrow.bind (Stays.narrow ?_) fun _ => Narrow.bind (Stays.narrow ?_) fun _ =>
    Narrow.bind (Stays.narrow ?_) fun _ => Narrow.bind (readFieldsW_narrow hw env pool) fun _ => Narrow.bind (readMethodsW_narrow hw env pool _ _) fun _ =>
    Narrow.bind ((readAttributesW_narrow hw env pool _).mapErr _) fun _ => Stays.narrow ?_
  all_goals stays

theorem runOn_narrow (hw : 32 ≤ w) (o : Opts) (d : Nat) (bytes : Bytes) (hl : bytes.length < 2 ^ w) :
    runOn w o d bytes = run o d bytes ∨ Wrapped w o.checks bytes (runOn w o d bytes) (run o d bytes) := by
  unfold runOn run parseClassWithOptionsW parseClassWithOptions
  generalize he : ({ decode := o.decode, overflowChecks := o.checks, depth := d, parseBytecode := o.parseBytecode } : Env) = env
  have hc : o.checks = env.overflowChecks := by rw [← he]
  rw [hc]
  rcases readClassFileW_narrow hw env bytes 0 hl (Nat.zero_le _) with ⟨h, -⟩ | ⟨h1, ⟨e, h2⟩, h3, h4⟩
  · rw [h]; exact .inl rfl
  · right
    rw [h2]
    refine ⟨h1, ⟨e, rfl⟩, fun x hx => ?_, fun h => ?_⟩
    · obtain ⟨y, hy, -⟩ := Res.bind_eq_ok hx
      exact h3 y hy
    · rw [h4 h]; rfl

end

end Cafebabe
