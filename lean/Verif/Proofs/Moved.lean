import Lean.Elab.Tactic
import Verif.Model.ClassFile
import Verif.Spec.Moved
/-!
# Proofs: readers do not depend on the bytes before their start
-/

namespace Cafebabe
open Spec

/-- Two readers, the second started `before.length` bytes later in longer input. -/
def Moved {α : Type} (before : Bytes) (p q : P α) : Prop :=
  ∀ bytes ix, MovedOutcome before.length (p bytes ix) (q (before ++ bytes) (before.length + ix))

section
variable {before : Bytes}

theorem Moved.pure {α : Type} (a : α) : Moved before (Pure.pure a : P α) (Pure.pure a) := fun _ ix => .ok a ix

theorem Moved.fail {α : Type} {m m' : String} : Moved before (P.fail m : P α) (P.fail m') := fun _ _ => .err _ _ _

theorem Moved.diverge {α : Type} : Moved before (P.diverge : P α) P.diverge := fun _ _ => .diverge

theorem Moved.bindRel {α β : Type} {p q : P α} {f g : α → P β} {R : α → α → Prop}
    (h : ∀ bytes ix, (∃ a b k, p bytes ix = .ok (a, k) ∧ q (before ++ bytes) (before.length + ix) = .ok (b, before.length + k) ∧ R a b) ∨
      (∀ a k, p bytes ix ≠ .ok (a, k)) ∧ MovedOutcome before.length (p bytes ix) (q (before ++ bytes) (before.length + ix)))
    (hf : ∀ a b, R a b → Moved before (f a) (g b)) : Moved before (p >>= f) (q >>= g) := by
  intro bytes ix
  show MovedOutcome _ (P.bind p f bytes ix) (P.bind q g _ _)
  unfold P.bind
  rcases h bytes ix with ⟨a, b, k, h1, h2, h3⟩ | ⟨h1, h2⟩
  · rw [h1, h2]; exact hf a b h3 bytes k
  · generalize p bytes ix = r at h1 h2
    generalize q (before ++ bytes) (before.length + ix) = s at h2
    cases h2 with
    | ok a k => exact absurd rfl (h1 a k)
    | err m m' c => exact .err _ _ _
    | panic k => exact .panic k
    | diverge => exact .diverge

theorem Moved.bind {α β : Type} {p q : P α} {f g : α → P β} (h : Moved before p q) (hf : ∀ a, Moved before (f a) (g a)) :
    Moved before (p >>= f) (q >>= g) := by
  refine Moved.bindRel (R := Eq) (fun bytes ix => ?_) fun a b hab => hab ▸ hf a
  have := h bytes ix
  generalize p bytes ix = r at this ⊢
  generalize q (before ++ bytes) (before.length + ix) = s at this ⊢
  cases this with
  | ok a k => exact .inl ⟨a, a, k, rfl, rfl, rfl⟩
  | err m m' c => exact .inr ⟨fun _ _ h => (by cases h), .err _ _ _⟩
  | panic k => exact .inr ⟨fun _ _ h => (by cases h), .panic _⟩
  | diverge => exact .inr ⟨fun _ _ h => (by cases h), .diverge⟩

theorem Moved.getIx {β : Type} {f g : Nat → P β} (hf : ∀ a, Moved before (f a) (g (before.length + a))) :
    Moved before (P.getIx >>= f) (P.getIx >>= g) :=
  Moved.bindRel (R := fun a b => b = before.length + a) (fun _ ix => .inl ⟨ix, _, ix, rfl, rfl, rfl⟩) fun a _ h => h ▸ hf a

theorem Moved.mapErr {α : Type} {p q : P α} (h : Moved before p q) (c : String) : Moved before (p.mapErr c) (q.mapErr c) := by
  intro bytes ix
  unfold P.mapErr
  have := h bytes ix
  generalize p bytes ix = r at this ⊢
  generalize q (before ++ bytes) (before.length + ix) = s at this ⊢
  cases this with
  | ok a k => exact .ok a k
  | err m m' c => exact .err _ _ _
  | panic k => exact .panic k
  | diverge => exact .diverge

theorem Moved.failCtx {α : Type} {m c : String} : Moved before (P.failCtx m c : P α) (P.failCtx m c) := Moved.mapErr Moved.fail c

theorem Moved.lift {α : Type} (r : Res α) : Moved before (P.lift r) (P.lift r) := by
  intro bytes ix
  unfold P.lift
  cases r with
  | ok a => exact .ok a ix
  | err e => exact .err _ _ _
  | panic k => exact .panic k
  | diverge => exact .diverge

theorem Moved.failIf {b : Bool} {m : String} : Moved before (P.failIf b m) (P.failIf b m) := by
  unfold P.failIf
  cases b
  · exact Moved.pure ()
  · exact Moved.fail

theorem Moved.okOr {α : Type} {o : Option α} {m : String} : Moved before (P.okOr o m) (P.okOr o m) := by
  unfold P.okOr
  cases o with
  | none => exact Moved.fail
  | some a => exact Moved.pure a

theorem Moved.ite {α : Type} {c d : Prop} {ic : Decidable c} {id : Decidable d} {p q p' q' : P α} (hcd : c ↔ d) (h : c → Moved before p q)
    (h' : ¬ c → Moved before p' q') : Moved before (if c then p else p') (if d then q else q') := by
  by_cases hc : c
  · rw [if_pos hc, if_pos (hcd.mp hc)]; exact h hc
  · rw [if_neg hc, if_neg fun hd => hc (hcd.mpr hd)]; exact h' hc

theorem Moved.forRangeFrom {α : Type} {f g : Nat → P α} (h : ∀ i, Moved before (f i) (g i)) :
    ∀ n i, Moved before (P.forRangeFrom f i n) (P.forRangeFrom g i n)
  | 0, _ => Moved.pure _
  | n + 1, i => Moved.bind (h i) fun _ => Moved.bind (Moved.forRangeFrom h n (i + 1)) fun _ => Moved.pure _

theorem Moved.forRange {α : Type} {f g : Nat → P α} (h : ∀ i, Moved before (f i) (g i)) (n : Nat) :
    Moved before (P.forRange n f) (P.forRange n g) := Moved.forRangeFrom h n 0

theorem byteAt_moved (bytes : Bytes) (i : Nat) : byteAt (before ++ bytes) (before.length + i) = byteAt bytes i := by
  unfold byteAt
  rw [List.getElem?_append_right (by omega), Nat.add_sub_cancel_left]

theorem sliceBytes_moved (bytes : Bytes) (i j : Nat) :
    sliceBytes (before ++ bytes) (before.length + i) (before.length + j) = sliceBytes bytes i j := by
  unfold sliceBytes
  rw [List.length_append, List.drop_append, Nat.add_sub_cancel_left, List.drop_eq_nil_of_le (as := before) (by omega), List.nil_append, Nat.add_sub_add_left]
  by_cases h : i ≤ j ∧ j ≤ bytes.length
  · rw [if_pos h, if_pos ⟨by omega, by omega⟩]
  · rw [if_neg h, if_neg fun h' => h ⟨by omega, by omega⟩]

theorem byteAt_lt {bytes : Bytes} {i : Nat} (h : i < bytes.length) : byteAt bytes i = .ok bytes[i] := by
  unfold byteAt; rw [List.getElem?_eq_getElem h]

theorem Moved.readU1 : Moved before readU1 readU1 := by
  intro bytes ix
  unfold Cafebabe.readU1
  simp only [List.length_append, Nat.add_assoc, byteAt_moved]
  by_cases h : bytes.length < ix + 1
  · rw [if_pos h, if_pos (by omega)]; exact .err _ _ _
  · rw [if_neg h, if_neg (by omega), byteAt_lt (by omega)]; exact .ok _ _

theorem Moved.readU2 : Moved before readU2 readU2 := by
  intro bytes ix
  unfold Cafebabe.readU2
  simp only [List.length_append, Nat.add_assoc, byteAt_moved]
  by_cases h : bytes.length < ix + 2
  · rw [if_pos h, if_pos (by omega)]; exact .err _ _ _
  · rw [if_neg h, if_neg (by omega), byteAt_lt (by omega), byteAt_lt (by omega)]; exact .ok _ _

theorem Moved.readU4 : Moved before readU4 readU4 := by
  intro bytes ix
  unfold Cafebabe.readU4
  simp only [List.length_append, Nat.add_assoc, byteAt_moved]
  by_cases h : bytes.length < ix + 4
  · rw [if_pos h, if_pos (by omega)]; exact .err _ _ _
  · rw [if_neg h, if_neg (by omega), byteAt_lt (by omega), byteAt_lt (by omega), byteAt_lt (by omega), byteAt_lt (by omega)]; exact .ok _ _

theorem Moved.readU8 : Moved before readU8 readU8 := by
  intro bytes ix
  unfold Cafebabe.readU8
  simp only [List.length_append, Nat.add_assoc, byteAt_moved]
  by_cases h : bytes.length < ix + 8
  · rw [if_pos h, if_pos (by omega)]; exact .err _ _ _
  · rw [if_neg h, if_neg (by omega), byteAt_lt (by omega), byteAt_lt (by omega), byteAt_lt (by omega), byteAt_lt (by omega),
      byteAt_lt (by omega), byteAt_lt (by omega), byteAt_lt (by omega), byteAt_lt (by omega)]
    exact .ok _ _

theorem Moved.takeSlice {n : Nat} : Moved before (takeSlice n) (takeSlice n) := by
  intro bytes ix
  unfold Cafebabe.takeSlice
  rw [Nat.add_assoc, sliceBytes_moved]
  unfold sliceBytes
  split
  · exact .ok _ _
  · exact .panic _

theorem Moved.takeBytes {n : Nat} {m m' : String} : Moved before (takeBytes n m) (takeBytes n m') := by
  intro bytes ix
  unfold Cafebabe.takeBytes
  rw [Nat.add_assoc, sliceBytes_moved, List.length_append]
  by_cases h : bytes.length < ix + n
  · rw [if_pos h, if_pos (by omega)]; exact .err _ _ _
  · rw [if_neg h, if_neg (by omega)]
    unfold sliceBytes
    split
    · exact .ok _ _
    · exact .panic _

theorem Moved.checkAtEnd : Moved before checkAtEnd checkAtEnd := by
  intro bytes ix
  unfold Cafebabe.checkAtEnd
  rw [List.length_append]
  by_cases h : ix = bytes.length
  · rw [if_neg (by omega), if_neg (by omega)]; exact .ok _ _
  · rw [if_pos h, if_pos (by omega)]; exact .err _ _ _

theorem Moved.checkEnd {β : Type} {n : Nat} {f g : Nat → P β} (hf : ∀ a, Moved before (f a) (g (before.length + a))) :
    Moved before (checkEnd n >>= f) (checkEnd n >>= g) := by
  refine Moved.bindRel (R := fun a b => b = before.length + a) (fun bytes ix => ?_) fun a _ h => h ▸ hf a
  unfold Cafebabe.checkEnd
  rw [List.length_append]
  by_cases h : bytes.length < ix + n
  · right
    rw [if_pos h, if_pos (by omega)]
    exact ⟨fun _ _ h => (by cases h), .err _ _ _⟩
  · left
    rw [if_neg h, if_neg (by omega), Nat.add_assoc]
    exact ⟨_, _, ix, rfl, rfl, rfl⟩

end

/-- One step of a straight-line reader, chosen by the head of the reader. -/
syntax "moved1" : tactic

open Lean Elab Tactic Meta in
elab_rules : tactic
  | `(tactic| moved1) => withMainContext do
    let t ← instantiateMVars (← (← getMainGoal).getType)
    let p := t.consumeMData.appArg!.consumeMData
    let run (s : TSyntax `tactic) : TacticM Unit := evalTactic s
    match p.getAppFn.constName? with
    | some ``Pure.pure => run (← `(tactic| exact Moved.pure _))
    | some ``P.fail => run (← `(tactic| exact Moved.fail))
    | some ``badType => run (← `(tactic| exact Moved.fail))
    | some ``P.failCtx => run (← `(tactic| exact Moved.failCtx))
    | some ``readU1 => run (← `(tactic| exact Moved.readU1))
    | some ``readU2 => run (← `(tactic| exact Moved.readU2))
    | some ``readU4 => run (← `(tactic| exact Moved.readU4))
    | some ``readU8 => run (← `(tactic| exact Moved.readU8))
    | some ``takeBytes => run (← `(tactic| exact Moved.takeBytes))
    | some ``takeSlice => run (← `(tactic| exact Moved.takeSlice))
    | some ``checkAtEnd => run (← `(tactic| exact Moved.checkAtEnd))
    | some ``P.failIf => run (← `(tactic| exact Moved.failIf))
    | some ``P.okOr => run (← `(tactic| exact Moved.okOr))
    | some ``P.lift => run (← `(tactic| exact Moved.lift _))
    | some ``P.diverge => run (← `(tactic| exact Moved.diverge))
    | some ``P.mapErr => run (← `(tactic| refine Moved.mapErr ?_ _))
    | some ``Bind.bind =>
      if p.getAppArgs[4]!.isConstOf ``P.getIx then run (← `(tactic| refine Moved.getIx fun _ => ?_))
      else if p.getAppArgs[4]!.getAppFn.isConstOf ``checkEnd then run (← `(tactic| refine Moved.checkEnd fun _ => ?_))
      else run (← `(tactic| refine Moved.bind ?_ fun _ => ?_))
    | some ``_root_.ite => run (← `(tactic| refine Moved.ite Iff.rfl (fun _ => ?_) fun _ => ?_))
    | some ``P.forRange => run (← `(tactic| refine Moved.forRange (fun _ => ?_) _))
    | some n =>
      if (← getMatcherInfo? n).isSome then run (← `(tactic| split))
      else run (← `(tactic| first | with_reducible assumption | (unfold $(mkIdent n); try dsimp only)))
    | none => run (← `(tactic| with_reducible assumption))

macro "moved" : tactic => `(tactic| repeat' moved1)

section
variable {before : Bytes}

theorem readConstant_moved (env : Env) (major : UInt16) (t : UInt8) : Moved before (readConstant env major t) (readConstant env major t) := by
  moved

theorem readAnnotationElementValue_moved (pool : Pool) : ∀ d, Moved before (readAnnotationElementValue pool d) (readAnnotationElementValue pool d)
  | 0 => Moved.diverge
  | d + 1 => by
    have ih := readAnnotationElementValue_moved pool d
    unfold readAnnotationElementValue readElementValueWith readElementValueBody
    moved

theorem readAnnotation_moved (pool : Pool) (d : Nat) : Moved before (readAnnotation pool d) (readAnnotation pool d) := by
  have ih := readAnnotationElementValue_moved (before := before) pool d
  unfold readAnnotation
  moved

theorem readAttributeData_moved {env : Env} {d : Nat} {rec rec' : P (List AttributeInfo)} {pool : Pool} (h : Moved before rec rec')
    (i length : Nat) (k : AttrKind) : Moved before (readAttributeData env d rec pool i length k) (readAttributeData env d rec' pool i length k) := by
  have ha := readAnnotation_moved (before := before) pool d
  have hv := readAnnotationElementValue_moved (before := before) pool d
  cases k <;> unfold readAttributeData <;> dsimp only
  all_goals moved

theorem readAttributes_moved (env : Env) (pool : Pool) : ∀ d, Moved before (readAttributes env pool d) (readAttributes env pool d)
  | 0 => Moved.diverge
  | d + 1 => by
    have ih := readAttributes_moved env pool d
    unfold readAttributes readTable2
    refine Moved.bind Moved.readU2 fun _ => Moved.forRange (fun i => ?_) _
    unfold readAttributeWith
    refine Moved.bind (by moved) fun _ => Moved.bind Moved.readU4 fun _ => Moved.checkEnd fun _ =>
      Moved.bind (readAttributeData_moved ih _ _ _) fun _ => Moved.getIx fun _ => Moved.ite (by omega) (fun _ => Moved.fail) fun _ => Moved.pure _

theorem readFieldsFrom_moved (env : Env) (pool : Pool) : ∀ n seen i, Moved before (readFieldsFrom env pool seen i n) (readFieldsFrom env pool seen i n)
  | 0, _, _ => Moved.pure _
  | n + 1, seen, i => by
    have ih := readFieldsFrom_moved env pool n
    have ha := readAttributes_moved (before := before) env pool env.depth
    unfold readFieldsFrom
    refine Moved.bind ?_ fun _ => Moved.bind (ih _ _) fun _ => Moved.pure _
    moved

theorem readMethodsFrom_moved (env : Env) (pool : Pool) (ii : Bool) (major : UInt16) : ∀ n seen i,
    Moved before (readMethodsFrom env pool ii major seen i n) (readMethodsFrom env pool ii major seen i n)
  | 0, _, _ => Moved.pure _
  | n + 1, seen, i => by
    have ih := readMethodsFrom_moved env pool ii major n
    have ha := readAttributes_moved (before := before) env pool env.depth
    unfold readMethodsFrom
    refine Moved.bind ?_ fun _ => Moved.bind (ih _ _) fun _ => Moved.pure _
    moved

theorem readFields_moved (env : Env) (pool : Pool) : Moved before (readFields env pool) (readFields env pool) :=
  Moved.bind Moved.readU2 fun _ => readFieldsFrom_moved env pool _ _ _

theorem readMethods_moved (env : Env) (pool : Pool) (ii : Bool) (major : UInt16) :
    Moved before (readMethods env pool ii major) (readMethods env pool ii major) :=
  Moved.bind Moved.readU2 fun _ => readMethodsFrom_moved env pool ii major _ _ _

theorem readInterfaces_moved (pool : Pool) : Moved before (readInterfaces pool) (readInterfaces pool) := by
  moved

theorem skipPadding_moved (h : before.length % 4 = 0) : Moved before skipPadding skipPadding := by
  intro bytes ix
  have h1 : alignUp4 (before.length + ix) = before.length + alignUp4 ix := by unfold alignUp4; omega
  unfold skipPadding
  rw [h1]
  exact .ok () _

theorem readOpcode_moved (h : before.length % 4 = 0) (checks : Bool) (pool : Pool) : Moved before (readOpcode checks pool) (readOpcode checks pool) := by
  have hs := skipPadding_moved h
  unfold readOpcode
  refine Moved.bind Moved.readU1 fun v => ?_
  cases shapeOf v with
  | none => moved
  | some sh =>
    cases sh <;> unfold readShape <;> dsimp only
    all_goals moved

end

end Cafebabe
