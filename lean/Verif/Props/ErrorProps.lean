import Verif.Props.Examples
/-!
# C42: how errors are shown and wrapped
-/

namespace Cafebabe.Spec

/-- The connector before the `k`-th context (counted from 0, innermost first). -/
def connector (k : Nat) : String := if k = 0 then " for " else " of "

/-- An error as text: the message, then for each context, innermost first, its connector and itself. -/
def errorText (msg : String) (contexts : List String) : String :=
  msg ++ String.join (contexts.mapIdx fun k c => connector k ++ c)

end Cafebabe.Spec

namespace Cafebabe
open Spec Examples

theorem displayContexts_of (cs : List String) : ParseError.displayContexts " of " cs = String.join (cs.map (" of " ++ ·)) := by
  induction cs with
  | nil => rfl
  | cons c cs ih => rw [ParseError.displayContexts, ih, List.map_cons, String.join_cons]

/-- Display of an error: its message, " for " and the innermost context, then " of " and each enclosing context outward. -/
theorem C42_display (e : ParseError) : e.display = errorText e.msg e.contexts := by
  unfold ParseError.display errorText
  cases e.contexts with
  | nil => rfl
  | cons c cs =>
    rw [ParseError.displayContexts, displayContexts_of, List.mapIdx_cons, String.join_cons]
    have : cs.mapIdx (fun k c => connector (k + 1) ++ c) = cs.map (" of " ++ ·) := by
      rw [List.mapIdx_eq_zipIdx_map]
      conv_rhs => rw [← List.zipIdx_map_fst 0 cs, List.map_map]
      rfl
    rw [this]
    rfl

/-- Wrapping adds one context outside all others, and changes neither the message nor the other contexts; the text is extended at its end. -/
theorem C42_wrap (e : ParseError) (c : String) :
    (e.withContext c).msg = e.msg ∧ (e.withContext c).contexts = e.contexts ++ [c] ∧
      (e.withContext c).display = e.display ++ connector e.contexts.length ++ c := by
  refine ⟨rfl, rfl, ?_⟩
  rw [C42_display, C42_display]
  simp only [errorText, ParseError.withContext, List.mapIdx_append, String.join_append]
  simp [List.mapIdx_cons, String.join_cons, String.append_assoc]

/-- Any number of wrappers: message and inner contexts survive in order. -/
theorem C42_wraps (e : ParseError) (cs : List String) :
    (cs.foldl ParseError.withContext e).msg = e.msg ∧ (cs.foldl ParseError.withContext e).contexts = e.contexts ++ cs := by
  induction cs generalizing e with
  | nil => simp
  | cons c cs ih =>
    obtain ⟨h1, h2⟩ := ih (e.withContext c)
    exact ⟨h1, by rw [List.foldl_cons, h2]; simp [ParseError.withContext]⟩

/-- A reader with a context added fails exactly where the reader fails, with the same message and contexts plus the added one, and otherwise
behaves the same. -/
theorem C42_reader {α : Type} (p : P α) (c : String) (bytes : Bytes) (ix : Nat) :
    (∀ e', (p.mapErr c) bytes ix = .err e' ↔ ∃ e, p bytes ix = .err e ∧ e'.msg = e.msg ∧ e'.contexts = e.contexts ++ [c]) ∧
      (∀ a, (p.mapErr c) bytes ix = .ok a ↔ p bytes ix = .ok a) ∧ (∀ k, (p.mapErr c) bytes ix = .panic k ↔ p bytes ix = .panic k) ∧
      ((p.mapErr c) bytes ix = .diverge ↔ p bytes ix = .diverge) := by
  unfold P.mapErr Res.mapErr
  cases h : p bytes ix <;> simp
  rename_i e
  intro e'
  obtain ⟨m, cs⟩ := e'
  constructor
  · rintro h; cases h; exact ⟨rfl, rfl⟩
  · rintro ⟨h1, h2⟩
    simp only at h1 h2
    subst h1 h2
    rfl

example : ({ msg := "Unexpected end of stream", contexts := ["exception 2", "Exceptions attribute 0", "class method 1"] } : ParseError).display
    = "Unexpected end of stream for exception 2 of Exceptions attribute 0 of class method 1" := by decide +kernel

end Cafebabe
