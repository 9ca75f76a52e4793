import Verif.Spec.Text
/-!
# Specification: the JVMS 4.3 descriptor grammars as grammars

Written as productions, without the descriptor data types.
-/

namespace Cafebabe.Spec

/-- FieldType with the given number of array dimensions (JVMS 4.3.2). -/
inductive FieldGrammar : Nat → Str → Prop where
  | base {c : Char} : c ∈ "BCDFIJSZ".toList → FieldGrammar 0 [c]
  | object {s : Str} : ClassNameText s → FieldGrammar 0 ('L' :: s ++ [';'])
  | array {n : Nat} {s : Str} : FieldGrammar n s → FieldGrammar (n + 1) ('[' :: s)

/-- FieldDescriptor with at most 255 dimensions. -/
def FieldText (s : Str) : Prop := ∃ n, n ≤ 255 ∧ FieldGrammar n s

/-- ReturnDescriptor: `V` or a FieldDescriptor (JVMS 4.3.3). -/
def ReturnText (s : Str) : Prop := s = ['V'] ∨ FieldText s

/-- MethodDescriptor: `(` FieldDescriptor* `)` ReturnDescriptor (JVMS 4.3.3). -/
def MethodText (s : Str) : Prop :=
  ∃ (ps : List Str) (r : Str), (∀ p ∈ ps, FieldText p) ∧ ReturnText r ∧ s = '(' :: ps.flatten ++ ')' :: r

/-- None of `.` `;` `[` `<` `>`, and no `/` at the start or directly after another `/`. -/
def LaxShape (s : Str) : Prop :=
  (∀ c ∈ s, c ≠ '.' ∧ c ≠ ';' ∧ c ≠ '[' ∧ c ≠ '<' ∧ c ≠ '>') ∧ s.head? ≠ some '/' ∧ ¬ ['/', '/'] <:+: s

/-- The outcome is `Ok` or `Err`: no panic, no endless loop. -/
def Returns {α : Type} (r : Res α) : Prop := (∃ a, r = .ok a) ∨ ∃ e, r = .err e

end Cafebabe.Spec
