import Verif.Model.Basic
/-!
# Specification: the outcome of a reader whose input is moved by `n` bytes
-/

namespace Cafebabe.Spec

/-- `s` is the outcome `r` with all positions moved by `n`: the same value and `n` more bytes before the end, an error in the same place
(contexts; the message may name a byte index), the same panic, or both without end. -/
inductive MovedOutcome {α : Type} (n : Nat) : Res (α × Nat) → Res (α × Nat) → Prop where
  | ok (a : α) (ix : Nat) : MovedOutcome n (.ok (a, ix)) (.ok (a, n + ix))
  | err (msg msg' : String) (contexts : List String) : MovedOutcome n (.err ⟨msg, contexts⟩) (.err ⟨msg', contexts⟩)
  | panic (k : PanicKind) : MovedOutcome n (.panic k) (.panic k)
  | diverge : MovedOutcome n .diverge .diverge

/-- The reader does not depend on what is before its start, nor on where that is. -/
def Movable {α : Type} (p : P α) : Prop :=
  ∀ (before bytes : Bytes) (ix : Nat), MovedOutcome before.length (p bytes ix) (p (before ++ bytes) (before.length + ix))

end Cafebabe.Spec
