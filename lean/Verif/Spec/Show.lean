import Verif.Spec.Threads
import Verif.Spec.Pool
/-!
# Specification: how much `{:?}` shows of a constant

`Shown` (from the model of formatting) is the tree that is printed. Nothing else of the model is used.
-/

namespace Cafebabe.Spec

/-- Characters of the text of a Utf8 constant (bytes, if it cannot be decoded). -/
def textLength : Entry → Nat
  | .utf8 s => s.length
  | .utf8Bytes b => b.length
  | _ => 0

mutual
/-- Number of constants printed. -/
def shownNodes : Shown → Nat
  | .locked => 1
  | .entry _ parts => 1 + shownNodesAll parts
/-- Number of constants printed for a list. -/
def shownNodesAll : List Shown → Nat
  | [] => 0
  | s :: l => shownNodes s + shownNodesAll l
end

mutual
/-- Levels of nesting. -/
def shownDepth : Shown → Nat
  | .locked => 1
  | .entry _ parts => 1 + shownDepthAll parts
/-- Levels of nesting of a list. -/
def shownDepthAll : List Shown → Nat
  | [] => 0
  | s :: l => max (shownDepth s) (shownDepthAll l)
end

mutual
/-- Characters of all texts printed, each time they are. -/
def shownText : Shown → Nat
  | .locked => 0
  | .entry e parts => textLength e + shownTextAll parts
/-- Characters of all texts printed for a list. -/
def shownTextAll : List Shown → Nat
  | [] => 0
  | s :: l => shownText s + shownTextAll l
end

end Cafebabe.Spec
