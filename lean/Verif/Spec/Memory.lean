import Verif.Spec.Run
import Verif.Model.Memory
import Mathlib.Logic.Relation
/-!
# Specification: which constants stay in memory
-/

namespace Cafebabe.Spec

/-- The constants in memory when parsing ends, with their number (`none` if they were not all read). -/
def memory (o : Opts) (bytes : Bytes) : Option (Nat × Heap) :=
  poolMemory { decode := o.decode, overflowChecks := o.checks, depth := 0, parseBytecode := o.parseBytecode } bytes

/-- The constant of slot `j` is not given back when the parsed class is dropped, or when parsing ends without one. -/
def Leaks (o : Opts) (bytes : Bytes) (j : Nat) : Prop :=
  ∃ n h depth h', memory o bytes = some (n, h) ∧ dropPool depth n h = some h' ∧ j < n ∧ j ∉ h'.dropped

/-- The references of the constants from slot `i` on, in the order in which they stand in the file: from which slot to which. -/
def referencesFrom : Nat → List Entry → List (Nat × Nat)
  | _, [] => []
  | i, e :: es => (refsOf e).filterMap (fun | .unresolved x => some (i, x.toNat) | .resolved _ => none) ++ referencesFrom (i + 1) es

/-- A reference that can be resolved: to another constant of the pool. -/
def Resolvable (raw : Pool) (r : Nat × Nat) : Prop := r.2 ≠ r.1 ∧ r.2 < raw.length

instance (raw : Pool) (r : Nat × Nat) : Decidable (Resolvable raw r) := inferInstanceAs (Decidable (_ ∧ _))

/-- The references in front of the first one that cannot be resolved (all of them if there is none). -/
def resolvedRefs (raw : Pool) : List (Nat × Nat) := (referencesFrom 0 raw).takeWhile fun r => decide (Resolvable raw r)

/-- Slot `i` refers to slot `j`, and the reference has been resolved. -/
def RefersTo (raw : Pool) (i j : Nat) : Prop := (i, j) ∈ resolvedRefs raw

/-- Slot `j` can be reached from a cycle of references. -/
def BehindCycle (raw : Pool) (j : Nat) : Prop :=
  ∃ k, Relation.TransGen (RefersTo raw) k k ∧ Relation.ReflTransGen (RefersTo raw) k j

end Cafebabe.Spec
