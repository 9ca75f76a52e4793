import Verif.Spec.Run
/-!
# Specification: descriptor cycles, and what a panic means
-/

namespace Cafebabe.Spec

/-- Slot `i` lies on a cycle of NameAndType descriptors. -/
def OnCycle (pool : Pool) (i : Nat) : Prop := ∃ j, DescriptorOf pool i j ∧ LeadsTo pool j i

/-- Following descriptors from slot `i` gets to a cycle. -/
def ReachesCycle (pool : Pool) (i : Nat) : Prop := ∃ j, LeadsTo pool i j ∧ OnCycle pool j

/-- The pool read from the start of the input has a cycle of NameAndType descriptors. -/
def HasDescriptorCycle (o : Opts) (bytes : Bytes) : Prop :=
  ∃ minor major raw seg rest, bytes = header minor major ++ seg ++ rest ∧ RawPoolEnc o.decode o.checks major raw seg ∧
    ∃ i, OnCycle (raw.map linkEntry) i

end Cafebabe.Spec
