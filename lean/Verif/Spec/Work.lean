import Verif.Model.ConstantPool
/-!
# Specification: sizes for C61
-/

namespace Cafebabe.Spec

/-- No Utf8 constant of the pool has more than `n` characters. -/
def TextsUpTo (pool : Pool) (n : Nat) : Prop := ∀ s : Str, Entry.utf8 s ∈ pool → s.length ≤ n

end Cafebabe.Spec
