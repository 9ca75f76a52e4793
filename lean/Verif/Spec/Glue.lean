import Verif.Model.Glue
import Verif.Spec.Depth
/-!
# Specification: calls inside each other while a class is dropped or printed
-/

namespace Cafebabe.Spec

/-- Dropping or printing the class, except its constants, visits `n` values and needs exactly `depth` calls inside each other: no less is enough. -/
def Visits (cf : ClassFile) (n depth : Nat) : Prop :=
  (∀ d, depth ≤ d → cf.visit d = some n) ∧ ∀ d, d < depth → cf.visit d = none

end Cafebabe.Spec
