import Verif.Model.Caught
import Verif.Spec.Iter
/-!
# Specification: iterating a constant pool and catching the panics
-/

namespace Cafebabe.Spec

/-- What the `n`-th call (counted from 0) of `next()` on this iterator returns, if each call is under `catch_unwind`. -/
def nthCaught (it : ConstantPoolIter) : Nat → Res Caught
  | 0 => do
    let (r, _) ← it.nextCaught
    .ok r
  | n + 1 => do
    let (_, it') ← it.nextCaught
    nthCaught it' n

/-- The call shows slot `i` of the pool: it panics if that is a NameAndType constant whose descriptor text cannot be decoded, and returns the
item of the slot otherwise. -/
inductive ShowsSlot (pool : Pool) (i : Nat) : Caught → Prop where
  | panics : BadAt pool i → ShowsSlot pool i .panicked
  | item {item : ConstantPoolItem} : ¬ BadAt pool i → ItemAt pool i item → ShowsSlot pool i (.returned (some item))

end Cafebabe.Spec
