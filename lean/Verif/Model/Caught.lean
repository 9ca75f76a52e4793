import Verif.Model.ConstantPool
/-!
# Model: a panic of the constant pool iterator that is caught

`ConstantPoolIter::next` increases its field `index` before it looks at a constant (`/repo/src/constant_pool.rs:1135-1136`), so a program
that catches its panic (`std::panic::catch_unwind`) keeps an iterator that stands at the constant that was to be shown. The `Ref` guards of
the default build are given back during unwinding, so nothing else changes.
-/

namespace Cafebabe

/-- The `while` loop of `/repo/src/constant_pool.rs:1134-1197`: its outcome, and the field `index` when it returns or panics. -/
def iterNextLoopAt (pool : Pool) : Nat → Nat → Res (Option ConstantPoolItem) × Nat
  | 0, index => (.diverge, index)
  | fuel + 1, index =>
    if index + 1 < pool.length then
      match (poolAt pool (index + 1)).bind (itemOf pool) with
      | .ok (some item) => (.ok (some item), index + 1)
      | .ok none => iterNextLoopAt pool fuel (index + 1)
      | .err e => (.err e, index + 1)
      | .panic k => (.panic k, index + 1)
      | .diverge => (.diverge, index + 1)
    else (.ok none, index)

/-- `/repo/src/constant_pool.rs:1134-1197` `ConstantPoolIter::next`: its outcome, and the iterator when it returns or panics. -/
def ConstantPoolIter.nextAt (it : ConstantPoolIter) : Res (Option ConstantPoolItem) × ConstantPoolIter :=
  let (r, index) := iterNextLoopAt it.pool (it.pool.length + 1) it.index
  (r, { it with index := index })

/-- What `catch_unwind(|| it.next())` returns. -/
inductive Caught where
  | returned (item : Option ConstantPoolItem)
  | panicked

/-- `std::panic::catch_unwind(AssertUnwindSafe(|| it.next()))` for the `next` of `/repo/src/constant_pool.rs:1134-1197`, and the iterator
after it. -/
def ConstantPoolIter.nextCaught (it : ConstantPoolIter) : Res (Caught × ConstantPoolIter) :=
  match it.nextAt with
  | (.ok item, it') => .ok (.returned item, it')
  | (.panic _, it') => .ok (.panicked, it')
  | (.err e, _) => .err e
  | (.diverge, _) => .diverge

end Cafebabe
