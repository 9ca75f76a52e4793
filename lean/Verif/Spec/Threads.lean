import Verif.Model.Threads
import Verif.Spec.Iter
import Verif.Spec.Chains
/-!
# Specification: a class shared between threads

Schedules, what it means for a thread to be finished, and what the calls of a thread return when no other thread exists.
-/

namespace Cafebabe.Spec

/-- The machine can get from the first state to the second in exactly `n` steps, under some schedule. -/
inductive StepsTo : Nat → Machine → Machine → Prop where
  | refl (m : Machine) : StepsTo 0 m m
  | step {n : Nat} {m m' m'' : Machine} : StepsTo n m m' → Step m' m'' → StepsTo (n + 1) m m''

/-- The machine can get from the first state to the second. -/
def Reaches (m m' : Machine) : Prop := ∃ n, StepsTo n m m'

/-- The call under way has panicked, and the thread does not catch it. -/
def Panicked (t : Thread) : Prop := t.catching = false ∧ ((∃ k, t.run = some (.done (.panic k))) ∨ t.run = some .poisoned)

/-- The thread holds no mutex and has made all its calls or has died from a panic. -/
def Finished (t : Thread) : Prop := t.held = [] ∧ (t.run = none ∧ t.calls = [] ∨ Panicked t)

/-- The thread is about to lock this mutex. -/
def Wants (t : Thread) (c : Cell) : Prop := ∃ p, t.run = some (.lock c p)

/-- What `{:?}` may show of a reference to slot `i`: the entry, and for each of its references the target in the same way; if `cut`
holds, `<locked>` instead. -/
inductive ShowsRef (cut : Prop) (pool : Pool) : Nat → Shown → Prop where
  | locked {i : Nat} : cut → ShowsRef cut pool i .locked
  | none {i : Nat} {e : Entry} : pool[i]? = some e → refsOf e = [] → ShowsRef cut pool i (.entry e [])
  | one {i j : Nat} {e : Entry} {s : Shown} : pool[i]? = some e → refsOf e = [.resolved j] → ShowsRef cut pool j s →
      ShowsRef cut pool i (.entry e [s])
  | two {i j k : Nat} {e : Entry} {s u : Shown} : pool[i]? = some e → refsOf e = [.resolved j, .resolved k] →
      ShowsRef cut pool j s → ShowsRef cut pool k u → ShowsRef cut pool i (.entry e [s, u])

/-- What `{:?}` may show of the whole pool. -/
def ShowsPool (cut : Prop) (pool : Pool) (l : List Shown) : Prop :=
  l.length = pool.length ∧ ∀ (i : Nat) (s : Shown), l[i]? = some s → s ≠ .locked ∧ ShowsRef cut pool i s

/-- A call of a thread whose iterator is `it` answers `r` and leaves the iterator `it'`: `next()` answers what the iterator of the
single-threaded library answers, also when its panic is caught; formatting shows the pool, possibly with `<locked>` parts. -/
inductive Answers (it : ConstantPoolIter) : Call → Reply → ConstantPoolIter → Prop where
  | next {item : Option ConstantPoolItem} {it' : ConstantPoolIter} : it.next = .ok (item, it') → Answers it .next (.item item) it'
  | nextCaught {item : Option ConstantPoolItem} {it' : ConstantPoolIter} : it.nextCaught = .ok (.returned item, it') →
      Answers it .nextCaught (.item item) it'
  | panicked {it' : ConstantPoolIter} : it.nextCaught = .ok (.panicked, it') → Answers it .nextCaught .panicked it'
  | restart : Answers it .restart .restarted (ConstantPoolIter.new it.pool)
  | debug {l : List Shown} : ShowsPool True it.pool l → Answers it .debug (.shown l) it

/-- Consecutive calls, starting with the iterator `it`, answer `rs` and leave the iterator `it'`. -/
inductive AnswersAll : ConstantPoolIter → List Call → List Reply → ConstantPoolIter → Prop where
  | nil (it : ConstantPoolIter) : AnswersAll it [] [] it
  | snoc {it it' it'' : ConstantPoolIter} {cs : List Call} {rs : List Reply} {c : Call} {r : Reply} :
      AnswersAll it cs rs it' → Answers it' c r it'' → AnswersAll it (cs ++ [c]) (rs ++ [r]) it''

end Cafebabe.Spec
