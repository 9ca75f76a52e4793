import Verif.Model.Threads
/-!
# Specification: code with locks, run by a single thread

While a class is being parsed nobody else can have a reference to its constant pool, so each mutex is free unless the parsing thread
itself holds it.
-/

namespace Cafebabe.Spec

/-- Run the code in a thread that holds `held` while no other thread exists and no mutex is poisoned: the outcome and the mutexes held
then. `none`: the thread waits for a mutex it holds itself, so it never returns (`std::sync::Mutex::lock` says it deadlocks or panics). -/
def alone {α : Type} : List Cell → Prog α → Option (Res α × List Cell)
  | held, .done r => some (r, held)
  | _, .poisoned => none
  | held, .lock c p => if c ∈ held then none else alone (c :: held) p
  | held, .unlock c p => alone (held.erase c) p
  | held, .tryLock c p q => if c ∈ held then alone held q else alone (c :: held) p
  | held, .setIndex _ p => alone held p

/-- Run by a thread that holds no mutex, the code ends with the outcome `r`; if that is a value or an error, all guards are dropped. -/
def EndsWith {α : Type} (p : Prog α) (r : Res α) : Prop :=
  ∃ held, alone [] p = some (r, held) ∧ match r with
    | .ok _ | .err _ => held = []
    | .panic _ | .diverge => True

/-- Run by a thread that holds no mutex, the code ends up waiting for a mutex its own thread holds. -/
def LocksItself {α : Type} (p : Prog α) : Prop := alone [] p = none

end Cafebabe.Spec
