import Verif.Proofs.Machine
import Verif.Props.RichFacts
/-!
# Properties of a class shared between threads (feature `threadsafe`): C41

`jobs` gives, for each thread, the calls it makes on the shared class: `next()` on its iterator, a fresh iterator, or `{:?}` of the class.
`Reaches` allows every schedule.
-/

namespace Cafebabe
open Spec Examples

/-! ## C41 Threadsafe iteration is deadlock free -/

/-- No thread ever locks a mutex it already holds. -/
theorem C41_no_relock {o : Opts} {bytes : Bytes} {cf : ClassFile} (h : Accepts o bytes cf) {jobs : List (List Call)} {m : Machine}
    (hr : Reaches (Machine.start cf.constantPool jobs) m) {t : Thread} (ht : t ∈ m.threads) {c : Cell} (hw : Wants t c) : c ∉ t.held := by
  obtain ⟨_, _, -, -, -, done, -, hrun⟩ := inv_job (machineInv_reach (goodPool_of_accepts h) hr) ht
  obtain ⟨p, hp⟩ := hw
  rw [hp] at hrun
  obtain ⟨cur, -, -, hgood⟩ := hrun
  intro hc
  exact Nat.lt_irrefl _ (hgood.1 c hc)

/-- No reachable state is a deadlock: while some thread is not finished, some thread can make a step. -/
theorem C41_no_deadlock {o : Opts} {bytes : Bytes} {cf : ClassFile} (h : Accepts o bytes cf) {jobs : List (List Call)} {m : Machine}
    (hr : Reaches (Machine.start cf.constantPool jobs) m) (hf : ∃ t ∈ m.threads, ¬ Finished t) : ∃ m', Step m m' :=
  let ⟨_, ht, hf⟩ := hf
  progress (machineInv_reach (goodPool_of_accepts h) hr) ht hf

/-- Every run ends: for each choice of calls there is a number of steps that no schedule exceeds. -/
theorem C41_bounded {o : Opts} {bytes : Bytes} {cf : ClassFile} (h : Accepts o bytes cf) (jobs : List (List Call)) :
    ∃ N, ∀ n m, StepsTo n (Machine.start cf.constantPool jobs) m → n ≤ N :=
  ⟨_, fun _ _ hs => Nat.le_trans (Nat.le_add_right _ _) (steps_bound (goodPool_of_accepts h) (machineInv_start _ _) hs).2⟩

theorem finished_no_step {m : Machine} {t t' : Thread} {po : Cell → Prop} (h : Finished t) (hs : ThreadStep m t t' po) : False := by
  obtain ⟨h1, h2⟩ := h
  have h2' : t.run = none ∧ t.calls = [] ∨ t.catching = false ∧ ((∃ k, t.run = some (.done (.panic k))) ∨ t.run = some .poisoned) := h2
  cases hs <;> simp_all

/-- Every schedule that keeps running whatever can run ends with all threads finished, and from every reachable state there is one. -/
theorem C41_finishes {o : Opts} {bytes : Bytes} {cf : ClassFile} (h : Accepts o bytes cf) {jobs : List (List Call)} {m : Machine}
    (hr : Reaches (Machine.start cf.constantPool jobs) m) :
    ((¬ ∃ m', Step m m') ↔ ∀ t ∈ m.threads, Finished t) ∧ ∃ m', Reaches m m' ∧ ∀ t ∈ m'.threads, Finished t := by
  have hg := goodPool_of_accepts h
  have hinv := machineInv_reach hg hr
  refine ⟨⟨fun hn t ht => Classical.byContradiction fun hf => hn (progress hinv ht hf), ?_⟩, can_finish hg _ m hinv (Nat.le_refl _)⟩
  rintro hall ⟨m', hs⟩
  obtain ⟨i, t, t', hi, -, hst⟩ := step_set hs
  exact finished_no_step (hall t (List.mem_of_getElem? hi)) hst

/-- The answers a thread gets do not depend on the other threads or on the schedule: they are the answers the same calls get in a
program with one thread (formatting may leave out parts that are locked at the time). -/
theorem C41_answers {o : Opts} {bytes : Bytes} {cf : ClassFile} (h : Accepts o bytes cf) {jobs : List (List Call)} {m : Machine}
    (hr : Reaches (Machine.start cf.constantPool jobs) m) {i : Nat} {t : Thread} {job : List Call} (ht : m.threads[i]? = some t)
    (hj : jobs[i]? = some job) :
    ∃ done rest, job = done ++ rest ∧ AnswersAll cf.constantpoolIter done t.log t.iter ∧
      (Finished t → rest = [] ∨ ∃ cs, rest = .next :: cs ∧ t.iter.next = .panic .nonUtf8) := by
  obtain ⟨hp, done, hd, hrun⟩ := (machineInv_reach (goodPool_of_accepts h) hr).thread i t job ht hj
  cases hc : t.run with
  | none =>
    rw [hc] at hrun
    refine ⟨done, t.calls, hrun.2, hd, ?_⟩
    rintro ⟨-, ⟨-, h⟩ | ⟨-, ⟨k, h⟩ | h⟩⟩
    · exact .inl h
    · rw [hc] at h; cases h
    · rw [hc] at h; cases h
  | some p =>
    rw [hc] at hrun
    obtain ⟨cur, h1, hcatch, h2⟩ := hrun
    refine ⟨done, cur :: t.calls, h1, hd, ?_⟩
    have not_caught : t.catching = false → CallPanics t.iter cur t.index → cur = .next ∧ t.iter.next = .panic .nonUtf8 := by
      rintro hf ⟨rfl | rfl, h3, -⟩
      · exact ⟨rfl, h3⟩
      · rw [hf] at hcatch; cases hcatch
    rintro ⟨-, ⟨h, -⟩ | ⟨hf, ⟨k, h⟩ | h⟩⟩
    · rw [hc] at h; cases h
    · rw [hc] at h; cases h
      obtain ⟨rfl, h3⟩ := not_caught hf h2.2.1
      exact .inr ⟨_, rfl, h3⟩
    · rw [hc] at h; cases h
      obtain ⟨rfl, h3⟩ := not_caught hf h2.1
      exact .inr ⟨_, rfl, h3⟩

/-- A thread panics only in a call of `next()` that panics in a program with one thread: a panic of one thread never harms another. -/
theorem C41_panics {o : Opts} {bytes : Bytes} {cf : ClassFile} (h : Accepts o bytes cf) {jobs : List (List Call)} {m : Machine}
    (hr : Reaches (Machine.start cf.constantPool jobs) m) {t : Thread} (ht : t ∈ m.threads) (hp : Panicked t) : t.iter.next = .panic .nonUtf8 := by
  obtain ⟨_, _, -, -, -, done, -, hrun⟩ := inv_job (machineInv_reach (goodPool_of_accepts h) hr) ht
  obtain ⟨-, hp⟩ := hp
  rcases hp with ⟨k, hp⟩ | hp
  · rw [hp] at hrun
    obtain ⟨cur, -, -, -, h1, -⟩ := hrun
    exact h1.2.1
  · rw [hp] at hrun
    obtain ⟨cur, -, -, h1, -⟩ := hrun
    exact h1.2.1

theorem next_panics_bad {major : UInt16} {it : ConstantPoolIter} (hg : GoodPool major it.pool) (h : it.next = .panic .nonUtf8) :
    ∃ i, BadAt it.pool i := by
  have hl := loop_finds hg it.pool.length it.index (by omega)
  unfold ConstantPoolIter.next at h
  split at hl
  · obtain ⟨k', hl, -⟩ := hl
    rw [hl] at h; cases h
  · rename_i i rest _
    by_cases hb : BadAt it.pool i
    · exact ⟨i, hb⟩
    · obtain ⟨item, -, hl, -⟩ := hl.2 hb
      rw [hl] at h; cases h

/-- If no NameAndType constant has an undecodable descriptor, no thread panics, no mutex is ever poisoned, and every thread gets all
its answers. -/
theorem C41_clean {o : Opts} {bytes : Bytes} {cf : ClassFile} (h : Accepts o bytes cf) (hb : ∀ i, ¬ BadAt cf.constantPool i)
    {jobs : List (List Call)} {m : Machine} (hr : Reaches (Machine.start cf.constantPool jobs) m) :
    (∀ c, ¬ m.poison c) ∧ (∀ t ∈ m.threads, ¬ Panicked t) ∧
    ∀ (i : Nat) (t : Thread) (job : List Call), m.threads[i]? = some t → jobs[i]? = some job → Finished t →
      AnswersAll cf.constantpoolIter job t.log t.iter := by
  have hg := goodPool_of_accepts h
  have hinv := machineInv_reach hg hr
  have hno : ∀ t ∈ m.threads, t.iter.next ≠ .panic .nonUtf8 := by
    intro t ht hn
    obtain ⟨_, _, -, -, hp, -⟩ := inv_job hinv ht
    obtain ⟨i, hi⟩ := next_panics_bad (by rw [hp]; exact hg) hn
    rw [hp] at hi
    exact hb i hi
  refine ⟨fun c hc => hb _ (hinv.poison c hc), fun t ht hp => hno t ht (C41_panics h hr ht hp), fun i t job ht hj hf => ?_⟩
  obtain ⟨done, rest, hjob, hd, hfin⟩ := C41_answers h hr ht hj
  rcases hfin hf with rfl | ⟨cs, -, hn⟩
  · rw [hjob, List.append_nil]; exact hd
  · exact absurd hn (hno t (List.mem_of_getElem? ht))

theorem answers_inv {it it'' : ConstantPoolIter} {cs : List Call} {rs : List Reply} (h : AnswersAll it cs rs it'') :
    (cs = [] ∧ rs = [] ∧ it'' = it) ∨ ∃ it' cs' rs' c r, cs = cs' ++ [c] ∧ rs = rs' ++ [r] ∧ AnswersAll it cs' rs' it' ∧ Answers it' c r it'' := by
  cases h with
  | nil => exact .inl ⟨rfl, rfl, rfl⟩
  | snoc h1 h2 => exact .inr ⟨_, _, _, _, _, rfl, rfl, h1, h2⟩

/-- The answers to `n` calls of `next()` are the first `n` answers of the iterator in a program with one thread. -/
theorem answers_nth : ∀ {n : Nat} {it it' : ConstantPoolIter} {rs : List Reply}, AnswersAll it (List.replicate n .next) rs it' →
    rs.length = n ∧ (∀ k, nthCall it (n + k) = nthCall it' k) ∧
      ∀ k < n, ∃ item, rs[k]? = some (.item item) ∧ nthCall it k = .ok item := by
  intro n
  induction n with
  | zero =>
    intro it it' rs h
    rcases answers_inv h with ⟨-, rfl, rfl⟩ | ⟨_, _, _, _, _, hc, -⟩
    · exact ⟨rfl, fun k => by rw [Nat.zero_add], fun k hk => absurd hk (Nat.not_lt_zero k)⟩
    · simp at hc
  | succ n ih =>
    intro it it' rs h
    rw [List.replicate_succ'] at h
    rcases answers_inv h with ⟨hc, -⟩ | ⟨it1, cs, rs, c, r, hc, rfl, h1, h2⟩
    · simp at hc
    · obtain ⟨hcs, hc'⟩ := List.append_inj' hc rfl
      cases hc'
      subst hcs
      obtain ⟨hl, hk, ha⟩ := ih h1
      cases h2 with
      | @next item _ h2 =>
        refine ⟨by simp [hl], fun k => ?_, fun k hlt => ?_⟩
        · rw [Nat.add_assoc, Nat.add_comm 1 k, hk (k + 1)]
          simp only [nthCall, h2, Res.ok_bind]
        · by_cases hkn : k < n
          · obtain ⟨item', h3, h4⟩ := ha k hkn
            exact ⟨item', by rw [List.getElem?_append_left (by omega)]; exact h3, h4⟩
          · obtain rfl : k = n := by omega
            refine ⟨item, by rw [← hl, List.getElem?_append_right (by omega)]; simp, ?_⟩
            rw [← Nat.add_zero k, hk 0]
            simp only [nthCall, h2, Res.ok_bind]

/-- In particular: each of any number of threads that iterate over the class sees, in every schedule, exactly the sequence of
constants that C14 describes. -/
theorem C41_iteration {o : Opts} {bytes : Bytes} {cf : ClassFile} (h : Accepts o bytes cf) (hb : ∀ i, ¬ BadAt cf.constantPool i)
    {lengths : List Nat} {m : Machine} (hr : Reaches (Machine.start cf.constantPool (lengths.map fun n => List.replicate n .next)) m)
    {i n : Nat} {t : Thread} (ht : m.threads[i]? = some t) (hn : lengths[i]? = some n) (hf : Finished t) :
    t.log.length = n ∧ ∀ k < n, ∃ item, t.log[k]? = some (.item item) ∧ nthCall cf.constantpoolIter k = .ok item := by
  have := (C41_clean h hb hr).2.2 i t (List.replicate n .next) ht (by simp [hn]) hf
  obtain ⟨h1, -, h2⟩ := answers_nth this
  exact ⟨h1, h2⟩

/-! ### Contention is real -/

theorem rich_next : ∃ p, nextL (ConstantPoolIter.new richCf.constantPool) = .setIndex 1 (.setIndex 2 (.lock ⟨2, false⟩ p)) := by
  have h38 := rich_pool.1
  have h1 : poolAt richCf.constantPool 1 = .ok (.utf8 ['A']) := by unfold poolAt; rw [rich_pool.2.2.2.2.2.1]
  have h2 : poolAt richCf.constantPool 2 = .ok (.classInfo (.resolved 1)) := by unfold poolAt; rw [rich_pool.2.2.2.2.1]
  have ht : TextAt richCf.constantPool 1 ['A'] := rich_pool.2.2.2.2.2.1
  unfold nextL ConstantPoolIter.new
  simp only [h38]
  unfold iterNextLoopL
  rw [if_pos (by rw [h38]; omega)]
  simp only [h1, Prog.bind, itemOfL]
  unfold iterNextLoopL
  rw [if_pos (by rw [h38]; omega)]
  simp only [h2, Prog.bind, itemOfL, utf8L_eval ht, mapL]
  exact ⟨_, rfl⟩

theorem code_of_next {it : ConstantPoolIter} {c : Cell} {i j : Nat} {p : Prog (Option ConstantPoolItem × ConstantPoolIter)}
    (h : nextL it = .setIndex i (.setIndex j (.lock c p))) : ∃ q, Call.next.code it = .setIndex i (.setIndex j (.lock c q)) := by
  unfold Call.code
  simp only [h]
  exact ⟨_, rfl⟩

/-- Two threads iterating over `rich`: some schedule makes one wait for a mutex held by the other. -/
theorem C41_contention : ∃ m t u c, Reaches (Machine.start richCf.constantPool [[.next], [.next]]) m ∧ m.threads = [t, u] ∧
    c ∈ t.held ∧ Wants u c ∧ ¬ m.free c ∧ ¬ Finished u := by
  obtain ⟨p, hp⟩ := rich_next
  let it := ConstantPoolIter.new richCf.constantPool
  let code := Call.next.code it
  obtain ⟨q, hq⟩ : ∃ q, code = .setIndex 1 (.setIndex 2 (.lock ⟨2, false⟩ q)) := code_of_next hp
  let at_ (held : List Cell) (p : Prog (Reply × ConstantPoolIter)) (ix : Nat) : Thread := ⟨[], it, held, some p, [], ix, false⟩
  let t0 : Thread := ⟨[.next], it, [], none, [], 0, false⟩
  let t1 := at_ [] code 0
  let t2 := at_ [] (.setIndex 2 (.lock ⟨2, false⟩ q)) 1
  let t3 := at_ [] (.lock ⟨2, false⟩ q) 2
  let t4 := at_ [⟨2, false⟩] q 2
  let np : Cell → Prop := fun _ => False
  have s1 : Step ⟨[t0, t0], np⟩ ⟨[t1, t0], np⟩ := @Step.mk [] [t0] t0 t1 np np (.call rfl rfl)
  have s2 : Step ⟨[t1, t0], np⟩ ⟨[t1, t1], np⟩ := @Step.mk [t1] [] t0 t1 np np (.call rfl rfl)
  have s3 : Step ⟨[t1, t1], np⟩ ⟨[t2, t1], np⟩ := @Step.mk [] [t1] t1 t2 np np (.setIndex (by show some code = _; rw [hq]))
  have s4 : Step ⟨[t2, t1], np⟩ ⟨[t2, t2], np⟩ := @Step.mk [t2] [] t1 t2 np np (.setIndex (by show some code = _; rw [hq]))
  have s5 : Step ⟨[t2, t2], np⟩ ⟨[t3, t2], np⟩ := @Step.mk [] [t2] t2 t3 np np (.setIndex rfl)
  have s6 : Step ⟨[t3, t2], np⟩ ⟨[t3, t3], np⟩ := @Step.mk [t3] [] t2 t3 np np (.setIndex rfl)
  have hfree : (⟨[t3, t3], np⟩ : Machine).free ⟨2, false⟩ := by
    intro t ht
    rcases List.mem_cons.mp ht with rfl | ht
    · exact List.not_mem_nil
    · rcases List.mem_cons.mp ht with rfl | ht
      · exact List.not_mem_nil
      · cases ht
  have s7 : Step ⟨[t3, t3], np⟩ ⟨[t4, t3], np⟩ := @Step.mk [] [t3] t3 t4 np np (.lock rfl hfree (fun h => h))
  refine ⟨⟨[t4, t3], np⟩, t4, t3, ⟨2, false⟩, ⟨7, .step (.step (.step (.step (.step (.step (.step (.refl _) s1) s2) s3) s4) s5) s6) s7⟩, rfl,
    List.mem_singleton.mpr rfl, ⟨q, rfl⟩, fun hf => hf t4 List.mem_cons_self (List.mem_singleton.mpr rfl), ?_⟩
  rintro ⟨-, ⟨h, -⟩ | ⟨-, ⟨k, h⟩ | h⟩⟩
  · cases h
  · cases h
  · cases h

end Cafebabe
