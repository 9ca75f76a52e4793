import Verif.Proofs.Threads
/-!
# Proofs: threads sharing a class
-/

namespace Cafebabe
open Spec

/-! ## The code of a call -/

/-- Allowed outcomes of a call. -/
def CallOutcome (it : ConstantPoolIter) (c : Call) (r : Res (Reply × ConstantPoolIter)) : Prop :=
  (∃ a it', r = .ok (a, it') ∧ Answers it c a it') ∨ (∃ k, r = .panic k) ∧ (c = .next ∨ c = .nextCaught)

/-- When a call may panic, and where its iterator stands then. -/
def CallPanics (it : ConstantPoolIter) (c : Call) (ix : Nat) : Prop := (c = .next ∨ c = .nextCaught) ∧ PanicsAt it ix

theorem next_cases {major : UInt16} {it : ConstantPoolIter} (hg : GoodPool major it.pool) :
    (∃ item it', it.next = .ok (item, it')) ∨ it.next = .panic .nonUtf8 := by
  have h := loop_finds hg it.pool.length it.index (by omega)
  unfold ConstantPoolIter.next
  split at h
  · obtain ⟨k', h, -⟩ := h
    rw [h]; exact .inl ⟨_, _, rfl⟩
  · rename_i i rest _
    by_cases hb : BadAt it.pool i
    · rw [h.1 hb]; exact .inr rfl
    · obtain ⟨item, -, h, -⟩ := h.2 hb
      rw [h]; exact .inl ⟨_, _, rfl⟩

theorem code_good {major : UInt16} {it : ConstantPoolIter} (hg : GoodPool major it.pool) (c : Call) (ix : Nat) :
    Good (rankOf it.pool) (BadCell it.pool) (CallOutcome it c) (CallPanics it c) [] ix [] (c.code it) := by
  have next : ∀ c : Call, (c = .next ∨ c = .nextCaught) → (∀ item it', it.next = .ok (item, it') → Answers it c (.item item) it') →
      Good (rankOf it.pool) (BadCell it.pool) (CallOutcome it c) (CallPanics it c) [] ix []
        (mapL (fun (item, it') => (Reply.item item, it')) (nextL it)) := by
    intro c hc ha
    refine Good.bind ?_ ?_ ?_ ?_ (fun ix h => ⟨hc, h⟩) (nextL_good hg ix)
    · rintro ⟨item, it'⟩ _ h
      exact ⟨.inl ⟨_, _, rfl, ha _ _ h.symm⟩, rfl⟩
    · intro e h
      rcases next_cases hg with ⟨_, _, h'⟩ | h' <;> rw [h'] at h <;> cases h
    · intro k h
      exact .inr ⟨⟨_, rfl⟩, hc⟩
    · intro h
      rcases next_cases hg with ⟨_, _, h'⟩ | h' <;> rw [h'] at h <;> cases h
  cases c with
  | next => exact next .next (.inl rfl) fun _ _ h => .next h
  | nextCaught => exact next .nextCaught (.inr rfl) fun _ _ h => .nextCaught (nextCaught_of_next h)
  | restart => exact ⟨.inl ⟨_, _, rfl, .restart⟩, rfl⟩
  | debug =>
    refine Good.bind ?_ (by simp) (by simp) (by simp) (fun _ => id) (showPool_good hg.ok _ _ _ ix)
    rintro l _ ⟨l', h1, h2⟩
    cases h1
    exact ⟨.inl ⟨_, _, rfl, .debug h2⟩, rfl⟩

theorem nextCaught_pool {it it' : ConstantPoolIter} {r : Caught} (h : it.nextCaught = .ok (r, it')) : it'.pool = it.pool := by
  unfold ConstantPoolIter.nextCaught ConstantPoolIter.nextAt at h
  cases hr : (iterNextLoopAt it.pool (it.pool.length + 1) it.index).1 with
  | ok o => simp only [hr] at h; cases h; rfl
  | err e => simp only [hr] at h; cases h
  | panic k => simp only [hr] at h; cases h; rfl
  | diverge => simp only [hr] at h; cases h

theorem next_pool {it it' : ConstantPoolIter} {item : Option ConstantPoolItem} (h : it.next = .ok (item, it')) : it'.pool = it.pool := by
  unfold ConstantPoolIter.next at h
  cases h' : iterNextLoop it.pool (it.pool.length + 1) it.index with
  | ok a => rw [h'] at h; cases h; rfl
  | err e => rw [h'] at h; cases h
  | panic k => rw [h'] at h; cases h
  | diverge => rw [h'] at h; cases h

theorem answers_pool {it it' : ConstantPoolIter} {c : Call} {r : Reply} (h : Answers it c r it') : it'.pool = it.pool := by
  cases h with
  | next h => exact next_pool h
  | nextCaught h => exact nextCaught_pool h
  | panicked h => exact nextCaught_pool h
  | restart => rfl
  | debug => rfl

/-! ## The invariant -/

/-- What is always true of a thread that was given the calls `job`. -/
def ThreadInv (pool : Pool) (job : List Call) (t : Thread) : Prop :=
  t.iter.pool = pool ∧ ∃ done, AnswersAll (ConstantPoolIter.new pool) done t.log t.iter ∧
    match t.run with
    | none => t.held = [] ∧ job = done ++ t.calls
    | some p => ∃ cur, job = done ++ cur :: t.calls ∧ t.catching = (cur == .nextCaught) ∧
        Good (rankOf pool) (BadCell pool) (CallOutcome t.iter cur) (CallPanics t.iter cur) [] t.index t.held p

/-- What is always true of the machine. -/
structure MachineInv (pool : Pool) (jobs : List (List Call)) (m : Machine) : Prop where
  length : m.threads.length = jobs.length
  thread : ∀ (i : Nat) (t : Thread) (job : List Call), m.threads[i]? = some t → jobs[i]? = some job → ThreadInv pool job t
  poison : ∀ c, m.poison c → BadCell pool c

theorem threadInv_step {major : UInt16} {pool : Pool} (hg : GoodPool major pool) {job : List Call} {t t' : Thread} {m : Machine} {po' : Cell → Prop}
    (h : ThreadInv pool job t) (hpo : ∀ c, m.poison c → BadCell pool c) (hs : ThreadStep m t t' po') :
    ThreadInv pool job t' ∧ ∀ c, po' c → BadCell pool c := by
  obtain ⟨hp, done, hd, h⟩ := h
  cases hs with
  | call h1 h2 =>
    rw [h1] at h
    obtain ⟨h3, h4⟩ := h
    refine ⟨⟨hp, done, hd, _, by rw [← h2]; exact h4, rfl, ?_⟩, hpo⟩
    rw [h3, ← hp]
    exact code_good (by rw [hp]; exact hg) _ _
  | lock h1 h2 h3 =>
    rw [h1] at h
    obtain ⟨cur, h4, hc, h5⟩ := h
    exact ⟨⟨hp, done, hd, cur, h4, hc, h5.2.2⟩, hpo⟩
  | refused h1 h2 h3 =>
    rw [h1] at h
    obtain ⟨cur, h4, hc, h5⟩ := h
    exact ⟨⟨hp, done, hd, cur, h4, hc, h5.2.1 (hpo _ h3)⟩, hpo⟩
  | unlock h1 =>
    rw [h1] at h
    obtain ⟨cur, h4, hc, rest, h5, h6⟩ := h
    refine ⟨⟨hp, done, hd, cur, h4, hc, ?_⟩, hpo⟩
    simp only [h5, List.erase_cons_head]
    exact h6
  | took h1 h2 =>
    rw [h1] at h
    obtain ⟨cur, h4, hc, h5⟩ := h
    exact ⟨⟨hp, done, hd, cur, h4, hc, h5.1⟩, hpo⟩
  | missed h1 h2 =>
    rw [h1] at h
    obtain ⟨cur, h4, hc, h5⟩ := h
    exact ⟨⟨hp, done, hd, cur, h4, hc, h5.2⟩, hpo⟩
  | setIndex h1 =>
    rw [h1] at h
    obtain ⟨cur, h4, hc, h5⟩ := h
    exact ⟨⟨hp, done, hd, cur, h4, hc, h5⟩, hpo⟩
  | returned h1 =>
    rw [h1] at h
    obtain ⟨cur, h4, hc, h5, h6⟩ := h
    rcases h5 with ⟨a, it', h5, ha⟩ | ⟨⟨k, h5⟩, -⟩
    · cases h5
      exact ⟨⟨(answers_pool ha).trans hp, done ++ [cur], .snoc hd ha, h6, by simpa using h4⟩, hpo⟩
    · cases h5
  | unwind h1 h2 =>
    have h' := h
    rw [h1] at h'
    obtain ⟨cur, h4, hc, h5, h7, h6⟩ := h'
    rw [h2] at h6
    refine ⟨⟨hp, done, hd, ?_⟩, fun d hd => ?_⟩
    · simp only [h1]
      exact ⟨cur, h4, hc, h5, h7, fun c hc => h6 c (List.mem_cons_of_mem _ hc)⟩
    · rcases hd with rfl | hd
      · exact h6 _ List.mem_cons_self
      · exact hpo d hd
  | unwindPoisoned h1 h2 =>
    have h' := h
    rw [h1] at h'
    obtain ⟨cur, h4, hc, h5, h6⟩ := h'
    rw [h2] at h6
    refine ⟨⟨hp, done, hd, ?_⟩, fun d hd => ?_⟩
    · simp only [h1]
      exact ⟨cur, h4, hc, h5, fun c hc => h6 c (List.mem_cons_of_mem _ hc)⟩
    · rcases hd with rfl | hd
      · exact h6 _ List.mem_cons_self
      · exact hpo d hd
  | caught h1 h2 h3 =>
    rw [h1] at h
    obtain ⟨cur, h4, hc, -, ⟨-, -, h5⟩, -⟩ := h
    obtain rfl : cur = .nextCaught := by rw [h3] at hc; exact (beq_iff_eq.mp hc.symm)
    exact ⟨⟨hp, done ++ [.nextCaught], .snoc hd (.panicked h5), h2, by simpa using h4⟩, hpo⟩
  | caughtPoisoned h1 h2 h3 =>
    rw [h1] at h
    obtain ⟨cur, h4, hc, ⟨-, -, h5⟩, -⟩ := h
    obtain rfl : cur = .nextCaught := by rw [h3] at hc; exact (beq_iff_eq.mp hc.symm)
    exact ⟨⟨hp, done ++ [.nextCaught], .snoc hd (.panicked h5), h2, by simpa using h4⟩, hpo⟩

theorem step_set {m m' : Machine} (h : Step m m') : ∃ i t t', m.threads[i]? = some t ∧ m'.threads = m.threads.set i t' ∧ ThreadStep m t t' m'.poison := by
  cases h with
  | @mk before after t t' po po' h => exact ⟨before.length, t, t', by simp, by simp, h⟩

theorem set_step {m : Machine} {i : Nat} {t t' : Thread} {po : Cell → Prop} (hi : m.threads[i]? = some t) (h : ThreadStep m t t' po) :
    Step m ⟨m.threads.set i t', po⟩ := by
  obtain ⟨hlt, rfl⟩ := List.getElem?_eq_some_iff.mp hi
  obtain ⟨ts, po0⟩ := m
  have e1 : ts = ts.take i ++ ts[i] :: ts.drop (i + 1) := by
    rw [List.getElem_cons_drop, List.take_append_drop]
  have e2 : ts.set i t' = ts.take i ++ t' :: ts.drop (i + 1) := List.set_eq_take_cons_drop _ hlt
  have h' := @Step.mk (ts.take i) (ts.drop (i + 1)) ts[i] t' po0 po (by rw [← e1]; exact h)
  rw [← e1, ← e2] at h'
  exact h'

theorem machineInv_step {major : UInt16} {pool : Pool} (hg : GoodPool major pool) {jobs : List (List Call)} {m m' : Machine}
    (h : MachineInv pool jobs m) (hs : Step m m') : MachineInv pool jobs m' := by
  obtain ⟨i, t, t', hi, hset, hst⟩ := step_set hs
  have hlt := (List.getElem?_eq_some_iff.mp hi).1
  obtain ⟨job, hj⟩ : ∃ job, jobs[i]? = some job := ⟨_, List.getElem?_eq_getElem (h.length ▸ hlt)⟩
  obtain ⟨h1, h2⟩ := threadInv_step hg (h.thread i t job hi hj) h.poison hst
  refine ⟨by rw [hset, List.length_set]; exact h.length, fun k u job' hk hj' => ?_, h2⟩
  rw [hset, List.getElem?_set] at hk
  split at hk
  · rename_i hik
    subst hik
    cases hk
    rw [hj] at hj'
    cases hj'
    exact h1
  · exact h.thread k u job' hk hj'

theorem machineInv_start (pool : Pool) (jobs : List (List Call)) : MachineInv pool jobs (Machine.start pool jobs) := by
  refine ⟨by simp [Machine.start], fun i t job ht hj => ?_, fun c h => h.elim⟩
  simp only [Machine.start, List.getElem?_map, hj, Option.map_some] at ht
  cases ht
  exact ⟨rfl, [], .nil _, rfl, rfl⟩

theorem machineInv_reach {major : UInt16} {pool : Pool} (hg : GoodPool major pool) {jobs : List (List Call)} {m : Machine}
    (h : Reaches (Machine.start pool jobs) m) : MachineInv pool jobs m := by
  obtain ⟨n, h⟩ := h
  generalize hs : Machine.start pool jobs = s at h
  induction h with
  | refl => subst hs; exact machineInv_start pool jobs
  | step _ h2 ih => exact machineInv_step hg (ih hs) h2

theorem inv_job {pool : Pool} {jobs : List (List Call)} {m : Machine} (h : MachineInv pool jobs m) {t : Thread} (ht : t ∈ m.threads) :
    ∃ (i : Nat) (job : List Call), m.threads[i]? = some t ∧ jobs[i]? = some job ∧ ThreadInv pool job t := by
  obtain ⟨i, hi⟩ := List.getElem?_of_mem ht
  have hlt := (List.getElem?_eq_some_iff.mp hi).1
  obtain ⟨job, hj⟩ : ∃ job, jobs[i]? = some job := ⟨_, List.getElem?_eq_getElem (h.length ▸ hlt)⟩
  exact ⟨i, job, hi, hj, h.thread i t job hi hj⟩

/-! ## Progress -/

/-- A thread that is not finished and is not waiting for a held mutex can make a step. -/
theorem thread_progress {pool : Pool} {job : List Call} {m : Machine} {t : Thread} (h : ThreadInv pool job t) (hf : ¬ Finished t)
    (hw : ∀ c, Wants t c → m.free c) : ∃ t' po', ThreadStep m t t' po' := by
  obtain ⟨hp, done, hd, h⟩ := h
  cases hr : t.run with
  | none =>
    rw [hr] at h
    cases hc : t.calls with
    | nil => exact absurd ⟨h.1, .inl ⟨hr, hc⟩⟩ hf
    | cons c cs => exact ⟨_, _, .call hr hc⟩
  | some p =>
    rw [hr] at h
    obtain ⟨cur, -, -, h⟩ := h
    cases p with
    | done r =>
      rcases h.1 with ⟨a, it', h5, ha⟩ | ⟨⟨k, h5⟩, -⟩
      · subst h5
        exact ⟨_, _, .returned hr⟩
      · subst h5
        cases hh : t.held with
        | nil =>
          cases hc : t.catching with
          | true => exact ⟨_, _, .caught hr hh hc⟩
          | false => exact absurd ⟨hh, .inr ⟨hc, .inl ⟨k, hr⟩⟩⟩ hf
        | cons c cs => exact ⟨_, _, .unwind hr hh⟩
    | poisoned =>
      cases hh : t.held with
      | nil =>
        cases hc : t.catching with
        | true => exact ⟨_, _, .caughtPoisoned hr hh hc⟩
        | false => exact absurd ⟨hh, .inr ⟨hc, .inr hr⟩⟩ hf
      | cons c cs => exact ⟨_, _, .unwindPoisoned hr hh⟩
    | lock c p =>
      by_cases hpo : m.poison c
      · exact ⟨_, _, .refused hr (hw c ⟨p, hr⟩) hpo⟩
      · exact ⟨_, _, .lock hr (hw c ⟨p, hr⟩) hpo⟩
    | unlock c p => exact ⟨_, _, .unlock hr⟩
    | setIndex i p => exact ⟨_, _, .setIndex hr⟩
    | tryLock c p q =>
      by_cases hfree : m.free c
      · exact ⟨_, _, .took hr hfree⟩
      · exact ⟨_, _, .missed hr hfree⟩

theorem finished_not_held {t : Thread} (h : Finished t) : t.held = [] := h.1

/-- In a state satisfying the invariant, an unfinished thread can make a step or waits for a thread that waits for a mutex of higher
rank, or so on. -/
theorem progress_rank {pool : Pool} {jobs : List (List Call)} {m : Machine} (h : MachineInv pool jobs m) : ∀ (k : Nat) (t : Thread),
    t ∈ m.threads → ¬ Finished t → (∀ c, Wants t c → 6 ≤ k + rankOf pool c) → ∃ m', Step m m'
  | k, t, ht, hf, hk => by
    obtain ⟨i, job, hi, -, hinv⟩ := inv_job h ht
    by_cases hw : ∀ c, Wants t c → m.free c
    · obtain ⟨t', po', hst⟩ := thread_progress hinv hf hw
      exact ⟨_, set_step hi hst⟩
    · simp only [not_forall] at hw
      obtain ⟨c, hc, hnf⟩ := hw
      unfold Machine.free at hnf
      simp only [not_forall, not_not] at hnf
      obtain ⟨u, hu, hheld⟩ := hnf
      have hr6 : rankOf pool c < 6 := by
        unfold rankOf
        split <;> omega
      have hkc := hk c hc
      match k, hkc with
      | 0, hkc => omega
      | k + 1, hkc =>
        refine progress_rank h k u hu (fun hfu => ?_) (fun d hd => ?_)
        · rw [hfu.1] at hheld; cases hheld
        · obtain ⟨_, _, _, _, -, done, -, hrun⟩ := inv_job h hu
          obtain ⟨p, hd⟩ := hd
          rw [hd] at hrun
          obtain ⟨cur, -, -, hgood⟩ := hrun
          have := hgood.1 c hheld
          omega

theorem progress {pool : Pool} {jobs : List (List Call)} {m : Machine} (h : MachineInv pool jobs m) {t : Thread} (ht : t ∈ m.threads)
    (hf : ¬ Finished t) : ∃ m', Step m m' := progress_rank h 6 t ht hf (fun _ _ => by omega)

/-! ## Every run is bounded -/

/-- Upper bound for the steps of a piece of code. -/
def Prog.size {α : Type} : Prog α → Nat
  | .done _ => 0
  | .poisoned => 0
  | .lock _ p => p.size + 2
  | .unlock _ p => p.size + 1
  | .tryLock _ p q => max p.size q.size + 2
  | .setIndex _ p => p.size + 1

theorem size_bind {α β : Type} {f : α → Prog β} {n : Nat} (h : ∀ a, (f a).size ≤ n) : ∀ p : Prog α, (p.bind f).size ≤ p.size + n
  | .done (.ok a) => by simpa [Prog.bind, Prog.size] using h a
  | .done (.err _) => by simp [Prog.bind, Prog.size]
  | .done (.panic _) => by simp [Prog.bind, Prog.size]
  | .done .diverge => by simp [Prog.bind, Prog.size]
  | .poisoned => by simp [Prog.bind, Prog.size]
  | .lock _ p => by have := size_bind h p; simp only [Prog.bind, Prog.size]; omega
  | .unlock _ p => by have := size_bind h p; simp only [Prog.bind, Prog.size]; omega
  | .tryLock _ p q => by have := size_bind h p; have := size_bind h q; simp only [Prog.bind, Prog.size]; omega
  | .setIndex _ p => by have := size_bind h p; simp only [Prog.bind, Prog.size]; omega

theorem size_closing {α : Type} (c : Cell) : ∀ p : Prog α, (p.closing c).size ≤ p.size + 1
  | .done (.ok _) => by simp [Prog.closing, Prog.size]
  | .done (.err _) => by simp [Prog.closing, Prog.size]
  | .done (.panic _) => by simp [Prog.closing, Prog.size]
  | .done .diverge => by simp [Prog.closing, Prog.size]
  | .poisoned => by simp [Prog.closing, Prog.size]
  | .lock _ p => by have := size_closing c p; simp only [Prog.closing, Prog.size]; omega
  | .unlock _ p => by have := size_closing c p; simp only [Prog.closing, Prog.size]; omega
  | .tryLock _ p q => by have := size_closing c p; have := size_closing c q; simp only [Prog.closing, Prog.size]; omega
  | .setIndex _ p => by have := size_closing c p; simp only [Prog.closing, Prog.size]; omega

theorem size_unwrapL {α : Type} : ∀ p : Prog α, p.unwrapL.size = p.size
  | .done (.ok _) => rfl
  | .done (.err _) => rfl
  | .done (.panic _) => rfl
  | .done .diverge => rfl
  | .poisoned => rfl
  | .lock _ p => by have := size_unwrapL p; simp only [Prog.unwrapL, Prog.size]; omega
  | .unlock _ p => by have := size_unwrapL p; simp only [Prog.unwrapL, Prog.size]; omega
  | .tryLock _ p q => by have := size_unwrapL p; have := size_unwrapL q; simp only [Prog.unwrapL, Prog.size]; omega
  | .setIndex _ p => by have := size_unwrapL p; simp only [Prog.unwrapL, Prog.size]; omega

theorem size_mapL {α β : Type} (f : α → β) (p : Prog α) : (mapL f p).size ≤ p.size := by
  have := size_bind (f := fun a => Prog.done (.ok (f a))) (n := 0) (fun _ => by simp [Prog.size]) p
  exact this

theorem size_peelL {α : Type} {pool : Pool} {c : Cell} {r : CPRef} {k : Nat → Entry → Prog α} {n : Nat} (h : ∀ s e, (k s e).size ≤ n) :
    (peelL pool c r k).size ≤ n + 3 := by
  have h1 := size_bind (f := fun (x : Nat × Entry) => k x.1 x.2) (n := n) (fun x => h x.1 x.2) (.done (getTarget pool r))
  have h2 := size_closing c (Prog.bind (.done (getTarget pool r)) fun (x : Nat × Entry) => k x.1 x.2)
  simp only [Prog.size] at h1
  unfold peelL Prog.guarded
  simp only [Prog.size]
  omega

theorem size_utf8 {pool : Pool} {c : Cell} {r : CPRef} : (peelUtf8L pool c r).size ≤ 3 := size_peelL fun _ _ => by simp [Prog.size]
theorem size_literal {pool : Pool} {c : Cell} {r : CPRef} : (peelStringLiteralL pool c r).size ≤ 3 := size_peelL fun _ _ => by simp [Prog.size]

theorem size_classinfo {pool : Pool} {i : Nat} (e : Entry) : (classinfoL pool i e).size ≤ 3 := by
  unfold classinfoL
  split
  · exact size_utf8
  · simp [Prog.size]

theorem size_done_bind {α β : Type} {r : Res α} {f : α → Prog β} {n : Nat} (h : ∀ a, (f a).size ≤ n) : ((Prog.done r).bind f).size ≤ n := by
  have := size_bind h (.done r)
  simpa [Prog.size] using this

theorem size_natFields {pool : Pool} {i : Nat} {x y : CPRef} : (nameAndTypeFieldsL pool i x y).size ≤ 6 :=
  size_peelL (n := 3) fun _ _ => size_done_bind fun _ => size_peelL (n := 0) fun _ _ => size_done_bind fun _ => by simp [Prog.size]

theorem size_nat {pool : Pool} {i : Nat} (e : Entry) : (nameAndTypeOfL pool i e).size ≤ 6 := by
  unfold nameAndTypeOfL
  split
  · exact size_natFields
  · simp [Prog.size]

theorem size_member {α : Type} {pool : Pool} {i : Nat} {x y : CPRef} {f : Str → NameAndType → α} : (memberL pool i x y f).size ≤ 15 :=
  size_peelL (n := 12) fun cs ce => Nat.le_trans (size_bind (n := 9) (fun _ => size_peelL (n := 6) fun ms me =>
    Nat.le_trans (size_bind (n := 0) (fun _ => by simp [Prog.size]) _) (size_nat me)) _) (by have := size_classinfo (pool := pool) (i := cs) ce; omega)

theorem size_dynamic {pool : Pool} {i : Nat} {b : UInt16} {y : CPRef} : (makeDynamicL pool i b y).size ≤ 9 :=
  size_peelL (n := 6) fun _ me => Nat.le_trans (size_bind (n := 0) (fun _ => by simp [Prog.size]) _) (size_nat me)

theorem size_handle {pool : Pool} {i : Nat} {k : ReferenceKind} {y : CPRef} : (makeMethodHandleL pool i k y).size ≤ 18 := by
  refine size_peelL (n := 15) fun _ e => ?_
  split
  · exact size_member
  · exact size_member
  · exact size_member
  · simp [Prog.size]

theorem size_item {pool : Pool} {i : Nat} (e : Entry) : (itemOfL pool i e).size ≤ 18 := by
  have h0 : ∀ {α : Type} {r : Res α}, (Prog.done r).size ≤ 18 := by simp [Prog.size]
  have h3 : ∀ {c : Cell} {x : CPRef} {f : Str → Option ConstantPoolItem}, (mapL f (peelUtf8L pool c x)).size ≤ 18 := by
    intro c x f; exact Nat.le_trans (size_mapL _ _) (Nat.le_trans size_utf8 (by omega))
  have h15 : ∀ {x y : CPRef} {f : MemberRef → Option ConstantPoolItem}, (mapL f (makeMemberRefL pool i x y)).size ≤ 18 := by
    intro x y f; exact Nat.le_trans (size_mapL _ _) (Nat.le_trans size_member (by omega))
  have h9 : ∀ {b : UInt16} {y : CPRef} {f : DynamicRef → Option ConstantPoolItem}, (mapL f (makeDynamicL pool i b y)).size ≤ 18 := by
    intro x y f; exact Nat.le_trans (size_mapL _ _) (Nat.le_trans size_dynamic (by omega))
  cases e
  case classInfo | methodType | moduleInfo | packageInfo => exact h3
  case fieldRef | methodRef | interfaceMethodRef => exact h15
  case dynamic | invokeDynamic => exact h9
  case string => exact Nat.le_trans (size_mapL _ _) (Nat.le_trans size_literal (by omega))
  case nameAndType => exact Nat.le_trans (size_mapL _ _) (Nat.le_trans size_natFields (by omega))
  case methodHandle => exact Nat.le_trans (size_mapL _ _) (by rw [size_unwrapL]; exact size_handle)
  all_goals exact h0

theorem size_loop {pool : Pool} : ∀ (fuel k : Nat), (iterNextLoopL pool fuel k).size ≤ 19 * fuel
  | 0, _ => by simp [iterNextLoopL, Prog.size]
  | fuel + 1, k => by
    unfold iterNextLoopL
    split
    · simp only [Prog.size]
      refine Nat.le_trans (Nat.add_le_add_right (size_done_bind (n := 19 * fuel + 18) fun e => ?_) 1) (by omega)
      refine Nat.le_trans (size_bind (n := 19 * fuel) (fun a => ?_) _) (Nat.le_trans (Nat.add_le_add_right (size_item e) _) (by omega))
      split
      · simp [Prog.size]
      · exact size_loop fuel _
    · simp [Prog.size]

theorem size_next {it : ConstantPoolIter} : (nextL it).size ≤ 19 * (it.pool.length + 1) :=
  Nat.le_trans (size_bind (n := 0) (fun _ => by simp [Prog.size]) _) (size_loop _ _)

/-- Bound for formatting one slot. -/
def showBound : Nat → Nat
  | 0 => 0
  | d + 1 => 2 * (showBound d + 3)

theorem size_showCell {c : Cell} {p : Prog Shown} {n : Nat} (h : p.size ≤ n) : (showCell c p).size ≤ n + 3 := by
  have := size_closing c p
  simp only [showCell, Prog.size]
  omega

theorem size_show {pool : Pool} : ∀ (d i : Nat), (showL pool d i).size ≤ showBound d
  | 0, _ => by simp [showL, Prog.size]
  | d + 1, i => by
    unfold showL
    have hs : ∀ (c : Cell) (x : CPRef), (showCell c (match x with
        | .unresolved _ => .done (.ok (.entry .unused []))
        | .resolved t => showL pool d t)).size ≤ showBound d + 3 := by
      intro c x
      cases x with
      | unresolved _ => exact size_showCell (by simp [Prog.size])
      | resolved t => exact size_showCell (size_show d t)
    have one : ∀ (c : Cell) (x : CPRef) (e : Entry), (Prog.bind (showCell c (match x with
        | .unresolved _ => .done (.ok (.entry .unused []))
        | .resolved t => showL pool d t)) fun a => .done (.ok (Shown.entry e [a]))).size ≤ showBound (d + 1) := by
      intro c x e
      have := hs c x
      exact Nat.le_trans (size_bind (n := 0) (fun _ => by simp [Prog.size]) _) (by simp only [showBound]; omega)
    have two : ∀ (c c' : Cell) (x y : CPRef) (e : Entry), (Prog.bind (showCell c (match x with
        | .unresolved _ => .done (.ok (.entry .unused []))
        | .resolved t => showL pool d t)) fun a => Prog.bind (showCell c' (match y with
        | .unresolved _ => .done (.ok (.entry .unused []))
        | .resolved t => showL pool d t)) fun b => .done (.ok (Shown.entry e [a, b]))).size ≤ showBound (d + 1) := by
      intro c c' x y e
      have h1 := hs c x
      have h2 := hs c' y
      refine Nat.le_trans (size_bind (n := showBound d + 3) (fun _ => ?_) _) (by simp only [showBound]; omega)
      exact Nat.le_trans (size_bind (n := 0) (fun _ => by simp [Prog.size]) _) h2
    refine size_done_bind fun e => ?_
    cases e
    case classInfo | string | methodHandle | methodType | dynamic | invokeDynamic | moduleInfo | packageInfo => exact one _ _ _
    case fieldRef | methodRef | interfaceMethodRef | nameAndType => exact two _ _ _ _ _
    all_goals simp [Prog.size]

theorem size_showFrom {pool : Pool} (d : Nat) : ∀ (es : List Entry) (i : Nat), (showFromL pool d i es).size ≤ es.length * showBound d
  | [], _ => by simp [showFromL, Prog.size]
  | e :: es, i => by
    unfold showFromL
    refine Nat.le_trans (size_bind (n := es.length * showBound d) (fun _ => ?_) _)
      (Nat.le_trans (Nat.add_le_add_right (size_show d i) _) (by simp only [List.length_cons, Nat.add_mul]; omega))
    exact Nat.le_trans (size_bind (n := 0) (fun _ => by simp [Prog.size]) _) (size_showFrom d es _)

/-- Bound for the steps of one call. -/
def callBound (pool : Pool) : Nat := 19 * (pool.length + 1) + pool.length * showBound (pool.length + 4)

theorem size_code {it : ConstantPoolIter} (c : Call) : (c.code it).size ≤ callBound it.pool := by
  unfold callBound
  cases c with
  | next => exact Nat.le_trans (size_mapL _ _) (Nat.le_trans size_next (by omega))
  | nextCaught => exact Nat.le_trans (size_mapL _ _) (Nat.le_trans size_next (by omega))
  | restart => simp [Call.code, Prog.size]
  | debug => exact Nat.le_trans (size_mapL _ _) (Nat.le_trans (size_showFrom _ _ _) (by omega))

/-- Steps a thread may still make. -/
def weight (pool : Pool) (t : Thread) : Nat :=
  t.calls.length * (callBound pool + 2) + t.held.length + match t.run with
    | none => 0
    | some p => p.size + 1

theorem weight_step {pool : Pool} {m : Machine} {t t' : Thread} {po : Cell → Prop} (hp : t.iter.pool = pool) (h : ThreadStep m t t' po) :
    weight pool t' < weight pool t := by
  cases h with
  | @call c cs h1 h2 =>
    have := size_code (it := t.iter) c
    rw [hp] at this
    simp only [weight, h1, h2, List.length_cons, Nat.add_mul]
    omega
  | lock h1 => simp only [weight, h1, List.length_cons, Prog.size]; omega
  | refused h1 => simp only [weight, h1, Prog.size]; omega
  | @unlock c p h1 =>
    have : (t.held.erase c).length ≤ t.held.length := List.length_erase_le
    simp only [weight, h1, Prog.size]; omega
  | took h1 => simp only [weight, h1, List.length_cons, Prog.size]; omega
  | missed h1 => simp only [weight, h1, Prog.size]; omega
  | setIndex h1 => simp only [weight, h1, Prog.size]; omega
  | caught h1 => simp only [weight, h1, Prog.size]; omega
  | caughtPoisoned h1 => simp only [weight, h1, Prog.size]; omega
  | returned h1 => simp only [weight, h1, Prog.size]; omega
  | unwind h1 h2 => simp only [weight, h1, h2, List.length_cons]; omega
  | unwindPoisoned h1 h2 => simp only [weight, h1, h2, List.length_cons]; omega

theorem sum_set {f : Thread → Nat} {t t' : Thread} : ∀ (l : List Thread) (i : Nat), l[i]? = some t → f t' < f t →
    ((l.set i t').map f).sum < (l.map f).sum
  | [], _, h, _ => by simp at h
  | a :: l, 0, h, hlt => by
    simp at h; subst h
    simpa using hlt
  | a :: l, i + 1, h, hlt => by
    have := sum_set l i (by simpa using h) hlt
    simp only [List.set_cons_succ, List.map_cons, List.sum_cons]
    omega

theorem measure_step {pool : Pool} {jobs : List (List Call)} {m m' : Machine} (h : MachineInv pool jobs m) (hs : Step m m') :
    (m'.threads.map (weight pool)).sum < (m.threads.map (weight pool)).sum := by
  obtain ⟨i, t, t', hi, hset, hst⟩ := step_set hs
  obtain ⟨_, _, -, -, hp, -⟩ := inv_job h (List.mem_of_getElem? hi)
  rw [hset]
  exact sum_set _ i hi (weight_step hp hst)

theorem steps_bound {major : UInt16} {pool : Pool} (hg : GoodPool major pool) {jobs : List (List Call)} {m m' : Machine} {n : Nat}
    (h : MachineInv pool jobs m) (hs : StepsTo n m m') : MachineInv pool jobs m' ∧ n + (m'.threads.map (weight pool)).sum ≤ (m.threads.map (weight pool)).sum := by
  induction hs with
  | refl => exact ⟨h, by omega⟩
  | step _ h2 ih =>
    obtain ⟨h3, h4⟩ := ih h
    have := measure_step h3 h2
    exact ⟨machineInv_step hg h3 h2, by omega⟩

theorem steps_head {n : Nat} {m m' m'' : Machine} (h : Step m m') (hs : StepsTo n m' m'') : StepsTo (n + 1) m m'' := by
  induction hs with
  | refl => exact .step (.refl m) h
  | step _ h2 ih => exact .step (ih h) h2

/-- From every state satisfying the invariant all threads can finish. -/
theorem can_finish {major : UInt16} {pool : Pool} (hg : GoodPool major pool) {jobs : List (List Call)} : ∀ (k : Nat) (m : Machine),
    MachineInv pool jobs m → (m.threads.map (weight pool)).sum ≤ k → ∃ m', Reaches m m' ∧ ∀ t ∈ m'.threads, Finished t
  | k, m, h, hk => by
    by_cases hf : ∀ t ∈ m.threads, Finished t
    · exact ⟨m, ⟨0, .refl m⟩, hf⟩
    · simp only [not_forall] at hf
      obtain ⟨t, ht, hf⟩ := hf
      obtain ⟨m', hs⟩ := progress h ht hf
      have := measure_step h hs
      match k, hk with
      | 0, hk => omega
      | k + 1, hk =>
        obtain ⟨m'', ⟨n, h1⟩, h2⟩ := can_finish hg k m' (machineInv_step hg h hs) (by omega)
        exact ⟨m'', ⟨n + 1, steps_head hs h1⟩, h2⟩

end Cafebabe
