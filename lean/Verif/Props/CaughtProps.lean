import Verif.Spec.Caught
import Verif.Props.ThreadProps
/-!
# Properties of iterating a constant pool and catching the panics: C77
-/

namespace Cafebabe
open Spec Examples

theorem caught_of_panic {it : ConstantPoolIter} {k : PanicKind} (h : it.next = .panic k) : ∃ it', it.nextCaught = .ok (.panicked, it') := by
  rw [nextAt_next] at h
  unfold ConstantPoolIter.nextCaught
  revert h
  rcases it.nextAt with ⟨r, i⟩
  intro h
  cases r with
  | ok o => cases h
  | err e => cases h
  | panic k => exact ⟨_, rfl⟩
  | diverge => cases h

/-- Where the loop stops: at the slot it shows or panics at. -/
theorem loopAt_finds {major : UInt16} {pool : Pool} (hg : GoodPool major pool) : ∀ (fuel k : Nat), pool.length ≤ fuel + k →
    match usableAfter pool k with
    | [] => ∃ k', iterNextLoopAt pool (fuel + 1) k = (.ok none, k') ∧ usableAfter pool k' = []
    | i :: rest => (∃ r, iterNextLoopAt pool (fuel + 1) k = (r, i) ∧ ((BadAt pool i ∧ r = .panic .nonUtf8) ∨
        (¬ BadAt pool i ∧ ∃ item, ItemAt pool i item ∧ r = .ok (some item)))) ∧ usableAfter pool i = rest
  | 0, k, h => by
    rw [usableAfter_end (by omega)]
    exact ⟨k, by unfold iterNextLoopAt; rw [if_neg (by omega)], usableAfter_end (by omega)⟩
  | fuel + 1, k, h => by
    unfold iterNextLoopAt
    by_cases hk : k + 1 < pool.length
    · rw [if_pos hk]
      obtain ⟨e, he⟩ : ∃ e, pool[k + 1]? = some e := ⟨_, List.getElem?_eq_getElem hk⟩
      have hz : e ≠ .zero := by
        rintro rfl
        have := hg.zero _ he
        omega
      have hat : poolAt pool (k + 1) = .ok e := by unfold poolAt; rw [he]
      rw [usableAfter_step he]
      simp only [hat, Res.bind]
      cases hu : usable e with
      | false =>
        rw [if_neg (by simp)]
        simp only [itemOf_skip hz hu]
        exact loopAt_finds hg fuel (k + 1) (by omega)
      | true =>
        rw [if_pos rfl]
        refine ⟨?_, rfl⟩
        by_cases hb : BadAt pool (k + 1)
        · simp only [itemOf_bad hg.ok he hb]
          exact ⟨_, rfl, .inl ⟨hb, rfl⟩⟩
        · obtain ⟨item, hitem⟩ := item_exists hg.ok he hu hb
          simp only [itemOf_of_itemAt he hitem]
          exact ⟨_, rfl, .inr ⟨hb, item, hitem, rfl⟩⟩
    · rw [if_neg hk, usableAfter_end hk]
      exact ⟨k, rfl, usableAfter_end hk⟩

theorem caught_finds {major : UInt16} {pool : Pool} (hg : GoodPool major pool) (k : Nat) :
    match usableAfter pool k with
    | [] => ∃ k', ConstantPoolIter.nextCaught ⟨pool, k⟩ = .ok (.returned none, ⟨pool, k'⟩) ∧ usableAfter pool k' = []
    | i :: rest => (∃ r, ConstantPoolIter.nextCaught ⟨pool, k⟩ = .ok (r, ⟨pool, i⟩) ∧ ShowsSlot pool i r) ∧ usableAfter pool i = rest := by
  have h := loopAt_finds hg pool.length k (by omega)
  unfold ConstantPoolIter.nextCaught ConstantPoolIter.nextAt
  split at h
  · obtain ⟨k', h, h'⟩ := h
    exact ⟨k', by rw [h], h'⟩
  · obtain ⟨⟨r, h, h1⟩, h2⟩ := h
    refine ⟨?_, h2⟩
    simp only [h]
    rcases h1 with ⟨hb, rfl⟩ | ⟨hb, item, hi, rfl⟩
    · exact ⟨_, rfl, .panics hb⟩
    · exact ⟨_, rfl, .item hb hi⟩

theorem nthCaught_finds {major : UInt16} {pool : Pool} (hg : GoodPool major pool) (n : Nat) : ∀ k : Nat,
    ∃ r, nthCaught ⟨pool, k⟩ n = .ok r ∧ match (usableAfter pool k)[n]? with
      | some i => ShowsSlot pool i r
      | none => r = .returned none := by
  induction n with
  | zero =>
    intro k
    have h := caught_finds hg k
    split at h
    · rename_i hl
      obtain ⟨k', h, -⟩ := h
      exact ⟨.returned none, by simp only [nthCaught, h, Res.ok_bind], by rw [hl]; rfl⟩
    · rename_i i rest hl
      obtain ⟨⟨r, h, h1⟩, -⟩ := h
      exact ⟨r, by simp only [nthCaught, h, Res.ok_bind], by rw [hl]; exact h1⟩
  | succ n ih =>
    intro k
    have h := caught_finds hg k
    split at h
    · rename_i hl
      obtain ⟨k', h, h2⟩ := h
      obtain ⟨r, h3, h4⟩ := ih k'
      rw [h2] at h4
      exact ⟨r, by simp only [nthCaught, h, Res.ok_bind, h3], by rw [hl]; exact h4⟩
    · rename_i i rest hl
      obtain ⟨⟨r, h, h1⟩, h2⟩ := h
      obtain ⟨r', h3, h4⟩ := ih i
      rw [h2] at h4
      exact ⟨r', by simp only [nthCaught, h, Res.ok_bind, h3], by rw [hl]; exact h4⟩

/-! ## C77 A panic of constantpool_iter can be caught -/

/-- The `n`-th call shows the `n`-th usable slot, whatever happened before: it panics if that is a NameAndType constant with undecodable
descriptor, and returns its item otherwise; after the last slot it returns `None`. -/
theorem C77_nth {o : Opts} {bytes : Bytes} {cf : ClassFile} (h : Accepts o bytes cf) (n : Nat) :
    ∃ r, nthCaught cf.constantpoolIter n = .ok r ∧ match (usableSlots cf.constantPool)[n]? with
      | some i => ShowsSlot cf.constantPool i r
      | none => r = .returned none := by
  have hg := goodPool_of_accepts h
  rw [usableAfter_zero hg.first]
  exact nthCaught_finds hg n 0

/-- Catching changes nothing but what a panic does: for every iterator, a call returns the same and leaves the same iterator with and
without `catch_unwind`, and one panics exactly if the other reports a panic. -/
theorem C77_same (it : ConstantPoolIter) :
    (∀ o it', it.next = .ok (o, it') ↔ it.nextCaught = .ok (.returned o, it')) ∧
    ((∃ k, it.next = .panic k) ↔ ∃ it', it.nextCaught = .ok (.panicked, it')) := by
  have hback : ∀ r it', it.nextCaught = .ok (r, it') → (∃ o, r = .returned o ∧ it.next = .ok (o, it')) ∨ (r = .panicked ∧ ∃ k, it.next = .panic k) := by
    intro r it' h
    rw [nextAt_next]
    unfold ConstantPoolIter.nextCaught at h
    revert h
    rcases it.nextAt with ⟨q, i⟩
    intro h
    cases q with
    | ok o => cases h; exact .inl ⟨o, rfl, rfl⟩
    | err e => cases h
    | panic k => cases h; exact .inr ⟨rfl, k, rfl⟩
    | diverge => cases h
  refine ⟨fun o it' => ⟨nextCaught_of_next, fun h => ?_⟩, fun ⟨k, h⟩ => caught_of_panic h, fun ⟨it', h⟩ => ?_⟩
  · rcases hback _ _ h with ⟨o', h1, h2⟩ | ⟨h1, -⟩
    · cases h1; exact h2
    · cases h1
  · rcases hback _ _ h with ⟨o', h1, -⟩ | ⟨-, h2⟩
    · cases h1
    · exact h2

/-- What a thread notes down of a call under `catch_unwind`. -/
def replyOf : Caught → Reply
  | .returned item => .item item
  | .panicked => .panicked

theorem caught_inv {it it' : ConstantPoolIter} {r : Reply} (h : Answers it .nextCaught r it') :
    ∃ c, it.nextCaught = .ok (c, it') ∧ r = replyOf c := by
  cases h with
  | nextCaught h => exact ⟨_, h, rfl⟩
  | panicked h => exact ⟨_, h, rfl⟩

/-- The answers to `n` calls under `catch_unwind`. -/
theorem answers_caught : ∀ {n : Nat} {it it' : ConstantPoolIter} {rs : List Reply}, AnswersAll it (List.replicate n .nextCaught) rs it' →
    rs.length = n ∧ (∀ k, nthCaught it (n + k) = nthCaught it' k) ∧
      ∀ k < n, ∃ r, nthCaught it k = .ok r ∧ rs[k]? = some (replyOf r) := by
  intro n
  induction n with
  | zero =>
    intro it it' rs h
    rcases answers_inv h with ⟨-, rfl, rfl⟩ | ⟨_, _, _, _, _, hc, -⟩
    · exact ⟨rfl, fun k => by rw [Nat.zero_add], fun k hk => absurd hk (Nat.not_lt_zero k)⟩
    · simp at hc
  | succ n ih =>
    intro it it' rs h
    rw [List.replicate_succ'] at h
    rcases answers_inv h with ⟨hc, -⟩ | ⟨it1, cs, rs, c, r, hc, rfl, h1, h2⟩
    · simp at hc
    · obtain ⟨hcs, hc'⟩ := List.append_inj' hc rfl
      cases hc'
      subst hcs
      obtain ⟨hl, hk, ha⟩ := ih h1
      obtain ⟨q, hq, rfl⟩ := caught_inv h2
      refine ⟨by simp [hl], fun k => ?_, fun k hlt => ?_⟩
      · rw [Nat.add_assoc, Nat.add_comm 1 k, hk (k + 1)]
        simp only [nthCaught, hq, Res.ok_bind]
      · by_cases hkn : k < n
        · obtain ⟨r, h3, h4⟩ := ha k hkn
          exact ⟨r, h3, by rw [List.getElem?_append_left (by omega)]; exact h4⟩
        · obtain rfl : k = n := by omega
          refine ⟨q, ?_, by rw [← hl, List.getElem?_append_right (by omega)]; simp⟩
          rw [← Nat.add_zero k, hk 0]
          simp only [nthCaught, hq, Res.ok_bind]

/-- A thread that never calls `next()` without `catch_unwind` never dies. -/
theorem C77_survives {o : Opts} {bytes : Bytes} {cf : ClassFile} (h : Accepts o bytes cf) {jobs : List (List Call)} {m : Machine}
    (hr : Reaches (Machine.start cf.constantPool jobs) m) {i : Nat} {t : Thread} {job : List Call} (ht : m.threads[i]? = some t)
    (hj : jobs[i]? = some job) (hno : Call.next ∉ job) : ¬ Panicked t := by
  rintro ⟨hc, hp⟩
  obtain ⟨-, done, -, hrun⟩ := (machineInv_reach (goodPool_of_accepts h) hr).thread i t job ht hj
  have key : ∀ cur, job = done ++ cur :: t.calls → t.catching = (cur == .nextCaught) → CallPanics t.iter cur t.index → False := by
    rintro cur hjob hcatch ⟨rfl | rfl, -⟩
    · exact hno (by rw [hjob]; simp)
    · rw [hc] at hcatch; cases hcatch
  rcases hp with ⟨k, hp⟩ | hp
  · rw [hp] at hrun
    obtain ⟨cur, h1, h2, -, h3, -⟩ := hrun
    exact key cur h1 h2 h3
  · rw [hp] at hrun
    obtain ⟨cur, h1, h2, h3, -⟩ := hrun
    exact key cur h1 h2 h3

theorem finished_all {o : Opts} {bytes : Bytes} {cf : ClassFile} (h : Accepts o bytes cf) {jobs : List (List Call)} {m : Machine}
    (hr : Reaches (Machine.start cf.constantPool jobs) m) {i : Nat} {t : Thread} {job : List Call} (ht : m.threads[i]? = some t)
    (hj : jobs[i]? = some job) (hno : Call.next ∉ job) (hf : Finished t) : AnswersAll cf.constantpoolIter job t.log t.iter := by
  obtain ⟨done, rest, hjob, hd, hfin⟩ := C41_answers h hr ht hj
  rcases hfin hf with rfl | ⟨cs, rfl, -⟩
  · rw [hjob, List.append_nil]; exact hd
  · exact absurd (by rw [hjob]; simp) hno

/-- The same in the threadsafe build, with any number of threads and under every schedule, although the panics poison mutexes: once a thread that
iterates under `catch_unwind` is finished, its `k`-th call has had the answer it has in a program with one thread. -/
theorem C77_threads {o : Opts} {bytes : Bytes} {cf : ClassFile} (h : Accepts o bytes cf) {lengths : List Nat} {m : Machine}
    (hr : Reaches (Machine.start cf.constantPool (lengths.map fun n => List.replicate n .nextCaught)) m)
    {i n : Nat} {t : Thread} (ht : m.threads[i]? = some t) (hn : lengths[i]? = some n) (hf : Finished t) :
    t.log.length = n ∧ ∀ k < n, ∃ r, nthCaught cf.constantpoolIter k = .ok r ∧ t.log[k]? = some (replyOf r) := by
  have hd := finished_all h hr ht (job := List.replicate n .nextCaught) (by simp [hn]) (fun h => by cases (List.mem_replicate.mp h).2) hf
  obtain ⟨h1, -, h2⟩ := answers_caught hd
  exact ⟨h1, h2⟩

theorem answers_append {it : ConstantPoolIter} {as : List Call} : ∀ (n : Nat) {bs : List Call} {rs : List Reply} {it'' : ConstantPoolIter},
    bs.length = n → AnswersAll it (as ++ bs) rs it'' → ∃ it' r1 r2, rs = r1 ++ r2 ∧ AnswersAll it as r1 it' ∧ AnswersAll it' bs r2 it''
  | 0, bs, rs, it'', hn, h => by
    obtain rfl := List.length_eq_zero_iff.mp hn
    rw [List.append_nil] at h
    exact ⟨it'', rs, [], by simp, h, .nil _⟩
  | n + 1, bs, rs, it'', hn, h => by
    rcases List.eq_nil_or_concat bs with rfl | ⟨bs', b, rfl⟩
    · cases hn
    · rw [List.concat_eq_append, ← List.append_assoc] at h
      rcases answers_inv h with ⟨hc, -⟩ | ⟨it1, cs, rs', c, r, hc, rfl, h1, h2⟩
      · simp at hc
      · obtain ⟨hcs, hc'⟩ := List.append_inj' hc rfl
        cases hc'
        subst hcs
        obtain ⟨it', r1, r2, rfl, h3, h4⟩ := answers_append n (by simpa using hn) h1
        exact ⟨it', r1, r2 ++ [r], by simp, h3, by rw [List.concat_eq_append]; exact .snoc h4 h2⟩

theorem answersAll_pool {it it' : ConstantPoolIter} {cs : List Call} {rs : List Reply} (h : AnswersAll it cs rs it') : it'.pool = it.pool := by
  induction h with
  | nil => rfl
  | snoc _ h2 ih => exact (answers_pool h2).trans ih

/-- A class can be iterated again after panics: a thread that makes `a` calls, takes a new iterator and makes `b` calls gets from the new
iterator what the first one gave, whatever its own panics and those of other threads have poisoned. -/
theorem C77_again {o : Opts} {bytes : Bytes} {cf : ClassFile} (h : Accepts o bytes cf) {jobs : List (List Call)} {m : Machine}
    (hr : Reaches (Machine.start cf.constantPool jobs) m) {i a b : Nat} {t : Thread} (ht : m.threads[i]? = some t)
    (hj : jobs[i]? = some (List.replicate a .nextCaught ++ .restart :: List.replicate b .nextCaught)) (hf : Finished t) :
    ∃ first second, t.log = first ++ .restarted :: second ∧ first.length = a ∧ second.length = b ∧
      (∀ k < a, ∃ r, nthCaught cf.constantpoolIter k = .ok r ∧ first[k]? = some (replyOf r)) ∧
      ∀ k < b, ∃ r, nthCaught cf.constantpoolIter k = .ok r ∧ second[k]? = some (replyOf r) := by
  have hd := finished_all h hr ht hj (fun h => by
    rcases List.mem_append.mp h with h | h
    · cases (List.mem_replicate.mp h).2
    · rcases List.mem_cons.mp h with h | h
      · cases h
      · cases (List.mem_replicate.mp h).2) hf
  rw [show List.replicate a Call.nextCaught ++ Call.restart :: List.replicate b Call.nextCaught =
    (List.replicate a Call.nextCaught ++ [Call.restart]) ++ List.replicate b Call.nextCaught by simp] at hd
  obtain ⟨it2, r12, r3, hlog, h12, h3⟩ := answers_append _ rfl hd
  rcases answers_inv h12 with ⟨hc, -⟩ | ⟨it1, cs, rs', c, r, hc, rfl, h1, h2⟩
  · simp at hc
  · obtain ⟨hcs, hc'⟩ := List.append_inj' hc rfl
    cases hc'
    subst hcs
    have hp := answersAll_pool h1
    cases h2 with
    | restart =>
      obtain ⟨l1, -, n1⟩ := answers_caught h1
      obtain ⟨l3, -, n3⟩ := answers_caught h3
      refine ⟨rs', r3, by rw [hlog]; simp, l1, l3, n1, fun k hk => ?_⟩
      obtain ⟨r, hr, hk⟩ := n3 k hk
      rw [hp] at hr
      exact ⟨r, hr, hk⟩

/-! ### A case -/

/-- A class whose first usable constant is a NameAndType with undecodable descriptor, followed by a Class and an Integer. -/
def oddFirst : Bytes :=
  header 0 52 ++ u2 6 ++ text "A" ++ [1, 0, 1, 0xFF] ++ [12, 0, 1, 0, 2] ++ [7, 0, 1] ++ [3, 0, 0, 0, 7] ++
    [0, 0x21, 0, 4, 0, 0, 0, 0, 0, 0, 0, 0, 0, 0]

/-- The class file `oddFirst` parses to. -/
def oddFirstCf : ClassFile :=
  match run debug 9 oddFirst with
  | .ok cf => cf
  | _ => richCf

theorem oddFirst_eval : (match run debug 9 oddFirst with
    | .ok cf => decide (cf.constantPool = [.zero, .utf8 ['A'], .utf8Bytes [0xFF], .nameAndType (.resolved 1) (.resolved 2), .classInfo (.resolved 1), .integer 7])
    | _ => false) = true := by decide +kernel

theorem oddFirst_accepted : Accepts debug oddFirst oddFirstCf := by
  refine ⟨9, ?_⟩
  have h := oddFirst_eval
  unfold oddFirstCf
  cases hr : run debug 9 oddFirst with
  | ok cf => rfl
  | err e => rw [hr] at h; cases h
  | panic k => rw [hr] at h; cases h
  | diverge => rw [hr] at h; cases h

theorem oddFirst_pool : oddFirstCf.constantPool =
    [.zero, .utf8 ['A'], .utf8Bytes [0xFF], .nameAndType (.resolved 1) (.resolved 2), .classInfo (.resolved 1), .integer 7] := by
  have h := oddFirst_eval
  unfold oddFirstCf
  cases hr : run debug 9 oddFirst with
  | ok cf => rw [hr] at h; exact of_decide_eq_true h
  | err e => rw [hr] at h; cases h
  | panic k => rw [hr] at h; cases h
  | diverge => rw [hr] at h; cases h

/-- Iterating it, the first call panics, the next two show the Class and the Integer, and the fourth returns `None`. -/
theorem C77_case : nthCaught oddFirstCf.constantpoolIter 0 = .ok .panicked ∧
    nthCaught oddFirstCf.constantpoolIter 1 = .ok (.returned (some (.classInfo ['A']))) ∧
    nthCaught oddFirstCf.constantpoolIter 2 = .ok (.returned (some (.literalConstant (.integer 7)))) ∧
    nthCaught oddFirstCf.constantpoolIter 3 = .ok (.returned none) := by
  unfold ClassFile.constantpoolIter
  rw [oddFirst_pool]
  exact ⟨rfl, rfl, rfl, rfl⟩

/-- The code of `next()` before the third slot of `oddFirst`. -/
theorem oddFirst_code : Call.nextCaught.code (ConstantPoolIter.new oddFirstCf.constantPool) =
    .setIndex 1 (.setIndex 2 (.setIndex 3 (.lock ⟨3, false⟩ (.lock ⟨3, true⟩ (.done (.panic .nonUtf8)))))) := by
  rw [oddFirst_pool]
  rfl

/-- With the feature `threadsafe`, a thread goes on with a poisoned mutex behind it. -/
theorem C77_poisoned : ∃ m t, Reaches (Machine.start oddFirstCf.constantPool [[.nextCaught, .nextCaught]]) m ∧ m.threads = [t] ∧
    m.poison ⟨3, true⟩ ∧ m.poison ⟨3, false⟩ ∧ t.log = [.panicked] ∧ t.run = none ∧ t.calls = [.nextCaught] ∧ t.iter.index = 3 := by
  let it := ConstantPoolIter.new oddFirstCf.constantPool
  let at_ (held : List Cell) (p : Prog (Reply × ConstantPoolIter)) (ix : Nat) : Thread := ⟨[.nextCaught], it, held, some p, [], ix, true⟩
  let c := Cell.mk 3 false
  let d := Cell.mk 3 true
  let pa : Prog (Reply × ConstantPoolIter) := .done (.panic .nonUtf8)
  let t0 : Thread := ⟨[.nextCaught, .nextCaught], it, [], none, [], 0, false⟩
  let t1 := at_ [] (.setIndex 1 (.setIndex 2 (.setIndex 3 (.lock c (.lock d pa))))) 0
  let t2 := at_ [] (.setIndex 2 (.setIndex 3 (.lock c (.lock d pa)))) 1
  let t3 := at_ [] (.setIndex 3 (.lock c (.lock d pa))) 2
  let t4 := at_ [] (.lock c (.lock d pa)) 3
  let t5 := at_ [c] (.lock d pa) 3
  let t6 := at_ [d, c] pa 3
  let t7 := at_ [c] pa 3
  let t8 := at_ [] pa 3
  let t9 : Thread := ⟨[.nextCaught], { it with index := 3 }, [], none, [.panicked], 3, true⟩
  let p0 : Cell → Prop := fun _ => False
  let p1 : Cell → Prop := fun x => x = d ∨ p0 x
  let p2 : Cell → Prop := fun x => x = c ∨ p1 x
  have s1 : Step ⟨[t0], p0⟩ ⟨[t1], p0⟩ := by
    have h : ThreadStep ⟨[t0], p0⟩ t0 _ p0 := .call (c := .nextCaught) (cs := [.nextCaught]) rfl rfl
    rw [show Call.nextCaught.code t0.iter = _ from oddFirst_code] at h
    exact @Step.mk [] [] t0 t1 p0 p0 h
  have s2 : Step ⟨[t1], p0⟩ ⟨[t2], p0⟩ := @Step.mk [] [] t1 t2 p0 p0 (.setIndex rfl)
  have s3 : Step ⟨[t2], p0⟩ ⟨[t3], p0⟩ := @Step.mk [] [] t2 t3 p0 p0 (.setIndex rfl)
  have s4 : Step ⟨[t3], p0⟩ ⟨[t4], p0⟩ := @Step.mk [] [] t3 t4 p0 p0 (.setIndex rfl)
  have s5 : Step ⟨[t4], p0⟩ ⟨[t5], p0⟩ := @Step.mk [] [] t4 t5 p0 p0 (.lock rfl (by
    intro t ht; rw [List.mem_singleton.mp ht]; exact List.not_mem_nil) (fun h => h))
  have s6 : Step ⟨[t5], p0⟩ ⟨[t6], p0⟩ := @Step.mk [] [] t5 t6 p0 p0 (.lock rfl (by
    intro t ht; rw [List.mem_singleton.mp ht]
    show d ∉ [c]
    decide) (fun h => h))
  have s7 : Step ⟨[t6], p0⟩ ⟨[t7], p1⟩ := @Step.mk [] [] t6 t7 p0 p1 (.unwind rfl rfl)
  have s8 : Step ⟨[t7], p1⟩ ⟨[t8], p2⟩ := @Step.mk [] [] t7 t8 p1 p2 (.unwind rfl rfl)
  have s9 : Step ⟨[t8], p2⟩ ⟨[t9], p2⟩ := @Step.mk [] [] t8 t9 p2 p2 (.caught rfl rfl rfl)
  exact ⟨⟨[t9], p2⟩, t9, ⟨9, .step (.step (.step (.step (.step (.step (.step (.step (.step (.refl _) s1) s2) s3) s4) s5) s6) s7) s8) s9⟩, rfl,
    .inr (.inl rfl), .inl rfl, rfl, rfl, rfl, rfl⟩

end Cafebabe
