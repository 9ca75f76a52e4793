import Mathlib.Data.Finset.Card
import Mathlib.Data.Finset.Range
import Verif.Spec.Chains
import Verif.Proofs.Tame
import Verif.Proofs.Agree
/-!
# Proofs: when does the validation of a constant pool return?
-/

namespace Cafebabe
open Spec

/-- All references are links to slots of the pool. -/
def Linked (pool : Pool) : Prop :=
  ∀ (i : Nat) (e : Entry), pool[i]? = some e → ∀ x ∈ refsOf e, ∃ k, x = .resolved k ∧ k < pool.length

theorem Linked.peel {pool : Pool} (h : Linked pool) {i : Nat} {e : Entry} (hi : pool[i]? = some e) {x : CPRef} (hx : x ∈ refsOf e) :
    ∃ k f, x = .resolved k ∧ pool[k]? = some f ∧ Cafebabe.peel pool x = .ok f := by
  obtain ⟨k, rfl, hk⟩ := h i e hi x hx
  exact ⟨k, pool[k], rfl, List.getElem?_eq_getElem hk, peel_resolved (List.getElem?_eq_getElem hk)⟩

/-! ## Chains -/

/-- The slot the descriptor of slot `i` is in (`i` itself when it is no linked NameAndType). -/
def next (pool : Pool) (i : Nat) : Nat :=
  match pool[i]? with
  | some (.nameAndType _ (.resolved j)) => j
  | _ => i

theorem next_of {pool : Pool} {i j : Nat} (h : DescriptorOf pool i j) : next pool i = j := by
  obtain ⟨x, hx⟩ := h
  unfold next
  rw [hx]

theorem descriptorOf_unique {pool : Pool} {i j k : Nat} (h : DescriptorOf pool i j) (h' : DescriptorOf pool i k) : j = k := by
  rw [← next_of h, next_of h']

theorem descriptorOf_lt {pool : Pool} {i j : Nat} (h : DescriptorOf pool i j) : i < pool.length := by
  obtain ⟨x, hx⟩ := h
  exact (List.getElem?_eq_some_iff.mp hx).1

/-- `n` steps of a chain from `i`. -/
def steps (pool : Pool) : Nat → Nat → Nat
  | 0, i => i
  | n + 1, i => next pool (steps pool n i)

theorem steps_add {pool : Pool} (a i : Nat) : ∀ b, steps pool (a + b) i = steps pool b (steps pool a i)
  | 0 => rfl
  | b + 1 => by show next pool (steps pool (a + b) i) = _; rw [steps_add a i b]; rfl

theorem endless_of_steps {pool : Pool} {i : Nat} (h : ∀ k, DescriptorOf pool (steps pool k i) (steps pool (k + 1) i)) : Endless pool i :=
  ⟨fun k => steps pool k i, rfl, h⟩

/-- A chain longer than the pool never ends. -/
theorem endless_of_long {pool : Pool} {i n : Nat} (hn : pool.length < n)
    (h : ∀ k, k < n → DescriptorOf pool (steps pool k i) (steps pool (k + 1) i)) : Endless pool i := by
  have hmap : ∀ a ∈ Finset.range n, steps pool a i ∈ Finset.range pool.length := fun a ha => by
    rw [Finset.mem_range] at ha ⊢
    exact descriptorOf_lt (h a ha)
  obtain ⟨a, ha, b, hb, hne, he⟩ := Finset.exists_ne_map_eq_of_card_lt_of_maps_to (by simpa using hn) hmap
  rw [Finset.mem_range] at ha hb
  -- wlog `a < b`
  have key : ∀ a b, a < b → b < n → steps pool a i = steps pool b i → Endless pool i := by
    intro a b hab hb he
    refine endless_of_steps fun k => ?_
    induction k using Nat.strongRecOn with
    | _ k ih =>
      by_cases hk : k < n
      · exact h k hk
      · have e1 : steps pool k i = steps pool (k - b) (steps pool b i) := by rw [← steps_add]; congr 1; omega
        have e2 : steps pool (k - b + a) i = steps pool (k - b) (steps pool a i) := by rw [← steps_add]; congr 1; omega
        have e3 : steps pool k i = steps pool (k - b + a) i := by rw [e1, e2, he]
        have := ih (k - b + a) (by omega)
        show DescriptorOf pool (steps pool k i) (next pool (steps pool k i))
        rw [e3]
        exact this
  rcases Nat.lt_or_gt_of_ne hne with hlt | hgt
  · exact key a b hlt hb he
  · exact key b a hgt ha he.symm

theorem endless_step {pool : Pool} {i : Nat} (h : Endless pool i) : ∃ j, DescriptorOf pool i j ∧ Endless pool j := by
  obtain ⟨f, rfl, hf⟩ := h
  exact ⟨f 1, hf 0, fun k => f (k + 1), rfl, fun k => hf (k + 1)⟩

theorem endless_not_ends {pool : Pool} {i j : Nat} (hl : LeadsTo pool i j) : Endless pool i → ∀ s, ¬ TextAt pool j s := by
  induction hl with
  | refl i =>
    intro he s ht
    obtain ⟨j, ⟨x, hx⟩, -⟩ := endless_step he
    unfold TextAt at ht
    rw [hx] at ht
    cases ht
  | step hd _ ih =>
    intro he
    obtain ⟨j', hd', he'⟩ := endless_step he
    rw [← descriptorOf_unique hd hd'] at he'
    exact ih he'

/-! ## The method descriptor check -/

theorem vmd_nat {pool : Pool} {d : Nat} {x y : CPRef} :
    Entry.validateMethodDescriptor pool (d + 1) (.nameAndType x y) =
      (peel pool y >>= fun e => Entry.validateMethodDescriptor pool d e) := rfl

theorem vmd_other {pool : Pool} {d : Nat} {e : Entry} (h : ∀ a b, e ≠ .nameAndType a b) :
    Entry.validateMethodDescriptor pool (d + 1) e = (e.str >>= fun s => isMethodDescriptor s >>= fun b => okIf b "Invalid method descriptor") := by
  cases e <;> first | rfl | exact absurd rfl (h _ _)

theorem str_calm {A : PanicKind → Prop} (e : Entry) : Calm A e.str := by
  cases e <;> first | exact Calm.ok | exact Calm.fail

theorem vmd_other_calm {A : PanicKind → Prop} {pool : Pool} {d : Nat} {e : Entry} (h : ∀ a b, e ≠ .nameAndType a b) :
    Calm A (Entry.validateMethodDescriptor pool (d + 1) e) := by
  rw [vmd_other h]
  exact Calm.bind (str_calm e) fun s _ => Calm.bind (isMethodDescriptor_checks s).calm fun _ _ => okIf_calm

/-- The check never panics on a linked pool. -/
theorem vmd_nopanic {pool : Pool} (hl : Linked pool) : ∀ (d : Nat) (i : Nat) (e : Entry), pool[i]? = some e → ∀ k,
    Entry.validateMethodDescriptor pool d e ≠ .panic k
  | 0, _, _, _, _ => by simp [Entry.validateMethodDescriptor]
  | d + 1, i, e, hi, k => by
    by_cases hn : ∃ a b, e = .nameAndType a b
    · obtain ⟨a, b, rfl⟩ := hn
      obtain ⟨j, f, rfl, hj, hp⟩ := hl.peel hi (x := b) (by simp [refsOf])
      rw [vmd_nat, hp]
      exact vmd_nopanic hl d j f hj k
    · intro h
      exact ((vmd_other_calm (A := fun _ => False) (fun a b hab => hn ⟨a, b, hab⟩) : Calm _ (Entry.validateMethodDescriptor pool (d + 1) e)).1 k h).elim

theorem vmd_endless {pool : Pool} : ∀ (d i : Nat) (e : Entry), pool[i]? = some e → Endless pool i →
    Entry.validateMethodDescriptor pool d e = .diverge
  | 0, _, _, _, _ => rfl
  | d + 1, i, e, hi, he => by
    obtain ⟨j, ⟨x, hx⟩, hj⟩ := endless_step he
    obtain ⟨k, ⟨y, hy⟩, -⟩ := endless_step hj
    rw [hx] at hi
    cases hi
    rw [vmd_nat, peel_resolved hy]
    exact vmd_endless d j _ hy hj

theorem vmd_diverge_steps {pool : Pool} (hl : Linked pool) : ∀ (d i : Nat) (e : Entry), pool[i]? = some e →
    Entry.validateMethodDescriptor pool d e = .diverge → ∀ k, k < d → DescriptorOf pool (steps pool k i) (steps pool (k + 1) i)
  | 0, _, _, _, _, k, hk => by omega
  | d + 1, i, e, hi, hd, k, hk => by
    by_cases hn : ∃ a b, e = .nameAndType a b
    · obtain ⟨a, b, rfl⟩ := hn
      obtain ⟨j, f, rfl, hj, hp⟩ := hl.peel hi (x := b) (by simp [refsOf])
      rw [vmd_nat, hp] at hd
      have h1 : DescriptorOf pool i j := ⟨a, hi⟩
      cases k with
      | zero => show DescriptorOf pool i (next pool i); rw [next_of h1]; exact h1
      | succ k =>
        have e1 : ∀ m, steps pool (m + 1) i = steps pool m j := fun m => by
          rw [Nat.add_comm, steps_add]; show steps pool m (next pool i) = _; rw [next_of h1]
        rw [e1 k, e1 (k + 1)]
        exact vmd_diverge_steps hl d j f hj hd k (by omega)
    · exact absurd hd (vmd_other_calm (A := fun _ => True) (fun a b hab => hn ⟨a, b, hab⟩)).2

theorem vmd_diverge {pool : Pool} (hl : Linked pool) {d i : Nat} {e : Entry} (hi : pool[i]? = some e) (hd : pool.length < d) :
    Entry.validateMethodDescriptor pool d e = .diverge ↔ Endless pool i :=
  ⟨fun h => endless_of_long hd (vmd_diverge_steps hl d i e hi h), vmd_endless d i e hi⟩

theorem vmd_ok_ends {pool : Pool} : ∀ (d i : Nat) (e : Entry), pool[i]? = some e →
    Entry.validateMethodDescriptor pool d e = .ok () → ∃ j s, LeadsTo pool i j ∧ TextAt pool j s ∧ IsMethodDescriptor s
  | 0, _, _, _, h => by cases h
  | d + 1, i, e, hi, h => by
    by_cases hn : ∃ a b, e = .nameAndType a b
    · obtain ⟨a, b, rfl⟩ := hn
      rw [vmd_nat] at h
      obtain ⟨f, hf, h2⟩ := Res.bind_ok.mp h
      obtain ⟨j, rfl, hj⟩ := peel_ok.mp hf
      obtain ⟨k, s, hk, ht, hs⟩ := vmd_ok_ends d j f hj h2
      exact ⟨k, s, .step ⟨a, hi⟩ hk, ht, hs⟩
    · obtain ⟨s, rfl, hs⟩ := (validateMethodDescriptor_text (fun a b hab => hn ⟨a, b, hab⟩)).mp h
      exact ⟨i, s, .refl i, hi, hs⟩

theorem vmd_of_ends {pool : Pool} {i j : Nat} {s : Str} (hl : LeadsTo pool i j) (ht : TextAt pool j s) (hs : IsMethodDescriptor s) :
    ∀ e, pool[i]? = some e → ∃ d0, Entry.validateMethodDescriptor pool d0 e = .ok () := by
  induction hl with
  | refl i =>
    intro e he
    rw [show pool[i]? = _ from ht] at he
    cases he
    exact ⟨1, (validateMethodDescriptor_text (by simp)).mpr ⟨s, rfl, hs⟩⟩
  | @step i j k hd hjk ih =>
    intro e he
    obtain ⟨x, hx⟩ := hd
    rw [hx] at he
    cases he
    have : ∃ f, pool[j]? = some f := by
      cases hjk with
      | refl => exact ⟨_, ht⟩
      | step h _ => obtain ⟨y, hy⟩ := h; exact ⟨_, hy⟩
    obtain ⟨f, hf⟩ := this
    obtain ⟨d0, hd0⟩ := ih ht f hf
    exact ⟨d0 + 1, by rw [vmd_nat, peel_resolved hf]; exact hd0⟩

theorem vmd_ok {pool : Pool} (hl : Linked pool) {d i : Nat} {e : Entry} (hi : pool[i]? = some e) (hd : pool.length < d) :
    Entry.validateMethodDescriptor pool d e = .ok () ↔ ∃ j s, LeadsTo pool i j ∧ TextAt pool j s ∧ IsMethodDescriptor s := by
  refine ⟨vmd_ok_ends d i e hi, ?_⟩
  rintro ⟨j, s, hj, ht, hs⟩
  obtain ⟨d0, hd0⟩ := vmd_of_ends hj ht hs e hi
  rcases Nat.le_total d0 d with hle | hle
  · rcases validateMethodDescriptor_agree (b := .budget) pool d0 d (.inr ⟨rfl, hle⟩) e with h | h
    · rw [hd0] at h; cases h
    · rw [← h]; exact hd0
  · rcases validateMethodDescriptor_agree (b := .budget) pool d d0 (.inr ⟨rfl, hle⟩) e with h | h
    · exact absurd ht (endless_not_ends hj ((vmd_diverge hl hi hd).mp h) s)
    · rw [h]; exact hd0

/-! ## One entry -/

/-- The outcome of checking an entry. -/
structure Outcome (r : Res Unit) (Passes Stuck : Prop) : Prop where
  ok : r = .ok () ↔ Passes
  diverge : r = .diverge ↔ Stuck
  nopanic : ∀ k, r ≠ .panic k

theorem Outcome.of_calm {r : Res Unit} {Q : Prop} (h : r = .ok () ↔ Q) (hc : Calm (fun _ => False) r) : Outcome r Q False :=
  ⟨h, ⟨fun h => hc.2 h, False.elim⟩, fun k h => hc.1 k h⟩

section
variable {pool : Pool} (hl : Linked pool) {i : Nat}
include hl

theorem ensure_calm {e : Entry} (hi : pool[i]? = some e) {x : CPRef} (hx : x ∈ refsOf e) (t : UInt32) {A : PanicKind → Prop} :
    Calm A (x.ensureType pool t) := by
  obtain ⟨k, f, rfl, hk, hp⟩ := hl.peel hi hx
  unfold CPRef.ensureType
  rw [hp]
  exact Calm.ite (fun _ => Calm.ok) fun _ => Calm.fail

theorem peel_calm {e : Entry} (hi : pool[i]? = some e) {x : CPRef} (hx : x ∈ refsOf e) {A : PanicKind → Prop} :
    Calm A (peel pool x) := by
  obtain ⟨k, f, rfl, hk, hp⟩ := hl.peel hi hx
  rw [hp]; exact Calm.ok

theorem vfd_calm {e : Entry} (hi : pool[i]? = some e) {y : CPRef} (hy : y ∈ refsOf e) {A : PanicKind → Prop} :
    Calm A (do y.ensureType pool EntryTypes.NAME_AND_TYPE; let e ← peel pool y; e.validateFieldDescriptor pool) := by
  refine Calm.bind (ensure_calm hl hi hy _) fun _ h => Calm.bind (peel_calm hl hi hy) fun f hf => ?_
  obtain ⟨k, a, b, rfl, hk⟩ := ensureNat_ok.mp h
  rw [peel_resolved hk] at hf
  cases hf
  exact Calm.bind (peel_calm hl hk (by simp [refsOf])) fun g _ => Calm.bind (str_calm g) fun s _ =>
    Calm.bind (isFieldDescriptor_checks s).calm fun _ _ => okIf_calm

theorem vmd_outcome {e : Entry} (hi : pool[i]? = some e) {y : CPRef} (hy : y ∈ refsOf e) {d : Nat} (hd : pool.length < d) :
    ∃ n, y = .resolved n ∧ Outcome (do y.ensureType pool EntryTypes.NAME_AND_TYPE; let e ← peel pool y; e.validateMethodDescriptor pool d)
      (EndsIn pool n IsMethodDescriptor) (Endless pool n) := by
  obtain ⟨n, f, rfl, hn, hp⟩ := hl.peel hi hy
  refine ⟨n, rfl, ?_⟩
  by_cases hnat : ∃ a b, f = .nameAndType a b
  · obtain ⟨a, b, rfl⟩ := hnat
    have he : (CPRef.resolved n).ensureType pool EntryTypes.NAME_AND_TYPE = .ok () := ensureNat_ok.mpr ⟨n, a, b, rfl, hn⟩
    rw [he, Res.ok_bind, hp, Res.ok_bind]
    refine ⟨?_, vmd_diverge hl hn hd, vmd_nopanic hl d n _ hn⟩
    rw [vmd_ok hl hn hd]
    exact ⟨fun h => ⟨⟨a, b, hn⟩, h⟩, fun h => h.2⟩
  · have he : ∃ m, (CPRef.resolved n).ensureType pool EntryTypes.NAME_AND_TYPE = .err m := by
      unfold CPRef.ensureType
      rw [hp, Res.ok_bind]
      unfold Entry.ensureType
      rw [if_neg (fun h => hnat ((type_nat f).mp h))]
      exact ⟨_, rfl⟩
    obtain ⟨m, he⟩ := he
    rw [he]
    have h1 : ¬ EndsIn pool n IsMethodDescriptor := by
      rintro ⟨⟨a, b, h⟩, -⟩
      rw [hn] at h
      exact hnat ⟨a, b, Option.some.inj h⟩
    have h2 : ¬ Endless pool n := by
      intro h
      obtain ⟨j, ⟨x, hx⟩, -⟩ := endless_step h
      rw [hn] at hx
      exact hnat ⟨_, _, Option.some.inj hx⟩
    exact ⟨⟨fun h => (by cases h), fun h => absurd h h1⟩, ⟨fun h => (by cases h), fun h => absurd h h2⟩, fun k h => (by cases h)⟩

omit hl in
theorem Outcome.guard {r : Res Unit} {g : Res Unit} {Q S G : Prop} (hg : g = .ok () ↔ G) (hc : Calm (fun _ => False) g) (h : Outcome r Q S) :
    Outcome (g >>= fun _ => r) (G ∧ Q) (G ∧ S) := by
  cases hr : g with
  | ok u =>
    have hG : G := hg.mp hr
    rw [Res.ok_bind]
    exact ⟨by simp [h.ok, hG], by simp [h.diverge, hG], h.nopanic⟩
  | err e =>
    have hG : ¬ G := fun h => by rw [hg.mpr h] at hr; cases hr
    exact ⟨⟨fun h => (by cases h), fun h => absurd h.1 hG⟩, ⟨fun h => (by cases h), fun h => absurd h.1 hG⟩, fun k h => (by cases h)⟩
  | panic k => exact (hc.1 k hr).elim
  | diverge => exact (hc.2 hr).elim

theorem member_outcome {e : Entry} (hi : pool[i]? = some e) {x y : CPRef} (hx : x ∈ refsOf e) (hy : y ∈ refsOf e) {d : Nat}
    (hd : pool.length < d) : ∃ c n, x = .resolved c ∧ y = .resolved n ∧
      Outcome (do x.ensureType pool EntryTypes.CLASS_INFO; y.ensureType pool EntryTypes.NAME_AND_TYPE; let e ← peel pool y
                  e.validateMethodDescriptor pool d)
        (IsClass pool c ∧ EndsIn pool n IsMethodDescriptor) (IsClass pool c ∧ Endless pool n) := by
  obtain ⟨c, f, rfl, hc, -⟩ := hl.peel hi hx
  obtain ⟨n, rfl, ho⟩ := vmd_outcome hl hi hy hd
  refine ⟨c, n, rfl, rfl, Outcome.guard ?_ (ensure_calm hl hi hx _) ho⟩
  rw [ensureClass_ok]
  exact ⟨fun ⟨k, hk, h⟩ => by cases hk; exact h, fun h => ⟨c, rfl, h⟩⟩

theorem validate_calm {e : Entry} (hi : pool[i]? = some e) (hn : e.chained = false) (d : Nat) (major : UInt16) :
    Calm (fun _ => False) (e.validate (d + 1) pool major) := by
  have text : ∀ {x : CPRef} {f : Entry → Res Unit}, x ∈ refsOf e → (∀ g, Calm (fun _ => False) (f g)) →
      Calm (fun _ => False) (do x.ensureType pool EntryTypes.UTF8; let g ← peel pool x; f g) := fun hx hf =>
    Calm.bind (ensure_calm hl hi hx _) fun _ _ => Calm.bind (peel_calm hl hi hx) fun g _ => hf g
  cases e with
  | zero | utf8 _ | utf8Bytes _ | integer _ | float _ | long _ | double _ | unused => exact Calm.ok
  | methodRef x y | interfaceMethodRef x y | invokeDynamic b y => cases hn
  | classInfo x =>
    exact text (by simp [refsOf]) fun g => Calm.bind (str_calm g) fun s _ => Calm.ite (fun _ => Calm.ok) fun _ =>
      Calm.bind (isArrayDescriptor_checks s).calm fun _ _ => okIf_calm
  | string x => exact ensure_calm hl hi (by simp [refsOf]) _
  | fieldRef x y =>
    exact Calm.bind (ensure_calm hl hi (by simp [refsOf]) _) fun _ _ => vfd_calm hl hi (by simp [refsOf])
  | nameAndType x y =>
    exact Calm.bind (ensure_calm hl hi (by simp [refsOf]) _) fun _ _ => Calm.bind (peel_calm hl hi (by simp [refsOf])) fun g _ =>
      Calm.bind (Calm.bind (str_calm g) fun _ _ => okIf_calm) fun _ _ => ensure_calm hl hi (by simp [refsOf]) _
  | methodHandle k y => exact ensure_calm hl hi (by simp [refsOf]) _
  | methodType x =>
    refine Calm.bind (ensure_calm hl hi (by simp [refsOf]) _) fun _ h => Calm.bind (peel_calm hl hi (by simp [refsOf])) fun g hg => ?_
    refine vmd_other_calm fun a b hab => ?_
    subst hab
    obtain ⟨k, rfl, hk⟩ := ensureUtf8_ok.mp h
    obtain ⟨k', hk', he⟩ := peel_ok.mp hg
    cases hk'
    obtain ⟨s, hs⟩ | ⟨s, hs⟩ := hk <;> rw [hs] at he <;> cases he
  | dynamic b y => exact vfd_calm hl hi (by simp [refsOf])
  | moduleInfo x => exact text (by simp [refsOf]) fun g => Calm.bind (str_calm g) fun _ _ => okIf_calm
  | packageInfo x => exact text (by simp [refsOf]) fun g => Calm.bind (str_calm g) fun _ _ => okIf_calm

theorem validate_outcome {e : Entry} (hi : pool[i]? = some e) {d : Nat} (hd : pool.length < d) (h2 : 2 ≤ d) (major : UInt16) :
    Outcome (e.validate d pool major) (EntryPasses major pool e) (EntryStuck pool e) := by
  by_cases hn : e.chained = true
  · cases e with
    | methodRef x y =>
      obtain ⟨c, n, rfl, rfl, h⟩ := member_outcome hl hi (x := x) (y := y) (by simp [refsOf]) (by simp [refsOf]) hd
      exact h
    | interfaceMethodRef x y =>
      obtain ⟨c, n, rfl, rfl, h⟩ := member_outcome hl hi (x := x) (y := y) (by simp [refsOf]) (by simp [refsOf]) hd
      exact h
    | invokeDynamic b y =>
      obtain ⟨n, rfl, h⟩ := vmd_outcome hl hi (y := y) (by simp [refsOf]) hd
      exact h
    | _ => cases hn
  · have hn' : e.chained = false := by simpa using hn
    obtain ⟨d, rfl⟩ : ∃ d', d = d' + 2 := ⟨d - 2, by omega⟩
    have := Outcome.of_calm (validate_ok_aux (major := major) e (fun h => absurd h hn)) (validate_calm hl hi hn' (d + 1) major)
    have h1 : EntryPasses major pool e = EntryOK major pool e := by cases e <;> first | rfl | cases hn'
    have h2 : EntryStuck pool e = False := by cases e <;> first | rfl | cases hn'
    rw [h1, h2]
    exact this

end

/-! ## The pool -/

theorem mapErr_outcome {r : Res Unit} {Q S : Prop} (h : Outcome r Q S) (c : String) : Outcome (r.mapErr c) Q S := by
  cases r with
  | ok u => exact ⟨h.ok, h.diverge, fun k hk => (by cases hk)⟩
  | err e => exact ⟨⟨fun h => (by cases h), fun q => by have := h.ok.mpr q; cases this⟩,
      ⟨fun h => (by cases h), fun q => by have := h.diverge.mpr q; cases this⟩, fun k hk => (by cases hk)⟩
  | panic k => exact absurd rfl (h.nopanic k)
  | diverge => exact ⟨h.ok, h.diverge, fun k hk => (by cases hk)⟩

theorem validateFrom_outcome {d : Nat} {pool : Pool} {major : UInt16} {Q S : Entry → Prop} : ∀ (es : List Entry) (i : Nat),
    (∀ e ∈ es, Outcome (e.validate d pool major) (Q e) (S e)) → Outcome (validateFrom d pool major i es) (∀ e ∈ es, Q e)
      (∃ (k : Nat) (e : Entry), es[k]? = some e ∧ S e ∧ ∀ (j : Nat) (f : Entry), j < k → es[j]? = some f → Q f)
  | [], i, _ => ⟨by simp [validateFrom], by simp [validateFrom], by simp [validateFrom]⟩
  | e :: es, i, h => by
    have h1 := mapErr_outcome (h e (by simp)) s!"constant pool entry {i}"
    have h2 := validateFrom_outcome es (i + 1) fun e he => h e (by simp [he])
    unfold validateFrom
    generalize (e.validate d pool major).mapErr s!"constant pool entry {i}" = r at h1
    cases r with
    | ok u =>
      have hq : Q e := h1.ok.mp rfl
      have hs : ¬ S e := fun s => by have := h1.diverge.mpr s; cases this
      rw [Res.ok_bind]
      refine ⟨by rw [h2.ok]; simp [hq], ?_, h2.nopanic⟩
      rw [h2.diverge]
      constructor
      · rintro ⟨k, f, hk, hf, ha⟩
        refine ⟨k + 1, f, by simpa using hk, hf, fun j g hj hg => ?_⟩
        cases j with
        | zero => simp at hg; rw [← hg]; exact hq
        | succ j => exact ha j g (by omega) (by simpa using hg)
      · rintro ⟨k, f, hk, hf, ha⟩
        cases k with
        | zero => simp at hk; rw [← hk] at hf; exact absurd hf hs
        | succ k => exact ⟨k, f, by simpa using hk, hf, fun j g hj hg => ha (j + 1) g (by omega) (by simpa using hg)⟩
    | err m =>
      have hq : ¬ Q e := fun s => by have := h1.ok.mpr s; cases this
      have hs : ¬ S e := fun s => by have := h1.diverge.mpr s; cases this
      refine ⟨⟨fun h => (by cases h), fun h => absurd (h e (by simp)) hq⟩, ⟨fun h => (by cases h), ?_⟩, fun k h => (by cases h)⟩
      rintro ⟨k, f, hk, hf, ha⟩
      cases k with
      | zero => simp at hk; rw [← hk] at hf; exact absurd hf hs
      | succ k => exact absurd (ha 0 e (by omega) (by simp)) hq
    | panic k => exact absurd rfl (h1.nopanic k)
    | diverge =>
      have hs : S e := h1.diverge.mp rfl
      have hq : ¬ Q e := fun s => by have := h1.ok.mpr s; cases this
      exact ⟨⟨fun h => (by cases h), fun h => absurd (h e (by simp)) hq⟩,
        ⟨fun _ => ⟨0, e, rfl, hs, fun j f hj => by omega⟩, fun _ => rfl⟩, fun k h => (by cases h)⟩

theorem validateConstantPool_outcome {d : Nat} {pool : Pool} (hl : Linked pool) (hd : pool.length < d) (h2 : 2 ≤ d) (major : UInt16) :
    Outcome (validateConstantPool d pool major) (∀ e ∈ pool, EntryPasses major pool e) (PoolStuck major pool) := by
  refine validateFrom_outcome pool 0 fun e he => ?_
  obtain ⟨i, hi⟩ := List.mem_iff_getElem?.mp he
  exact validate_outcome hl hi hd h2 major

/-! ## Linking -/

theorem resolve_calm {A : PanicKind → Prop} (x : CPRef) (i : Nat) (pool : Pool) : Calm A (x.resolve i pool) := by
  cases x with
  | unresolved j => exact Calm.ite (fun _ => Calm.fail) fun _ => Calm.ite (fun _ => Calm.fail) fun _ => Calm.ok
  | resolved t => exact Calm.ok

theorem entry_resolve_calm {A : PanicKind → Prop} (e : Entry) (i : Nat) (pool : Pool) : Calm A (e.resolve i pool) := by
  cases e <;> first
    | exact Calm.ok
    | exact Calm.bind (resolve_calm _ _ _) fun _ _ => Calm.ok
    | exact Calm.bind (resolve_calm _ _ _) fun _ _ => Calm.bind (resolve_calm _ _ _) fun _ _ => Calm.ok

theorem resolveFrom_calm {A : PanicKind → Prop} (pool : Pool) : ∀ (es : List Entry) (i : Nat), Calm A (resolveFrom pool i es)
  | [], _ => Calm.ok
  | e :: es, i => Calm.bind (entry_resolve_calm e i pool) fun _ _ => Calm.bind (resolveFrom_calm pool es (i + 1)) fun _ _ => Calm.ok

end Cafebabe
