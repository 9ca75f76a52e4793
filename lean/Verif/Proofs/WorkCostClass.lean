import Verif.Proofs.WorkCostAttr
import Verif.Proofs.Stop
import Verif.Proofs.Panics
/-!
# How many steps: class files
-/

namespace Cafebabe
open Spec Timed

section
variable {pool : Pool} {n : Nat} {W L : Int} (r : Rate pool n W L)
include r

/-- A reader that leaves something over moves forward. -/
theorem CostAt.moves {α : Type} {Q : α → Prop} {c e : Int} {p : PT α} {bytes : Bytes} {ix ix' : Nat} {a : α} (h : CostAt L Q c e p bytes ix) (hc : c < 0)
    (ha : (p bytes ix).out = .ok (a, ix')) : ix < ix' := by
  obtain ⟨-, h1, h2, h3⟩ := h.1 a ix' ha
  rcases Nat.lt_or_ge ix ix' with h | h
  · exact h
  · have : ix' = ix := by omega
    subst this
    omega

/-- A table has no more rows than bytes. -/
theorem rows_le {α : Type} {Q : α → Prop} {c e : Int} {f : Nat → PT α} (h : ∀ i, Cost L Q c e (f i)) (hc : c < 0) {bytes : Bytes} :
    ∀ (k i : Nat) {ix ix' : Nat} {l : List α}, ix ≤ bytes.length → (forRangeFromT f i k bytes ix).out = .ok (l, ix') → ix + l.length ≤ ix' ∧ ix' ≤ bytes.length
  | 0, _, ix, ix', l, hix, ho => by cases ho; exact ⟨by simp, hix⟩
  | k + 1, i, ix, ix', l, hix, ho => by
    have hdef : forRangeFromT f i (k + 1) bytes ix = (PT.tick 1 >>= fun _ => f i >>= fun a => forRangeFromT f (i + 1) k >>= fun l => Pure.pure (a :: l)) bytes ix := rfl
    rw [hdef, show (PT.tick 1 >>= fun _ => f i >>= fun a => forRangeFromT f (i + 1) k >>= fun l => Pure.pure (a :: l)) bytes ix
      = (tick 1 >>= fun _ => (f i bytes ix >>= fun x => forRangeFromT f (i + 1) k bytes x.2 >>= fun y => (⟨.ok (x.1 :: y.1, y.2), 0⟩ : Timed _))) from rfl] at ho
    rw [out_bind, out_tick, res_bind_ok, out_bind] at ho
    cases h1 : (f i bytes ix).out with
    | ok x =>
      rw [h1, res_bind_ok, out_bind] at ho
      have hm := CostAt.moves r (h i bytes ix hix) hc (a := x.1) (ix' := x.2) h1
      have hl := ((h i bytes ix hix).1 x.1 x.2 h1).2.2.1
      cases h2 : (forRangeFromT f (i + 1) k bytes x.2).out with
      | ok y =>
        have := rows_le h hc k (i + 1) (l := y.1) (ix' := y.2) hl h2
        rw [h2, res_bind_ok] at ho
        cases ho
        exact ⟨by simp only [List.length_cons]; omega, this.2⟩
      | _ => rw [h2] at ho; cases ho
    | _ => rw [h1] at ho; cases ho

theorem attributes_le (h11 : 11 * W ≤ L) (env : Env) {bytes : Bytes} : ∀ (d : Nat) {ix ix' : Nat} {l : List AttributeInfo}, ix ≤ bytes.length →
    (readAttributesT env pool d bytes ix).out = .ok (l, ix') → l.length ≤ bytes.length
  | 0, _, _, _, _, ho => by cases ho
  | d + 1, ix, ix', l, hix, ho => by
    have hw := r.work
    rw [show readAttributesT env pool (d + 1) bytes ix = ((PT.once readU2 bytes ix) >>= fun x => forRangeFromT (readAttributeWithT env d (readAttributesT env pool d) pool) 0 x.1.toNat bytes x.2) from rfl,
      out_bind] at ho
    cases h1 : (PT.once readU2 bytes ix).out with
    | ok x =>
      rw [h1, res_bind_ok] at ho
      have hl := ((Cost.once1 r Tame.readU2 bytes ix hix).1 x.1 x.2 h1).2.2.1
      have := rows_le r (fun i => readAttributeWithT_cost r h11 (readAttributesT_cost r h11 env d) env d i) (by omega) _ _ hl ho
      omega
    | _ => rw [h1] at ho; cases ho

end

section
variable {pool : Pool} {n : Nat} {W L : Int} (r : Rate pool n W L)
include r

theorem readClassNameT_cost : Cost L (fun _ => True) (-5 * W) (4 * W) (readClassNameT pool) := by
  unfold readClassNameT; cost

end

macro_rules | `(tactic| costh) => `(tactic| with_reducible exact readClassNameT_cost (by assumption))

section
variable {pool : Pool} {n : Nat} {W L : Int} (r : Rate pool n W L)
include r

theorem readClassNameOptT_cost : Cost L (fun _ => True) (-5 * W) (4 * W) (readClassNameOptT pool) := by
  have hw := r.work
  unfold readClassNameOptT
  refine Cost.bind (readCpClassinfoOptT_cost r) (by omega) fun o ho => ?_
  cases o with
  | none => dsimp only; cost
  | some s => have := ho s rfl; dsimp only; cost

theorem readInterfacesT_cost : Cost L (fun _ => True) (-4 * W) (4 * W) (readInterfacesT pool) := by
  unfold readInterfacesT; cost

theorem readFieldT_cost (h11 : 11 * W ≤ L) (env : Env) (seen : List (Str × FieldDescriptor)) (i : Nat) :
    Cost L (fun _ => True) (-4 * W) (4 * W) (readFieldT env pool seen i) := by
  unfold readFieldT; cost

theorem readFieldsFromT_cost (h11 : 11 * W ≤ L) (env : Env) : ∀ (k : Nat) (seen : List (Str × FieldDescriptor)) (i : Nat),
    Cost L (fun _ => True) 0 (5 * W) (readFieldsFromT env pool seen i k)
  | 0, _, _ => by unfold readFieldsFromT; cost
  | k + 1, seen, i => by
    have hw := r.work
    unfold readFieldsFromT
    exact Cost.bind (Cost.tick r) (by omega) fun _ _ => Cost.bind (readFieldT_cost r h11 env seen i) (by omega) fun f _ =>
      Cost.bind (readFieldsFromT_cost h11 env k _ (i + 1)) (by omega) fun _ _ => Cost.pure r.pos trivial (by omega) (by omega)

theorem readFieldsT_cost (h11 : 11 * W ≤ L) (env : Env) : Cost L (fun _ => True) (-4 * W) (4 * W) (readFieldsT env pool) := by
  have hw := r.work
  unfold readFieldsT
  exact Cost.bind (Cost.once1 r Tame.readU2) (by omega) fun c _ => (readFieldsFromT_cost r h11 env c.toNat [] 0).mono (by omega) (by omega) fun _ h => h

theorem readMethodDescriptorT_cost : Cost L (fun d => d.byteLen ≤ 4 * n) (-4 * W) (4 * W) (readMethodDescriptorT pool) := by
  unfold readMethodDescriptorT; cost

end

macro_rules | `(tactic| costh) => `(tactic| with_reducible exact readMethodDescriptorT_cost (by assumption))

section
variable {pool : Pool} {n : Nat} {W L : Int} (r : Rate pool n W L)
include r

theorem readMethodT_cost (h11 : 11 * W ≤ L) (env : Env) (inInterface : Bool) (major : UInt16) (seen : List (Str × MethodDescriptor)) (i : Nat) :
    Cost L (fun _ => True) (-4 * W) (4 * W) (readMethodT env pool inInterface major seen i) := by
  unfold readMethodT; dsimp only; cost

theorem readMethodsFromT_cost (h11 : 11 * W ≤ L) (env : Env) (inInterface : Bool) (major : UInt16) : ∀ (k : Nat) (seen : List (Str × MethodDescriptor)) (i : Nat),
    Cost L (fun _ => True) 0 (5 * W) (readMethodsFromT env pool inInterface major seen i k)
  | 0, _, _ => by unfold readMethodsFromT; cost
  | k + 1, seen, i => by
    have hw := r.work
    unfold readMethodsFromT
    exact Cost.bind (Cost.tick r) (by omega) fun _ _ => Cost.bind (readMethodT_cost r h11 env inInterface major seen i) (by omega) fun f _ =>
      Cost.bind (readMethodsFromT_cost h11 env inInterface major k _ (i + 1)) (by omega) fun _ _ => Cost.pure r.pos trivial (by omega) (by omega)

theorem readMethodsT_cost (h11 : 11 * W ≤ L) (env : Env) (inInterface : Bool) (major : UInt16) : Cost L (fun _ => True) (-4 * W) (4 * W) (readMethodsT env pool inInterface major) := by
  have hw := r.work
  unfold readMethodsT
  exact Cost.bind (Cost.once1 r Tame.readU2) (by omega) fun c _ => (readMethodsFromT_cost r h11 env inInterface major c.toNat [] 0).mono (by omega) (by omega) fun _ h => h

end

/-! ## Bootstrap methods -/

theorem countBootstrapMethodsT_le (x : UInt16) : ∀ (l : List AttributeInfo) (found : Nat), (countBootstrapMethodsT x found l).steps ≤ l.length
  | [], _ => Nat.le_refl _
  | a :: l, found => by
    unfold countBootstrapMethodsT
    rw [steps_tick_bind, List.length_cons]
    have h1 := countBootstrapMethodsT_le x l found
    have h2 := countBootstrapMethodsT_le x l (found + 1)
    split
    · split
      · rw [steps_free]; omega
      · omega
    · omega

theorem checkBootstrapIndexT_le (x : UInt16) (l : List AttributeInfo) : (checkBootstrapIndexT x l).steps ≤ l.length := by
  unfold checkBootstrapIndexT
  have := steps_bind_le (countBootstrapMethodsT_le x l 0) (n := 0) (f := fun found => if found ≠ 1 then
    free (Res.fail s!"Found unexpected number of BootstrapMethods attributes in class; found {found}, expected 1") else free (.ok ())) fun f _ => by
      split <;> exact Nat.le_refl _
  exact this

theorem validateBootstrapMethodsT_le : ∀ (pool : Pool) (l : List AttributeInfo), (validateBootstrapMethodsT pool l).steps ≤ pool.length * (l.length + 1)
  | [], _ => Nat.zero_le _
  | e :: pool, l => by
    unfold validateBootstrapMethodsT
    rw [steps_tick_bind, List.length_cons, Nat.succ_mul]
    have ih := validateBootstrapMethodsT_le pool l
    have h2 : ∀ x : UInt16, (checkBootstrapIndexT x l >>= fun _ => validateBootstrapMethodsT pool l).steps ≤ l.length + pool.length * (l.length + 1) := fun x =>
      steps_bind_le (checkBootstrapIndexT_le x l) fun _ _ => ih
    cases e <;> dsimp only <;> first
      | (have := h2 ‹_›; omega)
      | omega

end Cafebabe
