import Verif.Proofs.WorkBound
import Verif.Proofs.Chain
import Verif.Spec.Work
import Mathlib.Tactic.Ring
/-!
# Bounds on steps: constants
-/

namespace Cafebabe
open Spec Timed

theorem peelT_steps (pool : Pool) (r : CPRef) : (peelT pool r).steps = 1 := by
  unfold peelT
  rw [steps_tick_bind, steps_free]

theorem peel_mem {pool : Pool} {r : CPRef} {e : Entry} (h : peel pool r = .ok e) : e ∈ pool := by
  obtain ⟨j, -, hj⟩ := peel_ok.mp h
  exact List.mem_of_getElem? hj

theorem ensureTypeT_le (pool : Pool) (x : CPRef) (a : UInt32) : (x.ensureTypeT pool a).steps ≤ 1 := by
  unfold CPRef.ensureTypeT
  exact steps_bind_le (m := 1) (n := 0) (by rw [peelT_steps]) fun _ _ => Nat.le_refl _

section
variable {pool : Pool} {n : Nat}

/-- Following a reference and doing something with the constant there. -/
theorem peel_then {r : CPRef} {f : Entry → Timed Unit} {m : Nat} (h : ∀ e ∈ pool, (f e).steps ≤ m) : (peelT pool r >>= f).steps ≤ 1 + m :=
  steps_bind_le (by rw [peelT_steps]) fun e he => h e (peel_mem (by rw [← peelT_out]; exact he))

theorem ensure_then {x : CPRef} {a : UInt32} {f : Unit → Timed Unit} {m : Nat} (h : (f ()).steps ≤ m) : (x.ensureTypeT pool a >>= f).steps ≤ 1 + m :=
  steps_bind_le (ensureTypeT_le pool x a) fun _ _ => h

theorem text_then {e : Entry} {f : Str → Timed Unit} {m : Nat} (ht : TextsUpTo pool n) (he : e ∈ pool) (h : ∀ s : Str, s.length ≤ n → (f s).steps ≤ m) :
    (free e.str >>= f).steps ≤ m :=
  steps_free_bind_le fun s hs => h s (ht s (by have := str_ok.mp hs; subst this; exact he))

theorem classinfoNameT_le (ht : TextsUpTo pool n) {e : Entry} (he : e ∈ pool) : e.validateClassinfoNameT.steps ≤ 5 * n + 3 := by
  unfold Entry.validateClassinfoNameT
  refine text_then ht he fun s hs => ?_
  rw [steps_bind_ok (isBinaryNameT_out s)]
  have h1 := binaryT_le s
  split
  · rw [steps_free]; omega
  · have := steps_bind_le (f := fun b => free (okIf b "Invalid classinfo name")) (n := 0) (isArrayT_le s) fun _ _ => Nat.le_refl _
    omega

theorem binaryNameT_le (ht : TextsUpTo pool n) {e : Entry} (he : e ∈ pool) : e.validateBinaryNameT.steps ≤ 5 * n + 3 := by
  unfold Entry.validateBinaryNameT
  refine text_then ht he fun s hs => ?_
  have := steps_bind_le (f := fun b => free (okIf b "Invalid binary name")) (n := 0) (binaryT_le s) fun _ _ => Nat.le_refl _
  omega

theorem unqualifiedNameT_le (ht : TextsUpTo pool n) {e : Entry} (he : e ∈ pool) : e.validateUnqualifiedNameT.steps ≤ 5 * n + 2 := by
  unfold Entry.validateUnqualifiedNameT
  refine text_then ht he fun s hs => ?_
  rw [steps_bind_ok (isUnqualifiedNameT_out s)]
  have h1 := unqualifiedT_le s
  split
  · rw [steps_free]; omega
  · have := steps_bind_le (f := fun b => free (okIf b "Invalid unqualified name")) (n := 0) (methodNameT_le s true false) fun _ _ => Nat.le_refl _
    omega

theorem moduleNameT_le (ht : TextsUpTo pool n) {e : Entry} (he : e ∈ pool) : e.validateModuleNameT.steps ≤ 5 * n + 3 := by
  unfold Entry.validateModuleNameT
  refine text_then ht he fun s hs => ?_
  have := steps_bind_le (f := fun b => free (okIf b "Invalid module name")) (n := 0) (moduleT_le s) fun _ _ => Nat.le_refl _
  omega

theorem validateFieldT_le (ht : TextsUpTo pool n) (e : Entry) : (e.validateFieldDescriptorT pool).steps ≤ 5 * n + 2 := by
  unfold Entry.validateFieldDescriptorT
  cases e <;> try exact Nat.zero_le _
  refine Nat.le_trans (peel_then (m := 5 * n + 1) fun e he => text_then ht he fun s hs => ?_) (by omega)
  have := steps_bind_le (f := fun b => free (okIf b "Invalid field descriptor")) (n := 0) (isFieldT_le s) fun _ _ => Nat.le_refl _
  omega

theorem methodText_le (ht : TextsUpTo pool n) {e : Entry} (he : e ∈ pool) :
    (free e.str >>= fun s => isMethodDescriptorT s >>= fun b => free (okIf b "Invalid method descriptor")).steps ≤ 5 * n :=
  text_then ht he fun s hs => by
    have := steps_bind_le (f := fun b => free (okIf b "Invalid method descriptor")) (n := 0) (isMethodT_le s) fun _ _ => Nat.le_refl _
    omega

theorem vmdT_other {d : Nat} {e : Entry} (h : ∀ a b, e ≠ .nameAndType a b) : Entry.validateMethodDescriptorT pool (d + 1) e =
    (free e.str >>= fun s => isMethodDescriptorT s >>= fun b => free (okIf b "Invalid method descriptor")) := by
  cases e <;> first | rfl | exact absurd rfl (h _ _)

theorem vmdT_nat {d : Nat} {x y : CPRef} : Entry.validateMethodDescriptorT pool (d + 1) (.nameAndType x y) =
    (peelT pool y >>= fun e => Entry.validateMethodDescriptorT pool d e) := rfl

theorem validateMethodT_le (ht : TextsUpTo pool n) : ∀ (d : Nat) {e : Entry}, e ∈ pool → (e.validateMethodDescriptorT pool d).steps ≤ 5 * n + d
  | 0, _, _ => Nat.zero_le _
  | d + 1, e, he => by
    by_cases hn : ∃ a b, e = .nameAndType a b
    · obtain ⟨a, b, rfl⟩ := hn
      rw [vmdT_nat]
      exact Nat.le_trans (peel_then fun e he => validateMethodT_le ht d he) (by omega)
    · rw [vmdT_other fun a b hab => hn ⟨a, b, hab⟩]
      exact Nat.le_trans (methodText_le ht he) (by omega)

/-- Enough depth is enough. -/
theorem vmdT_stable : ∀ (d d' : Nat) (e : Entry), (e.validateMethodDescriptorT pool d).out ≠ .diverge → (e.validateMethodDescriptorT pool d').out ≠ .diverge →
    e.validateMethodDescriptorT pool d = e.validateMethodDescriptorT pool d'
  | 0, _, _, h, _ => absurd rfl h
  | _ + 1, 0, _, _, h => absurd rfl h
  | d + 1, d' + 1, e, h1, h2 => by
    by_cases hn : ∃ a b, e = .nameAndType a b
    · obtain ⟨a, b, rfl⟩ := hn
      rw [vmdT_nat, out_bind] at h1 h2
      rw [vmdT_nat, vmdT_nat]
      cases hp : (peelT pool b).out with
      | ok e =>
        rw [hp] at h1 h2
        have := vmdT_stable d d' e h1 h2
        show Timed.bind _ _ = Timed.bind _ _
        unfold Timed.bind
        rw [hp]
        simp only [this]
      | err e => show Timed.bind _ _ = Timed.bind _ _; unfold Timed.bind; rw [hp]
      | panic e => show Timed.bind _ _ = Timed.bind _ _; unfold Timed.bind; rw [hp]
      | diverge => show Timed.bind _ _ = Timed.bind _ _; unfold Timed.bind; rw [hp]
    · rw [vmdT_other fun a b hab => hn ⟨a, b, hab⟩, vmdT_other fun a b hab => hn ⟨a, b, hab⟩]

/-- What a method descriptor costs at most, whatever its outcome except running for ever. -/
theorem validateMethodT_chain (hl : Linked pool) (ht : TextsUpTo pool n) {d : Nat} {e : Entry} (he : e ∈ pool)
    (h : (e.validateMethodDescriptorT pool d).out ≠ .diverge) : (e.validateMethodDescriptorT pool d).steps ≤ 5 * n + (pool.length + 1) := by
  obtain ⟨i, hi⟩ := List.getElem?_of_mem he
  have h2 : (e.validateMethodDescriptorT pool (pool.length + 1)).out ≠ .diverge := by
    rw [validateMethodT_out] at h ⊢
    intro hd
    exact h (vmd_endless d i e hi ((vmd_diverge hl hi (by omega)).mp hd))
  rw [vmdT_stable d _ e h h2]
  exact validateMethodT_le ht _ he

end

theorem nd_bind_le {α β : Type} {t : Timed α} {f : α → Timed β} {m n : Nat} (h1 : t.steps ≤ m)
    (h2 : ∀ a, t.out = .ok a → (f a).out ≠ .diverge → (f a).steps ≤ n) (hd : (t >>= f).out ≠ .diverge) : (t >>= f).steps ≤ m + n := by
  refine steps_bind_le h1 fun a ha => h2 a ha ?_
  rw [out_bind, ha] at hd
  exact hd

/-- What one constant costs when a method descriptor costs at most `5 n + m`. -/
theorem validateT_le {pool : Pool} {n : Nat} (ht : TextsUpTo pool n) (d m : Nat) (major : UInt16) (e : Entry) (hd : (e.validateT d pool major).out ≠ .diverge)
    (hm : ∀ f ∈ pool, (∃ x y, e = .methodRef x y ∧ peel pool y = .ok f) ∨ (∃ x y, e = .interfaceMethodRef x y ∧ peel pool y = .ok f) ∨
      (∃ x, e = .methodType x ∧ peel pool x = .ok f) ∨ (∃ b y, e = .invokeDynamic b y ∧ peel pool y = .ok f) →
        (f.validateMethodDescriptorT pool d).out ≠ .diverge → (f.validateMethodDescriptorT pool d).steps ≤ 5 * n + m) :
    (e.validateT d pool major).steps ≤ 5 * n + m + 5 := by
  have pm : ∀ {r : CPRef}, (∀ f ∈ pool, peel pool r = .ok f → (f.validateMethodDescriptorT pool d).out ≠ .diverge →
        (f.validateMethodDescriptorT pool d).steps ≤ 5 * n + m) →
      (peelT pool r >>= fun e => e.validateMethodDescriptorT pool d).out ≠ .diverge →
      (peelT pool r >>= fun e => e.validateMethodDescriptorT pool d).steps ≤ 1 + (5 * n + m) := by
    intro r h
    refine nd_bind_le (by rw [peelT_steps]) fun f hf => ?_
    rw [peelT_out] at hf
    exact h f (peel_mem hf) hf
  have en : ∀ {x : CPRef} {a : UInt32} {f : Unit → Timed Unit} {m : Nat}, ((f ()).out ≠ .diverge → (f ()).steps ≤ m) →
      (x.ensureTypeT pool a >>= f).out ≠ .diverge → (x.ensureTypeT pool a >>= f).steps ≤ 1 + m :=
    fun h => nd_bind_le (ensureTypeT_le pool _ _) fun _ _ => h
  unfold Entry.validateT at hd ⊢
  cases e with
  | classInfo x => exact Nat.le_trans (ensure_then (peel_then fun e he => classinfoNameT_le ht he)) (by omega)
  | string x => exact Nat.le_trans (ensureTypeT_le _ _ _) (by omega)
  | fieldRef x y => exact Nat.le_trans (ensure_then (ensure_then (peel_then fun e he => validateFieldT_le ht e))) (by omega)
  | methodRef x y => exact Nat.le_trans (en (en (pm fun f hf h => hm f hf (.inl ⟨x, y, rfl, h⟩))) hd) (by omega)
  | interfaceMethodRef x y => exact Nat.le_trans (en (en (pm fun f hf h => hm f hf (.inr (.inl ⟨x, y, rfl, h⟩)))) hd) (by omega)
  | nameAndType x y =>
    refine Nat.le_trans (ensure_then (peel_then (m := 5 * n + 2 + 1) fun e he => ?_)) (by omega)
    exact steps_bind_le (unqualifiedNameT_le ht he) fun _ _ => ensureTypeT_le _ _ _
  | methodHandle k y => exact Nat.le_trans (ensureTypeT_le _ _ _) (by omega)
  | methodType x => exact Nat.le_trans (en (pm fun f hf h => hm f hf (.inr (.inr (.inl ⟨x, rfl, h⟩)))) hd) (by omega)
  | dynamic b y => exact Nat.le_trans (ensure_then (peel_then fun e he => validateFieldT_le ht e)) (by omega)
  | invokeDynamic b y => exact Nat.le_trans (en (pm fun f hf h => hm f hf (.inr (.inr (.inr ⟨b, y, rfl, h⟩)))) hd) (by omega)
  | moduleInfo x => exact Nat.le_trans (ensure_then (peel_then fun e he => moduleNameT_le ht he)) (by omega)
  | packageInfo x => exact Nat.le_trans (ensure_then (peel_then fun e he => binaryNameT_le ht he)) (by omega)
  | zero | utf8 _ | utf8Bytes _ | integer _ | float _ | long _ | double _ | unused => exact Nat.zero_le _

theorem mapErr_diverge {α : Type} {r : Res α} {c : String} : r.mapErr c = .diverge ↔ r = .diverge := by
  cases r <;> simp [Res.mapErr]

theorem validateFromT_le {d : Nat} {pool : Pool} {major : UInt16} {m : Nat} : ∀ (es : List Entry) (i : Nat),
    (∀ e ∈ es, (e.validateT d pool major).out ≠ .diverge → (e.validateT d pool major).steps ≤ m) → (validateFromT d pool major i es).out ≠ .diverge →
    (validateFromT d pool major i es).steps ≤ es.length * (m + 1)
  | [], _, _, _ => Nat.zero_le _
  | e :: es, i, h, hd => by
    unfold validateFromT at hd ⊢
    rw [out_bind, out_tick, res_bind_ok] at hd
    rw [steps_tick_bind, List.length_cons, Nat.succ_mul]
    have h1 := h e (by simp) fun hh => by
      rw [out_bind, out_mapErr, hh] at hd
      exact hd rfl
    have := nd_bind_le (t := (e.validateT d pool major).mapErr s!"constant pool entry {i}") (f := fun _ => validateFromT d pool major (i + 1) es)
      (m := m) (n := es.length * (m + 1)) (by rw [steps_mapErr]; exact h1) (fun _ _ h2 => validateFromT_le es (i + 1) (fun f hf => h f (by simp [hf])) h2) hd
    omega

/-- Following references to link `pool`, whatever the texts, costs at most this. -/
theorem validatePoolT_le {d : Nat} {pool : Pool} {major : UInt16} {n : Nat} (hl : Linked pool) (ht : TextsUpTo pool n)
    (hd : (validateConstantPoolT d pool major).out ≠ .diverge) : (validateConstantPoolT d pool major).steps ≤ pool.length * (5 * n + pool.length + 7) := by
  refine Nat.le_trans (validateFromT_le (m := 5 * n + (pool.length + 1) + 5) pool 0 (fun e _ h => ?_) hd) (Nat.le_of_eq (by ring))
  exact validateT_le ht d _ major e h fun f hf _ h => validateMethodT_chain hl ht hf h

end Cafebabe
