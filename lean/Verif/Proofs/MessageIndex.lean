import Verif.Proofs.MessageEntry
/-!
# Proofs: the error for the index of a constant
-/

namespace Cafebabe
open Spec

section
variable {C : ParseError → Prop} {L N : Nat}

theorem refAny_names {α : Type} {pool : Pool} {f : Entry → P α} {S : Entry → ParseError → Prop} (hf : ∀ (i : Nat) (en : Entry), pool[i]? = some en →
    Names C L N (f en) (fun _ e => S en e)) : Names C L N (readCpRefAny pool >>= f) (fun s e => (s.length < 2 ∧ e = cutOff L "u2" s) ∨
      (∃ (i : UInt16) (t : Bytes), s = u2 i ++ t ∧ pool.length ≤ i.toNat ∧
        e = plainly s!"Out-of-bounds index {i.toNat} in constant pool reference") ∨
      ∃ (i : UInt16) (t : Bytes) (en : Entry), s = u2 i ++ t ∧ pool[i.toNat]? = some en ∧ S en e) := by
  have h1 : Names C L N (readCpRefAny pool) (fun s e => (s.length < 2 ∧ e = cutOff L "u2" s) ∨
      ∃ (i : UInt16) (t : Bytes), s = u2 i ++ t ∧ pool.length ≤ i.toNat ∧ e = plainly s!"Out-of-bounds index {i.toNat} in constant pool reference") := by
    unfold readCpRefAny
    refine (Names.bind Names.readU2 Exact.readU2 fun i => Names.ite (fun _ => Names.failWith _) fun _ => Names.lift _).congr fun s e _ =>
      or_congr_right ?_
    constructor
    · rintro ⟨i, s1, t, rfl, rfl, ⟨h, rfl⟩ | ⟨h, h'⟩⟩
      · exact ⟨i, t, rfl, h, rfl⟩
      · unfold poolAt at h'
        rw [List.getElem?_eq_getElem (by omega)] at h'
        cases h'
    · rintro ⟨i, t, rfl, h, rfl⟩
      exact ⟨i, _, t, rfl, rfl, .inl ⟨h, rfl⟩⟩
  refine (Names.bindW h1 (readCpRefAny_exact pool) fun en hen => hf (hen.choose_spec.choose.toNat) en hen.choose_spec.choose_spec.1).congr
    fun s e _ => ?_
  rw [or_assoc]
  refine or_congr_right (or_congr_right ?_)
  constructor
  · rintro ⟨en, s1, t, rfl, ⟨i, hi, rfl⟩, h⟩; exact ⟨i, t, en, rfl, hi, h⟩
  · rintro ⟨i, t, en, rfl, hi, h⟩; exact ⟨en, _, t, rfl, ⟨i, hi, rfl⟩, h⟩

theorem badType_names {α : Type} : Names C L N (badType : P α) (fun _ e => e = plainly "Unexpected constant pool reference type") := Names.failWith _

theorem readCpUtf8_names (pool : Pool) : Names C L N (readCpUtf8 pool) (TextIndexSays L pool) := by
  unfold readCpUtf8
  refine (refAny_names (S := fun en e => (¬ ∃ s, en = .utf8 s) ∧ e = plainly "Unexpected constant pool reference type") fun i en _ => ?_).congr
    fun s e _ => ?_
  · cases en
    case utf8 => exact (Names.pure _).congr fun s e _ => by simp
    all_goals exact badType_names.congr fun s e _ => by simp
  · constructor
    · rintro (⟨h, rfl⟩ | ⟨i, t, rfl, h, rfl⟩ | ⟨i, t, en, rfl, hi, h, rfl⟩)
      · exact .cut h
      · exact .outside h
      · exact .kind hi h
    · intro h
      cases h with
      | cut h => exact .inl ⟨h, rfl⟩
      | @outside i t h => exact .inr (.inl ⟨i, t, rfl, h, rfl⟩)
      | @kind i t en hi h => exact .inr (.inr ⟨i, t, en, rfl, hi, h, rfl⟩)

theorem readMethodDescriptor_names (pool : Pool) : Names C L N (readMethodDescriptor pool) (DescriptorIndexSays L pool) := by
  unfold readMethodDescriptor
  refine (Names.bind (readCpUtf8_names pool) (readCpUtf8_exact pool) fun d => Names.fails (parseMethodDescriptor_fails d)).congr fun s e _ => ?_
  constructor
  · rintro (h | ⟨d, s1, t, rfl, ⟨i, hi, rfl⟩, m, hm, rfl⟩)
    · exact .index h
    · exact .text hi hm
  · intro h
    cases h with
    | index h => exact .inl h
    | @text i d t m hi hm => exact .inr ⟨d, _, t, rfl, ⟨i, hi, rfl⟩, m, hm, rfl⟩

theorem lift_ok_bind {α β : Type} {r : Res α} {a : α} (h : r = .ok a) (f : α → P β) : (P.lift r >>= f) = f a := by
  subst h; rfl

theorem badType_bind {α β : Type} (f : α → P β) : (badType >>= f) = badType := rfl

section
variable {major : UInt16} {pool : Pool} (hok : PoolOK major pool)
include hok

theorem class_named {i : Nat} {x : CPRef} (h : pool[i]? = some (.classInfo x)) : ∃ k s, x = .resolved k ∧ TextAt pool k s ∧ peelUtf8 pool x = .ok s := by
  have := hok i _ h
  cases x with
  | unresolved j => exact this.elim
  | resolved k =>
    obtain ⟨s, hs, -⟩ := this
    exact ⟨k, s, rfl, hs, peelUtf8_ok.mpr ⟨k, rfl, hs⟩⟩

theorem readClassName_names : Names C L N (readClassName pool) (ClassIndexSays L pool False) := by
  have heq : readClassName pool = (readCpRefAny pool >>= fun en => (match en with | .classInfo x => P.lift (peelUtf8 pool x) | _ => badType) >>= fun s =>
      P.lift (ClassName.tryFrom s)) := by
    rw [P.bind_assoc]; rfl
  rw [heq]
  refine (refAny_names (S := fun en e => ((¬ ∃ x, en = .classInfo x) ∧ e = plainly "Unexpected constant pool reference type") ∨
    ∃ k s m, en = .classInfo (.resolved k) ∧ TextAt pool k s ∧ ClassNameSays s m ∧ e = plainly m) fun i en hi => ?_).congr fun s e _ => ?_
  · cases en
    case classInfo x =>
      obtain ⟨k, s, rfl, hs, hp⟩ := class_named hok hi
      show Names C L N (P.lift (peelUtf8 pool (.resolved k)) >>= fun s => P.lift (ClassName.tryFrom s)) _
      rw [lift_ok_bind hp]
      refine (Names.fails (tryFrom_fails s)).congr fun s' e _ => ⟨fun ⟨m, hm, he⟩ => .inr ⟨k, s, m, rfl, hs, hm, he⟩, ?_⟩
      rintro (⟨h, -⟩ | ⟨k', s', m, h, hs', hm, he⟩)
      · exact absurd ⟨_, rfl⟩ h
      · cases h
        have := hs.symm.trans hs'
        cases this
        exact ⟨m, hm, he⟩
    all_goals
      dsimp only
      rw [badType_bind]
      exact badType_names.congr fun s e _ => by simp
  · constructor
    · rintro (⟨h, rfl⟩ | ⟨i, t, rfl, h, rfl⟩ | ⟨i, t, en, rfl, hi, ⟨h, rfl⟩ | ⟨k, s, m, rfl, hs, hm, rfl⟩⟩)
      · exact .index (.cut h)
      · exact .index (.outside h)
      · exact .index (.kind hi (by simpa using h))
      · exact .name ⟨k, hi, hs⟩ hm
    · intro h
      cases h with
      | index h =>
        cases h with
        | cut h => exact .inl ⟨h, rfl⟩
        | @outside i t h => exact .inr (.inl ⟨i, t, rfl, h, rfl⟩)
        | @kind i t en hi h => exact .inr (.inr ⟨i, t, en, rfl, hi, .inl ⟨by simpa using h, rfl⟩⟩)
      | @name i s t m hi hm =>
        obtain ⟨k, hi, hs⟩ := hi
        exact .inr (.inr ⟨i, t, _, rfl, hi, .inr ⟨k, s, m, rfl, hs, hm, rfl⟩⟩)

theorem readClassNameOpt_names : Names C L N (readClassNameOpt pool) (ClassIndexSays L pool True) := by
  have heq : readClassNameOpt pool = (readCpRefAny pool >>= fun en => (match en with
      | .zero => pure none
      | .classInfo x => P.lift (peelUtf8 pool x) >>= fun s => pure (some s)
      | _ => badType) >>= fun o => match o with
        | none => (pure none : P (Option ClassName))
        | some s => P.lift (ClassName.tryFrom s) >>= fun c => pure (some c)) := by
    rw [P.bind_assoc]; rfl
  rw [heq]
  refine (refAny_names (S := fun en e => (¬ ((∃ x, en = .classInfo x) ∨ en = .zero) ∧ e = plainly "Unexpected constant pool reference type") ∨
    ∃ k s m, en = .classInfo (.resolved k) ∧ TextAt pool k s ∧ ClassNameSays s m ∧ e = plainly m) fun i en hi => ?_).congr fun s e _ => ?_
  · cases en
    case classInfo x =>
      obtain ⟨k, s, rfl, hs, hp⟩ := class_named hok hi
      dsimp only
      rw [lift_ok_bind hp]
      show Names C L N (P.lift (ClassName.tryFrom s) >>= fun c => pure (some c)) _
      refine (Names.first (f := fun c => (Pure.pure (some c) : P _)) (Names.fails (tryFrom_fails s)) fun _ _ _ _ h => by cases h).congr
        fun s' e _ => ⟨fun ⟨m, hm, he⟩ => .inr ⟨k, s, m, rfl, hs, hm, he⟩, ?_⟩
      rintro (⟨h, -⟩ | ⟨k', s', m, h, hs', hm, he⟩)
      · exact absurd (.inl ⟨_, rfl⟩) h
      · cases h
        have := hs.symm.trans hs'
        cases this
        exact ⟨m, hm, he⟩
    case zero => exact (Names.pure _).congr fun s e _ => by simp
    all_goals
      dsimp only
      rw [badType_bind]
      exact badType_names.congr fun s e _ => by simp
  · constructor
    · rintro (⟨h, rfl⟩ | ⟨i, t, rfl, h, rfl⟩ | ⟨i, t, en, rfl, hi, ⟨h, rfl⟩ | ⟨k, s, m, rfl, hs, hm, rfl⟩⟩)
      · exact .index (.cut h)
      · exact .index (.outside h)
      · exact .index (.kind hi (by simpa using h))
      · exact .name ⟨k, hi, hs⟩ hm
    · intro h
      cases h with
      | index h =>
        cases h with
        | cut h => exact .inl ⟨h, rfl⟩
        | @outside i t h => exact .inr (.inl ⟨i, t, rfl, h, rfl⟩)
        | @kind i t en hi h => exact .inr (.inr ⟨i, t, en, rfl, hi, .inl ⟨by simpa using h, rfl⟩⟩)
      | @name i s t m hi hm =>
        obtain ⟨k, hi, hs⟩ := hi
        exact .inr (.inr ⟨i, t, _, rfl, hi, .inr ⟨k, s, m, rfl, hs, hm, rfl⟩⟩)

end
end
end Cafebabe
