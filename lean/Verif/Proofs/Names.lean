import Verif.Model.Names
import Verif.Spec.Text
/-!
# Proofs: name predicates decide the name grammars
-/

namespace Cafebabe
open Spec

theorem isUnqualifiedName_iff (s : Str) : isUnqualifiedName s = true ↔ UnqualifiedName s := by
  unfold isUnqualifiedName UnqualifiedName
  simp only [Bool.and_eq_true, Bool.not_eq_true', List.isEmpty_eq_false_iff, List.all_eq_true]
  constructor
  · rintro ⟨h1, h2⟩
    refine ⟨h1, fun c hc => ?_⟩
    have := h2 c hc
    simp [isValidUnqualifiedChar, and_assoc] at this
    exact this
  · rintro ⟨h1, h2⟩
    refine ⟨h1, fun c hc => ?_⟩
    have := h2 c hc
    simp [isValidUnqualifiedChar, this]

theorem joinSlash_cons_cons (s t : Str) (r : List Str) : joinSlash (s :: t :: r) = s ++ '/' :: joinSlash (t :: r) := rfl

theorem splitSlashAux_ne_nil (cur s : Str) : splitSlashAux cur s ≠ [] := by
  induction s generalizing cur with
  | nil => simp [splitSlashAux]
  | cons c s ih =>
    unfold splitSlashAux
    split
    · simp
    · exact ih _

theorem joinSlash_splitSlashAux (cur s : Str) : joinSlash (splitSlashAux cur s) = cur ++ s := by
  induction s generalizing cur with
  | nil => simp [splitSlashAux, joinSlash]
  | cons c s ih =>
    unfold splitSlashAux
    split
    · rename_i h
      have h' : c = '/' := by simpa using h
      have hne := splitSlashAux_ne_nil [] s
      have ih' := ih []
      generalize splitSlashAux [] s = l at hne ih' ⊢
      cases l with
      | nil => exact absurd rfl hne
      | cons t r => rw [joinSlash_cons_cons, ih', h']; simp
    · rw [ih]; simp

theorem splitSlashAux_append {cur g s : Str} (h : ∀ c ∈ g, c ≠ '/') : splitSlashAux cur (g ++ s) = splitSlashAux (cur ++ g) s := by
  induction g generalizing cur with
  | nil => simp
  | cons c g ih =>
    rw [List.cons_append, splitSlashAux, if_neg (by simpa using h c (by simp)), ih (fun d hd => h d (by simp [hd]))]
    simp

theorem splitSlashAux_joinSlash {cur g : Str} {gs : List Str} (h : ∀ x ∈ g :: gs, ∀ c ∈ x, c ≠ '/') :
    splitSlashAux cur (joinSlash (g :: gs)) = (cur ++ g) :: gs := by
  induction gs generalizing cur g with
  | nil =>
    show splitSlashAux cur g = _
    have := splitSlashAux_append (cur := cur) (g := g) (s := []) (h g (by simp))
    simp only [List.append_nil] at this
    rw [this]; rfl
  | cons t r ih =>
    rw [joinSlash_cons_cons, splitSlashAux_append (h g (by simp)), splitSlashAux, if_pos (by simp),
      ih (fun x hx => h x (by simp at hx ⊢; right; exact hx))]
    simp

theorem isBinaryName_iff (s : Str) : isBinaryName s = true ↔ BinaryName s := by
  unfold isBinaryName BinaryName splitSlash
  rw [List.all_eq_true]
  constructor
  · intro h
    refine ⟨splitSlashAux [] s, splitSlashAux_ne_nil _ _, fun g hg => (isUnqualifiedName_iff g).mp (h g hg), ?_⟩
    rw [joinSlash_splitSlashAux]; simp
  · rintro ⟨segs, hne, hs, rfl⟩ g hg
    cases segs with
    | nil => exact absurd rfl hne
    | cons t r =>
      rw [splitSlashAux_joinSlash (fun x hx c hc => ((hs x hx).2 c hc).2.2.2)] at hg
      exact (isUnqualifiedName_iff g).mpr (hs g (by simpa using hg))

theorem validMethodChar_iff (c : Char) : isValidUnqualifiedMethodChar c = true ↔
    (c ≠ '.' ∧ c ≠ ';' ∧ c ≠ '[' ∧ c ≠ '/') ∧ c ≠ '<' ∧ c ≠ '>' := by
  simp [isValidUnqualifiedMethodChar, and_assoc]

theorem isUnqualifiedMethodName_iff (s : Str) (a b : Bool) :
    isUnqualifiedMethodName s a b = true ↔ MethodName (a = true) (b = true) s := by
  unfold isUnqualifiedMethodName MethodName UnqualifiedName
  cases s with
  | nil => simp
  | cons x xs =>
    simp only
    by_cases hx : x = '<'
    · subst hx
      simp only [beq_self_eq_true, ↓reduceIte, Bool.or_eq_true, Bool.and_eq_true, beq_iff_eq]
      constructor
      · rintro (⟨h1, h2⟩ | ⟨h1, h2⟩)
        · exact Or.inl ⟨h2, h1⟩
        · exact Or.inr (Or.inl ⟨h2, h1⟩)
      · rintro (⟨h1, h2⟩ | ⟨h1, h2⟩ | ⟨h1, h2⟩)
        · exact Or.inl ⟨h2, h1⟩
        · exact Or.inr ⟨h2, h1⟩
        · exact absurd rfl (h2 '<' (by simp)).1
    · have h1 : (x :: xs) ≠ "<init>".toList := by intro h; simp at h; exact hx h.1
      have h2 : (x :: xs) ≠ "<clinit>".toList := by intro h; simp at h; exact hx h.1
      simp only [beq_iff_eq, hx, ↓reduceIte, h1, h2, false_and, false_or]
      rw [show (if (!isValidUnqualifiedMethodChar x) = true then false else xs.all isValidUnqualifiedMethodChar) =
        (x :: xs).all isValidUnqualifiedMethodChar by rw [List.all_cons]; cases isValidUnqualifiedMethodChar x <;> rfl]
      rw [List.all_eq_true]
      constructor
      · intro h
        exact ⟨⟨by simp, fun c hc => ((validMethodChar_iff c).mp (h c hc)).1⟩,
          fun c hc => ((validMethodChar_iff c).mp (h c hc)).2⟩
      · rintro ⟨⟨-, h1⟩, h2⟩ c hc
        exact (validMethodChar_iff c).mpr ⟨h1 c hc, h2 c hc⟩

theorem isModuleName_iff (s : Str) : isModuleName s = true ↔ ModuleName s := by
  fun_induction isModuleName s with
  | case1 => exact ⟨fun _ => .nil, fun _ => rfl⟩
  | case2 c chars h =>
    refine ⟨fun h => by simp at h, fun hm => ?_⟩
    cases hm with
    | escaped => exact absurd h (by decide)
    | plain h1 => omega
  | case3 c h1 h2 =>
    have : c = '\\' := by simpa using h2
    subst this
    refine ⟨fun h => by simp at h, fun hm => ?_⟩
    cases hm with
    | plain h1 h2 => exact absurd rfl h2
  | case4 c h1 h2 d rest hd ih =>
    have : c = '\\' := by simpa using h2
    subst this
    rw [ih]
    have hd' : d = '\\' ∨ d = ':' ∨ d = '@' := by simpa [or_assoc] using hd
    refine ⟨fun h => .escaped hd' h, fun hm => ?_⟩
    cases hm with
    | escaped _ h => exact h
    | plain h1 h2 => exact absurd rfl h2
  | case5 c h1 h2 d rest hd =>
    have : c = '\\' := by simpa using h2
    subst this
    refine ⟨fun h => by simp at h, fun hm => ?_⟩
    cases hm with
    | escaped h => exact absurd (by simpa [or_assoc] using h) hd
    | plain h1 h2 => exact absurd rfl h2
  | case6 c chars h1 h2 h3 =>
    refine ⟨fun h => by simp at h, fun hm => ?_⟩
    cases hm with
    | escaped => simp at h2
    | plain h4 h5 h6 h7 => simp [h6, h7] at h3
  | case7 c chars h1 h2 h3 ih =>
    rw [ih]
    refine ⟨fun h => .plain (by omega) (by simpa using h2) ?_ ?_ h, fun hm => ?_⟩
    · intro h; simp [h] at h3
    · intro h; simp [h] at h3
    cases hm with
    | escaped => simp at h2
    | plain h4 h5 h6 h7 h => exact h

/-- The name check of NameAndType constants accepts unqualified names; its second disjunct adds nothing. -/
theorem nameAndTypeName_iff (s : Str) :
    (isUnqualifiedName s || isUnqualifiedMethodName s true false) = true ↔ UnqualifiedName s := by
  rw [Bool.or_eq_true, isUnqualifiedName_iff, isUnqualifiedMethodName_iff]
  constructor
  · rintro (h | h)
    · exact h
    · rcases h with ⟨rfl, -⟩ | ⟨-, h⟩ | ⟨h, -⟩
      · exact (isUnqualifiedName_iff _).mp (by decide)
      · simp at h
      · exact h
  · exact Or.inl

end Cafebabe
