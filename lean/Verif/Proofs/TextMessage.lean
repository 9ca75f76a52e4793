import Verif.Spec.TextMessage
import Verif.Proofs.Descriptors
import Mathlib.Tactic.Tauto
import Mathlib.Tactic.ByContra
/-!
# Proofs: what is said about a text that is not a class name or not a descriptor
-/

namespace Cafebabe
open Spec

/-- The errors of `r` are the messages in `S`, without contexts. -/
def Fails {α : Type} (r : Res α) (S : String → Prop) : Prop := ∀ e, r = .err e ↔ ∃ m, e = ⟨m, []⟩ ∧ S m

theorem Fails.of_ok {α : Type} {S : String → Prop} {a : α} (h : ∀ m, ¬ S m) : Fails (.ok a) S := by
  intro e
  constructor
  · intro h'; cases h'
  · rintro ⟨m, _, hm⟩; exact absurd hm (h m)

theorem Fails.of_err {α : Type} {S : String → Prop} {m : String} (h : S m) (hu : ∀ m', S m' → m' = m) : Fails (Res.fail m : Res α) S := by
  intro e
  constructor
  · intro h'; cases h'; exact ⟨m, rfl, h⟩
  · rintro ⟨m', rfl, hm⟩; rw [hu m' hm]; rfl

theorem Fails.congr {α : Type} {r : Res α} {S T : String → Prop} (h : Fails r S) (hST : ∀ m, S m ↔ T m) : Fails r T :=
  fun e => (h e).trans ⟨fun ⟨m, a, b⟩ => ⟨m, a, (hST m).mp b⟩, fun ⟨m, a, b⟩ => ⟨m, a, (hST m).mpr b⟩⟩

theorem res_bind_err {α β : Type} {r : Res α} {f : α → Res β} {e : ParseError} : (r >>= f) = .err e ↔ r = .err e ∨ ∃ a, r = .ok a ∧ f a = .err e := by
  cases r with
  | ok a => show f a = _ ↔ _; simp
  | err e' => show Res.err e' = _ ↔ _; simp
  | panic k => show Res.panic k = _ ↔ _; simp
  | diverge => show (Res.diverge : Res β) = _ ↔ _; simp

theorem Fails.bind {α β : Type} {r : Res α} {f : α → Res β} {S : String → Prop} {D : α → Prop} {T : α → String → Prop} (h : Fails r S) (hd : ∀ a, r = .ok a ↔ D a)
    (hf : ∀ a, D a → Fails (f a) (T a)) : Fails (r >>= f) (fun m => S m ∨ ∃ a, D a ∧ T a m) := by
  intro e
  rw [res_bind_err]
  constructor
  · rintro (h' | ⟨a, ha, h'⟩)
    · obtain ⟨m, rfl, hm⟩ := (h e).mp h'
      exact ⟨m, rfl, .inl hm⟩
    · obtain ⟨m, rfl, hm⟩ := (hf a ((hd a).mp ha) e).mp h'
      exact ⟨m, rfl, .inr ⟨a, (hd a).mp ha, hm⟩⟩
  · rintro ⟨m, rfl, hm | ⟨a, ha, hm⟩⟩
    · exact .inl ((h _).mpr ⟨m, rfl, hm⟩)
    · exact .inr ⟨a, (hd a).mpr ha, (hf a ha _).mpr ⟨m, rfl, hm⟩⟩

theorem Fails.map {α β : Type} {r : Res α} {S : String → Prop} (h : Fails r S) (f : α → β) : Fails (r >>= fun a => Res.ok (f a)) S := by
  intro e
  rw [res_bind_err, ← h e]
  simp

theorem Fails.unique {α : Type} {r : Res α} {S : String → Prop} (h : Fails r S) {m m' : String} (h1 : S m) (h2 : S m') : m = m' := by
  have e1 := (h ⟨m, []⟩).mpr ⟨m, rfl, h1⟩
  have e2 := (h ⟨m', []⟩).mpr ⟨m', rfl, h2⟩
  rw [e1] at e2
  cases e2
  rfl

theorem Fails.not_ok {α : Type} {r : Res α} {S : String → Prop} (h : Fails r S) {m : String} (hm : S m) (a : α) : r ≠ .ok a := by
  rw [(h ⟨m, []⟩).mpr ⟨m, rfl, hm⟩]
  exact fun h => by cases h

/-! ## Segments -/

theorem ordinary_iff {s : Str} : Ordinary s ↔ ∀ c ∈ s, GoodChar c := by
  unfold Ordinary GoodChar
  refine forall_congr' fun c => forall_congr' fun _ => ?_
  simp only [List.mem_cons, List.not_mem_nil, or_false, not_or]
  tauto

theorem disallowed_not_good {c : Char} (h : c ∈ disallowed) : ¬ GoodChar c := by
  unfold disallowed at h
  simp only [List.mem_cons, List.not_mem_nil, or_false] at h
  rcases h with rfl | rfl | rfl | rfl <;> decide

theorem not_good_cases {c : Char} (h : ¬ GoodChar c) : c = '/' ∨ c = ';' ∨ c ∈ disallowed := by
  by_contra hc
  simp only [disallowed, List.mem_cons, List.not_mem_nil, or_false, not_or] at hc
  exact h ⟨hc.2.2.1, hc.2.1, hc.2.2.2.1, hc.1, hc.2.2.2.2.1, hc.2.2.2.2.2⟩

theorem parseSeg_slash (rest : Str) : parseUnqualifiedSegment ('/' :: rest) = Res.fail "Unexpected '/' at start of unqualified segment" := rfl
theorem parseSeg_semi (rest : Str) : parseUnqualifiedSegment (';' :: rest) = Res.fail "Unexpected ';' at start of unqualified segment" := rfl

theorem parseSeg_disallowed (pre rest : Str) (c : Char) (h : ∀ x ∈ pre, GoodChar x) (hc : c ∈ disallowed) :
    parseUnqualifiedSegment (pre ++ c :: rest) = Res.fail "Disallowed character in unqualified segment" := by
  unfold parseUnqualifiedSegment
  have := parseSegAux_skip (pre ++ c :: rest) [] pre (c :: rest) h
  simp only [strLen, List.nil_append] at this
  rw [this]
  unfold parseUnqualifiedSegmentAux
  unfold disallowed at hc
  simp only [List.mem_cons, List.not_mem_nil, or_false] at hc
  rcases hc with rfl | rfl | rfl | rfl <;> rfl

/-! ## Class names -/

theorem classNameSays_good {s : Str} {m : String} (h : ∀ c ∈ s, GoodChar c) : ¬ ClassNameSays s m := by
  intro hs
  cases hs with
  | slash => exact slash_not_good (h '/' (by simp))
  | semicolon => exact semi_not_good (h ';' (by simp))
  | disallowed h1 h2 => exact disallowed_not_good h2 (h _ (by simp))
  | ends h1 h2 => exact semi_not_good (h ';' (by simp))
  | next h1 h2 h3 => exact slash_not_good (h '/' (by simp))

theorem classNameSays_stop {pre rest : Str} {c : Char} {m : String} (hp : ∀ x ∈ pre, GoodChar x) (hc : ¬ GoodChar c) :
    ClassNameSays (pre ++ c :: rest) m ↔ (pre = [] ∧ c = '/' ∧ m = "Unexpected '/' at start of unqualified segment") ∨
      (pre = [] ∧ c = ';' ∧ m = "Unexpected ';' at start of unqualified segment") ∨
      (c ∈ disallowed ∧ m = "Disallowed character in unqualified segment") ∨ (pre ≠ [] ∧ c = ';' ∧ m = "Disallowed ';' in class name") ∨
      (pre ≠ [] ∧ c = '/' ∧ ClassNameSays rest m) := by
  constructor
  · intro h
    generalize hs : pre ++ c :: rest = s at h
    cases h with
    | @slash t =>
      obtain ⟨rfl, rfl, rfl⟩ := stop_unique (pre' := []) hs hp hc (by simp) slash_not_good
      exact .inl ⟨rfl, rfl, rfl⟩
    | semicolon =>
      obtain ⟨rfl, rfl, rfl⟩ := stop_unique (pre' := []) hs hp hc (by simp) semi_not_good
      exact .inr (.inl ⟨rfl, rfl, rfl⟩)
    | disallowed h1 h2 =>
      obtain ⟨rfl, rfl, rfl⟩ := stop_unique hs hp hc (ordinary_iff.mp h1) (disallowed_not_good h2)
      exact .inr (.inr (.inl ⟨h2, rfl⟩))
    | ends h1 h2 =>
      obtain ⟨rfl, rfl, rfl⟩ := stop_unique hs hp hc (ordinary_iff.mp h1) semi_not_good
      exact .inr (.inr (.inr (.inl ⟨h2, rfl, rfl⟩)))
    | next h1 h2 h3 =>
      obtain ⟨rfl, rfl, rfl⟩ := stop_unique hs hp hc (ordinary_iff.mp h1) slash_not_good
      exact .inr (.inr (.inr (.inr ⟨h2, rfl, h3⟩)))
  · rintro (⟨rfl, rfl, rfl⟩ | ⟨rfl, rfl, rfl⟩ | ⟨h, rfl⟩ | ⟨h, rfl, rfl⟩ | ⟨h, rfl, h'⟩)
    · exact .slash
    · exact .semicolon
    · exact .disallowed (ordinary_iff.mpr hp) h
    · exact .ends (ordinary_iff.mpr hp) h
    · exact .next (ordinary_iff.mpr hp) h h'

theorem classNameLoop_fails (value : Str) : ∀ (fuel : Nat) (done tail : Str), value = done ++ tail → strLen tail < fuel →
    Fails (classNameLoop value fuel (strLen done)) (ClassNameSays tail)
  | 0, _, _, _, h => by omega
  | fuel + 1, done, tail, hv, hf => by
    unfold classNameLoop
    rw [hv, strFrom_append]
    show Fails (Res.bind (parseUnqualifiedSegment tail) _) _
    rcases good_split tail with hg | ⟨pre, c, rest, rfl, hp, hc⟩
    · rw [parseSeg_good tail hg]
      exact Fails.of_ok fun m => classNameSays_good hg
    · rcases not_good_cases hc with rfl | rfl | hd
      · by_cases hne : pre = []
        · subst hne
          rw [List.nil_append, parseSeg_slash]
          refine Fails.of_err (S := ClassNameSays ('/' :: rest)) .slash fun m h => ?_
          have := (classNameSays_stop (pre := []) (by simp) hc).mp h
          simpa [disallowed] using this
        · rw [parseSeg_stop pre rest '/' hp hne (.inl rfl)]
          show Fails (classNameLoop (done ++ (pre ++ '/' :: rest)) fuel (strLen done + strLen pre + 1)) _
          have h1 : ('/' : Char).utf8Size = 1 := by decide
          have hfuel : strLen rest < fuel := by
            simp only [strLen_append, strLen] at hf
            omega
          have := classNameLoop_fails (done ++ (pre ++ '/' :: rest)) fuel (done ++ pre ++ ['/']) rest (by simp) hfuel
          have e : strLen (done ++ pre ++ ['/']) = strLen done + strLen pre + 1 := by
            simp only [strLen_append, strLen]
            omega
          rw [e] at this
          refine this.congr fun m => ?_
          rw [classNameSays_stop hp hc]
          simp [hne, disallowed]
      · by_cases hne : pre = []
        · subst hne
          rw [List.nil_append, parseSeg_semi]
          refine Fails.of_err (S := ClassNameSays (';' :: rest)) .semicolon fun m h => ?_
          have := (classNameSays_stop (pre := []) (by simp) hc).mp h
          simpa [disallowed] using this
        · rw [parseSeg_stop pre rest ';' hp hne (.inr rfl)]
          show Fails (Res.fail "Disallowed ';' in class name") _
          refine Fails.of_err (.ends (ordinary_iff.mpr hp) hne) fun m h => ?_
          have := (classNameSays_stop hp hc).mp h
          simpa [hne, disallowed] using this
      · rw [parseSeg_disallowed pre rest c hp hd]
        refine Fails.of_err (.disallowed (ordinary_iff.mpr hp) hd) fun m h => ?_
        rcases (classNameSays_stop hp hc).mp h with ⟨-, rfl, -⟩ | ⟨-, rfl, -⟩ | ⟨-, h⟩ | ⟨-, rfl, -⟩ | ⟨-, rfl, -⟩
        · exact absurd hd (by decide)
        · exact absurd hd (by decide)
        · exact h
        · exact absurd hd (by decide)
        · exact absurd hd (by decide)

theorem tryFrom_fails (s : Str) : Fails (ClassName.tryFrom s) (ClassNameSays s) := by
  unfold ClassName.tryFrom
  exact (classNameLoop_fails s (strLen s + 1) [] s rfl (by omega)).map _

/-! ## Class names in descriptors -/

theorem objectSays_good {s : Str} {m : String} (h : ∀ c ∈ s, GoodChar c) : ObjectSays s m ↔ m = "Unterminated unqualified segment" := by
  constructor
  · intro hs
    cases hs with
    | slash => exact absurd (h '/' (by simp)) slash_not_good
    | semicolon => exact absurd (h ';' (by simp)) semi_not_good
    | disallowed h1 h2 => exact absurd (h _ (by simp)) (disallowed_not_good h2)
    | unterminated => rfl
    | next h1 h2 h3 => exact absurd (h '/' (by simp)) slash_not_good
  · rintro rfl
    exact .unterminated (ordinary_iff.mpr h)

theorem objectSays_stop {pre rest : Str} {c : Char} {m : String} (hp : ∀ x ∈ pre, GoodChar x) (hc : ¬ GoodChar c) :
    ObjectSays (pre ++ c :: rest) m ↔ (pre = [] ∧ c = '/' ∧ m = "Unexpected '/' at start of unqualified segment") ∨
      (pre = [] ∧ c = ';' ∧ m = "Unexpected ';' at start of unqualified segment") ∨
      (c ∈ disallowed ∧ m = "Disallowed character in unqualified segment") ∨
      (pre ≠ [] ∧ c = '/' ∧ ObjectSays rest m) := by
  constructor
  · intro h
    generalize hs : pre ++ c :: rest = s at h
    cases h with
    | @slash t =>
      obtain ⟨rfl, rfl, rfl⟩ := stop_unique (pre' := []) hs hp hc (by simp) slash_not_good
      exact .inl ⟨rfl, rfl, rfl⟩
    | semicolon =>
      obtain ⟨rfl, rfl, rfl⟩ := stop_unique (pre' := []) hs hp hc (by simp) semi_not_good
      exact .inr (.inl ⟨rfl, rfl, rfl⟩)
    | disallowed h1 h2 =>
      obtain ⟨rfl, rfl, rfl⟩ := stop_unique hs hp hc (ordinary_iff.mp h1) (disallowed_not_good h2)
      exact .inr (.inr (.inl ⟨h2, rfl⟩))
    | unterminated h1 =>
      subst hs
      exact (no_stop hc (ordinary_iff.mp h1)).elim
    | next h1 h2 h3 =>
      obtain ⟨rfl, rfl, rfl⟩ := stop_unique hs hp hc (ordinary_iff.mp h1) slash_not_good
      exact .inr (.inr (.inr ⟨h2, rfl, h3⟩))
  · rintro (⟨rfl, rfl, rfl⟩ | ⟨rfl, rfl, rfl⟩ | ⟨h, rfl⟩ | ⟨h, rfl, h'⟩)
    · exact .slash
    · exact .semicolon
    · exact .disallowed (ordinary_iff.mpr hp) h
    · exact .next (ordinary_iff.mpr hp) h h'

theorem classDescriptorLoop_fails (data : Str) : ∀ (fuel : Nat) (pre mid tail : Str), data = pre ++ (mid ++ tail) →
    strLen tail < fuel → Fails (classDescriptorLoop data (strLen pre) fuel (strLen pre + strLen mid)) (ObjectSays tail)
  | 0, _, _, _, _, h => by omega
  | fuel + 1, pre, mid, tail, hv, hf => by
    unfold classDescriptorLoop
    have hfrom : strFrom data (strLen pre + strLen mid) = .ok tail := by
      rw [hv, ← List.append_assoc, ← strLen_append, strFrom_append]
    rw [hfrom]
    show Fails (Res.bind (parseUnqualifiedSegment tail) _) _
    rcases good_split tail with hg | ⟨s, c, rest, rfl, hp, hc⟩
    · rw [parseSeg_good tail hg]
      exact Fails.of_err ((objectSays_good hg).mpr rfl) fun m h => (objectSays_good hg).mp h
    · rcases not_good_cases hc with rfl | rfl | hd
      · by_cases hne : s = []
        · subst hne
          rw [List.nil_append, parseSeg_slash]
          refine Fails.of_err (S := ObjectSays ('/' :: rest)) .slash fun m h => ?_
          have := (objectSays_stop (pre := []) (by simp) hc).mp h
          simpa [disallowed] using this
        · rw [parseSeg_stop s rest '/' hp hne (.inl rfl)]
          show Fails (classDescriptorLoop data (strLen pre) fuel (strLen pre + strLen mid + strLen s + 1)) _
          have h1 : ('/' : Char).utf8Size = 1 := by decide
          have hfuel : strLen rest < fuel := by
            simp only [strLen_append, strLen] at hf
            omega
          have := classDescriptorLoop_fails data fuel pre (mid ++ s ++ ['/']) rest (by rw [hv]; simp) hfuel
          have e : strLen pre + strLen (mid ++ s ++ ['/']) = strLen pre + strLen mid + strLen s + 1 := by
            simp only [strLen_append, strLen]; omega
          rw [e] at this
          refine this.congr fun m => ?_
          rw [objectSays_stop hp hc]
          simp [hne, disallowed]
      · by_cases hne : s = []
        · subst hne
          rw [List.nil_append, parseSeg_semi]
          refine Fails.of_err (S := ObjectSays (';' :: rest)) .semicolon fun m h => ?_
          have := (objectSays_stop (pre := []) (by simp) hc).mp h
          simpa [disallowed] using this
        · rw [parseSeg_stop s rest ';' hp hne (.inr rfl)]
          show Fails (Res.bind (strSlice data (strLen pre) (strLen pre + strLen mid + strLen s)) _) _
          have hslice : strSlice data (strLen pre) (strLen pre + strLen mid + strLen s) = .ok (mid ++ s) := by
            rw [hv, ← List.append_assoc mid, Nat.add_assoc, ← strLen_append, strSlice_append]
          rw [hslice]
          refine Fails.of_ok fun m h => ?_
          have := (objectSays_stop hp hc).mp h
          simp [hne, disallowed] at this
      · rw [parseSeg_disallowed s rest c hp hd]
        refine Fails.of_err (.disallowed (ordinary_iff.mpr hp) hd) fun m h => ?_
        rcases (objectSays_stop hp hc).mp h with ⟨-, rfl, -⟩ | ⟨-, rfl, -⟩ | ⟨-, h⟩ | ⟨-, rfl, -⟩
        · exact absurd hd (by decide)
        · exact absurd hd (by decide)
        · exact h
        · exact absurd hd (by decide)

theorem parseClassDescriptor_fails (pre tail : Str) : Fails (parseClassDescriptor (pre ++ tail) (strLen pre)) (ObjectSays tail) := by
  unfold parseClassDescriptor
  exact classDescriptorLoop_fails (pre ++ tail) (strLen (pre ++ tail) + 1) pre [] tail (by simp) (by rw [strLen_append]; omega)

/-! ## Field descriptors -/

theorem brackets_unique {a b : Nat} {x y : Str} (hx : ∀ r, x ≠ '[' :: r) (hy : ∀ r, y ≠ '[' :: r)
    (h : List.replicate a '[' ++ x = List.replicate b '[' ++ y) : a = b ∧ x = y := by
  induction a generalizing b with
  | zero =>
    cases b with
    | zero => exact ⟨rfl, by simpa using h⟩
    | succ b => exact absurd (by simpa [List.replicate_succ] using h) (hx _)
  | succ a ih =>
    cases b with
    | zero => exact absurd (by simpa [List.replicate_succ] using h.symm) (hy _)
    | succ b =>
      simp only [List.replicate_succ, List.cons_append, List.cons.injEq, true_and] at h
      obtain ⟨h1, h2⟩ := ih h
      exact ⟨by omega, h2⟩

theorem brackets_exist (s : Str) : ∃ (n : Nat) (t : Str), s = List.replicate n '[' ++ t ∧ ∀ r, t ≠ '[' :: r := by
  induction s with
  | nil => exact ⟨0, [], rfl, by simp⟩
  | cons c s ih =>
    by_cases hc : c = '['
    · obtain ⟨n, t, rfl, h⟩ := ih
      exact ⟨n + 1, t, by rw [hc, List.replicate_succ, List.cons_append], h⟩
    · exact ⟨0, c :: s, rfl, fun r h => hc (by simpa using (List.cons.inj h).1)⟩

theorem fieldSays_many {s : Str} {n : Nat} {t : Str} {m : String} (hs : s = List.replicate n '[' ++ t) (ht : ∀ r, t ≠ '[' :: r) :
    FieldSays s m ↔ (255 < n ∧ m = "Dimensions in field descriptor exceeded allowed limit") ∨ (n ≤ 255 ∧ ((t = [] ∧ m = "Empty string is not a field descriptor") ∨
      (∃ c r, t = c :: r ∧ c ∉ typeChars ∧ m = "Unexpected field type") ∨ ∃ r, t = 'L' :: r ∧ ObjectSays r m)) := by
  constructor
  · intro h
    cases h with
    | @dimensions t' =>
      obtain ⟨n', t'', rfl, ht''⟩ := brackets_exist t'
      rw [← List.append_assoc, List.replicate_append_replicate] at hs
      obtain ⟨rfl, rfl⟩ := brackets_unique ht'' ht hs
      exact .inl ⟨by omega, rfl⟩
    | @empty n' hn =>
      obtain ⟨rfl, rfl⟩ := brackets_unique (x := []) (by simp) ht (by simpa using hs)
      exact .inr ⟨hn, .inl ⟨rfl, rfl⟩⟩
    | @type n' c t' hn hc hc' =>
      obtain ⟨rfl, rfl⟩ := brackets_unique (by simpa using hc) ht hs
      exact .inr ⟨hn, .inr (.inl ⟨c, t', rfl, hc', rfl⟩)⟩
    | @object n' t' m hn ho =>
      obtain ⟨rfl, rfl⟩ := brackets_unique (by simp) ht hs
      exact .inr ⟨hn, .inr (.inr ⟨t', rfl, ho⟩)⟩
  · subst hs
    rintro (⟨hn, rfl⟩ | ⟨hn, ⟨rfl, rfl⟩ | ⟨c, r, rfl, hc, rfl⟩ | ⟨r, rfl, ho⟩⟩)
    · obtain ⟨k, rfl⟩ : ∃ k, n = 256 + k := ⟨n - 256, by omega⟩
      rw [← List.replicate_append_replicate, List.append_assoc]
      exact .dimensions
    · rw [List.append_nil]; exact .empty hn
    · exact .type hn (fun h => ht r (by rw [h])) hc
    · exact .object hn ho

theorem typeOfChar_none {c : Char} : (typeOfChar c = none ∧ c ≠ 'L') ↔ c ∉ typeChars := by
  unfold typeOfChar typeChars
  simp only [List.mem_cons, List.not_mem_nil, or_false, not_or]
  constructor
  · rintro ⟨h, hl⟩
    repeat' split at h
    all_goals first | (cases h; done) | tauto
  · intro h
    refine ⟨?_, h.2.2.2.2.2.2.2.2⟩
    simp [h]

theorem parseTypeArm_fails (pre rest : Str) (c : Char) : Fails (parseTypeArm (pre ++ c :: rest) (strLen pre + 1) c)
    (fun m => (c ∉ typeChars ∧ m = "Unexpected field type") ∨ (c = 'L' ∧ ObjectSays rest m)) := by
  rw [parseTypeArm_eq]
  cases hc : typeOfChar c with
  | some t =>
    have hin : c ∈ typeChars := by
      by_contra h
      rw [(typeOfChar_none.mpr h).1] at hc
      cases hc
    refine Fails.of_ok fun m => ?_
    rintro (⟨h, -⟩ | ⟨rfl, -⟩)
    · exact h hin
    · cases hc
  | none =>
    simp only
    split
    · rename_i hl
      subst hl
      have h := parseClassDescriptor_fails (pre ++ ['L']) rest
      rw [strLen_append, List.append_assoc] at h
      simp only [strLen, Nat.add_zero, List.cons_append, List.nil_append] at h
      rw [show ('L' : Char).utf8Size = 1 by decide] at h
      refine (h.map _).congr fun m => ?_
      simp [typeChars]
    · rename_i hl
      exact Fails.of_err (.inl ⟨typeOfChar_none.mp ⟨hc, hl⟩, rfl⟩) fun m' h => by
        rcases h with ⟨-, h⟩ | ⟨h, -⟩
        · exact h
        · exact absurd h hl

theorem parseFieldDescriptorLoop_fails (pre : Str) : ∀ (rest : Str) (n : Nat), n ≤ 255 →
    Fails (parseFieldDescriptorLoop (pre ++ (List.replicate n '[' ++ rest)) (strLen pre) n rest) (FieldSays (List.replicate n '[' ++ rest))
  | [], n, hn => by
    refine Fails.of_err ?_ fun m h => ?_
    · rw [List.append_nil]; exact .empty hn
    · rcases (fieldSays_many (n := n) (t := []) rfl (by simp)).mp h with ⟨h, -⟩ | ⟨-, ⟨-, h⟩ | ⟨c, r, h, -⟩ | ⟨r, h, -⟩⟩
      · omega
      · exact h
      · cases h
      · cases h
  | c :: rest, n, hn => by
    by_cases hc : c = '['
    · subst hc
      unfold parseFieldDescriptorLoop
      rw [if_pos (by simp)]
      have e : List.replicate n '[' ++ '[' :: rest = List.replicate (n + 1) '[' ++ rest := by
        rw [List.replicate_succ', List.append_assoc]; rfl
      split
      · rename_i h255
        have hn' : n = 255 := by omega
        subst hn'
        rw [e]
        refine Fails.of_err .dimensions fun m h => ?_
        obtain ⟨k, t, ht, hb⟩ := brackets_exist rest
        rw [ht, ← List.append_assoc, List.replicate_append_replicate] at h
        rcases (fieldSays_many rfl hb).mp h with ⟨-, h⟩ | ⟨h, -⟩
        · exact h
        · omega
      · have := parseFieldDescriptorLoop_fails pre rest (n + 1) (by omega)
        rw [← e] at this
        exact this
    · rw [parseFieldDescriptorLoop_cons _ _ _ _ _ hc]
      have h := parseTypeArm_fails (pre ++ List.replicate n '[') rest c
      rw [strLen_append, strLen_replicate, List.append_assoc] at h
      refine (h.map _).congr fun m => ?_
      have hb : ∀ r, c :: rest ≠ '[' :: r := fun r h => hc (List.cons.inj h).1
      rw [fieldSays_many rfl hb]
      constructor
      · rintro (⟨h1, rfl⟩ | ⟨rfl, h1⟩)
        · exact .inr ⟨hn, .inr (.inl ⟨c, rest, rfl, h1, rfl⟩)⟩
        · exact .inr ⟨hn, .inr (.inr ⟨rest, rfl, h1⟩)⟩
      · rintro (⟨h, -⟩ | ⟨-, ⟨h, -⟩ | ⟨c', r, h, hc', rfl⟩ | ⟨r, h, ho⟩⟩)
        · omega
        · cases h
        · cases h; exact .inl ⟨hc', rfl⟩
        · cases h; exact .inr ⟨rfl, ho⟩

theorem parseFieldDescriptor_fails (pre tail : Str) : Fails (parseFieldDescriptor (pre ++ tail) (strLen pre)) (FieldSays tail) := by
  unfold parseFieldDescriptor
  rw [strFrom_append]
  exact parseFieldDescriptorLoop_fails pre tail 0 (by omega)

/-- A text starts with a field descriptor, or something is said about it, and not both. -/
theorem fieldSays_or (s : Str) : (∃ m, FieldSays s m) ↔ ∀ d, ¬ FieldPrefix d s := by
  have h := parseFieldDescriptor_fails [] s
  have hd := parseFieldDescriptor_decides [] s
  constructor
  · rintro ⟨m, hm⟩ d hp
    exact h.not_ok hm d ((hd.1 d).mpr hp)
  · intro hn
    rcases hd.2 with ⟨d, hok⟩ | ⟨e, he⟩
    · exact absurd ((hd.1 d).mp hok) (hn d)
    · obtain ⟨m, -, hm⟩ := (h e).mp he
      exact ⟨m, hm⟩

/-! ## Method descriptors -/

theorem parseReturnDescriptor_fails (pre tail : Str) :
    Fails (parseReturnDescriptor (pre ++ tail) (strLen pre)) (fun m => tail ≠ ['V'] ∧ FieldSays tail m) := by
  unfold parseReturnDescriptor
  rw [strFrom_append]
  show Fails (if tail == ['V'] then _ else _) _
  split
  · rename_i h
    have h : tail = ['V'] := by simpa using h
    exact Fails.of_ok fun m h' => h'.1 h
  · rename_i h
    have h : tail ≠ ['V'] := by simpa using h
    refine ((parseFieldDescriptor_fails pre tail).map _).congr fun m => ?_
    simp [h]

/-- Some parameters, and then something else. -/
def ParamsSays (tail : Str) (m : String) : Prop :=
  ∃ (ds : List FieldDescriptor) (t : Str), tail = paramsText ds ++ t ∧ (∀ d ∈ ds, FieldOK d) ∧ (∀ r, t ≠ ')' :: r) ∧ FieldSays t m

theorem parametersLoop_fails (data : Str) : ∀ (fuel : Nat) (pre tail : Str), data = pre ++ tail → strLen tail < fuel →
    Fails (parametersLoop data (asBytes data) fuel (strLen pre)) (ParamsSays tail)
  | 0, _, _, _, h => by omega
  | fuel + 1, pre, tail, hv, hf => by
    unfold parametersLoop
    have hat := asBytes_at pre tail ')' (by decide)
    rw [← hv] at hat
    have h41 : UInt8.ofNat (')' : Char).toNat = 41 := by decide
    rw [h41] at hat
    split
    · rename_i hcond
      simp only [Bool.and_eq_true, beq_iff_eq] at hcond
      obtain ⟨r, rfl⟩ := hat.mp hcond.2
      refine Fails.of_ok ?_
      rintro m ⟨ds, t, ht, hok, hno, -⟩
      cases ds with
      | nil => exact hno r ht.symm
      | cons d ds => exact not_fieldPrefix_paren ⟨hok d (by simp), paramsText ds ++ t, by rw [ht]; simp [paramsText]⟩
    · rename_i hcond
      have hnot : ∀ r, tail ≠ ')' :: r := by
        intro r h
        apply hcond
        have := hat.mpr ⟨r, h⟩
        simp only [Bool.and_eq_true, beq_iff_eq, decide_eq_true_eq]
        refine ⟨?_, this⟩
        rw [length_asBytes, hv, strLen_append, h]
        simp only [strLen]
        have := utf8Size_pos ')'
        omega
      have hfd := parseFieldDescriptor_decides pre tail
      have hff := parseFieldDescriptor_fails pre tail
      rw [← hv] at hfd hff
      refine (Fails.bind (T := fun p m => ∃ rest, tail = fieldText p ++ rest ∧ ParamsSays rest m) hff hfd.1 fun p hp => ?_).congr fun m => ?_
      · obtain ⟨hok, rest, ht⟩ := hp
        have hlen := strLen_fieldText p
        have hpos := byteLen_pos p
        have hfuel : strLen rest < fuel := by
          rw [ht, strLen_append, hlen] at hf; omega
        have ih := parametersLoop_fails data fuel (pre ++ fieldText p) rest (by rw [hv, ht]; simp) hfuel
        rw [strLen_append, hlen] at ih
        refine (ih.map _).congr fun m => ⟨fun h => ⟨rest, ht, h⟩, ?_⟩
        rintro ⟨rest', h', h⟩
        rw [ht] at h'
        rw [List.append_cancel_left h']
        exact h
      · constructor
        · rintro (h | ⟨p, ⟨hok, -, -⟩, rest, rfl, ds, t, rfl, hds, hno, h⟩)
          · exact ⟨[], tail, rfl, by simp, hnot, h⟩
          · exact ⟨p :: ds, t, by simp [paramsText], by simpa using ⟨hok, hds⟩, hno, h⟩
        · rintro ⟨ds, t, rfl, hds, hno, h⟩
          cases ds with
          | nil => exact .inl h
          | cons d ds =>
            refine .inr ⟨d, ⟨hds d (by simp), paramsText ds ++ t, by simp [paramsText]⟩, paramsText ds ++ t, by simp [paramsText], ds, t, rfl, fun x hx => hds x (by simp [hx]), hno, h⟩

theorem parseMethodDescriptor_fails (s : Str) : Fails (parseMethodDescriptor s 0) (MethodSays s) := by
  unfold parseMethodDescriptor
  simp only
  have hat := asBytes_at [] s '(' (by decide)
  simp only [List.nil_append, strLen] at hat
  rw [show UInt8.ofNat ('(' : Char).toNat = 40 by decide] at hat
  split
  · rename_i hcond
    have hno : ∀ t, s ≠ '(' :: t := by
      intro t ht
      have h1 := hat.mpr ⟨t, ht⟩
      simp only [Bool.or_eq_true, decide_eq_true_eq, bne_iff_ne, ne_eq] at hcond
      rcases hcond with hcond | hcond
      · rw [List.getElem?_eq_none hcond] at h1; simp at h1
      · exact hcond h1
    refine Fails.of_err (.start hno) fun m h => ?_
    cases h with
    | start => rfl
    | parameter => exact absurd rfl (hno _)
    | returns => exact absurd rfl (hno _)
  · rename_i hcond
    simp only [Bool.or_eq_true, decide_eq_true_eq, bne_iff_ne, ne_eq, not_or, Classical.not_not] at hcond
    obtain ⟨r, rfl⟩ := hat.mp hcond.2
    have hparen : ('(' : Char).utf8Size = 1 := by decide
    have hclose : (')' : Char).utf8Size = 1 := by decide
    have hfu : strLen r < (asBytes ('(' :: r)).length + 1 := by
      rw [length_asBytes]; simp only [strLen]; omega
    have hp := parametersLoop_decides ('(' :: r) ((asBytes ('(' :: r)).length + 1) ['('] r rfl hfu
    have hpf := parametersLoop_fails ('(' :: r) ((asBytes ('(' :: r)).length + 1) ['('] r rfl hfu
    rw [show strLen ['('] = 0 + 1 by simp [strLen, hparen]] at hp hpf
    refine (Fails.bind (T := fun x m => ∃ junk, r = paramsText x.1 ++ ')' :: junk ∧ junk ≠ ['V'] ∧ FieldSays junk m) hpf hp.1 fun x hx => ?_).congr fun m => ?_
    · obtain ⟨ps, n⟩ := x
      obtain ⟨⟨hok, junk, hj⟩, hn⟩ := hx
      simp only at hok hj hn
      have hret := parseReturnDescriptor_fails (['('] ++ paramsText ps ++ [')']) junk
      have hs : ['('] ++ paramsText ps ++ [')'] ++ junk = '(' :: r := by rw [hj]; simp
      have hl : strLen (['('] ++ paramsText ps ++ [')']) = n + 1 := by
        rw [hn, strLen_append, strLen]; simp [strLen, hclose]
      rw [hs, hl] at hret
      refine (hret.map _).congr fun m => ⟨fun h => ⟨junk, hj, h⟩, ?_⟩
      rintro ⟨junk', hj', h⟩
      rw [hj] at hj'
      have := List.append_cancel_left hj'
      simp only [List.cons.injEq, true_and] at this
      rw [this]
      exact h
    · constructor
      · rintro (⟨ds, t, rfl, hds, hno, h⟩ | ⟨⟨ps, n⟩, ⟨⟨hok, -⟩, -⟩, junk, rfl, hV, h⟩)
        · exact .parameter hds hno h
        · exact .returns hok hV h
      · intro h
        generalize hs : '(' :: r = s at h
        cases h with
        | start h => exact absurd hs.symm (h r)
        | @parameter ds t m hds hno h =>
          cases hs
          exact .inl ⟨ds, t, rfl, hds, hno, h⟩
        | @returns ds t m hds hV h =>
          cases hs
          exact .inr ⟨(ds, strLen (['('] ++ paramsText ds)), ⟨⟨hds, t, rfl⟩, rfl⟩, t, rfl, hV, h⟩

end Cafebabe
