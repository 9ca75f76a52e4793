import Verif.Proofs.TextMessage
import Verif.Props.TextProps
/-!
# What is said about a text that is not a class name or a descriptor: C70
-/

namespace Cafebabe
open Spec Examples

/-- `ClassName::try_from` returns an error exactly for the texts about which something is said, and that is the message; the error has no
contexts. -/
theorem C70_class_name (s : Str) (e : ParseError) : ClassName.tryFrom s = .err e ↔ ∃ m, e = ⟨m, []⟩ ∧ ClassNameSays s m :=
  tryFrom_fails s e

/-- The same for field descriptors. -/
theorem C70_field_descriptor (s : Str) (e : ParseError) : parseFieldDescriptor s 0 = .err e ↔ ∃ m, e = ⟨m, []⟩ ∧ FieldSays s m :=
  parseFieldDescriptor_fails [] s e

/-- The same for method descriptors. -/
theorem C70_method_descriptor (s : Str) (e : ParseError) : parseMethodDescriptor s 0 = .err e ↔ ∃ m, e = ⟨m, []⟩ ∧ MethodSays s m :=
  parseMethodDescriptor_fails s e

/-- One thing is said about a text, or nothing; and nothing is said exactly about the texts that are accepted: names of classes (see C17), texts that
start with a field descriptor, texts that start with a method descriptor, where nothing follows a return type `V` (see C34). -/
theorem C70_one (s : Str) :
    ((∃ m, ∀ m', ClassNameSays s m' ↔ m' = m) ∨ (∀ m, ¬ ClassNameSays s m) ∧ LaxShape s) ∧ (LaxShape s → ∀ m, ¬ ClassNameSays s m) ∧
    ((∃ m, ∀ m', FieldSays s m' ↔ m' = m) ∨ ∃ d t, FieldOK d ∧ s = d.display ++ t) ∧
    (∀ d t, FieldOK d → s = d.display ++ t → ∀ m, ¬ FieldSays s m) ∧
    ((∃ m, ∀ m', MethodSays s m' ↔ m' = m) ∨ ∃ d t, MethodOK d ∧ s = d.display ++ t ∧ (d.returnType = .void → t = [])) ∧
    ∀ d t, MethodOK d → s = d.display ++ t → (d.returnType = .void → t = []) → ∀ m, ¬ MethodSays s m := by
  have hc := tryFrom_fails s
  have hf := parseFieldDescriptor_fails [] s
  have hm := parseMethodDescriptor_fails s
  have key : ∀ {α : Type} {r : Res α} {S : String → Prop}, Fails r S → Returns r → (∃ m, ∀ m', S m' ↔ m' = m) ∨ (∀ m, ¬ S m) ∧ ∃ a, r = .ok a := by
    intro α r S h hr
    cases r with
    | ok a => exact .inr ⟨fun m hm => h.not_ok hm a rfl, a, rfl⟩
    | err e =>
      obtain ⟨m, -, hm⟩ := (h e).mp rfl
      exact .inl ⟨m, fun m' => ⟨fun h' => h.unique h' hm, fun h' => h' ▸ hm⟩⟩
    | panic k => rcases hr with ⟨_, h⟩ | ⟨_, h⟩ <;> cases h
    | diverge => rcases hr with ⟨_, h⟩ | ⟨_, h⟩ <;> cases h
  refine ⟨?_, fun h m hm => ?_, ?_, fun d t hd ht m hm => ?_, ?_, fun d t hd ht hv m h => ?_⟩
  · refine (key hc (C17_decides s).2).imp_right fun ⟨h, a, ha⟩ => ⟨h, (((C17_decides s).1 a).mp ha).2⟩
  · exact hc.not_ok hm ⟨s⟩ (((C17_decides s).1 ⟨s⟩).mpr ⟨rfl, h⟩)
  · refine (key hf (parseFieldDescriptor_decides [] s).2).imp_right fun ⟨h, a, ha⟩ => ?_
    obtain ⟨h1, t, h2⟩ := (C34_display_prefix s).1 a ha
    exact ⟨a, t, h1, h2.symm⟩
  · subst ht
    exact hf.not_ok hm d ((C34_false d hd t).1)
  · refine (key hm (parseMethodDescriptor_decides s).2).imp_right fun ⟨h, a, ha⟩ => ?_
    obtain ⟨h1, t, h2, h3⟩ := ((C34_accepted s).2.1 a).mp ha
    exact ⟨a, t, h1, h2, h3⟩
  · exact hm.not_ok h d (((C34_accepted s).2.1 d).mpr ⟨hd, t, ht, hv⟩)

/-- What is said does not depend on what follows the fault: a text that is faulty before its end is faulty in the same way whatever is appended. -/
theorem C70_prefix (s t : Str) :
    (∀ m, ClassNameSays s m → ClassNameSays (s ++ t) m) ∧
    (∀ m, FieldSays s m → m ≠ "Empty string is not a field descriptor" → m ≠ "Unterminated unqualified segment" → FieldSays (s ++ t) m) ∧
    ∀ m, MethodSays s m → s ≠ [] → m ≠ "Empty string is not a field descriptor" → m ≠ "Unterminated unqualified segment" → MethodSays (s ++ t) m := by
  have hF : ∀ {s : Str} {m : String}, FieldSays s m → m ≠ "Empty string is not a field descriptor" → m ≠ "Unterminated unqualified segment" →
      FieldSays (s ++ t) m := by
    intro s m h h1 h2
    have ho : ∀ {s : Str} {m : String}, ObjectSays s m → m ≠ "Unterminated unqualified segment" → ObjectSays (s ++ t) m := by
      intro s m h h2
      induction h with
      | slash => exact .slash
      | semicolon => exact .semicolon
      | disallowed ha hc => rw [List.append_assoc]; exact .disallowed ha hc
      | unterminated _ => exact absurd rfl h2
      | next ha hn _ ih => rw [List.append_assoc]; exact .next ha hn (ih h2)
    cases h with
    | dimensions => rw [List.append_assoc]; exact .dimensions
    | empty _ => exact absurd rfl h1
    | type hn hc ht => rw [List.append_assoc]; exact .type hn hc ht
    | object hn h => rw [List.append_assoc]; exact .object hn (ho h h2)
  have hne : ∀ {s : Str} {m : String}, FieldSays s m → m ≠ "Empty string is not a field descriptor" → s ≠ [] := by
    intro s m h h1 h0
    cases h with
    | dimensions => exact absurd (List.append_eq_nil_iff.mp h0).1 (by rw [List.replicate_eq_nil_iff]; omega)
    | empty _ => exact h1 rfl
    | type hn hc ht => simp at h0
    | object hn h => simp at h0
  refine ⟨fun m h => ?_, fun m => hF, fun m h hs h1 h2 => ?_⟩
  · induction h with
    | slash => exact .slash
    | semicolon => exact .semicolon
    | disallowed ha hc => rw [List.append_assoc]; exact .disallowed ha hc
    | ends ha hn => rw [List.append_assoc]; exact .ends ha hn
    | next ha hn _ ih => rw [List.append_assoc]; exact .next ha hn ih
  · cases h with
    | start hp =>
      refine .start fun r hr => ?_
      cases s with
      | nil => exact hs rfl
      | cons c s => injection hr with hc _; exact hp s (by rw [hc])
    | @parameter ds u _ hd hn hu =>
      rw [List.cons_append, List.append_assoc]
      refine .parameter hd (fun r hr => ?_) (hF hu h1 h2)
      cases u with
      | nil => exact hne hu h1 rfl
      | cons c u => injection hr with hc _; exact hn u (by rw [hc])
    | @returns ds u _ hd hn hu =>
      rw [List.cons_append, List.append_assoc, List.cons_append]
      refine .returns hd (fun hr => ?_) (hF hu h1 h2)
      cases u with
      | nil => exact hne hu h1 rfl
      | cons c u =>
        have h3 : c = 'V' ∧ u ++ t = [] := by simpa using hr
        exact hn (by rw [h3.1, (List.append_eq_nil_iff.mp h3.2).1])

/-- The two exceptions are real: these texts become well formed, or wrong in another way, when something is appended. -/
theorem C70_prefix_exceptions :
    (MethodSays "(".toList "Empty string is not a field descriptor" ∧ ∀ m, ¬ MethodSays ("(".toList ++ ")V".toList) m) ∧
    (FieldSays "La".toList "Unterminated unqualified segment" ∧ ∀ m, ¬ FieldSays ("La".toList ++ ";".toList) m) ∧
    (MethodSays [] "Method descriptor must start with '('" ∧ ∀ m, ¬ MethodSays ([] ++ "()V".toList) m) ∧
    (∀ m, ¬ MethodSays "()V".toList m) ∧ MethodSays ("()V".toList ++ "I".toList) "Unexpected field type" := by
  have hv : ∀ m, ¬ MethodSays "()V".toList m :=
    (C70_one "()V".toList).2.2.2.2.2 ⟨[], .void⟩ [] (by simp [MethodOK, ReturnOK]) (by decide) (fun _ => rfl)
  refine ⟨⟨?_, hv⟩, ⟨?_, ?_⟩, ⟨.start (by intro t h; cases h), hv⟩, hv, ?_⟩
  · exact .parameter (ds := []) (t := []) (by intro d h; cases h) (by intro r h; cases h) (.empty (n := 0) (by omega))
  · exact .object (n := 0) (t := "a".toList) (by omega) (.unterminated (by simp [Ordinary]))
  · exact (C70_one "La;".toList).2.2.2.1 ⟨0, .object ⟨['a']⟩⟩ [] 
      (show ClassNameText ['a'] from ⟨[['a']], by simp, by simp [Segment, UnqualifiedName], by simp [joinSlash]⟩) (by decide)
  · exact .returns (ds := []) (t := "VI".toList) (by intro d h; cases h) (by simp) (.type (n := 0) (by omega) (by decide) (by decide))

/-! ## Each message occurs -/

theorem int_ok : FieldOK ⟨0, .integer⟩ := by simp [FieldOK, TypeOK]

example : ClassNameSays "/a".toList "Unexpected '/' at start of unqualified segment" := .slash
example : ClassNameSays "a//b".toList "Unexpected '/' at start of unqualified segment" :=
  .next (a := ['a']) (t := "/b".toList) (by simp [Ordinary]) (by simp) .slash
example : ClassNameSays "a/;b".toList "Unexpected ';' at start of unqualified segment" :=
  .next (a := ['a']) (t := ";b".toList) (by simp [Ordinary]) (by simp) .semicolon
example : ClassNameSays "java.lang".toList "Disallowed character in unqualified segment" :=
  .disallowed (a := "java".toList) (t := "lang".toList) (c := '.') (by simp [Ordinary]) (by simp [disallowed])
example : ClassNameSays "a/b;c.d".toList "Disallowed ';' in class name" :=
  .next (a := ['a']) (t := "b;c.d".toList) (by simp [Ordinary]) (by simp) (.ends (a := ['b']) (by simp [Ordinary]) (by simp))
example : FieldSays "[[".toList "Empty string is not a field descriptor" := .empty (n := 2) (by omega)
example : FieldSays "[V".toList "Unexpected field type" := .type (n := 1) (t := []) (by omega) (by decide) (by decide)
example : FieldSays "[La/b".toList "Unterminated unqualified segment" :=
  .object (n := 1) (t := "a/b".toList) (by omega) (.next (a := ['a']) (by simp [Ordinary]) (by simp) (.unterminated (a := ['b']) (by simp [Ordinary])))
example : MethodSays "I".toList "Method descriptor must start with '('" := .start (by intro t h; cases h)
example : MethodSays "(IV)V".toList "Unexpected field type" :=
  .parameter (ds := [⟨0, .integer⟩]) (t := "V)V".toList) (by intro d h; simp at h; subst h; exact int_ok) (by intro r h; cases h) (.type (n := 0) (by omega) (by decide) (by decide))
example : MethodSays "(I".toList "Empty string is not a field descriptor" :=
  .parameter (ds := [⟨0, .integer⟩]) (t := []) (by intro d h; simp at h; subst h; exact int_ok) (by intro r h; cases h) (.empty (n := 0) (by omega))
/-- A return type `V` must be the last character. -/
example : MethodSays "()VI".toList "Unexpected field type" :=
  .returns (ds := []) (t := "VI".toList) (by intro d h; cases h) (by simp) (.type (n := 0) (by omega) (by decide) (by decide))

end Cafebabe
