import Verif.Spec.Text
/-!
# Specification: what is said about a text that is not a class name or not a descriptor

`ClassNameSays s m`, `FieldSays s m`, `MethodSays s m`: reading `s` from the left as the name of a class, a field descriptor, a method
descriptor, `m` is the message about the first thing that is wrong.
-/

namespace Cafebabe.Spec

/-- Characters that have no meaning of their own in the name of a class. -/
def Ordinary (s : Str) : Prop := ∀ c ∈ s, c ∉ ['/', ';', '.', '[', '<', '>']

/-- Characters that may not be in the name of a class. -/
def disallowed : List Char := ['.', '[', '<', '>']

/-- What is said about `s`, which is not the name of a class: the name is taken apart at each `/`. -/
inductive ClassNameSays : Str → String → Prop where
  | slash {t : Str} : ClassNameSays ('/' :: t) "Unexpected '/' at start of unqualified segment"
  | semicolon {t : Str} : ClassNameSays (';' :: t) "Unexpected ';' at start of unqualified segment"
  | disallowed {a t : Str} {c : Char} : Ordinary a → c ∈ disallowed → ClassNameSays (a ++ c :: t) "Disallowed character in unqualified segment"
  | ends {a t : Str} : Ordinary a → a ≠ [] → ClassNameSays (a ++ ';' :: t) "Disallowed ';' in class name"
  | next {a t : Str} {m : String} : Ordinary a → a ≠ [] → ClassNameSays t m → ClassNameSays (a ++ '/' :: t) m

/-- What is said about what follows the `L` of a descriptor when it is not the name of a class and a `;`. -/
inductive ObjectSays : Str → String → Prop where
  | slash {t : Str} : ObjectSays ('/' :: t) "Unexpected '/' at start of unqualified segment"
  | semicolon {t : Str} : ObjectSays (';' :: t) "Unexpected ';' at start of unqualified segment"
  | disallowed {a t : Str} {c : Char} : Ordinary a → c ∈ disallowed → ObjectSays (a ++ c :: t) "Disallowed character in unqualified segment"
  | unterminated {a : Str} : Ordinary a → ObjectSays a "Unterminated unqualified segment"
  | next {a t : Str} {m : String} : Ordinary a → a ≠ [] → ObjectSays t m → ObjectSays (a ++ '/' :: t) m

/-- The first characters of the types. -/
def typeChars : List Char := ['B', 'C', 'D', 'F', 'I', 'J', 'S', 'Z', 'L']

/-- What is said about a text that does not start with a field descriptor. -/
inductive FieldSays : Str → String → Prop where
  /-- Too many dimensions. -/
  | dimensions {t : Str} : FieldSays (List.replicate 256 '[' ++ t) "Dimensions in field descriptor exceeded allowed limit"
  /-- The text ends before the type. -/
  | empty {n : Nat} : n ≤ 255 → FieldSays (List.replicate n '[') "Empty string is not a field descriptor"
  /-- No type starts like this. -/
  | type {n : Nat} {c : Char} {t : Str} : n ≤ 255 → c ≠ '[' → c ∉ typeChars → FieldSays (List.replicate n '[' ++ c :: t) "Unexpected field type"
  /-- The name of the class. -/
  | object {n : Nat} {t : Str} {m : String} : n ≤ 255 → ObjectSays t m → FieldSays (List.replicate n '[' ++ 'L' :: t) m

/-- What is said about a text that does not start with a method descriptor. -/
inductive MethodSays : Str → String → Prop where
  /-- There is no opening parenthesis. -/
  | start {s : Str} : (∀ t, s ≠ '(' :: t) → MethodSays s "Method descriptor must start with '('"
  /-- Some parameters are well formed, and then comes something that is neither a parameter nor the closing parenthesis. -/
  | parameter {ds : List FieldDescriptor} {t : Str} {m : String} : (∀ d ∈ ds, FieldOK d) → (∀ r, t ≠ ')' :: r) → FieldSays t m →
      MethodSays ('(' :: (paramsText ds ++ t)) m
  /-- The return type. -/
  | returns {ds : List FieldDescriptor} {t : Str} {m : String} : (∀ d ∈ ds, FieldOK d) → t ≠ ['V'] → FieldSays t m →
      MethodSays ('(' :: (paramsText ds ++ ')' :: t)) m

end Cafebabe.Spec
