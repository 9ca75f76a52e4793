import Verif.Spec.Run
/-!
# Specification: errors about the end of the input
-/

namespace Cafebabe.Spec

/-- The items in whose middle the end of the input can be found, with their sizes in bytes: numbers, the text of a constant, the code of a
method and the content of an attribute. -/
inductive Item : String → Nat → Prop
  | u1 : Item "u1" 1
  | u2 : Item "u2" 2
  | u4 : Item "u4" 4
  | u8 : Item "u8" 8
  | utf8 (n : Nat) (h : n < 2 ^ 16) : Item "CONSTANT_Utf8" n
  | code (n : Nat) (h : n < 2 ^ 32) : Item "code attribute" n
  | attribute (n : Nat) (h : n < 2 ^ 32) : Item "attributes" n

/-- The message says that an item of `n` bytes starts at index `ix` of the input of the given length, and it is true that the input contains
the start but not the end of such an item. -/
def CutAt (length : Nat) (msg : String) (ix n : Nat) : Prop :=
  ∃ what, Item what n ∧ msg = s!"Unexpected end of stream reading {what} at index {ix}" ∧ ix ≤ length ∧ length < ix + n

/-- The text starts with "Unexpected end of stream". -/
def SaysEnd (m : String) : Prop := "Unexpected end of stream".toList <+: m.toList

instance (m : String) : Decidable (SaysEnd m) := by unfold SaysEnd; infer_instance

end Cafebabe.Spec
