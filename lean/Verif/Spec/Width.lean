import Verif.Model.Width
import Verif.Spec.Run
/-!
# Specification: what can differ on a target with a narrow `usize`
-/

namespace Cafebabe.Spec

/-- One run of `parse_class_with_options` with recursion budget `d` on a target whose `usize` has `w` bits. -/
def runOn (w : Nat) (o : Opts) (d : Nat) (bytes : Bytes) : Res ClassFile :=
  parseClassWithOptionsW w { decode := o.decode, overflowChecks := o.checks, depth := d, parseBytecode := o.parseBytecode } bytes

/-- The call returns `Ok(cf)` on such a target. -/
def AcceptsOn (w : Nat) (o : Opts) (bytes : Bytes) (cf : ClassFile) : Prop := ∃ d, runOn w o d bytes = .ok cf

/-- The call panics on such a target. -/
def PanicsOn (w : Nat) (o : Opts) (bytes : Bytes) (k : PanicKind) : Prop := ∃ d, runOn w o d bytes = .panic k

/-- The only way outcomes may differ: an index near the end of the input plus a 4-byte length exceeds `usize`; the outcome without the limit
(`s`) is an error, the outcome with it (`r`) is not `Ok`, and is the overflow panic in builds with overflow checks. -/
def Wrapped {α : Type} (w : Nat) (checks : Bool) (bytes : Bytes) (r s : Res α) : Prop :=
  2 ^ w < bytes.length + 2 ^ 32 ∧ (∃ e, s = .err e) ∧ (∀ x, r ≠ .ok x) ∧ (checks = true → r = .panic .overflow)

end Cafebabe.Spec
