import Verif.Model.Basic
/-!
# Specification: the shapes of errors

`N` is always the number of bytes of the input, so when the bytes `t` are left the place is at index `N - t.length`.
-/

namespace Cafebabe.Spec

/-- An item called `what` starts here, and the input ends before it does; the bytes `t` are left. -/
def cutOff (N : Nat) (what : String) (t : Bytes) : ParseError := ⟨s!"Unexpected end of stream reading {what} at index {N - t.length}", []⟩

/-- The error with one more context. -/
def inside (c : String) (e : ParseError) : ParseError := ⟨e.msg, e.contexts ++ [c]⟩

/-- An error without contexts. -/
def plainly (m : String) : ParseError := ⟨m, []⟩

end Cafebabe.Spec
