import Verif.Spec.Bytecode
/-!
# Specification: headers of switch instructions
-/

namespace Cafebabe.Spec

/-- A switch instruction at offset `pos` up to the place where its `n` table entries should start. -/
def SwitchHeader (checks : Bool) (pos n : Nat) : Lang := fun seg =>
  (∃ default low high : Int32, low ≤ high ∧
    ((n : Int) = high.toInt - low.toInt + 1 ∧ n < 2147483648 ∨
      checks = false ∧ low.toInt = -2147483648 ∧ high.toInt = 2147483647 ∧ n = 0) ∧
    (lit [0xaa] ⬝ padding (pos + 1) ⬝ lit (s4 default) ⬝ lit (s4 low) ⬝ lit (s4 high)) seg) ∨
  ∃ default npairs : Int32, npairs.toInt = n ∧ (lit [0xab] ⬝ padding (pos + 1) ⬝ lit (s4 default) ⬝ lit (s4 npairs)) seg

/-- The number of entries of the table of a switch; nothing for other instructions. -/
def tableSize : Opcode → Option Nat
  | .tableswitch t => some t.jumps.length
  | .lookupswitch t => some t.matchOffsets.length
  | _ => none

end Cafebabe.Spec
