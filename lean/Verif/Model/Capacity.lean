import Verif.Model.Bytecode
/-!
# Model: the `Vec::with_capacity` calls of `read_opcodes`

`/repo/src/bytecode.rs` reserves memory for the entries of a switch table once its header is read and before any entry is. These two calls
(lines 510 and 539) are the only ones in the crate whose argument does not come from a `u8` or a `u16`.
-/

namespace Cafebabe

/-- The argument of `Vec::with_capacity` in the iteration of the loop of `/repo/src/bytecode.rs:318-679` that starts at `ix`: line 510 for
opcode `0xaa`, line 539 for opcode `0xab`; `none` if the iteration reaches neither. -/
def capacityAt (checks : Bool) (code : Bytes) (ix : Nat) : Option Nat :=
  match readU1 code ix with
  | .ok (v, ix') =>
    if v == 0xaa then
      match tableswitchHeader checks code ix' with
      | .ok ((_, _, _, jumpCount), _) => some jumpCount
      | _ => none
    else if v == 0xab then
      match lookupswitchHeader code ix' with
      | .ok ((_, pairCount), _) => some pairCount
      | _ => none
    else none
  | _ => none

/-- The arguments of all such calls made by the loop of `/repo/src/bytecode.rs:318-679` from `ix` on, in order, whether the loop then ends
normally, with an error or with a panic (`fuel` as in `readOpcodesLoop`). -/
def capacitiesLoop (checks : Bool) (pool : Pool) (code : Bytes) : Nat → Nat → List Nat
  | 0, _ => []
  | fuel + 1, ix =>
    if ix < code.length then
      (capacityAt checks code ix).toList ++
        match readOpcode checks pool code ix with
        | .ok (_, ix') => capacitiesLoop checks pool code fuel ix'
        | _ => []
    else []

/-- The arguments of the calls of `Vec::with_capacity` for switch tables made by `read_opcodes`, `/repo/src/bytecode.rs:312-681`. -/
def capacities (checks : Bool) (code : Bytes) (pool : Pool) : List Nat := capacitiesLoop checks pool code (code.length + 1) 0

end Cafebabe
