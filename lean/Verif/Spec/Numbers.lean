import Verif.Spec.Run
/-!
# Specification: numbers in bytes, and where a constant's bytes are

Written only in terms of bytes and mathematical integers.
-/

namespace Cafebabe.Spec

/-- The number written by these bytes, most significant first. -/
def beNat (b : Bytes) : Nat := b.foldl (fun n x => 256 * n + x.toNat) 0

/-- The two's complement reading of a `w`-bit number. -/
def twos (w n : Nat) : Int := if 2 * n < 2 ^ w then (n : Int) else (n : Int) - 2 ^ w

/-- How many bytes the constant at the start of these bytes has (JVMS 4.4). -/
def constantLength : Bytes → Option Nat
  | 1 :: a :: b :: _ => some (3 + beNat [a, b])
  | 3 :: _ | 4 :: _ => some 5
  | 5 :: _ | 6 :: _ => some 9
  | 7 :: _ | 8 :: _ | 16 :: _ | 19 :: _ | 20 :: _ => some 3
  | 9 :: _ | 10 :: _ | 11 :: _ | 12 :: _ | 17 :: _ | 18 :: _ => some 5
  | 15 :: _ => some 4
  | _ => none

/-- How many slots a constant with this tag takes: two for Long and Double. -/
def slotWidth (tag : UInt8) : Nat := if tag = 5 ∨ tag = 6 then 2 else 1

/-- `seg` are the bytes of the constant in slot `i`, in a table of constants `body` whose first constant is in slot `k`. -/
inductive ConstantBytes : Nat → Bytes → Nat → Bytes → Prop where
  | here {k : Nat} {seg rest : Bytes} : constantLength (seg ++ rest) = some seg.length → ConstantBytes k (seg ++ rest) k seg
  | next {k i : Nat} {tag : UInt8} {t rest seg : Bytes} : constantLength (tag :: t ++ rest) = some (tag :: t).length →
      ConstantBytes (k + slotWidth tag) rest i seg → ConstantBytes k (tag :: t ++ rest) i seg

/-- `seg` are the bytes of the constant in slot `i` of this class file (the constants start at byte 10, in slot 1). -/
def RawConstant (bytes : Bytes) (i : Nat) (seg : Bytes) : Prop := ConstantBytes 1 (bytes.drop 10) i seg

/-- The constant in slot `x` of this class file is a Utf8 constant with content `data`. -/
def RawUtf8 (bytes : Bytes) (x : Nat) (data : Bytes) : Prop :=
  ∃ a b, data.length = beNat [a, b] ∧ RawConstant bytes x (1 :: a :: b :: data)

/-- The `n` bytes from offset `p` on. -/
def bytesAt (code : Bytes) (p n : Nat) : Bytes := (code.drop p).take n

/-- The first multiple of four from `p` on. -/
def align4 (p : Nat) : Nat := (p + 3) / 4 * 4

end Cafebabe.Spec
