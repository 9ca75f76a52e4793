import Verif.Model.Basic
/-!
# Specification: byte-level encodings

Independent of the parser: big-endian words and small grammar combinators (a `Lang` is a set of byte strings).
-/

namespace Cafebabe.Spec

/-- The byte with value `n mod 256`. -/
def byte (n : Nat) : UInt8 := UInt8.ofNat n

/-- One byte. -/
def u1 (v : UInt8) : Bytes := [v]

/-- Two bytes, most significant first. -/
def u2 (v : UInt16) : Bytes := [byte (v.toNat / 256), byte v.toNat]

/-- Four bytes, most significant first. -/
def u4 (v : UInt32) : Bytes :=
  [byte (v.toNat / 16777216), byte (v.toNat / 65536), byte (v.toNat / 256), byte v.toNat]

/-- Eight bytes, most significant first. -/
def u8 (v : UInt64) : Bytes :=
  [byte (v.toNat / 72057594037927936), byte (v.toNat / 281474976710656), byte (v.toNat / 1099511627776),
   byte (v.toNat / 4294967296), byte (v.toNat / 16777216), byte (v.toNat / 65536), byte (v.toNat / 256), byte v.toNat]

/-- A set of byte strings. -/
abbrev Lang := Bytes → Prop

/-- Exactly these bytes. -/
def lit (b : Bytes) : Lang := fun seg => seg = b

/-- Concatenation: an `F` followed by a `G`. -/
def cat (F G : Lang) : Lang := fun seg => ∃ s t, seg = s ++ t ∧ F s ∧ G t

@[inherit_doc] infixr:65 " ⬝ " => cat

/-- `F`, provided `p` holds. -/
def when (p : Prop) (F : Lang) : Lang := fun seg => p ∧ F seg

/-- A two-byte constant-pool index satisfying `At`. -/
def ref (At : Nat → Prop) : Lang := fun seg => ∃ i : UInt16, At i.toNat ∧ seg = u2 i

/-- The elements of a list one after the other. -/
def seq {α : Type} (F : α → Lang) : List α → Lang
  | [] => lit []
  | x :: xs => F x ⬝ seq F xs

/-- A two-byte count `n`, then the body. -/
def counted2 (n : Nat) (body : Lang) : Lang := fun seg => ∃ c : UInt16, c.toNat = n ∧ (lit (u2 c) ⬝ body) seg

/-- A one-byte count `n`, then the body. -/
def counted1 (n : Nat) (body : Lang) : Lang := fun seg => ∃ c : UInt8, c.toNat = n ∧ (lit (u1 c) ⬝ body) seg

/-- A table with a two-byte element count. -/
def table2 {α : Type} (F : α → Lang) (xs : List α) : Lang := counted2 xs.length (seq F xs)

/-- A table with a one-byte element count. -/
def table1 {α : Type} (F : α → Lang) (xs : List α) : Lang := counted1 xs.length (seq F xs)

end Cafebabe.Spec
