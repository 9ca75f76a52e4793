import Verif.Spec.Blame
import Verif.Spec.BytecodeTrail
/-!
# Specification: the error for faulty code

`BytecodeSays checks pool code e`: `e`, message and contexts, is the error for the code `code`: the first instruction that cannot be read, and
in it the first part that is wrong, or, if all can be read, the first jump that does not land on an instruction.
-/

namespace Cafebabe.Spec

/-! ## Operands -/

/-- A four-byte number. -/
def quad : Part := .number "u4" 4

/-- A constant that can be loaded. -/
def LoadKind (e : Entry) : Prop :=
  LiteralKind e ∨ (∃ x, e = .classInfo x) ∨ (∃ k x, e = .methodHandle k x) ∨ (∃ x, e = .methodType x) ∨ ∃ b x, e = .dynamic b x

/-- The constant cannot be loaded. -/
def notLoadable (pool : Pool) (i : Nat) (m : String) : Prop :=
  (∃ e, pool[i]? = some e ∧ ¬ LoadKind e) ∧ m = "Unexpected non-loadable constant pool reference found"

/-- The index of a constant to load, of a field, of a method of a class, of a method, of a method of an interface, of a dynamic call site, of a
class or array type. -/
def loadIx (pool : Pool) : Part := .constant (fun i => ∃ l, LoadableAt pool i l) (notLoadable pool)
def fieldIx (pool : Pool) : Part := .constant (fun i => ∃ m, FieldRefAt pool i m) (wrongKind pool fun e => ∃ c n, e = .fieldRef c n)
def methodIx (pool : Pool) : Part := .constant (fun i => ∃ m, MethodRefAt pool i m) (wrongKind pool fun e => ∃ c n, e = .methodRef c n)
def anyMethodIx (pool : Pool) : Part := .constant (fun i => ∃ m, MethodRefAt pool i m ∨ InterfaceMethodRefAt pool i m)
  (wrongKind pool fun e => ∃ c n, e = .methodRef c n ∨ e = .interfaceMethodRef c n)
def interfaceMethodIx (pool : Pool) : Part := .constant (fun i => ∃ m, InterfaceMethodRefAt pool i m) (wrongKind pool fun e => ∃ c n, e = .interfaceMethodRef c n)
def dynamicIx (pool : Pool) : Part := .constant (fun i => ∃ d, InvokeDynamicAt pool i d) (wrongKind pool fun e => ∃ b x, e = .invokeDynamic b x)
def typeIx (pool : Pool) : Part := .constant (fun i => ∃ t, ObjectTypeAt pool i t) (wrongKind pool fun e => ∃ x, e = .classInfo x)

/-- What follows the opcode of an instruction. -/
inductive Operands where
  | nothing | byte | word | twoBytes | quad | load | field | method | anyMethod | interfaceMethod | dynamic | aClass | type | typeAndByte
  | ldc | newarray | wide | tableswitch | lookupswitch
deriving DecidableEq

/-- The operands of every opcode that is assigned. -/
def operandsOf (b : UInt8) : Option Operands :=
  let n := b.toNat
  if n ∈ [0x10, 0x15, 0x16, 0x17, 0x18, 0x19, 0x36, 0x37, 0x38, 0x39, 0x3a, 0xa9] then some .byte
  else if n = 0x11 ∨ (0x99 ≤ n ∧ n ≤ 0xa8) ∨ n = 0xc6 ∨ n = 0xc7 then some .word
  else if n = 0x12 then some .ldc
  else if n = 0x13 ∨ n = 0x14 then some .load
  else if n = 0x84 then some .twoBytes
  else if n = 0xaa then some .tableswitch
  else if n = 0xab then some .lookupswitch
  else if 0xb2 ≤ n ∧ n ≤ 0xb5 then some .field
  else if n = 0xb6 then some .method
  else if n = 0xb7 ∨ n = 0xb8 then some .anyMethod
  else if n = 0xb9 then some .interfaceMethod
  else if n = 0xba then some .dynamic
  else if n = 0xbb then some .aClass
  else if n = 0xbc then some .newarray
  else if n = 0xbd ∨ n = 0xc0 ∨ n = 0xc1 then some .type
  else if n = 0xc4 then some .wide
  else if n = 0xc5 then some .typeAndByte
  else if n = 0xc8 ∨ n = 0xc9 then some .quad
  else if n ≤ 0xca ∨ 0xfe ≤ n then some .nothing
  else none

/-- The parts the operands are made of; for `wide` the first of them, and for the switches, which have padding, none. -/
def operandParts (pool : Pool) : Operands → List Part
  | .nothing | .tableswitch | .lookupswitch => []
  | .byte | .ldc | .newarray | .wide => [octet]
  | .word => [word]
  | .twoBytes => [octet, octet]
  | .quad => [quad]
  | .load => [loadIx pool]
  | .field => [fieldIx pool]
  | .method => [methodIx pool]
  | .anyMethod => [anyMethodIx pool]
  | .interfaceMethod => [interfaceMethodIx pool, octet, octet]
  | .dynamic => [dynamicIx pool, word]
  | .aClass => [classIx pool]
  | .type => [typeIx pool]
  | .typeAndByte => [typeIx pool, octet]

/-! ## Instructions -/

/-- The instruction at offset `start` of a code array of `N` bytes cannot be read, and the error for that; the bytes are the code from there to
its end. -/
inductive InsnWrong (checks : Bool) (pool : Pool) (N start : Nat) : Bytes → ParseError → Prop where
  | opcode {b : UInt8} {t : Bytes} : operandsOf b = none → InsnWrong checks pool N start (b :: t) (plainly s!"Unexpected opcode {b} at index {start}")
  /-- The first operand that is wrong. -/
  | operands {b : UInt8} {k : Operands} {t : Bytes} {e : ParseError} : operandsOf b = some k → FirstBlame N pool (operandParts pool k) t e →
      InsnWrong checks pool N start (b :: t) e
  /-- An `ldc`. -/
  | ldcOutside {i : UInt8} {t : Bytes} : pool.length ≤ i.toNat →
      InsnWrong checks pool N start (0x12 :: i :: t) (plainly s!"Out-of-bounds index {i.toNat} in constant pool reference")
  | ldc {i : UInt8} {t : Bytes} {m : String} : notLoadable pool i.toNat m → InsnWrong checks pool N start (0x12 :: i :: t) (plainly m)
  | newarray {n : UInt8} {t : Bytes} : ¬ (4 ≤ n.toNat ∧ n.toNat ≤ 11) →
      InsnWrong checks pool N start (0xbc :: n :: t) (plainly s!"Unexpected array type for newarray opcode at index {start + 1}")
  | invokeinterface {i : UInt16} {k z : UInt8} {m : MemberRef} {t : Bytes} : InterfaceMethodRefAt pool i.toNat m → z ≠ 0 →
      InsnWrong checks pool N start (0xb9 :: (u2 i ++ (k :: z :: t)))
        (plainly s!"Nonzero byte found where zero byte expected in invokeinterface opcode at index {start + 4}")
  | invokedynamic {i z : UInt16} {d : DynamicRef} {t : Bytes} : InvokeDynamicAt pool i.toNat d → z ≠ 0 →
      InsnWrong checks pool N start (0xba :: (u2 i ++ (u2 z ++ t)))
        (plainly s!"Nonzero bytes found where zero bytes expected in invokedynamic opcode at index {start + 3}")
  /-- A `wide`: the opcode it is put before, and the operands of that. -/
  | wide {v : UInt8} {t : Bytes} : v ∉ wideOpcodes →
      InsnWrong checks pool N start (0xc4 :: v :: t) (plainly s!"Unexpected opcode {v} inside wide modifier at index {start + 1}")
  | wideLocal {v : UInt8} {t : Bytes} {e : ParseError} : v ∈ wideOpcodes → v ≠ 0x84 → FirstBlame N pool [word] t e →
      InsnWrong checks pool N start (0xc4 :: v :: t) e
  | wideIinc {t : Bytes} {e : ParseError} : FirstBlame N pool [word, word] t e → InsnWrong checks pool N start (0xc4 :: 0x84 :: t) e
  /-- A switch: the code ends in the padding; the index is that of the first number after the padding. -/
  | noPadding {b : UInt8} {k : Nat} {t : Bytes} : b = 0xaa ∨ b = 0xab → t.length < k → k < 4 → (start + 1 + k) % 4 = 0 →
      InsnWrong checks pool N start (b :: t) (plainly s!"Unexpected end of stream reading u4 at index {start + 1 + k}")
  /-- A `tableswitch`: default, lowest and highest value; the jumps. -/
  | tableHeader {pad t : Bytes} {e : ParseError} : padding (start + 1) pad → FirstBlame N pool [quad, quad, quad] t e →
      InsnWrong checks pool N start (0xaa :: (pad ++ t)) e
  | lowHigh {pad t : Bytes} {d low high : Int32} : padding (start + 1) pad → high.toInt < low.toInt →
      InsnWrong checks pool N start (0xaa :: (pad ++ (s4 d ++ (s4 low ++ (s4 high ++ t)))))
        (plainly s!"The low value must be less than or equal to the high value in tableswitch at index {start + 1 + pad.length + 8}")
  | span {pad t : Bytes} {d low high : Int32} : checks = false → padding (start + 1) pad → 2147483648 ≤ high.toInt - low.toInt + 1 →
      high.toInt - low.toInt + 1 < 4294967296 →
      InsnWrong checks pool N start (0xaa :: (pad ++ (s4 d ++ (s4 low ++ (s4 high ++ t)))))
        (plainly s!"Unable to convert range to usize in tableswitch at index {start + 1 + pad.length + 8}")
  | jumps {pad t : Bytes} {d low high : Int32} {e : ParseError} : padding (start + 1) pad → low.toInt ≤ high.toInt →
      high.toInt - low.toInt + 1 < 2147483648 → FirstBlame N pool (rows (high.toInt - low.toInt + 1).toNat fun _ => [quad]) t e →
      InsnWrong checks pool N start (0xaa :: (pad ++ (s4 d ++ (s4 low ++ (s4 high ++ t))))) e
  /-- A `lookupswitch`: default and number of pairs; the pairs. -/
  | lookupHeader {pad t : Bytes} {e : ParseError} : padding (start + 1) pad → FirstBlame N pool [quad, quad] t e →
      InsnWrong checks pool N start (0xab :: (pad ++ t)) e
  | negative {pad t : Bytes} {d n : Int32} : padding (start + 1) pad → n.toInt < 0 →
      InsnWrong checks pool N start (0xab :: (pad ++ (s4 d ++ (s4 n ++ t))))
        (plainly s!"Number of pairs in lookupswitch must be non-negative at index {start + 1 + pad.length + 4}")
  | pairs {pad t : Bytes} {d n : Int32} {e : ParseError} : padding (start + 1) pad → 0 ≤ n.toInt →
      FirstBlame N pool (rows n.toInt.toNat fun _ => [quad, quad]) t e → InsnWrong checks pool N start (0xab :: (pad ++ (s4 d ++ (s4 n ++ t)))) e

/-- Faulty code and its error. -/
inductive BytecodeSays (checks : Bool) (pool : Pool) : Bytes → ParseError → Prop where
  /-- Some instructions are well formed, and the next one cannot be read. -/
  | instruction {ops : List (Nat × Opcode)} {before t : Bytes} {e : ParseError} : InsnsEnc checks pool 0 ops before →
      InsnWrong checks pool (before ++ t).length before.length t e → BytecodeSays checks pool (before ++ t) e
  /-- All instructions are well formed, and so are the jumps of the first ones, but not those of the next one. -/
  | jump {before after : List (Nat × Opcode)} {off : Nat} {op : Opcode} {code : Bytes} {e : ParseError} :
      InsnsEnc checks pool 0 (before ++ (off, op) :: after) code →
      (∀ p ∈ before, p.1 < 2147483648 ∧ ∀ j ∈ jumpsOf p.2, GoodJump (before ++ (off, op) :: after) p.1 j) →
      JumpSays checks (before ++ (off, op) :: after) off op e → BytecodeSays checks pool code (inside s!"opcode at offset {off}" e)

end Cafebabe.Spec
