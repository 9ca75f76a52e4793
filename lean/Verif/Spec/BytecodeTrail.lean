import Verif.Spec.Bytecode
import Verif.Spec.Text
/-!
# Specification: which instruction an error in the code is about

`BytecodeTrail checks pool code e`: `code` is not a sequence of instructions whose jumps land on instructions, and the message and the
contexts of `e` are about the first fault: the first instruction that cannot be read or, if all can be read, the first instruction with a jump
that does not land on an instruction, and in it the first such jump.
-/

namespace Cafebabe.Spec

/-- Constant number `i` is one that the instruction with this opcode may refer to. -/
inductive SuitableConstant (pool : Pool) : UInt8 → Nat → Prop where
  /-- `ldc`, `ldc_w`, `ldc2_w`. -/
  | load {b : UInt8} {i : Nat} {l : Loadable} : b ∈ [0x12, 0x13, 0x14] → LoadableAt pool i l → SuitableConstant pool b i
  /-- `getstatic`, `putstatic`, `getfield`, `putfield`. -/
  | field {b : UInt8} {i : Nat} {m : MemberRef} : b ∈ [0xb2, 0xb3, 0xb4, 0xb5] → FieldRefAt pool i m → SuitableConstant pool b i
  /-- `invokevirtual`, `invokespecial`, `invokestatic`. -/
  | method {b : UInt8} {i : Nat} {m : MemberRef} : b ∈ [0xb6, 0xb7, 0xb8] → MethodRefAt pool i m → SuitableConstant pool b i
  /-- `invokespecial`, `invokestatic`, `invokeinterface`. -/
  | interfaceMethod {b : UInt8} {i : Nat} {m : MemberRef} : b ∈ [0xb7, 0xb8, 0xb9] → InterfaceMethodRefAt pool i m → SuitableConstant pool b i
  /-- `invokedynamic`. -/
  | dynamic {i : Nat} {d : DynamicRef} : InvokeDynamicAt pool i d → SuitableConstant pool 0xba i
  /-- `new`. -/
  | ofClass {i : Nat} {c : Str} : ClassAt pool i c → SuitableConstant pool 0xbb i
  /-- `anewarray`, `checkcast`, `instanceof`, `multianewarray`. -/
  | type {b : UInt8} {i : Nat} {t : ObjectArrayType} : b ∈ [0xbd, 0xc0, 0xc1, 0xc5] → ObjectTypeAt pool i t → SuitableConstant pool b i

/-- The opcodes, apart from `ldc`, whose first operand is the two-byte index of a constant. -/
def constantOpcodes : List UInt8 :=
  [0x13, 0x14, 0xb2, 0xb3, 0xb4, 0xb5, 0xb6, 0xb7, 0xb8, 0xb9, 0xba, 0xbb, 0xbd, 0xc0, 0xc1, 0xc5]

/-- What is said about a constant that is not of the right kind. -/
def kindComplaints : List String := ["Unexpected constant pool reference type", "Unexpected non-loadable constant pool reference found"]

/-- What is said about a string that is not a field descriptor. -/
def descriptorComplaints : List String :=
  ["Unexpected '/' at start of unqualified segment", "Unexpected ';' at start of unqualified segment",
    "Disallowed character in unqualified segment", "Unterminated unqualified segment", "Empty string is not a field descriptor",
    "Dimensions in field descriptor exceeded allowed limit", "Unexpected field type", "Not a field descriptor"]

/-- What an error says about an unsuitable constant, number `i`: that there is no such constant, or what is wrong with it. -/
def ConstantSays (pool : Pool) (i : Nat) (e : ParseError) : Prop :=
  e.contexts = [] ∧ (pool.length ≤ i ∧ e.msg = s!"Out-of-bounds index {i} in constant pool reference" ∨
    i < pool.length ∧ e.msg ∈ kindComplaints ++ descriptorComplaints)

/-- The opcodes that `wide` may be put before: loads, stores, `ret` and `iinc`. -/
def wideOpcodes : List UInt8 := [0x15, 0x16, 0x17, 0x18, 0x19, 0x36, 0x37, 0x38, 0x39, 0x3a, 0xa9, 0x84]

/-- The names and the sizes of the numbers an instruction is made of. -/
def numberNames : List (String × Nat) := [("u1", 1), ("u2", 2), ("u4", 4)]

/-- What an error says about the instruction that starts at offset `start` of the code; the bytes are the code from there to its end. -/
inductive InsnSays (checks : Bool) (pool : Pool) (start : Nat) : Bytes → ParseError → Prop where
  /-- Its opcode is not assigned. -/
  | opcode {b : UInt8} {t : Bytes} : 0xca < b.toNat → b.toNat < 0xfe → InsnSays checks pool start (b :: t) ⟨s!"Unexpected opcode {b} at index {start}", []⟩
  /-- It is a `wide` before an opcode that has no wide form. -/
  | wide {b : UInt8} {t : Bytes} : b ∉ wideOpcodes →
      InsnSays checks pool start (0xc4 :: b :: t) ⟨s!"Unexpected opcode {b} inside wide modifier at index {start + 1}", []⟩
  /-- It is a `newarray` of an unknown type. -/
  | newarray {b : UInt8} {t : Bytes} : (∀ a, b ≠ arrayTypeByte a) →
      InsnSays checks pool start (0xbc :: b :: t) ⟨s!"Unexpected array type for newarray opcode at index {start + 1}", []⟩
  /-- It is an `invokeinterface` whose last byte is not zero. -/
  | invokeinterface {i : UInt16} {k z : UInt8} {t : Bytes} : z ≠ 0 → InsnSays checks pool start ([0xb9] ++ (u2 i ++ (k :: z :: t)))
      ⟨s!"Nonzero byte found where zero byte expected in invokeinterface opcode at index {start + 4}", []⟩
  /-- It is an `invokedynamic` whose last two bytes are not zero. -/
  | invokedynamic {i z : UInt16} {t : Bytes} : z ≠ 0 → InsnSays checks pool start ([0xba] ++ (u2 i ++ (u2 z ++ t)))
      ⟨s!"Nonzero bytes found where zero bytes expected in invokedynamic opcode at index {start + 3}", []⟩
  /-- It is a `tableswitch` whose lowest value is greater than its highest value; the index is that of the highest value. -/
  | lowHigh {pad t : Bytes} {d low high : Int32} : padding (start + 1) pad → high.toInt < low.toInt →
      InsnSays checks pool start ([0xaa] ++ (pad ++ (s4 d ++ (s4 low ++ (s4 high ++ t)))))
        ⟨s!"The low value must be less than or equal to the high value in tableswitch at index {start + 1 + pad.length + 8}", []⟩
  /-- It is a `tableswitch` whose number of jumps does not fit in a signed 32-bit word (in a build with overflow checks that is a panic). -/
  | span {pad t : Bytes} {d low high : Int32} : checks = false → padding (start + 1) pad → 2147483648 ≤ high.toInt - low.toInt + 1 →
      InsnSays checks pool start ([0xaa] ++ (pad ++ (s4 d ++ (s4 low ++ (s4 high ++ t)))))
        ⟨s!"Unable to convert range to usize in tableswitch at index {start + 1 + pad.length + 8}", []⟩
  /-- It is a `lookupswitch` with a negative number of pairs; the index is that of this number. -/
  | pairs {pad t : Bytes} {d n : Int32} : padding (start + 1) pad → n.toInt < 0 → InsnSays checks pool start ([0xab] ++ (pad ++ (s4 d ++ (s4 n ++ t))))
      ⟨s!"Number of pairs in lookupswitch must be non-negative at index {start + 1 + pad.length + 4}", []⟩
  /-- The code ends before the instruction does; the index is that of the number, after the opcode, that is cut off (or would start after the
  end, behind the padding of a switch). -/
  | cut {t : Bytes} {what : String} {size N : Nat} : t ≠ [] → (what, size) ∈ numberNames → start < N → N < start + t.length + 4 →
      start + t.length < N + size → InsnSays checks pool start t ⟨s!"Unexpected end of stream reading {what} at index {N}", []⟩
  /-- It has the two-byte index of an unsuitable constant. Such an error says nothing about the place. -/
  | constant {b : UInt8} {i : UInt16} {t : Bytes} {e : ParseError} : b ∈ constantOpcodes → ¬ SuitableConstant pool b i.toNat →
      ConstantSays pool i.toNat e → InsnSays checks pool start ([b] ++ (u2 i ++ t)) e
  /-- It is an `ldc` with the index of an unsuitable constant. -/
  | ldc {i : UInt8} {t : Bytes} {e : ParseError} : ¬ SuitableConstant pool 0x12 i.toNat → ConstantSays pool i.toNat e →
      InsnSays checks pool start ([0x12] ++ (u1 i ++ t)) e

/-- From the instruction at offset `off`, a jump by `j` lands on the start of an instruction below offset `2^31`. -/
def GoodJump (ops : List (Nat × Opcode)) (off : Nat) (j : Int32) : Prop :=
  ∃ (o' : Nat) (op' : Opcode), (o', op') ∈ ops ∧ (o' : Int) = (off : Int) + j.toInt ∧ o' < 2147483648

/-- From the instruction at offset `off`, a jump by `j` does not; and what is said about it. -/
inductive BadJump (checks : Bool) (ops : List (Nat × Opcode)) (off : Nat) (j : Int32) : String → Prop where
  /-- It would land before the code. -/
  | before : (off : Int) + j.toInt < 0 → BadJump checks ops off j "Invalid destination after applying jump"
  /-- It would land beyond offset `2^31 - 1` (in a build with overflow checks that is a panic). -/
  | beyond : checks = false → 2147483648 ≤ (off : Int) + j.toInt → BadJump checks ops off j "Invalid destination after applying jump"
  /-- No instruction starts there. -/
  | between : 0 ≤ (off : Int) + j.toInt → (off : Int) + j.toInt < 2147483648 → (∀ o' op', (o', op') ∈ ops → (o' : Int) ≠ (off : Int) + j.toInt) →
      BadJump checks ops off j "Invalid opcode offset after applying jump"

/-- What an error says about the jumps of the instruction `op` at offset `off`. -/
inductive JumpSays (checks : Bool) (ops : List (Nat × Opcode)) (off : Nat) : Opcode → ParseError → Prop where
  /-- Its own offset does not fit in a signed 32-bit word. -/
  | far {op : Opcode} : 2147483648 ≤ off → JumpSays checks ops off op ⟨"Unable to convert offset to i32", []⟩
  /-- It is not a switch, and its only jump is bad. -/
  | jump {op : Opcode} {j : Int32} {m : String} : off < 2147483648 → (∀ t, op ≠ .lookupswitch t) → (∀ t, op ≠ .tableswitch t) →
      jumpsOf op = [j] → BadJump checks ops off j m → JumpSays checks ops off op ⟨m, []⟩
  /-- It is a `lookupswitch`, and its default jump is bad. -/
  | lookupDefault {t : LookupTable} {m : String} : off < 2147483648 → BadJump checks ops off t.default m →
      JumpSays checks ops off (.lookupswitch t) ⟨m, ["default jump offset"]⟩
  /-- It is a `lookupswitch`, and the first bad jump is the one of the pair with this key. -/
  | pair {t : LookupTable} {before after : List (Int32 × Int32)} {key j : Int32} {m : String} : off < 2147483648 → GoodJump ops off t.default →
      t.matchOffsets = before ++ (key, j) :: after → (∀ p ∈ before, GoodJump ops off p.2) → BadJump checks ops off j m →
      JumpSays checks ops off (.lookupswitch t) ⟨m, [s!"match offset {key}"]⟩
  /-- It is a `tableswitch`, and its default jump is bad. -/
  | rangeDefault {t : RangeTable} {m : String} : off < 2147483648 → BadJump checks ops off t.default m →
      JumpSays checks ops off (.tableswitch t) ⟨m, ["default jump offset"]⟩
  /-- It is a `tableswitch`, and the first bad jump is the one with this number, counted from zero. -/
  | range {t : RangeTable} {before after : List Int32} {j : Int32} {m : String} : off < 2147483648 → GoodJump ops off t.default →
      t.jumps = before ++ j :: after → (∀ j' ∈ before, GoodJump ops off j') → BadJump checks ops off j m →
      JumpSays checks ops off (.tableswitch t) ⟨m, [s!"range offset {before.length}"]⟩

/-- Faulty code and its error. -/
inductive BytecodeTrail (checks : Bool) (pool : Pool) : Bytes → ParseError → Prop where
  /-- Some instructions are well formed, and then come bytes that do not start with an instruction. -/
  | instruction {ops : List (Nat × Opcode)} {before t : Bytes} {e : ParseError} : InsnsEnc checks pool 0 ops before → t ≠ [] →
      (∀ op s rest, t = s ++ rest → ¬ InsnEnc checks pool before.length op s) → InsnSays checks pool before.length t e →
      BytecodeTrail checks pool (before ++ t) e
  /-- All instructions are well formed, and so are the jumps of the first ones, but not those of the next one. -/
  | jump {before after : List (Nat × Opcode)} {off : Nat} {op : Opcode} {code : Bytes} {m : String} {cs : List String} :
      InsnsEnc checks pool 0 (before ++ (off, op) :: after) code →
      (∀ p ∈ before, p.1 < 2147483648 ∧ ∀ j ∈ jumpsOf p.2, GoodJump (before ++ (off, op) :: after) p.1 j) →
      JumpSays checks (before ++ (off, op) :: after) off op ⟨m, cs⟩ →
      BytecodeTrail checks pool code ⟨m, cs ++ [s!"opcode at offset {off}"]⟩

end Cafebabe.Spec
