import Verif.Model.Bytecode
import Verif.Spec.Pool
/-!
# Specification: bytecode (JVMS chapter 6, 4.7.3, 4.9)

Only data types of the model are used (`Opcode`, `ByteCode`, tables), none of its functions.
-/

namespace Cafebabe.Spec

/-- A signed byte, two's complement. -/
def s1 (v : Int8) : Bytes := u1 v.toUInt8

/-- A signed 16-bit word, two's complement. -/
def s2 (v : Int16) : Bytes := u2 v.toUInt16

/-- A signed 32-bit word, two's complement. -/
def s4 (v : Int32) : Bytes := u4 v.toUInt32

/-- `xload_n`: opcode byte `base + n` for `n < 4`. -/
def implicitLocalEnc (base : UInt8) (n : UInt16) : Lang := fun seg => n < 4 ∧ seg = [base + n.toUInt8]

/-- `xload n`: opcode byte and one-byte index. -/
def explicitLocalEnc (code : UInt8) (n : UInt16) : Lang := fun seg => ∃ k : UInt8, k.toNat = n.toNat ∧ seg = [code] ++ u1 k

/-- `wide xload n`: wide prefix, opcode byte, two-byte index. -/
def wideLocalEnc (code : UInt8) (n : UInt16) : Lang := lit ([0xc4, code] ++ u2 n)

/-- A local variable instruction in any of its three forms. -/
def localEnc (code base : UInt8) (n : UInt16) : Lang := fun seg =>
  implicitLocalEnc base n seg ∨ explicitLocalEnc code n seg ∨ wideLocalEnc code n seg

/-- A branch with a signed 16-bit offset. -/
def branchEnc (code : UInt8) (j : Int32) : Lang := fun seg => ∃ v : Int16, v.toInt = j.toInt ∧ seg = [code] ++ s2 v

/-- `atype` of `newarray` (JVMS table 6.5.newarray-A). -/
def arrayTypeByte : PrimitiveArrayType → UInt8
  | .boolean => 4
  | .char => 5
  | .float => 6
  | .double => 7
  | .byte => 8
  | .short => 9
  | .int => 10
  | .long => 11

/-- Zero to three bytes of any value that bring offset `pos` to a multiple of four. -/
def padding (pos : Nat) : Lang := fun seg => seg.length < 4 ∧ (pos + seg.length) % 4 = 0

/-- How many jumps follow a `tableswitch` header: `high - low + 1`; without overflow checks the full range wraps to zero jumps. -/
def JumpCount (checks : Bool) (t : RangeTable) : Prop :=
  (t.jumps.length : Int) = t.high.toInt - t.low.toInt + 1 ∧ t.jumps.length < 2147483648 ∨
    checks = false ∧ t.low.toInt = -2147483648 ∧ t.high.toInt = 2147483647 ∧ t.jumps = []

/-- Encoding of one instruction at offset `pos` of the code array. -/
def InsnEnc (checks : Bool) (pool : Pool) (pos : Nat) (op : Opcode) : Lang :=
  match op with
  | .nop => lit [0x00]
  | .aconstNull => lit [0x01]
  | .iconstM1 => lit [0x02]
  | .iconst0 => lit [0x03]
  | .iconst1 => lit [0x04]
  | .iconst2 => lit [0x05]
  | .iconst3 => lit [0x06]
  | .iconst4 => lit [0x07]
  | .iconst5 => lit [0x08]
  | .lconst0 => lit [0x09]
  | .lconst1 => lit [0x0a]
  | .fconst0 => lit [0x0b]
  | .fconst1 => lit [0x0c]
  | .fconst2 => lit [0x0d]
  | .dconst0 => lit [0x0e]
  | .dconst1 => lit [0x0f]
  | .iaload => lit [0x2e]
  | .laload => lit [0x2f]
  | .faload => lit [0x30]
  | .daload => lit [0x31]
  | .aaload => lit [0x32]
  | .baload => lit [0x33]
  | .caload => lit [0x34]
  | .saload => lit [0x35]
  | .iastore => lit [0x4f]
  | .lastore => lit [0x50]
  | .fastore => lit [0x51]
  | .dastore => lit [0x52]
  | .aastore => lit [0x53]
  | .bastore => lit [0x54]
  | .castore => lit [0x55]
  | .sastore => lit [0x56]
  | .pop => lit [0x57]
  | .pop2 => lit [0x58]
  | .dup => lit [0x59]
  | .dupX1 => lit [0x5a]
  | .dupX2 => lit [0x5b]
  | .dup2 => lit [0x5c]
  | .dup2X1 => lit [0x5d]
  | .dup2X2 => lit [0x5e]
  | .swap => lit [0x5f]
  | .iadd => lit [0x60]
  | .ladd => lit [0x61]
  | .fadd => lit [0x62]
  | .dadd => lit [0x63]
  | .isub => lit [0x64]
  | .lsub => lit [0x65]
  | .fsub => lit [0x66]
  | .dsub => lit [0x67]
  | .imul => lit [0x68]
  | .lmul => lit [0x69]
  | .fmul => lit [0x6a]
  | .dmul => lit [0x6b]
  | .idiv => lit [0x6c]
  | .ldiv => lit [0x6d]
  | .fdiv => lit [0x6e]
  | .ddiv => lit [0x6f]
  | .irem => lit [0x70]
  | .lrem => lit [0x71]
  | .frem => lit [0x72]
  | .drem => lit [0x73]
  | .ineg => lit [0x74]
  | .lneg => lit [0x75]
  | .fneg => lit [0x76]
  | .dneg => lit [0x77]
  | .ishl => lit [0x78]
  | .lshl => lit [0x79]
  | .ishr => lit [0x7a]
  | .lshr => lit [0x7b]
  | .iushr => lit [0x7c]
  | .lushr => lit [0x7d]
  | .iand => lit [0x7e]
  | .land => lit [0x7f]
  | .ior => lit [0x80]
  | .lor => lit [0x81]
  | .ixor => lit [0x82]
  | .lxor => lit [0x83]
  | .i2l => lit [0x85]
  | .i2f => lit [0x86]
  | .i2d => lit [0x87]
  | .l2i => lit [0x88]
  | .l2f => lit [0x89]
  | .l2d => lit [0x8a]
  | .f2i => lit [0x8b]
  | .f2l => lit [0x8c]
  | .f2d => lit [0x8d]
  | .d2i => lit [0x8e]
  | .d2l => lit [0x8f]
  | .d2f => lit [0x90]
  | .i2b => lit [0x91]
  | .i2c => lit [0x92]
  | .i2s => lit [0x93]
  | .lcmp => lit [0x94]
  | .fcmpl => lit [0x95]
  | .fcmpg => lit [0x96]
  | .dcmpl => lit [0x97]
  | .dcmpg => lit [0x98]
  | .ireturn => lit [0xac]
  | .lreturn => lit [0xad]
  | .freturn => lit [0xae]
  | .dreturn => lit [0xaf]
  | .areturn => lit [0xb0]
  | .return_ => lit [0xb1]
  | .arraylength => lit [0xbe]
  | .athrow => lit [0xbf]
  | .monitorenter => lit [0xc2]
  | .monitorexit => lit [0xc3]
  | .breakpoint => lit [0xca]
  | .impdep1 => lit [0xfe]
  | .impdep2 => lit [0xff]
  | .iload n => localEnc 0x15 0x1a n
  | .lload n => localEnc 0x16 0x1e n
  | .fload n => localEnc 0x17 0x22 n
  | .dload n => localEnc 0x18 0x26 n
  | .aload n => localEnc 0x19 0x2a n
  | .istore n => localEnc 0x36 0x3b n
  | .lstore n => localEnc 0x37 0x3f n
  | .fstore n => localEnc 0x38 0x43 n
  | .dstore n => localEnc 0x39 0x47 n
  | .astore n => localEnc 0x3a 0x4b n
  | .ret n => fun seg => explicitLocalEnc 0xa9 n seg ∨ wideLocalEnc 0xa9 n seg
  | .ifeq j => branchEnc 0x99 j
  | .ifne j => branchEnc 0x9a j
  | .iflt j => branchEnc 0x9b j
  | .ifge j => branchEnc 0x9c j
  | .ifgt j => branchEnc 0x9d j
  | .ifle j => branchEnc 0x9e j
  | .ifIcmpeq j => branchEnc 0x9f j
  | .ifIcmpne j => branchEnc 0xa0 j
  | .ifIcmplt j => branchEnc 0xa1 j
  | .ifIcmpge j => branchEnc 0xa2 j
  | .ifIcmpgt j => branchEnc 0xa3 j
  | .ifIcmple j => branchEnc 0xa4 j
  | .ifAcmpeq j => branchEnc 0xa5 j
  | .ifAcmpne j => branchEnc 0xa6 j
  | .ifnull j => branchEnc 0xc6 j
  | .ifnonnull j => branchEnc 0xc7 j
  | .goto j => fun seg => branchEnc 0xa7 j seg ∨ lit ([0xc8] ++ s4 j) seg
  | .jsr j => fun seg => branchEnc 0xa8 j seg ∨ lit ([0xc9] ++ s4 j) seg
  | .bipush v => lit ([0x10] ++ s1 v)
  | .sipush v => lit ([0x11] ++ s2 v)
  | .ldc l => fun seg => ∃ i : UInt8, LoadableAt pool i.toNat l ∧ seg = [0x12] ++ u1 i
  | .ldcW l => lit [0x13] ⬝ ref fun i => LoadableAt pool i l
  | .ldc2W l => lit [0x14] ⬝ ref fun i => LoadableAt pool i l
  | .iinc n v => fun seg =>
    (∃ (k : UInt8) (w : Int8), k.toNat = n.toNat ∧ w.toInt = v.toInt ∧ seg = [0x84] ++ u1 k ++ s1 w) ∨
      seg = [0xc4, 0x84] ++ u2 n ++ s2 v
  | .getstatic m => lit [0xb2] ⬝ ref fun i => FieldRefAt pool i m
  | .putstatic m => lit [0xb3] ⬝ ref fun i => FieldRefAt pool i m
  | .getfield m => lit [0xb4] ⬝ ref fun i => FieldRefAt pool i m
  | .putfield m => lit [0xb5] ⬝ ref fun i => FieldRefAt pool i m
  | .invokevirtual m => lit [0xb6] ⬝ ref fun i => MethodRefAt pool i m
  | .invokespecial m => lit [0xb7] ⬝ ref fun i => MethodRefAt pool i m ∨ InterfaceMethodRefAt pool i m
  | .invokestatic m => lit [0xb8] ⬝ ref fun i => MethodRefAt pool i m ∨ InterfaceMethodRefAt pool i m
  | .invokeinterface m k => lit [0xb9] ⬝ (ref fun i => InterfaceMethodRefAt pool i m) ⬝ lit [k, 0]
  | .invokedynamic d => lit [0xba] ⬝ (ref fun i => InvokeDynamicAt pool i d) ⬝ lit [0, 0]
  | .new s => lit [0xbb] ⬝ ref fun i => ClassAt pool i s
  | .newarray t => lit [0xbc, arrayTypeByte t]
  | .anewarray t => lit [0xbd] ⬝ ref fun i => ObjectTypeAt pool i t
  | .checkcast t => lit [0xc0] ⬝ ref fun i => ObjectTypeAt pool i t
  | .instanceof t => lit [0xc1] ⬝ ref fun i => ObjectTypeAt pool i t
  | .multianewarray t k => lit [0xc5] ⬝ (ref fun i => ObjectTypeAt pool i t) ⬝ lit [k]
  | .tableswitch t => when (t.low ≤ t.high ∧ JumpCount checks t)
      (lit [0xaa] ⬝ padding (pos + 1) ⬝ lit (s4 t.default) ⬝ lit (s4 t.low) ⬝ lit (s4 t.high) ⬝
        seq (fun j => lit (s4 j)) t.jumps)
  | .lookupswitch t => fun seg => ∃ npairs : Int32, npairs.toInt = t.matchOffsets.length ∧
      (lit [0xab] ⬝ padding (pos + 1) ⬝ lit (s4 t.default) ⬝ lit (s4 npairs) ⬝
        seq (fun p => lit (s4 p.1 ++ s4 p.2)) t.matchOffsets) seg

/-- Instructions one after the other from offset `pos` to the end of the code, each with the offset it starts at. -/
inductive InsnsEnc (checks : Bool) (pool : Pool) : Nat → List (Nat × Opcode) → Bytes → Prop where
  | nil (pos : Nat) : InsnsEnc checks pool pos [] []
  | cons {pos : Nat} {op : Opcode} {ops : List (Nat × Opcode)} {s t : Bytes} :
      InsnEnc checks pool pos op s → InsnsEnc checks pool (pos + s.length) ops t →
        InsnsEnc checks pool pos ((pos, op) :: ops) (s ++ t)

/-- The jump offsets of an instruction. -/
def jumpsOf : Opcode → List Int32
  | .goto j | .jsr j | .ifnull j | .ifnonnull j => [j]
  | .ifeq j | .ifne j | .iflt j | .ifge j | .ifgt j | .ifle j => [j]
  | .ifIcmpeq j | .ifIcmpne j | .ifIcmplt j | .ifIcmpge j | .ifIcmpgt j | .ifIcmple j => [j]
  | .ifAcmpeq j | .ifAcmpne j => [j]
  | .lookupswitch t => t.default :: t.matchOffsets.map (·.2)
  | .tableswitch t => t.default :: t.jumps
  | _ => []

/-- Every jump lands on the start of an instruction. -/
def JumpsOK (ops : List (Nat × Opcode)) : Prop :=
  ∀ (o : Nat) (op : Opcode), (o, op) ∈ ops → ∀ j ∈ jumpsOf op,
    ∃ (o' : Nat) (op' : Opcode), (o', op') ∈ ops ∧ (o' : Int) = (o : Int) + j.toInt

/-- `code` is the encoding of valid bytecode; offsets fit in a signed 32-bit word. -/
def ByteCodeEnc (checks : Bool) (pool : Pool) (bc : ByteCode) (code : Bytes) : Prop :=
  InsnsEnc checks pool 0 bc.opcodes code ∧ (∀ (o : Nat) (op : Opcode), (o, op) ∈ bc.opcodes → o < 2147483648) ∧
    JumpsOK bc.opcodes

end Cafebabe.Spec
