import Verif.Model.ConstantPool
/-!
# Model: bytecode (`/repo/src/bytecode.rs`)
-/

namespace Cafebabe

/-- `/repo/src/bytecode.rs:15-19` `struct LookupTable` (`JumpOffset` is `i32`, line 13). -/
structure LookupTable where
  default : Int32
  matchOffsets : List (Int32 × Int32)
deriving DecidableEq, Repr

/-- `/repo/src/bytecode.rs:21-27` `struct RangeTable`. -/
structure RangeTable where
  default : Int32
  low : Int32
  high : Int32
  jumps : List Int32
deriving DecidableEq, Repr

/-- `/repo/src/bytecode.rs:29-39` `enum PrimitiveArrayType`. -/
inductive PrimitiveArrayType where
  | boolean | char | float | double | byte | short | int | long
deriving DecidableEq, Repr

/-- `/repo/src/bytecode.rs:41-205` `enum Opcode`, same order. -/
inductive Opcode where
  | aaload
  | aastore
  | aconstNull
  | aload (n : UInt16)
  | anewarray (t : ObjectArrayType)
  | areturn
  | arraylength
  | astore (n : UInt16)
  | athrow
  | baload
  | bastore
  | bipush (v : Int8)
  | breakpoint
  | caload
  | castore
  | checkcast (t : ObjectArrayType)
  | d2f
  | d2i
  | d2l
  | dadd
  | daload
  | dastore
  | dcmpg
  | dcmpl
  | dconst0
  | dconst1
  | ddiv
  | dload (n : UInt16)
  | dmul
  | dneg
  | drem
  | dreturn
  | dstore (n : UInt16)
  | dsub
  | dup
  | dupX1
  | dupX2
  | dup2
  | dup2X1
  | dup2X2
  | f2d
  | f2i
  | f2l
  | fadd
  | faload
  | fastore
  | fcmpg
  | fcmpl
  | fconst0
  | fconst1
  | fconst2
  | fdiv
  | fload (n : UInt16)
  | fmul
  | fneg
  | frem
  | freturn
  | fstore (n : UInt16)
  | fsub
  | getfield (m : MemberRef)
  | getstatic (m : MemberRef)
  | goto (j : Int32)
  | i2b
  | i2c
  | i2d
  | i2f
  | i2l
  | i2s
  | iadd
  | iaload
  | iand
  | iastore
  | iconstM1
  | iconst0
  | iconst1
  | iconst2
  | iconst3
  | iconst4
  | iconst5
  | idiv
  | ifAcmpeq (j : Int32)
  | ifAcmpne (j : Int32)
  | ifIcmpeq (j : Int32)
  | ifIcmpge (j : Int32)
  | ifIcmpgt (j : Int32)
  | ifIcmple (j : Int32)
  | ifIcmplt (j : Int32)
  | ifIcmpne (j : Int32)
  | ifeq (j : Int32)
  | ifge (j : Int32)
  | ifgt (j : Int32)
  | ifle (j : Int32)
  | iflt (j : Int32)
  | ifne (j : Int32)
  | ifnonnull (j : Int32)
  | ifnull (j : Int32)
  | iinc (n : UInt16) (v : Int16)
  | iload (n : UInt16)
  | impdep1
  | impdep2
  | imul
  | ineg
  | instanceof (t : ObjectArrayType)
  | invokedynamic (d : DynamicRef)
  | invokeinterface (m : MemberRef) (k : UInt8)
  | invokespecial (m : MemberRef)
  | invokestatic (m : MemberRef)
  | invokevirtual (m : MemberRef)
  | ior
  | irem
  | ireturn
  | ishl
  | ishr
  | istore (n : UInt16)
  | isub
  | iushr
  | ixor
  | jsr (j : Int32)
  | l2d
  | l2f
  | l2i
  | ladd
  | laload
  | land
  | lastore
  | lcmp
  | lconst0
  | lconst1
  | ldc (l : Loadable)
  | ldcW (l : Loadable)
  | ldc2W (l : Loadable)
  | ldiv
  | lload (n : UInt16)
  | lmul
  | lneg
  | lookupswitch (t : LookupTable)
  | lor
  | lrem
  | lreturn
  | lshl
  | lshr
  | lstore (n : UInt16)
  | lsub
  | lushr
  | lxor
  | monitorenter
  | monitorexit
  | multianewarray (t : ObjectArrayType) (k : UInt8)
  | new (s : Str)
  | newarray (t : PrimitiveArrayType)
  | nop
  | pop
  | pop2
  | putfield (m : MemberRef)
  | putstatic (m : MemberRef)
  | ret (n : UInt16)
  | return_
  | saload
  | sastore
  | sipush (v : Int16)
  | swap
  | tableswitch (t : RangeTable)
deriving Repr

/-- `/repo/src/bytecode.rs:207-214` `struct ByteCode`. -/
structure ByteCode where
  opcodes : List (Nat × Opcode)

/-! ## Decoding one instruction -/

/-- The right-hand sides of the `match` arms of `read_opcodes`, `/repo/src/bytecode.rs:320-677`, grouped by form. -/
inductive Shape where
  /-- `Opcode::X` or `Opcode::X(k)`: no operand bytes -/
  | simple (op : Opcode)
  /-- `Opcode::X(read_u1(..)? as i8)` -/
  | i8 (f : Int8 → Opcode)
  /-- `Opcode::X(read_u2(..)? as i16)` -/
  | i16 (f : Int16 → Opcode)
  /-- `Opcode::X(get_cp_loadable(read_u1(..)?.into(), pool)?)` -/
  | load8 (f : Loadable → Opcode)
  /-- `Opcode::X(get_cp_loadable(read_u2(..)?.into(), pool)?)` -/
  | load16 (f : Loadable → Opcode)
  /-- `Opcode::X(read_u1(..)?.into())` -/
  | local8 (f : UInt16 → Opcode)
  /-- `Opcode::X((read_u2(..)? as i16).into())` -/
  | branch16 (f : Int32 → Opcode)
  /-- `Opcode::X(read_u4(..)? as JumpOffset)` -/
  | branch32 (f : Int32 → Opcode)
  /-- `Opcode::X(read_cp_memberref(.., allowed)?)` -/
  | member (f : MemberRef → Opcode) (allowed : UInt32)
  /-- `Opcode::X(read_cp_object_array_type(..)?)` -/
  | objArray (f : ObjectArrayType → Opcode)
  | iinc | tableswitch | lookupswitch | invokeinterface | invokedynamic | new | newarray | wide | multianewarray

/-- The arms of the `match` of `/repo/src/bytecode.rs:320-677`, in order. -/
def opcodeTable : List (UInt8 × Shape) := [
  (0x00, .simple .nop),
  (0x01, .simple .aconstNull),
  (0x02, .simple .iconstM1),
  (0x03, .simple .iconst0),
  (0x04, .simple .iconst1),
  (0x05, .simple .iconst2),
  (0x06, .simple .iconst3),
  (0x07, .simple .iconst4),
  (0x08, .simple .iconst5),
  (0x09, .simple .lconst0),
  (0x0a, .simple .lconst1),
  (0x0b, .simple .fconst0),
  (0x0c, .simple .fconst1),
  (0x0d, .simple .fconst2),
  (0x0e, .simple .dconst0),
  (0x0f, .simple .dconst1),
  (0x10, .i8 .bipush),
  (0x11, .i16 .sipush),
  (0x12, .load8 .ldc),
  (0x13, .load16 .ldcW),
  (0x14, .load16 .ldc2W),
  (0x15, .local8 .iload),
  (0x16, .local8 .lload),
  (0x17, .local8 .fload),
  (0x18, .local8 .dload),
  (0x19, .local8 .aload),
  (0x1a, .simple (.iload 0)),
  (0x1b, .simple (.iload 1)),
  (0x1c, .simple (.iload 2)),
  (0x1d, .simple (.iload 3)),
  (0x1e, .simple (.lload 0)),
  (0x1f, .simple (.lload 1)),
  (0x20, .simple (.lload 2)),
  (0x21, .simple (.lload 3)),
  (0x22, .simple (.fload 0)),
  (0x23, .simple (.fload 1)),
  (0x24, .simple (.fload 2)),
  (0x25, .simple (.fload 3)),
  (0x26, .simple (.dload 0)),
  (0x27, .simple (.dload 1)),
  (0x28, .simple (.dload 2)),
  (0x29, .simple (.dload 3)),
  (0x2a, .simple (.aload 0)),
  (0x2b, .simple (.aload 1)),
  (0x2c, .simple (.aload 2)),
  (0x2d, .simple (.aload 3)),
  (0x2e, .simple .iaload),
  (0x2f, .simple .laload),
  (0x30, .simple .faload),
  (0x31, .simple .daload),
  (0x32, .simple .aaload),
  (0x33, .simple .baload),
  (0x34, .simple .caload),
  (0x35, .simple .saload),
  (0x36, .local8 .istore),
  (0x37, .local8 .lstore),
  (0x38, .local8 .fstore),
  (0x39, .local8 .dstore),
  (0x3a, .local8 .astore),
  (0x3b, .simple (.istore 0)),
  (0x3c, .simple (.istore 1)),
  (0x3d, .simple (.istore 2)),
  (0x3e, .simple (.istore 3)),
  (0x3f, .simple (.lstore 0)),
  (0x40, .simple (.lstore 1)),
  (0x41, .simple (.lstore 2)),
  (0x42, .simple (.lstore 3)),
  (0x43, .simple (.fstore 0)),
  (0x44, .simple (.fstore 1)),
  (0x45, .simple (.fstore 2)),
  (0x46, .simple (.fstore 3)),
  (0x47, .simple (.dstore 0)),
  (0x48, .simple (.dstore 1)),
  (0x49, .simple (.dstore 2)),
  (0x4a, .simple (.dstore 3)),
  (0x4b, .simple (.astore 0)),
  (0x4c, .simple (.astore 1)),
  (0x4d, .simple (.astore 2)),
  (0x4e, .simple (.astore 3)),
  (0x4f, .simple .iastore),
  (0x50, .simple .lastore),
  (0x51, .simple .fastore),
  (0x52, .simple .dastore),
  (0x53, .simple .aastore),
  (0x54, .simple .bastore),
  (0x55, .simple .castore),
  (0x56, .simple .sastore),
  (0x57, .simple .pop),
  (0x58, .simple .pop2),
  (0x59, .simple .dup),
  (0x5a, .simple .dupX1),
  (0x5b, .simple .dupX2),
  (0x5c, .simple .dup2),
  (0x5d, .simple .dup2X1),
  (0x5e, .simple .dup2X2),
  (0x5f, .simple .swap),
  (0x60, .simple .iadd),
  (0x61, .simple .ladd),
  (0x62, .simple .fadd),
  (0x63, .simple .dadd),
  (0x64, .simple .isub),
  (0x65, .simple .lsub),
  (0x66, .simple .fsub),
  (0x67, .simple .dsub),
  (0x68, .simple .imul),
  (0x69, .simple .lmul),
  (0x6a, .simple .fmul),
  (0x6b, .simple .dmul),
  (0x6c, .simple .idiv),
  (0x6d, .simple .ldiv),
  (0x6e, .simple .fdiv),
  (0x6f, .simple .ddiv),
  (0x70, .simple .irem),
  (0x71, .simple .lrem),
  (0x72, .simple .frem),
  (0x73, .simple .drem),
  (0x74, .simple .ineg),
  (0x75, .simple .lneg),
  (0x76, .simple .fneg),
  (0x77, .simple .dneg),
  (0x78, .simple .ishl),
  (0x79, .simple .lshl),
  (0x7a, .simple .ishr),
  (0x7b, .simple .lshr),
  (0x7c, .simple .iushr),
  (0x7d, .simple .lushr),
  (0x7e, .simple .iand),
  (0x7f, .simple .land),
  (0x80, .simple .ior),
  (0x81, .simple .lor),
  (0x82, .simple .ixor),
  (0x83, .simple .lxor),
  (0x84, .iinc),
  (0x85, .simple .i2l),
  (0x86, .simple .i2f),
  (0x87, .simple .i2d),
  (0x88, .simple .l2i),
  (0x89, .simple .l2f),
  (0x8a, .simple .l2d),
  (0x8b, .simple .f2i),
  (0x8c, .simple .f2l),
  (0x8d, .simple .f2d),
  (0x8e, .simple .d2i),
  (0x8f, .simple .d2l),
  (0x90, .simple .d2f),
  (0x91, .simple .i2b),
  (0x92, .simple .i2c),
  (0x93, .simple .i2s),
  (0x94, .simple .lcmp),
  (0x95, .simple .fcmpl),
  (0x96, .simple .fcmpg),
  (0x97, .simple .dcmpl),
  (0x98, .simple .dcmpg),
  (0x99, .branch16 .ifeq),
  (0x9a, .branch16 .ifne),
  (0x9b, .branch16 .iflt),
  (0x9c, .branch16 .ifge),
  (0x9d, .branch16 .ifgt),
  (0x9e, .branch16 .ifle),
  (0x9f, .branch16 .ifIcmpeq),
  (0xa0, .branch16 .ifIcmpne),
  (0xa1, .branch16 .ifIcmplt),
  (0xa2, .branch16 .ifIcmpge),
  (0xa3, .branch16 .ifIcmpgt),
  (0xa4, .branch16 .ifIcmple),
  (0xa5, .branch16 .ifAcmpeq),
  (0xa6, .branch16 .ifAcmpne),
  (0xa7, .branch16 .goto),
  (0xa8, .branch16 .jsr),
  (0xa9, .local8 .ret),
  (0xaa, .tableswitch),
  (0xab, .lookupswitch),
  (0xac, .simple .ireturn),
  (0xad, .simple .lreturn),
  (0xae, .simple .freturn),
  (0xaf, .simple .dreturn),
  (0xb0, .simple .areturn),
  (0xb1, .simple .return_),
  (0xb2, .member .getstatic EntryTypes.FIELD_REF),
  (0xb3, .member .putstatic EntryTypes.FIELD_REF),
  (0xb4, .member .getfield EntryTypes.FIELD_REF),
  (0xb5, .member .putfield EntryTypes.FIELD_REF),
  (0xb6, .member .invokevirtual EntryTypes.METHOD_REF),
  (0xb7, .member .invokespecial EntryTypes.NEW_METHOD_REFS),
  (0xb8, .member .invokestatic EntryTypes.NEW_METHOD_REFS),
  (0xb9, .invokeinterface),
  (0xba, .invokedynamic),
  (0xbb, .new),
  (0xbc, .newarray),
  (0xbd, .objArray .anewarray),
  (0xbe, .simple .arraylength),
  (0xbf, .simple .athrow),
  (0xc0, .objArray .checkcast),
  (0xc1, .objArray .instanceof),
  (0xc2, .simple .monitorenter),
  (0xc3, .simple .monitorexit),
  (0xc4, .wide),
  (0xc5, .multianewarray),
  (0xc6, .branch16 .ifnull),
  (0xc7, .branch16 .ifnonnull),
  (0xc8, .branch32 .goto),
  (0xc9, .branch32 .jsr),
  (0xca, .simple .breakpoint),
  (0xfe, .simple .impdep1),
  (0xff, .simple .impdep2)
]

/-- The arm selected for an opcode byte; `none` is the last arm `v => fail!`. -/
def shapeOf (b : UInt8) : Option Shape := opcodeTable.lookup b

/-- `(ix + 3) & !0x3`, `/repo/src/bytecode.rs:496, 523`. -/
def alignUp4 (ix : Nat) : Nat := (ix + 3) / 4 * 4

/-- `ix = (ix + 3) & !0x3;` (may move past the end of the code; the next read then fails). -/
def skipPadding : P Unit := fun _ ix => .ok ((), alignUp4 ix)

/-- `read_u4(code, &mut ix)? as i32`. -/
def readI4 : P Int32 := do
  let v ← readU4
  pure v.toInt32

/-- `high - low + 1` on `i32`: each step panics on overflow in checked builds and wraps otherwise
(`/repo/src/bytecode.rs:503`). -/
def jumpSpan (checks : Bool) (low high : Int32) : Res Int32 :=
  if checks && (high.toInt - low.toInt > 2147483647 || high.toInt - low.toInt < -2147483648) then .panic .overflow
  else if checks && (high - low).toInt + 1 > 2147483647 then .panic .overflow
  else .ok (high - low + 1)

/-- The header of `tableswitch`, `/repo/src/bytecode.rs:494-509`: default, low, high and the `jump_count` whose capacity is then
reserved. -/
def tableswitchHeader (checks : Bool) : P (Int32 × Int32 × Int32 × Nat) := do
  skipPadding
  let default ← readI4
  let low ← readI4
  let high ← readI4
  let ix ← P.getIx
  if low > high then
    P.fail s!"The low value must be less than or equal to the high value in tableswitch at index {ix - 4}"
  else do
    let span ← P.lift (jumpSpan checks low high)
    if span.toInt < 0 then
      P.fail s!"Unable to convert range to usize in tableswitch at index {ix - 4}"
    else pure (default, low, high, span.toInt.toNat)

/-- `/repo/src/bytecode.rs:494-520` the `0xaa` arm. -/
def readTableswitch (checks : Bool) : P Opcode := do
  let (default, low, high, jumpCount) ← tableswitchHeader checks
  let jumps ← P.forRange jumpCount fun _ => readI4
  pure (.tableswitch { default := default, low := low, high := high, jumps := jumps })

/-- The header of `lookupswitch`, `/repo/src/bytecode.rs:521-539`: default and the `pair_count` whose capacity is then reserved. -/
def lookupswitchHeader : P (Int32 × Nat) := do
  skipPadding
  let default ← readI4
  let npairs ← readI4
  let ix ← P.getIx
  if npairs.toInt < 0 then
    P.fail s!"Number of pairs in lookupswitch must be non-negative at index {ix - 4}"
  else pure (default, npairs.toInt.toNat)

/-- `/repo/src/bytecode.rs:521-550` the `0xab` arm. -/
def readLookupswitch : P Opcode := do
  let (default, pairCount) ← lookupswitchHeader
  let matchOffsets ← P.forRange pairCount fun _ => do
    let matchPart ← readI4
    let offsetPart ← readI4
    pure (matchPart, offsetPart)
  pure (.lookupswitch { default := default, matchOffsets := matchOffsets })

/-- `/repo/src/bytecode.rs:598-610` the `0xb9` arm. -/
def readInvokeinterface (pool : Pool) : P Opcode := do
  let interfacemethod ← readCpMemberref pool EntryTypes.INTERFACE_METHOD_REF
  let count ← readU1
  let z ← readU1
  let ix ← P.getIx
  if z != 0 then
    P.fail s!"Nonzero byte found where zero byte expected in invokeinterface opcode at index {ix - 1}"
  else pure (.invokeinterface interfacemethod count)

/-- `/repo/src/bytecode.rs:611-617` the `0xba` arm. -/
def readInvokedynamic (pool : Pool) : P Opcode := do
  let d ← readCpInvokedynamic pool
  let z ← readU2
  let ix ← P.getIx
  if z != 0 then
    P.fail s!"Nonzero bytes found where zero bytes expected in invokedynamic opcode at index {ix - 2}"
  else pure (.invokedynamic d)

/-- The `match` of `/repo/src/bytecode.rs:620-633`. -/
def primitiveArrayTypeOf (n : UInt8) : Option PrimitiveArrayType :=
  match n.toNat with
  | 4 => some .boolean
  | 5 => some .char
  | 6 => some .float
  | 7 => some .double
  | 8 => some .byte
  | 9 => some .short
  | 10 => some .int
  | 11 => some .long
  | _ => none

/-- `/repo/src/bytecode.rs:619-635` the `0xbc` arm. -/
def readNewarray : P Opcode := do
  let n ← readU1
  match primitiveArrayTypeOf n with
  | some primitiveType => pure (.newarray primitiveType)
  | none => do
    let ix ← P.getIx
    P.fail s!"Unexpected array type for newarray opcode at index {ix - 1}"

/-- The arms of the inner `match` of `/repo/src/bytecode.rs:645-663` that have one `u16` operand. -/
def wideTable : List (UInt8 × (UInt16 → Opcode)) := [
  (0x15, .iload), (0x16, .lload), (0x17, .fload), (0x18, .dload), (0x19, .aload),
  (0x36, .istore), (0x37, .lstore), (0x38, .fstore), (0x39, .dstore), (0x3a, .astore),
  (0xa9, .ret)
]

/-- `/repo/src/bytecode.rs:643-664` the `0xc4` arm. -/
def readWide : P Opcode := do
  let v ← readU1
  if v == 0x84 then do
    let n ← readU2
    let c ← readU2
    pure (.iinc n c.toInt16)
  else
    match wideTable.lookup v with
    | some f => do
      let n ← readU2
      pure (f n)
    | none => do
      let ix ← P.getIx
      P.fail s!"Unexpected opcode {v} inside wide modifier at index {ix - 1}"

/-- Read the operands of an instruction of the given form. -/
def readShape (checks : Bool) (pool : Pool) : Shape → P Opcode
  | .simple op => pure op
  | .i8 f => do
    let v ← readU1
    pure (f v.toInt8)
  | .i16 f => do
    let v ← readU2
    pure (f v.toInt16)
  | .load8 f => do
    let i ← readU1
    let l ← P.lift (getCpLoadable i.toNat pool)
    pure (f l)
  | .load16 f => do
    let i ← readU2
    let l ← P.lift (getCpLoadable i.toNat pool)
    pure (f l)
  | .local8 f => do
    let n ← readU1
    pure (f n.toUInt16)
  | .branch16 f => do
    let j ← readU2
    pure (f j.toInt16.toInt32)
  | .branch32 f => do
    let j ← readI4
    pure (f j)
  | .member f allowed => do
    let m ← readCpMemberref pool allowed
    pure (f m)
  | .objArray f => do
    let t ← readCpObjectArrayType pool
    pure (f t)
  | .iinc => do
    let n ← readU1
    let c ← readU1
    pure (.iinc n.toUInt16 c.toInt8.toInt16)
  | .tableswitch => readTableswitch checks
  | .lookupswitch => readLookupswitch
  | .invokeinterface => readInvokeinterface pool
  | .invokedynamic => readInvokedynamic pool
  | .new => do
    let s ← readCpClassinfo pool
    pure (.new s)
  | .newarray => readNewarray
  | .wide => readWide
  | .multianewarray => do
    let t ← readCpObjectArrayType pool
    let k ← readU1
    pure (.multianewarray t k)

/-- The body of the loop of `/repo/src/bytecode.rs:318-679`: one instruction. -/
def readOpcode (checks : Bool) (pool : Pool) : P Opcode := do
  let v ← readU1
  match shapeOf v with
  | some shape => readShape checks pool shape
  | none => do
    let ix ← P.getIx
    P.fail s!"Unexpected opcode {v} at index {ix - 1}"

/-- The `while ix < code.len()` loop of `/repo/src/bytecode.rs:318-679` (`fuel` bounds the iterations; each consumes a byte). -/
def readOpcodesLoop (checks : Bool) (pool : Pool) (code : Bytes) : Nat → Nat → Res (List (Nat × Opcode))
  | 0, _ => .diverge
  | fuel + 1, ix =>
    if ix < code.length then do
      let (opcode, ix') ← readOpcode checks pool code ix
      let rest ← readOpcodesLoop checks pool code fuel ix'
      .ok ((ix, opcode) :: rest)
    else .ok []

/-- `/repo/src/bytecode.rs:312-681` `read_opcodes`. -/
def readOpcodes (checks : Bool) (code : Bytes) (pool : Pool) : Res (List (Nat × Opcode)) :=
  readOpcodesLoop checks pool code (code.length + 1) 0

/-! ## Jump validation -/

/-- The `while min < max` loop of `/repo/src/bytecode.rs:234-248` (`fuel` bounds the iterations; shown sufficient). -/
def opcodeIndexLoop (opcodes : List (Nat × Opcode)) (offset : Nat) : Nat → Nat → Nat → Res (Option Nat)
  | 0, _, _ => .diverge
  | fuel + 1, min, max =>
    if min < max then
      let mid := (min + max) / 2
      match opcodes[mid]? with
      | none => .panic .bounds
      | some (midOffset, _) =>
        if midOffset == offset then .ok (some mid)
        else if midOffset > offset then opcodeIndexLoop opcodes offset fuel min mid
        else if min == mid then .ok none
        else opcodeIndexLoop opcodes offset fuel mid max
    else .ok none

/-- `/repo/src/bytecode.rs:231-249` `ByteCode::get_opcode_index`. -/
def ByteCode.getOpcodeIndex (self : ByteCode) (offset : Nat) : Res (Option Nat) :=
  opcodeIndexLoop self.opcodes offset (self.opcodes.length + 1) 0 self.opcodes.length

/-- `a + b` on `i32`: panics on overflow in checked builds, wraps otherwise. -/
def addI32 (checks : Bool) (a b : Int32) : Res Int32 :=
  if checks && (a.toInt + b.toInt > 2147483647 || a.toInt + b.toInt < -2147483648) then .panic .overflow
  else .ok (a + b)

/-- `/repo/src/bytecode.rs:251-258` `validate_jump`. -/
def ByteCode.validateJump (checks : Bool) (self : ByteCode) (sourceOffset jump : Int32) : Res Unit := do
  let sum ← addI32 checks sourceOffset jump
  if sum.toInt < 0 then Res.fail "Invalid destination after applying jump"
  else do
    match ← self.getOpcodeIndex sum.toInt.toNat with
    | none => Res.fail "Invalid opcode offset after applying jump"
    | some _ => .ok ()

/-- The loop over `table.match_offsets`, `/repo/src/bytecode.rs:286-289`. -/
def validateMatchOffsets (checks : Bool) (self : ByteCode) (sourceOffset : Int32) : List (Int32 × Int32) → Res Unit
  | [] => .ok ()
  | (i, jump) :: rest => do
    (self.validateJump checks sourceOffset jump).mapErr s!"match offset {i}"
    validateMatchOffsets checks self sourceOffset rest

/-- The loop over `table.jumps.iter().enumerate()`, `/repo/src/bytecode.rs:294-297`. -/
def validateRangeOffsets (checks : Bool) (self : ByteCode) (sourceOffset : Int32) : Nat → List Int32 → Res Unit
  | _, [] => .ok ()
  | i, jump :: rest => do
    (self.validateJump checks sourceOffset jump).mapErr s!"range offset {i}"
    validateRangeOffsets checks self sourceOffset (i + 1) rest

/-- `/repo/src/bytecode.rs:260-301` `validate_opcode_jumps`. -/
def ByteCode.validateOpcodeJumps (checks : Bool) (self : ByteCode) (offset : Nat) (opcode : Opcode) : Res Unit :=
  if offset > 2147483647 then Res.fail "Unable to convert offset to i32"
  else
    let sourceOffset := Int32.ofNat offset
    match opcode with
    | .goto j | .ifAcmpeq j | .ifAcmpne j | .ifIcmpeq j | .ifIcmpge j | .ifIcmpgt j | .ifIcmple j | .ifIcmplt j
    | .ifIcmpne j | .ifeq j | .ifge j | .ifgt j | .ifle j | .iflt j | .ifne j | .ifnonnull j | .ifnull j
    | .jsr j => self.validateJump checks sourceOffset j
    | .lookupswitch table => do
      (self.validateJump checks sourceOffset table.default).mapErr "default jump offset"
      validateMatchOffsets checks self sourceOffset table.matchOffsets
    | .tableswitch table => do
      (self.validateJump checks sourceOffset table.default).mapErr "default jump offset"
      validateRangeOffsets checks self sourceOffset 0 table.jumps
    | _ => .ok ()

/-- The loop of `/repo/src/bytecode.rs:303-309` `validate_jumps` over the remaining opcodes. -/
def ByteCode.validateJumpsFrom (checks : Bool) (self : ByteCode) : List (Nat × Opcode) → Res Unit
  | [] => .ok ()
  | (offset, opcode) :: rest => do
    (self.validateOpcodeJumps checks offset opcode).mapErr s!"opcode at offset {offset}"
    ByteCode.validateJumpsFrom checks self rest

/-- `/repo/src/bytecode.rs:303-309` `validate_jumps`. -/
def ByteCode.validateJumps (checks : Bool) (self : ByteCode) : Res Unit := self.validateJumpsFrom checks self.opcodes

/-- `/repo/src/bytecode.rs:217-226` `ByteCode::from`. -/
def ByteCode.ofCode (checks : Bool) (code : Bytes) (pool : Pool) : Res ByteCode := do
  let opcodes ← readOpcodes checks code pool
  let bytecode : ByteCode := { opcodes := opcodes }
  bytecode.validateJumps checks
  .ok bytecode

end Cafebabe
