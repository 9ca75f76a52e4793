import Verif.Model.Work
import Verif.Model.ClassFile
/-!
# Model: how much work parsing does

The parser once more, each function giving its outcome together with a number of steps. The definitions follow those of `Model/ConstantPool`,
`Model/Bytecode`, `Model/Attributes` and `Model/ClassFile` line by line. A step is one of those of `Model/Work` or: a call of a reader
that has no loop and handles no text (`PT.once`: `read_u1` and the like, a row of numbers, a header of a switch, taking a slice); one turn of a
loop; one look into the constant pool or through a reference; one character of a text handed out, as if it were copied each time
(the code often only borrows it, C60); one byte decoded by `cesu8::from_java_cesu8`; one comparison of an attribute name with a
predefined one; for the `HashSet` of members one clone, one hash and one comparison of name and descriptor, character by character: that a
`HashSet` compares with one other element is an assumption on average behaviour. Free are arithmetic, `match`, moving values,
allocation, and making error values.
-/

namespace Cafebabe

open Timed

/-- A reader that counts its steps. -/
def PT (α : Type) := Bytes → Nat → Timed (α × Nat)

namespace PT

/-- Sequencing with `?`. -/
def bind {α β : Type} (p : PT α) (f : α → PT β) : PT β := fun bytes ix => p bytes ix >>= fun r => f r.1 bytes r.2

instance : Monad PT where
  pure a := fun _ ix => ⟨.ok (a, ix), 0⟩
  bind := bind

/-- A reader counted as one step. -/
def once {α : Type} (p : P α) : PT α := fun bytes ix => ⟨p bytes ix, 1⟩

/-- Something that costs nothing. -/
def plain {α : Type} (p : P α) : PT α := fun bytes ix => ⟨p bytes ix, 0⟩

/-- A computation that does not touch the input. -/
def lift {α : Type} (t : Timed α) : PT α := fun _ ix => t >>= fun a => ⟨.ok (a, ix), 0⟩

/-- `n` steps. -/
def tick (n : Nat) : PT Unit := lift (Timed.tick n)

/-- `.map_err(|e| err!(e, "..."))`. -/
def mapErr {α : Type} (p : PT α) (context : String) : PT α := fun bytes ix => (p bytes ix).mapErr context

/-- `fail!("...")`. -/
def fail {α : Type} (msg : String) : PT α := plain (P.fail msg)

/-- The current index `*ix`. -/
def getIx : PT Nat := plain P.getIx

/-- `if b { fail!(msg) }`. -/
def failIf (b : Bool) (msg : String) : PT Unit := plain (P.failIf b msg)

/-- `.ok_or_else(|| err!(msg))?`. -/
def okOr {α : Type} (o : Option α) (msg : String) : PT α := plain (P.okOr o msg)

/-- Recursion budget exhausted. -/
def diverge {α : Type} : PT α := plain P.diverge

end PT

/-- `for i in 0..count { v.push(f(i)?) }`, starting the counter at `i`. -/
def forRangeFromT {α : Type} (f : Nat → PT α) : Nat → Nat → PT (List α)
  | _, 0 => pure []
  | i, n + 1 => do
    PT.tick 1
    let x ← f i
    let xs ← forRangeFromT f (i + 1) n
    pure (x :: xs)

/-- `for i in 0..count { v.push(f(i)?) }`. -/
def forRangeT {α : Type} (count : Nat) (f : Nat → PT α) : PT (List α) := forRangeFromT f 0 count

/-- Handing out a text. -/
def copyT (s : Str) : Timed Str := do
  tick s.length
  free (.ok s)

/-- The characters of the text of a literal; raw bytes are borrowed. -/
def literalSize : LiteralConstant → Nat
  | .string s => s.length
  | _ => 0

/-- `unique_ids.insert((name.clone(), descriptor.clone()))`, `/repo/src/lib.rs:181-187`, `/repo/src/lib.rs:259-265`, for a name and a descriptor of the given sizes. -/
def uniqueT (name descriptor : Nat) : Timed Unit := tick (3 * (name + descriptor) + 1)

/-- `if !is_unqualified_name(name)` on an optional name, `/repo/src/attributes.rs:861-879`. -/
def optNameT : Option Str → Timed Bool
  | none => free (.ok true)
  | some s => isUnqualifiedNameT s

/-- `/repo/src/descriptors.rs:321-326` `is_return_descriptor`. -/
def isReturnDescriptorT (name : Str) : Timed Bool := lenMatchesT name ReturnDescriptor.byteLen (parseReturnDescriptorT name 0)

/-! ## Constants -/

/-- `peel!(x).utf8()`. -/
def peelUtf8T (pool : Pool) (x : CPRef) : Timed Str := do
  let e ← peelT pool x
  let s ← free e.getUtf8
  copyT s

/-- `/repo/src/constant_pool.rs:413-418` `ConstantPoolEntry::classinfo`. -/
def Entry.classinfoT (pool : Pool) : Entry → Timed Str
  | .classInfo x => peelUtf8T pool x
  | _ => free (.panic .nonClassInfo)

/-- `/repo/src/constant_pool.rs:420-430` `ConstantPoolEntry::name_and_type`. -/
def Entry.nameAndTypeOfT (pool : Pool) : Entry → Timed NameAndType
  | .nameAndType x y => do
    let name ← peelUtf8T pool x
    let descriptor ← peelUtf8T pool y
    free (.ok { name := name, descriptor := descriptor })
  | _ => free (.panic .nonNameAndType)

/-- `peel!(v).string_literal()`. -/
def peelStringLiteralT (pool : Pool) (v : CPRef) : Timed LiteralConstant := do
  let e ← peelT pool v
  let l ← free e.stringLiteral
  tick (literalSize l)
  free (.ok l)

/-- `peel!(c).classinfo()`. -/
def peelClassinfoT (pool : Pool) (c : CPRef) : Timed Str := do
  let e ← peelT pool c
  e.classinfoT pool

/-- `peel!(m).name_and_type()`. -/
def peelNameAndTypeT (pool : Pool) (m : CPRef) : Timed NameAndType := do
  let e ← peelT pool m
  e.nameAndTypeOfT pool

/-- `MemberRef { class_name: peel!(c).classinfo(), name_and_type: peel!(m).name_and_type() }`. -/
def makeMemberRefT (pool : Pool) (c m : CPRef) : Timed MemberRef := do
  let className ← peelClassinfoT pool c
  let nameAndType ← peelNameAndTypeT pool m
  free (.ok { className := className, nameAndType := nameAndType })

/-- Build a `Dynamic`/`InvokeDynamic` from its entry fields (lines 927-930, 973-976). -/
def makeDynamicT (pool : Pool) (x : UInt16) (y : CPRef) : Timed DynamicRef := do
  let nameAndType ← peelNameAndTypeT pool y
  free (.ok { attrIndex := x, nameAndType := nameAndType })

/-- The member part of `/repo/src/constant_pool.rs:996-1024`, for a member entry `(c, m)`. -/
def makeHandleFromT (pool : Pool) (x : ReferenceKind) (kind : MemberKind) (c m : CPRef) : Timed MethodHandle := do
  let className ← peelClassinfoT pool c
  let memberRef ← peelNameAndTypeT pool m
  free (.ok { kind := x, className := className, memberKind := kind, memberRef := memberRef })

/-- `/repo/src/constant_pool.rs:996-1024` `make_method_handle`. -/
def makeMethodHandleT (pool : Pool) (x : ReferenceKind) (y : CPRef) : Timed MethodHandle := do
  match ← peelT pool y with
  | .fieldRef c m => makeHandleFromT pool x .field c m
  | .methodRef c m => makeHandleFromT pool x .method c m
  | .interfaceMethodRef c m => makeHandleFromT pool x .interfaceMethod c m
  | _ => free (Res.fail "Unexpected constant pool reference type")

/-- `/repo/src/constant_pool.rs:950-979` `get_cp_loadable`. -/
def getCpLoadableT (cpIndex : Nat) (pool : Pool) : Timed Loadable :=
  if cpIndex ≥ pool.length then
    free (Res.fail s!"Out-of-bounds index {cpIndex} in constant pool reference")
  else do
    tick 1
    match ← free (poolAt pool cpIndex) with
    | .integer v => free (.ok (.literalConstant (.integer v)))
    | .float v => free (.ok (.literalConstant (.float v)))
    | .long v => free (.ok (.literalConstant (.long v)))
    | .double v => free (.ok (.literalConstant (.double v)))
    | .string v => do
      let l ← peelStringLiteralT pool v
      free (.ok (.literalConstant l))
    | .classInfo x => do
      let s ← peelUtf8T pool x
      free (.ok (.classInfo s))
    | .methodHandle x y => do
      let h ← makeMethodHandleT pool x y
      free (.ok (.methodHandle h))
    | .methodType x => do
      let s ← peelUtf8T pool x
      free (.ok (.methodType s))
    | .dynamic x y => do
      let d ← makeDynamicT pool x y
      free (.ok (.dynamic d))
    | _ => free (Res.fail "Unexpected non-loadable constant pool reference found")

/-- The `match` of `/repo/src/constant_pool.rs:1046-1075` `read_cp_bootstrap_argument`, on the entry already looked up. -/
def bootstrapArgumentOfT (pool : Pool) (e : Entry) : Timed BootstrapArgument :=
  match e with
  | .integer v => free (.ok (.literalConstant (.integer v)))
  | .float v => free (.ok (.literalConstant (.float v)))
  | .long v => free (.ok (.literalConstant (.long v)))
  | .double v => free (.ok (.literalConstant (.double v)))
  | .string v => do
    let l ← peelStringLiteralT pool v
    free (.ok (.literalConstant l))
  | .classInfo x => do
    let s ← peelUtf8T pool x
    free (.ok (.classInfo s))
  | .methodHandle x y => do
    let h ← makeMethodHandleT pool x y
    free (.ok (.methodHandle h))
  | .methodType x => do
    let s ← peelUtf8T pool x
    free (.ok (.methodType s))
  | _ => free (Res.fail "Unexpected constant pool reference type")

/-- `/repo/src/constant_pool.rs:717-727` `read_cp_utf8`. -/
def readCpUtf8T (pool : Pool) : PT Str := do
  match ← PT.once (readCpRefAny pool) with
  | .utf8 x => PT.lift (copyT x)
  | _ => PT.plain badType

/-- `/repo/src/constant_pool.rs:729-740` `read_cp_utf8_opt`. -/
def readCpUtf8OptT (pool : Pool) : PT (Option Str) := do
  match ← PT.once (readCpRefAny pool) with
  | .zero => pure none
  | .utf8 x => do
    let s ← PT.lift (copyT x)
    pure (some s)
  | _ => PT.plain badType

/-- `/repo/src/constant_pool.rs:742-752` `read_cp_classinfo`. -/
def readCpClassinfoT (pool : Pool) : PT Str := do
  match ← PT.once (readCpRefAny pool) with
  | .classInfo x => PT.lift (peelUtf8T pool x)
  | _ => PT.plain badType

/-- `/repo/src/constant_pool.rs:754-765` `read_cp_classinfo_opt`. -/
def readCpClassinfoOptT (pool : Pool) : PT (Option Str) := do
  match ← PT.once (readCpRefAny pool) with
  | .zero => pure none
  | .classInfo x => do
    let s ← PT.lift (peelUtf8T pool x)
    pure (some s)
  | _ => PT.plain badType

/-- `/repo/src/constant_pool.rs:767-777` `read_cp_moduleinfo`. -/
def readCpModuleinfoT (pool : Pool) : PT Str := do
  match ← PT.once (readCpRefAny pool) with
  | .moduleInfo x => PT.lift (peelUtf8T pool x)
  | _ => PT.plain badType

/-- `/repo/src/constant_pool.rs:779-789` `read_cp_packageinfo`. -/
def readCpPackageinfoT (pool : Pool) : PT Str := do
  match ← PT.once (readCpRefAny pool) with
  | .packageInfo x => PT.lift (peelUtf8T pool x)
  | _ => PT.plain badType

/-- `/repo/src/constant_pool.rs:797-811` `read_cp_nameandtype_opt`. -/
def readCpNameandtypeOptT (pool : Pool) : PT (Option NameAndType) := do
  match ← PT.once (readCpRefAny pool) with
  | .zero => pure none
  | .nameAndType x y => do
    let name ← PT.lift (peelUtf8T pool x)
    let descriptor ← PT.lift (peelUtf8T pool y)
    pure (some { name := name, descriptor := descriptor })
  | _ => PT.plain badType

/-- `/repo/src/constant_pool.rs:823-837` `read_cp_literalconstant`. -/
def readCpLiteralconstantT (pool : Pool) : PT LiteralConstant := do
  match ← PT.once (readCpRefAny pool) with
  | .integer v => pure (.integer v)
  | .float v => pure (.float v)
  | .long v => pure (.long v)
  | .double v => pure (.double v)
  | .string v => PT.lift (peelStringLiteralT pool v)
  | _ => PT.plain badType

/-- `/repo/src/constant_pool.rs:893-912` `read_cp_memberref`. -/
def readCpMemberrefT (pool : Pool) (allowed : UInt32) : PT MemberRef := do
  let cpRef ← PT.once (readCpRefAny pool)
  PT.lift (free (cpRef.ensureType allowed))
  match cpRef with
  | .fieldRef c m => PT.lift (makeMemberRefT pool c m)
  | .methodRef c m => PT.lift (makeMemberRefT pool c m)
  | .interfaceMethodRef c m => PT.lift (makeMemberRefT pool c m)
  | _ => PT.plain badType

/-- `/repo/src/constant_pool.rs:920-933` `read_cp_invokedynamic`. -/
def readCpInvokedynamicT (pool : Pool) : PT DynamicRef := do
  match ← PT.once (readCpRefAny pool) with
  | .invokeDynamic x y => PT.lift (makeDynamicT pool x y)
  | _ => PT.plain badType

/-- `/repo/src/constant_pool.rs:1026-1036` `read_cp_methodhandle`. -/
def readCpMethodhandleT (pool : Pool) : PT MethodHandle := do
  match ← PT.once (readCpRefAny pool) with
  | .methodHandle x y => PT.lift (makeMethodHandleT pool x y)
  | _ => PT.plain badType

/-- `/repo/src/constant_pool.rs:1046-1075` `read_cp_bootstrap_argument`. -/
def readCpBootstrapArgumentT (pool : Pool) : PT BootstrapArgument := do
  let e ← PT.once (readCpRefAny pool)
  PT.lift (bootstrapArgumentOfT pool e)

/-- `/repo/src/constant_pool.rs:1083-1099` `read_cp_object_array_type`. -/
def readCpObjectArrayTypeT (pool : Pool) : PT ObjectArrayType := do
  match ← PT.once (readCpRefAny pool) with
  | .classInfo x => do
    let name ← PT.lift (peelUtf8T pool x)
    match ← PT.lift (parseArrayDescriptorT name) with
    | some desc => pure (.arrayType desc)
    | none => pure (.binaryName name)
  | _ => PT.plain badType

/-- `/repo/src/constant_pool.rs:442-468` `read_constant_utf8`. -/
def readConstantUtf8T (env : Env) : PT Entry := do
  let length ← PT.once readU2
  let ix ← PT.getIx
  let modifiedUtf8Data ← PT.once (takeBytes length.toNat s!"Unexpected end of stream reading CONSTANT_Utf8 at index {ix}")
  PT.tick modifiedUtf8Data.length
  match env.decode modifiedUtf8Data with
  | some rustStr => pure (.utf8 rustStr)
  | none => pure (.utf8Bytes modifiedUtf8Data)

/-- The `match constant_type { .. }` of `/repo/src/constant_pool.rs:664-688`. -/
def readConstantT (env : Env) (majorVersion : UInt16) (constantType : UInt8) : PT Entry :=
  match constantType.toNat with
  | 1 => readConstantUtf8T env
  | 3 => PT.once readConstantInteger
  | 4 => PT.once readConstantFloat
  | 5 => PT.once readConstantLong
  | 6 => PT.once readConstantDouble
  | 7 => PT.once readConstantClass
  | 8 => PT.once readConstantString
  | 9 => PT.once readConstantFieldref
  | 10 => PT.once readConstantMethodref
  | 11 => PT.once readConstantInterfacemethodref
  | 12 => PT.once readConstantNameandtype
  | 15 => if majorVersion ≥ 51 then PT.once readConstantMethodhandle else PT.plain <| unexpectedTag constantType majorVersion
  | 16 => if majorVersion ≥ 51 then PT.once readConstantMethodtype else PT.plain <| unexpectedTag constantType majorVersion
  | 17 => if majorVersion ≥ 55 then PT.once readConstantDynamic else PT.plain <| unexpectedTag constantType majorVersion
  | 18 => if majorVersion ≥ 51 then PT.once readConstantInvokedynamic else PT.plain <| unexpectedTag constantType majorVersion
  | 19 => if majorVersion ≥ 53 then PT.once readConstantModule else PT.plain <| unexpectedTag constantType majorVersion
  | 20 => if majorVersion ≥ 53 then PT.once readConstantPackage else PT.plain <| unexpectedTag constantType majorVersion
  | _ => PT.plain <| unexpectedTag constantType majorVersion

/-- The `while cp_ix < count` loop of `/repo/src/constant_pool.rs:662-696`; returns the pushed entries.
`fuel` bounds the iterations (each consumes input; shown sufficient). -/
def constantPoolLoopT (env : Env) (majorVersion count : UInt16) : Nat → UInt16 → PT (List Entry)
  | 0, _ => PT.diverge
  | fuel + 1, cpIx =>
    if cpIx < count then do
      let constantType ← PT.once readU1
      let e ← readConstantT env majorVersion constantType
      let cpIx ← PT.lift (free (incrU16 env.overflowChecks cpIx))
      if constantType == 5 || constantType == 6 then do
        let cpIx ← PT.lift (free (incrU16 env.overflowChecks cpIx))
        let rest ← constantPoolLoopT env majorVersion count fuel cpIx
        pure (e :: .unused :: rest)
      else do
        let rest ← constantPoolLoopT env majorVersion count fuel cpIx
        pure (e :: rest)
    else pure []

/-- `/repo/src/constant_pool.rs:634-639` `resolve_constant_pool`, from slot `i`. -/
def resolveFromT (pool : Pool) : Nat → List Entry → Timed Pool
  | _, [] => free (.ok [])
  | i, e :: es => do
    tick 1
    let e ← free (e.resolve i pool)
    let es ← resolveFromT pool (i + 1) es
    free (.ok (e :: es))

/-- `/repo/src/constant_pool.rs:634-639` `resolve_constant_pool`. -/
def resolveConstantPoolT (pool : Pool) : Timed Pool := resolveFromT pool 0 pool

/-- The reading part of `/repo/src/constant_pool.rs:653-696`: the raw pool, references unresolved. -/
def readRawPoolT (env : Env) (majorVersion : UInt16) : PT Pool := do
  let count ← PT.once readU2
  let entries ← fun bytes ix => constantPoolLoopT env majorVersion count (bytes.length + 1) 1 bytes ix
  pure (.zero :: entries)

/-- `/repo/src/constant_pool.rs:653-700` `read_constant_pool`. -/
def readConstantPoolT (env : Env) (majorVersion : UInt16) : PT Pool := do
  let raw ← readRawPoolT env majorVersion
  let pool ← PT.lift (resolveConstantPoolT raw)
  PT.lift (validateConstantPoolT env.depth pool majorVersion)
  pure pool

/-! ## Bytecode -/

/-- `/repo/src/bytecode.rs:494-520` the `0xaa` arm. -/
def readTableswitchT (checks : Bool) : PT Opcode := do
  let (default, low, high, jumpCount) ← PT.once (tableswitchHeader checks)
  let jumps ← forRangeT jumpCount fun _ => PT.once readI4
  pure (.tableswitch { default := default, low := low, high := high, jumps := jumps })

/-- `/repo/src/bytecode.rs:521-550` the `0xab` arm. -/
def readLookupswitchT : PT Opcode := do
  let (default, pairCount) ← PT.once lookupswitchHeader
  let matchOffsets ← forRangeT pairCount fun _ => do
    let matchPart ← PT.once readI4
    let offsetPart ← PT.once readI4
    pure (matchPart, offsetPart)
  pure (.lookupswitch { default := default, matchOffsets := matchOffsets })

/-- `/repo/src/bytecode.rs:598-610` the `0xb9` arm. -/
def readInvokeinterfaceT (pool : Pool) : PT Opcode := do
  let interfacemethod ← readCpMemberrefT pool EntryTypes.INTERFACE_METHOD_REF
  let count ← PT.once readU1
  let z ← PT.once readU1
  let ix ← PT.getIx
  if z != 0 then
    PT.fail s!"Nonzero byte found where zero byte expected in invokeinterface opcode at index {ix - 1}"
  else pure (.invokeinterface interfacemethod count)

/-- `/repo/src/bytecode.rs:611-617` the `0xba` arm. -/
def readInvokedynamicT (pool : Pool) : PT Opcode := do
  let d ← readCpInvokedynamicT pool
  let z ← PT.once readU2
  let ix ← PT.getIx
  if z != 0 then
    PT.fail s!"Nonzero bytes found where zero bytes expected in invokedynamic opcode at index {ix - 2}"
  else pure (.invokedynamic d)

/-- Read the operands of an instruction of the given form. -/
def readShapeT (checks : Bool) (pool : Pool) : Shape → PT Opcode
  | .simple op => pure op
  | .i8 f => do
    let v ← PT.once readU1
    pure (f v.toInt8)
  | .i16 f => do
    let v ← PT.once readU2
    pure (f v.toInt16)
  | .load8 f => do
    let i ← PT.once readU1
    let l ← PT.lift (getCpLoadableT i.toNat pool)
    pure (f l)
  | .load16 f => do
    let i ← PT.once readU2
    let l ← PT.lift (getCpLoadableT i.toNat pool)
    pure (f l)
  | .local8 f => do
    let n ← PT.once readU1
    pure (f n.toUInt16)
  | .branch16 f => do
    let j ← PT.once readU2
    pure (f j.toInt16.toInt32)
  | .branch32 f => do
    let j ← PT.once readI4
    pure (f j)
  | .member f allowed => do
    let m ← readCpMemberrefT pool allowed
    pure (f m)
  | .objArray f => do
    let t ← readCpObjectArrayTypeT pool
    pure (f t)
  | .iinc => do
    let n ← PT.once readU1
    let c ← PT.once readU1
    pure (.iinc n.toUInt16 c.toInt8.toInt16)
  | .tableswitch => readTableswitchT checks
  | .lookupswitch => readLookupswitchT
  | .invokeinterface => readInvokeinterfaceT pool
  | .invokedynamic => readInvokedynamicT pool
  | .new => do
    let s ← readCpClassinfoT pool
    pure (.new s)
  | .newarray => PT.once readNewarray
  | .wide => PT.once readWide
  | .multianewarray => do
    let t ← readCpObjectArrayTypeT pool
    let k ← PT.once readU1
    pure (.multianewarray t k)

/-- The body of the loop of `/repo/src/bytecode.rs:318-679`: one instruction. -/
def readOpcodeT (checks : Bool) (pool : Pool) : PT Opcode := do
  let v ← PT.once readU1
  match shapeOf v with
  | some shape => readShapeT checks pool shape
  | none => do
    let ix ← PT.getIx
    PT.fail s!"Unexpected opcode {v} at index {ix - 1}"

/-- The `while ix < code.len()` loop of `/repo/src/bytecode.rs:318-679` (`fuel` bounds the iterations; each consumes a byte). -/
def readOpcodesLoopT (checks : Bool) (pool : Pool) (code : Bytes) : Nat → Nat → Timed (List (Nat × Opcode))
  | 0, _ => free .diverge
  | fuel + 1, ix =>
    if ix < code.length then do
      tick 1
      let (opcode, ix') ← readOpcodeT checks pool code ix
      let rest ← readOpcodesLoopT checks pool code fuel ix'
      free (.ok ((ix, opcode) :: rest))
    else free (.ok [])

/-- `/repo/src/bytecode.rs:312-681` `read_opcodes`. -/
def readOpcodesT (checks : Bool) (code : Bytes) (pool : Pool) : Timed (List (Nat × Opcode)) :=
  readOpcodesLoopT checks pool code (code.length + 1) 0

/-- The `while min < max` loop of `/repo/src/bytecode.rs:234-248` (`fuel` bounds the iterations; shown sufficient). -/
def opcodeIndexLoopT (opcodes : List (Nat × Opcode)) (offset : Nat) : Nat → Nat → Nat → Timed (Option Nat)
  | 0, _, _ => free .diverge
  | fuel + 1, min, max =>
    if min < max then do
      tick 1
      let mid := (min + max) / 2
      match opcodes[mid]? with
      | none => free (.panic .bounds)
      | some (midOffset, _) =>
        if midOffset == offset then free (.ok (some mid))
        else if midOffset > offset then opcodeIndexLoopT opcodes offset fuel min mid
        else if min == mid then free (.ok none)
        else opcodeIndexLoopT opcodes offset fuel mid max
    else free (.ok none)

/-- `/repo/src/bytecode.rs:231-249` `ByteCode::get_opcode_index`. -/
def ByteCode.getOpcodeIndexT (self : ByteCode) (offset : Nat) : Timed (Option Nat) :=
  opcodeIndexLoopT self.opcodes offset (self.opcodes.length + 1) 0 self.opcodes.length

/-- `/repo/src/bytecode.rs:251-258` `validate_jump`. -/
def ByteCode.validateJumpT (checks : Bool) (self : ByteCode) (sourceOffset jump : Int32) : Timed Unit := do
  tick 1
  let sum ← free (addI32 checks sourceOffset jump)
  if sum.toInt < 0 then free (Res.fail "Invalid destination after applying jump")
  else do
    match ← self.getOpcodeIndexT sum.toInt.toNat with
    | none => free (Res.fail "Invalid opcode offset after applying jump")
    | some _ => free (.ok ())

/-- The loop over `table.match_offsets`, `/repo/src/bytecode.rs:286-289`. -/
def validateMatchOffsetsT (checks : Bool) (self : ByteCode) (sourceOffset : Int32) : List (Int32 × Int32) → Timed Unit
  | [] => free (.ok ())
  | (i, jump) :: rest => do
    tick 1
    (self.validateJumpT checks sourceOffset jump).mapErr s!"match offset {i}"
    validateMatchOffsetsT checks self sourceOffset rest

/-- The loop over `table.jumps.iter().enumerate()`, `/repo/src/bytecode.rs:294-297`. -/
def validateRangeOffsetsT (checks : Bool) (self : ByteCode) (sourceOffset : Int32) : Nat → List Int32 → Timed Unit
  | _, [] => free (.ok ())
  | i, jump :: rest => do
    tick 1
    (self.validateJumpT checks sourceOffset jump).mapErr s!"range offset {i}"
    validateRangeOffsetsT checks self sourceOffset (i + 1) rest

/-- `/repo/src/bytecode.rs:260-301` `validate_opcode_jumps`. -/
def ByteCode.validateOpcodeJumpsT (checks : Bool) (self : ByteCode) (offset : Nat) (opcode : Opcode) : Timed Unit :=
  if offset > 2147483647 then free (Res.fail "Unable to convert offset to i32")
  else
    let sourceOffset := Int32.ofNat offset
    match opcode with
    | .goto j | .ifAcmpeq j | .ifAcmpne j | .ifIcmpeq j | .ifIcmpge j | .ifIcmpgt j | .ifIcmple j | .ifIcmplt j
    | .ifIcmpne j | .ifeq j | .ifge j | .ifgt j | .ifle j | .iflt j | .ifne j | .ifnonnull j | .ifnull j
    | .jsr j => self.validateJumpT checks sourceOffset j
    | .lookupswitch table => do
      (self.validateJumpT checks sourceOffset table.default).mapErr "default jump offset"
      validateMatchOffsetsT checks self sourceOffset table.matchOffsets
    | .tableswitch table => do
      (self.validateJumpT checks sourceOffset table.default).mapErr "default jump offset"
      validateRangeOffsetsT checks self sourceOffset 0 table.jumps
    | _ => free (.ok ())

/-- The loop of `/repo/src/bytecode.rs:303-309` `validate_jumps` over the remaining opcodes. -/
def ByteCode.validateJumpsFromT (checks : Bool) (self : ByteCode) : List (Nat × Opcode) → Timed Unit
  | [] => free (.ok ())
  | (offset, opcode) :: rest => do
    tick 1
    (self.validateOpcodeJumpsT checks offset opcode).mapErr s!"opcode at offset {offset}"
    ByteCode.validateJumpsFromT checks self rest

/-- `/repo/src/bytecode.rs:303-309` `validate_jumps`. -/
def ByteCode.validateJumpsT (checks : Bool) (self : ByteCode) : Timed Unit := self.validateJumpsFromT checks self.opcodes

/-- `/repo/src/bytecode.rs:217-226` `ByteCode::from`. -/
def ByteCode.ofCodeT (checks : Bool) (code : Bytes) (pool : Pool) : Timed ByteCode := do
  let opcodes ← readOpcodesT checks code pool
  let bytecode : ByteCode := { opcodes := opcodes }
  bytecode.validateJumpsT checks
  free (.ok bytecode)

/-! ## Attributes -/

/-- `let count = read_u2(..)?; let mut v = Vec::with_capacity(count.into()); for i in 0..count { v.push(f(i)?) }`. -/
def readTable2T {α : Type} (f : Nat → PT α) : PT (List α) := do
  let count ← PT.once readU2
  forRangeT count.toNat f

/-- The same with a `read_u1` count. -/
def readTable1T {α : Type} (f : Nat → PT α) : PT (List α) := do
  let count ← PT.once readU1
  forRangeT count.toNat f

/-- `read_cp_utf8(..).and_then(|d| parse_field_descriptor(&d, 0))`. -/
def readFieldDescriptorT (pool : Pool) : PT FieldDescriptor := do
  let d ← readCpUtf8T pool
  PT.lift (parseFieldDescriptorT d 0)

/-- One row of the exception table, `/repo/src/attributes.rs:386-398`. -/
def readExceptionTableEntryT (pool : Pool) (i : Nat) : PT ExceptionTableEntry := do
  let startPc ← PT.once readU2
  let endPc ← PT.once readU2
  let handlerPc ← PT.once readU2
  let catchType ← (readCpClassinfoOptT pool).mapErr s!"catch type of exception table entry {i}"
  pure { startPc := startPc, endPc := endPc, handlerPc := handlerPc, catchType := catchType }

/-- The `if opts.parse_bytecode` of `/repo/src/attributes.rs:367-414` `fn read_code_data`. -/
def bytecodeT (env : Env) (code : Bytes) (pool : Pool) : PT (Option ByteCode) :=
  if env.parseBytecode then do
    let b ← PT.lift ((ByteCode.ofCodeT env.overflowChecks code pool).mapErr "bytecode")
    pure (some b)
  else pure none

/-- `/repo/src/attributes.rs:367-414` `fn read_code_data`; `rec` is the call to `read_attributes`. -/
def readCodeDataWithT (env : Env) (rec : PT (List AttributeInfo)) (pool : Pool) : PT CodeData := do
  let maxStack ← PT.once readU2
  let maxLocals ← PT.once readU2
  let codeLength ← PT.once readU4
  let ix ← PT.getIx
  let code ← PT.once (takeBytes codeLength.toNat s!"Unexpected end of stream reading code attribute at index {ix}")
  let exceptionTable ← readTable2T (readExceptionTableEntryT pool)
  let codeAttributes ← rec.mapErr "code attribute"
  let bytecode ← bytecodeT env code pool
  pure { maxStack := maxStack, maxLocals := maxLocals, code := code, bytecode := bytecode,
         exceptionTable := exceptionTable, attributes := codeAttributes }

/-- `/repo/src/attributes.rs:416-441` `fn read_stackmaptable_verification`. -/
def readStackmaptableVerificationT (pool : Pool) : PT VerificationType := do
  let v ← PT.once readU1
  match v.toNat with
  | 0 => pure .top
  | 1 => pure .integer
  | 2 => pure .float
  | 3 => pure .double
  | 4 => pure .long
  | 5 => pure .null
  | 6 => pure .uninitializedThis
  | 7 => do
    let className ← (readCpClassinfoT pool).mapErr "object verification type"
    pure (.object className)
  | 8 => do
    let codeOffset ← PT.once readU2
    pure (.uninitialized codeOffset)
  | _ => PT.fail s!"Unrecognized verification type {v}"

/-- The `match` of `/repo/src/attributes.rs:443-534` `fn read_stackmaptable_data`: frame `i` after its `frame_type` byte `v`. -/
def readStackMapEntryBodyT (pool : Pool) (i : Nat) (v : UInt8) : PT StackMapEntry :=
  if v.toNat ≤ 63 then pure (.same v.toUInt16)
  else if v.toNat ≤ 127 then do
    let stack ← (readStackmaptableVerificationT pool).mapErr s!"same_locals_1_stack_item_frame stack map entry {i}"
    pure (.sameLocals1StackItem (v - 64).toUInt16 stack)
  else if v.toNat ≤ 246 then PT.plain <| P.failCtx s!"Unrecognized discriminant {v}" s!"stack map entry {i}"
  else if v.toNat = 247 then do
    let offsetDelta ← PT.once readU2
    let stack ← (readStackmaptableVerificationT pool).mapErr
      s!"same_locals_1_stack_item_frame_extended stack map entry {i}"
    pure (.sameLocals1StackItem offsetDelta stack)
  else if v.toNat ≤ 250 then do
    let offsetDelta ← PT.once readU2
    pure (.chop offsetDelta (251 - v).toUInt16)
  else if v.toNat = 251 then do
    let offsetDelta ← PT.once readU2
    pure (.same offsetDelta)
  else if v.toNat ≤ 254 then do
    let offsetDelta ← PT.once readU2
    let locals ← forRangeT (v - 251).toNat fun j =>
      (readStackmaptableVerificationT pool).mapErr s!"local entry {j} of append stack map entry {i}"
    pure (.append offsetDelta locals)
  else do
    let offsetDelta ← PT.once readU2
    let locals ← readTable2T fun j =>
      (readStackmaptableVerificationT pool).mapErr s!"local entry {j} of full-frame stack map entry {i}"
    let stack ← readTable2T fun j =>
      (readStackmaptableVerificationT pool).mapErr s!"stack entry {j} of full-frame stack map entry {i}"
    pure (.fullFrame offsetDelta locals stack)

/-- One iteration of `/repo/src/attributes.rs:443-534` `fn read_stackmaptable_data`. -/
def readStackMapEntryT (pool : Pool) (i : Nat) : PT StackMapEntry := do
  let v ← PT.once readU1
  readStackMapEntryBodyT pool i v

/-- `/repo/src/attributes.rs:443-534` `fn read_stackmaptable_data`. -/
def readStackmaptableDataT (pool : Pool) : PT (List StackMapEntry) := readTable2T (readStackMapEntryT pool)

/-- `/repo/src/attributes.rs:536-549` `fn read_exceptions_data`. -/
def readExceptionsDataT (pool : Pool) : PT (List Str) :=
  readTable2T fun i => (readCpClassinfoT pool).mapErr s!"exception {i}"

/-- One row of `/repo/src/attributes.rs:551-574` `fn read_innerclasses_data`. -/
def readInnerClassEntryT (pool : Pool) (i : Nat) : PT InnerClassEntry := do
  let innerClassInfo ← (readCpClassinfoT pool).mapErr s!"inner class info for inner class {i}"
  let outerClassInfo ← (readCpClassinfoOptT pool).mapErr s!"outer class info for inner class {i}"
  let innerName ← (readCpUtf8OptT pool).mapErr s!"inner name for inner class {i}"
  let bits ← PT.once readU2
  pure { innerClassInfo := innerClassInfo, outerClassInfo := outerClassInfo, innerName := innerName,
         accessFlags := fromBitsTruncate innerClassMask bits }

/-- `/repo/src/attributes.rs:551-574` `fn read_innerclasses_data`. -/
def readInnerclassesDataT (pool : Pool) : PT (List InnerClassEntry) := readTable2T (readInnerClassEntryT pool)

/-- `/repo/src/attributes.rs:576-588` `fn read_linenumber_data`. -/
def readLinenumberDataT : PT (List LineNumberEntry) := readTable2T fun _ => PT.once readLineNumberEntry

/-- One row of `/repo/src/attributes.rs:590-617` `fn read_localvariable_data`. -/
def readLocalVariableEntryT (pool : Pool) (i : Nat) : PT LocalVariableEntry := do
  let startPc ← PT.once readU2
  let length ← PT.once readU2
  let name ← (readCpUtf8T pool).mapErr s!"name for variable {i}"
  let good ← PT.lift (isUnqualifiedNameT name)
  PT.failIf (!good) s!"Invalid unqualified name for variable {i}"
  let descriptor ← (readFieldDescriptorT pool).mapErr s!"descriptor for variable {i}"
  let index ← PT.once readU2
  pure { startPc := startPc, length := length, name := name, descriptor := descriptor, index := index }

/-- `/repo/src/attributes.rs:590-617` `fn read_localvariable_data`. -/
def readLocalvariableDataT (pool : Pool) : PT (List LocalVariableEntry) := readTable2T (readLocalVariableEntryT pool)

/-- One row of `/repo/src/attributes.rs:619-645` `fn read_localvariabletype_data`. -/
def readLocalVariableTypeEntryT (pool : Pool) (i : Nat) : PT LocalVariableTypeEntry := do
  let startPc ← PT.once readU2
  let length ← PT.once readU2
  let name ← (readCpUtf8T pool).mapErr s!"name for variable {i}"
  let good ← PT.lift (isUnqualifiedNameT name)
  PT.failIf (!good) s!"Invalid unqualified name for variable {i}"
  let signature ← (readCpUtf8T pool).mapErr s!"signature for variable {i}"
  let index ← PT.once readU2
  pure { startPc := startPc, length := length, name := name, signature := signature, index := index }

/-- `/repo/src/attributes.rs:619-645` `fn read_localvariabletype_data`. -/
def readLocalvariabletypeDataT (pool : Pool) : PT (List LocalVariableTypeEntry) :=
  readTable2T (readLocalVariableTypeEntryT pool)

/-- One element of `/repo/src/attributes.rs:696-716` `fn read_annotation`; `rec` is the call to `read_annotation_element_value`. -/
def readAnnotationElementWithT (rec : PT AnnotationElementValue) (pool : Pool) (i : Nat) : PT AnnotationElement := do
  let name ← (readCpUtf8T pool).mapErr s!"name of element {i}"
  let value ← rec.mapErr s!"value of element {i}"
  pure { name := name, value := value }

/-- `/repo/src/attributes.rs:696-716` `fn read_annotation`; `rec` is the call to `read_annotation_element_value`. -/
def readAnnotationWithT (rec : PT AnnotationElementValue) (pool : Pool) : PT Annotation := do
  let typeDescriptor ← (readFieldDescriptorT pool).mapErr "type descriptor field"
  let elements ← readTable2T (readAnnotationElementWithT rec pool)
  pure { typeDescriptor := typeDescriptor, elements := elements }

/-- The `match` of `/repo/src/attributes.rs:647-694` `fn read_annotation_element_value` on the tag byte `v`; `rec` is the recursive call. -/
def readElementValueBodyT (rec : PT AnnotationElementValue) (pool : Pool) (v : UInt8) : PT AnnotationElementValue :=
  if v == 66 /- 'B' -/ then do
    let x ← PT.once (readCpInteger pool)
    pure (.byteConstant x)
  else if v == 67 /- 'C' -/ then do
    let x ← PT.once (readCpInteger pool)
    pure (.charConstant x)
  else if v == 68 /- 'D' -/ then do
    let x ← PT.once (readCpDouble pool)
    pure (.doubleConstant x)
  else if v == 70 /- 'F' -/ then do
    let x ← PT.once (readCpFloat pool)
    pure (.floatConstant x)
  else if v == 73 /- 'I' -/ then do
    let x ← PT.once (readCpInteger pool)
    pure (.intConstant x)
  else if v == 74 /- 'J' -/ then do
    let x ← PT.once (readCpLong pool)
    pure (.longConstant x)
  else if v == 83 /- 'S' -/ then do
    let x ← PT.once (readCpInteger pool)
    pure (.shortConstant x)
  else if v == 90 /- 'Z' -/ then do
    let x ← PT.once (readCpInteger pool)
    pure (.booleanConstant x)
  else if v == 115 /- 's' -/ then do
    let x ← readCpUtf8T pool
    pure (.stringConstant x)
  else if v == 101 /- 'e' -/ then do
    let typeName ← (readFieldDescriptorT pool).mapErr "annotation element value enum descriptor"
    let constName ← readCpUtf8T pool
    pure (.enumConstant typeName constName)
  else if v == 99 /- 'c' -/ then do
    let className ← readCpUtf8T pool
    let b ← PT.lift (isReturnDescriptorT className)
    PT.failIf (!b) "Invalid classinfo descriptor"
    pure (.classLiteral className)
  else if v == 64 /- '@' -/ then do
    let a ← readAnnotationWithT rec pool
    pure (.annotationValue a)
  else if v == 91 /- '[' -/ then do
    let vs ← readTable2T fun i => rec.mapErr s!"array index {i}"
    pure (.arrayValue vs)
  else PT.fail s!"Unrecognized discriminant {Char.ofNat v.toNat}"

/-- `/repo/src/attributes.rs:647-694` `fn read_annotation_element_value`; `rec` is the recursive call. -/
def readElementValueWithT (rec : PT AnnotationElementValue) (pool : Pool) : PT AnnotationElementValue := do
  let v ← PT.once readU1
  readElementValueBodyT rec pool v

/-- `/repo/src/attributes.rs:647-694` `fn read_annotation_element_value`. -/
def readAnnotationElementValueT (pool : Pool) : Nat → PT AnnotationElementValue
  | 0 => PT.diverge
  | depth + 1 => readElementValueWithT (readAnnotationElementValueT pool depth) pool

/-- `/repo/src/attributes.rs:696-716` `fn read_annotation`. -/
def readAnnotationT (pool : Pool) (depth : Nat) : PT Annotation :=
  readAnnotationWithT (readAnnotationElementValueT pool depth) pool

/-- `/repo/src/attributes.rs:718-730` `fn read_annotation_data`. -/
def readAnnotationDataT (pool : Pool) (depth : Nat) : PT (List Annotation) :=
  readTable2T fun i => (readAnnotationT pool depth).mapErr s!"annotation {i}"

/-- One parameter of `/repo/src/attributes.rs:732-751` `fn read_parameter_annotation_data`. -/
def readParameterAnnotationT (pool : Pool) (depth : Nat) (i : Nat) : PT ParameterAnnotation := do
  let annotations ← readTable2T fun j => (readAnnotationT pool depth).mapErr s!"annotation {j} of parameter {i}"
  pure { annotations := annotations }

/-- `/repo/src/attributes.rs:732-751` `fn read_parameter_annotation_data`. -/
def readParameterAnnotationDataT (pool : Pool) (depth : Nat) : PT (List ParameterAnnotation) :=
  readTable1T (readParameterAnnotationT pool depth)

/-- The first `match` of `/repo/src/attributes.rs:753-837` `fn read_type_annotation_data` on the target type byte `v` of annotation `i`. -/
def readTypeAnnotationTargetT (i : Nat) (v : UInt8) : PT TypeAnnotationTarget :=
  if v == 0x00 || v == 0x01 then do
    let index ← PT.once readU1
    pure (.typeParameter index)
  else if v == 0x10 then do
    let index ← PT.once readU2
    pure (.supertype index)
  else if v == 0x11 || v == 0x12 then do
    let typeParameterIndex ← PT.once readU1
    let boundIndex ← PT.once readU1
    pure (.typeParameterBound typeParameterIndex boundIndex)
  else if 0x13 ≤ v.toNat && v.toNat ≤ 0x15 then pure .empty
  else if v == 0x16 then do
    let index ← PT.once readU1
    pure (.formalParameter index)
  else if v == 0x17 then do
    let index ← PT.once readU2
    pure (.throws index)
  else if v == 0x40 || v == 0x41 then do
    let localvars ← readTable2T fun _ => PT.once readLocalVarTarget
    pure (.localVar localvars)
  else if v == 0x42 then do
    let exceptionTableIndex ← PT.once readU2
    pure (.catch_ exceptionTableIndex)
  else if 0x43 ≤ v.toNat && v.toNat ≤ 0x46 then do
    let offset ← PT.once readU2
    pure (.offset offset)
  else if 0x47 ≤ v.toNat && v.toNat ≤ 0x4B then do
    let offset ← PT.once readU2
    let typeArgumentIndex ← PT.once readU1
    pure (.typeArgument offset typeArgumentIndex)
  else PT.plain <| P.failCtx s!"Unrecognized target type {v}" s!"type annotation {i}"

/-- One annotation of `/repo/src/attributes.rs:753-837` `fn read_type_annotation_data`. -/
def readTypeAnnotationT (pool : Pool) (depth : Nat) (i : Nat) : PT TypeAnnotation := do
  let v ← PT.once readU1
  let targetType ← readTypeAnnotationTargetT i v
  let targetPath ← readTable1T fun j => PT.once (readTargetPathEntry i j)
  let annotation ← (readAnnotationT pool depth).mapErr s!"type annotation {i}"
  pure { targetType := targetType, targetPath := targetPath, annotation := annotation }

/-- `/repo/src/attributes.rs:753-837` `fn read_type_annotation_data`. -/
def readTypeAnnotationDataT (pool : Pool) (depth : Nat) : PT (List TypeAnnotation) :=
  readTable2T (readTypeAnnotationT pool depth)

/-- One entry of `/repo/src/attributes.rs:839-859` `fn read_bootstrapmethods_data`. -/
def readBootstrapMethodEntryT (pool : Pool) (i : Nat) : PT BootstrapMethodEntry := do
  let method ← (readCpMethodhandleT pool).mapErr s!"method ref of bootstrap method {i}"
  let arguments ← readTable2T fun j => (readCpBootstrapArgumentT pool).mapErr s!"argument {j} of bootstrap method {i}"
  pure { method := method, arguments := arguments }

/-- `/repo/src/attributes.rs:839-859` `fn read_bootstrapmethods_data`. -/
def readBootstrapmethodsDataT (pool : Pool) : PT (List BootstrapMethodEntry) := readTable2T (readBootstrapMethodEntryT pool)

/-- One entry of `/repo/src/attributes.rs:861-879` `fn read_methodparameters_data`. -/
def readMethodParameterEntryT (pool : Pool) (i : Nat) : PT MethodParameterEntry := do
  let name ← (readCpUtf8OptT pool).mapErr s!"name of method parameter {i}"
  let good ← PT.lift (optNameT name)
  PT.failIf (!good) s!"Invalid unqualified name for variable {i}"
  let bits ← PT.once readU2
  let accessFlags ← (PT.okOr (fromBits methodParameterMask bits) "Invalid access flags found").mapErr s!"method parameter {i}"
  pure { name := name, accessFlags := accessFlags }

/-- `/repo/src/attributes.rs:861-879` `fn read_methodparameters_data`. -/
def readMethodparametersDataT (pool : Pool) : PT (List MethodParameterEntry) := readTable1T (readMethodParameterEntryT pool)

/-- One `requires` entry of `/repo/src/attributes.rs:881-980` `fn read_module_data`. -/
def readModuleRequireT (pool : Pool) (i : Nat) : PT ModuleRequireEntry := do
  let name ← (readCpModuleinfoT pool).mapErr s!"name of requires entry {i}"
  let bits ← PT.once readU2
  let flags ← (PT.okOr (fromBits moduleRequiresMask bits) "Invalid module requires flags").mapErr s!"entry {i}"
  let version ← (readCpUtf8OptT pool).mapErr s!"version of requires entry {i}"
  pure { name := name, flags := flags, version := version }

/-- One `exports` entry of `/repo/src/attributes.rs:881-980` `fn read_module_data`. -/
def readModuleExportsT (pool : Pool) (i : Nat) : PT ModuleExportsEntry := do
  let packageName ← (readCpPackageinfoT pool).mapErr s!"package name of exports entry {i}"
  let bits ← PT.once readU2
  let flags ← (PT.okOr (fromBits moduleExportsMask bits) "Invalid module exports flags").mapErr s!"entry {i}"
  let exportsTo ← readTable2T fun j =>
    (readCpModuleinfoT pool).mapErr s!"name of exports_to entry {j} of exports entry {i}"
  pure { packageName := packageName, flags := flags, exportsTo := exportsTo }

/-- One `opens` entry of `/repo/src/attributes.rs:881-980` `fn read_module_data`. -/
def readModuleOpensT (pool : Pool) (i : Nat) : PT ModuleOpensEntry := do
  let packageName ← (readCpPackageinfoT pool).mapErr s!"package name of opens entry {i}"
  let bits ← PT.once readU2
  let flags ← (PT.okOr (fromBits moduleOpensMask bits) "Invalid module opens flags").mapErr s!"entry {i}"
  let opensTo ← readTable2T fun j => (readCpModuleinfoT pool).mapErr s!"name of opens_to entry {j} of opens entry {i}"
  pure { packageName := packageName, flags := flags, opensTo := opensTo }

/-- One `provides` entry of `/repo/src/attributes.rs:881-980` `fn read_module_data`. -/
def readModuleProvidesT (pool : Pool) (i : Nat) : PT ModuleProvidesEntry := do
  let serviceInterfaceName ← (readCpClassinfoT pool).mapErr s!"service interface name of provides entry {i}"
  let providesWith ← readTable2T fun j =>
    (readCpClassinfoT pool).mapErr s!"provides_with entry {j} of provides entry {i}"
  pure { serviceInterfaceName := serviceInterfaceName, providesWith := providesWith }

/-- `/repo/src/attributes.rs:881-980` `fn read_module_data`. -/
def readModuleDataT (pool : Pool) : PT ModuleData := do
  let name ← (readCpModuleinfoT pool).mapErr "name"
  let bits ← PT.once readU2
  let accessFlags ← PT.okOr (fromBits moduleMask bits) "Invalid access flags found"
  let version ← (readCpUtf8OptT pool).mapErr "version"
  let requires ← readTable2T (readModuleRequireT pool)
  let exports ← readTable2T (readModuleExportsT pool)
  let opens ← readTable2T (readModuleOpensT pool)
  let uses ← readTable2T fun i => (readCpClassinfoT pool).mapErr s!"name of uses entry {i}"
  let provides ← readTable2T (readModuleProvidesT pool)
  pure { name := name, accessFlags := accessFlags, version := version, requires := requires, exports := exports,
         opens := opens, uses := uses, provides := provides }

/-- `/repo/src/attributes.rs:982-994` `fn read_modulepackages_data`. -/
def readModulepackagesDataT (pool : Pool) : PT (List Str) :=
  readTable2T fun i => (readCpPackageinfoT pool).mapErr s!"package name {i}"

/-- `/repo/src/attributes.rs:996-1007` `fn read_nestmembers_data`. -/
def readNestmembersDataT (pool : Pool) : PT (List Str) :=
  readTable2T fun i => (readCpClassinfoT pool).mapErr s!"class name {i}"

/-- `/repo/src/attributes.rs:1009-1022` `fn read_permitted_subclasses_data`. -/
def readPermittedSubclassesDataT (pool : Pool) : PT (List Str) :=
  readTable2T fun i => (readCpClassinfoT pool).mapErr s!"permitted subclass {i}"

/-- One component of `/repo/src/attributes.rs:1024-1049` `fn read_record_data`; `rec` is the call to `read_attributes`. -/
def readRecordComponentWithT (rec : PT (List AttributeInfo)) (pool : Pool) (i : Nat) : PT RecordComponentEntry := do
  let name ← (readCpUtf8T pool).mapErr s!"name of entry {i}"
  let good ← PT.lift (isUnqualifiedNameT name)
  PT.failIf (!good) s!"Invalid unqualified name for entry {i}"
  let descriptor ← (readFieldDescriptorT pool).mapErr s!"descriptor of entry {i}"
  let attributes ← rec.mapErr s!"entry {i}"
  pure { name := name, descriptor := descriptor, attributes := attributes }

/-- `/repo/src/attributes.rs:1024-1049` `fn read_record_data`; `rec` is the call to `read_attributes`. -/
def readRecordDataWithT (rec : PT (List AttributeInfo)) (pool : Pool) : PT (List RecordComponentEntry) :=
  readTable2T (readRecordComponentWithT rec pool)

/-- The right-hand side of each arm of the `match name.deref()` of `/repo/src/attributes.rs:1051-1248` `fn read_attributes`, for attribute `i` of declared length
`length`; `rec` is the recursive call to `read_attributes` and `depth` the budget for annotations. The error text of a cesu8 failure is simplified. -/
def readAttributeDataT (env : Env) (depth : Nat) (rec : PT (List AttributeInfo)) (pool : Pool) (i length : Nat) :
    AttrKind → PT AttributeData
  | .constantValue => do
    (PT.plain (ensureLength length 2)).mapErr s!"ConstantValue attribute {i}"
    let c ← (readCpLiteralconstantT pool).mapErr s!"value field of ConstantValue attribute {i}"
    pure (.constantValue c)
  | .code => do
    let d ← (readCodeDataWithT env rec pool).mapErr s!"Code attribute {i}"
    pure (.code d)
  | .stackMapTable => do
    let d ← (readStackmaptableDataT pool).mapErr s!"StackMapTable attribute {i}"
    pure (.stackMapTable d)
  | .exceptions => do
    let d ← (readExceptionsDataT pool).mapErr s!"Exceptions attribute {i}"
    pure (.exceptions d)
  | .innerClasses => do
    let d ← (readInnerclassesDataT pool).mapErr s!"InnerClasses attribute {i}"
    pure (.innerClasses d)
  | .enclosingMethod => do
    (PT.plain (ensureLength length 4)).mapErr s!"EnclosingMethod attribute {i}"
    let className ← (readCpClassinfoT pool).mapErr s!"class info of EnclosingMethod attribute {i}"
    let method ← (readCpNameandtypeOptT pool).mapErr s!"method info of EnclosingMethod attribute {i}"
    pure (.enclosingMethod className method)
  | .synthetic => do
    (PT.plain (ensureLength length 0)).mapErr s!"Synthetic attribute {i}"
    pure .synthetic
  | .signature => do
    (PT.plain (ensureLength length 2)).mapErr s!"Signature attribute {i}"
    let s ← (readCpUtf8T pool).mapErr s!"signature field of Signature attribute {i}"
    pure (.signature s)
  | .sourceFile => do
    (PT.plain (ensureLength length 2)).mapErr s!"SourceFile attribute {i}"
    let s ← (readCpUtf8T pool).mapErr s!"signature field of SourceFile attribute {i}"
    pure (.sourceFile s)
  | .sourceDebugExtension => do
    let data ← PT.once (takeSlice length)
    PT.tick data.length
    match env.decode data with
    | some s => pure (.sourceDebugExtension s)
    | none => PT.plain <| P.failCtx "invalid modified utf8" s!"modified utf8 data of SourceDebugExtension attribute {i}"
  | .lineNumberTable => do
    let d ← readLinenumberDataT.mapErr s!"LineNumberTable attribute {i}"
    pure (.lineNumberTable d)
  | .localVariableTable => do
    let d ← (readLocalvariableDataT pool).mapErr s!"LocalVariableTable attribute {i}"
    pure (.localVariableTable d)
  | .localVariableTypeTable => do
    let d ← (readLocalvariabletypeDataT pool).mapErr s!"LocalVariableTypeTable attribute {i}"
    pure (.localVariableTypeTable d)
  | .deprecated => do
    (PT.plain (ensureLength length 0)).mapErr s!"Deprecated attribute {i}"
    pure .deprecated
  | .runtimeVisibleAnnotations => do
    let d ← (readAnnotationDataT pool depth).mapErr s!"RuntimeVisibleAnnotations attribute {i}"
    pure (.runtimeVisibleAnnotations d)
  | .runtimeInvisibleAnnotations => do
    let d ← (readAnnotationDataT pool depth).mapErr s!"RuntimeInvisibleAnnotations attribute {i}"
    pure (.runtimeInvisibleAnnotations d)
  | .runtimeVisibleParameterAnnotations => do
    let d ← (readParameterAnnotationDataT pool depth).mapErr s!"RuntimeVisibleParameterAnnotations attribute {i}"
    pure (.runtimeVisibleParameterAnnotations d)
  | .runtimeInvisibleParameterAnnotations => do
    let d ← (readParameterAnnotationDataT pool depth).mapErr s!"RuntimeInvisibleParameterAnnotations attribute {i}"
    pure (.runtimeInvisibleParameterAnnotations d)
  | .runtimeVisibleTypeAnnotations => do
    let d ← (readTypeAnnotationDataT pool depth).mapErr s!"RuntimeVisibleTypeAnnotations attribute {i}"
    pure (.runtimeVisibleTypeAnnotations d)
  | .runtimeInvisibleTypeAnnotations => do
    let d ← (readTypeAnnotationDataT pool depth).mapErr s!"RuntimeInvisibleTypeAnnotations attribute {i}"
    pure (.runtimeInvisibleTypeAnnotations d)
  | .annotationDefault => do
    let v ← (readAnnotationElementValueT pool depth).mapErr s!"AnnotationDefault attribute {i}"
    pure (.annotationDefault v)
  | .bootstrapMethods => do
    let d ← (readBootstrapmethodsDataT pool).mapErr s!"BootstrapMethods attribute {i}"
    pure (.bootstrapMethods d)
  | .methodParameters => do
    let d ← (readMethodparametersDataT pool).mapErr s!"MethodParameters attribute {i}"
    pure (.methodParameters d)
  | .moduleAttr => do
    let d ← (readModuleDataT pool).mapErr s!"Module attribute {i}"
    pure (.moduleAttr d)
  | .modulePackages => do
    let d ← (readModulepackagesDataT pool).mapErr s!"ModulePackages attribute {i}"
    pure (.modulePackages d)
  | .moduleMainClass => do
    (PT.plain (ensureLength length 2)).mapErr s!"ModuleMainClass attribute {i}"
    let s ← (readCpClassinfoT pool).mapErr s!"ModuleMainClass attribute {i}"
    pure (.moduleMainClass s)
  | .nestHost => do
    (PT.plain (ensureLength length 2)).mapErr s!"NestHost attribute {i}"
    let s ← (readCpClassinfoT pool).mapErr s!"NestHost attribute {i}"
    pure (.nestHost s)
  | .nestMembers => do
    let d ← (readNestmembersDataT pool).mapErr s!"NestMembers attribute {i}"
    pure (.nestMembers d)
  | .permittedSubclasses => do
    let d ← (readPermittedSubclassesDataT pool).mapErr s!"PermittedSubclasses attribute {i}"
    pure (.permittedSubclasses d)
  | .record => do
    let d ← (readRecordDataWithT rec pool).mapErr s!"Record attribute {i}"
    pure (.record d)
  | .other => do
    let b ← PT.once (takeSlice length)
    pure (.other b)

/-- One iteration of the loop of `/repo/src/attributes.rs:1051-1248` `fn read_attributes`. -/
def readAttributeWithT (env : Env) (depth : Nat) (rec : PT (List AttributeInfo)) (pool : Pool) (i : Nat) :
    PT AttributeInfo := do
  let name ← (readCpUtf8T pool).mapErr s!"name field of attribute {i}"
  let length ← PT.once readU4
  let expectedEndIx ← PT.once (checkEnd length.toNat)
  PT.tick attrTable.length
  let data ← readAttributeDataT env depth rec pool i length.toNat (attrKindOf name)
  let ix ← PT.getIx
  if expectedEndIx ≠ ix then PT.fail s!"Length mismatch when reading attribute {i}"
  else pure { name := name, data := data }

/-- `/repo/src/attributes.rs:1051-1248` `fn read_attributes`. -/
def readAttributesT (env : Env) (pool : Pool) : Nat → PT (List AttributeInfo)
  | 0 => PT.diverge
  | depth + 1 => readTable2T (readAttributeWithT env depth (readAttributesT env pool depth) pool)

/-! ## Class files -/

/-- `read_cp_classinfo(..).and_then(ClassName::try_from)`. -/
def readClassNameT (pool : Pool) : PT ClassName := do
  let s ← readCpClassinfoT pool
  PT.lift (ClassName.tryFromT s)

/-- `read_cp_classinfo_opt(..).and_then(|name| name.map(ClassName::try_from).transpose())`. -/
def readClassNameOptT (pool : Pool) : PT (Option ClassName) := do
  match ← readCpClassinfoOptT pool with
  | none => pure none
  | some s => do
    let c ← PT.lift (ClassName.tryFromT s)
    pure (some c)

/-- `/repo/src/lib.rs:94-109` `read_interfaces`. -/
def readInterfacesT (pool : Pool) : PT (List ClassName) :=
  readTable2T fun i => (readClassNameT pool).mapErr s!"interface {i}"

/-- One iteration of `/repo/src/lib.rs:161-198` `read_fields`; `seen` is the `HashSet` `unique_ids`. -/
def readFieldT (env : Env) (pool : Pool) (seen : List (Str × FieldDescriptor)) (i : Nat) : PT FieldInfo := do
  let bits ← PT.once readU2
  let name ← (readCpUtf8T pool).mapErr s!"name of class field {i}"
  let good ← PT.lift (isUnqualifiedNameT name)
  PT.failIf (!good) s!"Invalid unqualified name for class field {i}"
  let d ← (readCpUtf8T pool).mapErr s!"descriptor of class field {i}"
  let descriptor ← PT.lift (parseFieldDescriptorT d 0)
  PT.lift (uniqueT name.length descriptor.byteLen)
  PT.failIf (seen.contains (name, descriptor)) s!"Class field {i} is duplicate of previously-encountered field"
  let attributes ← (readAttributesT env pool env.depth).mapErr s!"class field {i}"
  pure { accessFlags := fromBitsTruncate fieldMask bits, name := name, descriptor := descriptor, attributes := attributes }

/-- The loop of `/repo/src/lib.rs:161-198` `read_fields` from field `i`, `n` to go. -/
def readFieldsFromT (env : Env) (pool : Pool) : List (Str × FieldDescriptor) → Nat → Nat → PT (List FieldInfo)
  | _, _, 0 => pure []
  | seen, i, n + 1 => do
    PT.tick 1
    let f ← readFieldT env pool seen i
    let fs ← readFieldsFromT env pool ((f.name, f.descriptor) :: seen) (i + 1) n
    pure (f :: fs)

/-- `/repo/src/lib.rs:161-198` `read_fields`. -/
def readFieldsT (env : Env) (pool : Pool) : PT (List FieldInfo) := do
  let count ← PT.once readU2
  readFieldsFromT env pool [] 0 count.toNat

/-- `read_cp_utf8(..).and_then(|d| parse_method_descriptor(&d, 0))`. -/
def readMethodDescriptorT (pool : Pool) : PT MethodDescriptor := do
  let d ← readCpUtf8T pool
  PT.lift (parseMethodDescriptorT d 0)

/-- One iteration of `/repo/src/lib.rs:225-276` `read_methods`; `seen` is the `HashSet` `unique_ids`. -/
def readMethodT (env : Env) (pool : Pool) (inInterface : Bool) (majorVersion : UInt16)
    (seen : List (Str × MethodDescriptor)) (i : Nat) : PT MethodInfo := do
  let bits ← PT.once readU2
  let name ← (readCpUtf8T pool).mapErr s!"name of class method {i}"
  let allowInit := !inInterface
  let good ← PT.lift (isUnqualifiedMethodNameT name allowInit true)
  PT.failIf (!good) s!"Invalid unqualified name for class method {i}"
  let descriptor ← (readMethodDescriptorT pool).mapErr s!"descriptor of class method {i}"
  PT.tick 3
  PT.failIf (allowInit && name == "<init>".toList && descriptor.returnType != .void)
    s!"Non-void method descriptor for init method {i}"
  PT.failIf (name == "<clinit>".toList && descriptor.returnType != .void)
    s!"Non-void method descriptor for clinit method {i}"
  PT.failIf (name == "<clinit>".toList && (majorVersion ≥ 51 && !descriptor.parameters.isEmpty))
    s!"Arguments found in descriptor for clinit method {i}"
  PT.lift (uniqueT name.length descriptor.byteLen)
  PT.failIf (seen.contains (name, descriptor)) s!"Class method {i} is duplicate of previously-encountered method"
  let attributes ← (readAttributesT env pool env.depth).mapErr s!"class method {i}"
  pure { accessFlags := fromBitsTruncate methodMask bits, name := name, descriptor := descriptor, attributes := attributes }

/-- The loop of `/repo/src/lib.rs:225-276` `read_methods` from method `i`, `n` to go. -/
def readMethodsFromT (env : Env) (pool : Pool) (inInterface : Bool) (majorVersion : UInt16) :
    List (Str × MethodDescriptor) → Nat → Nat → PT (List MethodInfo)
  | _, _, 0 => pure []
  | seen, i, n + 1 => do
    PT.tick 1
    let m ← readMethodT env pool inInterface majorVersion seen i
    let ms ← readMethodsFromT env pool inInterface majorVersion ((m.name, m.descriptor) :: seen) (i + 1) n
    pure (m :: ms)

/-- `/repo/src/lib.rs:225-276` `read_methods`. -/
def readMethodsT (env : Env) (pool : Pool) (inInterface : Bool) (majorVersion : UInt16) : PT (List MethodInfo) := do
  let count ← PT.once readU2
  readMethodsFromT env pool inInterface majorVersion [] 0 count.toNat

/-- The inner loop of `/repo/src/lib.rs:299-310` over the class attributes: index check, then the number found. -/
def countBootstrapMethodsT (x : UInt16) : Nat → List AttributeInfo → Timed Nat
  | found, [] => free (.ok found)
  | found, attr :: rest => do
    tick 1
    match attr.data with
    | .bootstrapMethods methods =>
      if x.toNat ≥ methods.length then
        free (Res.fail "Constant pool item contained invalid index into BootstrapMethods class attribute")
      else countBootstrapMethodsT x (found + 1) rest
    | _ => countBootstrapMethodsT x found rest

/-- `if found != 1 { fail!(..) }` after the inner loop, `/repo/src/lib.rs:311-313`. -/
def checkBootstrapIndexT (x : UInt16) (attributes : List AttributeInfo) : Timed Unit := do
  let found ← countBootstrapMethodsT x 0 attributes
  if found ≠ 1 then
    free (Res.fail s!"Found unexpected number of BootstrapMethods attributes in class; found {found}, expected 1")
  else free (.ok ())

/-- `/repo/src/lib.rs:292-319` `validate_bootstrap_methods`. -/
def validateBootstrapMethodsT : Pool → List AttributeInfo → Timed Unit
  | [], _ => free (.ok ())
  | cpEntry :: pool, attributes => do
    tick 1
    match cpEntry with
    | .dynamic x _ => do
      checkBootstrapIndexT x attributes
      validateBootstrapMethodsT pool attributes
    | .invokeDynamic x _ => do
      checkBootstrapIndexT x attributes
      validateBootstrapMethodsT pool attributes
    | _ => validateBootstrapMethodsT pool attributes

/-- The body of `/repo/src/lib.rs:373-460` `parse_class_with_options` as a reader started at index 0. -/
def readClassFileT (env : Env) : PT ClassFile := do
  let magic ← PT.once readU4
  PT.failIf (magic != 0xCAFEBABE) "Unexpected magic header"
  let minorVersion ← PT.once readU2
  let majorVersion ← PT.once readU2
  let constantPool ← readConstantPoolT env majorVersion
  let bits ← PT.once readU2
  let accessFlags := fromBitsTruncate classMask bits
  PT.plain <| checkModuleFlags accessFlags majorVersion
  let thisClass ← (readClassNameT constantPool).mapErr "this_class"
  let superClass ← (readClassNameOptT constantPool).mapErr "super_class"
  let interfaces ← readInterfacesT constantPool
  let fields ← readFieldsT env constantPool
  let methods ← readMethodsT env constantPool (flagsContains16 accessFlags AccessFlags.INTERFACE) majorVersion
  let attributes ← (readAttributesT env constantPool env.depth).mapErr "class"
  PT.once checkAtEnd
  PT.plain <| checkModuleEmpty accessFlags superClass interfaces fields methods
  PT.lift (validateBootstrapMethodsT constantPool attributes)
  pure { majorVersion := majorVersion, minorVersion := minorVersion, constantPool := constantPool,
         accessFlags := accessFlags, thisClass := thisClass, superClass := superClass, interfaces := interfaces,
         fields := fields, methods := methods, attributes := attributes }

/-- `/repo/src/lib.rs:373-460` `parse_class_with_options`; the options are in `env`. -/
def parseClassWithOptionsT (env : Env) (rawBytes : Bytes) : Timed ClassFile := do
  let (cf, _) ← readClassFileT env rawBytes 0
  free (.ok cf)

end Cafebabe
