import Verif.Model.Names
import Verif.Model.Descriptors
/-!
# Model: the constant pool (`/repo/src/constant_pool.rs`)

A resolved reference (`Rc`/`Arc` clone of `pool[target]`) is the slot number it aliases: the pool vector never changes after the
entries have been pushed, so dereferencing the `Rc` is looking up that slot.
-/

namespace Cafebabe

/-- `/repo/src/constant_pool.rs:24-28` `enum ConstantPoolRef` (inside its `RefCell`/`Mutex`). -/
inductive CPRef where
  | unresolved (ix : UInt16)
  | resolved (slot : Nat)
deriving DecidableEq, Repr

/-- `/repo/src/constant_pool.rs:104-115` `enum ReferenceKind`. -/
inductive ReferenceKind where
  | getField | getStatic | putField | putStatic | invokeVirtual | invokeStatic | invokeSpecial
  | newInvokeSpecial | invokeInterface
deriving DecidableEq, Repr

/-- `/repo/src/constant_pool.rs:148-170` `enum ConstantPoolEntry`. Floats are their bit patterns. -/
inductive Entry where
  | zero
  | utf8 (s : Str)
  | utf8Bytes (b : Bytes)
  | integer (v : Int32)
  | float (bits : UInt32)
  | long (v : Int64)
  | double (bits : UInt64)
  | classInfo (x : CPRef)
  | string (x : CPRef)
  | fieldRef (x y : CPRef)
  | methodRef (x y : CPRef)
  | interfaceMethodRef (x y : CPRef)
  | nameAndType (x y : CPRef)
  | methodHandle (k : ReferenceKind) (x : CPRef)
  | methodType (x : CPRef)
  | dynamic (b : UInt16) (x : CPRef)
  | invokeDynamic (b : UInt16) (x : CPRef)
  | moduleInfo (x : CPRef)
  | packageInfo (x : CPRef)
  | unused
deriving DecidableEq, Repr

/-- `&[CafeRc<ConstantPoolEntry>]`. -/
abbrev Pool := List Entry

namespace EntryTypes
/-! `/repo/src/constant_pool.rs:118-143` `ConstantPoolEntryTypes` bit constants. -/
/-- `ZERO` (line 119) -/ def ZERO : UInt32 := 0x00000001
/-- `UTF8` (line 120) -/ def UTF8 : UInt32 := 0x00000002
/-- `INTEGER` (line 121) -/ def INTEGER : UInt32 := 0x00000004
/-- `FLOAT` (line 122) -/ def FLOAT : UInt32 := 0x00000008
/-- `LONG` (line 123) -/ def LONG : UInt32 := 0x00000010
/-- `DOUBLE` (line 124) -/ def DOUBLE : UInt32 := 0x00000020
/-- `CLASS_INFO` (line 125) -/ def CLASS_INFO : UInt32 := 0x00000040
/-- `STRING` (line 126) -/ def STRING : UInt32 := 0x00000080
/-- `FIELD_REF` (line 127) -/ def FIELD_REF : UInt32 := 0x00000100
/-- `METHOD_REF` (line 128) -/ def METHOD_REF : UInt32 := 0x00000200
/-- `INTERFACE_METHOD_REF` (line 129) -/ def INTERFACE_METHOD_REF : UInt32 := 0x00000400
/-- `NAME_AND_TYPE` (line 130) -/ def NAME_AND_TYPE : UInt32 := 0x00000800
/-- `METHOD_HANDLE` (line 131) -/ def METHOD_HANDLE : UInt32 := 0x00001000
/-- `METHOD_TYPE` (line 132) -/ def METHOD_TYPE : UInt32 := 0x00002000
/-- `DYNAMIC` (line 133) -/ def DYNAMIC : UInt32 := 0x00004000
/-- `INVOKE_DYNAMIC` (line 134) -/ def INVOKE_DYNAMIC : UInt32 := 0x00008000
/-- `MODULE_INFO` (line 135) -/ def MODULE_INFO : UInt32 := 0x00010000
/-- `PACKAGE_INFO` (line 136) -/ def PACKAGE_INFO : UInt32 := 0x00020000
/-- `UNUSED` (line 137) -/ def UNUSED : UInt32 := 0x00040000
/-- `NEW_METHOD_REFS` (line 139) -/ def NEW_METHOD_REFS : UInt32 := METHOD_REF ||| INTERFACE_METHOD_REF
end EntryTypes

/-- bitflags `contains`: `self & other == other`. -/
def flagsContains32 (self other : UInt32) : Bool := (self &&& other) == other

/-- `pool[i]` (panics when out of range). -/
def poolAt (pool : Pool) (i : Nat) : Res Entry :=
  match pool[i]? with
  | some e => .ok e
  | none => .panic .bounds

/-- `/repo/src/constant_pool.rs:31-54` `ConstantPoolRef::resolve`; `pool` only supplies its length and slots. -/
def CPRef.resolve (self : CPRef) (myIndex : Nat) (pool : Pool) : Res CPRef :=
  match self with
  | .unresolved ix =>
    let target := ix.toNat
    if target = myIndex then
      Res.fail s!"Constant pool entry at index {myIndex} could not be resolved due to self-reference"
    else if target ≥ pool.length then
      Res.fail s!"Constant pool entry at index {myIndex} references out-of-bounds index {target}"
    else .ok (.resolved target)
  | .resolved t => .ok (.resolved t)

/-- `peel!(r)`, `/repo/src/constant_pool.rs:56-76` (`get` panics on an unresolved reference). -/
def peel (pool : Pool) (r : CPRef) : Res Entry :=
  match r with
  | .unresolved _ => .panic .unresolved
  | .resolved slot =>
    match pool[slot]? with
    | some e => .ok e
    | none => .panic .dangling

/-- `/repo/src/constant_pool.rs:173-208` `ConstantPoolEntry::resolve`; returns the entry with its cells updated. -/
def Entry.resolve (self : Entry) (myIndex : Nat) (pool : Pool) : Res Entry :=
  match self with
  | .zero => .ok .zero
  | .utf8 s => .ok (.utf8 s)
  | .utf8Bytes b => .ok (.utf8Bytes b)
  | .integer v => .ok (.integer v)
  | .float v => .ok (.float v)
  | .long v => .ok (.long v)
  | .double v => .ok (.double v)
  | .unused => .ok .unused
  | .classInfo x => do let x ← x.resolve myIndex pool; .ok (.classInfo x)
  | .string x => do let x ← x.resolve myIndex pool; .ok (.string x)
  | .methodHandle k x => do let x ← x.resolve myIndex pool; .ok (.methodHandle k x)
  | .methodType x => do let x ← x.resolve myIndex pool; .ok (.methodType x)
  | .dynamic b x => do let x ← x.resolve myIndex pool; .ok (.dynamic b x)
  | .invokeDynamic b x => do let x ← x.resolve myIndex pool; .ok (.invokeDynamic b x)
  | .moduleInfo x => do let x ← x.resolve myIndex pool; .ok (.moduleInfo x)
  | .packageInfo x => do let x ← x.resolve myIndex pool; .ok (.packageInfo x)
  | .fieldRef x y => do
    let x ← x.resolve myIndex pool
    let y ← y.resolve myIndex pool
    .ok (.fieldRef x y)
  | .methodRef x y => do
    let x ← x.resolve myIndex pool
    let y ← y.resolve myIndex pool
    .ok (.methodRef x y)
  | .interfaceMethodRef x y => do
    let x ← x.resolve myIndex pool
    let y ← y.resolve myIndex pool
    .ok (.interfaceMethodRef x y)
  | .nameAndType x y => do
    let x ← x.resolve myIndex pool
    let y ← y.resolve myIndex pool
    .ok (.nameAndType x y)

/-- `/repo/src/constant_pool.rs:210-236` `ConstantPoolEntry::get_type`. -/
def Entry.getType : Entry → UInt32
  | .zero => EntryTypes.ZERO
  | .utf8 _ => EntryTypes.UTF8
  | .utf8Bytes _ => EntryTypes.UTF8
  | .integer _ => EntryTypes.INTEGER
  | .float _ => EntryTypes.FLOAT
  | .long _ => EntryTypes.LONG
  | .double _ => EntryTypes.DOUBLE
  | .classInfo _ => EntryTypes.CLASS_INFO
  | .string _ => EntryTypes.STRING
  | .fieldRef _ _ => EntryTypes.FIELD_REF
  | .methodRef _ _ => EntryTypes.METHOD_REF
  | .interfaceMethodRef _ _ => EntryTypes.INTERFACE_METHOD_REF
  | .nameAndType _ _ => EntryTypes.NAME_AND_TYPE
  | .methodHandle _ _ => EntryTypes.METHOD_HANDLE
  | .methodType _ => EntryTypes.METHOD_TYPE
  | .dynamic _ _ => EntryTypes.DYNAMIC
  | .invokeDynamic _ _ => EntryTypes.INVOKE_DYNAMIC
  | .moduleInfo _ => EntryTypes.MODULE_INFO
  | .packageInfo _ => EntryTypes.PACKAGE_INFO
  | .unused => EntryTypes.UNUSED

/-- `/repo/src/constant_pool.rs:316-322` `ConstantPoolEntry::ensure_type`. -/
def Entry.ensureType (self : Entry) (allowed : UInt32) : Res Unit :=
  if flagsContains32 allowed self.getType then .ok ()
  else Res.fail "Unexpected constant pool reference type"

/-- `/repo/src/constant_pool.rs:99-101` `CafeCell::ensure_type`. -/
def CPRef.ensureType (pool : Pool) (x : CPRef) (allowed : UInt32) : Res Unit := do
  let e ← peel pool x
  e.ensureType allowed

/-- `/repo/src/constant_pool.rs:327-335` `ConstantPoolEntry::str`. -/
def Entry.str : Entry → Res Str
  | .utf8 x => .ok x
  | .utf8Bytes _ => Res.fail "Attempting to get utf-8 data from non-utf8 constant pool entry!"
  | _ => Res.fail "Unexpected constant pool reference type"

/-- `if b { Ok(()) } else { fail!(msg) }`. -/
def okIf (b : Bool) (msg : String) : Res Unit := if b then .ok () else Res.fail msg

/-- `/repo/src/constant_pool.rs:337-345` `validate_classinfo_name`. -/
def Entry.validateClassinfoName (self : Entry) : Res Unit := do
  let x ← self.str
  if isBinaryName x then .ok ()
  else do
    let b ← isArrayDescriptor x
    okIf b "Invalid classinfo name"

/-- `/repo/src/constant_pool.rs:347-353` `validate_binary_name`. -/
def Entry.validateBinaryName (self : Entry) : Res Unit := do
  let x ← self.str
  okIf (isBinaryName x) "Invalid binary name"

/-- `/repo/src/constant_pool.rs:355-362` `validate_unqualified_name`. -/
def Entry.validateUnqualifiedName (self : Entry) : Res Unit := do
  let s ← self.str
  okIf (isUnqualifiedName s || isUnqualifiedMethodName s true false) "Invalid unqualified name"

/-- `/repo/src/constant_pool.rs:364-370` `validate_module_name`. -/
def Entry.validateModuleName (self : Entry) : Res Unit := do
  let x ← self.str
  okIf (isModuleName x) "Invalid module name"

/-- `/repo/src/constant_pool.rs:372-383` `validate_field_descriptor`. -/
def Entry.validateFieldDescriptor (pool : Pool) (self : Entry) : Res Unit :=
  match self with
  | .nameAndType _ y => do
    let e ← peel pool y
    let s ← e.str
    let b ← isFieldDescriptor s
    okIf b "Invalid field descriptor"
  | _ => .panic .nonDescriptor

/-- `/repo/src/constant_pool.rs:385-396` `validate_method_descriptor`. It calls itself on the descriptor of a NameAndType, so it
takes the recursion budget. -/
def Entry.validateMethodDescriptor (pool : Pool) : Nat → Entry → Res Unit
  | 0, _ => .diverge
  | depth + 1, self =>
    match self with
    | .nameAndType _ y => do
      let e ← peel pool y
      Entry.validateMethodDescriptor pool depth e
    | e => do
      let s ← e.str
      let b ← isMethodDescriptor s
      okIf b "Invalid method descriptor"

/-- The `match x { .. }` of `/repo/src/constant_pool.rs:266-282`: entry types allowed for a reference kind. -/
def handleTargetTypes (k : ReferenceKind) (majorVersion : UInt16) : UInt32 :=
  match k with
  | .getField | .getStatic | .putField | .putStatic => EntryTypes.FIELD_REF
  | .invokeVirtual | .newInvokeSpecial => EntryTypes.METHOD_REF
  | .invokeStatic | .invokeSpecial =>
    if majorVersion < 52 then EntryTypes.METHOD_REF else EntryTypes.NEW_METHOD_REFS
  | .invokeInterface => EntryTypes.INTERFACE_METHOD_REF

/-- `/repo/src/constant_pool.rs:238-314` `ConstantPoolEntry::validate`. -/
def Entry.validate (depth : Nat) (pool : Pool) (majorVersion : UInt16) (self : Entry) : Res Unit :=
  match self with
  | .classInfo x => do
    x.ensureType pool EntryTypes.UTF8
    let e ← peel pool x
    e.validateClassinfoName
  | .string x => x.ensureType pool EntryTypes.UTF8
  | .fieldRef x y => do
    x.ensureType pool EntryTypes.CLASS_INFO
    y.ensureType pool EntryTypes.NAME_AND_TYPE
    let e ← peel pool y
    e.validateFieldDescriptor pool
  | .methodRef x y => do
    x.ensureType pool EntryTypes.CLASS_INFO
    y.ensureType pool EntryTypes.NAME_AND_TYPE
    let e ← peel pool y
    e.validateMethodDescriptor pool depth
  | .interfaceMethodRef x y => do
    x.ensureType pool EntryTypes.CLASS_INFO
    y.ensureType pool EntryTypes.NAME_AND_TYPE
    let e ← peel pool y
    e.validateMethodDescriptor pool depth
  | .nameAndType x y => do
    x.ensureType pool EntryTypes.UTF8
    let e ← peel pool x
    e.validateUnqualifiedName
    y.ensureType pool EntryTypes.UTF8
  | .methodHandle x y => y.ensureType pool (handleTargetTypes x majorVersion)
  | .methodType x => do
    x.ensureType pool EntryTypes.UTF8
    let e ← peel pool x
    e.validateMethodDescriptor pool depth
  | .dynamic _ y => do
    y.ensureType pool EntryTypes.NAME_AND_TYPE
    let e ← peel pool y
    e.validateFieldDescriptor pool
  | .invokeDynamic _ y => do
    y.ensureType pool EntryTypes.NAME_AND_TYPE
    let e ← peel pool y
    e.validateMethodDescriptor pool depth
  | .moduleInfo x => do
    x.ensureType pool EntryTypes.UTF8
    let e ← peel pool x
    e.validateModuleName
  | .packageInfo x => do
    x.ensureType pool EntryTypes.UTF8
    let e ← peel pool x
    e.validateBinaryName
  | .zero | .utf8 _ | .utf8Bytes _ | .integer _ | .float _ | .long _ | .double _ | .unused => .ok ()

/-- `/repo/src/constant_pool.rs:398-403` `ConstantPoolEntry::utf8`. -/
def Entry.getUtf8 : Entry → Res Str
  | .utf8 x => .ok x
  | _ => .panic .nonUtf8

/-- `/repo/src/constant_pool.rs:814-821` `enum LiteralConstant`. -/
inductive LiteralConstant where
  | integer (v : Int32)
  | float (bits : UInt32)
  | long (v : Int64)
  | double (bits : UInt64)
  | string (s : Str)
  | stringBytes (b : Bytes)
deriving DecidableEq, Repr

/-- `/repo/src/constant_pool.rs:405-411` `ConstantPoolEntry::string_literal`. -/
def Entry.stringLiteral : Entry → Res LiteralConstant
  | .utf8 x => .ok (.string x)
  | .utf8Bytes x => .ok (.stringBytes x)
  | _ => .panic .nonUtf8

/-- `peel!(x).utf8()`. -/
def peelUtf8 (pool : Pool) (x : CPRef) : Res Str := do
  let e ← peel pool x
  e.getUtf8

/-- `/repo/src/constant_pool.rs:413-418` `ConstantPoolEntry::classinfo`. -/
def Entry.classinfo (pool : Pool) : Entry → Res Str
  | .classInfo x => peelUtf8 pool x
  | _ => .panic .nonClassInfo

/-- `/repo/src/constant_pool.rs:792-795` `struct NameAndType`. -/
structure NameAndType where
  name : Str
  descriptor : Str
deriving DecidableEq, Repr

/-- `/repo/src/constant_pool.rs:420-430` `ConstantPoolEntry::name_and_type`. -/
def Entry.nameAndTypeOf (pool : Pool) : Entry → Res NameAndType
  | .nameAndType x y => do
    let name ← peelUtf8 pool x
    let descriptor ← peelUtf8 pool y
    .ok { name := name, descriptor := descriptor }
  | _ => .panic .nonNameAndType

/-! ## Reading entries -/

/-- `/repo/src/constant_pool.rs:433-440` `read_unresolved_cp_ref`. -/
def readUnresolvedCpRef : P CPRef := do
  let ix ← readU2
  pure (.unresolved ix)

/-- `/repo/src/constant_pool.rs:442-468` `read_constant_utf8`. -/
def readConstantUtf8 (env : Env) : P Entry := do
  let length ← readU2
  let ix ← P.getIx
  let modifiedUtf8Data ← takeBytes length.toNat s!"Unexpected end of stream reading CONSTANT_Utf8 at index {ix}"
  match env.decode modifiedUtf8Data with
  | some rustStr => pure (.utf8 rustStr)
  | none => pure (.utf8Bytes modifiedUtf8Data)

/-- `/repo/src/constant_pool.rs:470-476` `read_constant_integer`. -/
def readConstantInteger : P Entry := do
  let v ← readU4
  pure (.integer v.toInt32)

/-- `/repo/src/constant_pool.rs:478-485` `read_constant_float`. -/
def readConstantFloat : P Entry := do
  let v ← readU4
  pure (.float v)

/-- `/repo/src/constant_pool.rs:487-493` `read_constant_long`. -/
def readConstantLong : P Entry := do
  let v ← readU8
  pure (.long v.toInt64)

/-- `/repo/src/constant_pool.rs:495-502` `read_constant_double`. -/
def readConstantDouble : P Entry := do
  let v ← readU8
  pure (.double v)

/-- `/repo/src/constant_pool.rs:504-510` `read_constant_class`. -/
def readConstantClass : P Entry := do
  let nameRef ← readUnresolvedCpRef
  pure (.classInfo nameRef)

/-- `/repo/src/constant_pool.rs:512-518` `read_constant_string`. -/
def readConstantString : P Entry := do
  let valueRef ← readUnresolvedCpRef
  pure (.string valueRef)

/-- `/repo/src/constant_pool.rs:520-527` `read_constant_fieldref`. -/
def readConstantFieldref : P Entry := do
  let classRef ← readUnresolvedCpRef
  let nameAndTypeRef ← readUnresolvedCpRef
  pure (.fieldRef classRef nameAndTypeRef)

/-- `/repo/src/constant_pool.rs:529-536` `read_constant_methodref`. -/
def readConstantMethodref : P Entry := do
  let classRef ← readUnresolvedCpRef
  let nameAndTypeRef ← readUnresolvedCpRef
  pure (.methodRef classRef nameAndTypeRef)

/-- `/repo/src/constant_pool.rs:538-548` `read_constant_interfacemethodref`. -/
def readConstantInterfacemethodref : P Entry := do
  let classRef ← readUnresolvedCpRef
  let nameAndTypeRef ← readUnresolvedCpRef
  pure (.interfaceMethodRef classRef nameAndTypeRef)

/-- `/repo/src/constant_pool.rs:550-557` `read_constant_nameandtype`. -/
def readConstantNameandtype : P Entry := do
  let nameRef ← readUnresolvedCpRef
  let descriptorRef ← readUnresolvedCpRef
  pure (.nameAndType nameRef descriptorRef)

/-- The `match read_u1(..)? { .. }` of `/repo/src/constant_pool.rs:563-578`. -/
def referenceKindOf (n : UInt8) : Option ReferenceKind :=
  match n.toNat with
  | 1 => some .getField
  | 2 => some .getStatic
  | 3 => some .putField
  | 4 => some .putStatic
  | 5 => some .invokeVirtual
  | 6 => some .invokeStatic
  | 7 => some .invokeSpecial
  | 8 => some .newInvokeSpecial
  | 9 => some .invokeInterface
  | _ => none

/-- `/repo/src/constant_pool.rs:559-584` `read_constant_methodhandle`. -/
def readConstantMethodhandle : P Entry := do
  let n ← readU1
  match referenceKindOf n with
  | some referenceKind => do
    let referenceRef ← readUnresolvedCpRef
    pure (.methodHandle referenceKind referenceRef)
  | none => do
    let ix ← P.getIx
    P.fail s!"Unexpected reference kind {n} when reading CONSTANT_methodhandle at index {ix - 1}"

/-- `/repo/src/constant_pool.rs:586-592` `read_constant_methodtype`. -/
def readConstantMethodtype : P Entry := do
  let descriptorRef ← readUnresolvedCpRef
  pure (.methodType descriptorRef)

/-- `/repo/src/constant_pool.rs:594-604` `read_constant_dynamic`. -/
def readConstantDynamic : P Entry := do
  let bootstrapMethodRef ← readU2
  let nameAndTypeRef ← readUnresolvedCpRef
  pure (.dynamic bootstrapMethodRef nameAndTypeRef)

/-- `/repo/src/constant_pool.rs:606-616` `read_constant_invokedynamic`. -/
def readConstantInvokedynamic : P Entry := do
  let bootstrapMethodRef ← readU2
  let nameAndTypeRef ← readUnresolvedCpRef
  pure (.invokeDynamic bootstrapMethodRef nameAndTypeRef)

/-- `/repo/src/constant_pool.rs:618-624` `read_constant_module`. -/
def readConstantModule : P Entry := do
  let nameRef ← readUnresolvedCpRef
  pure (.moduleInfo nameRef)

/-- `/repo/src/constant_pool.rs:626-632` `read_constant_package`. -/
def readConstantPackage : P Entry := do
  let nameRef ← readUnresolvedCpRef
  pure (.packageInfo nameRef)

/-- The final arm `n => fail!(..)` of `/repo/src/constant_pool.rs:682-687`. -/
def unexpectedTag (constantType : UInt8) (majorVersion : UInt16) : P Entry := do
  let ix ← P.getIx
  P.fail s!"Unexpected constant pool entry type {constantType} at index {ix - 1} for classfile major version {majorVersion}"

/-- The `match constant_type { .. }` of `/repo/src/constant_pool.rs:664-688`. -/
def readConstant (env : Env) (majorVersion : UInt16) (constantType : UInt8) : P Entry :=
  match constantType.toNat with
  | 1 => readConstantUtf8 env
  | 3 => readConstantInteger
  | 4 => readConstantFloat
  | 5 => readConstantLong
  | 6 => readConstantDouble
  | 7 => readConstantClass
  | 8 => readConstantString
  | 9 => readConstantFieldref
  | 10 => readConstantMethodref
  | 11 => readConstantInterfacemethodref
  | 12 => readConstantNameandtype
  | 15 => if majorVersion ≥ 51 then readConstantMethodhandle else unexpectedTag constantType majorVersion
  | 16 => if majorVersion ≥ 51 then readConstantMethodtype else unexpectedTag constantType majorVersion
  | 17 => if majorVersion ≥ 55 then readConstantDynamic else unexpectedTag constantType majorVersion
  | 18 => if majorVersion ≥ 51 then readConstantInvokedynamic else unexpectedTag constantType majorVersion
  | 19 => if majorVersion ≥ 53 then readConstantModule else unexpectedTag constantType majorVersion
  | 20 => if majorVersion ≥ 53 then readConstantPackage else unexpectedTag constantType majorVersion
  | _ => unexpectedTag constantType majorVersion

/-- `x += 1` on a `u16`: panics on overflow in checked builds, wraps otherwise. -/
def incrU16 (checks : Bool) (x : UInt16) : Res UInt16 :=
  if checks && x == 0xFFFF then .panic .overflow else .ok (x + 1)

/-- The `while cp_ix < count` loop of `/repo/src/constant_pool.rs:662-696`; returns the pushed entries.
`fuel` bounds the iterations (each consumes input; shown sufficient). -/
def constantPoolLoop (env : Env) (majorVersion count : UInt16) : Nat → UInt16 → P (List Entry)
  | 0, _ => P.diverge
  | fuel + 1, cpIx =>
    if cpIx < count then do
      let constantType ← readU1
      let e ← readConstant env majorVersion constantType
      let cpIx ← P.lift (incrU16 env.overflowChecks cpIx)
      if constantType == 5 || constantType == 6 then do
        let cpIx ← P.lift (incrU16 env.overflowChecks cpIx)
        let rest ← constantPoolLoop env majorVersion count fuel cpIx
        pure (e :: .unused :: rest)
      else do
        let rest ← constantPoolLoop env majorVersion count fuel cpIx
        pure (e :: rest)
    else pure []

/-- `/repo/src/constant_pool.rs:634-639` `resolve_constant_pool`, from slot `i`. -/
def resolveFrom (pool : Pool) : Nat → List Entry → Res Pool
  | _, [] => .ok []
  | i, e :: es => do
    let e ← e.resolve i pool
    let es ← resolveFrom pool (i + 1) es
    .ok (e :: es)

/-- `/repo/src/constant_pool.rs:634-639` `resolve_constant_pool`. -/
def resolveConstantPool (pool : Pool) : Res Pool := resolveFrom pool 0 pool

/-- `/repo/src/constant_pool.rs:641-651` `validate_constant_pool`, from slot `i`. -/
def validateFrom (depth : Nat) (pool : Pool) (majorVersion : UInt16) : Nat → List Entry → Res Unit
  | _, [] => .ok ()
  | i, e :: es => do
    (e.validate depth pool majorVersion).mapErr s!"constant pool entry {i}"
    validateFrom depth pool majorVersion (i + 1) es

/-- `/repo/src/constant_pool.rs:641-651` `validate_constant_pool`. -/
def validateConstantPool (depth : Nat) (pool : Pool) (majorVersion : UInt16) : Res Unit :=
  validateFrom depth pool majorVersion 0 pool

/-- The reading part of `/repo/src/constant_pool.rs:653-696`: the raw pool, references unresolved. -/
def readRawPool (env : Env) (majorVersion : UInt16) : P Pool := do
  let count ← readU2
  let entries ← fun bytes ix => constantPoolLoop env majorVersion count (bytes.length + 1) 1 bytes ix
  pure (.zero :: entries)

/-- `/repo/src/constant_pool.rs:653-700` `read_constant_pool`. -/
def readConstantPool (env : Env) (majorVersion : UInt16) : P Pool := do
  let raw ← readRawPool env majorVersion
  let pool ← P.lift (resolveConstantPool raw)
  P.lift (validateConstantPool env.depth pool majorVersion)
  pure pool

/-! ## Reading references -/

/-- `"Unexpected constant pool reference type"`. -/
def badType {α : Type} : P α := P.fail "Unexpected constant pool reference type"

/-- `/repo/src/constant_pool.rs:702-715` `read_cp_ref_any`. -/
def readCpRefAny (pool : Pool) : P Entry := do
  let cpIndex ← readU2
  if cpIndex.toNat ≥ pool.length then
    P.fail s!"Out-of-bounds index {cpIndex} in constant pool reference"
  else P.lift (poolAt pool cpIndex.toNat)

/-- `/repo/src/constant_pool.rs:717-727` `read_cp_utf8`. -/
def readCpUtf8 (pool : Pool) : P Str := do
  match ← readCpRefAny pool with
  | .utf8 x => pure x
  | _ => badType

/-- `/repo/src/constant_pool.rs:729-740` `read_cp_utf8_opt`. -/
def readCpUtf8Opt (pool : Pool) : P (Option Str) := do
  match ← readCpRefAny pool with
  | .zero => pure none
  | .utf8 x => pure (some x)
  | _ => badType

/-- `/repo/src/constant_pool.rs:742-752` `read_cp_classinfo`. -/
def readCpClassinfo (pool : Pool) : P Str := do
  match ← readCpRefAny pool with
  | .classInfo x => P.lift (peelUtf8 pool x)
  | _ => badType

/-- `/repo/src/constant_pool.rs:754-765` `read_cp_classinfo_opt`. -/
def readCpClassinfoOpt (pool : Pool) : P (Option Str) := do
  match ← readCpRefAny pool with
  | .zero => pure none
  | .classInfo x => do
    let s ← P.lift (peelUtf8 pool x)
    pure (some s)
  | _ => badType

/-- `/repo/src/constant_pool.rs:767-777` `read_cp_moduleinfo`. -/
def readCpModuleinfo (pool : Pool) : P Str := do
  match ← readCpRefAny pool with
  | .moduleInfo x => P.lift (peelUtf8 pool x)
  | _ => badType

/-- `/repo/src/constant_pool.rs:779-789` `read_cp_packageinfo`. -/
def readCpPackageinfo (pool : Pool) : P Str := do
  match ← readCpRefAny pool with
  | .packageInfo x => P.lift (peelUtf8 pool x)
  | _ => badType

/-- `/repo/src/constant_pool.rs:797-811` `read_cp_nameandtype_opt`. -/
def readCpNameandtypeOpt (pool : Pool) : P (Option NameAndType) := do
  match ← readCpRefAny pool with
  | .zero => pure none
  | .nameAndType x y => do
    let name ← P.lift (peelUtf8 pool x)
    let descriptor ← P.lift (peelUtf8 pool y)
    pure (some { name := name, descriptor := descriptor })
  | _ => badType

/-- `peel!(v).string_literal()`. -/
def peelStringLiteral (pool : Pool) (v : CPRef) : Res LiteralConstant := do
  let e ← peel pool v
  e.stringLiteral

/-- `/repo/src/constant_pool.rs:823-837` `read_cp_literalconstant`. -/
def readCpLiteralconstant (pool : Pool) : P LiteralConstant := do
  match ← readCpRefAny pool with
  | .integer v => pure (.integer v)
  | .float v => pure (.float v)
  | .long v => pure (.long v)
  | .double v => pure (.double v)
  | .string v => P.lift (peelStringLiteral pool v)
  | _ => badType

/-- `/repo/src/constant_pool.rs:839-849` `read_cp_integer`. -/
def readCpInteger (pool : Pool) : P Int32 := do
  match ← readCpRefAny pool with
  | .integer v => pure v
  | _ => badType

/-- `/repo/src/constant_pool.rs:851-861` `read_cp_float`. -/
def readCpFloat (pool : Pool) : P UInt32 := do
  match ← readCpRefAny pool with
  | .float v => pure v
  | _ => badType

/-- `/repo/src/constant_pool.rs:863-873` `read_cp_long`. -/
def readCpLong (pool : Pool) : P Int64 := do
  match ← readCpRefAny pool with
  | .long v => pure v
  | _ => badType

/-- `/repo/src/constant_pool.rs:875-885` `read_cp_double`. -/
def readCpDouble (pool : Pool) : P UInt64 := do
  match ← readCpRefAny pool with
  | .double v => pure v
  | _ => badType

/-- `/repo/src/constant_pool.rs:887-891` `struct MemberRef`. -/
structure MemberRef where
  className : Str
  nameAndType : NameAndType
deriving DecidableEq, Repr

/-- `peel!(c).classinfo()`. -/
def peelClassinfo (pool : Pool) (c : CPRef) : Res Str := do
  let e ← peel pool c
  e.classinfo pool

/-- `peel!(m).name_and_type()`. -/
def peelNameAndType (pool : Pool) (m : CPRef) : Res NameAndType := do
  let e ← peel pool m
  e.nameAndTypeOf pool

/-- `MemberRef { class_name: peel!(c).classinfo(), name_and_type: peel!(m).name_and_type() }`. -/
def makeMemberRef (pool : Pool) (c m : CPRef) : Res MemberRef := do
  let className ← peelClassinfo pool c
  let nameAndType ← peelNameAndType pool m
  .ok { className := className, nameAndType := nameAndType }

/-- `/repo/src/constant_pool.rs:893-912` `read_cp_memberref`. -/
def readCpMemberref (pool : Pool) (allowed : UInt32) : P MemberRef := do
  let cpRef ← readCpRefAny pool
  P.lift (cpRef.ensureType allowed)
  match cpRef with
  | .fieldRef c m => P.lift (makeMemberRef pool c m)
  | .methodRef c m => P.lift (makeMemberRef pool c m)
  | .interfaceMethodRef c m => P.lift (makeMemberRef pool c m)
  | _ => badType

/-- `/repo/src/constant_pool.rs:914-918` `struct InvokeDynamic` and 935-939 `struct Dynamic` (same shape). -/
structure DynamicRef where
  attrIndex : UInt16
  nameAndType : NameAndType
deriving DecidableEq, Repr

/-- Build a `Dynamic`/`InvokeDynamic` from its entry fields (lines 927-930, 973-976). -/
def makeDynamic (pool : Pool) (x : UInt16) (y : CPRef) : Res DynamicRef := do
  let nameAndType ← peelNameAndType pool y
  .ok { attrIndex := x, nameAndType := nameAndType }

/-- `/repo/src/constant_pool.rs:920-933` `read_cp_invokedynamic`. -/
def readCpInvokedynamic (pool : Pool) : P DynamicRef := do
  match ← readCpRefAny pool with
  | .invokeDynamic x y => P.lift (makeDynamic pool x y)
  | _ => badType

/-- `/repo/src/constant_pool.rs:981-986` `enum MemberKind`. -/
inductive MemberKind where
  | field | method | interfaceMethod
deriving DecidableEq, Repr

/-- `/repo/src/constant_pool.rs:988-994` `struct MethodHandle`. -/
structure MethodHandle where
  kind : ReferenceKind
  className : Str
  memberKind : MemberKind
  memberRef : NameAndType
deriving DecidableEq, Repr

/-- The member part of `/repo/src/constant_pool.rs:996-1024`, for a member entry `(c, m)`. -/
def makeHandleFrom (pool : Pool) (x : ReferenceKind) (kind : MemberKind) (c m : CPRef) : Res MethodHandle := do
  let className ← peelClassinfo pool c
  let memberRef ← peelNameAndType pool m
  .ok { kind := x, className := className, memberKind := kind, memberRef := memberRef }

/-- `/repo/src/constant_pool.rs:996-1024` `make_method_handle`. -/
def makeMethodHandle (pool : Pool) (x : ReferenceKind) (y : CPRef) : Res MethodHandle := do
  match ← peel pool y with
  | .fieldRef c m => makeHandleFrom pool x .field c m
  | .methodRef c m => makeHandleFrom pool x .method c m
  | .interfaceMethodRef c m => makeHandleFrom pool x .interfaceMethod c m
  | _ => Res.fail "Unexpected constant pool reference type"

/-- `/repo/src/constant_pool.rs:941-948` `enum Loadable`. -/
inductive Loadable where
  | literalConstant (c : LiteralConstant)
  | classInfo (s : Str)
  | methodHandle (h : MethodHandle)
  | methodType (s : Str)
  | dynamic (d : DynamicRef)
deriving DecidableEq, Repr

/-- `/repo/src/constant_pool.rs:950-979` `get_cp_loadable`. -/
def getCpLoadable (cpIndex : Nat) (pool : Pool) : Res Loadable :=
  if cpIndex ≥ pool.length then
    Res.fail s!"Out-of-bounds index {cpIndex} in constant pool reference"
  else do
    match ← poolAt pool cpIndex with
    | .integer v => .ok (.literalConstant (.integer v))
    | .float v => .ok (.literalConstant (.float v))
    | .long v => .ok (.literalConstant (.long v))
    | .double v => .ok (.literalConstant (.double v))
    | .string v => do
      let l ← peelStringLiteral pool v
      .ok (.literalConstant l)
    | .classInfo x => do
      let s ← peelUtf8 pool x
      .ok (.classInfo s)
    | .methodHandle x y => do
      let h ← makeMethodHandle pool x y
      .ok (.methodHandle h)
    | .methodType x => do
      let s ← peelUtf8 pool x
      .ok (.methodType s)
    | .dynamic x y => do
      let d ← makeDynamic pool x y
      .ok (.dynamic d)
    | _ => Res.fail "Unexpected non-loadable constant pool reference found"

/-- `/repo/src/constant_pool.rs:1026-1036` `read_cp_methodhandle`. -/
def readCpMethodhandle (pool : Pool) : P MethodHandle := do
  match ← readCpRefAny pool with
  | .methodHandle x y => P.lift (makeMethodHandle pool x y)
  | _ => badType

/-- `/repo/src/constant_pool.rs:1038-1044` `enum BootstrapArgument`. -/
inductive BootstrapArgument where
  | literalConstant (c : LiteralConstant)
  | classInfo (s : Str)
  | methodHandle (h : MethodHandle)
  | methodType (s : Str)
deriving DecidableEq, Repr

/-- The `match` of `/repo/src/constant_pool.rs:1046-1075` `read_cp_bootstrap_argument`, on the entry already looked up. -/
def bootstrapArgumentOf (pool : Pool) (e : Entry) : Res BootstrapArgument :=
  match e with
  | .integer v => .ok (.literalConstant (.integer v))
  | .float v => .ok (.literalConstant (.float v))
  | .long v => .ok (.literalConstant (.long v))
  | .double v => .ok (.literalConstant (.double v))
  | .string v => do
    let l ← peelStringLiteral pool v
    .ok (.literalConstant l)
  | .classInfo x => do
    let s ← peelUtf8 pool x
    .ok (.classInfo s)
  | .methodHandle x y => do
    let h ← makeMethodHandle pool x y
    .ok (.methodHandle h)
  | .methodType x => do
    let s ← peelUtf8 pool x
    .ok (.methodType s)
  | _ => Res.fail "Unexpected constant pool reference type"

/-- `/repo/src/constant_pool.rs:1046-1075` `read_cp_bootstrap_argument`. -/
def readCpBootstrapArgument (pool : Pool) : P BootstrapArgument := do
  let e ← readCpRefAny pool
  P.lift (bootstrapArgumentOf pool e)

/-- `/repo/src/constant_pool.rs:1077-1081` `enum ObjectArrayType`. -/
inductive ObjectArrayType where
  | arrayType (d : FieldDescriptor)
  | binaryName (s : Str)
deriving DecidableEq, Repr

/-- `/repo/src/constant_pool.rs:1083-1099` `read_cp_object_array_type`. -/
def readCpObjectArrayType (pool : Pool) : P ObjectArrayType := do
  match ← readCpRefAny pool with
  | .classInfo x => do
    let name ← P.lift (peelUtf8 pool x)
    match ← P.lift (parseArrayDescriptor name) with
    | some desc => pure (.arrayType desc)
    | none => pure (.binaryName name)
  | _ => badType

/-! ## The iterator -/

/-- `/repo/src/constant_pool.rs:1101-1115` `enum ConstantPoolItem`. -/
inductive ConstantPoolItem where
  | literalConstant (c : LiteralConstant)
  | classInfo (s : Str)
  | fieldRef (m : MemberRef)
  | methodRef (m : MemberRef)
  | interfaceMethodRef (m : MemberRef)
  | nameAndType (n : NameAndType)
  | methodHandle (h : MethodHandle)
  | methodType (s : Str)
  | dynamic (d : DynamicRef)
  | invokeDynamic (d : DynamicRef)
  | moduleInfo (s : Str)
  | packageInfo (s : Str)
deriving DecidableEq, Repr

/-- `.unwrap()` on a `Result`. -/
def unwrapRes {α : Type} : Res α → Res α
  | .err _ => .panic .unwrapErr
  | r => r

/-- The `match` of `/repo/src/constant_pool.rs:1137-1193`: the item for a slot, `none` for `continue`. -/
def itemOf (pool : Pool) (e : Entry) : Res (Option ConstantPoolItem) :=
  match e with
  | .zero => .panic .zeroItem
  | .utf8 _ => .ok none
  | .utf8Bytes _ => .ok none
  | .integer v => .ok (some (.literalConstant (.integer v)))
  | .float v => .ok (some (.literalConstant (.float v)))
  | .long v => .ok (some (.literalConstant (.long v)))
  | .double v => .ok (some (.literalConstant (.double v)))
  | .classInfo x => do let s ← peelUtf8 pool x; .ok (some (.classInfo s))
  | .string x => do let l ← peelStringLiteral pool x; .ok (some (.literalConstant l))
  | .fieldRef c m => do let r ← makeMemberRef pool c m; .ok (some (.fieldRef r))
  | .methodRef c m => do let r ← makeMemberRef pool c m; .ok (some (.methodRef r))
  | .interfaceMethodRef c m => do let r ← makeMemberRef pool c m; .ok (some (.interfaceMethodRef r))
  | .nameAndType x y => do
    let name ← peelUtf8 pool x
    let descriptor ← peelUtf8 pool y
    .ok (some (.nameAndType { name := name, descriptor := descriptor }))
  | .methodHandle x y => do let h ← unwrapRes (makeMethodHandle pool x y); .ok (some (.methodHandle h))
  | .methodType x => do let s ← peelUtf8 pool x; .ok (some (.methodType s))
  | .dynamic x y => do let d ← makeDynamic pool x y; .ok (some (.dynamic d))
  | .invokeDynamic x y => do let d ← makeDynamic pool x y; .ok (some (.invokeDynamic d))
  | .moduleInfo x => do let s ← peelUtf8 pool x; .ok (some (.moduleInfo s))
  | .packageInfo x => do let s ← peelUtf8 pool x; .ok (some (.packageInfo s))
  | .unused => .ok none

/-- `/repo/src/constant_pool.rs:1117-1120` `struct ConstantPoolIter`. -/
structure ConstantPoolIter where
  pool : Pool
  index : Nat

/-- `/repo/src/constant_pool.rs:1123-1128` `ConstantPoolIter::new`. -/
def ConstantPoolIter.new (pool : Pool) : ConstantPoolIter := { pool := pool, index := 0 }

/-- The `while` loop of `/repo/src/constant_pool.rs:1134-1197`; returns the item and the new index. -/
def iterNextLoop (pool : Pool) : Nat → Nat → Res (Option ConstantPoolItem × Nat)
  | 0, _ => .diverge
  | fuel + 1, index =>
    if index + 1 < pool.length then do
      let e ← poolAt pool (index + 1)
      match ← itemOf pool e with
      | some item => .ok (some item, index + 1)
      | none => iterNextLoop pool fuel (index + 1)
    else .ok (none, index)

/-- `/repo/src/constant_pool.rs:1134-1197` `ConstantPoolIter::next`: the returned item and the mutated iterator. -/
def ConstantPoolIter.next (it : ConstantPoolIter) : Res (Option ConstantPoolItem × ConstantPoolIter) := do
  let (item, index) ← iterNextLoop it.pool (it.pool.length + 1) it.index
  .ok (item, { it with index := index })

end Cafebabe
