import Verif.Model.ClassFile
/-!
# Model: index arithmetic in a `usize` of `w` bits

The rest of the model computes indices in `Nat`. Here the additions `*ix + length` whose right operand comes from a 4-byte length field are
done in a `usize` of `w` bits (`/repo/src/attributes.rs` lines 375-383, 1062-1064, 1126-1127 and 1238-1239), and everything that reaches them
is repeated on top. The other index additions (at most 8 in the integer readers, at most 65535 in the Utf8 reader) cannot leave `usize` for a
slice of Rust's maximal size `isize::MAX`: see the theorems about `readU4W` and `takeBytesW` in `Props/WidthProps.lean`.
-/

namespace Cafebabe

/-- `a + b` on `usize` of `w` bits: with overflow checks it panics, without them it wraps. -/
def addUsize (w : Nat) (checks : Bool) (a b : Nat) : Res Nat :=
  if a + b < 2 ^ w then .ok (a + b)
  else if checks then .panic .overflow
  else .ok ((a + b) % 2 ^ w)

/-- `a - b` on `usize` of `w` bits. -/
def subUsize (w : Nat) (checks : Bool) (a b : Nat) : Res Nat :=
  if b ≤ a then .ok (a - b)
  else if checks then .panic .overflow
  else .ok ((a + 2 ^ w - b) % 2 ^ w)

/-- `/repo/src/lib.rs:65-75` `read_u4` with `usize` arithmetic: `*ix + 4`, the four subscripts and `*ix += 4`. -/
def readU4W (w : Nat) (checks : Bool) : P UInt32 := fun bytes ix => do
  let limit ← addUsize w checks ix 4
  if bytes.length < limit then
    Res.fail s!"Unexpected end of stream reading u4 at index {ix}"
  else do
    let i0 ← addUsize w checks ix 0
    let b0 ← byteAt bytes i0
    let i1 ← addUsize w checks ix 1
    let b1 ← byteAt bytes i1
    let i2 ← addUsize w checks ix 2
    let b2 ← byteAt bytes i2
    let i3 ← addUsize w checks ix 3
    let b3 ← byteAt bytes i3
    let ix' ← addUsize w checks ix 4
    .ok ((b0.toUInt32 <<< 24) ||| (b1.toUInt32 <<< 16) ||| (b2.toUInt32 <<< 8) ||| b3.toUInt32, ix')

/-- `takeBytes` with `usize` arithmetic: `if bytes.len() < *ix + n { fail!(..) }; let s = &bytes[*ix..*ix + n]; *ix += n;`
(`/repo/src/constant_pool.rs:447-454`, `/repo/src/attributes.rs:376-383`). -/
def takeBytesW (w : Nat) (checks : Bool) (n : Nat) (msg : String) : P Bytes := fun bytes ix => do
  let limit ← addUsize w checks ix n
  if bytes.length < limit then
    Res.fail msg
  else do
    let j ← addUsize w checks ix n
    let s ← sliceBytes bytes ix j
    let ix' ← addUsize w checks ix n
    .ok (s, ix')

/-- `let data = &bytes[*ix..*ix + length]; *ix += length;` (SourceDebugExtension, `/repo/src/attributes.rs:1126-1127`). -/
def takeSliceW (w : Nat) (checks : Bool) (length : Nat) : P Bytes := fun bytes ix => do
  let j ← addUsize w checks ix length
  let s ← sliceBytes bytes ix j
  let ix' ← addUsize w checks ix length
  .ok (s, ix')

/-- `*ix += length; &bytes[*ix - length..*ix]` (unknown attributes, `/repo/src/attributes.rs:1238-1239`). -/
def takeBackW (w : Nat) (checks : Bool) (length : Nat) : P Bytes := fun bytes ix => do
  let ix' ← addUsize w checks ix length
  let i ← subUsize w checks ix' length
  let s ← sliceBytes bytes i ix'
  .ok (s, ix')

/-- `let expected_end_ix = *ix + length; if bytes.len() < expected_end_ix { fail!(..) }`, `/repo/src/attributes.rs:1063-1064`. -/
def checkEndW (w : Nat) (checks : Bool) (length : Nat) : P Nat := fun bytes ix => do
  let expectedEndIx ← addUsize w checks ix length
  if bytes.length < expectedEndIx then Res.fail s!"Unexpected end of stream reading attributes at index {ix}"
  else .ok (expectedEndIx, ix)

/-- `/repo/src/attributes.rs:367-414` `fn read_code_data`; `rec` is the call to `read_attributes`. -/
def readCodeDataWithW (w : Nat) (env : Env) (rec : P (List AttributeInfo)) (pool : Pool) : P CodeData := do
  let maxStack ← readU2
  let maxLocals ← readU2
  let codeLength ← readU4
  let ix ← P.getIx
  let code ← takeBytesW w env.overflowChecks codeLength.toNat s!"Unexpected end of stream reading code attribute at index {ix}"
  let exceptionTable ← readTable2 (readExceptionTableEntry pool)
  let codeAttributes ← rec.mapErr "code attribute"
  let bytecode ←
    if env.parseBytecode then do
      let b ← P.lift ((ByteCode.ofCode env.overflowChecks code pool).mapErr "bytecode")
      pure (some b)
    else pure none
  pure { maxStack := maxStack, maxLocals := maxLocals, code := code, bytecode := bytecode,
         exceptionTable := exceptionTable, attributes := codeAttributes }

/-- The arms of the `match name.deref()` of `/repo/src/attributes.rs:1051-1248` `fn read_attributes`; arms without a 4-byte length of their own are those of
`readAttributeData`. -/
def readAttributeDataW (w : Nat) (env : Env) (depth : Nat) (rec : P (List AttributeInfo)) (pool : Pool) (i length : Nat) (k : AttrKind) :
    P AttributeData :=
  match k with
  | .code => do
    let d ← (readCodeDataWithW w env rec pool).mapErr s!"Code attribute {i}"
    pure (.code d)
  | .sourceDebugExtension => do
    let data ← takeSliceW w env.overflowChecks length
    match env.decode data with
    | some s => pure (.sourceDebugExtension s)
    | none => P.failCtx "invalid modified utf8" s!"modified utf8 data of SourceDebugExtension attribute {i}"
  | .other => do
    let b ← takeBackW w env.overflowChecks length
    pure (.other b)
  | k => readAttributeData env depth rec pool i length k

/-- One iteration of the loop of `/repo/src/attributes.rs:1051-1248` `fn read_attributes`. -/
def readAttributeWithW (w : Nat) (env : Env) (depth : Nat) (rec : P (List AttributeInfo)) (pool : Pool) (i : Nat) :
    P AttributeInfo := do
  let name ← (readCpUtf8 pool).mapErr s!"name field of attribute {i}"
  let length ← readU4
  let expectedEndIx ← checkEndW w env.overflowChecks length.toNat
  let data ← readAttributeDataW w env depth rec pool i length.toNat (attrKindOf name)
  let ix ← P.getIx
  if expectedEndIx ≠ ix then P.fail s!"Length mismatch when reading attribute {i}"
  else pure { name := name, data := data }

/-- `/repo/src/attributes.rs:1051-1248` `fn read_attributes` with a recursion budget. -/
def readAttributesW (w : Nat) (env : Env) (pool : Pool) : Nat → P (List AttributeInfo)
  | 0 => P.diverge
  | depth + 1 => readTable2 (readAttributeWithW w env depth (readAttributesW w env pool depth) pool)

/-- One iteration of `/repo/src/lib.rs:161-198` `read_fields`; `seen` is the `HashSet` `unique_ids`. -/
def readFieldW (w : Nat) (env : Env) (pool : Pool) (seen : List (Str × FieldDescriptor)) (i : Nat) : P FieldInfo := do
  let bits ← readU2
  let name ← (readCpUtf8 pool).mapErr s!"name of class field {i}"
  P.failIf (!isUnqualifiedName name) s!"Invalid unqualified name for class field {i}"
  let d ← (readCpUtf8 pool).mapErr s!"descriptor of class field {i}"
  let descriptor ← P.lift (parseFieldDescriptor d 0)
  P.failIf (seen.contains (name, descriptor)) s!"Class field {i} is duplicate of previously-encountered field"
  let attributes ← (readAttributesW w env pool env.depth).mapErr s!"class field {i}"
  pure { accessFlags := fromBitsTruncate fieldMask bits, name := name, descriptor := descriptor, attributes := attributes }

/-- The loop of `/repo/src/lib.rs:161-198` `read_fields` from field `i`, `n` to go. -/
def readFieldsFromW (w : Nat) (env : Env) (pool : Pool) : List (Str × FieldDescriptor) → Nat → Nat → P (List FieldInfo)
  | _, _, 0 => pure []
  | seen, i, n + 1 => do
    let f ← readFieldW w env pool seen i
    let fs ← readFieldsFromW w env pool ((f.name, f.descriptor) :: seen) (i + 1) n
    pure (f :: fs)

/-- `/repo/src/lib.rs:161-198` `read_fields`. -/
def readFieldsW (w : Nat) (env : Env) (pool : Pool) : P (List FieldInfo) := do
  let count ← readU2
  readFieldsFromW w env pool [] 0 count.toNat

/-- One iteration of `/repo/src/lib.rs:225-276` `read_methods`; `seen` is the `HashSet` `unique_ids`. -/
def readMethodW (w : Nat) (env : Env) (pool : Pool) (inInterface : Bool) (majorVersion : UInt16)
    (seen : List (Str × MethodDescriptor)) (i : Nat) : P MethodInfo := do
  let bits ← readU2
  let name ← (readCpUtf8 pool).mapErr s!"name of class method {i}"
  let allowInit := !inInterface
  P.failIf (!isUnqualifiedMethodName name allowInit true) s!"Invalid unqualified name for class method {i}"
  let descriptor ← (readMethodDescriptor pool).mapErr s!"descriptor of class method {i}"
  P.failIf (allowInit && name == "<init>".toList && descriptor.returnType != .void)
    s!"Non-void method descriptor for init method {i}"
  P.failIf (name == "<clinit>".toList && descriptor.returnType != .void)
    s!"Non-void method descriptor for clinit method {i}"
  P.failIf (name == "<clinit>".toList && (majorVersion ≥ 51 && !descriptor.parameters.isEmpty))
    s!"Arguments found in descriptor for clinit method {i}"
  P.failIf (seen.contains (name, descriptor)) s!"Class method {i} is duplicate of previously-encountered method"
  let attributes ← (readAttributesW w env pool env.depth).mapErr s!"class method {i}"
  pure { accessFlags := fromBitsTruncate methodMask bits, name := name, descriptor := descriptor, attributes := attributes }

/-- The loop of `/repo/src/lib.rs:225-276` `read_methods` from method `i`, `n` to go. -/
def readMethodsFromW (w : Nat) (env : Env) (pool : Pool) (inInterface : Bool) (majorVersion : UInt16) :
    List (Str × MethodDescriptor) → Nat → Nat → P (List MethodInfo)
  | _, _, 0 => pure []
  | seen, i, n + 1 => do
    let m ← readMethodW w env pool inInterface majorVersion seen i
    let ms ← readMethodsFromW w env pool inInterface majorVersion ((m.name, m.descriptor) :: seen) (i + 1) n
    pure (m :: ms)

/-- `/repo/src/lib.rs:225-276` `read_methods`. -/
def readMethodsW (w : Nat) (env : Env) (pool : Pool) (inInterface : Bool) (majorVersion : UInt16) : P (List MethodInfo) := do
  let count ← readU2
  readMethodsFromW w env pool inInterface majorVersion [] 0 count.toNat

/-- The body of `/repo/src/lib.rs:373-460` `parse_class_with_options` as a reader started at index 0. -/
def readClassFileW (w : Nat) (env : Env) : P ClassFile := do
  let magic ← readU4
  P.failIf (magic != 0xCAFEBABE) "Unexpected magic header"
  let minorVersion ← readU2
  let majorVersion ← readU2
  let constantPool ← readConstantPool env majorVersion
  let bits ← readU2
  let accessFlags := fromBitsTruncate classMask bits
  checkModuleFlags accessFlags majorVersion
  let thisClass ← (readClassName constantPool).mapErr "this_class"
  let superClass ← (readClassNameOpt constantPool).mapErr "super_class"
  let interfaces ← readInterfaces constantPool
  let fields ← readFieldsW w env constantPool
  let methods ← readMethodsW w env constantPool (flagsContains16 accessFlags AccessFlags.INTERFACE) majorVersion
  let attributes ← (readAttributesW w env constantPool env.depth).mapErr "class"
  checkAtEnd
  checkModuleEmpty accessFlags superClass interfaces fields methods
  P.lift (validateBootstrapMethods constantPool attributes)
  pure { majorVersion := majorVersion, minorVersion := minorVersion, constantPool := constantPool,
         accessFlags := accessFlags, thisClass := thisClass, superClass := superClass, interfaces := interfaces,
         fields := fields, methods := methods, attributes := attributes }

/-- `/repo/src/lib.rs:373-460` `parse_class_with_options` on a target whose `usize` has `w` bits. -/
def parseClassWithOptionsW (w : Nat) (env : Env) (rawBytes : Bytes) : Res ClassFile := do
  let (cf, _) ← readClassFileW w env rawBytes 0
  .ok cf

end Cafebabe
