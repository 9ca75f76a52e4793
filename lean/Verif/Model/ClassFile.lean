import Verif.Model.Attributes
/-!
# Model: class files (`/repo/src/lib.rs`)
-/

namespace Cafebabe

open AccessFlags in
/-- `/repo/src/lib.rs:139-151` `FieldAccessFlags::all()`. -/
def fieldMask : UInt16 :=
  PUBLIC ||| PRIVATE ||| PROTECTED ||| STATIC ||| FINAL ||| VOLATILE ||| TRANSIENT ||| SYNTHETIC ||| ENUM

open AccessFlags in
/-- `/repo/src/lib.rs:200-215` `MethodAccessFlags::all()`. -/
def methodMask : UInt16 :=
  PUBLIC ||| PRIVATE ||| PROTECTED ||| STATIC ||| FINAL ||| SYNCHRONIZED ||| BRIDGE ||| VARARGS ||| NATIVE
    ||| ABSTRACT ||| STRICT ||| SYNTHETIC

open AccessFlags in
/-- `/repo/src/lib.rs:278-290` `ClassAccessFlags::all()`. -/
def classMask : UInt16 :=
  PUBLIC ||| FINAL ||| SUPER ||| INTERFACE ||| ABSTRACT ||| SYNTHETIC ||| ANNOTATION ||| ENUM ||| MODULE

/-- bitflags `contains`: `self & other == other`. -/
def flagsContains16 (self other : UInt16) : Bool := (self &&& other) == other

/-- `read_cp_classinfo(..).and_then(ClassName::try_from)`. -/
def readClassName (pool : Pool) : P ClassName := do
  let s ← readCpClassinfo pool
  P.lift (ClassName.tryFrom s)

/-- `read_cp_classinfo_opt(..).and_then(|name| name.map(ClassName::try_from).transpose())`. -/
def readClassNameOpt (pool : Pool) : P (Option ClassName) := do
  match ← readCpClassinfoOpt pool with
  | none => pure none
  | some s => do
    let c ← P.lift (ClassName.tryFrom s)
    pure (some c)

/-- `/repo/src/lib.rs:94-109` `read_interfaces`. -/
def readInterfaces (pool : Pool) : P (List ClassName) :=
  readTable2 fun i => (readClassName pool).mapErr s!"interface {i}"

/-- `/repo/src/lib.rs:153-159` `struct FieldInfo`. -/
structure FieldInfo where
  accessFlags : UInt16
  name : Str
  descriptor : FieldDescriptor
  attributes : List AttributeInfo

/-- One iteration of `/repo/src/lib.rs:161-198` `read_fields`; `seen` is the `HashSet` `unique_ids`. -/
def readField (env : Env) (pool : Pool) (seen : List (Str × FieldDescriptor)) (i : Nat) : P FieldInfo := do
  let bits ← readU2
  let name ← (readCpUtf8 pool).mapErr s!"name of class field {i}"
  P.failIf (!isUnqualifiedName name) s!"Invalid unqualified name for class field {i}"
  let d ← (readCpUtf8 pool).mapErr s!"descriptor of class field {i}"
  let descriptor ← P.lift (parseFieldDescriptor d 0)
  P.failIf (seen.contains (name, descriptor)) s!"Class field {i} is duplicate of previously-encountered field"
  let attributes ← (readAttributes env pool env.depth).mapErr s!"class field {i}"
  pure { accessFlags := fromBitsTruncate fieldMask bits, name := name, descriptor := descriptor, attributes := attributes }

/-- The loop of `/repo/src/lib.rs:161-198` `read_fields` from field `i`, `n` to go. -/
def readFieldsFrom (env : Env) (pool : Pool) : List (Str × FieldDescriptor) → Nat → Nat → P (List FieldInfo)
  | _, _, 0 => pure []
  | seen, i, n + 1 => do
    let f ← readField env pool seen i
    let fs ← readFieldsFrom env pool ((f.name, f.descriptor) :: seen) (i + 1) n
    pure (f :: fs)

/-- `/repo/src/lib.rs:161-198` `read_fields`. -/
def readFields (env : Env) (pool : Pool) : P (List FieldInfo) := do
  let count ← readU2
  readFieldsFrom env pool [] 0 count.toNat

/-- `/repo/src/lib.rs:217-223` `struct MethodInfo`. -/
structure MethodInfo where
  accessFlags : UInt16
  name : Str
  descriptor : MethodDescriptor
  attributes : List AttributeInfo

/-- `read_cp_utf8(..).and_then(|d| parse_method_descriptor(&d, 0))`. -/
def readMethodDescriptor (pool : Pool) : P MethodDescriptor := do
  let d ← readCpUtf8 pool
  P.lift (parseMethodDescriptor d 0)

/-- One iteration of `/repo/src/lib.rs:225-276` `read_methods`; `seen` is the `HashSet` `unique_ids`. -/
def readMethod (env : Env) (pool : Pool) (inInterface : Bool) (majorVersion : UInt16)
    (seen : List (Str × MethodDescriptor)) (i : Nat) : P MethodInfo := do
  let bits ← readU2
  let name ← (readCpUtf8 pool).mapErr s!"name of class method {i}"
  let allowInit := !inInterface
  P.failIf (!isUnqualifiedMethodName name allowInit true) s!"Invalid unqualified name for class method {i}"
  let descriptor ← (readMethodDescriptor pool).mapErr s!"descriptor of class method {i}"
  P.failIf (allowInit && name == "<init>".toList && descriptor.returnType != .void)
    s!"Non-void method descriptor for init method {i}"
  P.failIf (name == "<clinit>".toList && descriptor.returnType != .void)
    s!"Non-void method descriptor for clinit method {i}"
  P.failIf (name == "<clinit>".toList && (majorVersion ≥ 51 && !descriptor.parameters.isEmpty))
    s!"Arguments found in descriptor for clinit method {i}"
  P.failIf (seen.contains (name, descriptor)) s!"Class method {i} is duplicate of previously-encountered method"
  let attributes ← (readAttributes env pool env.depth).mapErr s!"class method {i}"
  pure { accessFlags := fromBitsTruncate methodMask bits, name := name, descriptor := descriptor, attributes := attributes }

/-- The loop of `/repo/src/lib.rs:225-276` `read_methods` from method `i`, `n` to go. -/
def readMethodsFrom (env : Env) (pool : Pool) (inInterface : Bool) (majorVersion : UInt16) :
    List (Str × MethodDescriptor) → Nat → Nat → P (List MethodInfo)
  | _, _, 0 => pure []
  | seen, i, n + 1 => do
    let m ← readMethod env pool inInterface majorVersion seen i
    let ms ← readMethodsFrom env pool inInterface majorVersion ((m.name, m.descriptor) :: seen) (i + 1) n
    pure (m :: ms)

/-- `/repo/src/lib.rs:225-276` `read_methods`. -/
def readMethods (env : Env) (pool : Pool) (inInterface : Bool) (majorVersion : UInt16) : P (List MethodInfo) := do
  let count ← readU2
  readMethodsFrom env pool inInterface majorVersion [] 0 count.toNat

/-- The inner loop of `/repo/src/lib.rs:299-310` over the class attributes: index check, then the number found. -/
def countBootstrapMethods (x : UInt16) : Nat → List AttributeInfo → Res Nat
  | found, [] => .ok found
  | found, attr :: rest =>
    match attr.data with
    | .bootstrapMethods methods =>
      if x.toNat ≥ methods.length then
        Res.fail "Constant pool item contained invalid index into BootstrapMethods class attribute"
      else countBootstrapMethods x (found + 1) rest
    | _ => countBootstrapMethods x found rest

/-- `if found != 1 { fail!(..) }` after the inner loop, `/repo/src/lib.rs:311-313`. -/
def checkBootstrapIndex (x : UInt16) (attributes : List AttributeInfo) : Res Unit := do
  let found ← countBootstrapMethods x 0 attributes
  if found ≠ 1 then
    Res.fail s!"Found unexpected number of BootstrapMethods attributes in class; found {found}, expected 1"
  else .ok ()

/-- `/repo/src/lib.rs:292-319` `validate_bootstrap_methods`. -/
def validateBootstrapMethods : Pool → List AttributeInfo → Res Unit
  | [], _ => .ok ()
  | cpEntry :: pool, attributes =>
    match cpEntry with
    | .dynamic x _ => do
      checkBootstrapIndex x attributes
      validateBootstrapMethods pool attributes
    | .invokeDynamic x _ => do
      checkBootstrapIndex x attributes
      validateBootstrapMethods pool attributes
    | _ => validateBootstrapMethods pool attributes

/-- `/repo/src/lib.rs:322-333` `struct ClassFile`. -/
structure ClassFile where
  majorVersion : UInt16
  minorVersion : UInt16
  constantPool : Pool
  accessFlags : UInt16
  thisClass : ClassName
  superClass : Option ClassName
  interfaces : List ClassName
  fields : List FieldInfo
  methods : List MethodInfo
  attributes : List AttributeInfo

/-- `/repo/src/lib.rs:337-339` `ClassFile::constantpool_iter`. -/
def ClassFile.constantpoolIter (self : ClassFile) : ConstantPoolIter := ConstantPoolIter.new self.constantPool

open AccessFlags in
/-- `/repo/src/lib.rs:278-290` the flags of `ClassAccessFlags`, in the order of declaration, with their names. -/
def classFlagNames : List (UInt16 × String) :=
  [(PUBLIC, "PUBLIC"), (FINAL, "FINAL"), (SUPER, "SUPER"), (INTERFACE, "INTERFACE"), (ABSTRACT, "ABSTRACT"), (SYNTHETIC, "SYNTHETIC"),
   (ANNOTATION, "ANNOTATION"), (ENUM, "ENUM"), (MODULE, "MODULE")]

/-- The names written by the `Debug` that `bitflags!` derives for `ClassAccessFlags`, `/repo/src/lib.rs:278-290`: each flag that is contained, in
order, separated by ` | `; `first` says whether none has been written yet. -/
def debugFlagsFrom (flags : UInt16) : Bool → List (UInt16 × String) → String
  | first, [] => if first then "(empty)" else ""
  | first, (flag, name) :: rest =>
    if flagsContains16 flags flag then (if first then "" else " | ") ++ name ++ debugFlagsFrom flags false rest
    else debugFlagsFrom flags first rest

/-- `{:?}` of `ClassAccessFlags`, `/repo/src/lib.rs:278-290` (there are no bits other than those declared, after `from_bits_truncate`). -/
def debugClassFlags (flags : UInt16) : String := debugFlagsFrom flags true classFlagNames

/-- The flag checks of `/repo/src/lib.rs:385-401`. -/
def checkModuleFlags (accessFlags majorVersion : UInt16) : P Unit :=
  if flagsContains16 accessFlags AccessFlags.MODULE then
    if majorVersion < 53 then
      P.fail s!"Found invalid MODULE class access flag on class file of major version {majorVersion}"
    else if accessFlags != AccessFlags.MODULE then
      P.fail s!"Found invalid class access flags {debugClassFlags accessFlags}; no other flags should be set with MODULE"
    else pure ()
  else pure ()

/-- `if ix != raw_bytes.len() { fail!(..) }`, `/repo/src/lib.rs:420-422`. -/
def checkAtEnd : P Unit := fun bytes ix =>
  if ix ≠ bytes.length then Res.fail s!"Extra bytes found at index {ix} after reading class file"
  else .ok ((), ix)

/-- The checks of `/repo/src/lib.rs:424-444`. -/
def checkModuleEmpty (accessFlags : UInt16) (superClass : Option ClassName) (interfaces : List ClassName)
    (fields : List FieldInfo) (methods : List MethodInfo) : P Unit :=
  if flagsContains16 accessFlags AccessFlags.MODULE then
    match superClass with
    | some c => P.fail s!"Found non-empty super_class {String.ofList c.name}; expected none for module"
    | none =>
      if !interfaces.isEmpty then P.fail s!"Found {interfaces.length} interfaces; expected 0 for module"
      else if !fields.isEmpty then P.fail s!"Found {fields.length} fields; expected 0 for module"
      else if !methods.isEmpty then P.fail s!"Found {methods.length} methods; expected 0 for module"
      else pure ()
  else pure ()

/-- The body of `/repo/src/lib.rs:373-460` `parse_class_with_options` as a reader started at index 0. -/
def readClassFile (env : Env) : P ClassFile := do
  let magic ← readU4
  P.failIf (magic != 0xCAFEBABE) "Unexpected magic header"
  let minorVersion ← readU2
  let majorVersion ← readU2
  let constantPool ← readConstantPool env majorVersion
  let bits ← readU2
  let accessFlags := fromBitsTruncate classMask bits
  checkModuleFlags accessFlags majorVersion
  let thisClass ← (readClassName constantPool).mapErr "this_class"
  let superClass ← (readClassNameOpt constantPool).mapErr "super_class"
  let interfaces ← readInterfaces constantPool
  let fields ← readFields env constantPool
  let methods ← readMethods env constantPool (flagsContains16 accessFlags AccessFlags.INTERFACE) majorVersion
  let attributes ← (readAttributes env constantPool env.depth).mapErr "class"
  checkAtEnd
  checkModuleEmpty accessFlags superClass interfaces fields methods
  P.lift (validateBootstrapMethods constantPool attributes)
  pure { majorVersion := majorVersion, minorVersion := minorVersion, constantPool := constantPool,
         accessFlags := accessFlags, thisClass := thisClass, superClass := superClass, interfaces := interfaces,
         fields := fields, methods := methods, attributes := attributes }

/-- `/repo/src/lib.rs:373-460` `parse_class_with_options`; the options are in `env`. -/
def parseClassWithOptions (env : Env) (rawBytes : Bytes) : Res ClassFile := do
  let (cf, _) ← readClassFile env rawBytes 0
  .ok cf

/-- `/repo/src/lib.rs:342-345` `ParseOptions`. -/
structure ParseOptions where
  parseBytecode : Bool
  deriving DecidableEq, Repr

/-- `/repo/src/lib.rs:348-352` `ParseOptions::default`. -/
def ParseOptions.default : ParseOptions := { parseBytecode := true }

/-- `/repo/src/lib.rs:362-365` `ParseOptions::parse_bytecode` (the setter; it returns the options it changed). -/
def ParseOptions.setParseBytecode (_self : ParseOptions) (parse : Bool) : ParseOptions := { parseBytecode := parse }

/-- The environment of a call with the given options. The model keeps `opts.parse_bytecode` in `Env`; nothing else is in `ParseOptions`. -/
def Env.withOptions (env : Env) (opts : ParseOptions) : Env := { env with parseBytecode := opts.parseBytecode }

/-- `/repo/src/lib.rs:369-371` `parse_class`. -/
def parseClass (env : Env) (rawBytes : Bytes) : Res ClassFile :=
  parseClassWithOptions (env.withOptions ParseOptions.default) rawBytes

end Cafebabe
