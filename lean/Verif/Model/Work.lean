import Verif.Model.ConstantPool
/-!
# Model: how much work the checks of names, descriptors and constants do

The functions of `/repo/src/names.rs`, `/repo/src/descriptors.rs` and the `validate` functions of `/repo/src/constant_pool.rs` once more, each
giving its outcome together with a number of steps. A step is: one `char` taken from an iterator over a string; one turn of a `loop`; one
reference followed (`peel!`); one comparison with a constant string; one character of a class name copied out of a descriptor; one
parameter added up by `byte_len`; one constant looked at by `validate_constant_pool`. Free are: slicing and `len` of a string, integer
arithmetic, a `match`, and making the error value. Where the library function called is lazy (`split`, `all`) so is its count. A class name
is counted as copied even when the code only borrows it (`/repo/src/descriptors.rs:86-88`).
-/

namespace Cafebabe

/-- An outcome and the number of steps to get there. -/
structure Timed (α : Type) where
  out : Res α
  steps : Nat

namespace Timed

/-- Sequencing: the second part runs, and counts, only when the first one returns `Ok`. -/
def bind {α β : Type} (t : Timed α) (f : α → Timed β) : Timed β :=
  match t.out with
  | .ok a => ⟨(f a).out, t.steps + (f a).steps⟩
  | .err e => ⟨.err e, t.steps⟩
  | .panic k => ⟨.panic k, t.steps⟩
  | .diverge => ⟨.diverge, t.steps⟩

instance : Monad Timed where
  pure a := ⟨.ok a, 0⟩
  bind := bind

/-- Something that costs nothing. -/
def free {α : Type} (r : Res α) : Timed α := ⟨r, 0⟩

/-- `n` steps. -/
def tick (n : Nat) : Timed Unit := ⟨.ok (), n⟩

/-- `.map_err(..)` costs nothing. -/
def mapErr {α : Type} (t : Timed α) (context : String) : Timed α := ⟨t.out.mapErr context, t.steps⟩

end Timed

open Timed

/-- `chars.all(f)`: one step per character up to and including the first that fails. -/
def allT (f : Char → Bool) : Str → Timed Bool
  | [] => free (.ok true)
  | c :: rest => do
    tick 1
    if f c then allT f rest else free (.ok false)

/-- `/repo/src/names.rs:10-12` `is_unqualified_name`. -/
def isUnqualifiedNameT (name : Str) : Timed Bool := if name.isEmpty then free (.ok false) else allT isValidUnqualifiedChar name

/-- The `for segment in name.split('/')` loop of `/repo/src/names.rs:1-8`; finding the end of a segment looks at each of its characters and
at the slash or the end behind it. -/
def segmentsT : List Str → Timed Bool
  | [] => free (.ok true)
  | segment :: rest => do
    tick (segment.length + 1)
    let good ← isUnqualifiedNameT segment
    if good then segmentsT rest else free (.ok false)

/-- `/repo/src/names.rs:1-8` `is_binary_name`. -/
def isBinaryNameT (name : Str) : Timed Bool := segmentsT (splitSlash name)

/-- `/repo/src/names.rs:18-29` `is_unqualified_method_name`. -/
def isUnqualifiedMethodNameT (name : Str) (allowInit allowClinit : Bool) : Timed Bool :=
  match name with
  | [] => free (.ok false)
  | x :: chars => do
    tick 1
    if x == '<' then do
      tick 2
      free (.ok ((allowInit && name == "<init>".toList) || (allowClinit && name == "<clinit>".toList)))
    else if !isValidUnqualifiedMethodChar x then free (.ok false)
    else allT isValidUnqualifiedMethodChar chars

/-- `/repo/src/names.rs:35-50` `is_module_name`. -/
def isModuleNameT : Str → Timed Bool
  | [] => free (.ok true)
  | c :: chars => do
    tick 1
    if c.toNat ≤ 0x1F then free (.ok false)
    else if c == '\\' then
      match chars with
      | [] => free (.ok false)
      | d :: rest => do
        tick 1
        if d == '\\' || d == ':' || d == '@' then isModuleNameT rest else free (.ok false)
    else if c == ':' || c == '@' then free (.ok false)
    else isModuleNameT chars

/-- The loop of `/repo/src/descriptors.rs:13-24` `parse_unqualified_segment`. -/
def parseUnqualifiedSegmentAuxT (data : Str) (ix : Nat) : Str → Timed (Str × Option Char)
  | [] => free (.ok (data, none))
  | c :: rest => do
    tick 1
    if c == '/' && ix == 0 then free (Res.fail "Unexpected '/' at start of unqualified segment")
    else if c == ';' && ix == 0 then free (Res.fail "Unexpected ';' at start of unqualified segment")
    else if c == '/' || c == ';' then do
      let seg ← free (strSlice data 0 ix)
      free (.ok (seg, some c))
    else if c == '.' || c == '[' || c == '<' || c == '>' then
      free (Res.fail "Disallowed character in unqualified segment")
    else parseUnqualifiedSegmentAuxT data (ix + c.utf8Size) rest

/-- `/repo/src/descriptors.rs:13-24` `parse_unqualified_segment`. -/
def parseUnqualifiedSegmentT (data : Str) : Timed (Str × Option Char) := parseUnqualifiedSegmentAuxT data 0 data

/-- The `loop` of `/repo/src/descriptors.rs:35-46` `ClassName::try_from`. -/
def classNameLoopT (value : Str) : Nat → Nat → Timed Unit
  | 0, _ => free .diverge
  | fuel + 1, index => do
    tick 1
    let tail ← free (strFrom value index)
    match ← parseUnqualifiedSegmentT tail with
    | (_, none) => free (.ok ())
    | (segment, some c) =>
      if c == ';' then free (Res.fail "Disallowed ';' in class name")
      else if c == '/' then classNameLoopT value fuel (index + strLen segment + 1)
      else free (.panic .segment)

/-- `/repo/src/descriptors.rs:35-46` `ClassName::try_from`. -/
def ClassName.tryFromT (value : Str) : Timed ClassName := do
  classNameLoopT value (strLen value + 1) 0
  free (.ok ⟨value⟩)

/-- The `loop` of `/repo/src/descriptors.rs:77-99` `parse_class_descriptor`. -/
def classDescriptorLoopT (data : Str) (index : Nat) : Nat → Nat → Timed ClassName
  | 0, _ => free .diverge
  | fuel + 1, nextIndex => do
    tick 1
    let tail ← free (strFrom data nextIndex)
    match ← parseUnqualifiedSegmentT tail with
    | (_, none) => free (Res.fail "Unterminated unqualified segment")
    | (segment, some c) =>
      if c == ';' then do
        let name ← free (strSlice data index (nextIndex + strLen segment))
        tick name.length
        free (.ok ⟨name⟩)
      else if c == '/' then classDescriptorLoopT data index fuel (nextIndex + strLen segment + 1)
      else free (.panic .segment)

/-- `/repo/src/descriptors.rs:77-99` `parse_class_descriptor`. -/
def parseClassDescriptorT (data : Str) (index : Nat) : Timed ClassName := classDescriptorLoopT data index (strLen data + 1) index

/-- The `match c { .. }` of `/repo/src/descriptors.rs:179-190`. -/
def fieldTypeT (data : Str) (start : Nat) (c : Char) : Timed FieldType :=
  if c == 'B' then free (.ok .byte)
  else if c == 'C' then free (.ok .char)
  else if c == 'D' then free (.ok .double)
  else if c == 'F' then free (.ok .float)
  else if c == 'I' then free (.ok .integer)
  else if c == 'J' then free (.ok .long)
  else if c == 'S' then free (.ok .short)
  else if c == 'Z' then free (.ok .boolean)
  else if c == 'L' then do
    let n ← parseClassDescriptorT data start
    free (.ok (.object n))
  else free (Res.fail "Unexpected field type")

/-- The loop of `/repo/src/descriptors.rs:166-197` `parse_field_descriptor`. -/
def parseFieldDescriptorLoopT (data : Str) (index : Nat) (dimensions : Nat) : Str → Timed FieldDescriptor
  | [] => free (Res.fail "Empty string is not a field descriptor")
  | c :: rest => do
    tick 1
    if c == '[' then
      if dimensions + 1 > 255 then free (Res.fail "Dimensions in field descriptor exceeded allowed limit")
      else parseFieldDescriptorLoopT data index (dimensions + 1) rest
    else do
      let fieldType ← fieldTypeT data (index + dimensions + 1) c
      free (.ok { dimensions := UInt8.ofNat dimensions, fieldType := fieldType })

/-- `/repo/src/descriptors.rs:166-197` `parse_field_descriptor`. -/
def parseFieldDescriptorT (data : Str) (index : Nat) : Timed FieldDescriptor := do
  let tail ← free (strFrom data index)
  parseFieldDescriptorLoopT data index 0 tail

/-- `/repo/src/descriptors.rs:222-233` `parse_return_descriptor`. -/
def parseReturnDescriptorT (data : Str) (index : Nat) : Timed ReturnDescriptor := do
  let tail ← free (strFrom data index)
  tick 1
  if tail == ['V'] then free (.ok .void)
  else do
    let d ← parseFieldDescriptorT data index
    free (.ok (.ret d))

/-- The parameter `loop` of `/repo/src/descriptors.rs:274-281`. -/
def parametersLoopT (data : Str) (bytes : Bytes) : Nat → Nat → Timed (List FieldDescriptor × Nat)
  | 0, _ => free .diverge
  | fuel + 1, index => do
    tick 1
    if bytes.length > index && bytes[index]? == some 41 then free (.ok ([], index))
    else do
      let parameter ← parseFieldDescriptorT data index
      let (ps, last) ← parametersLoopT data bytes fuel (index + parameter.byteLen)
      free (.ok (parameter :: ps, last))

/-- `/repo/src/descriptors.rs:264-288` `parse_method_descriptor`. -/
def parseMethodDescriptorT (data : Str) (index : Nat) : Timed MethodDescriptor :=
  let bytes := asBytes data
  if bytes.length ≤ index || bytes[index]? != some 40 then
    free (Res.fail "Method descriptor must start with '('")
  else do
    let (parameters, close) ← parametersLoopT data bytes (bytes.length + 1) (index + 1)
    let returnType ← parseReturnDescriptorT data (close + 1)
    free (.ok { parameters := parameters, returnType := returnType })

/-- `/repo/src/descriptors.rs:290-301` `parse_array_descriptor`. -/
def parseArrayDescriptorT (data : Str) : Timed (Option FieldDescriptor) :=
  if data.isEmpty || (asBytes data)[0]? != some 91 then free (.ok none)
  else do
    let desc ← parseFieldDescriptorT data 0
    if strLen data != desc.byteLen then free (Res.fail "Not a field descriptor")
    else free (.ok (some desc))

/-- `match parse(..) { Ok(desc) => name.len() == desc.byte_len(), Err(_) => false }`, the steps being those of the parse. -/
def lenMatchesT {α : Type} (name : Str) (byteLen : α → Nat) (t : Timed α) : Timed Bool := ⟨lenMatches name byteLen t.out, t.steps⟩

/-- `/repo/src/descriptors.rs:303-308` `is_field_descriptor`. -/
def isFieldDescriptorT (name : Str) : Timed Bool := lenMatchesT name FieldDescriptor.byteLen (parseFieldDescriptorT name 0)

/-- `/repo/src/descriptors.rs:310-312` `is_array_descriptor`. -/
def isArrayDescriptorT (name : Str) : Timed Bool := do
  if ← isFieldDescriptorT name then do
    let b ← free (byteAt (asBytes name) 0)
    free (.ok (b == 91))
  else free (.ok false)

/-- The `fold` of `/repo/src/descriptors.rs:254-261` `MethodDescriptor::byte_len`, after a successful parse. -/
def addUpT (d : MethodDescriptor) : Timed MethodDescriptor := do
  tick d.parameters.length
  free (.ok d)

/-- `/repo/src/descriptors.rs:314-319` `is_method_descriptor`. -/
def isMethodDescriptorT (name : Str) : Timed Bool := lenMatchesT name MethodDescriptor.byteLen (parseMethodDescriptorT name 0 >>= addUpT)

/-- `peel!(r)`, `/repo/src/constant_pool.rs:56-76`. -/
def peelT (pool : Pool) (r : CPRef) : Timed Entry := do
  tick 1
  free (peel pool r)

/-- `/repo/src/constant_pool.rs:99-101` `CafeCell::ensure_type`. -/
def CPRef.ensureTypeT (pool : Pool) (x : CPRef) (allowed : UInt32) : Timed Unit := do
  let e ← peelT pool x
  free (e.ensureType allowed)

/-- `/repo/src/constant_pool.rs:337-345` `validate_classinfo_name`. -/
def Entry.validateClassinfoNameT (self : Entry) : Timed Unit := do
  let x ← free self.str
  if ← isBinaryNameT x then free (.ok ())
  else do
    let b ← isArrayDescriptorT x
    free (okIf b "Invalid classinfo name")

/-- `/repo/src/constant_pool.rs:347-353` `validate_binary_name`. -/
def Entry.validateBinaryNameT (self : Entry) : Timed Unit := do
  let x ← free self.str
  let b ← isBinaryNameT x
  free (okIf b "Invalid binary name")

/-- `/repo/src/constant_pool.rs:355-362` `validate_unqualified_name`. -/
def Entry.validateUnqualifiedNameT (self : Entry) : Timed Unit := do
  let s ← free self.str
  if ← isUnqualifiedNameT s then free (.ok ())
  else do
    let b ← isUnqualifiedMethodNameT s true false
    free (okIf b "Invalid unqualified name")

/-- `/repo/src/constant_pool.rs:364-370` `validate_module_name`. -/
def Entry.validateModuleNameT (self : Entry) : Timed Unit := do
  let x ← free self.str
  let b ← isModuleNameT x
  free (okIf b "Invalid module name")

/-- `/repo/src/constant_pool.rs:372-383` `validate_field_descriptor`. -/
def Entry.validateFieldDescriptorT (pool : Pool) (self : Entry) : Timed Unit :=
  match self with
  | .nameAndType _ y => do
    let e ← peelT pool y
    let s ← free e.str
    let b ← isFieldDescriptorT s
    free (okIf b "Invalid field descriptor")
  | _ => free (.panic .nonDescriptor)

/-- `/repo/src/constant_pool.rs:385-396` `validate_method_descriptor`. -/
def Entry.validateMethodDescriptorT (pool : Pool) : Nat → Entry → Timed Unit
  | 0, _ => free .diverge
  | depth + 1, self =>
    match self with
    | .nameAndType _ y => do
      let e ← peelT pool y
      Entry.validateMethodDescriptorT pool depth e
    | e => do
      let s ← free e.str
      let b ← isMethodDescriptorT s
      free (okIf b "Invalid method descriptor")

/-- `/repo/src/constant_pool.rs:238-314` `ConstantPoolEntry::validate`. -/
def Entry.validateT (depth : Nat) (pool : Pool) (majorVersion : UInt16) (self : Entry) : Timed Unit :=
  match self with
  | .classInfo x => do
    x.ensureTypeT pool EntryTypes.UTF8
    let e ← peelT pool x
    e.validateClassinfoNameT
  | .string x => x.ensureTypeT pool EntryTypes.UTF8
  | .fieldRef x y => do
    x.ensureTypeT pool EntryTypes.CLASS_INFO
    y.ensureTypeT pool EntryTypes.NAME_AND_TYPE
    let e ← peelT pool y
    e.validateFieldDescriptorT pool
  | .methodRef x y => do
    x.ensureTypeT pool EntryTypes.CLASS_INFO
    y.ensureTypeT pool EntryTypes.NAME_AND_TYPE
    let e ← peelT pool y
    e.validateMethodDescriptorT pool depth
  | .interfaceMethodRef x y => do
    x.ensureTypeT pool EntryTypes.CLASS_INFO
    y.ensureTypeT pool EntryTypes.NAME_AND_TYPE
    let e ← peelT pool y
    e.validateMethodDescriptorT pool depth
  | .nameAndType x y => do
    x.ensureTypeT pool EntryTypes.UTF8
    let e ← peelT pool x
    e.validateUnqualifiedNameT
    y.ensureTypeT pool EntryTypes.UTF8
  | .methodHandle x y => y.ensureTypeT pool (handleTargetTypes x majorVersion)
  | .methodType x => do
    x.ensureTypeT pool EntryTypes.UTF8
    let e ← peelT pool x
    e.validateMethodDescriptorT pool depth
  | .dynamic _ y => do
    y.ensureTypeT pool EntryTypes.NAME_AND_TYPE
    let e ← peelT pool y
    e.validateFieldDescriptorT pool
  | .invokeDynamic _ y => do
    y.ensureTypeT pool EntryTypes.NAME_AND_TYPE
    let e ← peelT pool y
    e.validateMethodDescriptorT pool depth
  | .moduleInfo x => do
    x.ensureTypeT pool EntryTypes.UTF8
    let e ← peelT pool x
    e.validateModuleNameT
  | .packageInfo x => do
    x.ensureTypeT pool EntryTypes.UTF8
    let e ← peelT pool x
    e.validateBinaryNameT
  | .zero | .utf8 _ | .utf8Bytes _ | .integer _ | .float _ | .long _ | .double _ | .unused => free (.ok ())

/-- `/repo/src/constant_pool.rs:641-651` `validate_constant_pool`, from slot `i`. -/
def validateFromT (depth : Nat) (pool : Pool) (majorVersion : UInt16) : Nat → List Entry → Timed Unit
  | _, [] => free (.ok ())
  | i, e :: es => do
    tick 1
    (e.validateT depth pool majorVersion).mapErr s!"constant pool entry {i}"
    validateFromT depth pool majorVersion (i + 1) es

/-- `/repo/src/constant_pool.rs:641-651` `validate_constant_pool`. -/
def validateConstantPoolT (depth : Nat) (pool : Pool) (majorVersion : UInt16) : Timed Unit :=
  validateFromT depth pool majorVersion 0 pool

end Cafebabe
