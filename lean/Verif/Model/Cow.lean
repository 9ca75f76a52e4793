import Verif.Model.ConstantPool
import Verif.Model.Cesu8
/-!
# Model: who owns the text (`Cow<'a, str>`)

Elsewhere in the model a `Cow<'a, str>` is just its text. Here it also says whether it is borrowed, and from where in the input. Modelled are
the places that make a `Cow`: decoding (`/repo/src/constant_pool.rs:442-468`, `/repo/src/attributes.rs:1125-1135`) and descriptors
(`/repo/src/descriptors.rs:77-301`). Everywhere else a `Cow` is moved or cloned (`/repo/src/constant_pool.rs:400,407,724,737`); a clone of a
borrowed `Cow` is borrowed from the same place and a clone of an owned one is an owned copy (standard library).
-/

namespace Cafebabe

/-- `Cow<'a, str>` where `'a` is the lifetime of the input: `start = some p` is `Cow::Borrowed` with data at offset `p` of the input,
`start = none` is `Cow::Owned`. -/
structure Cow where
  text : Str
  start : Option Nat
deriving DecidableEq, Repr

/-- `cesu8::from_java_cesu8` (crate `cesu8` 1.1.0; see `Model/Cesu8`) on the bytes at offset `p` of the input: valid UTF-8 is
borrowed, anything else is decoded into a new `String`. Called in `/repo/src/constant_pool.rs:464` and `/repo/src/attributes.rs:1128`. -/
def decodeCow (data : Bytes) (p : Nat) : Option Cow :=
  match Cesu8.fromUtf8 data with
  | some s => some ⟨s, some p⟩
  | none => (Cesu8.fromJava data).map fun s => ⟨s, none⟩

/-- `/repo/src/constant_pool.rs:442-468` `read_constant_utf8`: `Utf8(cow)` or `Utf8Bytes(slice)`. -/
def readConstantUtf8Cow : P (Cow ⊕ Bytes) := do
  let length ← readU2
  let ix ← P.getIx
  let modifiedUtf8Data ← takeBytes length.toNat s!"Unexpected end of stream reading CONSTANT_Utf8 at index {ix}"
  match decodeCow modifiedUtf8Data ix with
  | some rustStr => pure (.inl rustStr)
  | none => pure (.inr modifiedUtf8Data)

/-- The two arms `Cow::Borrowed(&data[i..j])` and `Cow::Owned(data[i..j].to_string())` of `/repo/src/descriptors.rs:85-92`. -/
def Cow.slice (data : Cow) (i j : Nat) : Res Cow := do
  let t ← strSlice data.text i j
  .ok ⟨t, data.start.map (· + i)⟩

/-- The `loop` of `/repo/src/descriptors.rs:77-99` `parse_class_descriptor`. -/
def classDescriptorLoopCow (data : Cow) (index : Nat) : Nat → Nat → Res Cow
  | 0, _ => .diverge
  | fuel + 1, nextIndex => do
    let tail ← strFrom data.text nextIndex
    match ← parseUnqualifiedSegment tail with
    | (_, none) => Res.fail "Unterminated unqualified segment"
    | (segment, some c) =>
      if c == ';' then data.slice index (nextIndex + strLen segment)
      else if c == '/' then classDescriptorLoopCow data index fuel (nextIndex + strLen segment + 1)
      else .panic .segment

/-- `/repo/src/descriptors.rs:77-99` `parse_class_descriptor`. -/
def parseClassDescriptorCow (data : Cow) (index : Nat) : Res Cow :=
  classDescriptorLoopCow data index (strLen data.text + 1) index

/-- `/repo/src/descriptors.rs:101-112` `enum FieldType`; the primitive types own nothing and are taken from the plain model. -/
inductive FieldTypeCow where
  | prim (t : FieldType)
  | object (c : Cow)
deriving DecidableEq, Repr

/-- `/repo/src/descriptors.rs:140-145` `struct FieldDescriptor`. -/
structure FieldDescriptorCow where
  dimensions : UInt8
  fieldType : FieldTypeCow
deriving DecidableEq, Repr

/-- `/repo/src/descriptors.rs:115-121` `FieldType::byte_len`. -/
def FieldTypeCow.byteLen : FieldTypeCow → Nat
  | .object className => 2 + strLen className.text
  | .prim _ => 1

/-- `/repo/src/descriptors.rs:148-150` `FieldDescriptor::byte_len`. -/
def FieldDescriptorCow.byteLen (d : FieldDescriptorCow) : Nat := d.dimensions.toNat + d.fieldType.byteLen

/-- The `match c` of `/repo/src/descriptors.rs:179-190`: the type that begins with `c`; `index` is the index after `c`. -/
def fieldTypeCow (data : Cow) (index : Nat) (c : Char) : Res FieldTypeCow :=
  if c == 'B' then .ok (.prim .byte)
  else if c == 'C' then .ok (.prim .char)
  else if c == 'D' then .ok (.prim .double)
  else if c == 'F' then .ok (.prim .float)
  else if c == 'I' then .ok (.prim .integer)
  else if c == 'J' then .ok (.prim .long)
  else if c == 'S' then .ok (.prim .short)
  else if c == 'Z' then .ok (.prim .boolean)
  else if c == 'L' then do
    let n ← parseClassDescriptorCow data index
    .ok (.object n)
  else Res.fail "Unexpected field type"

/-- The `for c in data[index..].chars()` loop of `/repo/src/descriptors.rs:166-197`. -/
def parseFieldDescriptorLoopCow (data : Cow) (index : Nat) (dimensions : Nat) : Str → Res FieldDescriptorCow
  | [] => Res.fail "Empty string is not a field descriptor"
  | c :: rest =>
    if c == '[' then
      if dimensions + 1 > 255 then Res.fail "Dimensions in field descriptor exceeded allowed limit"
      else parseFieldDescriptorLoopCow data index (dimensions + 1) rest
    else do
      let fieldType ← fieldTypeCow data (index + dimensions + 1) c
      .ok { dimensions := UInt8.ofNat dimensions, fieldType := fieldType }

/-- `/repo/src/descriptors.rs:166-197` `parse_field_descriptor`. -/
def parseFieldDescriptorCow (data : Cow) (index : Nat) : Res FieldDescriptorCow := do
  let tail ← strFrom data.text index
  parseFieldDescriptorLoopCow data index 0 tail

/-- `/repo/src/descriptors.rs:199-203` `enum ReturnDescriptor`: `none` is `Void`. -/
abbrev ReturnDescriptorCow := Option FieldDescriptorCow

/-- `/repo/src/descriptors.rs:222-233` `parse_return_descriptor`. -/
def parseReturnDescriptorCow (data : Cow) (index : Nat) : Res ReturnDescriptorCow := do
  let tail ← strFrom data.text index
  if tail == ['V'] then .ok none
  else do
    let d ← parseFieldDescriptorCow data index
    .ok (some d)

/-- `/repo/src/descriptors.rs:235-239` `struct MethodDescriptor`. -/
structure MethodDescriptorCow where
  parameters : List FieldDescriptorCow
  returnType : ReturnDescriptorCow
deriving DecidableEq, Repr

/-- The parameter `loop` of `/repo/src/descriptors.rs:274-281`. -/
def parametersLoopCow (data : Cow) (bytes : Bytes) : Nat → Nat → Res (List FieldDescriptorCow × Nat)
  | 0, _ => .diverge
  | fuel + 1, index =>
    if bytes.length > index && bytes[index]? == some 41 then .ok ([], index)
    else do
      let parameter ← parseFieldDescriptorCow data index
      let (ps, last) ← parametersLoopCow data bytes fuel (index + parameter.byteLen)
      .ok (parameter :: ps, last)

/-- `/repo/src/descriptors.rs:264-288` `parse_method_descriptor`. -/
def parseMethodDescriptorCow (data : Cow) (index : Nat) : Res MethodDescriptorCow :=
  let bytes := asBytes data.text
  if bytes.length ≤ index || bytes[index]? != some 40 then
    Res.fail "Method descriptor must start with '('"
  else do
    let (parameters, close) ← parametersLoopCow data bytes (bytes.length + 1) (index + 1)
    let returnType ← parseReturnDescriptorCow data (close + 1)
    .ok { parameters := parameters, returnType := returnType }

end Cafebabe
