import Verif.Model.Basic
/-!
# Model: descriptors and class names (`/repo/src/descriptors.rs`)

Strings are `List Char`; `str.len()`, `as_bytes()` and slicing use UTF-8 byte offsets.
-/

namespace Cafebabe

/-- `str::len` / `Cow<str>::len`: length in UTF-8 bytes. -/
def strLen : Str → Nat
  | [] => 0
  | c :: s => c.utf8Size + strLen s

/-- `&s[i..]`: panics when `i` is past the end or not on a char boundary. -/
def strFrom : Str → Nat → Res Str
  | s, 0 => .ok s
  | [], _ + 1 => .panic .strSlice
  | c :: s, i + 1 => if c.utf8Size ≤ i + 1 then strFrom s (i + 1 - c.utf8Size) else .panic .strSlice

/-- `&s[..n]`: panics when `n` is past the end or not on a char boundary. -/
def strTo : Str → Nat → Res Str
  | _, 0 => .ok []
  | [], _ + 1 => .panic .strSlice
  | c :: s, n + 1 =>
    if c.utf8Size ≤ n + 1 then do
      let r ← strTo s (n + 1 - c.utf8Size)
      .ok (c :: r)
    else .panic .strSlice

/-- `&s[i..j]`: panics when `i > j`, out of range, or not on char boundaries. -/
def strSlice (s : Str) (i j : Nat) : Res Str :=
  if i ≤ j then do
    let t ← strFrom s i
    strTo t (j - i)
  else .panic .strSlice

/-- `s.as_bytes()`. -/
def asBytes (s : Str) : Bytes := s.flatMap String.utf8EncodeChar

/-- The loop of `/repo/src/descriptors.rs:13-24` `parse_unqualified_segment` over `data.char_indices()`;
`ix` is the byte index of the current char. -/
def parseUnqualifiedSegmentAux (data : Str) (ix : Nat) : Str → Res (Str × Option Char)
  | [] => .ok (data, none)
  | c :: rest =>
    if c == '/' && ix == 0 then Res.fail "Unexpected '/' at start of unqualified segment"
    else if c == ';' && ix == 0 then Res.fail "Unexpected ';' at start of unqualified segment"
    else if c == '/' || c == ';' then do
      let seg ← strSlice data 0 ix
      .ok (seg, some c)
    else if c == '.' || c == '[' || c == '<' || c == '>' then
      Res.fail "Disallowed character in unqualified segment"
    else parseUnqualifiedSegmentAux data (ix + c.utf8Size) rest

/-- `/repo/src/descriptors.rs:13-24` `parse_unqualified_segment`. -/
def parseUnqualifiedSegment (data : Str) : Res (Str × Option Char) :=
  parseUnqualifiedSegmentAux data 0 data

/-- `/repo/src/descriptors.rs:28-29` `struct ClassName`. -/
structure ClassName where
  name : Str
deriving DecidableEq, Repr

/-- The `loop` of `/repo/src/descriptors.rs:35-46` (`fuel` bounds the iterations; shown sufficient). -/
def classNameLoop (value : Str) : Nat → Nat → Res Unit
  | 0, _ => .diverge
  | fuel + 1, index => do
    let tail ← strFrom value index
    match ← parseUnqualifiedSegment tail with
    | (_, none) => .ok ()
    | (segment, some c) =>
      if c == ';' then Res.fail "Disallowed ';' in class name"
      else if c == '/' then classNameLoop value fuel (index + strLen segment + 1)
      else .panic .segment

/-- `/repo/src/descriptors.rs:35-46` `ClassName::try_from`. -/
def ClassName.tryFrom (value : Str) : Res ClassName := do
  classNameLoop value (strLen value + 1) 0
  .ok ⟨value⟩

/-- The `loop` of `/repo/src/descriptors.rs:77-99` `parse_class_descriptor`. Borrowed and owned `Cow` give the same text. -/
def classDescriptorLoop (data : Str) (index : Nat) : Nat → Nat → Res ClassName
  | 0, _ => .diverge
  | fuel + 1, nextIndex => do
    let tail ← strFrom data nextIndex
    match ← parseUnqualifiedSegment tail with
    | (_, none) => Res.fail "Unterminated unqualified segment"
    | (segment, some c) =>
      if c == ';' then do
        let name ← strSlice data index (nextIndex + strLen segment)
        .ok ⟨name⟩
      else if c == '/' then classDescriptorLoop data index fuel (nextIndex + strLen segment + 1)
      else .panic .segment

/-- `/repo/src/descriptors.rs:77-99` `parse_class_descriptor`. -/
def parseClassDescriptor (data : Str) (index : Nat) : Res ClassName :=
  classDescriptorLoop data index (strLen data + 1) index

/-- `/repo/src/descriptors.rs:101-112` `enum FieldType`. -/
inductive FieldType where
  | byte | char | double | float | integer | long | short | boolean
  | object (c : ClassName)
deriving DecidableEq, Repr

/-- `/repo/src/descriptors.rs:64-66` `ClassName::byte_len`. -/
def ClassName.byteLen (c : ClassName) : Nat := strLen c.name

/-- `/repo/src/descriptors.rs:115-121` `FieldType::byte_len`. -/
def FieldType.byteLen : FieldType → Nat
  | .object className => 2 + className.byteLen
  | _ => 1

/-- `/repo/src/descriptors.rs:124-138` `impl Display for FieldType` (and `ClassName`, lines 69-73). -/
def FieldType.display : FieldType → Str
  | .byte => ['B']
  | .char => ['C']
  | .double => ['D']
  | .float => ['F']
  | .integer => ['I']
  | .long => ['J']
  | .short => ['S']
  | .boolean => ['Z']
  | .object obj => 'L' :: obj.name ++ [';']

/-- `/repo/src/descriptors.rs:140-145` `struct FieldDescriptor`. -/
structure FieldDescriptor where
  dimensions : UInt8
  fieldType : FieldType
deriving DecidableEq, Repr

/-- `/repo/src/descriptors.rs:148-150` `FieldDescriptor::byte_len`. -/
def FieldDescriptor.byteLen (d : FieldDescriptor) : Nat := d.dimensions.toNat + d.fieldType.byteLen

/-- `/repo/src/descriptors.rs:153-162` `impl Display for FieldDescriptor`. -/
def FieldDescriptor.display (d : FieldDescriptor) : Str :=
  List.replicate d.dimensions.toNat '[' ++ d.fieldType.display

/-- The `for c in data[index..].chars()` loop of `/repo/src/descriptors.rs:166-197`. -/
def parseFieldDescriptorLoop (data : Str) (index : Nat) (dimensions : Nat) : Str → Res FieldDescriptor
  | [] => Res.fail "Empty string is not a field descriptor"
  | c :: rest =>
    if c == '[' then
      if dimensions + 1 > 255 then Res.fail "Dimensions in field descriptor exceeded allowed limit"
      else parseFieldDescriptorLoop data index (dimensions + 1) rest
    else do
      let fieldType ←
        if c == 'B' then Res.ok FieldType.byte
        else if c == 'C' then Res.ok FieldType.char
        else if c == 'D' then Res.ok FieldType.double
        else if c == 'F' then Res.ok FieldType.float
        else if c == 'I' then Res.ok FieldType.integer
        else if c == 'J' then Res.ok FieldType.long
        else if c == 'S' then Res.ok FieldType.short
        else if c == 'Z' then Res.ok FieldType.boolean
        else if c == 'L' then do
          let n ← parseClassDescriptor data (index + dimensions + 1)
          Res.ok (FieldType.object n)
        else Res.fail "Unexpected field type"
      .ok { dimensions := UInt8.ofNat dimensions, fieldType := fieldType }

/-- `/repo/src/descriptors.rs:166-197` `parse_field_descriptor`. -/
def parseFieldDescriptor (data : Str) (index : Nat) : Res FieldDescriptor := do
  let tail ← strFrom data index
  parseFieldDescriptorLoop data index 0 tail

/-- `/repo/src/descriptors.rs:199-203` `enum ReturnDescriptor`. -/
inductive ReturnDescriptor where
  | ret (d : FieldDescriptor)
  | void
deriving DecidableEq, Repr

/-- `/repo/src/descriptors.rs:204-211` `impl Display for ReturnDescriptor`. -/
def ReturnDescriptor.display : ReturnDescriptor → Str
  | .void => ['V']
  | .ret field => field.display

/-- `/repo/src/descriptors.rs:214-219` `ReturnDescriptor::byte_len`. -/
def ReturnDescriptor.byteLen : ReturnDescriptor → Nat
  | .ret d => d.byteLen
  | .void => 1

/-- `/repo/src/descriptors.rs:222-233` `parse_return_descriptor`. -/
def parseReturnDescriptor (data : Str) (index : Nat) : Res ReturnDescriptor := do
  let tail ← strFrom data index
  if tail == ['V'] then .ok .void
  else do
    let d ← parseFieldDescriptor data index
    .ok (.ret d)

/-- `/repo/src/descriptors.rs:235-239` `struct MethodDescriptor`. -/
structure MethodDescriptor where
  parameters : List FieldDescriptor
  returnType : ReturnDescriptor
deriving DecidableEq, Repr

/-- `/repo/src/descriptors.rs:241-251` `impl Display for MethodDescriptor`. -/
def MethodDescriptor.display (d : MethodDescriptor) : Str :=
  '(' :: (d.parameters.flatMap FieldDescriptor.display ++ ')' :: d.returnType.display)

/-- `/repo/src/descriptors.rs:254-261` `MethodDescriptor::byte_len`. -/
def MethodDescriptor.byteLen (d : MethodDescriptor) : Nat :=
  1 + d.parameters.foldl (fun sum param => sum + param.byteLen) 0 + 1 + d.returnType.byteLen

/-- The parameter `loop` of `/repo/src/descriptors.rs:274-281`; returns the parameters and the index of the `)`. -/
def parametersLoop (data : Str) (bytes : Bytes) : Nat → Nat → Res (List FieldDescriptor × Nat)
  | 0, _ => .diverge
  | fuel + 1, index =>
    if bytes.length > index && bytes[index]? == some 41 then .ok ([], index)
    else do
      let parameter ← parseFieldDescriptor data index
      let (ps, last) ← parametersLoop data bytes fuel (index + parameter.byteLen)
      .ok (parameter :: ps, last)

/-- `/repo/src/descriptors.rs:264-288` `parse_method_descriptor` (`b'('` is 40, `b')'` is 41). -/
def parseMethodDescriptor (data : Str) (index : Nat) : Res MethodDescriptor :=
  let bytes := asBytes data
  if bytes.length ≤ index || bytes[index]? != some 40 then
    Res.fail "Method descriptor must start with '('"
  else do
    let (parameters, close) ← parametersLoop data bytes (bytes.length + 1) (index + 1)
    let returnType ← parseReturnDescriptor data (close + 1)
    .ok { parameters := parameters, returnType := returnType }

/-- `/repo/src/descriptors.rs:290-301` `parse_array_descriptor` (`b'['` is 91). -/
def parseArrayDescriptor (data : Str) : Res (Option FieldDescriptor) :=
  if data.isEmpty || (asBytes data)[0]? != some 91 then .ok none
  else do
    let desc ← parseFieldDescriptor data 0
    if strLen data != desc.byteLen then Res.fail "Not a field descriptor"
    else .ok (some desc)

/-- `match parse(..) { Ok(desc) => name.len() == desc.byte_len(), Err(_) => false }`. -/
def lenMatches {α : Type} (name : Str) (byteLen : α → Nat) : Res α → Res Bool
  | .ok desc => .ok (strLen name == byteLen desc)
  | .err _ => .ok false
  | .panic k => .panic k
  | .diverge => .diverge

/-- `/repo/src/descriptors.rs:303-308` `is_field_descriptor`. -/
def isFieldDescriptor (name : Str) : Res Bool :=
  lenMatches name FieldDescriptor.byteLen (parseFieldDescriptor name 0)

/-- `/repo/src/descriptors.rs:310-312` `is_array_descriptor`. -/
def isArrayDescriptor (name : Str) : Res Bool := do
  if ← isFieldDescriptor name then do
    let b ← byteAt (asBytes name) 0
    .ok (b == 91)
  else .ok false

/-- `/repo/src/descriptors.rs:314-319` `is_method_descriptor`. -/
def isMethodDescriptor (name : Str) : Res Bool :=
  lenMatches name MethodDescriptor.byteLen (parseMethodDescriptor name 0)

/-- `/repo/src/descriptors.rs:321-326` `is_return_descriptor`. -/
def isReturnDescriptor (name : Str) : Res Bool :=
  lenMatches name ReturnDescriptor.byteLen (parseReturnDescriptor name 0)

end Cafebabe
