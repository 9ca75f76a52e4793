import Verif.Model.Descriptors
import Verif.Model.Bytecode
/-!
# Model: comparing and hashing (`/repo/src/descriptors.rs`, the two plain enums and `ParseError`)

The implementations derived by `#[derive(Hash, PartialEq, Eq, PartialOrd, Ord)]`, written out: a struct is compared field by field, an
enum by its variant and then by its fields, a `Vec` by its length and then element by element. `Cow<str>` is compared, ordered and hashed
as the `str` it holds, that is by its UTF-8 bytes, whether borrowed or owned.
-/

namespace Cafebabe

/-- `<Cow<str> as PartialEq>::eq`: the same bytes. -/
def strEq (a b : Str) : Bool := asBytes a == asBytes b

/-- `<[u8] as Ord>::cmp`: the first different byte decides, then the length. -/
def bytesCmp : Bytes → Bytes → Ordering
  | [], [] => .eq
  | [], _ :: _ => .lt
  | _ :: _, [] => .gt
  | x :: xs, y :: ys => if x < y then .lt else if y < x then .gt else bytesCmp xs ys

/-- `/repo/src/descriptors.rs:28-29` derived `PartialEq` of `ClassName`. -/
def ClassName.eq (a b : ClassName) : Bool := strEq a.name b.name

/-- `/repo/src/descriptors.rs:28-29` derived `Ord` of `ClassName` (`PartialOrd` gives `Some` of it). -/
def ClassName.cmp (a b : ClassName) : Ordering := bytesCmp (asBytes a.name) (asBytes b.name)

/-- `/repo/src/descriptors.rs:49-61` `Cow::from(name)` and `*name`, and `69-73` Display: the text. -/
def ClassName.text (a : ClassName) : Str := a.name

/-- Variant number of a `FieldType`, `/repo/src/descriptors.rs:101-112`. -/
def FieldType.variant : FieldType → Nat
  | .byte => 0
  | .char => 1
  | .double => 2
  | .float => 3
  | .integer => 4
  | .long => 5
  | .short => 6
  | .boolean => 7
  | .object _ => 8

/-- `/repo/src/descriptors.rs:101-112` derived `PartialEq` of `FieldType`. -/
def FieldType.eq (a b : FieldType) : Bool :=
  a.variant == b.variant &&
    match a, b with
    | .object x, .object y => x.eq y
    | _, _ => true

/-- `/repo/src/descriptors.rs:140-145` derived `PartialEq` of `FieldDescriptor`. -/
def FieldDescriptor.eq (a b : FieldDescriptor) : Bool := a.dimensions == b.dimensions && a.fieldType.eq b.fieldType

/-- Variant number of a `ReturnDescriptor`, `/repo/src/descriptors.rs:199-203`. -/
def ReturnDescriptor.variant : ReturnDescriptor → Nat
  | .ret _ => 0
  | .void => 1

/-- `/repo/src/descriptors.rs:199-203` derived `PartialEq` of `ReturnDescriptor`. -/
def ReturnDescriptor.eq (a b : ReturnDescriptor) : Bool :=
  a.variant == b.variant &&
    match a, b with
    | .ret x, .ret y => x.eq y
    | _, _ => true

/-- `<Vec<FieldDescriptor> as PartialEq>::eq`. -/
def paramsEq (a b : List FieldDescriptor) : Bool := a.length == b.length && (a.zip b).all fun p => p.1.eq p.2

/-- `/repo/src/descriptors.rs:235-239` derived `PartialEq` of `MethodDescriptor`. -/
def MethodDescriptor.eq (a b : MethodDescriptor) : Bool := paramsEq a.parameters b.parameters && a.returnType.eq b.returnType

/-- What a `Hash` implementation writes to its `Hasher`. -/
inductive HashWrite where
  | bytes (b : Bytes)
  | u8 (b : UInt8)
  | isize (n : Nat)
  | usize (n : Nat)
deriving DecidableEq, Repr

/-- `<str as Hash>::hash`: the bytes, then `0xff`. -/
def strHash (s : Str) : List HashWrite := [.bytes (asBytes s), .u8 0xFF]

/-- `/repo/src/descriptors.rs:28-29` derived `Hash` of `ClassName`. -/
def ClassName.hash (a : ClassName) : List HashWrite := strHash a.name

/-- `/repo/src/descriptors.rs:101-112` derived `Hash` of `FieldType`: the discriminant, then the field. -/
def FieldType.hash (a : FieldType) : List HashWrite :=
  .isize a.variant ::
    match a with
    | .object x => x.hash
    | _ => []

/-- `/repo/src/descriptors.rs:140-145` derived `Hash` of `FieldDescriptor`. -/
def FieldDescriptor.hash (a : FieldDescriptor) : List HashWrite := .u8 a.dimensions :: a.fieldType.hash

/-- `/repo/src/descriptors.rs:199-203` derived `Hash` of `ReturnDescriptor`. -/
def ReturnDescriptor.hash (a : ReturnDescriptor) : List HashWrite :=
  .isize a.variant ::
    match a with
    | .ret x => x.hash
    | .void => []

/-- `/repo/src/descriptors.rs:235-239` derived `Hash` of `MethodDescriptor`: length of the `Vec`, its elements, the return type. -/
def MethodDescriptor.hash (a : MethodDescriptor) : List HashWrite :=
  .usize a.parameters.length :: (a.parameters.flatMap FieldDescriptor.hash ++ a.returnType.hash)

/-- Variant number of a `ReferenceKind`, `/repo/src/constant_pool.rs:104-115`. -/
def ReferenceKind.variant : ReferenceKind → Nat
  | .getField => 0
  | .getStatic => 1
  | .putField => 2
  | .putStatic => 3
  | .invokeVirtual => 4
  | .invokeStatic => 5
  | .invokeSpecial => 6
  | .newInvokeSpecial => 7
  | .invokeInterface => 8

/-- `/repo/src/constant_pool.rs:104-115` derived `PartialEq` of `ReferenceKind`. -/
def ReferenceKind.eq (a b : ReferenceKind) : Bool := a.variant == b.variant

/-- `/repo/src/constant_pool.rs:104-115` derived `PartialOrd` of `ReferenceKind`: `partial_cmp` compares the variants. -/
def ReferenceKind.partialCmp (a b : ReferenceKind) : Option Ordering := some (compare a.variant b.variant)

/-- `/repo/src/constant_pool.rs:104-115` derived `Hash` of `ReferenceKind`: the discriminant. -/
def ReferenceKind.hash (a : ReferenceKind) : List HashWrite := [.isize a.variant]

/-- Variant number of a `PrimitiveArrayType`, `/repo/src/bytecode.rs:29-39`. -/
def PrimitiveArrayType.variant : PrimitiveArrayType → Nat
  | .boolean => 0
  | .char => 1
  | .float => 2
  | .double => 3
  | .byte => 4
  | .short => 5
  | .int => 6
  | .long => 7

/-- `/repo/src/bytecode.rs:29-39` derived `PartialEq` of `PrimitiveArrayType`. -/
def PrimitiveArrayType.eq (a b : PrimitiveArrayType) : Bool := a.variant == b.variant

/-- `/repo/src/bytecode.rs:29-39` derived `Ord` of `PrimitiveArrayType` (`PartialOrd` gives `Some` of it). -/
def PrimitiveArrayType.cmp (a b : PrimitiveArrayType) : Ordering := compare a.variant b.variant

/-- `/repo/src/bytecode.rs:29-39` derived `Hash` of `PrimitiveArrayType`: the discriminant. -/
def PrimitiveArrayType.hash (a : PrimitiveArrayType) : List HashWrite := [.isize a.variant]

/-- `<Vec<String> as PartialEq>::eq`. -/
def textsEq (a b : List String) : Bool := a.length == b.length && (a.zip b).all fun p => strEq p.1.toList p.2.toList

/-- `/repo/src/error.rs:42-46` derived `PartialEq` of `ParseError`: the message, then the contexts. -/
def ParseError.eq (a b : ParseError) : Bool := strEq a.msg.toList b.msg.toList && textsEq a.contexts b.contexts

end Cafebabe
