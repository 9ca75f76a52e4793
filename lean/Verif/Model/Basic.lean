/-!
# Model: outcomes, the parser monad, integer readers, errors

Models `/repo/src/error.rs` and the readers in `/repo/src/lib.rs` lines 46-92.
-/

namespace Cafebabe

/-- A Rust `&[u8]`. -/
abbrev Bytes := List UInt8

/-- A Rust string (`Cow<'a, str>`, `&str`): its sequence of `char`s. Borrowing is not modelled. -/
abbrev Str := List Char

/-- `/repo/src/error.rs:43-46` `struct ParseError`. -/
structure ParseError where
  msg : String
  contexts : List String

namespace ParseError

/-- `/repo/src/error.rs:49-54` `ParseError::new`. -/
def new (msg : String) : ParseError := ⟨msg, []⟩

/-- `/repo/src/error.rs:56-63` `ParseError::with_context`. -/
def withContext (base : ParseError) (context : String) : ParseError :=
  { msg := base.msg, contexts := base.contexts ++ [context] }

/-- The `for context in &self.contexts` loop of `/repo/src/error.rs:66-76`; `connector` is the loop variable. -/
def displayContexts (connector : String) : List String → String
  | [] => ""
  | context :: rest => connector ++ context ++ displayContexts " of " rest

/-- `/repo/src/error.rs:66-76` `impl Display for ParseError`. -/
def display (e : ParseError) : String := e.msg ++ displayContexts " for " e.contexts

end ParseError

/-- Every way the Rust code can panic (message texts are not modelled, only the site class). -/
inductive PanicKind where
  /-- integer overflow with overflow checks enabled -/
  | overflow
  /-- slice index / slice range out of bounds -/
  | bounds
  /-- `str` slice not on a char boundary or out of range -/
  | strSlice
  /-- `ConstantPoolRef::get` on an unresolved reference (constant_pool.rs:58) -/
  | unresolved
  /-- a resolved reference that aliases no pool slot; has no Rust counterpart (proved unreachable) -/
  | dangling
  /-- `utf8`/`string_literal` on a non-Utf8 entry (constant_pool.rs:401, 409) -/
  | nonUtf8
  /-- `classinfo` on a non-ClassInfo entry (constant_pool.rs:416) -/
  | nonClassInfo
  /-- `name_and_type` on a non-NameAndType entry (constant_pool.rs:426) -/
  | nonNameAndType
  /-- `validate_field_descriptor` on a non-NameAndType entry (constant_pool.rs:381) -/
  | nonDescriptor
  /-- unexpected return value of `parse_unqualified_segment` (descriptors.rs:42, 96) -/
  | segment
  /-- the iterator saw a Zero entry (constant_pool.rs:1138) -/
  | zeroItem
  /-- `unwrap` of an `Err` (constant_pool.rs:1177) -/
  | unwrapErr
deriving DecidableEq, Repr

/-- Outcome of running Rust code: a value, `Err(ParseError)`, a panic, or recursion-budget exhaustion. -/
inductive Res (α : Type) where
  | ok (a : α)
  | err (e : ParseError)
  | panic (k : PanicKind)
  | diverge

namespace Res

/-- Sequencing (`?` on results; panics and divergence propagate). -/
def bind {α β : Type} (r : Res α) (f : α → Res β) : Res β :=
  match r with
  | ok a => f a
  | err e => err e
  | panic k => panic k
  | diverge => diverge

instance : Monad Res where
  pure := ok
  bind := bind

/-- `fail!("...")`, `/repo/src/error.rs:24-40`. -/
def fail {α : Type} (msg : String) : Res α := err (ParseError.new msg)

/-- `.map_err(|e| err!(e, "..."))`, `/repo/src/error.rs:3-22`. -/
def mapErr {α : Type} (r : Res α) (context : String) : Res α :=
  match r with
  | err e => err (e.withContext context)
  | ok a => ok a
  | panic k => panic k
  | diverge => diverge

/-- Did the computation return `Ok`? -/
def isOk {α : Type} : Res α → Bool
  | ok _ => true
  | _ => false

end Res

/-- A reader `fn(bytes: &[u8], ix: &mut usize, ..) -> Result<α, ParseError>`: takes the slice and the index before,
and gives the outcome with the index after. On `Err` the Rust code leaves `*ix` at some intermediate value that no caller reads. -/
def P (α : Type) := Bytes → Nat → Res (α × Nat)

namespace P

/-- `Ok(a)` without reading. -/
def pure {α : Type} (a : α) : P α := fun _ ix => .ok (a, ix)

/-- Sequencing with `?`. -/
def bind {α β : Type} (p : P α) (f : α → P β) : P β := fun bytes ix =>
  match p bytes ix with
  | .ok (a, ix') => f a bytes ix'
  | .err e => .err e
  | .panic k => .panic k
  | .diverge => .diverge

instance : Monad P where
  pure := pure
  bind := bind

/-- `fail!("...")`. -/
def fail {α : Type} (msg : String) : P α := fun _ _ => .err (ParseError.new msg)

/-- `.map_err(|e| err!(e, "..."))`. -/
def mapErr {α : Type} (p : P α) (context : String) : P α := fun bytes ix => (p bytes ix).mapErr context

/-- A computation that does not touch the input. -/
def lift {α : Type} (r : Res α) : P α := fun _ ix =>
  match r with
  | .ok a => .ok (a, ix)
  | .err e => .err e
  | .panic k => .panic k
  | .diverge => .diverge

/-- The current index `*ix`. -/
def getIx : P Nat := fun _ ix => .ok (ix, ix)

/-- `if b { fail!(msg) }`. -/
def failIf (b : Bool) (msg : String) : P Unit := if b then fail msg else pure ()

/-- Recursion budget exhausted. -/
def diverge {α : Type} : P α := fun _ _ => .diverge

/-- `for i in 0..count { v.push(f(i)?) }`, starting the counter at `i`. -/
def forRangeFrom {α : Type} (f : Nat → P α) : Nat → Nat → P (List α)
  | _, 0 => pure []
  | i, n + 1 => do
    let x ← f i
    let xs ← forRangeFrom f (i + 1) n
    pure (x :: xs)

/-- `let mut v = Vec::with_capacity(count); for i in 0..count { v.push(f(i)?) }`. Capacity reservation is not modelled. -/
def forRange {α : Type} (count : Nat) (f : Nat → P α) : P (List α) := forRangeFrom f 0 count

end P

/-- `bytes[i]` (panics when out of range). -/
def byteAt (bytes : Bytes) (i : Nat) : Res UInt8 :=
  match bytes[i]? with
  | some b => .ok b
  | none => .panic .bounds

/-- `&bytes[i..j]` (panics when out of range). -/
def sliceBytes (bytes : Bytes) (i j : Nat) : Res Bytes :=
  if i ≤ j ∧ j ≤ bytes.length then .ok ((bytes.drop i).take (j - i)) else .panic .bounds

/-- `/repo/src/lib.rs:45-52` `read_u1`. -/
def readU1 : P UInt8 := fun bytes ix =>
  if bytes.length < ix + 1 then
    Res.fail s!"Unexpected end of stream reading u1 at index {ix}"
  else do
    let result ← byteAt bytes ix
    .ok (result, ix + 1)

/-- `/repo/src/lib.rs:55-62` `read_u2`. -/
def readU2 : P UInt16 := fun bytes ix =>
  if bytes.length < ix + 2 then
    Res.fail s!"Unexpected end of stream reading u2 at index {ix}"
  else do
    let b0 ← byteAt bytes (ix + 0)
    let b1 ← byteAt bytes (ix + 1)
    .ok ((b0.toUInt16 <<< 8) ||| b1.toUInt16, ix + 2)

/-- `/repo/src/lib.rs:65-75` `read_u4`. -/
def readU4 : P UInt32 := fun bytes ix =>
  if bytes.length < ix + 4 then
    Res.fail s!"Unexpected end of stream reading u4 at index {ix}"
  else do
    let b0 ← byteAt bytes (ix + 0)
    let b1 ← byteAt bytes (ix + 1)
    let b2 ← byteAt bytes (ix + 2)
    let b3 ← byteAt bytes (ix + 3)
    .ok ((b0.toUInt32 <<< 24) ||| (b1.toUInt32 <<< 16) ||| (b2.toUInt32 <<< 8) ||| b3.toUInt32, ix + 4)

/-- `/repo/src/lib.rs:78-92` `read_u8`. -/
def readU8 : P UInt64 := fun bytes ix =>
  if bytes.length < ix + 8 then
    Res.fail s!"Unexpected end of stream reading u8 at index {ix}"
  else do
    let b0 ← byteAt bytes (ix + 0)
    let b1 ← byteAt bytes (ix + 1)
    let b2 ← byteAt bytes (ix + 2)
    let b3 ← byteAt bytes (ix + 3)
    let b4 ← byteAt bytes (ix + 4)
    let b5 ← byteAt bytes (ix + 5)
    let b6 ← byteAt bytes (ix + 6)
    let b7 ← byteAt bytes (ix + 7)
    .ok ((b0.toUInt64 <<< 56) ||| (b1.toUInt64 <<< 48) ||| (b2.toUInt64 <<< 40) ||| (b3.toUInt64 <<< 32)
      ||| (b4.toUInt64 <<< 24) ||| (b5.toUInt64 <<< 16) ||| (b6.toUInt64 <<< 8) ||| b7.toUInt64, ix + 8)

/-- The pattern `if bytes.len() < *ix + n { fail!(..) }; let s = &bytes[*ix..*ix + n]; *ix += n;`
(`/repo/src/constant_pool.rs:447-454`, `/repo/src/attributes.rs:376-383`). -/
def takeBytes (n : Nat) (msg : String) : P Bytes := fun bytes ix =>
  if bytes.length < ix + n then
    Res.fail msg
  else do
    let s ← sliceBytes bytes ix (ix + n)
    .ok (s, ix + n)

/-- Parameters of a run: the dependency `cesu8::from_java_cesu8`, the build mode, the recursion budget, and
`/repo/src/lib.rs:343-345` `ParseOptions`. -/
structure Env where
  /-- `cesu8::from_java_cesu8`: `none` is `Err`. -/
  decode : Bytes → Option Str
  /-- overflow checks enabled (debug builds) -/
  overflowChecks : Bool
  /-- recursion budget -/
  depth : Nat
  /-- `ParseOptions::parse_bytecode` -/
  parseBytecode : Bool

end Cafebabe
