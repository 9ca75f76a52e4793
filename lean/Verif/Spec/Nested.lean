import Verif.Spec.Run
/-!
# Specification: attributes at any depth, parts of a class file
-/

namespace Cafebabe.Spec

/-- `a` is one of the attributes `as`, or nested inside one of them: in a Code attribute or in a component of a Record attribute, to any
depth. -/
inductive AttrIn (a : AttributeInfo) : List AttributeInfo → Prop where
  | here {as : List AttributeInfo} : a ∈ as → AttrIn a as
  | code {as : List AttributeInfo} {name : Str} {c : CodeData} : ⟨name, .code c⟩ ∈ as → AttrIn a c.attributes → AttrIn a as
  | record {as : List AttributeInfo} {name : Str} {l : List RecordComponentEntry} {r : RecordComponentEntry} :
      ⟨name, .record l⟩ ∈ as → r ∈ l → AttrIn a r.attributes → AttrIn a as

/-- `a` is an attribute of the class, of one of its fields or methods, or nested in one of those. -/
def AttrOf (cf : ClassFile) (a : AttributeInfo) : Prop :=
  AttrIn a cf.attributes ∨ (∃ f ∈ cf.fields, AttrIn a f.attributes) ∨ ∃ m ∈ cf.methods, AttrIn a m.attributes

/-- The bytecode of some Code attribute of the class file, with its code array. -/
def CodeOf (cf : ClassFile) (c : CodeData) : Prop := ∃ name, AttrOf cf ⟨name, .code c⟩

/-- The Dynamic and InvokeDynamic constants an instruction uses. -/
def dynamicsOf : Opcode → List DynamicRef
  | .invokedynamic d => [d]
  | .ldc (.dynamic d) | .ldcW (.dynamic d) | .ldc2W (.dynamic d) => [d]
  | _ => []

/-- Two-byte constant-pool indices one after the other. -/
def indices (ixs : List UInt16) : Bytes := ixs.flatMap u2

/-- Everything before the fields: header, valid pool, flags (a module has no other flag and version 53 or later), this class, super class,
interfaces. `flags` is the flag word with the unknown bits cleared. -/
def FrontEnc (o : Opts) (minor major : UInt16) (pool : Pool) (flags : UInt16) : Lang := fun seg =>
  ∃ (this : ClassName) (super : Option ClassName) (ifs : List ClassName),
    (lit (header minor major) ⬝ PoolEnc o.decode o.checks major pool ⬝ maskedFlags 0xF631 flags ⬝
      (ref fun i => ClassNameAt pool i this) ⬝ (ref fun i => OptAt ClassNameAt pool i super) ⬝
      table2 (fun c => ref fun i => ClassNameAt pool i c) ifs) seg ∧ (IsModule flags → 53 ≤ major ∧ flags = 0x8000)

/-- The parser returns an error with this message and no context. -/
def RejectsWith (o : Opts) (bytes : Bytes) (msg : String) : Prop := Rejects o bytes { msg := msg, contexts := [] }

/-- Element-wise: `segs[k]` is the encoding of `xs[k]`, for all `k`. -/
def Rows {α : Type} (F : α → Lang) (xs : List α) (segs : List Bytes) : Prop :=
  segs.length = xs.length ∧ ∀ (k : Nat) (seg : Bytes) (x : α), segs[k]? = some seg → xs[k]? = some x → F x seg

/-- JVMS table 4.1-B: PUBLIC, FINAL, SUPER, INTERFACE, ABSTRACT, SYNTHETIC, ANNOTATION, ENUM, MODULE. -/
def classFlagBits : List UInt16 := [0x0001, 0x0010, 0x0020, 0x0200, 0x0400, 0x1000, 0x2000, 0x4000, 0x8000]

/-- JVMS table 4.5-A: PUBLIC, PRIVATE, PROTECTED, STATIC, FINAL, VOLATILE, TRANSIENT, SYNTHETIC, ENUM. -/
def fieldFlagBits : List UInt16 := [0x0001, 0x0002, 0x0004, 0x0008, 0x0010, 0x0040, 0x0080, 0x1000, 0x4000]

/-- JVMS table 4.6-A: PUBLIC, PRIVATE, PROTECTED, STATIC, FINAL, SYNCHRONIZED, BRIDGE, VARARGS, NATIVE, ABSTRACT, STRICT, SYNTHETIC. -/
def methodFlagBits : List UInt16 :=
  [0x0001, 0x0002, 0x0004, 0x0008, 0x0010, 0x0020, 0x0040, 0x0080, 0x0100, 0x0400, 0x0800, 0x1000]

/-- JVMS table 4.7.6-A: PUBLIC, PRIVATE, PROTECTED, STATIC, FINAL, INTERFACE, ABSTRACT, SYNTHETIC, ANNOTATION, ENUM. -/
def innerClassFlagBits : List UInt16 := [0x0001, 0x0002, 0x0004, 0x0008, 0x0010, 0x0200, 0x0400, 0x1000, 0x2000, 0x4000]

/-- JVMS 4.7.24: FINAL, SYNTHETIC, MANDATED. -/
def parameterFlagBits : List UInt16 := [0x0010, 0x1000, 0x8000]

/-- JVMS 4.7.25, of the module: OPEN, SYNTHETIC, MANDATED. -/
def moduleFlagBits : List UInt16 := [0x0020, 0x1000, 0x8000]

/-- JVMS 4.7.25, `requires`: TRANSITIVE, STATIC_PHASE, SYNTHETIC, MANDATED. -/
def requiresFlagBits : List UInt16 := [0x0020, 0x0040, 0x1000, 0x8000]

/-- JVMS 4.7.25, `exports` and `opens`: SYNTHETIC, MANDATED. -/
def exportsFlagBits : List UInt16 := [0x1000, 0x8000]

/-- `flags` is `word` with exactly the bits outside `bits` cleared. -/
def Truncated (bits : List UInt16) (word flags : UInt16) : Prop := flags = word &&& bits.foldl (· ||| ·) 0

/-- `flags` has only bits among `bits`. -/
def OnlyFlags (bits : List UInt16) (flags : UInt16) : Prop := flags &&& ~~~ bits.foldl (· ||| ·) 0 = 0

end Cafebabe.Spec
