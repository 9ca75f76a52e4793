import Verif.Spec.ClassFile
/-!
# Specification: renumbering the constant pool

`π i` is the new slot of the constant that was in slot `i`. Several constants may move to the same slot if they become equal, and the new
pool may contain further constants.
-/

namespace Cafebabe.Spec

/-- A link to the new slot. -/
def moveRef (π : Nat → Nat) : CPRef → CPRef
  | .resolved i => .resolved (π i)
  | .unresolved i => .unresolved i

/-- The constant with its links renumbered. -/
def moveEntry (π : Nat → Nat) : Entry → Entry
  | .classInfo x => .classInfo (moveRef π x)
  | .string x => .string (moveRef π x)
  | .fieldRef x y => .fieldRef (moveRef π x) (moveRef π y)
  | .methodRef x y => .methodRef (moveRef π x) (moveRef π y)
  | .interfaceMethodRef x y => .interfaceMethodRef (moveRef π x) (moveRef π y)
  | .nameAndType x y => .nameAndType (moveRef π x) (moveRef π y)
  | .methodHandle k x => .methodHandle k (moveRef π x)
  | .methodType x => .methodType (moveRef π x)
  | .dynamic b x => .dynamic b (moveRef π x)
  | .invokeDynamic b x => .invokeDynamic b (moveRef π x)
  | .moduleInfo x => .moduleInfo (moveRef π x)
  | .packageInfo x => .packageInfo (moveRef π x)
  | e => e

/-- `pool'` has all constants of `pool`, renumbered by `π`. -/
structure Renumbers (π : Nat → Nat) (pool pool' : Pool) : Prop where
  /-- Each constant is found in its new slot. -/
  moved : ∀ (i : Nat) (e : Entry), pool[i]? = some e → e ≠ .unused → pool'[π i]? = some (moveEntry π e)
  /-- Two-byte indices stay two-byte indices. -/
  fits : ∀ i, i < 65536 → π i < 65536
  /-- One-byte indices (operands of `ldc`) stay one-byte indices. -/
  small : ∀ i, i < 256 → π i < 256

/-- `t` is `s` with some one-byte and two-byte indices renumbered. -/
inductive Rewritten (π : Nat → Nat) : Bytes → Bytes → Prop where
  | nil : Rewritten π [] []
  | same {b : UInt8} {s t : Bytes} : Rewritten π s t → Rewritten π (b :: s) (b :: t)
  | index1 {i j : UInt8} {s t : Bytes} : j.toNat = π i.toNat → Rewritten π s t → Rewritten π (i :: s) (j :: t)
  | index2 {i j : UInt16} {s t : Bytes} : j.toNat = π i.toNat → Rewritten π s t → Rewritten π (u2 i ++ s) (u2 j ++ t)

mutual
/-- Without the raw code bytes, at any depth. -/
def blankCode : CodeData → CodeData
  | ⟨maxStack, maxLocals, _, bytecode, exceptionTable, attributes⟩ => ⟨maxStack, maxLocals, [], bytecode, exceptionTable, blankAttrs attributes⟩

/-- The component with the raw code bytes removed from its attributes. -/
def blankComponent : RecordComponentEntry → RecordComponentEntry
  | ⟨name, descriptor, attributes⟩ => ⟨name, descriptor, blankAttrs attributes⟩

/-- Each component. -/
def blankComponents : List RecordComponentEntry → List RecordComponentEntry
  | [] => []
  | c :: cs => blankComponent c :: blankComponents cs

/-- The content with the raw code bytes removed, at any depth. -/
def blankData : AttributeData → AttributeData
  | .code c => .code (blankCode c)
  | .record l => .record (blankComponents l)
  | d => d

/-- The attribute with the raw code bytes removed, at any depth. -/
def blankAttr : AttributeInfo → AttributeInfo
  | ⟨name, data⟩ => ⟨name, blankData data⟩

/-- Each attribute. -/
def blankAttrs : List AttributeInfo → List AttributeInfo
  | [] => []
  | a :: as => blankAttr a :: blankAttrs as
end

/-- The class without its constant pool and without the raw bytes of code (the parsed instructions stay). -/
def content (cf : ClassFile) : ClassFile :=
  { cf with
    constantPool := []
    fields := cf.fields.map fun f => { f with attributes := blankAttrs f.attributes }
    methods := cf.methods.map fun m => { m with attributes := blankAttrs m.attributes }
    attributes := blankAttrs cf.attributes }

end Cafebabe.Spec
