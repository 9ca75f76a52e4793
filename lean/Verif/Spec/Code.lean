import Verif.Spec.Open
/-!
# Specification: parts of a Code attribute
-/

namespace Cafebabe.Spec

/-- `code[a..b]`. -/
def slice (code : Bytes) (a b : Nat) : Bytes := (code.drop a).take (b - a)

/-- Where the instruction at position `i` of the list ends: at the offset of the next one, or at the end of the code array. -/
def endOf (ops : List (Nat × Opcode)) (codeLength : Nat) (i : Nat) : Nat :=
  match ops[i + 1]? with
  | some next => next.1
  | none => codeLength

/-- A code array cut off just before an instruction. -/
def OpenCode (checks : Bool) (pool : Pool) (s : Bytes) : Prop := ∃ ops, InsnsEnc checks pool 0 ops s

/-- The opcode bytes assigned by the JVM (JVMS 7), including the three reserved ones. -/
def Assigned (b : UInt8) : Prop := b ≤ 0xca ∨ b = 0xfe ∨ b = 0xff

/-- One row of an exception table: three offsets and a catch type index. -/
def exceptionRow (e : ExceptionTableEntry) (k : UInt16) : Bytes := u2 e.startPc ++ u2 e.endPc ++ u2 e.handlerPc ++ u2 k

/-- A catch type and its index: `None` for index 0, otherwise the named class. -/
def CatchAt (pool : Pool) (k : UInt16) (e : ExceptionTableEntry) : Prop :=
  (e.catchType = none ∧ k = 0) ∨ ∃ c, e.catchType = some c ∧ k ≠ 0 ∧ ClassAt pool k.toNat c

/-- The content of a Code attribute (JVMS 4.7.3): `max_stack`, `max_locals`, `code_length`, code, exception table, attributes. -/
def CodeLayout (o : Opts) (pool : Pool) (c : CodeData) (ks : List UInt16) (nested : List Bytes) (body : Bytes) : Prop :=
  ∃ (n : UInt32) (ne na : UInt16),
    body = u2 c.maxStack ++ u2 c.maxLocals ++ (u4 n ++ c.code) ++ (u2 ne ++ (List.zipWith exceptionRow c.exceptionTable ks).flatten) ++
      (u2 na ++ nested.flatten) ∧
    n.toNat = c.code.length ∧ ne.toNat = c.exceptionTable.length ∧ na.toNat = c.attributes.length ∧
    ks.length = c.exceptionTable.length ∧
    (∀ (j : Nat) (k : UInt16) (e : ExceptionTableEntry), ks[j]? = some k → c.exceptionTable[j]? = some e → CatchAt pool k e) ∧
    Rows (AttrEnc o pool) c.attributes nested ∧
    (c.bytecode = none ∧ o.parseBytecode = false ∨
      ∃ bc, c.bytecode = some bc ∧ o.parseBytecode = true ∧ ByteCodeEnc o.checks pool bc c.code)

end Cafebabe.Spec
