import Verif.Spec.Code
import Verif.Spec.Nested
/-!
# Specification: static constraints on code (JVMS 4.7.3, 4.9.1)

What the JVM specification demands of single instructions beyond their layout. Nothing of the parser is used here.
-/

namespace Cafebabe.Spec

/-- Constraints of JVMS 4.9.1 on the instructions of a code array. -/
inductive Constraint where
  | notReserved
  | noSubroutines
  | constantSize
  | sortedKeys
  | argumentCount
  | dimensions
  | instantiable
  | ordinaryName
  | localsExist
deriving DecidableEq

/-- A constant of two words. -/
def TwoWords : Loadable → Prop
  | .literalConstant (.long _) | .literalConstant (.double _) => True
  | _ => False

/-- A constant of one word, whatever its type. -/
def OneWord : Loadable → Prop
  | .literalConstant (.long _) | .literalConstant (.double _) | .dynamic _ => False
  | _ => True

/-- The words an argument takes. -/
def argumentWords (d : FieldDescriptor) : Nat :=
  if d.dimensions = 0 ∧ (d.fieldType = .long ∨ d.fieldType = .double) then 2 else 1

/-- The number of local variables an instruction needs to exist. -/
def localsNeeded : Opcode → Nat
  | .iload n | .fload n | .aload n | .istore n | .fstore n | .astore n | .ret n | .iinc n _ => n.toNat + 1
  | .lload n | .dload n | .lstore n | .dstore n => n.toNat + 2
  | _ => 0

/-- The instruction breaks the constraint, in a class file of the given version and a method with the given `max_locals`. -/
def Breaks (major maxLocals : UInt16) : Constraint → Opcode → Prop
  | .notReserved, op => op = .breakpoint ∨ op = .impdep1 ∨ op = .impdep2
  | .noSubroutines, op => 51 ≤ major ∧ ((∃ j, op = .jsr j) ∨ ∃ n, op = .ret n)
  | .constantSize, op => ∃ l, TwoWords l ∧ (op = .ldc l ∨ op = .ldcW l) ∨ OneWord l ∧ op = .ldc2W l
  | .sortedKeys, op => ∃ t, op = .lookupswitch t ∧ ¬ t.matchOffsets.Pairwise fun p q => p.1.toInt < q.1.toInt
  | .argumentCount, op => ∃ m k, op = .invokeinterface m k ∧
      ∀ d : MethodDescriptor, m.nameAndType.descriptor = methodText d → k.toNat ≠ 1 + (d.parameters.map argumentWords).sum
  | .dimensions, op => ∃ t k, op = .multianewarray t k ∧ (k = 0 ∨ ∀ d, t = .arrayType d → d.dimensions < k)
  | .instantiable, op => ∃ s, op = .new s ∧ s.head? = some '['
  | .ordinaryName, op => ∃ m, m.nameAndType.name.head? = some '<' ∧ (op = .invokevirtual m ∨ op = .invokestatic m ∨ ∃ k, op = .invokeinterface m k)
  | .localsExist, op => maxLocals.toNat < localsNeeded op

/-- Control can run past the last instruction: it is not a jump, switch, return, `ret` or `athrow` (JVMS 4.9.2). -/
def RunsOn : Opcode → Prop
  | .goto _ | .jsr _ | .ret _ | .tableswitch _ | .lookupswitch _ | .athrow => False
  | .ireturn | .lreturn | .freturn | .dreturn | .areturn | .return_ => False
  | _ => True

end Cafebabe.Spec
