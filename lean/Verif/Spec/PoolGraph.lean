import Verif.Spec.Chains
/-!
# Specification: the reference graph of the constant pool, tags and versions (JVMS 4.4)
-/

namespace Cafebabe.Spec

/-- A stored reference leads to an entry satisfying `Q`. -/
def PointsTo (pool : Pool) (x : CPRef) (Q : Entry → Prop) : Prop := ∃ (k : Nat) (e : Entry), x = .resolved k ∧ pool[k]? = some e ∧ Q e

/-- A Utf8 constant with decodable content. -/
def IsText (e : Entry) : Prop := ∃ s, e = .utf8 s

/-- A Utf8 constant. -/
def IsUtf8 (e : Entry) : Prop := (∃ s, e = .utf8 s) ∨ ∃ b, e = .utf8Bytes b

/-- A Class constant. -/
def IsClassInfo (e : Entry) : Prop := ∃ x, e = .classInfo x

/-- A NameAndType constant. -/
def IsNameType (e : Entry) : Prop := ∃ x y, e = .nameAndType x y

/-- A Fieldref, Methodref or InterfaceMethodref constant. -/
def IsMember (e : Entry) : Prop := ∃ x y, e = .fieldRef x y ∨ e = .methodRef x y ∨ e = .interfaceMethodRef x y

/-- JVMS 4.4: what the references of each constant must lead to. -/
def WellTyped (pool : Pool) (e : Entry) : Prop :=
  match e with
  | .classInfo x | .methodType x | .moduleInfo x | .packageInfo x => PointsTo pool x IsText
  | .string x => PointsTo pool x IsUtf8
  | .fieldRef x y | .methodRef x y | .interfaceMethodRef x y => PointsTo pool x IsClassInfo ∧ PointsTo pool y IsNameType
  | .nameAndType x y => PointsTo pool x IsText ∧ PointsTo pool y IsUtf8
  | .methodHandle _ x => PointsTo pool x IsMember
  | .dynamic _ x | .invokeDynamic _ x => PointsTo pool x IsNameType
  | .zero | .utf8 _ | .utf8Bytes _ | .integer _ | .float _ | .long _ | .double _ | .unused => True

/-- Slot `i` stores a reference to slot `j`. -/
def Edge (pool : Pool) (i j : Nat) : Prop := ∃ e, pool[i]? = some e ∧ .resolved j ∈ refsOf e

/-- A path of `n` references from slot `i` to slot `j`. -/
inductive Path (pool : Pool) : Nat → Nat → Nat → Prop where
  | nil (i : Nat) : Path pool 0 i i
  | cons {n i j k : Nat} : Edge pool i j → Path pool n j k → Path pool (n + 1) i k

/-- JVMS table 4.4-B: the class-file version from which a constant tag may be used; `none` for unassigned tags. -/
def tagSince : UInt8 → Option UInt16
  | 1 | 3 | 4 | 5 | 6 | 7 | 8 | 9 | 10 | 11 | 12 => some 0
  | 15 | 16 | 18 => some 51
  | 19 | 20 => some 53
  | 17 => some 55
  | _ => none

/-- A tag that may be used in a class file of version `major`. -/
def TagAllowed (major : UInt16) (t : UInt8) : Prop := ∃ v, tagSince t = some v ∧ v ≤ major

/-- The tag of a constant. -/
def tagOf : Entry → Option UInt8
  | .utf8 _ | .utf8Bytes _ => some 1
  | .integer _ => some 3
  | .float _ => some 4
  | .long _ => some 5
  | .double _ => some 6
  | .classInfo _ => some 7
  | .string _ => some 8
  | .fieldRef _ _ => some 9
  | .methodRef _ _ => some 10
  | .interfaceMethodRef _ _ => some 11
  | .nameAndType _ _ => some 12
  | .methodHandle _ _ => some 15
  | .methodType _ => some 16
  | .dynamic _ _ => some 17
  | .invokeDynamic _ _ => some 18
  | .moduleInfo _ => some 19
  | .packageInfo _ => some 20
  | .zero | .unused => none

end Cafebabe.Spec
