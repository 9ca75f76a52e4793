import Verif.Spec.Run
/-!
# Specification: what iterating a constant pool shows
-/

namespace Cafebabe.Spec

/-- What the `n`-th call (counted from 0) of `next()` on this iterator returns. -/
def nthCall (it : ConstantPoolIter) : Nat → Res (Option ConstantPoolItem)
  | 0 => do
    let (item, _) ← it.next
    .ok item
  | n + 1 => do
    let (_, it') ← it.next
    nthCall it' n

/-- The item describes slot `i` of the pool: same kind of constant, all strings resolved. -/
def ItemAt (pool : Pool) (i : Nat) (item : ConstantPoolItem) : Prop :=
  match item with
  | .literalConstant c => LiteralAt pool i c
  | .classInfo s => ClassAt pool i s
  | .fieldRef m => FieldRefAt pool i m
  | .methodRef m => MethodRefAt pool i m
  | .interfaceMethodRef m => InterfaceMethodRefAt pool i m
  | .nameAndType n => NameAndTypeAt pool i n
  | .methodHandle h => MethodHandleAt pool i h
  | .methodType s => MethodTypeAt pool i s
  | .dynamic d => DynamicAt pool i d
  | .invokeDynamic d => InvokeDynamicAt pool i d
  | .moduleInfo s => ModuleAt pool i s
  | .packageInfo s => PackageAt pool i s

/-- A slot shown to users: all but slot 0, Utf8 constants and the second slot of a Long or Double. -/
def usable : Entry → Bool
  | .zero | .utf8 _ | .utf8Bytes _ | .unused => false
  | _ => true

/-- The slots shown to users, in increasing order. -/
def usableSlots (pool : Pool) : List Nat := (List.range pool.length).filter fun i => (pool[i]?.map usable).getD false

/-- Slot `i` is a NameAndType constant whose descriptor text cannot be decoded. -/
def BadAt (pool : Pool) (i : Nat) : Prop :=
  ∃ (x : CPRef) (y : Nat) (b : Bytes), pool[i]? = some (Entry.nameAndType x (.resolved y)) ∧ pool[y]? = some (Entry.utf8Bytes b)

end Cafebabe.Spec
