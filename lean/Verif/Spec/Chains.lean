import Verif.Spec.Pool
/-!
# Specification: chains of NameAndType descriptors

The check of a method descriptor follows the descriptor of a NameAndType constant, and again if that is a NameAndType. These
definitions say where such a chain leads, independently of any recursion budget.
-/

namespace Cafebabe.Spec

/-- Slot `i` is a NameAndType constant whose descriptor is slot `j`. -/
def DescriptorOf (pool : Pool) (i j : Nat) : Prop := ∃ x, pool[i]? = some (.nameAndType x (.resolved j))

/-- Following descriptors from slot `i` never ends. -/
def Endless (pool : Pool) (i : Nat) : Prop := ∃ f : Nat → Nat, f 0 = i ∧ ∀ k, DescriptorOf pool (f k) (f (k + 1))

/-- Following descriptors from slot `i` gets to slot `j`. -/
inductive LeadsTo (pool : Pool) : Nat → Nat → Prop where
  | refl (i : Nat) : LeadsTo pool i i
  | step {i j k : Nat} : DescriptorOf pool i j → LeadsTo pool j k → LeadsTo pool i k

/-- Slot `i` is a NameAndType constant. -/
def IsNameAndType (pool : Pool) (i : Nat) : Prop := ∃ x y, pool[i]? = some (.nameAndType x y)

/-- Slot `i` is a NameAndType constant from which the chain of descriptors ends in a text satisfying `D`. -/
def EndsIn (pool : Pool) (i : Nat) (D : Str → Prop) : Prop :=
  IsNameAndType pool i ∧ ∃ j s, LeadsTo pool i j ∧ TextAt pool j s ∧ D s

/-- The check of this single entry succeeds: like `EntryOK`, but a method descriptor may be reached through a chain. -/
def EntryPasses (major : UInt16) (pool : Pool) (e : Entry) : Prop :=
  match e with
  | .methodRef (.resolved c) (.resolved n) => IsClass pool c ∧ EndsIn pool n IsMethodDescriptor
  | .interfaceMethodRef (.resolved c) (.resolved n) => IsClass pool c ∧ EndsIn pool n IsMethodDescriptor
  | .invokeDynamic _ (.resolved n) => EndsIn pool n IsMethodDescriptor
  | e => EntryOK major pool e

/-- The check of this entry follows a chain of descriptors that never ends. -/
def EntryStuck (pool : Pool) (e : Entry) : Prop :=
  match e with
  | .methodRef (.resolved c) (.resolved n) => IsClass pool c ∧ Endless pool n
  | .interfaceMethodRef (.resolved c) (.resolved n) => IsClass pool c ∧ Endless pool n
  | .invokeDynamic _ (.resolved n) => Endless pool n
  | _ => False

/-- Checking the entries in order gets stuck: some entry follows an endless chain and all entries before it pass. -/
def PoolStuck (major : UInt16) (pool : Pool) : Prop :=
  ∃ (k : Nat) (e : Entry), pool[k]? = some e ∧ EntryStuck pool e ∧
    ∀ (j : Nat) (f : Entry), j < k → pool[j]? = some f → EntryPasses major pool f

/-- The references stored in an entry. -/
def refsOf : Entry → List CPRef
  | .classInfo x | .string x | .methodHandle _ x | .methodType x | .dynamic _ x | .invokeDynamic _ x | .moduleInfo x | .packageInfo x => [x]
  | .fieldRef x y | .methodRef x y | .interfaceMethodRef x y | .nameAndType x y => [x, y]
  | .zero | .utf8 _ | .utf8Bytes _ | .integer _ | .float _ | .long _ | .double _ | .unused => []

/-- Every raw index of a pool is inside the pool and not the index of the entry itself. -/
def RefsInRange (raw : Pool) : Prop :=
  ∀ (i : Nat) (e : Entry), raw[i]? = some e → ∀ j : UInt16, .unresolved j ∈ refsOf e → j.toNat < raw.length ∧ j.toNat ≠ i

end Cafebabe.Spec
