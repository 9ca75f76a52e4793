import Verif.Model.ConstantPool
import Verif.Spec.Encoding
import Verif.Spec.Text
/-!
# Specification: the constant pool (JVMS 4.4)

Only data types of the model are used (`Entry`, `CPRef`, the constants handed to users), none of its functions.
-/

namespace Cafebabe.Spec

/-! ## Encoding of entries -/

/-- The `reference_kind` byte (JVMS table 5.4.3.5-A). -/
def kindByte : ReferenceKind → UInt8
  | .getField => 1
  | .getStatic => 2
  | .putField => 3
  | .putStatic => 4
  | .invokeVirtual => 5
  | .invokeStatic => 6
  | .invokeSpecial => 7
  | .newInvokeSpecial => 8
  | .invokeInterface => 9

/-- Encoding of one constant, references as raw indices; `decode` decodes modified UTF-8, `major` is the class-file version. -/
def EntryEnc (decode : Bytes → Option Str) (major : UInt16) (e : Entry) (seg : Bytes) : Prop :=
  match e with
  | .utf8 s => ∃ (n : UInt16) (b : Bytes), n.toNat = b.length ∧ decode b = some s ∧ seg = [1] ++ u2 n ++ b
  | .utf8Bytes b => ∃ n : UInt16, n.toNat = b.length ∧ decode b = none ∧ seg = [1] ++ u2 n ++ b
  | .integer v => seg = [3] ++ u4 v.toUInt32
  | .float bits => seg = [4] ++ u4 bits
  | .long v => seg = [5] ++ u8 v.toUInt64
  | .double bits => seg = [6] ++ u8 bits
  | .classInfo (.unresolved i) => seg = [7] ++ u2 i
  | .string (.unresolved i) => seg = [8] ++ u2 i
  | .fieldRef (.unresolved i) (.unresolved j) => seg = [9] ++ u2 i ++ u2 j
  | .methodRef (.unresolved i) (.unresolved j) => seg = [10] ++ u2 i ++ u2 j
  | .interfaceMethodRef (.unresolved i) (.unresolved j) => seg = [11] ++ u2 i ++ u2 j
  | .nameAndType (.unresolved i) (.unresolved j) => seg = [12] ++ u2 i ++ u2 j
  | .methodHandle k (.unresolved i) => 51 ≤ major ∧ seg = [15] ++ [kindByte k] ++ u2 i
  | .methodType (.unresolved i) => 51 ≤ major ∧ seg = [16] ++ u2 i
  | .dynamic b (.unresolved i) => 55 ≤ major ∧ seg = [17] ++ u2 b ++ u2 i
  | .invokeDynamic b (.unresolved i) => 51 ≤ major ∧ seg = [18] ++ u2 b ++ u2 i
  | .moduleInfo (.unresolved i) => 53 ≤ major ∧ seg = [19] ++ u2 i
  | .packageInfo (.unresolved i) => 53 ≤ major ∧ seg = [20] ++ u2 i
  | _ => False

/-- Long and Double take two slots; the second is unusable. -/
def slots : Entry → List Entry
  | .long v => [.long v, .unused]
  | .double v => [.double v, .unused]
  | e => [e]

/-- Number of pool slots taken by a list of constants, plus one for slot 0. -/
def slotCount (es : List Entry) : Nat := 1 + (es.flatMap slots).length

/-- When the reader stops: before every constant the slot counter (16 bits wide) is below the declared count, after the last one it is
not. In a build with overflow checks the counter must not overflow. -/
def CountOK (checks : Bool) (count : UInt16) (es : List Entry) : Prop :=
  (∀ k, k < es.length → slotCount (es.take k) % 65536 < count.toNat) ∧
    count.toNat ≤ slotCount es % 65536 ∧ (checks = true → slotCount es < 65536)

/-- Encoding of a pool whose references are raw indices. -/
def RawPoolEnc (decode : Bytes → Option Str) (checks : Bool) (major : UInt16) (raw : Pool) (seg : Bytes) : Prop :=
  ∃ (count : UInt16) (es : List Entry) (body : Bytes),
    CountOK checks count es ∧ raw = .zero :: es.flatMap slots ∧ seg = u2 count ++ body ∧
      seq (EntryEnc decode major) es body

/-- Replace a raw index by a link to the slot it names. -/
def link : CPRef → CPRef
  | .unresolved i => .resolved i.toNat
  | .resolved t => .resolved t

/-- Replace the raw indices of an entry by links. -/
def linkEntry : Entry → Entry
  | .classInfo x => .classInfo (link x)
  | .string x => .string (link x)
  | .fieldRef x y => .fieldRef (link x) (link y)
  | .methodRef x y => .methodRef (link x) (link y)
  | .interfaceMethodRef x y => .interfaceMethodRef (link x) (link y)
  | .nameAndType x y => .nameAndType (link x) (link y)
  | .methodHandle k x => .methodHandle k (link x)
  | .methodType x => .methodType (link x)
  | .dynamic b x => .dynamic b (link x)
  | .invokeDynamic b x => .invokeDynamic b (link x)
  | .moduleInfo x => .moduleInfo (link x)
  | .packageInfo x => .packageInfo (link x)
  | e => e

/-! ## What a reference stands for -/

/-- Slot `i` is text `s`. -/
def TextAt (pool : Pool) (i : Nat) (s : Str) : Prop := pool[i]? = some (.utf8 s)

/-- Slot `i` is a Utf8 constant, decodable or not. -/
def Utf8At (pool : Pool) (i : Nat) : Prop := (∃ s, pool[i]? = some (.utf8 s)) ∨ ∃ b, pool[i]? = some (.utf8Bytes b)

/-- Slot `i` is a Class constant with name `s`. -/
def ClassAt (pool : Pool) (i : Nat) (s : Str) : Prop :=
  ∃ x, pool[i]? = some (.classInfo (.resolved x)) ∧ TextAt pool x s

/-- Slot `i` is a Module constant with name `s`. -/
def ModuleAt (pool : Pool) (i : Nat) (s : Str) : Prop :=
  ∃ x, pool[i]? = some (.moduleInfo (.resolved x)) ∧ TextAt pool x s

/-- Slot `i` is a Package constant with name `s`. -/
def PackageAt (pool : Pool) (i : Nat) (s : Str) : Prop :=
  ∃ x, pool[i]? = some (.packageInfo (.resolved x)) ∧ TextAt pool x s

/-- Slot `i` is a NameAndType constant with these texts. -/
def NameAndTypeAt (pool : Pool) (i : Nat) (n : NameAndType) : Prop :=
  ∃ x y, pool[i]? = some (.nameAndType (.resolved x) (.resolved y)) ∧ TextAt pool x n.name ∧ TextAt pool y n.descriptor

/-- Slot `i` is a literal constant with this value. -/
def LiteralAt (pool : Pool) (i : Nat) (c : LiteralConstant) : Prop :=
  match c with
  | .integer v => pool[i]? = some (.integer v)
  | .float b => pool[i]? = some (.float b)
  | .long v => pool[i]? = some (.long v)
  | .double b => pool[i]? = some (.double b)
  | .string s => ∃ x, pool[i]? = some (.string (.resolved x)) ∧ pool[x]? = some (.utf8 s)
  | .stringBytes b => ∃ x, pool[i]? = some (.string (.resolved x)) ∧ pool[x]? = some (.utf8Bytes b)

/-- A class and a member of it, given by the two slots. -/
def MemberOf (pool : Pool) (c n : Nat) (m : MemberRef) : Prop :=
  ClassAt pool c m.className ∧ NameAndTypeAt pool n m.nameAndType

/-- Slot `i` is a field reference. -/
def FieldRefAt (pool : Pool) (i : Nat) (m : MemberRef) : Prop :=
  ∃ c n, pool[i]? = some (.fieldRef (.resolved c) (.resolved n)) ∧ MemberOf pool c n m

/-- Slot `i` is a method reference. -/
def MethodRefAt (pool : Pool) (i : Nat) (m : MemberRef) : Prop :=
  ∃ c n, pool[i]? = some (.methodRef (.resolved c) (.resolved n)) ∧ MemberOf pool c n m

/-- Slot `i` is an interface method reference. -/
def InterfaceMethodRefAt (pool : Pool) (i : Nat) (m : MemberRef) : Prop :=
  ∃ c n, pool[i]? = some (.interfaceMethodRef (.resolved c) (.resolved n)) ∧ MemberOf pool c n m

/-- Slot `i` is a member reference of the given kind. -/
def MemberRefAt (pool : Pool) (i : Nat) (k : MemberKind) (m : MemberRef) : Prop :=
  match k with
  | .field => FieldRefAt pool i m
  | .method => MethodRefAt pool i m
  | .interfaceMethod => InterfaceMethodRefAt pool i m

/-- Slot `i` is an InvokeDynamic constant. -/
def InvokeDynamicAt (pool : Pool) (i : Nat) (d : DynamicRef) : Prop :=
  ∃ n, pool[i]? = some (.invokeDynamic d.attrIndex (.resolved n)) ∧ NameAndTypeAt pool n d.nameAndType

/-- Slot `i` is a Dynamic constant. -/
def DynamicAt (pool : Pool) (i : Nat) (d : DynamicRef) : Prop :=
  ∃ n, pool[i]? = some (.dynamic d.attrIndex (.resolved n)) ∧ NameAndTypeAt pool n d.nameAndType

/-- Slot `i` is a MethodHandle constant. -/
def MethodHandleAt (pool : Pool) (i : Nat) (h : MethodHandle) : Prop :=
  ∃ m, pool[i]? = some (.methodHandle h.kind (.resolved m)) ∧
    MemberRefAt pool m h.memberKind { className := h.className, nameAndType := h.memberRef }

/-- Slot `i` is a MethodType constant with this descriptor. -/
def MethodTypeAt (pool : Pool) (i : Nat) (s : Str) : Prop :=
  ∃ x, pool[i]? = some (.methodType (.resolved x)) ∧ TextAt pool x s

/-- Slot `i` is a loadable constant (JVMS table 4.4-C). -/
def LoadableAt (pool : Pool) (i : Nat) (l : Loadable) : Prop :=
  match l with
  | .literalConstant c => LiteralAt pool i c
  | .classInfo s => ClassAt pool i s
  | .methodHandle h => MethodHandleAt pool i h
  | .methodType s => MethodTypeAt pool i s
  | .dynamic d => DynamicAt pool i d

/-- Slot `i` is a constant usable as a bootstrap argument (all loadable ones but Dynamic). -/
def BootstrapArgumentAt (pool : Pool) (i : Nat) (a : BootstrapArgument) : Prop :=
  match a with
  | .literalConstant c => LiteralAt pool i c
  | .classInfo s => ClassAt pool i s
  | .methodHandle h => MethodHandleAt pool i h
  | .methodType s => MethodTypeAt pool i s

/-- Slot `i` is a Class constant naming this class or array type. -/
def ObjectTypeAt (pool : Pool) (i : Nat) (t : ObjectArrayType) : Prop :=
  match t with
  | .arrayType d => ClassAt pool i (fieldText d) ∧ FieldOK d ∧ d.dimensions ≠ 0
  | .binaryName s => ClassAt pool i s ∧ ∀ r, s ≠ '[' :: r

/-- Slot `i` is absent (index 0) for `none`, else satisfies `F`. -/
def OptAt {α : Type} (F : Pool → Nat → α → Prop) (pool : Pool) (i : Nat) (o : Option α) : Prop :=
  match o with
  | none => pool[i]? = some .zero
  | some a => F pool i a

/-! ## Validity -/

/-- Slot `i` is a Class constant. -/
def IsClass (pool : Pool) (i : Nat) : Prop := ∃ x, pool[i]? = some (.classInfo x)

/-- Slot `i` is a NameAndType constant whose descriptor text satisfies `D`. -/
def HasDescriptor (pool : Pool) (i : Nat) (D : Str → Prop) : Prop :=
  ∃ x y s, pool[i]? = some (.nameAndType x (.resolved y)) ∧ TextAt pool y s ∧ D s

/-- What a method handle of each kind may refer to (JVMS 4.4.8). -/
def HandleTarget (major : UInt16) (k : ReferenceKind) (pool : Pool) (i : Nat) : Prop :=
  match k with
  | .getField | .getStatic | .putField | .putStatic => ∃ c n, pool[i]? = some (.fieldRef c n)
  | .invokeVirtual | .newInvokeSpecial => ∃ c n, pool[i]? = some (.methodRef c n)
  | .invokeStatic | .invokeSpecial =>
    (∃ c n, pool[i]? = some (.methodRef c n)) ∨ (52 ≤ major ∧ ∃ c n, pool[i]? = some (.interfaceMethodRef c n))
  | .invokeInterface => ∃ c n, pool[i]? = some (.interfaceMethodRef c n)

/-- A pool entry refers only to entries of the right kind, and its names and descriptors are valid. -/
def EntryOK (major : UInt16) (pool : Pool) (e : Entry) : Prop :=
  match e with
  | .classInfo (.resolved x) => ∃ s, TextAt pool x s ∧ (BinaryName s ∨ IsArrayDescriptor s)
  | .string (.resolved x) => Utf8At pool x
  | .fieldRef (.resolved c) (.resolved n) => IsClass pool c ∧ HasDescriptor pool n IsFieldDescriptor
  | .methodRef (.resolved c) (.resolved n) => IsClass pool c ∧ HasDescriptor pool n IsMethodDescriptor
  | .interfaceMethodRef (.resolved c) (.resolved n) => IsClass pool c ∧ HasDescriptor pool n IsMethodDescriptor
  | .nameAndType (.resolved x) (.resolved y) => (∃ s, TextAt pool x s ∧ UnqualifiedName s) ∧ Utf8At pool y
  | .methodHandle k (.resolved m) => HandleTarget major k pool m
  | .methodType (.resolved x) => ∃ s, TextAt pool x s ∧ IsMethodDescriptor s
  | .dynamic _ (.resolved n) => HasDescriptor pool n IsFieldDescriptor
  | .invokeDynamic _ (.resolved n) => HasDescriptor pool n IsMethodDescriptor
  | .moduleInfo (.resolved x) => ∃ s, TextAt pool x s ∧ ModuleName s
  | .packageInfo (.resolved x) => ∃ s, TextAt pool x s ∧ BinaryName s
  | .zero | .utf8 _ | .utf8Bytes _ | .integer _ | .float _ | .long _ | .double _ | .unused => True
  | _ => False

/-- Every entry of the pool is valid. -/
def PoolOK (major : UInt16) (pool : Pool) : Prop := ∀ (i : Nat) (e : Entry), pool[i]? = some e → EntryOK major pool e

/-- Encoding of a valid pool, references linked. -/
def PoolEnc (decode : Bytes → Option Str) (checks : Bool) (major : UInt16) (pool : Pool) (seg : Bytes) : Prop :=
  ∃ raw, RawPoolEnc decode checks major raw seg ∧ pool = raw.map linkEntry ∧ PoolOK major pool

end Cafebabe.Spec
