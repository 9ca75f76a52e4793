import Verif.Spec.Nested
/-!
# Specification: the inputs on which parsing panics

Each definition describes input bytes: everything up to some point is well formed, and what stands there makes the parser panic.
Nothing is required of what follows.
-/

namespace Cafebabe.Spec

/-! ## Overflow in a code array (only in builds with overflow checks) -/

/-- A `tableswitch` at position `pos` whose case range `low ..= high` has more than `i32::MAX` values. -/
def SwitchOverflow (pos : Nat) (s : Bytes) : Prop :=
  ∃ (pad rest : Bytes) (default low high : Int32), s = [0xaa] ++ (pad ++ (s4 default ++ (s4 low ++ (s4 high ++ rest)))) ∧
    padding (pos + 1) pad ∧ low.toInt ≤ high.toInt ∧ 2147483647 < high.toInt - low.toInt + 1

/-- The jump `j` of the instruction at offset `o` leads to an instruction, at an offset below `2^31`. -/
def JumpLands (ops : List (Nat × Opcode)) (o : Nat) (j : Int32) : Prop :=
  ∃ (o' : Nat) (op' : Opcode), (o', op') ∈ ops ∧ (o' : Int) = (o : Int) + j.toInt ∧ o' < 2147483648

/-- The first jump that does not lead to an instruction leads to an offset above `i32::MAX` (from an instruction at an offset of at most
`i32::MAX`). -/
def JumpOverflow (ops : List (Nat × Opcode)) : Prop :=
  ∃ (before after : List (Nat × Opcode)) (o : Nat) (op : Opcode) (js js' : List Int32) (j : Int32),
    ops = before ++ (o, op) :: after ∧ jumpsOf op = js ++ j :: js' ∧
    (∀ x ∈ before, ∀ i ∈ jumpsOf x.2, JumpLands ops x.1 i) ∧ (∀ i ∈ js, JumpLands ops o i) ∧
    o < 2147483648 ∧ 2147483647 < (o : Int) + j.toInt

/-- Decoding the code array overflows: instructions up to a `tableswitch` with too many cases, or instructions throughout, one of which
jumps too far. -/
def CodeOverflows (pool : Pool) (code : Bytes) : Prop :=
  (∃ (ops : List (Nat × Opcode)) (s t : Bytes), code = s ++ t ∧ InsnsEnc true pool 0 ops s ∧ SwitchOverflow s.length t) ∨
    ∃ ops : List (Nat × Opcode), InsnsEnc true pool 0 ops code ∧ JumpOverflow ops

/-! ## Attributes -/

/-- Slot `i` is a NameAndType constant whose descriptor is a Utf8 constant that cannot be decoded. -/
def BadNameAndTypeAt (pool : Pool) (i : Nat) : Prop :=
  ∃ (x : CPRef) (y : Nat) (b : Bytes), pool[i]? = some (Entry.nameAndType x (.resolved y)) ∧ pool[y]? = some (Entry.utf8Bytes b)

/-- The head of an attribute: its name, and a declared length for which enough bytes follow. -/
def AttrHead (pool : Pool) (name : Str) (content s : Bytes) : Prop :=
  ∃ (i : UInt16) (n : UInt32), TextAt pool i.toNat name ∧ n.toNat ≤ content.length ∧ s = u2 i ++ (u4 n ++ content)

mutual
/-- Reading a table of attributes panics in the way `k`: some attributes are read, the next one panics. -/
inductive AttrsPanic (o : Opts) (pool : Pool) (k : PanicKind) : Bytes → Prop where
  | next {count : UInt16} {as : List AttributeInfo} {s t : Bytes} : as.length < count.toNat → AttrsEnc o pool as s →
      AttrPanics o pool k t → AttrsPanic o pool k (u2 count ++ (s ++ t))

/-- Reading an attribute panics in the way `k`. -/
inductive AttrPanics (o : Opts) (pool : Pool) (k : PanicKind) : Bytes → Prop where
  /-- An EnclosingMethod attribute of declared length 4 with a bad NameAndType. -/
  | enclosing {n i j : UInt16} {c : Str} {rest : Bytes} : k = .nonUtf8 → TextAt pool n.toNat "EnclosingMethod".toList →
      ClassAt pool i.toNat c → BadNameAndTypeAt pool j.toNat →
      AttrPanics o pool k (u2 n ++ (u4 4 ++ (u2 i ++ (u2 j ++ rest))))
  /-- A Code attribute whose parts are all well formed, except that decoding the code array overflows. -/
  | code {maxStack maxLocals : UInt16} {len : UInt32} {code ex ats rest s : Bytes} {es : List ExceptionTableEntry}
      {as : List AttributeInfo} : k = .overflow → o.checks = true → o.parseBytecode = true →
      AttrHead pool "Code".toList (u2 maxStack ++ (u2 maxLocals ++ (u4 len ++ (code ++ (ex ++ (ats ++ rest)))))) s →
      len.toNat = code.length → table2 (ExceptionEnc pool) es ex → AttributesEnc o pool as ats → CodeOverflows pool code →
      AttrPanics o pool k s
  /-- A Code attribute with a nested attribute that panics. -/
  | inCode {maxStack maxLocals : UInt16} {len : UInt32} {code ex t s : Bytes} {es : List ExceptionTableEntry} :
      AttrHead pool "Code".toList (u2 maxStack ++ (u2 maxLocals ++ (u4 len ++ (code ++ (ex ++ t))))) s →
      len.toNat = code.length → table2 (ExceptionEnc pool) es ex → AttrsPanic o pool k t → AttrPanics o pool k s
  /-- A Record attribute with a component one of whose attributes panics. -/
  | inRecord {count i j : UInt16} {name : Str} {d : FieldDescriptor} {before t s : Bytes} {cs : List RecordComponentEntry} :
      AttrHead pool "Record".toList (u2 count ++ (before ++ (u2 i ++ (u2 j ++ t)))) s →
      cs.length < count.toNat → ComponentsEnc o pool cs before → TextAt pool i.toNat name → UnqualifiedName name →
      FieldDescriptorAt pool j.toNat d → AttrsPanic o pool k t → AttrPanics o pool k s
end

/-! ## Fields, methods, the file -/

/-- Reading the fields panics: some distinct fields are read, then the attributes of another one, distinct from them, panic. -/
def FieldsPanic (o : Opts) (pool : Pool) (k : PanicKind) (s : Bytes) : Prop :=
  ∃ (count bits i j : UInt16) (fs : List FieldInfo) (name : Str) (d : FieldDescriptor) (before t : Bytes),
    s = u2 count ++ (before ++ (u2 bits ++ (u2 i ++ (u2 j ++ t)))) ∧ fs.length < count.toNat ∧
    FieldsDistinct fs ∧ seq (FieldEnc o pool) fs before ∧
    TextAt pool i.toNat name ∧ UnqualifiedName name ∧ FieldDescriptorAt pool j.toNat d ∧
    (∀ f ∈ fs, ¬ (f.name = name ∧ f.descriptor = d)) ∧ AttrsPanic o pool k t

/-- Reading the methods panics: some distinct methods are read, then the attributes of another one, distinct from them, panic. -/
def MethodsPanic (o : Opts) (pool : Pool) (inInterface : Prop) (major : UInt16) (k : PanicKind) (s : Bytes) : Prop :=
  ∃ (count bits i j : UInt16) (ms : List MethodInfo) (name : Str) (d : MethodDescriptor) (before t : Bytes),
    s = u2 count ++ (before ++ (u2 bits ++ (u2 i ++ (u2 j ++ t)))) ∧ ms.length < count.toNat ∧
    MethodsDistinct ms ∧ seq (MethodEnc o pool inInterface major) ms before ∧
    TextAt pool i.toNat name ∧ MethodName (¬ inInterface) True name ∧ MethodDescriptorAt pool j.toNat d ∧
    SpecialMethodOK inInterface major { accessFlags := bits, name := name, descriptor := d, attributes := [] } ∧
    (∀ m ∈ ms, ¬ (m.name = name ∧ m.descriptor = d)) ∧ AttrsPanic o pool k t

/-- After a well-formed front part (up to the interfaces), the attributes of a field, of a method or of the class panic, everything
before them being well formed. -/
def MemberPanic (o : Opts) (k : PanicKind) (bytes : Bytes) : Prop :=
  ∃ (minor major : UInt16) (pool : Pool) (flags : UInt16) (front rest : Bytes), bytes = front ++ rest ∧
    FrontEnc o minor major pool flags front ∧
    (FieldsPanic o pool k rest ∨
      ∃ (fs : List FieldInfo) (s t : Bytes), rest = s ++ t ∧ FieldsDistinct fs ∧ table2 (FieldEnc o pool) fs s ∧
        (MethodsPanic o pool (IsInterface flags) major k t ∨
          ∃ (ms : List MethodInfo) (s' t' : Bytes), t = s' ++ t' ∧ MethodsDistinct ms ∧
            table2 (MethodEnc o pool (IsInterface flags) major) ms s' ∧ AttrsPanic o pool k t'))

/-- The inputs on which parsing panics in the way `k`. -/
def PanicInput (o : Opts) (k : PanicKind) (bytes : Bytes) : Prop :=
  k = .overflow ∧ o.checks = true ∧ CounterOverflow o bytes ∨ MemberPanic o k bytes

end Cafebabe.Spec
