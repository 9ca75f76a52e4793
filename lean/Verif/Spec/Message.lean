import Verif.Spec.Faults
import Verif.Spec.PoolGraph
import Verif.Spec.TextMessage
import Verif.Spec.Errors
/-!
# Specification: the error for an input that is wrong outside its attributes

`Says o bytes e`: everything in `bytes` before some place is well formed, what stands there is wrong, and `e`, message and contexts, is the
error for it. `N` is always the number of bytes of the input, so when the bytes `t` are left the place is at index `N - t.length`. Attributes of
fields, of methods and of the class are not dealt with in `Says`: what is said about them is a parameter `A` here, which `Says` leaves empty
and `Spec.AttributeMessage` fills.
-/

namespace Cafebabe.Spec

/-- The magic number and the versions. -/
inductive HeaderSays (N : Nat) : Bytes → ParseError → Prop where
  | noMagic {t : Bytes} : t.length < 4 → HeaderSays N t (cutOff N "u4" t)
  | magic {s t : Bytes} : s.length = 4 → s ≠ [0xCA, 0xFE, 0xBA, 0xBE] → HeaderSays N (s ++ t) (plainly "Unexpected magic header")
  | noMinor {t : Bytes} : t.length < 2 → HeaderSays N ([0xCA, 0xFE, 0xBA, 0xBE] ++ t) (cutOff N "u2" t)
  | noMajor {minor : UInt16} {t : Bytes} : t.length < 2 → HeaderSays N ([0xCA, 0xFE, 0xBA, 0xBE] ++ (u2 minor ++ t)) (cutOff N "u2" t)

/-! ## The constant pool -/

/-- The numbers that follow a tag (with their names in messages and sizes); MethodHandle is dealt with separately, and in Utf8 the bytes of the
text follow. -/
def tagNumbers (b : UInt8) : List (String × Nat) :=
  match b.toNat with
  | 1 | 7 | 8 | 16 | 19 | 20 => [("u2", 2)]
  | 3 | 4 => [("u4", 4)]
  | 5 | 6 => [("u8", 8)]
  | 9 | 10 | 11 | 12 | 17 | 18 => [("u2", 2), ("u2", 2)]
  | _ => []

/-- In a sequence of numbers, one is cut off. -/
inductive NumberCut (N : Nat) : List (String × Nat) → Bytes → ParseError → Prop where
  | here {w : String} {size : Nat} {rest : List (String × Nat)} {t : Bytes} : t.length < size → NumberCut N ((w, size) :: rest) t (cutOff N w t)
  | later {w : String} {size : Nat} {rest : List (String × Nat)} {s t : Bytes} {e : ParseError} : s.length = size → NumberCut N rest t e →
      NumberCut N ((w, size) :: rest) (s ++ t) e

/-- The bytes do not start with a constant. -/
inductive ConstantWrong (N : Nat) (major : UInt16) : Bytes → ParseError → Prop where
  | noTag : ConstantWrong N major [] (cutOff N "u1" [])
  /-- The index in the message is that of the tag. -/
  | tag {b : UInt8} {t : Bytes} : ¬ TagAllowed major b → ConstantWrong N major (b :: t)
      (plainly s!"Unexpected constant pool entry type {b} at index {N - (b :: t).length} for classfile major version {major}")
  | number {b : UInt8} {t : Bytes} {e : ParseError} : TagAllowed major b → NumberCut N (tagNumbers b) t e → ConstantWrong N major (b :: t) e
  | text {n : UInt16} {t : Bytes} : t.length < n.toNat → ConstantWrong N major ([1] ++ (u2 n ++ t)) (cutOff N "CONSTANT_Utf8" t)
  | noKind : 51 ≤ major → ConstantWrong N major [15] (cutOff N "u1" [])
  /-- The index in the message is that of the kind. -/
  | kind {k : UInt8} {t : Bytes} : 51 ≤ major → (∀ r, k ≠ kindByte r) → ConstantWrong N major (15 :: k :: t)
      (plainly s!"Unexpected reference kind {k} when reading CONSTANT_methodhandle at index {N - (k :: t).length}")
  | noReference {r : ReferenceKind} {t : Bytes} : 51 ≤ major → t.length < 2 → ConstantWrong N major (15 :: kindByte r :: t) (cutOff N "u2" t)

/-- The constants cannot be read. -/
inductive RawPoolSays (o : Opts) (N : Nat) (major : UInt16) : Bytes → ParseError → Prop where
  | noCount {t : Bytes} : t.length < 2 → RawPoolSays o N major t (cutOff N "u2" t)
  /-- Some constants are read, another one is to follow, and it is wrong. -/
  | constant {count : UInt16} {es : List Entry} {body t : Bytes} {e : ParseError} : seq (EntryEnc o.decode major) es body →
      (∀ k, k ≤ es.length → slotCount (es.take k) % 65536 < count.toNat) → (o.checks = true → slotCount es < 65536) →
      ConstantWrong N major t e → RawPoolSays o N major (u2 count ++ (body ++ t)) e

/-- In the constant in slot `i` of a pool of `n` slots, a reference is wrong. -/
inductive ReferenceSays (n i : Nat) (j : UInt16) : String → Prop where
  | self : j.toNat = i → ReferenceSays n i j s!"Constant pool entry at index {i} could not be resolved due to self-reference"
  | outside : j.toNat ≠ i → n ≤ j.toNat → ReferenceSays n i j s!"Constant pool entry at index {i} references out-of-bounds index {j.toNat}"

/-- The first wrong reference of the first constant that has one. -/
inductive RangeSays (raw : Pool) : String → Prop where
  | intro {i : Nat} {e : Entry} {j : UInt16} {before after : List CPRef} {m : String} : raw[i]? = some e →
      (∀ (i' : Nat) (e' : Entry), i' < i → raw[i']? = some e' → ∀ j', .unresolved j' ∈ refsOf e' → j'.toNat < raw.length ∧ j'.toNat ≠ i') →
      refsOf e = before ++ .unresolved j :: after → (∀ j', .unresolved j' ∈ before → j'.toNat < raw.length ∧ j'.toNat ≠ i) →
      ReferenceSays raw.length i j m → RangeSays raw m

/-- Slot `x` should be a text for which `D` holds. -/
inductive TextSays (pool : Pool) (D : Str → Prop) (complaint : String) (x : Nat) : String → Prop where
  | kind : ¬ Utf8At pool x → TextSays pool D complaint x "Unexpected constant pool reference type"
  | undecodable {b : Bytes} : pool[x]? = some (.utf8Bytes b) →
      TextSays pool D complaint x "Attempting to get utf-8 data from non-utf8 constant pool entry!"
  | bad {s : Str} : TextAt pool x s → ¬ D s → TextSays pool D complaint x complaint

/-- Slot `n` should be a NameAndType with a field descriptor. -/
inductive FieldTypeSays (pool : Pool) (n : Nat) : String → Prop where
  | kind : ¬ IsNameAndType pool n → FieldTypeSays pool n "Unexpected constant pool reference type"
  | descriptor {x : CPRef} {y : Nat} {m : String} : pool[n]? = some (.nameAndType x (.resolved y)) →
      TextSays pool IsFieldDescriptor "Invalid field descriptor" y m → FieldTypeSays pool n m

/-- Slot `n` should be a NameAndType with a method descriptor; a descriptor that is a NameAndType is followed. -/
inductive MethodTypeSays (pool : Pool) (n : Nat) : String → Prop where
  | kind : ¬ IsNameAndType pool n → MethodTypeSays pool n "Unexpected constant pool reference type"
  | descriptor {j : Nat} {m : String} : IsNameAndType pool n → LeadsTo pool n j → ¬ IsNameAndType pool j →
      TextSays pool IsMethodDescriptor "Invalid method descriptor" j m → MethodTypeSays pool n m

/-- What is said about a constant that is not valid. -/
inductive EntrySays (major : UInt16) (pool : Pool) : Entry → String → Prop where
  | classInfo {x : Nat} {m : String} : TextSays pool (fun s => BinaryName s ∨ IsArrayDescriptor s) "Invalid classinfo name" x m →
      EntrySays major pool (.classInfo (.resolved x)) m
  | string {x : Nat} : ¬ Utf8At pool x → EntrySays major pool (.string (.resolved x)) "Unexpected constant pool reference type"
  | fieldClass {c n : Nat} : ¬ IsClass pool c → EntrySays major pool (.fieldRef (.resolved c) (.resolved n)) "Unexpected constant pool reference type"
  | field {c n : Nat} {m : String} : IsClass pool c → FieldTypeSays pool n m → EntrySays major pool (.fieldRef (.resolved c) (.resolved n)) m
  | methodClass {c n : Nat} : ¬ IsClass pool c → EntrySays major pool (.methodRef (.resolved c) (.resolved n)) "Unexpected constant pool reference type"
  | method {c n : Nat} {m : String} : IsClass pool c → MethodTypeSays pool n m → EntrySays major pool (.methodRef (.resolved c) (.resolved n)) m
  | interfaceClass {c n : Nat} : ¬ IsClass pool c →
      EntrySays major pool (.interfaceMethodRef (.resolved c) (.resolved n)) "Unexpected constant pool reference type"
  | interfaceMethod {c n : Nat} {m : String} : IsClass pool c → MethodTypeSays pool n m →
      EntrySays major pool (.interfaceMethodRef (.resolved c) (.resolved n)) m
  | name {x y : Nat} {m : String} : TextSays pool UnqualifiedName "Invalid unqualified name" x m →
      EntrySays major pool (.nameAndType (.resolved x) (.resolved y)) m
  | descriptor {x y : Nat} {s : Str} : TextAt pool x s → UnqualifiedName s → ¬ Utf8At pool y →
      EntrySays major pool (.nameAndType (.resolved x) (.resolved y)) "Unexpected constant pool reference type"
  | methodHandle {k : ReferenceKind} {x : Nat} : ¬ HandleTarget major k pool x →
      EntrySays major pool (.methodHandle k (.resolved x)) "Unexpected constant pool reference type"
  | methodType {x : Nat} {m : String} : TextSays pool IsMethodDescriptor "Invalid method descriptor" x m →
      EntrySays major pool (.methodType (.resolved x)) m
  | dynamic {b : UInt16} {n : Nat} {m : String} : FieldTypeSays pool n m → EntrySays major pool (.dynamic b (.resolved n)) m
  | invokeDynamic {b : UInt16} {n : Nat} {m : String} : MethodTypeSays pool n m → EntrySays major pool (.invokeDynamic b (.resolved n)) m
  | moduleInfo {x : Nat} {m : String} : TextSays pool ModuleName "Invalid module name" x m → EntrySays major pool (.moduleInfo (.resolved x)) m
  | packageInfo {x : Nat} {m : String} : TextSays pool BinaryName "Invalid binary name" x m → EntrySays major pool (.packageInfo (.resolved x)) m

/-- The constant pool. -/
inductive PoolSays (o : Opts) (N : Nat) (major : UInt16) : Bytes → ParseError → Prop where
  | raw {s : Bytes} {e : ParseError} : RawPoolSays o N major s e → PoolSays o N major s e
  | range {raw : Pool} {s rest : Bytes} {m : String} : RawPoolEnc o.decode o.checks major raw s → RangeSays raw m →
      PoolSays o N major (s ++ rest) (plainly m)
  | entry {raw : Pool} {s rest : Bytes} {i : Nat} {e : Entry} {m : String} : RawPoolEnc o.decode o.checks major raw s → RefsInRange raw →
      (raw.map linkEntry)[i]? = some e → EntrySays major (raw.map linkEntry) e m →
      (∀ (j : Nat) (f : Entry), j < i → (raw.map linkEntry)[j]? = some f → EntryPasses major (raw.map linkEntry) f) →
      PoolSays o N major (s ++ rest) (inside s!"constant pool entry {i}" (plainly m))

/-! ## Indices of constants -/

/-- The index of a constant for which `K` should hold. -/
inductive IndexSays (N : Nat) (pool : Pool) (K : Entry → Prop) : Bytes → ParseError → Prop where
  | cut {t : Bytes} : t.length < 2 → IndexSays N pool K t (cutOff N "u2" t)
  | outside {i : UInt16} {t : Bytes} : pool.length ≤ i.toNat →
      IndexSays N pool K (u2 i ++ t) (plainly s!"Out-of-bounds index {i.toNat} in constant pool reference")
  | kind {i : UInt16} {t : Bytes} {e : Entry} : pool[i.toNat]? = some e → ¬ K e →
      IndexSays N pool K (u2 i ++ t) (plainly "Unexpected constant pool reference type")

/-- The index of a text. -/
def TextIndexSays (N : Nat) (pool : Pool) : Bytes → ParseError → Prop := IndexSays N pool fun e => ∃ s, e = .utf8 s

/-- The index of a class, which should not be an array; `optional`: it may also be zero. -/
inductive ClassIndexSays (N : Nat) (pool : Pool) (optional : Prop) : Bytes → ParseError → Prop where
  | index {t : Bytes} {e : ParseError} : IndexSays N pool (fun c => (∃ x, c = .classInfo x) ∨ (optional ∧ c = .zero)) t e → ClassIndexSays N pool optional t e
  | name {i : UInt16} {s : Str} {t : Bytes} {m : String} : ClassAt pool i.toNat s → ClassNameSays s m →
      ClassIndexSays N pool optional (u2 i ++ t) (plainly m)

/-- The index of a method descriptor. -/
inductive DescriptorIndexSays (N : Nat) (pool : Pool) : Bytes → ParseError → Prop where
  | index {t : Bytes} {e : ParseError} : TextIndexSays N pool t e → DescriptorIndexSays N pool t e
  | text {i : UInt16} {s : Str} {t : Bytes} {m : String} : TextAt pool i.toNat s → MethodSays s m → DescriptorIndexSays N pool (u2 i ++ t) (plainly m)

/-! ## After the constant pool -/

/-- The field after the fields `fs`. -/
inductive FieldWrong (N : Nat) (pool : Pool) (A : Bytes → ParseError → Prop) (fs : List FieldInfo) : Bytes → ParseError → Prop where
  | flags {t : Bytes} : t.length < 2 → FieldWrong N pool A fs t (cutOff N "u2" t)
  | name {bits : UInt16} {t : Bytes} {e : ParseError} : TextIndexSays N pool t e →
      FieldWrong N pool A fs (u2 bits ++ t) (inside s!"name of class field {fs.length}" e)
  | badName {bits i : UInt16} {name : Str} {t : Bytes} : TextAt pool i.toNat name → ¬ UnqualifiedName name →
      FieldWrong N pool A fs (u2 bits ++ (u2 i ++ t)) (plainly s!"Invalid unqualified name for class field {fs.length}")
  | descriptor {bits i : UInt16} {name : Str} {t : Bytes} {e : ParseError} : TextAt pool i.toNat name → UnqualifiedName name →
      TextIndexSays N pool t e → FieldWrong N pool A fs (u2 bits ++ (u2 i ++ t)) (inside s!"descriptor of class field {fs.length}" e)
  /-- The error does not say which field it is. -/
  | badDescriptor {bits i j : UInt16} {name d : Str} {t : Bytes} {m : String} : TextAt pool i.toNat name → UnqualifiedName name →
      TextAt pool j.toNat d → FieldSays d m → FieldWrong N pool A fs (u2 bits ++ (u2 i ++ (u2 j ++ t))) (plainly m)
  | duplicate {bits i j : UInt16} {name : Str} {d : FieldDescriptor} {t : Bytes} : TextAt pool i.toNat name → UnqualifiedName name →
      FieldDescriptorAt pool j.toNat d → (∃ f ∈ fs, f.name = name ∧ f.descriptor = d) →
      FieldWrong N pool A fs (u2 bits ++ (u2 i ++ (u2 j ++ t))) (plainly s!"Class field {fs.length} is duplicate of previously-encountered field")
  | attributes {bits i j : UInt16} {name : Str} {d : FieldDescriptor} {t : Bytes} {e : ParseError} : TextAt pool i.toNat name → UnqualifiedName name →
      FieldDescriptorAt pool j.toNat d → (∀ f ∈ fs, ¬ (f.name = name ∧ f.descriptor = d)) → A t e →
      FieldWrong N pool A fs (u2 bits ++ (u2 i ++ (u2 j ++ t))) (inside s!"class field {fs.length}" e)

/-- What is said about the descriptor of method number `i` when it does not suit the name. -/
inductive SpecialSays (inInterface : Prop) (major : UInt16) (i : Nat) (name : Str) (d : MethodDescriptor) : String → Prop where
  | init : ¬ inInterface → name = "<init>".toList → d.returnType ≠ .void →
      SpecialSays inInterface major i name d s!"Non-void method descriptor for init method {i}"
  | clinit : name = "<clinit>".toList → d.returnType ≠ .void →
      SpecialSays inInterface major i name d s!"Non-void method descriptor for clinit method {i}"
  | arguments : name = "<clinit>".toList → d.returnType = .void → 51 ≤ major → d.parameters ≠ [] →
      SpecialSays inInterface major i name d s!"Arguments found in descriptor for clinit method {i}"

/-- The method after the methods `ms`. -/
inductive MethodWrong (N : Nat) (pool : Pool) (A : Bytes → ParseError → Prop) (inInterface : Prop) (major : UInt16) (ms : List MethodInfo) : Bytes → ParseError → Prop where
  | flags {t : Bytes} : t.length < 2 → MethodWrong N pool A inInterface major ms t (cutOff N "u2" t)
  | name {bits : UInt16} {t : Bytes} {e : ParseError} : TextIndexSays N pool t e →
      MethodWrong N pool A inInterface major ms (u2 bits ++ t) (inside s!"name of class method {ms.length}" e)
  | badName {bits i : UInt16} {name : Str} {t : Bytes} : TextAt pool i.toNat name → ¬ MethodName (¬ inInterface) True name →
      MethodWrong N pool A inInterface major ms (u2 bits ++ (u2 i ++ t)) (plainly s!"Invalid unqualified name for class method {ms.length}")
  | descriptor {bits i : UInt16} {name : Str} {t : Bytes} {e : ParseError} : TextAt pool i.toNat name → MethodName (¬ inInterface) True name →
      DescriptorIndexSays N pool t e →
      MethodWrong N pool A inInterface major ms (u2 bits ++ (u2 i ++ t)) (inside s!"descriptor of class method {ms.length}" e)
  | special {bits i j : UInt16} {name : Str} {d : MethodDescriptor} {t : Bytes} {m : String} : TextAt pool i.toNat name →
      MethodName (¬ inInterface) True name → MethodDescriptorAt pool j.toNat d → SpecialSays inInterface major ms.length name d m →
      MethodWrong N pool A inInterface major ms (u2 bits ++ (u2 i ++ (u2 j ++ t))) (plainly m)
  | duplicate {bits i j : UInt16} {name : Str} {d : MethodDescriptor} {t : Bytes} : TextAt pool i.toNat name →
      MethodName (¬ inInterface) True name → MethodDescriptorAt pool j.toNat d →
      SpecialMethodOK inInterface major { accessFlags := bits, name := name, descriptor := d, attributes := [] } →
      (∃ m ∈ ms, m.name = name ∧ m.descriptor = d) →
      MethodWrong N pool A inInterface major ms (u2 bits ++ (u2 i ++ (u2 j ++ t)))
        (plainly s!"Class method {ms.length} is duplicate of previously-encountered method")
  | attributes {bits i j : UInt16} {name : Str} {d : MethodDescriptor} {t : Bytes} {e : ParseError} : TextAt pool i.toNat name →
      MethodName (¬ inInterface) True name → MethodDescriptorAt pool j.toNat d →
      SpecialMethodOK inInterface major { accessFlags := bits, name := name, descriptor := d, attributes := [] } →
      (∀ m ∈ ms, ¬ (m.name = name ∧ m.descriptor = d)) → A t e →
      MethodWrong N pool A inInterface major ms (u2 bits ++ (u2 i ++ (u2 j ++ t))) (inside s!"class method {ms.length}" e)

/-- The access flags of the class. -/
inductive FlagsSays (flags major : UInt16) : String → Prop where
  | version : IsModule flags → major < 53 → FlagsSays flags major s!"Found invalid MODULE class access flag on class file of major version {major}"
  | others : IsModule flags → 53 ≤ major → flags ≠ 0x8000 →
      FlagsSays flags major s!"Found invalid class access flags {flagsText flags}; no other flags should be set with MODULE"

/-- From the access flags to the interfaces. -/
inductive BodySays (N : Nat) (major : UInt16) (pool : Pool) : Bytes → ParseError → Prop where
  | noFlags {t : Bytes} : t.length < 2 → BodySays N major pool t (cutOff N "u2" t)
  | flags {bits : UInt16} {t : Bytes} {m : String} : FlagsSays (bits &&& 0xF631) major m → BodySays N major pool (u2 bits ++ t) (plainly m)
  | thisClass {bits : UInt16} {t : Bytes} {e : ParseError} : (IsModule (bits &&& 0xF631) → 53 ≤ major ∧ bits &&& 0xF631 = 0x8000) →
      ClassIndexSays N pool False t e → BodySays N major pool (u2 bits ++ t) (inside "this_class" e)
  | superClass {bits i : UInt16} {this : ClassName} {t : Bytes} {e : ParseError} :
      (IsModule (bits &&& 0xF631) → 53 ≤ major ∧ bits &&& 0xF631 = 0x8000) → ClassNameAt pool i.toNat this → ClassIndexSays N pool True t e →
      BodySays N major pool (u2 bits ++ (u2 i ++ t)) (inside "super_class" e)
  | interfaces {bits i j : UInt16} {this : ClassName} {super : Option ClassName} {t : Bytes} :
      (IsModule (bits &&& 0xF631) → 53 ≤ major ∧ bits &&& 0xF631 = 0x8000) → ClassNameAt pool i.toNat this → OptAt ClassNameAt pool j.toNat super →
      t.length < 2 → BodySays N major pool (u2 bits ++ (u2 i ++ (u2 j ++ t))) (cutOff N "u2" t)
  | interface' {bits i j count : UInt16} {this : ClassName} {super : Option ClassName} {ifs : List ClassName} {before t : Bytes} {e : ParseError} :
      (IsModule (bits &&& 0xF631) → 53 ≤ major ∧ bits &&& 0xF631 = 0x8000) → ClassNameAt pool i.toNat this → OptAt ClassNameAt pool j.toNat super →
      ifs.length < count.toNat → seq (fun c => ref fun i => ClassNameAt pool i c) ifs before → ClassIndexSays N pool False t e →
      BodySays N major pool (u2 bits ++ (u2 i ++ (u2 j ++ (u2 count ++ (before ++ t))))) (inside s!"interface {ifs.length}" e)

/-- The index `x` of a bootstrap method. -/
inductive BootstrapSays (as : List AttributeInfo) (x : UInt16) : String → Prop where
  | index {l : List BootstrapMethodEntry} : l ∈ bootstrapTables as → l.length ≤ x.toNat →
      BootstrapSays as x "Constant pool item contained invalid index into BootstrapMethods class attribute"
  | number : (∀ l ∈ bootstrapTables as, x.toNat < l.length) → (bootstrapTables as).length ≠ 1 →
      BootstrapSays as x s!"Found unexpected number of BootstrapMethods attributes in class; found {(bootstrapTables as).length}, expected 1"

/-- The checks after the class attributes; the bytes `rest` are left. -/
inductive EndSays (N : Nat) (pool : Pool) (flags : UInt16) (super : Option ClassName) (ifs : List ClassName) (fs : List FieldInfo)
    (ms : List MethodInfo) (as : List AttributeInfo) (rest : Bytes) : String → Prop where
  | extra : rest ≠ [] → EndSays N pool flags super ifs fs ms as rest s!"Extra bytes found at index {N - rest.length} after reading class file"
  | super {c : ClassName} : rest = [] → IsModule flags → super = some c →
      EndSays N pool flags super ifs fs ms as rest s!"Found non-empty super_class {String.ofList c.name}; expected none for module"
  | interfaces : rest = [] → IsModule flags → super = none → ifs ≠ [] →
      EndSays N pool flags super ifs fs ms as rest s!"Found {ifs.length} interfaces; expected 0 for module"
  | fields : rest = [] → IsModule flags → super = none → ifs = [] → fs ≠ [] →
      EndSays N pool flags super ifs fs ms as rest s!"Found {fs.length} fields; expected 0 for module"
  | methods : rest = [] → IsModule flags → super = none → ifs = [] → fs = [] → ms ≠ [] →
      EndSays N pool flags super ifs fs ms as rest s!"Found {ms.length} methods; expected 0 for module"
  /-- The first constant with an index of a bootstrap method that is wrong. -/
  | bootstrap {before after : Pool} {e : Entry} {x : UInt16} {r : CPRef} {m : String} : rest = [] →
      (IsModule flags → super = none ∧ ifs = [] ∧ fs = [] ∧ ms = []) → pool = before ++ e :: after → (e = .dynamic x r ∨ e = .invokeDynamic x r) →
      BootstrapIndicesOK before as → BootstrapSays as x m → EndSays N pool flags super ifs fs ms as rest m

/-- From the fields to the end. -/
inductive BackSays (o : Opts) (A : Pool → Bytes → ParseError → Prop) (N : Nat) (major : UInt16) (pool : Pool) (flags : UInt16) (super : Option ClassName) (ifs : List ClassName) :
    Bytes → ParseError → Prop where
  | fields {t : Bytes} : t.length < 2 → BackSays o A N major pool flags super ifs t (cutOff N "u2" t)
  | field {count : UInt16} {fs : List FieldInfo} {before t : Bytes} {e : ParseError} : fs.length < count.toNat → FieldsDistinct fs →
      seq (FieldEnc o pool) fs before → FieldWrong N pool (A pool) fs t e → BackSays o A N major pool flags super ifs (u2 count ++ (before ++ t)) e
  | methods {fs : List FieldInfo} {sf t : Bytes} : FieldsDistinct fs → table2 (FieldEnc o pool) fs sf → t.length < 2 →
      BackSays o A N major pool flags super ifs (sf ++ t) (cutOff N "u2" t)
  | method {count : UInt16} {fs : List FieldInfo} {ms : List MethodInfo} {sf before t : Bytes} {e : ParseError} : FieldsDistinct fs →
      table2 (FieldEnc o pool) fs sf → ms.length < count.toNat → MethodsDistinct ms →
      seq (MethodEnc o pool (IsInterface flags) major) ms before → MethodWrong N pool (A pool) (IsInterface flags) major ms t e →
      BackSays o A N major pool flags super ifs (sf ++ (u2 count ++ (before ++ t))) e
  | attributes {fs : List FieldInfo} {ms : List MethodInfo} {sf sm t : Bytes} {e : ParseError} : FieldsDistinct fs →
      table2 (FieldEnc o pool) fs sf → MethodsDistinct ms → table2 (MethodEnc o pool (IsInterface flags) major) ms sm → A pool t e →
      BackSays o A N major pool flags super ifs (sf ++ (sm ++ t)) (inside "class" e)
  | final {fs : List FieldInfo} {ms : List MethodInfo} {as : List AttributeInfo} {sf sm sa rest : Bytes} {m : String} : FieldsDistinct fs →
      table2 (FieldEnc o pool) fs sf → MethodsDistinct ms → table2 (MethodEnc o pool (IsInterface flags) major) ms sm →
      AttributesEnc o pool as sa → EndSays N pool flags super ifs fs ms as rest m →
      BackSays o A N major pool flags super ifs (sf ++ (sm ++ (sa ++ rest))) (plainly m)

/-- An input of length `N`, and its error; `A pool` is what is said about tables of attributes. -/
inductive SaysOf (o : Opts) (A : Pool → Bytes → ParseError → Prop) (N : Nat) : Bytes → ParseError → Prop where
  | header {t : Bytes} {e : ParseError} : HeaderSays N t e → SaysOf o A N t e
  | pool {minor major : UInt16} {t : Bytes} {e : ParseError} : PoolSays o N major t e → SaysOf o A N (Spec.header minor major ++ t) e
  | body {minor major : UInt16} {pool : Pool} {sp t : Bytes} {e : ParseError} : PoolEnc o.decode o.checks major pool sp → BodySays N major pool t e →
      SaysOf o A N (Spec.header minor major ++ (sp ++ t)) e
  | back {minor major bits i j : UInt16} {pool : Pool} {this : ClassName} {super : Option ClassName} {ifs : List ClassName} {sp si t : Bytes}
      {e : ParseError} : PoolEnc o.decode o.checks major pool sp → (IsModule (bits &&& 0xF631) → 53 ≤ major ∧ bits &&& 0xF631 = 0x8000) →
      ClassNameAt pool i.toNat this → OptAt ClassNameAt pool j.toNat super → table2 (fun c => ref fun i => ClassNameAt pool i c) ifs si →
      BackSays o A N major pool (bits &&& 0xF631) super ifs t e →
      SaysOf o A N (Spec.header minor major ++ (sp ++ (u2 bits ++ (u2 i ++ (u2 j ++ (si ++ t)))))) e

/-- What is wrong with `bytes`, outside attributes, and the error for it. -/
def Says (o : Opts) (bytes : Bytes) (e : ParseError) : Prop := SaysOf o (fun _ _ _ => False) bytes.length bytes e

/-- The outermost context names the attributes of a field, of a method or of the class. -/
def InAttributes (e : ParseError) : Prop :=
  e.contexts.getLast? = some "class" ∨ ∃ i : Nat, e.contexts.getLast? = some s!"class field {i}" ∨ e.contexts.getLast? = some s!"class method {i}"

end Cafebabe.Spec
