import Verif.Spec.Panics
import Verif.Spec.Chains
/-!
# Specification: the place an error names

An error carries contexts, the outermost last. The outermost one names a place in the class file. `FaultAt o p bytes`: everything before
the place `p` is well formed, and what stands at `p` is not. Nothing is required of what follows.
-/

namespace Cafebabe.Spec

/-- The places that an error can name; `plain` is an error without any context. -/
inductive Place where
  | plain
  | poolEntry (i : Nat)
  | thisClass
  | superClass
  | interface' (i : Nat)
  | fieldName (i : Nat)
  | fieldDescriptor (i : Nat)
  | field (i : Nat)
  | methodName (i : Nat)
  | methodDescriptor (i : Nat)
  | method (i : Nat)
  | classAttributes
  deriving DecidableEq

/-- How the outermost context names the place. -/
def Place.context : Place → Option String
  | .plain => none
  | .poolEntry i => some s!"constant pool entry {i}"
  | .thisClass => some "this_class"
  | .superClass => some "super_class"
  | .interface' i => some s!"interface {i}"
  | .fieldName i => some s!"name of class field {i}"
  | .fieldDescriptor i => some s!"descriptor of class field {i}"
  | .field i => some s!"class field {i}"
  | .methodName i => some s!"name of class method {i}"
  | .methodDescriptor i => some s!"descriptor of class method {i}"
  | .method i => some s!"class method {i}"
  | .classAttributes => some "class"

/-- No prefix of `s` is an encoding in `F`. -/
def NoneOf {α : Type} (F : α → Lang) (s : Bytes) : Prop := ∀ (a : α) (seg rest : Bytes), s = seg ++ rest → ¬ F a seg

/-- No table of attributes can be read from `s`, and reading it does not panic. -/
def AttrsFault (o : Opts) (pool : Pool) (s : Bytes) : Prop := NoneOf (AttributesEnc o pool) s ∧ ∀ k, ¬ AttrsPanic o pool k s

/-- A fault in the field after the fields `fs`. -/
inductive FieldFault (o : Opts) (pool : Pool) (fs : List FieldInfo) : Place → Bytes → Prop where
  /-- The flags are cut off. -/
  | flags {s : Bytes} : s.length < 2 → FieldFault o pool fs .plain s
  /-- The name is not a decodable Utf8 constant. -/
  | name {bits : UInt16} {s : Bytes} : NoneOf (fun n => ref fun i => TextAt pool i n) s →
      FieldFault o pool fs (.fieldName fs.length) (u2 bits ++ s)
  /-- The name is not a field name. -/
  | badName {bits i : UInt16} {name : Str} {s : Bytes} : TextAt pool i.toNat name → ¬ UnqualifiedName name →
      FieldFault o pool fs .plain (u2 bits ++ (u2 i ++ s))
  /-- The descriptor is not a decodable Utf8 constant. -/
  | descriptor {bits i : UInt16} {name : Str} {s : Bytes} : TextAt pool i.toNat name → UnqualifiedName name →
      NoneOf (fun d => ref fun j => TextAt pool j d) s → FieldFault o pool fs (.fieldDescriptor fs.length) (u2 bits ++ (u2 i ++ s))
  /-- The descriptor is a text, but not a field descriptor. -/
  | badDescriptor {bits i j : UInt16} {name d : Str} {s : Bytes} : TextAt pool i.toNat name → UnqualifiedName name →
      TextAt pool j.toNat d → (∀ fd, ¬ FieldDescriptorAt pool j.toNat fd) → FieldFault o pool fs .plain (u2 bits ++ (u2 i ++ (u2 j ++ s)))
  /-- An earlier field has the same name and descriptor. -/
  | duplicate {bits i j : UInt16} {name : Str} {d : FieldDescriptor} {s : Bytes} : TextAt pool i.toNat name → UnqualifiedName name →
      FieldDescriptorAt pool j.toNat d → (∃ f ∈ fs, f.name = name ∧ f.descriptor = d) →
      FieldFault o pool fs .plain (u2 bits ++ (u2 i ++ (u2 j ++ s)))
  /-- The attributes. -/
  | attributes {bits i j : UInt16} {name : Str} {d : FieldDescriptor} {s : Bytes} : TextAt pool i.toNat name → UnqualifiedName name →
      FieldDescriptorAt pool j.toNat d → (∀ f ∈ fs, ¬ (f.name = name ∧ f.descriptor = d)) → AttrsFault o pool s →
      FieldFault o pool fs (.field fs.length) (u2 bits ++ (u2 i ++ (u2 j ++ s)))

/-- A fault in the method after the methods `ms`. -/
inductive MethodFault (o : Opts) (pool : Pool) (inInterface : Prop) (major : UInt16) (ms : List MethodInfo) : Place → Bytes → Prop where
  /-- The flags are cut off. -/
  | flags {s : Bytes} : s.length < 2 → MethodFault o pool inInterface major ms .plain s
  /-- The name is not a decodable Utf8 constant. -/
  | name {bits : UInt16} {s : Bytes} : NoneOf (fun n => ref fun i => TextAt pool i n) s →
      MethodFault o pool inInterface major ms (.methodName ms.length) (u2 bits ++ s)
  /-- The name is not a method name. -/
  | badName {bits i : UInt16} {name : Str} {s : Bytes} : TextAt pool i.toNat name → ¬ MethodName (¬ inInterface) True name →
      MethodFault o pool inInterface major ms .plain (u2 bits ++ (u2 i ++ s))
  /-- The descriptor is not a decodable Utf8 constant with a method descriptor. -/
  | descriptor {bits i : UInt16} {name : Str} {s : Bytes} : TextAt pool i.toNat name → MethodName (¬ inInterface) True name →
      NoneOf (fun d => ref fun j => MethodDescriptorAt pool j d) s →
      MethodFault o pool inInterface major ms (.methodDescriptor ms.length) (u2 bits ++ (u2 i ++ s))
  /-- A restriction on `<init>` or `<clinit>` is violated. -/
  | special {bits i j : UInt16} {name : Str} {d : MethodDescriptor} {s : Bytes} : TextAt pool i.toNat name →
      MethodName (¬ inInterface) True name → MethodDescriptorAt pool j.toNat d →
      ¬ SpecialMethodOK inInterface major { accessFlags := bits, name := name, descriptor := d, attributes := [] } →
      MethodFault o pool inInterface major ms .plain (u2 bits ++ (u2 i ++ (u2 j ++ s)))
  /-- An earlier method has the same name and descriptor. -/
  | duplicate {bits i j : UInt16} {name : Str} {d : MethodDescriptor} {s : Bytes} : TextAt pool i.toNat name →
      MethodName (¬ inInterface) True name → MethodDescriptorAt pool j.toNat d →
      SpecialMethodOK inInterface major { accessFlags := bits, name := name, descriptor := d, attributes := [] } →
      (∃ m ∈ ms, m.name = name ∧ m.descriptor = d) → MethodFault o pool inInterface major ms .plain (u2 bits ++ (u2 i ++ (u2 j ++ s)))
  /-- The attributes. -/
  | attributes {bits i j : UInt16} {name : Str} {d : MethodDescriptor} {s : Bytes} : TextAt pool i.toNat name →
      MethodName (¬ inInterface) True name → MethodDescriptorAt pool j.toNat d →
      SpecialMethodOK inInterface major { accessFlags := bits, name := name, descriptor := d, attributes := [] } →
      (∀ m ∈ ms, ¬ (m.name = name ∧ m.descriptor = d)) → AttrsFault o pool s →
      MethodFault o pool inInterface major ms (.method ms.length) (u2 bits ++ (u2 i ++ (u2 j ++ s)))

/-- A fault in the constant pool. -/
inductive PoolFault (o : Opts) (major : UInt16) : Place → Bytes → Prop where
  /-- The constants cannot be read (and this is not an overflow of the slot counter). -/
  | raw {s : Bytes} : NoneOf (RawPoolEnc o.decode o.checks major) s →
      (o.checks = true → ¬ ∃ (count : UInt16) (es : List Entry) (body rest : Bytes), s = u2 count ++ body ++ rest ∧
        seq (EntryEnc o.decode major) es body ∧ (∀ k, k < es.length → slotCount (es.take k) < count.toNat) ∧ 65536 ≤ slotCount es) →
      PoolFault o major .plain s
  /-- A reference is outside the pool, or refers to the constant itself. -/
  | range {raw : Pool} {s rest : Bytes} : RawPoolEnc o.decode o.checks major raw s → ¬ RefsInRange raw → PoolFault o major .plain (s ++ rest)
  /-- A constant is invalid, and those before it are not. -/
  | entry {raw : Pool} {s rest : Bytes} {i : Nat} {e : Entry} : RawPoolEnc o.decode o.checks major raw s → RefsInRange raw →
      (raw.map linkEntry)[i]? = some e → ¬ EntryPasses major (raw.map linkEntry) e → ¬ EntryStuck (raw.map linkEntry) e →
      (∀ (j : Nat) (f : Entry), j < i → (raw.map linkEntry)[j]? = some f → EntryPasses major (raw.map linkEntry) f) →
      PoolFault o major (.poolEntry i) (s ++ rest)

/-- A fault in what follows the constant pool. -/
inductive BodyFault (o : Opts) (major : UInt16) (pool : Pool) : Place → Bytes → Prop where
  /-- The flags are cut off. -/
  | flags {s : Bytes} : s.length < 2 → BodyFault o major pool .plain s
  /-- The MODULE flag in an old class file, or next to others. -/
  | moduleFlag {bits : UInt16} {s : Bytes} : IsModule (bits &&& 0xF631) → ¬ (53 ≤ major ∧ bits &&& 0xF631 = 0x8000) →
      BodyFault o major pool .plain (u2 bits ++ s)
  /-- `this_class` is not the name of a class. -/
  | thisClass {bits : UInt16} {s : Bytes} : (IsModule (bits &&& 0xF631) → 53 ≤ major ∧ bits &&& 0xF631 = 0x8000) →
      NoneOf (fun c => ref fun i => ClassNameAt pool i c) s → BodyFault o major pool .thisClass (u2 bits ++ s)
  /-- `super_class` is neither 0 nor the name of a class. -/
  | superClass {bits i : UInt16} {this : ClassName} {s : Bytes} : (IsModule (bits &&& 0xF631) → 53 ≤ major ∧ bits &&& 0xF631 = 0x8000) →
      ClassNameAt pool i.toNat this → NoneOf (fun c => ref fun i => OptAt ClassNameAt pool i c) s →
      BodyFault o major pool .superClass (u2 bits ++ (u2 i ++ s))
  /-- The number of interfaces is cut off. -/
  | interfaces {bits i j : UInt16} {this : ClassName} {super : Option ClassName} {s : Bytes} :
      (IsModule (bits &&& 0xF631) → 53 ≤ major ∧ bits &&& 0xF631 = 0x8000) →
      ClassNameAt pool i.toNat this → OptAt ClassNameAt pool j.toNat super → s.length < 2 →
      BodyFault o major pool .plain (u2 bits ++ (u2 i ++ (u2 j ++ s)))
  /-- An interface is not the name of a class. -/
  | interface' {bits i j count : UInt16} {this : ClassName} {super : Option ClassName} {ifs : List ClassName} {before s : Bytes} :
      (IsModule (bits &&& 0xF631) → 53 ≤ major ∧ bits &&& 0xF631 = 0x8000) →
      ClassNameAt pool i.toNat this → OptAt ClassNameAt pool j.toNat super → ifs.length < count.toNat →
      seq (fun c => ref fun i => ClassNameAt pool i c) ifs before → NoneOf (fun c => ref fun i => ClassNameAt pool i c) s →
      BodyFault o major pool (.interface' ifs.length) (u2 bits ++ (u2 i ++ (u2 j ++ (u2 count ++ (before ++ s)))))

/-- The checks made after the class attributes have been read. -/
def EndFault (pool : Pool) (flags : UInt16) (super : Option ClassName) (ifs : List ClassName) (fs : List FieldInfo) (ms : List MethodInfo)
    (as : List AttributeInfo) (rest : Bytes) : Prop :=
  rest ≠ [] ∨ (IsModule flags ∧ ¬ (super = none ∧ ifs = [] ∧ fs = [] ∧ ms = [])) ∨ ¬ BootstrapIndicesOK pool as

/-- A fault in what follows the interfaces. -/
inductive BackFault (o : Opts) (major : UInt16) (pool : Pool) (flags : UInt16) (super : Option ClassName) (ifs : List ClassName) :
    Place → Bytes → Prop where
  /-- The number of fields is cut off. -/
  | fields {s : Bytes} : s.length < 2 → BackFault o major pool flags super ifs .plain s
  /-- A field. -/
  | field {p : Place} {count : UInt16} {fs : List FieldInfo} {before s : Bytes} : fs.length < count.toNat → FieldsDistinct fs →
      seq (FieldEnc o pool) fs before → FieldFault o pool fs p s → BackFault o major pool flags super ifs p (u2 count ++ (before ++ s))
  /-- The number of methods is cut off. -/
  | methods {fs : List FieldInfo} {sf s : Bytes} : FieldsDistinct fs → table2 (FieldEnc o pool) fs sf → s.length < 2 →
      BackFault o major pool flags super ifs .plain (sf ++ s)
  /-- A method. -/
  | method {p : Place} {count : UInt16} {fs : List FieldInfo} {ms : List MethodInfo} {sf before s : Bytes} : FieldsDistinct fs →
      table2 (FieldEnc o pool) fs sf → ms.length < count.toNat → MethodsDistinct ms →
      seq (MethodEnc o pool (IsInterface flags) major) ms before → MethodFault o pool (IsInterface flags) major ms p s →
      BackFault o major pool flags super ifs p (sf ++ (u2 count ++ (before ++ s)))
  /-- The class attributes. -/
  | attributes {fs : List FieldInfo} {ms : List MethodInfo} {sf sm s : Bytes} : FieldsDistinct fs → table2 (FieldEnc o pool) fs sf →
      MethodsDistinct ms → table2 (MethodEnc o pool (IsInterface flags) major) ms sm → AttrsFault o pool s →
      BackFault o major pool flags super ifs .classAttributes (sf ++ (sm ++ s))
  /-- The final checks. -/
  | final {fs : List FieldInfo} {ms : List MethodInfo} {as : List AttributeInfo} {sf sm sa rest : Bytes} : FieldsDistinct fs →
      table2 (FieldEnc o pool) fs sf → MethodsDistinct ms → table2 (MethodEnc o pool (IsInterface flags) major) ms sm →
      AttributesEnc o pool as sa → EndFault pool flags super ifs fs ms as rest →
      BackFault o major pool flags super ifs .plain (sf ++ (sm ++ (sa ++ rest)))

/-- The inputs that are wrong at place `p`, and nowhere before. -/
inductive FaultAt (o : Opts) : Place → Bytes → Prop where
  /-- The magic number or the versions. -/
  | header {s : Bytes} : (∀ (minor major : UInt16) (rest : Bytes), s ≠ header minor major ++ rest) → FaultAt o .plain s
  /-- The constant pool. -/
  | pool {p : Place} {minor major : UInt16} {s : Bytes} : PoolFault o major p s → FaultAt o p (Spec.header minor major ++ s)
  /-- Flags, class names, interfaces. -/
  | body {p : Place} {minor major : UInt16} {pool : Pool} {sp s : Bytes} : PoolEnc o.decode o.checks major pool sp →
      BodyFault o major pool p s → FaultAt o p (Spec.header minor major ++ (sp ++ s))
  /-- Fields, methods, attributes. -/
  | back {p : Place} {minor major bits i j : UInt16} {pool : Pool} {this : ClassName} {super : Option ClassName} {ifs : List ClassName}
      {sp si s : Bytes} : PoolEnc o.decode o.checks major pool sp → (IsModule (bits &&& 0xF631) → 53 ≤ major ∧ bits &&& 0xF631 = 0x8000) →
      ClassNameAt pool i.toNat this → OptAt ClassNameAt pool j.toNat super → table2 (fun c => ref fun i => ClassNameAt pool i c) ifs si →
      BackFault o major pool (bits &&& 0xF631) super ifs p s →
      FaultAt o p (Spec.header minor major ++ (sp ++ (u2 bits ++ (u2 i ++ (u2 j ++ (si ++ s))))))

end Cafebabe.Spec
