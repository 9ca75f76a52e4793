import Verif.Spec.Faults
import Verif.Spec.BytecodeTrail
import Verif.Spec.Layout
import Verif.Spec.Truncated
/-!
# Specification: where inside a table of attributes an error is

An error in a table of attributes carries the contexts that lead from the table to the fault. `AttrsTrail o pool s e`: `s` starts with a
faulty table of attributes, and the message and the contexts of `e` describe where it is: the first attribute that cannot be read, and
inside a Code or Record attribute the part that cannot be read, down to any depth of nesting.
-/

namespace Cafebabe.Spec

/-- An error with one more context on the outside. -/
def ParseErrorIn (e : ParseError) (c : String) : ParseError := ⟨e.msg, e.contexts ++ [c]⟩

/-- What may stand before the name of an attribute in the context of a fault in its content. -/
def partNames : List String := ["", "value field of ", "class info of ", "method info of ", "signature field of ", "modified utf8 data of "]

/-- The context of a fault in the content of attribute number `k`, whose name is `name`: "NAME attribute K", or "PART of NAME attribute K". Only
the attributes with a predefined meaning can be faulty. -/
def NamesAttr (c : String) (name : Str) (k : Nat) : Prop :=
  name ∈ predefinedNames ∧ ∃ part ∈ partNames, c.toList = part.toList ++ (name ++ s!" attribute {k}".toList)

/-- An error without any context that says that the input ended too early. -/
def PlainEnd (e : ParseError) : Prop := e.contexts = [] ∧ SaysEnd e.msg

/-- The part of a Code attribute before its own attributes: stack and locals sizes, the code, the exception table. -/
def CodeHead (pool : Pool) (x : UInt16 × UInt16 × Bytes × List ExceptionTableEntry) : Lang :=
  lit (u2 x.1) ⬝ lit (u2 x.2.1) ⬝ sized4 (lit x.2.2.1) ⬝ table2 (ExceptionEnc pool) x.2.2.2

mutual
/-- A faulty table of attributes and its error. -/
inductive AttrsTrail (o : Opts) (pool : Pool) : Bytes → ParseError → Prop where
  /-- The number of attributes is cut off. -/
  | count {s : Bytes} {e : ParseError} : s.length < 2 → PlainEnd e → AttrsTrail o pool s e
  /-- Some attributes are well formed, and the next one, announced by the count, is not. -/
  | next {count : UInt16} {as : List AttributeInfo} {before t : Bytes} {e : ParseError} : as.length < count.toNat →
      seq (AttrEnc o pool) as before → NoneOf (AttrEnc o pool) t → AttrTrail o pool as.length t e →
      AttrsTrail o pool (u2 count ++ (before ++ t)) e

/-- A faulty attribute, number `k` of its table, and its error. -/
inductive AttrTrail (o : Opts) (pool : Pool) : Nat → Bytes → ParseError → Prop where
  /-- Its name is not a decodable Utf8 constant. -/
  | name {k : Nat} {t : Bytes} {e : ParseError} : NoneOf (fun n => ref fun i => TextAt pool i n) t →
      Faulty pool (textIx pool) t e → AttrTrail o pool k t (ParseErrorIn e s!"name field of attribute {k}")
  /-- Its length is cut off. -/
  | length {k : Nat} {i : UInt16} {name : Str} {t : Bytes} {e : ParseError} : TextAt pool i.toNat name → t.length < 4 → PlainEnd e →
      AttrTrail o pool k (u2 i ++ t) e
  /-- The input has fewer bytes than its length says. -/
  | cut {k : Nat} {i : UInt16} {n : UInt32} {name : Str} {t : Bytes} {e : ParseError} : TextAt pool i.toNat name → t.length < n.toNat →
      PlainEnd e → AttrTrail o pool k (u2 i ++ (u4 n ++ t)) e
  /-- The content can be read, but its size is not the declared one. -/
  | mismatch {k : Nat} {i : UInt16} {n : UInt32} {name : Str} {d : AttributeData} {s t : Bytes} : TextAt pool i.toNat name →
      DataEnc o pool name d s → s.length ≠ n.toNat → n.toNat ≤ (s ++ t).length →
      AttrTrail o pool k (u2 i ++ (u4 n ++ (s ++ t))) ⟨s!"Length mismatch when reading attribute {k}", []⟩
  /-- The content is faulty: the outermost context has the name and the number of the attribute, and the error is about the first part of the
  content that is wrong. -/
  | content {k : Nat} {i : UInt16} {n : UInt32} {name : Str} {c : String} {t : Bytes} {e : ParseError} : TextAt pool i.toNat name →
      n.toNat ≤ t.length → name ≠ "Code".toList → name ≠ "Record".toList → NamesAttr c name k →
      ContentTrail o pool k name n.toNat t (ParseErrorIn e c) → AttrTrail o pool k (u2 i ++ (u4 n ++ t)) (ParseErrorIn e c)
  /-- A Code attribute. -/
  | code {k : Nat} {t s : Bytes} {e : ParseError} : AttrHead pool "Code".toList t s → CodeTrail o pool t e →
      AttrTrail o pool k s (ParseErrorIn e s!"Code attribute {k}")
  /-- A Record attribute. -/
  | record {k : Nat} {t s : Bytes} {e : ParseError} : AttrHead pool "Record".toList t s → RecordTrail o pool t e →
      AttrTrail o pool k s (ParseErrorIn e s!"Record attribute {k}")

/-- The faulty content of a Code attribute, and its error. -/
inductive CodeTrail (o : Opts) (pool : Pool) : Bytes → ParseError → Prop where
  /-- The input ends before the attributes of the Code attribute. -/
  | cut {s : Bytes} {e : ParseError} : NoneOf (CodeHead pool) s → PlainEnd e → CodeTrail o pool s e
  /-- An exception table entry has a catch type that is neither 0 nor a class. -/
  | catchType {maxStack maxLocals count startPc endPc handlerPc : UInt16} {n : UInt32} {code before t : Bytes} {es : List ExceptionTableEntry}
      {e : ParseError} : n.toNat = code.length → es.length < count.toNat → seq (ExceptionEnc pool) es before →
      NoneOf (fun c => ref fun i => OptAt ClassAt pool i c) t → Faulty pool (classIxOpt pool) t e →
      CodeTrail o pool (u2 maxStack ++ (u2 maxLocals ++ (u4 n ++ (code ++ (u2 count ++ (before ++ (u2 startPc ++ (u2 endPc ++
        (u2 handlerPc ++ t))))))))) (ParseErrorIn e s!"catch type of exception table entry {es.length}")
  /-- The attributes of the Code attribute. -/
  | attributes {x : UInt16 × UInt16 × Bytes × List ExceptionTableEntry} {s t : Bytes} {e : ParseError} : CodeHead pool x s →
      AttrsTrail o pool t e → CodeTrail o pool (s ++ t) (ParseErrorIn e "code attribute")
  /-- The code: the error is about its first faulty instruction. -/
  | bytecode {maxStack maxLocals : UInt16} {code : Bytes} {es : List ExceptionTableEntry} {as : List AttributeInfo} {s t rest : Bytes}
      {e : ParseError} : CodeHead pool (maxStack, maxLocals, code, es) s → AttributesEnc o pool as t → o.parseBytecode = true →
      (∀ bc, ¬ ByteCodeEnc o.checks pool bc code) → BytecodeTrail o.checks pool code e →
      CodeTrail o pool (s ++ (t ++ rest)) (ParseErrorIn e "bytecode")

/-- The faulty content of a Record attribute, and its error. -/
inductive RecordTrail (o : Opts) (pool : Pool) : Bytes → ParseError → Prop where
  /-- The number of components is cut off. -/
  | count {s : Bytes} {e : ParseError} : s.length < 2 → PlainEnd e → RecordTrail o pool s e
  /-- Some components are well formed, and the next one, announced by the count, is not. -/
  | next {count : UInt16} {cs : List RecordComponentEntry} {before t : Bytes} {e : ParseError} : cs.length < count.toNat →
      seq (ComponentEnc o pool) cs before → NoneOf (ComponentEnc o pool) t → ComponentTrail o pool cs.length t e →
      RecordTrail o pool (u2 count ++ (before ++ t)) e

/-- A faulty component, number `j` of its record, and its error. -/
inductive ComponentTrail (o : Opts) (pool : Pool) : Nat → Bytes → ParseError → Prop where
  /-- Its name is not a decodable Utf8 constant. -/
  | name {j : Nat} {t : Bytes} {e : ParseError} : NoneOf (fun n => ref fun i => TextAt pool i n) t →
      Faulty pool (textIx pool) t e → ComponentTrail o pool j t (ParseErrorIn e s!"name of entry {j}")
  /-- Its name is not an unqualified name. -/
  | badName {j : Nat} {i : UInt16} {name : Str} {t : Bytes} : TextAt pool i.toNat name → ¬ UnqualifiedName name →
      ComponentTrail o pool j (u2 i ++ t) ⟨s!"Invalid unqualified name for entry {j}", []⟩
  /-- Its descriptor is not a field descriptor. -/
  | descriptor {j : Nat} {i : UInt16} {name : Str} {t : Bytes} {e : ParseError} : TextAt pool i.toNat name → UnqualifiedName name →
      NoneOf (fun d => ref fun i => FieldDescriptorAt pool i d) t → Faulty pool (descriptorIx pool) t e →
      ComponentTrail o pool j (u2 i ++ t) (ParseErrorIn e s!"descriptor of entry {j}")
  /-- Its attributes. -/
  | attributes {j : Nat} {i d : UInt16} {name : Str} {desc : FieldDescriptor} {t : Bytes} {e : ParseError} : TextAt pool i.toNat name →
      UnqualifiedName name → FieldDescriptorAt pool d.toNat desc → AttrsTrail o pool t e →
      ComponentTrail o pool j (u2 i ++ (u2 d ++ t)) (ParseErrorIn e s!"entry {j}")
end

/-- The places that are attributes of something. -/
def Place.isAttributes : Place → Bool
  | .field _ | .method _ | .classAttributes => true
  | _ => false

/-- `AttrsAt o p pool bytes s`: in the file `bytes` everything before the attributes of place `p` (a field, a method or the class) is well
formed, `pool` is its constant pool, and the attributes of `p` should start where `s` does. -/
inductive AttrsAt (o : Opts) : Place → Pool → Bytes → Bytes → Prop where
  | field {minor major flags count bits n d : UInt16} {pool : Pool} {fs : List FieldInfo} {name : Str} {desc : FieldDescriptor}
      {front before s : Bytes} : FrontEnc o minor major pool flags front → fs.length < count.toNat → FieldsDistinct fs →
      seq (FieldEnc o pool) fs before → TextAt pool n.toNat name → UnqualifiedName name → FieldDescriptorAt pool d.toNat desc →
      (∀ f ∈ fs, ¬ (f.name = name ∧ f.descriptor = desc)) →
      AttrsAt o (.field fs.length) pool (front ++ (u2 count ++ (before ++ (u2 bits ++ (u2 n ++ (u2 d ++ s)))))) s
  | method {minor major flags count bits n d : UInt16} {pool : Pool} {fs : List FieldInfo} {ms : List MethodInfo} {name : Str}
      {desc : MethodDescriptor} {front sf before s : Bytes} : FrontEnc o minor major pool flags front → FieldsDistinct fs →
      table2 (FieldEnc o pool) fs sf → ms.length < count.toNat → MethodsDistinct ms →
      seq (MethodEnc o pool (IsInterface flags) major) ms before → TextAt pool n.toNat name → MethodName (¬ IsInterface flags) True name →
      MethodDescriptorAt pool d.toNat desc →
      SpecialMethodOK (IsInterface flags) major { accessFlags := bits, name := name, descriptor := desc, attributes := [] } →
      (∀ m ∈ ms, ¬ (m.name = name ∧ m.descriptor = desc)) →
      AttrsAt o (.method ms.length) pool (front ++ (sf ++ (u2 count ++ (before ++ (u2 bits ++ (u2 n ++ (u2 d ++ s))))))) s
  | ofClass {minor major flags : UInt16} {pool : Pool} {fs : List FieldInfo} {ms : List MethodInfo} {front sf sm s : Bytes} :
      FrontEnc o minor major pool flags front → FieldsDistinct fs → table2 (FieldEnc o pool) fs sf → MethodsDistinct ms →
      table2 (MethodEnc o pool (IsInterface flags) major) ms sm → AttrsAt o .classAttributes pool (front ++ (sf ++ (sm ++ s))) s

end Cafebabe.Spec
