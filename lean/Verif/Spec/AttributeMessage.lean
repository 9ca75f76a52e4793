import Verif.Spec.CodeMessage
import Verif.Spec.Trail
import Verif.Spec.Message
/-!
# Specification: the error for a faulty table of attributes

`AttrsSays o pool N s e`: `s`, with which an input of `N` bytes ends, starts with a faulty table of attributes, and `e`, message and contexts, is
the error for it: the first attribute that cannot be read, in it the first part that is wrong, and inside Code and Record attributes the same
again, down to any depth of nesting. `SaysAll o bytes e`: the same for a whole input.
-/

namespace Cafebabe.Spec

/-- The exception table of a Code attribute. -/
def exceptionTable (pool : Pool) : Part :=
  .table2 fun k => [word, word, word, .within s!"catch type of exception table entry {k}" [classIxOpt pool]]

mutual
/-- A faulty table of attributes and its error. -/
inductive AttrsSays (o : Opts) (pool : Pool) (N : Nat) : Bytes → ParseError → Prop where
  /-- The number of attributes is cut off. -/
  | count {t : Bytes} : t.length < 2 → AttrsSays o pool N t (cutOff N "u2" t)
  /-- Some attributes are well formed, and the next one, announced by the count, is not. -/
  | next {count : UInt16} {as : List AttributeInfo} {before t : Bytes} {e : ParseError} : as.length < count.toNat →
      seq (AttrEnc o pool) as before → AttrSays o pool N as.length t e → AttrsSays o pool N (u2 count ++ (before ++ t)) e

/-- A faulty attribute, number `k` of its table, and its error. -/
inductive AttrSays (o : Opts) (pool : Pool) (N : Nat) : Nat → Bytes → ParseError → Prop where
  /-- Its name is not a decodable Utf8 constant. -/
  | name {k : Nat} {t : Bytes} {e : ParseError} : Blamed N pool (textIx pool) t e →
      AttrSays o pool N k t (inside s!"name field of attribute {k}" e)
  /-- Its length is cut off. -/
  | length {k : Nat} {i : UInt16} {name : Str} {t : Bytes} : TextAt pool i.toNat name → t.length < 4 →
      AttrSays o pool N k (u2 i ++ t) (cutOff N "u4" t)
  /-- The input has fewer bytes than its length says. -/
  | cut {k : Nat} {i : UInt16} {n : UInt32} {name : Str} {t : Bytes} : TextAt pool i.toNat name → t.length < n.toNat →
      AttrSays o pool N k (u2 i ++ (u4 n ++ t)) (cutOff N "attributes" t)
  /-- The content is faulty. -/
  | content {k : Nat} {i : UInt16} {n : UInt32} {name : Str} {t : Bytes} {e : ParseError} : TextAt pool i.toNat name →
      n.toNat ≤ t.length → ContentSays o pool N k name n.toNat t e → AttrSays o pool N k (u2 i ++ (u4 n ++ t)) e
  /-- The content can be read, but its size is not the declared one. (The content of a SourceDebugExtension and of an attribute with another
  name than the predefined ones is what the declared length says.) -/
  | mismatch {k : Nat} {i : UInt16} {n : UInt32} {name : Str} {d : AttributeData} {s t : Bytes} : TextAt pool i.toNat name →
      name ∈ predefinedNames → name ≠ "SourceDebugExtension".toList →
      (∀ title m, name = title.toList → (title, m) ∈ fixedLengths → n.toNat = m) →
      DataEnc o pool name d s → s.length ≠ n.toNat → n.toNat ≤ (s ++ t).length →
      AttrSays o pool N k (u2 i ++ (u4 n ++ (s ++ t))) (plainly s!"Length mismatch when reading attribute {k}")

/-- The faulty content of attribute number `k` of its table, which is called `name` and whose declared length is `n`, and the error for it. The
bytes go on to the end of the input. -/
inductive ContentSays (o : Opts) (pool : Pool) (N : Nat) : Nat → Str → Nat → Bytes → ParseError → Prop where
  /-- The declared length is wrong. -/
  | wrongLength {k n m : Nat} {title : String} {t : Bytes} : (title, m) ∈ fixedLengths → n ≠ m →
      ContentSays o pool N k title.toList n t (inside s!"{title} attribute {k}" (plainly s!"Unexpected length {n}"))
  /-- The first part that is wrong. -/
  | part {k n : Nat} {title : String} {parts : List Part} {t : Bytes} {e : ParseError} : (∀ m, (title, m) ∈ fixedLengths → n = m) →
      (title, parts) ∈ layouts pool k → FirstBlame N pool parts t e → ContentSays o pool N k title.toList n t e
  /-- The bytes of a SourceDebugExtension attribute are not a modified UTF-8 text. -/
  | debugExtension {k n : Nat} {t : Bytes} : o.decode (t.take n) = none → ContentSays o pool N k "SourceDebugExtension".toList n t
      (inside s!"modified utf8 data of SourceDebugExtension attribute {k}" (plainly "invalid modified utf8"))
  | code {k n : Nat} {t : Bytes} {e : ParseError} : CodeSays o pool N t e →
      ContentSays o pool N k "Code".toList n t (inside s!"Code attribute {k}" e)
  | record {k n : Nat} {t : Bytes} {e : ParseError} : RecordSays o pool N t e →
      ContentSays o pool N k "Record".toList n t (inside s!"Record attribute {k}" e)

/-- The faulty content of a Code attribute, and its error. -/
inductive CodeSays (o : Opts) (pool : Pool) (N : Nat) : Bytes → ParseError → Prop where
  /-- The input ends before the code: in the sizes of the stack and of the locals or in the length of the code. -/
  | sizes {t : Bytes} {e : ParseError} : FirstBlame N pool [word, word, quad] t e → CodeSays o pool N t e
  /-- The input ends in the code. -/
  | cut {maxStack maxLocals : UInt16} {n : UInt32} {t : Bytes} : t.length < n.toNat →
      CodeSays o pool N (u2 maxStack ++ (u2 maxLocals ++ (u4 n ++ t))) (cutOff N "code attribute" t)
  | exceptions {maxStack maxLocals : UInt16} {n : UInt32} {code t : Bytes} {e : ParseError} : n.toNat = code.length →
      Blamed N pool (exceptionTable pool) t e → CodeSays o pool N (u2 maxStack ++ (u2 maxLocals ++ (u4 n ++ (code ++ t)))) e
  /-- The attributes of the Code attribute. -/
  | attributes {x : UInt16 × UInt16 × Bytes × List ExceptionTableEntry} {s t : Bytes} {e : ParseError} : CodeHead pool x s →
      AttrsSays o pool N t e → CodeSays o pool N (s ++ t) (inside "code attribute" e)
  /-- The instructions, which are looked at last. -/
  | bytecode {maxStack maxLocals : UInt16} {code : Bytes} {es : List ExceptionTableEntry} {as : List AttributeInfo} {s t rest : Bytes}
      {e : ParseError} : CodeHead pool (maxStack, maxLocals, code, es) s → AttributesEnc o pool as t → o.parseBytecode = true →
      BytecodeSays o.checks pool code e → CodeSays o pool N (s ++ (t ++ rest)) (inside "bytecode" e)

/-- The faulty content of a Record attribute, and its error. -/
inductive RecordSays (o : Opts) (pool : Pool) (N : Nat) : Bytes → ParseError → Prop where
  /-- The number of components is cut off. -/
  | count {t : Bytes} : t.length < 2 → RecordSays o pool N t (cutOff N "u2" t)
  /-- Some components are well formed, and the next one, announced by the count, is not. -/
  | next {count : UInt16} {cs : List RecordComponentEntry} {before t : Bytes} {e : ParseError} : cs.length < count.toNat →
      seq (ComponentEnc o pool) cs before → ComponentSays o pool N cs.length t e → RecordSays o pool N (u2 count ++ (before ++ t)) e

/-- A faulty component, number `j` of its record, and its error. -/
inductive ComponentSays (o : Opts) (pool : Pool) (N : Nat) : Nat → Bytes → ParseError → Prop where
  /-- Its name is not a decodable Utf8 constant. -/
  | name {j : Nat} {t : Bytes} {e : ParseError} : Blamed N pool (textIx pool) t e → ComponentSays o pool N j t (inside s!"name of entry {j}" e)
  /-- Its name is not an unqualified name. -/
  | badName {j : Nat} {i : UInt16} {name : Str} {t : Bytes} : TextAt pool i.toNat name → ¬ UnqualifiedName name →
      ComponentSays o pool N j (u2 i ++ t) (plainly s!"Invalid unqualified name for entry {j}")
  /-- Its descriptor is not a field descriptor. -/
  | descriptor {j : Nat} {i : UInt16} {name : Str} {t : Bytes} {e : ParseError} : TextAt pool i.toNat name → UnqualifiedName name →
      Blamed N pool (descriptorIx pool) t e → ComponentSays o pool N j (u2 i ++ t) (inside s!"descriptor of entry {j}" e)
  /-- Its attributes. -/
  | attributes {j : Nat} {i d : UInt16} {name : Str} {desc : FieldDescriptor} {t : Bytes} {e : ParseError} : TextAt pool i.toNat name →
      UnqualifiedName name → FieldDescriptorAt pool d.toNat desc → AttrsSays o pool N t e →
      ComponentSays o pool N j (u2 i ++ (u2 d ++ t)) (inside s!"entry {j}" e)
end

/-- What is wrong with `bytes`, and the error for it. -/
def SaysAll (o : Opts) (bytes : Bytes) (e : ParseError) : Prop :=
  SaysOf o (fun pool => AttrsSays o pool bytes.length) bytes.length bytes e

end Cafebabe.Spec
