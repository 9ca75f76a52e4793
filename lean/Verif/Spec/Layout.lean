import Verif.Spec.BytecodeTrail
import Verif.Spec.Attributes
import Verif.Spec.TextMessage
/-!
# Specification: the layout of attributes, and what is said about the first part that is wrong

The content of every attribute with a predefined name, other than Code, Record and SourceDebugExtension, is described by a list of parts
(`layouts`). `AllFit pool parts s`: the bytes `s` are these parts, one after the other. `FirstFault pool parts t e`: the bytes `t` start with
some of the parts, the next part is wrong, and `e` is what is said about it.
-/

namespace Cafebabe.Spec

/-- A part of the content of an attribute. -/
inductive Part where
  /-- A number of `size` bytes, called `what` in messages. -/
  | number (what : String) (size : Nat)
  /-- The two-byte index of a constant for which `ok` holds; `about` are the messages about constants that are not suitable. -/
  | constant (ok : Nat → Prop) (about : Nat → String → Prop)
  /-- The same, but whether the constant is also `fine` is looked at separately: if not, the error is `complaint`; the contexts are for the
  errors about the constant. -/
  | judged (contexts : List String) (ok : Nat → Prop) (about : Nat → String → Prop) (fine : Nat → Prop) (complaint : String)
  /-- A two-byte number with no bits outside the mask; otherwise the error is `complaint`. -/
  | flags (mask : UInt16) (complaint : ParseError)
  /-- A one-byte count and so many rows, which are numbered from zero. -/
  | table1 (row : Nat → List Part)
  /-- A two-byte count and so many rows. -/
  | table2 (row : Nat → List Part)
  /-- A byte that tells what follows; for other bytes the error is `complaint`. -/
  | tagged (follow : UInt8 → Option (List Part)) (complaint : UInt8 → ParseError)
  /-- Parts whose errors get a context. -/
  | within (context : String) (parts : List Part)
  /-- The value of an element of an annotation, to any depth. -/
  | elementValue

/-- So many rows. -/
def rows (n : Nat) (row : Nat → List Part) : List Part := (List.range n).flatMap row

/-- The constant is not of the kind `K`. -/
def wrongKind (pool : Pool) (K : Entry → Prop) (i : Nat) (m : String) : Prop :=
  (∃ e, pool[i]? = some e ∧ ¬ K e) ∧ m = "Unexpected constant pool reference type"

/-- The constant is not a text, or one that is not a field descriptor. -/
def wrongDescriptor (pool : Pool) (i : Nat) (m : String) : Prop :=
  wrongKind pool (fun e => ∃ s, e = .utf8 s) i m ∨ ∃ s, TextAt pool i s ∧ FieldSays s m

/-- The index of a class, of a class or zero, of a text, of a text or zero, of a module, of a package, of a text that is a field descriptor. -/
def classIx (pool : Pool) : Part := .constant (fun i => ∃ c, ClassAt pool i c) (wrongKind pool fun e => ∃ x, e = .classInfo x)
def classIxOpt (pool : Pool) : Part :=
  .constant (fun i => ∃ c, OptAt ClassAt pool i c) (wrongKind pool fun e => e = .zero ∨ ∃ x, e = .classInfo x)
def textIx (pool : Pool) : Part := .constant (fun i => ∃ s, TextAt pool i s) (wrongKind pool fun e => ∃ s, e = .utf8 s)
def textIxOpt (pool : Pool) : Part := .constant (fun i => ∃ s, OptAt TextAt pool i s) (wrongKind pool fun e => e = .zero ∨ ∃ s, e = .utf8 s)
def moduleIx (pool : Pool) : Part := .constant (fun i => ∃ s, ModuleAt pool i s) (wrongKind pool fun e => ∃ x, e = .moduleInfo x)
def packageIx (pool : Pool) : Part := .constant (fun i => ∃ s, PackageAt pool i s) (wrongKind pool fun e => ∃ x, e = .packageInfo x)
def descriptorIx (pool : Pool) : Part := .constant (fun i => ∃ d, FieldDescriptorAt pool i d) (wrongDescriptor pool)

/-- The index of an integer, of a double, of a float, of a long. -/
def integerIx (pool : Pool) : Part := .constant (fun i => ∃ v, pool[i]? = some (.integer v)) (wrongKind pool fun e => ∃ v, e = .integer v)
def doubleIx (pool : Pool) : Part := .constant (fun i => ∃ v, pool[i]? = some (.double v)) (wrongKind pool fun e => ∃ v, e = .double v)
def floatIx (pool : Pool) : Part := .constant (fun i => ∃ v, pool[i]? = some (.float v)) (wrongKind pool fun e => ∃ v, e = .float v)
def longIx (pool : Pool) : Part := .constant (fun i => ∃ v, pool[i]? = some (.long v)) (wrongKind pool fun e => ∃ v, e = .long v)

/-- A number or a string. -/
def LiteralKind (e : Entry) : Prop :=
  (∃ v, e = .integer v) ∨ (∃ v, e = .float v) ∨ (∃ v, e = .long v) ∨ (∃ v, e = .double v) ∨ ∃ x, e = .string x

/-- The index of a literal, of a NameAndType or zero, of a MethodHandle, of an argument of a bootstrap method. -/
def literalIx (pool : Pool) : Part := .constant (fun i => ∃ l, LiteralAt pool i l) (wrongKind pool LiteralKind)
def nameAndTypeIxOpt (pool : Pool) : Part :=
  .constant (fun i => ∃ d, OptAt NameAndTypeAt pool i d) (wrongKind pool fun e => e = .zero ∨ ∃ x y, e = .nameAndType x y)
def handleIx (pool : Pool) : Part := .constant (fun i => ∃ h, MethodHandleAt pool i h) (wrongKind pool fun e => ∃ k x, e = .methodHandle k x)
def argumentIx (pool : Pool) : Part := .constant (fun i => ∃ a, BootstrapArgumentAt pool i a)
  (wrongKind pool fun e => LiteralKind e ∨ (∃ x, e = .classInfo x) ∨ (∃ k x, e = .methodHandle k x) ∨ ∃ x, e = .methodType x)

/-- An annotation. -/
def annotationParts (pool : Pool) : List Part :=
  [.within "type descriptor field" [descriptorIx pool],
   .table2 fun j => [.within s!"name of element {j}" [textIx pool], .within s!"value of element {j}" [.elementValue]]]

/-- What follows the tag of the value of an element. -/
def elementParts (pool : Pool) (tag : UInt8) : Option (List Part) :=
  match Char.ofNat tag.toNat with
  | 'B' | 'C' | 'I' | 'S' | 'Z' => some [integerIx pool]
  | 'D' => some [doubleIx pool]
  | 'F' => some [floatIx pool]
  | 'J' => some [longIx pool]
  | 's' => some [textIx pool]
  | 'e' => some [.within "annotation element value enum descriptor" [descriptorIx pool],
      textIx pool]
  | 'c' => some [.judged [] (fun i => ∃ s, TextAt pool i s) (wrongKind pool fun e => ∃ s, e = .utf8 s) (fun i => ∃ s, TextAt pool i s ∧ IsReturnDescriptor s) "Invalid classinfo descriptor"]
  | '@' => some (annotationParts pool)
  | '[' => some [.table2 fun j => [.within s!"array index {j}" [.elementValue]]]
  | _ => none

/-- The input ends before the item `what` does. -/
def CutOff (what : String) (e : ParseError) : Prop := ∃ ix : Nat, e = ⟨s!"Unexpected end of stream reading {what} at index {ix}", []⟩

mutual
/-- The bytes are this part. -/
inductive Fits (pool : Pool) : Part → Bytes → Prop where
  | number {what : String} {size : Nat} {s : Bytes} : s.length = size → Fits pool (.number what size) s
  | constant {ok : Nat → Prop} {about : Nat → String → Prop} {i : UInt16} : ok i.toNat → Fits pool (.constant ok about) (u2 i)
  | judged {cs : List String} {ok fine : Nat → Prop} {about : Nat → String → Prop} {m : String} {i : UInt16} : ok i.toNat → fine i.toNat → Fits pool (.judged cs ok about fine m) (u2 i)
  | flags {mask v : UInt16} {e : ParseError} : v &&& mask = v → Fits pool (.flags mask e) (u2 v)
  | table1 {row : Nat → List Part} {n : UInt8} {s : Bytes} : AllFit pool (rows n.toNat row) s → Fits pool (.table1 row) (u1 n ++ s)
  | table2 {row : Nat → List Part} {n : UInt16} {s : Bytes} : AllFit pool (rows n.toNat row) s → Fits pool (.table2 row) (u2 n ++ s)
  | tagged {follow : UInt8 → Option (List Part)} {complaint : UInt8 → ParseError} {b : UInt8} {ps : List Part} {s : Bytes} :
      follow b = some ps → AllFit pool ps s → Fits pool (.tagged follow complaint) (b :: s)
  | within {c : String} {ps : List Part} {s : Bytes} : AllFit pool ps s → Fits pool (.within c ps) s
  | elementValue {b : UInt8} {ps : List Part} {s : Bytes} : elementParts pool b = some ps → AllFit pool ps s → Fits pool .elementValue (b :: s)

/-- The bytes are these parts, one after the other. -/
inductive AllFit (pool : Pool) : List Part → Bytes → Prop where
  | nil : AllFit pool [] []
  | cons {p : Part} {ps : List Part} {s t : Bytes} : Fits pool p s → AllFit pool ps t → AllFit pool (p :: ps) (s ++ t)
end

mutual
/-- The bytes do not start with this part, and what is said about it. -/
inductive Faulty (pool : Pool) : Part → Bytes → ParseError → Prop where
  /-- The number is cut off. -/
  | number {what : String} {size : Nat} {t : Bytes} {e : ParseError} : t.length < size → CutOff what e → Faulty pool (.number what size) t e
  /-- The index is cut off. -/
  | noIndex {ok : Nat → Prop} {about : Nat → String → Prop} {t : Bytes} {e : ParseError} : t.length < 2 → CutOff "u2" e → Faulty pool (.constant ok about) t e
  /-- There is no suitable constant with this index. -/
  | constant {ok : Nat → Prop} {about : Nat → String → Prop} {i : UInt16} {t : Bytes} {e : ParseError} : ¬ ok i.toNat → ConstantSays pool i.toNat e →
      Faulty pool (.constant ok about) (u2 i ++ t) e
  | noJudged {cs : List String} {ok fine : Nat → Prop} {about : Nat → String → Prop} {m : String} {t : Bytes} {e : ParseError} : t.length < 2 → CutOff "u2" e →
      Faulty pool (.judged cs ok about fine m) t ⟨e.msg, cs⟩
  | notOk {cs : List String} {ok fine : Nat → Prop} {about : Nat → String → Prop} {m : String} {i : UInt16} {t : Bytes} {e : ParseError} : ¬ ok i.toNat →
      ConstantSays pool i.toNat e → Faulty pool (.judged cs ok about fine m) (u2 i ++ t) ⟨e.msg, cs⟩
  /-- The constant is of the right kind, but not fine. -/
  | notFine {cs : List String} {ok fine : Nat → Prop} {about : Nat → String → Prop} {m : String} {i : UInt16} {t : Bytes} : ok i.toNat → ¬ fine i.toNat →
      Faulty pool (.judged cs ok about fine m) (u2 i ++ t) ⟨m, []⟩
  | noFlags {mask : UInt16} {c : ParseError} {t : Bytes} {e : ParseError} : t.length < 2 → CutOff "u2" e → Faulty pool (.flags mask c) t e
  /-- A bit outside the mask. -/
  | flags {mask v : UInt16} {c : ParseError} {t : Bytes} : v &&& mask ≠ v → Faulty pool (.flags mask c) (u2 v ++ t) c
  | noCount1 {row : Nat → List Part} {e : ParseError} : CutOff "u1" e → Faulty pool (.table1 row) [] e
  /-- In one of the rows that are announced. -/
  | table1 {row : Nat → List Part} {n : UInt8} {t : Bytes} {e : ParseError} : FirstFault pool (rows n.toNat row) t e →
      Faulty pool (.table1 row) (u1 n ++ t) e
  | noCount2 {row : Nat → List Part} {t : Bytes} {e : ParseError} : t.length < 2 → CutOff "u2" e → Faulty pool (.table2 row) t e
  | table2 {row : Nat → List Part} {n : UInt16} {t : Bytes} {e : ParseError} : FirstFault pool (rows n.toNat row) t e →
      Faulty pool (.table2 row) (u2 n ++ t) e
  | noTag {follow : UInt8 → Option (List Part)} {c : UInt8 → ParseError} {e : ParseError} : CutOff "u1" e → Faulty pool (.tagged follow c) [] e
  /-- An unknown tag. -/
  | tag {follow : UInt8 → Option (List Part)} {c : UInt8 → ParseError} {b : UInt8} {t : Bytes} : follow b = none →
      Faulty pool (.tagged follow c) (b :: t) (c b)
  | tagged {follow : UInt8 → Option (List Part)} {c : UInt8 → ParseError} {b : UInt8} {ps : List Part} {t : Bytes} {e : ParseError} :
      follow b = some ps → FirstFault pool ps t e → Faulty pool (.tagged follow c) (b :: t) e
  /-- The error gets the context. -/
  | within {c : String} {ps : List Part} {t : Bytes} {e : ParseError} : FirstFault pool ps t e → Faulty pool (.within c ps) t ⟨e.msg, e.contexts ++ [c]⟩
  | noElementTag {e : ParseError} : CutOff "u1" e → Faulty pool .elementValue [] e
  | elementTag {b : UInt8} {t : Bytes} : elementParts pool b = none →
      Faulty pool .elementValue (b :: t) ⟨s!"Unrecognized discriminant {Char.ofNat b.toNat}", []⟩
  | elementValue {b : UInt8} {ps : List Part} {t : Bytes} {e : ParseError} : elementParts pool b = some ps → FirstFault pool ps t e →
      Faulty pool .elementValue (b :: t) e

/-- The bytes start with some of the parts, and then comes a part that is wrong. -/
inductive FirstFault (pool : Pool) : List Part → Bytes → ParseError → Prop where
  | mk {before after : List Part} {p : Part} {s t : Bytes} {e : ParseError} : AllFit pool before s → Faulty pool p t e →
      FirstFault pool (before ++ p :: after) (s ++ t) e
end

/-! ## The layouts -/

/-- A two-byte number. -/
def word : Part := .number "u2" 2

/-- A byte. -/
def octet : Part := .number "u1" 1

section
variable (pool : Pool)

/-- A verification type. -/
def verification : Part :=
  .tagged (fun b => if b.toNat ≤ 6 then some [] else if b.toNat = 7 then some [.within "object verification type" [classIx pool]]
    else if b.toNat = 8 then some [word] else none) fun b => ⟨s!"Unrecognized verification type {b}", []⟩

/-- Frame number `k` of a StackMapTable. -/
def frame (k : Nat) : Part :=
  .tagged (fun b =>
    if b.toNat ≤ 63 then some []
    else if b.toNat ≤ 127 then some [.within s!"same_locals_1_stack_item_frame stack map entry {k}" [verification pool]]
    else if b.toNat ≤ 246 then none
    else if b.toNat = 247 then some [word, .within s!"same_locals_1_stack_item_frame_extended stack map entry {k}" [verification pool]]
    else if b.toNat ≤ 251 then some [word]
    else if b.toNat ≤ 254 then some (word :: rows (b.toNat - 251) fun j => [.within s!"local entry {j} of append stack map entry {k}" [verification pool]])
    else some [word, .table2 fun j => [.within s!"local entry {j} of full-frame stack map entry {k}" [verification pool]],
      .table2 fun j => [.within s!"stack entry {j} of full-frame stack map entry {k}" [verification pool]]])
  fun b => ⟨s!"Unrecognized discriminant {b}", [s!"stack map entry {k}"]⟩

/-- The index of a text, the name of variable number `k`, that must be an unqualified name. -/
def variableName (k : Nat) : Part :=
  .judged [s!"name for variable {k}"] (fun i => ∃ s, TextAt pool i s) (wrongKind pool fun e => ∃ s, e = .utf8 s) (fun i => ∃ s, TextAt pool i s ∧ UnqualifiedName s)
    s!"Invalid unqualified name for variable {k}"

/-- The target of type annotation number `k`. -/
def target (k : Nat) : Part :=
  .tagged (fun b =>
    if b.toNat ∈ [0x00, 0x01, 0x16] then some [octet]
    else if b.toNat ∈ [0x10, 0x17, 0x42, 0x43, 0x44, 0x45, 0x46] then some [word]
    else if b.toNat ∈ [0x11, 0x12] then some [octet, octet]
    else if b.toNat ∈ [0x13, 0x14, 0x15] then some []
    else if b.toNat ∈ [0x40, 0x41] then some [.table2 fun _ => [word, word, word]]
    else if b.toNat ∈ [0x47, 0x48, 0x49, 0x4a, 0x4b] then some [word, octet]
    else none)
  fun b => ⟨s!"Unrecognized target type {b}", [s!"type annotation {k}"]⟩

/-- Type annotation number `k`. -/
def typeAnnotation (k : Nat) : List Part :=
  [target k,
   .table1 fun j => [.tagged (fun b => if b.toNat ≤ 3 then some [octet] else none) fun b =>
     ⟨s!"Unrecognized path kind {b}", [s!"path element {j} of type annotation {k}"]⟩],
   .within s!"type annotation {k}" (annotationParts pool)]

/-- The content of a Module attribute. -/
def modulePart : List Part :=
  [.within "name" [moduleIx pool], .flags 0x9020 ⟨"Invalid access flags found", []⟩, .within "version" [textIxOpt pool],
   .table2 fun k => [.within s!"name of requires entry {k}" [moduleIx pool], .flags 0x9060 ⟨"Invalid module requires flags", [s!"entry {k}"]⟩,
     .within s!"version of requires entry {k}" [textIxOpt pool]],
   .table2 fun k => [.within s!"package name of exports entry {k}" [packageIx pool], .flags 0x9000 ⟨"Invalid module exports flags", [s!"entry {k}"]⟩,
     .table2 fun j => [.within s!"name of exports_to entry {j} of exports entry {k}" [moduleIx pool]]],
   .table2 fun k => [.within s!"package name of opens entry {k}" [packageIx pool], .flags 0x9000 ⟨"Invalid module opens flags", [s!"entry {k}"]⟩,
     .table2 fun j => [.within s!"name of opens_to entry {j} of opens entry {k}" [moduleIx pool]]],
   .table2 fun k => [.within s!"name of uses entry {k}" [classIx pool]],
   .table2 fun k => [.within s!"service interface name of provides entry {k}" [classIx pool],
     .table2 fun j => [.within s!"provides_with entry {j} of provides entry {k}" [classIx pool]]]]

/-- The layouts of the attributes, for attribute number `n` of its table. -/
def layouts (n : Nat) : List (String × List Part) :=
  let whole (name : String) (parts : List Part) : String × List Part := (name, [.within s!"{name} attribute {n}" parts])
  [("ConstantValue", [.within s!"value field of ConstantValue attribute {n}" [literalIx pool]]),
   whole "StackMapTable" [.table2 fun k => [frame pool k]],
   whole "Exceptions" [.table2 fun k => [.within s!"exception {k}" [classIx pool]]],
   whole "InnerClasses" [.table2 fun k => [.within s!"inner class info for inner class {k}" [classIx pool],
     .within s!"outer class info for inner class {k}" [classIxOpt pool], .within s!"inner name for inner class {k}" [textIxOpt pool], word]],
   ("EnclosingMethod", [.within s!"class info of EnclosingMethod attribute {n}" [classIx pool],
     .within s!"method info of EnclosingMethod attribute {n}" [nameAndTypeIxOpt pool]]),
   ("Synthetic", []),
   ("Signature", [.within s!"signature field of Signature attribute {n}" [textIx pool]]),
   ("SourceFile", [.within s!"signature field of SourceFile attribute {n}" [textIx pool]]),
   whole "LineNumberTable" [.table2 fun _ => [word, word]],
   whole "LocalVariableTable" [.table2 fun k => [word, word, variableName pool k, .within s!"descriptor for variable {k}" [descriptorIx pool], word]],
   whole "LocalVariableTypeTable" [.table2 fun k => [word, word, variableName pool k, .within s!"signature for variable {k}" [textIx pool], word]],
   ("Deprecated", []),
   whole "RuntimeVisibleAnnotations" [.table2 fun k => [.within s!"annotation {k}" (annotationParts pool)]],
   whole "RuntimeInvisibleAnnotations" [.table2 fun k => [.within s!"annotation {k}" (annotationParts pool)]],
   whole "RuntimeVisibleParameterAnnotations" [.table1 fun k => [.table2 fun j => [.within s!"annotation {j} of parameter {k}" (annotationParts pool)]]],
   whole "RuntimeInvisibleParameterAnnotations" [.table1 fun k => [.table2 fun j => [.within s!"annotation {j} of parameter {k}" (annotationParts pool)]]],
   whole "RuntimeVisibleTypeAnnotations" [.table2 (typeAnnotation pool)],
   whole "RuntimeInvisibleTypeAnnotations" [.table2 (typeAnnotation pool)],
   whole "AnnotationDefault" [.elementValue],
   whole "BootstrapMethods" [.table2 fun k => [.within s!"method ref of bootstrap method {k}" [handleIx pool],
     .table2 fun j => [.within s!"argument {j} of bootstrap method {k}" [argumentIx pool]]]],
   whole "MethodParameters" [.table1 fun k => [.judged [s!"name of method parameter {k}"] (fun i => ∃ s, OptAt TextAt pool i s)
      (wrongKind pool fun e => e = .zero ∨ ∃ s, e = .utf8 s)
      (fun i => ∃ s, OptAt TextAt pool i s ∧ ∀ n, s = some n → UnqualifiedName n) s!"Invalid unqualified name for variable {k}",
     .flags 0x9010 ⟨"Invalid access flags found", [s!"method parameter {k}"]⟩]],
   whole "Module" (modulePart pool),
   whole "ModulePackages" [.table2 fun k => [.within s!"package name {k}" [packageIx pool]]],
   whole "ModuleMainClass" [classIx pool],
   whole "NestHost" [classIx pool],
   whole "NestMembers" [.table2 fun k => [.within s!"class name {k}" [classIx pool]]],
   whole "PermittedSubclasses" [.table2 fun k => [.within s!"permitted subclass {k}" [classIx pool]]]]
end

/-- The attributes whose declared length must be a certain number, which is looked at before the content. -/
def fixedLengths : List (String × Nat) :=
  [("ConstantValue", 2), ("EnclosingMethod", 4), ("Synthetic", 0), ("Signature", 2), ("SourceFile", 2), ("Deprecated", 0), ("ModuleMainClass", 2),
   ("NestHost", 2)]

/-- What is said about the faulty content of attribute number `k` of its table, which is called `name` and whose declared length is `n`; the
content should start where `t` does. -/
inductive ContentTrail (o : Opts) (pool : Pool) (k : Nat) (name : Str) (n : Nat) (t : Bytes) : ParseError → Prop where
  /-- The declared length is wrong. -/
  | wrongLength {title : String} {m : Nat} : name = title.toList → (title, m) ∈ fixedLengths → n ≠ m →
      ContentTrail o pool k name n t ⟨s!"Unexpected length {n}", [s!"{title} attribute {k}"]⟩
  /-- The first part that is wrong. -/
  | part {title : String} {parts : List Part} {e : ParseError} : name = title.toList → (∀ m, (title, m) ∈ fixedLengths → n = m) →
      (title, parts) ∈ layouts pool k → FirstFault pool parts t e → ContentTrail o pool k name n t e
  /-- The bytes of a SourceDebugExtension attribute are not a modified UTF-8 text. -/
  | debugExtension : name = "SourceDebugExtension".toList → o.decode (t.take n) = none →
      ContentTrail o pool k name n t ⟨"invalid modified utf8", [s!"modified utf8 data of SourceDebugExtension attribute {k}"]⟩

end Cafebabe.Spec
