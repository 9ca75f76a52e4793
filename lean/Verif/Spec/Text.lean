import Verif.Model.Descriptors
/-!
# Specification: names and descriptors (JVMS 4.2, 4.3)

Grammars over text, independent of the parser. The only model items used are the descriptor data types.
-/

namespace Cafebabe.Spec

/-- JVMS 4.2.2 unqualified name: non-empty, none of `.` `;` `[` `/`. -/
def UnqualifiedName (s : Str) : Prop := s ≠ [] ∧ ∀ c ∈ s, c ≠ '.' ∧ c ≠ ';' ∧ c ≠ '[' ∧ c ≠ '/'

/-- JVMS 4.2.2 method name: an unqualified name without `<` and `>`, or one of the two special names where allowed. -/
def MethodName (allowInit allowClinit : Prop) (s : Str) : Prop :=
  (s = "<init>".toList ∧ allowInit) ∨ (s = "<clinit>".toList ∧ allowClinit) ∨
    (UnqualifiedName s ∧ ∀ c ∈ s, c ≠ '<' ∧ c ≠ '>')

/-- Pieces joined by `/`. -/
def joinSlash : List Str → Str
  | [] => []
  | [s] => s
  | s :: t :: rest => s ++ '/' :: joinSlash (t :: rest)

/-- JVMS 4.2.1 binary name in internal form: one or more unqualified names joined by `/`. -/
def BinaryName (s : Str) : Prop :=
  ∃ segs : List Str, segs ≠ [] ∧ (∀ g ∈ segs, UnqualifiedName g) ∧ s = joinSlash segs

/-- JVMS 4.2.3 module name: no control characters, `\` only in `\\` `\:` `\@`, no bare `:` or `@`. -/
inductive ModuleName : Str → Prop where
  | nil : ModuleName []
  | escaped {c : Char} {s : Str} : c = '\\' ∨ c = ':' ∨ c = '@' → ModuleName s → ModuleName ('\\' :: c :: s)
  | plain {c : Char} {s : Str} : 0x1F < c.toNat → c ≠ '\\' → c ≠ ':' → c ≠ '@' → ModuleName s → ModuleName (c :: s)

/-- A segment of a class name inside a descriptor: an unqualified name without `<` and `>`. -/
def Segment (s : Str) : Prop := UnqualifiedName s ∧ ∀ c ∈ s, c ≠ '<' ∧ c ≠ '>'

/-- A class name inside a descriptor: one or more segments joined by `/`. -/
def ClassNameText (s : Str) : Prop :=
  ∃ segs : List Str, segs ≠ [] ∧ (∀ g ∈ segs, Segment g) ∧ s = joinSlash segs

/-- The text of a field type (JVMS 4.3.2). -/
def typeText : FieldType → Str
  | .byte => ['B']
  | .char => ['C']
  | .double => ['D']
  | .float => ['F']
  | .integer => ['I']
  | .long => ['J']
  | .short => ['S']
  | .boolean => ['Z']
  | .object c => ['L'] ++ c.name ++ [';']

/-- The class name of an object type is a class name text. -/
def TypeOK : FieldType → Prop
  | .object c => ClassNameText c.name
  | _ => True

/-- The text of a field descriptor: one `[` per dimension, then the type. -/
def fieldText (d : FieldDescriptor) : Str := List.replicate d.dimensions.toNat '[' ++ typeText d.fieldType

/-- Well-formed field descriptor value. -/
def FieldOK (d : FieldDescriptor) : Prop := TypeOK d.fieldType

/-- The text of a return descriptor. -/
def returnText : ReturnDescriptor → Str
  | .void => ['V']
  | .ret d => fieldText d

/-- Well-formed return descriptor value. -/
def ReturnOK : ReturnDescriptor → Prop
  | .void => True
  | .ret d => FieldOK d

/-- The texts of parameters, concatenated. -/
def paramsText : List FieldDescriptor → Str
  | [] => []
  | d :: ds => fieldText d ++ paramsText ds

/-- The text of a method descriptor. -/
def methodText (d : MethodDescriptor) : Str :=
  ['('] ++ paramsText d.parameters ++ [')'] ++ returnText d.returnType

/-- Well-formed method descriptor value. -/
def MethodOK (d : MethodDescriptor) : Prop := (∀ p ∈ d.parameters, FieldOK p) ∧ ReturnOK d.returnType

/-- `s` is a field descriptor (JVMS 4.3.2; at most 255 dimensions because `dimensions` is a byte). -/
def IsFieldDescriptor (s : Str) : Prop := ∃ d : FieldDescriptor, FieldOK d ∧ s = fieldText d

/-- `s` is a field descriptor of an array type. -/
def IsArrayDescriptor (s : Str) : Prop := ∃ d : FieldDescriptor, FieldOK d ∧ d.dimensions ≠ 0 ∧ s = fieldText d

/-- `s` is a return descriptor. -/
def IsReturnDescriptor (s : Str) : Prop := ∃ d : ReturnDescriptor, ReturnOK d ∧ s = returnText d

/-- `s` is a method descriptor (JVMS 4.3.3). -/
def IsMethodDescriptor (s : Str) : Prop := ∃ d : MethodDescriptor, MethodOK d ∧ s = methodText d

/-- What the field-descriptor readers accept: a field descriptor followed by arbitrary ignored text. -/
def FieldPrefix (d : FieldDescriptor) (s : Str) : Prop := FieldOK d ∧ ∃ junk, s = fieldText d ++ junk

/-- What the return-descriptor readers accept: `V` alone, or a field descriptor followed by arbitrary ignored text. -/
def ReturnPrefix (d : ReturnDescriptor) (s : Str) : Prop :=
  match d with
  | .void => s = ['V']
  | .ret f => FieldPrefix f s

/-- What the method-descriptor readers accept: parameters in parentheses, then what the return-descriptor reader accepts. -/
def MethodPrefix (d : MethodDescriptor) (s : Str) : Prop :=
  (∀ p ∈ d.parameters, FieldOK p) ∧
    ∃ t, s = ['('] ++ paramsText d.parameters ++ [')'] ++ t ∧ ReturnPrefix d.returnType t

/-- What `ClassName::try_from` accepts: pieces joined by `/` none of which contains `.` `;` `[` `<` `>`, all but the last non-empty
(so the empty string and names ending in `/` are included). -/
def LaxClassName (s : Str) : Prop :=
  ∃ (segs : List Str) (last : Str), (∀ g ∈ segs, Segment g) ∧ (last = [] ∨ Segment last) ∧ s = joinSlash (segs ++ [last])

end Cafebabe.Spec
