import Verif.Spec.Nested
/-!
# Specification: class files cut off just before an attribute

Used to say "a file that is well formed up to this point is refused, whatever follows".
-/

namespace Cafebabe.Spec

/-- An attribute table cut off just before one of its attributes, or before one nested at any depth in a Code attribute or in a component of
a Record attribute. The attributes before the cut are well formed; lengths, code and names of the enclosing structures are arbitrary. -/
inductive OpenAttrs (o : Opts) (pool : Pool) : Bytes → Prop where
  | here {count : UInt16} {as : List AttributeInfo} {s : Bytes} : seq (AttrEnc o pool) as s → as.length < count.toNat →
      OpenAttrs o pool (u2 count ++ s)
  | code {count i maxStack maxLocals : UInt16} {n : UInt32} {as : List AttributeInfo} {s c es pre code : Bytes}
      {et : List ExceptionTableEntry} : seq (AttrEnc o pool) as s → as.length < count.toNat → TextAt pool i.toNat "Code".toList →
      sized4 (lit code) c → table2 (ExceptionEnc pool) et es → OpenAttrs o pool pre →
      OpenAttrs o pool (u2 count ++ s ++ (u2 i ++ u4 n) ++ (u2 maxStack ++ u2 maxLocals ++ c ++ es) ++ pre)
  | record {count i count' name descriptor : UInt16} {n : UInt32} {as : List AttributeInfo} {s cs pre : Bytes} {comps : List RecordComponentEntry} :
      seq (AttrEnc o pool) as s → as.length < count.toNat → TextAt pool i.toNat "Record".toList →
      seq (ComponentEnc o pool) comps cs → comps.length < count'.toNat → OpenAttrs o pool pre →
      OpenAttrs o pool (u2 count ++ s ++ (u2 i ++ u4 n) ++ (u2 count' ++ cs ++ (u2 name ++ u2 descriptor)) ++ pre)

/-- A class file cut off just before an attribute of the class, of a field or of a method, at any nesting depth. What comes before is well
formed (the member the attribute belongs to may have any flags, name and descriptor). -/
inductive OpenFile (o : Opts) (pool : Pool) : Bytes → Prop where
  | ofClass {minor major flags : UInt16} {front fs ms pre : Bytes} {fields : List FieldInfo} {methods : List MethodInfo} :
      FrontEnc o minor major pool flags front → table2 (FieldEnc o pool) fields fs →
      table2 (MethodEnc o pool (IsInterface flags) major) methods ms → OpenAttrs o pool pre → OpenFile o pool (front ++ fs ++ ms ++ pre)
  | ofField {minor major flags count bits name descriptor : UInt16} {front fs pre : Bytes} {fields : List FieldInfo} :
      FrontEnc o minor major pool flags front → seq (FieldEnc o pool) fields fs → fields.length < count.toNat → OpenAttrs o pool pre →
      OpenFile o pool (front ++ (u2 count ++ fs) ++ (u2 bits ++ u2 name ++ u2 descriptor) ++ pre)
  | ofMethod {minor major flags count bits name descriptor : UInt16} {front fs ms pre : Bytes} {fields : List FieldInfo} {methods : List MethodInfo} :
      FrontEnc o minor major pool flags front → table2 (FieldEnc o pool) fields fs →
      seq (MethodEnc o pool (IsInterface flags) major) methods ms → methods.length < count.toNat → OpenAttrs o pool pre →
      OpenFile o pool (front ++ fs ++ (u2 count ++ ms) ++ (u2 bits ++ u2 name ++ u2 descriptor) ++ pre)

/-- No attribute starts here: no prefix of `rest` is the encoding of an attribute. -/
def NoAttr (o : Opts) (pool : Pool) (rest : Bytes) : Prop := ∀ (a : AttributeInfo) (s t : Bytes), rest = s ++ t → ¬ AttrEnc o pool a s

/-- The call returns, but not with `Ok`. -/
def Refused (o : Opts) (bytes : Bytes) : Prop := (∃ e, Rejects o bytes e) ∨ ∃ k, Panics o bytes k

end Cafebabe.Spec
