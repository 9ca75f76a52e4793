import Verif.Proofs.Found
import Verif.Props.PruneProps
import Verif.Props.TrailProps
/-!
# C57: where an attribute stands does not matter

Which attribute is read is decided by its name and its bytes, not by the structure it belongs to, nor by the version of the class file.
-/

namespace Cafebabe
open Spec Examples

/-- At every place of an accepted file where an attribute starts there is the encoding of an attribute, and the result has that attribute. -/
theorem C57_read {o : Opts} {pool : Pool} {pre rest : Bytes} {cf : ClassFile} (hop : OpenFile o pool pre) (h : Accepts o (pre ++ rest) cf) :
    cf.constantPool = pool ∧ ∃ a s t, rest = s ++ t ∧ AttrEnc o pool a s ∧ AttrOf cf a :=
  open_file_found hop (accepts_iff_enc.mp h)

/-- The same bytes are read as the same attribute: at any two places of one file, or of two files with the same constants, whatever their
versions and whatever structures the two attributes belong to. -/
theorem C57_same_bytes {o : Opts} {pool : Pool} {pre pre' body r r' : Bytes} {i : UInt16} {n : UInt32} {cf cf' : ClassFile}
    (hop : OpenFile o pool pre) (hop' : OpenFile o pool pre') (hn : body.length = n.toNat)
    (h : Accepts o (pre ++ (u2 i ++ u4 n ++ body ++ r)) cf) (h' : Accepts o (pre' ++ (u2 i ++ u4 n ++ body ++ r')) cf') :
    ∃ a, TextAt pool i.toNat a.name ∧ DataEnc o pool a.name a.data body ∧ AttrOf cf a ∧ AttrOf cf' a := by
  have key : ∀ {pre r : Bytes} {cf : ClassFile}, OpenFile o pool pre → Accepts o (pre ++ (u2 i ++ u4 n ++ body ++ r)) cf →
      ∃ a, TextAt pool i.toNat a.name ∧ DataEnc o pool a.name a.data body ∧ AttrOf cf a := by
    intro pre r cf hop h
    obtain ⟨-, ⟨nm, d⟩, s, t, he, hs, ha⟩ := C57_read hop h
    rw [AttrEnc] at hs
    obtain ⟨_, _, rfl, ⟨j, hj, rfl⟩, m, b, hm, hd, rfl⟩ := hs
    obtain ⟨rfl, he1⟩ := u2_split (a := i) (b := j) (r := u4 n ++ (body ++ r)) (r' := u4 m ++ (b ++ t)) (by simpa using he)
    obtain ⟨rfl, he2⟩ := u4_split he1
    obtain ⟨rfl, -⟩ := List.append_inj he2 (by omega)
    exact ⟨_, hj, hd, ha⟩
  obtain ⟨a, h1, h2, h3⟩ := key hop h
  obtain ⟨b, g1, g2, g3⟩ := key hop' h'
  have : a = b := by
    have e : ∀ x : AttributeInfo, TextAt pool i.toNat x.name → DataEnc o pool x.name x.data body → AttrEnc o pool x (u2 i ++ (u4 n ++ body)) := by
      rintro ⟨nm, d⟩ hi hd
      rw [AttrEnc]; exact ⟨_, _, rfl, ⟨i, hi, rfl⟩, n, body, hn.symm, hd, rfl⟩
    exact ((attr_unique o pool).split (e a h1 h2) (e b g1 g2) (r := []) (r' := []) rfl).1
  subst this
  exact ⟨a, h1, h2, h3, g3⟩

/-- An attribute found anywhere in an accepted file can be copied to any other attribute table of it (of the class, a field, a method, a
Code attribute, a record component) that has room: the file is accepted, and the copy is read as the same attribute. -/
theorem C57_copied {o : Opts} {bytes : Bytes} {cf cf' : ClassFile} (h : Accepts o bytes cf) {a : AttributeInfo} (ha : AttrOf cf a)
    (hb : NotBootstrap a) (hi : InsertOf a cf cf') (hl : 2 * bytes.length < 4294967296) :
    ∃ bytes', bytes'.length ≤ 2 * bytes.length ∧ Accepts o bytes' cf' := by
  obtain ⟨s, hs, hsub⟩ := attrOf_enc (accepts_iff_enc.mp h) ha
  have := hsub.length_le
  obtain ⟨bytes', hlen, hacc⟩ := C48_insertion h hs hb hi (by omega)
  exact ⟨bytes', by omega, hacc⟩

theorem short_table2 {α : Type} {F : α → Lang} {l : List α} {b : UInt8} : ¬ table2 F l [b] := by
  rintro ⟨c, -, s, t, he, rfl, -⟩
  have := congrArg List.length he
  simp [u2] at this

theorem short_counted2 {n : Nat} {F : Lang} {b : UInt8} : ¬ counted2 n F [b] := by
  rintro ⟨c, -, s, t, he, rfl, -⟩
  have := congrArg List.length he
  simp [u2] at this

theorem short_ref {P : Nat → Prop} {b : UInt8} : ¬ ref P [b] := by
  rintro ⟨i, -, he⟩
  have := congrArg List.length he
  simp [u2] at this

theorem short_ref_seq {P : Nat → Prop} {F : Lang} {b : UInt8} : ¬ (ref P ⬝ F) [b] := by
  rintro ⟨s, t, he, ⟨i, -, rfl⟩, -⟩
  have := congrArg List.length he
  simp [u2] at this

theorem lone_table1 {α : Type} {F : α → Lang} (hF : ∀ x, ¬ F x []) {l : List α} : ¬ table1 F l [0xFF] := by
  rintro ⟨c, hc, s, t, he, rfl, ht⟩
  simp only [u1, List.cons_append, List.nil_append, List.cons.injEq] at he
  obtain ⟨rfl, rfl⟩ := he
  cases l with
  | nil => cases hc
  | cons x xs =>
    obtain ⟨s, t, he, h1, -⟩ := ht
    obtain ⟨rfl, -⟩ := List.append_eq_nil_iff.mp he.symm
    exact hF x h1

theorem no_table2 {α : Type} {F : α → Lang} {l : List α} : ¬ table2 F l [] := by
  rintro ⟨c, -, s, t, he, rfl, -⟩
  cases he

theorem lone_count {pool : Pool} {l : List ParameterAnnotation} : ¬ table1 (ParameterAnnotationEnc pool) l [0xFF] :=
  lone_table1 fun _ => no_table2

theorem lone_params {pool : Pool} {l : List MethodParameterEntry} : ¬ table1 (MethodParameterEnc pool) l [0xFF] :=
  lone_table1 fun x => by
    rintro ⟨-, s, t, he, ⟨i, -, rfl⟩, -⟩
    cases he

theorem lone_value {pool : Pool} {v : AnnotationElementValue} : ¬ ElementValueEnc pool v [0xFF] := by
  intro h
  cases v <;> rw [ElementValueEnc] at h <;> obtain ⟨s, t, he, rfl, -⟩ := h <;> simp at he

/-- A single byte 0xFF is the content of no attribute with a predefined name, other than SourceDebugExtension. -/
theorem lone_byte {o : Opts} {pool : Pool} {name : Str} (hn : name ∈ predefinedNames) (hne : name ≠ "SourceDebugExtension".toList)
    (d : AttributeData) : ¬ DataEnc o pool name d [0xFF] := by
  intro h
  cases d with
  | constantValue c => rw [DataEnc] at h; exact short_ref h.2
  | code c =>
    rw [DataEnc, codeEnc_eq] at h
    obtain ⟨-, -, s, t, he, rfl, -⟩ := h
    have := congrArg List.length he
    simp [u2] at this
  | stackMapTable t => rw [DataEnc] at h; exact short_table2 h.2
  | exceptions l => rw [DataEnc] at h; exact short_table2 h.2
  | innerClasses l => rw [DataEnc] at h; exact short_table2 h.2
  | enclosingMethod c m => rw [DataEnc] at h; exact short_ref_seq h.2
  | synthetic => rw [DataEnc] at h; cases h.2
  | signature s => rw [DataEnc] at h; exact short_ref h.2
  | sourceFile s => rw [DataEnc] at h; exact short_ref h.2
  | sourceDebugExtension s => rw [DataEnc] at h; exact hne h.1
  | lineNumberTable l => rw [DataEnc] at h; exact short_table2 h.2
  | localVariableTable l => rw [DataEnc] at h; exact short_table2 h.2
  | localVariableTypeTable l => rw [DataEnc] at h; exact short_table2 h.2
  | deprecated => rw [DataEnc] at h; cases h.2
  | runtimeVisibleAnnotations l => rw [DataEnc] at h; exact short_table2 h.2
  | runtimeInvisibleAnnotations l => rw [DataEnc] at h; exact short_table2 h.2
  | runtimeVisibleParameterAnnotations l => rw [DataEnc] at h; exact lone_count h.2
  | runtimeInvisibleParameterAnnotations l => rw [DataEnc] at h; exact lone_count h.2
  | runtimeVisibleTypeAnnotations l => rw [DataEnc] at h; exact short_table2 h.2
  | runtimeInvisibleTypeAnnotations l => rw [DataEnc] at h; exact short_table2 h.2
  | annotationDefault v => rw [DataEnc] at h; exact lone_value h.2
  | bootstrapMethods l => rw [DataEnc] at h; exact short_table2 h.2
  | methodParameters l => rw [DataEnc] at h; exact lone_params h.2
  | moduleAttr d => rw [DataEnc] at h; exact short_ref_seq h.2
  | modulePackages l => rw [DataEnc] at h; exact short_table2 h.2
  | moduleMainClass s => rw [DataEnc] at h; exact short_ref h.2
  | nestHost s => rw [DataEnc] at h; exact short_ref h.2
  | nestMembers l => rw [DataEnc] at h; exact short_table2 h.2
  | permittedSubclasses l => rw [DataEnc] at h; exact short_table2 h.2
  | record l => rw [DataEnc] at h; exact short_counted2 h.2
  | other b => rw [DataEnc] at h; exact h.1 hn

/-- A predefined name is never passed over: at every place where an attribute starts (of a class, field, method, Code attribute or record
component, in a file of any version) a predefined name (but SourceDebugExtension, whose content is any text) with the single content byte
0xFF makes the file be refused. The JVM must ignore such an attribute where the name is not predefined for that structure or version. -/
theorem C57_known_everywhere {o : Opts} {pool : Pool} {pre rest : Bytes} {i : UInt16} {name : Str} (hop : OpenFile o pool pre)
    (hi : TextAt pool i.toNat name) (hn : name ∈ predefinedNames) (hne : name ≠ "SourceDebugExtension".toList) :
    Refused o (pre ++ (u2 i ++ u4 1 ++ [0xFF] ++ rest)) :=
  C24_refused hop hi rfl (lone_byte hn hne)

/-- While an attribute with any other name and that content is read at every such place that is reached in an accepted file. -/
theorem C57_unknown_everywhere {o : Opts} {bytes : Bytes} {cf cf' : ClassFile} (h : Accepts o bytes cf) {i : UInt16} {name : Str}
    (ht : TextAt cf.constantPool i.toNat name) (hn : name ∉ predefinedNames) (hi : InsertOf ⟨name, .other [0xFF]⟩ cf cf')
    (hl : bytes.length + 7 < 4294967296) : ∃ bytes', bytes'.length = bytes.length + 7 ∧ Accepts o bytes' cf' :=
  C48_insert_unknown h ht hn hi hl

/-! ### Concrete cases -/

/-- A class file of version 45.3 whose only field has an attribute of that name with the content byte 0xFF. -/
def oldField (name : String) : Bytes :=
  header 3 45 ++ u2 6 ++ text "A" ++ [7, 0, 1] ++ text "I" ++ text "x" ++ text name ++ [0, 0x21, 0, 2, 0, 0, 0, 0] ++
    u2 1 ++ [0, 0, 0, 4, 0, 3] ++ u2 1 ++ attr 5 [0xFF] ++ u2 0 ++ u2 0

/-- "Record" is predefined for classes of version 60 and later, "Code" for methods: on a field of a class of version 45.3 the JVM ignores
both. The parser does not; it passes over other names only. -/
theorem C57_witnesses :
    Rejects debug (oldField "Record") ⟨"Unexpected constant pool reference type", ["name of entry 0", "Record attribute 0", "class field 0"]⟩ ∧
    Rejects debug (oldField "Code") ⟨"Unexpected end of stream reading u4 at index 60", ["Code attribute 0", "class field 0"]⟩ ∧
    ∃ cf, Accepts debug (oldField "Records") cf :=
  ⟨rejects_of (d := 9) (by decide +kernel), rejects_of (d := 9) (by decide +kernel), accepted (d := 9) (by decide +kernel)⟩

/-- An attribute found anywhere can be copied in front of the class attributes (the general case, so that the next example need not unfold
`rich`). -/
theorem copy_front {o : Opts} {bytes : Bytes} {cf : ClassFile} (h : Accepts o bytes cf) {a : AttributeInfo} (ha : AttrOf cf a)
    (hb : NotBootstrap a) (hr : cf.attributes.length < 65535) (hl : 2 * bytes.length < 4294967296) :
    ∃ bytes' cf', cf'.attributes = a :: cf.attributes ∧ cf'.methods = cf.methods ∧ Accepts o bytes' cf' := by
  obtain ⟨bytes', -, h'⟩ := C57_copied h ha hb (.ofClass _ (.here [] _ (by simpa using hr))) hl
  exact ⟨bytes', { cf with attributes := a :: cf.attributes }, rfl, rfl, h'⟩

/-- The Code attribute of the method of `rich` can be copied to the class, where the JVM would ignore it; it is decoded all the same. -/
example : ∃ (bytes' : Bytes) (cf' : ClassFile) (name : Str) (c : CodeData),
    cf'.attributes = ⟨name, .code c⟩ :: richCf.attributes ∧ Accepts debug bytes' cf' := by
  obtain ⟨c, bc, ⟨name, hc⟩, -⟩ := rich_code
  obtain ⟨bytes', cf', h1, -, h2⟩ := copy_front rich_accepted hc (by intro l h; cases h)
    (by rw [rich_shape.2.2.2.2.2]; exact Nat.le_of_ble_eq_true rfl) (by decide +kernel)
  exact ⟨bytes', cf', name, c, h1, h2⟩

end Cafebabe
