import Verif.Props.FlagProps
import Verif.Proofs.Replace
/-!
# Properties C22, C23, C24: attributes
-/

namespace Cafebabe
open Spec Examples

/-! ## C22 Attributes consume exactly their declared length -/

/-- Every attribute of an accepted file, at any depth, is name index, declared length, and exactly that many bytes of content. -/
theorem C22_exact_length {o : Opts} {bytes : Bytes} {cf : ClassFile} (h : Accepts o bytes cf) {a : AttributeInfo} (ha : AttrOf cf a) :
    ∃ (pre body post : Bytes) (i : UInt16) (n : UInt32), bytes = pre ++ (u2 i ++ u4 n ++ body) ++ post ∧ OpenFile o cf.constantPool pre ∧
      TextAt cf.constantPool i.toNat a.name ∧ body.length = n.toNat ∧ DataEnc o cf.constantPool a.name a.data body := by
  obtain ⟨pre, s, post, rfl, hop, hs⟩ := attrOf_open (accepts_iff_enc.mp h) ha
  obtain ⟨nm, d⟩ := a
  rw [AttrEnc] at hs
  obtain ⟨_, _, rfl, ⟨i, hi, rfl⟩, n, b, hn, hd, rfl⟩ := hs
  exact ⟨pre, b, post, i, n, by simp, hop, hi, hn.symm, hd⟩

/-- The attributes of a Code attribute are its last bytes, one after the other, inside its declared length. -/
theorem C22_inside_code {o : Opts} {bytes : Bytes} {cf : ClassFile} (h : Accepts o bytes cf) {name : Str} {c : CodeData}
    (ha : AttrOf cf ⟨name, .code c⟩) :
    ∃ (pre head post : Bytes) (segs : List Bytes) (i count : UInt16) (n : UInt32),
      bytes = pre ++ (u2 i ++ u4 n ++ (head ++ (u2 count ++ segs.flatten))) ++ post ∧ OpenFile o cf.constantPool pre ∧
      n.toNat = (head ++ (u2 count ++ segs.flatten)).length ∧ count.toNat = c.attributes.length ∧
      Rows (AttrEnc o cf.constantPool) c.attributes segs := by
  obtain ⟨pre, body, post, i, n, hb, hop, -, hn, hd⟩ := C22_exact_length h ha
  rw [DataEnc, codeEnc_eq] at hd
  obtain ⟨-, -, s1, t1, rfl, rfl, s2, t2, rfl, rfl, s3, t3, rfl, hcode, s4, t4, rfl, h4, count, hc, _, _, rfl, rfl, h5⟩ := hd
  obtain ⟨segs, rfl, hr⟩ := seq_rows.mp h5
  exact ⟨pre, u2 c.maxStack ++ (u2 c.maxLocals ++ (s3 ++ s4)), post, segs, i, count, n, by simpa using hb, hop, by rw [← hn]; simp, hc, hr⟩

/-- The components of a Record attribute fill its declared length, and the attributes of each component end that component. -/
theorem C22_inside_record {o : Opts} {bytes : Bytes} {cf : ClassFile} (h : Accepts o bytes cf) {name : Str} {l : List RecordComponentEntry}
    (ha : AttrOf cf ⟨name, .record l⟩) :
    ∃ (pre post : Bytes) (comps : List Bytes) (i count : UInt16) (n : UInt32),
      bytes = pre ++ (u2 i ++ u4 n ++ (u2 count ++ comps.flatten)) ++ post ∧ OpenFile o cf.constantPool pre ∧
      n.toNat = (u2 count ++ comps.flatten).length ∧ count.toNat = l.length ∧ comps.length = l.length ∧
      ∀ (k : Nat) (r : RecordComponentEntry), l[k]? = some r → ∃ (a b c : UInt16) (segs : List Bytes),
        comps[k]? = some (u2 a ++ u2 b ++ u2 c ++ segs.flatten) ∧ c.toNat = r.attributes.length ∧
        Rows (AttrEnc o cf.constantPool) r.attributes segs := by
  obtain ⟨pre, body, post, i, n, hb, hop, -, hn, hd⟩ := C22_exact_length h ha
  rw [DataEnc, componentsEnc_eq] at hd
  obtain ⟨-, count, hc, _, _, rfl, rfl, h5⟩ := hd
  obtain ⟨comps, rfl, hl, hr⟩ := seq_rows_at h5
  refine ⟨pre, post, comps, i, count, n, hb, hop, hn.symm, hc, hl, fun k r hk => ?_⟩
  obtain ⟨s, hs, he⟩ := hr k r hk
  rw [componentEnc_eq] at he
  obtain ⟨-, _, _, rfl, ⟨a, -, rfl⟩, _, _, rfl, ⟨b, -, rfl⟩, c, hc, _, _, rfl, rfl, h6⟩ := he
  obtain ⟨segs, rfl, h7⟩ := seq_rows.mp h6
  exact ⟨a, b, c, segs, by rw [hs]; simp, hc, h7⟩

/-- Content shorter or longer than declared: the file is refused, whatever follows. (SourceDebugExtension and unknown attributes have no
layout of their own, their content is whatever the declared length says.) -/
theorem C22_wrong_length_refused {o : Opts} {pool : Pool} {pre body rest : Bytes} {i : UInt16} {n : UInt32} {name : Str} {d : AttributeData}
    (hop : OpenFile o pool pre) (hi : TextAt pool i.toNat name) (hn : name ∈ predefinedNames) (hne : name ≠ "SourceDebugExtension".toList)
    (hd : DataEnc o pool name d body) (hl : body.length ≠ n.toNat) : Refused o (pre ++ (u2 i ++ u4 n ++ body ++ rest)) := by
  refine refused_of_noAttr hop fun x t r he hx => ?_
  obtain ⟨-, b, hb, hw, hd'⟩ := attrEnc_split hx (r := body ++ rest) (t := r) (by simpa using he) hi
  obtain ⟨-, rfl, -⟩ := (data_unique o pool hn hne).split hd hd' hw
  exact hl hb.symm

/-- A declared length that goes past the end of the input: the file is refused. -/
theorem C22_past_end_refused {o : Opts} {pool : Pool} {pre rest : Bytes} {i : UInt16} {n : UInt32} (hop : OpenFile o pool pre)
    (hl : rest.length < n.toNat) : Refused o (pre ++ (u2 i ++ u4 n ++ rest)) := by
  refine refused_of_noAttr hop fun x t r he hx => ?_
  obtain ⟨nm, d⟩ := x
  rw [AttrEnc] at hx
  obtain ⟨_, _, rfl, ⟨j, hj, rfl⟩, m, b, hm, -, rfl⟩ := hx
  obtain ⟨rfl, he1⟩ := u2_split (a := i) (b := j) (r := u4 n ++ rest) (r' := u4 m ++ (b ++ r)) (by simpa using he)
  obtain ⟨rfl, rfl⟩ := u4_split he1
  rw [List.length_append] at hl
  omega

/-- Each kind of attribute occurs in `full`, so each predefined name meets the hypotheses. -/
theorem full_open (k : AttrKind) : ∃ (pre body : Bytes) (i : UInt16) (a : AttributeInfo), OpenFile debug fullCf.constantPool pre ∧
    TextAt fullCf.constantPool i.toNat a.name ∧ dataKind a.data = k ∧ DataEnc debug fullCf.constantPool a.name a.data body := by
  obtain ⟨a, h1, h2⟩ := full_has k
  obtain ⟨pre, body, post, i, n, -, hop, hi, -, hd⟩ := C22_exact_length full_accepted h1
  exact ⟨pre, body, i, a, hop, hi, h2, hd⟩

example : ∃ (pre body : Bytes) (i : UInt16) (name : Str) (d : AttributeData) (n : UInt32), OpenFile debug fullCf.constantPool pre ∧
    TextAt fullCf.constantPool i.toNat name ∧ name ∈ predefinedNames ∧ name ≠ "SourceDebugExtension".toList ∧
    DataEnc debug fullCf.constantPool name d body ∧ body.length ≠ n.toNat := by
  obtain ⟨pre, body, i, ⟨name, d⟩, hop, hi, hk, hd⟩ := full_open .runtimeInvisibleAnnotations
  have hn : name = "RuntimeInvisibleAnnotations".toList := by
    cases d <;> try (cases hk; done)
    rw [DataEnc] at hd; exact hd.1
  subst hn
  have hmem : "RuntimeInvisibleAnnotations".toList ∈ predefinedNames := by decide +kernel
  have hne : "RuntimeInvisibleAnnotations".toList ≠ "SourceDebugExtension".toList := by decide +kernel
  by_cases hb : body.length = 0
  · exact ⟨pre, body, i, _, d, 1, hop, hi, hmem, hne, hd, by rw [hb]; decide⟩
  · exact ⟨pre, body, i, _, d, 0, hop, hi, hmem, hne, hd, hb⟩

/-! ## C23 Unknown attributes -/

/-- An attribute with an unknown name is returned as `Other` with exactly the bytes of its declared length. -/
theorem C23_verbatim {o : Opts} {bytes : Bytes} {cf : ClassFile} (h : Accepts o bytes cf) {a : AttributeInfo} (ha : AttrOf cf a)
    (hn : a.name ∉ predefinedNames) :
    ∃ (pre body post : Bytes) (i : UInt16) (n : UInt32), bytes = pre ++ (u2 i ++ u4 n ++ body) ++ post ∧ OpenFile o cf.constantPool pre ∧
      TextAt cf.constantPool i.toNat a.name ∧ body.length = n.toNat ∧ a.data = .other body := by
  obtain ⟨pre, body, post, i, n, hb, hop, hi, hl, hd⟩ := C22_exact_length h ha
  refine ⟨pre, body, post, i, n, hb, hop, hi, hl, ?_⟩
  have hk := (dataEnc_kind hd).symm.trans ((attrKindOf_iff _ _).mpr (.inr ⟨rfl, hn⟩))
  obtain ⟨nm, d⟩ := a
  cases d <;> try (cases hk; done)
  rw [DataEnc] at hd
  rw [hd.2]

/-- Only attributes with an unknown name are returned as `Other`. -/
theorem C23_only_unknown {o : Opts} {bytes : Bytes} {cf : ClassFile} (h : Accepts o bytes cf) {name : Str} {b : Bytes}
    (ha : AttrOf cf ⟨name, .other b⟩) : name ∉ predefinedNames := by
  obtain ⟨pre, body, post, i, n, -, -, -, -, hd⟩ := C22_exact_length h ha
  rw [DataEnc] at hd
  exact hd.1

/-- The content of an unknown attribute may be anything, and influences nothing else: any other content of the same length is accepted
and changes the result at that attribute only. -/
theorem C23_content_irrelevant {o : Opts} {bytes : Bytes} {cf cf' : ClassFile} (h : Accepts o bytes cf) {name : Str} {b b' : Bytes}
    (hr : ReplaceOf ⟨name, .other b⟩ ⟨name, .other b'⟩ cf cf') (hl : b'.length = b.length) :
    ∃ (pre post : Bytes) (i : UInt16) (n : UInt32), bytes = pre ++ (u2 i ++ u4 n ++ b) ++ post ∧
      Accepts o (pre ++ (u2 i ++ u4 n ++ b') ++ post) cf' := by
  obtain ⟨pre, s, post, rfl, -, hs, hnew⟩ := replace_enc hr (accepts_iff_enc.mp h) (by intro l h; cases h) (by intro l h; cases h)
  rw [AttrEnc] at hs
  obtain ⟨_, _, rfl, ⟨i, hi, rfl⟩, n, w, hn, hd, rfl⟩ := hs
  rw [DataEnc] at hd
  obtain ⟨hnm, rfl⟩ := hd
  refine ⟨pre, post, i, n, by simp, accepts_iff_enc.mpr ?_⟩
  have := hnew (u2 i ++ (u4 n ++ b')) (by
    rw [AttrEnc]
    refine ⟨_, _, rfl, ⟨i, hi, rfl⟩, n, b', by omega, ?_, rfl⟩
    rw [DataEnc]; exact ⟨hnm, rfl⟩) (by simp [hl])
  simpa using this

/-- `full` has an unknown attribute with three bytes; they can be replaced. -/
example : ∃ name cf', Accepts debug full fullCf ∧ ReplaceOf ⟨name, .other [1, 2, 3]⟩ ⟨name, .other [255, 0, 7]⟩ fullCf cf' := by
  obtain ⟨name, h, -⟩ := full_other
  obtain ⟨cf', h'⟩ := replaceOf_exists ⟨name, .other [255, 0, 7]⟩ h
  exact ⟨name, cf', full_accepted, h'⟩

/-! ## C24 Attribute tables decode exactly -/

/-- Soundness: each attribute of an accepted file, at any depth, is returned with exactly the encoded content. `DataEnc` gives the layout
of every kind of attribute, rows in order, big-endian words, constant-pool indices resolved. -/
theorem C24_decoded {o : Opts} {bytes : Bytes} {cf : ClassFile} (h : Accepts o bytes cf) {a : AttributeInfo} (ha : AttrOf cf a) :
    ∃ (pre body post : Bytes) (i : UInt16) (n : UInt32), bytes = pre ++ (u2 i ++ u4 n ++ body) ++ post ∧
      TextAt cf.constantPool i.toNat a.name ∧ n.toNat = body.length ∧ DataEnc o cf.constantPool a.name a.data body ∧
      ∀ d, DataEnc o cf.constantPool a.name d body → d = a.data := by
  obtain ⟨pre, body, post, i, n, hb, hop, hi, hl, hd⟩ := C22_exact_length h ha
  refine ⟨pre, body, post, i, n, hb, hi, hl.symm, hd, fun d hd' => ?_⟩
  have h1 : AttrEnc o cf.constantPool ⟨a.name, a.data⟩ (u2 i ++ (u4 n ++ body)) := by
    rw [AttrEnc]; exact ⟨_, _, rfl, ⟨i, hi, rfl⟩, n, body, hl.symm, hd, rfl⟩
  have h2 : AttrEnc o cf.constantPool ⟨a.name, d⟩ (u2 i ++ (u4 n ++ body)) := by
    rw [AttrEnc]; exact ⟨_, _, rfl, ⟨i, hi, rfl⟩, n, body, hl.symm, hd', rfl⟩
  have := (attr_unique o cf.constantPool _ _ _ _ [] [] h1 h2 rfl).1
  cases this
  rfl

/-- Completeness: if the content of one attribute of an accepted file is overwritten with a well-formed encoding of other data, the new
file is accepted and the result differs at that attribute only, where it is that data. -/
theorem C24_accepted {o : Opts} {bytes : Bytes} {cf cf' : ClassFile} (h : Accepts o bytes cf) {a a' : AttributeInfo}
    (hr : ReplaceOf a a' cf cf') (ha : NotBootstrap a) (ha' : NotBootstrap a') :
    ∃ (pre body post : Bytes) (i : UInt16) (n : UInt32), bytes = pre ++ (u2 i ++ u4 n ++ body) ++ post ∧
      TextAt cf.constantPool i.toNat a.name ∧ n.toNat = body.length ∧ DataEnc o cf.constantPool a.name a.data body ∧
      ∀ (j : UInt16) (body' : Bytes), TextAt cf.constantPool j.toNat a'.name → body'.length = body.length →
        DataEnc o cf.constantPool a'.name a'.data body' → Accepts o (pre ++ (u2 j ++ u4 n ++ body') ++ post) cf' := by
  obtain ⟨pre, s, post, rfl, -, hs, hnew⟩ := replace_enc hr (accepts_iff_enc.mp h) ha ha'
  obtain ⟨nm, d⟩ := a
  obtain ⟨nm', d'⟩ := a'
  rw [AttrEnc] at hs
  obtain ⟨_, _, rfl, ⟨i, hi, rfl⟩, n, w, hn, hd, rfl⟩ := hs
  refine ⟨pre, w, post, i, n, by simp, hi, hn, hd, fun j body' hj hl hb => accepts_iff_enc.mpr ?_⟩
  have := hnew (u2 j ++ (u4 n ++ body')) (by
    rw [AttrEnc]; exact ⟨_, _, rfl, ⟨j, hj, rfl⟩, n, body', by omega, hb, rfl⟩) (by simp [hl, u2_length])
  simpa using this

/-- Refusal: content of the declared length that is not an encoding of anything makes the file be refused, whatever follows. -/
theorem C24_refused {o : Opts} {pool : Pool} {pre body rest : Bytes} {i : UInt16} {n : UInt32} {name : Str}
    (hop : OpenFile o pool pre) (hi : TextAt pool i.toNat name) (hl : body.length = n.toNat)
    (hd : ∀ d, ¬ DataEnc o pool name d body) : Refused o (pre ++ (u2 i ++ u4 n ++ body ++ rest)) := by
  refine refused_of_noAttr hop fun x t r he hx => ?_
  obtain ⟨-, b, hb, hw, hd'⟩ := attrEnc_split hx (r := body ++ rest) (t := r) (by simpa using he) hi
  obtain ⟨rfl, -⟩ := List.append_inj hw (by omega)
  exact hd _ hd'

/-- An index that is not what the attribute requires is refused: Signature with an index that is not a text. -/
theorem C24_bad_index_refused {o : Opts} {pool : Pool} {pre rest : Bytes} {i j : UInt16} (hop : OpenFile o pool pre)
    (hi : TextAt pool i.toNat "Signature".toList) (hj : ∀ s, ¬ TextAt pool j.toNat s) :
    Refused o (pre ++ (u2 i ++ u4 2 ++ u2 j ++ rest)) := by
  refine C24_refused hop hi rfl fun d hd => ?_
  have hk := dataEnc_kind hd
  rw [show attrKindOf "Signature".toList = .signature from by decide +kernel] at hk
  cases d <;> try (cases hk; done)
  rw [DataEnc] at hd
  obtain ⟨-, k, hk', he⟩ := hd
  rw [u2_inj he] at hj
  exact hj _ hk'

example : ∃ (pre : Bytes) (i : UInt16), OpenFile debug fullCf.constantPool pre ∧ TextAt fullCf.constantPool i.toNat "Signature".toList ∧
    ∀ s, ¬ TextAt fullCf.constantPool (0 : UInt16).toNat s := by
  obtain ⟨pre, body, i, ⟨name, d⟩, hop, hi, hk, hd⟩ := full_open .signature
  have hn : name = "Signature".toList := by
    cases d <;> try (cases hk; done)
    rw [DataEnc] at hd; exact hd.1
  subst hn
  refine ⟨pre, i, hop, hi, fun s hs => ?_⟩
  exact full_slot0 s hs

end Cafebabe
