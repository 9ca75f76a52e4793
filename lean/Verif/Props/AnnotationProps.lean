import Verif.Props.FrameProps
/-!
# Property C26: annotations
-/

namespace Cafebabe
open Spec Examples

/-! ## What is returned is what is encoded -/

/-- RuntimeVisibleAnnotations and RuntimeInvisibleAnnotations. -/
theorem C26_annotations {o : Opts} {bytes : Bytes} {cf : ClassFile} (h : Accepts o bytes cf) {name : Str} {l : List Annotation}
    (ha : AttrOf cf ⟨name, .runtimeVisibleAnnotations l⟩ ∨ AttrOf cf ⟨name, .runtimeInvisibleAnnotations l⟩) :
    ∃ (pre post : Bytes) (rows : List Bytes) (i count : UInt16) (n : UInt32),
      bytes = pre ++ (u2 i ++ u4 n ++ (u2 count ++ rows.flatten)) ++ post ∧ OpenFile o cf.constantPool pre ∧
      TextAt cf.constantPool i.toNat name ∧ n.toNat = (u2 count ++ rows.flatten).length ∧ count.toNat = l.length ∧
      Rows (AnnotationEnc cf.constantPool) l rows := by
  rcases ha with ha | ha
  all_goals
    obtain ⟨pre, body, post, i, n, hb, hop, hi, hn, hd⟩ := C22_exact_length h ha
    rw [DataEnc] at hd
    obtain ⟨-, count, hc, _, _, rfl, rfl, h5⟩ := hd
    obtain ⟨rows, rfl, hr⟩ := seq_rows.mp h5
    exact ⟨pre, post, rows, i, count, n, hb, hop, hi, hn.symm, hc, hr⟩

/-- RuntimeVisibleParameterAnnotations and RuntimeInvisibleParameterAnnotations. -/
theorem C26_parameter_annotations {o : Opts} {bytes : Bytes} {cf : ClassFile} (h : Accepts o bytes cf) {name : Str} {l : List ParameterAnnotation}
    (ha : AttrOf cf ⟨name, .runtimeVisibleParameterAnnotations l⟩ ∨ AttrOf cf ⟨name, .runtimeInvisibleParameterAnnotations l⟩) :
    ∃ (pre post : Bytes) (rows : List Bytes) (i : UInt16) (count : UInt8) (n : UInt32),
      bytes = pre ++ (u2 i ++ u4 n ++ (count :: rows.flatten)) ++ post ∧ OpenFile o cf.constantPool pre ∧
      TextAt cf.constantPool i.toNat name ∧ n.toNat = (count :: rows.flatten).length ∧ count.toNat = l.length ∧ rows.length = l.length ∧
      ∀ (k : Nat) (p : ParameterAnnotation), l[k]? = some p → ∃ (c : UInt16) (anns : List Bytes), rows[k]? = some (u2 c ++ anns.flatten) ∧
        c.toNat = p.annotations.length ∧ Rows (AnnotationEnc cf.constantPool) p.annotations anns := by
  rcases ha with ha | ha
  all_goals
    obtain ⟨pre, body, post, i, n, hb, hop, hi, hn, hd⟩ := C22_exact_length h ha
    rw [DataEnc] at hd
    obtain ⟨-, count, hc, _, _, rfl, rfl, h5⟩ := hd
    obtain ⟨rows, rfl, hl, hr⟩ := seq_rows_at h5
    refine ⟨pre, post, rows, i, count, n, hb, hop, hi, hn.symm, hc, hl, fun k p hk => ?_⟩
    obtain ⟨s, hs, c, hc', _, _, rfl, rfl, h6⟩ := hr k p hk
    obtain ⟨anns, rfl, h7⟩ := seq_rows.mp h6
    exact ⟨c, anns, hs, hc', h7⟩

/-- RuntimeVisibleTypeAnnotations and RuntimeInvisibleTypeAnnotations. -/
theorem C26_type_annotations {o : Opts} {bytes : Bytes} {cf : ClassFile} (h : Accepts o bytes cf) {name : Str} {l : List TypeAnnotation}
    (ha : AttrOf cf ⟨name, .runtimeVisibleTypeAnnotations l⟩ ∨ AttrOf cf ⟨name, .runtimeInvisibleTypeAnnotations l⟩) :
    ∃ (pre post : Bytes) (rows : List Bytes) (i count : UInt16) (n : UInt32),
      bytes = pre ++ (u2 i ++ u4 n ++ (u2 count ++ rows.flatten)) ++ post ∧ OpenFile o cf.constantPool pre ∧
      TextAt cf.constantPool i.toNat name ∧ n.toNat = (u2 count ++ rows.flatten).length ∧ count.toNat = l.length ∧ rows.length = l.length ∧
      ∀ (k : Nat) (t : TypeAnnotation), l[k]? = some t → ∃ (target path ann : Bytes), rows[k]? = some (target ++ path ++ ann) ∧
        TargetEnc t.targetType target ∧ table1 PathEnc t.targetPath path ∧ AnnotationEnc cf.constantPool t.annotation ann := by
  rcases ha with ha | ha
  all_goals
    obtain ⟨pre, body, post, i, n, hb, hop, hi, hn, hd⟩ := C22_exact_length h ha
    rw [DataEnc] at hd
    obtain ⟨-, count, hc, _, _, rfl, rfl, h5⟩ := hd
    obtain ⟨rows, rfl, hl, hr⟩ := seq_rows_at h5
    refine ⟨pre, post, rows, i, count, n, hb, hop, hi, hn.symm, hc, hl, fun k p hk => ?_⟩
    obtain ⟨s, hs, t, _, rfl, h6, p, a, rfl, h7, h8⟩ := hr k p hk
    exact ⟨t, p, a, by rw [hs]; simp, h6, h7, h8⟩

/-- AnnotationDefault. -/
theorem C26_default {o : Opts} {bytes : Bytes} {cf : ClassFile} (h : Accepts o bytes cf) {name : Str} {v : AnnotationElementValue}
    (ha : AttrOf cf ⟨name, .annotationDefault v⟩) :
    ∃ (pre body post : Bytes) (i : UInt16) (n : UInt32), bytes = pre ++ (u2 i ++ u4 n ++ body) ++ post ∧ OpenFile o cf.constantPool pre ∧
      TextAt cf.constantPool i.toNat name ∧ n.toNat = body.length ∧ ElementValueEnc cf.constantPool v body := by
  obtain ⟨pre, body, post, i, n, hb, hop, hi, hn, hd⟩ := C22_exact_length h ha
  rw [DataEnc] at hd
  exact ⟨pre, body, post, i, n, hb, hop, hi, hn.symm, hd.2⟩

/-- Element values of any nesting depth: with enough stack for the bytes left, the reader returns `v` exactly on the encodings of `v`. -/
theorem C26_value_exact (pool : Pool) (v : AnnotationElementValue) (bytes : Bytes) (depth ix ix' : Nat) (hix : ix ≤ bytes.length)
    (hd : bytes.length - ix < depth) :
    readAnnotationElementValue pool depth bytes ix = .ok (v, ix') ↔
      ∃ seg rest, bytes.drop ix = seg ++ rest ∧ ElementValueEnc pool v seg ∧ ix' = ix + seg.length :=
  readAnnotationElementValue_exact pool depth bytes ix hix (by omega) v ix'

/-! ## What is refused -/

theorem element_unique (pool : Pool) : Unique (ElementEnc pool) := Exact.unique fun N =>
  ⟨_, readAnnotationElementWith_exact pool 0 (readAnnotationElementValue_exact pool N)⟩
theorem parameterAnnotation_unique (pool : Pool) : Unique (ParameterAnnotationEnc pool) := by
  rintro ⟨a⟩ ⟨b⟩ s t r r' h h' he
  obtain ⟨rfl, rfl, -⟩ := (annotations_unique pool).split h h' he
  exact ⟨rfl, rfl⟩
theorem path_unique : Unique PathEnc := Exact.unique fun _ => ⟨_, readTargetPathEntry_exact 0 0⟩
theorem target_unique : Unique TargetEnc := Exact.unique fun _ =>
  ⟨_, exact_tag (E := TargetEnc) (fun x seg => target_ne_nil) fun v => readTypeAnnotationTarget_exact 0 v⟩

theorem Unique.table1_peel {α : Type} {F : α → Lang} (h : Unique F) {as bs : List α} {count : UInt8} {s t r r' : Bytes} (hs : Spec.seq F as s)
    (hc : as.length < count.toNat) (ht : Spec.table1 F bs t) (he : count :: s ++ r = t ++ r') :
    ∃ b cs u v, bs = as ++ b :: cs ∧ F b u ∧ Spec.seq F cs v ∧ r = u ++ v ++ r' := by
  obtain ⟨d, hd, t1, t2, rfl, rfl, h2⟩ := ht
  simp only [u1, List.cons_append, List.nil_append, List.cons.injEq] at he
  obtain ⟨rfl, he'⟩ := he
  exact h.seq_peel hs h2 he' (by omega)

theorem Unique.table1 {α : Type} {F : α → Lang} (h : Unique F) : Unique (Spec.table1 F) := by
  rintro as bs s t r r' ⟨c, hc, s1, s2, rfl, rfl, h1⟩ ⟨d, hd, t1, t2, rfl, rfl, h2⟩ he
  simp only [u1, List.cons_append, List.nil_append, List.cons.injEq] at he
  obtain ⟨rfl, he'⟩ := he
  obtain ⟨rfl, rfl, -⟩ := h.seq h1 h2 he' (by omega)
  exact ⟨rfl, rfl⟩

/-- No element value starts here. -/
def NoValue (pool : Pool) (rest : Bytes) : Prop := ∀ v s t, rest = s ++ t → ¬ ElementValueEnc pool v s

theorem open_no {pool : Pool} {rest : Bytes} (hno : NoValue pool rest) (n : Nat) :
    (∀ pre, pre.length < n → OpenValue pool pre → NoValue pool (pre ++ rest)) ∧
      (∀ pre, pre.length < n → OpenAnnotation pool pre → ∀ (a : Annotation) (s t : Bytes), pre ++ rest = s ++ t → ¬ AnnotationEnc pool a s) := by
  induction n with
  | zero => exact ⟨fun _ h => absurd h (Nat.not_lt_zero _), fun _ h => absurd h (Nat.not_lt_zero _)⟩
  | succ n ih =>
    obtain ⟨ihv, iha⟩ := ih
    refine ⟨?_, ?_⟩
    · intro pre hn h v s t he hv
      cases h with
      | here => exact hno v s t he hv
      | @annotation pre h =>
        cases s with
        | nil => exact elementValue_ne_nil hv rfl
        | cons b s =>
          simp only [List.cons_append, List.nil_append, List.cons.injEq] at he
          obtain ⟨rfl, he⟩ := he
          rw [elementValue_cons] at hv
          split at hv <;> try (exact absurd hv.1 (by decide))
          exact iha pre (by simp at hn; omega) h _ s t he hv.2
      | @array count vs u pre hs hl h =>
        cases s with
        | nil => exact elementValue_ne_nil hv rfl
        | cons b s =>
          simp only [List.cons_append, List.nil_append, List.cons.injEq] at he
          obtain ⟨rfl, he⟩ := he
          rw [elementValue_cons] at hv
          split at hv <;> try (exact absurd hv.1 (by decide))
          obtain ⟨w, cs, p, q, -, hw, -, hr⟩ := (elementValue_unique pool).table2_peel hs hl hv.2 (r := pre ++ rest) (by simpa using he)
          exact ihv pre (by simp at hn; omega) h w p (q ++ t) (by simpa using hr) hw
    · intro pre hn h a s t he hv
      cases h with
      | @element ty count name es u pre hs hl h =>
        rw [annotationEnc_eq] at hv
        obtain ⟨_, s2, rfl, ⟨i, -, rfl⟩, h2⟩ := hv
        obtain ⟨rfl, he2⟩ := u2_split (a := ty) (b := i) (r := u2 count ++ u ++ (u2 name ++ (pre ++ rest))) (r' := s2 ++ t) (by simpa using he)
        rw [elementsEnc_eq] at hs
        obtain ⟨e, cs, p, q, -, ⟨_, p2, rfl, ⟨j, -, rfl⟩, hw⟩, -, hr⟩ := (element_unique pool).table2_peel hs hl h2 he2
        obtain ⟨rfl, he3⟩ := u2_split (a := name) (b := j) (r := pre ++ rest) (r' := p2 ++ (q ++ t)) (by simpa using hr)
        exact ihv pre (by simp [u2] at hn; omega) h _ p2 (q ++ t) he3 hw

theorem openValue_no {pool : Pool} {pre rest : Bytes} (h : OpenValue pool pre) (hno : NoValue pool rest) : NoValue pool (pre ++ rest) :=
  (open_no hno (pre.length + 1)).1 pre (Nat.lt_succ_self _) h

theorem openAnnotation_no {pool : Pool} {pre rest : Bytes} (h : OpenAnnotation pool pre) (hno : NoValue pool rest) (a : Annotation) (s t : Bytes)
    (he : pre ++ rest = s ++ t) : ¬ AnnotationEnc pool a s :=
  (open_no hno (pre.length + 1)).2 pre (Nat.lt_succ_self _) h a s t he

/-- The content of an attribute of a predefined name is of the kind of that name. -/
theorem dataKind_of_name {o : Opts} {pool : Pool} {name : Str} {d : AttributeData} {b : Bytes} (h : DataEnc o pool name d b) (k : AttrKind)
    (hk : kindName k = some name) : dataKind d = k := by
  rw [← dataEnc_kind h]
  exact kindName_kind k name hk

theorem openContent_no {o : Opts} {pool : Pool} {name : Str} {pre rest : Bytes} (h : OpenContent pool name pre) (hno : NoValue pool rest)
    (d : AttributeData) (s t : Bytes) (he : pre ++ rest = s ++ t) : ¬ DataEnc o pool name d s := by
  intro hd
  cases h with
  | ofDefault h =>
    have hk := dataKind_of_name hd .annotationDefault rfl
    cases d <;> try (cases hk; done)
    rw [DataEnc] at hd
    exact openValue_no h hno _ s t he hd.2
  | @ofAnnotations name count as u pre hn hs hl h =>
    have key : ∀ l, ¬ table2 (AnnotationEnc pool) l s := by
      intro l hl'
      obtain ⟨a, cs, p, q, -, hw, -, hr⟩ := (annotation_unique pool).table2_peel hs hl hl' (r := pre ++ rest) (by simpa using he)
      exact openAnnotation_no h hno a p (q ++ t) (by simpa using hr) hw
    rcases hn with rfl | rfl
    · have hk := dataKind_of_name hd .runtimeVisibleAnnotations rfl
      cases d <;> try (cases hk; done)
      rw [DataEnc] at hd
      exact key _ hd.2
    · have hk := dataKind_of_name hd .runtimeInvisibleAnnotations rfl
      cases d <;> try (cases hk; done)
      rw [DataEnc] at hd
      exact key _ hd.2
  | @ofParameters name np count ps as u v pre hn hs hl hs2 hl2 h =>
    have key : ∀ l, ¬ table1 (ParameterAnnotationEnc pool) l s := by
      intro l hl'
      obtain ⟨a, cs, p, q, -, hw, -, hr⟩ := (parameterAnnotation_unique pool).table1_peel hs hl hl' (r := u2 count ++ v ++ (pre ++ rest)) (by simpa using he)
      obtain ⟨a, cs, p2, q2, -, hw2, -, hr2⟩ := (annotation_unique pool).table2_peel hs2 hl2 hw (r := pre ++ rest) (r' := q ++ t) (by simpa using hr)
      exact openAnnotation_no h hno a p2 (q2 ++ (q ++ t)) (by simpa using hr2) hw2
    rcases hn with rfl | rfl
    · have hk := dataKind_of_name hd .runtimeVisibleParameterAnnotations rfl
      cases d <;> try (cases hk; done)
      rw [DataEnc] at hd
      exact key _ hd.2
    · have hk := dataKind_of_name hd .runtimeInvisibleParameterAnnotations rfl
      cases d <;> try (cases hk; done)
      rw [DataEnc] at hd
      exact key _ hd.2
  | @ofTypes name count ts target path u v w pre hn hs hl hv hw h =>
    have key : ∀ l, ¬ table2 (TypeAnnotationEnc pool) l s := by
      intro l hl'
      obtain ⟨a, cs, p, q, -, ⟨p1, _, rfl, h1, p2, p3, rfl, h2, h3⟩, -, hr⟩ :=
        (typeAnnotation_unique pool).table2_peel hs hl hl' (r := v ++ (w ++ (pre ++ rest))) (by simpa using he)
      obtain ⟨-, -, he2⟩ := target_unique.split hv h1 (r' := p2 ++ (p3 ++ (q ++ t))) (by simpa using hr)
      obtain ⟨-, -, he3⟩ := path_unique.table1.split hw h2 he2
      exact openAnnotation_no h hno _ p3 (q ++ t) he3 h3
    rcases hn with rfl | rfl
    · have hk := dataKind_of_name hd .runtimeVisibleTypeAnnotations rfl
      cases d <;> try (cases hk; done)
      rw [DataEnc] at hd
      exact key _ hd.2
    · have hk := dataKind_of_name hd .runtimeInvisibleTypeAnnotations rfl
      cases d <;> try (cases hk; done)
      rw [DataEnc] at hd
      exact key _ hd.2

/-- An unknown element value tag is refused wherever an element value is expected: in any annotation attribute, at any nesting depth,
whatever follows. -/
theorem C26_unknown_tag_refused {o : Opts} {pool : Pool} {pre c rest : Bytes} {i : UInt16} {n : UInt32} {name : Str} {b : UInt8}
    (hop : OpenFile o pool pre) (hi : TextAt pool i.toNat name) (hc : OpenContent pool name c) (hb : b ∉ elementTags) :
    Refused o (pre ++ (u2 i ++ u4 n ++ (c ++ b :: rest))) := by
  refine refused_of_noAttr hop fun x t r he hx => ?_
  obtain ⟨-, w, -, hw, hd⟩ := attrEnc_split hx (r := c ++ b :: rest) (t := r) (by simpa using he) hi
  refine openContent_no hc (fun v s t he' hv => ?_) _ w r hw hd
  cases s with
  | nil => exact elementValue_ne_nil hv rfl
  | cons b' s =>
    simp only [List.cons_append, List.cons.injEq] at he'
    obtain ⟨rfl, -⟩ := he'
    rw [elementValue_cons] at hv
    apply hb
    split at hv <;> (obtain ⟨rfl, -⟩ := hv; decide)

theorem target_tag {t : TypeAnnotationTarget} {seg : Bytes} (h : TargetEnc t seg) : ∃ b r, seg = b :: r ∧ b ∈ targetTypes := by
  have key : ∀ (lo hi : UInt8) (b : UInt8), lo ≤ b → b ≤ hi → (∀ k : Fin 256, lo.toNat ≤ k.val → k.val ≤ hi.toNat → UInt8.ofNat k.val ∈ targetTypes) →
      b ∈ targetTypes := by
    intro lo hi b h1 h2 h3
    rw [UInt8.le_iff_toNat_le] at h1 h2
    have := h3 ⟨b.toNat, b.toNat_lt⟩ h1 h2
    simpa using this
  cases t with
  | typeParameter k => obtain ⟨_, r, rfl, ⟨b, hb, rfl⟩, -⟩ := h; exact ⟨b, r, rfl, by rcases hb with rfl | rfl <;> decide⟩
  | supertype k => obtain ⟨_, r, rfl, rfl, -⟩ := h; exact ⟨_, r, rfl, by decide⟩
  | typeParameterBound k l => obtain ⟨_, r, rfl, ⟨b, hb, rfl⟩, -⟩ := h; exact ⟨b, r, rfl, by rcases hb with rfl | rfl <;> decide⟩
  | empty => obtain ⟨b, ⟨h1, h2⟩, rfl⟩ := h; exact ⟨b, [], rfl, key _ _ b h1 h2 (by decide +kernel)⟩
  | formalParameter k => obtain ⟨_, r, rfl, rfl, -⟩ := h; exact ⟨_, r, rfl, by decide⟩
  | throws k => obtain ⟨_, r, rfl, rfl, -⟩ := h; exact ⟨_, r, rfl, by decide⟩
  | localVar vs => obtain ⟨_, r, rfl, ⟨b, hb, rfl⟩, -⟩ := h; exact ⟨b, r, rfl, by rcases hb with rfl | rfl <;> decide⟩
  | catch_ k => obtain ⟨_, r, rfl, rfl, -⟩ := h; exact ⟨_, r, rfl, by decide⟩
  | offset k => obtain ⟨_, r, rfl, ⟨b, ⟨h1, h2⟩, rfl⟩, -⟩ := h; exact ⟨b, r, rfl, key _ _ b h1 h2 (by decide +kernel)⟩
  | typeArgument o k => obtain ⟨_, r, rfl, ⟨b, ⟨h1, h2⟩, rfl⟩, -⟩ := h; exact ⟨b, r, rfl, key _ _ b h1 h2 (by decide +kernel)⟩

theorem dataEnc_of_types {o : Opts} {pool : Pool} {name : Str} {d : AttributeData} {b : Bytes} (hd : DataEnc o pool name d b)
    (hn : name = "RuntimeVisibleTypeAnnotations".toList ∨ name = "RuntimeInvisibleTypeAnnotations".toList) :
    ∃ l, table2 (TypeAnnotationEnc pool) l b := by
  rcases hn with rfl | rfl
  · have hk := dataKind_of_name hd .runtimeVisibleTypeAnnotations rfl
    cases d <;> try (cases hk; done)
    rw [DataEnc] at hd
    exact ⟨_, hd.2⟩
  · have hk := dataKind_of_name hd .runtimeInvisibleTypeAnnotations rfl
    cases d <;> try (cases hk; done)
    rw [DataEnc] at hd
    exact ⟨_, hd.2⟩

/-- An unknown target type is refused, whatever follows. -/
theorem C26_unknown_target_refused {o : Opts} {pool : Pool} {pre s rest : Bytes} {i count : UInt16} {n : UInt32} {name : Str} {b : UInt8}
    {ts : List TypeAnnotation} (hop : OpenFile o pool pre) (hi : TextAt pool i.toNat name)
    (hn : name = "RuntimeVisibleTypeAnnotations".toList ∨ name = "RuntimeInvisibleTypeAnnotations".toList)
    (hs : seq (TypeAnnotationEnc pool) ts s) (hl : ts.length < count.toNat) (hb : b ∉ targetTypes) :
    Refused o (pre ++ (u2 i ++ u4 n ++ (u2 count ++ s ++ b :: rest))) := by
  refine refused_of_noAttr hop fun x t r he hx => ?_
  obtain ⟨-, w, -, hw, hd⟩ := attrEnc_split hx (r := u2 count ++ s ++ b :: rest) (t := r) (by simpa using he) hi
  obtain ⟨l, hl'⟩ := dataEnc_of_types hd hn
  obtain ⟨a, cs, p, q, -, ⟨p1, _, rfl, h1, -⟩, -, hr⟩ := (typeAnnotation_unique pool).table2_peel hs hl hl' hw
  obtain ⟨b', r', rfl, hb'⟩ := target_tag h1
  simp only [List.cons_append, List.cons.injEq] at hr
  exact hb (hr.1 ▸ hb')

/-- An unknown type path kind is refused, whatever follows. -/
theorem C26_unknown_path_kind_refused {o : Opts} {pool : Pool} {pre s u v rest : Bytes} {i count : UInt16} {n : UInt32} {name : Str} {b np : UInt8}
    {ts : List TypeAnnotation} {target : TypeAnnotationTarget} {ps : List TypeAnnotationTargetPathEntry} (hop : OpenFile o pool pre)
    (hi : TextAt pool i.toNat name) (hn : name = "RuntimeVisibleTypeAnnotations".toList ∨ name = "RuntimeInvisibleTypeAnnotations".toList)
    (hs : seq (TypeAnnotationEnc pool) ts s) (hl : ts.length < count.toNat) (ht : TargetEnc target u) (hp : seq PathEnc ps v)
    (hlp : ps.length < np.toNat) (hb : 3 < b) :
    Refused o (pre ++ (u2 i ++ u4 n ++ (u2 count ++ s ++ u ++ (np :: v) ++ b :: rest))) := by
  refine refused_of_noAttr hop fun x t r he hx => ?_
  obtain ⟨-, w, -, hw, hd⟩ := attrEnc_split hx (r := u2 count ++ s ++ (u ++ (np :: v ++ b :: rest))) (t := r) (by simpa using he) hi
  obtain ⟨l, hl'⟩ := dataEnc_of_types hd hn
  obtain ⟨a, cs, p, q, -, ⟨p1, _, rfl, h1, p2, p3, rfl, h2, -⟩, -, hr⟩ := (typeAnnotation_unique pool).table2_peel hs hl hl' hw
  obtain ⟨-, -, he2⟩ := target_unique.split ht h1 (r' := p2 ++ (p3 ++ (q ++ r))) (by simpa using hr)
  obtain ⟨e, es, x, y, -, he3, -, hr3⟩ := path_unique.table1_peel hp hlp h2 he2
  obtain rfl := he3
  simp only [List.cons_append, List.cons.injEq, List.nil_append] at hr3
  rw [hr3.1] at hb
  revert hb
  cases e.pathKind <;> decide

/-- Hypotheses: an array inside an annotation inside an array, in an AnnotationDefault attribute of `full`. -/
example : ∃ (pre : Bytes) (i : UInt16), OpenFile debug fullCf.constantPool pre ∧ TextAt fullCf.constantPool i.toNat "AnnotationDefault".toList ∧
    OpenContent fullCf.constantPool "AnnotationDefault".toList [91, 0, 1, 64, 0, 12, 0, 1, 0, 5, 91, 0, 1] ∧ (0x41 : UInt8) ∉ elementTags := by
  obtain ⟨pre, body, i, ⟨name, d⟩, hop, hi, hk, hd⟩ := full_open .annotationDefault
  have hn : name = "AnnotationDefault".toList := by
    cases d <;> try (cases hk; done)
    rw [DataEnc] at hd; exact hd.1
  subst hn
  refine ⟨pre, i, hop, hi, .ofDefault ?_, by decide⟩
  refine OpenValue.array (count := 1) (vs := []) (s := []) (pre := [64, 0, 12, 0, 1, 0, 5, 91, 0, 1]) rfl (by decide) ?_
  refine OpenValue.annotation (pre := [0, 12, 0, 1, 0, 5, 91, 0, 1]) ?_
  refine OpenAnnotation.element (type := 12) (count := 1) (name := 5) (es := []) (s := []) (pre := [91, 0, 1]) ?_ (by decide) ?_
  · rw [ElementsEnc]; rfl
  · exact OpenValue.array (count := 1) (vs := []) (s := []) (pre := []) rfl (by decide) .here

/-- Hypotheses: type annotations of `full`. -/
example : ∃ (pre : Bytes) (i : UInt16), OpenFile debug fullCf.constantPool pre ∧
    TextAt fullCf.constantPool i.toNat "RuntimeVisibleTypeAnnotations".toList ∧ TargetEnc (.typeArgument 9 1) [0x49, 0, 9, 1] ∧
    seq PathEnc [⟨.deeperNested, 0⟩] [1, 0] ∧ (0x18 : UInt8) ∉ targetTypes := by
  obtain ⟨pre, body, i, ⟨name, d⟩, hop, hi, hk, hd⟩ := full_open .runtimeVisibleTypeAnnotations
  have hn : name = "RuntimeVisibleTypeAnnotations".toList := by
    cases d <;> try (cases hk; done)
    rw [DataEnc] at hd; exact hd.1
  subst hn
  exact ⟨pre, i, hop, hi, ⟨[0x49], [0, 9, 1], rfl, ⟨_, ⟨by decide, by decide⟩, rfl⟩, [0, 9], [1], rfl, rfl, rfl⟩, ⟨[1, 0], [], rfl, rfl, rfl⟩, by decide⟩

end Cafebabe
