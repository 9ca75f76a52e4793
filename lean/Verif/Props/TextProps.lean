import Verif.Spec.Grammar
import Verif.Props.PoolProps
/-!
# Names and descriptors: C17, C34 - C37
-/

namespace Cafebabe
open Spec Examples

/-! ## C17 ClassName::try_from -/

theorem lax_shape_of {s : Str} (h : LaxName s) : LaxShape s := by
  induction h with
  | @last s h =>
    refine ⟨fun c hc => ?_, ?_, ?_⟩
    · have := h c hc; unfold GoodChar at this; exact ⟨this.1, this.2.1, this.2.2.1, this.2.2.2.2.1, this.2.2.2.2.2⟩
    · cases s with
      | nil => simp
      | cons c s => intro e; simp at e; subst e; exact slash_not_good (h '/' (by simp))
    · rintro ⟨a, b, rfl⟩
      exact slash_not_good (h '/' (by simp))
  | @cons s r h1 h2 _ ih =>
    refine ⟨fun c hc => ?_, ?_, ?_⟩
    · rcases List.mem_append.mp hc with hc | hc
      · have := h2 c hc; unfold GoodChar at this; exact ⟨this.1, this.2.1, this.2.2.1, this.2.2.2.2.1, this.2.2.2.2.2⟩
      · rcases List.mem_cons.mp hc with rfl | hc
        · decide
        · exact ih.1 c hc
    · cases s with
      | nil => exact absurd rfl h1
      | cons c s => intro e; simp at e; subst e; exact slash_not_good (h2 '/' (by simp))
    · rintro ⟨a, b, e⟩
      have key : ∀ (s : Str), (∀ c ∈ s, c ≠ '/') → ∀ a : Str, a ++ ['/', '/'] ++ b = s ++ '/' :: r → r.head? = some '/' ∨ ['/', '/'] <:+: r := by
        intro s
        induction s with
        | nil =>
          intro _ a e
          cases a with
          | nil => simp at e; left; rw [← e]; rfl
          | cons x a => simp at e; right; exact ⟨a, b, by simp [e.2]⟩
        | cons c s ihs =>
          intro hs a e
          cases a with
          | nil => simp at e; exact absurd e.1.symm (hs c (by simp))
          | cons x a => simp at e; exact ihs (fun d hd => hs d (by simp [hd])) a (by simpa using e.2)
      rcases key s (fun c hc => (h2 c hc).2.2.2.1) a e with h | h
      · exact ih.2.1 h
      · exact ih.2.2 h

theorem lax_of_shape : ∀ (n : Nat) (s : Str), s.length ≤ n → LaxShape s → LaxName s
  | n, s, hn, ⟨h1, h2, h3⟩ => by
    rcases good_split s with hg | ⟨pre, c, rest, rfl, hp, hc⟩
    · exact .last hg
    · have hcc := h1 c (by simp)
      have : c = '/' := by
        apply Classical.byContradiction
        intro hne
        exact hc ⟨hcc.1, hcc.2.1, hcc.2.2.1, hne, hcc.2.2.2.1, hcc.2.2.2.2⟩
      subst this
      cases n with
      | zero => simp at hn
      | succ n =>
        refine .cons ?_ hp (lax_of_shape n rest (by simp at hn; omega) ⟨fun d hd => h1 d (by simp [hd]), ?_, ?_⟩)
        · rintro rfl; exact h2 rfl
        · intro e
          cases rest with
          | nil => cases e
          | cons x r => simp at e; subst e; exact h3 ⟨pre, r, by simp⟩
        · rintro ⟨a, b, rfl⟩
          exact h3 ⟨pre ++ '/' :: a, b, by simp⟩

/-- `ClassName::try_from(s)` succeeds exactly for texts of this shape, returns the text unchanged, and otherwise returns an error: it never
panics. -/
theorem C17_decides (s : Str) :
    (∀ c, ClassName.tryFrom s = .ok c ↔ c.name = s ∧ LaxShape s) ∧ Returns (ClassName.tryFrom s) := by
  have h := tryFrom_decides s
  refine ⟨fun c => ?_, h.2⟩
  rw [h.1 c, ← laxName_iff]
  exact ⟨fun ⟨a, b⟩ => ⟨a, lax_shape_of b⟩, fun ⟨a, b⟩ => ⟨a, lax_of_shape _ s (Nat.le_refl _) b⟩⟩

/-- Every class name made of non-empty segments is accepted. -/
theorem C17_accepts_names {s : Str} (h : ClassNameText s) : ClassName.tryFrom s = .ok ⟨s⟩ := by
  refine ((tryFrom_decides s).1 ⟨s⟩).mpr ⟨rfl, ?_⟩
  obtain ⟨segs, hne, hs, rfl⟩ := h
  rw [← List.dropLast_concat_getLast hne]
  exact ⟨_, _, fun g hg => hs g (List.dropLast_subset _ hg), .inr (hs _ (List.getLast_mem hne)), rfl⟩

theorem not_binary_nil : ¬ BinaryName [] := by
  rw [← isBinaryName_iff]; decide

/-- The claim of the documentation ("represents a valid binary class or interface name") is false: the empty string and names ending in `/`
are accepted, and they are not binary names. -/
theorem C17_false :
    (ClassName.tryFrom [] = .ok ⟨[]⟩ ∧ ¬ BinaryName []) ∧
      ∀ s, ClassNameText s → ClassName.tryFrom (s ++ ['/']) = .ok ⟨s ++ ['/']⟩ ∧ ¬ BinaryName (s ++ ['/']) := by
  refine ⟨⟨rfl, not_binary_nil⟩, fun s hs => ⟨?_, ?_⟩⟩
  · refine ((tryFrom_decides _).1 ⟨_⟩).mpr ⟨rfl, ?_⟩
    obtain ⟨segs, hne, hs, rfl⟩ := hs
    refine ⟨segs, [], hs, .inl rfl, ?_⟩
    clear hs
    induction segs with
    | nil => exact absurd rfl hne
    | cons g gs ih =>
      cases gs with
      | nil => rfl
      | cons x gs =>
        rw [List.cons_append, joinSlash_cons (s := g) (r := x :: gs) (by simp), joinSlash_cons (s := g) (r := x :: gs ++ [[]]) (by simp), ← ih (by simp)]
        simp
  · rintro ⟨segs, hne, hsegs, e⟩
    have : ∀ (segs : List Str), segs ≠ [] → (∀ g ∈ segs, UnqualifiedName g) → ∀ t : Str, t ++ ['/'] ≠ joinSlash segs := by
      intro segs
      induction segs with
      | nil => intro h; exact absurd rfl h
      | cons g gs ih =>
        intro _ hg t e
        cases gs with
        | nil =>
          have h := (hg g (by simp)).2 '/'
          have e' : t ++ ['/'] = g := e
          exact (h (by rw [← e']; simp)).2.2.2 rfl
        | cons x gs =>
          rw [joinSlash_cons (by simp)] at e
          have hlast : ∃ u, joinSlash (x :: gs) = u ++ ['/'] := by
            have hj : joinSlash (x :: gs) ≠ [] := by
              intro h0
              cases gs with
              | nil => exact (hg x (by simp)).1 h0
              | cons y gs => rw [joinSlash_cons (by simp)] at h0; simp at h0
            obtain ⟨u, l, hul⟩ : ∃ u l, joinSlash (x :: gs) = u ++ [l] := ⟨_, _, (List.dropLast_concat_getLast hj).symm⟩
            rw [hul] at e
            have : t ++ ['/'] = (g ++ '/' :: u) ++ [l] := by rw [e]; simp
            have hl := (List.append_inj' this rfl).2
            injection hl with hl
            exact ⟨u, by rw [hul, hl]⟩
          obtain ⟨u, hu⟩ := hlast
          exact ih (by simp) (fun g' hg' => hg g' (by simp [hg'])) u hu.symm
    exact this segs hne hsegs s e

example : ClassNameText "java/lang/Object".toList ∧ LaxShape "java/lang/Object".toList ∧ ¬ LaxShape "java//lang".toList := by
  refine ⟨?_, ?_, ?_⟩
  · refine ⟨["java".toList, "lang".toList, "Object".toList], by simp, ?_, by rfl⟩
    unfold Segment UnqualifiedName
    decide
  · exact (((C17_decides _).1 ⟨_⟩).mp (show ClassName.tryFrom "java/lang/Object".toList = .ok ⟨"java/lang/Object".toList⟩ by rfl)).2
  · rintro ⟨-, -, h⟩
    exact h ⟨"java".toList, "lang".toList, by rfl⟩

/-! ## C34 Display round-trips -/

/-- Every well-formed descriptor value is what its Display form parses to. -/
theorem C34_display_parses :
    (∀ d : FieldDescriptor, FieldOK d → parseFieldDescriptor d.display 0 = .ok d) ∧
    (∀ d : MethodDescriptor, MethodOK d → parseMethodDescriptor d.display 0 = .ok d) ∧
    ∀ d : ReturnDescriptor, ReturnOK d → parseReturnDescriptor d.display 0 = .ok d := by
  refine ⟨fun d h => ?_, fun d h => ?_, fun d h => ?_⟩
  · rw [fieldText_display]
    exact ((parseFieldDescriptor_zero _).1 d).mpr ⟨h, [], by simp⟩
  · rw [methodText_display]
    refine ((parseMethodDescriptor_decides _).1 d).mpr ⟨h.1, returnText d.returnType, rfl, ?_⟩
    have h2 := h.2
    cases hr : d.returnType with
    | void => rfl
    | ret f => rw [hr] at h2; exact ⟨h2, [], by simp [returnText]⟩
  · rw [returnText_display]
    refine ((parseReturnDescriptor_decides [] _).1 d).mpr ?_
    cases d with
    | void => rfl
    | ret f => exact ⟨h, [], by simp⟩

/-- A text that parses starts with the Display form of the result, and the result is well formed. -/
theorem C34_display_prefix (s : Str) :
    (∀ d, parseFieldDescriptor s 0 = .ok d → FieldOK d ∧ d.display <+: s) ∧
    (∀ d, parseMethodDescriptor s 0 = .ok d → MethodOK d ∧ d.display <+: s) ∧
    ∀ d, parseReturnDescriptor s 0 = .ok d → ReturnOK d ∧ d.display <+: s := by
  have hret : ∀ (t : Str) d, ReturnPrefix d t → ReturnOK d ∧ returnText d <+: t := by
    intro t d h
    cases d with
    | void => cases h; exact ⟨trivial, List.prefix_refl _⟩
    | ret f => obtain ⟨h1, junk, rfl⟩ := h; exact ⟨h1, List.prefix_append _ _⟩
  refine ⟨fun d h => ?_, fun d h => ?_, fun d h => ?_⟩
  · obtain ⟨h1, junk, rfl⟩ := ((parseFieldDescriptor_zero s).1 d).mp h
    rw [fieldText_display]
    exact ⟨h1, List.prefix_append _ _⟩
  · obtain ⟨h1, t, rfl, h2⟩ := ((parseMethodDescriptor_decides s).1 d).mp h
    obtain ⟨h3, u, rfl⟩ := hret _ _ h2
    rw [methodText_display]
    exact ⟨⟨h1, h3⟩, u, by simp [methodText]⟩
  · rw [returnText_display]
    exact hret _ _ (((parseReturnDescriptor_decides [] s).1 d).mp h)

/-- The texts that are accepted where any text may follow, and what they parse to: exactly those that start with a well-formed descriptor, except
that nothing may follow a return type `V`. -/
theorem C34_accepted (s : Str) :
    (∀ d, parseFieldDescriptor s 0 = .ok d ↔ FieldOK d ∧ ∃ t, s = d.display ++ t) ∧
    (∀ d, parseMethodDescriptor s 0 = .ok d ↔ MethodOK d ∧ ∃ t, s = d.display ++ t ∧ (d.returnType = .void → t = [])) ∧
    ∀ d, parseReturnDescriptor s 0 = .ok d ↔ ReturnOK d ∧ ∃ t, s = d.display ++ t ∧ (d = .void → t = []) := by
  have hret : ∀ (t : Str) d, ReturnPrefix d t ↔ ReturnOK d ∧ ∃ u, t = returnText d ++ u ∧ (d = .void → u = []) := by
    intro t d
    cases d with
    | void =>
      constructor
      · intro h; cases h; exact ⟨trivial, [], by simp [returnText], fun _ => rfl⟩
      · rintro ⟨-, u, rfl, hu⟩; rw [hu rfl]; rfl
    | ret f =>
      constructor
      · rintro ⟨h1, junk, rfl⟩; exact ⟨h1, junk, rfl, fun h => by cases h⟩
      · rintro ⟨h1, u, rfl, -⟩; exact ⟨h1, u, rfl⟩
  refine ⟨fun d => ?_, fun d => ?_, fun d => ?_⟩
  · rw [(parseFieldDescriptor_zero s).1 d, fieldText_display]
    exact Iff.rfl
  · rw [(parseMethodDescriptor_decides s).1 d, methodText_display]
    constructor
    · rintro ⟨h1, t, rfl, h2⟩
      obtain ⟨h3, u, rfl, h4⟩ := (hret _ _).mp h2
      exact ⟨⟨h1, h3⟩, u, by simp [methodText], h4⟩
    · rintro ⟨⟨h1, h3⟩, u, rfl, h4⟩
      exact ⟨h1, returnText d.returnType ++ u, by simp [methodText], (hret _ _).mpr ⟨h3, u, rfl, h4⟩⟩
  · rw [returnText_display]
    exact ((parseReturnDescriptor_decides [] s).1 d).trans (hret s d)

/-- Where the whole text is checked (constant-pool validation), Display gives back exactly the text. -/
theorem C34_checked (s : Str) :
    (isFieldDescriptor s = .ok true → ∃ d, parseFieldDescriptor s 0 = .ok d ∧ d.display = s) ∧
    (isMethodDescriptor s = .ok true → ∃ d, parseMethodDescriptor s 0 = .ok d ∧ d.display = s) ∧
    (isReturnDescriptor s = .ok true → ∃ d, parseReturnDescriptor s 0 = .ok d ∧ d.display = s) ∧
    ∀ d, parseArrayDescriptor s = .ok (some d) → d.display = s := by
  refine ⟨fun h => ?_, fun h => ?_, fun h => ?_, fun d h => ?_⟩
  · obtain ⟨b, hb, hi⟩ := isFieldDescriptor_checks s
    rw [h] at hb; cases hb
    obtain ⟨d, hd, rfl⟩ := hi.mp rfl
    exact ⟨d, by rw [← fieldText_display]; exact C34_display_parses.1 d hd, fieldText_display d⟩
  · obtain ⟨b, hb, hi⟩ := isMethodDescriptor_checks s
    rw [h] at hb; cases hb
    obtain ⟨d, hd, rfl⟩ := hi.mp rfl
    exact ⟨d, by rw [← methodText_display]; exact C34_display_parses.2.1 d hd, methodText_display d⟩
  · obtain ⟨b, hb, hi⟩ := isReturnDescriptor_checks s
    rw [h] at hb; cases hb
    obtain ⟨d, hd, rfl⟩ := hi.mp rfl
    exact ⟨d, by rw [← returnText_display]; exact C34_display_parses.2.2 d hd, returnText_display d⟩
  · rw [fieldText_display]
    exact (((parseArrayDescriptor_decides s).1 _).mp h).2.2.symm

/-- Elsewhere (fields, methods, local variables, record components, annotations) any text may follow: it is dropped. -/
theorem C34_false (d : FieldDescriptor) (hd : FieldOK d) (junk : Str) :
    parseFieldDescriptor (d.display ++ junk) 0 = .ok d ∧ (junk ≠ [] → isFieldDescriptor (d.display ++ junk) = .ok false) ∧
      parseMethodDescriptor ("()".toList ++ d.display ++ junk) 0 = .ok ⟨[], .ret d⟩ := by
  rw [fieldText_display]
  have h1 : parseFieldDescriptor (fieldText d ++ junk) 0 = .ok d := ((parseFieldDescriptor_zero _).1 d).mpr ⟨hd, junk, rfl⟩
  refine ⟨h1, fun hj => ?_, ?_⟩
  · unfold isFieldDescriptor
    rw [h1]
    show Res.ok (strLen (fieldText d ++ junk) == d.byteLen) = _
    rw [strLen_append, strLen_fieldText]
    have : strLen junk ≠ 0 := by
      cases junk with
      | nil => exact absurd rfl hj
      | cons c s => have := utf8Size_pos c; simp only [strLen]; omega
    congr 1
    simpa using this
  · refine ((parseMethodDescriptor_decides _).1 _).mpr ⟨by simp, fieldText d ++ junk, by simp [paramsText], hd, junk, rfl⟩

/-- A class with a field whose descriptor text is `Ijunk`. -/
def junkFile : Bytes :=
  header 0 52 ++ u2 5 ++ text "A" ++ [7, 0, 1] ++ text "f" ++ text "Ijunk" ++
    [0, 0x21, 0, 2, 0, 0, 0, 0] ++ u2 1 ++ [0, 1, 0, 3, 0, 4, 0, 0] ++ u2 0 ++ u2 0

theorem junk_run : (match run debug 9 junkFile with
    | .ok cf => (match cf.fields with
      | [f] => f.descriptor.display == ['I'] && (match cf.constantPool[(4 : Nat)]? with | some (Entry.utf8 s) => s == "Ijunk".toList | _ => false)
      | _ => false)
    | _ => false) = true := by decide +kernel

/-- So an accepted class file can have a field whose descriptor's Display form differs from the descriptor text in the file. -/
theorem C34_false_in_file : ∃ bytes cf f, Accepts debug bytes cf ∧ f ∈ cf.fields ∧ f.descriptor.display = ['I'] ∧
    cf.constantPool[4]? = some (Entry.utf8 "Ijunk".toList) := by
  have h := junk_run
  cases hr : run debug 9 junkFile with
  | ok cf =>
    rw [hr] at h
    dsimp only at h
    split at h
    · rename_i f hf
      rw [Bool.and_eq_true, beq_iff_eq] at h
      refine ⟨junkFile, cf, f, ⟨9, hr⟩, by rw [hf]; simp, h.1, ?_⟩
      have h2 := h.2
      split at h2
      · rename_i s hs
        rw [hs, beq_iff_eq.mp h2]
      · cases h2
    · cases h
  | err e => rw [hr] at h; cases h
  | panic k => rw [hr] at h; cases h
  | diverge => rw [hr] at h; cases h

/-- The hypotheses are met by non-trivial values. -/
example : FieldOK ⟨2, .object ⟨"java/lang/Object".toList⟩⟩ ∧
    FieldDescriptor.display ⟨2, .object ⟨"java/lang/Object".toList⟩⟩ = "[[Ljava/lang/Object;".toList ∧
    isMethodDescriptor "([IJLa/B;)V".toList = .ok true := by
  refine ⟨⟨["java".toList, "lang".toList, "Object".toList], by simp, ?_, by rfl⟩, by rfl, by rfl⟩
  unfold Segment UnqualifiedName
  decide

/-! ## C35 Descriptor validation decides the grammar -/

theorem grammar_replicate {s : Str} (h : FieldGrammar 0 s) : ∀ n, FieldGrammar n (List.replicate n '[' ++ s)
  | 0 => by simpa using h
  | n + 1 => by rw [List.replicate_succ, List.cons_append]; exact .array (grammar_replicate h n)

theorem grammar_strip {n : Nat} {s : Str} (h : FieldGrammar n s) : ∃ t, s = List.replicate n '[' ++ t ∧ FieldGrammar 0 t := by
  induction h with
  | base h => exact ⟨_, rfl, .base h⟩
  | object h => exact ⟨_, rfl, .object h⟩
  | array _ ih => obtain ⟨t, rfl, ht⟩ := ih; exact ⟨t, by rw [List.replicate_succ, List.cons_append], ht⟩

theorem typeText_grammar {t : FieldType} (h : TypeOK t) : FieldGrammar 0 (typeText t) := by
  cases t with
  | object c => exact .object h
  | _ => exact .base (by decide)

theorem grammar_typeText {s : Str} (h : FieldGrammar 0 s) : ∃ t, TypeOK t ∧ s = typeText t := by
  cases h with
  | @base c h =>
    have h : c ∈ ['B', 'C', 'D', 'F', 'I', 'J', 'S', 'Z'] := h
    simp only [List.mem_cons, List.not_mem_nil, or_false] at h
    rcases h with rfl | rfl | rfl | rfl | rfl | rfl | rfl | rfl
    · exact ⟨.byte, trivial, rfl⟩
    · exact ⟨.char, trivial, rfl⟩
    · exact ⟨.double, trivial, rfl⟩
    · exact ⟨.float, trivial, rfl⟩
    · exact ⟨.integer, trivial, rfl⟩
    · exact ⟨.long, trivial, rfl⟩
    · exact ⟨.short, trivial, rfl⟩
    · exact ⟨.boolean, trivial, rfl⟩
  | @object s h => exact ⟨.object ⟨s⟩, h, by simp [typeText]⟩

theorem field_grammar_iff (s : Str) : IsFieldDescriptor s ↔ FieldText s := by
  constructor
  · rintro ⟨d, hd, rfl⟩
    exact ⟨d.dimensions.toNat, by have := d.dimensions.toNat_lt; omega, grammar_replicate (typeText_grammar hd) _⟩
  · rintro ⟨n, hn, h⟩
    obtain ⟨t, rfl, ht⟩ := grammar_strip h
    obtain ⟨ty, hty, rfl⟩ := grammar_typeText ht
    refine ⟨⟨UInt8.ofNat n, ty⟩, hty, ?_⟩
    unfold fieldText
    rw [UInt8.toNat_ofNat_of_lt' (by show n < 256; omega)]

theorem array_grammar_iff (s : Str) : IsArrayDescriptor s ↔ FieldText s ∧ s.head? = some '[' := by
  rw [← field_grammar_iff]
  constructor
  · rintro ⟨d, hd, hne, rfl⟩
    obtain ⟨r, hr⟩ := (fieldText_bracket d hd).mpr hne
    exact ⟨⟨d, hd, rfl⟩, by rw [hr]; rfl⟩
  · rintro ⟨⟨d, hd, rfl⟩, hh⟩
    refine ⟨d, hd, (fieldText_bracket d hd).mp ?_, rfl⟩
    cases hf : fieldText d with
    | nil => rw [hf] at hh; cases hh
    | cons c r => rw [hf] at hh; simp at hh; exact ⟨r, by rw [hh]⟩

theorem return_grammar_iff (s : Str) : IsReturnDescriptor s ↔ ReturnText s := by
  unfold ReturnText
  rw [← field_grammar_iff]
  constructor
  · rintro ⟨d, hd, rfl⟩
    cases d with
    | void => exact .inl rfl
    | ret f => exact .inr ⟨f, hd, rfl⟩
  · rintro (rfl | ⟨f, hf, rfl⟩)
    · exact ⟨.void, trivial, rfl⟩
    · exact ⟨.ret f, hf, rfl⟩

theorem method_grammar_iff (s : Str) : IsMethodDescriptor s ↔ MethodText s := by
  constructor
  · rintro ⟨⟨ps, r⟩, ⟨h1, h2⟩, rfl⟩
    refine ⟨ps.map fieldText, returnText r, ?_, (return_grammar_iff _).mp ⟨r, h2, rfl⟩, ?_⟩
    · intro p hp
      obtain ⟨d, hd, rfl⟩ := List.mem_map.mp hp
      exact (field_grammar_iff _).mp ⟨d, h1 d hd, rfl⟩
    · have : ∀ ps : List FieldDescriptor, paramsText ps = (ps.map fieldText).flatten := by
        intro ps
        induction ps with
        | nil => rfl
        | cons p ps ih => simp [paramsText, ih]
      simp [methodText, this]
  · rintro ⟨ps, r, h1, h2, rfl⟩
    obtain ⟨r, hr, rfl⟩ := (return_grammar_iff r).mpr h2
    have : ∃ ds : List FieldDescriptor, (∀ d ∈ ds, FieldOK d) ∧ ps.flatten = paramsText ds := by
      clear h2 hr
      induction ps with
      | nil => exact ⟨[], by simp, rfl⟩
      | cons p ps ih =>
        obtain ⟨ds, hds, e⟩ := ih fun q hq => h1 q (by simp [hq])
        obtain ⟨d, hd, rfl⟩ := (field_grammar_iff p).mpr (h1 p (by simp))
        refine ⟨d :: ds, ?_, by simp [paramsText, e]⟩
        intro x hx
        rcases List.mem_cons.mp hx with rfl | hx
        · exact hd
        · exact hds x hx
    obtain ⟨ds, hds, e⟩ := this
    exact ⟨⟨ds, r⟩, ⟨hds, hr⟩, by simp [methodText, e]⟩

/-- The four validity checks always return, and return `true` exactly for the texts of the JVMS 4.3 grammar with at most 255 dimensions. -/
theorem C35_decides (s : Str) :
    (∃ b, isFieldDescriptor s = .ok b ∧ (b = true ↔ FieldText s)) ∧
    (∃ b, isArrayDescriptor s = .ok b ∧ (b = true ↔ FieldText s ∧ s.head? = some '[')) ∧
    (∃ b, isReturnDescriptor s = .ok b ∧ (b = true ↔ ReturnText s)) ∧
    ∃ b, isMethodDescriptor s = .ok b ∧ (b = true ↔ MethodText s) := by
  rw [← field_grammar_iff, ← return_grammar_iff, ← method_grammar_iff]
  refine ⟨isFieldDescriptor_checks s, ?_, isReturnDescriptor_checks s, isMethodDescriptor_checks s⟩
  rw [field_grammar_iff, ← array_grammar_iff]
  exact isArrayDescriptor_checks s

theorem grammar_too_many {n : Nat} (hn : 255 < n) (s : Str) : ¬ FieldText (List.replicate n '[' ++ s) := by
  rintro ⟨m, hm, h⟩
  obtain ⟨t, ht, hg⟩ := grammar_strip h
  have h1 : (List.replicate n '[' ++ s)[m]? = some '[' := by
    rw [List.getElem?_append_left (by simp; omega), List.getElem?_replicate, if_pos (by omega)]
  rw [ht, List.getElem?_append_right (by simp)] at h1
  simp at h1
  cases hg with
  | base h => simp at h1; subst h1; exact absurd h (by decide)
  | object h => simp at h1

/-- 255 dimensions are accepted, 256 are not. -/
example : FieldText (List.replicate 255 '[' ++ ['I']) ∧ ¬ FieldText (List.replicate 256 '[' ++ ['I']) ∧ MethodText "(I[J)V".toList := by
  refine ⟨⟨255, by omega, grammar_replicate (.base (by decide)) 255⟩, grammar_too_many (by omega) _, ?_⟩
  · exact ⟨["I".toList, "[J".toList], ['V'], by
      intro p hp
      simp only [List.mem_cons, List.not_mem_nil, or_false] at hp
      rcases hp with rfl | rfl
      · exact ⟨0, by omega, .base (by decide)⟩
      · exact ⟨1, by omega, .array (.base (by decide))⟩, .inl rfl, by rfl⟩

/-! ## C36 No slicing off a character boundary -/

/-- For all Unicode text: every descriptor parser, the class name check and the validity checks return `Ok` or `Err`. -/
theorem C36_never_panics (s : Str) :
    Returns (parseFieldDescriptor s 0) ∧ Returns (parseMethodDescriptor s 0) ∧ Returns (parseReturnDescriptor s 0) ∧
      Returns (parseArrayDescriptor s) ∧ Returns (ClassName.tryFrom s) ∧ Returns (isFieldDescriptor s) ∧ Returns (isArrayDescriptor s) ∧
      Returns (isReturnDescriptor s) ∧ Returns (isMethodDescriptor s) := by
  obtain ⟨⟨b1, h1, -⟩, ⟨b2, h2, -⟩, ⟨b3, h3, -⟩, ⟨b4, h4, -⟩⟩ := C35_decides s
  exact ⟨(parseFieldDescriptor_zero s).2, (parseMethodDescriptor_decides s).2, (parseReturnDescriptor_decides [] s).2,
    (parseArrayDescriptor_decides s).2, (tryFrom_decides s).2, .inl ⟨_, h1⟩, .inl ⟨_, h2⟩, .inl ⟨_, h3⟩, .inl ⟨_, h4⟩⟩

/-- The same at every character boundary inside a longer text, where the method parser calls the field and return parsers. -/
theorem C36_never_panics_inside (pre s : Str) :
    Returns (parseFieldDescriptor (pre ++ s) (strLen pre)) ∧ Returns (parseReturnDescriptor (pre ++ s) (strLen pre)) ∧
      Returns (parseClassDescriptor (pre ++ s) (strLen pre)) :=
  ⟨(parseFieldDescriptor_decides pre s).2, (parseReturnDescriptor_decides pre s).2, (parseClassDescriptor_decides pre s).2⟩

/-- The reported number of dimensions is the number of leading `[`. -/
theorem C36_dimensions {s : Str} {d : FieldDescriptor} (h : parseFieldDescriptor s 0 = .ok d) :
    ∃ c rest, s = List.replicate d.dimensions.toNat '[' ++ c :: rest ∧ c ≠ '[' := by
  obtain ⟨hok, junk, rfl⟩ := ((parseFieldDescriptor_zero s).1 d).mp h
  have : ∃ c r, typeText d.fieldType = c :: r ∧ c ≠ '[' := by
    cases d.fieldType <;> exact ⟨_, _, rfl, by decide⟩
  obtain ⟨c, r, hr, hc⟩ := this
  exact ⟨c, r ++ junk, by simp [fieldText, hr], hc⟩

/-- More than 255 of them are refused. -/
theorem C36_too_many {n : Nat} (h : 255 < n) (s : Str) : ∃ e, parseFieldDescriptor (List.replicate n '[' ++ s) 0 = .err e := by
  rcases (C36_never_panics (List.replicate n '[' ++ s)).1 with ⟨d, hd⟩ | he
  · obtain ⟨c, rest, e, hc⟩ := C36_dimensions hd
    exfalso
    have hk : d.dimensions.toNat < n := by have := d.dimensions.toNat_lt; omega
    have h1 : (List.replicate n '[' ++ s)[d.dimensions.toNat]? = some '[' := by
      rw [List.getElem?_append_left (by simpa using hk), List.getElem?_replicate, if_pos hk]
    rw [e, List.getElem?_append_right (by simp)] at h1
    simp at h1
    exact hc h1
  · exact he

example : parseFieldDescriptor "[[Lжэ/Ω;".toList 0 = .ok ⟨2, .object ⟨"жэ/Ω".toList⟩⟩ := by rfl

/-! ## C37 Name predicates -/

/-- The name checks accept exactly the names of JVMS 4.2. -/
theorem C37_decides (s : Str) :
    (isUnqualifiedName s = true ↔ UnqualifiedName s) ∧ (isBinaryName s = true ↔ BinaryName s) ∧
    (∀ init clinit : Bool, isUnqualifiedMethodName s init clinit = true ↔ MethodName (init = true) (clinit = true) s) ∧
    (isModuleName s = true ↔ ModuleName s) :=
  ⟨isUnqualifiedName_iff s, isBinaryName_iff s, isUnqualifiedMethodName_iff s, isModuleName_iff s⟩

example : BinaryName "java/lang/Object".toList ∧ ModuleName "a\\:b".toList ∧ MethodName True False "<init>".toList ∧ ¬ BinaryName "a//b".toList := by
  refine ⟨(isBinaryName_iff _).mp (by rfl), (isModuleName_iff _).mp (by rfl), .inl ⟨rfl, trivial⟩, ?_⟩
  rw [← isBinaryName_iff]; decide

end Cafebabe
