import Verif.Proofs.Message
import Verif.Props.FaultProps
import Verif.Props.TrailProps
/-!
# Properties: outside attributes, the error for an input is determined by what is wrong with it (C71)
-/

namespace Cafebabe
open Spec Examples

/-! ## Contexts of the errors described -/

theorem header_bare {N : Nat} {s : Bytes} {e : ParseError} (h : HeaderSays N s e) : e.contexts = [] := by cases h <;> rfl

theorem numberCut_bare {N : Nat} {l : List (String × Nat)} {s : Bytes} {e : ParseError} (h : NumberCut N l s e) : e.contexts = [] := by
  induction h with
  | here _ => rfl
  | later _ _ ih => exact ih

theorem constant_bare {N : Nat} {major : UInt16} {s : Bytes} {e : ParseError} (h : ConstantWrong N major s e) : e.contexts = [] := by
  cases h with
  | number _ h => exact numberCut_bare h
  | _ => rfl

theorem rawPool_bare {o : Opts} {N : Nat} {major : UInt16} {s : Bytes} {e : ParseError} (h : RawPoolSays o N major s e) : e.contexts = [] := by
  cases h with
  | noCount _ => rfl
  | constant _ _ _ h => exact constant_bare h

theorem index_bare {N : Nat} {pool : Pool} {K : Entry → Prop} {s : Bytes} {e : ParseError} (h : IndexSays N pool K s e) : e.contexts = [] := by
  cases h <;> rfl

theorem classIndex_bare {N : Nat} {pool : Pool} {opt : Prop} {s : Bytes} {e : ParseError} (h : ClassIndexSays N pool opt s e) : e.contexts = [] := by
  cases h with
  | index h => exact index_bare h
  | name _ _ => rfl

theorem descriptorIndex_bare {N : Nat} {pool : Pool} {s : Bytes} {e : ParseError} (h : DescriptorIndexSays N pool s e) : e.contexts = [] := by
  cases h with
  | index h => exact index_bare h
  | text _ _ => rfl

/-- The place an error described by `Says` names; never the attributes of a part. -/
def Spec.Place.attributeFree : Place → Prop
  | .field _ | .method _ | .classAttributes => False
  | _ => True

theorem inside_bare {c : String} {e : ParseError} (h : e.contexts = []) : (inside c e).contexts = [c] := by simp [inside, h]

/-- An error described by `Says` has the context of one place, or none. -/
theorem says_contexts {o : Opts} {N : Nat} {s : Bytes} {e : ParseError} (h : SaysOf o (fun _ _ _ => False) N s e) :
    ∃ q : Place, q.attributeFree ∧ e.contexts = q.context.toList := by
  have plain : ∀ {e : ParseError}, e.contexts = [] → ∃ q : Place, q.attributeFree ∧ e.contexts = q.context.toList := fun h => ⟨.plain, trivial, h⟩
  cases h with
  | header h => exact plain (header_bare h)
  | pool h =>
    cases h with
    | raw h => exact plain (rawPool_bare h)
    | range _ _ => exact plain rfl
    | @entry raw s rest i e m _ _ _ _ _ => exact ⟨.poolEntry i, trivial, rfl⟩
  | body _ h =>
    cases h with
    | noFlags _ => exact plain rfl
    | flags _ => exact plain rfl
    | thisClass _ h => exact ⟨.thisClass, trivial, inside_bare (classIndex_bare h)⟩
    | superClass _ _ h => exact ⟨.superClass, trivial, inside_bare (classIndex_bare h)⟩
    | interfaces _ _ _ _ => exact plain rfl
    | interface' _ _ _ _ _ h => exact ⟨.interface' _, trivial, inside_bare (classIndex_bare h)⟩
  | back _ _ _ _ _ h =>
    cases h with
    | fields _ => exact plain rfl
    | methods _ _ _ => exact plain rfl
    | attributes _ _ _ _ h => exact h.elim
    | final _ _ _ _ _ _ => exact plain rfl
    | field _ _ _ h =>
      cases h with
      | attributes _ _ _ _ h => exact h.elim
      | name h => exact ⟨.fieldName _, trivial, inside_bare (index_bare h)⟩
      | descriptor _ _ h => exact ⟨.fieldDescriptor _, trivial, inside_bare (index_bare h)⟩
      | _ => exact plain rfl
    | method _ _ _ _ _ h =>
      cases h with
      | attributes _ _ _ _ _ h => exact h.elim
      | name h => exact ⟨.methodName _, trivial, inside_bare (index_bare h)⟩
      | descriptor _ _ h => exact ⟨.methodDescriptor _, trivial, inside_bare (descriptorIndex_bare h)⟩
      | _ => exact plain rfl

theorem getLast_toList (c : Option String) : c.toList.getLast? = c := by cases c <;> rfl

theorem says_outside {o : Opts} {N : Nat} {s : Bytes} {e : ParseError} (h : SaysOf o (fun _ _ _ => False) N s e) : ¬ InAttributes e := by
  obtain ⟨q, hq, hc⟩ := says_contexts h
  have hl : e.contexts.getLast? = q.context := by rw [hc, getLast_toList]
  rintro (h | ⟨i, h | h⟩)
  · have := C49_contexts_differ (p := q) (q := .classAttributes) (hl.symm.trans h)
    subst this; exact hq
  · have := C49_contexts_differ (p := q) (q := .field i) (hl.symm.trans h)
    subst this; exact hq
  · have := C49_contexts_differ (p := q) (q := .method i) (hl.symm.trans h)
    subst this; exact hq

/-! ## The claims -/

/-- An input is rejected with the error `e`, which is not about attributes, exactly when `e` is the error for what is wrong first. -/
theorem C71_iff {o : Opts} {bytes : Bytes} {e : ParseError} : Says o bytes e ↔ Rejects o bytes e ∧ ¬ InAttributes e := by
  have hn := file_names (L := bytes.length) (envOf o (bytes.length + 2)) (by simp [envOf])
    (A := fun _ _ _ => False) (fun _ pool _ => attrsNamed_skip _ pool) bytes 0 rfl (Nat.zero_le _) (by simp [envOf])
  have hr : Rejects o bytes e ↔ readClassFile (envOf o (bytes.length + 2)) bytes 0 = .err e := by
    rw [rejects_iff, run_eq]
    cases readClassFile (envOf o (bytes.length + 2)) bytes 0 <;> simp [Res.bind]
  rw [List.drop_zero, envOf_opts] at hn
  constructor
  · intro h
    have ho := says_outside h
    exact ⟨hr.mpr ((hn e ho).mpr h), ho⟩
  · rintro ⟨h, ho⟩
    exact (hn e ho).mp (hr.mp h)

/-- Whatever is described is the error, message and contexts. -/
theorem C71_rejected {o : Opts} {bytes : Bytes} {e : ParseError} (h : Says o bytes e) : Rejects o bytes e := (C71_iff.mp h).1

/-- Every error is either described or about the attributes of a field, of a method or of the class. -/
theorem C71_every_error {o : Opts} {bytes : Bytes} {e : ParseError} (h : Rejects o bytes e) : Says o bytes e ∨ InAttributes e := by
  by_cases ha : InAttributes e
  · exact .inr ha
  · exact .inl (C71_iff.mpr ⟨h, ha⟩)

/-- At most one error is described, and it has at most one context. -/
theorem C71_one {o : Opts} {bytes : Bytes} {e : ParseError} (h : Says o bytes e) :
    (∀ e', Says o bytes e' → e' = e) ∧ e.contexts.length ≤ 1 := by
  constructor
  · intro e' h'
    have h1 := rejects_iff.mp (C71_rejected h)
    have h2 := rejects_iff.mp (C71_rejected h')
    rw [h1] at h2
    cases h2
    rfl
  · obtain ⟨q, -, hc⟩ := says_contexts h
    rw [hc]
    cases q.context <;> simp

/-- Nothing is said about an accepted input, and nothing about one that panics. -/
theorem C71_silent {o : Opts} {bytes : Bytes} : (∀ cf, Accepts o bytes cf → ∀ e, ¬ Says o bytes e) ∧ (∀ k, Panics o bytes k → ∀ e, ¬ Says o bytes e) := by
  refine ⟨fun cf h e hs => ?_, fun k h e hs => ?_⟩
  · have h1 := accepts_iff.mp h
    rw [rejects_iff.mp (C71_rejected hs)] at h1
    cases h1
  · have h1 := panics_iff.mp h
    rw [rejects_iff.mp (C71_rejected hs)] at h1
    cases h1

/-! ## Cases -/

/-- A class with the given access flags and the constants `A`, its class, `extra` (`n` of them), followed by `rest`. -/
def started (major : UInt16) (n : UInt16) (extra rest : Bytes) : Bytes := header 0 major ++ u2 (n + 3) ++ text "A" ++ [7, 0, 1] ++ extra ++ rest

theorem said {o : Opts} {bytes : Bytes} {m : String} {cs : List String} (h : errorOf (run o 9 bytes) = some (m, cs))
    (hc : cs = [] ∨ ∃ q : Place, q.attributeFree ∧ cs = q.context.toList) : Says o bytes ⟨m, cs⟩ := by
  refine C71_iff.mpr ⟨rejects_of h, ?_⟩
  have : ∃ q : Place, q.attributeFree ∧ cs = q.context.toList := hc.elim (fun h => ⟨.plain, trivial, h⟩) id
  obtain ⟨q, hq, rfl⟩ := this
  have hl : (ParseError.mk m q.context.toList).contexts.getLast? = q.context := getLast_toList _
  rintro (h | ⟨i, h | h⟩)
  · have := C49_contexts_differ (p := q) (q := .classAttributes) (hl.symm.trans h)
    subst this; exact hq
  · have := C49_contexts_differ (p := q) (q := .field i) (hl.symm.trans h)
    subst this; exact hq
  · have := C49_contexts_differ (p := q) (q := .method i) (hl.symm.trans h)
    subst this; exact hq

/-- The header. -/
theorem C71_header_cases : Says debug [0xCA, 0xFE] ⟨"Unexpected end of stream reading u4 at index 0", []⟩ ∧
    Says debug [0xCA, 0xFE, 0xBA, 0xBF] ⟨"Unexpected magic header", []⟩ ∧
    Says debug [0xCA, 0xFE, 0xBA, 0xBE, 0] ⟨"Unexpected end of stream reading u2 at index 4", []⟩ ∧
    Says debug [0xCA, 0xFE, 0xBA, 0xBE, 0, 0, 0] ⟨"Unexpected end of stream reading u2 at index 6", []⟩ := by
  refine ⟨?_, ?_, ?_, ?_⟩ <;> exact said (by decide +kernel) (.inl rfl)

/-- The constant pool: a cut-off constant, an unknown tag, a tag that is too new, an unknown kind, a reference to itself, a reference outside, and
constants that do not fit together. -/
theorem C71_pool_cases : Says debug (header 0 52 ++ [0, 2, 1, 0, 5, 65]) ⟨"Unexpected end of stream reading CONSTANT_Utf8 at index 13", []⟩ ∧
    Says debug (header 0 52 ++ [0, 2, 2]) ⟨"Unexpected constant pool entry type 2 at index 10 for classfile major version 52", []⟩ ∧
    Says debug (header 0 50 ++ [0, 2, 15, 1, 0, 1]) ⟨"Unexpected constant pool entry type 15 at index 10 for classfile major version 50", []⟩ ∧
    Says debug (header 0 52 ++ [0, 2, 15, 10, 0, 1]) ⟨"Unexpected reference kind 10 when reading CONSTANT_methodhandle at index 11", []⟩ ∧
    Says debug (header 0 52 ++ [0, 2, 7, 0, 1]) ⟨"Constant pool entry at index 1 could not be resolved due to self-reference", []⟩ ∧
    Says debug (header 0 52 ++ [0, 2, 7, 0, 2]) ⟨"Constant pool entry at index 1 references out-of-bounds index 2", []⟩ ∧
    Says debug (header 0 52 ++ [0, 3, 7, 0, 2, 3, 0, 0, 0, 0]) ⟨"Unexpected constant pool reference type", ["constant pool entry 1"]⟩ ∧
    Says debug (header 0 52 ++ u2 3 ++ text "a.b" ++ [7, 0, 1]) ⟨"Invalid classinfo name", ["constant pool entry 2"]⟩ ∧
    Says debug (header 0 52 ++ u2 3 ++ text "()X" ++ [16, 0, 1]) ⟨"Invalid method descriptor", ["constant pool entry 2"]⟩ := by
  refine ⟨?_, ?_, ?_, ?_, ?_, ?_, ?_, ?_, ?_⟩
  iterate 6 exact said (by decide +kernel) (.inl rfl)
  · exact said (by decide +kernel) (.inr ⟨.poolEntry 1, trivial, rfl⟩)
  · exact said (by decide +kernel) (.inr ⟨.poolEntry 2, trivial, rfl⟩)
  · exact said (by decide +kernel) (.inr ⟨.poolEntry 2, trivial, rfl⟩)

/-- The class itself: flags of a module, the class, the super class, an interface. -/
theorem C71_class_cases : Says debug (started 52 0 [] [0x80, 0]) ⟨"Found invalid MODULE class access flag on class file of major version 52", []⟩ ∧
    Says debug (started 53 0 [] [0x80, 1]) ⟨"Found invalid class access flags PUBLIC | MODULE; no other flags should be set with MODULE", []⟩ ∧
    Says debug (started 52 0 [] [0, 0x21, 0, 1]) ⟨"Unexpected constant pool reference type", ["this_class"]⟩ ∧
    Says debug (started 52 0 [] [0, 0x21, 0, 2, 0, 9]) ⟨"Out-of-bounds index 9 in constant pool reference", ["super_class"]⟩ ∧
    Says debug (started 52 0 [] [0, 0x21, 0, 2, 0, 0, 0, 2, 0, 2, 0, 0]) ⟨"Unexpected constant pool reference type", ["interface 1"]⟩ := by
  refine ⟨?_, ?_, ?_, ?_, ?_⟩
  iterate 2 exact said (by decide +kernel) (.inl rfl)
  · exact said (by decide +kernel) (.inr ⟨.thisClass, trivial, rfl⟩)
  · exact said (by decide +kernel) (.inr ⟨.superClass, trivial, rfl⟩)
  · exact said (by decide +kernel) (.inr ⟨.interface' 1, trivial, rfl⟩)

/-- Fields and methods. Constants: 3 `x`, 4 `I`, 5 `a;b`, 6 `<clinit>`, 7 `()I`, 8 `()V`. -/
def membered (rest : Bytes) : Bytes :=
  started 52 6 (text "x" ++ text "I" ++ text "a;b" ++ text "<clinit>" ++ text "()I" ++ text "()V") ([0, 0x21, 0, 2, 0, 0, 0, 0] ++ rest)

theorem C71_member_cases :
    Says debug (membered [0, 2, 0, 0, 0, 3, 0, 4, 0, 0, 0, 0, 0, 2]) ⟨"Unexpected constant pool reference type", ["name of class field 1"]⟩ ∧
    Says debug (membered [0, 1, 0, 0, 0, 5]) ⟨"Invalid unqualified name for class field 0", []⟩ ∧
    Says debug (membered [0, 1, 0, 0, 0, 3, 0]) ⟨"Unexpected end of stream reading u2 at index 68", ["descriptor of class field 0"]⟩ ∧
    Says debug (membered [0, 2, 0, 0, 0, 3, 0, 4, 0, 0, 0, 1, 0, 3, 0, 4]) ⟨"Class field 1 is duplicate of previously-encountered field", []⟩ ∧
    Says debug (membered [0, 0, 0, 1, 0, 0, 0, 3, 0, 4]) ⟨"Method descriptor must start with '('", ["descriptor of class method 0"]⟩ ∧
    Says debug (membered [0, 0, 0, 1, 0, 0, 0, 6, 0, 7]) ⟨"Non-void method descriptor for clinit method 0", []⟩ ∧
    Says debug (membered [0, 0, 0, 2, 0, 0, 0, 6, 0, 8, 0, 0, 0, 1, 0, 6, 0, 8]) ⟨"Class method 1 is duplicate of previously-encountered method", []⟩ := by
  refine ⟨?_, ?_, ?_, ?_, ?_, ?_, ?_⟩
  · exact said (by decide +kernel) (.inr ⟨.fieldName 1, trivial, rfl⟩)
  · exact said (by decide +kernel) (.inl rfl)
  · exact said (by decide +kernel) (.inr ⟨.fieldDescriptor 0, trivial, rfl⟩)
  · exact said (by decide +kernel) (.inl rfl)
  · exact said (by decide +kernel) (.inr ⟨.methodDescriptor 0, trivial, rfl⟩)
  · exact said (by decide +kernel) (.inl rfl)
  · exact said (by decide +kernel) (.inl rfl)

/-- The end: extra bytes, a module with a super class, a constant that needs bootstrap methods. -/
theorem C71_end_cases : Says debug (tiny ++ [0]) ⟨"Extra bytes found at index 38 after reading class file", []⟩ ∧
    Says debug (started 53 0 [] [0x80, 0, 0, 2, 0, 2, 0, 0, 0, 0, 0, 0, 0, 0]) ⟨"Found non-empty super_class A; expected none for module", []⟩ ∧
    Says debug (started 52 4 (text "m" ++ text "()V" ++ [12, 0, 3, 0, 4] ++ [18, 0, 0, 0, 5]) [0, 0x21, 0, 2, 0, 0, 0, 0, 0, 0, 0, 0, 0, 0])
      ⟨"Found unexpected number of BootstrapMethods attributes in class; found 0, expected 1", []⟩ := by
  refine ⟨?_, ?_, ?_⟩ <;> exact said (by decide +kernel) (.inl rfl)

/-- A field with a malformed descriptor is rejected with an error that does not tell which field it is: these two inputs, with the fault in the
first and in the second field, give the same error. For a method the error tells. -/
theorem C71_unnamed_field :
    Says debug (membered [0, 1, 0, 0, 0, 3, 0, 3, 0, 0]) ⟨"Unexpected field type", []⟩ ∧
    Says debug (membered [0, 2, 0, 0, 0, 3, 0, 4, 0, 0, 0, 0, 0, 3, 0, 3, 0, 0]) ⟨"Unexpected field type", []⟩ := by
  refine ⟨?_, ?_⟩ <;> exact said (by decide +kernel) (.inl rfl)

end Cafebabe
