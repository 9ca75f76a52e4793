import Verif.Proofs.Trail
import Verif.Props.FaultProps
/-!
# Properties: inside attributes an error leads to the first fault (C55)
-/

namespace Cafebabe
open Spec Examples

theorem elsewhere_not {e : ParseError} {p : Place} (h : Elsewhere e) (hp : p.isAttributes = true) : e.contexts.getLast? ≠ p.context := by
  intro he
  obtain ⟨q, hq, h1, h2, h3⟩ := h
  have := C49_contexts_differ (hq.trans he)
  subst this
  cases q <;> simp_all [Place.isAttributes]

/-- An error whose outermost context is a field, a method or "class" is about its attributes, and everything before them is well formed. The
message and the other contexts of the error lead to the first fault in these attributes. -/
theorem C55_trail {o : Opts} {bytes : Bytes} {e : ParseError} {p : Place} (h : Rejects o bytes e) (hp : p.isAttributes = true)
    (hc : e.contexts.getLast? = p.context) :
    ∃ (pool : Pool) (s : Bytes) (c : String) (e' : ParseError), p.context = some c ∧ e = ParseErrorIn e' c ∧ AttrsAt o p pool bytes s ∧
      AttrsTrail o pool s e' := by
  have hf := (C49_place_iff p).mp ⟨e, h, hc⟩
  have hback : ∃ (minor major flags : UInt16) (pool : Pool) (front s : Bytes), bytes = front ++ s ∧ FrontEnc o minor major pool flags front := by
    cases hf with
    | header _ => cases hp
    | pool hk => cases hk <;> cases hp
    | body _ hk => cases hk <;> cases hp
    | @back _ minor major bits i' j pool this super ifs sp si s hpool hmod hthis hsuper hifs hk =>
      exact ⟨minor, major, bits &&& 0xF631, pool, header minor major ++ (sp ++ (u2 bits ++ (u2 i' ++ (u2 j ++ si)))), s, by simp, this, super, ifs,
          ⟨_, _, rfl, rfl, sp, _, rfl, hpool, u2 bits, _, rfl, ⟨bits, rfl, rfl⟩, u2 i', _, rfl, ⟨i', hthis, rfl⟩, u2 j, si, rfl,
            ⟨j, hsuper, rfl⟩, hifs⟩, hmod⟩
  obtain ⟨minor, major, flags, pool, front, s, hb, hfront⟩ := hback
  rw [rejects_iff, run_eq] at h
  have hd : bytes.length < (envOf o (bytes.length + 2)).depth := by simp [envOf]
  obtain ⟨this, super, ifs, hrun⟩ := front_run (env := envOf o (bytes.length + 2)) (by simp [envOf]) hd hfront hb
  rw [hrun] at h
  have he : readBack (envOf o (bytes.length + 2)) minor major pool flags this super ifs bytes front.length = .err e := by
    revert h
    cases readBack (envOf o (bytes.length + 2)) minor major pool flags this super ifs bytes front.length <;> simp [Res.bind]
  have ht := back_tells (envOf o (bytes.length + 2)) minor major flags pool this super ifs hfront bytes front.length (by rw [hb]; simp) (by omega) e he
  have hdrop : bytes.drop front.length = s := by rw [hb]; simp
  rw [hdrop, ← hb, envOf_opts] at ht
  rcases ht with ht | ⟨q, c, t, e', hq, ha, rfl, htr⟩
  · exact absurd hc (elsewhere_not ht hp)
  · have : q = p := C49_contexts_differ (by rw [hq, ← hc]; simp [ParseErrorIn])
    subst this
    exact ⟨pool, t, c, e', hq, rfl, ha, htr⟩

theorem trail_of {o : Opts} {bytes : Bytes} {m : String} {cs : List String} {pc : String} {p : Place}
    (h : Rejects o bytes ⟨m, cs ++ [pc]⟩) (hp : p.isAttributes = true) (hc : p.context = some pc) :
    ∃ (pool : Pool) (s : Bytes), AttrsAt o p pool bytes s ∧ AttrsTrail o pool s ⟨m, cs⟩ := by
  obtain ⟨pool, s, pc', e', hpc, he, ha, ht⟩ := C55_trail h hp (by rw [hc]; simp)
  rw [hc] at hpc
  cases hpc
  cases e'
  simp only [ParseErrorIn, ParseError.mk.injEq] at he
  obtain ⟨rfl, he⟩ := he
  rw [← List.append_cancel_right he] at ht
  exact ⟨pool, s, ha, ht⟩

/-! ## Reading numbers and names off a context -/

theorem digits_no_space (k : Nat) : ' ' ∉ (toString k).toList := by
  intro h
  simp only [toString, Nat.toList_repr] at h
  exact absurd (Nat.isDigit_of_mem_toDigits (by decide) (by decide) h) (by decide)

/-- The part of a text after its last space. -/
theorem last_word {a b x y : List Char} (ha : a = [] ∨ ∃ a', a = a' ++ [' ']) (hb : b = [] ∨ ∃ b', b = b' ++ [' ']) (hx : ' ' ∉ x) (hy : ' ' ∉ y)
    (h : a ++ x = b ++ y) : a = b ∧ x = y := by
  have key : ∀ {a x : List Char}, (a = [] ∨ ∃ a', a = a' ++ [' ']) → ' ' ∉ x → (a ++ x).reverse.takeWhile (· != ' ') = x.reverse := by
    intro a x ha hx
    have hall : ∀ c ∈ x.reverse, (c != ' ') = true := by
      intro c hc
      simp only [bne_iff_ne, ne_eq]
      rintro rfl
      exact hx (List.mem_reverse.mp hc)
    rw [List.reverse_append, List.takeWhile_append_of_pos hall]
    rcases ha with rfl | ⟨a', rfl⟩ <;> simp
  have h1 := key ha hx
  rw [h, key hb hy] at h1
  have : y = x := List.reverse_injective h1
  subst this
  exact ⟨List.append_cancel_right h, rfl⟩

theorem suffix_number {c : List Char} {k k' : Nat} (h : s!" attribute {k}".toList <:+ c) (h' : s!" attribute {k'}".toList <:+ c) : k = k' := by
  obtain ⟨a, rfl⟩ := h
  obtain ⟨b, hb⟩ := h'
  have ts : ∀ s : String, toString s = s := fun _ => rfl
  have e : ∀ k : Nat, s!" attribute {k}".toList = " attribute".toList ++ [' '] ++ (toString k).toList := by
    intro k; simp [String.toList_append, ts]
  rw [e, e, ← List.append_assoc, ← List.append_assoc (as := a)] at hb
  have := (last_word (.inr ⟨_, (List.append_assoc _ _ _).symm⟩) (.inr ⟨_, (List.append_assoc _ _ _).symm⟩) (digits_no_space k') (digits_no_space k) hb).2
  exact (Nat.repr_injective (String.toList_inj.mp this)).symm

theorem names_suffix {c : String} {name : Str} {k : Nat} (h : NamesAttr c name k) : s!" attribute {k}".toList <:+ c.toList := by
  obtain ⟨-, p, -, h⟩ := h
  exact ⟨p.toList ++ name, by rw [h]; simp⟩

/-- A context of the form "PART of NAME attribute K" determines the name and the number. -/
theorem C55_names_differ {c : String} {name name' : Str} {k k' : Nat} (h : NamesAttr c name k) (h' : NamesAttr c name' k') : name = name' ∧ k = k' := by
  have hk := suffix_number (names_suffix h) (names_suffix h')
  subst hk
  refine ⟨?_, rfl⟩
  obtain ⟨hn, p, hp, h⟩ := h
  obtain ⟨hn', p', hp', h'⟩ := h'
  rw [h, ← List.append_assoc, ← List.append_assoc] at h'
  have h1 := List.append_cancel_right h'
  have hname : ∀ n ∈ predefinedNames, ' ' ∉ n := by decide
  have hpart : ∀ p ∈ partNames, p.toList = [] ∨ p.toList = p.toList.dropLast ++ [' '] := by decide
  exact (last_word ((hpart p hp).imp_right fun h => ⟨_, h⟩) ((hpart p' hp').imp_right fun h => ⟨_, h⟩) (hname _ hn) (hname _ hn') h1).2

/-- The outermost context of a fault in an attribute ends with " attribute K", where `K` is its number. -/
theorem attrTrail_suffix {o : Opts} {pool : Pool} {k : Nat} {t : Bytes} {e : ParseError} {c : String} (h : AttrTrail o pool k t e)
    (hc : e.contexts.getLast? = some c) : s!" attribute {k}".toList <:+ c.toList := by
  have ts : ∀ s : String, toString s = s := fun _ => rfl
  cases h with
  | name _ _ =>
    simp only [ParseErrorIn, List.getLast?_append, List.getLast?_singleton, Option.some_or, Option.some.injEq] at hc
    subst hc
    exact ⟨"name field of".toList, by simp [String.toList_append, ts]⟩
  | length _ _ hp => rw [hp.1] at hc; cases hc
  | cut _ _ hp => rw [hp.1] at hc; cases hc
  | mismatch _ _ _ _ => cases hc
  | content _ _ _ _ hn _ =>
    simp only [ParseErrorIn, List.getLast?_append, List.getLast?_singleton, Option.some_or, Option.some.injEq] at hc
    subst hc
    exact names_suffix hn
  | code _ _ =>
    simp only [ParseErrorIn, List.getLast?_append, List.getLast?_singleton, Option.some_or, Option.some.injEq] at hc
    subst hc
    exact ⟨"Code".toList, by simp [String.toList_append, ts]⟩
  | record _ _ =>
    simp only [ParseErrorIn, List.getLast?_append, List.getLast?_singleton, Option.some_or, Option.some.injEq] at hc
    subst hc
    exact ⟨"Record".toList, by simp [String.toList_append, ts]⟩

/-- The context inside the place of the error gives the number of the first attribute that cannot be read. -/
theorem C55_number {o : Opts} {bytes : Bytes} {m : String} {cs : List String} {c pc : String} {p : Place}
    (h : Rejects o bytes ⟨m, cs ++ [c, pc]⟩) (hp : p.isAttributes = true) (hc : p.context = some pc) :
    ∃ (k : Nat) (pool : Pool) (count : UInt16) (as : List AttributeInfo) (before t : Bytes), AttrsAt o p pool bytes (u2 count ++ (before ++ t)) ∧
      as.length = k ∧ k < count.toNat ∧ seq (AttrEnc o pool) as before ∧ (∀ a seg rest, t = seg ++ rest → ¬ AttrEnc o pool a seg) ∧
      s!" attribute {k}".toList <:+ c.toList ∧ ∀ k' : Nat, s!" attribute {k'}".toList <:+ c.toList → k' = k := by
  obtain ⟨pool, s, ha, ht⟩ := trail_of (cs := cs ++ [c]) (by simpa using h) hp hc
  cases ht with
  | count _ hq => have := hq.1; simp at this
  | @next count as before t _ hl hs hn hr =>
    have hsuf := attrTrail_suffix hr (c := c) (by simp)
    exact ⟨as.length, pool, count, as, before, t, ha, rfl, hl, hs, hn, hsuf, fun k' hk => suffix_number hk hsuf⟩

/-- … and, unless the name itself is what cannot be read, its name. -/
theorem C55_name {o : Opts} {bytes : Bytes} {m : String} {cs : List String} {c pc : String} {p : Place} {name : Str} {k : Nat}
    (h : Rejects o bytes ⟨m, cs ++ [c, pc]⟩) (hp : p.isAttributes = true) (hc : p.context = some pc) (hn : NamesAttr c name k) :
    ∃ (pool : Pool) (count : UInt16) (as : List AttributeInfo) (before t content : Bytes), AttrsAt o p pool bytes (u2 count ++ (before ++ t)) ∧
      as.length = k ∧ k < count.toNat ∧ seq (AttrEnc o pool) as before ∧ AttrHead pool name content t ∧
      ∀ a seg rest, t = seg ++ rest → ¬ AttrEnc o pool a seg := by
  obtain ⟨pool, s, ha, ht⟩ := trail_of (cs := cs ++ [c]) (by simpa using h) hp hc
  have ts : ∀ s : String, toString s = s := fun _ => rfl
  have last : ∀ {e : ParseError} {c' : String}, (⟨m, cs ++ [c]⟩ : ParseError) = ParseErrorIn e c' → c = c' := by
    intro e c' h
    have h := congrArg (fun e : ParseError => e.contexts.getLast?) h
    simpa [ParseErrorIn] using h
  cases ht with
  | count _ hq => have := hq.1; simp at this
  | @next count as before t _ hl hs hno hr =>
    have hk := suffix_number (names_suffix hn) (attrTrail_suffix hr (c := c) (by simp))
    subst hk
    suffices hh : ∃ content, AttrHead pool name content t by
      obtain ⟨content, hh⟩ := hh
      exact ⟨pool, count, as, before, t, content, ha, rfl, hl, hs, hh, hno⟩
    generalize hE : (⟨m, cs ++ [c]⟩ : ParseError) = E at hr
    cases hr with
    | name _ _ =>
      exfalso
      have := last hE
      subst this
      obtain ⟨hn, p, hp, h⟩ := hn
      have h1 : ("name field".toList ++ " of".toList) ++ s!" attribute {as.length}".toList = (p.toList ++ name) ++ s!" attribute {as.length}".toList := by
        rw [List.append_assoc p.toList, ← h]; simp [String.toList_append, ts]
      have h2 := List.append_cancel_right h1
      revert h2
      have : ∀ n ∈ predefinedNames, ∀ p ∈ partNames, "name field".toList ++ " of".toList ≠ p.toList ++ n := by decide
      exact this name hn p hp
    | length _ _ hq => subst hE; have := hq.1; simp at this
    | cut _ _ hq => subst hE; have := hq.1; simp at this
    | mismatch _ _ _ _ => simp at hE
    | content hh hle _ _ hn' _ =>
      have := last hE
      subst this
      rw [(C55_names_differ hn hn').1]
      exact ⟨_, _, _, hh, hle, rfl⟩
    | code hh _ =>
      have := last hE
      subst this
      rw [(C55_names_differ hn (name' := "Code".toList) (k' := as.length) ⟨by decide, "", by decide, by simp [String.toList_append, ts]⟩).1]
      exact ⟨_, hh⟩
    | record hh _ =>
      have := last hE
      subst this
      rw [(C55_names_differ hn (name' := "Record".toList) (k' := as.length) ⟨by decide, "", by decide, by simp [String.toList_append, ts]⟩).1]
      exact ⟨_, hh⟩

theorem in_eq {m : String} {cs : List String} {c c' : String} {e : ParseError} (h : (⟨m, cs ++ [c]⟩ : ParseError) = ParseErrorIn e c') :
    c = c' ∧ e = ⟨m, cs⟩ := by
  cases e
  simp only [ParseErrorIn, ParseError.mk.injEq] at h
  obtain ⟨rfl, h⟩ := h
  obtain ⟨rfl, h2⟩ := List.append_inj' h rfl
  cases h2
  exact ⟨rfl, rfl⟩

theorem code_names (k : Nat) : NamesAttr s!"Code attribute {k}" "Code".toList k := by
  have ts : ∀ s : String, toString s = s := fun _ => rfl
  exact ⟨by decide, "", by decide, by simp [String.toList_append, ts]⟩

theorem record_names (k : Nat) : NamesAttr s!"Record attribute {k}" "Record".toList k := by
  have ts : ∀ s : String, toString s = s := fun _ => rfl
  exact ⟨by decide, "", by decide, by simp [String.toList_append, ts]⟩

/-- "name field of attribute K" is not the context of a fault in the content of an attribute. -/
theorem not_name_field {name : Str} {k j : Nat} : ¬ NamesAttr s!"name field of attribute {j}" name k := by
  intro h
  have ts : ∀ s : String, toString s = s := fun _ => rfl
  have hk := suffix_number (names_suffix h) (k' := j) ⟨"name field of".toList, by simp [String.toList_append, ts]⟩
  subst hk
  obtain ⟨hn, p, hp, h⟩ := h
  have h1 : ("name field".toList ++ " of".toList) ++ s!" attribute {k}".toList = (p.toList ++ name) ++ s!" attribute {k}".toList := by
    rw [List.append_assoc p.toList, ← h]; simp [String.toList_append, ts]
  have h2 := List.append_cancel_right h1
  revert h2
  have : ∀ n ∈ predefinedNames, ∀ p ∈ partNames, "name field".toList ++ " of".toList ≠ p.toList ++ n := by decide
  exact this name hn p hp

theorem table_code {o : Opts} {pool : Pool} {s : Bytes} {m : String} {cs : List String} {k : Nat}
    (h : AttrsTrail o pool s ⟨m, cs ++ [s!"Code attribute {k}"]⟩) :
    ∃ (count : UInt16) (as : List AttributeInfo) (before t content : Bytes), s = u2 count ++ (before ++ t) ∧ as.length = k ∧ k < count.toNat ∧
      seq (AttrEnc o pool) as before ∧ AttrHead pool "Code".toList content t ∧ CodeTrail o pool content ⟨m, cs⟩ := by
  generalize hE : (⟨m, cs ++ [s!"Code attribute {k}"]⟩ : ParseError) = E at h
  cases h with
  | count _ hq => subst hE; have := hq.1; simp at this
  | @next count as before t _ hl hs hno hr =>
    cases hr with
    | name _ _ => exact absurd ((in_eq hE).1 ▸ code_names k) not_name_field
    | length _ _ hq => subst hE; have := hq.1; simp at this
    | cut _ _ hq => subst hE; have := hq.1; simp at this
    | mismatch _ _ _ _ => simp at hE
    | content _ _ hc _ hn _ => exact absurd (C55_names_differ hn ((in_eq hE).1 ▸ code_names k)).1 hc
    | code hh hr =>
      obtain ⟨h1, rfl⟩ := in_eq hE
      have hk := (C55_names_differ (code_names k) (h1 ▸ code_names as.length)).2
      exact ⟨count, as, before, t, _, rfl, hk.symm, by omega, hs, hh, hr⟩
    | record _ _ => exact absurd (C55_names_differ (code_names k) ((in_eq hE).1 ▸ record_names as.length)).1 (by decide)

theorem table_record {o : Opts} {pool : Pool} {s : Bytes} {m : String} {cs : List String} {k : Nat}
    (h : AttrsTrail o pool s ⟨m, cs ++ [s!"Record attribute {k}"]⟩) :
    ∃ (count : UInt16) (as : List AttributeInfo) (before t content : Bytes), s = u2 count ++ (before ++ t) ∧ as.length = k ∧ k < count.toNat ∧
      seq (AttrEnc o pool) as before ∧ AttrHead pool "Record".toList content t ∧ RecordTrail o pool content ⟨m, cs⟩ := by
  generalize hE : (⟨m, cs ++ [s!"Record attribute {k}"]⟩ : ParseError) = E at h
  cases h with
  | count _ hq => subst hE; have := hq.1; simp at this
  | @next count as before t _ hl hs hno hr =>
    cases hr with
    | name _ _ => exact absurd ((in_eq hE).1 ▸ record_names k) not_name_field
    | length _ _ hq => subst hE; have := hq.1; simp at this
    | cut _ _ hq => subst hE; have := hq.1; simp at this
    | mismatch _ _ _ _ => simp at hE
    | content _ _ _ hc hn _ => exact absurd (C55_names_differ hn ((in_eq hE).1 ▸ record_names k)).1 hc
    | record hh hr =>
      obtain ⟨h1, rfl⟩ := in_eq hE
      have hk := (C55_names_differ (record_names k) (h1 ▸ record_names as.length)).2
      exact ⟨count, as, before, t, _, rfl, hk.symm, by omega, hs, hh, hr⟩
    | code _ _ => exact absurd (C55_names_differ (record_names k) ((in_eq hE).1 ▸ code_names as.length)).1 (by decide)

/-- An error inside a Code attribute, for example of a method: the contexts say which attribute, that everything before the attributes of the
Code attribute is well formed, and what is left of the error leads to the first fault in these attributes. -/
theorem C55_inside_code {o : Opts} {bytes : Bytes} {m : String} {cs : List String} {pc : String} {p : Place} {k : Nat}
    (h : Rejects o bytes ⟨m, cs ++ ["code attribute", s!"Code attribute {k}", pc]⟩) (hp : p.isAttributes = true) (hc : p.context = some pc) :
    ∃ (pool : Pool) (count : UInt16) (as : List AttributeInfo) (before t head rest : Bytes)
      (x : UInt16 × UInt16 × Bytes × List ExceptionTableEntry), AttrsAt o p pool bytes (u2 count ++ (before ++ t)) ∧ as.length = k ∧
      k < count.toNat ∧ seq (AttrEnc o pool) as before ∧ AttrHead pool "Code".toList (head ++ rest) t ∧ CodeHead pool x head ∧
      AttrsTrail o pool rest ⟨m, cs⟩ := by
  obtain ⟨pool, s, ha, ht⟩ := trail_of (cs := cs ++ ["code attribute"] ++ [s!"Code attribute {k}"]) (by simpa using h) hp hc
  obtain ⟨count, as, before, t, content, rfl, hk, hl, hs, hh, ht⟩ := table_code ht
  generalize hE : (⟨m, cs ++ ["code attribute"]⟩ : ParseError) = E at ht
  cases ht with
  | cut _ hq => subst hE; have := hq.1; simp at this
  | catchType _ _ _ _ _ =>
    exfalso
    have h1 := congrArg String.toList (in_eq hE).1
    have ts : ∀ s : String, toString s = s := fun _ => rfl
    have h2 := congrArg (List.take 2) h1
    simp [String.toList_append, ts] at h2
  | attributes hx ht =>
    obtain ⟨-, rfl⟩ := in_eq hE
    exact ⟨pool, count, as, before, t, _, _, _, ha, hk, hl, hs, hh, hx, ht⟩
  | bytecode _ _ _ _ _ => exact absurd (in_eq hE).1 (by decide)

/-- The same with what the rest of the error is about. -/
theorem bytecode_trail {o : Opts} {bytes : Bytes} {m : String} {cs : List String} {pc : String} {p : Place} {k : Nat}
    (h : Rejects o bytes ⟨m, cs ++ ["bytecode", s!"Code attribute {k}", pc]⟩) (hp : p.isAttributes = true) (hc : p.context = some pc) :
    ∃ (pool : Pool) (count maxStack maxLocals : UInt16) (as inner : List AttributeInfo) (before t head mid rest code : Bytes)
      (es : List ExceptionTableEntry), AttrsAt o p pool bytes (u2 count ++ (before ++ t)) ∧ as.length = k ∧
      k < count.toNat ∧ seq (AttrEnc o pool) as before ∧ AttrHead pool "Code".toList (head ++ (mid ++ rest)) t ∧
      CodeHead pool (maxStack, maxLocals, code, es) head ∧ AttributesEnc o pool inner mid ∧ o.parseBytecode = true ∧
      (∀ bc, ¬ ByteCodeEnc o.checks pool bc code) ∧ BytecodeTrail o.checks pool code ⟨m, cs⟩ := by
  obtain ⟨pool, s, ha, ht⟩ := trail_of (cs := cs ++ ["bytecode"] ++ [s!"Code attribute {k}"]) (by simpa using h) hp hc
  obtain ⟨count, as, before, t, content, rfl, hk, hl, hs, hh, ht⟩ := table_code ht
  generalize hE : (⟨m, cs ++ ["bytecode"]⟩ : ParseError) = E at ht
  cases ht with
  | cut _ hq => subst hE; have := hq.1; simp at this
  | catchType _ _ _ _ _ =>
    exfalso
    have h1 := congrArg String.toList (in_eq hE).1
    have ts : ∀ s : String, toString s = s := fun _ => rfl
    have h2 := congrArg (List.take 2) h1
    simp [String.toList_append, ts] at h2
  | attributes hx ht => exact absurd (in_eq hE).1 (by decide)
  | bytecode hx ht hb hn hbt =>
    obtain ⟨-, rfl⟩ := in_eq hE
    exact ⟨pool, count, _, _, as, _, before, t, _, _, _, _, _, ha, hk, hl, hs, hh, hx, ht, hb, hn, hbt⟩

/-- An error with the contexts "bytecode" and "Code attribute K": everything else in that Code attribute is well formed, bytecode is parsed,
and the code is not a sequence of instructions. -/
theorem C55_bytecode {o : Opts} {bytes : Bytes} {m : String} {cs : List String} {pc : String} {p : Place} {k : Nat}
    (h : Rejects o bytes ⟨m, cs ++ ["bytecode", s!"Code attribute {k}", pc]⟩) (hp : p.isAttributes = true) (hc : p.context = some pc) :
    ∃ (pool : Pool) (count maxStack maxLocals : UInt16) (as inner : List AttributeInfo) (before t head mid rest code : Bytes)
      (es : List ExceptionTableEntry), AttrsAt o p pool bytes (u2 count ++ (before ++ t)) ∧ as.length = k ∧
      k < count.toNat ∧ seq (AttrEnc o pool) as before ∧ AttrHead pool "Code".toList (head ++ (mid ++ rest)) t ∧
      CodeHead pool (maxStack, maxLocals, code, es) head ∧ AttributesEnc o pool inner mid ∧ o.parseBytecode = true ∧
      ∀ bc, ¬ ByteCodeEnc o.checks pool bc code := by
  obtain ⟨pool, count, ms, ml, as, inner, before, t, head, mid, rest, code, es, h1, h2, h3, h4, h5, h6, h7, h8, h9, -⟩ := bytecode_trail h hp hc
  exact ⟨pool, count, ms, ml, as, inner, before, t, head, mid, rest, code, es, h1, h2, h3, h4, h5, h6, h7, h8, h9⟩

/-- An error inside component `j` of a Record attribute. -/
theorem C55_inside_record {o : Opts} {bytes : Bytes} {m : String} {cs : List String} {pc : String} {p : Place} {j k : Nat}
    (h : Rejects o bytes ⟨m, cs ++ [s!"entry {j}", s!"Record attribute {k}", pc]⟩) (hp : p.isAttributes = true) (hc : p.context = some pc) :
    ∃ (pool : Pool) (count size n d : UInt16) (as : List AttributeInfo) (rs : List RecordComponentEntry) (name : Str) (desc : FieldDescriptor)
      (before t sr rest : Bytes), AttrsAt o p pool bytes (u2 count ++ (before ++ t)) ∧ as.length = k ∧
      k < count.toNat ∧ seq (AttrEnc o pool) as before ∧
      AttrHead pool "Record".toList (u2 size ++ (sr ++ (u2 n ++ (u2 d ++ rest)))) t ∧ rs.length = j ∧ j < size.toNat ∧
      seq (ComponentEnc o pool) rs sr ∧ TextAt pool n.toNat name ∧ UnqualifiedName name ∧ FieldDescriptorAt pool d.toNat desc ∧
      AttrsTrail o pool rest ⟨m, cs⟩ := by
  obtain ⟨pool, s, ha, ht⟩ := trail_of (cs := cs ++ [s!"entry {j}"] ++ [s!"Record attribute {k}"]) (by simpa using h) hp hc
  obtain ⟨count, as, before, t, content, rfl, hk, hl, hs, hh, ht⟩ := table_record ht
  have ts : ∀ s : String, toString s = s := fun _ => rfl
  generalize hE : (⟨m, cs ++ [s!"entry {j}"]⟩ : ParseError) = E at ht
  cases ht with
  | count _ hq => subst hE; have := hq.1; simp at this
  | @next size rs sr u _ hl' hs' hno hr =>
    cases hr with
    | name _ _ =>
      exfalso
      have h1 := congrArg String.toList (in_eq hE).1
      have h2 := congrArg (List.take 2) h1
      simp [String.toList_append, ts] at h2
    | badName _ _ => simp at hE
    | descriptor _ _ _ _ =>
      exfalso
      have h1 := congrArg String.toList (in_eq hE).1
      have h2 := congrArg (List.take 2) h1
      simp [String.toList_append, ts] at h2
    | attributes hn hu hd ht =>
      obtain ⟨h1, rfl⟩ := in_eq hE
      have hj : j = rs.length := Nat.repr_injective (String.append_right_inj "entry " |>.mp h1)
      exact ⟨pool, count, size, _, _, as, rs, _, _, before, t, sr, _, ha, hk, hl, hs, hh, hj.symm, by omega, hs', hn, hu, hd, ht⟩

/-- An error whose only context is the place: the input ends too early there, or the declared length of an attribute is not the size of its
content; the message has its number, and it is the first attribute that cannot be read. -/
theorem C55_length {o : Opts} {bytes : Bytes} {m pc : String} {p : Place} (h : Rejects o bytes ⟨m, [pc]⟩) (hp : p.isAttributes = true)
    (hc : p.context = some pc) :
    SaysEnd m ∨ ∃ (k : Nat) (pool : Pool) (count i : UInt16) (n : UInt32) (as : List AttributeInfo) (name : Str) (d : AttributeData)
      (before s t : Bytes), m = s!"Length mismatch when reading attribute {k}" ∧
      AttrsAt o p pool bytes (u2 count ++ (before ++ (u2 i ++ (u4 n ++ (s ++ t))))) ∧ as.length = k ∧ k < count.toNat ∧
      seq (AttrEnc o pool) as before ∧ TextAt pool i.toNat name ∧ DataEnc o pool name d s ∧ s.length ≠ n.toNat := by
  obtain ⟨pool, s, ha, ht⟩ := trail_of (cs := []) h hp hc
  generalize hE : (⟨m, []⟩ : ParseError) = E at ht
  have no : ∀ {e : ParseError} {c : String}, (⟨m, []⟩ : ParseError) ≠ ParseErrorIn e c := by
    intro e c h
    have h := congrArg ParseError.contexts h
    simp [ParseErrorIn] at h
  cases ht with
  | count _ hq => subst hE; exact .inl hq.2
  | @next count as before t _ hl hs hno hr =>
    cases hr with
    | name _ _ => exact absurd hE no
    | length _ _ hq => subst hE; exact .inl hq.2
    | cut _ _ hq => subst hE; exact .inl hq.2
    | content _ _ _ _ _ _ => exact absurd hE no
    | code _ _ => exact absurd hE no
    | record _ _ => exact absurd hE no
    | mismatch hn hd hne hle =>
      cases hE
      exact .inr ⟨_, pool, count, _, _, as, _, _, before, _, _, rfl, ha, rfl, hl, hs, hn, hd, hne⟩

/-! ## Witnesses -/

/-- A method with a Code attribute whose second attribute is a LocalVariableTable that names a constant that is not a text. -/
def nestedFault : Bytes :=
  header 0 52 ++ u2 8 ++ text "A" ++ [7, 0, 1] ++ text "Code" ++ text "m" ++ text "()V" ++ text "LineNumberTable" ++ text "LocalVariableTable" ++
    [0, 0x21, 0, 2, 0, 0, 0, 0, 0, 0] ++ u2 1 ++ [0, 0x09, 0, 4, 0, 5] ++ u2 1 ++
    attr 3 (u2 1 ++ u2 1 ++ u4 1 ++ [0xb1] ++ u2 0 ++ u2 2 ++ attr 6 (u2 1 ++ [0, 0, 0, 9]) ++ attr 7 (u2 1 ++ [0, 0, 0, 1, 0, 2, 0, 5, 0, 0])) ++ u2 0

/-- A field whose second attribute, Exceptions, declares three bytes but has two. -/
def wrongLength : Bytes :=
  header 0 52 ++ u2 7 ++ text "A" ++ [7, 0, 1] ++ text "I" ++ text "x" ++ text "Synthetic" ++ text "Exceptions" ++ [0, 0x21, 0, 2, 0, 0, 0, 0] ++
    u2 1 ++ [0, 1, 0, 4, 0, 3] ++ u2 2 ++ attr 5 [] ++ attr 6 [0, 0, 0] ++ u2 0 ++ u2 0

/-- A record class whose second component has an attribute whose name is not a text. -/
def badComponent : Bytes :=
  header 0 60 ++ u2 6 ++ text "A" ++ [7, 0, 1] ++ text "I" ++ text "x" ++ text "Record" ++ [0, 0x21, 0, 2, 0, 0, 0, 0] ++ u2 0 ++ u2 0 ++
    u2 1 ++ attr 5 (u2 2 ++ [0, 4, 0, 3, 0, 0] ++ [0, 4, 0, 3, 0, 1, 0, 2, 0, 0, 0, 0])

def errorOf {α : Type} : Res α → Option (String × List String)
  | .err e => some (e.msg, e.contexts)
  | _ => none

theorem rejects_of {o : Opts} {d : Nat} {bytes : Bytes} {m : String} {cs : List String} (h : errorOf (run o d bytes) = some (m, cs)) :
    Rejects o bytes ⟨m, cs⟩ := by
  refine ⟨d, ?_⟩
  cases hr : run o d bytes with
  | ok cf => rw [hr] at h; cases h
  | err e => rw [hr] at h; cases h; rfl
  | panic k => rw [hr] at h; cases h
  | diverge => rw [hr] at h; cases h

/-- Errors inside a Code attribute, inside a Record attribute, of bytecode, and of an attribute of the wrong size. -/
theorem C55_witnesses :
    Rejects debug nestedFault ⟨"Unexpected constant pool reference type",
      ["name for variable 0", "LocalVariableTable attribute 1", "code attribute", "Code attribute 0", "class method 0"]⟩ ∧
    Rejects debug badComponent ⟨"Unexpected constant pool reference type", ["name field of attribute 0", "entry 1", "Record attribute 0", "class"]⟩ ∧
    Rejects release farJump ⟨"Invalid destination after applying jump", ["opcode at offset 2", "bytecode", "Code attribute 0", "class method 0"]⟩ ∧
    Rejects debug wrongLength ⟨"Length mismatch when reading attribute 1", ["class field 0"]⟩ :=
  ⟨rejects_of (d := 9) (by decide +kernel), rejects_of (d := 9) (by decide +kernel), rejects_of (d := 9) (by decide +kernel),
    rejects_of (d := 9) (by decide +kernel)⟩

end Cafebabe
