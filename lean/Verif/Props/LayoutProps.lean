import Verif.Proofs.LayoutUnique
import Verif.Props.TrailProps
/-!
# Properties: inside an attribute, an error is about the first part that is wrong (C69)
-/

namespace Cafebabe
open Spec Examples

/-! ## The specification makes sense -/

/-- The layouts describe exactly the contents that can be read (the formats of C24): the parts of the layout one after the other, nothing else. -/
theorem C69_layouts (o : Opts) {pool : Pool} {k : Nat} {title : String} {parts : List Part} (h : (title, parts) ∈ layouts pool k) (s : Bytes) :
    (∃ d, DataEnc o pool title.toList d s) ↔ AllFit pool parts s := parts_iff o h s

/-- All the predefined attributes but Code, Record and SourceDebugExtension have a layout. -/
theorem C69_all_covered (pool : Pool) (k : Nat) (name : Str) :
    (∃ title parts, name = title.toList ∧ (title, parts) ∈ layouts pool k) ↔
      name ∈ predefinedNames ∧ name ≠ "Code".toList ∧ name ≠ "Record".toList ∧ name ≠ "SourceDebugExtension".toList := by
  have h1 : (∃ title parts, name = title.toList ∧ (title, parts) ∈ layouts pool k) ↔ name ∈ ((layouts pool k).map Prod.fst).map String.toList := by
    constructor
    · rintro ⟨title, parts, rfl, h⟩
      exact List.mem_map_of_mem (List.mem_map_of_mem (f := Prod.fst) h)
    · intro h
      obtain ⟨title, ht, rfl⟩ := List.mem_map.mp h
      obtain ⟨⟨_, parts⟩, hp, rfl⟩ := List.mem_map.mp ht
      exact ⟨_, parts, rfl, hp⟩
  rw [h1, layouts_titles]
  constructor
  · intro h
    have : ∀ n ∈ (["ConstantValue", "StackMapTable", "Exceptions", "InnerClasses",
      "EnclosingMethod", "Synthetic", "Signature", "SourceFile", "LineNumberTable", "LocalVariableTable", "LocalVariableTypeTable", "Deprecated",
      "RuntimeVisibleAnnotations", "RuntimeInvisibleAnnotations", "RuntimeVisibleParameterAnnotations", "RuntimeInvisibleParameterAnnotations",
      "RuntimeVisibleTypeAnnotations", "RuntimeInvisibleTypeAnnotations", "AnnotationDefault", "BootstrapMethods", "MethodParameters", "Module",
      "ModulePackages", "ModuleMainClass", "NestHost", "NestMembers", "PermittedSubclasses"].map String.toList), n ∈ predefinedNames ∧
        n ≠ "Code".toList ∧ n ≠ "Record".toList ∧ n ≠ "SourceDebugExtension".toList := by decide +kernel
    exact this name h
  · rintro ⟨h, h2, h3, h4⟩
    have : ∀ n ∈ predefinedNames, n ≠ "Code".toList → n ≠ "Record".toList → n ≠ "SourceDebugExtension".toList →
      n ∈ (["ConstantValue", "StackMapTable", "Exceptions", "InnerClasses",
      "EnclosingMethod", "Synthetic", "Signature", "SourceFile", "LineNumberTable", "LocalVariableTable", "LocalVariableTypeTable", "Deprecated",
      "RuntimeVisibleAnnotations", "RuntimeInvisibleAnnotations", "RuntimeVisibleParameterAnnotations", "RuntimeInvisibleParameterAnnotations",
      "RuntimeVisibleTypeAnnotations", "RuntimeInvisibleTypeAnnotations", "AnnotationDefault", "BootstrapMethods", "MethodParameters", "Module",
      "ModulePackages", "ModuleMainClass", "NestHost", "NestMembers", "PermittedSubclasses"].map String.toList) := by decide +kernel
    exact this name h h2 h3 h4

/-- A first fault is a fault: no beginning of the bytes has the layout. -/
theorem C69_fault {pool : Pool} {parts : List Part} {t : Bytes} {e : ParseError} (h : FirstFault pool parts t e) (s rest : Bytes) (hs : t = s ++ rest) :
    ¬ AllFit pool parts s := fun hf => firstFault_not h hs hf

/-- What is faulty is not what it should be. -/
theorem C69_faulty {pool : Pool} {p : Part} {t : Bytes} {e : ParseError} (h : Faulty pool p t e) (s rest : Bytes) (hs : t = s ++ rest) :
    ¬ Fits pool p s := fun hf => faulty_not h hs hf

/-- A layout is unambiguous: it fixes where the parts end. -/
theorem C69_unambiguous {pool : Pool} {parts : List Part} {s s' r r' : Bytes} (h : AllFit pool parts s) (h' : AllFit pool parts s')
    (he : s ++ r = s' ++ r') : s = s' ∧ r = r' := by
  have := allFit_unique h h' he
  subst this
  exact ⟨rfl, List.append_cancel_left he⟩

/-! ## Errors -/

/-- The error in a table of attributes whose outermost context names attribute `k`, `name`: it is the first attribute that cannot be read, and
the error tells what is wrong in its content. -/
theorem C69_table {o : Opts} {pool : Pool} {s : Bytes} {m : String} {cs : List String} {c : String} {name : Str} {k : Nat}
    (h : AttrsTrail o pool s ⟨m, cs ++ [c]⟩) (hn : NamesAttr c name k) (h1 : name ≠ "Code".toList) (h2 : name ≠ "Record".toList) :
    ∃ (count i : UInt16) (n : UInt32) (as : List AttributeInfo) (before content : Bytes), s = u2 count ++ (before ++ (u2 i ++ (u4 n ++ content))) ∧
      as.length = k ∧ k < count.toNat ∧ seq (AttrEnc o pool) as before ∧ TextAt pool i.toNat name ∧ n.toNat ≤ content.length ∧
      ContentTrail o pool k name n.toNat content ⟨m, cs ++ [c]⟩ := by
  generalize hE : (⟨m, cs ++ [c]⟩ : ParseError) = E at h
  cases h with
  | count _ hq => subst hE; have := hq.1; simp at this
  | @next count as before t _ hl hs hno hr =>
    cases hr with
    | name _ _ => rw [(in_eq hE).1] at hn; exact absurd hn not_name_field
    | length _ _ hq => subst hE; have := hq.1; simp at this
    | cut _ _ hq => subst hE; have := hq.1; simp at this
    | mismatch _ _ _ _ => simp at hE
    | @content _ i n _ _ t _ hh hle _ _ hn' ht =>
      have hc := (in_eq hE).1
      subst hc
      obtain ⟨rfl, hk⟩ := C55_names_differ hn hn'
      subst hk
      exact ⟨count, i, n, as, before, t, rfl, rfl, hl, hs, hh, hle, ht⟩
    | code _ _ => rw [(in_eq hE).1] at hn; exact absurd (C55_names_differ hn (code_names _)).1 h1
    | record _ _ => rw [(in_eq hE).1] at hn; exact absurd (C55_names_differ hn (record_names _)).1 h2

/-- An error with the context of attribute `k`, `name`, of a field, a method or the class: everything before this attribute is well formed, and
the error is about the first part of its content that is wrong (`ContentTrail`). -/
theorem C69_content {o : Opts} {bytes : Bytes} {m : String} {cs : List String} {c pc : String} {p : Place} {name : Str} {k : Nat}
    (h : Rejects o bytes ⟨m, cs ++ [c, pc]⟩) (hp : p.isAttributes = true) (hc : p.context = some pc) (hn : NamesAttr c name k)
    (h1 : name ≠ "Code".toList) (h2 : name ≠ "Record".toList) :
    ∃ (pool : Pool) (count i : UInt16) (n : UInt32) (as : List AttributeInfo) (before content : Bytes),
      AttrsAt o p pool bytes (u2 count ++ (before ++ (u2 i ++ (u4 n ++ content)))) ∧ as.length = k ∧ k < count.toNat ∧
      seq (AttrEnc o pool) as before ∧ TextAt pool i.toNat name ∧ n.toNat ≤ content.length ∧
      ContentTrail o pool k name n.toNat content ⟨m, cs ++ [c]⟩ := by
  obtain ⟨pool, s, ha, ht⟩ := trail_of (cs := cs ++ [c]) (by simpa using h) hp hc
  obtain ⟨count, i, n, as, before, content, rfl, h3, h4, h5, h6, h7, h8⟩ := C69_table ht hn h1 h2
  exact ⟨pool, count, i, n, as, before, content, ha, h3, h4, h5, h6, h7, h8⟩

/-- The same for an attribute of a Code attribute. -/
theorem C69_in_code {o : Opts} {bytes : Bytes} {m : String} {cs : List String} {c pc : String} {p : Place} {name : Str} {k j : Nat}
    (h : Rejects o bytes ⟨m, cs ++ [c, "code attribute", s!"Code attribute {j}", pc]⟩) (hp : p.isAttributes = true) (hc : p.context = some pc)
    (hn : NamesAttr c name k) (h1 : name ≠ "Code".toList) (h2 : name ≠ "Record".toList) :
    ∃ (pool : Pool) (outer count i : UInt16) (n : UInt32) (as as' : List AttributeInfo) (before t head before' content : Bytes)
      (x : UInt16 × UInt16 × Bytes × List ExceptionTableEntry), AttrsAt o p pool bytes (u2 outer ++ (before ++ t)) ∧ as.length = j ∧
      j < outer.toNat ∧ seq (AttrEnc o pool) as before ∧
      AttrHead pool "Code".toList (head ++ (u2 count ++ (before' ++ (u2 i ++ (u4 n ++ content))))) t ∧ CodeHead pool x head ∧
      as'.length = k ∧ k < count.toNat ∧ seq (AttrEnc o pool) as' before' ∧ TextAt pool i.toNat name ∧ n.toNat ≤ content.length ∧
      ContentTrail o pool k name n.toNat content ⟨m, cs ++ [c]⟩ := by
  obtain ⟨pool, outer, as, before, t, head, rest, x, a1, a2, a3, a4, a5, a6, ht⟩ := C55_inside_code (cs := cs ++ [c]) (by simpa using h) hp hc
  obtain ⟨count, i, n, as', before', content, rfl, h3, h4, h5, h6, h7, h8⟩ := C69_table ht hn h1 h2
  exact ⟨pool, outer, count, i, n, as, as', before, t, head, before', content, x, a1, a2, a3, a4, a5, a6, h3, h4, h5, h6, h7, h8⟩

/-! ## Rows of tables -/

theorem rows_succ (n : Nat) (row : Nat → List Part) : rows (n + 1) row = rows n row ++ row n := by
  simp [rows, List.range_succ]

theorem firstFault_append {pool : Pool} {ps qs : List Part} {t : Bytes} {e : ParseError} (h : FirstFault pool (ps ++ qs) t e) :
    FirstFault pool ps t e ∨ ∃ a b, t = a ++ b ∧ AllFit pool ps a ∧ FirstFault pool qs b e := by
  generalize hl : ps ++ qs = l at h
  cases h with
  | @mk before after p s t e h1 h2 =>
    rcases List.append_eq_append_iff.mp hl with ⟨x, hx1, hx2⟩ | ⟨x, hx1, hx2⟩
    · subst hx1 hx2
      obtain ⟨a, b, rfl, ha, hb⟩ := allFit_split h1
      rw [List.append_assoc]
      exact .inr ⟨a, b ++ t, rfl, ha, .mk hb h2⟩
    · cases x with
      | nil =>
        simp only [List.append_nil, List.nil_append] at hx1 hx2
        subst hx1
        rw [← hx2]
        exact .inr ⟨s, t, rfl, h1, FirstFault.mk (before := []) .nil h2⟩
      | cons y x =>
        simp only [List.cons_append, List.cons.injEq] at hx2
        obtain ⟨rfl, -⟩ := hx2
        rw [hx1]
        exact .inl (.mk h1 h2)

/-- The fault in a table is in its first row that is wrong: all the rows before it are well formed. -/
theorem C69_rows {pool : Pool} {n : Nat} {row : Nat → List Part} {t : Bytes} {e : ParseError} (h : FirstFault pool (rows n row) t e) :
    ∃ (j : Nat) (a b : Bytes), j < n ∧ t = a ++ b ∧ AllFit pool (rows j row) a ∧ FirstFault pool (row j) b e := by
  induction n with
  | zero =>
    generalize hl : rows 0 row = l at h
    cases h with
    | @mk before after p s t e h1 h2 => simp [rows] at hl
  | succ n ih =>
    rw [rows_succ] at h
    rcases firstFault_append h with h | ⟨a, b, rfl, ha, hb⟩
    · obtain ⟨j, a, b, hj, rest⟩ := ih h
      exact ⟨j, a, b, by omega, rest⟩
    · exact ⟨n, a, b, by omega, rfl, ha, hb⟩

theorem firstFault_single {pool : Pool} {p : Part} {t : Bytes} {e : ParseError} (h : FirstFault pool [p] t e) : Faulty pool p t e := by
  generalize hl : [p] = l at h
  cases h with
  | @mk before after q s t e h1 h2 =>
    cases before with
    | nil =>
      cases h1
      cases hl
      exact h2
    | cons x xs => simp at hl

theorem allFit_within {pool : Pool} {n : Nat} {ctx : Nat → String} {ps : List Part} {a : Bytes}
    (h : AllFit pool (rows n fun j => [.within (ctx j) ps]) a) : ∃ l : List Bytes, l.length = n ∧ l.flatten = a ∧ ∀ x ∈ l, AllFit pool ps x := by
  induction n generalizing a with
  | zero => cases h; exact ⟨[], rfl, rfl, nofun⟩
  | succ n ih =>
    rw [rows_succ] at h
    obtain ⟨x, y, rfl, hx, hy⟩ := allFit_split h
    obtain ⟨l, rfl, rfl, hl⟩ := ih hx
    cases allFit_single hy with
    | within hy =>
      refine ⟨l ++ [y], by simp, by simp, fun z hz => ?_⟩
      rcases List.mem_append.mp hz with hz | hz
      · exact hl z hz
      · obtain rfl := List.mem_singleton.mp hz
        exact hy

/-- In a table whose rows are in contexts of their own, the context gives the number of the row: it is the first one that is wrong. -/
theorem C69_row_number {o : Opts} {pool : Pool} {k n j : Nat} {title c pre m : String} {ps : List Part} {cs : List String} {t : Bytes}
    (hl : (title, [.within c [.table2 fun i => [.within (pre ++ toString i) ps]]]) ∈ layouts pool k)
    (h : ContentTrail o pool k title.toList n t ⟨m, cs ++ [pre ++ toString j, c]⟩) :
    ∃ (count : UInt16) (rows : List Bytes) (rest : Bytes), t = u2 count ++ (rows.flatten ++ rest) ∧ rows.length = j ∧ j < count.toNat ∧
      (∀ row ∈ rows, AllFit pool ps row) ∧ FirstFault pool ps rest ⟨m, cs⟩ := by
  generalize hE : (⟨m, cs ++ [pre ++ toString j, c]⟩ : ParseError) = E at h
  cases h with
  | wrongLength _ _ _ =>
    have := congrArg (fun e : ParseError => e.contexts.length) hE
    simp at this
  | debugExtension _ _ =>
    have := congrArg (fun e : ParseError => e.contexts.length) hE
    simp at this
  | @part title' parts' _ ht _ hm hf =>
    have := String.toList_inj.mp ht
    subst this
    rw [← layouts_unique hl hm] at hf
    cases firstFault_single hf with
    | @within _ _ _ e1 hg =>
      have h1 := (in_eq (cs := cs ++ [pre ++ toString j]) (e := e1) (c := c) (c' := c) (by simpa [ParseErrorIn] using hE)).2
      subst h1
      generalize hE1 : (⟨m, cs ++ [pre ++ toString j]⟩ : ParseError) = E1 at hg
      cases firstFault_single hg with
      | noCount2 _ hc => obtain ⟨ix, rfl⟩ := hc; simp at hE1
      | @table2 _ count t _ hr =>
        obtain ⟨j', a, b, hj, rfl, ha, hb⟩ := C69_rows hr
        cases firstFault_single hb with
        | @within _ _ _ e2 hd =>
          obtain ⟨h2, h3⟩ := in_eq (e := e2) (show (⟨m, cs ++ [pre ++ toString j]⟩ : ParseError) = ParseErrorIn e2 (pre ++ toString j') from hE1)
          subst h3
          have hjj : j = j' := Nat.repr_injective ((String.append_right_inj pre).mp h2)
          subst hjj
          obtain ⟨l, hl1, rfl, hl2⟩ := allFit_within ha
          exact ⟨count, l, b, rfl, hl1, hj, hl2, hd⟩

/-- For example: "exception J" in an Exceptions attribute. The exceptions before number `j` are the indices of classes, and number `j` is cut off
or is not the index of a class, and the message is about it. -/
theorem C69_exception {o : Opts} {bytes : Bytes} {m pc : String} {p : Place} {j k : Nat}
    (h : Rejects o bytes ⟨m, [s!"exception {j}", s!"Exceptions attribute {k}", pc]⟩) (hp : p.isAttributes = true) (hc : p.context = some pc) :
    ∃ (pool : Pool) (outer i count : UInt16) (n : UInt32) (as : List AttributeInfo) (before t : Bytes) (l : List UInt16),
      AttrsAt o p pool bytes (u2 outer ++ (before ++ (u2 i ++ (u4 n ++ (u2 count ++ ((l.map u2).flatten ++ t)))))) ∧ as.length = k ∧ k < outer.toNat ∧
      seq (AttrEnc o pool) as before ∧ TextAt pool i.toNat "Exceptions".toList ∧
      (∀ x ∈ l, ∃ c, ClassAt pool x.toNat c) ∧ l.length = j ∧ j < count.toNat ∧
      ((t.length < 2 ∧ CutOff "u2" ⟨m, []⟩) ∨
        ∃ (x : UInt16) (rest : Bytes), t = u2 x ++ rest ∧ (∀ c, ¬ ClassAt pool x.toNat c) ∧ ConstantSays pool x.toNat ⟨m, []⟩) := by
  have ts : ∀ s : String, toString s = s := fun _ => rfl
  obtain ⟨pool, outer, i, n, as, before, content, h1, h2, h3, h4, h5, h6, ht⟩ := C69_content (cs := [s!"exception {j}"]) (name := "Exceptions".toList)
    (k := k) h hp hc ⟨by decide, "", by decide, by simp [String.toList_append, ts]⟩ (by decide) (by decide)
  have ec : s!"Exceptions attribute {k}" = "Exceptions" ++ " attribute " ++ toString k := (title_ctx (title := "Exceptions") (by decide) k).symm
  have hl : ("Exceptions", [.within s!"Exceptions attribute {k}" [.table2 fun i => [.within ("exception " ++ toString i) [classIx pool]]]]) ∈ layouts pool k := by
    rw [ec]
    simp [layouts, ts]
  obtain ⟨count, l, rest, rfl, hl1, hl2, hl3, hf⟩ := C69_row_number (cs := []) (m := m) (j := j) hl ht
  have hix : ∀ row ∈ l, ∃ x : UInt16, row = u2 x ∧ ∃ c, ClassAt pool x.toNat c := by
    intro row hrow
    cases allFit_single (hl3 row hrow) with
    | constant hx => exact ⟨_, rfl, hx⟩
  obtain ⟨l', rfl, hl'⟩ : ∃ l' : List UInt16, l = l'.map u2 ∧ ∀ x ∈ l', ∃ c, ClassAt pool x.toNat c := by
    clear hl1 hl3 hl2 h1 ht h6
    induction l with
    | nil => exact ⟨[], rfl, nofun⟩
    | cons row l ih =>
      obtain ⟨l', rfl, hl'⟩ := ih fun r hr => hix r (List.mem_cons_of_mem _ hr)
      obtain ⟨x, rfl, hx⟩ := hix row List.mem_cons_self
      exact ⟨x :: l', rfl, fun y hy => (List.mem_cons.mp hy).elim (fun h => h ▸ hx) (hl' y)⟩
  refine ⟨pool, outer, i, count, n, as, before, rest, l', h1, h2, h3, h4, h5, hl', by simpa using hl1, hl2, ?_⟩
  cases firstFault_single hf with
  | noIndex h7 h8 => exact .inl ⟨h7, h8⟩
  | constant h7 h8 => exact .inr ⟨_, _, rfl, fun c hc => h7 ⟨c, hc⟩, h8⟩

/-! ## Witnesses -/

/-- A class with a method `m()V` that has one attribute, of this name and content, in a class file with two more constants: the class A is number
2, the texts "I" and "LA;" are number 6 and 7. -/
def withAttribute (name : String) (content : Bytes) : Bytes :=
  header 0 52 ++ u2 8 ++ text "A" ++ [7, 0, 1] ++ text name ++ text "m" ++ text "()V" ++ text "I" ++ text "LA;" ++
    [0, 0x21, 0, 2, 0, 0, 0, 0, 0, 0] ++ u2 1 ++ [0, 0x09, 0, 4, 0, 5] ++ u2 1 ++ attr 3 content ++ u2 0

/-- Errors in the third exception of four; of a wrong declared length; in the value of the second element of the second annotation, in an array, at
index 1; in the flags of the second method parameter; in an unknown kind of frame; in the second frame, the second entry of the stack. -/
theorem C69_witnesses :
    Rejects debug (withAttribute "Exceptions" (u2 4 ++ [0, 2, 0, 2, 0, 3, 0, 2]))
      ⟨"Unexpected constant pool reference type", ["exception 2", "Exceptions attribute 0", "class method 0"]⟩ ∧
    Rejects debug (withAttribute "NestHost" [0, 2, 0]) ⟨"Unexpected length 3", ["NestHost attribute 0", "class method 0"]⟩ ∧
    Rejects debug (withAttribute "RuntimeVisibleAnnotations" (u2 2 ++ [0, 7, 0, 0] ++ [0, 6, 0, 2, 0, 4, 0x73, 0, 4, 0, 3, 0x5b, 0, 2, 0x73, 0, 1, 0x49, 0, 1]))
      ⟨"Unexpected constant pool reference type",
        ["array index 1", "value of element 1", "annotation 1", "RuntimeVisibleAnnotations attribute 0", "class method 0"]⟩ ∧
    Rejects debug (withAttribute "MethodParameters" ([2] ++ [0, 4, 0, 0x10] ++ [0, 0, 0, 1]))
      ⟨"Invalid access flags found", ["method parameter 1", "MethodParameters attribute 0", "class method 0"]⟩ ∧
    Rejects debug (withAttribute "StackMapTable" (u2 2 ++ [3, 200])) ⟨"Unrecognized discriminant 200", ["stack map entry 1", "StackMapTable attribute 0", "class method 0"]⟩ ∧
    Rejects debug (withAttribute "StackMapTable" (u2 2 ++ [3] ++ [255, 0, 0, 0, 0, 0, 2, 1, 9]))
      ⟨"Unrecognized verification type 9", ["stack entry 1 of full-frame stack map entry 1", "StackMapTable attribute 0", "class method 0"]⟩ :=
  ⟨rejects_of (d := 9) (by decide +kernel), rejects_of (d := 9) (by decide +kernel), rejects_of (d := 9) (by decide +kernel),
    rejects_of (d := 9) (by decide +kernel), rejects_of (d := 9) (by decide +kernel), rejects_of (d := 9) (by decide +kernel)⟩

/-- While these contents can be read. -/
theorem C69_readable :
    (∃ cf, Accepts debug (withAttribute "Exceptions" (u2 2 ++ [0, 2, 0, 2])) cf) ∧
    ∃ cf, Accepts debug (withAttribute "StackMapTable" (u2 2 ++ [3] ++ [255, 0, 0, 0, 0, 0, 2, 1, 5])) cf := by
  have of : ∀ {b : Bytes}, (match run debug 9 b with | .ok _ => true | _ => false) = true → ∃ cf, Accepts debug b cf := by
    intro b h
    cases hr : run debug 9 b with
    | ok cf => exact ⟨cf, 9, hr⟩
    | err e => rw [hr] at h; cases h
    | panic k => rw [hr] at h; cases h
    | diverge => rw [hr] at h; cases h
  exact ⟨of (by decide +kernel), of (by decide +kernel)⟩

/-- What C69 says about the first of them: two classes, then constant 3, which is a text. -/
example : ∃ (pool : Pool) (count : UInt16) (t : Bytes) (l : List UInt16), (∀ x ∈ l, ∃ c, ClassAt pool x.toNat c) ∧ l.length = 2 ∧ 2 < count.toNat ∧
    ((t.length < 2 ∧ CutOff "u2" ⟨"Unexpected constant pool reference type", []⟩) ∨ ∃ (x : UInt16) (rest : Bytes), t = u2 x ++ rest ∧
      ∀ c, ¬ ClassAt pool x.toNat c) := by
  have h := C69_witnesses.1
  have hs : "exception 2" = s!"exception {2}" := by decide +kernel
  have hs' : "Exceptions attribute 0" = s!"Exceptions attribute {0}" := by decide +kernel
  rw [hs, hs'] at h
  obtain ⟨pool, -, -, count, -, -, -, t, l, -, -, -, -, -, h1, h2, h3, h4⟩ := C69_exception (p := .method 0) h rfl (by decide +kernel)
  exact ⟨pool, count, t, l, h1, h2, h3, h4.imp id fun ⟨x, rest, h5, h6, _⟩ => ⟨x, rest, h5, h6⟩⟩

/-- The message does not always have the right words: a bad name of a method parameter is called a name for a variable, without the context of the
parameter, and the fault in a SourceFile attribute is in its "signature field". -/
theorem C69_words :
    Rejects debug (withAttribute "MethodParameters" ([1] ++ [0, 7, 0, 0]))
      ⟨"Invalid unqualified name for variable 0", ["MethodParameters attribute 0", "class method 0"]⟩ ∧
    Rejects debug (withAttribute "SourceFile" [0, 2])
      ⟨"Unexpected constant pool reference type", ["signature field of SourceFile attribute 0", "class method 0"]⟩ :=
  ⟨rejects_of (d := 9) (by decide +kernel), rejects_of (d := 9) (by decide +kernel)⟩

end Cafebabe
