import Verif.Spec.Code
import Verif.Props.AttrProps
/-!
# Properties of Code attributes and bytecode: C28 - C32, C43
-/

namespace Cafebabe
open Spec Examples

/-! ## C43 Code attribute decodes exactly -/

theorem catch_iff {major : UInt16} {pool : Pool} (hg : GoodPool major pool) (k : UInt16) (e : ExceptionTableEntry) :
    OptAt ClassAt pool k.toNat e.catchType ↔ CatchAt pool k e := by
  unfold CatchAt OptAt
  cases hc : e.catchType with
  | none =>
    constructor
    · intro h; exact .inl ⟨rfl, UInt16.toNat_inj.mp (hg.zero _ h)⟩
    · rintro (⟨-, rfl⟩ | ⟨c, h, -⟩)
      · exact hg.first
      · cases h
  | some c =>
    constructor
    · intro h
      refine .inr ⟨c, rfl, ?_, h⟩
      rintro rfl
      obtain ⟨x, hx, -⟩ := h
      rw [show (0 : UInt16).toNat = 0 from rfl, hg.first] at hx
      cases hx
    · rintro (⟨h, -⟩ | ⟨c', h, -, hc'⟩)
      · cases h
      · cases h; exact hc'

theorem exceptions_iff {major : UInt16} {pool : Pool} (hg : GoodPool major pool) : ∀ (es : List ExceptionTableEntry) (seg : Bytes),
    seq (ExceptionEnc pool) es seg ↔ ∃ ks : List UInt16, seg = (List.zipWith exceptionRow es ks).flatten ∧ ks.length = es.length ∧
      ∀ (j : Nat) (k : UInt16) (e : ExceptionTableEntry), ks[j]? = some k → es[j]? = some e → CatchAt pool k e
  | [], seg => by
    constructor
    · rintro rfl; exact ⟨[], rfl, rfl, by simp⟩
    · rintro ⟨ks, rfl, hl, -⟩; rfl
  | e :: es, seg => by
    constructor
    · rintro ⟨_, t, rfl, ⟨_, _, rfl, rfl, _, _, rfl, rfl, _, _, rfl, rfl, k, hk, rfl⟩, ht⟩
      obtain ⟨ks, rfl, hl, hks⟩ := (exceptions_iff hg es t).mp ht
      refine ⟨k :: ks, by simp [exceptionRow], by simp [hl], ?_⟩
      intro j k' e' h1 h2
      cases j with
      | zero => cases h1; cases h2; exact (catch_iff hg _ _).mp hk
      | succ j => exact hks j k' e' (by simpa using h1) (by simpa using h2)
    · rintro ⟨ks, rfl, hl, hks⟩
      cases ks with
      | nil => simp at hl
      | cons k ks =>
        refine ⟨exceptionRow e k, (List.zipWith exceptionRow es ks).flatten, by simp, ?_, (exceptions_iff hg es _).mpr ⟨ks, rfl, by simpa using hl,
          fun j k' e' h1 h2 => hks (j + 1) k' e' (by simpa using h1) (by simpa using h2)⟩⟩
        exact ⟨_, _, by simp only [exceptionRow, List.append_assoc], rfl, _, _, rfl, rfl, _, _, rfl, rfl, k, (catch_iff hg _ _).mpr (hks 0 k e rfl rfl), rfl⟩

theorem layout_iff {major : UInt16} {o : Opts} {pool : Pool} (hg : GoodPool major pool) (c : CodeData) (body : Bytes) :
    CodeEnc o pool c body ↔ ∃ ks nested, CodeLayout o pool c ks nested body := by
  rw [codeEnc_eq]
  constructor
  · rintro ⟨hb, _, _, rfl, rfl, _, _, rfl, rfl, _, _, rfl, ⟨n, _, hn, rfl, rfl⟩, _, _, rfl, ⟨ne, hne, _, s, rfl, rfl, hs⟩, na, hna, _, t, rfl, rfl, ht⟩
    obtain ⟨ks, rfl, hl, hks⟩ := (exceptions_iff hg _ _).mp hs
    obtain ⟨nested, rfl, hr⟩ := seq_rows.mp ht
    refine ⟨ks, nested, n, ne, na, by simp, hn, hne, hna, hl, hks, hr, ?_⟩
    unfold BytecodeField at hb
    cases hbc : c.bytecode with
    | none => rw [hbc] at hb; exact .inl ⟨rfl, hb⟩
    | some bc => rw [hbc] at hb; exact .inr ⟨bc, rfl, hb⟩
  · rintro ⟨ks, nested, n, ne, na, rfl, hn, hne, hna, hl, hks, hr, hb⟩
    refine ⟨?_, u2 c.maxStack, u2 c.maxLocals ++ (u4 n ++ c.code ++ (u2 ne ++ (List.zipWith exceptionRow c.exceptionTable ks).flatten ++ (u2 na ++ nested.flatten))),
      by simp only [List.append_assoc], rfl, _, _, rfl, rfl, u4 n ++ c.code, u2 ne ++ (List.zipWith exceptionRow c.exceptionTable ks).flatten ++ (u2 na ++ nested.flatten),
      rfl, ⟨n, _, hn, rfl, rfl⟩, u2 ne ++ (List.zipWith exceptionRow c.exceptionTable ks).flatten, u2 na ++ nested.flatten, rfl,
      ⟨ne, hne, _, _, rfl, rfl, (exceptions_iff hg _ _).mpr ⟨ks, rfl, hl, hks⟩⟩,
      na, hna, _, _, rfl, rfl, seq_rows.mpr ⟨nested, rfl, hr⟩⟩
    rcases hb with ⟨h1, h2⟩ | ⟨bc, h1, h2⟩
    · rw [h1]; exact h2
    · rw [h1]; exact h2

/-- Every Code attribute of an accepted file, at any depth, has the documented layout: `CodeData.code` is the encoded code slice, each
catch type is `None` exactly for index 0, and the bytecode is there exactly when it was asked for. -/
theorem C43_decoded {o : Opts} {bytes : Bytes} {cf : ClassFile} (h : Accepts o bytes cf) {name : Str} {c : CodeData}
    (ha : AttrOf cf ⟨name, .code c⟩) :
    name = "Code".toList ∧ (c.bytecode.isSome = true ↔ o.parseBytecode = true) ∧
    ∃ (pre body post : Bytes) (i : UInt16) (n : UInt32) (ks : List UInt16) (nested : List Bytes),
      bytes = pre ++ (u2 i ++ u4 n ++ body) ++ post ∧ OpenFile o cf.constantPool pre ∧ n.toNat = body.length ∧
      TextAt cf.constantPool i.toNat "Code".toList ∧ CodeLayout o cf.constantPool c ks nested body := by
  obtain ⟨pre, body, post, i, n, hb, hop, hi, hn, hd⟩ := C22_exact_length h ha
  rw [DataEnc] at hd
  obtain ⟨hname, hd⟩ := hd
  obtain ⟨ks, nested, hl⟩ := (layout_iff (goodPool_of_accepts h) c body).mp hd
  refine ⟨hname, ?_, pre, body, post, i, n, ks, nested, hb, hop, hn.symm, ?_, hl⟩
  · obtain ⟨_, _, _, -, -, -, -, -, -, -, h | ⟨bc, h⟩⟩ := hl
    · rw [h.1, h.2]; simp
    · rw [h.1, h.2.1]; simp
  · rw [← hname]; exact hi

/-- Conversely, any content with that layout is accepted in the place of the content of a Code attribute, and returned as is. -/
theorem C43_accepted {o : Opts} {bytes : Bytes} {cf cf' : ClassFile} (h : Accepts o bytes cf) {name : Str} {c c' : CodeData}
    (hr : ReplaceOf ⟨name, .code c⟩ ⟨"Code".toList, .code c'⟩ cf cf') :
    ∃ (pre body post : Bytes) (i : UInt16) (n : UInt32), bytes = pre ++ (u2 i ++ u4 n ++ body) ++ post ∧ n.toNat = body.length ∧
      (∃ ks nested, CodeLayout o cf.constantPool c ks nested body) ∧
      ∀ (body' : Bytes) (ks : List UInt16) (nested : List Bytes), body'.length = body.length →
        CodeLayout o cf.constantPool c' ks nested body' → Accepts o (pre ++ (u2 i ++ u4 n ++ body') ++ post) cf' := by
  obtain ⟨pre, body, post, i, n, hb, hi, hn, hd, hacc⟩ := C24_accepted h hr (fun _ h => by cases h) (fun _ h => by cases h)
  rw [DataEnc] at hd
  obtain ⟨hname, hd⟩ := hd
  refine ⟨pre, body, post, i, n, hb, hn, (layout_iff (goodPool_of_accepts h) c body).mp hd, fun body' ks nested hl hlay => hacc i body' ?_ hl ?_⟩
  · rw [hname] at hi; exact hi
  · rw [DataEnc]; exact ⟨rfl, (layout_iff (goodPool_of_accepts h) c' body').mpr ⟨ks, nested, hlay⟩⟩

/-- Content of the declared length without that layout is refused, whatever follows. -/
theorem C43_refused {o : Opts} {bytes : Bytes} {cf : ClassFile} (h : Accepts o bytes cf) {pre body rest : Bytes} {i : UInt16} {n : UInt32}
    (hop : OpenFile o cf.constantPool pre) (hi : TextAt cf.constantPool i.toNat "Code".toList) (hl : body.length = n.toNat)
    (hno : ∀ c ks nested, ¬ CodeLayout o cf.constantPool c ks nested body) : Refused o (pre ++ (u2 i ++ u4 n ++ body ++ rest)) := by
  refine C24_refused hop hi hl fun d hd => ?_
  obtain ⟨c, -, hc⟩ := dataEnc_of_code rfl hd
  obtain ⟨ks, nested, hlay⟩ := (layout_iff (goodPool_of_accepts h) c body).mp hc
  exact hno c ks nested hlay

/-- A code length that leaves no room in the attribute is refused, also if the file goes on for that long. -/
theorem C43_code_too_long_refused {o : Opts} {pool : Pool} {pre rest : Bytes} {i maxStack maxLocals : UInt16} {n len : UInt32}
    (hop : OpenFile o pool pre) (hi : TextAt pool i.toNat "Code".toList) (hl : n.toNat < len.toNat + 12) :
    Refused o (pre ++ (u2 i ++ u4 n ++ (u2 maxStack ++ u2 maxLocals ++ u4 len ++ rest))) := by
  refine refused_of_noAttr hop fun x t r he hx => ?_
  obtain ⟨-, b, hb, hw, hd'⟩ := attrEnc_split hx (r := u2 maxStack ++ u2 maxLocals ++ u4 len ++ rest) (t := r) (by simpa using he) hi
  obtain ⟨c, -, hc⟩ := dataEnc_of_code rfl hd'
  rw [codeEnc_eq] at hc
  obtain ⟨-, _, _, rfl, rfl, _, _, rfl, rfl, _, _, rfl, ⟨m, _, hm, rfl, rfl⟩, _, _, rfl, ⟨ne, hne, _, s, rfl, rfl, hs⟩, na, hna, _, t, rfl, rfl, ht⟩ := hc
  obtain ⟨rfl, h1⟩ := u2_split (a := maxStack) (b := c.maxStack) (r := u2 maxLocals ++ (u4 len ++ rest)) (r' := u2 c.maxLocals ++ (u4 m ++ c.code ++ (u2 ne ++ s ++ (u2 na ++ t))) ++ r)
    (by simpa using hw)
  obtain ⟨rfl, h2⟩ := u2_split (a := maxLocals) (b := c.maxLocals) (r := u4 len ++ rest) (r' := u4 m ++ c.code ++ (u2 ne ++ s ++ (u2 na ++ t)) ++ r)
    (by simpa using h1)
  obtain ⟨rfl, h3⟩ := u4_split (a := len) (b := m) (r := rest) (r' := c.code ++ (u2 ne ++ s ++ (u2 na ++ t)) ++ r) (by simpa using h2)
  simp [u2_length, u4_length] at hb
  omega

/-- The Code attribute of `rich`: its content can be overwritten. -/
example : ∃ (name : Str) (c c' : CodeData) (cf' : ClassFile) (body' : Bytes) (ks : List UInt16) (nested : List Bytes),
    Accepts debug rich richCf ∧ AttrOf richCf ⟨name, .code c⟩ ∧ c'.maxStack = c.maxStack + 1 ∧ ks.length = 1 ∧ nested.length = 3 ∧
    ReplaceOf ⟨name, .code c⟩ ⟨"Code".toList, .code c'⟩ richCf cf' ∧ CodeLayout debug richCf.constantPool c' ks nested body' := by
  obtain ⟨c, bc, ⟨name, ha⟩, -, -, -, h1, h2⟩ := rich_code
  obtain ⟨-, -, pre, body, post, i, n, ks, nested, -, -, -, -, m, ne, na, -, g1, g2, g3, g4, g5, g6, g7⟩ := C43_decoded rich_accepted ha
  obtain ⟨cf', hr⟩ := replaceOf_exists ⟨"Code".toList, .code { c with maxStack := c.maxStack + 1 }⟩ ha
  exact ⟨name, c, _, cf', _, ks, nested, rich_accepted, ha, rfl, by rw [g4, h1], by rw [g6.1, h2], hr, m, ne, na, rfl, g1, g2, g3, g4, g5, g6, g7⟩

/-- A file cut off before a Code attribute; an empty content has not the layout of one. -/
theorem full_open_code : ∃ (pre : Bytes) (i : UInt16), OpenFile debug fullCf.constantPool pre ∧ TextAt fullCf.constantPool i.toNat "Code".toList := by
  obtain ⟨pre, body, i, ⟨name, d⟩, hop, hi, hk, hd⟩ := full_open .code
  have hn : name = "Code".toList := by
    cases d <;> try (cases hk; done)
    rw [DataEnc] at hd; exact hd.1
  subst hn
  exact ⟨pre, i, hop, hi⟩

example : ∃ (pre body : Bytes) (i : UInt16) (n : UInt32), Accepts debug full fullCf ∧ OpenFile debug fullCf.constantPool pre ∧
    TextAt fullCf.constantPool i.toNat "Code".toList ∧ body.length = n.toNat ∧ ∀ c ks nested, ¬ CodeLayout debug fullCf.constantPool c ks nested body := by
  obtain ⟨pre, i, h1, h2⟩ := full_open_code
  refine ⟨pre, [], i, 0, full_accepted, h1, h2, rfl, ?_⟩
  rintro c ks nested ⟨n, ne, na, h, -⟩
  have := congrArg List.length h
  simp [u2_length] at this
  omega

/-! ## C28 Opcode offsets partition the code array -/

theorem insnsEnc_segs {checks : Bool} {pool : Pool} {pos : Nat} {ops : List (Nat × Opcode)} {code : Bytes} (h : InsnsEnc checks pool pos ops code) :
    ∃ segs : List Bytes, code = segs.flatten ∧ segs.length = ops.length ∧
      ∀ (i : Nat) (seg : Bytes), segs[i]? = some seg →
        ∃ op, ops[i]? = some (pos + (segs.take i).flatten.length, op) ∧ InsnEnc checks pool (pos + (segs.take i).flatten.length) op seg := by
  induction h with
  | nil pos => exact ⟨[], rfl, rfl, by simp⟩
  | @cons pos op ops s t hi ht ih =>
    obtain ⟨segs, rfl, hl, hs⟩ := ih
    refine ⟨s :: segs, by simp, by simp [hl], ?_⟩
    intro i seg hseg
    cases i with
    | zero => cases hseg; exact ⟨op, by simp, by simpa using hi⟩
    | succ i =>
      obtain ⟨op', h1, h2⟩ := hs i seg (by simpa using hseg)
      refine ⟨op', ?_, ?_⟩
      · simp only [List.getElem?_cons_succ, h1, List.take_succ_cons, List.flatten_cons, List.length_append, Nat.add_assoc]
      · simpa [Nat.add_assoc] using h2

/-- The code array is the concatenation of the encodings of the instructions, in order, none of them empty, each listed with the total length
of those before it as its offset: the first is at 0, nothing is skipped or decoded twice, and the last one ends at the end of the array. -/
theorem C28_partition {o : Opts} {bytes : Bytes} {cf : ClassFile} (h : Accepts o bytes cf) {c : CodeData} (hc : CodeOf cf c) {bc : ByteCode}
    (hb : c.bytecode = some bc) :
    ∃ segs : List Bytes, c.code = segs.flatten ∧ segs.length = bc.opcodes.length ∧
      ∀ (i : Nat) (seg : Bytes), segs[i]? = some seg →
        seg ≠ [] ∧ ∃ op, bc.opcodes[i]? = some ((segs.take i).flatten.length, op) ∧
          InsnEnc o.checks cf.constantPool (segs.take i).flatten.length op seg := by
  obtain ⟨s, hs, -⟩ := codeOf_enc (accepts_iff_enc.mp h) hc
  rw [codeEnc_eq] at hs
  have hbc := hs.1
  rw [hb] at hbc
  obtain ⟨segs, h1, h2, h3⟩ := insnsEnc_segs hbc.2.1
  refine ⟨segs, h1, h2, fun i seg hi => ?_⟩
  obtain ⟨op, h4, h5⟩ := h3 i seg hi
  rw [Nat.zero_add] at h4 h5
  exact ⟨insnEnc_ne_nil h5, op, h4, h5⟩

theorem code_bytecode {o : Opts} {bytes : Bytes} {cf : ClassFile} (h : Accepts o bytes cf) {c : CodeData} (hc : CodeOf cf c) {bc : ByteCode}
    (hb : c.bytecode = some bc) : ByteCodeEnc o.checks cf.constantPool bc c.code := by
  obtain ⟨s, hs, -⟩ := codeOf_enc (accepts_iff_enc.mp h) hc
  rw [codeEnc_eq] at hs
  have hbc := hs.1
  rw [hb] at hbc
  exact hbc.2

/-- The same by offsets: the list is empty only for an empty code array, the first offset is 0, offsets strictly increase, and the bytes from
each offset to the next (or to the end) are the encoding of the instruction listed there. -/
theorem C28_offsets {o : Opts} {bytes : Bytes} {cf : ClassFile} (h : Accepts o bytes cf) {c : CodeData} (hc : CodeOf cf c) {bc : ByteCode}
    (hb : c.bytecode = some bc) :
    (bc.opcodes = [] ↔ c.code = []) ∧ (∀ off op, bc.opcodes[0]? = some (off, op) → off = 0) ∧
      ∀ (i off : Nat) (op : Opcode), bc.opcodes[i]? = some (off, op) →
        off < endOf bc.opcodes c.code.length i ∧ endOf bc.opcodes c.code.length i ≤ c.code.length ∧
        InsnEnc o.checks cf.constantPool off op (slice c.code off (endOf bc.opcodes c.code.length i)) := by
  obtain ⟨segs, h1, h2, h3⟩ := C28_partition h hc hb
  refine ⟨⟨fun he => ?_, fun he => ?_⟩, fun off op h0 => ?_, fun i off op hi => ?_⟩
  · rw [he] at h2
    rw [h1, List.length_eq_zero_iff.mp h2]; rfl
  · cases hs : segs with
    | nil => rw [hs] at h2; exact List.length_eq_zero_iff.mp h2.symm
    | cons s segs' =>
      have := (h3 0 s (by rw [hs]; rfl)).1
      rw [he, hs] at h1
      simp at h1
      exact absurd h1.1 this
  · obtain ⟨hl, -⟩ := List.getElem?_eq_some_iff.mp h0
    have hs : segs[0]? = some segs[0] := List.getElem?_eq_getElem (by omega)
    obtain ⟨-, op', h4, -⟩ := h3 0 _ hs
    rw [h0] at h4
    simp at h4
    exact h4.1
  · obtain ⟨hl, -⟩ := List.getElem?_eq_some_iff.mp hi
    have hlt : i < segs.length := by omega
    have hs : segs[i]? = some segs[i] := List.getElem?_eq_getElem hlt
    obtain ⟨hne, op', h4, h5⟩ := h3 i _ hs
    rw [hi] at h4
    simp only [Option.some.injEq, Prod.mk.injEq] at h4
    obtain ⟨rfl, rfl⟩ := h4
    have hend : endOf bc.opcodes c.code.length i = (segs.take (i + 1)).flatten.length := by
      unfold endOf
      cases hn : bc.opcodes[i + 1]? with
      | none =>
        have : segs.length ≤ i + 1 := by rw [h2]; exact List.getElem?_eq_none_iff.mp hn
        show c.code.length = _
        rw [List.take_of_length_le this, h1]
      | some x =>
        obtain ⟨hl', -⟩ := List.getElem?_eq_some_iff.mp hn
        have hs' : segs[i + 1]? = some segs[i + 1] := List.getElem?_eq_getElem (by omega)
        obtain ⟨-, op'', h6, -⟩ := h3 (i + 1) _ hs'
        rw [hn] at h6
        cases h6
        rfl
    have htake : segs.take (i + 1) = segs.take i ++ [segs[i]] := by rw [List.take_add_one, hs]; rfl
    have hsplit : c.code = (segs.take i).flatten ++ (segs[i] ++ (segs.drop (i + 1)).flatten) := by
      have : segs = segs.take i ++ [segs[i]] ++ segs.drop (i + 1) := by rw [← htake, List.take_append_drop]
      have h' := congrArg List.flatten this
      rw [List.flatten_append, List.flatten_append, List.flatten_singleton, List.append_assoc] at h'
      rw [h1]; exact h'
    have hlen : (segs.take (i + 1)).flatten.length = (segs.take i).flatten.length + segs[i].length := by
      rw [htake, List.flatten_append, List.flatten_singleton, List.length_append]
    have hpos : 0 < segs[i].length := List.length_pos_iff.mpr hne
    rw [hend]
    refine ⟨by omega, ?_, ?_⟩
    · have := congrArg List.length hsplit
      simp only [List.length_append] at this
      omega
    · have : slice c.code (segs.take i).flatten.length (segs.take (i + 1)).flatten.length = segs[i] := by
        unfold slice
        rw [hlen, Nat.add_sub_cancel_left, hsplit]
        simp
      rw [this]
      exact h5

/-- `rich`: eight instructions at offsets 0, 1, 4, 24, 26, 27, 30, 35 of a 36-byte code array. -/
theorem rich_offsets : (firstOpcodes richCf).map (·.1) = [0, 1, 4, 24, 26, 27, 30, 35] := by
  have h := rich_checks
  simp only [richChecks, Bool.and_eq_true, beq_iff_eq] at h
  exact h.1.2
example : ∃ c bc, Accepts debug rich richCf ∧ CodeOf richCf c ∧ c.bytecode = some bc ∧ bc.opcodes.length = 8 ∧ c.code.length = 36 := by
  obtain ⟨c, bc, h1, h2, h3, h4, -⟩ := rich_code
  refine ⟨c, bc, rich_accepted, h1, h2, ?_, by rw [h3]; decide⟩
  have := congrArg List.length rich_offsets
  rw [h4]; simpa using this

/-! ## C29 get_opcode_index finds exactly the opcode starts -/

/-- On any strictly sorted list of opcodes, whatever the offset. -/
theorem C29_sorted (bc : ByteCode) (hs : bc.opcodes.Pairwise fun a b => a.1 < b.1) (off : Nat) :
    (∀ i, bc.getOpcodeIndex off = .ok (some i) ↔ ∃ op, bc.opcodes[i]? = some (off, op)) ∧
      (bc.getOpcodeIndex off = .ok none ↔ ∀ (i : Nat) (op : Opcode), bc.opcodes[i]? ≠ some (off, op)) := by
  have hsome := getOpcodeIndex_some bc hs off
  refine ⟨hsome, ?_⟩
  obtain ⟨r, hr⟩ := getOpcodeIndex_returns bc off
  constructor
  · intro hn i op hi
    have := (hsome i).mpr ⟨op, hi⟩
    rw [hn] at this
    cases this
  · intro hall
    cases r with
    | none => exact hr
    | some i => obtain ⟨op, hi⟩ := (hsome i).mp hr; exact absurd hi (hall i op)

/-- On the bytecode of any accepted file, whatever the offset. -/
theorem C29_index {o : Opts} {bytes : Bytes} {cf : ClassFile} (h : Accepts o bytes cf) {c : CodeData} (hc : CodeOf cf c) {bc : ByteCode}
    (hb : c.bytecode = some bc) (off : Nat) :
    (∀ i, bc.getOpcodeIndex off = .ok (some i) ↔ ∃ op, bc.opcodes[i]? = some (off, op)) ∧
      (bc.getOpcodeIndex off = .ok none ↔ ∀ (i : Nat) (op : Opcode), bc.opcodes[i]? ≠ some (off, op)) :=
  C29_sorted bc (insnsEnc_offsets (code_bytecode h hc hb).1).1 off

/-- On any list at all, sorted or not, the search returns: it does not loop and does not index out of range; and what it finds is right. -/
theorem C29_returns (bc : ByteCode) (off : Nat) :
    bc.getOpcodeIndex off = .ok none ∨ ∃ i op, bc.getOpcodeIndex off = .ok (some i) ∧ bc.opcodes[i]? = some (off, op) := by
  obtain ⟨r, hr⟩ := getOpcodeIndex_returns bc off
  cases r with
  | none => exact .inl hr
  | some i =>
    obtain ⟨op, hi⟩ := opcodeIndexLoop_sound _ _ _ _ _ _ hr
    exact .inr ⟨i, op, hr, hi⟩

/-- `rich`: offset 27 is instruction 5, offset 28 is none. -/
example : ∃ c bc op, CodeOf richCf c ∧ c.bytecode = some bc ∧ bc.opcodes[5]? = some (27, op) ∧ ∀ (i : Nat) (op' : Opcode), bc.opcodes[i]? ≠ some (28, op') := by
  obtain ⟨c, bc, h1, h2, h3, h4, -⟩ := rich_code
  have ho := rich_offsets
  have hm (i : Nat) : (bc.opcodes[i]?).map (·.1) = [0, 1, 4, 24, 26, 27, 30, 35][i]? := by rw [← ho, h4]; simp
  have h5 := hm 5
  cases hx : bc.opcodes[5]? with
  | none => rw [hx] at h5; cases h5
  | some x =>
    rw [hx] at h5
    obtain ⟨off, op⟩ := x
    simp at h5
    subst h5
    refine ⟨c, bc, op, h1, h2, hx, fun i op' hi => ?_⟩
    have := hm i
    rw [hi] at this
    have hmem := List.mem_of_getElem? this.symm
    have hno : ¬ (28 ∈ [0, 1, 4, 24, 26, 27, 30, 35]) := by decide
    exact hno hmem

/-! ## C30 Jump targets are opcode starts -/

/-- Every jump of every instruction of an accepted file, the default of a switch included, lands on an instruction of the same code array. -/
theorem C30_targets {o : Opts} {bytes : Bytes} {cf : ClassFile} (h : Accepts o bytes cf) {c : CodeData} (hc : CodeOf cf c) {bc : ByteCode}
    (hb : c.bytecode = some bc) {off : Nat} {op : Opcode} (hop : (off, op) ∈ bc.opcodes) {j : Int32} (hj : j ∈ jumpsOf op) :
    ∃ (off' : Nat) (op' : Opcode), (off', op') ∈ bc.opcodes ∧ (off' : Int) = off + j.toInt :=
  (code_bytecode h hc hb).2.2 off op hop j hj

/-- If bytecode is parsed, a Code attribute whose code array is not valid bytecode is refused, whatever follows. -/
theorem code_refused {o : Opts} {pool : Pool} {pre code rest : Bytes} {i maxStack maxLocals : UInt16} {n len : UInt32}
    (hop : OpenFile o pool pre) (hi : TextAt pool i.toNat "Code".toList) (hp : o.parseBytecode = true) (hl : len.toNat = code.length)
    (hno : ∀ bc, ¬ ByteCodeEnc o.checks pool bc code) :
    Refused o (pre ++ (u2 i ++ u4 n ++ (u2 maxStack ++ u2 maxLocals ++ (u4 len ++ code) ++ rest))) := by
  refine refused_of_noAttr hop fun x t r he hx => ?_
  obtain ⟨-, b, hb, hw, hd'⟩ := attrEnc_split hx (r := u2 maxStack ++ u2 maxLocals ++ (u4 len ++ code) ++ rest) (t := r) (by simpa using he) hi
  obtain ⟨c, -, hc⟩ := dataEnc_of_code rfl hd'
  rw [codeEnc_eq] at hc
  obtain ⟨hbf, _, _, rfl, rfl, _, _, rfl, rfl, _, tl, rfl, ⟨m, _, hm, rfl, rfl⟩, -⟩ := hc
  obtain ⟨rfl, h1⟩ := u2_split (a := maxStack) (b := c.maxStack) (r := u2 maxLocals ++ (u4 len ++ (code ++ rest))) (r' := u2 c.maxLocals ++ (u4 m ++ c.code ++ tl) ++ r)
    (by simpa using hw)
  obtain ⟨rfl, h2⟩ := u2_split (a := maxLocals) (b := c.maxLocals) (r := u4 len ++ (code ++ rest)) (r' := u4 m ++ c.code ++ tl ++ r) (by simpa using h1)
  obtain ⟨rfl, h3⟩ := u4_split (a := len) (b := m) (r := code ++ rest) (r' := c.code ++ (tl ++ r)) (by simpa using h2)
  obtain ⟨rfl, -⟩ := List.append_inj h3 (by omega)
  unfold BytecodeField at hbf
  cases hbc : c.bytecode with
  | none => rw [hbc] at hbf; rw [hp] at hbf; cases hbf
  | some bc => rw [hbc] at hbf; exact hno bc hbf.2

theorem insnsEnc_unique {checks : Bool} {pool : Pool} {code : Bytes} {ops ops' : List (Nat × Opcode)} (h : InsnsEnc checks pool 0 ops code)
    (h' : InsnsEnc checks pool 0 ops' code) : ops = ops' := by
  have h1 := (readOpcodes_ok checks pool code ops).mpr h
  rw [(readOpcodes_ok checks pool code ops').mpr h'] at h1
  cases h1; rfl

/-- Code with a jump to a place where no instruction starts is refused, whatever follows. -/
theorem C30_refused {o : Opts} {pool : Pool} {pre code rest : Bytes} {i maxStack maxLocals : UInt16} {n len : UInt32} {ops : List (Nat × Opcode)}
    {off : Nat} {op : Opcode} {j : Int32} (hop : OpenFile o pool pre) (hi : TextAt pool i.toNat "Code".toList) (hp : o.parseBytecode = true)
    (hl : len.toNat = code.length) (hops : InsnsEnc o.checks pool 0 ops code) (hm : (off, op) ∈ ops) (hj : j ∈ jumpsOf op)
    (hno : ∀ (off' : Nat) (op' : Opcode), (off', op') ∈ ops → (off' : Int) ≠ off + j.toInt) :
    Refused o (pre ++ (u2 i ++ u4 n ++ (u2 maxStack ++ u2 maxLocals ++ (u4 len ++ code) ++ rest))) := by
  refine code_refused hop hi hp hl fun bc hbc => ?_
  obtain ⟨off', op', h1, h2⟩ := hbc.2.2 off op (by rw [← insnsEnc_unique hops hbc.1]; exact hm) j hj
  rw [← insnsEnc_unique hops hbc.1] at h1
  exact hno off' op' h1 h2

theorem rich_jumps : (∃ j, (1, Opcode.ifeq j) ∈ firstOpcodes richCf ∧ j = 3) ∧ (∃ t, (4, Opcode.tableswitch t) ∈ firstOpcodes richCf ∧ t = ⟨20, 0, 0, [20]⟩) ∧
    ∃ j, (27, Opcode.goto j) ∈ firstOpcodes richCf ∧ j = -23 := by
  have h := rich_checks
  simp only [richChecks, Bool.and_eq_true] at h
  replace h := h.2
  generalize firstOpcodes richCf = ops at h ⊢
  split at h
  · simp only [Bool.and_eq_true, beq_iff_eq] at h
    obtain ⟨⟨h1, h2⟩, h3⟩ := h
    exact ⟨⟨_, by simp, h1⟩, ⟨_, by simp, h2⟩, _, by simp, h3⟩
  · cases h

/-- `rich` jumps forwards (1 + 3), backwards (27 - 23) and by a switch (4 + 20). -/
example : ∃ c bc op j, Accepts debug rich richCf ∧ CodeOf richCf c ∧ c.bytecode = some bc ∧ (27, op) ∈ bc.opcodes ∧ j ∈ jumpsOf op ∧ j = -23 := by
  obtain ⟨c, bc, h1, h2, h3, h4, -⟩ := rich_code
  obtain ⟨-, -, j, h5, h6⟩ := rich_jumps
  exact ⟨c, bc, .goto j, j, rich_accepted, h1, h2, by rw [h4]; exact h5, by simp [jumpsOf], h6⟩

/-- `goto +1; nop` jumps into itself. -/
example : ∃ (pre code : Bytes) (i : UInt16) (len : UInt32) (ops : List (Nat × Opcode)) (op : Opcode) (j : Int32), OpenFile debug fullCf.constantPool pre ∧
    TextAt fullCf.constantPool i.toNat "Code".toList ∧ len.toNat = code.length ∧ InsnsEnc true fullCf.constantPool 0 ops code ∧ (0, op) ∈ ops ∧
    j ∈ jumpsOf op ∧ ∀ (off' : Nat) (op' : Opcode), (off', op') ∈ ops → (off' : Int) ≠ (0 : Nat) + j.toInt := by
  obtain ⟨pre, i, h1, h2⟩ := full_open_code
  refine ⟨pre, [0xa7, 0, 1] ++ ([0x00] ++ []), i, 4, [(0, .goto 1), (3, .nop)], .goto 1, 1, h1, h2, rfl, ?_, by simp, by simp [jumpsOf], ?_⟩
  · exact .cons (s := [0xa7, 0, 1]) (.inl ⟨1, rfl, rfl⟩) (.cons (s := [0x00]) rfl (.nil _))
  · intro off' op' hm
    simp only [List.mem_cons, Prod.mk.injEq, List.not_mem_nil, or_false] at hm
    rcases hm with ⟨rfl, -⟩ | ⟨rfl, -⟩ <;> decide

/-! ## C31 Instruction decoding matches the JVM instruction set -/

/-- Reading one instruction at any offset of any code array: success exactly if the bytes there start with an encoding of that instruction. -/
theorem C31_instruction (checks : Bool) (pool : Pool) (code : Bytes) (pos : Nat) (hp : pos ≤ code.length) (op : Opcode) (pos' : Nat) :
    readOpcode checks pool code pos = .ok (op, pos') ↔
      ∃ seg rest, code.drop pos = seg ++ rest ∧ InsnEnc checks pool pos op seg ∧ pos' = pos + seg.length :=
  readOpcode_exact checks pool pos code hp op pos'

/-- At most one instruction is encoded at the start of given bytes, with one length. -/
theorem C31_unambiguous {checks : Bool} {pool : Pool} {pos : Nat} {op op' : Opcode} {s t r r' : Bytes} (h : InsnEnc checks pool pos op s)
    (h' : InsnEnc checks pool pos op' t) (he : s ++ r = t ++ r') : op = op' ∧ s = t := by
  have hl : pos ≤ (List.replicate pos (0 : UInt8) ++ (s ++ r)).length := by simp
  have hd : (List.replicate pos (0 : UInt8) ++ (s ++ r)).drop pos = s ++ r := by simp
  have h1 := (readOpcode_exact checks pool pos _ hl op _).mpr ⟨s, r, hd, h, rfl⟩
  have h2 := (readOpcode_exact checks pool pos _ hl op' _).mpr ⟨t, r', hd.trans he, h', rfl⟩
  rw [h1] at h2
  simp only [Res.ok.injEq, Prod.mk.injEq] at h2
  exact ⟨h2.1, (List.append_inj he (by omega)).1⟩

/-- Each instruction of an accepted file is decoded from exactly its encoding (C28_offsets says where). -/
theorem C31_decoded {o : Opts} {bytes : Bytes} {cf : ClassFile} (h : Accepts o bytes cf) {c : CodeData} (hc : CodeOf cf c) {bc : ByteCode}
    (hb : c.bytecode = some bc) {off : Nat} {op : Opcode} (hop : (off, op) ∈ bc.opcodes) :
    ∃ seg rest, c.code.drop off = seg ++ rest ∧ InsnEnc o.checks cf.constantPool off op seg := by
  obtain ⟨i, hi⟩ := List.mem_iff_getElem?.mp hop
  obtain ⟨h1, h2, h3⟩ := (C28_offsets h hc hb).2.2 i off op hi
  exact ⟨_, (c.code.drop off).drop (endOf bc.opcodes c.code.length i - off), by unfold slice; rw [List.take_append_drop], h3⟩

/-- Conversely: any sequence of instruction encodings whose jumps land on instructions is accepted in the place of another code array of the
same length, and is returned. -/
theorem C31_accepted {o : Opts} {bytes : Bytes} {cf cf' : ClassFile} (h : Accepts o bytes cf) {name : Str} {c : CodeData} {code : Bytes} {bc : ByteCode}
    (hp : o.parseBytecode = true) (hlen : code.length = c.code.length) (hsmall : code.length < 2147483648)
    (hops : InsnsEnc o.checks cf.constantPool 0 bc.opcodes code) (hjumps : JumpsOK bc.opcodes)
    (hr : ReplaceOf ⟨name, .code c⟩ ⟨"Code".toList, .code { c with code := code, bytecode := some bc }⟩ cf cf') :
    ∃ (pre post : Bytes), bytes = pre ++ c.code ++ post ∧ Accepts o (pre ++ code ++ post) cf' := by
  obtain ⟨pre, body, post, i, n, rfl, hn, ⟨ks, nested, m, ne, na, rfl, h1, h2, h3, h4, h5, h6, -⟩, hacc⟩ := C43_accepted h hr
  refine ⟨pre ++ (u2 i ++ u4 n ++ (u2 c.maxStack ++ u2 c.maxLocals ++ u4 m)),
    (u2 ne ++ (List.zipWith exceptionRow c.exceptionTable ks).flatten) ++ (u2 na ++ nested.flatten) ++ post, by simp, ?_⟩
  have := hacc (u2 c.maxStack ++ u2 c.maxLocals ++ (u4 m ++ code) ++ (u2 ne ++ (List.zipWith exceptionRow c.exceptionTable ks).flatten) ++
      (u2 na ++ nested.flatten)) ks nested (by simp [hlen]) ⟨m, ne, na, rfl, by rw [h1, hlen], h2, h3, h4, h5, h6, .inr ⟨bc, rfl, hp, hops, ?_, hjumps⟩⟩
  · simpa using this
  · intro off op hm
    have := ((insnsEnc_offsets hops).2 _ hm).2
    simp only at this
    omega

/-- The 36 bytes of code of `rich` can be overwritten with 36 `nop`s. -/
example : ∃ (name : Str) (c : CodeData) (cf' : ClassFile) (code : Bytes) (bc : ByteCode), Accepts debug rich richCf ∧ code.length = c.code.length ∧
    code.length < 2147483648 ∧ InsnsEnc true richCf.constantPool 0 bc.opcodes code ∧ JumpsOK bc.opcodes ∧
    ReplaceOf ⟨name, .code c⟩ ⟨"Code".toList, .code { c with code := code, bytecode := some bc }⟩ richCf cf' := by
  obtain ⟨c, bc, ⟨name, ha⟩, -, hcode, -⟩ := rich_code
  have key : ∀ (n pos : Nat), ∃ ops : List (Nat × Opcode), InsnsEnc true richCf.constantPool pos ops (List.replicate n 0) ∧ ∀ x ∈ ops, jumpsOf x.2 = [] := by
    intro n
    induction n with
    | zero => exact fun pos => ⟨[], .nil pos, by simp⟩
    | succ n ih =>
      intro pos
      obtain ⟨ops, h1, h2⟩ := ih (pos + 1)
      refine ⟨(pos, .nop) :: ops, .cons (s := [0]) (t := List.replicate n 0) rfl h1, ?_⟩
      intro x hx
      rcases List.mem_cons.mp hx with rfl | hx
      · rfl
      · exact h2 x hx
  obtain ⟨ops, h1, h2⟩ := key 36 0
  obtain ⟨cf', hr⟩ := replaceOf_exists ⟨"Code".toList, .code { c with code := List.replicate 36 0, bytecode := some ⟨ops⟩ }⟩ ha
  refine ⟨name, c, cf', _, ⟨ops⟩, rich_accepted, by rw [hcode]; decide, by simp, h1, ?_, hr⟩
  intro off op hm j hj
  rw [h2 _ hm] at hj
  cases hj

/-- Bytes that are not the encoding of any instruction, where an instruction should start: the file is refused, whatever follows. -/
theorem C31_refused {o : Opts} {pool : Pool} {pre s r rest : Bytes} {i maxStack maxLocals : UInt16} {n len : UInt32}
    (hop : OpenFile o pool pre) (hi : TextAt pool i.toNat "Code".toList) (hp : o.parseBytecode = true)
    (hs : OpenCode o.checks pool s) (hr : r ≠ []) (hl : len.toNat = (s ++ r).length)
    (hno : ∀ op seg t, r = seg ++ t → ¬ InsnEnc o.checks pool s.length op seg) :
    Refused o (pre ++ (u2 i ++ u4 n ++ (u2 maxStack ++ u2 maxLocals ++ (u4 len ++ (s ++ r)) ++ rest))) := by
  refine code_refused hop hi hp hl fun bc hbc => ?_
  obtain ⟨ops, hops⟩ := hs
  have key : ∀ {pos : Nat} {ops ops' : List (Nat × Opcode)} {s u : Bytes}, InsnsEnc o.checks pool pos ops s → InsnsEnc o.checks pool pos ops' u → u = s ++ r →
      (∀ op seg t, r = seg ++ t → ¬ InsnEnc o.checks pool (pos + s.length) op seg) → False := by
    intro pos ops ops' s u h
    induction h generalizing ops' u with
    | nil pos =>
      intro h' he hno
      cases h' with
      | nil => exact hr (by simpa using he.symm)
      | cons h1 h2 => exact hno _ _ _ (by simpa using he.symm) (by simpa using h1)
    | @cons pos op ops s t hi ht ih =>
      intro h' he hno
      cases h' with
      | nil => simp at he; exact insnEnc_ne_nil hi he.1
      | @cons _ op' ops' s' t' h1 h2 =>
        obtain ⟨-, rfl⟩ := C31_unambiguous hi h1 (r := t ++ r) (r' := t') (by simpa using he.symm)
        refine ih h2 (by simpa using he) fun op seg w hw => ?_
        have := hno op seg w hw
        simpa [Nat.add_assoc] using this
  exact key hops hbc.1 rfl (by simpa using hno)

theorem insn_assigned {checks : Bool} {pool : Pool} {pos : Nat} {op : Opcode} {b : UInt8} {t : Bytes} (h : InsnEnc checks pool pos op (b :: t)) : Assigned b := by
  obtain ⟨row, hrow, t', he, -⟩ := rows_complete checks pool pos op _ h
  simp only [List.cons.injEq] at he
  rw [he.1]
  have hall : (opcodeTable.map (·.1)).all (fun b => decide (b ≤ 0xca) || b == 0xfe || b == 0xff) = true := by decide +kernel
  have := List.all_eq_true.mp hall row.1 (List.mem_map_of_mem hrow)
  simpa [Assigned, or_assoc] using this

/-- An unassigned opcode (0xcb - 0xfd) where an instruction should start is refused, whatever follows. -/
theorem C31_unassigned_refused {o : Opts} {pool : Pool} {pre s r rest : Bytes} {i maxStack maxLocals : UInt16} {n len : UInt32} {b : UInt8}
    (hop : OpenFile o pool pre) (hi : TextAt pool i.toNat "Code".toList) (hp : o.parseBytecode = true)
    (hs : OpenCode o.checks pool s) (hl : len.toNat = (s ++ b :: r).length) (hb : ¬ Assigned b) :
    Refused o (pre ++ (u2 i ++ u4 n ++ (u2 maxStack ++ u2 maxLocals ++ (u4 len ++ (s ++ b :: r)) ++ rest))) := by
  refine C31_refused hop hi hp hs (by simp) hl fun op seg t he h => ?_
  cases seg with
  | nil => exact insnEnc_ne_nil h rfl
  | cons x seg =>
    simp only [List.cons_append, List.cons.injEq] at he
    rw [he.1] at hb
    exact hb (insn_assigned h)

/-- Byte 0xcb after `goto; nop`. -/
example : ∃ (pre s r : Bytes) (i : UInt16) (len : UInt32) (b : UInt8), OpenFile debug fullCf.constantPool pre ∧
    TextAt fullCf.constantPool i.toNat "Code".toList ∧ OpenCode true fullCf.constantPool s ∧ len.toNat = (s ++ b :: r).length ∧ ¬ Assigned b := by
  obtain ⟨pre, i, h1, h2⟩ := full_open_code
  refine ⟨pre, [0xa7, 0, 1] ++ ([0x00] ++ []), [], i, 5, 0xcb, h1, h2, ⟨[(0, .goto 1), (3, .nop)], ?_⟩, rfl, by unfold Assigned; decide⟩
  exact .cons (s := [0xa7, 0, 1]) (.inl ⟨1, rfl, rfl⟩) (.cons (s := [0x00]) rfl (.nil _))

/-! ## C32 tableswitch has one jump per value -/

theorem insn_at {o : Opts} {bytes : Bytes} {cf : ClassFile} (h : Accepts o bytes cf) {c : CodeData} (hc : CodeOf cf c) {bc : ByteCode}
    (hb : c.bytecode = some bc) {off : Nat} {op : Opcode} (hop : (off, op) ∈ bc.opcodes) : ∃ seg, InsnEnc o.checks cf.constantPool off op seg := by
  obtain ⟨seg, -, -, h⟩ := C31_decoded h hc hb hop
  exact ⟨seg, h⟩

/-- What holds of every decoded tableswitch: low ≤ high, and one jump per value from low to high, unless the build has no overflow checks, the
range is the full 32-bit range and there are no jumps at all. -/
theorem C32_jumps {o : Opts} {bytes : Bytes} {cf : ClassFile} (h : Accepts o bytes cf) {c : CodeData} (hc : CodeOf cf c) {bc : ByteCode}
    (hb : c.bytecode = some bc) {off : Nat} {t : RangeTable} (hop : (off, .tableswitch t) ∈ bc.opcodes) :
    t.low.toInt ≤ t.high.toInt ∧ ((t.jumps.length : Int) = t.high.toInt - t.low.toInt + 1 ∨
      o.checks = false ∧ t.low.toInt = -2147483648 ∧ t.high.toInt = 2147483647 ∧ t.jumps = []) := by
  obtain ⟨seg, ⟨hle, hcount⟩, -⟩ := insn_at h hc hb hop
  refine ⟨Int32.le_iff_toInt_le.mp hle, ?_⟩
  rcases hcount with ⟨h1, -⟩ | h1
  · exact .inl h1
  · exact .inr h1

/-- In a build with overflow checks there is no exception. -/
theorem C32_checked {o : Opts} {bytes : Bytes} {cf : ClassFile} (h : Accepts o bytes cf) (hk : o.checks = true) {c : CodeData} (hc : CodeOf cf c)
    {bc : ByteCode} (hb : c.bytecode = some bc) {off : Nat} {t : RangeTable} (hop : (off, .tableswitch t) ∈ bc.opcodes) :
    t.low.toInt ≤ t.high.toInt ∧ (t.jumps.length : Int) = t.high.toInt - t.low.toInt + 1 := by
  obtain ⟨h1, h2 | ⟨h2, -⟩⟩ := C32_jumps h hc hb hop
  · exact ⟨h1, h2⟩
  · rw [hk] at h2; cases h2

/-- The full claim is false of the code: a release build accepts a tableswitch from i32::MIN to i32::MAX with no jump. -/
theorem C32_false_in_release : ∃ (bytes : Bytes) (cf : ClassFile) (c : CodeData) (bc : ByteCode) (off : Nat) (t : RangeTable),
    Accepts release bytes cf ∧ CodeOf cf c ∧ c.bytecode = some bc ∧ (off, .tableswitch t) ∈ bc.opcodes ∧
    t.low.toInt = -2147483648 ∧ t.high.toInt = 2147483647 ∧ t.jumps = [] := by
  have h : (match run release 9 fullRange with
    | .ok cf => match firstCode cf with
      | some c => match c.bytecode with
        | some bc => match bc.opcodes with
          | [(_, .tableswitch t)] => t.low.toInt == -2147483648 && t.high.toInt == 2147483647 && t.jumps == []
          | _ => false
        | none => false
      | none => false
    | _ => false) = true := by decide +kernel
  split at h
  · rename_i cf hcf
    split at h
    · rename_i c hc
      split at h
      · rename_i bc hbc
        split at h
        · rename_i off t hops
          simp only [Bool.and_eq_true, beq_iff_eq] at h
          exact ⟨fullRange, cf, c, bc, off, t, ⟨9, hcf⟩, firstCode_of hc, hbc, by rw [hops]; simp, h.1.1, h.1.2, h.2⟩
        · cases h
      · cases h
    · cases h
  · cases h

/-- The overflow-checked build panics on that file. -/
theorem C32_panics_in_debug : Panics debug fullRange .overflow := panicked fullRange_panics

/-- `rich` has a tableswitch with one jump. -/
example : ∃ c bc t, Accepts debug rich richCf ∧ CodeOf richCf c ∧ c.bytecode = some bc ∧ (4, .tableswitch t) ∈ bc.opcodes ∧ t.jumps.length = 1 := by
  obtain ⟨c, bc, h1, h2, h3, h4, -⟩ := rich_code
  obtain ⟨-, ⟨t, h5, h6⟩, -⟩ := rich_jumps
  exact ⟨c, bc, t, rich_accepted, h1, h2, by rw [h4]; exact h5, by rw [h6]; rfl⟩

end Cafebabe
