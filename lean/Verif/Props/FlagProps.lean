import Verif.Props.ClassProps
import Verif.Proofs.DataUnique
import Verif.Props.FullFacts
/-!
# Properties C21 and C40
-/

namespace Cafebabe
open Spec Examples

/-! ## C21 Bootstrap method indices are in range -/

/-- If an accepted file has a Dynamic or InvokeDynamic constant then it has exactly one BootstrapMethods attribute and the index is in range. -/
theorem C21_constants {o : Opts} {bytes : Bytes} {cf : ClassFile} (h : Accepts o bytes cf) {x : UInt16} {r : CPRef}
    (hx : Entry.dynamic x r ∈ cf.constantPool ∨ Entry.invokeDynamic x r ∈ cf.constantPool) :
    ∃ l, bootstrapTables cf.attributes = [l] ∧ x.toNat < l.length := (accepts_iff_enc.mp h).1.2.2.2 x r hx

theorem insnsEnc_mem {checks : Bool} {pool : Pool} {pos : Nat} {ops : List (Nat × Opcode)} {code : Bytes} (h : InsnsEnc checks pool pos ops code)
    {off : Nat} {op : Opcode} (hm : (off, op) ∈ ops) : ∃ s, InsnEnc checks pool off op s := by
  induction h with
  | nil => cases hm
  | cons h _ ih =>
    rcases List.mem_cons.mp hm with he | hm
    · cases he; exact ⟨_, h⟩
    · exact ih hm

theorem codeEnc_bytecode {o : Opts} {pool : Pool} {c : CodeData} {seg : Bytes} (h : CodeEnc o pool c seg) : BytecodeField o pool c.bytecode c.code := by
  rw [codeEnc_eq] at h; exact h.1

/-- Parsed bytecode of an accepted file. -/
theorem bytecode_enc {o : Opts} {bytes : Bytes} {cf : ClassFile} (h : Accepts o bytes cf) {c : CodeData} (hc : CodeOf cf c) {bc : ByteCode}
    (hb : c.bytecode = some bc) : o.parseBytecode = true ∧ ByteCodeEnc o.checks cf.constantPool bc c.code := by
  obtain ⟨s, hs, -⟩ := codeOf_enc (accepts_iff_enc.mp h) hc
  have := codeEnc_bytecode hs
  rw [hb] at this
  exact this

/-- Every instruction that uses a Dynamic or InvokeDynamic constant has its index in range. -/
theorem C21_instructions {o : Opts} {bytes : Bytes} {cf : ClassFile} (h : Accepts o bytes cf) {c : CodeData} (hc : CodeOf cf c) {bc : ByteCode}
    (hb : c.bytecode = some bc) {off : Nat} {op : Opcode} (hop : (off, op) ∈ bc.opcodes) {d : DynamicRef} (hd : d ∈ dynamicsOf op) :
    ∃ l, bootstrapTables cf.attributes = [l] ∧ d.attrIndex.toNat < l.length := by
  obtain ⟨-, henc, -⟩ := bytecode_enc h hc hb
  obtain ⟨s, hs⟩ := insnsEnc_mem henc hop
  have key : (∃ i, DynamicAt cf.constantPool i d) ∨ ∃ i, InvokeDynamicAt cf.constantPool i d := by
    unfold dynamicsOf at hd
    split at hd
    · rw [List.mem_singleton] at hd; subst hd
      obtain ⟨_, _, -, -, _, _, -, ⟨i, hi, -⟩, -⟩ := hs
      exact .inr ⟨_, hi⟩
    · rw [List.mem_singleton] at hd; subst hd
      obtain ⟨i, hi, -⟩ := hs
      exact .inl ⟨_, hi⟩
    · rw [List.mem_singleton] at hd; subst hd
      obtain ⟨_, _, -, -, ⟨i, hi, -⟩⟩ := hs
      exact .inl ⟨_, hi⟩
    · rw [List.mem_singleton] at hd; subst hd
      obtain ⟨_, _, -, -, ⟨i, hi, -⟩⟩ := hs
      exact .inl ⟨_, hi⟩
    · cases hd
  rcases key with ⟨i, n, hn, -⟩ | ⟨i, n, hn, -⟩
  · exact C21_constants h (.inl (List.mem_of_getElem? hn))
  · exact C21_constants h (.inr (List.mem_of_getElem? hn))

/-- The first Code attribute of the first method. -/
def firstCode (cf : ClassFile) : Option CodeData :=
  match cf.methods with
  | m :: _ => (codesOf m.attributes).head?
  | [] => none

theorem firstCode_of {cf : ClassFile} {c : CodeData} (h : firstCode cf = some c) : CodeOf cf c := by
  unfold firstCode at h
  split at h
  · rename_i m ms hm
    have hc := List.mem_of_mem_head? h
    unfold codesOf at hc
    obtain ⟨⟨n, d⟩, ha, hd⟩ := List.mem_filterMap.mp hc
    cases d <;> simp only [reduceCtorEq, Option.some.injEq] at hd
    subst hd
    exact ⟨n, .inr (.inr ⟨m, by rw [hm]; simp, .here ha⟩)⟩
  · cases h

/-- What `firstCode richCf` is. -/
theorem rich_code : ∃ c bc, CodeOf richCf c ∧ c.bytecode = some bc ∧ c.code = richCode ∧ bc.opcodes = firstOpcodes richCf ∧ c.exceptionTable.length = 1 ∧
    c.attributes.length = 3 := by
  have h : (match firstCode richCf with
    | some c => c.bytecode.isSome && c.code == richCode && c.exceptionTable.length == 1 && c.attributes.length == 3
    | none => false) = true := by decide +kernel
  cases hc : firstCode richCf with
  | none => rw [hc] at h; cases h
  | some c =>
    rw [hc] at h
    simp only [Bool.and_eq_true, beq_iff_eq] at h
    obtain ⟨⟨⟨h1, h2⟩, h3⟩, h4⟩ := h
    obtain ⟨bc, hbc⟩ := Option.isSome_iff_exists.mp h1
    refine ⟨c, bc, firstCode_of hc, hbc, h2, ?_, h3, h4⟩
    unfold firstCode at hc
    unfold firstOpcodes
    split at hc
    · rename_i m ms hm
      rw [hm]
      cases hcs : codesOf m.attributes with
      | nil => rw [hcs] at hc; cases hc
      | cons x xs => rw [hcs] at hc; cases hc; simp only [hcs, hbc]
    · cases hc

/-- `rich` has an InvokeDynamic constant, a Dynamic constant and an invokedynamic instruction. -/
example : ∃ c bc off op d, Accepts debug rich richCf ∧ CodeOf richCf c ∧ c.bytecode = some bc ∧ (off, op) ∈ bc.opcodes ∧ d ∈ dynamicsOf op := by
  obtain ⟨c, bc, h1, h2, -, h3, -⟩ := rich_code
  have hd : (firstOpcodes richCf).any (fun x => !(dynamicsOf x.2).isEmpty) = true := by decide +kernel
  obtain ⟨⟨off, op⟩, hm, hne⟩ := List.any_eq_true.mp hd
  cases hl : dynamicsOf op with
  | nil => simp [hl] at hne
  | cons d ds => exact ⟨c, bc, off, op, d, rich_accepted, h1, h2, by rw [h3]; exact hm, by rw [hl]; simp⟩
example : Entry.dynamic 0 (.resolved 30) ∈ richCf.constantPool ∧ Entry.invokeDynamic 0 (.resolved 8) ∈ richCf.constantPool := by
  obtain ⟨-, -, -, -, -, -, -, -, h1, h2, -⟩ := rich_pool
  exact ⟨List.mem_of_getElem? h2, List.mem_of_getElem? h1⟩

/-! ## C40 Access flags -/

/-- `Truncated` bit by bit: a bit of the result is set exactly when it is set in the word and belongs to a known flag. -/
theorem truncated_bits {bits : List UInt16} {word flags : UInt16} (h : Truncated bits word flags) (b : UInt16) :
    flags &&& b = word &&& b &&& bits.foldl (· ||| ·) 0 := by
  rw [h, UInt16.and_assoc, UInt16.and_assoc, UInt16.and_comm b]

/-- The class flags are the word after the pool with exactly the unknown bits cleared. -/
theorem C40_class {o : Opts} {bytes : Bytes} {cf : ClassFile} (h : Accepts o bytes cf) :
    ∃ (pool rest : Bytes) (bits : UInt16), bytes = header cf.minorVersion cf.majorVersion ++ pool ++ u2 bits ++ rest ∧
      PoolEnc o.decode o.checks cf.majorVersion cf.constantPool pool ∧ Truncated classFlagBits bits cf.accessFlags := by
  obtain ⟨pool, fs, ms, as, flags, this, super, n, ixs, rfl, hp, hf, -⟩ := enc_parts (accepts_iff_enc.mp h)
  exact ⟨pool, u2 this ++ u2 super ++ u2 n ++ indices ixs ++ fs ++ ms ++ as, flags, by simp, hp, hf⟩

/-- Each field starts with its flag word; the field's flags are that word with exactly the unknown bits cleared. -/
theorem C40_fields {o : Opts} {bytes : Bytes} {cf : ClassFile} (h : Accepts o bytes cf) :
    ∃ (front tail : Bytes) (nf : UInt16) (fs : List Bytes), bytes = front ++ u2 nf ++ fs.flatten ++ tail ∧
      FrontEnc o cf.minorVersion cf.majorVersion cf.constantPool cf.accessFlags front ∧ fs.length = cf.fields.length ∧
      ∀ (k : Nat) (f : FieldInfo), cf.fields[k]? = some f → ∃ (bits : UInt16) (t : Bytes), fs[k]? = some (u2 bits ++ t) ∧
        FieldEnc o cf.constantPool f (u2 bits ++ t) ∧ Truncated fieldFlagBits bits f.accessFlags := by
  obtain ⟨front, nf, nm, fs, ms, as, rfl, hfr, hnf, ⟨hl, hfs⟩, -⟩ := enc_front (accepts_iff_enc.mp h)
  refine ⟨front, u2 nm ++ ms.flatten ++ as, nf, fs, by simp, hfr, hl, fun k f hk => ?_⟩
  obtain ⟨hk1, -⟩ := List.getElem?_eq_some_iff.mp hk
  have hk2 : fs[k]? = some fs[k] := List.getElem?_eq_getElem (by omega)
  have hf := hfs k _ f hk2 hk
  obtain ⟨hn, s, t, he, ⟨bits, hb, rfl⟩, ht⟩ := hf
  refine ⟨bits, t, by rw [hk2, he], ⟨hn, _, t, rfl, ⟨bits, hb, rfl⟩, ht⟩, hb⟩

/-- Each method starts with its flag word; the method's flags are that word with exactly the unknown bits cleared. -/
theorem C40_methods {o : Opts} {bytes : Bytes} {cf : ClassFile} (h : Accepts o bytes cf) :
    ∃ (front tail : Bytes) (nm : UInt16) (ms : List Bytes), bytes = front ++ u2 nm ++ ms.flatten ++ tail ∧
      (∃ fr fs, front = fr ++ fs ∧ FrontEnc o cf.minorVersion cf.majorVersion cf.constantPool cf.accessFlags fr ∧
        table2 (FieldEnc o cf.constantPool) cf.fields fs) ∧ ms.length = cf.methods.length ∧
      ∀ (k : Nat) (m : MethodInfo), cf.methods[k]? = some m → ∃ (bits : UInt16) (t : Bytes), ms[k]? = some (u2 bits ++ t) ∧
        MethodEnc o cf.constantPool (IsInterface cf.accessFlags) cf.majorVersion m (u2 bits ++ t) ∧ Truncated methodFlagBits bits m.accessFlags := by
  obtain ⟨front, nf, nm, fs, ms, as, rfl, hfr, hnf, hfs, hnm, ⟨hl, hms⟩, -⟩ := enc_front (accepts_iff_enc.mp h)
  refine ⟨front ++ (u2 nf ++ fs.flatten), as, nm, ms, by simp, ⟨_, _, rfl, hfr, nf, hnf, _, _, rfl, rfl, seq_rows.mpr ⟨fs, rfl, hfs⟩⟩, hl,
    fun k f hk => ?_⟩
  obtain ⟨hk1, -⟩ := List.getElem?_eq_some_iff.mp hk
  have hk2 : ms[k]? = some ms[k] := List.getElem?_eq_getElem (by omega)
  have hf := hms k _ f hk2 hk
  obtain ⟨hn, s, t, he, ⟨bits, hb, rfl⟩, ht⟩ := hf
  refine ⟨bits, t, by rw [hk2, he], ⟨hn, _, t, rfl, ⟨bits, hb, rfl⟩, ht⟩, hb⟩

/-- `full` has unknown bits set in its class, field and method flags; they are dropped. -/
example : Accepts debug full fullCf ∧ Truncated classFlagBits 0x0FFF fullCf.accessFlags ∧ ∃ f, fullCf.fields[0]? = some f := by
  refine ⟨full_accepted, full_flags.1, ?_⟩
  have := full_flags.2.1
  match hf : fullCf.fields, this with
  | f :: _, _ => exact ⟨f, rfl⟩

theorem seq_rows_at {α : Type} {F : α → Lang} {xs : List α} {seg : Bytes} (h : seq F xs seg) :
    ∃ segs : List Bytes, seg = segs.flatten ∧ segs.length = xs.length ∧
      ∀ (k : Nat) (x : α), xs[k]? = some x → ∃ s, segs[k]? = some s ∧ F x s := by
  obtain ⟨segs, rfl, hl, h⟩ := seq_rows.mp h
  refine ⟨segs, rfl, hl, fun k x hk => ?_⟩
  obtain ⟨hk1, -⟩ := List.getElem?_eq_some_iff.mp hk
  have hk2 : segs[k]? = some segs[k] := List.getElem?_eq_getElem (by omega)
  exact ⟨_, hk2, h k _ x hk2 hk⟩

/-- Each row of an InnerClasses attribute ends with its flag word; its flags are that word with exactly the unknown bits cleared. -/
theorem C40_inner_classes {o : Opts} {bytes : Bytes} {cf : ClassFile} (h : Accepts o bytes cf) {name : Str} {l : List InnerClassEntry}
    (ha : AttrOf cf ⟨name, .innerClasses l⟩) :
    ∃ (pre post : Bytes) (i count : UInt16) (n : UInt32) (rows : List Bytes), bytes = pre ++ (u2 i ++ u4 n ++ u2 count ++ rows.flatten) ++ post ∧
      OpenFile o cf.constantPool pre ∧ TextAt cf.constantPool i.toNat "InnerClasses".toList ∧ count.toNat = l.length ∧ rows.length = l.length ∧
      ∀ (k : Nat) (e : InnerClassEntry), l[k]? = some e → ∃ a b c bits : UInt16, rows[k]? = some (u2 a ++ u2 b ++ u2 c ++ u2 bits) ∧
        Truncated innerClassFlagBits bits e.accessFlags := by
  obtain ⟨pre, s, post, rfl, hop, hs⟩ := attrOf_open (accepts_iff_enc.mp h) ha
  rw [AttrEnc] at hs
  obtain ⟨_, _, rfl, ⟨i, hi, rfl⟩, n, b, hn, hd, rfl⟩ := hs
  rw [DataEnc] at hd
  obtain ⟨rfl, count, hc, _, _, rfl, rfl, hrows⟩ := hd
  obtain ⟨rows, rfl, hl, hr⟩ := seq_rows_at hrows
  refine ⟨pre, post, i, count, n, rows, by simp, hop, hi, hc, hl, fun k e hk => ?_⟩
  obtain ⟨s, hs, _, _, rfl, ⟨a, -, rfl⟩, _, _, rfl, ⟨b, -, rfl⟩, _, _, rfl, ⟨c, -, rfl⟩, ⟨bits, hb, rfl⟩⟩ := hr k e hk
  exact ⟨a, b, c, bits, by rw [hs]; simp, hb⟩

theorem and_eq_of_andNot {f m : UInt16} (h : f &&& ~~~m = 0) : f &&& m = f := by
  have hb : f.toBitVec &&& ~~~ m.toBitVec = 0#16 := by simpa using congrArg UInt16.toBitVec h
  apply UInt16.toBitVec_inj.mp
  rw [UInt16.toBitVec_and]
  ext i hi
  have := congrArg (fun b => b[i]) hb
  simp only [BitVec.getElem_and, BitVec.getElem_not, BitVec.getElem_zero] at this ⊢
  revert this
  cases f.toBitVec[i] <;> cases m.toBitVec[i] <;> simp

theorem onlyFlags_iff {bits : List UInt16} {flags : UInt16} : OnlyFlags bits flags ↔ flags &&& bits.foldl (· ||| ·) 0 = flags := by
  refine ⟨and_eq_of_andNot, fun h => ?_⟩
  unfold OnlyFlags
  rw [← h, UInt16.and_assoc, UInt16.and_not_self, UInt16.and_zero]

/-- The flags of a method parameter are exactly the encoded word, which has known bits only. -/
theorem C40_method_parameters {o : Opts} {bytes : Bytes} {cf : ClassFile} (h : Accepts o bytes cf) {name : Str} {l : List MethodParameterEntry}
    (ha : AttrOf cf ⟨name, .methodParameters l⟩) :
    ∃ (pre post : Bytes) (i : UInt16) (count : UInt8) (n : UInt32) (rows : List Bytes),
      bytes = pre ++ (u2 i ++ u4 n ++ [count] ++ rows.flatten) ++ post ∧
      OpenFile o cf.constantPool pre ∧ TextAt cf.constantPool i.toNat "MethodParameters".toList ∧ count.toNat = l.length ∧ rows.length = l.length ∧
      ∀ (k : Nat) (e : MethodParameterEntry), l[k]? = some e → (∃ a : UInt16, rows[k]? = some (u2 a ++ u2 e.accessFlags)) ∧
        OnlyFlags parameterFlagBits e.accessFlags := by
  obtain ⟨pre, s, post, rfl, hop, hs⟩ := attrOf_open (accepts_iff_enc.mp h) ha
  rw [AttrEnc] at hs
  obtain ⟨_, _, rfl, ⟨i, hi, rfl⟩, n, b, hn, hd, rfl⟩ := hs
  rw [DataEnc] at hd
  obtain ⟨rfl, count, hc, _, _, rfl, rfl, hrows⟩ := hd
  obtain ⟨rows, rfl, hl, hr⟩ := seq_rows_at hrows
  refine ⟨pre, post, i, count, n, rows, by simp [u1], hop, hi, hc, hl, fun k e hk => ?_⟩
  obtain ⟨s, hs, -, _, _, rfl, ⟨a, -, rfl⟩, hb, rfl⟩ := hr k e hk
  exact ⟨⟨a, by rw [hs]⟩, onlyFlags_iff.mpr hb⟩

/-- All flags of a Module attribute have known bits only. -/
theorem C40_module {o : Opts} {bytes : Bytes} {cf : ClassFile} (h : Accepts o bytes cf) {name : Str} {d : ModuleData}
    (ha : AttrOf cf ⟨name, .moduleAttr d⟩) :
    OnlyFlags moduleFlagBits d.accessFlags ∧ (∀ e ∈ d.requires, OnlyFlags requiresFlagBits e.flags) ∧
      (∀ e ∈ d.exports, OnlyFlags exportsFlagBits e.flags) ∧ ∀ e ∈ d.opens, OnlyFlags exportsFlagBits e.flags := by
  obtain ⟨pre, s, post, rfl, hop, hs⟩ := attrOf_open (accepts_iff_enc.mp h) ha
  obtain ⟨s, hd, -⟩ := attrEnc_data hs
  rw [DataEnc] at hd
  obtain ⟨-, _, _, -, -, _, _, -, ⟨h1, -⟩, _, _, -, -, _, _, -, h2, _, _, -, h3, _, _, -, h4, -⟩ := hd
  refine ⟨onlyFlags_iff.mpr h1, fun e he => ?_, fun e he => ?_, fun e he => ?_⟩
  · obtain ⟨_, ⟨_, _, -, -, _, _, -, ⟨h, -⟩, -⟩, -⟩ := table2_mem h2 he
    exact onlyFlags_iff.mpr h
  · obtain ⟨_, ⟨_, _, -, -, _, _, -, ⟨h, -⟩, -⟩, -⟩ := table2_mem h3 he
    exact onlyFlags_iff.mpr h
  · obtain ⟨_, ⟨_, _, -, -, _, _, -, ⟨h, -⟩, -⟩, -⟩ := table2_mem h4 he
    exact onlyFlags_iff.mpr h

theorem dataEnc_of_parameters {o : Opts} {pool : Pool} {d : AttributeData} {seg : Bytes}
    (h : DataEnc o pool "MethodParameters".toList d seg) : ∃ l, d = .methodParameters l ∧ table1 (MethodParameterEnc pool) l seg := by
  have hk := dataEnc_kind h
  rw [show attrKindOf "MethodParameters".toList = .methodParameters from by decide +kernel] at hk
  cases d <;> try (cases hk; done)
  rw [DataEnc] at h
  exact ⟨_, rfl, h.2⟩

theorem dataEnc_of_module {o : Opts} {pool : Pool} {d : AttributeData} {seg : Bytes}
    (h : DataEnc o pool "Module".toList d seg) : ∃ l, d = .moduleAttr l ∧ ModuleDataEnc pool l seg := by
  have hk := dataEnc_kind h
  rw [show attrKindOf "Module".toList = .moduleAttr from by decide +kernel] at hk
  cases d <;> try (cases hk; done)
  rw [DataEnc] at h
  exact ⟨_, rfl, h.2⟩


/-- A method parameter with an unknown flag is refused, at any nesting depth, whatever follows. -/
theorem C40_parameter_flag_refused {o : Opts} {pool : Pool} {pre rest s : Bytes} {i a flags : UInt16} {n : UInt32} {count : UInt8}
    {l : List MethodParameterEntry} (hop : OpenFile o pool pre) (hi : TextAt pool i.toNat "MethodParameters".toList)
    (hs : seq (MethodParameterEnc pool) l s) (hl : l.length < count.toNat) (hf : ¬ OnlyFlags parameterFlagBits flags) :
    Refused o (pre ++ (u2 i ++ u4 n ++ [count] ++ s ++ (u2 a ++ u2 flags) ++ rest)) := by
  refine refused_of_noAttr hop fun x t r he hx => ?_
  obtain ⟨-, b, -, hb, hd⟩ := attrEnc_split hx (r := [count] ++ s ++ (u2 a ++ u2 flags) ++ rest) (t := r) (by simpa using he) hi
  obtain ⟨l', -, c, hc, _, t2, rfl, rfl, hseq⟩ := dataEnc_of_parameters hd
  simp only [u1, List.append_assoc, List.cons_append, List.nil_append, List.cons.injEq] at hb
  obtain ⟨rfl, hb⟩ := hb
  obtain ⟨e, cs, u, v, -, ⟨-, _, _, rfl, ⟨j, -, rfl⟩, hstrict, rfl⟩, -, hr0⟩ := (param_unique pool).seq_peel hs hseq hb (by omega)
  obtain ⟨rfl, hr⟩ := u2_split (a := a) (b := j) (r := u2 flags ++ rest) (r' := u2 e.accessFlags ++ (v ++ r)) (by simpa using hr0)
  obtain ⟨rfl, -⟩ := u2_split hr
  exact hf (onlyFlags_iff.mpr hstrict)

/-- A module with an unknown flag is refused. -/
theorem C40_module_flag_refused {o : Opts} {pool : Pool} {pre rest : Bytes} {i a flags : UInt16} {n : UInt32}
    (hop : OpenFile o pool pre) (hi : TextAt pool i.toNat "Module".toList) (hf : ¬ OnlyFlags moduleFlagBits flags) :
    Refused o (pre ++ (u2 i ++ u4 n ++ (u2 a ++ u2 flags) ++ rest)) := by
  refine refused_of_noAttr hop fun x t r he hx => ?_
  obtain ⟨-, b, -, hb, hd⟩ := attrEnc_split hx (r := u2 a ++ (u2 flags ++ rest)) (t := r) (by simpa using he) hi
  obtain ⟨l', -, _, t2, rfl, ⟨j, -, rfl⟩, _, t3, rfl, ⟨hstrict, rfl⟩, -⟩ := dataEnc_of_module hd
  obtain ⟨rfl, hr⟩ := u2_split (b := j) (r' := u2 l'.accessFlags ++ (t3 ++ r)) (by simpa using hb)
  obtain ⟨rfl, -⟩ := u2_split hr
  exact hf (onlyFlags_iff.mpr hstrict)


/-- A `requires` row with an unknown flag is refused. -/
theorem C40_requires_flag_refused {o : Opts} {pool : Pool} {pre rest s : Bytes} {i a b c count d flags : UInt16} {n : UInt32}
    {l : List ModuleRequireEntry} (hop : OpenFile o pool pre) (hi : TextAt pool i.toNat "Module".toList)
    (hs : seq (RequireEnc pool) l s) (hl : l.length < count.toNat) (hf : ¬ OnlyFlags requiresFlagBits flags) :
    Refused o (pre ++ (u2 i ++ u4 n ++ (u2 a ++ u2 b ++ u2 c) ++ (u2 count ++ s) ++ (u2 d ++ u2 flags) ++ rest)) := by
  refine refused_of_noAttr hop fun x t r he hx => ?_
  obtain ⟨-, w, -, hw, hd⟩ := attrEnc_split hx (r := u2 a ++ (u2 b ++ (u2 c ++ (u2 count ++ s ++ (u2 d ++ u2 flags ++ rest))))) (t := r) (by simpa using he) hi
  obtain ⟨l', -, _, t2, rfl, ⟨j, -, rfl⟩, _, t3, rfl, ⟨-, rfl⟩, _, t4, rfl, ⟨k, -, rfl⟩, t5, t6, rfl, h5, -⟩ := dataEnc_of_module hd
  obtain ⟨rfl, h1⟩ := u2_split (b := j) (r' := u2 l'.accessFlags ++ (u2 k ++ (t5 ++ (t6 ++ r)))) (by simpa using hw)
  obtain ⟨rfl, h2⟩ := u2_split h1
  obtain ⟨rfl, h3⟩ := u2_split h2
  obtain ⟨e, cs, u, v, -, ⟨_, _, rfl, ⟨j', -, rfl⟩, _, w', rfl, ⟨hstrict, rfl⟩, -⟩, -, hr0⟩ := (require_unique pool).table2_peel hs hl h5 h3
  obtain ⟨rfl, hr⟩ := u2_split (a := d) (b := j') (r := u2 flags ++ rest) (r' := u2 e.flags ++ (w' ++ (v ++ (t6 ++ r)))) (by simpa using hr0)
  obtain ⟨rfl, -⟩ := u2_split hr
  exact hf (onlyFlags_iff.mpr hstrict)

/-- An `exports` row with an unknown flag is refused. -/
theorem C40_exports_flag_refused {o : Opts} {pool : Pool} {pre rest s rs : Bytes} {i a b c count d flags : UInt16} {n : UInt32}
    {l : List ModuleExportsEntry} {reqs : List ModuleRequireEntry} (hop : OpenFile o pool pre) (hi : TextAt pool i.toNat "Module".toList)
    (hreq : table2 (RequireEnc pool) reqs rs)
    (hs : seq (ExportsEnc pool) l s) (hl : l.length < count.toNat) (hf : ¬ OnlyFlags exportsFlagBits flags) :
    Refused o (pre ++ (u2 i ++ u4 n ++ (u2 a ++ u2 b ++ u2 c) ++ rs ++ (u2 count ++ s) ++ (u2 d ++ u2 flags) ++ rest)) := by
  refine refused_of_noAttr hop fun x t r he hx => ?_
  obtain ⟨-, w, -, hw, hd⟩ := attrEnc_split hx (r := u2 a ++ (u2 b ++ (u2 c ++ (rs ++ (u2 count ++ s ++ (u2 d ++ u2 flags ++ rest)))))) (t := r) (by simpa using he) hi
  obtain ⟨l', -, _, t2, rfl, ⟨j, -, rfl⟩, _, t3, rfl, ⟨-, rfl⟩, _, t4, rfl, ⟨k, -, rfl⟩, t5, t6, rfl, h5, t7, t8, rfl, h7, -⟩ := dataEnc_of_module hd
  obtain ⟨rfl, h1⟩ := u2_split (b := j) (r' := u2 l'.accessFlags ++ (u2 k ++ (t5 ++ (t7 ++ (t8 ++ r))))) (by simpa using hw)
  obtain ⟨rfl, h2⟩ := u2_split h1
  obtain ⟨rfl, h3⟩ := u2_split h2
  obtain ⟨-, -, h4⟩ := (require_unique pool).table2.split hreq h5 h3
  obtain ⟨e, cs, u, v, -, ⟨_, _, rfl, ⟨j', -, rfl⟩, _, w', rfl, ⟨hstrict, rfl⟩, -⟩, -, hr0⟩ := (exports_unique pool).table2_peel hs hl h7 h4
  obtain ⟨rfl, hr⟩ := u2_split (a := d) (b := j') (r := u2 flags ++ rest) (r' := u2 e.flags ++ (w' ++ (v ++ (t8 ++ r)))) (by simpa using hr0)
  obtain ⟨rfl, -⟩ := u2_split hr
  exact hf (onlyFlags_iff.mpr hstrict)

/-- An `opens` row with an unknown flag is refused. -/
theorem C40_opens_flag_refused {o : Opts} {pool : Pool} {pre rest s rs es : Bytes} {i a b c count d flags : UInt16} {n : UInt32}
    {l : List ModuleOpensEntry} {reqs : List ModuleRequireEntry} {exps : List ModuleExportsEntry} (hop : OpenFile o pool pre)
    (hi : TextAt pool i.toNat "Module".toList) (hreq : table2 (RequireEnc pool) reqs rs) (hexp : table2 (ExportsEnc pool) exps es)
    (hs : seq (OpensEnc pool) l s) (hl : l.length < count.toNat) (hf : ¬ OnlyFlags exportsFlagBits flags) :
    Refused o (pre ++ (u2 i ++ u4 n ++ (u2 a ++ u2 b ++ u2 c) ++ rs ++ es ++ (u2 count ++ s) ++ (u2 d ++ u2 flags) ++ rest)) := by
  refine refused_of_noAttr hop fun x t r he hx => ?_
  obtain ⟨-, w, -, hw, hd⟩ := attrEnc_split hx (r := u2 a ++ (u2 b ++ (u2 c ++ (rs ++ (es ++ (u2 count ++ s ++ (u2 d ++ u2 flags ++ rest)))))))
    (t := r) (by simpa using he) hi
  obtain ⟨l', -, _, t2, rfl, ⟨j, -, rfl⟩, _, t3, rfl, ⟨-, rfl⟩, _, t4, rfl, ⟨k, -, rfl⟩, t5, t6, rfl, h5, t7, t8, rfl, h7, t9, t10, rfl, h9, -⟩ :=
    dataEnc_of_module hd
  obtain ⟨rfl, h1⟩ := u2_split (b := j) (r' := u2 l'.accessFlags ++ (u2 k ++ (t5 ++ (t7 ++ (t9 ++ (t10 ++ r)))))) (by simpa using hw)
  obtain ⟨rfl, h2⟩ := u2_split h1
  obtain ⟨rfl, h3⟩ := u2_split h2
  obtain ⟨-, -, h4⟩ := (require_unique pool).table2.split hreq h5 h3
  obtain ⟨-, -, h6⟩ := (exports_unique pool).table2.split hexp h7 h4
  obtain ⟨e, cs, u, v, -, ⟨_, _, rfl, ⟨j', -, rfl⟩, _, w', rfl, ⟨hstrict, rfl⟩, -⟩, -, hr0⟩ := (opens_unique pool).table2_peel hs hl h9 h6
  obtain ⟨rfl, hr⟩ := u2_split (a := d) (b := j') (r := u2 flags ++ rest) (r' := u2 e.flags ++ (w' ++ (v ++ (t10 ++ r)))) (by simpa using hr0)
  obtain ⟨rfl, -⟩ := u2_split hr
  exact hf (onlyFlags_iff.mpr hstrict)

/-- `full` has InnerClasses, MethodParameters and Module attributes, so it can be cut off before each of them. -/
example : (∃ name l, AttrOf fullCf ⟨name, .innerClasses l⟩) ∧ (∃ name l, AttrOf fullCf ⟨name, .methodParameters l⟩) ∧
    ∃ name d, AttrOf fullCf ⟨name, .moduleAttr d⟩ := by
  refine ⟨?_, ?_, ?_⟩
  · obtain ⟨⟨n, d⟩, h1, h2⟩ := full_has .innerClasses
    cases d <;> try (cases h2; done)
    exact ⟨_, _, h1⟩
  · obtain ⟨⟨n, d⟩, h1, h2⟩ := full_has .methodParameters
    cases d <;> try (cases h2; done)
    exact ⟨_, _, h1⟩
  · obtain ⟨⟨n, d⟩, h1, h2⟩ := full_has .moduleAttr
    cases d <;> try (cases h2; done)
    exact ⟨_, _, h1⟩
/-- The hypotheses of the refusal theorems: `full` cut off before its Module attribute, and a flag word with an unknown bit. -/
example : ∃ pre i, OpenFile debug fullCf.constantPool pre ∧ TextAt fullCf.constantPool i "Module".toList ∧
    ¬ OnlyFlags moduleFlagBits 0x0040 ∧ ¬ OnlyFlags parameterFlagBits 0x0020 ∧ ¬ OnlyFlags requiresFlagBits 1 ∧ ¬ OnlyFlags exportsFlagBits 0x0020 := by
  obtain ⟨⟨n, d⟩, h1, h2⟩ := full_has .moduleAttr
  obtain ⟨pre, s, post, -, hop, hs⟩ := attrOf_open (accepts_iff_enc.mp full_accepted) h1
  cases d <;> try (cases h2; done)
  rw [AttrEnc] at hs
  obtain ⟨_, _, rfl, ⟨i, hi, rfl⟩, _, _, -, hd, -⟩ := hs
  rw [DataEnc] at hd
  obtain ⟨rfl, -⟩ := hd
  exact ⟨pre, _, hop, hi, by unfold OnlyFlags; decide, by unfold OnlyFlags; decide, by unfold OnlyFlags; decide,
    by unfold OnlyFlags; decide⟩

end Cafebabe
