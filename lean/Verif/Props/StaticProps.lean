import Verif.Spec.Static
import Verif.Props.CodeProps
import Verif.Props.PruneProps
/-!
# C65: instructions are checked one by one
-/

namespace Cafebabe
open Spec Examples

/-- The instruction list with the one at position `i` replaced by one of the same length. -/
theorem insns_set {checks : Bool} {pool : Pool} {op op' : Opcode} {off : Nat} {seg : Bytes} (he : InsnEnc checks pool off op' seg) :
    ∀ {pos : Nat} {ops : List (Nat × Opcode)} {code : Bytes}, InsnsEnc checks pool pos ops code → ∀ {i : Nat}, ops[i]? = some (off, op) →
      off + seg.length = endOf ops (pos + code.length) i →
      pos ≤ off ∧ off + seg.length ≤ pos + code.length ∧
        InsnsEnc checks pool pos (ops.set i (off, op')) (code.take (off - pos) ++ seg ++ code.drop (off - pos + seg.length)) := by
  intro pos ops code h
  induction h with
  | nil pos => intro i hi; simp at hi
  | @cons pos op0 ops s t hs ht ih =>
    intro i hi hl
    cases i with
    | zero =>
      simp only [List.getElem?_cons_zero, Option.some.injEq, Prod.mk.injEq] at hi
      obtain ⟨rfl, rfl⟩ := hi
      have hls : seg.length = s.length := by
        cases ht with
        | nil => simp [endOf] at hl; omega
        | cons h1 h2 => simp [endOf] at hl; omega
      refine ⟨Nat.le_refl _, by simp; omega, ?_⟩
      have h1 : (s ++ t).drop seg.length = t := by rw [hls]; simp
      simp only [Nat.sub_self, List.take_zero, List.nil_append, Nat.zero_add, List.set_cons_zero, h1]
      refine .cons he ?_
      rw [hls]; exact ht
    | succ i =>
      simp only [List.getElem?_cons_succ] at hi
      have hl' : off + seg.length = endOf ops (pos + s.length + t.length) i := by
        rw [hl]
        simp only [endOf, List.getElem?_cons_succ, List.length_append]
        rw [Nat.add_assoc]
      obtain ⟨h1, h2, h3⟩ := ih hi hl'
      refine ⟨by omega, by simp; omega, ?_⟩
      have h4 : (s ++ t).take (off - pos) = s ++ t.take (off - (pos + s.length)) := by
        rw [List.take_append, List.take_of_length_le (by omega)]
        congr 2; omega
      have h5 : (s ++ t).drop (off - pos + seg.length) = t.drop (off - (pos + s.length) + seg.length) := by
        rw [List.drop_append, List.drop_eq_nil_of_le (by omega), List.nil_append]
        congr 1; omega
      rw [h4, h5, List.set_cons_succ, List.append_assoc, List.append_assoc]
      refine .cons hs ?_
      rw [← List.append_assoc]
      exact h3

theorem set_offsets {ops : List (Nat × Opcode)} {i off : Nat} {op op' : Opcode} (hi : ops[i]? = some (off, op)) {x : Nat} :
    (∃ y, (x, y) ∈ ops.set i (off, op')) ↔ ∃ y, (x, y) ∈ ops := by
  have h : (ops.set i (off, op')).map Prod.fst = ops.map Prod.fst := by
    rw [List.map_set]
    refine List.ext_getElem? fun k => ?_
    rw [List.getElem?_set]
    split
    · rename_i hk
      subst hk
      split
      · simp [hi]
      · rename_i hk; simp at hk; simp; exact hk
    · rfl
  have h1 : ∀ l : List (Nat × Opcode), (∃ y, (x, y) ∈ l) ↔ x ∈ l.map Prod.fst := fun l => by simp
  rw [h1, h1, h]

/-- Any instruction of an accepted class may be overwritten with any other instruction of the same length, provided that its own jumps (if
any) land on instructions: the class is accepted, and is returned with just that instruction changed. So nothing else ties an instruction to
the code around it, to `max_stack` and `max_locals`, to the version or to the method. -/
theorem C65_replaced {o : Opts} {bytes : Bytes} {cf cf' : ClassFile} (h : Accepts o bytes cf) {name : Str} {c : CodeData} {bc : ByteCode}
    (hb : c.bytecode = some bc) {i off : Nat} {op op' : Opcode} {seg : Bytes} (hi : bc.opcodes[i]? = some (off, op))
    (he : InsnEnc o.checks cf.constantPool off op' seg) (hl : off + seg.length = endOf bc.opcodes c.code.length i)
    (hj : ∀ j ∈ jumpsOf op', ∃ (dest : Nat) (target : Opcode), (dest, target) ∈ bc.opcodes ∧ (dest : Int) = off + j.toInt)
    (hr : ReplaceOf ⟨name, .code c⟩ ⟨"Code".toList, .code { c with
      code := c.code.take off ++ seg ++ c.code.drop (off + seg.length), bytecode := some ⟨bc.opcodes.set i (off, op')⟩ }⟩ cf cf') :
    ∃ (pre post : Bytes), bytes = pre ++ c.code ++ post ∧
      Accepts o (pre ++ (c.code.take off ++ seg ++ c.code.drop (off + seg.length)) ++ post) cf' := by
  obtain ⟨pre, body, post, ix, n, rfl, hn, ⟨ks, nested, m, ne, na, rfl, h1, h2, h3, h4, h5, h6, h7⟩, hacc⟩ := C43_accepted h hr
  rcases h7 with ⟨h7, -⟩ | ⟨bc', h7, hp, hops, hoff, hjumps⟩
  · rw [hb] at h7; cases h7
  rw [hb] at h7
  cases h7
  obtain ⟨-, hle, hset⟩ := insns_set he hops hi (by simpa using hl)
  simp only [Nat.zero_add, Nat.sub_zero] at hle hset
  have hlen : (c.code.take off ++ seg ++ c.code.drop (off + seg.length)).length = c.code.length := by simp; omega
  refine ⟨pre ++ (u2 ix ++ u4 n ++ (u2 c.maxStack ++ u2 c.maxLocals ++ u4 m)),
    (u2 ne ++ (List.zipWith exceptionRow c.exceptionTable ks).flatten) ++ (u2 na ++ nested.flatten) ++ post, by simp, ?_⟩
  generalize hcode : c.code.take off ++ seg ++ c.code.drop (off + seg.length) = code at *
  have := hacc (u2 c.maxStack ++ u2 c.maxLocals ++ (u4 m ++ code) ++ (u2 ne ++ (List.zipWith exceptionRow c.exceptionTable ks).flatten) ++
      (u2 na ++ nested.flatten)) ks nested (by simp [hlen])
    ⟨m, ne, na, rfl, by rw [h1, hlen], h2, h3, h4, h5, h6, .inr ⟨_, rfl, hp, hset, fun x y hm => ?_, fun x y hm j hj' => ?_⟩⟩
  · simpa using this
  · obtain ⟨z, hz⟩ := (set_offsets hi).mp ⟨y, hm⟩
    exact hoff x z hz
  · have key : ∃ (dest : Nat) (target : Opcode), (dest, target) ∈ bc.opcodes ∧ (dest : Int) = x + j.toInt := by
      rcases List.mem_or_eq_of_mem_set hm with hm | hm
      · exact hjumps x y hm j hj'
      · cases hm; exact hj j hj'
    obtain ⟨dest, target, h8, h9⟩ := key
    obtain ⟨t', h10⟩ := (set_offsets (op' := op') hi).mpr ⟨target, h8⟩
    exact ⟨dest, t', h10, h9⟩

/-! ## Length of the code array -/

theorem nops_enc (checks : Bool) (pool : Pool) : ∀ (n pos : Nat),
    InsnsEnc checks pool pos ((List.range' pos n).map fun k => (k, Opcode.nop)) (List.replicate n 0)
  | 0, pos => .nil pos
  | n + 1, pos => by
    rw [List.range'_succ, List.map_cons, List.replicate_succ]
    exact .cons (s := [0]) (t := List.replicate n 0) (by rw [InsnEnc]; rfl) (nops_enc checks pool n (pos + 1))

/-- A Code attribute with `n` `nop` instructions, no stack, no locals, no handlers. -/
def nopCode (parse : Bool) (n : Nat) : CodeData :=
  { maxStack := 0, maxLocals := 0, code := List.replicate n 0,
    bytecode := if parse then some ⟨(List.range' 0 n).map fun k => (k, Opcode.nop)⟩ else none, exceptionTable := [], attributes := [] }

/-- The length of a code array is not limited to 1 - 65535 (JVMS 4.7.3): into every accepted class file that has the text `Code` among its
constants and room for one more attribute anywhere, a Code attribute of `n` instructions can be inserted, for every `n` from 0 on as long as
the file stays below 4 GiB (and offsets below 2 GiB). -/
theorem C65_length {o : Opts} {bytes : Bytes} {cf cf' : ClassFile} (h : Accepts o bytes cf) {i : UInt16}
    (ht : TextAt cf.constantPool i.toNat "Code".toList) (n : Nat) (hn : n < 2147483648) (hl : bytes.length + (18 + n) < 4294967296)
    (hi : InsertOf ⟨"Code".toList, .code (nopCode o.parseBytecode n)⟩ cf cf') :
    ∃ bytes', bytes'.length = bytes.length + (18 + n) ∧ Accepts o bytes' cf' := by
  have e1 : (UInt32.ofNat n).toNat = n := by simp; omega
  have e2 : (UInt32.ofNat (12 + n)).toNat = 12 + n := by simp; omega
  have henc : AttrEnc o cf.constantPool ⟨"Code".toList, .code (nopCode o.parseBytecode n)⟩
      (u2 i ++ (u4 (UInt32.ofNat (12 + n)) ++ (u2 0 ++ (u2 0 ++ ((u4 (UInt32.ofNat n) ++ List.replicate n 0) ++ (u2 0 ++ u2 0)))))) := by
    rw [AttrEnc]
    refine ⟨_, _, rfl, ⟨i, ht, rfl⟩, UInt32.ofNat (12 + n), _, by rw [e2]; simp [u2, u4]; omega, ?_, rfl⟩
    rw [DataEnc]
    refine ⟨rfl, ?_⟩
    unfold nopCode
    rw [CodeEnc]
    refine ⟨?_, _, _, rfl, rfl, _, _, rfl, rfl, _, _, rfl, ⟨UInt32.ofNat n, List.replicate n 0, by rw [e1]; simp, rfl, rfl⟩,
      _, _, rfl, ⟨0, rfl, _, _, (List.append_nil _).symm, rfl, rfl⟩, 0, rfl, _, _, (List.append_nil _).symm, rfl, ?_⟩
    · cases hp : o.parseBytecode with
      | false => exact hp
      | true =>
        refine ⟨hp, nops_enc _ _ n 0, fun off op hm => ?_, fun off op hm j hj => ?_⟩
        · simp at hm; omega
        · simp at hm; rw [← hm.2] at hj; simp [jumpsOf] at hj
    · rw [AttrsEnc]; rfl
  have hlen : (u2 i ++ (u4 (UInt32.ofNat (12 + n)) ++ (u2 0 ++ (u2 0 ++ ((u4 (UInt32.ofNat n) ++ List.replicate n 0) ++ (u2 0 ++ u2 0)))))).length = 18 + n := by
    simp [u2, u4]; omega
  obtain ⟨bytes', h1, h2⟩ := C48_insertion h henc (fun _ h => by cases h) hi (by rw [hlen]; exact hl)
  exact ⟨bytes', by rw [h1, hlen], h2⟩

theorem length_front {o : Opts} {bytes : Bytes} {cf : ClassFile} (h : Accepts o bytes cf) {i : UInt16}
    (ht : TextAt cf.constantPool i.toNat "Code".toList) (n : Nat) (hn : n < 2147483648) (hl : bytes.length + (18 + n) < 4294967296)
    (hr : cf.attributes.length < 65535) : ∃ bytes' cf' c, Accepts o bytes' cf' ∧ CodeOf cf' c ∧ c.code.length = n := by
  obtain ⟨bytes', -, ha⟩ := C65_length h ht n hn hl (.ofClass _ (.here [] _ (by simpa using hr)))
  exact ⟨bytes', _, nopCode o.parseBytecode n, ha, ⟨"Code".toList, .inl (.here (by simp))⟩, by simp [nopCode]⟩

/-- So code arrays of every length below 2 GiB occur in accepted files, the empty one and those of 65536 bytes and more included. -/
theorem C65_any_length (n : Nat) (hn : n < 2147483648) : ∃ bytes cf c, Accepts debug bytes cf ∧ CodeOf cf c ∧ c.code.length = n := by
  have hlen : rich.length < 1000 := by decide +kernel
  have ht : TextAt richCf.constantPool (5 : UInt16).toNat "Code".toList := by
    have : richCf.constantPool[5]? == some (Entry.utf8 "Code".toList) := by decide +kernel
    exact beq_iff_eq.mp this
  exact length_front rich_accepted ht n hn (by omega) (by rw [rich_shape.2.2.2.2.2]; exact Nat.le_of_ble_eq_true rfl)

/-! ## Witnesses -/

/-- A class of version 55 whose one method has code that breaks each of the constraints: `breakpoint`, `jsr`, `ret 200`, `iload 65535` (no
locals), `ldc` of a Long, `ldc2_w` of an Integer, `lookupswitch` with keys 7, 5, `invokeinterface` with count 0, `multianewarray` with 0
dimensions, `new [[I`, `invokevirtual A.<clinit>`, and `nop` as the last instruction. -/
def lawless : Bytes :=
  header 0 55 ++ u2 16 ++ text "A" ++ [7, 0, 1] ++ text "Code" ++ text "m" ++ text "()V" ++ [5, 0, 0, 0, 0, 0, 0, 0, 5] ++
    [3, 0, 0, 0, 1] ++ text "[[I" ++ [7, 0, 9] ++ text "<clinit>" ++ [12, 0, 11, 0, 5] ++ [10, 0, 2, 0, 12] ++ [12, 0, 4, 0, 5] ++
    [11, 0, 2, 0, 14] ++ [0, 0x21, 0, 2, 0, 0, 0, 0, 0, 0] ++
    u2 1 ++ [0, 0x09, 0, 4, 0, 5] ++ u2 1 ++ attr 3 (u2 0 ++ u2 0 ++ u4 56 ++
      ([0xca] ++ [0xa8, 0, 3] ++ [0xa9, 200] ++ [0xc4, 0x15, 255, 255] ++ [0x12, 6] ++ [0x14, 0, 8] ++
        [0xab, 0, 0, 0, 0, 0, 0, 0, 2, 0, 0, 0, 7, 0, 0, 0, 0, 0, 0, 0, 5, 0, 0, 0, 0] ++ [0xb9, 0, 15, 0, 0] ++ [0xc5, 0, 10, 0] ++
        [0xbb, 0, 10] ++ [0xb6, 0, 13] ++ [0x00]) ++ u2 0 ++ u2 0) ++ u2 0

/-- None of these constraints is checked: there is an accepted file whose code breaks each of them and runs off its end. -/
theorem C65_unchecked : ∃ (cf : ClassFile) (c : CodeData) (bc : ByteCode), Accepts debug lawless cf ∧ CodeOf cf c ∧ c.bytecode = some bc ∧
    (∀ k : Constraint, ∃ off op, (off, op) ∈ bc.opcodes ∧ Breaks cf.majorVersion c.maxLocals k op) ∧
    ∃ off op, bc.opcodes.getLast? = some (off, op) ∧ RunsOn op := by
  have h : (match run debug 9 lawless with
    | .ok cf => match firstCode cf with
      | some c => match c.bytecode with
        | some bc => match bc.opcodes with
          | [(_, .breakpoint), (_, .jsr _), (_, .ret _), (_, .iload n), (_, .ldc (.literalConstant (.long _))),
              (_, .ldc2W (.literalConstant (.integer _))), (_, .lookupswitch t), (_, .invokeinterface _ k), (_, .multianewarray _ d),
              (_, .new s), (_, .invokevirtual m), (_, .nop)] =>
            decide (51 ≤ cf.majorVersion) && decide (c.maxLocals.toNat < n.toNat + 1) && t.matchOffsets.map (·.1.toInt) == [7, 5] && k == 0 && d == 0 &&
              s.head? == some '[' && m.nameAndType.name.head? == some '<'
          | _ => false
        | none => false
      | none => false
    | _ => false) = true := by decide +kernel
  split at h
  · rename_i cf hcf
    split at h
    · rename_i c hc
      split at h
      · rename_i bc hbc
        split at h
        · rename_i o0 o1 j o2 r o3 n o4 v o5 w o6 t o7 mi k o8 ty d o9 s o10 m o11 hops
          simp only [Bool.and_eq_true, beq_iff_eq, decide_eq_true_eq] at h
          obtain ⟨⟨⟨⟨⟨⟨h1, h2⟩, h3⟩, rfl⟩, rfl⟩, h6⟩, h7⟩ := h
          refine ⟨cf, c, bc, ⟨9, hcf⟩, firstCode_of hc, hbc, fun con => ?_, ?_⟩
          · cases con with
            | notReserved => exact ⟨o0, .breakpoint, by rw [hops]; simp, .inl rfl⟩
            | noSubroutines => exact ⟨o1, .jsr j, by rw [hops]; simp, h1, .inl ⟨_, rfl⟩⟩
            | constantSize => exact ⟨o4, .ldc (.literalConstant (.long v)), by rw [hops]; simp, .literalConstant (.long v), .inl ⟨trivial, .inl rfl⟩⟩
            | sortedKeys =>
              refine ⟨o6, .lookupswitch t, by rw [hops]; simp, t, rfl, fun hp => ?_⟩
              have := (List.pairwise_map (f := fun p : Int32 × Int32 => p.1.toInt) (R := (· < ·))).mpr hp
              rw [h3] at this
              simp at this
            | argumentCount =>
              refine ⟨o7, .invokeinterface mi 0, by rw [hops]; simp, _, _, rfl, fun d _ => ?_⟩
              show 0 ≠ _
              omega
            | dimensions => exact ⟨o8, .multianewarray ty 0, by rw [hops]; simp, _, _, rfl, .inl rfl⟩
            | instantiable => exact ⟨o9, .new s, by rw [hops]; simp, s, rfl, h6⟩
            | ordinaryName => exact ⟨o10, .invokevirtual m, by rw [hops]; simp, m, h7, .inl rfl⟩
            | localsExist => exact ⟨o3, .iload n, by rw [hops]; simp, h2⟩
          · exact ⟨_, .nop, by rw [hops]; rfl, trivial⟩
        · cases h
      · cases h
    · cases h
  · cases h

theorem replaced_exists {o : Opts} {bytes : Bytes} {cf : ClassFile} (h : Accepts o bytes cf) {c : CodeData} (hc : CodeOf cf c) {bc : ByteCode}
    (hb : c.bytecode = some bc) {i off : Nat} {op op' : Opcode} {seg : Bytes} (hi : bc.opcodes[i]? = some (off, op))
    (he : InsnEnc o.checks cf.constantPool off op' seg) (hl : off + seg.length = endOf bc.opcodes c.code.length i)
    (hj : ∀ j ∈ jumpsOf op', ∃ (dest : Nat) (target : Opcode), (dest, target) ∈ bc.opcodes ∧ (dest : Int) = off + j.toInt) :
    ∃ bytes' cf', Accepts o bytes' cf' := by
  obtain ⟨name, hc⟩ := hc
  obtain ⟨cf', hr⟩ := replaceOf_exists _ hc
  obtain ⟨pre, post, -, ha⟩ := C65_replaced h hb hi he hl hj hr
  exact ⟨_, cf', ha⟩

/-- The hypotheses of `C65_replaced` are met: the `pop` at offset 26 of `rich` can be overwritten with `breakpoint`. -/
example : ∃ bytes' cf', Accepts debug bytes' cf' := by
  obtain ⟨c, bc, hc, hb, hcode, hops, -⟩ := rich_code
  have h1 : bc.opcodes.map (·.1) = [0, 1, 4, 24, 26, 27, 30, 35] := by
    rw [hops]
    have h := rich_checks
    simp only [richChecks, Bool.and_eq_true, beq_iff_eq] at h
    exact h.1.2
  have h2 : (bc.opcodes.map (·.1))[4]? = some 26 ∧ (bc.opcodes.map (·.1))[5]? = some 27 := by rw [h1]; exact ⟨rfl, rfl⟩
  simp only [List.getElem?_map, Option.map_eq_some_iff] at h2
  obtain ⟨⟨⟨off, op⟩, h3, rfl⟩, ⟨⟨off', op''⟩, h4, h5⟩⟩ := h2
  simp only at h3 h5
  subst h5
  refine replaced_exists (op' := .breakpoint) (seg := [0xca]) rich_accepted hc hb h3 rfl ?_ (by simp [jumpsOf])
  rw [endOf, h4]
  rfl

end Cafebabe
