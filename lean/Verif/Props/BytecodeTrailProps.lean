import Verif.Props.TrailProps
/-!
# C68: errors in the code point to the first faulty instruction
-/

namespace Cafebabe
open Spec Examples

/-- The code of a Code attribute that is attribute number `k` of place `p` (a field, a method or the class) of the file `bytes`; everything before
it in the file, and everything else in the attribute, is well formed. -/
def FaultyCode (o : Opts) (p : Place) (k : Nat) (bytes : Bytes) (pool : Pool) (code : Bytes) : Prop :=
  ∃ (count maxStack maxLocals : UInt16) (as inner : List AttributeInfo) (before t head mid rest : Bytes) (es : List ExceptionTableEntry),
    AttrsAt o p pool bytes (u2 count ++ (before ++ t)) ∧ as.length = k ∧ k < count.toNat ∧ seq (AttrEnc o pool) as before ∧
      AttrHead pool "Code".toList (head ++ (mid ++ rest)) t ∧ CodeHead pool (maxStack, maxLocals, code, es) head ∧
      AttributesEnc o pool inner mid ∧ o.parseBytecode = true ∧ ∀ bc, ¬ ByteCodeEnc o.checks pool bc code

/-- The rest of an error in the code of a Code attribute is about the first faulty instruction. -/
theorem C68_first_fault {o : Opts} {bytes : Bytes} {m : String} {cs : List String} {pc : String} {p : Place} {k : Nat}
    (h : Rejects o bytes ⟨m, cs ++ ["bytecode", s!"Code attribute {k}", pc]⟩) (hp : p.isAttributes = true) (hc : p.context = some pc) :
    ∃ (pool : Pool) (code : Bytes), FaultyCode o p k bytes pool code ∧ BytecodeTrail o.checks pool code ⟨m, cs⟩ := by
  obtain ⟨pool, count, ms, ml, as, inner, before, t, head, mid, rest, code, es, h1, h2, h3, h4, h5, h6, h7, h8, h9, h10⟩ := bytecode_trail h hp hc
  exact ⟨pool, code, ⟨count, ms, ml, as, inner, before, t, head, mid, rest, es, h1, h2, h3, h4, h5, h6, h7, h8, h9⟩, h10⟩

theorem insnSays_contexts {checks : Bool} {pool : Pool} {start : Nat} {t : Bytes} {e : ParseError} (h : InsnSays checks pool start t e) :
    e.contexts = [] := by
  cases h with
  | constant _ _ h => exact h.1
  | ldc _ h => exact h.1
  | _ => rfl

theorem offset_inj {a b : Nat} (h : s!"opcode at offset {a}" = s!"opcode at offset {b}") : a = b := by
  have h1 := congrArg String.toList h
  have ts : ∀ s : String, toString s = s := fun _ => rfl
  simp only [String.toList_append, ts, List.append_cancel_left_eq] at h1
  exact Nat.repr_injective (String.toList_inj.mp h1)

/-- An error without a context inside "bytecode": the code starts with some instructions, and what follows is not an instruction; if the message
has an index then it is inside or right behind that instruction, at the byte that is wrong. -/
theorem C68_instruction {o : Opts} {bytes : Bytes} {m : String} {pc : String} {p : Place} {k : Nat}
    (h : Rejects o bytes ⟨m, ["bytecode", s!"Code attribute {k}", pc]⟩) (hp : p.isAttributes = true) (hc : p.context = some pc) :
    ∃ (pool : Pool) (ops : List (Nat × Opcode)) (before t : Bytes), FaultyCode o p k bytes pool (before ++ t) ∧
      InsnsEnc o.checks pool 0 ops before ∧ t ≠ [] ∧ (∀ op s rest, t = s ++ rest → ¬ InsnEnc o.checks pool before.length op s) ∧
      InsnSays o.checks pool before.length t ⟨m, []⟩ := by
  obtain ⟨pool, code, hf, ht⟩ := C68_first_fault (cs := []) h hp hc
  generalize hE : (⟨m, []⟩ : ParseError) = E at ht
  cases ht with
  | instruction h1 h2 h3 h4 => exact ⟨pool, _, _, _, hf, h1, h2, h3, hE ▸ h4⟩
  | jump _ _ _ =>
    have := congrArg ParseError.contexts hE
    simp at this

/-- An error with the context "opcode at offset N" inside "bytecode": all the code is instructions, one of them starts at offset `N`, it is the first
one with a jump that does not land on an instruction, and the rest of the error tells which jump. -/
theorem C68_jump {o : Opts} {bytes : Bytes} {m : String} {cs : List String} {pc : String} {p : Place} {k off : Nat}
    (h : Rejects o bytes ⟨m, cs ++ [s!"opcode at offset {off}", "bytecode", s!"Code attribute {k}", pc]⟩) (hp : p.isAttributes = true)
    (hc : p.context = some pc) :
    ∃ (pool : Pool) (code : Bytes) (before after : List (Nat × Opcode)) (op : Opcode), FaultyCode o p k bytes pool code ∧
      InsnsEnc o.checks pool 0 (before ++ (off, op) :: after) code ∧
      (∀ q ∈ before, q.1 < 2147483648 ∧ ∀ j ∈ jumpsOf q.2, GoodJump (before ++ (off, op) :: after) q.1 j) ∧
      JumpSays o.checks (before ++ (off, op) :: after) off op ⟨m, cs⟩ := by
  obtain ⟨pool, code, hf, ht⟩ := C68_first_fault (cs := cs ++ [s!"opcode at offset {off}"]) (by simpa using h) hp hc
  generalize hE : (⟨m, cs ++ [s!"opcode at offset {off}"]⟩ : ParseError) = E at ht
  cases ht with
  | instruction h1 h2 h3 h4 =>
    have := insnSays_contexts h4
    rw [← hE] at this
    simp at this
  | @jump before after off' op code' m' cs' h1 h2 h3 =>
    obtain ⟨hc1, hc2⟩ := in_eq (e := ⟨m', cs'⟩) hE
    obtain rfl := offset_inj hc1
    cases hc2
    exact ⟨pool, code, before, after, op, hf, h1, h2, h3⟩

theorem first_word {x y r r' : List Char} (hx : ' ' ∉ x) (hy : ' ' ∉ y) (h : x ++ ' ' :: r = y ++ ' ' :: r') : x = y ∧ r = r' := by
  induction x generalizing y with
  | nil =>
    cases y with
    | nil => simpa using h
    | cons c y =>
      exfalso
      simp only [List.nil_append, List.cons_append, List.cons.injEq] at h
      exact hy (by rw [← h.1]; exact List.mem_cons_self)
  | cons c x ih =>
    cases y with
    | nil =>
      exfalso
      simp only [List.nil_append, List.cons_append, List.cons.injEq] at h
      exact hx (by rw [h.1]; exact List.mem_cons_self)
    | cons d y =>
      simp only [List.cons_append, List.cons.injEq] at h
      obtain ⟨rfl, h⟩ := h
      obtain ⟨rfl, rfl⟩ := ih (fun hm => hx (List.mem_cons_of_mem _ hm)) (fun hm => hy (List.mem_cons_of_mem _ hm)) h
      exact ⟨rfl, rfl⟩

theorem opcode_message {b b' : UInt8} {N N' : Nat} (h : s!"Unexpected opcode {b} at index {N}" = s!"Unexpected opcode {b'} at index {N'}") :
    b = b' ∧ N = N' := by
  have h1 := congrArg String.toList h
  have ts : ∀ s : String, toString s = s := fun _ => rfl
  have tb : ∀ b : UInt8, toString b = toString b.toNat := fun _ => rfl
  simp only [String.toList_append, ts, tb, List.append_assoc, List.append_cancel_left_eq] at h1
  obtain ⟨h2, h3⟩ := first_word (digits_no_space _) (digits_no_space _) (h1 : _ ++ ' ' :: ("at index ".toList ++ (toString N).toList) =
    _ ++ ' ' :: ("at index ".toList ++ (toString N').toList))
  exact ⟨UInt8.toNat_inj.mp (Nat.repr_injective (String.toList_inj.mp h2)),
    Nat.repr_injective (String.toList_inj.mp (List.append_cancel_left h3))⟩

/-- The message about an opcode that is not assigned: the code has this byte at this index, what is before the index is a sequence of instructions,
so that an instruction should start there, and no instruction has this opcode. -/
theorem C68_opcode {o : Opts} {bytes : Bytes} {b : UInt8} {N : Nat} {pc : String} {p : Place} {k : Nat}
    (h : Rejects o bytes ⟨s!"Unexpected opcode {b} at index {N}", ["bytecode", s!"Code attribute {k}", pc]⟩) (hp : p.isAttributes = true)
    (hc : p.context = some pc) :
    ∃ (pool : Pool) (ops : List (Nat × Opcode)) (before t : Bytes), FaultyCode o p k bytes pool (before ++ b :: t) ∧ before.length = N ∧
      InsnsEnc o.checks pool 0 ops before ∧ 0xca < b.toNat ∧ b.toNat < 0xfe := by
  obtain ⟨pool, ops, before, t, hf, hops, -, -, hsay⟩ := C68_instruction h hp hc
  have ts : ∀ s : String, toString s = s := fun _ => rfl
  have tb : ∀ b : UInt8, toString b = toString b.toNat := fun _ => rfl
  have hpre : ∀ m : String, s!"Unexpected opcode {b} at index {N}" = m → m.toList.take 12 = "Unexpected o".toList := by
    rintro m rfl
    simp [String.toList_append, ts]
  have hcon : ∀ {i : Nat}, ¬ ConstantSays pool i ⟨s!"Unexpected opcode {b} at index {N}", []⟩ := by
    rintro i ⟨-, ⟨-, hm⟩ | ⟨-, hm⟩⟩
    · have := hpre _ hm
      simp [String.toList_append, ts] at this
    · have hall : ∀ m ∈ kindComplaints ++ descriptorComplaints, m.toList.take 12 ≠ "Unexpected o".toList := by decide
      exact hall _ hm (hpre _ rfl)
  generalize hE : (⟨s!"Unexpected opcode {b} at index {N}", []⟩ : ParseError) = E at hsay hcon
  cases hsay with
  | opcode h1 h2 =>
    obtain ⟨rfl, rfl⟩ := opcode_message (congrArg ParseError.msg hE)
    exact ⟨pool, ops, before, _, hf, rfl, hops, h1, h2⟩
  | @wide b' _ _ =>
    exfalso
    have h1 := congrArg String.toList (congrArg ParseError.msg hE)
    simp only [String.toList_append, ts, tb, List.append_assoc, List.append_cancel_left_eq] at h1
    obtain ⟨-, h3⟩ := first_word (r := "at index ".toList ++ (toString N).toList)
      (r' := "inside wide modifier at index ".toList ++ (toString (before.length + 1)).toList) (digits_no_space _) (digits_no_space _) (by simpa using h1)
    simp at h3
  | constant _ _ h => exact absurd h hcon
  | ldc _ h => exact absurd h hcon
  | _ =>
    exfalso
    have := hpre _ (congrArg ParseError.msg hE)
    simp [String.toList_append, ts] at this

/-! ## Files -/

/-- A `nop`, then a byte that is no opcode. -/
def noOpcode : Bytes := withCode [0x00, 0xcb, 0xb1]

/-- Two `nop`s, a `goto` to itself, and a `goto` that ends behind the code. -/
def wildGoto : Bytes := withCode [0x00, 0x00, 0xa7, 0x00, 0x00, 0xa7, 0x00, 0x04, 0xb1]

/-- A `lookupswitch` whose pair with key 7 jumps before the code. -/
def wildPair : Bytes :=
  withCode ([0xab, 0, 0, 0] ++ [0, 0, 0, 28] ++ [0, 0, 0, 2] ++ [255, 255, 255, 255, 0, 0, 0, 28] ++ [0, 0, 0, 7, 255, 255, 255, 255] ++ [0xb1])

/-- A `tableswitch`, behind a `nop` and two bytes of padding, whose lowest value is greater than its highest value. -/
def emptySwitch : Bytes := withCode ([0x00, 0xaa, 0, 0] ++ [0, 0, 0, 0] ++ [0, 0, 0, 2] ++ [0, 0, 0, 1])

/-- A `sipush` with one of its two bytes. -/
def cutPush : Bytes := withCode [0x00, 0x11, 0x01]

/-- Some faulty instructions and their errors. -/
theorem C68_witnesses :
    Rejects debug noOpcode ⟨"Unexpected opcode 203 at index 1", ["bytecode", "Code attribute 0", "class method 0"]⟩ ∧
    Rejects debug wildGoto ⟨"Invalid opcode offset after applying jump", ["opcode at offset 5", "bytecode", "Code attribute 0", "class method 0"]⟩ ∧
    Rejects debug wildPair ⟨"Invalid destination after applying jump",
      ["match offset 7", "opcode at offset 0", "bytecode", "Code attribute 0", "class method 0"]⟩ ∧
    Rejects debug emptySwitch ⟨"The low value must be less than or equal to the high value in tableswitch at index 12",
      ["bytecode", "Code attribute 0", "class method 0"]⟩ ∧
    Rejects debug cutPush ⟨"Unexpected end of stream reading u2 at index 2", ["bytecode", "Code attribute 0", "class method 0"]⟩ :=
  ⟨rejects_of (d := 9) (by decide +kernel), rejects_of (d := 9) (by decide +kernel), rejects_of (d := 9) (by decide +kernel),
    rejects_of (d := 9) (by decide +kernel), rejects_of (d := 9) (by decide +kernel)⟩

/-- The index in these messages is counted from the start of the code, not of the file, and there is none when the operand of an instruction is the
index of an unsuitable constant: here the same error is about the first and about the third of four instructions, each time a `getstatic`
of constant 1, which is a text. -/
theorem C68_no_place :
    Rejects debug (withCode [0xb2, 0x00, 0x01, 0x00, 0x00, 0xb1]) ⟨"Unexpected constant pool reference type", ["bytecode", "Code attribute 0", "class method 0"]⟩ ∧
    Rejects debug (withCode [0x00, 0x00, 0xb2, 0x00, 0x01, 0xb1]) ⟨"Unexpected constant pool reference type", ["bytecode", "Code attribute 0", "class method 0"]⟩ :=
  ⟨rejects_of (d := 9) (by decide +kernel), rejects_of (d := 9) (by decide +kernel)⟩

/-- The hypotheses of the theorems are met. -/
example : ∃ (pool : Pool) (ops : List (Nat × Opcode)) (before t : Bytes), FaultyCode debug (.method 0) 0 noOpcode pool (before ++ 0xcb :: t) ∧
    before.length = 1 ∧ InsnsEnc true pool 0 ops before :=
  let ⟨pool, ops, before, t, h1, h2, h3, _⟩ := C68_opcode (b := 0xcb) (N := 1) (k := 0) (p := .method 0) C68_witnesses.1 rfl rfl
  ⟨pool, ops, before, t, h1, h2, h3⟩

example : ∃ (pool : Pool) (code : Bytes) (before after : List (Nat × Opcode)) (op : Opcode), FaultyCode debug (.method 0) 0 wildPair pool code ∧
    JumpSays true (before ++ (0, op) :: after) 0 op ⟨"Invalid destination after applying jump", ["match offset 7"]⟩ :=
  let ⟨pool, code, before, after, op, h1, _, _, h4⟩ := C68_jump (off := 0) (k := 0) (p := .method 0) (cs := ["match offset 7"]) C68_witnesses.2.2.1 rfl rfl
  ⟨pool, code, before, after, op, h1, h4⟩

end Cafebabe
