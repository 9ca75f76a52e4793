import Verif.Spec.CodeMessage
import Verif.Proofs.Layout
/-!
# Proofs: the error for faulty code
-/

namespace Cafebabe
open Spec

variable (pool : Pool)

theorem ensureType_fail {e : Entry} {t : UInt32} (h : flagsContains32 t e.getType = false) : e.ensureType t = Res.fail "Unexpected constant pool reference type" := by
  unfold Entry.ensureType
  rw [if_neg (by simp [h])]

/-! ## Constants -/

theorem member_kinds {allowed : UInt32} {At : Nat → MemberRef → Prop} {K : Entry → Prop} (hAt : ∀ i m, MemberMask pool allowed i m ↔ At i m)
    (hK : ∀ en : Entry, (K en ∧ en.ensureType allowed = .ok () ∧ ((∃ c m, en = .fieldRef c m) ∨ (∃ c m, en = .methodRef c m) ∨ ∃ c m, en = .interfaceMethodRef c m)) ∨
      (¬ K en ∧ en.ensureType allowed = Res.fail "Unexpected constant pool reference type")) :
    RefReader pool (readCpMemberref pool allowed) At (wrongKind pool K) := by
  refine .kinds (fun N => (readCpMemberref_exact pool allowed).congr fun m seg => ?_) (member_complains pool allowed) fun major hok i en hi => ?_
  · simp only [ref, hAt]
  · rcases hK en with ⟨h1, h2, h3⟩ | ⟨h1, h2⟩
    · refine .inl ⟨h1, ?_⟩
      rw [h2]
      rcases h3 with ⟨c, m, rfl⟩ | ⟨c, m, rfl⟩ | ⟨c, m, rfl⟩ <;>
        exact quiet_bind (fun _ _ _ h => by cases h) fun _ => lift_quiet (quiet_memberRef _ _ _)
    · refine .inr ⟨h1, fun bytes ix => ?_⟩
      rw [h2]
      rfl

theorem fieldRef_reader : RefReader pool (readCpMemberref pool EntryTypes.FIELD_REF) (FieldRefAt pool) (wrongKind pool fun e => ∃ c n, e = .fieldRef c n) :=
  member_kinds pool (fun i m => memberMask_field pool i m) fun en => by
    cases en
    case fieldRef => exact .inl ⟨⟨_, _, rfl⟩, entry_ensureType_ok.mpr (by simp only [Entry.getType]; decide), .inl ⟨_, _, rfl⟩⟩
    all_goals exact .inr ⟨by simp, ensureType_fail (by simp only [Entry.getType]; decide)⟩

theorem methodRef_reader : RefReader pool (readCpMemberref pool EntryTypes.METHOD_REF) (MethodRefAt pool) (wrongKind pool fun e => ∃ c n, e = .methodRef c n) :=
  member_kinds pool (fun i m => memberMask_method pool i m) fun en => by
    cases en
    case methodRef => exact .inl ⟨⟨_, _, rfl⟩, entry_ensureType_ok.mpr (by simp only [Entry.getType]; decide), .inr (.inl ⟨_, _, rfl⟩)⟩
    all_goals exact .inr ⟨by simp, ensureType_fail (by simp only [Entry.getType]; decide)⟩

theorem interfaceMethodRef_reader : RefReader pool (readCpMemberref pool EntryTypes.INTERFACE_METHOD_REF) (InterfaceMethodRefAt pool)
    (wrongKind pool fun e => ∃ c n, e = .interfaceMethodRef c n) :=
  member_kinds pool (fun i m => memberMask_imethod pool i m) fun en => by
    cases en
    case interfaceMethodRef => exact .inl ⟨⟨_, _, rfl⟩, entry_ensureType_ok.mpr (by simp only [Entry.getType]; decide), .inr (.inr ⟨_, _, rfl⟩)⟩
    all_goals exact .inr ⟨by simp, ensureType_fail (by simp only [Entry.getType]; decide)⟩

theorem anyMethodRef_reader : RefReader pool (readCpMemberref pool EntryTypes.NEW_METHOD_REFS) (fun i m => MethodRefAt pool i m ∨ InterfaceMethodRefAt pool i m)
    (wrongKind pool fun e => ∃ c n, e = .methodRef c n ∨ e = .interfaceMethodRef c n) :=
  member_kinds pool (fun i m => memberMask_methods pool i m) fun en => by
    cases en
    case methodRef => exact .inl ⟨⟨_, _, .inl rfl⟩, entry_ensureType_ok.mpr (by simp only [Entry.getType]; decide), .inr (.inl ⟨_, _, rfl⟩)⟩
    case interfaceMethodRef => exact .inl ⟨⟨_, _, .inr rfl⟩, entry_ensureType_ok.mpr (by simp only [Entry.getType]; decide), .inr (.inr ⟨_, _, rfl⟩)⟩
    all_goals exact .inr ⟨by simp, ensureType_fail (by simp only [Entry.getType]; decide)⟩

theorem dynamicRef_reader : RefReader pool (readCpInvokedynamic pool) (InvokeDynamicAt pool) (wrongKind pool fun e => ∃ b x, e = .invokeDynamic b x) :=
  .kinds (fun N => readCpInvokedynamic_exact pool) (dynamic_complains pool) fun major hok i en hi => by
    cases en
    case invokeDynamic => exact .inl ⟨⟨_, _, rfl⟩, lift_quiet (quiet_dynamic _ _ _)⟩
    all_goals exact .inr ⟨by simp, fun _ _ => rfl⟩

theorem loadable_err {pool : Pool} {major : UInt16} (hok : PoolOK major pool) {i : Nat} {e : ParseError} : getCpLoadable i pool = .err e ↔
    (pool.length ≤ i ∧ e = plainly s!"Out-of-bounds index {i} in constant pool reference") ∨ ∃ m, notLoadable pool i m ∧ e = plainly m := by
  unfold getCpLoadable
  split
  · rename_i h
    constructor
    · intro h'; cases h'; exact .inl ⟨h, rfl⟩
    · rintro (⟨-, rfl⟩ | ⟨m, ⟨⟨en, h', -⟩, -⟩, -⟩)
      · rfl
      · have := (List.getElem?_eq_some_iff.mp h').1
        omega
  · rename_i h
    obtain ⟨en, hi⟩ : ∃ en, pool[i]? = some en := ⟨_, List.getElem?_eq_getElem (by omega)⟩
    have hp : poolAt pool i = .ok en := by unfold poolAt; rw [hi]
    rw [hp]
    have no : (¬ ∃ e', pool[i]? = some e' ∧ ¬ LoadKind e') → ¬ ((pool.length ≤ i ∧ e = plainly s!"Out-of-bounds index {i} in constant pool reference") ∨ ∃ m, notLoadable pool i m ∧ e = plainly m) := by
      rintro hn (⟨h', -⟩ | ⟨m, ⟨h', -⟩, -⟩)
      · omega
      · exact hn h'
    have quiet : ∀ r : Res Loadable, Quiet r → LoadKind en → (r = .err e ↔ ((pool.length ≤ i ∧ e = plainly s!"Out-of-bounds index {i} in constant pool reference") ∨ ∃ m, notLoadable pool i m ∧ e = plainly m)) := by
      intro r hq hk
      refine ⟨fun h => absurd h (hq e), fun h => absurd h (no ?_)⟩
      rintro ⟨e', h1, h2⟩
      rw [hi] at h1
      cases h1
      exact h2 hk
    have bad : ¬ LoadKind en → ((Res.fail "Unexpected non-loadable constant pool reference found" : Res Loadable) = .err e ↔
        ((pool.length ≤ i ∧ e = plainly s!"Out-of-bounds index {i} in constant pool reference") ∨ ∃ m, notLoadable pool i m ∧ e = plainly m)) := by
      intro hk
      constructor
      · intro h; cases h; exact .inr ⟨_, ⟨⟨en, hi, hk⟩, rfl⟩, rfl⟩
      · rintro (⟨h', -⟩ | ⟨m, ⟨-, rfl⟩, rfl⟩)
        · omega
        · rfl
    cases en
    case integer | float | long | double => exact quiet _ (Quiet.ok _) (.inl (by simp [LiteralKind]))
    case string => exact quiet _ (show Quiet (_ >>= fun _ => Res.ok _) from Quiet.bind (quiet_stringLiteral _ _) fun _ => Quiet.ok _) (.inl (by simp [LiteralKind]))
    case classInfo => exact quiet _ (show Quiet (_ >>= fun _ => Res.ok _) from Quiet.bind (quiet_peelUtf8 _ _) fun _ => Quiet.ok _) (.inr (.inl ⟨_, rfl⟩))
    case methodHandle => exact quiet _ (show Quiet (_ >>= fun _ => Res.ok _) from Quiet.bind (handle_quiet pool hok hi) fun _ => Quiet.ok _) (.inr (.inr (.inl ⟨_, _, rfl⟩)))
    case methodType => exact quiet _ (show Quiet (_ >>= fun _ => Res.ok _) from Quiet.bind (quiet_peelUtf8 _ _) fun _ => Quiet.ok _) (.inr (.inr (.inr (.inl ⟨_, rfl⟩))))
    case dynamic => exact quiet _ (show Quiet (_ >>= fun _ => Res.ok _) from Quiet.bind (quiet_dynamic _ _ _) fun _ => Quiet.ok _) (.inr (.inr (.inr (.inr ⟨_, _, rfl⟩))))
    all_goals exact bad (by simp [LoadKind, LiteralKind])

theorem load_reader : RefReader pool (readU2 >>= fun i => P.lift (getCpLoadable i.toNat pool)) (LoadableAt pool) (notLoadable pool) := by
  have hx : ∀ N, Exact N (readU2 >>= fun i => P.lift (getCpLoadable i.toNat pool)) (fun a => ref fun i => LoadableAt pool i a) := by
    intro N
    refine (Exact.bind Exact.readU2 fun i => Exact.lift (getCpLoadable i.toNat pool)).congr fun a seg => ?_
    constructor
    · rintro ⟨i, s, t, rfl, rfl, h, rfl⟩
      exact ⟨i, getCpLoadable_ok.mp h, by simp⟩
    · rintro ⟨i, h, rfl⟩
      exact ⟨i, u2 i, [], by simp, rfl, getCpLoadable_ok.mpr h, rfl⟩
  refine ⟨hx, fun {code ix e} hix h => ?_, fun major hok L N => ?_⟩
  · rcases P.bind_errs.mp h with h' | ⟨i, ix', hi, h'⟩
    · exact .inl h'
    · obtain ⟨rfl, -, hd⟩ := stepU2 hi
      refine .inr ⟨i, _, hd, fun a ha => ?_, loadable_says (lift_err h')⟩
      rw [getCpLoadable_ok.mpr ha] at h'
      cases h'
  · refine (Names.bind Names.readU2 Exact.readU2 fun i => Names.lift (getCpLoadable i.toNat pool)).congr fun s e _ => ?_
    refine or_congr_right ?_
    constructor
    · rintro ⟨i, s1, t, rfl, rfl, h⟩
      rcases (loadable_err hok).mp h with ⟨h', rfl⟩ | ⟨m, h', rfl⟩
      · exact .inl ⟨i, t, rfl, h', rfl⟩
      · exact .inr ⟨i, t, m, rfl, h', rfl⟩
    · rintro (⟨i, t, rfl, h, rfl⟩ | ⟨i, t, m, rfl, h, rfl⟩)
      · exact ⟨i, _, t, rfl, rfl, (loadable_err hok).mpr (.inl ⟨h, rfl⟩)⟩
      · exact ⟨i, _, t, rfl, rfl, (loadable_err hok).mpr (.inr ⟨m, h, rfl⟩)⟩

theorem lift_okk {α : Type} {r : Res α} {code : Bytes} {ix ix' : Nat} {a : α} (h : P.lift r code ix = .ok (a, ix')) : r = .ok a := by
  unfold P.lift at h
  cases r with
  | ok a => cases h; rfl
  | err e' => cases h
  | panic k => cases h
  | diverge => cases h

theorem binaryName_head {s : Str} (h : BinaryName s) (r : Str) : s ≠ '[' :: r := by
  obtain ⟨segs, hne, hs, rfl⟩ := h
  match segs, hne, hs with
  | [g], _, hs =>
    intro h
    obtain rfl : g = '[' :: r := h
    exact ((hs _ (List.mem_cons_self ..)).2 '[' (List.mem_cons_self ..)).2.2.1 rfl
  | [] :: t :: rest, _, hs => exact absurd rfl (hs [] (by simp)).1
  | (c :: g) :: t :: rest, _, hs =>
    intro h
    obtain rfl : c = '[' := (List.cons.inj h).1
    exact ((hs _ (List.mem_cons_self ..)).2 '[' (by simp)).2.2.1 rfl

theorem type_reader : RefReader pool (readCpObjectArrayType pool) (ObjectTypeAt pool) (wrongKind pool fun e => ∃ x, e = .classInfo x) :=
  .kinds (fun N => readCpObjectArrayType_exact pool) (objectType_complains pool) fun major hok i en hi => by
    cases en
    case classInfo x =>
      refine .inl ⟨⟨_, rfl⟩, fun bytes ix e h => ?_⟩
      have hx := hok i _ hi
      rcases P.bind_errs.mp h with h | ⟨name, ix1, hn, h⟩
      · exact quiet_peelUtf8 _ _ _ (lift_err h)
      · have hn := lift_okk hn
        rcases P.bind_errs.mp h with h | ⟨d, ix2, -, h⟩
        · have h9 := lift_err h
          cases x with
          | unresolved j => exact hx.elim
          | resolved j =>
            obtain ⟨s, hs, hb⟩ := hx
            obtain rfl : name = s := by
              unfold peelUtf8 peel at hn
              simp only [show pool[j]? = _ from hs] at hn
              cases hn; rfl
            rcases hb with hb | ⟨d, hd, h0, rfl⟩
            · rw [((parseArrayDescriptor_decides name).1 none).mpr (binaryName_head hb)] at h9
              cases h9
            · rw [((parseArrayDescriptor_decides _).1 (some d)).mpr ⟨hd, h0, rfl⟩] at h9
              cases h9
        · cases d <;> cases h
    all_goals exact .inr ⟨by simp, fun _ _ => rfl⟩

/-! ## Operands -/

theorem names_i4 {C : ParseError → Prop} {L N : Nat} : Names C L N readI4 (fun s e => s.length < 4 ∧ e = cutOff L "u4" s) :=
  Names.first Names.readU4 fun _ _ _ _ h => by cases h

theorem s4_of_bytes (s : Bytes) (h : s.length = 4) : ∃ v : Int32, s = s4 v := by
  obtain ⟨a, b, c, d, rfl⟩ := list4 s h
  exact ⟨_, by rw [s4_toInt32]; exact (u4_of_bytes a b c d).symm⟩

theorem Follows.quad {N : Nat} {pool : Pool} : Follows N pool readI4 [Spec.quad] := by
  refine ⟨fun bytes ix hix => ⟨fun a ix' h => ?_, fun e h => ?_⟩, fun bytes ix h1 h2 s rest hs h => ?_,
    fun major hok L => names_i4.congr fun s e _ => number_blame.symm⟩
  · obtain ⟨seg, rest, hd, rfl, rfl⟩ := (readI4_exact (N := bytes.length + 1) bytes ix hix (by omega) a ix').mp h
    exact ⟨_, rest, hd, rfl, allFit_one (.number rfl)⟩
  · have := (names_i4 (C := anyError) (L := bytes.length) (N := bytes.length + 1) bytes ix rfl hix (by omega) e trivial).mp h
    obtain ⟨h1, rfl⟩ := this
    exact firstFault_one (.number h1 ⟨_, rfl⟩)
  · cases allFit_single h with
    | number h =>
      obtain ⟨v, rfl⟩ := s4_of_bytes s h
      exact ⟨v, (readI4_exact bytes ix h1 h2 v _).mpr ⟨_, rest, hs, rfl, rfl⟩⟩

/-- The operands of an opcode, from the model's table. -/
def shapeOperands : Shape → Operands
  | .simple _ => .nothing
  | .i8 _ | .local8 _ => .byte
  | .i16 _ | .branch16 _ => .word
  | .load8 _ => .ldc
  | .load16 _ => .load
  | .branch32 _ => .quad
  | .member _ a => if a = EntryTypes.FIELD_REF then .field else if a = EntryTypes.METHOD_REF then .method else .anyMethod
  | .objArray _ => .type
  | .iinc => .twoBytes
  | .tableswitch => .tableswitch
  | .lookupswitch => .lookupswitch
  | .invokeinterface => .interfaceMethod
  | .invokedynamic => .dynamic
  | .new => .aClass
  | .newarray => .newarray
  | .wide => .wide
  | .multianewarray => .typeAndByte

theorem all_bytes {Q : UInt8 → Prop} (h : ∀ n : Fin 256, Q (UInt8.ofNat n)) (v : UInt8) : Q v := by
  have hv : UInt8.ofNat v.toNat = v := by simp
  rw [← hv]
  exact h ⟨v.toNat, v.toNat_lt⟩

theorem operandsOf_shape (v : UInt8) : (shapeOf v).map shapeOperands = operandsOf v :=
  all_bytes (Q := fun v => (shapeOf v).map shapeOperands = operandsOf v) (by decide +kernel) v

/-- The operands that only one opcode has. -/
def loneByte : Operands → Option UInt8
  | .interfaceMethod => some 0xb9
  | .dynamic => some 0xba
  | .newarray => some 0xbc
  | .ldc => some 0x12
  | .wide => some 0xc4
  | .tableswitch => some 0xaa
  | .lookupswitch => some 0xab
  | _ => none

theorem operands_byte {v w : UInt8} {k : Operands} (h : operandsOf v = some k) (hw : loneByte k = some w) : v = w := by
  have : ((operandsOf v).bind loneByte).all (fun w => v == w) = true :=
    all_bytes (Q := fun v => ((operandsOf v).bind loneByte).all (fun w => v == w) = true) (by decide +kernel) v
  rw [h, Option.bind_some, hw] at this
  simpa using this

/-- What else can be wrong with an instruction with these operands. -/
def Extra (checks : Bool) (pool : Pool) (N start : Nat) (s : Bytes) (e : ParseError) : Operands → Prop
  | .ldc => ∃ (i : UInt8) (t : Bytes), s = i :: t ∧ ((pool.length ≤ i.toNat ∧ e = plainly s!"Out-of-bounds index {i.toNat} in constant pool reference") ∨
      ∃ m, notLoadable pool i.toNat m ∧ e = plainly m)
  | .newarray => ∃ (n : UInt8) (t : Bytes), s = n :: t ∧ ¬ (4 ≤ n.toNat ∧ n.toNat ≤ 11) ∧
      e = plainly s!"Unexpected array type for newarray opcode at index {start + 1}"
  | .interfaceMethod => ∃ (i : UInt16) (k z : UInt8) (m : MemberRef) (t : Bytes), s = u2 i ++ (k :: z :: t) ∧ InterfaceMethodRefAt pool i.toNat m ∧ z ≠ 0 ∧
      e = plainly s!"Nonzero byte found where zero byte expected in invokeinterface opcode at index {start + 4}"
  | .dynamic => ∃ (i z : UInt16) (d : DynamicRef) (t : Bytes), s = u2 i ++ (u2 z ++ t) ∧ InvokeDynamicAt pool i.toNat d ∧ z ≠ 0 ∧
      e = plainly s!"Nonzero bytes found where zero bytes expected in invokedynamic opcode at index {start + 3}"
  | .wide => ∃ (v : UInt8) (t : Bytes), s = v :: t ∧ ((v ∉ wideOpcodes ∧ e = plainly s!"Unexpected opcode {v} inside wide modifier at index {start + 1}") ∨
      (v ∈ wideOpcodes ∧ v ≠ 0x84 ∧ FirstBlame N pool [word] t e) ∨ (v = 0x84 ∧ FirstBlame N pool [word, word] t e))
  | .tableswitch => (∃ k, s.length < k ∧ k < 4 ∧ (start + 1 + k) % 4 = 0 ∧ e = plainly s!"Unexpected end of stream reading u4 at index {start + 1 + k}") ∨
      ∃ pad t, s = pad ++ t ∧ padding (start + 1) pad ∧ (FirstBlame N pool [quad, quad, quad] t e ∨ ∃ (d low high : Int32) (t' : Bytes),
        t = s4 d ++ (s4 low ++ (s4 high ++ t')) ∧
        ((high.toInt < low.toInt ∧ e = plainly s!"The low value must be less than or equal to the high value in tableswitch at index {start + 1 + pad.length + 8}") ∨
          (checks = false ∧ 2147483648 ≤ high.toInt - low.toInt + 1 ∧ high.toInt - low.toInt + 1 < 4294967296 ∧
            e = plainly s!"Unable to convert range to usize in tableswitch at index {start + 1 + pad.length + 8}") ∨
          (low.toInt ≤ high.toInt ∧ high.toInt - low.toInt + 1 < 2147483648 ∧ FirstBlame N pool (rows (high.toInt - low.toInt + 1).toNat fun _ => [quad]) t' e)))
  | .lookupswitch => (∃ k, s.length < k ∧ k < 4 ∧ (start + 1 + k) % 4 = 0 ∧ e = plainly s!"Unexpected end of stream reading u4 at index {start + 1 + k}") ∨
      ∃ pad t, s = pad ++ t ∧ padding (start + 1) pad ∧ (FirstBlame N pool [quad, quad] t e ∨ ∃ (d n : Int32) (t' : Bytes), t = s4 d ++ (s4 n ++ t') ∧
        ((n.toInt < 0 ∧ e = plainly s!"Number of pairs in lookupswitch must be non-negative at index {start + 1 + pad.length + 4}") ∨
          (0 ≤ n.toInt ∧ FirstBlame N pool (rows n.toInt.toNat fun _ => [quad, quad]) t' e)))
  | _ => False

theorem insnWrong_iff {checks : Bool} {pool : Pool} {N start : Nat} {b : UInt8} {t : Bytes} {e : ParseError} : InsnWrong checks pool N start (b :: t) e ↔
    match operandsOf b with
    | none => e = plainly s!"Unexpected opcode {b} at index {start}"
    | some k => FirstBlame N pool (operandParts pool k) t e ∨ Extra checks pool N start t e k := by
  constructor
  · intro h
    cases h with
    | opcode h => rw [h]
    | operands h h' => rw [h]; exact .inl h'
    | ldcOutside h => exact .inr ⟨_, _, rfl, .inl ⟨h, rfl⟩⟩
    | ldc h => exact .inr ⟨_, _, rfl, .inr ⟨_, h, rfl⟩⟩
    | newarray h => exact .inr ⟨_, _, rfl, h, rfl⟩
    | invokeinterface h h' => exact .inr ⟨_, _, _, _, _, rfl, h, h', rfl⟩
    | invokedynamic h h' => exact .inr ⟨_, _, _, _, rfl, h, h', rfl⟩
    | wide h => exact .inr ⟨_, _, rfl, .inl ⟨h, rfl⟩⟩
    | wideLocal h h' h'' => exact .inr ⟨_, _, rfl, .inr (.inl ⟨h, h', h''⟩)⟩
    | wideIinc h => exact .inr ⟨_, _, rfl, .inr (.inr ⟨rfl, h⟩)⟩
    | noPadding hb h1 h2 h3 =>
      rcases hb with rfl | rfl
      · exact .inr (.inl ⟨_, h1, h2, h3, rfl⟩)
      · exact .inr (.inl ⟨_, h1, h2, h3, rfl⟩)
    | tableHeader h h' => exact .inr (.inr ⟨_, _, rfl, h, .inl h'⟩)
    | lowHigh h h' => exact .inr (.inr ⟨_, _, rfl, h, .inr ⟨_, _, _, _, rfl, .inl ⟨h', rfl⟩⟩⟩)
    | span h0 h h' h'' => exact .inr (.inr ⟨_, _, rfl, h, .inr ⟨_, _, _, _, rfl, .inr (.inl ⟨h0, h', h'', rfl⟩)⟩⟩)
    | jumps h h1 h2 h3 => exact .inr (.inr ⟨_, _, rfl, h, .inr ⟨_, _, _, _, rfl, .inr (.inr ⟨h1, h2, h3⟩)⟩⟩)
    | lookupHeader h h' => exact .inr (.inr ⟨_, _, rfl, h, .inl h'⟩)
    | negative h h' => exact .inr (.inr ⟨_, _, rfl, h, .inr ⟨_, _, _, rfl, .inl ⟨h', rfl⟩⟩⟩)
    | pairs h h1 h2 => exact .inr (.inr ⟨_, _, rfl, h, .inr ⟨_, _, _, rfl, .inr ⟨h1, h2⟩⟩⟩)
  · cases hb : operandsOf b with
    | none => rintro rfl; exact .opcode hb
    | some k =>
      rintro (h | h)
      · exact .operands hb h
      · cases k
        case ldc =>
          obtain rfl := operands_byte hb rfl
          obtain ⟨i, t, rfl, ⟨h, rfl⟩ | ⟨m, h, rfl⟩⟩ := h
          · exact .ldcOutside h
          · exact .ldc h
        case newarray =>
          obtain rfl := operands_byte hb rfl
          obtain ⟨n, t, rfl, h, rfl⟩ := h
          exact .newarray h
        case interfaceMethod =>
          obtain rfl := operands_byte hb rfl
          obtain ⟨i, k, z, m, t, rfl, h, h', rfl⟩ := h
          exact .invokeinterface h h'
        case dynamic =>
          obtain rfl := operands_byte hb rfl
          obtain ⟨i, z, m, t, rfl, h, h', rfl⟩ := h
          exact .invokedynamic h h'
        case wide =>
          obtain rfl := operands_byte hb rfl
          obtain ⟨v, t, rfl, ⟨h, rfl⟩ | ⟨h, h', h''⟩ | ⟨rfl, h⟩⟩ := h
          · exact .wide h
          · exact .wideLocal h h' h''
          · exact .wideIinc h
        case tableswitch =>
          obtain rfl := operands_byte hb rfl
          rcases h with ⟨k, h1, h2, h3, rfl⟩ | ⟨pad, t, rfl, h, h' | ⟨d, low, high, t, rfl, ⟨h', rfl⟩ | ⟨h0, h1, h2, rfl⟩ | ⟨h1, h2, h3⟩⟩⟩
          · exact .noPadding (.inl rfl) h1 h2 h3
          · exact .tableHeader h h'
          · exact .lowHigh h h'
          · exact .span h0 h h1 h2
          · exact .jumps h h1 h2 h3
        case lookupswitch =>
          obtain rfl := operands_byte hb rfl
          rcases h with ⟨k, h1, h2, h3, rfl⟩ | ⟨pad, t, rfl, h, h' | ⟨d, n, t, rfl, ⟨h', rfl⟩ | ⟨h1, h2⟩⟩⟩
          · exact .noPadding (.inr rfl) h1 h2 h3
          · exact .lookupHeader h h'
          · exact .negative h h'
          · exact .pairs h h1 h2
        all_goals exact h.elim

/-! ## One instruction -/

theorem jumpSpan_cases (checks : Bool) {low high : Int32} (hle : low.toInt ≤ high.toInt) :
    (high.toInt - low.toInt + 1 < 2147483648 ∧ ∃ span, jumpSpan checks low high = .ok span ∧ span.toInt = high.toInt - low.toInt + 1) ∨
      (2147483648 ≤ high.toInt - low.toInt + 1 ∧ checks = true ∧ jumpSpan checks low high = .panic .overflow) ∨
      (2147483648 ≤ high.toInt - low.toInt + 1 ∧ high.toInt - low.toInt + 1 < 4294967296 ∧ checks = false ∧
        ∃ span, jumpSpan checks low high = .ok span ∧ span.toInt < 0) ∨
      (high.toInt - low.toInt + 1 = 4294967296 ∧ checks = false ∧ ∃ span, jumpSpan checks low high = .ok span ∧ span.toInt = 0) := by
  have l1 := int32_low low; have h1 := int32_high low
  have l2 := int32_low high; have h2 := int32_high high
  have hsub : (high - low).toInt = (high.toInt - low.toInt).bmod 4294967296 := Int32.toInt_sub ..
  have hadd : (high - low + 1).toInt = ((high - low).toInt + 1).bmod 4294967296 := Int32.toInt_add ..
  have bm : ∀ x : Int, x.bmod 4294967296 = if x % 4294967296 < 2147483648 then x % 4294967296 else x % 4294967296 - 4294967296 := by
    intro x; rw [Int.bmod_def]; rfl
  rw [bm] at hsub hadd
  unfold jumpSpan
  cases checks with
  | true =>
    simp only [Bool.true_and, Bool.or_eq_true, decide_eq_true_eq]
    by_cases hb : high.toInt - low.toInt + 1 < 2147483648
    · refine .inl ⟨hb, high - low + 1, ?_, by split at hsub <;> split at hadd <;> omega⟩
      rw [if_neg (by omega), if_neg (by split at hsub <;> omega)]
    · refine .inr (.inl ⟨by omega, trivial, ?_⟩)
      split
      · rfl
      · rw [if_pos (by split at hsub <;> omega)]
  | false =>
    simp only [Bool.false_and, Bool.false_eq_true, if_false]
    by_cases hb : high.toInt - low.toInt + 1 < 2147483648
    · exact .inl ⟨hb, high - low + 1, rfl, by split at hsub <;> split at hadd <;> omega⟩
    · by_cases hc : high.toInt - low.toInt + 1 < 4294967296
      · exact .inr (.inr (.inl ⟨by omega, hc, trivial, high - low + 1, rfl, by split at hsub <;> split at hadd <;> omega⟩))
      · exact .inr (.inr (.inr ⟨by omega, trivial, high - low + 1, rfl, by split at hsub <;> split at hadd <;> omega⟩))

theorem pure_then {α β : Type} (a : α) (f : α → P β) : ((Pure.pure a : P α) >>= f) = f a := rfl

section
variable {checks : Bool} {pool : Pool} {code : Bytes} {start : Nat} (hs : start < code.length) {major : UInt16} (hok : PoolOK major pool) {e : ParseError}
include hs

theorem at_start {α : Type} {p : P α} {R : Bytes → ParseError → Prop} (h : Names anyError code.length (code.length + 1) p R) :
    p code (start + 1) = .err e ↔ R (code.drop (start + 1)) e := h code (start + 1) rfl hs (by omega) e trivial

theorem lengths {s t : Bytes} (h : code.drop (start + 1) = s ++ t) : code.length - t.length = start + 1 + s.length := by
  have := congrArg List.length h
  simp at this
  omega

include hok

theorem plain_wrong {α : Type} {p : P α} {ps : List Part} (h : Follows (code.length + 1) pool p ps) :
    p code (start + 1) = .err e ↔ FirstBlame code.length pool ps (code.drop (start + 1)) e ∨ False := by
  rw [or_false]
  exact at_start hs (h.2.2 major hok code.length)

theorem ldc_wrong {f : Loadable → Opcode} : readShape checks pool (.load8 f) code (start + 1) = .err e ↔
    FirstBlame code.length pool [octet] (code.drop (start + 1)) e ∨ Extra checks pool code.length start (code.drop (start + 1)) e .ldc := by
  refine (at_start hs (Names.bind (Follows.octet.2.2 major hok _) Exact.readU1 fun i => Names.first (f := fun l => Pure.pure (f l)) (Names.lift (getCpLoadable i.toNat pool))
    fun _ _ _ _ h => by cases h)).trans (or_congr_right ?_)
  constructor
  · rintro ⟨i, s1, t, h1, rfl, h⟩
    exact ⟨i, t, h1, (loadable_err hok).mp h⟩
  · rintro ⟨i, t, h1, h⟩
    exact ⟨i, _, t, h1, rfl, (loadable_err hok).mpr h⟩

theorem newarray_wrong : readNewarray code (start + 1) = .err e ↔
    FirstBlame code.length pool [octet] (code.drop (start + 1)) e ∨ Extra checks pool code.length start (code.drop (start + 1)) e .newarray := by
  have hn : ∀ n : UInt8, primitiveArrayTypeOf n = none ↔ ¬ (4 ≤ n.toNat ∧ n.toNat ≤ 11) :=
    all_bytes (Q := fun n => primitiveArrayTypeOf n = none ↔ ¬ (4 ≤ n.toNat ∧ n.toNat ≤ 11)) (by decide +kernel)
  refine (at_start hs (Names.bind (Follows.octet.2.2 major hok _) Exact.readU1 (H := fun n s e => primitiveArrayTypeOf n = none ∧
    e = plainly s!"Unexpected array type for newarray opcode at index {code.length - s.length - 1}") fun n => ?_)).trans (or_congr_right ?_)
  · cases hp : primitiveArrayTypeOf n with
    | some k => exact (Names.pure _).congr fun s e _ => by simp
    | none => exact (Names.getIxBind fun ix => Names.failWith _).congr fun s e _ => by simp
  · constructor
    · rintro ⟨n, s1, t, h1, rfl, h2, rfl⟩
      refine ⟨n, t, h1, (hn n).mp h2, ?_⟩
      rw [lengths hs h1]; rfl
    · rintro ⟨n, t, h1, h2, rfl⟩
      refine ⟨n, _, t, h1, rfl, (hn n).mpr h2, ?_⟩
      rw [lengths (s := [n]) hs h1]; rfl

theorem wide_wrong : readWide code (start + 1) = .err e ↔
    FirstBlame code.length pool [octet] (code.drop (start + 1)) e ∨ Extra checks pool code.length start (code.drop (start + 1)) e .wide := by
  have hw : ∀ v : UInt8, wideTable.lookup v = none ∧ v ≠ 0x84 ↔ v ∉ wideOpcodes := by
    have := all_bytes (Q := fun v => (wideTable.lookup v).isNone ∧ v ≠ 0x84 ↔ v ∉ wideOpcodes) (by decide +kernel)
    intro v
    rw [← this v, Option.isNone_iff_eq_none]
  refine (at_start hs (Names.bind (Follows.octet.2.2 major hok _) Exact.readU1 (H := fun v s e =>
    (v ∉ wideOpcodes ∧ e = plainly s!"Unexpected opcode {v} inside wide modifier at index {code.length - s.length - 1}") ∨
      (v ∈ wideOpcodes ∧ v ≠ 0x84 ∧ FirstBlame code.length pool [word] s e) ∨ (v = 0x84 ∧ FirstBlame code.length pool [word, word] s e)) fun v => ?_)).trans (or_congr_right ?_)
  · split
    · rename_i h
      obtain rfl : v = 0x84 := by simpa using h
      refine ((Follows.cons Follows.word fun _ => Follows.last Follows.word).2.2 major hok code.length).congr fun s e _ => ?_
      have : (0x84 : UInt8) ∈ wideOpcodes := by decide
      simp [this]
    · rename_i h
      have h : v ≠ 0x84 := by simpa using h
      cases hl : wideTable.lookup v with
      | some f =>
        have hm : v ∈ wideOpcodes := by
          by_contra hc
          rw [((hw v).mpr hc).1] at hl
          cases hl
        exact ((Follows.last Follows.word).2.2 major hok code.length).congr fun s e _ => by simp [h, hm]
      | none =>
        have hm : v ∉ wideOpcodes := (hw v).mp ⟨hl, h⟩
        exact (Names.getIxBind fun ix => Names.failWith _).congr fun s e _ => by simp [h, hm]
  · constructor
    · rintro ⟨v, s1, t, h1, rfl, h⟩
      refine ⟨v, t, h1, ?_⟩
      rw [lengths hs h1] at h
      exact h
    · rintro ⟨v, t, h1, h⟩
      refine ⟨v, _, t, h1, rfl, ?_⟩
      rw [lengths (s := [v]) hs h1]
      exact h

theorem dynamic_wrong : readInvokedynamic pool code (start + 1) = .err e ↔
    FirstBlame code.length pool [dynamicIx pool, word] (code.drop (start + 1)) e ∨ Extra checks pool code.length start (code.drop (start + 1)) e .dynamic := by
  have e1 : readInvokedynamic pool = (readCpInvokedynamic pool >>= fun d => readU2 >>= fun z => Pure.pure (d, z)) >>= fun x =>
      P.getIx >>= fun ix => if x.2 != 0 then P.fail s!"Nonzero bytes found where zero bytes expected in invokedynamic opcode at index {ix - 2}" else Pure.pure (.invokedynamic x.1) := by
    rw [← P.bind_assoc]
    unfold readInvokedynamic
    congr 1
    funext d
    rw [← P.bind_assoc]
    rfl
  rw [e1]
  refine (at_start hs (Names.bind (F := fun x seg => ∃ i : UInt16, InvokeDynamicAt pool i.toNat x.1 ∧ seg = u2 i ++ u2 x.2)
    ((Follows.cons (Follows.constant (dynamicRef_reader pool)) fun d => Follows.last (f := fun z => (d, z)) Follows.word).2.2 major hok _) ?_
    (H := fun x s e => x.2 ≠ 0 ∧ e = plainly s!"Nonzero bytes found where zero bytes expected in invokedynamic opcode at index {code.length - s.length - 2}") fun x => ?_)).trans
    (or_congr_right ?_)
  · refine (Exact.bind (readCpInvokedynamic_exact pool) fun d => Exact.bind Exact.readU2 fun z => Exact.pure (d, z)).congr fun x seg => ?_
    constructor
    · rintro ⟨d, s, t, rfl, ⟨i, hi, rfl⟩, z, s', t', rfl, rfl, rfl, rfl⟩
      exact ⟨i, hi, by simp⟩
    · rintro ⟨i, hi, rfl⟩
      exact ⟨x.1, _, _, rfl, ⟨i, hi, rfl⟩, x.2, _, [], by simp, rfl, rfl, rfl⟩
  · refine (Names.getIxBind fun ix => Names.ite (fun _ => Names.failWith _) fun _ => Names.pure _).congr fun s e _ => ?_
    simp
  · constructor
    · rintro ⟨⟨d, z⟩, s1, t, h1, ⟨i, hi, rfl⟩, h2, rfl⟩
      refine ⟨i, z, d, t, by rw [h1]; simp, hi, h2, ?_⟩
      rw [lengths hs h1]; rfl
    · rintro ⟨i, z, d, t, h1, hi, h2, rfl⟩
      have h1 : code.drop (start + 1) = (u2 i ++ u2 z) ++ t := by rw [h1]; simp
      refine ⟨(d, z), _, t, h1, ⟨i, hi, rfl⟩, h2, ?_⟩
      rw [lengths hs h1]; rfl

theorem interface_wrong : readInvokeinterface pool code (start + 1) = .err e ↔
    FirstBlame code.length pool [interfaceMethodIx pool, octet, octet] (code.drop (start + 1)) e ∨
      Extra checks pool code.length start (code.drop (start + 1)) e .interfaceMethod := by
  have e1 : readInvokeinterface pool = (readCpMemberref pool EntryTypes.INTERFACE_METHOD_REF >>= fun m => readU1 >>= fun k => readU1 >>= fun z => Pure.pure (m, k, z)) >>= fun x =>
      P.getIx >>= fun ix => if x.2.2 != 0 then P.fail s!"Nonzero byte found where zero byte expected in invokeinterface opcode at index {ix - 1}"
        else Pure.pure (.invokeinterface x.1 x.2.1) := by
    rw [← P.bind_assoc]
    unfold readInvokeinterface
    congr 1
    funext m
    rw [← P.bind_assoc]
    congr 1
    funext k
    rw [← P.bind_assoc]
    rfl
  rw [e1]
  refine (at_start hs (Names.bind (F := fun x seg => ∃ i : UInt16, InterfaceMethodRefAt pool i.toNat x.1 ∧ seg = u2 i ++ [x.2.1, x.2.2])
    ((Follows.cons (Follows.constant (interfaceMethodRef_reader pool)) fun m => Follows.cons Follows.octet fun k => Follows.last (f := fun z => (m, k, z)) Follows.octet).2.2 major hok _) ?_
    (H := fun x s e => x.2.2 ≠ 0 ∧ e = plainly s!"Nonzero byte found where zero byte expected in invokeinterface opcode at index {code.length - s.length - 1}") fun x => ?_)).trans
    (or_congr_right ?_)
  · refine (Exact.bind ((interfaceMethodRef_reader pool).exact _) fun d => Exact.bind Exact.readU1 fun k => Exact.bind Exact.readU1 fun z => Exact.pure (d, k, z)).congr fun x seg => ?_
    constructor
    · rintro ⟨d, s, t, rfl, ⟨i, hi, rfl⟩, k, s', t', rfl, rfl, z, s'', t'', rfl, rfl, rfl, rfl⟩
      exact ⟨i, hi, by simp [u1]⟩
    · rintro ⟨i, hi, rfl⟩
      exact ⟨x.1, _, _, rfl, ⟨i, hi, rfl⟩, x.2.1, _, _, rfl, rfl, x.2.2, _, [], rfl, rfl, rfl, rfl⟩
  · refine (Names.getIxBind fun ix => Names.ite (fun _ => Names.failWith _) fun _ => Names.pure _).congr fun s e _ => ?_
    simp
  · constructor
    · rintro ⟨⟨d, k, z⟩, s1, t, h1, ⟨i, hi, rfl⟩, h2, rfl⟩
      refine ⟨i, k, z, d, t, by rw [h1]; simp, hi, h2, ?_⟩
      rw [lengths hs h1]; rfl
    · rintro ⟨i, k, z, d, t, h1, hi, h2, rfl⟩
      have h1 : code.drop (start + 1) = (u2 i ++ [k, z]) ++ t := by rw [h1]; simp
      refine ⟨(d, k, z), _, t, h1, ⟨i, hi, rfl⟩, h2, ?_⟩
      rw [lengths hs h1]; rfl

omit hok

theorem padded_iff {α : Type} {p : P α} {R : Bytes → ParseError → Prop} (hp : Names anyError code.length (code.length + 1) p R)
    (hpast : ∀ ix, code.length < ix → p code ix = .err (plainly s!"Unexpected end of stream reading u4 at index {ix}")) :
    (skipPadding >>= fun _ => p) code (start + 1) = .err e ↔
    (∃ k, (code.drop (start + 1)).length < k ∧ k < 4 ∧ (start + 1 + k) % 4 = 0 ∧ e = plainly s!"Unexpected end of stream reading u4 at index {start + 1 + k}") ∨
      ∃ pad t, code.drop (start + 1) = pad ++ t ∧ padding (start + 1) pad ∧ code.length - t.length = start + 1 + pad.length ∧ R t e := by
  change p code (alignUp4 (start + 1)) = .err e ↔ _
  have hal : ∀ k, k < 4 → (start + 1 + k) % 4 = 0 → alignUp4 (start + 1) = start + 1 + k := by
    intro k h1 h2
    unfold alignUp4
    omega
  rw [List.length_drop]
  by_cases hl : alignUp4 (start + 1) ≤ code.length
  · obtain ⟨pad, hpad, ha, hd⟩ := align_pad (code := code) (ix := start + 1) hs hl
    rw [hp code _ rfl hl (by omega) e trivial]
    constructor
    · intro h; exact .inr ⟨pad, _, hd, hpad, lengths hs hd, h⟩
    · rintro (⟨k, h1, h2, h3, -⟩ | ⟨pad', t, hd', hpad', -, h⟩)
      · have := hal k h2 h3; omega
      · have e1 := hal _ hpad'.1 hpad'.2
        rw [e1, ← List.drop_drop, hd', List.drop_left]
        exact h
  · rw [hpast _ (by omega)]
    constructor
    · intro h
      cases h
      refine .inl ⟨alignUp4 (start + 1) - (start + 1), by omega, by unfold alignUp4; omega, by unfold alignUp4; omega, ?_⟩
      rw [show start + 1 + (alignUp4 (start + 1) - (start + 1)) = alignUp4 (start + 1) by omega]
    · rintro (⟨k, h1, h2, h3, rfl⟩ | ⟨pad', t, hd', hpad', -, h⟩)
      · rw [hal k h2 h3]
      · have e1 := hal _ hpad'.1 hpad'.2
        have := lengths hs hd'
        omega

omit hs in
theorem i4_past {α : Type} {f : Int32 → P α} {ix : Nat} (h : code.length < ix) : (readI4 >>= f) code ix = .err (plainly s!"Unexpected end of stream reading u4 at index {ix}") := by
  refine P.bind_errs.mpr (.inl (P.bind_errs.mpr (.inl ?_)))
  unfold readU4
  rw [if_pos (by omega)]
  rfl

include hok

theorem lookup_wrong : readLookupswitch code (start + 1) = .err e ↔ Extra checks pool code.length start (code.drop (start + 1)) e .lookupswitch := by
  have e1 : readLookupswitch = skipPadding >>= fun _ => (readI4 >>= fun d => readI4 >>= fun n => Pure.pure (d, n)) >>= fun x =>
      P.getIx >>= fun ix => if x.2.toInt < 0 then P.fail s!"Number of pairs in lookupswitch must be non-negative at index {ix - 4}"
        else (P.forRange x.2.toInt.toNat fun _ => (readI4 >>= fun a => readI4 >>= fun b => Pure.pure (a, b) : P (Int32 × Int32))) >>= fun l =>
          Pure.pure (.lookupswitch { default := x.1, matchOffsets := l }) := by
    unfold readLookupswitch lookupswitchHeader
    simp only [P.bind_assoc', pure_then]
    congr 1; funext _; congr 1; funext d; congr 1; funext n
    congr 1; funext ix
    split <;> rfl
  rw [e1]
  have hn : Names anyError code.length (code.length + 1) _ _ := Names.bind (C := anyError) (L := code.length) (N := code.length + 1)
    (p := readI4 >>= fun d => readI4 >>= fun n => Pure.pure (d, n)) (f := fun x =>
      P.getIx >>= fun ix => if x.2.toInt < 0 then P.fail s!"Number of pairs in lookupswitch must be non-negative at index {ix - 4}"
        else (P.forRange x.2.toInt.toNat fun _ => (readI4 >>= fun a => readI4 >>= fun b => Pure.pure (a, b) : P (Int32 × Int32))) >>= fun l =>
          Pure.pure (Opcode.lookupswitch { default := x.1, matchOffsets := l }))
    (F := fun x seg => seg = s4 x.1 ++ s4 x.2)
    ((Follows.cons Follows.quad fun d => Follows.last (f := fun n => (d, n)) Follows.quad).2.2 major hok _)
    (by
      refine (Exact.bind readI4_exact fun d => Exact.bind readI4_exact fun n => Exact.pure (d, n)).congr fun x seg => ?_
      constructor
      · rintro ⟨d, s, t, rfl, rfl, n, s', t', rfl, rfl, rfl, rfl⟩; simp
      · rintro rfl; exact ⟨x.1, _, _, rfl, rfl, x.2, _, [], by simp, rfl, rfl, rfl⟩)
    fun x => Names.getIxBind fun ix => Names.ite (fun _ => Names.failWith _) fun _ =>
      (Follows.last (Follows.forRange (fun _ => Follows.cons Follows.quad fun a => Follows.last (f := fun b => (a, b)) Follows.quad) x.2.toInt.toNat)).2.2 major hok _
  refine (padded_iff hs hn fun ix h => ?_).trans (or_congr_right ?_)
  · rw [← P.bind_assoc]; exact i4_past h
  · constructor
    · rintro ⟨pad, t, hd, hpad, hl, h | ⟨⟨d, n⟩, s1, t', rfl, rfl, h⟩⟩
      · exact ⟨pad, t, hd, hpad, .inl h⟩
      · refine ⟨pad, _, hd, hpad, .inr ⟨d, n, t', by simp, ?_⟩⟩
        rcases h with ⟨h, rfl⟩ | ⟨h, h'⟩
        · refine .inl ⟨h, ?_⟩
          rw [lengths hs (s := pad ++ (s4 d ++ s4 n)) (t := t') (by rw [hd]; simp)]
          rw [show start + 1 + (pad ++ (s4 d ++ s4 n)).length - 4 = start + 1 + pad.length + 4 by
            have : (s4 d).length = 4 := rfl
            have : (s4 n).length = 4 := rfl
            simp only [List.length_append]; omega]
        · exact .inr ⟨Int.not_lt.mp h, h'⟩
    · rintro ⟨pad, t, hd, hpad, h | ⟨d, n, t', rfl, h⟩⟩
      · exact ⟨pad, t, hd, hpad, lengths hs hd, .inl h⟩
      · refine ⟨pad, _, hd, hpad, lengths hs hd, .inr ⟨(d, n), _, t', by rw [← List.append_assoc], rfl, ?_⟩⟩
        rcases h with ⟨h, rfl⟩ | ⟨h, h'⟩
        · refine .inl ⟨h, ?_⟩
          rw [lengths hs (s := pad ++ (s4 d ++ s4 n)) (t := t') (by rw [hd]; simp)]
          rw [show start + 1 + (pad ++ (s4 d ++ s4 n)).length - 4 = start + 1 + pad.length + 4 by
            have : (s4 d).length = 4 := rfl
            have : (s4 n).length = 4 := rfl
            simp only [List.length_append]; omega]
        · exact .inr ⟨by simp only; omega, h'⟩

theorem table_wrong : readTableswitch checks code (start + 1) = .err e ↔ Extra checks pool code.length start (code.drop (start + 1)) e .tableswitch := by
  have e1 : readTableswitch checks = skipPadding >>= fun _ => (readI4 >>= fun d => readI4 >>= fun l => readI4 >>= fun h => Pure.pure (d, l, h)) >>= fun x =>
      P.getIx >>= fun ix => if x.2.1 > x.2.2 then P.fail s!"The low value must be less than or equal to the high value in tableswitch at index {ix - 4}"
        else P.lift (jumpSpan checks x.2.1 x.2.2) >>= fun span => if span.toInt < 0 then P.fail s!"Unable to convert range to usize in tableswitch at index {ix - 4}"
          else (P.forRange span.toInt.toNat fun _ => readI4) >>= fun l =>
            Pure.pure (.tableswitch { default := x.1, low := x.2.1, high := x.2.2, jumps := l }) := by
    unfold readTableswitch tableswitchHeader
    simp only [P.bind_assoc', pure_then]
    congr 1; funext _; congr 1; funext d; congr 1; funext l; congr 1; funext h
    congr 1; funext ix
    split
    · rfl
    · simp only [P.bind_assoc']
      congr 1; funext sp
      split <;> rfl
  rw [e1]
  have hn : Names anyError code.length (code.length + 1) _ _ := Names.bind (C := anyError) (L := code.length) (N := code.length + 1)
    (p := readI4 >>= fun d => readI4 >>= fun l => readI4 >>= fun h => Pure.pure (d, l, h)) (f := fun x =>
      P.getIx >>= fun ix => if x.2.1 > x.2.2 then P.fail s!"The low value must be less than or equal to the high value in tableswitch at index {ix - 4}"
        else P.lift (jumpSpan checks x.2.1 x.2.2) >>= fun span => if span.toInt < 0 then P.fail s!"Unable to convert range to usize in tableswitch at index {ix - 4}"
          else (P.forRange span.toInt.toNat fun _ => readI4) >>= fun l =>
            Pure.pure (Opcode.tableswitch { default := x.1, low := x.2.1, high := x.2.2, jumps := l }))
    (F := fun x seg => seg = s4 x.1 ++ (s4 x.2.1 ++ s4 x.2.2))
    (H := fun x s e => (x.2.2.toInt < x.2.1.toInt ∧ e = plainly s!"The low value must be less than or equal to the high value in tableswitch at index {code.length - s.length - 4}") ∨
      (checks = false ∧ 2147483648 ≤ x.2.2.toInt - x.2.1.toInt + 1 ∧ x.2.2.toInt - x.2.1.toInt + 1 < 4294967296 ∧
        e = plainly s!"Unable to convert range to usize in tableswitch at index {code.length - s.length - 4}") ∨
      (x.2.1.toInt ≤ x.2.2.toInt ∧ x.2.2.toInt - x.2.1.toInt + 1 < 2147483648 ∧
        FirstBlame code.length pool (rows (x.2.2.toInt - x.2.1.toInt + 1).toNat fun _ => [quad]) s e))
    ((Follows.cons Follows.quad fun d => Follows.cons Follows.quad fun l => Follows.last (f := fun h => (d, l, h)) Follows.quad).2.2 major hok _)
    (by
      refine (Exact.bind readI4_exact fun d => Exact.bind readI4_exact fun l => Exact.bind readI4_exact fun h => Exact.pure (d, l, h)).congr fun x seg => ?_
      constructor
      · rintro ⟨d, s, t, rfl, rfl, n, s', t', rfl, rfl, h, s'', t'', rfl, rfl, rfl, rfl⟩; simp
      · rintro rfl; exact ⟨x.1, _, _, rfl, rfl, x.2.1, _, _, rfl, rfl, x.2.2, _, [], by simp, rfl, rfl, rfl⟩)
    (by
      rintro ⟨d, low, high⟩
      refine (Names.getIxBind (H := fun ix s e => (high.toInt < low.toInt ∧ e = plainly s!"The low value must be less than or equal to the high value in tableswitch at index {ix - 4}") ∨
        (checks = false ∧ 2147483648 ≤ high.toInt - low.toInt + 1 ∧ high.toInt - low.toInt + 1 < 4294967296 ∧
          e = plainly s!"Unable to convert range to usize in tableswitch at index {ix - 4}") ∨
        (low.toInt ≤ high.toInt ∧ high.toInt - low.toInt + 1 < 2147483648 ∧
          FirstBlame code.length pool (rows (high.toInt - low.toInt + 1).toNat fun _ => [quad]) s e)) fun ix => ?_)
      dsimp only
      by_cases hgt : low > high
      · have hlt : high.toInt < low.toInt := Int32.lt_iff_toInt_lt.mp hgt
        rw [if_pos hgt]
        refine (Names.failWith _).congr fun s e _ => ?_
        constructor
        · intro h; exact .inl ⟨hlt, h⟩
        · rintro (⟨-, h⟩ | ⟨-, h, -⟩ | ⟨h, -⟩)
          · exact h
          · omega
          · omega
      · have hle : low.toInt ≤ high.toInt := by
          by_contra hc
          exact hgt (Int32.lt_iff_toInt_lt.mpr (by omega))
        rw [if_neg hgt]
        rcases jumpSpan_cases checks hle with ⟨hb, span, hj, hsp⟩ | ⟨hb, hc, hj⟩ | ⟨hb, hb', hc, span, hj, hsp⟩ | ⟨hb, hc, span, hj, hsp⟩
        · rw [hj]
          change Names anyError _ _ (if span.toInt < 0 then _ else _) _
          rw [if_neg (by omega), hsp]
          refine ((Follows.last (Follows.forRange (fun _ => Follows.quad) _)).2.2 major hok _).congr fun s e _ => ?_
          constructor
          · intro h; exact .inr (.inr ⟨hle, hb, h⟩)
          · rintro (⟨h, -⟩ | ⟨-, h, -⟩ | ⟨-, -, h⟩)
            · omega
            · omega
            · exact h
        · rw [hj]
          refine (Names.never fun _ _ _ h => by cases h).congr fun s e _ => ?_
          constructor
          · exact False.elim
          · rintro (⟨h, -⟩ | ⟨h, -, -⟩ | ⟨-, h, -⟩)
            · omega
            · rw [hc] at h; cases h
            · omega
        · rw [hj]
          change Names anyError _ _ (if span.toInt < 0 then _ else _) _
          rw [if_pos hsp]
          refine (Names.failWith _).congr fun s e _ => ?_
          constructor
          · intro h; exact .inr (.inl ⟨hc, hb, hb', h⟩)
          · rintro (⟨h, -⟩ | ⟨-, -, -, h⟩ | ⟨-, h, -⟩)
            · omega
            · exact h
            · omega
        · rw [hj]
          change Names anyError _ _ (if span.toInt < 0 then _ else _) _
          rw [if_neg (by omega), hsp]
          refine ((Names.never fun _ _ _ h => by cases h)).congr fun s e _ => ?_
          constructor
          · exact False.elim
          · rintro (⟨h, -⟩ | ⟨-, -, h, -⟩ | ⟨-, h, -⟩)
            · omega
            · omega
            · omega)
  refine (padded_iff hs hn fun ix h => ?_).trans (or_congr_right ?_)
  · rw [← P.bind_assoc]; exact i4_past h
  · have hidx : ∀ (pad t' : Bytes) (d low high : Int32), code.drop (start + 1) = pad ++ (s4 d ++ (s4 low ++ (s4 high ++ t'))) →
        code.length - t'.length - 4 = start + 1 + pad.length + 8 := by
      intro pad t' d low high hd
      rw [lengths hs (s := pad ++ (s4 d ++ (s4 low ++ s4 high))) (t := t') (by rw [hd]; simp)]
      have : (s4 d).length = 4 := rfl
      have : (s4 low).length = 4 := rfl
      have : (s4 high).length = 4 := rfl
      simp only [List.length_append]; omega
    constructor
    · rintro ⟨pad, t, hd, hpad, hl, h | ⟨⟨d, low, high⟩, s1, t', rfl, rfl, h⟩⟩
      · exact ⟨pad, t, hd, hpad, .inl h⟩
      · refine ⟨pad, _, hd, hpad, .inr ⟨d, low, high, t', by simp, ?_⟩⟩
        rw [hidx pad t' d low high (by rw [hd]; simp)] at h
        exact h
    · rintro ⟨pad, t, hd, hpad, h | ⟨d, low, high, t', rfl, h⟩⟩
      · exact ⟨pad, t, hd, hpad, lengths hs hd, .inl h⟩
      · refine ⟨pad, _, hd, hpad, lengths hs hd, .inr ⟨(d, low, high), _, t', by simp, rfl, ?_⟩⟩
        rw [hidx pad t' d low high hd]
        exact h

end

theorem readShape_wrong {checks : Bool} {pool : Pool} {code : Bytes} {start : Nat} (hs : start < code.length) {major : UInt16} (hok : PoolOK major pool)
    {e : ParseError} {v : UInt8} {sh : Shape} (hsh : shapeOf v = some sh) : readShape checks pool sh code (start + 1) = .err e ↔
      FirstBlame code.length pool (operandParts pool (shapeOperands sh)) (code.drop (start + 1)) e ∨
        Extra checks pool code.length start (code.drop (start + 1)) e (shapeOperands sh) := by
  have hrow := rows_shape hsh
  unfold rowCheck at hrow
  cases sh with
  | simple o => exact plain_wrong hs hok (Follows.pure o)
  | i8 f => exact plain_wrong hs hok (Follows.last Follows.octet)
  | i16 f => exact plain_wrong hs hok (Follows.last Follows.word)
  | local8 f => exact plain_wrong hs hok (Follows.last Follows.octet)
  | branch16 f => exact plain_wrong hs hok (Follows.last Follows.word)
  | branch32 f => exact plain_wrong hs hok (Follows.last Follows.quad)
  | iinc => exact plain_wrong hs hok (Follows.cons Follows.octet fun n => Follows.last (f := fun c => Opcode.iinc n.toUInt16 c.toInt8.toInt16) Follows.octet)
  | load8 f => exact ldc_wrong hs hok
  | load16 f =>
    change (readU2 >>= fun i => P.lift (getCpLoadable i.toNat pool) >>= fun l => Pure.pure (f l)) code (start + 1) = _ ↔ _
    rw [P.bind_assoc]
    exact plain_wrong hs hok (Follows.last (Follows.constant (load_reader pool)))
  | member f allowed =>
    simp only [Bool.or_eq_true, Bool.and_eq_true, beq_iff_eq] at hrow
    rcases hrow with (⟨-, rfl⟩ | ⟨-, rfl⟩) | ⟨-, rfl⟩
    · exact plain_wrong hs hok (Follows.last (Follows.constant (fieldRef_reader pool)))
    · exact plain_wrong hs hok (Follows.last (Follows.constant (methodRef_reader pool)))
    · exact plain_wrong hs hok (Follows.last (Follows.constant (anyMethodRef_reader pool)))
  | objArray f => exact plain_wrong hs hok (Follows.last (Follows.constant (type_reader pool)))
  | tableswitch =>
    refine (table_wrong hs hok).trans ⟨.inr, ?_⟩
    rintro (h | h)
    · exact absurd h firstBlame_nil
    · exact h
  | lookupswitch =>
    refine (lookup_wrong (checks := checks) hs hok).trans ⟨.inr, ?_⟩
    rintro (h | h)
    · exact absurd h firstBlame_nil
    · exact h
  | invokeinterface => exact interface_wrong hs hok
  | invokedynamic => exact dynamic_wrong hs hok
  | new => exact plain_wrong hs hok (Follows.last (Follows.constant (class_reader pool)))
  | newarray => exact newarray_wrong hs hok
  | wide => exact wide_wrong hs hok
  | multianewarray => exact plain_wrong hs hok (Follows.cons (Follows.constant (type_reader pool)) fun t => Follows.last (f := fun k => Opcode.multianewarray t k) Follows.octet)

theorem readOpcode_wrong {checks : Bool} {pool : Pool} {code : Bytes} {start : Nat} (hs : start < code.length) {major : UInt16} (hok : PoolOK major pool)
    {e : ParseError} : readOpcode checks pool code start = .err e ↔ InsnWrong checks pool code.length start (code.drop start) e := by
  have hd : code.drop start = code[start] :: code.drop (start + 1) := List.drop_eq_getElem_cons hs
  have hr : readU1 code start = .ok (code[start], start + 1) :=
    (Exact.readU1 (N := code.length + 1) code start (by omega) (by omega) _ _).mpr ⟨_, _, hd, rfl, rfl⟩
  rw [hd, insnWrong_iff, ← operandsOf_shape]
  unfold readOpcode
  change P.bind _ _ _ _ = _ ↔ _
  unfold P.bind
  rw [hr]
  dsimp only
  cases hsh : shapeOf code[start] with
  | none =>
    constructor
    · intro h; cases h; rfl
    · intro h
      dsimp only [Option.map] at h
      subst h
      rfl
  | some sh => exact readShape_wrong hs hok hsh

/-! ## The instructions -/

theorem readOpcodesLoop_wrong {checks : Bool} {pool : Pool} {code : Bytes} {major : UInt16} (hok : PoolOK major pool) {e : ParseError} :
    ∀ (fuel ix : Nat), ix ≤ code.length → code.length < ix + fuel → (readOpcodesLoop checks pool code fuel ix = .err e ↔
      ∃ (ops : List (Nat × Opcode)) (s t : Bytes), code.drop ix = s ++ t ∧ InsnsEnc checks pool ix ops s ∧ InsnWrong checks pool code.length (ix + s.length) t e) := by
  intro fuel
  induction fuel with
  | zero => intro ix h1 h2; omega
  | succ fuel ih =>
    intro ix h1 h2
    unfold readOpcodesLoop
    by_cases hlt : ix < code.length
    · rw [if_pos hlt]
      have hw := readOpcode_wrong (checks := checks) hlt hok (e := e)
      have hx := readOpcode_exact checks pool ix code h1
      have hno : (∃ (ops : List (Nat × Opcode)) (s t : Bytes), code.drop ix = s ++ t ∧ InsnsEnc checks pool ix ops s ∧
          InsnWrong checks pool code.length (ix + s.length) t e) → (∀ x, readOpcode checks pool code ix ≠ .ok x) → readOpcode checks pool code ix = .err e := by
        rintro ⟨ops, s, t, hd, hops, hsay⟩ hn
        cases hops with
        | nil => exact hw.mpr (by rw [hd]; exact hsay)
        | cons hi _ => exact absurd ((hx _ _).mpr ⟨_, _, hd.trans (List.append_assoc _ _ _), hi, rfl⟩) (hn _)
      cases hr : readOpcode checks pool code ix with
      | panic k =>
        constructor
        · intro h; cases h
        · intro h
          have := hno h (by rw [hr]; intro x h; cases h)
          rw [hr] at this
          cases this
      | diverge =>
        constructor
        · intro h; cases h
        · intro h
          have := hno h (by rw [hr]; intro x h; cases h)
          rw [hr] at this
          cases this
      | err e' =>
        change Res.err e' = .err e ↔ _
        rw [hr] at hw
        constructor
        · intro h
          cases h
          exact ⟨[], [], _, rfl, .nil _, hw.mp rfl⟩
        · intro h
          have := hno h (by rw [hr]; intro x h; cases h)
          rw [hr] at this
          cases this
          rfl
      | ok x =>
        obtain ⟨op, ix'⟩ := x
        obtain ⟨seg, r, hd, hi, rfl⟩ := (hx op ix').mp hr
        have hl := length_of_drop_eq h1 hd
        have hseg : 0 < seg.length := List.length_pos_iff.mpr (insnEnc_ne_nil hi)
        have ih := ih (ix + seg.length) (by omega) (by omega)
        rw [drop_of_drop_eq hd] at ih
        change (readOpcodesLoop checks pool code fuel (ix + seg.length) >>= fun rest => Res.ok ((ix, op) :: rest)) = _ ↔ _
        have hb : (readOpcodesLoop checks pool code fuel (ix + seg.length) >>= fun rest => Res.ok ((ix, op) :: rest)) = .err e ↔
            readOpcodesLoop checks pool code fuel (ix + seg.length) = .err e := by
          cases readOpcodesLoop checks pool code fuel (ix + seg.length) with
          | err e' => exact Iff.intro (fun h => by cases h; rfl) (fun h => by cases h; rfl)
          | ok y => exact Iff.intro (fun h => by cases h) (fun h => by cases h)
          | panic k => exact Iff.intro (fun h => by cases h) (fun h => by cases h)
          | diverge => exact Iff.intro (fun h => by cases h) (fun h => by cases h)
        rw [hb, ih]
        constructor
        · rintro ⟨ops, s, t, rfl, hops, hsay⟩
          refine ⟨(ix, op) :: ops, seg ++ s, t, by rw [hd, List.append_assoc], .cons hi hops, ?_⟩
          rw [List.length_append, ← Nat.add_assoc]; exact hsay
        · rintro ⟨ops, s, t, hd', hops, hsay⟩
          cases hops with
          | nil =>
            rw [hd'] at hw
            have := hw.mpr hsay
            rw [hr] at this
            cases this
          | cons hi' hops =>
            rename_i op' ops' seg' s'
            have hd2 := hd'.trans (List.append_assoc _ _ _)
            have := (hx _ _).mpr ⟨_, _, hd2, hi', rfl⟩
            rw [hr] at this
            obtain ⟨rfl, he⟩ : op = op' ∧ ix + seg.length = ix + seg'.length := by simpa using this
            obtain ⟨rfl, rfl⟩ := List.append_inj (hd.symm.trans hd2) (by omega)
            refine ⟨_, s', t, rfl, hops, ?_⟩
            rw [List.length_append, ← Nat.add_assoc] at hsay; exact hsay
    · rw [if_neg hlt]
      constructor
      · intro h; cases h
      · rintro ⟨ops, s, t, hd, hops, hsay⟩
        have : s ++ t = [] := by rw [← hd]; simp; omega
        obtain ⟨-, rfl⟩ := List.append_eq_nil_iff.mp this
        cases hsay

/-! ## The jumps -/

theorem mapErr_of_err {α : Type} {r : Res α} {e : ParseError} (h : r = .err e) (c : String) : r.mapErr c = .err (inside c e) := by
  subst h; rfl

theorem bind_of_err {α β : Type} {r : Res α} {f : α → Res β} {e : ParseError} (h : r = .err e) : (r >>= f) = .err e := by
  subst h; rfl

theorem bind_of_ok {α β : Type} {r : Res α} {f : α → Res β} {a : α} {x : Res β} (h : r = .ok a) (h' : f a = x) : (r >>= f) = x := by
  subst h; exact h'

section
variable {checks : Bool} {bc : ByteCode} (hi : Increasing bc.opcodes) {off : Nat} (ho : off < 2147483648)
include hi ho

theorem validateJump_bad {j : Int32} {m : String} (h : BadJump checks bc.opcodes off j m) : bc.validateJump checks (Int32.ofNat off) j = .err (plainly m) := by
  have hs := source_toInt ho
  have l2 := int32_low j; have h2 := int32_high j
  have hadd : (Int32.ofNat off + j).toInt = ((Int32.ofNat off).toInt + j.toInt).bmod 4294967296 := Int32.toInt_add ..
  have bm : ∀ x : Int, x.bmod 4294967296 = if x % 4294967296 < 2147483648 then x % 4294967296 else x % 4294967296 - 4294967296 := by
    intro x; rw [Int.bmod_def]; rfl
  rw [bm, hs] at hadd
  have hsum : (checks = false ∨ (off : Int) + j.toInt < 2147483648) → addI32 checks (Int32.ofNat off) j = .ok (Int32.ofNat off + j) := by
    intro hc
    unfold addI32
    rw [if_neg]
    rw [hs]
    simp only [Bool.and_eq_true, Bool.or_eq_true, decide_eq_true_eq, not_and, not_or]
    rcases hc with hc | hc
    · rw [hc]; intro h; cases h
    · intro _; omega
  unfold ByteCode.validateJump
  cases h with
  | before h =>
    refine bind_of_ok (hsum (.inr (by omega))) ?_
    rw [if_pos (by split at hadd <;> omega)]; rfl
  | beyond hc h =>
    refine bind_of_ok (hsum (.inl hc)) ?_
    rw [if_pos (by split at hadd <;> omega)]; rfl
  | between h1 h2 h3 =>
    refine bind_of_ok (hsum (.inr h2)) ?_
    rw [if_neg (by split at hadd <;> omega)]
    obtain ⟨r, hr⟩ := getOpcodeIndex_returns bc (Int32.ofNat off + j).toInt.toNat
    refine bind_of_ok hr ?_
    cases r with
    | none => rfl
    | some i =>
      obtain ⟨op, hop⟩ := (getOpcodeIndex_some bc hi _ i).mp hr
      exact absurd (by split at hadd <;> omega) (h3 _ _ (List.mem_of_getElem? hop))

theorem validateMatchOffsets_bad {key j : Int32} {m : String} {after : List (Int32 × Int32)} (hb : BadJump checks bc.opcodes off j m) :
    ∀ before : List (Int32 × Int32), (∀ p ∈ before, GoodJump bc.opcodes off p.2) →
      validateMatchOffsets checks bc (Int32.ofNat off) (before ++ (key, j) :: after) = .err ⟨m, [s!"match offset {key}"]⟩
  | [], _ => bind_of_err (mapErr_of_err (validateJump_bad hi ho hb) _)
  | p :: before, hg => bind_of_ok (Res.mapErr_ok.mpr ((validateJump_good hi ho).mpr (hg p (by simp)))) (validateMatchOffsets_bad hb before fun q hq => hg q (by simp [hq]))

theorem validateRangeOffsets_bad {j : Int32} {m : String} {after : List Int32} (hb : BadJump checks bc.opcodes off j m) :
    ∀ (before : List Int32) (i : Nat), (∀ j' ∈ before, GoodJump bc.opcodes off j') →
      validateRangeOffsets checks bc (Int32.ofNat off) i (before ++ j :: after) = .err ⟨m, [s!"range offset {i + before.length}"]⟩
  | [], _, _ => bind_of_err (mapErr_of_err (validateJump_bad hi ho hb) _)
  | p :: before, i, hg => by
    refine bind_of_ok (Res.mapErr_ok.mpr ((validateJump_good hi ho).mpr (hg p (by simp)))) ?_
    rw [List.length_cons, show i + (before.length + 1) = i + 1 + before.length by omega]
    exact validateRangeOffsets_bad hb before (i + 1) fun q hq => hg q (by simp [hq])

end

theorem validateOpcodeJumps_bad {checks : Bool} {bc : ByteCode} (hi : Increasing bc.opcodes) {off : Nat} {op : Opcode} {e : ParseError}
    (h : JumpSays checks bc.opcodes off op e) : bc.validateOpcodeJumps checks off op = .err e := by
  unfold ByteCode.validateOpcodeJumps
  cases h with
  | far h => rw [if_pos (by omega)]; rfl
  | jump ho h1 h2 hj hb =>
    rw [if_neg (by omega)]
    have hv := validateJump_bad hi ho hb
    cases op
    case lookupswitch t => exact absurd rfl (h1 t)
    case tableswitch t => exact absurd rfl (h2 t)
    all_goals first
      | (obtain rfl := (List.cons.inj hj).1; exact hv)
      | cases hj
  | lookupDefault ho hb =>
    rw [if_neg (by omega)]
    exact bind_of_err (mapErr_of_err (validateJump_bad hi ho hb) _)
  | pair ho hg hl hbs hb =>
    rw [if_neg (by omega)]
    refine bind_of_ok (Res.mapErr_ok.mpr ((validateJump_good hi ho).mpr hg)) ?_
    rw [hl]
    exact validateMatchOffsets_bad hi ho hb _ hbs
  | rangeDefault ho hb =>
    rw [if_neg (by omega)]
    exact bind_of_err (mapErr_of_err (validateJump_bad hi ho hb) _)
  | range ho hg hl hbs hb =>
    rw [if_neg (by omega)]
    refine bind_of_ok (Res.mapErr_ok.mpr ((validateJump_good hi ho).mpr hg)) ?_
    rw [hl, validateRangeOffsets_bad hi ho hb _ 0 hbs, Nat.zero_add]

theorem validateJumpsFrom_bad {checks : Bool} {bc : ByteCode} (hi : Increasing bc.opcodes) {off : Nat} {op : Opcode} {e : ParseError}
    {after : List (Nat × Opcode)} (h : JumpSays checks bc.opcodes off op e) : ∀ before : List (Nat × Opcode),
      (∀ p ∈ before, p.1 < 2147483648 ∧ ∀ j ∈ jumpsOf p.2, GoodJump bc.opcodes p.1 j) →
      bc.validateJumpsFrom checks (before ++ (off, op) :: after) = .err (inside s!"opcode at offset {off}" e)
  | [], _ => bind_of_err (mapErr_of_err (validateOpcodeJumps_bad hi h) _)
  | p :: before, hg => bind_of_ok (Res.mapErr_ok.mpr ((validateOpcodeJumps_ok hi _ _).mpr (hg p (by simp))))
      (validateJumpsFrom_bad hi h before fun q hq => hg q (by simp [hq]))

/-- The errors of `ByteCode::from`. -/
theorem ofCode_iff {checks : Bool} {pool : Pool} {major : UInt16} (hok : PoolOK major pool) {code : Bytes} {e : ParseError} :
    ByteCode.ofCode checks code pool = .err e ↔ BytecodeSays checks pool code e := by
  have hloop := readOpcodesLoop_wrong (checks := checks) hok (code := code) (e := e) (code.length + 1) 0 (Nat.zero_le _) (by omega)
  rw [List.drop_zero] at hloop
  constructor
  · intro h
    unfold ByteCode.ofCode at h
    rcases bind_err_cases h with h | ⟨ops, hops, h⟩
    · obtain ⟨ops, s, t, rfl, hops, hsay⟩ := hloop.mp h
      rw [Nat.zero_add] at hsay
      exact .instruction hops hsay
    · have henc := (readOpcodes_ok checks pool code ops).mp hops
      rcases bind_err_cases h with h | ⟨_, _, h⟩
      · obtain ⟨before, after, off, op, e', hl, hb, hsay, rfl⟩ := validateJumpsFrom_err (bc := ⟨ops⟩) (insnsEnc_offsets henc).1 _ h
        obtain rfl : ops = _ := hl
        exact .jump henc hb hsay
      · cases h
  · intro h
    unfold ByteCode.ofCode
    cases h with
    | instruction hops hsay => exact bind_of_err (hloop.mpr ⟨_, _, _, rfl, hops, by rw [Nat.zero_add]; exact hsay⟩)
    | jump henc hb hsay =>
      refine bind_of_ok ((readOpcodes_ok checks pool code _).mpr henc) ?_
      exact bind_of_err (validateJumpsFrom_bad (bc := ⟨_⟩) (insnsEnc_offsets henc).1 hsay _ hb)

end Cafebabe
