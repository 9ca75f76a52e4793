import Verif.Proofs.Tame
/-!
# Proofs: how the decoder of a code array can stop

In a valid pool it stops with a result, an error, or (only in builds with overflow checks) an arithmetic overflow panic.
-/

namespace Cafebabe
open Spec

theorem Tame.seq0 {α β : Type} {N : Nat} {A : PanicKind → Prop} {p : P α} {f : α → P β}
    (h : Tame N A 0 p) (hf : ∀ a, Tame N A 0 (f a)) : Tame N A 0 (p >>= f) := Tame.seq h hf

theorem Tame.mapErr0 {α : Type} {N : Nat} {A : PanicKind → Prop} {p : P α} {c : String} (h : Tame N A 0 p) :
    Tame N A 0 (p.mapErr c) := h.mapErr c

theorem readI4_tame {N : Nat} {A : PanicKind → Prop} : Tame N A 4 readI4 := Tame.seqK Tame.readU4 fun _ => Tame.pure _

/-- Padding may run past the end of the code; the read after it then fails. -/
theorem skipPadding_tame {α : Type} {N : Nat} {A : PanicKind → Prop} {f : Int32 → P α} (h : ∀ d, Tame N A 0 (f d)) :
    Tame N A 0 (skipPadding >>= fun _ => readI4 >>= f) := by
  have key : Tame N A 0 (readI4 >>= f) := (Tame.seq readI4_tame h)
  intro bytes ix hix
  have e : (skipPadding >>= fun _ => readI4 >>= f) bytes ix = (readI4 >>= f) bytes (alignUp4 ix) := rfl
  have hge : ix ≤ alignUp4 ix := by unfold alignUp4; omega
  unfold TameAt
  rw [e]
  by_cases hp : alignUp4 ix ≤ bytes.length
  · have := key bytes (alignUp4 ix) hp
    unfold TameAt at this
    cases hq : (readI4 >>= f) bytes (alignUp4 ix) with
    | ok b => obtain ⟨b, i⟩ := b; rw [hq] at this; simp only at this ⊢; omega
    | err e => simp
    | panic x => rw [hq] at this; exact this
    | diverge => rw [hq] at this; simp only at this ⊢; omega
  · obtain ⟨e, he⟩ := readI4_past bytes (alignUp4 ix) (by omega)
    rw [P.bind_err he]
    trivial

section
variable {N : Nat} {A : PanicKind → Prop} {checks : Bool} (hov : checks = true → A .overflow)
include hov

theorem jumpSpan_calm {low high : Int32} : Calm A (jumpSpan checks low high) := by
  unfold jumpSpan
  refine Calm.ite (fun h => Calm.panic (hov ?_)) fun _ => Calm.ite (fun h => Calm.panic (hov ?_)) fun _ => Calm.ok
  · simp at h; exact h.1
  · simp at h; exact h.1

theorem tableswitchHeader_tame : Tame N A 0 (tableswitchHeader checks) := by
  unfold tableswitchHeader
  refine skipPadding_tame fun d => Tame.seq (m := 0) readI4_tame fun low => Tame.seq (m := 0) readI4_tame fun high => Tame.getIx fun ix => ?_
  refine Tame.ite (fun _ => Tame.fail) fun _ => ?_
  refine Tame.seq (m := 0) (Tame.lift (jumpSpan_calm hov)) fun span => Tame.ite (fun _ => Tame.fail) fun _ => Tame.pure _

theorem readTableswitch_tame : Tame N A 0 (readTableswitch checks) := by
  unfold readTableswitch
  refine Tame.seq (m := 0) (tableswitchHeader_tame hov) fun ⟨d, l, h, n⟩ => ?_
  exact Tame.seq (Tame.forRange (fun _ => readI4_tame) n) fun _ => Tame.pure _
omit hov

theorem readLookupswitch_tame : Tame N A 0 readLookupswitch := by
  unfold readLookupswitch
  refine Tame.seq (k := 0) (m := 0) ?_ fun ⟨d, n⟩ => ?_
  · unfold lookupswitchHeader
    refine skipPadding_tame fun d => Tame.seq (m := 0) readI4_tame fun np => Tame.getIx fun ix =>
      Tame.ite (fun _ => Tame.fail) fun _ => Tame.pure _
  · exact Tame.seq (Tame.forRange (fun _ => Tame.seq readI4_tame fun _ => Tame.seq readI4_tame fun _ => Tame.pure _) n) fun _ => Tame.pure _

theorem readWide_tame : Tame N A 0 readWide := by
  unfold readWide
  refine Tame.seq (m := 0) Tame.readU1 fun v => Tame.ite (fun _ => ?_) fun _ => ?_
  · exact Tame.seq Tame.readU2 fun _ => Tame.seq Tame.readU2 fun _ => Tame.pure _
  · split
    · exact Tame.seq Tame.readU2 fun _ => Tame.pure _
    · exact Tame.getIx fun _ => Tame.fail

theorem readNewarray_tame : Tame N A 0 readNewarray := by
  unfold readNewarray
  refine Tame.seq (m := 0) Tame.readU1 fun v => ?_
  split
  · exact Tame.pure _
  · exact Tame.getIx fun _ => Tame.fail

variable {major : UInt16} {pool : Pool} (hok : PoolOK major pool)
include hok

theorem readInvokeinterface_tame : Tame N A 0 (readInvokeinterface pool) :=
  Tame.seq (readCpMemberref_tame hok) fun _ => Tame.seq Tame.readU1 fun _ => Tame.seq (m := 0) Tame.readU1 fun _ =>
    Tame.getIx fun _ => Tame.ite (fun _ => Tame.fail) fun _ => Tame.pure _

theorem readInvokedynamic_tame : Tame N A 0 (readInvokedynamic pool) :=
  Tame.seq (readCpInvokedynamic_tame hok) fun _ => Tame.seq (m := 0) Tame.readU2 fun _ =>
    Tame.getIx fun _ => Tame.ite (fun _ => Tame.fail) fun _ => Tame.pure _

include hov

theorem readShape_tame (sh : Shape) : Tame N A 0 (readShape checks pool sh) := by
  cases sh with
  | simple op => exact Tame.pure _
  | i8 f => exact Tame.seq Tame.readU1 fun _ => Tame.pure _
  | i16 f => exact Tame.seq Tame.readU2 fun _ => Tame.pure _
  | load8 f => exact Tame.seq Tame.readU1 fun i => Tame.seq (Tame.lift (getCpLoadable_calm hok i.toNat)) fun _ => Tame.pure _
  | load16 f => exact Tame.seq Tame.readU2 fun i => Tame.seq (Tame.lift (getCpLoadable_calm hok i.toNat)) fun _ => Tame.pure _
  | local8 f => exact Tame.seq Tame.readU1 fun _ => Tame.pure _
  | branch16 f => exact Tame.seq Tame.readU2 fun _ => Tame.pure _
  | branch32 f => exact Tame.seq readI4_tame fun _ => Tame.pure _
  | member f allowed => exact Tame.seq (readCpMemberref_tame hok) fun _ => Tame.pure _
  | objArray f => exact Tame.seq (readCpObjectArrayType_tame hok) fun _ => Tame.pure _
  | iinc => exact Tame.seq Tame.readU1 fun _ => Tame.seq Tame.readU1 fun _ => Tame.pure _
  | tableswitch => exact readTableswitch_tame hov
  | lookupswitch => exact readLookupswitch_tame
  | invokeinterface => exact readInvokeinterface_tame hok
  | invokedynamic => exact readInvokedynamic_tame hok
  | new => exact Tame.seq (readCpClassinfo_tame hok) fun _ => Tame.pure _
  | newarray => exact readNewarray_tame
  | wide => exact readWide_tame
  | multianewarray => exact Tame.seq (readCpObjectArrayType_tame hok) fun _ => Tame.seq Tame.readU1 fun _ => Tame.pure _

theorem readOpcode_tame : Tame N A 1 (readOpcode checks pool) := by
  unfold readOpcode
  refine Tame.seqK (m := 0) Tame.readU1 fun v => ?_
  split
  · exact readShape_tame hov hok _
  · exact Tame.getIx fun _ => Tame.fail

theorem readOpcodesLoop_calm (code : Bytes) :
    ∀ (fuel ix : Nat), ix ≤ code.length → code.length - ix < fuel → Calm A (readOpcodesLoop checks pool code fuel ix) := by
  intro fuel
  induction fuel with
  | zero => intro ix h1 h2; omega
  | succ fuel ih =>
    intro ix h1 h2
    unfold readOpcodesLoop
    refine Calm.ite (fun hlt => ?_) fun _ => Calm.ok
    have ht := readOpcode_tame (N := code.length + 1) hov hok code ix h1
    unfold TameAt at ht
    refine Calm.bind ?_ fun a ha => ?_
    · cases hq : readOpcode checks pool code ix with
      | ok a => exact Calm.ok
      | err e => exact Calm.err
      | panic k => rw [hq] at ht; exact Calm.panic ht
      | diverge => rw [hq] at ht; simp only at ht; omega
    · obtain ⟨op, ix'⟩ := a
      rw [ha] at ht
      simp only at ht
      exact Calm.bind (ih ix' ht.2 (by omega)) fun _ _ => Calm.ok

omit hok

theorem validateJump_calm (bc : ByteCode) (s j : Int32) : Calm A (bc.validateJump checks s j) := by
  unfold ByteCode.validateJump addI32
  refine Calm.bind (Calm.ite (fun h => Calm.panic (hov ?_)) fun _ => Calm.ok) fun sum _ => Calm.ite (fun _ => Calm.fail) fun _ => ?_
  · simp at h; exact h.1
  · refine Calm.bind (Calm.of_ok (opcodeIndexLoop_returns _ _ _ _ _ (Nat.le_refl _) (by omega))) fun o _ => ?_
    cases o
    · exact Calm.fail
    · exact Calm.ok

theorem validateMatchOffsets_calm (bc : ByteCode) (s : Int32) : ∀ l, Calm A (validateMatchOffsets checks bc s l)
  | [] => Calm.ok
  | (_, j) :: l => Calm.bind ((validateJump_calm hov bc s j).mapErr _) fun _ _ => validateMatchOffsets_calm bc s l

theorem validateRangeOffsets_calm (bc : ByteCode) (s : Int32) : ∀ l i, Calm A (validateRangeOffsets checks bc s i l)
  | [], _ => Calm.ok
  | j :: l, i => Calm.bind ((validateJump_calm hov bc s j).mapErr _) fun _ _ => validateRangeOffsets_calm bc s l (i + 1)

theorem validateOpcodeJumps_calm (bc : ByteCode) (off : Nat) (op : Opcode) : Calm A (bc.validateOpcodeJumps checks off op) := by
  unfold ByteCode.validateOpcodeJumps
  refine Calm.ite (fun _ => Calm.fail) fun _ => ?_
  cases op with
  | lookupswitch t => exact Calm.bind ((validateJump_calm hov bc _ _).mapErr _) fun _ _ => validateMatchOffsets_calm hov bc _ _
  | tableswitch t => exact Calm.bind ((validateJump_calm hov bc _ _).mapErr _) fun _ _ => validateRangeOffsets_calm hov bc _ _ _
  | _ => first | exact Calm.ok | exact validateJump_calm hov bc _ _

theorem validateJumpsFrom_calm (bc : ByteCode) : ∀ l, Calm A (bc.validateJumpsFrom checks l)
  | [] => Calm.ok
  | (off, op) :: l => Calm.bind ((validateOpcodeJumps_calm hov bc off op).mapErr _) fun _ _ => validateJumpsFrom_calm bc l

include hok

theorem ofCode_calm (code : Bytes) : Calm A (ByteCode.ofCode checks code pool) :=
  Calm.bind (readOpcodesLoop_calm hov hok code _ 0 (Nat.zero_le _) (by omega)) fun _ _ =>
    Calm.bind (validateJumpsFrom_calm hov _ _) fun _ _ => Calm.ok

end

end Cafebabe
