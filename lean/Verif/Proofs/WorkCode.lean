import Verif.Proofs.WorkCost
import Verif.Proofs.Size
/-!
# How many steps: reading constants and bytecode
-/

namespace Cafebabe
open Spec Timed

section
variable {pool : Pool} {n : Nat} {W L : Int} (r : Rate pool n W L)
include r

omit r in
theorem sliceBytes_length {bytes : Bytes} {i j : Nat} {a : Bytes} (h : sliceBytes bytes i j = .ok a) : a.length = j - i := by
  unfold sliceBytes at h
  split at h
  · cases h
    rename_i hij
    simp [List.length_take, List.length_drop]
    omega
  · cases h

theorem takeBytes_cost (k : Nat) (m : String) : Cost L (fun b => b.length = k) (1 - L * k) 1 (PT.once (takeBytes k m)) :=
  Cost.slice r Tame.takeBytes fun bytes ix a ix' h => by
    unfold takeBytes at h
    split at h
    · cases h
    · cases hs : sliceBytes bytes ix (ix + k) with
      | ok s =>
        rw [hs] at h
        cases h
        have := sliceBytes_length hs
        omega
      | _ => rw [hs] at h; cases h

theorem takeSlice_cost (k : Nat) : Cost L (fun b => b.length = k) (1 - L * k) 1 (PT.once (takeSlice k)) := by
  refine Cost.slice r ?_ fun bytes ix a ix' h => ?_
  · intro bytes ix hix
    unfold TameAt takeSlice
    cases hs : sliceBytes bytes ix (ix + k) with
    | ok s =>
      have := sliceBytes_length hs
      unfold sliceBytes at hs
      split at hs
      · rename_i hij
        exact ⟨Nat.le_refl _, hij.2⟩
      · cases hs
    | err e => trivial
    | panic x => trivial
    | diverge => show 0 + ix ≤ _; omega
  · unfold takeSlice at h
    cases hs : sliceBytes bytes ix (ix + k) with
    | ok s =>
      rw [hs] at h
      cases h
      have := sliceBytes_length hs
      omega
    | _ => rw [hs] at h; cases h

theorem Rate.enough (k : Nat) : (k : Int) ≤ L * k := by
  have h1 := r.work
  have h2 := r.pay
  calc (k : Int) = 1 * k := by omega
    _ ≤ L * k := Int.mul_le_mul_of_nonneg_right (by omega) (by omega)

/-! ## Constants -/

theorem readConstantUtf8T_cost (env : Env) : Cost L (fun _ => True) (-4 * W) (4 * W) (readConstantUtf8T env) := by
  have hw := r.work
  have hp := r.pay
  unfold readConstantUtf8T
  refine Cost.bind (Cost.once1 r Tame.readU2) (by omega) fun l _ => Cost.bind (Cost.getIx r) (by omega) fun ix _ => ?_
  refine Cost.bind (takeBytes_cost r l.toNat _) (by omega) fun b hb => Cost.bind (Cost.tick r) ?_ fun _ _ => ?_
  · have := r.enough l.toNat
    rw [hb]; omega
  · have := r.enough l.toNat
    rw [hb]
    cases env.decode b with
    | none => exact Cost.pure r.pos trivial (by omega) (by omega)
    | some s => exact Cost.pure r.pos trivial (by omega) (by omega)

omit r in
theorem readUnresolved_tame {N : Nat} {A : PanicKind → Prop} : Tame N A 0 readUnresolvedCpRef := Tame.seq (m := 0) Tame.readU2 fun _ => Tame.pure _

theorem entry0 {α : Type} {p : P α} {k : Nat} (h : Tame 0 (fun _ => True) k p) : Cost L (fun _ => True) W (4 * W) (PT.once p) :=
  (Cost.once0 r h).mono (by have := r.work; omega) (by have := r.work; omega) fun _ h => h

theorem readConstantT_cost (env : Env) (major : UInt16) (t : UInt8) : Cost L (fun _ => True) W (4 * W) (readConstantT env major t) := by
  have hw := r.work
  unfold readConstantT
  have hbad : ∀ t, Cost L (fun _ : Entry => True) W (4 * W) (PT.plain (unexpectedTag t major)) := fun t bytes ix hix => by
    have := mul_nonneg_sub r.pos hix
    exact ⟨fun a i ha => (by cases ha), by show ((0 : Nat) : Int) ≤ _; omega⟩
  have two : ∀ f : CPRef → CPRef → Entry, Tame 0 (fun _ => True) 0 (readUnresolvedCpRef >>= fun a => readUnresolvedCpRef >>= fun b => Pure.pure (f a b) : P Entry) := fun f =>
    Tame.seq (m := 0) readUnresolved_tame fun _ => Tame.seq (m := 0) readUnresolved_tame fun _ => Tame.pure _
  have dyn : ∀ f : UInt16 → CPRef → Entry, Tame 0 (fun _ => True) 0 (readU2 >>= fun a => readUnresolvedCpRef >>= fun b => Pure.pure (f a b) : P Entry) := fun f =>
    Tame.seq (m := 0) Tame.readU2 fun _ => Tame.seq (m := 0) readUnresolved_tame fun _ => Tame.pure _
  have one : ∀ f : CPRef → Entry, Tame 0 (fun _ => True) 0 (readUnresolvedCpRef >>= fun a => Pure.pure (f a) : P Entry) := fun f => Tame.seq (m := 0) readUnresolved_tame fun _ => Tame.pure _
  split
  · exact (readConstantUtf8T_cost r env).mono (by omega) (by omega) fun _ h => h
  · exact entry0 r (Tame.seqK Tame.readU4 fun _ => Tame.pure _)
  · exact entry0 r (Tame.seqK Tame.readU4 fun _ => Tame.pure _)
  · exact entry0 r (Tame.seqK Tame.readU8 fun _ => Tame.pure _)
  · exact entry0 r (Tame.seqK Tame.readU8 fun _ => Tame.pure _)
  · exact entry0 r (one .classInfo)
  · exact entry0 r (one .string)
  · exact entry0 r (two .fieldRef)
  · exact entry0 r (two .methodRef)
  · exact entry0 r (two .interfaceMethodRef)
  · exact entry0 r (two .nameAndType)
  · refine Cost.ite (entry0 r (k := 0) ?_) (hbad _)
    unfold readConstantMethodhandle
    refine Tame.seq (m := 0) Tame.readU1 fun k => ?_
    cases referenceKindOf k with
    | none => exact Tame.getIx fun _ => Tame.fail
    | some x => exact one (.methodHandle x)
  · exact Cost.ite (entry0 r (one .methodType)) (hbad _)
  · exact Cost.ite (entry0 r (dyn .dynamic)) (hbad _)
  · exact Cost.ite (entry0 r (dyn .invokeDynamic)) (hbad _)
  · exact Cost.ite (entry0 r (one .moduleInfo)) (hbad _)
  · exact Cost.ite (entry0 r (one .packageInfo)) (hbad _)
  · exact hbad _

theorem constantPoolLoopT_cost (env : Env) (major count : UInt16) : ∀ (fuel : Nat) (k : UInt16), Cost L (fun _ => True) 0 (5 * W) (constantPoolLoopT env major count fuel k)
  | 0, _ => Cost.diverge r (by have := r.work; omega)
  | fuel + 1, k => by
    have hw := r.work
    have ih := constantPoolLoopT_cost env major count fuel
    unfold constantPoolLoopT
    refine Cost.ite (Cost.bind (Cost.once1 r Tame.readU1) (by omega) fun t _ => Cost.bind (readConstantT_cost r env major t) (by omega) fun e _ => ?_) (Cost.pure r.pos trivial (by omega) (by omega))
    refine Cost.bind (Cost.free r) (by omega) fun k1 _ => Cost.ite ?_ ?_
    · exact Cost.bind (Cost.free r) (by omega) fun k2 _ => Cost.bind (ih k2) (by omega) fun _ _ => Cost.pure r.pos trivial (by omega) (by omega)
    · exact Cost.bind (ih k1) (by omega) fun _ _ => Cost.pure r.pos trivial (by omega) (by omega)

theorem readRawPoolT_cost (env : Env) (major : UInt16) : Cost L (fun _ => True) (-7 * W) (4 * W) (readRawPoolT env major) := by
  have hw := r.work
  refine Cost.bind (Cost.once1 r Tame.readU2) (by omega) fun c _ => Cost.bind (c1 := 0) (e1 := 5 * W) (Q := fun _ => True) ?_ (by omega) fun _ _ => Cost.pure r.pos trivial (by omega) (by omega)
  exact fun bytes ix hix => constantPoolLoopT_cost r env major c _ _ bytes ix hix

omit r in
theorem resolveFromT_le (pool : Pool) : ∀ (es : List Entry) (i : Nat), (resolveFromT pool i es).steps ≤ es.length
  | [], _ => Nat.le_refl _
  | e :: es, i => by
    unfold resolveFromT
    rw [steps_tick_bind, List.length_cons]
    have := steps_free_bind_le (r := e.resolve i pool) (f := fun e => resolveFromT pool (i + 1) es >>= fun es => free (.ok (e :: es))) (n := es.length) fun _ _ =>
      steps_bind_le (n := 0) (resolveFromT_le pool es (i + 1)) fun _ _ => Nat.le_refl _
    omega

/-! ## Bytecode -/

theorem readTableswitchT_cost (checks : Bool) : Cost L (fun _ => True) W (6 * W) (readTableswitchT checks) := by
  have hw := r.work
  refine Cost.bind (Cost.once0 r (tableswitchHeader_tame fun _ => trivial)) (by omega) fun h _ => ?_
  obtain ⟨a, b, c, d⟩ := h
  exact Cost.bind (Cost.forRange r (fun _ => (Cost.once1 r readI4_tame).mono (by omega) (by omega) fun _ h => h) d) (by omega) fun _ _ => Cost.pure r.pos trivial (by omega) (by omega)

omit r in
theorem lookupswitchHeader_tame {N : Nat} {A : PanicKind → Prop} : Tame N A 0 lookupswitchHeader := by
  unfold lookupswitchHeader
  exact skipPadding_tame fun d => Tame.seq (m := 0) readI4_tame fun np => Tame.getIx fun ix => Tame.ite (fun _ => Tame.fail) fun _ => Tame.pure _

theorem readLookupswitchT_cost : Cost L (fun _ => True) W (6 * W) readLookupswitchT := by
  have hw := r.work
  refine Cost.bind (Cost.once0 r lookupswitchHeader_tame) (by omega) fun h _ => ?_
  obtain ⟨a, d⟩ := h
  refine Cost.bind (Cost.forRange (Q := fun _ => True) r (fun _ => ?_) d) (by omega) fun _ _ => Cost.pure r.pos trivial (by omega) (by omega)
  cost

theorem readInvokeinterfaceT_cost : Cost L (fun _ => True) W (4 * W) (readInvokeinterfaceT pool) := by
  unfold readInvokeinterfaceT; cost

theorem readInvokedynamicT_cost : Cost L (fun _ => True) W (4 * W) (readInvokedynamicT pool) := by
  unfold readInvokedynamicT; cost

theorem readShapeT_cost (checks : Bool) (s : Shape) : Cost L (fun _ => True) W (6 * W) (readShapeT checks pool s) := by
  have hw := r.work
  cases s <;> unfold readShapeT
  case tableswitch => exact readTableswitchT_cost r checks
  case lookupswitch => exact readLookupswitchT_cost r
  case invokeinterface => exact (readInvokeinterfaceT_cost r).mono (by omega) (by omega) fun _ h => h
  case invokedynamic => exact (readInvokedynamicT_cost r).mono (by omega) (by omega) fun _ h => h
  case newarray => exact (Cost.once0 r readNewarray_tame).mono (by omega) (by omega) fun _ h => h
  case wide => exact (Cost.once0 r readWide_tame).mono (by omega) (by omega) fun _ h => h
  all_goals cost

theorem readOpcodeT_cost (checks : Bool) : Cost L (fun _ => True) (-7 * W) (4 * W) (readOpcodeT checks pool) := by
  have hw := r.work
  refine Cost.bind (Cost.once1 r Tame.readU1) (by omega) fun v _ => ?_
  cases shapeOf v with
  | none => exact Cost.bind (Cost.getIx r) (by omega) fun _ _ => Cost.fail r (by omega)
  | some s => exact (readShapeT_cost r checks s).mono (by omega) (by omega) fun _ h => h

theorem readOpcodesLoopT_le (checks : Bool) (code : Bytes) : ∀ (fuel ix : Nat), ix ≤ code.length →
    ((readOpcodesLoopT checks pool code fuel ix).steps : Int) ≤ 5 * W + L * ((code.length : Int) - ix)
  | 0, ix, h => by have := mul_nonneg_sub r.pos h; have := r.work; show ((0 : Nat) : Int) ≤ _; omega
  | fuel + 1, ix, h => by
    have hm := mul_nonneg_sub r.pos h
    have hw := r.work
    unfold readOpcodesLoopT
    split
    · rw [steps_tick_bind]
      obtain ⟨h1, h2⟩ := readOpcodeT_cost r checks code ix h
      rcases steps_bind (readOpcodeT checks pool code ix) (fun x => match x with
        | (opcode, ix') => readOpcodesLoopT checks pool code fuel ix' >>= fun rest => free (.ok ((ix, opcode) :: rest))) with ⟨⟨op, i⟩, ha, hs⟩ | ⟨-, hs⟩
      · obtain ⟨-, g1, g2, g3⟩ := h1 op i ha
        have ih := readOpcodesLoopT_le checks code fuel i g2
        have hb : (readOpcodesLoopT checks pool code fuel i >>= fun rest => free (.ok ((ix, op) :: rest))).steps ≤ (readOpcodesLoopT checks pool code fuel i).steps + 0 :=
          steps_bind_le (Nat.le_refl _) fun _ _ => Nat.le_refl _
        have : (readOpcodeT checks pool code ix >>= fun x => match x with
          | (opcode, ix') => readOpcodesLoopT checks pool code fuel ix' >>= fun rest => free (.ok ((ix, opcode) :: rest))).steps ≤
            (readOpcodeT checks pool code ix).steps + (readOpcodesLoopT checks pool code fuel i).steps := by
          rw [hs]; exact Nat.add_le_add_left hb _
        refine Int.le_trans (b := ((1 + ((readOpcodeT checks pool code ix).steps + (readOpcodesLoopT checks pool code fuel i).steps) : Nat) : Int)) ?_ (by push_cast; omega)
        exact Int.ofNat_le.mpr (Nat.add_le_add_left this 1)
      · have : (readOpcodeT checks pool code ix >>= fun x => match x with
          | (opcode, ix') => readOpcodesLoopT checks pool code fuel ix' >>= fun rest => free (.ok ((ix, opcode) :: rest))).steps = (readOpcodeT checks pool code ix).steps := hs
        refine Int.le_trans (b := ((1 + (readOpcodeT checks pool code ix).steps : Nat) : Int)) ?_ (by push_cast; omega)
        exact Int.ofNat_le.mpr (Nat.add_le_add_left (Nat.le_of_eq this) 1)
    · show ((0 : Nat) : Int) ≤ _; omega

end

/-- Binary search halves the range at every turn. -/
theorem opcodeIndexLoopT_le (ops : List (Nat × Opcode)) (o : Nat) : ∀ (fuel k a b : Nat), b ≤ a + 2 ^ k → (opcodeIndexLoopT ops o fuel a b).steps ≤ k + 1
  | 0, _, _, _, _ => Nat.zero_le _
  | fuel + 1, k, a, b, h => by
    unfold opcodeIndexLoopT
    split
    · rename_i hab
      rw [steps_tick_bind]
      dsimp only
      cases ops[(a + b) / 2]? with
      | none => show 1 + 0 ≤ _; omega
      | some x =>
        dsimp only
        split
        · show 1 + 0 ≤ _; omega
        · cases k with
          | zero =>
            have hb : b = a + 1 := by simp at h; omega
            have hm : (a + b) / 2 = a := by omega
            rw [hm]
            have : ∀ fuel, (opcodeIndexLoopT ops o fuel a a).steps = 0 := by
              intro f
              cases f with
              | zero => rfl
              | succ f => unfold opcodeIndexLoopT; rw [if_neg (by omega)]; rfl
            split
            · rw [this]
            · simp
          | succ k =>
            have hp : 2 ^ (k + 1) = 2 * 2 ^ k := by rw [Nat.pow_succ]; omega
            split
            · have := opcodeIndexLoopT_le ops o fuel k a ((a + b) / 2) (by omega)
              omega
            · split
              · show 1 + 0 ≤ _; omega
              · have := opcodeIndexLoopT_le ops o fuel k ((a + b) / 2) b (by omega)
                omega
    · exact Nat.zero_le _

theorem getOpcodeIndexT_le {bc : ByteCode} {k : Nat} (h : bc.opcodes.length ≤ 2 ^ k) (o : Nat) : (bc.getOpcodeIndexT o).steps ≤ k + 1 :=
  opcodeIndexLoopT_le _ _ _ k _ _ (by omega)

theorem validateJumpT_le {bc : ByteCode} {k : Nat} (h : bc.opcodes.length ≤ 2 ^ k) (checks : Bool) (s j : Int32) : (bc.validateJumpT checks s j).steps ≤ k + 2 := by
  unfold ByteCode.validateJumpT
  rw [steps_tick_bind]
  have : (free (addI32 checks s j) >>= fun sum => if sum.toInt < 0 then free (Res.fail "Invalid destination after applying jump")
    else do
      match ← bc.getOpcodeIndexT sum.toInt.toNat with
      | none => free (Res.fail "Invalid opcode offset after applying jump")
      | some _ => free (.ok ()) : Timed Unit).steps ≤ k + 1 := by
    refine steps_free_bind_le fun sum _ => ?_
    split
    · exact Nat.zero_le _
    · refine Nat.le_trans (steps_bind_le (n := 0) (getOpcodeIndexT_le h _) fun a _ => ?_) (by omega)
      cases a <;> exact Nat.le_refl _
  have h2 : ∀ a, a ≤ k + 1 → 1 + a ≤ k + 2 := by omega
  exact h2 _ this

section
variable {bc : ByteCode} {k : Nat} (h : bc.opcodes.length ≤ 2 ^ k)
include h

theorem validateMatchOffsetsT_le (checks : Bool) (s : Int32) : ∀ l, (validateMatchOffsetsT checks bc s l).steps ≤ l.length * (k + 3)
  | [] => Nat.zero_le _
  | (i, j) :: rest => by
    unfold validateMatchOffsetsT
    have h1 := validateJumpT_le h checks s j
    have := steps_bind_le (t := (bc.validateJumpT checks s j).mapErr s!"match offset {i}") (f := fun _ => validateMatchOffsetsT checks bc s rest) (m := k + 2) (by rw [steps_mapErr]; exact h1)
      fun _ _ => validateMatchOffsetsT_le checks s rest
    rw [steps_tick_bind, List.length_cons, Nat.add_mul]
    omega

theorem validateRangeOffsetsT_le (checks : Bool) (s : Int32) : ∀ l i, (validateRangeOffsetsT checks bc s i l).steps ≤ l.length * (k + 3)
  | [], _ => Nat.zero_le _
  | j :: rest, i => by
    unfold validateRangeOffsetsT
    have h1 := validateJumpT_le h checks s j
    have := steps_bind_le (t := (bc.validateJumpT checks s j).mapErr s!"range offset {i}") (f := fun _ => validateRangeOffsetsT checks bc s (i + 1) rest) (m := k + 2) (by rw [steps_mapErr]; exact h1)
      fun _ _ => validateRangeOffsetsT_le checks s rest (i + 1)
    rw [steps_tick_bind, List.length_cons, Nat.add_mul]
    omega

theorem validateOpcodeJumpsT_le (checks : Bool) (o : Nat) (op : Opcode) : (bc.validateOpcodeJumpsT checks o op).steps + 1 ≤ (1 + insnSize op) * (k + 3) := by
  unfold ByteCode.validateOpcodeJumpsT
  split
  · rw [Nat.add_mul]; show 0 + 1 ≤ _; omega
  · have hj := fun j => validateJumpT_le h checks (Int32.ofNat o) j
    cases op with
    | lookupswitch t =>
      have := steps_bind_le (t := (bc.validateJumpT checks (Int32.ofNat o) t.default).mapErr "default jump offset") (f := fun _ => validateMatchOffsetsT checks bc (Int32.ofNat o) t.matchOffsets)
        (m := k + 2) (by rw [steps_mapErr]; exact hj _) fun _ _ => validateMatchOffsetsT_le h checks _ _
      simp only [insnSize]
      rw [Nat.add_mul]
      omega
    | tableswitch t =>
      have := steps_bind_le (t := (bc.validateJumpT checks (Int32.ofNat o) t.default).mapErr "default jump offset") (f := fun _ => validateRangeOffsetsT checks bc (Int32.ofNat o) 0 t.jumps)
        (m := k + 2) (by rw [steps_mapErr]; exact hj _) fun _ _ => validateRangeOffsetsT_le h checks _ _ _
      simp only [insnSize]
      rw [Nat.add_mul]
      omega
    | _ => simp only [insnSize]; first | exact Nat.le_trans (Nat.succ_le_succ (hj _)) (by omega) | (show 0 + 1 ≤ _; omega)

theorem validateJumpsFromT_le (checks : Bool) : ∀ l, (bc.validateJumpsFromT checks l).steps ≤ sizeOfList (fun p => insnSize p.2) l * (k + 3)
  | [] => Nat.zero_le _
  | (o, op) :: rest => by
    unfold ByteCode.validateJumpsFromT
    have h1 := validateOpcodeJumpsT_le h checks o op
    have := steps_bind_le (t := (bc.validateOpcodeJumpsT checks o op).mapErr s!"opcode at offset {o}") (f := fun _ => ByteCode.validateJumpsFromT checks bc rest)
      (m := (bc.validateOpcodeJumpsT checks o op).steps) (by rw [steps_mapErr]) fun _ _ => validateJumpsFromT_le checks rest
    rw [steps_tick_bind, sizeOfList]
    have e : (1 + insnSize (o, op).2 + sizeOfList (fun p => insnSize p.2) rest) * (k + 3) = (1 + insnSize op) * (k + 3) + sizeOfList (fun p => insnSize p.2) rest * (k + 3) := by ring
    rw [e]
    omega

end

theorem insns_count {checks : Bool} {pool : Pool} {pos : Nat} {ops : List (Nat × Opcode)} {code : Bytes} (h : InsnsEnc checks pool pos ops code) : ops.length ≤ code.length := by
  have := fits_insns h
  have h2 : ∀ l : List (Nat × Opcode), l.length ≤ sizeOfList (fun p => insnSize p.2) l := by
    intro l
    induction l with
    | nil => exact Nat.zero_le _
    | cons a l ih => rw [sizeOfList, List.length_cons]; omega
  exact Nat.le_trans (h2 ops) this

theorem ofCodeT_le {pool : Pool} {n : Nat} {W : Int} (r : Rate pool n W (10 * W)) (checks : Bool) {code : Bytes} (hc : code.length < 2 ^ 32) :
    ((ByteCode.ofCodeT checks code pool).steps : Int) ≤ 5 * W + 11 * (W * code.length) := by
  have h1 := readOpcodesLoopT_le r checks code (code.length + 1) 0 (Nat.zero_le _)
  have hw := r.work
  unfold ByteCode.ofCodeT
  have hW : (0 : Int) ≤ W * code.length := Int.mul_nonneg (by omega) (by omega)
  have e1 : 10 * W * ((code.length : Int) - (0 : Nat)) = 10 * (W * code.length) := by push_cast; ring
  rw [e1] at h1
  rcases steps_bind (readOpcodesT checks code pool) (fun opcodes => ByteCode.validateJumpsT checks { opcodes := opcodes } >>= fun _ => free (.ok (ByteCode.mk opcodes))) with ⟨ops, ho, hs⟩ | ⟨-, hs⟩
  · have hops : InsnsEnc checks pool 0 ops code := (readOpcodes_ok checks pool code ops).mp (by
      rw [← ho]; exact (readOpcodesLoopT_out checks pool code _ _).symm)
    have hj := validateJumpsFromT_le (bc := ⟨ops⟩) (k := 32) (by have := insns_count hops; show ops.length ≤ _; omega) checks ops
    have hf := fits_insns hops
    have h2 : (ByteCode.validateJumpsT checks { opcodes := ops } >>= fun _ => free (.ok (ByteCode.mk ops))).steps ≤ code.length * 35 + 0 :=
      steps_bind_le (Nat.le_trans hj (Nat.mul_le_mul_right _ hf)) fun _ _ => Nat.le_refl _
    have h3 : ((code.length * 35 : Nat) : Int) ≤ W * code.length := by
      push_cast
      rw [Int.mul_comm]
      exact Int.mul_le_mul_of_nonneg_right (by omega) (by omega)
    have h4 : ((readOpcodesT checks code pool).steps : Int) ≤ 5 * W + 10 * (W * code.length) := h1
    refine Int.le_trans (b := ((readOpcodesT checks code pool).steps : Int) + (code.length * 35 : Nat)) ?_ (by omega)
    have : (readOpcodesT checks code pool >>= fun opcodes => ByteCode.validateJumpsT checks { opcodes := opcodes } >>= fun _ => free (.ok (ByteCode.mk opcodes))).steps ≤
      (readOpcodesT checks code pool).steps + code.length * 35 := by rw [hs]; omega
    exact_mod_cast this
  · have h4 : ((readOpcodesT checks code pool).steps : Int) ≤ 5 * W + 10 * (W * code.length) := h1
    have : (readOpcodesT checks code pool >>= fun opcodes => ByteCode.validateJumpsT checks { opcodes := opcodes } >>= fun _ => free (.ok (ByteCode.mk opcodes))).steps =
      (readOpcodesT checks code pool).steps := hs
    show (((readOpcodesT checks code pool >>= fun opcodes => ByteCode.validateJumpsT checks { opcodes := opcodes } >>= fun _ => free (.ok (ByteCode.mk opcodes))).steps : Nat) : Int) ≤ _
    omega

end Cafebabe
