import Verif.Model.WorkParse
import Verif.Proofs.Work
/-!
# Counting the steps of the parser changes no outcome
-/

namespace Cafebabe
open Spec Timed

/-- The counting reader `q` has the outcomes of `p`. -/
def Erases {α : Type} (q : PT α) (p : P α) : Prop := ∀ bytes ix, (q bytes ix).out = p bytes ix

namespace Erases

theorem pure {α : Type} (a : α) : Erases (Pure.pure a : PT α) (Pure.pure a : P α) := fun _ _ => rfl
theorem once {α : Type} (p : P α) : Erases (PT.once p) p := fun _ _ => rfl
theorem plain {α : Type} (p : P α) : Erases (PT.plain p) p := fun _ _ => rfl

theorem bind {α β : Type} {q : PT α} {p : P α} {g : α → PT β} {f : α → P β} (h : Erases q p) (hf : ∀ a, Erases (g a) (f a)) : Erases (q >>= g) (p >>= f) := by
  intro bytes ix
  show (PT.bind q g bytes ix).out = P.bind p f bytes ix
  unfold PT.bind P.bind
  rw [out_bind, h bytes ix]
  cases p bytes ix with
  | ok r => exact hf r.1 bytes r.2
  | err e => rfl
  | panic k => rfl
  | diverge => rfl

theorem lift {α : Type} {t : Timed α} {r : Res α} (h : t.out = r) : Erases (PT.lift t) (P.lift r) := by
  intro bytes ix
  unfold PT.lift P.lift
  rw [out_bind, h]
  cases r <;> rfl

theorem tick {α : Type} {n : Nat} {q : PT α} {p : P α} (h : Erases q p) : Erases (PT.tick n >>= fun _ => q) p := fun bytes ix => by
  show (PT.bind (PT.tick n) (fun _ => q) bytes ix).out = _
  unfold PT.bind PT.tick PT.lift
  rw [out_bind, out_bind, out_tick, res_bind_ok]
  exact h bytes ix

theorem check {α : Type} {t : Timed Bool} {b : Bool} {g : Bool → PT α} {p : P α} (h : t.out = .ok b) (hg : Erases (g b) p) : Erases (PT.lift t >>= g) p := fun bytes ix => by
  show (PT.bind (PT.lift t) g bytes ix).out = _
  unfold PT.bind PT.lift
  rw [out_bind, out_bind, h, res_bind_ok]
  exact hg bytes ix

theorem step {α : Type} {t : Timed Unit} {q : PT α} {p : P α} (h : t.out = .ok ()) (hg : Erases q p) : Erases (PT.lift t >>= fun _ => q) p := fun bytes ix => by
  show (PT.bind (PT.lift t) (fun _ => q) bytes ix).out = _
  unfold PT.bind PT.lift
  rw [out_bind, out_bind, h, res_bind_ok]
  exact hg bytes ix

theorem mapErr {α : Type} {q : PT α} {p : P α} (h : Erases q p) (c : String) : Erases (q.mapErr c) (p.mapErr c) := fun bytes ix => by
  unfold PT.mapErr P.mapErr
  rw [out_mapErr, h bytes ix]

theorem ite {α : Type} {c : Prop} {i : Decidable c} {q q' : PT α} {p p' : P α} (h : Erases q p) (h' : Erases q' p') :
    Erases (if c then q else q') (if c then p else p') := by
  split
  · exact h
  · exact h'

theorem forRangeFrom {α : Type} {g : Nat → PT α} {f : Nat → P α} (h : ∀ i, Erases (g i) (f i)) : ∀ (n i : Nat), Erases (forRangeFromT g i n) (P.forRangeFrom f i n)
  | 0, _ => pure _
  | n + 1, i => tick (bind (h i) fun _ => bind (forRangeFrom h n (i + 1)) fun _ => pure _)

theorem forRange {α : Type} {g : Nat → PT α} {f : Nat → P α} {n : Nat} (h : ∀ i, Erases (g i) (f i)) : Erases (forRangeT n g) (P.forRange n f) := forRangeFrom h n 0

theorem fail {α : Type} (m : String) : Erases (PT.fail m : PT α) (P.fail m) := plain _
theorem getIx : Erases PT.getIx P.getIx := plain _
theorem failIf (b : Bool) (m : String) : Erases (PT.failIf b m) (P.failIf b m) := plain _
theorem okOr {α : Type} (o : Option α) (m : String) : Erases (PT.okOr o m) (P.okOr o m) := plain _
theorem diverge {α : Type} : Erases (PT.diverge : PT α) P.diverge := plain _

end Erases

/-- Closes or splits a goal `Erases q p`; later files add the functions already treated. -/
syntax "erase1" : tactic
macro_rules | `(tactic| erase1) => `(tactic| with_reducible apply Erases.ite)
macro_rules | `(tactic| erase1) => `(tactic| with_reducible apply Erases.tick)
macro_rules | `(tactic| erase1) => `(tactic| with_reducible apply Erases.bind)
macro_rules | `(tactic| erase1) => `(tactic| with_reducible apply Erases.mapErr)
macro_rules | `(tactic| erase1) => `(tactic| with_reducible apply Erases.forRange)
macro_rules | `(tactic| erase1) => `(tactic| with_reducible exact Erases.pure _)
macro_rules | `(tactic| erase1) => `(tactic| with_reducible exact Erases.once _)
macro_rules | `(tactic| erase1) => `(tactic| with_reducible exact Erases.plain _)
macro_rules | `(tactic| erase1) => `(tactic| with_reducible exact Erases.fail _)
macro_rules | `(tactic| erase1) => `(tactic| with_reducible exact Erases.getIx)
macro_rules | `(tactic| erase1) => `(tactic| with_reducible exact Erases.failIf _ _)
macro_rules | `(tactic| erase1) => `(tactic| with_reducible exact Erases.okOr _ _)
macro_rules | `(tactic| erase1) => `(tactic| with_reducible exact Erases.diverge)
macro_rules | `(tactic| erase1) => `(tactic| exact Erases.lift rfl)
macro_rules | `(tactic| erase1) => `(tactic| with_reducible assumption)

/-- Splits as far as possible. -/
macro "erase" : tactic => `(tactic| repeat' (first | erase1 | intro _))

theorem out_okIf (b : Bool) (m : String) : (free (okIf b m)).out = okIf b m := rfl

/-! ## Constants -/

theorem copyT_out (s : Str) : (copyT s).out = .ok s := rfl

theorem peelUtf8T_out (pool : Pool) (x : CPRef) : (peelUtf8T pool x).out = peelUtf8 pool x := by
  unfold peelUtf8T peelUtf8
  simp only [out_bind, peelT_out, out_free, copyT_out]
  cases peel pool x with
  | ok e => cases e <;> rfl
  | _ => rfl

theorem classinfoT_out (pool : Pool) (e : Entry) : (e.classinfoT pool).out = e.classinfo pool := by
  cases e <;> first | rfl | exact peelUtf8T_out _ _

theorem nameAndTypeOfT_out (pool : Pool) (e : Entry) : (e.nameAndTypeOfT pool).out = e.nameAndTypeOf pool := by
  cases e <;> first | rfl | simp only [Entry.nameAndTypeOfT, Entry.nameAndTypeOf, out_bind, peelUtf8T_out, out_free]

theorem peelStringLiteralT_out (pool : Pool) (x : CPRef) : (peelStringLiteralT pool x).out = peelStringLiteral pool x := by
  unfold peelStringLiteralT peelStringLiteral
  simp only [out_bind, peelT_out, out_free, out_tick]
  cases peel pool x with
  | ok e => cases e <;> rfl
  | _ => rfl

theorem peelClassinfoT_out (pool : Pool) (x : CPRef) : (peelClassinfoT pool x).out = peelClassinfo pool x := by
  simp only [peelClassinfoT, peelClassinfo, out_bind, peelT_out, classinfoT_out]

theorem peelNameAndTypeT_out (pool : Pool) (x : CPRef) : (peelNameAndTypeT pool x).out = peelNameAndType pool x := by
  simp only [peelNameAndTypeT, peelNameAndType, out_bind, peelT_out, nameAndTypeOfT_out]

theorem makeMemberRefT_out (pool : Pool) (c m : CPRef) : (makeMemberRefT pool c m).out = makeMemberRef pool c m := by
  simp only [makeMemberRefT, makeMemberRef, out_bind, peelClassinfoT_out, peelNameAndTypeT_out, out_free]

theorem makeDynamicT_out (pool : Pool) (x : UInt16) (y : CPRef) : (makeDynamicT pool x y).out = makeDynamic pool x y := by
  simp only [makeDynamicT, makeDynamic, out_bind, peelNameAndTypeT_out, out_free]

theorem makeHandleFromT_out (pool : Pool) (x : ReferenceKind) (k : MemberKind) (c m : CPRef) : (makeHandleFromT pool x k c m).out = makeHandleFrom pool x k c m := by
  simp only [makeHandleFromT, makeHandleFrom, out_bind, peelClassinfoT_out, peelNameAndTypeT_out, out_free]

theorem makeMethodHandleT_out (pool : Pool) (x : ReferenceKind) (y : CPRef) : (makeMethodHandleT pool x y).out = makeMethodHandle pool x y := by
  simp only [makeMethodHandleT, makeMethodHandle, out_bind, peelT_out]
  cases peel pool y with
  | ok e => cases e <;> first | rfl | exact makeHandleFromT_out _ _ _ _ _
  | _ => rfl

theorem getCpLoadableT_out (i : Nat) (pool : Pool) : (getCpLoadableT i pool).out = getCpLoadable i pool := by
  unfold getCpLoadableT getCpLoadable
  split
  · rfl
  · simp only [out_bind, out_free, out_tick, res_bind_ok]
    cases poolAt pool i with
    | ok e => cases e <;> simp only [res_bind_ok, out_bind, out_free, peelStringLiteralT_out, peelUtf8T_out, makeMethodHandleT_out, makeDynamicT_out]
    | _ => rfl

theorem bootstrapArgumentOfT_out (pool : Pool) (e : Entry) : (bootstrapArgumentOfT pool e).out = bootstrapArgumentOf pool e := by
  cases e <;> simp only [bootstrapArgumentOfT, bootstrapArgumentOf, out_bind, out_free, peelStringLiteralT_out, peelUtf8T_out, makeMethodHandleT_out]

macro_rules | `(tactic| erase1) => `(tactic| with_reducible exact Erases.lift (peelUtf8T_out _ _))
macro_rules | `(tactic| erase1) => `(tactic| with_reducible exact Erases.lift (peelStringLiteralT_out _ _))
macro_rules | `(tactic| erase1) => `(tactic| with_reducible exact Erases.lift (makeMemberRefT_out _ _ _))
macro_rules | `(tactic| erase1) => `(tactic| with_reducible exact Erases.lift (makeDynamicT_out _ _ _))
macro_rules | `(tactic| erase1) => `(tactic| with_reducible exact Erases.lift (makeMethodHandleT_out _ _ _))
macro_rules | `(tactic| erase1) => `(tactic| with_reducible exact Erases.lift (bootstrapArgumentOfT_out _ _))
macro_rules | `(tactic| erase1) => `(tactic| with_reducible exact Erases.lift (getCpLoadableT_out _ _))
macro_rules | `(tactic| erase1) => `(tactic| with_reducible exact Erases.lift (arrayT_out _))
macro_rules | `(tactic| erase1) => `(tactic| with_reducible exact Erases.lift (fieldT_out _ _))
macro_rules | `(tactic| erase1) => `(tactic| with_reducible exact Erases.lift (methodT_out _ _))
macro_rules | `(tactic| erase1) => `(tactic| with_reducible exact Erases.lift (tryFromT_out _))

theorem readCpUtf8T_out (pool : Pool) : Erases (readCpUtf8T pool) (readCpUtf8 pool) :=
  Erases.bind (Erases.once _) fun e => by cases e <;> first | exact Erases.plain _ | exact fun _ _ => rfl

theorem readCpUtf8OptT_out (pool : Pool) : Erases (readCpUtf8OptT pool) (readCpUtf8Opt pool) :=
  Erases.bind (Erases.once _) fun e => by cases e <;> first | exact Erases.plain _ | exact fun _ _ => rfl

theorem readCpClassinfoT_out (pool : Pool) : Erases (readCpClassinfoT pool) (readCpClassinfo pool) :=
  Erases.bind (Erases.once _) fun e => by cases e <;> erase

theorem readCpClassinfoOptT_out (pool : Pool) : Erases (readCpClassinfoOptT pool) (readCpClassinfoOpt pool) :=
  Erases.bind (Erases.once _) fun e => by cases e <;> erase

theorem readCpModuleinfoT_out (pool : Pool) : Erases (readCpModuleinfoT pool) (readCpModuleinfo pool) :=
  Erases.bind (Erases.once _) fun e => by cases e <;> erase

theorem readCpPackageinfoT_out (pool : Pool) : Erases (readCpPackageinfoT pool) (readCpPackageinfo pool) :=
  Erases.bind (Erases.once _) fun e => by cases e <;> erase

theorem readCpNameandtypeOptT_out (pool : Pool) : Erases (readCpNameandtypeOptT pool) (readCpNameandtypeOpt pool) :=
  Erases.bind (Erases.once _) fun e => by cases e <;> erase

theorem readCpLiteralconstantT_out (pool : Pool) : Erases (readCpLiteralconstantT pool) (readCpLiteralconstant pool) :=
  Erases.bind (Erases.once _) fun e => by cases e <;> erase

theorem readCpMemberrefT_out (pool : Pool) (a : UInt32) : Erases (readCpMemberrefT pool a) (readCpMemberref pool a) :=
  Erases.bind (Erases.once _) fun e => Erases.bind (Erases.lift rfl) fun _ => by cases e <;> erase

theorem readCpInvokedynamicT_out (pool : Pool) : Erases (readCpInvokedynamicT pool) (readCpInvokedynamic pool) :=
  Erases.bind (Erases.once _) fun e => by cases e <;> erase

theorem readCpMethodhandleT_out (pool : Pool) : Erases (readCpMethodhandleT pool) (readCpMethodhandle pool) :=
  Erases.bind (Erases.once _) fun e => by cases e <;> erase

theorem readCpBootstrapArgumentT_out (pool : Pool) : Erases (readCpBootstrapArgumentT pool) (readCpBootstrapArgument pool) := by
  unfold readCpBootstrapArgumentT readCpBootstrapArgument; erase

theorem readCpObjectArrayTypeT_out (pool : Pool) : Erases (readCpObjectArrayTypeT pool) (readCpObjectArrayType pool) :=
  Erases.bind (Erases.once _) fun e => by
    cases e <;> first | exact Erases.plain _ | skip
    exact Erases.bind (Erases.lift (peelUtf8T_out _ _)) fun _ => Erases.bind (Erases.lift (arrayT_out _)) fun d => by cases d <;> erase

macro_rules | `(tactic| erase1) => `(tactic| with_reducible exact readCpUtf8T_out _)
macro_rules | `(tactic| erase1) => `(tactic| with_reducible exact readCpUtf8OptT_out _)
macro_rules | `(tactic| erase1) => `(tactic| with_reducible exact readCpClassinfoT_out _)
macro_rules | `(tactic| erase1) => `(tactic| with_reducible exact readCpClassinfoOptT_out _)
macro_rules | `(tactic| erase1) => `(tactic| with_reducible exact readCpModuleinfoT_out _)
macro_rules | `(tactic| erase1) => `(tactic| with_reducible exact readCpPackageinfoT_out _)
macro_rules | `(tactic| erase1) => `(tactic| with_reducible exact readCpNameandtypeOptT_out _)
macro_rules | `(tactic| erase1) => `(tactic| with_reducible exact readCpLiteralconstantT_out _)
macro_rules | `(tactic| erase1) => `(tactic| with_reducible exact readCpMemberrefT_out _ _)
macro_rules | `(tactic| erase1) => `(tactic| with_reducible exact readCpInvokedynamicT_out _)
macro_rules | `(tactic| erase1) => `(tactic| with_reducible exact readCpMethodhandleT_out _)
macro_rules | `(tactic| erase1) => `(tactic| with_reducible exact readCpBootstrapArgumentT_out _)
macro_rules | `(tactic| erase1) => `(tactic| with_reducible exact readCpObjectArrayTypeT_out _)

theorem readConstantUtf8T_out (env : Env) : Erases (readConstantUtf8T env) (readConstantUtf8 env) := by
  refine Erases.bind (Erases.once _) fun l => Erases.bind (Erases.plain _) fun i => Erases.bind (Erases.once _) fun b => Erases.tick ?_
  cases env.decode b <;> erase

theorem readConstantT_out (env : Env) (major : UInt16) (t : UInt8) : Erases (readConstantT env major t) (readConstant env major t) := by
  unfold readConstantT readConstant
  generalize t.toNat = n
  match n with
  | 0 => exact Erases.plain _
  | 1 => exact readConstantUtf8T_out env
  | 2 => exact Erases.plain _
  | 3 => exact Erases.once _
  | 4 => exact Erases.once _
  | 5 => exact Erases.once _
  | 6 => exact Erases.once _
  | 7 => exact Erases.once _
  | 8 => exact Erases.once _
  | 9 => exact Erases.once _
  | 10 => exact Erases.once _
  | 11 => exact Erases.once _
  | 12 => exact Erases.once _
  | 13 => exact Erases.plain _
  | 14 => exact Erases.plain _
  | 15 => exact Erases.ite (Erases.once _) (Erases.plain _)
  | 16 => exact Erases.ite (Erases.once _) (Erases.plain _)
  | 17 => exact Erases.ite (Erases.once _) (Erases.plain _)
  | 18 => exact Erases.ite (Erases.once _) (Erases.plain _)
  | 19 => exact Erases.ite (Erases.once _) (Erases.plain _)
  | 20 => exact Erases.ite (Erases.once _) (Erases.plain _)
  | n + 21 => exact Erases.plain _

theorem constantPoolLoopT_out (env : Env) (major count : UInt16) : ∀ (fuel : Nat) (k : UInt16),
    Erases (constantPoolLoopT env major count fuel k) (constantPoolLoop env major count fuel k)
  | 0, _ => Erases.plain _
  | fuel + 1, k => by
    unfold constantPoolLoopT constantPoolLoop
    have ih := constantPoolLoopT_out env major count fuel
    refine Erases.ite (Erases.bind (Erases.once _) fun t => Erases.bind (readConstantT_out _ _ _) fun e => Erases.bind (Erases.lift rfl) fun k1 => Erases.ite ?_ ?_) (Erases.pure _)
    · exact Erases.bind (Erases.lift rfl) fun k2 => Erases.bind (ih k2) fun _ => Erases.pure _
    · exact Erases.bind (ih k1) fun _ => Erases.pure _

theorem resolveFromT_out (pool : Pool) : ∀ (es : List Entry) (i : Nat), (resolveFromT pool i es).out = resolveFrom pool i es
  | [], _ => rfl
  | e :: es, i => by
    unfold resolveFromT resolveFrom
    simp only [out_bind, out_tick, out_free, res_bind_ok, resolveFromT_out pool es (i + 1)]

theorem readRawPoolT_out (env : Env) (major : UInt16) : Erases (readRawPoolT env major) (readRawPool env major) :=
  Erases.bind (Erases.once _) fun c => Erases.bind (fun bytes ix => constantPoolLoopT_out env major c _ _ bytes ix) fun _ => Erases.pure _

theorem readConstantPoolT_out (env : Env) (major : UInt16) : Erases (readConstantPoolT env major) (readConstantPool env major) :=
  Erases.bind (readRawPoolT_out env major) fun raw => Erases.bind (Erases.lift (resolveFromT_out raw raw 0)) fun pool =>
    Erases.bind (Erases.lift (validateFromT_out _ _ _ _ _)) fun _ => Erases.pure _

/-! ## Bytecode -/

theorem readTableswitchT_out (checks : Bool) : Erases (readTableswitchT checks) (readTableswitch checks) := by
  refine Erases.bind (Erases.once _) fun h => ?_
  obtain ⟨a, b, c, d⟩ := h
  erase

theorem readLookupswitchT_out : Erases readLookupswitchT readLookupswitch := by
  refine Erases.bind (Erases.once _) fun h => ?_
  obtain ⟨a, d⟩ := h
  erase

theorem readInvokeinterfaceT_out (pool : Pool) : Erases (readInvokeinterfaceT pool) (readInvokeinterface pool) := by
  unfold readInvokeinterfaceT readInvokeinterface; erase

theorem readInvokedynamicT_out (pool : Pool) : Erases (readInvokedynamicT pool) (readInvokedynamic pool) := by
  unfold readInvokedynamicT readInvokedynamic; erase

theorem readShapeT_out (checks : Bool) (pool : Pool) (s : Shape) : Erases (readShapeT checks pool s) (readShape checks pool s) := by
  cases s <;> unfold readShapeT readShape <;>
    first | exact readTableswitchT_out _ | exact readLookupswitchT_out | exact readInvokeinterfaceT_out _ | exact readInvokedynamicT_out _ | erase

theorem readOpcodeT_out (checks : Bool) (pool : Pool) : Erases (readOpcodeT checks pool) (readOpcode checks pool) := by
  refine Erases.bind (Erases.once _) fun v => ?_
  cases shapeOf v with
  | none => exact Erases.bind (Erases.plain _) fun _ => Erases.plain _
  | some s => exact readShapeT_out checks pool s

theorem readOpcodesLoopT_out (checks : Bool) (pool : Pool) (code : Bytes) : ∀ (fuel ix : Nat),
    (readOpcodesLoopT checks pool code fuel ix).out = readOpcodesLoop checks pool code fuel ix
  | 0, _ => rfl
  | fuel + 1, ix => by
    unfold readOpcodesLoopT readOpcodesLoop
    split
    · simp only [out_bind, out_tick, res_bind_ok, readOpcodeT_out checks pool code ix, out_free]
      cases readOpcode checks pool code ix with
      | ok r => simp only [res_bind_ok, out_bind, readOpcodesLoopT_out checks pool code fuel r.2, out_free]
      | _ => rfl
    · rfl

theorem opcodeIndexLoopT_out (ops : List (Nat × Opcode)) (o : Nat) : ∀ (fuel a b : Nat), (opcodeIndexLoopT ops o fuel a b).out = opcodeIndexLoop ops o fuel a b
  | 0, _, _ => rfl
  | fuel + 1, a, b => by
    unfold opcodeIndexLoopT opcodeIndexLoop
    split
    · simp only [out_bind, out_tick, res_bind_ok]
      cases ops[(a + b) / 2]? with
      | none => rfl
      | some r =>
        simp only
        split
        · rfl
        · split
          · exact opcodeIndexLoopT_out ops o fuel _ _
          · split
            · rfl
            · exact opcodeIndexLoopT_out ops o fuel _ _
    · rfl

theorem validateJumpT_out (checks : Bool) (bc : ByteCode) (s j : Int32) : (bc.validateJumpT checks s j).out = bc.validateJump checks s j := by
  unfold ByteCode.validateJumpT ByteCode.validateJump
  simp only [out_bind, out_tick, res_bind_ok, out_free]
  congr 1
  funext sum
  split
  · rfl
  · simp only [out_bind]
    rw [show (bc.getOpcodeIndexT sum.toInt.toNat).out = bc.getOpcodeIndex sum.toInt.toNat from opcodeIndexLoopT_out _ _ _ _ _]
    congr 1
    funext r
    cases r <;> rfl

theorem validateMatchOffsetsT_out (checks : Bool) (bc : ByteCode) (s : Int32) : ∀ l, (validateMatchOffsetsT checks bc s l).out = validateMatchOffsets checks bc s l
  | [] => rfl
  | (i, j) :: rest => by
    unfold validateMatchOffsetsT validateMatchOffsets
    simp only [out_bind, out_tick, res_bind_ok, out_mapErr, validateJumpT_out, validateMatchOffsetsT_out checks bc s rest]

theorem validateRangeOffsetsT_out (checks : Bool) (bc : ByteCode) (s : Int32) : ∀ l i, (validateRangeOffsetsT checks bc s i l).out = validateRangeOffsets checks bc s i l
  | [], _ => rfl
  | j :: rest, i => by
    unfold validateRangeOffsetsT validateRangeOffsets
    simp only [out_bind, out_tick, res_bind_ok, out_mapErr, validateJumpT_out, validateRangeOffsetsT_out checks bc s rest (i + 1)]

theorem validateOpcodeJumpsT_out (checks : Bool) (bc : ByteCode) (o : Nat) (op : Opcode) : (bc.validateOpcodeJumpsT checks o op).out = bc.validateOpcodeJumps checks o op := by
  unfold ByteCode.validateOpcodeJumpsT ByteCode.validateOpcodeJumps
  split
  · rfl
  · cases op <;> simp only [validateJumpT_out, out_bind, out_mapErr, validateMatchOffsetsT_out, validateRangeOffsetsT_out, out_free]

theorem validateJumpsFromT_out (checks : Bool) (bc : ByteCode) : ∀ l, (bc.validateJumpsFromT checks l).out = bc.validateJumpsFrom checks l
  | [] => rfl
  | (o, op) :: rest => by
    unfold ByteCode.validateJumpsFromT ByteCode.validateJumpsFrom
    simp only [out_bind, out_tick, res_bind_ok, out_mapErr, validateOpcodeJumpsT_out, validateJumpsFromT_out checks bc rest]

theorem ofCodeT_out (checks : Bool) (code : Bytes) (pool : Pool) : (ByteCode.ofCodeT checks code pool).out = ByteCode.ofCode checks code pool := by
  unfold ByteCode.ofCodeT ByteCode.ofCode
  rw [out_bind, show (readOpcodesT checks code pool).out = readOpcodes checks code pool from readOpcodesLoopT_out _ _ _ _ _]
  congr 1
  funext ops
  rw [out_bind, show ((ByteCode.mk ops).validateJumpsT checks).out = (ByteCode.mk ops).validateJumps checks from validateJumpsFromT_out _ _ _]
  rfl

end Cafebabe
