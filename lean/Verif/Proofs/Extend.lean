import Lean.Elab.Tactic
import Verif.Proofs.Run
import Verif.Spec.Truncated
/-!
# Proofs: reading a longer input

`Grows p`: when `p` finds the end of the input, its error says at which item, and inputs that still do not contain this item fail in the
same way; every other outcome is the same on every extension of the input.
-/

namespace Cafebabe
open Spec

/-- The outcome of a run that found the end of the input (an error), or would read beyond it. -/
def Short {α : Type} (bytes : Bytes) (r : Bytes → Res α) : Prop :=
  (∃ e m n, r bytes = .err e ∧ CutAt bytes.length e.msg m n ∧ ∀ rest, (bytes ++ rest).length < m + n → r (bytes ++ rest) = r bytes) ∨ r bytes = .panic .bounds

/-- A successful run ends inside the input. -/
def Inside {α : Type} (bytes : Bytes) (r : Res (α × Nat)) : Prop := ∀ a ix', r = .ok (a, ix') → ix' ≤ bytes.length

/-- What a run started at `ix` says about extensions of the input. -/
def GrowsAt {α : Type} (p : P α) (ix : Nat) : Prop :=
  ∀ (bytes : Bytes), ix ≤ bytes.length →
    Short bytes (fun b => p b ix) ∨ (∀ rest, p (bytes ++ rest) ix = p bytes ix) ∧ Inside bytes (p bytes ix)

def Grows {α : Type} (p : P α) : Prop := ∀ ix, GrowsAt p ix

theorem Grows.of_same {α : Type} {p : P α} (h : ∀ bytes bytes' ix, p bytes ix = p bytes' ix)
    (h' : ∀ bytes ix a ix', p bytes ix = .ok (a, ix') → ix' = ix) : Grows p :=
  fun ix bytes hix => .inr ⟨fun _ => h _ _ _, fun a ix' he => by rw [h' bytes ix a ix' he]; exact hix⟩

theorem Grows.pure {α : Type} {a : α} : Grows (Pure.pure a : P α) := .of_same (fun _ _ _ => rfl) fun _ _ _ _ h => by cases h; rfl
theorem Grows.fail {α : Type} {m : String} : Grows (P.fail m : P α) := .of_same (fun _ _ _ => rfl) fun _ _ _ _ h => by cases h
theorem Grows.lift {α : Type} {r : Res α} : Grows (P.lift r) := .of_same (fun _ _ _ => rfl) fun _ _ _ _ h => by
  unfold P.lift at h; cases r <;> cases h; rfl
theorem Grows.getIx : Grows P.getIx := .of_same (fun _ _ _ => rfl) fun _ _ _ _ h => by cases h; rfl
theorem Grows.diverge {α : Type} : Grows (P.diverge : P α) := .of_same (fun _ _ _ => rfl) fun _ _ _ _ h => by cases h

theorem GrowsAt.bind {α β : Type} {p : P α} {f : α → P β} {ix : Nat} (h : GrowsAt p ix) (hf : ∀ a, Grows (f a)) : GrowsAt (p >>= f) ix := by
  intro bytes hix
  show Short bytes (fun b => P.bind p f b ix) ∨ (∀ rest, P.bind p f (bytes ++ rest) ix = P.bind p f bytes ix) ∧ Inside bytes (P.bind p f bytes ix)
  unfold P.bind
  rcases h bytes hix with h1 | ⟨h1, h2⟩
  · rcases h1 with ⟨e, m, n, he, hm, hs⟩ | he
    · refine .inl (.inl ⟨e, m, n, ?_, hm, fun rest hl => ?_⟩)
      · simp only at he ⊢; rw [he]
      · have := hs rest hl
        simp only at he this ⊢; rw [this, he]
    · refine .inl (.inr ?_)
      simp only at he ⊢; rw [he]
  · cases hp : p bytes ix with
    | ok a =>
      rcases hf a.1 a.2 bytes (h2 a.1 a.2 hp) with h3 | ⟨h3, h4⟩
      · rcases h3 with ⟨e, m, n, he, hm, hs⟩ | he
        · refine .inl (.inl ⟨e, m, n, ?_, hm, fun rest hl => ?_⟩)
          · simp only at he ⊢; rw [hp]; exact he
          · have := hs rest hl
            simp only at this ⊢; rw [h1, hp]; exact this
        · refine .inl (.inr ?_)
          simp only at he ⊢; rw [hp]; exact he
      · exact .inr ⟨fun rest => by rw [h1, hp]; exact h3 rest, h4⟩
    | err e => exact .inr ⟨fun rest => by rw [h1, hp], fun _ _ h => by cases h⟩
    | panic k => exact .inr ⟨fun rest => by rw [h1, hp], fun _ _ h => by cases h⟩
    | diverge => exact .inr ⟨fun rest => by rw [h1, hp], fun _ _ h => by cases h⟩

theorem Grows.bind {α β : Type} {p : P α} {f : α → P β} (h : Grows p) (hf : ∀ a, Grows (f a)) : Grows (p >>= f) := fun ix => (h ix).bind hf

/-- The current index may be used in messages. -/
theorem Grows.atIx {α : Type} {f : Nat → P α} (h : ∀ ix, GrowsAt (f ix) ix) : Grows (P.getIx >>= f) := h

theorem Grows.mapErr {α : Type} {p : P α} {c : String} (h : Grows p) : Grows (p.mapErr c) := by
  intro ix bytes hix
  unfold P.mapErr
  rcases h ix bytes hix with h1 | ⟨h1, h2⟩
  · rcases h1 with ⟨e, m, n, he, hm, hs⟩ | he
    · refine .inl (.inl ⟨e.withContext c, m, n, ?_, hm, fun rest hl => ?_⟩)
      · simp only at he ⊢; rw [he]; rfl
      · have := hs rest hl
        simp only at this ⊢; rw [this]
    · refine .inl (.inr ?_)
      simp only at he ⊢; rw [he]; rfl
  · refine .inr ⟨fun rest => by rw [h1], fun a ix' he => h2 a ix' ?_⟩
    cases hp : p bytes ix <;> rw [hp] at he <;> cases he
    rfl

theorem Grows.ite {α : Type} {c : Prop} {inst : Decidable c} {p q : P α} (h : Grows p) (h' : Grows q) : Grows (if c then p else q) := by
  split <;> assumption

theorem Grows.okOr {α : Type} {o : Option α} {m : String} : Grows (P.okOr o m) := by
  cases o with
  | none => exact Grows.fail
  | some a => exact Grows.pure

theorem Grows.failIf {c : Bool} {m : String} : Grows (P.failIf c m) := by
  cases c with
  | true => exact Grows.fail
  | false => exact Grows.pure

theorem Grows.forRangeFrom {α : Type} {f : Nat → P α} (h : ∀ i, Grows (f i)) : ∀ n i, Grows (P.forRangeFrom f i n)
  | 0, _ => Grows.pure
  | n + 1, i => Grows.bind (h i) fun _ => Grows.bind (Grows.forRangeFrom h n (i + 1)) fun _ => Grows.pure

theorem Grows.readTable2 {α : Type} {f : Nat → P α} (h : ∀ i, Grows (f i)) (hu : Grows readU2) : Grows (Cafebabe.readTable2 f) :=
  Grows.bind hu fun _ => Grows.forRangeFrom h _ _

theorem Grows.readTable1 {α : Type} {f : Nat → P α} (h : ∀ i, Grows (f i)) (hu : Grows readU1) : Grows (Cafebabe.readTable1 f) :=
  Grows.bind hu fun _ => Grows.forRangeFrom h _ _

/-- A reader that first checks that `n` bytes are left and then looks only at these. -/
theorem GrowsAt.checked {α : Type} {n ix : Nat} {what m : String} {g : Bytes → Res (α × Nat)} (hw : Item what n)
    (hm : m = s!"Unexpected end of stream reading {what} at index {ix}")
    (hg : ∀ bytes rest, ix + n ≤ bytes.length → g (bytes ++ rest) = g bytes)
    (hi : ∀ bytes a ix', g bytes = .ok (a, ix') → ix' ≤ ix + n) {p : P α}
    (hp : ∀ bytes, p bytes ix = if bytes.length < ix + n then Res.fail m else g bytes) : GrowsAt p ix := by
  intro bytes hix
  by_cases h : bytes.length < ix + n
  · left; left
    refine ⟨ParseError.new m, ix, n, ?_, ⟨what, hw, hm, hix, h⟩, fun rest hl => ?_⟩
    · simp only; rw [hp, if_pos h]; rfl
    · simp only; rw [hp, hp, if_pos h, if_pos hl]
  · right
    unfold Inside
    refine ⟨fun rest => ?_, fun a ix' he => ?_⟩
    · rw [hp, hp, if_neg h, if_neg (by rw [List.length_append]; omega)]
      exact hg bytes rest (by omega)
    · rw [hp, if_neg h] at he
      have := hi bytes a ix' he; omega

theorem byteAt_append {bytes rest : Bytes} {i : Nat} (h : i < bytes.length) : byteAt (bytes ++ rest) i = byteAt bytes i := by
  unfold byteAt
  rw [List.getElem?_append_left h]

theorem sliceBytes_append {bytes rest : Bytes} {i j : Nat} (hi : i ≤ j) (h : j ≤ bytes.length) :
    sliceBytes (bytes ++ rest) i j = sliceBytes bytes i j := by
  unfold sliceBytes
  rw [if_pos ⟨hi, by rw [List.length_append]; omega⟩, if_pos ⟨hi, h⟩, List.drop_append_of_le_length (by omega),
    List.take_append_of_le_length (by rw [List.length_drop]; omega)]

/-- After some steps without index, `Ok` with the given index. -/
theorem bind_ix {α β : Type} {r : Res α} {f : α → Res (β × Nat)} {k : Nat} (hf : ∀ a b ix', f a = .ok (b, ix') → ix' = k) {b : β} {ix' : Nat}
    (h : (r >>= f) = .ok (b, ix')) : ix' = k := by
  cases r with
  | ok a => exact hf a b ix' h
  | err e => cases h
  | panic e => cases h
  | diverge => cases h

theorem ok_ix {β : Type} {x : β} {k : Nat} {b : β} {ix' : Nat} (h : (Res.ok (x, k) : Res (β × Nat)) = .ok (b, ix')) : ix' = k := by
  cases h; rfl

theorem Grows.readU1 : Grows Cafebabe.readU1 := fun _ =>
  GrowsAt.checked .u1 rfl (fun bytes rest h => by rw [byteAt_append (by omega)])
    (fun _ _ _ h => (bind_ix (fun _ _ _ h => ok_ix h) h).le) fun _ => rfl

theorem Grows.readU2 : Grows Cafebabe.readU2 := fun _ =>
  GrowsAt.checked .u2 rfl (fun bytes rest h => by rw [byteAt_append (by omega), byteAt_append (by omega)])
    (fun _ _ _ h => (bind_ix (fun _ _ _ h => bind_ix (fun _ _ _ h => ok_ix h) h) h).le) fun _ => rfl

theorem Grows.readU4 : Grows Cafebabe.readU4 := fun _ =>
  GrowsAt.checked .u4 rfl (fun bytes rest h => by rw [byteAt_append (by omega), byteAt_append (by omega), byteAt_append (by omega), byteAt_append (by omega)])
    (fun _ _ _ h => (bind_ix (fun _ _ _ h => bind_ix (fun _ _ _ h => bind_ix (fun _ _ _ h => bind_ix (fun _ _ _ h => ok_ix h) h) h) h) h).le) fun _ => rfl

theorem Grows.readU8 : Grows Cafebabe.readU8 := fun _ =>
  GrowsAt.checked .u8 rfl (fun bytes rest h => by rw [byteAt_append (by omega), byteAt_append (by omega), byteAt_append (by omega), byteAt_append (by omega), byteAt_append (by omega), byteAt_append (by omega), byteAt_append (by omega), byteAt_append (by omega)])
    (fun _ _ _ h => (bind_ix (fun _ _ _ h => bind_ix (fun _ _ _ h => bind_ix (fun _ _ _ h => bind_ix (fun _ _ _ h => bind_ix (fun _ _ _ h => bind_ix (fun _ _ _ h => bind_ix (fun _ _ _ h => bind_ix (fun _ _ _ h => ok_ix h) h) h) h) h) h) h) h) h).le) fun _ => rfl

theorem GrowsAt.takeBytes {n ix : Nat} {what : String} (h : Item what n) :
    GrowsAt (Cafebabe.takeBytes n s!"Unexpected end of stream reading {what} at index {ix}") ix :=
  GrowsAt.checked h rfl (fun bytes rest h => by rw [sliceBytes_append (by omega) (by omega)])
    (fun _ _ _ h => (bind_ix (fun _ _ _ h => ok_ix h) h).le) fun _ => rfl

theorem Grows.checkEnd {n : Nat} (h : n < 2 ^ 32) : Grows (Cafebabe.checkEnd n) := fun ix =>
  GrowsAt.checked (g := fun _ => .ok (ix + n, ix)) (.attribute n h) rfl (fun _ _ _ => rfl)
    (fun _ _ _ h => by have := ok_ix h; omega) fun _ => rfl

theorem Grows.takeSlice {n : Nat} : Grows (Cafebabe.takeSlice n) := by
  intro ix bytes hix
  unfold Inside Cafebabe.takeSlice
  by_cases h : ix + n ≤ bytes.length
  · right
    refine ⟨fun rest => ?_, fun a ix' he => ?_⟩
    · rw [sliceBytes_append (by omega) h]
    · have := bind_ix (fun _ _ _ h => ok_ix h) he; omega
  · left; right
    unfold sliceBytes
    simp only
    rw [if_neg (by omega)]
    rfl

/-- One step of the proof that a reader grows, chosen by the head of the reader. -/
syntax "grow1" : tactic

open Lean Elab Tactic Meta in
elab_rules : tactic
  | `(tactic| grow1) => withMainContext do
    let t ← instantiateMVars (← (← getMainGoal).getType)
    let p := t.consumeMData.appArg!.consumeMData
    let run (s : TSyntax `tactic) : TacticM Unit := evalTactic s
    if p.isLet then run (← `(tactic| dsimp only)) else
    match p.getAppFn.constName? with
    | some ``Pure.pure => run (← `(tactic| exact Grows.pure))
    | some ``P.fail => run (← `(tactic| exact Grows.fail))
    | some ``P.lift => run (← `(tactic| exact Grows.lift))
    | some ``P.getIx => run (← `(tactic| exact Grows.getIx))
    | some ``P.okOr => run (← `(tactic| exact Grows.okOr))
    | some ``P.failIf => run (← `(tactic| exact Grows.failIf))
    | some ``P.diverge => run (← `(tactic| exact Grows.diverge))
    | some ``readU1 => run (← `(tactic| exact Grows.readU1))
    | some ``readU2 => run (← `(tactic| exact Grows.readU2))
    | some ``readU4 => run (← `(tactic| exact Grows.readU4))
    | some ``readU8 => run (← `(tactic| exact Grows.readU8))
    | some ``takeSlice => run (← `(tactic| exact Grows.takeSlice))
    | some ``P.mapErr => run (← `(tactic| refine Grows.mapErr ?_))
    | some ``Bind.bind => run (← `(tactic| refine Grows.bind ?_ fun _ => ?_))
    | some ``_root_.ite => run (← `(tactic| refine Grows.ite ?_ ?_))
    | some ``readTable2 => run (← `(tactic| refine Grows.readTable2 (fun _ => ?_) Grows.readU2))
    | some ``readTable1 => run (← `(tactic| refine Grows.readTable1 (fun _ => ?_) Grows.readU1))
    | some ``P.forRange => run (← `(tactic| refine Grows.forRangeFrom (fun _ => ?_) _ _))
    | some n =>
      if (← getMatcherInfo? n).isSome then run (← `(tactic| split))
      else run (← `(tactic| first | with_reducible assumption | (unfold $(mkIdent n):ident; try dsimp only)))
    | none => run (← `(tactic| with_reducible assumption))

macro "grow" : tactic => `(tactic| repeat' grow1)

theorem readConstantUtf8_grows (env : Env) : Grows (readConstantUtf8 env) := by
  unfold readConstantUtf8
  refine Grows.bind Grows.readU2 fun length => Grows.atIx fun ix => GrowsAt.bind (GrowsAt.takeBytes (.utf8 _ length.toNat_lt)) fun _ => ?_
  grow

theorem readCodeDataWith_grows (env : Env) {rec : P (List AttributeInfo)} (h : Grows rec) (pool : Pool) : Grows (readCodeDataWith env rec pool) := by
  unfold readCodeDataWith
  refine Grows.bind Grows.readU2 fun _ => Grows.bind Grows.readU2 fun _ => Grows.bind Grows.readU4 fun length =>
    Grows.atIx fun ix => GrowsAt.bind (GrowsAt.takeBytes (.code _ length.toNat_lt)) fun _ => ?_
  grow

theorem readAnnotationElementValue_grows (pool : Pool) : ∀ d, Grows (readAnnotationElementValue pool d)
  | 0 => Grows.diverge
  | d + 1 => by
    have ih := readAnnotationElementValue_grows pool d
    show Grows (readElementValueWith (readAnnotationElementValue pool d) pool)
    grow

theorem readAttributeData_grows (env : Env) (depth : Nat) {rec : P (List AttributeInfo)} (h : Grows rec) (pool : Pool) (i length : Nat)
    (k : AttrKind) : Grows (readAttributeData env depth rec pool i length k) := by
  have ha := readAnnotationElementValue_grows pool depth
  have hc := readCodeDataWith_grows env h pool
  cases k <;> grow

theorem readAttributes_grows (env : Env) (pool : Pool) : ∀ d, Grows (readAttributes env pool d)
  | 0 => Grows.diverge
  | d + 1 => by
    have ih := readAttributes_grows env pool d
    refine Grows.readTable2 (fun i => ?_) Grows.readU2
    unfold readAttributeWith
    refine Grows.bind (by grow) fun name => Grows.bind Grows.readU4 fun len => Grows.bind (Grows.checkEnd len.toNat_lt) fun _ =>
      Grows.bind (readAttributeData_grows env d ih pool i _ _) fun _ => ?_
    grow

/-! ## The pool -/

theorem constantPoolLoop_grows (env : Env) (major count : UInt16) : ∀ fuel c, Grows (constantPoolLoop env major count fuel c)
  | 0, _ => Grows.diverge
  | fuel + 1, c => by
    have ih := constantPoolLoop_grows env major count fuel
    have hu := readConstantUtf8_grows env
    unfold constantPoolLoop
    refine Grows.ite (Grows.bind Grows.readU1 fun t => Grows.bind ?_ fun e => Grows.bind Grows.lift fun c1 => Grows.ite
      (Grows.bind Grows.lift fun c2 => Grows.bind (ih c2) fun _ => Grows.pure) (Grows.bind (ih c1) fun _ => Grows.pure)) Grows.pure
    grow

theorem constantPoolLoop_fuel (env : Env) (major count : UInt16) (k : Nat) : ∀ fuel c,
    Agree .budget (constantPoolLoop env major count fuel c) (constantPoolLoop env major count (fuel + k) c)
  | 0, _ => fun _ _ => .inl rfl
  | fuel + 1, c => by
    rw [show fuel + 1 + k = (fuel + k) + 1 by omega]
    unfold constantPoolLoop
    refine Agree.ite ?_ .rfl
    refine Agree.bindRight fun t => Agree.bindRight fun en => Agree.bindRight fun c1 => Agree.ite ?_ ?_
    · exact Agree.bindRight fun c2 => Agree.bindLeft (constantPoolLoop_fuel env major count k fuel c2)
    · exact Agree.bindLeft (constantPoolLoop_fuel env major count k fuel c1)

theorem entries_grows (env : Env) (major count : UInt16) :
    Grows (fun bytes ix => constantPoolLoop env major count (bytes.length + 1) 1 bytes ix) := by
  intro ix bytes hix
  have ht := constantPoolLoop_tame (A := fun _ => True) env (fun _ => trivial) major count (bytes.length + 1) 1 bytes ix hix
  have hn : constantPoolLoop env major count (bytes.length + 1) 1 bytes ix ≠ .diverge := fun h => by
    unfold TameAt at ht
    rw [h] at ht
    simp only at ht
    omega
  have hk : ∀ b rest, b = bytes ++ rest → constantPoolLoop env major count (b.length + 1) 1 b ix =
      constantPoolLoop env major count (bytes.length + 1) 1 b ix ∨ constantPoolLoop env major count (bytes.length + 1) 1 b ix = .diverge := by
    rintro _ rest rfl
    rw [List.length_append, show bytes.length + rest.length + 1 = bytes.length + 1 + rest.length by omega]
    rcases constantPoolLoop_fuel env major count rest.length (bytes.length + 1) 1 (bytes ++ rest) ix with h | h
    · exact .inr h
    · exact .inl h.symm
  rcases constantPoolLoop_grows env major count (bytes.length + 1) 1 ix bytes hix with (⟨e, m, n, he, hm, hs⟩ | he) | ⟨h1, h2⟩
  · refine .inl (.inl ⟨e, m, n, he, hm, fun rest hl => ?_⟩)
    have := hs rest hl
    simp only at this ⊢
    rcases hk _ rest rfl with h | h
    · rw [h, this]
    · rw [h] at this; exact absurd this.symm hn
  · exact .inl (.inr he)
  · refine .inr ⟨fun rest => ?_, h2⟩
    show constantPoolLoop env major count ((bytes ++ rest).length + 1) 1 (bytes ++ rest) ix = constantPoolLoop env major count (bytes.length + 1) 1 bytes ix
    rcases hk _ rest rfl with h | h
    · rw [h, h1 rest]
    · rw [h1 rest] at h; exact absurd h hn

theorem readRawPool_grows (env : Env) (major : UInt16) : Grows (readRawPool env major) :=
  Grows.bind Grows.readU2 fun count => Grows.bind (entries_grows env major count) fun _ => Grows.pure

theorem readConstantPool_grows (env : Env) (major : UInt16) : Grows (readConstantPool env major) :=
  Grows.bind (readRawPool_grows env major) fun _ => Grows.bind Grows.lift fun _ => Grows.bind Grows.lift fun _ => Grows.pure

/-! ## The class file -/

theorem readFieldsFrom_grows (env : Env) (pool : Pool) : ∀ n seen i, Grows (readFieldsFrom env pool seen i n)
  | 0, _, _ => Grows.pure
  | n + 1, seen, i => by
    have ha := readAttributes_grows env pool env.depth
    refine Grows.bind ?_ fun f => Grows.bind (readFieldsFrom_grows env pool n _ _) fun _ => Grows.pure
    unfold readField; grow

theorem readMethodsFrom_grows (env : Env) (pool : Pool) (ii : Bool) (major : UInt16) : ∀ n seen i,
    Grows (readMethodsFrom env pool ii major seen i n)
  | 0, _, _ => Grows.pure
  | n + 1, seen, i => by
    have ha := readAttributes_grows env pool env.depth
    refine Grows.bind ?_ fun f => Grows.bind (readMethodsFrom_grows env pool ii major n _ _) fun _ => Grows.pure
    unfold readMethod; dsimp only; grow

/-- Everything before the check that the input has been used up. -/
def readParts (env : Env) : P ClassFile := do
  let (minorVersion, majorVersion) ← readHeader
  let constantPool ← readConstantPool env majorVersion
  let bits ← readU2
  let accessFlags := fromBitsTruncate classMask bits
  checkModuleFlags accessFlags majorVersion
  let thisClass ← (readClassName constantPool).mapErr "this_class"
  let superClass ← (readClassNameOpt constantPool).mapErr "super_class"
  let interfaces ← readInterfaces constantPool
  let fields ← readFields env constantPool
  let methods ← readMethods env constantPool (flagsContains16 accessFlags AccessFlags.INTERFACE) majorVersion
  let attributes ← (readAttributes env constantPool env.depth).mapErr "class"
  pure { majorVersion := majorVersion, minorVersion := minorVersion, constantPool := constantPool,
         accessFlags := accessFlags, thisClass := thisClass, superClass := superClass, interfaces := interfaces,
         fields := fields, methods := methods, attributes := attributes }

/-- The checks after that. -/
def finish (cf : ClassFile) : P ClassFile := do
  checkModuleEmpty cf.accessFlags cf.superClass cf.interfaces cf.fields cf.methods
  P.lift (validateBootstrapMethods cf.constantPool cf.attributes)
  pure cf

theorem readClassFile_parts (env : Env) : readClassFile env = (readParts env >>= fun cf => checkAtEnd >>= fun _ => finish cf) := by
  rw [readClassFile_eq]
  unfold readParts readBody
  simp only [P.bind_assoc']
  rfl

theorem readParts_grows (env : Env) : Grows (readParts env) := by
  unfold readParts
  refine Grows.bind (by unfold readHeader; grow) fun v => Grows.bind (readConstantPool_grows env _) fun pool => ?_
  have ha := readAttributes_grows env pool env.depth
  have hf : Grows (readFields env pool) := Grows.bind Grows.readU2 fun _ => readFieldsFrom_grows _ _ _ _ _
  have hm : ∀ b, Grows (readMethods env pool b v.2) := fun b => Grows.bind Grows.readU2 fun _ => readMethodsFrom_grows _ _ _ _ _ _ _
  refine Grows.bind Grows.readU2 fun bits => ?_
  have hm := hm (flagsContains16 (fromBitsTruncate classMask bits) AccessFlags.INTERFACE)
  dsimp only
  grow

theorem run_eq (o : Opts) (d : Nat) (bytes : Bytes) : run o d bytes = (readClassFile (envOf o d) bytes 0).bind fun x => .ok x.1 := rfl

theorem checkAtEnd_ok {bytes : Bytes} {ix : Nat} {x : Unit × Nat} (h : checkAtEnd bytes ix = .ok x) : ix = bytes.length := by
  unfold checkAtEnd at h
  split at h
  · cases h
  · omega

theorem run_ok_parts {o : Opts} {d : Nat} {bytes : Bytes} {cf : ClassFile} (h : run o d bytes = .ok cf) :
    ∃ cf', readParts (envOf o d) bytes 0 = .ok (cf', bytes.length) := by
  rw [run_eq, readClassFile_parts] at h
  have h' : Res.bind (P.bind (readParts (envOf o d)) (fun cf => checkAtEnd >>= fun _ => finish cf) bytes 0) (fun x => .ok x.1) = .ok cf := h
  unfold P.bind at h'
  cases hp : readParts (envOf o d) bytes 0 with
  | ok a =>
    obtain ⟨cf', ix⟩ := a
    rw [hp] at h'
    simp only at h'
    have h'' : Res.bind (P.bind checkAtEnd (fun _ => finish cf') bytes ix) (fun x => .ok x.1) = .ok cf := h'
    unfold P.bind at h''
    cases hc : checkAtEnd bytes ix with
    | ok x => exact ⟨cf', by rw [checkAtEnd_ok hc]⟩
    | err e => rw [hc] at h''; cases h''
    | panic e => rw [hc] at h''; cases h''
    | diverge => rw [hc] at h''; cases h''
  | err e => rw [hp] at h'; cases h'
  | panic e => rw [hp] at h'; cases h'
  | diverge => rw [hp] at h'; cases h'

theorem run_extra {o : Opts} {d : Nat} {bytes : Bytes} {cf : ClassFile} {ix : Nat} (h : readParts (envOf o d) bytes 0 = .ok (cf, ix))
    (hix : ix ≠ bytes.length) : ∃ e, run o d bytes = .err e := by
  rw [run_eq, readClassFile_parts]
  refine ⟨ParseError.new s!"Extra bytes found at index {ix} after reading class file", ?_⟩
  show Res.bind (P.bind (readParts (envOf o d)) (fun cf => checkAtEnd >>= fun _ => finish cf) bytes 0) _ = _
  unfold P.bind
  rw [h]
  show Res.bind (P.bind checkAtEnd (fun _ => finish cf) bytes ix) _ = _
  unfold P.bind checkAtEnd
  rw [if_pos hix]
  rfl

theorem run_of_parts (o : Opts) (d : Nat) (bytes : Bytes) : run o d bytes =
    (P.bind (readParts (envOf o d)) (fun cf => checkAtEnd >>= fun _ => finish cf) bytes 0).bind fun x => .ok x.1 := by
  rw [run_eq, readClassFile_parts]; rfl

theorem run_parts_err {o : Opts} {d : Nat} {bytes : Bytes} {e : ParseError} (h : readParts (envOf o d) bytes 0 = .err e) : run o d bytes = .err e := by
  rw [run_of_parts]
  unfold P.bind
  rw [h]; rfl

theorem run_short {o : Opts} {d : Nat} {bytes : Bytes} (h : Short bytes (fun b => readParts (envOf o d) b 0)) : Short bytes (run o d) := by
  rcases h with ⟨e, m, n, h, hm, hs⟩ | h
  · exact .inl ⟨e, m, n, run_parts_err h, hm, fun rest hl => (run_parts_err ((hs rest hl).trans h)).trans (run_parts_err h).symm⟩
  · right
    rw [run_of_parts]
    unfold P.bind
    simp only at h
    rw [h]; rfl

theorem run_no_bounds (o : Opts) (d : Nat) (bytes : Bytes) : run o d bytes ≠ .panic .bounds := by
  intro h
  rcases panics_cause ⟨d, h⟩ with ⟨h, -⟩ | ⟨h, -⟩ <;> cases h

/-- An accepted input with bytes added at the end is rejected. -/
theorem rejects_extension {o : Opts} {bytes extra : Bytes} {cf : ClassFile} (h : Accepts o bytes cf) (hx : extra ≠ []) :
    ∃ e, Rejects o (bytes ++ extra) e := by
  obtain ⟨d, h⟩ := h
  obtain ⟨cf', hp⟩ := run_ok_parts h
  rcases readParts_grows (envOf o d) 0 bytes (Nat.zero_le _) with hg | ⟨hg, -⟩
  · rcases hg with ⟨e, m, n, he, -⟩ | he <;> simp only at he <;> rw [hp] at he <;> cases he
  · have hg := hg extra
    rw [hp] at hg
    obtain ⟨e, he⟩ := run_extra hg (by
      rw [List.length_append]
      have := List.length_pos_iff.mpr hx
      omega)
    exact ⟨e, d, he⟩

/-- The parts of an input do not end beyond it. -/
theorem parts_inside {env : Env} {bytes : Bytes} {cf : ClassFile} {ix : Nat} (h : readParts env bytes 0 = .ok (cf, ix)) : ix ≤ bytes.length := by
  rcases readParts_grows env 0 bytes (Nat.zero_le _) with hg | ⟨-, hi⟩
  · rcases hg with ⟨e, m, n, he, -⟩ | he <;> simp only at he <;> rw [h] at he <;> cases he
  · exact hi cf ix h

/-- An accepted input with bytes removed at the end is rejected: the error names an item that is cut. -/
theorem truncation_says {o : Opts} {bytes extra : Bytes} {cf : ClassFile} (h : Accepts o (bytes ++ extra) cf) (hx : extra ≠ []) :
    ∃ e m n, Rejects o bytes e ∧ CutAt bytes.length e.msg m n ∧ m + n ≤ (bytes ++ extra).length := by
  obtain ⟨d, h⟩ := h
  obtain ⟨cf', hp⟩ := run_ok_parts h
  rcases readParts_grows (envOf o d) 0 bytes (Nat.zero_le _) with hs | ⟨hg, -⟩
  · rcases run_short hs with ⟨e, m, n, he, hm, hs⟩ | he
    · refine ⟨e, m, n, ⟨d, he⟩, hm, ?_⟩
      by_contra hl
      have := hs extra (by omega)
      rw [h, he] at this
      cases this
    · exact absurd he (run_no_bounds o d bytes)
  · have := parts_inside ((hg extra).symm.trans hp)
    rw [List.length_append] at this
    have := List.length_pos_iff.mpr hx
    omega

theorem rejects_truncation {o : Opts} {bytes extra : Bytes} {cf : ClassFile} (h : Accepts o (bytes ++ extra) cf) (hx : extra ≠ []) :
    ∃ e, Rejects o bytes e := by
  obtain ⟨e, -, -, he, -⟩ := truncation_says h hx
  exact ⟨e, he⟩

end Cafebabe
