import Verif.Model.ClassFile
/-!
# Proof framework: two runs agree unless the first one stops in a given bad way

Used with "overflow panic" for the comparison of build modes and with "recursion budget exhausted" to show that the budget does not
matter once it suffices.
-/

namespace Cafebabe

/-- The bad way to stop. -/
inductive Bad where
  | overflow
  | budget
deriving DecidableEq

/-- The run stopped in the bad way. -/
def IsBad {α : Type} : Bad → Res α → Prop
  | .overflow, r => r = .panic .overflow
  | .budget, r => r = .diverge

/-- The runs agree, or the first stopped in the bad way. -/
def RAgree {α : Type} (b : Bad) (r s : Res α) : Prop := IsBad b r ∨ r = s

/-- `RAgree` for readers. -/
def Agree {α : Type} (b : Bad) (p q : P α) : Prop := ∀ bytes ix, RAgree b (p bytes ix) (q bytes ix)

theorem RAgree.rfl {α : Type} {b : Bad} {r : Res α} : RAgree b r r := .inr _root_.rfl

theorem Agree.rfl {α : Type} {b : Bad} {p : P α} : Agree b p p := fun _ _ => .inr _root_.rfl

theorem RAgree.bind {α β : Type} {b : Bad} {r s : Res α} {f g : α → Res β} (h : RAgree b r s) (hf : ∀ a, RAgree b (f a) (g a)) :
    RAgree b (r >>= f) (s >>= g) := by
  rcases h with h | rfl
  · left; cases b <;> (cases h; exact _root_.rfl)
  · cases r with
    | ok a => exact hf a
    | err _ => exact .rfl
    | panic _ => exact .rfl
    | diverge => exact .rfl

theorem RAgree.mapErr {α : Type} {b : Bad} {r s : Res α} (h : RAgree b r s) (c : String) : RAgree b (r.mapErr c) (s.mapErr c) := by
  rcases h with h | rfl
  · left; cases b <;> (cases h; exact _root_.rfl)
  · exact .rfl

theorem Agree.bind {α β : Type} {b : Bad} {p q : P α} {f g : α → P β} (h : Agree b p q) (hf : ∀ a, Agree b (f a) (g a)) :
    Agree b (p >>= f) (q >>= g) := by
  intro bytes ix
  show RAgree b (P.bind p f bytes ix) (P.bind q g bytes ix)
  unfold P.bind
  rcases h bytes ix with h | h
  · left; cases b <;> (rw [show p bytes ix = _ from h]; exact _root_.rfl)
  · rw [h]
    cases q bytes ix with
    | ok a => exact hf a.1 bytes a.2
    | err _ => exact .rfl
    | panic _ => exact .rfl
    | diverge => exact .rfl

theorem Agree.bindRight {α β : Type} {b : Bad} {p : P α} {f g : α → P β} (hf : ∀ a, Agree b (f a) (g a)) :
    Agree b (p >>= f) (p >>= g) := Agree.bind .rfl hf

theorem Agree.bindLeft {α β : Type} {b : Bad} {p q : P α} {f : α → P β} (h : Agree b p q) :
    Agree b (p >>= f) (q >>= f) := Agree.bind h fun _ => .rfl

theorem Agree.mapErr {α : Type} {b : Bad} {p q : P α} (h : Agree b p q) (c : String) : Agree b (p.mapErr c) (q.mapErr c) :=
  fun bytes ix => (h bytes ix).mapErr c

theorem Agree.lift {α : Type} {b : Bad} {r s : Res α} (h : RAgree b r s) : Agree b (P.lift r) (P.lift s) := by
  intro bytes ix
  rcases h with h | rfl
  · left; cases b <;> (cases h; exact _root_.rfl)
  · exact .rfl

theorem Agree.ite {α : Type} {b : Bad} {c : Prop} [Decidable c] {p q p' q' : P α} (h : Agree b p q) (h' : Agree b p' q') :
    Agree b (if c then p else p') (if c then q else q') := by
  split <;> assumption

theorem RAgree.ite {α : Type} {b : Bad} {c : Prop} [Decidable c] {p q p' q' : Res α} (h : RAgree b p q) (h' : RAgree b p' q') :
    RAgree b (if c then p else p') (if c then q else q') := by
  split <;> assumption

theorem Agree.forRangeFrom {α : Type} {b : Bad} {f g : Nat → P α} (h : ∀ i, Agree b (f i) (g i)) :
    ∀ n i, Agree b (P.forRangeFrom f i n) (P.forRangeFrom g i n)
  | 0, _ => .rfl
  | n + 1, i => Agree.bind (h i) fun _ => Agree.bindLeft (Agree.forRangeFrom h n (i + 1))

theorem Agree.readTable2 {α : Type} {b : Bad} {f g : Nat → P α} (h : ∀ i, Agree b (f i) (g i)) :
    Agree b (Cafebabe.readTable2 f) (Cafebabe.readTable2 g) :=
  Agree.bindRight fun _ => Agree.forRangeFrom h _ _

theorem Agree.readTable1 {α : Type} {b : Bad} {f g : Nat → P α} (h : ∀ i, Agree b (f i) (g i)) :
    Agree b (Cafebabe.readTable1 f) (Cafebabe.readTable1 g) :=
  Agree.bindRight fun _ => Agree.forRangeFrom h _ _

/-! ## The parser -/

/-- How the budgets of the two runs are related. -/
def DepthRel (b : Bad) (d e : Nat) : Prop := d = e ∨ (b = .budget ∧ d ≤ e)

/-- How the overflow-check modes of the two runs are related. -/
def ChecksRel (b : Bad) (c d : Bool) : Prop := c = d ∨ (b = .overflow ∧ c = true ∧ d = false)

/-- How the environments of the two runs are related. -/
structure EnvRel (b : Bad) (e f : Env) : Prop where
  decode : e.decode = f.decode
  parseBytecode : e.parseBytecode = f.parseBytecode
  depth : DepthRel b e.depth f.depth
  checks : ChecksRel b e.overflowChecks f.overflowChecks

theorem DepthRel.succ {b : Bad} {d e : Nat} (h : DepthRel b (d + 1) e) : ∃ e', e = e' + 1 ∧ DepthRel b d e' := by
  rcases h with rfl | ⟨rfl, h⟩
  · exact ⟨d, rfl, .inl rfl⟩
  · exact ⟨e - 1, by omega, .inr ⟨rfl, by omega⟩⟩

theorem agree_zero {α : Type} {b : Bad} {e : Nat} {p : Nat → P α} (h0 : p 0 = P.diverge) (h : DepthRel b 0 e) :
    Agree b (P.diverge : P α) (p e) := by
  rcases h with rfl | ⟨rfl, _⟩
  · rw [h0]; exact .rfl
  · exact fun _ _ => .inl rfl

theorem incrU16_agree {b : Bad} {c d : Bool} (h : ChecksRel b c d) (x : UInt16) : RAgree b (incrU16 c x) (incrU16 d x) := by
  rcases h with rfl | ⟨rfl, rfl, rfl⟩
  · exact .rfl
  · unfold incrU16
    split
    · exact .inl rfl
    · exact .inr rfl

theorem readConstant_agree {e f : Env} (h : e.decode = f.decode) (major : UInt16) (t : UInt8) :
    readConstant e major t = readConstant f major t := by
  unfold readConstant readConstantUtf8
  rw [h]

theorem constantPoolLoop_agree {b : Bad} {e f : Env} (h : EnvRel b e f) (major count : UInt16) :
    ∀ fuel cpIx, Agree b (constantPoolLoop e major count fuel cpIx) (constantPoolLoop f major count fuel cpIx)
  | 0, _ => .rfl
  | fuel + 1, cpIx => by
    unfold constantPoolLoop
    refine Agree.ite ?_ .rfl
    refine Agree.bindRight fun t => ?_
    rw [readConstant_agree h.decode]
    refine Agree.bindRight fun en => Agree.bind (Agree.lift (incrU16_agree h.checks _)) fun c1 => Agree.ite ?_ ?_
    · exact Agree.bind (Agree.lift (incrU16_agree h.checks _)) fun c2 => Agree.bindLeft (constantPoolLoop_agree h major count fuel c2)
    · exact Agree.bindLeft (constantPoolLoop_agree h major count fuel c1)

theorem readRawPool_agree {b : Bad} {e f : Env} (h : EnvRel b e f) (major : UInt16) :
    Agree b (readRawPool e major) (readRawPool f major) :=
  Agree.bindRight fun c => Agree.bindLeft fun bytes ix => constantPoolLoop_agree h major c _ _ bytes ix

theorem validateMethodDescriptor_agree {b : Bad} (pool : Pool) : ∀ (d e : Nat), DepthRel b d e → ∀ en : Entry,
    RAgree b (en.validateMethodDescriptor pool d) (en.validateMethodDescriptor pool e)
  | 0, e, h, en => by
    rcases h with rfl | ⟨rfl, _⟩
    · exact .rfl
    · left; cases en <;> rfl
  | d + 1, e, h, en => by
    obtain ⟨e', rfl, h'⟩ := h.succ
    cases en with
    | nameAndType x y => exact RAgree.bind .rfl fun en' => validateMethodDescriptor_agree pool d e' h' en'
    | _ => exact .rfl

theorem validate_agree {b : Bad} {d e : Nat} (h : DepthRel b d e) (pool : Pool) (major : UInt16) (en : Entry) :
    RAgree b (en.validate d pool major) (en.validate e pool major) := by
  cases en with
  | methodRef x y =>
    exact RAgree.bind .rfl fun _ => RAgree.bind .rfl fun _ => RAgree.bind .rfl fun en => validateMethodDescriptor_agree pool d e h en
  | interfaceMethodRef x y =>
    exact RAgree.bind .rfl fun _ => RAgree.bind .rfl fun _ => RAgree.bind .rfl fun en => validateMethodDescriptor_agree pool d e h en
  | methodType x => exact RAgree.bind .rfl fun _ => RAgree.bind .rfl fun en => validateMethodDescriptor_agree pool d e h en
  | invokeDynamic _ y => exact RAgree.bind .rfl fun _ => RAgree.bind .rfl fun en => validateMethodDescriptor_agree pool d e h en
  | _ => exact .rfl

theorem validateFrom_agree {b : Bad} {d e : Nat} (h : DepthRel b d e) (pool : Pool) (major : UInt16) :
    ∀ (i : Nat) (es : List Entry), RAgree b (validateFrom d pool major i es) (validateFrom e pool major i es)
  | _, [] => .rfl
  | i, en :: es => RAgree.bind ((validate_agree h pool major en).mapErr _) fun _ => validateFrom_agree h pool major (i + 1) es

theorem readConstantPool_agree {b : Bad} {e f : Env} (h : EnvRel b e f) (major : UInt16) :
    Agree b (readConstantPool e major) (readConstantPool f major) :=
  Agree.bind (readRawPool_agree h major) fun _ => Agree.bindRight fun pool =>
    Agree.bindLeft (Agree.lift (validateFrom_agree h.depth pool major 0 pool))

/-! ### Bytecode -/

theorem jumpSpan_agree {b : Bad} {c d : Bool} (h : ChecksRel b c d) (l u : Int32) : RAgree b (jumpSpan c l u) (jumpSpan d l u) := by
  rcases h with rfl | ⟨rfl, rfl, rfl⟩
  · exact .rfl
  · unfold jumpSpan
    split
    · exact .inl rfl
    · split
      · exact .inl rfl
      · exact .inr rfl

theorem addI32_agree {b : Bad} {c d : Bool} (h : ChecksRel b c d) (l u : Int32) : RAgree b (addI32 c l u) (addI32 d l u) := by
  rcases h with rfl | ⟨rfl, rfl, rfl⟩
  · exact .rfl
  · unfold addI32
    split
    · exact .inl rfl
    · exact .inr rfl

theorem readTableswitch_agree {b : Bad} {c d : Bool} (h : ChecksRel b c d) : Agree b (readTableswitch c) (readTableswitch d) := by
  refine Agree.bindLeft ?_
  refine Agree.bindRight fun _ => Agree.bindRight fun _ => Agree.bindRight fun _ => Agree.bindRight fun _ => Agree.bindRight fun _ => ?_
  exact Agree.ite .rfl (Agree.bindLeft (Agree.lift (jumpSpan_agree h _ _)))

theorem readOpcode_agree {b : Bad} {c d : Bool} (h : ChecksRel b c d) (pool : Pool) : Agree b (readOpcode c pool) (readOpcode d pool) := by
  refine Agree.bindRight fun v => ?_
  cases shapeOf v with
  | none => exact .rfl
  | some s =>
    cases s with
    | tableswitch => exact readTableswitch_agree h
    | _ => exact .rfl

theorem readOpcodesLoop_agree {b : Bad} {c d : Bool} (h : ChecksRel b c d) (pool : Pool) (code : Bytes) :
    ∀ fuel ix, RAgree b (readOpcodesLoop c pool code fuel ix) (readOpcodesLoop d pool code fuel ix)
  | 0, _ => .rfl
  | fuel + 1, ix => by
    unfold readOpcodesLoop
    exact RAgree.ite (RAgree.bind (readOpcode_agree h pool code ix) fun x =>
      RAgree.bind (readOpcodesLoop_agree h pool code fuel x.2) fun _ => .rfl) .rfl

theorem validateJump_agree {b : Bad} {c d : Bool} (h : ChecksRel b c d) (bc : ByteCode) (s j : Int32) :
    RAgree b (bc.validateJump c s j) (bc.validateJump d s j) :=
  RAgree.bind (addI32_agree h s j) fun _ => .rfl

theorem validateMatchOffsets_agree {b : Bad} {c d : Bool} (h : ChecksRel b c d) (bc : ByteCode) (s : Int32) :
    ∀ l, RAgree b (validateMatchOffsets c bc s l) (validateMatchOffsets d bc s l)
  | [] => .rfl
  | (_, j) :: l => RAgree.bind ((validateJump_agree h bc s j).mapErr _) fun _ => validateMatchOffsets_agree h bc s l

theorem validateRangeOffsets_agree {b : Bad} {c d : Bool} (h : ChecksRel b c d) (bc : ByteCode) (s : Int32) :
    ∀ l i, RAgree b (validateRangeOffsets c bc s i l) (validateRangeOffsets d bc s i l)
  | [], _ => .rfl
  | j :: l, i => RAgree.bind ((validateJump_agree h bc s j).mapErr _) fun _ => validateRangeOffsets_agree h bc s l (i + 1)

theorem validateOpcodeJumps_agree {b : Bad} {c d : Bool} (h : ChecksRel b c d) (bc : ByteCode) (o : Nat) (op : Opcode) :
    RAgree b (bc.validateOpcodeJumps c o op) (bc.validateOpcodeJumps d o op) := by
  unfold ByteCode.validateOpcodeJumps
  refine RAgree.ite .rfl ?_
  cases op with
  | lookupswitch t =>
    exact RAgree.bind ((validateJump_agree h bc _ _).mapErr _) fun _ => validateMatchOffsets_agree h bc _ _
  | tableswitch t =>
    exact RAgree.bind ((validateJump_agree h bc _ _).mapErr _) fun _ => validateRangeOffsets_agree h bc _ _ _
  | _ => first | exact .rfl | exact validateJump_agree h bc _ _

theorem validateJumpsFrom_agree {b : Bad} {c d : Bool} (h : ChecksRel b c d) (bc : ByteCode) :
    ∀ l, RAgree b (bc.validateJumpsFrom c l) (bc.validateJumpsFrom d l)
  | [] => .rfl
  | (o, op) :: l => RAgree.bind ((validateOpcodeJumps_agree h bc o op).mapErr _) fun _ => validateJumpsFrom_agree h bc l

theorem ofCode_agree {b : Bad} {c d : Bool} (h : ChecksRel b c d) (code : Bytes) (pool : Pool) :
    RAgree b (ByteCode.ofCode c code pool) (ByteCode.ofCode d code pool) :=
  RAgree.bind (readOpcodesLoop_agree h pool code _ 0) fun _ => RAgree.bind (validateJumpsFrom_agree h _ _) fun _ => .rfl

/-! ### Attributes -/

theorem readAnnotationWith_agree {b : Bad} {r s : P AnnotationElementValue} (h : Agree b r s) (pool : Pool) :
    Agree b (readAnnotationWith r pool) (readAnnotationWith s pool) :=
  Agree.bindRight fun _ => Agree.bindLeft (Agree.readTable2 fun _ => Agree.bindRight fun _ => Agree.bindLeft (h.mapErr _))

theorem readElementValueWith_agree {b : Bad} {r s : P AnnotationElementValue} (h : Agree b r s) (pool : Pool) :
    Agree b (readElementValueWith r pool) (readElementValueWith s pool) := by
  refine Agree.bindRight fun v => ?_
  unfold readElementValueBody
  repeat' first
    | exact .rfl
    | exact Agree.bindLeft (readAnnotationWith_agree h pool)
    | exact Agree.bindLeft (Agree.readTable2 fun _ => h.mapErr _)
    | refine Agree.ite ?_ ?_

theorem readAnnotationElementValue_agree {b : Bad} (pool : Pool) : ∀ (d e : Nat), DepthRel b d e →
    Agree b (readAnnotationElementValue pool d) (readAnnotationElementValue pool e)
  | 0, _, h => agree_zero rfl h
  | d + 1, e, h => by
    obtain ⟨e', rfl, h'⟩ := h.succ
    exact readElementValueWith_agree (readAnnotationElementValue_agree pool d e' h') pool

theorem readAnnotation_agree {b : Bad} (pool : Pool) {d e : Nat} (h : DepthRel b d e) :
    Agree b (readAnnotation pool d) (readAnnotation pool e) :=
  readAnnotationWith_agree (readAnnotationElementValue_agree pool d e h) pool

theorem readCodeDataWith_agree {b : Bad} {e f : Env} (h : EnvRel b e f) {r s : P (List AttributeInfo)} (hr : Agree b r s) (pool : Pool) :
    Agree b (readCodeDataWith e r pool) (readCodeDataWith f s pool) := by
  unfold readCodeDataWith
  rw [h.parseBytecode]
  refine Agree.bindRight fun _ => Agree.bindRight fun _ => Agree.bindRight fun _ => Agree.bindRight fun _ => Agree.bindRight fun _ =>
    Agree.bindRight fun _ => Agree.bind (hr.mapErr _) fun _ => ?_
  exact Agree.ite (Agree.bindLeft (Agree.lift ((ofCode_agree h.checks _ _).mapErr _))) .rfl

theorem readRecordDataWith_agree {b : Bad} {r s : P (List AttributeInfo)} (hr : Agree b r s) (pool : Pool) :
    Agree b (readRecordDataWith r pool) (readRecordDataWith s pool) :=
  Agree.readTable2 fun _ => Agree.bindRight fun _ => Agree.bindRight fun _ => Agree.bindRight fun _ => Agree.bindLeft (hr.mapErr _)

theorem readAttributeData_agree {b : Bad} {e f : Env} (h : EnvRel b e f) {d d' : Nat} (hd : DepthRel b d d')
    {r s : P (List AttributeInfo)} (hr : Agree b r s) (pool : Pool) (i length : Nat) (k : AttrKind) :
    Agree b (readAttributeData e d r pool i length k) (readAttributeData f d' s pool i length k) := by
  have ha := readAnnotation_agree pool hd
  cases k with
  | code => exact Agree.bindLeft ((readCodeDataWith_agree h hr pool).mapErr _)
  | record => exact Agree.bindLeft ((readRecordDataWith_agree hr pool).mapErr _)
  | sourceDebugExtension => unfold readAttributeData; simp only [h.decode]; exact .rfl
  | runtimeVisibleAnnotations => exact Agree.bindLeft (Agree.mapErr (Agree.readTable2 fun _ => ha.mapErr _) _)
  | runtimeInvisibleAnnotations => exact Agree.bindLeft (Agree.mapErr (Agree.readTable2 fun _ => ha.mapErr _) _)
  | runtimeVisibleParameterAnnotations =>
    exact Agree.bindLeft (Agree.mapErr (Agree.readTable1 fun _ => Agree.bindLeft (Agree.readTable2 fun _ => ha.mapErr _)) _)
  | runtimeInvisibleParameterAnnotations =>
    exact Agree.bindLeft (Agree.mapErr (Agree.readTable1 fun _ => Agree.bindLeft (Agree.readTable2 fun _ => ha.mapErr _)) _)
  | runtimeVisibleTypeAnnotations =>
    exact Agree.bindLeft (Agree.mapErr (Agree.readTable2 fun _ => Agree.bindRight fun _ => Agree.bindRight fun _ => Agree.bindRight fun _ =>
      Agree.bindLeft (ha.mapErr _)) _)
  | runtimeInvisibleTypeAnnotations =>
    exact Agree.bindLeft (Agree.mapErr (Agree.readTable2 fun _ => Agree.bindRight fun _ => Agree.bindRight fun _ => Agree.bindRight fun _ =>
      Agree.bindLeft (ha.mapErr _)) _)
  | annotationDefault => exact Agree.bindLeft (Agree.mapErr (readAnnotationElementValue_agree pool d d' hd) _)
  | _ => exact .rfl

theorem readAttributes_agree {b : Bad} {e f : Env} (h : EnvRel b e f) (pool : Pool) : ∀ (d d' : Nat), DepthRel b d d' →
    Agree b (readAttributes e pool d) (readAttributes f pool d')
  | 0, _, hd => agree_zero (p := readAttributes f pool) rfl hd
  | d + 1, d', hd => by
    obtain ⟨e', rfl, hd'⟩ := hd.succ
    exact Agree.readTable2 fun i => Agree.bindRight fun _ => Agree.bindRight fun _ => Agree.bindRight fun _ =>
      Agree.bindLeft (readAttributeData_agree h hd' (readAttributes_agree h pool d e' hd') pool i _ _)

/-! ### Class files -/

theorem readFieldsFrom_agree {b : Bad} {e f : Env} (h : EnvRel b e f) (pool : Pool) : ∀ n seen i,
    Agree b (readFieldsFrom e pool seen i n) (readFieldsFrom f pool seen i n)
  | 0, _, _ => .rfl
  | n + 1, seen, i => by
    refine Agree.bind ?_ fun x => Agree.bindLeft (readFieldsFrom_agree h pool n _ _)
    exact Agree.bindRight fun _ => Agree.bindRight fun _ => Agree.bindRight fun _ => Agree.bindRight fun _ => Agree.bindRight fun _ =>
      Agree.bindRight fun _ => Agree.bindLeft ((readAttributes_agree h pool _ _ h.depth).mapErr _)

theorem readMethodsFrom_agree {b : Bad} {e f : Env} (h : EnvRel b e f) (pool : Pool) (ii : Bool) (major : UInt16) : ∀ n seen i,
    Agree b (readMethodsFrom e pool ii major seen i n) (readMethodsFrom f pool ii major seen i n)
  | 0, _, _ => .rfl
  | n + 1, seen, i => by
    refine Agree.bind ?_ fun x => Agree.bindLeft (readMethodsFrom_agree h pool ii major n _ _)
    exact Agree.bindRight fun _ => Agree.bindRight fun _ => Agree.bindRight fun _ => Agree.bindRight fun _ => Agree.bindRight fun _ =>
      Agree.bindRight fun _ => Agree.bindRight fun _ => Agree.bindRight fun _ =>
        Agree.bindLeft ((readAttributes_agree h pool _ _ h.depth).mapErr _)

theorem readClassFile_agree {b : Bad} {e f : Env} (h : EnvRel b e f) : Agree b (readClassFile e) (readClassFile f) := by
  refine Agree.bindRight fun _ => Agree.bindRight fun _ => Agree.bindRight fun _ => Agree.bindRight fun major => ?_
  refine Agree.bind (readConstantPool_agree h major) fun pool => Agree.bindRight fun _ => Agree.bindRight fun _ => ?_
  refine Agree.bindRight fun _ => Agree.bindRight fun _ => Agree.bindRight fun _ => ?_
  refine Agree.bind (Agree.bindRight fun c => readFieldsFrom_agree h pool _ _ _) fun _ => ?_
  refine Agree.bind (Agree.bindRight fun c => readMethodsFrom_agree h pool _ major _ _ _) fun _ => ?_
  exact Agree.bindLeft ((readAttributes_agree h pool _ _ h.depth).mapErr _)

theorem parseClassWithOptions_agree {b : Bad} {e f : Env} (h : EnvRel b e f) (bytes : Bytes) :
    RAgree b (parseClassWithOptions e bytes) (parseClassWithOptions f bytes) :=
  RAgree.bind (readClassFile_agree h bytes 0) fun _ => .rfl

end Cafebabe
