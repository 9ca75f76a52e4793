import Lean.Elab.Tactic
import Verif.Proofs.TameCode
import Verif.Spec.Run
/-!
# Proofs: how the attribute readers can stop

In a valid pool `read_attributes` stops with a result or an error, except for an overflow panic (checked builds only, inside bytecode)
and the panic on an undecodable NameAndType descriptor (EnclosingMethod only). With a recursion budget larger than the input it never
exhausts the budget, because every nested call starts after more bytes.
-/

namespace Cafebabe
open Spec

/-- One step of a straight-line reader, chosen by the head of the reader. -/
syntax "tame1" : tactic

open Lean Elab Tactic Meta in
elab_rules : tactic
  | `(tactic| tame1) => withMainContext do
    let t ← instantiateMVars (← (← getMainGoal).getType)
    let p := t.consumeMData.appArg!.consumeMData
    let run (s : TSyntax `tactic) : TacticM Unit := evalTactic s
    match p.getAppFn.constName? with
    | some ``Pure.pure => run (← `(tactic| exact Tame.pure _))
    | some ``P.fail => run (← `(tactic| exact Tame.fail))
    | some ``P.failCtx => run (← `(tactic| exact Tame.failCtx))
    | some ``readU1 => run (← `(tactic| exact Tame.zero Tame.readU1))
    | some ``readU2 => run (← `(tactic| exact Tame.zero Tame.readU2))
    | some ``readU4 => run (← `(tactic| exact Tame.zero Tame.readU4))
    | some ``P.failIf => run (← `(tactic| exact Tame.failIf))
    | some ``P.okOr => run (← `(tactic| exact Tame.okOr))
    | some ``ensureLength => run (← `(tactic| exact Tame.ensureLength))
    | some ``readCpUtf8 => run (← `(tactic| exact Tame.zero readCpUtf8_tame))
    | some ``readCpUtf8Opt => run (← `(tactic| exact Tame.zero readCpUtf8Opt_tame))
    | some ``readCpInteger => run (← `(tactic| exact Tame.zero readCpInteger_tame))
    | some ``readCpFloat => run (← `(tactic| exact Tame.zero readCpFloat_tame))
    | some ``readCpLong => run (← `(tactic| exact Tame.zero readCpLong_tame))
    | some ``readCpDouble => run (← `(tactic| exact Tame.zero readCpDouble_tame))
    | some ``takeBytes => run (← `(tactic| exact Tame.zero Tame.takeBytes))
    | some ``readCpClassinfo => run (← `(tactic| exact Tame.zero (readCpClassinfo_tame (by assumption))))
    | some ``readCpClassinfoOpt => run (← `(tactic| exact Tame.zero (readCpClassinfoOpt_tame (by assumption))))
    | some ``readCpModuleinfo => run (← `(tactic| exact Tame.zero (readCpModuleinfo_tame (by assumption))))
    | some ``readCpPackageinfo => run (← `(tactic| exact Tame.zero (readCpPackageinfo_tame (by assumption))))
    | some ``readCpLiteralconstant => run (← `(tactic| exact Tame.zero (readCpLiteralconstant_tame (by assumption))))
    | some ``readCpMethodhandle => run (← `(tactic| exact Tame.zero (readCpMethodhandle_tame (by assumption))))
    | some ``readCpBootstrapArgument => run (← `(tactic| exact Tame.zero (readCpBootstrapArgument_tame (by assumption))))
    | some ``P.lift => run (← `(tactic| first
        | exact Tame.lift (parseFieldDescriptor_zero _).calm
        | exact Tame.lift (parseMethodDescriptor_decides _).calm
        | exact Tame.lift (isReturnDescriptor_checks _).calm))
    | some ``P.mapErr => run (← `(tactic| refine Tame.mapErr0 ?_))
    | some ``Bind.bind =>
      if p.getAppArgs[4]!.isConstOf ``P.getIx then run (← `(tactic| refine Tame.getIx fun _ => ?_))
      else run (← `(tactic| refine Tame.seq0 ?_ fun _ => ?_))
    | some ``_root_.ite => run (← `(tactic| refine Tame.ite (fun _ => ?_) fun _ => ?_))
    | some ``readTable2 => run (← `(tactic| refine Tame.zero (Tame.readTable2 (k := 0) (Nat.le_add_right _ _) fun _ => ?_)))
    | some ``readTable1 => run (← `(tactic| refine Tame.zero (Tame.readTable1 (k := 0) (Nat.le_add_right _ _) fun _ => ?_)))
    | some ``P.forRange => run (← `(tactic| refine Tame.forRange (k := 0) (fun _ => ?_) _))
    | some n =>
      if n == `Cafebabe.readFieldDescriptor then run (← `(tactic| exact $(mkIdent `Cafebabe.readFieldDescriptor_tame)))
      else if n == `Cafebabe.readMethodDescriptor then run (← `(tactic| exact $(mkIdent `Cafebabe.readMethodDescriptor_tame)))
      else run (← `(tactic| with_reducible assumption))
    | none => run (← `(tactic| with_reducible assumption))

macro "tame" : tactic => `(tactic| repeat' tame1)

section
variable {N : Nat} {A : PanicKind → Prop}

theorem readFieldDescriptor_tame {pool : Pool} : Tame N A 0 (readFieldDescriptor pool) := by
  unfold readFieldDescriptor; tame

theorem readMethodDescriptor_tame {pool : Pool} : Tame N A 0 (readMethodDescriptor pool) := by
  unfold readMethodDescriptor; tame


theorem readLinenumberData_tame : Tame N A 0 readLinenumberData := by
  unfold readLinenumberData readLineNumberEntry; tame

theorem readLocalvariableData_tame {pool : Pool} : Tame N A 0 (readLocalvariableData pool) := by
  unfold readLocalvariableData
  refine Tame.zero (Tame.readTable2 (k := 0) (Nat.le_add_right _ _) fun i => ?_)
  unfold readLocalVariableEntry; tame

theorem readLocalvariabletypeData_tame {pool : Pool} : Tame N A 0 (readLocalvariabletypeData pool) := by
  unfold readLocalvariabletypeData
  refine Tame.zero (Tame.readTable2 (k := 0) (Nat.le_add_right _ _) fun i => ?_)
  unfold readLocalVariableTypeEntry; tame

theorem readMethodparametersData_tame {pool : Pool} : Tame N A 0 (readMethodparametersData pool) := by
  unfold readMethodparametersData
  refine Tame.zero (Tame.readTable1 (k := 0) (Nat.le_add_right _ _) fun i => ?_)
  unfold readMethodParameterEntry; tame

theorem readTypeAnnotationTarget_tame {i : Nat} {v : UInt8} : Tame N A 0 (readTypeAnnotationTarget i v) := by
  unfold readTypeAnnotationTarget readLocalVarTarget; tame

theorem readTargetPathEntry_tame {i j : Nat} : Tame N A 0 (readTargetPathEntry i j) := by
  unfold readTargetPathEntry
  refine Tame.seq0 (by tame) fun v => ?_
  split <;> tame

/-! ### Annotations -/

theorem readAnnotationWith_tame {rec : P AnnotationElementValue} {pool : Pool} (h : Tame N A 0 rec) :
    Tame N A 2 (readAnnotationWith rec pool) := by
  unfold readAnnotationWith
  have hd : Tame N A 2 (readFieldDescriptor pool) := by
    unfold readFieldDescriptor
    exact Tame.seqK readCpUtf8_tame fun _ => Tame.lift (parseFieldDescriptor_zero _).calm
  refine Tame.seqK (m := 0) (hd.mapErr _) fun d => ?_
  refine Tame.seq0 (Tame.zero (Tame.readTable2 (k := 0) (Nat.le_add_right _ _) fun i => ?_)) fun _ => Tame.pure _
  unfold readAnnotationElementWith; tame

theorem readElementValueBody_tame {rec : P AnnotationElementValue} {pool : Pool} {v : UInt8} (h : Tame N A 0 rec) :
    Tame N A 0 (readElementValueBody rec pool v) := by
  have ha := (readAnnotationWith_tame (pool := pool) h).zero
  unfold readElementValueBody; tame

theorem readAnnotationElementValue_tame {pool : Pool} : ∀ d, Tame d A 0 (readAnnotationElementValue pool d)
  | 0 => Tame.diverge
  | d + 1 => by
    unfold readAnnotationElementValue readElementValueWith
    exact (Tame.bindK (N := d + 1) (M := d) (m := 0) (Nat.le_refl _) Tame.readU1 fun v =>
      readElementValueBody_tame (readAnnotationElementValue_tame d)).zero

theorem readAnnotation_tame {pool : Pool} (d : Nat) : Tame d A 0 (readAnnotation pool d) :=
  (readAnnotationWith_tame (readAnnotationElementValue_tame d)).zero

theorem readAnnotationData_tame {pool : Pool} (d : Nat) : Tame d A 0 (readAnnotationData pool d) := by
  have h := readAnnotation_tame (A := A) (pool := pool) d
  unfold readAnnotationData; tame

theorem readParameterAnnotationData_tame {pool : Pool} (d : Nat) : Tame d A 0 (readParameterAnnotationData pool d) := by
  have h := readAnnotation_tame (A := A) (pool := pool) d
  unfold readParameterAnnotationData
  refine Tame.zero (Tame.readTable1 (k := 0) (Nat.le_add_right _ _) fun i => ?_)
  unfold readParameterAnnotation; tame

theorem readTypeAnnotationData_tame {pool : Pool} (d : Nat) : Tame d A 0 (readTypeAnnotationData pool d) := by
  have h := readAnnotation_tame (A := A) (pool := pool) d
  unfold readTypeAnnotationData
  refine Tame.zero (Tame.readTable2 (k := 0) (Nat.le_add_right _ _) fun i => ?_)
  unfold readTypeAnnotation
  refine Tame.seq0 (Tame.zero Tame.readU1) fun v => Tame.seq0 readTypeAnnotationTarget_tame fun t => Tame.seq0 ?_ fun p => ?_
  · exact Tame.zero (Tame.readTable1 (k := 0) (Nat.le_add_right _ _) fun i => readTargetPathEntry_tame)
  · tame

variable {major : UInt16} {pool : Pool} (hok : PoolOK major pool)
include hok

theorem readStackmaptableVerification_tame : Tame N A 0 (readStackmaptableVerification pool) := by
  unfold readStackmaptableVerification
  refine Tame.seq0 (Tame.zero Tame.readU1) fun v => ?_
  split <;> tame

theorem readStackmaptableData_tame : Tame N A 0 (readStackmaptableData pool) := by
  have h := readStackmaptableVerification_tame (N := N) (A := A) hok
  unfold readStackmaptableData
  refine Tame.zero (Tame.readTable2 (k := 0) (Nat.le_add_right _ _) fun i => ?_)
  unfold readStackMapEntry
  refine Tame.seq0 (Tame.zero Tame.readU1) fun v => ?_
  unfold readStackMapEntryBody; tame

theorem readExceptionsData_tame : Tame N A 0 (readExceptionsData pool) := by unfold readExceptionsData; tame

theorem readInnerclassesData_tame : Tame N A 0 (readInnerclassesData pool) := by
  unfold readInnerclassesData
  refine Tame.zero (Tame.readTable2 (k := 0) (Nat.le_add_right _ _) fun i => ?_)
  unfold readInnerClassEntry; tame

theorem readBootstrapmethodsData_tame : Tame N A 0 (readBootstrapmethodsData pool) := by
  unfold readBootstrapmethodsData
  refine Tame.zero (Tame.readTable2 (k := 0) (Nat.le_add_right _ _) fun i => ?_)
  unfold readBootstrapMethodEntry; tame

theorem readModuleData_tame : Tame N A 0 (readModuleData pool) := by
  have h1 : ∀ i, Tame N A 0 (readModuleRequire pool i) := fun i => by unfold readModuleRequire; tame
  have h2 : ∀ i, Tame N A 0 (readModuleExports pool i) := fun i => by unfold readModuleExports; tame
  have h3 : ∀ i, Tame N A 0 (readModuleOpens pool i) := fun i => by unfold readModuleOpens; tame
  have h4 : ∀ i, Tame N A 0 (readModuleProvides pool i) := fun i => by unfold readModuleProvides; tame
  unfold readModuleData; tame
  · exact h1 _
  · exact h2 _
  · exact h3 _
  · exact h4 _

theorem readModulepackagesData_tame : Tame N A 0 (readModulepackagesData pool) := by unfold readModulepackagesData; tame
theorem readNestmembersData_tame : Tame N A 0 (readNestmembersData pool) := by unfold readNestmembersData; tame
theorem readPermittedSubclassesData_tame : Tame N A 0 (readPermittedSubclassesData pool) := by
  unfold readPermittedSubclassesData; tame

omit hok in
theorem readRecordDataWith_tame {rec : P (List AttributeInfo)} (h : Tame N A 0 rec) : Tame N A 0 (readRecordDataWith rec pool) := by
  unfold readRecordDataWith
  refine Tame.zero (Tame.readTable2 (k := 0) (Nat.le_add_right _ _) fun i => ?_)
  unfold readRecordComponentWith; tame

variable {env : Env} (hov : env.overflowChecks = true → env.parseBytecode = true → A .overflow)
include hov

theorem readCodeDataWith_tame {rec : P (List AttributeInfo)} (h : Tame N A 0 rec) : Tame N A 0 (readCodeDataWith env rec pool) := by
  unfold readCodeDataWith; tame
  · rename_i i
    unfold readExceptionTableEntry; tame
  · refine Tame.ite (fun hp => Tame.seq0 ?_ fun _ => ?_) fun _ => ?_ <;> try (dsimp only; tame)
    exact Tame.lift ((ofCode_calm (fun h => hov h hp) hok _).mapErr _)

theorem readAttributeData_tame (depth : Nat) {rec : P (List AttributeInfo)} (i length : Nat) (k : AttrKind) (h : Tame depth A 0 rec)
    (hA : k = .enclosingMethod → BadDescriptor pool → A .nonUtf8) {bytes : Bytes} {ix : Nat} (hix : ix + length ≤ bytes.length) :
    TameAt depth A 0 (readAttributeData env depth rec pool i length k) bytes ix := by
  have hix' : ix ≤ bytes.length := by omega
  cases k with
  | sourceDebugExtension =>
    unfold readAttributeData
    refine (TameAt.bind (M := depth) (m := 0) (Nat.le_add_right _ _) (TameAt.takeSlice hix) fun a ix' _ hle => ?_).zero
    have : Tame depth A 0 (match env.decode a with
      | some s => (pure (.sourceDebugExtension s) : P AttributeData)
      | none => P.failCtx "invalid modified utf8" s!"modified utf8 data of SourceDebugExtension attribute {i}") := by
      split <;> tame
    exact this bytes ix' hle
  | other =>
    unfold readAttributeData
    exact (TameAt.bind (M := depth) (m := 0) (Nat.le_add_right _ _) (TameAt.takeSlice hix) fun a ix' _ hle => Tame.pure _ bytes ix' hle).zero
  | enclosingMethod =>
    have hn := (readCpNameandtypeOpt_tame (N := depth) hok (hA rfl)).zero
    refine (?_ : Tame depth A 0 _) bytes ix hix'
    unfold readAttributeData; dsimp only; tame
  | code =>
    have hc := readCodeDataWith_tame hok hov h
    refine (?_ : Tame depth A 0 _) bytes ix hix'
    unfold readAttributeData; dsimp only; tame
  | record =>
    have hc := readRecordDataWith_tame (pool := pool) h
    refine (?_ : Tame depth A 0 _) bytes ix hix'
    unfold readAttributeData; dsimp only; tame
  | stackMapTable =>
    have hc := readStackmaptableData_tame (N := depth) (A := A) hok
    refine (?_ : Tame depth A 0 _) bytes ix hix'
    unfold readAttributeData; dsimp only; tame
  | exceptions =>
    have hc := readExceptionsData_tame (N := depth) (A := A) hok
    refine (?_ : Tame depth A 0 _) bytes ix hix'
    unfold readAttributeData; dsimp only; tame
  | innerClasses =>
    have hc := readInnerclassesData_tame (N := depth) (A := A) hok
    refine (?_ : Tame depth A 0 _) bytes ix hix'
    unfold readAttributeData; dsimp only; tame
  | lineNumberTable =>
    have hc := readLinenumberData_tame (N := depth) (A := A)
    refine (?_ : Tame depth A 0 _) bytes ix hix'
    unfold readAttributeData; dsimp only; tame
  | localVariableTable =>
    have hc := readLocalvariableData_tame (N := depth) (A := A) (pool := pool)
    refine (?_ : Tame depth A 0 _) bytes ix hix'
    unfold readAttributeData; dsimp only; tame
  | localVariableTypeTable =>
    have hc := readLocalvariabletypeData_tame (N := depth) (A := A) (pool := pool)
    refine (?_ : Tame depth A 0 _) bytes ix hix'
    unfold readAttributeData; dsimp only; tame
  | methodParameters =>
    have hc := readMethodparametersData_tame (N := depth) (A := A) (pool := pool)
    refine (?_ : Tame depth A 0 _) bytes ix hix'
    unfold readAttributeData; dsimp only; tame
  | bootstrapMethods =>
    have hc := readBootstrapmethodsData_tame (N := depth) (A := A) hok
    refine (?_ : Tame depth A 0 _) bytes ix hix'
    unfold readAttributeData; dsimp only; tame
  | moduleAttr =>
    have hc := readModuleData_tame (N := depth) (A := A) hok
    refine (?_ : Tame depth A 0 _) bytes ix hix'
    unfold readAttributeData; dsimp only; tame
  | modulePackages =>
    have hc := readModulepackagesData_tame (N := depth) (A := A) hok
    refine (?_ : Tame depth A 0 _) bytes ix hix'
    unfold readAttributeData; dsimp only; tame
  | nestMembers =>
    have hc := readNestmembersData_tame (N := depth) (A := A) hok
    refine (?_ : Tame depth A 0 _) bytes ix hix'
    unfold readAttributeData; dsimp only; tame
  | permittedSubclasses =>
    have hc := readPermittedSubclassesData_tame (N := depth) (A := A) hok
    refine (?_ : Tame depth A 0 _) bytes ix hix'
    unfold readAttributeData; dsimp only; tame
  | annotationDefault =>
    have hc := readAnnotationElementValue_tame (A := A) (pool := pool) depth
    refine (?_ : Tame depth A 0 _) bytes ix hix'
    unfold readAttributeData; dsimp only; tame
  | runtimeVisibleAnnotations =>
    have hc := readAnnotationData_tame (A := A) (pool := pool) depth
    refine (?_ : Tame depth A 0 _) bytes ix hix'
    unfold readAttributeData; dsimp only; tame
  | runtimeInvisibleAnnotations =>
    have hc := readAnnotationData_tame (A := A) (pool := pool) depth
    refine (?_ : Tame depth A 0 _) bytes ix hix'
    unfold readAttributeData; dsimp only; tame
  | runtimeVisibleParameterAnnotations =>
    have hc := readParameterAnnotationData_tame (A := A) (pool := pool) depth
    refine (?_ : Tame depth A 0 _) bytes ix hix'
    unfold readAttributeData; dsimp only; tame
  | runtimeInvisibleParameterAnnotations =>
    have hc := readParameterAnnotationData_tame (A := A) (pool := pool) depth
    refine (?_ : Tame depth A 0 _) bytes ix hix'
    unfold readAttributeData; dsimp only; tame
  | runtimeVisibleTypeAnnotations =>
    have hc := readTypeAnnotationData_tame (A := A) (pool := pool) depth
    refine (?_ : Tame depth A 0 _) bytes ix hix'
    unfold readAttributeData; dsimp only; tame
  | runtimeInvisibleTypeAnnotations =>
    have hc := readTypeAnnotationData_tame (A := A) (pool := pool) depth
    refine (?_ : Tame depth A 0 _) bytes ix hix'
    unfold readAttributeData; dsimp only; tame
  | constantValue | synthetic | signature | sourceFile | deprecated | moduleMainClass | nestHost =>
    refine (?_ : Tame depth A 0 _) bytes ix hix'
    unfold readAttributeData; dsimp only; tame

omit hok hov in
theorem readCpUtf8_mem {pool : Pool} {bytes : Bytes} {ix ix' : Nat} {s : Str} (hix : ix ≤ bytes.length)
    (h : readCpUtf8 pool bytes ix = .ok (s, ix')) : Entry.utf8 s ∈ pool := by
  obtain ⟨seg, rest, -, hr, -⟩ := (readCpUtf8_exact (N := bytes.length + 1) pool bytes ix hix (by omega) s ix').mp h
  obtain ⟨i, hi, -⟩ := hr
  exact List.mem_of_getElem? hi

omit hok hov in
/-- The name of the attribute that can panic. -/
theorem attrKindOf_enclosing {name : Str} (h : attrKindOf name = .enclosingMethod) : name = "EnclosingMethod".toList := by
  rcases (attrKindOf_iff _ _).mp h with h | ⟨h, -⟩
  · exact (Option.some.inj h).symm
  · cases h

theorem readAttributes_tame
    (hA : Entry.utf8 "EnclosingMethod".toList ∈ pool → BadDescriptor pool → A .nonUtf8) : ∀ d, Tame d A 0 (readAttributes env pool d)
  | 0 => Tame.diverge
  | d + 1 => by
    refine (Tame.readTable2 (M := d) (k := 0) (by omega) fun i => ?_).zero
    intro bytes ix hix
    unfold readAttributeWith
    refine TameAt.zero (TameAt.bind (M := d) (m := 0) (k := 2) (by omega) (readCpUtf8_tame.mapErr _ bytes ix hix) fun name ix' hname hix' => ?_)
    refine TameAt.zero (TameAt.bind (M := d) (m := 0) (by omega) (Tame.readU4 bytes ix' hix') fun len ix2 _ hix2 => ?_)
    have hce : checkEnd len.toNat bytes ix2 = if bytes.length < ix2 + len.toNat then
        Res.fail s!"Unexpected end of stream reading attributes at index {ix2}" else .ok (ix2 + len.toNat, ix2) := rfl
    by_cases hlt : bytes.length < ix2 + len.toNat
    · rw [if_pos hlt] at hce
      unfold TameAt
      rw [P.bind_err hce]
      trivial
    · rw [if_neg hlt] at hce
      refine TameAt.zero (TameAt.bind (M := d) (m := 0) (k := 0) (by omega) ?_ fun e ix3 he hix3 => ?_)
      · unfold TameAt; rw [hce]; exact ⟨Nat.le_refl _, hix2⟩
      · rw [hce] at he
        cases he
        refine TameAt.zero (TameAt.bind (M := d) (m := 0) (by omega)
          (readAttributeData_tame hok hov d i len.toNat _ (readAttributes_tame hA d) (fun hk => hA ?_) (by omega)) fun data ix4 _ hix4 => ?_)
        · have : Res.mapErr (readCpUtf8 pool bytes ix) _ = _ := hname
          rw [← attrKindOf_enclosing hk]
          cases hr : readCpUtf8 pool bytes ix with
          | ok a =>
            rw [hr] at this; cases this
            exact readCpUtf8_mem hix hr
          | _ => rw [hr] at this; cases this
        · exact (Tame.getIx fun _ => Tame.ite (fun _ => Tame.fail) fun _ => Tame.pure _) bytes ix4 hix4

end

end Cafebabe
