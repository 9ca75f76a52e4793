import Verif.Proofs.WorkParse
/-!
# Counting the steps of the parser changes no outcome: attributes and class files
-/

namespace Cafebabe
open Spec Timed

theorem Erases.readTable2 {α : Type} {g : Nat → PT α} {f : Nat → P α} (h : ∀ i, Erases (g i) (f i)) : Erases (readTable2T g) (readTable2 f) :=
  Erases.bind (Erases.once _) fun _ => Erases.forRange h

theorem Erases.readTable1 {α : Type} {g : Nat → PT α} {f : Nat → P α} (h : ∀ i, Erases (g i) (f i)) : Erases (readTable1T g) (readTable1 f) :=
  Erases.bind (Erases.once _) fun _ => Erases.forRange h

theorem Erases.assoc {α β γ : Type} {q : PT α} {g : α → PT β} {k : β → PT γ} {p : P γ} (h : Erases (q >>= fun a => g a >>= k) p) : Erases ((q >>= g) >>= k) p := by
  intro bytes ix
  rw [← h bytes ix]
  show (PT.bind (PT.bind q g) k bytes ix).out = (PT.bind q (fun a => PT.bind (g a) k) bytes ix).out
  unfold PT.bind
  simp only [out_bind]
  cases (q bytes ix).out <;> rfl

theorem optNameT_out (o : Option Str) : (optNameT o).out = .ok !(o.any fun n => !isUnqualifiedName n) := by
  cases o with
  | none => rfl
  | some s => simp [optNameT, isUnqualifiedNameT_out]

macro_rules | `(tactic| erase1) => `(tactic| with_reducible apply Erases.readTable2)
macro_rules | `(tactic| erase1) => `(tactic| with_reducible apply Erases.readTable1)
macro_rules | `(tactic| erase1) => `(tactic| with_reducible apply Erases.check (isUnqualifiedNameT_out _))
macro_rules | `(tactic| erase1) => `(tactic| with_reducible apply Erases.check (isUnqualifiedMethodNameT_out _ _ _))

theorem isReturnDescriptorT_out (s : Str) : (isReturnDescriptorT s).out = isReturnDescriptor s := by
  unfold isReturnDescriptorT lenMatchesT isReturnDescriptor
  rw [returnT_out]

macro_rules | `(tactic| erase1) => `(tactic| with_reducible exact Erases.lift (isReturnDescriptorT_out _))

theorem readFieldDescriptorT_out (pool : Pool) : Erases (readFieldDescriptorT pool) (readFieldDescriptor pool) := by
  unfold readFieldDescriptorT readFieldDescriptor; erase

macro_rules | `(tactic| erase1) => `(tactic| with_reducible exact readFieldDescriptorT_out _)

theorem readExceptionTableEntryT_out (pool : Pool) (i : Nat) : Erases (readExceptionTableEntryT pool i) (readExceptionTableEntry pool i) := by
  unfold readExceptionTableEntryT readExceptionTableEntry; erase

macro_rules | `(tactic| erase1) => `(tactic| with_reducible exact readExceptionTableEntryT_out _ _)

theorem readStackmaptableVerificationT_out (pool : Pool) : Erases (readStackmaptableVerificationT pool) (readStackmaptableVerification pool) := by
  refine Erases.bind (Erases.once _) fun v => ?_
  generalize v.toNat = n
  match n with
  | 0 => exact Erases.pure _
  | 1 => exact Erases.pure _
  | 2 => exact Erases.pure _
  | 3 => exact Erases.pure _
  | 4 => exact Erases.pure _
  | 5 => exact Erases.pure _
  | 6 => exact Erases.pure _
  | 7 => exact Erases.bind (Erases.mapErr (readCpClassinfoT_out pool) _) fun _ => Erases.pure _
  | 8 => exact Erases.bind (Erases.once _) fun _ => Erases.pure _
  | n + 9 => exact Erases.fail _

macro_rules | `(tactic| erase1) => `(tactic| with_reducible exact readStackmaptableVerificationT_out _)

theorem readStackMapEntryBodyT_out (pool : Pool) (i : Nat) (v : UInt8) : Erases (readStackMapEntryBodyT pool i v) (readStackMapEntryBody pool i v) := by
  unfold readStackMapEntryBodyT readStackMapEntryBody; erase

macro_rules | `(tactic| erase1) => `(tactic| with_reducible exact readStackMapEntryBodyT_out _ _ _)

theorem readStackMapEntryT_out (pool : Pool) (i : Nat) : Erases (readStackMapEntryT pool i) (readStackMapEntry pool i) := by
  unfold readStackMapEntryT readStackMapEntry; erase

macro_rules | `(tactic| erase1) => `(tactic| with_reducible exact readStackMapEntryT_out _ _)

theorem readStackmaptableDataT_out (pool : Pool) : Erases (readStackmaptableDataT pool) (readStackmaptableData pool) := by
  unfold readStackmaptableDataT readStackmaptableData; erase

macro_rules | `(tactic| erase1) => `(tactic| with_reducible exact readStackmaptableDataT_out _)

theorem readExceptionsDataT_out (pool : Pool) : Erases (readExceptionsDataT pool) (readExceptionsData pool) := by
  unfold readExceptionsDataT readExceptionsData; erase

macro_rules | `(tactic| erase1) => `(tactic| with_reducible exact readExceptionsDataT_out _)

theorem readInnerClassEntryT_out (pool : Pool) (i : Nat) : Erases (readInnerClassEntryT pool i) (readInnerClassEntry pool i) := by
  unfold readInnerClassEntryT readInnerClassEntry; erase

macro_rules | `(tactic| erase1) => `(tactic| with_reducible exact readInnerClassEntryT_out _ _)

theorem readInnerclassesDataT_out (pool : Pool) : Erases (readInnerclassesDataT pool) (readInnerclassesData pool) := by
  unfold readInnerclassesDataT readInnerclassesData; erase

macro_rules | `(tactic| erase1) => `(tactic| with_reducible exact readInnerclassesDataT_out _)

theorem readLinenumberDataT_out : Erases readLinenumberDataT readLinenumberData := by
  unfold readLinenumberDataT readLinenumberData; erase

macro_rules | `(tactic| erase1) => `(tactic| with_reducible exact readLinenumberDataT_out)

theorem readLocalVariableEntryT_out (pool : Pool) (i : Nat) : Erases (readLocalVariableEntryT pool i) (readLocalVariableEntry pool i) := by
  unfold readLocalVariableEntryT readLocalVariableEntry; erase

macro_rules | `(tactic| erase1) => `(tactic| with_reducible exact readLocalVariableEntryT_out _ _)

theorem readLocalvariableDataT_out (pool : Pool) : Erases (readLocalvariableDataT pool) (readLocalvariableData pool) := by
  unfold readLocalvariableDataT readLocalvariableData; erase

macro_rules | `(tactic| erase1) => `(tactic| with_reducible exact readLocalvariableDataT_out _)

theorem readLocalVariableTypeEntryT_out (pool : Pool) (i : Nat) : Erases (readLocalVariableTypeEntryT pool i) (readLocalVariableTypeEntry pool i) := by
  unfold readLocalVariableTypeEntryT readLocalVariableTypeEntry; erase

macro_rules | `(tactic| erase1) => `(tactic| with_reducible exact readLocalVariableTypeEntryT_out _ _)

theorem readLocalvariabletypeDataT_out (pool : Pool) : Erases (readLocalvariabletypeDataT pool) (readLocalvariabletypeData pool) := by
  unfold readLocalvariabletypeDataT readLocalvariabletypeData; erase

macro_rules | `(tactic| erase1) => `(tactic| with_reducible exact readLocalvariabletypeDataT_out _)

theorem readAnnotationElementWithT_out {q : PT AnnotationElementValue} {p : P AnnotationElementValue} (h : Erases q p) (pool : Pool) (i : Nat) : Erases (readAnnotationElementWithT q pool i) (readAnnotationElementWith p pool i) := by
  unfold readAnnotationElementWithT readAnnotationElementWith; erase

macro_rules | `(tactic| erase1) => `(tactic| with_reducible apply readAnnotationElementWithT_out)

theorem readAnnotationWithT_out {q : PT AnnotationElementValue} {p : P AnnotationElementValue} (h : Erases q p) (pool : Pool) : Erases (readAnnotationWithT q pool) (readAnnotationWith p pool) := by
  unfold readAnnotationWithT readAnnotationWith; erase

macro_rules | `(tactic| erase1) => `(tactic| with_reducible apply readAnnotationWithT_out)

theorem readElementValueBodyT_out {q : PT AnnotationElementValue} {p : P AnnotationElementValue} (h : Erases q p) (pool : Pool) (v : UInt8) : Erases (readElementValueBodyT q pool v) (readElementValueBody p pool v) := by
  unfold readElementValueBodyT readElementValueBody; erase

macro_rules | `(tactic| erase1) => `(tactic| with_reducible apply readElementValueBodyT_out)

theorem readElementValueWithT_out {q : PT AnnotationElementValue} {p : P AnnotationElementValue} (h : Erases q p) (pool : Pool) : Erases (readElementValueWithT q pool) (readElementValueWith p pool) := by
  unfold readElementValueWithT readElementValueWith; erase

macro_rules | `(tactic| erase1) => `(tactic| with_reducible apply readElementValueWithT_out)

theorem readAnnotationElementValueT_out (pool : Pool) : ∀ d, Erases (readAnnotationElementValueT pool d) (readAnnotationElementValue pool d)
  | 0 => Erases.diverge
  | d + 1 => readElementValueWithT_out (readAnnotationElementValueT_out pool d) pool

macro_rules | `(tactic| erase1) => `(tactic| with_reducible exact readAnnotationElementValueT_out _ _)

theorem readAnnotationT_out (pool : Pool) (d : Nat) : Erases (readAnnotationT pool d) (readAnnotation pool d) := by
  unfold readAnnotationT readAnnotation; erase

macro_rules | `(tactic| erase1) => `(tactic| with_reducible exact readAnnotationT_out _ _)

theorem readAnnotationDataT_out (pool : Pool) (d : Nat) : Erases (readAnnotationDataT pool d) (readAnnotationData pool d) := by
  unfold readAnnotationDataT readAnnotationData; erase

macro_rules | `(tactic| erase1) => `(tactic| with_reducible exact readAnnotationDataT_out _ _)

theorem readParameterAnnotationT_out (pool : Pool) (d i : Nat) : Erases (readParameterAnnotationT pool d i) (readParameterAnnotation pool d i) := by
  unfold readParameterAnnotationT readParameterAnnotation; erase

macro_rules | `(tactic| erase1) => `(tactic| with_reducible exact readParameterAnnotationT_out _ _ _)

theorem readParameterAnnotationDataT_out (pool : Pool) (d : Nat) : Erases (readParameterAnnotationDataT pool d) (readParameterAnnotationData pool d) := by
  unfold readParameterAnnotationDataT readParameterAnnotationData; erase

macro_rules | `(tactic| erase1) => `(tactic| with_reducible exact readParameterAnnotationDataT_out _ _)

theorem readTypeAnnotationTargetT_out (i : Nat) (v : UInt8) : Erases (readTypeAnnotationTargetT i v) (readTypeAnnotationTarget i v) := by
  unfold readTypeAnnotationTargetT readTypeAnnotationTarget; erase

macro_rules | `(tactic| erase1) => `(tactic| with_reducible exact readTypeAnnotationTargetT_out _ _)

theorem readTypeAnnotationT_out (pool : Pool) (d i : Nat) : Erases (readTypeAnnotationT pool d i) (readTypeAnnotation pool d i) := by
  unfold readTypeAnnotationT readTypeAnnotation; erase

macro_rules | `(tactic| erase1) => `(tactic| with_reducible exact readTypeAnnotationT_out _ _ _)

theorem readTypeAnnotationDataT_out (pool : Pool) (d : Nat) : Erases (readTypeAnnotationDataT pool d) (readTypeAnnotationData pool d) := by
  unfold readTypeAnnotationDataT readTypeAnnotationData; erase

macro_rules | `(tactic| erase1) => `(tactic| with_reducible exact readTypeAnnotationDataT_out _ _)

theorem readBootstrapMethodEntryT_out (pool : Pool) (i : Nat) : Erases (readBootstrapMethodEntryT pool i) (readBootstrapMethodEntry pool i) := by
  unfold readBootstrapMethodEntryT readBootstrapMethodEntry; erase

macro_rules | `(tactic| erase1) => `(tactic| with_reducible exact readBootstrapMethodEntryT_out _ _)

theorem readBootstrapmethodsDataT_out (pool : Pool) : Erases (readBootstrapmethodsDataT pool) (readBootstrapmethodsData pool) := by
  unfold readBootstrapmethodsDataT readBootstrapmethodsData; erase

macro_rules | `(tactic| erase1) => `(tactic| with_reducible exact readBootstrapmethodsDataT_out _)

theorem readMethodParameterEntryT_out (pool : Pool) (i : Nat) : Erases (readMethodParameterEntryT pool i) (readMethodParameterEntry pool i) := by
  unfold readMethodParameterEntryT readMethodParameterEntry
  refine Erases.bind (Erases.mapErr (readCpUtf8OptT_out pool) _) fun name => Erases.check (optNameT_out name) ?_
  rw [Bool.not_not]
  erase

macro_rules | `(tactic| erase1) => `(tactic| with_reducible exact readMethodParameterEntryT_out _ _)

theorem readMethodparametersDataT_out (pool : Pool) : Erases (readMethodparametersDataT pool) (readMethodparametersData pool) := by
  unfold readMethodparametersDataT readMethodparametersData; erase

macro_rules | `(tactic| erase1) => `(tactic| with_reducible exact readMethodparametersDataT_out _)

theorem readModuleRequireT_out (pool : Pool) (i : Nat) : Erases (readModuleRequireT pool i) (readModuleRequire pool i) := by
  unfold readModuleRequireT readModuleRequire; erase

macro_rules | `(tactic| erase1) => `(tactic| with_reducible exact readModuleRequireT_out _ _)

theorem readModuleExportsT_out (pool : Pool) (i : Nat) : Erases (readModuleExportsT pool i) (readModuleExports pool i) := by
  unfold readModuleExportsT readModuleExports; erase

macro_rules | `(tactic| erase1) => `(tactic| with_reducible exact readModuleExportsT_out _ _)

theorem readModuleOpensT_out (pool : Pool) (i : Nat) : Erases (readModuleOpensT pool i) (readModuleOpens pool i) := by
  unfold readModuleOpensT readModuleOpens; erase

macro_rules | `(tactic| erase1) => `(tactic| with_reducible exact readModuleOpensT_out _ _)

theorem readModuleProvidesT_out (pool : Pool) (i : Nat) : Erases (readModuleProvidesT pool i) (readModuleProvides pool i) := by
  unfold readModuleProvidesT readModuleProvides; erase

macro_rules | `(tactic| erase1) => `(tactic| with_reducible exact readModuleProvidesT_out _ _)

theorem readModuleDataT_out (pool : Pool) : Erases (readModuleDataT pool) (readModuleData pool) := by
  unfold readModuleDataT readModuleData; erase

macro_rules | `(tactic| erase1) => `(tactic| with_reducible exact readModuleDataT_out _)

theorem readModulepackagesDataT_out (pool : Pool) : Erases (readModulepackagesDataT pool) (readModulepackagesData pool) := by
  unfold readModulepackagesDataT readModulepackagesData; erase

macro_rules | `(tactic| erase1) => `(tactic| with_reducible exact readModulepackagesDataT_out _)

theorem readNestmembersDataT_out (pool : Pool) : Erases (readNestmembersDataT pool) (readNestmembersData pool) := by
  unfold readNestmembersDataT readNestmembersData; erase

macro_rules | `(tactic| erase1) => `(tactic| with_reducible exact readNestmembersDataT_out _)

theorem readPermittedSubclassesDataT_out (pool : Pool) : Erases (readPermittedSubclassesDataT pool) (readPermittedSubclassesData pool) := by
  unfold readPermittedSubclassesDataT readPermittedSubclassesData; erase

macro_rules | `(tactic| erase1) => `(tactic| with_reducible exact readPermittedSubclassesDataT_out _)

theorem readRecordComponentWithT_out {q : PT (List AttributeInfo)} {p : P (List AttributeInfo)} (h : Erases q p) (pool : Pool) (i : Nat) : Erases (readRecordComponentWithT q pool i) (readRecordComponentWith p pool i) := by
  unfold readRecordComponentWithT readRecordComponentWith; erase

macro_rules | `(tactic| erase1) => `(tactic| with_reducible apply readRecordComponentWithT_out)

theorem readRecordDataWithT_out {q : PT (List AttributeInfo)} {p : P (List AttributeInfo)} (h : Erases q p) (pool : Pool) : Erases (readRecordDataWithT q pool) (readRecordDataWith p pool) := by
  unfold readRecordDataWithT readRecordDataWith; erase

macro_rules | `(tactic| erase1) => `(tactic| with_reducible apply readRecordDataWithT_out)

theorem ofCodeT_mapErr_out (checks : Bool) (code : Bytes) (pool : Pool) (c : String) :
    ((ByteCode.ofCodeT checks code pool).mapErr c).out = (ByteCode.ofCode checks code pool).mapErr c := by
  rw [out_mapErr, ofCodeT_out]

macro_rules | `(tactic| erase1) => `(tactic| with_reducible exact Erases.lift (ofCodeT_mapErr_out _ _ _ _))

theorem readCodeDataWithT_out {q : PT (List AttributeInfo)} {p : P (List AttributeInfo)} (h : Erases q p) (env : Env) (pool : Pool) :
    Erases (readCodeDataWithT env q pool) (readCodeDataWith env p pool) := by
  unfold readCodeDataWithT readCodeDataWith bytecodeT
  cases env.parseBytecode
  · simp only [Bool.false_eq_true, if_false]; erase
  · simp only [if_true]
    refine Erases.bind (Erases.once _) fun _ => Erases.bind (Erases.once _) fun _ => Erases.bind (Erases.once _) fun _ => Erases.bind Erases.getIx fun _ => ?_
    refine Erases.bind (Erases.once _) fun _ => Erases.bind (Erases.readTable2 fun _ => readExceptionTableEntryT_out _ _) fun _ => Erases.bind (Erases.mapErr h _) fun _ => ?_
    exact Erases.assoc (Erases.bind (Erases.lift (ofCodeT_mapErr_out _ _ _ _)) fun _ => Erases.bind (Erases.pure _) fun _ => Erases.pure _)

macro_rules | `(tactic| erase1) => `(tactic| with_reducible apply readCodeDataWithT_out)

theorem readAttributeDataT_out {q : PT (List AttributeInfo)} {p : P (List AttributeInfo)} (h : Erases q p) (env : Env) (d : Nat) (pool : Pool) (i length : Nat)
    (k : AttrKind) : Erases (readAttributeDataT env d q pool i length k) (readAttributeData env d p pool i length k) := by
  cases k <;> unfold readAttributeDataT readAttributeData
  case sourceDebugExtension =>
    refine Erases.bind (Erases.once _) fun data => Erases.tick ?_
    cases env.decode data <;> erase
  all_goals erase

theorem readAttributeWithT_out {q : PT (List AttributeInfo)} {p : P (List AttributeInfo)} (h : Erases q p) (env : Env) (d : Nat) (pool : Pool) (i : Nat) :
    Erases (readAttributeWithT env d q pool i) (readAttributeWith env d p pool i) := by
  unfold readAttributeWithT readAttributeWith
  refine Erases.bind (Erases.mapErr (readCpUtf8T_out pool) _) fun name => Erases.bind (Erases.once _) fun l => Erases.bind (Erases.once _) fun e => Erases.tick ?_
  refine Erases.bind (readAttributeDataT_out h _ _ _ _ _ _) fun data => ?_
  erase

theorem readAttributesT_out (env : Env) (pool : Pool) : ∀ d, Erases (readAttributesT env pool d) (readAttributes env pool d)
  | 0 => Erases.diverge
  | d + 1 => Erases.readTable2 fun i => readAttributeWithT_out (readAttributesT_out env pool d) env d pool i

macro_rules | `(tactic| erase1) => `(tactic| with_reducible exact readAttributesT_out _ _ _)

/-! ## Class files -/

theorem readClassNameT_out (pool : Pool) : Erases (readClassNameT pool) (readClassName pool) := by
  unfold readClassNameT readClassName; erase

macro_rules | `(tactic| erase1) => `(tactic| with_reducible exact readClassNameT_out _)

theorem readClassNameOptT_out (pool : Pool) : Erases (readClassNameOptT pool) (readClassNameOpt pool) := by
  refine Erases.bind (readCpClassinfoOptT_out pool) fun o => ?_
  cases o <;> erase

macro_rules | `(tactic| erase1) => `(tactic| with_reducible exact readClassNameOptT_out _)

theorem readInterfacesT_out (pool : Pool) : Erases (readInterfacesT pool) (readInterfaces pool) := by
  unfold readInterfacesT readInterfaces; erase

macro_rules | `(tactic| erase1) => `(tactic| with_reducible exact readInterfacesT_out _)

theorem uniqueT_out (a b : Nat) : (uniqueT a b).out = .ok () := rfl

theorem readFieldT_out (env : Env) (pool : Pool) (seen : List (Str × FieldDescriptor)) (i : Nat) : Erases (readFieldT env pool seen i) (readField env pool seen i) := by
  unfold readFieldT readField
  refine Erases.bind (Erases.once _) fun b => Erases.bind (Erases.mapErr (readCpUtf8T_out pool) _) fun name => Erases.check (isUnqualifiedNameT_out _) ?_
  refine Erases.bind (Erases.failIf _ _) fun _ => Erases.bind (Erases.mapErr (readCpUtf8T_out pool) _) fun d => Erases.bind (Erases.lift (fieldT_out _ _)) fun descriptor => ?_
  refine Erases.step (uniqueT_out _ _) ?_
  erase

theorem readFieldsFromT_out (env : Env) (pool : Pool) : ∀ (n : Nat) (seen : List (Str × FieldDescriptor)) (i : Nat),
    Erases (readFieldsFromT env pool seen i n) (readFieldsFrom env pool seen i n)
  | 0, _, _ => Erases.pure _
  | n + 1, _, _ => Erases.tick (Erases.bind (readFieldT_out _ _ _ _) fun _ => Erases.bind (readFieldsFromT_out env pool n _ _) fun _ => Erases.pure _)

theorem readFieldsT_out (env : Env) (pool : Pool) : Erases (readFieldsT env pool) (readFields env pool) :=
  Erases.bind (Erases.once _) fun _ => readFieldsFromT_out _ _ _ _ _

theorem readMethodDescriptorT_out (pool : Pool) : Erases (readMethodDescriptorT pool) (readMethodDescriptor pool) := by
  unfold readMethodDescriptorT readMethodDescriptor; erase

macro_rules | `(tactic| erase1) => `(tactic| with_reducible exact readMethodDescriptorT_out _)

theorem readMethodT_out (env : Env) (pool : Pool) (ii : Bool) (major : UInt16) (seen : List (Str × MethodDescriptor)) (i : Nat) :
    Erases (readMethodT env pool ii major seen i) (readMethod env pool ii major seen i) := by
  unfold readMethodT readMethod
  refine Erases.bind (Erases.once _) fun b => Erases.bind (Erases.mapErr (readCpUtf8T_out pool) _) fun name => Erases.check (isUnqualifiedMethodNameT_out _ _ _) ?_
  refine Erases.bind (Erases.failIf _ _) fun _ => Erases.bind (Erases.mapErr (readMethodDescriptorT_out pool) _) fun descriptor => Erases.tick ?_
  refine Erases.bind (Erases.failIf _ _) fun _ => Erases.bind (Erases.failIf _ _) fun _ => Erases.bind (Erases.failIf _ _) fun _ => ?_
  refine Erases.step (uniqueT_out _ _) ?_
  erase

theorem readMethodsFromT_out (env : Env) (pool : Pool) (ii : Bool) (major : UInt16) : ∀ (n : Nat) (seen : List (Str × MethodDescriptor)) (i : Nat),
    Erases (readMethodsFromT env pool ii major seen i n) (readMethodsFrom env pool ii major seen i n)
  | 0, _, _ => Erases.pure _
  | n + 1, _, _ => Erases.tick (Erases.bind (readMethodT_out _ _ _ _ _ _) fun _ => Erases.bind (readMethodsFromT_out env pool ii major n _ _) fun _ => Erases.pure _)

theorem readMethodsT_out (env : Env) (pool : Pool) (ii : Bool) (major : UInt16) : Erases (readMethodsT env pool ii major) (readMethods env pool ii major) :=
  Erases.bind (Erases.once _) fun _ => readMethodsFromT_out _ _ _ _ _ _ _

theorem countBootstrapMethodsT_out (x : UInt16) : ∀ (l : List AttributeInfo) (found : Nat), (countBootstrapMethodsT x found l).out = countBootstrapMethods x found l
  | [], _ => rfl
  | a :: rest, found => by
    unfold countBootstrapMethodsT countBootstrapMethods
    simp only [out_bind, out_tick, res_bind_ok]
    cases a.data with
    | bootstrapMethods ms =>
      simp only
      split
      · rfl
      · exact countBootstrapMethodsT_out x rest _
    | _ => exact countBootstrapMethodsT_out x rest _

theorem checkBootstrapIndexT_out (x : UInt16) (l : List AttributeInfo) : (checkBootstrapIndexT x l).out = checkBootstrapIndex x l := by
  unfold checkBootstrapIndexT checkBootstrapIndex
  rw [out_bind, countBootstrapMethodsT_out]
  congr 1
  funext n
  split <;> rfl

theorem validateBootstrapMethodsT_out (l : List AttributeInfo) : ∀ pool : Pool, (validateBootstrapMethodsT pool l).out = validateBootstrapMethods pool l
  | [] => rfl
  | e :: pool => by
    unfold validateBootstrapMethodsT validateBootstrapMethods
    simp only [out_bind, out_tick, res_bind_ok]
    cases e <;> simp only [out_bind, checkBootstrapIndexT_out, validateBootstrapMethodsT_out l pool]

theorem readClassFileT_out (env : Env) : Erases (readClassFileT env) (readClassFile env) := by
  unfold readClassFileT readClassFile
  refine Erases.bind (Erases.once _) fun magic => Erases.bind (Erases.failIf _ _) fun _ => Erases.bind (Erases.once _) fun minor => Erases.bind (Erases.once _) fun major => ?_
  refine Erases.bind (readConstantPoolT_out env major) fun pool => Erases.bind (Erases.once _) fun bits => Erases.bind (Erases.plain _) fun _ => ?_
  refine Erases.bind (Erases.mapErr (readClassNameT_out pool) _) fun c => Erases.bind (Erases.mapErr (readClassNameOptT_out pool) _) fun s => ?_
  refine Erases.bind (readInterfacesT_out pool) fun is => Erases.bind (readFieldsT_out env pool) fun fs => Erases.bind (readMethodsT_out env pool _ _) fun ms => ?_
  refine Erases.bind (Erases.mapErr (readAttributesT_out env pool _) _) fun as => Erases.bind (Erases.once _) fun _ => Erases.bind (Erases.plain _) fun _ => ?_
  exact Erases.bind (Erases.lift (validateBootstrapMethodsT_out _ _)) fun _ => Erases.pure _

theorem parseClassWithOptionsT_out (env : Env) (b : Bytes) : (parseClassWithOptionsT env b).out = parseClassWithOptions env b := by
  unfold parseClassWithOptionsT parseClassWithOptions
  rw [out_bind, readClassFileT_out env b 0]
  rfl

end Cafebabe
