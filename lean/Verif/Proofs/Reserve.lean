import Verif.Model.Reserve
import Verif.Proofs.WorkAttributes
/-!
# Counting the rows reserved changes no outcome
-/

namespace Cafebabe
open Spec Timed

theorem Erases.forRangeFromR {α : Type} {g : Nat → PT α} {f : Nat → P α} (h : ∀ i, Erases (g i) (f i)) :
    ∀ (n i : Nat), Erases (Cafebabe.forRangeFromR g i n) (P.forRangeFrom f i n)
  | 0, _ => Erases.pure _
  | n + 1, i => Erases.bind (h i) fun _ => Erases.bind (forRangeFromR h n (i + 1)) fun _ => Erases.pure _

theorem Erases.forRangeR {α : Type} {g : Nat → PT α} {f : Nat → P α} {n : Nat} (h : ∀ i, Erases (g i) (f i)) : Erases (Cafebabe.forRangeR n g) (P.forRange n f) :=
  Erases.tick (Erases.forRangeFromR h n 0)

theorem Erases.readTable2R {α : Type} {g : Nat → PT α} {f : Nat → P α} (h : ∀ i, Erases (g i) (f i)) : Erases (Cafebabe.readTable2R g) (Cafebabe.readTable2 f) :=
  Erases.bind (Erases.plain _) fun _ => Erases.forRangeR h

theorem Erases.readTable1R {α : Type} {g : Nat → PT α} {f : Nat → P α} (h : ∀ i, Erases (g i) (f i)) : Erases (Cafebabe.readTable1R g) (Cafebabe.readTable1 f) :=
  Erases.bind (Erases.plain _) fun _ => Erases.forRangeR h

macro_rules | `(tactic| erase1) => `(tactic| with_reducible apply Erases.forRangeR)
macro_rules | `(tactic| erase1) => `(tactic| with_reducible apply Erases.readTable2R)
macro_rules | `(tactic| erase1) => `(tactic| with_reducible apply Erases.readTable1R)

theorem readRawPoolR_out (env : Env) (major : UInt16) : Erases (readRawPoolR env major) (readRawPool env major) := by
  unfold readRawPoolR readRawPool
  exact Erases.bind (Erases.plain _) fun _ => Erases.tick (Erases.bind (Erases.plain _) fun _ => Erases.pure _)

theorem readConstantPoolR_out (env : Env) (major : UInt16) : Erases (readConstantPoolR env major) (readConstantPool env major) := by
  unfold readConstantPoolR readConstantPool
  exact Erases.bind (readRawPoolR_out env major) fun _ => by erase

theorem readCodeDataWithR_out (env : Env) {q : PT (List AttributeInfo)} {p : P (List AttributeInfo)} (h : Erases q p) (pool : Pool) :
    Erases (readCodeDataWithR env q pool) (readCodeDataWith env p pool) := by
  unfold readCodeDataWithR readCodeDataWith bytecodeR
  cases env.parseBytecode
  · simp only [Bool.false_eq_true, if_false]; erase
  · simp only [if_true]
    refine Erases.bind (Erases.plain _) fun _ => Erases.bind (Erases.plain _) fun _ => Erases.bind (Erases.plain _) fun _ => Erases.bind Erases.getIx fun _ => ?_
    refine Erases.bind (Erases.plain _) fun _ => Erases.bind (Erases.readTable2R fun _ => Erases.plain _) fun _ => Erases.bind (Erases.mapErr h _) fun _ => ?_
    exact Erases.assoc (Erases.bind (Erases.lift (out_mapErr _ _)) fun _ => Erases.bind (Erases.pure _) fun _ => Erases.pure _)

theorem readStackMapEntryR_out (pool : Pool) (i : Nat) : Erases (readStackMapEntryR pool i) (readStackMapEntry pool i) := by
  unfold readStackMapEntryR readStackMapEntry readStackMapEntryBodyR readStackMapEntryBody
  erase

theorem readAnnotationWithR_out {q : PT AnnotationElementValue} {p : P AnnotationElementValue} (h : Erases q p) (pool : Pool) :
    Erases (readAnnotationWithR q pool) (readAnnotationWith p pool) := by
  unfold readAnnotationWithR readAnnotationWith readAnnotationElementWithR readAnnotationElementWith
  erase

macro_rules | `(tactic| erase1) => `(tactic| with_reducible apply readAnnotationWithR_out)

theorem readAnnotationElementValueR_out (pool : Pool) : ∀ depth, Erases (readAnnotationElementValueR pool depth) (readAnnotationElementValue pool depth)
  | 0 => Erases.diverge
  | depth + 1 => by
    have h := readAnnotationElementValueR_out pool depth
    unfold readAnnotationElementValueR readAnnotationElementValue readElementValueWithR readElementValueWith readElementValueBodyR readElementValueBody
    erase

theorem readAnnotationR_out (pool : Pool) (depth : Nat) : Erases (readAnnotationR pool depth) (readAnnotation pool depth) :=
  readAnnotationWithR_out (readAnnotationElementValueR_out pool depth) pool

macro_rules | `(tactic| erase1) => `(tactic| with_reducible exact readAnnotationR_out _ _)

theorem readTypeAnnotationR_out (pool : Pool) (depth i : Nat) : Erases (readTypeAnnotationR pool depth i) (readTypeAnnotation pool depth i) := by
  unfold readTypeAnnotationR readTypeAnnotation readTypeAnnotationTargetR readTypeAnnotationTarget
  erase

theorem readModuleDataR_out (pool : Pool) : Erases (readModuleDataR pool) (readModuleData pool) := by
  unfold readModuleDataR readModuleData readModuleExportsR readModuleExports readModuleOpensR readModuleOpens readModuleProvidesR readModuleProvides
  erase

theorem readRecordDataWithR_out {q : PT (List AttributeInfo)} {p : P (List AttributeInfo)} (h : Erases q p) (pool : Pool) :
    Erases (readRecordDataWithR q pool) (readRecordDataWith p pool) := by
  unfold readRecordDataWithR readRecordDataWith readRecordComponentWithR readRecordComponentWith
  erase

theorem readAttributeDataR_out (env : Env) (depth : Nat) {q : PT (List AttributeInfo)} {p : P (List AttributeInfo)} (h : Erases q p) (pool : Pool) (i length : Nat) (k : AttrKind) :
    Erases (readAttributeDataR env depth q pool i length k) (readAttributeData env depth p pool i length k) := by
  cases k with
  | code => exact Erases.bind (Erases.mapErr (readCodeDataWithR_out env h pool) _) fun _ => Erases.pure _
  | stackMapTable => exact Erases.bind (Erases.mapErr (Erases.readTable2R (readStackMapEntryR_out pool)) _) fun _ => Erases.pure _
  | exceptions => unfold readAttributeDataR readAttributeData readExceptionsDataR readExceptionsData; erase
  | innerClasses => unfold readAttributeDataR readAttributeData readInnerclassesDataR readInnerclassesData; erase
  | lineNumberTable => unfold readAttributeDataR readAttributeData readLinenumberDataR readLinenumberData; erase
  | localVariableTable => unfold readAttributeDataR readAttributeData readLocalvariableDataR readLocalvariableData; erase
  | localVariableTypeTable => unfold readAttributeDataR readAttributeData readLocalvariabletypeDataR readLocalvariabletypeData; erase
  | runtimeVisibleAnnotations => unfold readAttributeDataR readAttributeData readAnnotationDataR readAnnotationData; erase
  | runtimeInvisibleAnnotations => unfold readAttributeDataR readAttributeData readAnnotationDataR readAnnotationData; erase
  | runtimeVisibleParameterAnnotations =>
    unfold readAttributeDataR readAttributeData readParameterAnnotationDataR readParameterAnnotationData readParameterAnnotationR readParameterAnnotation; erase
  | runtimeInvisibleParameterAnnotations =>
    unfold readAttributeDataR readAttributeData readParameterAnnotationDataR readParameterAnnotationData readParameterAnnotationR readParameterAnnotation; erase
  | runtimeVisibleTypeAnnotations => exact Erases.bind (Erases.mapErr (Erases.readTable2R (readTypeAnnotationR_out pool depth)) _) fun _ => Erases.pure _
  | runtimeInvisibleTypeAnnotations => exact Erases.bind (Erases.mapErr (Erases.readTable2R (readTypeAnnotationR_out pool depth)) _) fun _ => Erases.pure _
  | annotationDefault => exact Erases.bind (Erases.mapErr (readAnnotationElementValueR_out pool depth) _) fun _ => Erases.pure _
  | bootstrapMethods =>
    unfold readAttributeDataR readAttributeData readBootstrapmethodsDataR readBootstrapmethodsData readBootstrapMethodEntryR readBootstrapMethodEntry; erase
  | methodParameters => unfold readAttributeDataR readAttributeData readMethodparametersDataR readMethodparametersData; erase
  | moduleAttr => exact Erases.bind (Erases.mapErr (readModuleDataR_out pool) _) fun _ => Erases.pure _
  | modulePackages => unfold readAttributeDataR readAttributeData readModulepackagesDataR readModulepackagesData; erase
  | nestMembers => unfold readAttributeDataR readAttributeData readNestmembersDataR readNestmembersData; erase
  | permittedSubclasses => unfold readAttributeDataR readAttributeData readPermittedSubclassesDataR readPermittedSubclassesData; erase
  | record => exact Erases.bind (Erases.mapErr (readRecordDataWithR_out h pool) _) fun _ => Erases.pure _
  | _ => exact Erases.plain _

theorem readAttributesR_out (env : Env) (pool : Pool) : ∀ depth, Erases (readAttributesR env pool depth) (readAttributes env pool depth)
  | 0 => Erases.diverge
  | depth + 1 => by
    have h := fun i length k => readAttributeDataR_out env depth (readAttributesR_out env pool depth) pool i length k
    refine Erases.readTable2R fun i => ?_
    unfold readAttributeWithR readAttributeWith
    refine Erases.bind (Erases.mapErr (Erases.plain _) _) fun name => Erases.bind (Erases.plain _) fun length => Erases.bind (Erases.plain _) fun e =>
      Erases.bind (h _ _ _) fun data => ?_
    erase

macro_rules | `(tactic| erase1) => `(tactic| with_reducible exact readAttributesR_out _ _ _)

theorem readFieldsFromR_out (env : Env) (pool : Pool) : ∀ (n i : Nat) (seen : List (Str × FieldDescriptor)), Erases (readFieldsFromR env pool seen i n) (readFieldsFrom env pool seen i n)
  | 0, _, _ => Erases.pure _
  | n + 1, i, seen => by
    have ih := readFieldsFromR_out env pool n
    unfold readFieldsFromR readFieldsFrom
    refine Erases.bind ?_ fun f => Erases.bind (ih _ _) fun _ => Erases.pure _
    unfold readFieldR readField
    erase

theorem readMethodsFromR_out (env : Env) (pool : Pool) (b : Bool) (major : UInt16) :
    ∀ (n i : Nat) (seen : List (Str × MethodDescriptor)), Erases (readMethodsFromR env pool b major seen i n) (readMethodsFrom env pool b major seen i n)
  | 0, _, _ => Erases.pure _
  | n + 1, i, seen => by
    have ih := readMethodsFromR_out env pool b major n
    unfold readMethodsFromR readMethodsFrom
    refine Erases.bind ?_ fun f => Erases.bind (ih _ _) fun _ => Erases.pure _
    unfold readMethodR readMethod
    erase

theorem readClassFileR_out (env : Env) : Erases (readClassFileR env) (readClassFile env) := by
  unfold readClassFileR readClassFile readInterfacesR readInterfaces readFieldsR readFields readMethodsR readMethods
  refine Erases.bind (Erases.plain _) fun magic => Erases.bind (Erases.failIf _ _) fun _ => Erases.bind (Erases.plain _) fun minor =>
    Erases.bind (Erases.plain _) fun major => Erases.bind (readConstantPoolR_out env major) fun pool => Erases.bind (Erases.plain _) fun bits => Erases.bind (Erases.plain _) fun _ =>
    Erases.bind (Erases.mapErr (Erases.plain _) _) fun thisClass => Erases.bind (Erases.mapErr (Erases.plain _) _) fun superClass => Erases.bind (by erase) fun interfaces =>
    Erases.bind (Erases.bind (Erases.plain _) fun _ => Erases.tick (readFieldsFromR_out env pool _ _ _)) fun fields =>
    Erases.bind (Erases.bind (Erases.plain _) fun _ => Erases.tick (readMethodsFromR_out env pool _ major _ _ _)) fun methods => ?_
  erase

theorem parseClassWithOptionsR_out (env : Env) (bytes : Bytes) : (parseClassWithOptionsR env bytes).out = parseClassWithOptions env bytes := by
  unfold parseClassWithOptionsR parseClassWithOptions
  rw [out_bind, readClassFileR_out env bytes 0]
  cases readClassFile env bytes 0 <;> rfl

end Cafebabe
