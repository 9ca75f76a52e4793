import Verif.Spec.Nested
import Verif.Spec.Run
/-!
# Specification: classes assembled from parts of accepted classes

What a class file must be like if every part of it was returned from some accepted file with the same constant pool. Nothing of the parser
is used here but its data types and `Accepts`.
-/

namespace Cafebabe.Spec

/-- Some accepted file with constant pool `pool` returned a class with the property `p`. -/
def Seen (o : Opts) (pool : Pool) (p : ClassFile → Prop) : Prop :=
  ∃ bytes cf, Accepts o bytes cf ∧ cf.constantPool = pool ∧ p cf

/-- Returned as this class, super class or interface. -/
def ClassSeen (o : Opts) (pool : Pool) (c : ClassName) : Prop :=
  Seen o pool fun cf => cf.thisClass = c ∨ cf.superClass = some c ∨ c ∈ cf.interfaces

/-- Returned as an attribute: of a class, field, method, Code attribute or record component. -/
def AttrSeen (o : Opts) (pool : Pool) (a : AttributeInfo) : Prop := Seen o pool fun cf => AttrOf cf a

/-- A table of attributes that were returned from somewhere. -/
def AttrsSeen (o : Opts) (pool : Pool) (as : List AttributeInfo) : Prop := as.length < 65536 ∧ ∀ a ∈ as, AttrSeen o pool a

/-- Any field flags, the name and descriptor of a field returned from somewhere, attributes from anywhere. -/
structure FieldFrom (o : Opts) (pool : Pool) (f : FieldInfo) : Prop where
  flags : f.accessFlags &&& 0x50DF = f.accessFlags
  nameSeen : Seen o pool fun cf => ∃ g ∈ cf.fields, g.name = f.name
  typeSeen : Seen o pool fun cf => ∃ g ∈ cf.fields, g.descriptor = f.descriptor
  attributes : AttrsSeen o pool f.attributes

/-- Any method flags, the name and descriptor of a method returned from a file of the same version and kind, attributes from anywhere. -/
structure MethodFrom (o : Opts) (pool : Pool) (major : UInt16) (interface : Prop) (m : MethodInfo) : Prop where
  flags : m.accessFlags &&& 0x1DFF = m.accessFlags
  seen : Seen o pool fun cf => cf.majorVersion = major ∧ (IsInterface cf.accessFlags ↔ interface) ∧
    ∃ g ∈ cf.methods, g.name = m.name ∧ g.descriptor = m.descriptor
  attributes : AttrsSeen o pool m.attributes

/-- Every part of the class was returned from somewhere, with the same constant pool; the tables fit; and the class as a whole meets
the four requirements that relate its parts. -/
structure Assembled (o : Opts) (cf : ClassFile) : Prop where
  poolSeen : Seen o cf.constantPool fun d => d.majorVersion = cf.majorVersion
  flags : cf.accessFlags &&& 0xF631 = cf.accessFlags
  thisSeen : ClassSeen o cf.constantPool cf.thisClass
  superSeen : ∀ c, cf.superClass = some c → ClassSeen o cf.constantPool c
  interfacesFit : cf.interfaces.length < 65536
  interfacesSeen : ∀ c ∈ cf.interfaces, ClassSeen o cf.constantPool c
  fieldsFit : cf.fields.length < 65536
  fieldsFrom : ∀ f ∈ cf.fields, FieldFrom o cf.constantPool f
  methodsFit : cf.methods.length < 65536
  methodsFrom : ∀ m ∈ cf.methods, MethodFrom o cf.constantPool cf.majorVersion (IsInterface cf.accessFlags) m
  attributes : AttrsSeen o cf.constantPool cf.attributes
  fieldsDistinct : FieldsDistinct cf.fields
  methodsDistinct : MethodsDistinct cf.methods
  moduleOK : ModuleRestrictions cf
  bootstrapOK : BootstrapIndicesOK cf.constantPool cf.attributes

/-! ## Requirements of the JVM specification that relate parts of a class -/

/-- Requirements of JVMS 4.1, 4.3.3, 4.5, 4.6, 4.7.2, 4.7.3, 4.7.10, 4.7.28 and 4.7.29. -/
inductive Law where
  | superclass
  | finalAbstract
  | annotationInterface
  | interfaceAbstract
  | interfaceSuper
  | fieldAccess
  | fieldFinalVolatile
  | interfaceField
  | methodAccess
  | abstractMethod
  | interfaceMethod
  | initializerStatic
  | parameterWords
  | codeAbsent
  | codePresent
  | oneCode
  | oneConstantValue
  | oneSourceFile
  | constantType
  | nest
deriving DecidableEq

/-- Some flag of `mask` is set. -/
def AnyFlag (flags mask : UInt16) : Prop := flags &&& mask ≠ 0

instance (flags mask : UInt16) : Decidable (AnyFlag flags mask) := inferInstanceAs (Decidable (_ ≠ _))
instance (flags : UInt16) : Decidable (IsInterface flags) := inferInstanceAs (Decidable (_ ≠ _))
instance (flags : UInt16) : Decidable (IsModule flags) := inferInstanceAs (Decidable (_ ≠ _))

/-- At least two of PUBLIC, PRIVATE, PROTECTED. -/
def TwoAccess (flags : UInt16) : Prop := flags &&& 7 ∉ [0, 1, 2, 4]

instance (flags : UInt16) : Decidable (TwoAccess flags) := inferInstanceAs (Decidable (_ ∉ _))

/-- How many attributes have the name. -/
def countNamed (name : String) (as : List AttributeInfo) : Nat := as.countP fun a => a.name == name.toList

/-- The constant may be the value of a field of the type (JVMS table 4.7.2-A). -/
def ConstantFits (l : LiteralConstant) (d : FieldDescriptor) : Prop :=
  match l with
  | .integer _ => d.dimensions = 0 ∧ d.fieldType ∈ [FieldType.integer, .short, .char, .byte, .boolean]
  | .float _ => d.dimensions = 0 ∧ d.fieldType = .float
  | .long _ => d.dimensions = 0 ∧ d.fieldType = .long
  | .double _ => d.dimensions = 0 ∧ d.fieldType = .double
  | .string _ | .stringBytes _ => d.dimensions = 0 ∧ d.fieldType = .object ⟨"java/lang/String".toList⟩

/-- The attribute is a constant value that does not fit. -/
def WrongConstant (d : FieldDescriptor) (a : AttributeInfo) : Prop :=
  match a.data with
  | .constantValue l => ¬ ConstantFits l d
  | _ => False

/-- Words taken by the arguments of a method, the receiver not counted. -/
def wordsOf (d : MethodDescriptor) : Nat :=
  (d.parameters.map fun p => if p.dimensions = 0 ∧ (p.fieldType = .long ∨ p.fieldType = .double) then 2 else 1).sum

/-- The class breaks the requirement. -/
def Violates (cf : ClassFile) : Law → Prop
  | .superclass => cf.superClass = none ∧ cf.thisClass.name ≠ "java/lang/Object".toList ∧ ¬ IsModule cf.accessFlags
  | .finalAbstract => AnyFlag cf.accessFlags 0x10 ∧ AnyFlag cf.accessFlags 0x400
  | .annotationInterface => AnyFlag cf.accessFlags 0x2000 ∧ ¬ IsInterface cf.accessFlags
  | .interfaceAbstract => IsInterface cf.accessFlags ∧ ¬ AnyFlag cf.accessFlags 0x400
  | .interfaceSuper => IsInterface cf.accessFlags ∧ cf.superClass ≠ some ⟨"java/lang/Object".toList⟩
  | .fieldAccess => ∃ f ∈ cf.fields, TwoAccess f.accessFlags
  | .fieldFinalVolatile => ∃ f ∈ cf.fields, AnyFlag f.accessFlags 0x10 ∧ AnyFlag f.accessFlags 0x40
  | .interfaceField => IsInterface cf.accessFlags ∧ ∃ f ∈ cf.fields, f.accessFlags &&& 0x19 ≠ 0x19
  | .methodAccess => ∃ m ∈ cf.methods, TwoAccess m.accessFlags
  | .abstractMethod => ∃ m ∈ cf.methods, AnyFlag m.accessFlags 0x400 ∧ AnyFlag m.accessFlags 0x13A
  | .interfaceMethod => IsInterface cf.accessFlags ∧ ∃ m ∈ cf.methods, m.name ≠ "<clinit>".toList ∧ AnyFlag m.accessFlags 0x134
  | .initializerStatic => 51 ≤ cf.majorVersion ∧ ∃ m ∈ cf.methods, m.name = "<clinit>".toList ∧ ¬ AnyFlag m.accessFlags 8
  | .parameterWords => ∃ m ∈ cf.methods, 255 < wordsOf m.descriptor
  | .codeAbsent => ∃ m ∈ cf.methods, AnyFlag m.accessFlags 0x500 ∧ 0 < countNamed "Code" m.attributes
  | .codePresent => ∃ m ∈ cf.methods, m.name ≠ "<clinit>".toList ∧ ¬ AnyFlag m.accessFlags 0x500 ∧ countNamed "Code" m.attributes = 0
  | .oneCode => ∃ m ∈ cf.methods, 1 < countNamed "Code" m.attributes
  | .oneConstantValue => ∃ f ∈ cf.fields, 1 < countNamed "ConstantValue" f.attributes
  | .oneSourceFile => 1 < countNamed "SourceFile" cf.attributes
  | .constantType => ∃ f ∈ cf.fields, ∃ a ∈ f.attributes, WrongConstant f.descriptor a
  | .nest => 0 < countNamed "NestHost" cf.attributes ∧ 0 < countNamed "NestMembers" cf.attributes

end Cafebabe.Spec
