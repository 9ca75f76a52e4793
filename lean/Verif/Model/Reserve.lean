import Verif.Model.WorkParse
import Verif.Model.Capacity
/-!
# Model: how many rows parsing reserves

Every reader of a table calls `Vec::with_capacity(count)` with the count it has just read, before it reads the first row. The parser once more, each
function giving its outcome together with the sum of the arguments of these calls; the `steps` of `Timed` are the rows reserved. The definitions
follow those of `Model/ConstantPool`, `Model/Attributes` and `Model/ClassFile` line by line; a function that contains no such call is
taken from there. Not counted is what a `Vec` gets by growing when pushed to (the opcodes of `read_opcodes`, the contexts of an error, a
constant pool longer than its count, C08) and what a `HashSet` takes (`/repo/src/lib.rs:161-198`, `/repo/src/lib.rs:225-276`: one insertion per member read).
-/

namespace Cafebabe

/-- `for i in 0..count { v.push(f(i)?) }`, starting the counter at `i`. -/
def forRangeFromR {α : Type} (f : Nat → PT α) : Nat → Nat → PT (List α)
  | _, 0 => pure []
  | i, n + 1 => do
    let x ← f i
    let xs ← forRangeFromR f (i + 1) n
    pure (x :: xs)

/-- `let mut v = Vec::with_capacity(count.into()); for i in 0..count { v.push(f(i)?) }`. -/
def forRangeR {α : Type} (count : Nat) (f : Nat → PT α) : PT (List α) := do
  PT.tick count
  forRangeFromR f 0 count

/-- `let count = read_u2(..)?; let mut v = Vec::with_capacity(count.into()); for i in 0..count { v.push(f(i)?) }`. -/
def readTable2R {α : Type} (f : Nat → PT α) : PT (List α) := do
  let count ← PT.plain readU2
  forRangeR count.toNat f

/-- The same with a `read_u1` count. -/
def readTable1R {α : Type} (f : Nat → PT α) : PT (List α) := do
  let count ← PT.plain readU1
  forRangeR count.toNat f

/-! ## Constant pool -/

/-- The reading part of `/repo/src/constant_pool.rs:653-696`. -/
def readRawPoolR (env : Env) (majorVersion : UInt16) : PT Pool := do
  let count ← PT.plain readU2
  PT.tick count.toNat
  let entries ← PT.plain fun bytes ix => constantPoolLoop env majorVersion count (bytes.length + 1) 1 bytes ix
  pure (.zero :: entries)

/-- `/repo/src/constant_pool.rs:653-700` `read_constant_pool`. -/
def readConstantPoolR (env : Env) (majorVersion : UInt16) : PT Pool := do
  let raw ← readRawPoolR env majorVersion
  let pool ← PT.plain (P.lift (resolveConstantPool raw))
  PT.plain (P.lift (validateConstantPool env.depth pool majorVersion))
  pure pool

/-! ## Attributes -/

/-- `/repo/src/bytecode.rs:217-226` `ByteCode::from`; the tables of the switches are those of `/repo/src/bytecode.rs:312-681` `read_opcodes`. -/
def ByteCode.ofCodeR (checks : Bool) (code : Bytes) (pool : Pool) : Timed ByteCode :=
  ⟨ByteCode.ofCode checks code pool, (capacities checks code pool).sum⟩

/-- The `if opts.parse_bytecode` of `/repo/src/attributes.rs:367-414` `fn read_code_data`. -/
def bytecodeR (env : Env) (code : Bytes) (pool : Pool) : PT (Option ByteCode) :=
  if env.parseBytecode then do
    let b ← PT.lift ((ByteCode.ofCodeR env.overflowChecks code pool).mapErr "bytecode")
    pure (some b)
  else pure none

/-- `/repo/src/attributes.rs:367-414` `fn read_code_data`; `rec` is the call to `read_attributes`. -/
def readCodeDataWithR (env : Env) (rec : PT (List AttributeInfo)) (pool : Pool) : PT CodeData := do
  let maxStack ← PT.plain readU2
  let maxLocals ← PT.plain readU2
  let codeLength ← PT.plain readU4
  let ix ← PT.getIx
  let code ← PT.plain (takeBytes codeLength.toNat s!"Unexpected end of stream reading code attribute at index {ix}")
  let exceptionTable ← readTable2R fun i => PT.plain (readExceptionTableEntry pool i)
  let codeAttributes ← rec.mapErr "code attribute"
  let bytecode ← bytecodeR env code pool
  pure { maxStack := maxStack, maxLocals := maxLocals, code := code, bytecode := bytecode,
         exceptionTable := exceptionTable, attributes := codeAttributes }

/-- The `match` of `/repo/src/attributes.rs:443-534` `fn read_stackmaptable_data`: frame `i` after its `frame_type` byte `v`. -/
def readStackMapEntryBodyR (pool : Pool) (i : Nat) (v : UInt8) : PT StackMapEntry :=
  if v.toNat ≤ 63 then pure (.same v.toUInt16)
  else if v.toNat ≤ 127 then do
    let stack ← (PT.plain (readStackmaptableVerification pool)).mapErr s!"same_locals_1_stack_item_frame stack map entry {i}"
    pure (.sameLocals1StackItem (v - 64).toUInt16 stack)
  else if v.toNat ≤ 246 then PT.plain <| P.failCtx s!"Unrecognized discriminant {v}" s!"stack map entry {i}"
  else if v.toNat = 247 then do
    let offsetDelta ← PT.plain readU2
    let stack ← (PT.plain (readStackmaptableVerification pool)).mapErr
      s!"same_locals_1_stack_item_frame_extended stack map entry {i}"
    pure (.sameLocals1StackItem offsetDelta stack)
  else if v.toNat ≤ 250 then do
    let offsetDelta ← PT.plain readU2
    pure (.chop offsetDelta (251 - v).toUInt16)
  else if v.toNat = 251 then do
    let offsetDelta ← PT.plain readU2
    pure (.same offsetDelta)
  else if v.toNat ≤ 254 then do
    let offsetDelta ← PT.plain readU2
    let locals ← forRangeR (v - 251).toNat fun j =>
      (PT.plain (readStackmaptableVerification pool)).mapErr s!"local entry {j} of append stack map entry {i}"
    pure (.append offsetDelta locals)
  else do
    let offsetDelta ← PT.plain readU2
    let locals ← readTable2R fun j =>
      (PT.plain (readStackmaptableVerification pool)).mapErr s!"local entry {j} of full-frame stack map entry {i}"
    let stack ← readTable2R fun j =>
      (PT.plain (readStackmaptableVerification pool)).mapErr s!"stack entry {j} of full-frame stack map entry {i}"
    pure (.fullFrame offsetDelta locals stack)

/-- One iteration of `/repo/src/attributes.rs:443-534` `fn read_stackmaptable_data`. -/
def readStackMapEntryR (pool : Pool) (i : Nat) : PT StackMapEntry := do
  let v ← PT.plain readU1
  readStackMapEntryBodyR pool i v

/-- `/repo/src/attributes.rs:443-534` `fn read_stackmaptable_data`. -/
def readStackmaptableDataR (pool : Pool) : PT (List StackMapEntry) := readTable2R (readStackMapEntryR pool)

/-- `/repo/src/attributes.rs:536-549` `fn read_exceptions_data`. -/
def readExceptionsDataR (pool : Pool) : PT (List Str) :=
  readTable2R fun i => (PT.plain (readCpClassinfo pool)).mapErr s!"exception {i}"

/-- `/repo/src/attributes.rs:551-574` `fn read_innerclasses_data`. -/
def readInnerclassesDataR (pool : Pool) : PT (List InnerClassEntry) := readTable2R fun i => PT.plain (readInnerClassEntry pool i)

/-- `/repo/src/attributes.rs:576-588` `fn read_linenumber_data`. -/
def readLinenumberDataR : PT (List LineNumberEntry) := readTable2R fun _ => PT.plain readLineNumberEntry

/-- `/repo/src/attributes.rs:590-617` `fn read_localvariable_data`. -/
def readLocalvariableDataR (pool : Pool) : PT (List LocalVariableEntry) := readTable2R fun i => PT.plain (readLocalVariableEntry pool i)

/-- `/repo/src/attributes.rs:619-645` `fn read_localvariabletype_data`. -/
def readLocalvariabletypeDataR (pool : Pool) : PT (List LocalVariableTypeEntry) :=
  readTable2R fun i => PT.plain (readLocalVariableTypeEntry pool i)

/-- One element of `/repo/src/attributes.rs:696-716` `fn read_annotation`; `rec` is the call to `read_annotation_element_value`. -/
def readAnnotationElementWithR (rec : PT AnnotationElementValue) (pool : Pool) (i : Nat) : PT AnnotationElement := do
  let name ← (PT.plain (readCpUtf8 pool)).mapErr s!"name of element {i}"
  let value ← rec.mapErr s!"value of element {i}"
  pure { name := name, value := value }

/-- `/repo/src/attributes.rs:696-716` `fn read_annotation`; `rec` is the call to `read_annotation_element_value`. -/
def readAnnotationWithR (rec : PT AnnotationElementValue) (pool : Pool) : PT Annotation := do
  let typeDescriptor ← (PT.plain (readFieldDescriptor pool)).mapErr "type descriptor field"
  let elements ← readTable2R (readAnnotationElementWithR rec pool)
  pure { typeDescriptor := typeDescriptor, elements := elements }

/-- The `match` of `/repo/src/attributes.rs:647-694` `fn read_annotation_element_value` on the tag byte `v`; `rec` is the recursive call. -/
def readElementValueBodyR (rec : PT AnnotationElementValue) (pool : Pool) (v : UInt8) : PT AnnotationElementValue :=
  if v == 66 /- 'B' -/ then do
    let x ← PT.plain (readCpInteger pool)
    pure (.byteConstant x)
  else if v == 67 /- 'C' -/ then do
    let x ← PT.plain (readCpInteger pool)
    pure (.charConstant x)
  else if v == 68 /- 'D' -/ then do
    let x ← PT.plain (readCpDouble pool)
    pure (.doubleConstant x)
  else if v == 70 /- 'F' -/ then do
    let x ← PT.plain (readCpFloat pool)
    pure (.floatConstant x)
  else if v == 73 /- 'I' -/ then do
    let x ← PT.plain (readCpInteger pool)
    pure (.intConstant x)
  else if v == 74 /- 'J' -/ then do
    let x ← PT.plain (readCpLong pool)
    pure (.longConstant x)
  else if v == 83 /- 'S' -/ then do
    let x ← PT.plain (readCpInteger pool)
    pure (.shortConstant x)
  else if v == 90 /- 'Z' -/ then do
    let x ← PT.plain (readCpInteger pool)
    pure (.booleanConstant x)
  else if v == 115 /- 's' -/ then do
    let x ← PT.plain (readCpUtf8 pool)
    pure (.stringConstant x)
  else if v == 101 /- 'e' -/ then do
    let typeName ← (PT.plain (readFieldDescriptor pool)).mapErr "annotation element value enum descriptor"
    let constName ← PT.plain (readCpUtf8 pool)
    pure (.enumConstant typeName constName)
  else if v == 99 /- 'c' -/ then do
    let className ← PT.plain (readCpUtf8 pool)
    let b ← PT.plain (P.lift (isReturnDescriptor className))
    PT.failIf (!b) "Invalid classinfo descriptor"
    pure (.classLiteral className)
  else if v == 64 /- '@' -/ then do
    let a ← readAnnotationWithR rec pool
    pure (.annotationValue a)
  else if v == 91 /- '[' -/ then do
    let vs ← readTable2R fun i => rec.mapErr s!"array index {i}"
    pure (.arrayValue vs)
  else PT.fail s!"Unrecognized discriminant {Char.ofNat v.toNat}"

/-- `/repo/src/attributes.rs:647-694` `fn read_annotation_element_value`; `rec` is the recursive call. -/
def readElementValueWithR (rec : PT AnnotationElementValue) (pool : Pool) : PT AnnotationElementValue := do
  let v ← PT.plain readU1
  readElementValueBodyR rec pool v

/-- `/repo/src/attributes.rs:647-694` `fn read_annotation_element_value` with a recursion budget. -/
def readAnnotationElementValueR (pool : Pool) : Nat → PT AnnotationElementValue
  | 0 => PT.diverge
  | depth + 1 => readElementValueWithR (readAnnotationElementValueR pool depth) pool

/-- `/repo/src/attributes.rs:696-716` `fn read_annotation` with a recursion budget. -/
def readAnnotationR (pool : Pool) (depth : Nat) : PT Annotation :=
  readAnnotationWithR (readAnnotationElementValueR pool depth) pool

/-- `/repo/src/attributes.rs:718-730` `fn read_annotation_data`. -/
def readAnnotationDataR (pool : Pool) (depth : Nat) : PT (List Annotation) :=
  readTable2R fun i => (readAnnotationR pool depth).mapErr s!"annotation {i}"

/-- One parameter of `/repo/src/attributes.rs:732-751` `fn read_parameter_annotation_data`. -/
def readParameterAnnotationR (pool : Pool) (depth : Nat) (i : Nat) : PT ParameterAnnotation := do
  let annotations ← readTable2R fun j => (readAnnotationR pool depth).mapErr s!"annotation {j} of parameter {i}"
  pure { annotations := annotations }

/-- `/repo/src/attributes.rs:732-751` `fn read_parameter_annotation_data`. -/
def readParameterAnnotationDataR (pool : Pool) (depth : Nat) : PT (List ParameterAnnotation) :=
  readTable1R (readParameterAnnotationR pool depth)

/-- The first `match` of `/repo/src/attributes.rs:753-837` `fn read_type_annotation_data` on the target type byte `v` of annotation `i`. -/
def readTypeAnnotationTargetR (i : Nat) (v : UInt8) : PT TypeAnnotationTarget :=
  if v == 0x00 || v == 0x01 then do
    let index ← PT.plain readU1
    pure (.typeParameter index)
  else if v == 0x10 then do
    let index ← PT.plain readU2
    pure (.supertype index)
  else if v == 0x11 || v == 0x12 then do
    let typeParameterIndex ← PT.plain readU1
    let boundIndex ← PT.plain readU1
    pure (.typeParameterBound typeParameterIndex boundIndex)
  else if 0x13 ≤ v.toNat && v.toNat ≤ 0x15 then pure .empty
  else if v == 0x16 then do
    let index ← PT.plain readU1
    pure (.formalParameter index)
  else if v == 0x17 then do
    let index ← PT.plain readU2
    pure (.throws index)
  else if v == 0x40 || v == 0x41 then do
    let localvars ← readTable2R fun _ => PT.plain readLocalVarTarget
    pure (.localVar localvars)
  else if v == 0x42 then do
    let exceptionTableIndex ← PT.plain readU2
    pure (.catch_ exceptionTableIndex)
  else if 0x43 ≤ v.toNat && v.toNat ≤ 0x46 then do
    let offset ← PT.plain readU2
    pure (.offset offset)
  else if 0x47 ≤ v.toNat && v.toNat ≤ 0x4B then do
    let offset ← PT.plain readU2
    let typeArgumentIndex ← PT.plain readU1
    pure (.typeArgument offset typeArgumentIndex)
  else PT.plain <| P.failCtx s!"Unrecognized target type {v}" s!"type annotation {i}"

/-- One annotation of `/repo/src/attributes.rs:753-837` `fn read_type_annotation_data`. -/
def readTypeAnnotationR (pool : Pool) (depth : Nat) (i : Nat) : PT TypeAnnotation := do
  let v ← PT.plain readU1
  let targetType ← readTypeAnnotationTargetR i v
  let targetPath ← readTable1R fun j => PT.plain (readTargetPathEntry i j)
  let annotation ← (readAnnotationR pool depth).mapErr s!"type annotation {i}"
  pure { targetType := targetType, targetPath := targetPath, annotation := annotation }

/-- `/repo/src/attributes.rs:753-837` `fn read_type_annotation_data`. -/
def readTypeAnnotationDataR (pool : Pool) (depth : Nat) : PT (List TypeAnnotation) :=
  readTable2R (readTypeAnnotationR pool depth)

/-- One entry of `/repo/src/attributes.rs:839-859` `fn read_bootstrapmethods_data`. -/
def readBootstrapMethodEntryR (pool : Pool) (i : Nat) : PT BootstrapMethodEntry := do
  let method ← (PT.plain (readCpMethodhandle pool)).mapErr s!"method ref of bootstrap method {i}"
  let arguments ← readTable2R fun j => (PT.plain (readCpBootstrapArgument pool)).mapErr s!"argument {j} of bootstrap method {i}"
  pure { method := method, arguments := arguments }

/-- `/repo/src/attributes.rs:839-859` `fn read_bootstrapmethods_data`. -/
def readBootstrapmethodsDataR (pool : Pool) : PT (List BootstrapMethodEntry) := readTable2R (readBootstrapMethodEntryR pool)

/-- `/repo/src/attributes.rs:861-879` `fn read_methodparameters_data`. -/
def readMethodparametersDataR (pool : Pool) : PT (List MethodParameterEntry) := readTable1R fun i => PT.plain (readMethodParameterEntry pool i)

/-- One `exports` entry of `/repo/src/attributes.rs:881-980` `fn read_module_data`. -/
def readModuleExportsR (pool : Pool) (i : Nat) : PT ModuleExportsEntry := do
  let packageName ← (PT.plain (readCpPackageinfo pool)).mapErr s!"package name of exports entry {i}"
  let bits ← PT.plain readU2
  let flags ← (PT.okOr (fromBits moduleExportsMask bits) "Invalid module exports flags").mapErr s!"entry {i}"
  let exportsTo ← readTable2R fun j =>
    (PT.plain (readCpModuleinfo pool)).mapErr s!"name of exports_to entry {j} of exports entry {i}"
  pure { packageName := packageName, flags := flags, exportsTo := exportsTo }

/-- One `opens` entry of `/repo/src/attributes.rs:881-980` `fn read_module_data`. -/
def readModuleOpensR (pool : Pool) (i : Nat) : PT ModuleOpensEntry := do
  let packageName ← (PT.plain (readCpPackageinfo pool)).mapErr s!"package name of opens entry {i}"
  let bits ← PT.plain readU2
  let flags ← (PT.okOr (fromBits moduleOpensMask bits) "Invalid module opens flags").mapErr s!"entry {i}"
  let opensTo ← readTable2R fun j => (PT.plain (readCpModuleinfo pool)).mapErr s!"name of opens_to entry {j} of opens entry {i}"
  pure { packageName := packageName, flags := flags, opensTo := opensTo }

/-- One `provides` entry of `/repo/src/attributes.rs:881-980` `fn read_module_data`. -/
def readModuleProvidesR (pool : Pool) (i : Nat) : PT ModuleProvidesEntry := do
  let serviceInterfaceName ← (PT.plain (readCpClassinfo pool)).mapErr s!"service interface name of provides entry {i}"
  let providesWith ← readTable2R fun j =>
    (PT.plain (readCpClassinfo pool)).mapErr s!"provides_with entry {j} of provides entry {i}"
  pure { serviceInterfaceName := serviceInterfaceName, providesWith := providesWith }

/-- `/repo/src/attributes.rs:881-980` `fn read_module_data`. -/
def readModuleDataR (pool : Pool) : PT ModuleData := do
  let name ← (PT.plain (readCpModuleinfo pool)).mapErr "name"
  let bits ← PT.plain readU2
  let accessFlags ← PT.okOr (fromBits moduleMask bits) "Invalid access flags found"
  let version ← (PT.plain (readCpUtf8Opt pool)).mapErr "version"
  let requires ← readTable2R fun i => PT.plain (readModuleRequire pool i)
  let exports ← readTable2R (readModuleExportsR pool)
  let opens ← readTable2R (readModuleOpensR pool)
  let uses ← readTable2R fun i => (PT.plain (readCpClassinfo pool)).mapErr s!"name of uses entry {i}"
  let provides ← readTable2R (readModuleProvidesR pool)
  pure { name := name, accessFlags := accessFlags, version := version, requires := requires, exports := exports,
         opens := opens, uses := uses, provides := provides }

/-- `/repo/src/attributes.rs:982-994` `fn read_modulepackages_data`. -/
def readModulepackagesDataR (pool : Pool) : PT (List Str) :=
  readTable2R fun i => (PT.plain (readCpPackageinfo pool)).mapErr s!"package name {i}"

/-- `/repo/src/attributes.rs:996-1007` `fn read_nestmembers_data`. -/
def readNestmembersDataR (pool : Pool) : PT (List Str) :=
  readTable2R fun i => (PT.plain (readCpClassinfo pool)).mapErr s!"class name {i}"

/-- `/repo/src/attributes.rs:1009-1022` `fn read_permitted_subclasses_data`. -/
def readPermittedSubclassesDataR (pool : Pool) : PT (List Str) :=
  readTable2R fun i => (PT.plain (readCpClassinfo pool)).mapErr s!"permitted subclass {i}"

/-- One component of `/repo/src/attributes.rs:1024-1049` `fn read_record_data`; `rec` is the call to `read_attributes`. -/
def readRecordComponentWithR (rec : PT (List AttributeInfo)) (pool : Pool) (i : Nat) : PT RecordComponentEntry := do
  let name ← (PT.plain (readCpUtf8 pool)).mapErr s!"name of entry {i}"
  PT.failIf (!isUnqualifiedName name) s!"Invalid unqualified name for entry {i}"
  let descriptor ← (PT.plain (readFieldDescriptor pool)).mapErr s!"descriptor of entry {i}"
  let attributes ← rec.mapErr s!"entry {i}"
  pure { name := name, descriptor := descriptor, attributes := attributes }

/-- `/repo/src/attributes.rs:1024-1049` `fn read_record_data`; `rec` is the call to `read_attributes`. -/
def readRecordDataWithR (rec : PT (List AttributeInfo)) (pool : Pool) : PT (List RecordComponentEntry) :=
  readTable2R (readRecordComponentWithR rec pool)

/-- The right-hand side of each arm of the `match name.deref()` of `/repo/src/attributes.rs:1051-1248` `fn read_attributes`, for attribute `i` of declared length
`length`; `rec` is the recursive call to `read_attributes` and `depth` the budget for annotations. The arms that read no table are those of
`readAttributeData`. -/
def readAttributeDataR (env : Env) (depth : Nat) (rec : PT (List AttributeInfo)) (pool : Pool) (i length : Nat) :
    AttrKind → PT AttributeData
  | .code => do
    let d ← (readCodeDataWithR env rec pool).mapErr s!"Code attribute {i}"
    pure (.code d)
  | .stackMapTable => do
    let d ← (readStackmaptableDataR pool).mapErr s!"StackMapTable attribute {i}"
    pure (.stackMapTable d)
  | .exceptions => do
    let d ← (readExceptionsDataR pool).mapErr s!"Exceptions attribute {i}"
    pure (.exceptions d)
  | .innerClasses => do
    let d ← (readInnerclassesDataR pool).mapErr s!"InnerClasses attribute {i}"
    pure (.innerClasses d)
  | .lineNumberTable => do
    let d ← readLinenumberDataR.mapErr s!"LineNumberTable attribute {i}"
    pure (.lineNumberTable d)
  | .localVariableTable => do
    let d ← (readLocalvariableDataR pool).mapErr s!"LocalVariableTable attribute {i}"
    pure (.localVariableTable d)
  | .localVariableTypeTable => do
    let d ← (readLocalvariabletypeDataR pool).mapErr s!"LocalVariableTypeTable attribute {i}"
    pure (.localVariableTypeTable d)
  | .runtimeVisibleAnnotations => do
    let d ← (readAnnotationDataR pool depth).mapErr s!"RuntimeVisibleAnnotations attribute {i}"
    pure (.runtimeVisibleAnnotations d)
  | .runtimeInvisibleAnnotations => do
    let d ← (readAnnotationDataR pool depth).mapErr s!"RuntimeInvisibleAnnotations attribute {i}"
    pure (.runtimeInvisibleAnnotations d)
  | .runtimeVisibleParameterAnnotations => do
    let d ← (readParameterAnnotationDataR pool depth).mapErr s!"RuntimeVisibleParameterAnnotations attribute {i}"
    pure (.runtimeVisibleParameterAnnotations d)
  | .runtimeInvisibleParameterAnnotations => do
    let d ← (readParameterAnnotationDataR pool depth).mapErr s!"RuntimeInvisibleParameterAnnotations attribute {i}"
    pure (.runtimeInvisibleParameterAnnotations d)
  | .runtimeVisibleTypeAnnotations => do
    let d ← (readTypeAnnotationDataR pool depth).mapErr s!"RuntimeVisibleTypeAnnotations attribute {i}"
    pure (.runtimeVisibleTypeAnnotations d)
  | .runtimeInvisibleTypeAnnotations => do
    let d ← (readTypeAnnotationDataR pool depth).mapErr s!"RuntimeInvisibleTypeAnnotations attribute {i}"
    pure (.runtimeInvisibleTypeAnnotations d)
  | .annotationDefault => do
    let v ← (readAnnotationElementValueR pool depth).mapErr s!"AnnotationDefault attribute {i}"
    pure (.annotationDefault v)
  | .bootstrapMethods => do
    let d ← (readBootstrapmethodsDataR pool).mapErr s!"BootstrapMethods attribute {i}"
    pure (.bootstrapMethods d)
  | .methodParameters => do
    let d ← (readMethodparametersDataR pool).mapErr s!"MethodParameters attribute {i}"
    pure (.methodParameters d)
  | .moduleAttr => do
    let d ← (readModuleDataR pool).mapErr s!"Module attribute {i}"
    pure (.moduleAttr d)
  | .modulePackages => do
    let d ← (readModulepackagesDataR pool).mapErr s!"ModulePackages attribute {i}"
    pure (.modulePackages d)
  | .nestMembers => do
    let d ← (readNestmembersDataR pool).mapErr s!"NestMembers attribute {i}"
    pure (.nestMembers d)
  | .permittedSubclasses => do
    let d ← (readPermittedSubclassesDataR pool).mapErr s!"PermittedSubclasses attribute {i}"
    pure (.permittedSubclasses d)
  | .record => do
    let d ← (readRecordDataWithR rec pool).mapErr s!"Record attribute {i}"
    pure (.record d)
  | .constantValue => PT.plain (readAttributeData env depth P.diverge pool i length .constantValue)
  | .enclosingMethod => PT.plain (readAttributeData env depth P.diverge pool i length .enclosingMethod)
  | .synthetic => PT.plain (readAttributeData env depth P.diverge pool i length .synthetic)
  | .signature => PT.plain (readAttributeData env depth P.diverge pool i length .signature)
  | .sourceFile => PT.plain (readAttributeData env depth P.diverge pool i length .sourceFile)
  | .sourceDebugExtension => PT.plain (readAttributeData env depth P.diverge pool i length .sourceDebugExtension)
  | .deprecated => PT.plain (readAttributeData env depth P.diverge pool i length .deprecated)
  | .moduleMainClass => PT.plain (readAttributeData env depth P.diverge pool i length .moduleMainClass)
  | .nestHost => PT.plain (readAttributeData env depth P.diverge pool i length .nestHost)
  | .other => PT.plain (readAttributeData env depth P.diverge pool i length .other)

/-- One iteration of the loop of `/repo/src/attributes.rs:1051-1248` `fn read_attributes`. -/
def readAttributeWithR (env : Env) (depth : Nat) (rec : PT (List AttributeInfo)) (pool : Pool) (i : Nat) :
    PT AttributeInfo := do
  let name ← (PT.plain (readCpUtf8 pool)).mapErr s!"name field of attribute {i}"
  let length ← PT.plain readU4
  let expectedEndIx ← PT.plain (checkEnd length.toNat)
  let data ← readAttributeDataR env depth rec pool i length.toNat (attrKindOf name)
  let ix ← PT.getIx
  if expectedEndIx ≠ ix then PT.fail s!"Length mismatch when reading attribute {i}"
  else pure { name := name, data := data }

/-- `/repo/src/attributes.rs:1051-1248` `fn read_attributes` with a recursion budget. -/
def readAttributesR (env : Env) (pool : Pool) : Nat → PT (List AttributeInfo)
  | 0 => PT.diverge
  | depth + 1 => readTable2R (readAttributeWithR env depth (readAttributesR env pool depth) pool)

/-! ## Class files -/

/-- `/repo/src/lib.rs:94-109` `read_interfaces`. -/
def readInterfacesR (pool : Pool) : PT (List ClassName) :=
  readTable2R fun i => (PT.plain (readClassName pool)).mapErr s!"interface {i}"

/-- One iteration of `/repo/src/lib.rs:161-198` `read_fields`; `seen` is the `HashSet` `unique_ids`. -/
def readFieldR (env : Env) (pool : Pool) (seen : List (Str × FieldDescriptor)) (i : Nat) : PT FieldInfo := do
  let bits ← PT.plain readU2
  let name ← (PT.plain (readCpUtf8 pool)).mapErr s!"name of class field {i}"
  PT.failIf (!isUnqualifiedName name) s!"Invalid unqualified name for class field {i}"
  let d ← (PT.plain (readCpUtf8 pool)).mapErr s!"descriptor of class field {i}"
  let descriptor ← PT.plain (P.lift (parseFieldDescriptor d 0))
  PT.failIf (seen.contains (name, descriptor)) s!"Class field {i} is duplicate of previously-encountered field"
  let attributes ← (readAttributesR env pool env.depth).mapErr s!"class field {i}"
  pure { accessFlags := fromBitsTruncate fieldMask bits, name := name, descriptor := descriptor, attributes := attributes }

/-- The loop of `/repo/src/lib.rs:161-198` `read_fields` from field `i`, `n` to go. -/
def readFieldsFromR (env : Env) (pool : Pool) : List (Str × FieldDescriptor) → Nat → Nat → PT (List FieldInfo)
  | _, _, 0 => pure []
  | seen, i, n + 1 => do
    let f ← readFieldR env pool seen i
    let fs ← readFieldsFromR env pool ((f.name, f.descriptor) :: seen) (i + 1) n
    pure (f :: fs)

/-- `/repo/src/lib.rs:161-198` `read_fields`. -/
def readFieldsR (env : Env) (pool : Pool) : PT (List FieldInfo) := do
  let count ← PT.plain readU2
  PT.tick count.toNat
  readFieldsFromR env pool [] 0 count.toNat

/-- One iteration of `/repo/src/lib.rs:225-276` `read_methods`; `seen` is the `HashSet` `unique_ids`. -/
def readMethodR (env : Env) (pool : Pool) (inInterface : Bool) (majorVersion : UInt16)
    (seen : List (Str × MethodDescriptor)) (i : Nat) : PT MethodInfo := do
  let bits ← PT.plain readU2
  let name ← (PT.plain (readCpUtf8 pool)).mapErr s!"name of class method {i}"
  let allowInit := !inInterface
  PT.failIf (!isUnqualifiedMethodName name allowInit true) s!"Invalid unqualified name for class method {i}"
  let descriptor ← (PT.plain (readMethodDescriptor pool)).mapErr s!"descriptor of class method {i}"
  PT.failIf (allowInit && name == "<init>".toList && descriptor.returnType != .void)
    s!"Non-void method descriptor for init method {i}"
  PT.failIf (name == "<clinit>".toList && descriptor.returnType != .void)
    s!"Non-void method descriptor for clinit method {i}"
  PT.failIf (name == "<clinit>".toList && (majorVersion ≥ 51 && !descriptor.parameters.isEmpty))
    s!"Arguments found in descriptor for clinit method {i}"
  PT.failIf (seen.contains (name, descriptor)) s!"Class method {i} is duplicate of previously-encountered method"
  let attributes ← (readAttributesR env pool env.depth).mapErr s!"class method {i}"
  pure { accessFlags := fromBitsTruncate methodMask bits, name := name, descriptor := descriptor, attributes := attributes }

/-- The loop of `/repo/src/lib.rs:225-276` `read_methods` from method `i`, `n` to go. -/
def readMethodsFromR (env : Env) (pool : Pool) (inInterface : Bool) (majorVersion : UInt16) :
    List (Str × MethodDescriptor) → Nat → Nat → PT (List MethodInfo)
  | _, _, 0 => pure []
  | seen, i, n + 1 => do
    let m ← readMethodR env pool inInterface majorVersion seen i
    let ms ← readMethodsFromR env pool inInterface majorVersion ((m.name, m.descriptor) :: seen) (i + 1) n
    pure (m :: ms)

/-- `/repo/src/lib.rs:225-276` `read_methods`. -/
def readMethodsR (env : Env) (pool : Pool) (inInterface : Bool) (majorVersion : UInt16) : PT (List MethodInfo) := do
  let count ← PT.plain readU2
  PT.tick count.toNat
  readMethodsFromR env pool inInterface majorVersion [] 0 count.toNat

/-- The body of `/repo/src/lib.rs:373-460` `parse_class_with_options` as a reader started at index 0. -/
def readClassFileR (env : Env) : PT ClassFile := do
  let magic ← PT.plain readU4
  PT.failIf (magic != 0xCAFEBABE) "Unexpected magic header"
  let minorVersion ← PT.plain readU2
  let majorVersion ← PT.plain readU2
  let constantPool ← readConstantPoolR env majorVersion
  let bits ← PT.plain readU2
  let accessFlags := fromBitsTruncate classMask bits
  PT.plain <| checkModuleFlags accessFlags majorVersion
  let thisClass ← (PT.plain (readClassName constantPool)).mapErr "this_class"
  let superClass ← (PT.plain (readClassNameOpt constantPool)).mapErr "super_class"
  let interfaces ← readInterfacesR constantPool
  let fields ← readFieldsR env constantPool
  let methods ← readMethodsR env constantPool (flagsContains16 accessFlags AccessFlags.INTERFACE) majorVersion
  let attributes ← (readAttributesR env constantPool env.depth).mapErr "class"
  PT.plain checkAtEnd
  PT.plain <| checkModuleEmpty accessFlags superClass interfaces fields methods
  PT.plain (P.lift (validateBootstrapMethods constantPool attributes))
  pure { majorVersion := majorVersion, minorVersion := minorVersion, constantPool := constantPool,
         accessFlags := accessFlags, thisClass := thisClass, superClass := superClass, interfaces := interfaces,
         fields := fields, methods := methods, attributes := attributes }

/-- `/repo/src/lib.rs:373-460` `parse_class_with_options`; the options are in `env`. -/
def parseClassWithOptionsR (env : Env) (rawBytes : Bytes) : Timed ClassFile := do
  let (cf, _) ← readClassFileR env rawBytes 0
  Timed.free (.ok cf)

end Cafebabe
