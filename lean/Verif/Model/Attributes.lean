import Verif.Model.Bytecode
/-!
# Model: attributes (`/repo/src/attributes.rs`)

Recursion (`read_attributes` through `read_code_data`/`read_record_data`, `read_annotation_element_value` through itself and
`read_annotation`) is cut open: the `..With` functions take the recursive call as an argument and the outermost function ties the knot
with a recursion budget.
-/

namespace Cafebabe

/-! ## Access flags (`bitflags!`): the union of the declared bits -/

namespace AccessFlags
/-! `/repo/src/lib.rs:112-136` `AccessFlags`. -/
/-- `PUBLIC` -/ def PUBLIC : UInt16 := 0x0001
/-- `PRIVATE` -/ def PRIVATE : UInt16 := 0x0002
/-- `PROTECTED` -/ def PROTECTED : UInt16 := 0x0004
/-- `STATIC` -/ def STATIC : UInt16 := 0x0008
/-- `FINAL` -/ def FINAL : UInt16 := 0x0010
/-- `SUPER` -/ def SUPER : UInt16 := 0x0020
/-- `SYNCHRONIZED` -/ def SYNCHRONIZED : UInt16 := 0x0020
/-- `OPEN` -/ def OPEN : UInt16 := 0x0020
/-- `TRANSITIVE` -/ def TRANSITIVE : UInt16 := 0x0020
/-- `VOLATILE` -/ def VOLATILE : UInt16 := 0x0040
/-- `BRIDGE` -/ def BRIDGE : UInt16 := 0x0040
/-- `STATIC_PHASE` -/ def STATIC_PHASE : UInt16 := 0x0040
/-- `TRANSIENT` -/ def TRANSIENT : UInt16 := 0x0080
/-- `VARARGS` -/ def VARARGS : UInt16 := 0x0080
/-- `NATIVE` -/ def NATIVE : UInt16 := 0x0100
/-- `INTERFACE` -/ def INTERFACE : UInt16 := 0x0200
/-- `ABSTRACT` -/ def ABSTRACT : UInt16 := 0x0400
/-- `STRICT` -/ def STRICT : UInt16 := 0x0800
/-- `SYNTHETIC` -/ def SYNTHETIC : UInt16 := 0x1000
/-- `ANNOTATION` -/ def ANNOTATION : UInt16 := 0x2000
/-- `ENUM` -/ def ENUM : UInt16 := 0x4000
/-- `MANDATED` -/ def MANDATED : UInt16 := 0x8000
/-- `MODULE` -/ def MODULE : UInt16 := 0x8000
end AccessFlags

open AccessFlags in
/-- `/repo/src/attributes.rs:73-86` `InnerClassAccessFlags::all()`. -/
def innerClassMask : UInt16 :=
  PUBLIC ||| PRIVATE ||| PROTECTED ||| STATIC ||| FINAL ||| INTERFACE ||| ABSTRACT ||| SYNTHETIC ||| ANNOTATION ||| ENUM

open AccessFlags in
/-- `/repo/src/attributes.rs:225-231` `MethodParameterAccessFlags::all()`. -/
def methodParameterMask : UInt16 := FINAL ||| SYNTHETIC ||| MANDATED

open AccessFlags in
/-- `/repo/src/attributes.rs:239-245` `ModuleAccessFlags::all()`. -/
def moduleMask : UInt16 := OPEN ||| SYNTHETIC ||| MANDATED

open AccessFlags in
/-- `/repo/src/attributes.rs:247-254` `ModuleRequiresFlags::all()`. -/
def moduleRequiresMask : UInt16 := TRANSITIVE ||| STATIC_PHASE ||| SYNTHETIC ||| MANDATED

open AccessFlags in
/-- `/repo/src/attributes.rs:263-268` `ModuleExportsFlags::all()`. -/
def moduleExportsMask : UInt16 := SYNTHETIC ||| MANDATED

open AccessFlags in
/-- `/repo/src/attributes.rs:277-282` `ModuleOpensFlags::all()`. -/
def moduleOpensMask : UInt16 := SYNTHETIC ||| MANDATED

/-- bitflags `from_bits_truncate`: drop the bits outside the declared ones. -/
def fromBitsTruncate (mask bits : UInt16) : UInt16 := bits &&& mask

/-- bitflags `from_bits`: `None` when a bit outside the declared ones is set. -/
def fromBits (mask bits : UInt16) : Option UInt16 := if bits &&& ~~~mask == 0 then some bits else none

/-! ## Data types -/

/-- `/repo/src/attributes.rs:19-24` `struct ExceptionTableEntry`. -/
structure ExceptionTableEntry where
  startPc : UInt16
  endPc : UInt16
  handlerPc : UInt16
  catchType : Option Str

/-- `/repo/src/attributes.rs:37-47` `enum VerificationType`. -/
inductive VerificationType where
  | top | integer | float | long | double | null | uninitializedThis
  | uninitialized (codeOffset : UInt16)
  | object (className : Str)

/-- `/repo/src/attributes.rs:50-71` `enum StackMapEntry`. -/
inductive StackMapEntry where
  | same (offsetDelta : UInt16)
  | sameLocals1StackItem (offsetDelta : UInt16) (stack : VerificationType)
  | chop (offsetDelta : UInt16) (chopCount : UInt16)
  | append (offsetDelta : UInt16) (locals : List VerificationType)
  | fullFrame (offsetDelta : UInt16) (locals stack : List VerificationType)

/-- `/repo/src/attributes.rs:89-94` `struct InnerClassEntry`. -/
structure InnerClassEntry where
  innerClassInfo : Str
  outerClassInfo : Option Str
  innerName : Option Str
  accessFlags : UInt16

/-- `/repo/src/attributes.rs:97-100` `struct LineNumberEntry`. -/
structure LineNumberEntry where
  startPc : UInt16
  lineNumber : UInt16

/-- `/repo/src/attributes.rs:103-109` `struct LocalVariableEntry`. -/
structure LocalVariableEntry where
  startPc : UInt16
  length : UInt16
  name : Str
  descriptor : FieldDescriptor
  index : UInt16

/-- `/repo/src/attributes.rs:112-118` `struct LocalVariableTypeEntry`. -/
structure LocalVariableTypeEntry where
  startPc : UInt16
  length : UInt16
  name : Str
  signature : Str
  index : UInt16

mutual
/-- `/repo/src/attributes.rs:121-140` `enum AnnotationElementValue`. Floats are their bit patterns. -/
inductive AnnotationElementValue where
  | byteConstant (v : Int32)
  | charConstant (v : Int32)
  | doubleConstant (bits : UInt64)
  | floatConstant (bits : UInt32)
  | intConstant (v : Int32)
  | longConstant (v : Int64)
  | shortConstant (v : Int32)
  | booleanConstant (v : Int32)
  | stringConstant (s : Str)
  | enumConstant (typeName : FieldDescriptor) (constName : Str)
  | classLiteral (className : Str)
  | annotationValue (a : Annotation)
  | arrayValue (vs : List AnnotationElementValue)

/-- `/repo/src/attributes.rs:143-146` `struct AnnotationElement`. -/
structure AnnotationElement where
  name : Str
  value : AnnotationElementValue

/-- `/repo/src/attributes.rs:149-152` `struct Annotation`. -/
structure Annotation where
  typeDescriptor : FieldDescriptor
  elements : List AnnotationElement
end

/-- `/repo/src/attributes.rs:155-157` `struct ParameterAnnotation`. -/
structure ParameterAnnotation where
  annotations : List Annotation

/-- `/repo/src/attributes.rs:160-164` `struct TypeAnnotationLocalVarTargetEntry`. -/
structure TypeAnnotationLocalVarTargetEntry where
  startPc : UInt16
  length : UInt16
  index : UInt16

/-- `/repo/src/attributes.rs:167-196` `enum TypeAnnotationTarget`. -/
inductive TypeAnnotationTarget where
  | typeParameter (index : UInt8)
  | supertype (index : UInt16)
  | typeParameterBound (typeParameterIndex boundIndex : UInt8)
  | empty
  | formalParameter (index : UInt8)
  | throws (index : UInt16)
  | localVar (vars : List TypeAnnotationLocalVarTargetEntry)
  | catch_ (exceptionTableIndex : UInt16)
  | offset (offset : UInt16)
  | typeArgument (offset : UInt16) (typeArgumentIndex : UInt8)

/-- `/repo/src/attributes.rs:199-204` `enum TypeAnnotationTargetPathKind`. -/
inductive TypeAnnotationTargetPathKind where
  | deeperArray | deeperNested | wildcardTypeArgument | typeArgument

/-- `/repo/src/attributes.rs:207-210` `struct TypeAnnotationTargetPathEntry`. -/
structure TypeAnnotationTargetPathEntry where
  pathKind : TypeAnnotationTargetPathKind
  argumentIndex : UInt8

/-- `/repo/src/attributes.rs:213-217` `struct TypeAnnotation`. -/
structure TypeAnnotation where
  targetType : TypeAnnotationTarget
  targetPath : List TypeAnnotationTargetPathEntry
  annotation : Annotation

/-- `/repo/src/attributes.rs:220-223` `struct BootstrapMethodEntry`. -/
structure BootstrapMethodEntry where
  method : MethodHandle
  arguments : List BootstrapArgument

/-- `/repo/src/attributes.rs:234-237` `struct MethodParameterEntry`. -/
structure MethodParameterEntry where
  name : Option Str
  accessFlags : UInt16

/-- `/repo/src/attributes.rs:257-261` `struct ModuleRequireEntry`. -/
structure ModuleRequireEntry where
  name : Str
  flags : UInt16
  version : Option Str

/-- `/repo/src/attributes.rs:271-275` `struct ModuleExportsEntry`. -/
structure ModuleExportsEntry where
  packageName : Str
  flags : UInt16
  exportsTo : List Str

/-- `/repo/src/attributes.rs:285-289` `struct ModuleOpensEntry`. -/
structure ModuleOpensEntry where
  packageName : Str
  flags : UInt16
  opensTo : List Str

/-- `/repo/src/attributes.rs:292-295` `struct ModuleProvidesEntry`. -/
structure ModuleProvidesEntry where
  serviceInterfaceName : Str
  providesWith : List Str

/-- `/repo/src/attributes.rs:298-307` `struct ModuleData`. -/
structure ModuleData where
  name : Str
  accessFlags : UInt16
  version : Option Str
  requires : List ModuleRequireEntry
  exports : List ModuleExportsEntry
  opens : List ModuleOpensEntry
  uses : List Str
  provides : List ModuleProvidesEntry

mutual
/-- `/repo/src/attributes.rs:27-34` `struct CodeData`. -/
structure CodeData where
  maxStack : UInt16
  maxLocals : UInt16
  code : Bytes
  bytecode : Option ByteCode
  exceptionTable : List ExceptionTableEntry
  attributes : List AttributeInfo

/-- `/repo/src/attributes.rs:310-314` `struct RecordComponentEntry`. -/
structure RecordComponentEntry where
  name : Str
  descriptor : FieldDescriptor
  attributes : List AttributeInfo

/-- `/repo/src/attributes.rs:317-352` `enum AttributeData`. -/
inductive AttributeData where
  | constantValue (c : LiteralConstant)
  | code (c : CodeData)
  | stackMapTable (t : List StackMapEntry)
  | exceptions (l : List Str)
  | innerClasses (l : List InnerClassEntry)
  | enclosingMethod (className : Str) (method : Option NameAndType)
  | synthetic
  | signature (s : Str)
  | sourceFile (s : Str)
  | sourceDebugExtension (s : Str)
  | lineNumberTable (l : List LineNumberEntry)
  | localVariableTable (l : List LocalVariableEntry)
  | localVariableTypeTable (l : List LocalVariableTypeEntry)
  | deprecated
  | runtimeVisibleAnnotations (l : List Annotation)
  | runtimeInvisibleAnnotations (l : List Annotation)
  | runtimeVisibleParameterAnnotations (l : List ParameterAnnotation)
  | runtimeInvisibleParameterAnnotations (l : List ParameterAnnotation)
  | runtimeVisibleTypeAnnotations (l : List TypeAnnotation)
  | runtimeInvisibleTypeAnnotations (l : List TypeAnnotation)
  | annotationDefault (v : AnnotationElementValue)
  | bootstrapMethods (l : List BootstrapMethodEntry)
  | methodParameters (l : List MethodParameterEntry)
  | moduleAttr (d : ModuleData)
  | modulePackages (l : List Str)
  | moduleMainClass (s : Str)
  | nestHost (s : Str)
  | nestMembers (l : List Str)
  | permittedSubclasses (l : List Str)
  | record (l : List RecordComponentEntry)
  | other (b : Bytes)

/-- `/repo/src/attributes.rs:355-358` `struct AttributeInfo`. -/
structure AttributeInfo where
  name : Str
  data : AttributeData
end

/-! ## Readers -/

/-- `fail!((msg), (context))`. -/
def P.failCtx {α : Type} (msg context : String) : P α := P.mapErr (P.fail msg) context

/-- `.ok_or_else(|| err!(msg))?`. -/
def P.okOr {α : Type} (o : Option α) (msg : String) : P α :=
  match o with
  | some a => pure a
  | none => P.fail msg

/-- `let count = read_u2(..)?; let mut v = Vec::with_capacity(count.into()); for i in 0..count { v.push(f(i)?) }`. -/
def readTable2 {α : Type} (f : Nat → P α) : P (List α) := do
  let count ← readU2
  P.forRange count.toNat f

/-- The same with a `read_u1` count. -/
def readTable1 {α : Type} (f : Nat → P α) : P (List α) := do
  let count ← readU1
  P.forRange count.toNat f

/-- `read_cp_utf8(..).and_then(|d| parse_field_descriptor(&d, 0))`. -/
def readFieldDescriptor (pool : Pool) : P FieldDescriptor := do
  let d ← readCpUtf8 pool
  P.lift (parseFieldDescriptor d 0)

/-- `/repo/src/attributes.rs:360-365` `fn ensure_length`. -/
def ensureLength (length expected : Nat) : P Unit :=
  if length ≠ expected then P.fail s!"Unexpected length {length}" else pure ()

/-- One row of the exception table, `/repo/src/attributes.rs:386-398`. -/
def readExceptionTableEntry (pool : Pool) (i : Nat) : P ExceptionTableEntry := do
  let startPc ← readU2
  let endPc ← readU2
  let handlerPc ← readU2
  let catchType ← (readCpClassinfoOpt pool).mapErr s!"catch type of exception table entry {i}"
  pure { startPc := startPc, endPc := endPc, handlerPc := handlerPc, catchType := catchType }

/-- `/repo/src/attributes.rs:367-414` `fn read_code_data`; `rec` is the call to `read_attributes`. -/
def readCodeDataWith (env : Env) (rec : P (List AttributeInfo)) (pool : Pool) : P CodeData := do
  let maxStack ← readU2
  let maxLocals ← readU2
  let codeLength ← readU4
  let ix ← P.getIx
  let code ← takeBytes codeLength.toNat s!"Unexpected end of stream reading code attribute at index {ix}"
  let exceptionTable ← readTable2 (readExceptionTableEntry pool)
  let codeAttributes ← rec.mapErr "code attribute"
  let bytecode ←
    if env.parseBytecode then do
      let b ← P.lift ((ByteCode.ofCode env.overflowChecks code pool).mapErr "bytecode")
      pure (some b)
    else pure none
  pure { maxStack := maxStack, maxLocals := maxLocals, code := code, bytecode := bytecode,
         exceptionTable := exceptionTable, attributes := codeAttributes }

/-- `/repo/src/attributes.rs:416-441` `fn read_stackmaptable_verification`. -/
def readStackmaptableVerification (pool : Pool) : P VerificationType := do
  let v ← readU1
  match v.toNat with
  | 0 => pure .top
  | 1 => pure .integer
  | 2 => pure .float
  | 3 => pure .double
  | 4 => pure .long
  | 5 => pure .null
  | 6 => pure .uninitializedThis
  | 7 => do
    let className ← (readCpClassinfo pool).mapErr "object verification type"
    pure (.object className)
  | 8 => do
    let codeOffset ← readU2
    pure (.uninitialized codeOffset)
  | _ => P.fail s!"Unrecognized verification type {v}"

/-- The `match` of `/repo/src/attributes.rs:443-534` `fn read_stackmaptable_data`: frame `i` after its `frame_type` byte `v`. -/
def readStackMapEntryBody (pool : Pool) (i : Nat) (v : UInt8) : P StackMapEntry :=
  if v.toNat ≤ 63 then pure (.same v.toUInt16)
  else if v.toNat ≤ 127 then do
    let stack ← (readStackmaptableVerification pool).mapErr s!"same_locals_1_stack_item_frame stack map entry {i}"
    pure (.sameLocals1StackItem (v - 64).toUInt16 stack)
  else if v.toNat ≤ 246 then P.failCtx s!"Unrecognized discriminant {v}" s!"stack map entry {i}"
  else if v.toNat = 247 then do
    let offsetDelta ← readU2
    let stack ← (readStackmaptableVerification pool).mapErr
      s!"same_locals_1_stack_item_frame_extended stack map entry {i}"
    pure (.sameLocals1StackItem offsetDelta stack)
  else if v.toNat ≤ 250 then do
    let offsetDelta ← readU2
    pure (.chop offsetDelta (251 - v).toUInt16)
  else if v.toNat = 251 then do
    let offsetDelta ← readU2
    pure (.same offsetDelta)
  else if v.toNat ≤ 254 then do
    let offsetDelta ← readU2
    let locals ← P.forRange (v - 251).toNat fun j =>
      (readStackmaptableVerification pool).mapErr s!"local entry {j} of append stack map entry {i}"
    pure (.append offsetDelta locals)
  else do
    let offsetDelta ← readU2
    let locals ← readTable2 fun j =>
      (readStackmaptableVerification pool).mapErr s!"local entry {j} of full-frame stack map entry {i}"
    let stack ← readTable2 fun j =>
      (readStackmaptableVerification pool).mapErr s!"stack entry {j} of full-frame stack map entry {i}"
    pure (.fullFrame offsetDelta locals stack)

/-- One iteration of `/repo/src/attributes.rs:443-534` `fn read_stackmaptable_data`. -/
def readStackMapEntry (pool : Pool) (i : Nat) : P StackMapEntry := do
  let v ← readU1
  readStackMapEntryBody pool i v

/-- `/repo/src/attributes.rs:443-534` `fn read_stackmaptable_data`. -/
def readStackmaptableData (pool : Pool) : P (List StackMapEntry) := readTable2 (readStackMapEntry pool)

/-- `/repo/src/attributes.rs:536-549` `fn read_exceptions_data`. -/
def readExceptionsData (pool : Pool) : P (List Str) :=
  readTable2 fun i => (readCpClassinfo pool).mapErr s!"exception {i}"

/-- One row of `/repo/src/attributes.rs:551-574` `fn read_innerclasses_data`. -/
def readInnerClassEntry (pool : Pool) (i : Nat) : P InnerClassEntry := do
  let innerClassInfo ← (readCpClassinfo pool).mapErr s!"inner class info for inner class {i}"
  let outerClassInfo ← (readCpClassinfoOpt pool).mapErr s!"outer class info for inner class {i}"
  let innerName ← (readCpUtf8Opt pool).mapErr s!"inner name for inner class {i}"
  let bits ← readU2
  pure { innerClassInfo := innerClassInfo, outerClassInfo := outerClassInfo, innerName := innerName,
         accessFlags := fromBitsTruncate innerClassMask bits }

/-- `/repo/src/attributes.rs:551-574` `fn read_innerclasses_data`. -/
def readInnerclassesData (pool : Pool) : P (List InnerClassEntry) := readTable2 (readInnerClassEntry pool)

/-- One row of `/repo/src/attributes.rs:576-588` `fn read_linenumber_data`. -/
def readLineNumberEntry : P LineNumberEntry := do
  let startPc ← readU2
  let lineNumber ← readU2
  pure { startPc := startPc, lineNumber := lineNumber }

/-- `/repo/src/attributes.rs:576-588` `fn read_linenumber_data`. -/
def readLinenumberData : P (List LineNumberEntry) := readTable2 fun _ => readLineNumberEntry

/-- One row of `/repo/src/attributes.rs:590-617` `fn read_localvariable_data`. -/
def readLocalVariableEntry (pool : Pool) (i : Nat) : P LocalVariableEntry := do
  let startPc ← readU2
  let length ← readU2
  let name ← (readCpUtf8 pool).mapErr s!"name for variable {i}"
  P.failIf (!isUnqualifiedName name) s!"Invalid unqualified name for variable {i}"
  let descriptor ← (readFieldDescriptor pool).mapErr s!"descriptor for variable {i}"
  let index ← readU2
  pure { startPc := startPc, length := length, name := name, descriptor := descriptor, index := index }

/-- `/repo/src/attributes.rs:590-617` `fn read_localvariable_data`. -/
def readLocalvariableData (pool : Pool) : P (List LocalVariableEntry) := readTable2 (readLocalVariableEntry pool)

/-- One row of `/repo/src/attributes.rs:619-645` `fn read_localvariabletype_data`. -/
def readLocalVariableTypeEntry (pool : Pool) (i : Nat) : P LocalVariableTypeEntry := do
  let startPc ← readU2
  let length ← readU2
  let name ← (readCpUtf8 pool).mapErr s!"name for variable {i}"
  P.failIf (!isUnqualifiedName name) s!"Invalid unqualified name for variable {i}"
  let signature ← (readCpUtf8 pool).mapErr s!"signature for variable {i}"
  let index ← readU2
  pure { startPc := startPc, length := length, name := name, signature := signature, index := index }

/-- `/repo/src/attributes.rs:619-645` `fn read_localvariabletype_data`. -/
def readLocalvariabletypeData (pool : Pool) : P (List LocalVariableTypeEntry) :=
  readTable2 (readLocalVariableTypeEntry pool)

/-! ### Annotations -/

/-- One element of `/repo/src/attributes.rs:696-716` `fn read_annotation`; `rec` is the call to `read_annotation_element_value`. -/
def readAnnotationElementWith (rec : P AnnotationElementValue) (pool : Pool) (i : Nat) : P AnnotationElement := do
  let name ← (readCpUtf8 pool).mapErr s!"name of element {i}"
  let value ← rec.mapErr s!"value of element {i}"
  pure { name := name, value := value }

/-- `/repo/src/attributes.rs:696-716` `fn read_annotation`; `rec` is the call to `read_annotation_element_value`. -/
def readAnnotationWith (rec : P AnnotationElementValue) (pool : Pool) : P Annotation := do
  let typeDescriptor ← (readFieldDescriptor pool).mapErr "type descriptor field"
  let elements ← readTable2 (readAnnotationElementWith rec pool)
  pure { typeDescriptor := typeDescriptor, elements := elements }

/-- The `match` of `/repo/src/attributes.rs:647-694` `fn read_annotation_element_value` on the tag byte `v`; `rec` is the recursive call. -/
def readElementValueBody (rec : P AnnotationElementValue) (pool : Pool) (v : UInt8) : P AnnotationElementValue :=
  if v == 66 /- 'B' -/ then do
    let x ← readCpInteger pool
    pure (.byteConstant x)
  else if v == 67 /- 'C' -/ then do
    let x ← readCpInteger pool
    pure (.charConstant x)
  else if v == 68 /- 'D' -/ then do
    let x ← readCpDouble pool
    pure (.doubleConstant x)
  else if v == 70 /- 'F' -/ then do
    let x ← readCpFloat pool
    pure (.floatConstant x)
  else if v == 73 /- 'I' -/ then do
    let x ← readCpInteger pool
    pure (.intConstant x)
  else if v == 74 /- 'J' -/ then do
    let x ← readCpLong pool
    pure (.longConstant x)
  else if v == 83 /- 'S' -/ then do
    let x ← readCpInteger pool
    pure (.shortConstant x)
  else if v == 90 /- 'Z' -/ then do
    let x ← readCpInteger pool
    pure (.booleanConstant x)
  else if v == 115 /- 's' -/ then do
    let x ← readCpUtf8 pool
    pure (.stringConstant x)
  else if v == 101 /- 'e' -/ then do
    let typeName ← (readFieldDescriptor pool).mapErr "annotation element value enum descriptor"
    let constName ← readCpUtf8 pool
    pure (.enumConstant typeName constName)
  else if v == 99 /- 'c' -/ then do
    let className ← readCpUtf8 pool
    let b ← P.lift (isReturnDescriptor className)
    P.failIf (!b) "Invalid classinfo descriptor"
    pure (.classLiteral className)
  else if v == 64 /- '@' -/ then do
    let a ← readAnnotationWith rec pool
    pure (.annotationValue a)
  else if v == 91 /- '[' -/ then do
    let vs ← readTable2 fun i => rec.mapErr s!"array index {i}"
    pure (.arrayValue vs)
  else P.fail s!"Unrecognized discriminant {Char.ofNat v.toNat}"

/-- `/repo/src/attributes.rs:647-694` `fn read_annotation_element_value`; `rec` is the recursive call. -/
def readElementValueWith (rec : P AnnotationElementValue) (pool : Pool) : P AnnotationElementValue := do
  let v ← readU1
  readElementValueBody rec pool v

/-- `/repo/src/attributes.rs:647-694` `fn read_annotation_element_value` with a recursion budget. -/
def readAnnotationElementValue (pool : Pool) : Nat → P AnnotationElementValue
  | 0 => P.diverge
  | depth + 1 => readElementValueWith (readAnnotationElementValue pool depth) pool

/-- `/repo/src/attributes.rs:696-716` `fn read_annotation` with a recursion budget. -/
def readAnnotation (pool : Pool) (depth : Nat) : P Annotation :=
  readAnnotationWith (readAnnotationElementValue pool depth) pool

/-- `/repo/src/attributes.rs:718-730` `fn read_annotation_data`. -/
def readAnnotationData (pool : Pool) (depth : Nat) : P (List Annotation) :=
  readTable2 fun i => (readAnnotation pool depth).mapErr s!"annotation {i}"

/-- One parameter of `/repo/src/attributes.rs:732-751` `fn read_parameter_annotation_data`. -/
def readParameterAnnotation (pool : Pool) (depth : Nat) (i : Nat) : P ParameterAnnotation := do
  let annotations ← readTable2 fun j => (readAnnotation pool depth).mapErr s!"annotation {j} of parameter {i}"
  pure { annotations := annotations }

/-- `/repo/src/attributes.rs:732-751` `fn read_parameter_annotation_data`. -/
def readParameterAnnotationData (pool : Pool) (depth : Nat) : P (List ParameterAnnotation) :=
  readTable1 (readParameterAnnotation pool depth)

/-- One local variable target entry in `/repo/src/attributes.rs:753-837` `fn read_type_annotation_data`. -/
def readLocalVarTarget : P TypeAnnotationLocalVarTargetEntry := do
  let startPc ← readU2
  let length ← readU2
  let index ← readU2
  pure { startPc := startPc, length := length, index := index }

/-- The first `match` of `/repo/src/attributes.rs:753-837` `fn read_type_annotation_data` on the target type byte `v` of annotation `i`. -/
def readTypeAnnotationTarget (i : Nat) (v : UInt8) : P TypeAnnotationTarget :=
  if v == 0x00 || v == 0x01 then do
    let index ← readU1
    pure (.typeParameter index)
  else if v == 0x10 then do
    let index ← readU2
    pure (.supertype index)
  else if v == 0x11 || v == 0x12 then do
    let typeParameterIndex ← readU1
    let boundIndex ← readU1
    pure (.typeParameterBound typeParameterIndex boundIndex)
  else if 0x13 ≤ v.toNat && v.toNat ≤ 0x15 then pure .empty
  else if v == 0x16 then do
    let index ← readU1
    pure (.formalParameter index)
  else if v == 0x17 then do
    let index ← readU2
    pure (.throws index)
  else if v == 0x40 || v == 0x41 then do
    let localvars ← readTable2 fun _ => readLocalVarTarget
    pure (.localVar localvars)
  else if v == 0x42 then do
    let exceptionTableIndex ← readU2
    pure (.catch_ exceptionTableIndex)
  else if 0x43 ≤ v.toNat && v.toNat ≤ 0x46 then do
    let offset ← readU2
    pure (.offset offset)
  else if 0x47 ≤ v.toNat && v.toNat ≤ 0x4B then do
    let offset ← readU2
    let typeArgumentIndex ← readU1
    pure (.typeArgument offset typeArgumentIndex)
  else P.failCtx s!"Unrecognized target type {v}" s!"type annotation {i}"

/-- The path kind `match` of `/repo/src/attributes.rs:753-837` `fn read_type_annotation_data`. -/
def pathKindOf (v : UInt8) : Option TypeAnnotationTargetPathKind :=
  match v.toNat with
  | 0 => some .deeperArray
  | 1 => some .deeperNested
  | 2 => some .wildcardTypeArgument
  | 3 => some .typeArgument
  | _ => none

/-- One path element in `/repo/src/attributes.rs:753-837` `fn read_type_annotation_data`. -/
def readTargetPathEntry (i j : Nat) : P TypeAnnotationTargetPathEntry := do
  let v ← readU1
  match pathKindOf v with
  | some pathKind => do
    let argumentIndex ← readU1
    pure { pathKind := pathKind, argumentIndex := argumentIndex }
  | none => P.failCtx s!"Unrecognized path kind {v}" s!"path element {j} of type annotation {i}"

/-- One annotation of `/repo/src/attributes.rs:753-837` `fn read_type_annotation_data`. -/
def readTypeAnnotation (pool : Pool) (depth : Nat) (i : Nat) : P TypeAnnotation := do
  let v ← readU1
  let targetType ← readTypeAnnotationTarget i v
  let targetPath ← readTable1 (readTargetPathEntry i)
  let annotation ← (readAnnotation pool depth).mapErr s!"type annotation {i}"
  pure { targetType := targetType, targetPath := targetPath, annotation := annotation }

/-- `/repo/src/attributes.rs:753-837` `fn read_type_annotation_data`. -/
def readTypeAnnotationData (pool : Pool) (depth : Nat) : P (List TypeAnnotation) :=
  readTable2 (readTypeAnnotation pool depth)

/-! ### Bootstrap methods, method parameters, modules, nests, records -/

/-- One entry of `/repo/src/attributes.rs:839-859` `fn read_bootstrapmethods_data`. -/
def readBootstrapMethodEntry (pool : Pool) (i : Nat) : P BootstrapMethodEntry := do
  let method ← (readCpMethodhandle pool).mapErr s!"method ref of bootstrap method {i}"
  let arguments ← readTable2 fun j => (readCpBootstrapArgument pool).mapErr s!"argument {j} of bootstrap method {i}"
  pure { method := method, arguments := arguments }

/-- `/repo/src/attributes.rs:839-859` `fn read_bootstrapmethods_data`. -/
def readBootstrapmethodsData (pool : Pool) : P (List BootstrapMethodEntry) := readTable2 (readBootstrapMethodEntry pool)

/-- One entry of `/repo/src/attributes.rs:861-879` `fn read_methodparameters_data`. -/
def readMethodParameterEntry (pool : Pool) (i : Nat) : P MethodParameterEntry := do
  let name ← (readCpUtf8Opt pool).mapErr s!"name of method parameter {i}"
  P.failIf (name.any fun n => !isUnqualifiedName n) s!"Invalid unqualified name for variable {i}"
  let bits ← readU2
  let accessFlags ← (P.okOr (fromBits methodParameterMask bits) "Invalid access flags found").mapErr s!"method parameter {i}"
  pure { name := name, accessFlags := accessFlags }

/-- `/repo/src/attributes.rs:861-879` `fn read_methodparameters_data`. -/
def readMethodparametersData (pool : Pool) : P (List MethodParameterEntry) := readTable1 (readMethodParameterEntry pool)

/-- One `requires` entry of `/repo/src/attributes.rs:881-980` `fn read_module_data`. -/
def readModuleRequire (pool : Pool) (i : Nat) : P ModuleRequireEntry := do
  let name ← (readCpModuleinfo pool).mapErr s!"name of requires entry {i}"
  let bits ← readU2
  let flags ← (P.okOr (fromBits moduleRequiresMask bits) "Invalid module requires flags").mapErr s!"entry {i}"
  let version ← (readCpUtf8Opt pool).mapErr s!"version of requires entry {i}"
  pure { name := name, flags := flags, version := version }

/-- One `exports` entry of `/repo/src/attributes.rs:881-980` `fn read_module_data`. -/
def readModuleExports (pool : Pool) (i : Nat) : P ModuleExportsEntry := do
  let packageName ← (readCpPackageinfo pool).mapErr s!"package name of exports entry {i}"
  let bits ← readU2
  let flags ← (P.okOr (fromBits moduleExportsMask bits) "Invalid module exports flags").mapErr s!"entry {i}"
  let exportsTo ← readTable2 fun j =>
    (readCpModuleinfo pool).mapErr s!"name of exports_to entry {j} of exports entry {i}"
  pure { packageName := packageName, flags := flags, exportsTo := exportsTo }

/-- One `opens` entry of `/repo/src/attributes.rs:881-980` `fn read_module_data`. -/
def readModuleOpens (pool : Pool) (i : Nat) : P ModuleOpensEntry := do
  let packageName ← (readCpPackageinfo pool).mapErr s!"package name of opens entry {i}"
  let bits ← readU2
  let flags ← (P.okOr (fromBits moduleOpensMask bits) "Invalid module opens flags").mapErr s!"entry {i}"
  let opensTo ← readTable2 fun j => (readCpModuleinfo pool).mapErr s!"name of opens_to entry {j} of opens entry {i}"
  pure { packageName := packageName, flags := flags, opensTo := opensTo }

/-- One `provides` entry of `/repo/src/attributes.rs:881-980` `fn read_module_data`. -/
def readModuleProvides (pool : Pool) (i : Nat) : P ModuleProvidesEntry := do
  let serviceInterfaceName ← (readCpClassinfo pool).mapErr s!"service interface name of provides entry {i}"
  let providesWith ← readTable2 fun j =>
    (readCpClassinfo pool).mapErr s!"provides_with entry {j} of provides entry {i}"
  pure { serviceInterfaceName := serviceInterfaceName, providesWith := providesWith }

/-- `/repo/src/attributes.rs:881-980` `fn read_module_data`. -/
def readModuleData (pool : Pool) : P ModuleData := do
  let name ← (readCpModuleinfo pool).mapErr "name"
  let bits ← readU2
  let accessFlags ← P.okOr (fromBits moduleMask bits) "Invalid access flags found"
  let version ← (readCpUtf8Opt pool).mapErr "version"
  let requires ← readTable2 (readModuleRequire pool)
  let exports ← readTable2 (readModuleExports pool)
  let opens ← readTable2 (readModuleOpens pool)
  let uses ← readTable2 fun i => (readCpClassinfo pool).mapErr s!"name of uses entry {i}"
  let provides ← readTable2 (readModuleProvides pool)
  pure { name := name, accessFlags := accessFlags, version := version, requires := requires, exports := exports,
         opens := opens, uses := uses, provides := provides }

/-- `/repo/src/attributes.rs:982-994` `fn read_modulepackages_data`. -/
def readModulepackagesData (pool : Pool) : P (List Str) :=
  readTable2 fun i => (readCpPackageinfo pool).mapErr s!"package name {i}"

/-- `/repo/src/attributes.rs:996-1007` `fn read_nestmembers_data`. -/
def readNestmembersData (pool : Pool) : P (List Str) :=
  readTable2 fun i => (readCpClassinfo pool).mapErr s!"class name {i}"

/-- `/repo/src/attributes.rs:1009-1022` `fn read_permitted_subclasses_data`. -/
def readPermittedSubclassesData (pool : Pool) : P (List Str) :=
  readTable2 fun i => (readCpClassinfo pool).mapErr s!"permitted subclass {i}"

/-- One component of `/repo/src/attributes.rs:1024-1049` `fn read_record_data`; `rec` is the call to `read_attributes`. -/
def readRecordComponentWith (rec : P (List AttributeInfo)) (pool : Pool) (i : Nat) : P RecordComponentEntry := do
  let name ← (readCpUtf8 pool).mapErr s!"name of entry {i}"
  P.failIf (!isUnqualifiedName name) s!"Invalid unqualified name for entry {i}"
  let descriptor ← (readFieldDescriptor pool).mapErr s!"descriptor of entry {i}"
  let attributes ← rec.mapErr s!"entry {i}"
  pure { name := name, descriptor := descriptor, attributes := attributes }

/-- `/repo/src/attributes.rs:1024-1049` `fn read_record_data`; `rec` is the call to `read_attributes`. -/
def readRecordDataWith (rec : P (List AttributeInfo)) (pool : Pool) : P (List RecordComponentEntry) :=
  readTable2 (readRecordComponentWith rec pool)

/-! ### `read_attributes` -/

/-- The attribute names `read_attributes` knows, one per `match` arm. -/
inductive AttrKind where
  | constantValue | code | stackMapTable | exceptions | innerClasses | enclosingMethod | synthetic | signature
  | sourceFile | sourceDebugExtension | lineNumberTable | localVariableTable | localVariableTypeTable | deprecated
  | runtimeVisibleAnnotations | runtimeInvisibleAnnotations | runtimeVisibleParameterAnnotations
  | runtimeInvisibleParameterAnnotations | runtimeVisibleTypeAnnotations | runtimeInvisibleTypeAnnotations
  | annotationDefault | bootstrapMethods | methodParameters | moduleAttr | modulePackages | moduleMainClass
  | nestHost | nestMembers | permittedSubclasses | record | other
deriving DecidableEq, Repr

/-- The string patterns of the `match` of `/repo/src/attributes.rs:1051-1248` `fn read_attributes`, in order. -/
def attrTable : List (Str × AttrKind) := [
  ("ConstantValue".toList, .constantValue),
  ("Code".toList, .code),
  ("StackMapTable".toList, .stackMapTable),
  ("Exceptions".toList, .exceptions),
  ("InnerClasses".toList, .innerClasses),
  ("EnclosingMethod".toList, .enclosingMethod),
  ("Synthetic".toList, .synthetic),
  ("Signature".toList, .signature),
  ("SourceFile".toList, .sourceFile),
  ("SourceDebugExtension".toList, .sourceDebugExtension),
  ("LineNumberTable".toList, .lineNumberTable),
  ("LocalVariableTable".toList, .localVariableTable),
  ("LocalVariableTypeTable".toList, .localVariableTypeTable),
  ("Deprecated".toList, .deprecated),
  ("RuntimeVisibleAnnotations".toList, .runtimeVisibleAnnotations),
  ("RuntimeInvisibleAnnotations".toList, .runtimeInvisibleAnnotations),
  ("RuntimeVisibleParameterAnnotations".toList, .runtimeVisibleParameterAnnotations),
  ("RuntimeInvisibleParameterAnnotations".toList, .runtimeInvisibleParameterAnnotations),
  ("RuntimeVisibleTypeAnnotations".toList, .runtimeVisibleTypeAnnotations),
  ("RuntimeInvisibleTypeAnnotations".toList, .runtimeInvisibleTypeAnnotations),
  ("AnnotationDefault".toList, .annotationDefault),
  ("BootstrapMethods".toList, .bootstrapMethods),
  ("MethodParameters".toList, .methodParameters),
  ("Module".toList, .moduleAttr),
  ("ModulePackages".toList, .modulePackages),
  ("ModuleMainClass".toList, .moduleMainClass),
  ("NestHost".toList, .nestHost),
  ("NestMembers".toList, .nestMembers),
  ("PermittedSubclasses".toList, .permittedSubclasses),
  ("Record".toList, .record)
]

/-- The arm of the `match name.deref()` of `/repo/src/attributes.rs:1051-1248` `fn read_attributes`. -/
def attrKindOf (name : Str) : AttrKind :=
  match attrTable.lookup name with
  | some k => k
  | none => .other

/-- `&bytes[*ix..*ix + length]; *ix += length` without a check of its own (panics when out of range). -/
def takeSlice (length : Nat) : P Bytes := fun bytes ix => do
  let s ← sliceBytes bytes ix (ix + length)
  .ok (s, ix + length)

/-- The right-hand side of each arm of the `match name.deref()` of `/repo/src/attributes.rs:1051-1248` `fn read_attributes`, for attribute `i` of declared length
`length`; `rec` is the recursive call to `read_attributes` and `depth` the budget for annotations. The error text of a cesu8 failure is simplified. -/
def readAttributeData (env : Env) (depth : Nat) (rec : P (List AttributeInfo)) (pool : Pool) (i length : Nat) :
    AttrKind → P AttributeData
  | .constantValue => do
    (ensureLength length 2).mapErr s!"ConstantValue attribute {i}"
    let c ← (readCpLiteralconstant pool).mapErr s!"value field of ConstantValue attribute {i}"
    pure (.constantValue c)
  | .code => do
    let d ← (readCodeDataWith env rec pool).mapErr s!"Code attribute {i}"
    pure (.code d)
  | .stackMapTable => do
    let d ← (readStackmaptableData pool).mapErr s!"StackMapTable attribute {i}"
    pure (.stackMapTable d)
  | .exceptions => do
    let d ← (readExceptionsData pool).mapErr s!"Exceptions attribute {i}"
    pure (.exceptions d)
  | .innerClasses => do
    let d ← (readInnerclassesData pool).mapErr s!"InnerClasses attribute {i}"
    pure (.innerClasses d)
  | .enclosingMethod => do
    (ensureLength length 4).mapErr s!"EnclosingMethod attribute {i}"
    let className ← (readCpClassinfo pool).mapErr s!"class info of EnclosingMethod attribute {i}"
    let method ← (readCpNameandtypeOpt pool).mapErr s!"method info of EnclosingMethod attribute {i}"
    pure (.enclosingMethod className method)
  | .synthetic => do
    (ensureLength length 0).mapErr s!"Synthetic attribute {i}"
    pure .synthetic
  | .signature => do
    (ensureLength length 2).mapErr s!"Signature attribute {i}"
    let s ← (readCpUtf8 pool).mapErr s!"signature field of Signature attribute {i}"
    pure (.signature s)
  | .sourceFile => do
    (ensureLength length 2).mapErr s!"SourceFile attribute {i}"
    let s ← (readCpUtf8 pool).mapErr s!"signature field of SourceFile attribute {i}"
    pure (.sourceFile s)
  | .sourceDebugExtension => do
    let data ← takeSlice length
    match env.decode data with
    | some s => pure (.sourceDebugExtension s)
    | none => P.failCtx "invalid modified utf8" s!"modified utf8 data of SourceDebugExtension attribute {i}"
  | .lineNumberTable => do
    let d ← readLinenumberData.mapErr s!"LineNumberTable attribute {i}"
    pure (.lineNumberTable d)
  | .localVariableTable => do
    let d ← (readLocalvariableData pool).mapErr s!"LocalVariableTable attribute {i}"
    pure (.localVariableTable d)
  | .localVariableTypeTable => do
    let d ← (readLocalvariabletypeData pool).mapErr s!"LocalVariableTypeTable attribute {i}"
    pure (.localVariableTypeTable d)
  | .deprecated => do
    (ensureLength length 0).mapErr s!"Deprecated attribute {i}"
    pure .deprecated
  | .runtimeVisibleAnnotations => do
    let d ← (readAnnotationData pool depth).mapErr s!"RuntimeVisibleAnnotations attribute {i}"
    pure (.runtimeVisibleAnnotations d)
  | .runtimeInvisibleAnnotations => do
    let d ← (readAnnotationData pool depth).mapErr s!"RuntimeInvisibleAnnotations attribute {i}"
    pure (.runtimeInvisibleAnnotations d)
  | .runtimeVisibleParameterAnnotations => do
    let d ← (readParameterAnnotationData pool depth).mapErr s!"RuntimeVisibleParameterAnnotations attribute {i}"
    pure (.runtimeVisibleParameterAnnotations d)
  | .runtimeInvisibleParameterAnnotations => do
    let d ← (readParameterAnnotationData pool depth).mapErr s!"RuntimeInvisibleParameterAnnotations attribute {i}"
    pure (.runtimeInvisibleParameterAnnotations d)
  | .runtimeVisibleTypeAnnotations => do
    let d ← (readTypeAnnotationData pool depth).mapErr s!"RuntimeVisibleTypeAnnotations attribute {i}"
    pure (.runtimeVisibleTypeAnnotations d)
  | .runtimeInvisibleTypeAnnotations => do
    let d ← (readTypeAnnotationData pool depth).mapErr s!"RuntimeInvisibleTypeAnnotations attribute {i}"
    pure (.runtimeInvisibleTypeAnnotations d)
  | .annotationDefault => do
    let v ← (readAnnotationElementValue pool depth).mapErr s!"AnnotationDefault attribute {i}"
    pure (.annotationDefault v)
  | .bootstrapMethods => do
    let d ← (readBootstrapmethodsData pool).mapErr s!"BootstrapMethods attribute {i}"
    pure (.bootstrapMethods d)
  | .methodParameters => do
    let d ← (readMethodparametersData pool).mapErr s!"MethodParameters attribute {i}"
    pure (.methodParameters d)
  | .moduleAttr => do
    let d ← (readModuleData pool).mapErr s!"Module attribute {i}"
    pure (.moduleAttr d)
  | .modulePackages => do
    let d ← (readModulepackagesData pool).mapErr s!"ModulePackages attribute {i}"
    pure (.modulePackages d)
  | .moduleMainClass => do
    (ensureLength length 2).mapErr s!"ModuleMainClass attribute {i}"
    let s ← (readCpClassinfo pool).mapErr s!"ModuleMainClass attribute {i}"
    pure (.moduleMainClass s)
  | .nestHost => do
    (ensureLength length 2).mapErr s!"NestHost attribute {i}"
    let s ← (readCpClassinfo pool).mapErr s!"NestHost attribute {i}"
    pure (.nestHost s)
  | .nestMembers => do
    let d ← (readNestmembersData pool).mapErr s!"NestMembers attribute {i}"
    pure (.nestMembers d)
  | .permittedSubclasses => do
    let d ← (readPermittedSubclassesData pool).mapErr s!"PermittedSubclasses attribute {i}"
    pure (.permittedSubclasses d)
  | .record => do
    let d ← (readRecordDataWith rec pool).mapErr s!"Record attribute {i}"
    pure (.record d)
  | .other => do
    let b ← takeSlice length
    pure (.other b)

/-- `let expected_end_ix = *ix + length; if bytes.len() < expected_end_ix { fail!(..) }`. -/
def checkEnd (length : Nat) : P Nat := fun bytes ix =>
  if bytes.length < ix + length then Res.fail s!"Unexpected end of stream reading attributes at index {ix}"
  else .ok (ix + length, ix)

/-- One iteration of the loop of `/repo/src/attributes.rs:1051-1248` `fn read_attributes`. -/
def readAttributeWith (env : Env) (depth : Nat) (rec : P (List AttributeInfo)) (pool : Pool) (i : Nat) :
    P AttributeInfo := do
  let name ← (readCpUtf8 pool).mapErr s!"name field of attribute {i}"
  let length ← readU4
  let expectedEndIx ← checkEnd length.toNat
  let data ← readAttributeData env depth rec pool i length.toNat (attrKindOf name)
  let ix ← P.getIx
  if expectedEndIx ≠ ix then P.fail s!"Length mismatch when reading attribute {i}"
  else pure { name := name, data := data }

/-- `/repo/src/attributes.rs:1051-1248` `fn read_attributes` with a recursion budget. -/
def readAttributes (env : Env) (pool : Pool) : Nat → P (List AttributeInfo)
  | 0 => P.diverge
  | depth + 1 => readTable2 (readAttributeWith env depth (readAttributes env pool depth) pool)

end Cafebabe
