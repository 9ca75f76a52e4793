import Verif.Model.ClassFile
import Verif.Spec.Attributes
/-!
# Specification: class files (JVMS 4.1, 4.5, 4.6)

Only data types of the model are used, none of its functions.
-/

namespace Cafebabe.Spec

/-- A table of attributes. -/
def AttributesEnc (o : Opts) (pool : Pool) (as : List AttributeInfo) : Lang := table2 (AttrEnc o pool) as

/-- JVMS 4.5. -/
def FieldEnc (o : Opts) (pool : Pool) (f : FieldInfo) : Lang :=
  when (UnqualifiedName f.name)
    (maskedFlags 0x50DF f.accessFlags ⬝ (ref fun i => TextAt pool i f.name) ⬝
      (ref fun i => FieldDescriptorAt pool i f.descriptor) ⬝ AttributesEnc o pool f.attributes)

/-- JVMS 4.6 restrictions on `<init>` and `<clinit>`. -/
def SpecialMethodOK (inInterface : Prop) (major : UInt16) (m : MethodInfo) : Prop :=
  (m.name = "<init>".toList → ¬ inInterface → m.descriptor.returnType = .void) ∧
    (m.name = "<clinit>".toList →
      m.descriptor.returnType = .void ∧ (51 ≤ major → m.descriptor.parameters = []))

/-- JVMS 4.6. -/
def MethodEnc (o : Opts) (pool : Pool) (inInterface : Prop) (major : UInt16) (m : MethodInfo) : Lang :=
  when (MethodName (¬ inInterface) True m.name ∧ SpecialMethodOK inInterface major m)
    (maskedFlags 0x1DFF m.accessFlags ⬝ (ref fun i => TextAt pool i m.name) ⬝
      (ref fun i => MethodDescriptorAt pool i m.descriptor) ⬝ AttributesEnc o pool m.attributes)

/-- Slot `i` is a Class constant naming a class (not an array). -/
def ClassNameAt (pool : Pool) (i : Nat) (c : ClassName) : Prop := ClassAt pool i c.name ∧ ClassNameText c.name

/-- No two fields share name and descriptor. -/
def FieldsDistinct (fs : List FieldInfo) : Prop :=
  fs.Pairwise fun f g => ¬ (f.name = g.name ∧ f.descriptor = g.descriptor)

/-- No two methods share name and descriptor. -/
def MethodsDistinct (ms : List MethodInfo) : Prop :=
  ms.Pairwise fun f g => ¬ (f.name = g.name ∧ f.descriptor = g.descriptor)

/-- The ACC_INTERFACE flag is set. -/
def IsInterface (flags : UInt16) : Prop := flags &&& 0x0200 ≠ 0

/-- The ACC_MODULE flag is set. -/
def IsModule (flags : UInt16) : Prop := flags &&& 0x8000 ≠ 0

/-- The names of the class access flags (JVMS table 4.1-B). -/
def classFlags : List (UInt16 × String) :=
  [(0x0001, "PUBLIC"), (0x0010, "FINAL"), (0x0020, "SUPER"), (0x0200, "INTERFACE"), (0x0400, "ABSTRACT"), (0x1000, "SYNTHETIC"),
   (0x2000, "ANNOTATION"), (0x4000, "ENUM"), (0x8000, "MODULE")]

/-- Some names, separated by ` | `. -/
def barred : List String → String
  | [] => "(empty)"
  | [a] => a
  | a :: b :: rest => a ++ " | " ++ barred (b :: rest)

/-- How a set of class access flags is written in messages. -/
def flagsText (flags : UInt16) : String := barred ((classFlags.filter fun p => flags &&& p.1 != 0).map (·.2))

/-- A module class file has version 53 or later, no other flag, and no super class, interfaces, fields or methods. -/
def ModuleRestrictions (cf : ClassFile) : Prop :=
  IsModule cf.accessFlags → 53 ≤ cf.majorVersion ∧ cf.accessFlags = 0x8000 ∧ cf.superClass = none ∧
    cf.interfaces = [] ∧ cf.fields = [] ∧ cf.methods = []

/-- The tables of the BootstrapMethods attributes. -/
def bootstrapTables (as : List AttributeInfo) : List (List BootstrapMethodEntry) :=
  as.filterMap fun a =>
    match a.data with
    | .bootstrapMethods l => some l
    | _ => none

/-- Each Dynamic and InvokeDynamic constant indexes the one BootstrapMethods attribute. -/
def BootstrapIndicesOK (pool : Pool) (as : List AttributeInfo) : Prop :=
  ∀ (x : UInt16) (r : CPRef), Entry.dynamic x r ∈ pool ∨ Entry.invokeDynamic x r ∈ pool →
    ∃ l, bootstrapTables as = [l] ∧ x.toNat < l.length

/-- JVMS 4.1: `bytes` is a class file with content `cf`. -/
def ClassFileEnc (o : Opts) (cf : ClassFile) : Lang :=
  when (FieldsDistinct cf.fields ∧ MethodsDistinct cf.methods ∧ ModuleRestrictions cf ∧
      BootstrapIndicesOK cf.constantPool cf.attributes)
    (lit [0xCA, 0xFE, 0xBA, 0xBE] ⬝ lit (u2 cf.minorVersion) ⬝ lit (u2 cf.majorVersion) ⬝
      PoolEnc o.decode o.checks cf.majorVersion cf.constantPool ⬝ maskedFlags 0xF631 cf.accessFlags ⬝
      (ref fun i => ClassNameAt cf.constantPool i cf.thisClass) ⬝
      (ref fun i => OptAt ClassNameAt cf.constantPool i cf.superClass) ⬝
      table2 (fun c => ref fun i => ClassNameAt cf.constantPool i c) cf.interfaces ⬝
      table2 (FieldEnc o cf.constantPool) cf.fields ⬝
      table2 (MethodEnc o cf.constantPool (IsInterface cf.accessFlags) cf.majorVersion) cf.methods ⬝
      AttributesEnc o cf.constantPool cf.attributes)

end Cafebabe.Spec
