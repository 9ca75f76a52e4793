import Verif.Spec.Strings
/-!
# Specification: the constraints of JVMS 4.4 on constants that section 4.8 ("format checking") refers to, beyond C09 - C13

Each definition states one constraint on a constant pool, a class file, or its bytes.
-/

namespace Cafebabe.Spec

/-- JVMS 4.4.2: if the name of a Methodref begins with `<`, it is `<init>` and the method returns void. -/
def RefNamesOK (pool : Pool) : Prop :=
  ∀ (i : Nat) (m : MemberRef), MethodRefAt pool i m → m.nameAndType.name.head? = some '<' →
    m.nameAndType.name = "<init>".toList ∧ ∃ p, m.nameAndType.descriptor = p ++ [')', 'V']

/-- JVMS 4.4.8: handles of kind 5, 6, 7, 9 name no `<init>` or `<clinit>`, handles of kind 8 name `<init>`. -/
def HandleNamesOK (pool : Pool) : Prop :=
  ∀ (i : Nat) (h : MethodHandle), MethodHandleAt pool i h →
    (h.kind = .invokeVirtual ∨ h.kind = .invokeStatic ∨ h.kind = .invokeSpecial ∨ h.kind = .invokeInterface →
      h.memberRef.name ≠ "<init>".toList ∧ h.memberRef.name ≠ "<clinit>".toList) ∧
    (h.kind = .newInvokeSpecial → h.memberRef.name = "<init>".toList)

/-- JVMS 4.4.6: the descriptor of every NameAndType constant is a field or method descriptor. -/
def TypesOK (pool : Pool) : Prop :=
  ∀ (i x y : Nat), pool[i]? = some (.nameAndType (.resolved x) (.resolved y)) →
    ∃ d, TextAt pool y d ∧ (IsFieldDescriptor d ∨ IsMethodDescriptor d)

/-- JVMS 4.4.7: no byte of a Utf8 constant is zero or above 0xEF. -/
def Utf8BytesOK (bytes : Bytes) (slots : Nat) : Prop :=
  ∀ (i : Nat) (data : Bytes), i < slots → RawUtf8 bytes i data → ∀ b ∈ data, b ≠ 0 ∧ b < 0xF0

/-- JVMS 4.4.11, 4.4.12: Module and Package constants only in a class file that declares a module. -/
def ModuleConstantsOK (cf : ClassFile) : Prop :=
  ∀ (i : Nat) (s : Str), ModuleAt cf.constantPool i s ∨ PackageAt cf.constantPool i s → cf.accessFlags &&& 0x8000 ≠ 0

/-- JVMS table 4.4.8: which member constants a handle of each kind may name, in version 52 and later. -/
def HandleFits : ReferenceKind → MemberKind → Prop
  | .getField, .field | .getStatic, .field | .putField, .field | .putStatic, .field => True
  | .invokeVirtual, .method | .newInvokeSpecial, .method => True
  | .invokeStatic, .method | .invokeStatic, .interfaceMethod | .invokeSpecial, .method | .invokeSpecial, .interfaceMethod => True
  | .invokeInterface, .interfaceMethod => True
  | _, _ => False

/-- The tag of a member constant. -/
def memberTag : MemberKind → UInt8
  | .field => 9
  | .method => 10
  | .interfaceMethod => 11

/-- The descriptor of a member is of the right sort. -/
def DescriptorFits : MemberKind → Str → Prop
  | .field, d => IsFieldDescriptor d
  | _, d => IsMethodDescriptor d

end Cafebabe.Spec
