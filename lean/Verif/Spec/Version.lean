import Verif.Spec.ClassFile
/-!
# Specification: what the class-file version permits
-/

namespace Cafebabe.Spec

/-- The constant may occur in class files of this version (JVMS table 4.4-A and 4.4.8). -/
def ConstantAllowed (major : UInt16) (pool : Pool) : Entry → Prop
  | .methodHandle k x => 51 ≤ major ∧
      ((k = .invokeStatic ∨ k = .invokeSpecial) → (∃ m c n, x = .resolved m ∧ pool[m]? = some (.interfaceMethodRef c n)) → 52 ≤ major)
  | .methodType _ | .invokeDynamic _ _ => 51 ≤ major
  | .dynamic _ _ => 55 ≤ major
  | .moduleInfo _ | .packageInfo _ => 53 ≤ major
  | _ => True

/-- Everything in the class that depends on the version: some constants and modules need a minimum, and from version 51 on `<clinit>` has no
parameters. -/
def VersionAllows (cf : ClassFile) (major : UInt16) : Prop :=
  (∀ e ∈ cf.constantPool, ConstantAllowed major cf.constantPool e) ∧
    (51 ≤ major → ∀ m ∈ cf.methods, m.name = "<clinit>".toList → m.descriptor.parameters = []) ∧ (IsModule cf.accessFlags → 53 ≤ major)

end Cafebabe.Spec
