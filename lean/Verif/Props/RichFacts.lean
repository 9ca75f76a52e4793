import Verif.Props.Examples
/-!
# Facts about the example `rich`, evaluated by the kernel in one go

Used to show that hypotheses of theorems are met by a non-trivial case.
-/

namespace Cafebabe.Examples
open Spec

/-- The class file `rich` parses to. -/
def richCf : ClassFile :=
  match run debug 9 rich with
  | .ok cf => cf
  | _ => { majorVersion := 0, minorVersion := 0, constantPool := [], accessFlags := 0, thisClass := ⟨[]⟩, superClass := none, interfaces := [],
           fields := [], methods := [], attributes := [] }

theorem rich_accepted : Accepts debug rich richCf := by
  refine ⟨9, ?_⟩
  have h := rich_ok
  unfold richCf
  cases hr : run debug 9 rich with
  | ok cf => rfl
  | err e => rw [hr] at h; cases h
  | panic k => rw [hr] at h; cases h
  | diverge => rw [hr] at h; cases h

/-- The Code attributes of a list of attributes. -/
def codesOf (as : List AttributeInfo) : List CodeData := as.filterMap fun a => match a.data with | .code c => some c | _ => none

/-- The opcodes of the first method of a class. -/
def firstOpcodes (cf : ClassFile) : List (Nat × Opcode) :=
  match cf.methods with
  | m :: _ => match codesOf m.attributes with
    | c :: _ => match c.bytecode with
      | some b => b.opcodes
      | none => []
    | [] => []
  | [] => []

/-- Selected facts, as one Boolean. -/
def richChecks (cf : ClassFile) : Bool :=
  let pool := cf.constantPool
  let ops := firstOpcodes cf
  pool.length == 38 && pool[10]? == some (.methodHandle .invokeStatic (.resolved 9)) &&
    pool[9]? == some (.methodRef (.resolved 2) (.resolved 8)) && pool[8]? == some (.nameAndType (.resolved 6) (.resolved 7)) &&
    pool[2]? == some (.classInfo (.resolved 1)) && pool[1]? == some (.utf8 ['A']) && pool[13]? == some (.long 5) && pool[14]? == some .unused &&
    pool[11]? == some (.invokeDynamic 0 (.resolved 8)) && pool[37]? == some (.dynamic 0 (.resolved 30)) &&
    pool[24]? == some (.string (.resolved 23)) && pool[23]? == some (.utf8Bytes [0xFF]) &&
    cf.majorVersion == 55 && cf.accessFlags == 0x4021 && cf.fields.length == 1 && cf.methods.length == 1 && cf.interfaces.length == 1 &&
    cf.attributes.length == 2 && ops.length == 8 &&
    ops.map (·.1) == [0, 1, 4, 24, 26, 27, 30, 35] &&
    (match ops with
     | [_, (1, .ifeq j), (4, .tableswitch t), _, _, (27, .goto k), _, _] => j == 3 && t == ⟨20, 0, 0, [20]⟩ && k == -23
     | _ => false)

theorem rich_checks : richChecks richCf = true := by decide +kernel

theorem rich_pool : richCf.constantPool.length = 38 ∧ richCf.constantPool[10]? = some (.methodHandle .invokeStatic (.resolved 9)) ∧
    richCf.constantPool[9]? = some (.methodRef (.resolved 2) (.resolved 8)) ∧
    richCf.constantPool[8]? = some (.nameAndType (.resolved 6) (.resolved 7)) ∧
    richCf.constantPool[2]? = some (.classInfo (.resolved 1)) ∧ richCf.constantPool[1]? = some (.utf8 ['A']) ∧
    richCf.constantPool[13]? = some (.long 5) ∧ richCf.constantPool[14]? = some .unused ∧
    richCf.constantPool[11]? = some (.invokeDynamic 0 (.resolved 8)) ∧ richCf.constantPool[37]? = some (.dynamic 0 (.resolved 30)) ∧
    richCf.constantPool[24]? = some (.string (.resolved 23)) ∧ richCf.constantPool[23]? = some (.utf8Bytes [0xFF]) := by
  have h := rich_checks
  simp only [richChecks, Bool.and_eq_true, beq_iff_eq] at h
  obtain ⟨⟨⟨⟨⟨⟨⟨⟨⟨⟨⟨⟨⟨⟨⟨⟨⟨⟨⟨⟨h1, h2⟩, h3⟩, h4⟩, h5⟩, h6⟩, h7⟩, h8⟩, h9⟩, h10⟩, h11⟩, h12⟩, -⟩, -⟩, -⟩, -⟩, -⟩, -⟩, -⟩, -⟩, -⟩ := h
  exact ⟨h1, h2, h3, h4, h5, h6, h7, h8, h9, h10, h11, h12⟩

theorem rich_minor : richCf.minorVersion = 3 := by decide +kernel

theorem rich_shape : richCf.majorVersion = 55 ∧ richCf.accessFlags = 0x4021 ∧ richCf.fields.length = 1 ∧ richCf.methods.length = 1 ∧
    richCf.interfaces.length = 1 ∧ richCf.attributes.length = 2 := by
  have h := rich_checks
  simp only [richChecks, Bool.and_eq_true, beq_iff_eq] at h
  obtain ⟨⟨⟨⟨⟨⟨⟨⟨⟨-, h1⟩, h2⟩, h3⟩, h4⟩, h5⟩, h6⟩, -⟩, -⟩, -⟩ := h
  exact ⟨h1, h2, h3, h4, h5, h6⟩

end Cafebabe.Examples
