import Verif.Proofs.Run
/-!
# Concrete inputs used as witnesses beside the theorems

Evaluated by the kernel. These are not proofs of any property; they show that hypotheses can be met.
-/

namespace Cafebabe.Examples
open Spec

/-- Decoder for plain ASCII text (what `cesu8::from_java_cesu8` does on bytes 1-127); everything else is undecodable here. -/
def ascii (b : Bytes) : Option Str :=
  if b.all (fun x => 0 < x && x < 128) then some (b.map fun x => Char.ofNat x.toNat) else none

/-- Options for the examples. -/
def opts (checks parse : Bool) : Opts := { decode := ascii, checks := checks, parseBytecode := parse }

/-- Overflow checks and bytecode parsing on. -/
def debug : Opts := opts true true

/-- Overflow checks off, bytecode parsing on. -/
def release : Opts := opts false true

/-- A Utf8 constant. -/
def text (s : String) : Bytes := [1] ++ u2 (UInt16.ofNat s.toList.length) ++ s.toList.map fun c => UInt8.ofNat c.toNat

/-- An attribute: name index, length, content. -/
def attr (name : UInt16) (body : Bytes) : Bytes := u2 name ++ u4 (UInt32.ofNat body.length) ++ body

/-- `class A extends B {}`. -/
def tiny : Bytes :=
  header 0 52 ++ u2 5 ++ text "A" ++ [7, 0, 1] ++ text "B" ++ [7, 0, 3] ++
    [0, 0x21, 0, 2, 0, 4, 0, 0, 0, 0, 0, 0, 0, 0]

/-- The constant pool of `rich`. -/
def richPool : Bytes :=
  u2 38 ++
  text "A" ++ [7, 0, 1] ++ text "java/lang/Object" ++ [7, 0, 3] ++                                   -- 1 .. 4
  text "Code" ++ text "run" ++ text "()V" ++ [12, 0, 6, 0, 7] ++ [10, 0, 2, 0, 8] ++                 -- 5 .. 9
  [15, 6, 0, 9] ++ [18, 0, 0, 0, 8] ++ text "BootstrapMethods" ++ [5, 0, 0, 0, 0, 0, 0, 0, 5] ++      -- 10 .. 14
  text "x" ++ text "I" ++ text "ConstantValue" ++ [3, 255, 255, 255, 255] ++                         -- 15 .. 18
  text "[[Ljava/lang/Object;" ++ [7, 0, 19] ++ text "hi" ++ [8, 0, 21] ++                            -- 19 .. 22
  [1, 0, 1, 0xFF] ++ [8, 0, 23] ++ text "LineNumberTable" ++ text "MyAttr" ++                        -- 23 .. 26
  text "RuntimeVisibleAnnotations" ++ text "LA;" ++ text "v" ++ [12, 0, 15, 0, 16] ++                -- 27 .. 30
  [9, 0, 2, 0, 30] ++ [6, 0x7F, 0xF8, 0, 0, 0, 0, 0, 1] ++ text "StackMapTable" ++                    -- 31 .. 34
  [16, 0, 7] ++ [11, 0, 2, 0, 8] ++ [17, 0, 0, 0, 30]                                                -- 35 .. 37

/-- A code array with branches, a tableswitch, ldc, goto backwards, invokedynamic. -/
def richCode : Bytes :=
  [0x03] ++ [0x99, 0, 3] ++
  [0xaa, 9, 9, 9, 0, 0, 0, 20, 0, 0, 0, 0, 0, 0, 0, 0, 0, 0, 0, 20] ++
  [0x12, 22] ++ [0x57] ++ [0xa7, 0xff, 0xe9] ++ [0xba, 0, 11, 0, 0] ++ [0xb1]

/-- The Code attribute of `rich`: exception table, line numbers, an unknown attribute, stack map frames. -/
def richCodeAttr : Bytes :=
  attr 5 (u2 1 ++ u2 1 ++ u4 36 ++ richCode ++ u2 1 ++ [0, 0, 0, 4, 0, 24, 0, 0] ++ u2 3 ++
    attr 25 [0, 1, 0, 0, 0, 10] ++ attr 26 [1, 2, 3] ++
    attr 34 [0, 4, 5, 64, 1, 250, 0, 7, 255, 0, 8, 0, 1, 7, 0, 2, 0, 1, 8, 0, 9])

/-- A class with one field, one method with code, bootstrap methods and nested annotations. -/
def rich : Bytes :=
  header 3 55 ++ richPool ++ [0x40, 0x21, 0, 2, 0, 4, 0, 1, 0, 2] ++
  u2 1 ++ [0, 0x19, 0, 15, 0, 16] ++ u2 1 ++ attr 17 [0, 18] ++
  u2 1 ++ [0, 0x09, 0, 6, 0, 7] ++ u2 1 ++ richCodeAttr ++
  u2 2 ++ attr 12 [0, 1, 0, 10, 0, 3, 0, 22, 0, 20, 0, 35] ++
    attr 27 [0, 1, 0, 28, 0, 1, 0, 29, 91, 0, 1, 64, 0, 28, 0, 0]

/-- A module descriptor. -/
def modular : Bytes :=
  header 0 53 ++ u2 7 ++ text "module-info" ++ [7, 0, 1] ++ text "Module" ++ text "m.n" ++ [19, 0, 4] ++ text "java.base" ++
    [0x80, 0, 0, 2, 0, 0, 0, 0, 0, 0, 0, 0] ++ u2 1 ++ attr 3 ([0, 5, 0, 0, 0, 0] ++ [0, 0, 0, 0, 0, 0, 0, 0, 0, 0])

/-- Two NameAndType constants that are each other's descriptor, reached from a MethodRef. -/
def cyclic : Bytes :=
  header 0 52 ++ u2 6 ++ [10, 0, 2, 0, 3] ++ [7, 0, 5] ++ [12, 0, 5, 0, 4] ++ [12, 0, 5, 0, 3] ++ text "A" ++
    [0, 0x21, 0, 2, 0, 0, 0, 0, 0, 0, 0, 0, 0, 0]

/-- A NameAndType constant with undecodable descriptor text that no other constant uses. -/
def oddDescriptor : Bytes :=
  header 0 52 ++ u2 5 ++ text "A" ++ [7, 0, 1] ++ [1, 0, 1, 0xFF] ++ [12, 0, 1, 0, 3] ++
    [0, 0x21, 0, 2, 0, 0, 0, 0, 0, 0, 0, 0, 0, 0]

/-- The same, named by an EnclosingMethod attribute. -/
def oddEnclosing : Bytes :=
  header 0 52 ++ u2 6 ++ text "A" ++ [7, 0, 1] ++ [1, 0, 1, 0xFF] ++ [12, 0, 1, 0, 3] ++ text "EnclosingMethod" ++
    [0, 0x21, 0, 2, 0, 0, 0, 0, 0, 0, 0, 0] ++ u2 1 ++ attr 5 [0, 2, 0, 4]

/-- A class with one method whose code array is `code`. -/
def withCode (code : Bytes) : Bytes :=
  header 0 52 ++ u2 6 ++ text "A" ++ [7, 0, 1] ++ text "Code" ++ text "m" ++ text "()V" ++
    [0, 0x21, 0, 2, 0, 0, 0, 0, 0, 0] ++
    u2 1 ++ [0, 0x09, 0, 4, 0, 5] ++ u2 1 ++ attr 3 (u2 1 ++ u2 1 ++ u4 (UInt32.ofNat code.length) ++ code ++ u2 0 ++ u2 0) ++ u2 0

/-- A tableswitch over the full 32-bit range with no jumps. -/
def fullRange : Bytes := withCode ([0xaa, 0, 0, 0] ++ [0, 0, 0, 0] ++ [0x80, 0, 0, 0] ++ [0x7f, 255, 255, 255])

/-- A backward jump whose target is below zero by more than fits (goto_w -2^31 at offset 1). -/
def farJump : Bytes := withCode ([0, 0] ++ [0xc8, 0x7f, 255, 255, 255])

theorem tiny_ok : (run debug 3 tiny).isOk = true := by decide +kernel
theorem rich_ok : (run debug 9 rich).isOk = true := by decide +kernel
theorem rich_ok_off : (run (opts true false) 9 rich).isOk = true := by decide +kernel
theorem modular_ok : (run debug 9 modular).isOk = true := by decide +kernel
theorem oddDescriptor_ok : (run debug 9 oddDescriptor).isOk = true := by decide +kernel

/-- The panic of an outcome, if any. -/
def panicOf {α : Type} : Res α → Option PanicKind
  | .panic k => some k
  | _ => none

/-- Is the outcome `Err`? -/
def isErr {α : Type} : Res α → Bool
  | .err _ => true
  | _ => false

/-- Did the run exhaust its recursion budget? -/
def isDiverge {α : Type} : Res α → Bool
  | .diverge => true
  | _ => false

theorem oddEnclosing_panics : panicOf (run debug 9 oddEnclosing) = some .nonUtf8 := by decide +kernel
theorem oddEnclosing_panics_release : panicOf (run release 9 oddEnclosing) = some .nonUtf8 := by decide +kernel
theorem fullRange_panics : panicOf (run debug 9 fullRange) = some .overflow := by decide +kernel
theorem fullRange_release : (run release 9 fullRange).isOk = true := by decide +kernel
theorem farJump_panics : panicOf (run debug 9 farJump) = some .overflow := by decide +kernel
theorem farJump_release : isErr (run release 9 farJump) = true := by decide +kernel
theorem cyclic_diverges : isDiverge (run debug (cyclic.length + 2) cyclic) = true := by decide +kernel

/-- From a kernel-evaluated run to acceptance. -/
theorem accepted {o : Opts} {d : Nat} {bytes : Bytes} (h : (run o d bytes).isOk = true) : ∃ cf, Accepts o bytes cf := by
  cases hr : run o d bytes with
  | ok cf => exact ⟨cf, d, hr⟩
  | err e => rw [hr] at h; cases h
  | panic k => rw [hr] at h; cases h
  | diverge => rw [hr] at h; cases h

/-- The same for panics. -/
theorem panicked {o : Opts} {d : Nat} {bytes : Bytes} {k : PanicKind} (h : panicOf (run o d bytes) = some k) : Panics o bytes k := by
  cases hr : run o d bytes with
  | ok cf => rw [hr] at h; cases h
  | err e => rw [hr] at h; cases h
  | panic k' => rw [hr] at h; cases h; exact ⟨d, hr⟩
  | diverge => rw [hr] at h; cases h

/-- The same for errors. -/
theorem rejected {o : Opts} {d : Nat} {bytes : Bytes} (h : isErr (run o d bytes) = true) : ∃ e, Rejects o bytes e := by
  cases hr : run o d bytes with
  | ok cf => rw [hr] at h; cases h
  | err e => exact ⟨e, d, hr⟩
  | panic k => rw [hr] at h; cases h
  | diverge => rw [hr] at h; cases h

/-- The same for hanging. -/
theorem hung {o : Opts} {bytes : Bytes} (h : isDiverge (run o (bytes.length + 2) bytes) = true) : Hangs o bytes := by
  rw [hangs_iff]
  cases hr : run o (bytes.length + 2) bytes with
  | ok cf => rw [hr] at h; cases h
  | err e => rw [hr] at h; cases h
  | panic k => rw [hr] at h; cases h
  | diverge => rfl

end Cafebabe.Examples
