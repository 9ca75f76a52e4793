import Verif.Proofs.AttributeMessage
import Verif.Props.MessageProps
import Verif.Props.PanicProps
import Verif.Props.BytecodeTrailProps
import Verif.Props.LayoutProps
import Verif.Props.FullFacts
/-!
# Properties: the error for an input is determined by what is wrong with it, everywhere (C72)
-/

namespace Cafebabe
open Spec Examples

/-- An input is rejected with the error `e`, message and contexts, exactly when `e` is the error for what is wrong first. -/
theorem C72_iff {o : Opts} {bytes : Bytes} {e : ParseError} : Rejects o bytes e ↔ SaysAll o bytes e := by
  have hn := file_names (C := anyError) (L := bytes.length) (envOf o (bytes.length + 2)) (by simp [envOf])
    (A := fun pool => AttrsSays o pool bytes.length) (fun _ pool hok => attrsNamed_all (attrs_names _ hok _))
    bytes 0 rfl (Nat.zero_le _) (by simp [envOf]) e trivial
  rw [List.drop_zero, envOf_opts] at hn
  rw [rejects_iff, run_eq]
  refine Iff.trans ?_ hn
  cases readClassFile (envOf o (bytes.length + 2)) bytes 0 <;> simp [Res.bind]

/-- There is one such error at most. -/
theorem C72_one {o : Opts} {bytes : Bytes} {e e' : ParseError} (h : SaysAll o bytes e) (h' : SaysAll o bytes e') : e' = e := by
  have h1 := rejects_iff.mp (C72_iff.mpr h)
  have h2 := rejects_iff.mp (C72_iff.mpr h')
  rw [h1] at h2
  cases h2
  rfl

/-- Outside attributes it is the one of `C71_iff`. -/
theorem C72_extends {o : Opts} {bytes : Bytes} {e : ParseError} : Says o bytes e ↔ SaysAll o bytes e ∧ ¬ InAttributes e := by
  rw [C71_iff, C72_iff]

/-- The four outcomes, each described without the parser: an input encodes a class, or has a cycle that is followed for ever, or makes the parser
panic, or has a first fault with one error for it. For every input it is exactly one of the four. -/
theorem C72_outcomes (o : Opts) (bytes : Bytes) :
    ((∀ cf, Accepts o bytes cf ↔ ClassFileEnc o cf bytes) ∧ (Hangs o bytes ↔ StuckInput o bytes) ∧
      (∀ k, Panics o bytes k ↔ PanicInput o k bytes) ∧ (∀ e, Rejects o bytes e ↔ SaysAll o bytes e)) ∧
    (((∃ cf, ClassFileEnc o cf bytes) ∧ ¬ StuckInput o bytes ∧ (¬ ∃ k, PanicInput o k bytes) ∧ ¬ ∃ e, SaysAll o bytes e) ∨
      ((¬ ∃ cf, ClassFileEnc o cf bytes) ∧ StuckInput o bytes ∧ (¬ ∃ k, PanicInput o k bytes) ∧ ¬ ∃ e, SaysAll o bytes e) ∨
      ((¬ ∃ cf, ClassFileEnc o cf bytes) ∧ ¬ StuckInput o bytes ∧ (∃ k, PanicInput o k bytes) ∧ ¬ ∃ e, SaysAll o bytes e) ∨
      ((¬ ∃ cf, ClassFileEnc o cf bytes) ∧ ¬ StuckInput o bytes ∧ (¬ ∃ k, PanicInput o k bytes) ∧ ∃ e, SaysAll o bytes e)) := by
  obtain ⟨h1, h2, h3, -⟩ := C06_outcomes o bytes
  refine ⟨⟨h1, h2, h3, fun _ => C72_iff⟩, ?_⟩
  simp only [← h1, ← h2, ← h3, ← C72_iff]
  simp only [accepts_iff, hangs_iff, panics_iff, rejects_iff]
  rcases outcome_cases o bytes with ⟨cf, h⟩ | ⟨e, h⟩ | ⟨k, h⟩ | h
  · rw [accepts_iff.mp h]; exact .inl ⟨⟨_, rfl⟩, by simp, by simp, by simp⟩
  · rw [rejects_iff.mp h]; exact .inr (.inr (.inr ⟨by simp, by simp, by simp, ⟨_, rfl⟩⟩))
  · rw [panics_iff.mp h]; exact .inr (.inr (.inl ⟨by simp, by simp, ⟨_, rfl⟩, by simp⟩))
  · rw [hangs_iff.mp h]; exact .inr (.inl ⟨by simp, by simp, by simp, by simp⟩)

/-! ## Cases -/

theorem told {o : Opts} {bytes : Bytes} {m : String} {cs : List String} (h : errorOf (run o 9 bytes) = some (m, cs)) : SaysAll o bytes ⟨m, cs⟩ :=
  C72_iff.mp (rejects_of h)

/-- Attributes: the number of attributes, the name, the length, fewer bytes than declared, a size that is not the declared one, a declared length
that is not the one of this attribute. -/
theorem C72_attribute_cases :
    SaysAll debug (tiny.take 37) ⟨"Unexpected end of stream reading u2 at index 36", ["class"]⟩ ∧
    SaysAll debug (membered [0, 1, 0, 0, 0, 3, 0, 4, 0, 1, 0, 2]) ⟨"Unexpected constant pool reference type", ["name field of attribute 0", "class field 0"]⟩ ∧
    SaysAll debug (membered [0, 1, 0, 0, 0, 3, 0, 4, 0, 2, 0, 3, 0, 0, 0, 1, 7, 0, 3, 0])
      ⟨"Unexpected end of stream reading u4 at index 81", ["class field 0"]⟩ ∧
    SaysAll debug (membered [0, 1, 0, 0, 0, 3, 0, 4, 0, 1, 0, 3, 0, 0, 0, 2, 7]) ⟨"Unexpected end of stream reading attributes at index 78", ["class field 0"]⟩ ∧
    SaysAll debug (withAttribute "Exceptions" (u2 0 ++ [0])) ⟨"Length mismatch when reading attribute 0", ["class method 0"]⟩ ∧
    SaysAll debug (withAttribute "NestHost" [0, 2, 0]) ⟨"Unexpected length 3", ["NestHost attribute 0", "class method 0"]⟩ ∧
    SaysAll debug (withAttribute "SourceDebugExtension" [0xff])
      ⟨"invalid modified utf8", ["modified utf8 data of SourceDebugExtension attribute 0", "class method 0"]⟩ := by
  refine ⟨?_, ?_, ?_, ?_, ?_, ?_, ?_⟩ <;> exact told (by decide +kernel)

/-- Code attributes: cut-off code, the type of an exception, an attribute of the code, the instructions, and of two faults the first one that is
looked at: the attributes are looked at before the instructions. -/
theorem C72_code_cases :
    SaysAll debug (withAttribute "Code" (u2 1 ++ u2 1 ++ u4 200 ++ [0xb1] ++ u2 0 ++ u2 0))
      ⟨"Unexpected end of stream reading code attribute at index 78", ["Code attribute 0", "class method 0"]⟩ ∧
    SaysAll debug (withAttribute "Code" (u2 1 ++ u2 1 ++ u4 1 ++ [0xb1] ++ u2 2 ++ [0, 0, 0, 1, 0, 0, 0, 0] ++ [0, 0, 0, 1, 0, 0, 0, 1] ++ u2 0))
      ⟨"Unexpected constant pool reference type", ["catch type of exception table entry 1", "Code attribute 0", "class method 0"]⟩ ∧
    SaysAll debug (withAttribute "Code" (u2 1 ++ u2 1 ++ u4 1 ++ [0xb1] ++ u2 0 ++ u2 1 ++ [0, 2]))
      ⟨"Unexpected constant pool reference type", ["name field of attribute 0", "code attribute", "Code attribute 0", "class method 0"]⟩ ∧
    SaysAll debug noOpcode ⟨"Unexpected opcode 203 at index 1", ["bytecode", "Code attribute 0", "class method 0"]⟩ ∧
    SaysAll debug wildPair ⟨"Invalid destination after applying jump",
      ["match offset 7", "opcode at offset 0", "bytecode", "Code attribute 0", "class method 0"]⟩ ∧
    SaysAll debug (withAttribute "Code" (u2 1 ++ u2 1 ++ u4 1 ++ [0xcb] ++ u2 0 ++ u2 1 ++ [0, 2]))
      ⟨"Unexpected constant pool reference type", ["name field of attribute 0", "code attribute", "Code attribute 0", "class method 0"]⟩ := by
  refine ⟨?_, ?_, ?_, ?_, ?_, ?_⟩ <;> exact told (by decide +kernel)

/-- Record attributes: the name and the descriptor of a component, and an attribute of a component. -/
theorem C72_record_cases :
    SaysAll debug (withAttribute "Record" (u2 1 ++ [0, 2])) ⟨"Unexpected constant pool reference type", ["name of entry 0", "Record attribute 0", "class method 0"]⟩ ∧
    SaysAll debug (withAttribute "Record" (u2 1 ++ [0, 7])) ⟨"Invalid unqualified name for entry 0", ["Record attribute 0", "class method 0"]⟩ ∧
    SaysAll debug (withAttribute "Record" (u2 2 ++ [0, 4, 0, 6, 0, 0] ++ [0, 1, 0, 5]))
      ⟨"Unexpected field type", ["descriptor of entry 1", "Record attribute 0", "class method 0"]⟩ ∧
    SaysAll debug (withAttribute "Record" (u2 2 ++ [0, 4, 0, 6, 0, 0] ++ [0, 1, 0, 6, 0, 1, 0, 2]))
      ⟨"Unexpected constant pool reference type", ["name field of attribute 0", "entry 1", "Record attribute 0", "class method 0"]⟩ := by
  refine ⟨?_, ?_, ?_, ?_⟩ <;> exact told (by decide +kernel)

/-- Nothing is said about a class file, also with the richest examples, nor about an input that panics or that is followed for ever. -/
theorem C72_silent : (∀ e, ¬ SaysAll debug rich e) ∧ (∀ e, ¬ SaysAll debug full e) ∧ (∀ e, ¬ SaysAll debug fullRange e) ∧ ∀ e, ¬ SaysAll debug cyclic e := by
  refine ⟨fun e h => ?_, fun e h => ?_, fun e h => ?_, fun e h => ?_⟩
  · have h1 := rejects_iff.mp (C72_iff.mpr h)
    rw [accepts_iff.mp rich_accepted] at h1; cases h1
  · have h1 := rejects_iff.mp (C72_iff.mpr h)
    rw [accepts_iff.mp full_accepted] at h1; cases h1
  · have h1 := rejects_iff.mp (C72_iff.mpr h)
    rw [panics_iff.mp C06_witnesses.2.1] at h1; cases h1
  · have h1 := rejects_iff.mp (C72_iff.mpr h)
    rw [hangs_iff.mp (C05_cyclic_hangs.1)] at h1; cases h1

end Cafebabe
