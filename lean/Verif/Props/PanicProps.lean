import Verif.Proofs.Panics
import Verif.Props.Whole
import Verif.Props.RichFacts
/-!
# Properties: exactly when parsing panics (C06)
-/

namespace Cafebabe
open Spec Examples

/-- The inputs on which parsing panics, exactly. A panic of kind `overflow` needs a build with overflow checks and is either the slot
counter of the pool, or arithmetic on a code array that was reached with everything before it well formed; a panic of kind `nonUtf8` is
an EnclosingMethod attribute, reached with everything before it well formed, whose NameAndType has an undecodable descriptor. -/
theorem C06_panics_iff {o : Opts} {bytes : Bytes} {k : PanicKind} : Panics o bytes k ↔ PanicInput o k bytes := panics_iff_input

/-- Without overflow checks only the attributes of a member or of the class can panic, and only in that one way. -/
theorem C06_release_iff {o : Opts} {bytes : Bytes} {k : PanicKind} (ho : o.checks = false) :
    Panics o bytes k ↔ k = .nonUtf8 ∧ MemberPanic o .nonUtf8 bytes := by
  constructor
  · intro h
    obtain ⟨rfl, -⟩ := C06_release ho h
    rcases C06_panics_iff.mp h with ⟨h, -⟩ | h
    · cases h
    · exact ⟨rfl, h⟩
  · rintro ⟨rfl, h⟩; exact C06_panics_iff.mpr (.inr h)

/-- The four outcomes of every call are each decided by the input alone: accepted, without end, panicking, and rejected otherwise. -/
theorem C06_outcomes (o : Opts) (bytes : Bytes) :
    (∀ cf, Accepts o bytes cf ↔ ClassFileEnc o cf bytes) ∧ (Hangs o bytes ↔ StuckInput o bytes) ∧
    (∀ k, Panics o bytes k ↔ PanicInput o k bytes) ∧
    ((∃ e, Rejects o bytes e) ↔ (¬ ∃ cf, ClassFileEnc o cf bytes) ∧ ¬ StuckInput o bytes ∧ ¬ ∃ k, PanicInput o k bytes) := by
  refine ⟨fun cf => accepts_iff_enc, hangs_iff_stuck, fun k => C06_panics_iff, ?_, ?_⟩
  · rintro ⟨e, he⟩
    rw [rejects_iff] at he
    refine ⟨?_, ?_, ?_⟩
    · rintro ⟨cf, h⟩
      rw [accepts_iff.mp (accepts_iff_enc.mpr h)] at he; cases he
    · intro h
      rw [hangs_iff.mp (hangs_iff_stuck.mpr h)] at he; cases he
    · rintro ⟨k, h⟩
      rw [panics_iff.mp (C06_panics_iff.mpr h)] at he; cases he
  · rintro ⟨h1, h2, h3⟩
    rcases outcome_cases o bytes with ⟨cf, h⟩ | h | ⟨k, h⟩ | h
    · exact absurd ⟨cf, accepts_iff_enc.mp h⟩ h1
    · exact h
    · exact absurd ⟨k, C06_panics_iff.mp h⟩ h3
    · exact absurd (hangs_iff_stuck.mp h) h2

/-- All three kinds of panicking input exist, and an accepted file is not one. -/
theorem C06_inputs : MemberPanic release .nonUtf8 oddEnclosing ∧ PanicInput debug .overflow fullRange ∧ PanicInput debug .overflow farJump ∧
    ∀ k, ¬ PanicInput debug k rich := by
  obtain ⟨h1, h2, h3⟩ := C06_witnesses
  refine ⟨((C06_release_iff rfl).mp h1).2, C06_panics_iff.mp h2, C06_panics_iff.mp h3, fun k h => ?_⟩
  have h4 := panics_iff.mp (C06_panics_iff.mpr h)
  rw [accepts_iff.mp (rich_accepted)] at h4
  cases h4

end Cafebabe
