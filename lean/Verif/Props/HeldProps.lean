import Verif.Proofs.ReserveExact
import Verif.Props.ReserveProps
import Verif.Props.SlotCount
import Verif.Props.VaryProps
/-!
# Properties: what is reserved for an accepted input is what the result holds (C74)
-/

namespace Cafebabe
open Spec Examples Timed

/-- The declared number of constants is in bytes 8 and 9. -/
def declaredConstants (bytes : Bytes) (count : UInt16) : Prop := (bytes.drop 8).take 2 = u2 count

/-- For an accepted input exactly as many rows are reserved as constants are declared and as the tables of the result have rows: nothing is reserved
too much, nothing that was reserved is thrown away, and no table outgrows what was reserved for it. -/
theorem C74_exact {o : Opts} {d : Nat} {bytes : Bytes} {cf : ClassFile} (h : run o d bytes = .ok cf) :
    ∃ count, declaredConstants bytes count ∧ reserved o d bytes = count.toNat + classRows cf := by
  rw [counted_steps]
  rw [run_eq, ← readClassFileR_out (envOf o d) bytes 0] at h
  cases hr : (readClassFileR (envOf o d) bytes 0).out with
  | ok r =>
    rw [hr] at h
    cases h
    obtain ⟨count, ix1, h1, h2⟩ := readClassFileR_spends (envOf o d) bytes r.1 r.2 hr
    refine ⟨count, ?_, h2⟩
    have hl : 8 ≤ bytes.length := by
      by_cases hl : 8 ≤ bytes.length
      · exact hl
      · unfold readU2 at h1
        rw [if_pos (by omega)] at h1
        cases h1
    rw [(Exact.readU2 : Exact (bytes.length + 1) readU2 fun b => lit (u2 b)) bytes 8 hl (by omega)] at h1
    obtain ⟨seg, rest, hd, rfl, -⟩ := h1
    unfold declaredConstants
    rw [hd]
    exact List.take_left' rfl
  | _ => rw [hr] at h; cases h

/-- So, unless the slot counter overflows (C08), for an accepted input as many rows are reserved as the result has, constants included, or one less. -/
theorem C74_held {o : Opts} {d : Nat} {bytes : Bytes} {cf : ClassFile} (h : run o d bytes = .ok cf) (hn : ¬ CounterOverflow o bytes) :
    reserved o d bytes ≤ cf.constantPool.length + classRows cf ∧ cf.constantPool.length + classRows cf ≤ reserved o d bytes + 1 := by
  obtain ⟨count, h1, h2⟩ := C74_exact h
  obtain ⟨count', rest, hb, hc⟩ := C08_slots ⟨d, h⟩ hn
  have e : count = count' := by
    have e1 : u2 count' = u2 count := by
      rw [← h1, hb, List.append_assoc]
      rw [List.drop_append_of_le_length (by simp [header, u2_length])]
      rfl
    exact (u2_inj e1).symm
  subst e
  omega

/-- The counts for an accepted file with tables of many kinds, and for one whose last constant, a Long, is not counted in full (C76), where one row less is
reserved than the result has. -/
theorem C74_held_cases :
    (Accepts debug rich richCf ∧ reserved debug 9 rich = 64 ∧ declaredConstants rich 38 ∧ classRows richCf = 26 ∧ richCf.constantPool.length = 38) ∧
    ∃ cf, Accepts debug (ending 6) cf ∧ reserved debug 9 (ending 6) + 1 = cf.constantPool.length + classRows cf := by
  refine ⟨⟨rich_accepted, by decide +kernel, by unfold declaredConstants; decide +kernel, by decide +kernel, by decide +kernel⟩, ?_⟩
  have hr : reserved debug 9 (ending 6) = 6 := by decide +kernel
  obtain ⟨cf, h, c⟩ := checked (o := debug) (d := 9) (bytes := ending 6)
    (fun cf => cf.constantPool.length == 7 && classRows cf == 0) (by decide +kernel)
  simp only [Bool.and_eq_true, beq_iff_eq] at c
  exact ⟨cf, h, by rw [hr, c.1, c.2]⟩

end Cafebabe
