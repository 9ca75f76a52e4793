import Verif.Proofs.GlueSize
import Verif.Props.DepthProps
import Verif.Props.SizeProps
/-!
# Properties of dropping and printing a parsed class: C78
-/

namespace Cafebabe
open Spec Examples Glue

/-! ## C78 Dropping and printing a class -/

/-- Both end, for every class a user can hold, and the calls inside each other that they need are in proportion to the nesting of the class
(which is what parsing needs, C27), not more and not less. -/
theorem C78_ends (cf : ClassFile) : ∃ n depth, Visits cf n depth ∧ 2 * nesting cf ≤ depth ∧ depth ≤ 5 * nesting cf + 9 :=
  ⟨_, _, visits cf, class_height cf⟩

/-- The numbers are determined by the class. -/
theorem C78_determined {cf : ClassFile} {n n' depth depth' : Nat} (h : Visits cf n depth) (h' : Visits cf n' depth') : n = n' ∧ depth = depth' := by
  have key : ∀ {n n' depth depth'}, Visits cf n depth → Visits cf n' depth' → depth ≤ depth' := by
    intro n n' depth depth' h h'
    by_cases hd : depth ≤ depth'
    · exact hd
    · have h1 := h.2 depth' (by omega)
      rw [h'.1 depth' (Nat.le_refl _)] at h1
      cases h1
  obtain rfl : depth = depth' := Nat.le_antisymm (key h h') (key h' h)
  have h1 := h.1 depth (Nat.le_refl _)
  rw [h'.1 depth (Nat.le_refl _)] at h1
  exact ⟨(Option.some.inj h1).symm, rfl⟩

/-- If parsing returned a class and needed at most `d` calls inside each other, then dropping and printing it need at most `5 d + 9`. -/
theorem C78_parsed {o : Opts} {d : Nat} {bytes : Bytes} {cf : ClassFile} (h : run o d bytes = .ok cf) {n depth : Nat} (hv : Visits cf n depth) :
    depth ≤ 5 * d + 9 := by
  obtain ⟨n', depth', h1, -, h3⟩ := C78_ends cf
  obtain ⟨-, rfl⟩ := C78_determined hv h1
  have := C27_lower_bound h
  omega

/-- In terms of the size of the file. -/
theorem C78_depth {o : Opts} {bytes : Bytes} {cf : ClassFile} (h : Accepts o bytes cf) {n depth : Nat} (hv : Visits cf n depth) :
    depth ≤ 5 * bytes.length + 19 := by
  obtain ⟨d, hd⟩ := h
  have h1 := C27_upper_bound (o := o) (bytes := bytes) (d := d) (by rw [hd]; exact fun h => by cases h)
  have := C78_parsed (h1.trans hd) hv
  omega

/-- The number of values visited is linear in the size of the file and the number of parameters of all methods (for which see C51). -/
theorem C78_number {o : Opts} {bytes : Bytes} {cf : ClassFile} (h : Accepts o bytes cf) {n depth : Nat} (hv : Visits cf n depth) :
    n ≤ 16 * bytes.length + 5 * (cf.methods.map fun m => m.descriptor.parameters.length).sum := by
  obtain ⟨rfl, -⟩ := C78_determined hv (visits cf)
  have h1 := class_size cf
  have h2 := C51_size h
  omega

/-- No depth is enough for all classes: for every `n` there is an accepted file of `3 n + 60` bytes whose class needs at least `2 n + 4` calls inside
each other to be dropped or printed. -/
theorem C78_unbounded (c p : Bool) (n : Nat) (hn : 3 * n + 3 < 2 ^ 32) :
    ∃ bytes cf, bytes.length = 3 * n + 60 ∧ Accepts (opts c p) bytes cf ∧ ∀ d, d < 2 * n + 4 → cf.visit d = none := by
  obtain ⟨bytes, cf, h1, h2, h3, -⟩ := C27_accepted c p n hn
  obtain ⟨k, depth, h4, h5, -⟩ := C78_ends cf
  exact ⟨bytes, cf, h1, h2, fun d hd => h4.2 d (by omega)⟩

/-! ### A case -/

/-- A class with bytecode: 168 values, 16 calls inside each other. -/
theorem C78_case : Visits richCf 168 16 := by
  have h1 : richCf.visit 16 = some 168 := by decide +kernel
  have h2 : richCf.visit 15 = none := by decide +kernel
  obtain ⟨n, depth, hv, -⟩ := C78_ends richCf
  have h3 : depth ≤ 16 := by
    by_cases h : depth ≤ 16
    · exact h
    · rw [hv.2 16 (by omega)] at h1; cases h1
  have h4 : ¬ depth ≤ 15 := fun h => by rw [hv.1 15 h] at h2; cases h2
  obtain rfl : depth = 16 := by omega
  rw [hv.1 16 (Nat.le_refl _)] at h1
  cases h1
  exact hv

end Cafebabe
