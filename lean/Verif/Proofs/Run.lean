import Verif.Proofs.Stop
/-!
# Proofs: outcomes of a call, without the recursion budget
-/

namespace Cafebabe
open Spec

/-- The environment of a run. -/
def envOf (o : Opts) (d : Nat) : Env := { decode := o.decode, overflowChecks := o.checks, depth := d, parseBytecode := o.parseBytecode }

theorem envOf_opts (o : Opts) (d : Nat) : (envOf o d).opts = o := rfl

theorem run_mono {o : Opts} {d e : Nat} (h : d ≤ e) (bytes : Bytes) : run o d bytes = .diverge ∨ run o d bytes = run o e bytes :=
  parseClassWithOptions_agree (b := .budget) (e := envOf o d) (f := envOf o e) ⟨rfl, rfl, .inr ⟨rfl, h⟩, .inl rfl⟩ bytes

theorem run_enough {o : Opts} {bytes : Bytes} {d : Nat} (h : bytes.length + 2 ≤ d) : run o d bytes = run o (bytes.length + 2) bytes := by
  rcases run_mono (o := o) h bytes with h1 | h1
  · rw [h1]
    have a := (parse_stop (envOf o (bytes.length + 2)) bytes (by simp [envOf]) (by simp [envOf])).2.mp h1
    exact (parse_stop (envOf o d) bytes (by simp [envOf]; omega) (by simp [envOf]; omega)).2.mpr a
  · exact h1.symm

/-- A finished run gives the same result with the sufficient budget. -/
theorem run_done {o : Opts} {bytes : Bytes} {d : Nat} {r : Res ClassFile} (hr : run o d bytes = r) (hd : r ≠ .diverge) :
    run o (bytes.length + 2) bytes = r := by
  rcases Nat.le_total d (bytes.length + 2) with h | h
  · rcases run_mono (o := o) h bytes with h1 | h1
    · rw [hr] at h1; exact absurd h1 hd
    · rw [← h1, hr]
  · rw [← run_enough h, hr]

theorem accepts_iff {o : Opts} {bytes : Bytes} {cf : ClassFile} : Accepts o bytes cf ↔ run o (bytes.length + 2) bytes = .ok cf :=
  ⟨fun ⟨_, h⟩ => run_done h (by simp), fun h => ⟨_, h⟩⟩

theorem rejects_iff {o : Opts} {bytes : Bytes} {e : ParseError} : Rejects o bytes e ↔ run o (bytes.length + 2) bytes = .err e :=
  ⟨fun ⟨_, h⟩ => run_done h (by simp), fun h => ⟨_, h⟩⟩

theorem panics_iff {o : Opts} {bytes : Bytes} {k : PanicKind} : Panics o bytes k ↔ run o (bytes.length + 2) bytes = .panic k :=
  ⟨fun ⟨_, h⟩ => run_done h (by simp), fun h => ⟨_, h⟩⟩

theorem hangs_iff {o : Opts} {bytes : Bytes} : Hangs o bytes ↔ run o (bytes.length + 2) bytes = .diverge := by
  refine ⟨fun h => h _, fun h d => ?_⟩
  rcases Nat.le_total d (bytes.length + 2) with hd | hd
  · rcases run_mono (o := o) hd bytes with h1 | h1
    · exact h1
    · rw [h1, h]
  · rw [run_enough hd, h]

theorem accepts_iff_enc {o : Opts} {bytes : Bytes} {cf : ClassFile} : Accepts o bytes cf ↔ ClassFileEnc o cf bytes := by
  rw [accepts_iff]
  exact parseClassWithOptions_ok (envOf o (bytes.length + 2)) bytes (by simp [envOf]) (by simp [envOf]) cf

theorem hangs_iff_stuck {o : Opts} {bytes : Bytes} : Hangs o bytes ↔ StuckInput o bytes := by
  rw [hangs_iff]
  exact (parse_stop (envOf o (bytes.length + 2)) bytes (by simp [envOf]) (by simp [envOf])).2

theorem panics_cause {o : Opts} {bytes : Bytes} {k : PanicKind} (h : Panics o bytes k) : PanicCause (envOf o 0) bytes k :=
  (parse_stop (envOf o (bytes.length + 2)) bytes (by simp [envOf]) (by simp [envOf])).1 k (panics_iff.mp h)

theorem panics_counter {o : Opts} {bytes : Bytes} (hck : o.checks = true) (h : CounterOverflow o bytes) : Panics o bytes .overflow :=
  ⟨bytes.length + 2, parse_counter_overflow (envOf o (bytes.length + 2)) bytes (by simp [envOf]) (by simp [envOf]) hck h⟩

/-- The same outcome in both senses: same result, or both without result. -/
theorem outcome_cases (o : Opts) (bytes : Bytes) :
    (∃ cf, Accepts o bytes cf) ∨ (∃ e, Rejects o bytes e) ∨ (∃ k, Panics o bytes k) ∨ Hangs o bytes := by
  cases h : run o (bytes.length + 2) bytes with
  | ok cf => exact .inl ⟨cf, accepts_iff.mpr h⟩
  | err e => exact .inr (.inl ⟨e, rejects_iff.mpr h⟩)
  | panic k => exact .inr (.inr (.inl ⟨k, panics_iff.mpr h⟩))
  | diverge => exact .inr (.inr (.inr (hangs_iff.mpr h)))

end Cafebabe
