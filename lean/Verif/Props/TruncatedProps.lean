import Verif.Proofs.Extend
import Verif.Props.RichFacts
import Verif.Props.Whole
/-!
# Property C54: input that comes in pieces
-/

namespace Cafebabe
open Spec Examples

/-- The error of the final check. -/
theorem run_extra_eq {o : Opts} {d : Nat} {bytes : Bytes} {cf : ClassFile} {ix : Nat} (h : readParts (envOf o d) bytes 0 = .ok (cf, ix))
    (hix : ix ≠ bytes.length) : run o d bytes = .err ⟨s!"Extra bytes found at index {ix} after reading class file", []⟩ := by
  rw [run_eq, readClassFile_parts]
  show Res.bind (P.bind (readParts (envOf o d)) (fun cf => checkAtEnd >>= fun _ => finish cf) bytes 0) _ = _
  unfold P.bind
  rw [h]
  show Res.bind (P.bind checkAtEnd (fun _ => finish cf) bytes ix) _ = _
  unfold P.bind checkAtEnd
  rw [if_pos hix]
  rfl

theorem run_finish {o : Opts} {d : Nat} {bytes : Bytes} {cf : ClassFile} (h : readParts (envOf o d) bytes 0 = .ok (cf, bytes.length)) :
    run o d bytes = Res.bind (finish cf bytes bytes.length) fun x => .ok x.1 := by
  rw [run_eq, readClassFile_parts]
  show Res.bind (P.bind (readParts (envOf o d)) (fun cf => checkAtEnd >>= fun _ => finish cf) bytes 0) _ = _
  unfold P.bind
  rw [h]
  show Res.bind (P.bind checkAtEnd (fun _ => finish cf) bytes bytes.length) _ = _
  unfold P.bind checkAtEnd
  rw [if_neg (by simp)]

theorem run_parts_panic {o : Opts} {d : Nat} {bytes : Bytes} {k : PanicKind} (h : readParts (envOf o d) bytes 0 = .panic k) : run o d bytes = .panic k := by
  rw [run_eq, readClassFile_parts]
  show Res.bind (P.bind (readParts (envOf o d)) (fun cf => checkAtEnd >>= fun _ => finish cf) bytes 0) _ = _
  unfold P.bind
  rw [h]; rfl

theorem run_parts_diverge {o : Opts} {d : Nat} {bytes : Bytes} (h : readParts (envOf o d) bytes 0 = .diverge) : run o d bytes = .diverge := by
  rw [run_eq, readClassFile_parts]
  show Res.bind (P.bind (readParts (envOf o d)) (fun cf => checkAtEnd >>= fun _ => finish cf) bytes 0) _ = _
  unfold P.bind
  rw [h]; rfl

/-- The last checks end normally. -/
theorem finish_ends (cf : ClassFile) (bytes : Bytes) : (∃ e, finish cf bytes bytes.length = .err e) ∨ ∃ x, finish cf bytes bytes.length = .ok x := by
  have h : Tame 1 (fun _ => False) 0 (finish cf) :=
    Tame.seq (m := 0) (checkModuleEmpty_tame _ _ _ _ _) fun _ => Tame.seq (m := 0) (Tame.lift (validateBootstrapMethods_calm _ _)) fun _ => Tame.pure _
  have h := h bytes bytes.length (Nat.le_refl _)
  unfold TameAt at h
  cases hf : finish cf bytes bytes.length with
  | ok x => exact .inr ⟨x, rfl⟩
  | err e => exact .inl ⟨e, rfl⟩
  | panic k => rw [hf] at h; exact h.elim
  | diverge => rw [hf] at h; simp only at h; omega

/-- What the outcome on an input says about its extensions. -/
theorem run_grows (o : Opts) (d : Nat) (bytes : Bytes) :
    (∃ e m n, run o d bytes = .err e ∧ CutAt bytes.length e.msg m n ∧ ∀ rest, (bytes ++ rest).length < m + n → run o d (bytes ++ rest) = run o d bytes) ∨
    ((∀ cf, run o d bytes ≠ .ok cf) ∧ ∀ extra, run o d (bytes ++ extra) = run o d bytes) ∨
    (((∃ e, run o d bytes = .err e) ∨ ∃ cf, run o d bytes = .ok cf) ∧ ∀ extra, extra ≠ [] → run o d (bytes ++ extra) =
      .err ⟨s!"Extra bytes found at index {bytes.length} after reading class file", []⟩) := by
  rcases readParts_grows (envOf o d) 0 bytes (Nat.zero_le _) with hs | ⟨hg, -⟩
  · rcases run_short hs with hs | he
    · exact .inl hs
    · exact absurd he (run_no_bounds o d bytes)
  · right
    cases hp : readParts (envOf o d) bytes 0 with
    | ok a =>
      obtain ⟨cf, ix⟩ := a
      by_cases hix : ix = bytes.length
      · right
        subst hix
        refine ⟨?_, fun extra hx => run_extra_eq ((hg extra).trans hp) (by
          rw [List.length_append]
          have := List.length_pos_iff.mpr hx
          omega)⟩
        rw [run_finish hp]
        rcases finish_ends cf bytes with ⟨e, he⟩ | ⟨x, hx⟩
        · rw [he]; exact .inl ⟨e, rfl⟩
        · rw [hx]; exact .inr ⟨x.1, rfl⟩
      · left
        rw [run_extra_eq hp hix]
        refine ⟨nofun, fun extra => run_extra_eq ((hg extra).trans hp) ?_⟩
        have := parts_inside hp
        rw [List.length_append]
        omega
    | err e => exact .inl ⟨by rw [run_parts_err hp]; exact nofun, fun extra => by rw [run_parts_err hp, run_parts_err ((hg extra).trans hp)]⟩
    | panic k => exact .inl ⟨by rw [run_parts_panic hp]; exact nofun, fun extra => by rw [run_parts_panic hp, run_parts_panic ((hg extra).trans hp)]⟩
    | diverge => exact .inl ⟨by rw [run_parts_diverge hp]; exact nofun, fun extra => by rw [run_parts_diverge hp, run_parts_diverge ((hg extra).trans hp)]⟩

/-- C54: every proper prefix of an accepted class file is rejected, and the error names an item that is cut by the end of the prefix and is
complete in the class file. -/
theorem C54_truncated {o : Opts} {bytes extra : Bytes} {cf : ClassFile} (h : Accepts o (bytes ++ extra) cf) (hx : extra ≠ []) :
    ∃ e ix n, Rejects o bytes e ∧ CutAt bytes.length e.msg ix n ∧ ix + n ≤ (bytes ++ extra).length := truncation_says h hx

/-- C54: an accepted class file with bytes added is rejected, and the error says where the class file ended. -/
theorem C54_extra {o : Opts} {bytes extra : Bytes} {cf : ClassFile} (h : Accepts o bytes cf) (hx : extra ≠ []) :
    Rejects o (bytes ++ extra) ⟨s!"Extra bytes found at index {bytes.length} after reading class file", []⟩ := by
  obtain ⟨d, h⟩ := h
  rcases run_grows o d bytes with ⟨e, m, n, he, -⟩ | ⟨hn, -⟩ | ⟨-, hf⟩
  · rw [h] at he; cases he
  · exact absurd h (hn cf)
  · exact ⟨d, hf extra hx⟩

/-- C54: what a rejection says about longer inputs. Either the input ends in the middle of an item: the error names this item, and as long
as the item is not complete, longer inputs are rejected with the same error. Or the rejection is final and all longer inputs are rejected with
the same error. Or the input ended exactly where the class file ends, and all longer inputs are rejected because of the additional bytes. -/
theorem C54_final {o : Opts} {bytes : Bytes} {e : ParseError} (h : Rejects o bytes e) :
    (∃ ix n, CutAt bytes.length e.msg ix n ∧ ∀ extra, (bytes ++ extra).length < ix + n → Rejects o (bytes ++ extra) e) ∨
    (∀ extra, Rejects o (bytes ++ extra) e) ∨
    ∀ extra, extra ≠ [] → Rejects o (bytes ++ extra) ⟨s!"Extra bytes found at index {bytes.length} after reading class file", []⟩ := by
  obtain ⟨d, h⟩ := h
  rcases run_grows o d bytes with ⟨e', m, n, he, hm, hs⟩ | ⟨-, hs⟩ | ⟨-, hf⟩
  · rw [h] at he; cases he
    exact .inl ⟨m, n, hm, fun extra hl => ⟨d, by rw [hs extra hl, h]⟩⟩
  · exact .inr (.inl fun extra => ⟨d, by rw [hs extra, h]⟩)
  · exact .inr (.inr fun extra hx => ⟨d, hf extra hx⟩)

/-- The message says that the input has ended. -/
theorem cutAt_saysEnd {length ix n : Nat} {m : String} (h : CutAt length m ix n) : SaysEnd m := by
  obtain ⟨what, -, rfl, -⟩ := h
  unfold SaysEnd
  simp only [String.toList_append]
  refine List.IsPrefix.trans ?_ (List.prefix_append _ _)
  refine List.IsPrefix.trans ?_ (List.prefix_append _ _)
  refine List.IsPrefix.trans ?_ (List.prefix_append _ _)
  decide

/-- C54: no continuation makes an input acceptable that was rejected for another reason than its end. -/
theorem C54_hopeless {o : Opts} {bytes extra : Bytes} {e : ParseError} {cf : ClassFile} (h : Rejects o bytes e) (ha : Accepts o (bytes ++ extra) cf) :
    SaysEnd e.msg := by
  by_cases hx : extra = []
  · subst hx
    rw [List.append_nil] at ha
    rw [accepts_iff] at ha; rw [rejects_iff] at h
    rw [h] at ha; cases ha
  · obtain ⟨e', ix, n, he, hm, -⟩ := C54_truncated ha hx
    rw [rejects_iff] at h he
    rw [h] at he; cases he
    exact cutAt_saysEnd hm

/-- C54: a panic is not avoided by more input. -/
theorem C54_panics {o : Opts} {bytes : Bytes} {k : PanicKind} (h : Panics o bytes k) (extra : Bytes) : Panics o (bytes ++ extra) k := by
  obtain ⟨d, h⟩ := h
  rcases run_grows o d bytes with ⟨e', m, n, he, -⟩ | ⟨-, hs⟩ | ⟨hf, -⟩
  · rw [h] at he; cases he
  · exact ⟨d, by rw [hs extra, h]⟩
  · rcases hf with ⟨e, he⟩ | ⟨e, he⟩ <;> rw [h] at he <;> cases he

/-- C54: endless recursion is not avoided by more input. -/
theorem C54_hangs {o : Opts} {bytes : Bytes} (h : Hangs o bytes) (extra : Bytes) : Hangs o (bytes ++ extra) := by
  intro d
  have h := h d
  rcases run_grows o d bytes with ⟨e', m, n, he, -⟩ | ⟨-, hs⟩ | ⟨hf, -⟩
  · rw [h] at he; cases he
  · rw [hs extra, h]
  · rcases hf with ⟨e, he⟩ | ⟨e, he⟩ <;> rw [h] at he <;> cases he

/-! ## Examples: a class file cut in its pool, a class file with a wrong constant, a panic and endless recursion -/

example : ∃ e ix n, Rejects debug (rich.take 100) e ∧ CutAt (rich.take 100).length e.msg ix n ∧ ix + n ≤ (rich.take 100 ++ rich.drop 100).length :=
  C54_truncated (extra := rich.drop 100) (by rw [List.take_append_drop]; exact rich_accepted) (by decide +kernel)

example : Rejects debug (rich ++ [0]) ⟨s!"Extra bytes found at index {rich.length} after reading class file", []⟩ :=
  C54_extra rich_accepted (by decide)

/-- The constant tag 2 does not exist. -/
def badTag : Bytes := header 0 52 ++ u2 3 ++ [2]

theorem badTag_checks : (match run debug 3 badTag with
    | .err e => !decide (SaysEnd e.msg)
    | _ => false) = true := by
  unfold SaysEnd
  decide +kernel

example : ∃ e, Rejects debug badTag e ∧ ¬ SaysEnd e.msg ∧ ∀ extra cf, ¬ Accepts debug (badTag ++ extra) cf := by
  have h := badTag_checks
  split at h
  · rename_i e hr
    have hn : ¬ SaysEnd e.msg := by simpa using h
    exact ⟨e, ⟨3, hr⟩, hn, fun extra cf ha => hn (C54_hopeless ⟨3, hr⟩ ha)⟩
  · cases h

example (extra : Bytes) : Panics debug (oddEnclosing ++ extra) .nonUtf8 := by
  refine C54_panics ⟨9, ?_⟩ extra
  have h := oddEnclosing_panics
  cases hr : run debug 9 oddEnclosing with
  | panic k => rw [hr] at h; simp only [panicOf, Option.some.injEq] at h; rw [h]
  | ok _ => rw [hr] at h; cases h
  | err _ => rw [hr] at h; cases h
  | diverge => rw [hr] at h; cases h

example (extra : Bytes) : Hangs debug (cyclic ++ extra) := C54_hangs C05_cyclic_hangs.1 extra

end Cafebabe
