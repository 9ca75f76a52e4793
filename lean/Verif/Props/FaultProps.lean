import Verif.Proofs.Faults
import Verif.Props.PanicProps
import Verif.Props.ErrorProps
/-!
# Properties: the outermost context of an error names the first place that is wrong (C49)
-/

namespace Cafebabe
open Spec Examples

/-- Different places have different contexts. -/
theorem C49_contexts_differ {p q : Place} (h : p.context = q.context) : p = q := by
  have hs : ∀ (a : String) {i j : Nat}, a ++ toString i = a ++ toString j → i = j := fun a i j h =>
    Nat.repr_injective (String.append_right_inj a |>.mp h)
  have ts : ∀ s : String, toString s = s := fun _ => rfl
  cases p <;> cases q <;> simp only [Place.context, ts, Option.some.injEq, reduceCtorEq] at h <;> first
    | rfl
    | exact congrArg _ (hs _ h)
    | (exfalso
       have h := congrArg String.toList h
       try simp only [String.toList_append] at h
       first
       | (have := congrArg (List.take 1) h; simp at this; done)
       | (have := congrArg (List.take 2) h; simp at this; done)
       | (have := congrArg (List.take 7) h; simp at this; done)
       | (have := congrArg (List.take 15) h; simp at this; done)
       | (have := congrArg (List.take 21) h; simp at this; done))

theorem rejects_context {o : Opts} {bytes : Bytes} (c : Option String) :
    (∃ e, Rejects o bytes e ∧ e.contexts.getLast? = c) ↔ ∃ q : Place, q.context = c ∧ FaultAt o q bytes := by
  have h := file_blames (envOf o (bytes.length + 2)) (by simp [envOf]) bytes 0 (Nat.zero_le _) (by simp [envOf]) c
  rw [List.drop_zero, envOf_opts] at h
  rw [← h]
  refine exists_congr fun e => and_congr_left fun _ => ?_
  rw [rejects_iff, run_eq]
  cases readClassFile (envOf o (bytes.length + 2)) bytes 0 <;> simp [Res.bind]

/-- Every error names a place, and that place is the first one that is wrong. -/
theorem C49_every_error {o : Opts} {bytes : Bytes} {e : ParseError} (h : Rejects o bytes e) :
    ∃ q : Place, e.contexts.getLast? = q.context ∧ FaultAt o q bytes := by
  obtain ⟨q, hq, hf⟩ := (rejects_context _).mp ⟨e, h, rfl⟩
  exact ⟨q, hq.symm, hf⟩

/-- A file is rejected with an error naming place `q` exactly when `q` is the first place that is wrong. -/
theorem C49_place_iff {o : Opts} {bytes : Bytes} (q : Place) :
    (∃ e, Rejects o bytes e ∧ e.contexts.getLast? = q.context) ↔ FaultAt o q bytes := by
  rw [rejects_context]
  constructor
  · rintro ⟨q', h, hf⟩
    rw [← C49_contexts_differ h]; exact hf
  · intro h; exact ⟨q, rfl, h⟩

/-- A file has at most one first fault, and it has one exactly when it is rejected. -/
theorem C49_one_place {o : Opts} {bytes : Bytes} : (∀ p q, FaultAt o p bytes → FaultAt o q bytes → p = q) ∧
    ((∃ e, Rejects o bytes e) ↔ ∃ q, FaultAt o q bytes) := by
  constructor
  · intro p q hp hq
    obtain ⟨e, he, hpc⟩ := (C49_place_iff p).mpr hp
    obtain ⟨e', he', hqc⟩ := (C49_place_iff q).mpr hq
    rw [rejects_iff] at he he'
    rw [he] at he'
    cases he'
    exact C49_contexts_differ (hpc.symm.trans hqc)
  · constructor
    · rintro ⟨e, h⟩
      obtain ⟨q, -, hf⟩ := C49_every_error h
      exact ⟨q, hf⟩
    · rintro ⟨q, h⟩
      obtain ⟨e, he, -⟩ := (C49_place_iff q).mpr h
      exact ⟨e, he⟩

/-- The text of the error ends with the name of the place. -/
theorem C49_text {o : Opts} {bytes : Bytes} {e : ParseError} (h : Rejects o bytes e) :
    (e.contexts = [] ∧ FaultAt o .plain bytes ∧ e.display = e.msg) ∨
    ∃ (q : Place) (c t : String), q.context = some c ∧ FaultAt o q bytes ∧ (e.display = t ++ " for " ++ c ∨ e.display = t ++ " of " ++ c) := by
  obtain ⟨q, hq, hf⟩ := C49_every_error h
  cases hl : e.contexts.getLast? with
  | none =>
    rw [hl] at hq
    have hp : q = .plain := C49_contexts_differ (hq.symm.trans rfl)
    subst hp
    have hn : e.contexts = [] := List.getLast?_eq_none_iff.mp hl
    refine .inl ⟨hn, hf, ?_⟩
    rw [C42_display, hn]
    simp [errorText]
  | some c =>
    rw [hl] at hq
    obtain ⟨cs, hcs⟩ := List.getLast?_eq_some_iff.mp hl
    have he : e = ({ msg := e.msg, contexts := cs } : ParseError).withContext c := by
      cases e; simp_all [ParseError.withContext]
    refine .inr ⟨q, c, ({ msg := e.msg, contexts := cs } : ParseError).display, hq.symm, hf, ?_⟩
    rw [he, (C42_wrap _ c).2.2]
    unfold connector
    split
    · exact .inl rfl
    · exact .inr rfl

/-- In particular: an error at field `i` means that the header, the pool, the class names, the interfaces and the first `i` fields are
well formed, that the name and the descriptor of field `i` are too, and that its attributes cannot be read. -/
theorem C49_field {o : Opts} {bytes : Bytes} {e : ParseError} {i : Nat} (h : Rejects o bytes e)
    (hc : e.contexts.getLast? = some s!"class field {i}") :
    ∃ (minor major flags count bits n d : UInt16) (pool : Pool) (fs : List FieldInfo) (name : Str) (desc : FieldDescriptor)
      (front before rest : Bytes), bytes = front ++ (u2 count ++ (before ++ (u2 bits ++ (u2 n ++ (u2 d ++ rest))))) ∧
      FrontEnc o minor major pool flags front ∧ fs.length = i ∧ i < count.toNat ∧ seq (FieldEnc o pool) fs before ∧
      TextAt pool n.toNat name ∧ UnqualifiedName name ∧ FieldDescriptorAt pool d.toNat desc ∧
      ∀ (as : List AttributeInfo) (s t : Bytes), rest = s ++ t → ¬ AttributesEnc o pool as s := by
  have hf := (C49_place_iff (.field i)).mp ⟨e, h, hc⟩
  generalize hp : Place.field i = p at hf
  cases hf with
  | header _ => cases hp
  | pool hk => cases hk <;> cases hp
  | body _ hk => cases hk <;> cases hp
  | @back _ minor major bits i' j pool this super ifs sp si s hpool hmod hthis hsuper hifs hk =>
    cases hk with
    | fields _ => cases hp
    | methods _ _ _ => cases hp
    | attributes _ _ _ _ _ => cases hp
    | final _ _ _ _ _ _ => cases hp
    | method _ _ _ _ _ hm => cases hm <;> cases hp
    | @field _ count fs before s hl hd hq hm =>
      cases hm with
      | flags _ => cases hp
      | name _ => cases hp
      | badName _ _ => cases hp
      | descriptor _ _ _ => cases hp
      | badDescriptor _ _ _ _ => cases hp
      | duplicate _ _ _ _ => cases hp
      | @attributes fbits n d name desc s hn hu hdesc hno ha =>
        cases hp
        refine ⟨minor, major, bits &&& 0xF631, count, fbits, n, d, pool, fs, name, desc,
          header minor major ++ (sp ++ (u2 bits ++ (u2 i' ++ (u2 j ++ si)))), before, s, by simp, ⟨this, super, ifs,
          ⟨_, _, rfl, rfl, sp, _, rfl, hpool, u2 bits, _, rfl, ⟨bits, rfl, rfl⟩, u2 i', _, rfl, ⟨i', hthis, rfl⟩, u2 j, si, rfl,
            ⟨j, hsuper, rfl⟩, hifs⟩, hmod⟩, rfl, hl, hq, hn, hu, hdesc, fun as s t hs => ha.1 as s t hs⟩

/-! ## Witnesses -/

/-- The outermost context of an outcome. -/
def contextOf {α : Type} : Res α → Option (Option String)
  | .err e => some e.contexts.getLast?
  | _ => none

/-- `tiny` with a super class that is not a Class constant. -/
def badSuper : Bytes :=
  header 0 52 ++ u2 5 ++ text "A" ++ [7, 0, 1] ++ text "B" ++ [7, 0, 3] ++ [0, 0x21, 0, 2, 0, 3, 0, 0, 0, 0, 0, 0, 0, 0]

/-- Two fields; the second has an attribute that is cut off. -/
def badField : Bytes :=
  header 0 52 ++ u2 5 ++ text "A" ++ [7, 0, 1] ++ text "I" ++ text "x" ++ [0, 0x21, 0, 2, 0, 0, 0, 0] ++
    u2 2 ++ [0, 1, 0, 4, 0, 3, 0, 0] ++ [0, 1, 0, 1, 0, 3, 0, 1] ++ [0, 4, 0, 0, 0, 9]

theorem located {o : Opts} {d : Nat} {bytes : Bytes} (q : Place) (h : contextOf (run o d bytes) = some q.context) : FaultAt o q bytes := by
  refine (C49_place_iff q).mp ?_
  cases hr : run o d bytes with
  | ok cf => rw [hr] at h; cases h
  | err e => rw [hr] at h; exact ⟨e, ⟨d, hr⟩, Option.some.inj h⟩
  | panic k => rw [hr] at h; cases h
  | diverge => rw [hr] at h; cases h

/-- Some faulty files and the places of their faults. -/
theorem C49_witnesses : FaultAt debug .superClass badSuper ∧ FaultAt debug (.field 1) badField ∧ FaultAt debug (.poolEntry 2)
    (header 0 52 ++ u2 3 ++ text "A" ++ [8, 0, 0]) ∧ FaultAt release (.method 0) farJump ∧ FaultAt debug .plain (rich ++ [0]) ∧
    ∀ q, ¬ FaultAt debug q rich := by
  refine ⟨located (d := 9) .superClass (by decide +kernel), located (d := 9) (.field 1) (by decide +kernel), located (d := 9) (.poolEntry 2) (by decide +kernel),
    located (d := 9) (.method 0) (by decide +kernel), located (d := 9) .plain (by decide +kernel), fun q h => ?_⟩
  obtain ⟨e, he, -⟩ := (C49_place_iff q).mpr h
  rw [rejects_iff, accepts_iff.mp rich_accepted] at he
  cases he

end Cafebabe
