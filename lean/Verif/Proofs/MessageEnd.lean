import Verif.Proofs.MessageIndex
/-!
# Proofs: the errors of the checks at the end of a class file
-/

namespace Cafebabe
open Spec

theorem countBootstrap_fails (x : UInt16) : ∀ (as : List AttributeInfo) (found : Nat),
    Fails (countBootstrapMethods x found as) (fun m => (∃ l ∈ bootstrapTables as, l.length ≤ x.toNat) ∧
      m = "Constant pool item contained invalid index into BootstrapMethods class attribute")
  | [], found => Fails.of_ok fun m h => by simp [bootstrapTables] at h
  | a :: as, found => by
    unfold countBootstrapMethods
    split
    · rename_i methods hd
      have hb : bootstrapTables (a :: as) = methods :: bootstrapTables as := by unfold bootstrapTables; rw [List.filterMap_cons, hd]
      rw [hb]
      split
      · rename_i hx
        exact Fails.of_err ⟨⟨methods, by simp, hx⟩, rfl⟩ fun m h => h.2
      · rename_i hx
        exact (countBootstrap_fails x as (found + 1)).congr fun m => by
          simp only [List.mem_cons, exists_eq_or_imp, show ¬ methods.length ≤ x.toNat from hx, false_or]
    · rename_i hd
      have hb : bootstrapTables (a :: as) = bootstrapTables as := by
        unfold bootstrapTables
        rw [List.filterMap_cons]
        split
        · rename_i h; split at h
          · rename_i l hl; exact absurd hl (hd l)
          · rfl
        · rename_i h; split at h
          · rename_i l hl; exact absurd hl (hd l)
          · cases h
      rw [hb]
      exact countBootstrap_fails x as found

theorem checkBootstrapIndex_fails (x : UInt16) (as : List AttributeInfo) : Fails (checkBootstrapIndex x as) (BootstrapSays as x) := by
  unfold checkBootstrapIndex
  refine (Fails.bind (countBootstrap_fails x as 0) (fun a => countBootstrap_ok x as 0 a) (T := fun found m => found ≠ 1 ∧
    m = s!"Found unexpected number of BootstrapMethods attributes in class; found {found}, expected 1") fun found _ => ?_).congr fun m => ?_
  · split
    · rename_i h; exact Fails.of_err ⟨h, rfl⟩ fun m h => h.2
    · rename_i h; exact Fails.of_ok fun m h' => h h'.1
  · constructor
    · rintro (⟨⟨l, hl, h⟩, rfl⟩ | ⟨found, ⟨h1, rfl⟩, h2, rfl⟩)
      · exact .index hl h
      · rw [Nat.zero_add] at h2 ⊢
        exact .number h1 h2
    · intro h
      cases h with
      | @index l hl h => exact .inl ⟨⟨l, hl, h⟩, rfl⟩
      | number h1 h2 => exact .inr ⟨_, ⟨h1, rfl⟩, by rwa [Nat.zero_add], by rw [Nat.zero_add]⟩

theorem bootstrap_fails (as : List AttributeInfo) : ∀ pool : Pool, Fails (validateBootstrapMethods pool as) (fun m =>
    ∃ (before after : Pool) (e : Entry) (x : UInt16) (r : CPRef), pool = before ++ e :: after ∧ (e = .dynamic x r ∨ e = .invokeDynamic x r) ∧
      BootstrapIndicesOK before as ∧ BootstrapSays as x m)
  | [] => Fails.of_ok fun m ⟨before, after, e, x, r, h, _⟩ => by simp at h
  | e :: pool => by
    have ih := bootstrap_fails as pool
    have hstep : ∀ (x : UInt16) (r : CPRef), (e = .dynamic x r ∨ e = .invokeDynamic x r) →
        Fails (checkBootstrapIndex x as >>= fun _ => validateBootstrapMethods pool as) (fun m =>
          ∃ (before after : Pool) (e' : Entry) (x : UInt16) (r : CPRef), e :: pool = before ++ e' :: after ∧ (e' = .dynamic x r ∨ e' = .invokeDynamic x r) ∧
            BootstrapIndicesOK before as ∧ BootstrapSays as x m) := by
      intro x r he
      have hone : ∀ u, checkBootstrapIndex x as = .ok u ↔ ∃ l, bootstrapTables as = [l] ∧ x.toNat < l.length := fun u => checkBootstrapIndex_ok x as
      refine (Fails.bind (checkBootstrapIndex_fails x as) hone fun _ _ => ih).congr fun m => ?_
      constructor
      · rintro (h | ⟨_, hx, before, after, e', x', r', rfl, he', hb, h⟩)
        · exact ⟨[], pool, e, x, r, rfl, he, fun _ _ h => by simp at h, h⟩
        · refine ⟨e :: before, after, e', x', r', rfl, he', ?_, h⟩
          intro y r'' hy
          simp only [List.mem_cons] at hy
          rcases hy with (h1 | h1) | (h1 | h1)
          · subst h1; rcases he with h2 | h2 <;> cases h2; exact hx
          · exact hb y r'' (.inl h1)
          · subst h1; rcases he with h2 | h2 <;> cases h2; exact hx
          · exact hb y r'' (.inr h1)
      · rintro ⟨before, after, e', x', r', heq, he', hb, h⟩
        cases before with
        | nil =>
          obtain ⟨rfl, rfl⟩ := List.cons.inj heq
          rcases he with rfl | rfl <;> rcases he' with h2 | h2 <;> cases h2 <;> exact .inl h
        | cons f before =>
          obtain ⟨rfl, rfl⟩ := List.cons.inj heq
          refine .inr ⟨(), hb x r ?_, before, after, e', x', r', rfl, he', ?_, h⟩
          · rcases he with rfl | rfl <;> simp
          · intro y r'' hy
            exact hb y r'' (hy.imp (List.mem_cons_of_mem _) (List.mem_cons_of_mem _))
    have hskip : (∀ x r, e ≠ .dynamic x r ∧ e ≠ .invokeDynamic x r) → Fails (validateBootstrapMethods pool as) (fun m =>
          ∃ (before after : Pool) (e' : Entry) (x : UInt16) (r : CPRef), e :: pool = before ++ e' :: after ∧ (e' = .dynamic x r ∨ e' = .invokeDynamic x r) ∧
            BootstrapIndicesOK before as ∧ BootstrapSays as x m) := by
      intro hne
      refine ih.congr fun m => ?_
      constructor
      · rintro ⟨before, after, e', x', r', rfl, he', hb, h⟩
        refine ⟨e :: before, after, e', x', r', rfl, he', ?_, h⟩
        intro y r'' hy
        simp only [List.mem_cons] at hy
        rcases hy with (h1 | h1) | (h1 | h1)
        · exact absurd h1.symm (hne _ _).1
        · exact hb y r'' (.inl h1)
        · exact absurd h1.symm (hne _ _).2
        · exact hb y r'' (.inr h1)
      · rintro ⟨before, after, e', x', r', heq, he', hb, h⟩
        cases before with
        | nil =>
          obtain ⟨rfl, rfl⟩ := List.cons.inj heq
          rcases he' with h2 | h2
          · exact absurd h2 (hne _ _).1
          · exact absurd h2 (hne _ _).2
        | cons f before =>
          obtain ⟨rfl, rfl⟩ := List.cons.inj heq
          exact ⟨before, after, e', x', r', rfl, he', fun y r'' hy => hb y r'' (hy.imp (List.mem_cons_of_mem _) (List.mem_cons_of_mem _)), h⟩
    unfold validateBootstrapMethods
    split
    · exact hstep _ _ (.inl rfl)
    · exact hstep _ _ (.inr rfl)
    · rename_i h1 h2
      exact hskip fun x r => ⟨h1 x r, h2 x r⟩

section
variable {C : ParseError → Prop} {L N : Nat}

theorem checkModuleFlags_names (flags major : UInt16) : Names C L N (checkModuleFlags flags major) (fun _ e => ∃ m, FlagsSays flags major m ∧ e = plainly m) := by
  unfold checkModuleFlags
  refine (Names.ite (fun h => Names.ite (fun _ => Names.failWith _) fun _ => Names.ite (fun _ => Names.failWith _) fun _ => Names.pure _) fun _ =>
    Names.pure _).congr fun s e _ => ?_
  rw [contains_module, debugClassFlags_eq]
  have hv : ¬ major < 53 ↔ 53 ≤ major := by rw [UInt16.not_lt]
  have hf : (flags != AccessFlags.MODULE) = true ↔ flags ≠ 0x8000 := by rw [bne_iff_ne]; rfl
  rw [hv, hf]
  constructor
  · rintro (⟨h1, ⟨h2, rfl⟩ | ⟨h2, ⟨h3, rfl⟩ | ⟨_, h⟩⟩⟩ | ⟨_, h⟩)
    · exact ⟨_, .version h1 h2, rfl⟩
    · exact ⟨_, .others h1 h2 h3, rfl⟩
    · exact h.elim
    · exact h.elim
  · rintro ⟨m, hm, rfl⟩
    cases hm with
    | version h1 h2 => exact .inl ⟨h1, .inl ⟨h2, rfl⟩⟩
    | others h1 h2 h3 => exact .inl ⟨h1, .inr ⟨h2, .inl ⟨h3, rfl⟩⟩⟩

theorem atEnd_names {α : Type} {f : Unit → P α} {S : ParseError → Prop} (h : Names C L N (f ()) (fun _ e => S e)) :
    Names C L N (checkAtEnd >>= f) (fun s e => (s ≠ [] ∧ e = plainly s!"Extra bytes found at index {L - s.length} after reading class file") ∨
      (s = [] ∧ S e)) := by
  intro bytes ix h1 h2 h3 e hC
  have hdrop : bytes.drop ix = [] ↔ ix = bytes.length := by rw [List.drop_eq_nil_iff]; omega
  rw [P.bind_errs]
  have hce : checkAtEnd bytes ix = if ix ≠ bytes.length then Res.fail s!"Extra bytes found at index {ix} after reading class file" else .ok ((), ix) := rfl
  dsimp only
  rw [hce, show (bytes.drop ix ≠ []) = (ix ≠ bytes.length) from propext (not_congr hdrop), hdrop, List.length_drop, show L - (bytes.length - ix) = ix by omega]
  by_cases hix : ix = bytes.length
  · rw [if_neg (by simpa using hix)]
    constructor
    · rintro (h' | ⟨_, ix', h', h''⟩)
      · cases h'
      · cases h'
        exact .inr ⟨hix, (h bytes ix h1 h2 h3 e hC).mp h''⟩
    · rintro (⟨h', -⟩ | ⟨_, h'⟩)
      · exact absurd hix h'
      · exact .inr ⟨(), ix, rfl, (h bytes ix h1 h2 h3 e hC).mpr h'⟩
  · rw [if_pos (by simpa using hix)]
    constructor
    · rintro (h' | ⟨_, ix', h', h''⟩)
      · cases h'; exact .inl ⟨hix, rfl⟩
      · cases h'
    · rintro (⟨_, rfl⟩ | ⟨h', _⟩)
      · exact .inl rfl
      · exact absurd h' hix

/-- What is said about a module that has something it should not have. -/
inductive ModuleSays (flags : UInt16) (super : Option ClassName) (ifs : List ClassName) (fs : List FieldInfo) (ms : List MethodInfo) : String → Prop where
  | super {c : ClassName} : IsModule flags → super = some c →
      ModuleSays flags super ifs fs ms s!"Found non-empty super_class {String.ofList c.name}; expected none for module"
  | interfaces : IsModule flags → super = none → ifs ≠ [] → ModuleSays flags super ifs fs ms s!"Found {ifs.length} interfaces; expected 0 for module"
  | fields : IsModule flags → super = none → ifs = [] → fs ≠ [] → ModuleSays flags super ifs fs ms s!"Found {fs.length} fields; expected 0 for module"
  | methods : IsModule flags → super = none → ifs = [] → fs = [] → ms ≠ [] →
      ModuleSays flags super ifs fs ms s!"Found {ms.length} methods; expected 0 for module"

theorem checkModuleEmpty_names (flags : UInt16) (super : Option ClassName) (ifs : List ClassName) (fs : List FieldInfo) (ms : List MethodInfo) :
    Names C L N (checkModuleEmpty flags super ifs fs ms) (fun _ e => ∃ m, ModuleSays flags super ifs fs ms m ∧ e = plainly m) := by
  unfold checkModuleEmpty
  cases super with
  | some c =>
    refine (Names.ite (fun _ => Names.failWith _) fun _ => Names.pure _).congr fun s e _ => ?_
    rw [contains_module]
    constructor
    · rintro (⟨h, rfl⟩ | ⟨_, h⟩)
      · exact ⟨_, .super h rfl, rfl⟩
      · exact h.elim
    · rintro ⟨m, hm, rfl⟩
      cases hm with
      | super h h' => cases h'; exact .inl ⟨h, rfl⟩
      | interfaces h h' => cases h'
      | fields h h' => cases h'
      | methods h h' => cases h'
  | none =>
    refine (Names.ite (fun _ => Names.ite (fun _ => Names.failWith _) fun _ => Names.ite (fun _ => Names.failWith _) fun _ =>
      Names.ite (fun _ => Names.failWith _) fun _ => Names.pure _) fun _ => Names.pure _).congr fun s e _ => ?_
    have hne : ∀ {β : Type} (l : List β), (!l.isEmpty) = true ↔ l ≠ [] := fun l => by cases l <;> simp
    simp only [contains_module, hne, not_not]
    constructor
    · rintro (⟨h, ⟨h1, rfl⟩ | ⟨h1, ⟨h2, rfl⟩ | ⟨h2, ⟨h3, rfl⟩ | ⟨_, h3⟩⟩⟩⟩ | ⟨_, h⟩)
      · exact ⟨_, .interfaces h rfl h1, rfl⟩
      · exact ⟨_, .fields h rfl h1 h2, rfl⟩
      · exact ⟨_, .methods h rfl h1 h2 h3, rfl⟩
      · exact h3.elim
      · exact h.elim
    · rintro ⟨m, hm, rfl⟩
      cases hm with
      | super h h' => cases h'
      | interfaces h _ h1 => exact .inl ⟨h, .inl ⟨h1, rfl⟩⟩
      | fields h _ h1 h2 => exact .inl ⟨h, .inr ⟨h1, .inl ⟨h2, rfl⟩⟩⟩
      | methods h _ h1 h2 h3 => exact .inl ⟨h, .inr ⟨h1, .inr ⟨h2, .inl ⟨h3, rfl⟩⟩⟩⟩

theorem end_names {α : Type} (pool : Pool) (flags : UInt16) (super : Option ClassName) (ifs : List ClassName) (fs : List FieldInfo) (ms : List MethodInfo)
    (as : List AttributeInfo) (a : α) : Names C L N (checkAtEnd >>= fun _ => checkModuleEmpty flags super ifs fs ms >>= fun _ =>
      P.lift (validateBootstrapMethods pool as) >>= fun _ => (pure a : P α))
      (fun s e => ∃ m, EndSays L pool flags super ifs fs ms as s m ∧ e = plainly m) := by
  refine (atEnd_names (f := fun _ => checkModuleEmpty flags super ifs fs ms >>= fun _ => P.lift (validateBootstrapMethods pool as) >>= fun _ => (pure a : P α))
    (S := fun e => (∃ m, ModuleSays flags super ifs fs ms m ∧ e = plainly m) ∨ ((IsModule flags → super = none ∧ ifs = [] ∧ fs = [] ∧ ms = []) ∧
      ∃ m, (∃ (before after : Pool) (e : Entry) (x : UInt16) (r : CPRef), pool = before ++ e :: after ∧ (e = .dynamic x r ∨ e = .invokeDynamic x r) ∧
        BootstrapIndicesOK before as ∧ BootstrapSays as x m) ∧ e = plainly m))
    ((Names.bind (checkModuleEmpty_names flags super ifs fs ms) (checkModuleEmpty_exact flags super ifs fs ms) fun _ =>
      Names.first (f := fun _ => (Pure.pure a : P _)) (Names.fails (bootstrap_fails as pool)) fun _ _ _ _ h => by cases h).congr fun s e _ => or_congr_right ?_)).congr
    fun s e _ => ?_
  · constructor
    · rintro ⟨_, s1, t, rfl, ⟨hm, rfl⟩, h⟩; exact ⟨hm, h⟩
    · rintro ⟨hm, h⟩; exact ⟨(), [], s, rfl, ⟨hm, rfl⟩, h⟩
  · constructor
    · rintro (⟨h, rfl⟩ | ⟨h, ⟨m, hm, rfl⟩ | ⟨hmod, m, ⟨before, after, en, x, r, hp, he, hb, hs⟩, rfl⟩⟩)
      · exact ⟨_, .extra h, rfl⟩
      · refine ⟨m, ?_, rfl⟩
        cases hm with
        | super h1 h2 => exact .super h h1 h2
        | interfaces h1 h2 h3 => exact .interfaces h h1 h2 h3
        | fields h1 h2 h3 h4 => exact .fields h h1 h2 h3 h4
        | methods h1 h2 h3 h4 h5 => exact .methods h h1 h2 h3 h4 h5
      · exact ⟨m, .bootstrap h hmod hp he hb hs, rfl⟩
    · rintro ⟨m, hm, rfl⟩
      cases hm with
      | extra h => exact .inl ⟨h, rfl⟩
      | super h h1 h2 => exact .inr ⟨h, .inl ⟨_, .super h1 h2, rfl⟩⟩
      | interfaces h h1 h2 h3 => exact .inr ⟨h, .inl ⟨_, .interfaces h1 h2 h3, rfl⟩⟩
      | fields h h1 h2 h3 h4 => exact .inr ⟨h, .inl ⟨_, .fields h1 h2 h3 h4, rfl⟩⟩
      | methods h h1 h2 h3 h4 h5 => exact .inr ⟨h, .inl ⟨_, .methods h1 h2 h3 h4 h5, rfl⟩⟩
      | bootstrap h hmod hp he hb hs => exact .inr ⟨h, .inr ⟨hmod, m, ⟨_, _, _, _, _, hp, he, hb, hs⟩, rfl⟩⟩

end
end Cafebabe
