import Verif.Proofs.MessagePool
/-!
# Proofs: the error for an input, the checks of constants
-/

namespace Cafebabe
open Spec

/-! ## Linking -/

/-- What is said about the references of a constant in slot `i`. -/
def RefSays (len i : Nat) (refs : List CPRef) (m : String) : Prop :=
  ∃ (j : UInt16) (before after : List CPRef), refs = before ++ .unresolved j :: after ∧
    (∀ j', .unresolved j' ∈ before → j'.toNat < len ∧ j'.toNat ≠ i) ∧ ReferenceSays len i j m

theorem referenceSays_iff {len i : Nat} {j : UInt16} {m : String} : ReferenceSays len i j m ↔
    (j.toNat = i ∧ m = s!"Constant pool entry at index {i} could not be resolved due to self-reference") ∨
    (j.toNat ≠ i ∧ len ≤ j.toNat ∧ m = s!"Constant pool entry at index {i} references out-of-bounds index {j.toNat}") := by
  constructor
  · intro h
    cases h with
    | self h => exact .inl ⟨h, rfl⟩
    | outside h1 h2 => exact .inr ⟨h1, h2, rfl⟩
  · rintro (⟨h, rfl⟩ | ⟨h1, h2, rfl⟩)
    · exact .self h
    · exact .outside h1 h2

theorem ref_fails (x : CPRef) (i : Nat) (pool : Pool) :
    Fails (x.resolve i pool) (fun m => ∃ j, x = .unresolved j ∧ ReferenceSays pool.length i j m) := by
  cases x with
  | resolved t => exact Fails.of_ok fun m ⟨j, h, _⟩ => (by cases h)
  | unresolved j =>
    unfold CPRef.resolve
    simp only [CPRef.unresolved.injEq, exists_eq_left', referenceSays_iff]
    split
    · rename_i h
      exact Fails.of_err (.inl ⟨h, rfl⟩) fun m' h' => by rcases h' with ⟨-, h'⟩ | ⟨h', -⟩; exact h'; exact absurd h h'
    · rename_i h
      split
      · rename_i h2
        exact Fails.of_err (.inr ⟨h, h2, rfl⟩) fun m' h' => by rcases h' with ⟨h', -⟩ | ⟨-, -, h'⟩; exact absurd h' h; exact h'
      · rename_i h2
        exact Fails.of_ok fun m h' => by rcases h' with ⟨h', -⟩ | ⟨-, h', -⟩; exact h h'; exact h2 h'

theorem refSays_nil {len i : Nat} {m : String} : ¬ RefSays len i [] m := by
  rintro ⟨j, before, after, h, -⟩
  simp at h

theorem refSays_cons {len i : Nat} {x : CPRef} {xs : List CPRef} {m : String} : RefSays len i (x :: xs) m ↔
    (∃ j, x = .unresolved j ∧ ReferenceSays len i j m) ∨ ((∀ j, x = .unresolved j → j.toNat < len ∧ j.toNat ≠ i) ∧ RefSays len i xs m) := by
  constructor
  · rintro ⟨j, before, after, h, hb, hs⟩
    cases before with
    | nil => cases h; exact .inl ⟨j, rfl, hs⟩
    | cons b before =>
      cases h
      exact .inr ⟨fun j' hj' => hb j' (by simp [hj']), j, before, after, rfl, fun j' hj' => hb j' (by simp [hj']), hs⟩
  · rintro (⟨j, rfl, hs⟩ | ⟨h, j, before, after, rfl, hb, hs⟩)
    · exact ⟨j, [], xs, rfl, by simp, hs⟩
    · refine ⟨j, x :: before, after, rfl, fun j' hj' => ?_, hs⟩
      rcases List.mem_cons.mp hj' with rfl | hj'
      · exact h j' rfl
      · exact hb j' hj'

theorem entry_fails (e : Entry) (i : Nat) (pool : Pool) : Fails (e.resolve i pool) (RefSays pool.length i (refsOf e)) := by
  have one : ∀ (x : CPRef) (f : CPRef → Entry), Fails (x.resolve i pool >>= fun x => .ok (f x)) (RefSays pool.length i [x]) := fun x f =>
    ((ref_fails x i pool).map f).congr fun m => by rw [refSays_cons]; simp [refSays_nil]
  have two : ∀ (x y : CPRef) (f : CPRef → CPRef → Entry),
      Fails (x.resolve i pool >>= fun x => y.resolve i pool >>= fun y => .ok (f x y)) (RefSays pool.length i [x, y]) := fun x y f => by
    refine (Fails.bind (ref_fails x i pool) (fun a => ref_resolve_ok) fun a _ => (ref_fails y i pool).map (f a)).congr fun m => ?_
    rw [refSays_cons, refSays_cons]
    simp only [refSays_nil, and_false, or_false]
    refine or_congr_right ⟨?_, ?_⟩
    · rintro ⟨a, ⟨-, h1⟩, h2⟩; exact ⟨h1, h2⟩
    · rintro ⟨h1, h2⟩; exact ⟨_, ⟨rfl, h1⟩, h2⟩
  cases e <;> first
    | exact Fails.of_ok fun m => refSays_nil
    | exact one _ _
    | exact two _ _ _

theorem resolveFrom_fails (pool : Pool) : ∀ (es : List Entry) (i : Nat), Fails (resolveFrom pool i es) (fun m =>
    ∃ (k : Nat) (e : Entry), es[k]? = some e ∧ (∀ (k' : Nat) (e' : Entry), k' < k → es[k']? = some e' →
      ∀ j', .unresolved j' ∈ refsOf e' → j'.toNat < pool.length ∧ j'.toNat ≠ i + k') ∧ RefSays pool.length (i + k) (refsOf e) m)
  | [], i => Fails.of_ok fun m => by rintro ⟨k, e, h, -⟩; simp at h
  | e :: es, i => by
    unfold resolveFrom
    refine (Fails.bind (entry_fails e i pool) (fun a => entry_resolve_ok) fun a _ => (resolveFrom_fails pool es (i + 1)).map _).congr fun m => ?_
    constructor
    · rintro (h | ⟨_, ⟨-, h⟩, k, f, hk, hb, hs⟩)
      · exact ⟨0, e, rfl, fun k' e' hk' => absurd hk' (by omega), h⟩
      · refine ⟨k + 1, f, hk, fun k' e' hk' he' => ?_, by rw [show i + (k + 1) = i + 1 + k by omega]; exact hs⟩
        cases k' with
        | zero => simp only [List.getElem?_cons_zero, Option.some.injEq] at he'; subst he'; exact h
        | succ k' => rw [show i + (k' + 1) = i + 1 + k' by omega]; exact hb k' e' (by omega) he'
    · rintro ⟨k, f, hk, hb, hs⟩
      cases k with
      | zero => simp only [List.getElem?_cons_zero, Option.some.injEq] at hk; subst hk; exact .inl hs
      | succ k =>
        refine .inr ⟨_, ⟨rfl, hb 0 e (by omega) rfl⟩, k, f, hk, fun k' e' hk' he' => ?_, by rw [show i + 1 + k = i + (k + 1) by omega]; exact hs⟩
        rw [show i + 1 + k' = i + (k' + 1) by omega]
        exact hb (k' + 1) e' (by omega) he'

theorem resolve_fails (raw : Pool) : Fails (resolveConstantPool raw) (RangeSays raw) := by
  refine (resolveFrom_fails raw raw 0).congr fun m => ?_
  simp only [Nat.zero_add]
  constructor
  · rintro ⟨k, e, hk, hb, j, before, after, h1, h2, h3⟩
    exact .intro hk hb h1 h2 h3
  · rintro ⟨hk, hb, h1, h2, h3⟩
    exact ⟨_, _, hk, hb, _, _, _, h1, h2, h3⟩

/-! ## Checking one constant -/

theorem okIf_fails {b : Bool} {m : String} {Q : Prop} (h : b = true ↔ Q) : Fails (okIf b m) (fun m' => ¬ Q ∧ m' = m) := by
  unfold okIf
  cases b with
  | true => exact Fails.of_ok fun m' h' => h'.1 (h.mp rfl)
  | false => exact Fails.of_err ⟨fun q => (by have := h.mpr q; cases this), rfl⟩ fun m' h' => h'.2

theorem checks_fails {r : Res Bool} {Q : Prop} {m : String} (h : Checks r Q) : Fails (r >>= fun b => okIf b m) (fun m' => ¬ Q ∧ m' = m) := by
  obtain ⟨b, rfl, hb⟩ := h
  exact okIf_fails hb

/-- A text in slot `k` is checked. -/
theorem str_fails {pool : Pool} {k : Nat} {e : Entry} (hk : pool[k]? = some e) {f : Str → Res Unit} {D : Str → Prop} {c : String}
    (hf : ∀ s, Fails (f s) (fun m => ¬ D s ∧ m = c)) : Fails (e.str >>= f) (TextSays pool D c k) := by
  have hsays : ∀ m, TextSays pool D c k m ↔ (¬ Utf8At pool k ∧ m = "Unexpected constant pool reference type") ∨
      (∃ b, e = .utf8Bytes b ∧ m = "Attempting to get utf-8 data from non-utf8 constant pool entry!") ∨ (∃ s, e = .utf8 s ∧ ¬ D s ∧ m = c) := by
    intro m
    constructor
    · intro h
      cases h with
      | kind h => exact .inl ⟨h, rfl⟩
      | undecodable h => rw [hk] at h; cases h; exact .inr (.inl ⟨_, rfl, rfl⟩)
      | bad h h' => unfold TextAt at h; rw [hk] at h; cases h; exact .inr (.inr ⟨_, rfl, h', rfl⟩)
    · rintro (⟨h, rfl⟩ | ⟨b, rfl, rfl⟩ | ⟨s, rfl, h, rfl⟩)
      · exact .kind h
      · exact .undecodable hk
      · exact .bad hk h
  by_cases hu : ∃ s, e = .utf8 s
  · obtain ⟨s, rfl⟩ := hu
    have h8 : Utf8At pool k := .inl ⟨s, hk⟩
    refine (hf s).congr fun m => ?_
    rw [hsays]
    simp [h8]
  · by_cases hb : ∃ b, e = .utf8Bytes b
    · obtain ⟨b, rfl⟩ := hb
      have h8 : Utf8At pool k := .inr ⟨b, hk⟩
      refine Fails.of_err ((hsays _).mpr (.inr (.inl ⟨b, rfl, rfl⟩))) fun m' h' => ?_
      rw [hsays] at h'
      simpa [h8] using h'
    · have h8 : ¬ Utf8At pool k := by
        rintro (⟨s, h⟩ | ⟨s, h⟩) <;> rw [hk] at h <;> cases h
        · exact hu ⟨s, rfl⟩
        · exact hb ⟨s, rfl⟩
      have he : (e.str >>= f) = Res.fail "Unexpected constant pool reference type" := by
        cases e <;> first | rfl | exact absurd ⟨_, rfl⟩ hu | exact absurd ⟨_, rfl⟩ hb
      rw [he]
      refine Fails.of_err ((hsays _).mpr (.inl ⟨h8, rfl⟩)) fun m' h' => ?_
      rw [hsays] at h'
      rcases h' with ⟨-, h'⟩ | ⟨b, rfl, -⟩ | ⟨s, rfl, -⟩
      · exact h'
      · exact absurd ⟨b, rfl⟩ hb
      · exact absurd ⟨s, rfl⟩ hu

theorem ensure_fails {pool : Pool} {k : Nat} {e : Entry} (hk : pool[k]? = some e) {t : UInt32} {Q : Prop}
    (h : (CPRef.resolved k).ensureType pool t = .ok () ↔ Q) :
    Fails ((CPRef.resolved k).ensureType pool t) (fun m => ¬ Q ∧ m = "Unexpected constant pool reference type") := by
  have hr : (CPRef.resolved k).ensureType pool t = .ok () ∨
      (CPRef.resolved k).ensureType pool t = Res.fail "Unexpected constant pool reference type" := by
    unfold CPRef.ensureType
    rw [peel_resolved hk, Res.ok_bind]
    unfold Entry.ensureType
    split
    · exact .inl rfl
    · exact .inr rfl
  rcases hr with hr | hr
  · rw [hr]; exact Fails.of_ok fun m h' => h'.1 (h.mp hr)
  · have hq : ¬ Q := fun q => by rw [h.mpr q] at hr; cases hr
    rw [hr]; exact Fails.of_err ⟨hq, rfl⟩ fun m' h' => h'.2

/-- A check, then another one. -/
theorem Fails.guard {g r : Res Unit} {Q : Prop} {S : String → Prop} {c : String} (hg : Fails g (fun m => ¬ Q ∧ m = c)) (hq : g = .ok () ↔ Q)
    (hr : Q → Fails r S) : Fails (g >>= fun _ => r) (fun m => (¬ Q ∧ m = c) ∨ (Q ∧ S m)) :=
  (Fails.bind hg (D := fun _ => Q) (fun a => by cases a; exact hq) fun _ q => hr q).congr fun m => by simp

theorem utf8At_ok {pool : Pool} {k : Nat} : (CPRef.resolved k).ensureType pool EntryTypes.UTF8 = .ok () ↔ Utf8At pool k := by
  rw [ensureUtf8_ok]
  exact ⟨fun ⟨k', h, h'⟩ => by cases h; exact h', fun h => ⟨k, rfl, h⟩⟩

theorem classAt_ok {pool : Pool} {k : Nat} : (CPRef.resolved k).ensureType pool EntryTypes.CLASS_INFO = .ok () ↔ IsClass pool k := by
  rw [ensureClass_ok]
  exact ⟨fun ⟨k', h, h'⟩ => by cases h; exact h', fun h => ⟨k, rfl, h⟩⟩

theorem natAt_ok {pool : Pool} {k : Nat} : (CPRef.resolved k).ensureType pool EntryTypes.NAME_AND_TYPE = .ok () ↔ IsNameAndType pool k := by
  rw [ensureNat_ok]
  exact ⟨fun ⟨k', a, b, h, h'⟩ => by cases h; exact ⟨a, b, h'⟩, fun ⟨a, b, h⟩ => ⟨k, a, b, rfl, h⟩⟩

theorem text_fails {pool : Pool} {k : Nat} {e : Entry} (hk : pool[k]? = some e) {f : Entry → Res Unit} {D : Str → Prop} {c : String}
    (hf : Utf8At pool k → Fails (f e) (TextSays pool D c k)) :
    Fails (do (CPRef.resolved k).ensureType pool EntryTypes.UTF8; let e ← peel pool (.resolved k); f e) (TextSays pool D c k) := by
  rw [peel_resolved hk]
  refine (Fails.guard (ensure_fails hk utf8At_ok) utf8At_ok fun h => (show Fails (Res.ok e >>= fun e => f e) _ from hf h)).congr fun m => ?_
  constructor
  · rintro (⟨h, rfl⟩ | ⟨-, h⟩)
    · exact .kind h
    · exact h
  · intro h
    by_cases hu : Utf8At pool k
    · exact .inr ⟨hu, h⟩
    · cases h with
      | kind h => exact .inl ⟨h, rfl⟩
      | undecodable h => exact absurd (.inr ⟨_, h⟩) hu
      | bad h => exact absurd (.inl ⟨_, h⟩) hu

section
variable {pool : Pool} (hl : Linked pool)
include hl

theorem fieldType_fails {n : Nat} {e : Entry} (hn : pool[n]? = some e) :
    Fails (do (CPRef.resolved n).ensureType pool EntryTypes.NAME_AND_TYPE; let e ← peel pool (.resolved n); e.validateFieldDescriptor pool)
      (FieldTypeSays pool n) := by
  rw [peel_resolved hn]
  refine (Fails.guard (S := fun m => FieldTypeSays pool n m) (ensure_fails hn natAt_ok) natAt_ok fun h => ?_).congr fun m => ?_
  · obtain ⟨a, b, h⟩ := h
    rw [hn] at h
    cases h
    obtain ⟨y, f, rfl, hy, hp⟩ := hl.peel hn (x := b) (by simp [refsOf])
    show Fails (peel pool _ >>= fun e => e.str >>= fun s => isFieldDescriptor s >>= fun b => okIf b "Invalid field descriptor") _
    rw [hp, Res.ok_bind]
    refine (str_fails hy fun s => checks_fails (isFieldDescriptor_checks s)).congr fun m => ?_
    constructor
    · intro h; exact .descriptor hn h
    · intro h
      cases h with
      | kind h => exact absurd ⟨_, _, hn⟩ h
      | descriptor h h' => rw [hn] at h; cases h; exact h'
  · constructor
    · rintro (⟨h, rfl⟩ | ⟨-, h⟩)
      · exact .kind h
      · exact h
    · intro h
      by_cases hi : IsNameAndType pool n
      · exact .inr ⟨hi, h⟩
      · cases h with
        | kind h => exact .inl ⟨h, rfl⟩
        | descriptor h => exact absurd ⟨_, _, h⟩ hi

/-- Where a chain of descriptors ends. -/
def ChainSays (pool : Pool) (i : Nat) (m : String) : Prop :=
  ∃ j, LeadsTo pool i j ∧ ¬ IsNameAndType pool j ∧ TextSays pool IsMethodDescriptor "Invalid method descriptor" j m

omit hl in
theorem vmd_text_fails {k : Nat} {e : Entry} (hk : pool[k]? = some e) (hn : ∀ a b, e ≠ .nameAndType a b) (d : Nat) :
    Fails (Entry.validateMethodDescriptor pool (d + 1) e) (TextSays pool IsMethodDescriptor "Invalid method descriptor" k) := by
  rw [vmd_other hn]
  exact str_fails hk fun s => checks_fails (isMethodDescriptor_checks s)

theorem vmd_says : ∀ (d i : Nat) (e : Entry), pool[i]? = some e → ∀ x, Entry.validateMethodDescriptor pool d e = .err x →
    ∃ m, x = ⟨m, []⟩ ∧ ChainSays pool i m
  | 0, _, _, _, _, h => by cases h
  | d + 1, i, e, hi, x, h => by
    by_cases hn : ∃ a b, e = .nameAndType a b
    · obtain ⟨a, b, rfl⟩ := hn
      obtain ⟨j, f, rfl, hj, hp⟩ := hl.peel hi (x := b) (by simp [refsOf])
      rw [vmd_nat, hp] at h
      obtain ⟨m, rfl, k, hk, h1, h2⟩ := vmd_says d j f hj x h
      exact ⟨m, rfl, k, .step ⟨a, hi⟩ hk, h1, h2⟩
    · obtain ⟨m, rfl, hm⟩ := (vmd_text_fails hi (fun a b hab => hn ⟨a, b, hab⟩) d x).mp h
      refine ⟨m, rfl, i, .refl i, ?_, hm⟩
      rintro ⟨a, b, h'⟩
      rw [hi] at h'
      exact hn ⟨a, b, Option.some.inj h'⟩

theorem vmd_of_says {i j : Nat} {m : String} (hlead : LeadsTo pool i j) (hno : ¬ IsNameAndType pool j)
    (hs : TextSays pool IsMethodDescriptor "Invalid method descriptor" j m) :
    ∀ e, pool[i]? = some e → ∃ d0, Entry.validateMethodDescriptor pool d0 e = .err ⟨m, []⟩ := by
  induction hlead with
  | refl i =>
    intro e he
    refine ⟨1, (vmd_text_fails he (fun a b hab => hno ⟨a, b, by rw [he, hab]⟩) 0 _).mpr ⟨m, rfl, hs⟩⟩
  | @step i j k hd hjk ih =>
    intro e he
    obtain ⟨x, hx⟩ := hd
    rw [hx] at he
    cases he
    obtain ⟨j', f, hj', hf, hp⟩ := hl.peel hx (x := .resolved j) (by simp [refsOf])
    cases hj'
    obtain ⟨d0, hd0⟩ := ih hno hs f hf
    exact ⟨d0 + 1, by rw [vmd_nat, peel_resolved hf]; exact hd0⟩

omit hl in
theorem endless_leads {i j : Nat} (h : LeadsTo pool i j) : Endless pool i → Endless pool j := by
  induction h with
  | refl i => exact id
  | step hd _ ih =>
    intro he
    obtain ⟨j', hd', he'⟩ := endless_step he
    rw [← descriptorOf_unique hd hd'] at he'
    exact ih he'

theorem vmd_fails {d i : Nat} {e : Entry} (hi : pool[i]? = some e) (hd : pool.length < d) :
    Fails (Entry.validateMethodDescriptor pool d e) (ChainSays pool i) := by
  intro x
  refine ⟨vmd_says hl d i e hi x, ?_⟩
  rintro ⟨m, rfl, j, hj, hno, hs⟩
  obtain ⟨d0, hd0⟩ := vmd_of_says hl hj hno hs e hi
  rcases Nat.le_total d0 d with hle | hle
  · rcases validateMethodDescriptor_agree (b := .budget) pool d0 d (.inr ⟨rfl, hle⟩) e with h | h
    · rw [hd0] at h; cases h
    · rw [← h]; exact hd0
  · rcases validateMethodDescriptor_agree (b := .budget) pool d d0 (.inr ⟨rfl, hle⟩) e with h | h
    · obtain ⟨k, ⟨y, hy⟩, -⟩ := endless_step (endless_leads hj ((vmd_diverge hl hi hd).mp h))
      exact absurd ⟨_, _, hy⟩ hno
    · rw [h]; exact hd0

theorem methodType_fails {n d : Nat} {e : Entry} (hn : pool[n]? = some e) (hd : pool.length < d) :
    Fails (do (CPRef.resolved n).ensureType pool EntryTypes.NAME_AND_TYPE; let e ← peel pool (.resolved n); e.validateMethodDescriptor pool d)
      (MethodTypeSays pool n) := by
  rw [peel_resolved hn]
  refine (Fails.guard (ensure_fails hn natAt_ok) natAt_ok fun _ => (show Fails (Res.ok e >>= fun e => _) _ from vmd_fails hl hn hd)).congr fun m => ?_
  constructor
  · rintro (⟨h, rfl⟩ | ⟨h, j, h1, h2, h3⟩)
    · exact .kind h
    · exact .descriptor h h1 h2 h3
  · intro h
    cases h with
    | kind h => exact .inl ⟨h, rfl⟩
    | descriptor h h1 h2 h3 => exact .inr ⟨h, _, h1, h2, h3⟩

theorem validate_fails {i : Nat} {e : Entry} (hi : pool[i]? = some e) {d : Nat} (hd : pool.length < d) (major : UInt16) :
    Fails (e.validate d pool major) (EntrySays major pool e) := by
  have ref : ∀ {x : CPRef}, x ∈ refsOf e → ∃ k f, x = .resolved k ∧ pool[k]? = some f := fun hx =>
    let ⟨k, f, a, b, _⟩ := hl.peel hi hx; ⟨k, f, a, b⟩
  cases e with
  | zero | utf8 _ | utf8Bytes _ | integer _ | float _ | long _ | double _ | unused => exact Fails.of_ok fun m h => (by cases h)
  | classInfo x =>
    obtain ⟨k, f, rfl, hk⟩ := ref (x := x) (by simp [refsOf])
    refine (text_fails hk fun _ => str_fails hk fun s => ?_).congr fun m => ⟨.classInfo, fun h => by cases h; assumption⟩
    by_cases hb : isBinaryName s = true
    · rw [if_pos hb]
      exact Fails.of_ok fun m h => h.1 (.inl ((isBinaryName_iff s).mp hb))
    · rw [if_neg hb]
      have : ¬ BinaryName s := fun h => hb ((isBinaryName_iff s).mpr h)
      exact (checks_fails (isArrayDescriptor_checks s)).congr fun m => by simp [this]
  | string x =>
    obtain ⟨k, f, rfl, hk⟩ := ref (x := x) (by simp [refsOf])
    exact (ensure_fails hk utf8At_ok).congr fun m => ⟨fun ⟨h, h'⟩ => h' ▸ .string h, fun h => by cases h; exact ⟨by assumption, rfl⟩⟩
  | fieldRef x y =>
    obtain ⟨c, f, rfl, hc⟩ := ref (x := x) (by simp [refsOf])
    obtain ⟨n, g, rfl, hn⟩ := ref (x := y) (by simp [refsOf])
    refine (Fails.guard (ensure_fails hc classAt_ok) classAt_ok fun _ => fieldType_fails hl hn).congr fun m => ⟨?_, fun h => ?_⟩
    · rintro (⟨h, rfl⟩ | ⟨h, h'⟩)
      · exact .fieldClass h
      · exact .field h h'
    · cases h with
      | fieldClass h => exact .inl ⟨h, rfl⟩
      | field h h' => exact .inr ⟨h, h'⟩
  | methodRef x y =>
    obtain ⟨c, f, rfl, hc⟩ := ref (x := x) (by simp [refsOf])
    obtain ⟨n, g, rfl, hn⟩ := ref (x := y) (by simp [refsOf])
    refine (Fails.guard (ensure_fails hc classAt_ok) classAt_ok fun _ => methodType_fails hl hn hd).congr fun m => ⟨?_, fun h => ?_⟩
    · rintro (⟨h, rfl⟩ | ⟨h, h'⟩)
      · exact .methodClass h
      · exact .method h h'
    · cases h with
      | methodClass h => exact .inl ⟨h, rfl⟩
      | method h h' => exact .inr ⟨h, h'⟩
  | interfaceMethodRef x y =>
    obtain ⟨c, f, rfl, hc⟩ := ref (x := x) (by simp [refsOf])
    obtain ⟨n, g, rfl, hn⟩ := ref (x := y) (by simp [refsOf])
    refine (Fails.guard (ensure_fails hc classAt_ok) classAt_ok fun _ => methodType_fails hl hn hd).congr fun m => ⟨?_, fun h => ?_⟩
    · rintro (⟨h, rfl⟩ | ⟨h, h'⟩)
      · exact .interfaceClass h
      · exact .interfaceMethod h h'
    · cases h with
      | interfaceClass h => exact .inl ⟨h, rfl⟩
      | interfaceMethod h h' => exact .inr ⟨h, h'⟩
  | nameAndType x y =>
    obtain ⟨k, f, rfl, hk⟩ := ref (x := x) (by simp [refsOf])
    obtain ⟨n, g, rfl, hn⟩ := ref (x := y) (by simp [refsOf])
    have h1 : Fails (do (CPRef.resolved k).ensureType pool EntryTypes.UTF8; let e ← peel pool (.resolved k); e.validateUnqualifiedName)
        (TextSays pool UnqualifiedName "Invalid unqualified name" k) :=
      text_fails hk fun _ => str_fails hk fun s => okIf_fails (nameAndTypeName_iff s)
    have h2 : (do (CPRef.resolved k).ensureType pool EntryTypes.UTF8; let e ← peel pool (.resolved k); e.validateUnqualifiedName) = .ok () ↔
        ∃ s, TextAt pool k s ∧ UnqualifiedName s := by
      rw [utf8_check fun e => validateUnqualifiedName_ok]
      constructor
      · rintro ⟨k', s, h, h'⟩; cases h; exact ⟨s, h'⟩
      · rintro ⟨s, h'⟩; exact ⟨k, s, rfl, h'⟩
    have heq : (Entry.nameAndType (.resolved k) (.resolved n)).validate d pool major =
        ((do (CPRef.resolved k).ensureType pool EntryTypes.UTF8; let e ← peel pool (.resolved k); e.validateUnqualifiedName) >>= fun _ =>
          (CPRef.resolved n).ensureType pool EntryTypes.UTF8) := by
      rw [Res.bind_assoc]
      show ((CPRef.resolved k).ensureType pool EntryTypes.UTF8 >>= fun _ => peel pool (.resolved k) >>= fun e => e.validateUnqualifiedName >>= fun _ =>
          (CPRef.resolved n).ensureType pool EntryTypes.UTF8) = _
      congr 1
      funext _
      rw [Res.bind_assoc]
    rw [heq]
    refine (Fails.bind h1 (D := fun _ => ∃ s, TextAt pool k s ∧ UnqualifiedName s) (fun a => by cases a; exact h2) fun _ _ =>
      ensure_fails hn utf8At_ok).congr fun m => ⟨?_, fun h => ?_⟩
    · rintro (h | ⟨-, ⟨s, hs, hu⟩, h, rfl⟩)
      · exact .name h
      · exact .descriptor hs hu h
    · cases h with
      | name h => exact .inl h
      | descriptor hs hu h => exact .inr ⟨(), ⟨_, hs, hu⟩, h, rfl⟩
  | methodHandle k y =>
    obtain ⟨n, f, rfl, hn⟩ := ref (x := y) (by simp [refsOf])
    have : (CPRef.resolved n).ensureType pool (handleTargetTypes k major) = .ok () ↔ HandleTarget major k pool n := by
      rw [handle_check]
      exact ⟨fun ⟨k', h, h'⟩ => by cases h; exact h', fun h => ⟨n, rfl, h⟩⟩
    exact (ensure_fails hn this).congr fun m => ⟨fun ⟨h, h'⟩ => h' ▸ .methodHandle h, fun h => by cases h; exact ⟨by assumption, rfl⟩⟩
  | methodType x =>
    obtain ⟨k, f, rfl, hk⟩ := ref (x := x) (by simp [refsOf])
    obtain ⟨d, rfl⟩ : ∃ d', d = d' + 1 := ⟨d - 1, by omega⟩
    refine (text_fails hk fun hu => vmd_text_fails hk ?_ d).congr fun m => ⟨.methodType, fun h => by cases h; assumption⟩
    rintro a b rfl
    rcases hu with ⟨s, h⟩ | ⟨s, h⟩ <;> rw [hk] at h <;> cases h
  | dynamic b y =>
    obtain ⟨n, g, rfl, hn⟩ := ref (x := y) (by simp [refsOf])
    exact (fieldType_fails hl hn).congr fun m => ⟨.dynamic, fun h => by cases h; assumption⟩
  | invokeDynamic b y =>
    obtain ⟨n, g, rfl, hn⟩ := ref (x := y) (by simp [refsOf])
    exact (methodType_fails hl hn hd).congr fun m => ⟨.invokeDynamic, fun h => by cases h; assumption⟩
  | moduleInfo x =>
    obtain ⟨k, f, rfl, hk⟩ := ref (x := x) (by simp [refsOf])
    exact (text_fails hk fun _ => str_fails hk fun s => okIf_fails (isModuleName_iff s)).congr fun m => ⟨.moduleInfo, fun h => by cases h; assumption⟩
  | packageInfo x =>
    obtain ⟨k, f, rfl, hk⟩ := ref (x := x) (by simp [refsOf])
    exact (text_fails hk fun _ => str_fails hk fun s => okIf_fails (isBinaryName_iff s)).congr fun m => ⟨.packageInfo, fun h => by cases h; assumption⟩

end

/-! ## The pool -/

theorem validateFrom_errors {d : Nat} {pool : Pool} {major : UInt16} {Q : Entry → Prop} {S : Entry → String → Prop} : ∀ (es : List Entry) (i : Nat),
    (∀ e ∈ es, (e.validate d pool major = .ok () ↔ Q e) ∧ Fails (e.validate d pool major) (S e)) → ∀ x,
    (validateFrom d pool major i es = .err x ↔
      ∃ (k : Nat) (e : Entry) (m : String), x = inside s!"constant pool entry {i + k}" (plainly m) ∧ es[k]? = some e ∧ S e m ∧
        ∀ (j : Nat) (f : Entry), j < k → es[j]? = some f → Q f)
  | [], i, _, x => by simp [validateFrom]
  | e :: es, i, h, x => by
    obtain ⟨hok, hf⟩ := h e (by simp)
    have h2 := validateFrom_errors es (i + 1) (fun e he => h e (by simp [he])) x
    unfold validateFrom
    rw [res_bind_err, show (∃ a, (e.validate d pool major).mapErr s!"constant pool entry {i}" = .ok a ∧ validateFrom d pool major (i + 1) es = .err x) ↔
      Q e ∧ validateFrom d pool major (i + 1) es = .err x from ⟨fun ⟨a, h1, h2⟩ => ⟨hok.mp (Res.mapErr_ok.mp h1), h2⟩,
        fun ⟨h1, h2⟩ => ⟨(), Res.mapErr_ok.mpr (hok.mpr h1), h2⟩⟩, h2]
    have hhead : (e.validate d pool major).mapErr s!"constant pool entry {i}" = .err x ↔
        ∃ m, x = inside s!"constant pool entry {i}" (plainly m) ∧ S e m := by
      cases hv : e.validate d pool major with
      | ok u => rw [hv] at hf; exact ⟨fun h => (by cases h), fun ⟨m, _, hm⟩ => absurd rfl (hf.not_ok hm u)⟩
      | panic k => rw [hv] at hf; exact ⟨fun h => (by cases h), fun ⟨m, _, hm⟩ => by have := (hf _).mpr ⟨m, rfl, hm⟩; cases this⟩
      | diverge => rw [hv] at hf; exact ⟨fun h => (by cases h), fun ⟨m, _, hm⟩ => by have := (hf _).mpr ⟨m, rfl, hm⟩; cases this⟩
      | err y =>
        rw [hv] at hf
        constructor
        · intro h
          cases h
          obtain ⟨m, rfl, hm⟩ := (hf y).mp rfl
          exact ⟨m, rfl, hm⟩
        · rintro ⟨m, rfl, hm⟩
          have := (hf _).mpr ⟨m, rfl, hm⟩
          cases this
          rfl
    rw [hhead]
    constructor
    · rintro (⟨m, rfl, hm⟩ | ⟨hq, k, f, m, rfl, hk, hm, hb⟩)
      · exact ⟨0, e, m, rfl, rfl, hm, fun j f hj => absurd hj (by omega)⟩
      · refine ⟨k + 1, f, m, by rw [show i + (k + 1) = i + 1 + k by omega], hk, hm, fun j g hj hg => ?_⟩
        cases j with
        | zero => simp only [List.getElem?_cons_zero, Option.some.injEq] at hg; exact hg ▸ hq
        | succ j => exact hb j g (by omega) hg
    · rintro ⟨k, f, m, rfl, hk, hm, hb⟩
      cases k with
      | zero => simp only [List.getElem?_cons_zero, Option.some.injEq] at hk; subst hk; exact .inl ⟨m, rfl, hm⟩
      | succ k =>
        exact .inr ⟨hb 0 e (by omega) rfl, k, f, m, by rw [show i + (k + 1) = i + 1 + k by omega], hk, hm, fun j g hj hg => hb (j + 1) g (by omega) hg⟩

theorem readConstantPool_names {C : ParseError → Prop} {L : Nat} (env : Env) (h2 : 2 ≤ env.depth) (major : UInt16) :
    Names C L env.depth (readConstantPool env major) (PoolSays env.opts L major) := by
  intro bytes ix h1 hix h3 e hC
  have hr := readRawPool_names (C := C) (L := L) (N := env.depth) env major bytes ix h1 hix h3 e hC
  have hex := readRawPool_exact (N := env.depth) env major bytes ix (by omega) (by omega)
  have hval : ∀ (raw : Pool) (seg rest : Bytes), bytes.drop ix = seg ++ rest → RawPoolEnc env.decode env.overflowChecks major raw seg →
      RefsInRange raw → (validateConstantPool env.depth (raw.map linkEntry) major = .err e ↔ ∃ (k : Nat) (f : Entry) (m : String),
        e = inside s!"constant pool entry {k}" (plainly m) ∧ (raw.map linkEntry)[k]? = some f ∧ EntrySays major (raw.map linkEntry) f m ∧
        ∀ (j : Nat) (g : Entry), j < k → (raw.map linkEntry)[j]? = some g → EntryPasses major (raw.map linkEntry) g) := by
    intro raw seg rest hd henc hrange
    obtain ⟨hu, hrl⟩ := raw_facts henc
    have hlen := length_of_drop_eq (by omega) hd
    have hl := linked_of_range hu hrange
    have := validateFrom_errors (d := env.depth) (pool := raw.map linkEntry) (major := major) (Q := EntryPasses major (raw.map linkEntry))
      (S := EntrySays major (raw.map linkEntry)) (raw.map linkEntry) 0 (fun f hf => by
        obtain ⟨i, hi⟩ := List.mem_iff_getElem?.mp hf
        exact ⟨(validate_outcome hl hi (by rw [List.length_map]; omega) h2 major).ok, validate_fails hl hi (by rw [List.length_map]; omega) major⟩) e
    simp only [Nat.zero_add] at this
    exact this
  unfold readConstantPool
  rw [P.bind_errs, hr]
  constructor
  · rintro (h | ⟨raw, ix', hok, h⟩)
    · exact .raw h
    · obtain ⟨seg, rest, hd, henc, rfl⟩ := (hex raw ix').mp hok
      rw [P.bind_errs] at h
      rw [hd]
      rcases h with h | ⟨pool, ix2, hp, h⟩
      · obtain ⟨m, hm, rfl⟩ := (Names.fails (C := C) (L := L) (N := env.depth) (resolve_fails raw) bytes _ h1
          (by have := length_of_drop_eq (by omega) hd; omega) (by omega) e hC).mp h
        exact .range henc hm
      · obtain ⟨hp', rfl⟩ : resolveConstantPool raw = .ok pool ∧ ix2 = ix + seg.length := by
          unfold P.lift at hp
          cases hq : resolveConstantPool raw <;> rw [hq] at hp <;> cases hp
          exact ⟨rfl, rfl⟩
        obtain ⟨rfl, hrange⟩ := resolveConstantPool_ok.mp hp'
        rw [P.bind_errs] at h
        rcases h with h | ⟨_, _, _, h⟩
        · have hv : validateConstantPool env.depth (raw.map linkEntry) major = .err e := by
            unfold P.lift at h
            cases hq : validateConstantPool env.depth (raw.map linkEntry) major <;> rw [hq] at h <;> cases h
            rfl
          obtain ⟨k, f, m, rfl, hk, hm, hb⟩ := (hval raw seg rest hd henc hrange).mp hv
          exact .entry henc hrange hk hm hb
        · cases h
  · intro h
    generalize hgs : bytes.drop ix = s at h
    cases h with
    | raw h => exact .inl h
    | @range raw seg rest m henc hm =>
      refine .inr ⟨raw, _, (hex raw _).mpr ⟨seg, rest, hgs, henc, rfl⟩, ?_⟩
      rw [P.bind_errs]
      refine .inl ?_
      unfold P.lift
      rw [(resolve_fails raw _).mpr ⟨m, rfl, hm⟩]
      rfl
    | @entry raw seg rest i f m henc hrange hk hm hb =>
      refine .inr ⟨raw, _, (hex raw _).mpr ⟨seg, rest, hgs, henc, rfl⟩, ?_⟩
      rw [P.bind_errs]
      refine .inr ⟨raw.map linkEntry, ix + seg.length, ?_, ?_⟩
      · unfold P.lift
        rw [resolveConstantPool_ok.mpr ⟨rfl, hrange⟩]
      · rw [P.bind_errs]
        refine .inl ?_
        unfold P.lift
        rw [(hval raw seg rest hgs henc hrange).mpr ⟨i, f, m, rfl, hk, hm, hb⟩]

end Cafebabe
