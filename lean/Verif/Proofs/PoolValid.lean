import Verif.Proofs.PoolRead
/-!
# Proofs: linking and validation of the constant pool; `readConstantPool` accepts exactly the encodings of valid pools
-/

namespace Cafebabe
open Spec

theorem Res.bind_assoc {α β γ : Type} (r : Res α) (f : α → Res β) (g : β → Res γ) :
    ((r >>= f) >>= g) = (r >>= fun a => f a >>= g) := by
  show Res.bind (Res.bind r f) g = Res.bind r _
  cases r <;> rfl

/-! ## Linking -/

theorem CPRef.resolve_link {x y : CPRef} {i : Nat} {pool : Pool} (h : x.resolve i pool = .ok y) : y = link x := by
  cases x with
  | unresolved ix =>
    unfold CPRef.resolve at h
    simp only at h
    split at h
    · simp at h
    · split at h
      · simp at h
      · simp only [Res.ok.injEq] at h; rw [← h]; rfl
  | resolved t => simp only [CPRef.resolve, Res.ok.injEq] at h; rw [← h]; rfl

theorem Entry.resolve_link {e e' : Entry} {i : Nat} {pool : Pool} (h : e.resolve i pool = .ok e') : e' = linkEntry e := by
  cases e <;> simp only [Entry.resolve, Res.ok.injEq] at h <;> try exact h.symm
  all_goals
    rw [Res.bind_ok] at h
    obtain ⟨x', hx, h⟩ := h
    have hx := CPRef.resolve_link hx
    first
      | (simp only [Res.ok.injEq] at h; rw [← h, hx]; rfl)
      | (rw [Res.bind_ok] at h
         obtain ⟨y', hy, h⟩ := h
         have hy := CPRef.resolve_link hy
         simp only [Res.ok.injEq] at h
         rw [← h, hx, hy]; rfl)

theorem resolveFrom_link {pool : Pool} : ∀ {es : List Entry} {i : Nat} {q : Pool}, resolveFrom pool i es = .ok q →
    q = es.map linkEntry
  | [], i, q, h => by simp only [resolveFrom, Res.ok.injEq] at h; rw [← h]; rfl
  | e :: es, i, q, h => by
    unfold resolveFrom at h
    rw [Res.bind_ok] at h
    obtain ⟨e', he, h⟩ := h
    rw [Res.bind_ok] at h
    obtain ⟨es', hes, h⟩ := h
    simp only [Res.ok.injEq] at h
    rw [← h, Entry.resolve_link he, resolveFrom_link hes]; rfl

theorem resolveFrom_of {pool : Pool} : ∀ {es : List Entry} {i : Nat},
    (∀ (j : Nat) (e : Entry), es[j]? = some e → e.resolve (i + j) pool = .ok (linkEntry e)) → resolveFrom pool i es = .ok (es.map linkEntry)
  | [], i, h => rfl
  | e :: es, i, h => by
    unfold resolveFrom
    have h0 := h 0 e rfl
    rw [Nat.add_zero] at h0
    rw [h0, Res.ok_bind, resolveFrom_of (es := es) (i := i + 1) fun j e' hj => ?_]
    · rfl
    · have := h (j + 1) e' hj
      rw [show i + (j + 1) = i + 1 + j by omega] at this
      exact this

theorem ref_ok {raw : Pool} {i k : Nat} {e f : Entry} {x : CPRef} (hi : raw[i]? = some e) (hl : link x = .resolved k)
    (hk : (raw.map linkEntry)[k]? = some f) (hne : f ≠ linkEntry e) : x.resolve i raw = .ok (link x) := by
  have hlt : k < raw.length := by
    have := (List.getElem?_eq_some_iff.mp hk).1
    simpa using this
  have hik : k ≠ i := by
    rintro rfl
    rw [List.getElem?_map, hi] at hk
    exact hne (by simpa using hk.symm)
  cases x with
  | unresolved ix =>
    simp only [link, CPRef.resolved.injEq] at hl
    unfold CPRef.resolve
    simp only
    rw [if_neg (by omega), if_neg (by omega)]
    rfl
  | resolved t => rfl

theorem text_ref_ok {raw : Pool} {i k : Nat} {e : Entry} {x : CPRef} {s : Str} (hi : raw[i]? = some e) (hl : link x = .resolved k)
    (hk : TextAt (raw.map linkEntry) k s) (hne : Entry.utf8 s ≠ linkEntry e) : x.resolve i raw = .ok (link x) :=
  ref_ok hi hl hk hne

theorem utf8_ref_ok {raw : Pool} {i k : Nat} {e : Entry} {x : CPRef} (hi : raw[i]? = some e) (hl : link x = .resolved k)
    (hk : Utf8At (raw.map linkEntry) k) (h1 : ∀ s, Entry.utf8 s ≠ linkEntry e) (h2 : ∀ b, Entry.utf8Bytes b ≠ linkEntry e) :
    x.resolve i raw = .ok (link x) := by
  obtain ⟨s, hk⟩ | ⟨b, hk⟩ := hk
  · exact ref_ok hi hl hk (h1 s)
  · exact ref_ok hi hl hk (h2 b)

theorem link_resolved (x : CPRef) : ∃ k, link x = .resolved k := by cases x <;> exact ⟨_, rfl⟩

theorem entry_resolve_of {raw : Pool} {major : UInt16} {i : Nat} {e : Entry} (hi : raw[i]? = some e)
    (h : EntryOK major (raw.map linkEntry) (linkEntry e)) : e.resolve i raw = .ok (linkEntry e) := by
  cases e with
  | zero | utf8 _ | utf8Bytes _ | integer _ | float _ | long _ | double _ | unused => rfl
  | classInfo x =>
    obtain ⟨k, hl⟩ := link_resolved x
    simp only [linkEntry, hl, EntryOK] at h
    obtain ⟨s, hs, -⟩ := h
    simp only [Entry.resolve, text_ref_ok hi hl hs (by simp [linkEntry]), Res.ok_bind, linkEntry]
  | string x =>
    obtain ⟨k, hl⟩ := link_resolved x
    simp only [linkEntry, hl, EntryOK] at h
    simp only [Entry.resolve, utf8_ref_ok hi hl h (by simp [linkEntry]) (by simp [linkEntry]), Res.ok_bind, linkEntry]
  | methodType x =>
    obtain ⟨k, hl⟩ := link_resolved x
    simp only [linkEntry, hl, EntryOK] at h
    obtain ⟨s, hs, -⟩ := h
    simp only [Entry.resolve, text_ref_ok hi hl hs (by simp [linkEntry]), Res.ok_bind, linkEntry]
  | moduleInfo x =>
    obtain ⟨k, hl⟩ := link_resolved x
    simp only [linkEntry, hl, EntryOK] at h
    obtain ⟨s, hs, -⟩ := h
    simp only [Entry.resolve, text_ref_ok hi hl hs (by simp [linkEntry]), Res.ok_bind, linkEntry]
  | packageInfo x =>
    obtain ⟨k, hl⟩ := link_resolved x
    simp only [linkEntry, hl, EntryOK] at h
    obtain ⟨s, hs, -⟩ := h
    simp only [Entry.resolve, text_ref_ok hi hl hs (by simp [linkEntry]), Res.ok_bind, linkEntry]
  | dynamic b x =>
    obtain ⟨k, hl⟩ := link_resolved x
    simp only [linkEntry, hl, EntryOK] at h
    obtain ⟨_, _, s, hs, -⟩ := h
    simp only [Entry.resolve, ref_ok hi hl hs (by simp [linkEntry]), Res.ok_bind, linkEntry]
  | invokeDynamic b x =>
    obtain ⟨k, hl⟩ := link_resolved x
    simp only [linkEntry, hl, EntryOK] at h
    obtain ⟨_, _, s, hs, -⟩ := h
    simp only [Entry.resolve, ref_ok hi hl hs (by simp [linkEntry]), Res.ok_bind, linkEntry]
  | methodHandle kd x =>
    obtain ⟨k, hl⟩ := link_resolved x
    simp only [linkEntry, hl, EntryOK] at h
    have : x.resolve i raw = .ok (link x) := by
      cases kd <;> simp only [HandleTarget] at h <;>
        first
          | (obtain ⟨_, _, hs⟩ := h; exact ref_ok hi hl hs (by simp [linkEntry]); done)
          | (rcases h with ⟨_, _, hs⟩ | ⟨-, _, _, hs⟩ <;> exact ref_ok hi hl hs (by simp [linkEntry]))
    simp only [Entry.resolve, this, Res.ok_bind, linkEntry]
  | fieldRef x y | methodRef x y | interfaceMethodRef x y =>
    obtain ⟨k, hl⟩ := link_resolved x
    obtain ⟨k', hl'⟩ := link_resolved y
    simp only [linkEntry, hl, hl', EntryOK] at h
    obtain ⟨⟨_, hc⟩, _, _, s, hs, -⟩ := h
    simp only [Entry.resolve, ref_ok hi hl hc (by simp [linkEntry]), ref_ok hi hl' hs (by simp [linkEntry]), Res.ok_bind, linkEntry]
  | nameAndType x y =>
    obtain ⟨k, hl⟩ := link_resolved x
    obtain ⟨k', hl'⟩ := link_resolved y
    simp only [linkEntry, hl, hl', EntryOK] at h
    obtain ⟨⟨s, hs, -⟩, hu⟩ := h
    simp only [Entry.resolve, text_ref_ok hi hl hs (by simp [linkEntry]),
      utf8_ref_ok hi hl' hu (by simp [linkEntry]) (by simp [linkEntry]), Res.ok_bind, linkEntry]

/-! ## Validation -/

theorem peel_ok {pool : Pool} {x : CPRef} {e : Entry} : peel pool x = .ok e ↔ ∃ k, x = .resolved k ∧ pool[k]? = some e := by
  cases x with
  | unresolved i => simp [peel]
  | resolved k =>
    unfold peel
    simp only [CPRef.resolved.injEq]
    constructor
    · intro h
      refine ⟨k, rfl, ?_⟩
      split at h
      · rename_i h'; simp only [Res.ok.injEq] at h; rw [h', h]
      · cases h
    · rintro ⟨k', rfl, h⟩
      rw [h]

theorem entry_ensureType_ok {e : Entry} {t : UInt32} : e.ensureType t = .ok () ↔ flagsContains32 t e.getType = true := by
  unfold Entry.ensureType
  split <;> simp_all

theorem ensureType_ok {pool : Pool} {x : CPRef} {t : UInt32} :
    x.ensureType pool t = .ok () ↔ ∃ k e, x = .resolved k ∧ pool[k]? = some e ∧ flagsContains32 t e.getType = true := by
  unfold CPRef.ensureType
  rw [Res.bind_ok]
  constructor
  · rintro ⟨e, he, h⟩
    obtain ⟨k, rfl, hk⟩ := peel_ok.mp he
    exact ⟨k, e, rfl, hk, entry_ensureType_ok.mp h⟩
  · rintro ⟨k, e, rfl, hk, h⟩
    exact ⟨e, peel_ok.mpr ⟨k, rfl, hk⟩, entry_ensureType_ok.mpr h⟩

theorem type_utf8 (e : Entry) : flagsContains32 EntryTypes.UTF8 e.getType = true ↔ (∃ s, e = .utf8 s) ∨ ∃ b, e = .utf8Bytes b := by
  cases e <;> simp [Entry.getType] <;> decide

theorem type_class (e : Entry) : flagsContains32 EntryTypes.CLASS_INFO e.getType = true ↔ ∃ x, e = .classInfo x := by
  cases e <;> simp [Entry.getType] <;> decide

theorem type_nat (e : Entry) : flagsContains32 EntryTypes.NAME_AND_TYPE e.getType = true ↔ ∃ x y, e = .nameAndType x y := by
  cases e <;> simp [Entry.getType] <;> decide

theorem type_field (e : Entry) : flagsContains32 EntryTypes.FIELD_REF e.getType = true ↔ ∃ x y, e = .fieldRef x y := by
  cases e <;> simp [Entry.getType] <;> decide

theorem type_method (e : Entry) : flagsContains32 EntryTypes.METHOD_REF e.getType = true ↔ ∃ x y, e = .methodRef x y := by
  cases e <;> simp [Entry.getType] <;> decide

theorem type_imethod (e : Entry) :
    flagsContains32 EntryTypes.INTERFACE_METHOD_REF e.getType = true ↔ ∃ x y, e = .interfaceMethodRef x y := by
  cases e <;> simp [Entry.getType] <;> decide

theorem type_methods (e : Entry) : flagsContains32 EntryTypes.NEW_METHOD_REFS e.getType = true ↔
    (∃ x y, e = .methodRef x y) ∨ ∃ x y, e = .interfaceMethodRef x y := by
  cases e <;> simp [Entry.getType] <;> decide

theorem ensureUtf8_ok {pool : Pool} {x : CPRef} :
    x.ensureType pool EntryTypes.UTF8 = .ok () ↔ ∃ k, x = .resolved k ∧ Utf8At pool k := by
  rw [ensureType_ok]
  constructor
  · rintro ⟨k, e, rfl, hk, h⟩
    refine ⟨k, rfl, ?_⟩
    obtain ⟨s, rfl⟩ | ⟨b, rfl⟩ := (type_utf8 e).mp h
    · exact .inl ⟨s, hk⟩
    · exact .inr ⟨b, hk⟩
  · rintro ⟨k, rfl, ⟨s, hk⟩ | ⟨b, hk⟩⟩
    · exact ⟨k, _, rfl, hk, (type_utf8 _).mpr (.inl ⟨s, rfl⟩)⟩
    · exact ⟨k, _, rfl, hk, (type_utf8 _).mpr (.inr ⟨b, rfl⟩)⟩

theorem ensureClass_ok {pool : Pool} {x : CPRef} :
    x.ensureType pool EntryTypes.CLASS_INFO = .ok () ↔ ∃ k, x = .resolved k ∧ IsClass pool k := by
  rw [ensureType_ok]
  constructor
  · rintro ⟨k, e, rfl, hk, h⟩
    obtain ⟨y, rfl⟩ := (type_class e).mp h
    exact ⟨k, rfl, y, hk⟩
  · rintro ⟨k, rfl, y, hk⟩
    exact ⟨k, _, rfl, hk, (type_class _).mpr ⟨y, rfl⟩⟩

theorem ensureNat_ok {pool : Pool} {x : CPRef} : x.ensureType pool EntryTypes.NAME_AND_TYPE = .ok () ↔
    ∃ k a b, x = .resolved k ∧ pool[k]? = some (.nameAndType a b) := by
  rw [ensureType_ok]
  constructor
  · rintro ⟨k, e, rfl, hk, h⟩
    obtain ⟨a, b, rfl⟩ := (type_nat e).mp h
    exact ⟨k, a, b, rfl, hk⟩
  · rintro ⟨k, a, b, rfl, hk⟩
    exact ⟨k, _, rfl, hk, (type_nat _).mpr ⟨a, b, rfl⟩⟩

theorem str_ok {e : Entry} {s : Str} : e.str = .ok s ↔ e = .utf8 s := by
  cases e <;> simp [Entry.str]

theorem okIf_ok {b : Bool} {m : String} : okIf b m = .ok () ↔ b = true := by
  unfold okIf
  cases b <;> simp

theorem checks_okIf {r : Res Bool} {Q : Prop} {m : String} (h : Checks r Q) : (r >>= fun b => okIf b m) = .ok () ↔ Q := by
  obtain ⟨b, rfl, hb⟩ := h
  rw [Res.ok_bind, okIf_ok, hb]

/-- A check on the text of an entry. -/
theorem str_check {e : Entry} {f : Str → Res Unit} {Q : Str → Prop} (h : ∀ s, f s = .ok () ↔ Q s) :
    (e.str >>= f) = .ok () ↔ ∃ s, e = .utf8 s ∧ Q s := by
  rw [Res.bind_ok]
  simp only [str_ok, h]

theorem validateClassinfoName_ok {e : Entry} :
    e.validateClassinfoName = .ok () ↔ ∃ s, e = .utf8 s ∧ (BinaryName s ∨ IsArrayDescriptor s) := by
  refine str_check fun s => ?_
  by_cases h : isBinaryName s = true
  · simp only [h, if_true, true_iff]; exact .inl ((isBinaryName_iff s).mp h)
  · rw [if_neg h, checks_okIf (isArrayDescriptor_checks s)]
    rw [isBinaryName_iff] at h
    simp [h]

theorem validateBinaryName_ok {e : Entry} : e.validateBinaryName = .ok () ↔ ∃ s, e = .utf8 s ∧ BinaryName s :=
  str_check fun s => by rw [okIf_ok, isBinaryName_iff]

theorem validateModuleName_ok {e : Entry} : e.validateModuleName = .ok () ↔ ∃ s, e = .utf8 s ∧ ModuleName s :=
  str_check fun s => by rw [okIf_ok, isModuleName_iff]

theorem validateUnqualifiedName_ok {e : Entry} : e.validateUnqualifiedName = .ok () ↔ ∃ s, e = .utf8 s ∧ UnqualifiedName s :=
  str_check fun s => by rw [okIf_ok, nameAndTypeName_iff]

/-- `ensure_type(UTF8)` followed by a check on the text. -/
theorem utf8_check {pool : Pool} {x : CPRef} {f : Entry → Res Unit} {Q : Str → Prop}
    (h : ∀ e, f e = .ok () ↔ ∃ s, e = .utf8 s ∧ Q s) :
    (do x.ensureType pool EntryTypes.UTF8; let e ← peel pool x; f e) = .ok () ↔ ∃ k s, x = .resolved k ∧ TextAt pool k s ∧ Q s := by
  rw [Res.bind_ok]
  constructor
  · rintro ⟨_, h1, h2⟩
    obtain ⟨e, he, h3⟩ := Res.bind_ok.mp h2
    obtain ⟨k, rfl, hk⟩ := peel_ok.mp he
    obtain ⟨s, rfl, hs⟩ := (h e).mp h3
    exact ⟨k, s, rfl, hk, hs⟩
  · rintro ⟨k, s, rfl, hk, hs⟩
    exact ⟨(), ensureUtf8_ok.mpr ⟨k, rfl, .inl ⟨s, hk⟩⟩, Res.bind_ok.mpr ⟨_, peel_ok.mpr ⟨k, rfl, hk⟩, (h _).mpr ⟨s, rfl, hs⟩⟩⟩

/-- The descriptors of all NameAndType constants are Utf8 constants. -/
def NatUtf8 (pool : Pool) : Prop := ∀ (i : Nat) (x y : CPRef), pool[i]? = some (.nameAndType x y) → ∃ k, y = .resolved k ∧ Utf8At pool k

theorem validateFieldDescriptor_nat {pool : Pool} {a b : CPRef} :
    Entry.validateFieldDescriptor pool (.nameAndType a b) = .ok () ↔
      ∃ k s, b = .resolved k ∧ TextAt pool k s ∧ IsFieldDescriptor s := by
  unfold Entry.validateFieldDescriptor
  simp only
  rw [Res.bind_ok]
  constructor
  · rintro ⟨e, he, h⟩
    obtain ⟨k, rfl, hk⟩ := peel_ok.mp he
    obtain ⟨s, rfl, hs⟩ := (str_check (f := fun s => isFieldDescriptor s >>= fun b => okIf b "Invalid field descriptor")
      (fun s => checks_okIf (isFieldDescriptor_checks s))).mp h
    exact ⟨k, s, rfl, hk, hs⟩
  · rintro ⟨k, s, rfl, hk, hs⟩
    exact ⟨_, peel_ok.mpr ⟨k, rfl, hk⟩, (str_check (f := fun s => isFieldDescriptor s >>= fun b => okIf b "Invalid field descriptor")
      (fun s => checks_okIf (isFieldDescriptor_checks s))).mpr ⟨s, rfl, hs⟩⟩

theorem validateMethodDescriptor_text {pool : Pool} {e : Entry} {d : Nat} (hn : ∀ a b, e ≠ .nameAndType a b) :
    e.validateMethodDescriptor pool (d + 1) = .ok () ↔ ∃ s, e = .utf8 s ∧ IsMethodDescriptor s := by
  unfold Entry.validateMethodDescriptor
  split
  · rename_i a b; exact absurd rfl (hn a b)
  · exact str_check fun s => checks_okIf (isMethodDescriptor_checks s)

theorem validateMethodDescriptor_nat {pool : Pool} (hN : NatUtf8 pool) {i : Nat} {a b : CPRef} {d : Nat}
    (hi : pool[i]? = some (.nameAndType a b)) :
    Entry.validateMethodDescriptor pool (d + 2) (.nameAndType a b) = .ok () ↔
      ∃ k s, b = .resolved k ∧ TextAt pool k s ∧ IsMethodDescriptor s := by
  show (peel pool b >>= fun e => Entry.validateMethodDescriptor pool (d + 1) e) = .ok () ↔ _
  obtain ⟨k, rfl, hk⟩ := hN i a b hi
  have hnn : ∀ {e}, pool[k]? = some e → ∀ a b, e ≠ .nameAndType a b := by
    rintro e he a b rfl
    obtain ⟨s, hs⟩ | ⟨s, hs⟩ := hk <;> rw [hs] at he <;> cases he
  rw [Res.bind_ok]
  constructor
  · rintro ⟨e, he, h⟩
    obtain ⟨k', hk', he'⟩ := peel_ok.mp he
    cases hk'
    obtain ⟨s, rfl, hs⟩ := (validateMethodDescriptor_text (hnn he')).mp h
    exact ⟨k, s, rfl, he', hs⟩
  · rintro ⟨k', s, hk', ht, hs⟩
    cases hk'
    exact ⟨_, peel_ok.mpr ⟨k, rfl, ht⟩, (validateMethodDescriptor_text (hnn ht)).mpr ⟨s, rfl, hs⟩⟩

/-- `ensure_type(NAME_AND_TYPE)` followed by a check of its descriptor. -/
theorem nat_check {pool : Pool} {y : CPRef} {f : Entry → Res Unit} {Q : Str → Prop}
    (h : ∀ (k : Nat) (a b : CPRef), pool[k]? = some (.nameAndType a b) →
      (f (.nameAndType a b) = .ok () ↔ ∃ k s, b = .resolved k ∧ TextAt pool k s ∧ Q s)) :
    (do y.ensureType pool EntryTypes.NAME_AND_TYPE; let e ← peel pool y; f e) = .ok () ↔
      ∃ k, y = .resolved k ∧ HasDescriptor pool k Q := by
  rw [Res.bind_ok]
  constructor
  · rintro ⟨_, h1, h2⟩
    obtain ⟨k, a, b, rfl, hk⟩ := ensureNat_ok.mp h1
    obtain ⟨e, he, h2⟩ := Res.bind_ok.mp h2
    obtain ⟨k', hk', hk2⟩ := peel_ok.mp he
    cases hk'
    rw [hk] at hk2
    cases hk2
    obtain ⟨j, s, rfl, hj, hs⟩ := (h k a b hk).mp h2
    exact ⟨k, rfl, a, j, s, hk, hj, hs⟩
  · rintro ⟨k, rfl, a, j, s, hk, hj, hs⟩
    exact ⟨(), ensureNat_ok.mpr ⟨k, a, _, rfl, hk⟩, Res.bind_ok.mpr ⟨_, peel_ok.mpr ⟨k, rfl, hk⟩, (h k a _ hk).mpr ⟨j, s, rfl, hj, hs⟩⟩⟩

theorem member_check {pool : Pool} {x y : CPRef} {f : Entry → Res Unit} {Q : Str → Prop}
    (h : ∀ (k : Nat) (a b : CPRef), pool[k]? = some (.nameAndType a b) →
      (f (.nameAndType a b) = .ok () ↔ ∃ k s, b = .resolved k ∧ TextAt pool k s ∧ Q s)) :
    (do x.ensureType pool EntryTypes.CLASS_INFO; y.ensureType pool EntryTypes.NAME_AND_TYPE; let e ← peel pool y; f e) = .ok () ↔
      (∃ k, x = .resolved k ∧ IsClass pool k) ∧ ∃ k, y = .resolved k ∧ HasDescriptor pool k Q := by
  rw [Res.bind_ok]
  constructor
  · rintro ⟨_, h1, h2⟩
    exact ⟨ensureClass_ok.mp h1, (nat_check h).mp h2⟩
  · rintro ⟨h1, h2⟩
    exact ⟨(), ensureClass_ok.mpr h1, (nat_check h).mpr h2⟩

theorem handle_check {pool : Pool} {y : CPRef} {k : ReferenceKind} {major : UInt16} :
    y.ensureType pool (handleTargetTypes k major) = .ok () ↔ ∃ m, y = .resolved m ∧ HandleTarget major k pool m := by
  rw [ensureType_ok]
  have hm : (major < 52) ↔ ¬ (52 ≤ major) := by simp
  constructor
  · rintro ⟨m, e, rfl, he, h⟩
    refine ⟨m, rfl, ?_⟩
    cases k <;> simp only [handleTargetTypes, type_field, type_method, type_imethod] at h <;> simp only [HandleTarget]
    case invokeStatic | invokeSpecial =>
      split at h
      · obtain ⟨a, b, rfl⟩ := (type_method _).mp h; exact .inl ⟨a, b, he⟩
      · rename_i hlt
        rw [hm, Classical.not_not] at hlt
        obtain ⟨a, b, rfl⟩ | ⟨a, b, rfl⟩ := (type_methods _).mp h
        · exact .inl ⟨a, b, he⟩
        · exact .inr ⟨hlt, a, b, he⟩
    all_goals (obtain ⟨a, b, rfl⟩ := h; exact ⟨a, b, he⟩)
  · rintro ⟨m, rfl, h⟩
    cases k <;> simp only [HandleTarget] at h <;> simp only [handleTargetTypes, type_field, type_method, type_imethod]
    case invokeStatic | invokeSpecial =>
      obtain ⟨a, b, he⟩ | ⟨hge, a, b, he⟩ := h
      · refine ⟨m, _, rfl, he, ?_⟩
        split
        · exact (type_method _).mpr ⟨a, b, rfl⟩
        · exact (type_methods _).mpr (.inl ⟨a, b, rfl⟩)
      · refine ⟨m, _, rfl, he, ?_⟩
        rw [if_neg (by rw [hm, Classical.not_not]; exact hge)]
        exact (type_methods _).mpr (.inr ⟨a, b, rfl⟩)
    all_goals (obtain ⟨a, b, he⟩ := h; exact ⟨m, _, rfl, he, a, b, rfl⟩)

/-- The entries whose check may follow a chain of descriptors. -/
def Entry.chained : Entry → Bool
  | .methodRef _ _ | .interfaceMethodRef _ _ | .invokeDynamic _ _ => true
  | _ => false

theorem validate_ok_aux {pool : Pool} {major : UInt16} {d : Nat} (e : Entry)
    (hm : e.chained = true → ∀ (k : Nat) (a b : CPRef), pool[k]? = some (.nameAndType a b) →
      ((Entry.nameAndType a b).validateMethodDescriptor pool (d + 2) = .ok () ↔
        ∃ k s, b = .resolved k ∧ TextAt pool k s ∧ IsMethodDescriptor s)) :
    e.validate (d + 2) pool major = .ok () ↔ EntryOK major pool e := by
  have hf : ∀ (k : Nat) (a b : CPRef), pool[k]? = some (.nameAndType a b) →
      ((Entry.nameAndType a b).validateFieldDescriptor pool = .ok () ↔
        ∃ k s, b = .resolved k ∧ TextAt pool k s ∧ IsFieldDescriptor s) := fun k a b _ => validateFieldDescriptor_nat
  cases e with
  | zero | utf8 _ | utf8Bytes _ | integer _ | float _ | long _ | double _ | unused => simp [Entry.validate, EntryOK]
  | classInfo x =>
    rw [Entry.validate, utf8_check (fun e => validateClassinfoName_ok)]
    cases x <;> simp [EntryOK]
  | string x =>
    rw [Entry.validate, ensureUtf8_ok]
    cases x <;> simp [EntryOK]
  | fieldRef x y =>
    rw [Entry.validate, member_check hf]
    cases x <;> cases y <;> simp [EntryOK]
  | methodRef x y =>
    rw [Entry.validate, member_check (hm rfl)]
    cases x <;> cases y <;> simp [EntryOK]
  | interfaceMethodRef x y =>
    rw [Entry.validate, member_check (hm rfl)]
    cases x <;> cases y <;> simp [EntryOK]
  | nameAndType x y =>
    have : Entry.validate (d + 2) pool major (.nameAndType x y) =
        ((do x.ensureType pool EntryTypes.UTF8; let e ← peel pool x; e.validateUnqualifiedName) >>= fun _ =>
          y.ensureType pool EntryTypes.UTF8) := by
      simp only [Entry.validate, Res.bind_assoc]
    rw [this, Res.bind_ok]
    simp only [utf8_check (fun e => validateUnqualifiedName_ok), ensureUtf8_ok]
    cases x <;> cases y <;> simp [EntryOK]
  | methodHandle k y =>
    rw [Entry.validate, handle_check]
    cases y <;> simp [EntryOK]
  | methodType x =>
    rw [Entry.validate]
    have : ∀ e : Entry, (x.ensureType pool EntryTypes.UTF8 = .ok ()) → peel pool x = .ok e → ∀ a b, e ≠ .nameAndType a b := by
      rintro e h1 h2 a b rfl
      obtain ⟨k, rfl, hk⟩ := ensureUtf8_ok.mp h1
      obtain ⟨k', hk', he⟩ := peel_ok.mp h2
      cases hk'
      obtain ⟨s, hs⟩ | ⟨s, hs⟩ := hk <;> rw [hs] at he <;> cases he
    have key : (do x.ensureType pool EntryTypes.UTF8; let e ← peel pool x; e.validateMethodDescriptor pool (d + 2)) = .ok () ↔
        ∃ k s, x = .resolved k ∧ TextAt pool k s ∧ IsMethodDescriptor s := by
      rw [Res.bind_ok]
      constructor
      · rintro ⟨_, h1, h2⟩
        obtain ⟨e, he, h3⟩ := Res.bind_ok.mp h2
        obtain ⟨k, rfl, hk⟩ := peel_ok.mp he
        obtain ⟨s, rfl, hs⟩ := (validateMethodDescriptor_text (this e h1 he)).mp h3
        exact ⟨k, s, rfl, hk, hs⟩
      · rintro ⟨k, s, rfl, hk, hs⟩
        exact ⟨(), ensureUtf8_ok.mpr ⟨k, rfl, .inl ⟨s, hk⟩⟩, Res.bind_ok.mpr ⟨_, peel_ok.mpr ⟨k, rfl, hk⟩,
          (validateMethodDescriptor_text (by simp)).mpr ⟨s, rfl, hs⟩⟩⟩
    rw [key]
    cases x <;> simp [EntryOK]
  | dynamic b y =>
    rw [Entry.validate, nat_check hf]
    cases y <;> simp [EntryOK]
  | invokeDynamic b y =>
    rw [Entry.validate, nat_check (hm rfl)]
    cases y <;> simp [EntryOK]
  | moduleInfo x =>
    rw [Entry.validate, utf8_check (fun e => validateModuleName_ok)]
    cases x <;> simp [EntryOK]
  | packageInfo x =>
    rw [Entry.validate, utf8_check (fun e => validateBinaryName_ok)]
    cases x <;> simp [EntryOK]

theorem validate_ok {pool : Pool} (hN : NatUtf8 pool) {major : UInt16} {d : Nat} (e : Entry) :
    e.validate (d + 2) pool major = .ok () ↔ EntryOK major pool e :=
  validate_ok_aux e fun _ _ _ _ h => validateMethodDescriptor_nat hN h

theorem validateFrom_ok {depth : Nat} {pool : Pool} {major : UInt16} : ∀ {es : List Entry} {i : Nat},
    validateFrom depth pool major i es = .ok () ↔ ∀ e ∈ es, e.validate depth pool major = .ok ()
  | [], i => by simp [validateFrom]
  | e :: es, i => by
    unfold validateFrom
    rw [Res.bind_ok]
    simp only [Res.mapErr_ok, List.mem_cons, forall_eq_or_imp, validateFrom_ok (es := es) (i := i + 1)]
    constructor
    · rintro ⟨_, h⟩; exact h
    · intro h; exact ⟨(), h⟩

theorem natUtf8_of_validate {depth : Nat} {pool : Pool} {major : UInt16}
    (h : ∀ e ∈ pool, e.validate depth pool major = .ok ()) : NatUtf8 pool := by
  intro i x y hi
  have := h _ (List.mem_of_getElem? hi)
  unfold Entry.validate at this
  simp only at this
  obtain ⟨_, _, this⟩ := Res.bind_ok.mp this
  obtain ⟨_, _, this⟩ := Res.bind_ok.mp this
  obtain ⟨_, _, this⟩ := Res.bind_ok.mp this
  exact ensureUtf8_ok.mp this

theorem natUtf8_of_ok {pool : Pool} {major : UInt16} (h : PoolOK major pool) : NatUtf8 pool := by
  intro i x y hi
  have := h i _ hi
  cases x <;> cases y <;> simp [EntryOK] at this
  exact ⟨_, rfl, this.2⟩

theorem validateConstantPool_ok {depth : Nat} (hd : 2 ≤ depth) {pool : Pool} {major : UInt16} :
    validateConstantPool depth pool major = .ok () ↔ PoolOK major pool := by
  obtain ⟨d, rfl⟩ : ∃ d, depth = d + 2 := ⟨depth - 2, by omega⟩
  unfold validateConstantPool
  rw [validateFrom_ok]
  constructor
  · intro h i e hi
    exact (validate_ok (natUtf8_of_validate h) e).mp (h e (List.mem_of_getElem? hi))
  · intro h e he
    obtain ⟨i, hi⟩ := List.getElem?_of_mem he
    exact (validate_ok (natUtf8_of_ok h) e).mpr (h i e hi)

theorem readConstantPool_exact {N : Nat} (env : Env) (hd : 2 ≤ env.depth) (major : UInt16) :
    Exact N (readConstantPool env major) (PoolEnc env.decode env.overflowChecks major) := by
  unfold readConstantPool
  refine (Exact.bind (readRawPool_exact env major) fun raw => Exact.bind (Exact.lift _) fun pool =>
    Exact.bind (Exact.lift _) fun _ => Exact.pure _).congr ?_
  intro pool seg
  constructor
  · rintro ⟨raw, s, t, rfl, hraw, q, s1, t1, rfl, ⟨hq, rfl⟩, u, s2, t2, rfl, ⟨hv, rfl⟩, rfl, rfl⟩
    refine ⟨raw, by simpa using hraw, resolveFrom_link hq, ?_⟩
    exact (validateConstantPool_ok hd).mp hv
  · rintro ⟨raw, hraw, rfl, hok⟩
    refine ⟨raw, seg, [], by simp, hraw, _, [], [], rfl, ⟨resolveFrom_of (pool := raw) fun j e hj => ?_, rfl⟩, (), [], [], rfl,
      ⟨(validateConstantPool_ok hd).mpr hok, rfl⟩, rfl, rfl⟩
    rw [Nat.zero_add]
    refine entry_resolve_of hj (hok j _ ?_)
    rw [List.getElem?_map, hj]; rfl

end Cafebabe
