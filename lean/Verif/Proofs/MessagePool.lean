import Verif.Proofs.MessageBase
/-!
# Proofs: the error for an input, the constant pool
-/

namespace Cafebabe
open Spec

section
variable {C : ParseError → Prop} {L N : Nat}

theorem numberCut_nil {s : Bytes} {e : ParseError} : ¬ NumberCut L [] s e := by
  intro h; cases h

theorem numberCut_one {w : String} {k : Nat} {s : Bytes} {e : ParseError} : NumberCut L [(w, k)] s e ↔ s.length < k ∧ e = cutOff L w s := by
  constructor
  · intro h
    cases h with
    | here h => exact ⟨h, rfl⟩
    | later _ h => exact absurd h numberCut_nil
  · rintro ⟨h, rfl⟩; exact .here h

theorem numberCut_two {s : Bytes} {e : ParseError} : NumberCut L [("u2", 2), ("u2", 2)] s e ↔ (s.length < 2 ∧ e = cutOff L "u2" s) ∨
    ∃ (i : UInt16) (t : Bytes), s = u2 i ++ t ∧ t.length < 2 ∧ e = cutOff L "u2" t := by
  constructor
  · intro h
    cases h with
    | here h => exact .inl ⟨h, rfl⟩
    | later hl h =>
      obtain ⟨a, b, rfl⟩ := list2 _ hl
      exact .inr ⟨_, _, by rw [u2_of_bytes], numberCut_one.mp h⟩
  · rintro (⟨h, rfl⟩ | ⟨i, t, rfl, h⟩)
    · exact .here h
    · exact .later (u2_length i) (numberCut_one.mpr h)

theorem constantWrong_nil {major : UInt16} {e : ParseError} : ConstantWrong L major [] e ↔ e = cutOff L "u1" [] := by
  constructor
  · intro h
    generalize hx : ([] : Bytes) = x at h
    cases h <;> simp at hx
    rfl
  · rintro rfl; exact .noTag

theorem constantWrong_cons {major : UInt16} {b : UInt8} {s : Bytes} {e : ParseError} : ConstantWrong L major (b :: s) e ↔
    (¬ TagAllowed major b ∧ e = plainly s!"Unexpected constant pool entry type {b} at index {L - (b :: s).length} for classfile major version {major}") ∨
    (TagAllowed major b ∧ NumberCut L (tagNumbers b) s e) ∨
    (b = 1 ∧ ∃ (n : UInt16) (t : Bytes), s = u2 n ++ t ∧ t.length < n.toNat ∧ e = cutOff L "CONSTANT_Utf8" t) ∨
    (b = 15 ∧ 51 ≤ major ∧ ((s = [] ∧ e = cutOff L "u1" []) ∨ ∃ k t, s = k :: t ∧
      (((∀ r, k ≠ kindByte r) ∧
        e = plainly s!"Unexpected reference kind {k} when reading CONSTANT_methodhandle at index {L - (k :: t).length}") ∨
       ((∃ r, k = kindByte r) ∧ t.length < 2 ∧ e = cutOff L "u2" t)))) := by
  constructor
  · intro h
    generalize hx : b :: s = x at h
    cases h with
    | noTag => cases hx
    | tag h => cases hx; exact .inl ⟨h, rfl⟩
    | number h1 h2 => cases hx; exact .inr (.inl ⟨h1, h2⟩)
    | @text n t h => cases hx; exact .inr (.inr (.inl ⟨rfl, n, t, rfl, h, rfl⟩))
    | noKind h => cases hx; exact .inr (.inr (.inr ⟨rfl, h, .inl ⟨rfl, rfl⟩⟩))
    | @kind k t h hk => cases hx; exact .inr (.inr (.inr ⟨rfl, h, .inr ⟨k, t, rfl, .inl ⟨hk, rfl⟩⟩⟩))
    | @noReference r t h hk => cases hx; exact .inr (.inr (.inr ⟨rfl, h, .inr ⟨_, t, rfl, .inr ⟨⟨r, rfl⟩, hk, rfl⟩⟩⟩))
  · rintro (⟨h, rfl⟩ | ⟨h1, h2⟩ | ⟨rfl, n, t, rfl, h, rfl⟩ | ⟨rfl, h, ⟨rfl, rfl⟩ | ⟨k, t, rfl, ⟨hk, rfl⟩ | ⟨⟨r, rfl⟩, hk, rfl⟩⟩⟩)
    · exact .tag h
    · exact .number h1 h2
    · exact .text h
    · exact .noKind h
    · exact .kind h hk
    · exact .noReference h hk

theorem tagAllowed_of {major : UInt16} {b : UInt8} {v : UInt16} (h : tagSince b = some v) : TagAllowed major b ↔ v ≤ major := by
  unfold TagAllowed
  rw [h]
  simp

theorem Names.unresolvedRef : Names C L N readUnresolvedCpRef (fun s e => s.length < 2 ∧ e = cutOff L "u2" s) :=
  Names.first Names.readU2 fun _ _ _ _ h => by cases h

theorem names_one (f : CPRef → Entry) : Names C L N (readUnresolvedCpRef >>= fun x => (pure (f x) : P Entry)) (NumberCut L [("u2", 2)]) :=
  (Names.first Names.unresolvedRef fun _ _ _ _ h => by cases h).congr fun _ _ _ => numberCut_one.symm

theorem names_two (f : CPRef → CPRef → Entry) :
    Names C L N (readUnresolvedCpRef >>= fun x => readUnresolvedCpRef >>= fun y => (pure (f x y) : P Entry)) (NumberCut L [("u2", 2), ("u2", 2)]) := by
  refine (Names.bind Names.unresolvedRef Exact.unresolvedRef fun x => names_one (f x)).congr fun s e _ => ?_
  rw [numberCut_two]
  refine or_congr_right ?_
  constructor
  · rintro ⟨_, s1, t, rfl, ⟨i, rfl, rfl⟩, h⟩
    exact ⟨i, t, rfl, numberCut_one.mp h⟩
  · rintro ⟨i, t, rfl, h⟩
    exact ⟨_, _, t, rfl, ⟨i, rfl, rfl⟩, numberCut_one.mpr h⟩

theorem names_dyn (f : UInt16 → CPRef → Entry) :
    Names C L N (readU2 >>= fun x => readUnresolvedCpRef >>= fun y => (pure (f x y) : P Entry)) (NumberCut L [("u2", 2), ("u2", 2)]) := by
  refine (Names.bind Names.readU2 Exact.readU2 fun x => names_one (f x)).congr fun s e _ => ?_
  rw [numberCut_two]
  refine or_congr_right ?_
  constructor
  · rintro ⟨i, s1, t, rfl, rfl, h⟩
    exact ⟨i, t, rfl, numberCut_one.mp h⟩
  · rintro ⟨i, t, rfl, h⟩
    exact ⟨_, _, t, rfl, rfl, numberCut_one.mpr h⟩

theorem names_tag (b : UInt8) (major : UInt16) : Names C L N (unexpectedTag b major) (fun s e =>
    e = plainly s!"Unexpected constant pool entry type {b} at index {L - (b :: s).length} for classfile major version {major}") :=
  (Names.getIxBind fun _ => Names.failWith _).congr fun s e _ => by
    rw [List.length_cons, Nat.sub_add_eq]

/-- A tag with plain numbers. -/
theorem wrong_numbers {major : UInt16} {b : UInt8} {v : UInt16} (h : tagSince b = some v) (h1 : b ≠ 1) (h15 : b ≠ 15) (hv : v ≤ major) {s : Bytes}
    {e : ParseError} : NumberCut L (tagNumbers b) s e ↔ ConstantWrong L major (b :: s) e := by
  rw [constantWrong_cons, tagAllowed_of h]
  simp [h1, h15, hv]

/-- A tag the version does not have. -/
theorem wrong_tag {major : UInt16} {b : UInt8} (h : ¬ TagAllowed major b) {s : Bytes} {e : ParseError} (h1 : b ≠ 1) (h15 : b = 15 → ¬ 51 ≤ major) :
    (e = plainly s!"Unexpected constant pool entry type {b} at index {L - (b :: s).length} for classfile major version {major}") ↔
      ConstantWrong L major (b :: s) e := by
  rw [constantWrong_cons]
  constructor
  · intro h'; exact .inl ⟨h, h'⟩
  · rintro (⟨-, h'⟩ | ⟨h', -⟩ | ⟨h', -⟩ | ⟨h', h'', -⟩)
    · exact h'
    · exact absurd h' h
    · exact absurd h' h1
    · exact absurd h'' (h15 h')

theorem names_utf8 (env : Env) (major : UInt16) : Names C L N (readConstantUtf8 env) (fun s e => ConstantWrong L major (1 :: s) e) := by
  unfold readConstantUtf8
  refine (Names.bind Names.readU2 Exact.readU2 fun n => Names.getIxBind fun i => Names.first (Names.takeBytes n.toNat _) fun b _ _ _ h => ?_).congr
    fun s e _ => ?_
  · cases hd : env.decode b <;> rw [hd] at h <;> cases h
  · rw [constantWrong_cons, tagAllowed_of (v := 0) rfl]
    show _ ↔ _ ∨ (_ ∧ NumberCut L [("u2", 2)] s e) ∨ _
    rw [numberCut_one]
    have hmaj : (0 : UInt16) ≤ major := Nat.zero_le major.toNat
    simp only [hmaj, not_true_eq_false, false_and, false_or, true_and]
    constructor
    · rintro (h | ⟨n, s1, t, rfl, rfl, h1, rfl⟩)
      · exact .inl h
      · refine .inr (.inl ⟨n, t, rfl, h1, ?_⟩)
        unfold cutOff plainly
        rw [← cut_text (w := "CONSTANT_Utf8") rfl]
        rfl
    · rintro (h | ⟨n, t, rfl, h1, rfl⟩ | ⟨h, -⟩)
      · exact .inl h
      · refine .inr ⟨n, _, t, rfl, rfl, h1, ?_⟩
        unfold cutOff plainly
        rw [← cut_text (w := "CONSTANT_Utf8") rfl]
        rfl
      · cases h

theorem names_handle (major : UInt16) (hm : 51 ≤ major) : Names C L N readConstantMethodhandle (fun s e => ConstantWrong L major (15 :: s) e) := by
  unfold readConstantMethodhandle
  refine (Names.bind Names.readU1 Exact.readU1 fun n => (show Names C L N _ (fun s e =>
      ((∀ r, n ≠ kindByte r) ∧ e = plainly s!"Unexpected reference kind {n} when reading CONSTANT_methodhandle at index {L - (n :: s).length}") ∨
      ((∃ r, n = kindByte r) ∧ s.length < 2 ∧ e = cutOff L "u2" s)) from ?_)).congr fun s e _ => ?_
  · cases hk : referenceKindOf n with
    | some k =>
      refine (Names.first Names.unresolvedRef fun _ _ _ _ h => by cases h).congr fun s e _ => ?_
      rw [kind_iff] at hk
      constructor
      · intro h; exact .inr ⟨⟨k, hk⟩, h⟩
      · rintro (⟨h, -⟩ | ⟨-, h⟩)
        · exact absurd hk (h k)
        · exact h
    | none =>
      refine (Names.getIxBind fun _ => Names.failWith _).congr fun s e _ => ?_
      have hno : ∀ r, n ≠ kindByte r := fun r hr => by rw [(kind_iff n r).mpr hr] at hk; cases hk
      rw [List.length_cons, Nat.sub_add_eq]
      constructor
      · intro h; exact .inl ⟨hno, h⟩
      · rintro (⟨-, h⟩ | ⟨⟨r, hr⟩, -⟩)
        · exact h
        · exact absurd hr (hno r)
  · rw [constantWrong_cons, tagAllowed_of (v := 51) rfl]
    show _ ↔ _ ∨ (_ ∧ NumberCut L [] s e) ∨ _
    simp only [hm, not_true_eq_false, false_and, false_or, true_and, numberCut_nil]
    constructor
    · rintro (⟨rfl, rfl⟩ | ⟨n, s1, t, rfl, rfl, h⟩)
      · exact .inr (.inl ⟨rfl, rfl⟩)
      · exact .inr (.inr ⟨n, t, rfl, h⟩)
    · rintro (⟨h, -⟩ | ⟨rfl, rfl⟩ | ⟨k, t, rfl, h⟩)
      · cases h
      · exact .inl ⟨rfl, rfl⟩
      · exact .inr ⟨k, _, t, rfl, rfl, h⟩

theorem readConstant_names (env : Env) (major : UInt16) (b : UInt8) :
    Names C L N (readConstant env major b) (fun s e => ConstantWrong L major (b :: s) e) := by
  have hmaj : (0 : UInt16) ≤ major := Nat.zero_le major.toNat
  have num4 : ∀ {f : UInt32 → Entry}, Names C L N (readU4 >>= fun v => (pure (f v) : P Entry)) (NumberCut L [("u4", 4)]) := fun {f} =>
    (Names.first Names.readU4 fun _ _ _ _ h => by cases h).congr fun _ _ _ => numberCut_one.symm
  have num8 : ∀ {f : UInt64 → Entry}, Names C L N (readU8 >>= fun v => (pure (f v) : P Entry)) (NumberCut L [("u8", 8)]) := fun {f} =>
    (Names.first Names.readU8 fun _ _ _ _ h => by cases h).congr fun _ _ _ => numberCut_one.symm
  unfold readConstant
  split <;> rename_i hb
  case _ =>
    obtain rfl : b = 1 := UInt8.toNat_inj.mp hb
    exact names_utf8 env major
  case _ =>
    obtain rfl : b = 3 := UInt8.toNat_inj.mp hb
    exact num4.congr fun _ _ _ => wrong_numbers (b := 3) (v := 0) rfl (by decide) (by decide) hmaj
  case _ =>
    obtain rfl : b = 4 := UInt8.toNat_inj.mp hb
    exact num4.congr fun _ _ _ => wrong_numbers (b := 4) (v := 0) rfl (by decide) (by decide) hmaj
  case _ =>
    obtain rfl : b = 5 := UInt8.toNat_inj.mp hb
    exact num8.congr fun _ _ _ => wrong_numbers (b := 5) (v := 0) rfl (by decide) (by decide) hmaj
  case _ =>
    obtain rfl : b = 6 := UInt8.toNat_inj.mp hb
    exact num8.congr fun _ _ _ => wrong_numbers (b := 6) (v := 0) rfl (by decide) (by decide) hmaj
  case _ =>
    obtain rfl : b = 7 := UInt8.toNat_inj.mp hb
    exact (names_one _).congr fun _ _ _ => wrong_numbers (b := 7) (v := 0) rfl (by decide) (by decide) hmaj
  case _ =>
    obtain rfl : b = 8 := UInt8.toNat_inj.mp hb
    exact (names_one _).congr fun _ _ _ => wrong_numbers (b := 8) (v := 0) rfl (by decide) (by decide) hmaj
  case _ =>
    obtain rfl : b = 9 := UInt8.toNat_inj.mp hb
    exact (names_two _).congr fun _ _ _ => wrong_numbers (b := 9) (v := 0) rfl (by decide) (by decide) hmaj
  case _ =>
    obtain rfl : b = 10 := UInt8.toNat_inj.mp hb
    exact (names_two _).congr fun _ _ _ => wrong_numbers (b := 10) (v := 0) rfl (by decide) (by decide) hmaj
  case _ =>
    obtain rfl : b = 11 := UInt8.toNat_inj.mp hb
    exact (names_two _).congr fun _ _ _ => wrong_numbers (b := 11) (v := 0) rfl (by decide) (by decide) hmaj
  case _ =>
    obtain rfl : b = 12 := UInt8.toNat_inj.mp hb
    exact (names_two _).congr fun _ _ _ => wrong_numbers (b := 12) (v := 0) rfl (by decide) (by decide) hmaj
  case _ =>
    obtain rfl : b = 15 := UInt8.toNat_inj.mp hb
    split
    · rename_i hm; exact names_handle major hm
    · rename_i hm
      exact (names_tag _ _).congr fun _ _ _ => wrong_tag (by rw [tagAllowed_of (v := 51) rfl]; exact hm) (by decide) fun _ => hm
  case _ =>
    obtain rfl : b = 16 := UInt8.toNat_inj.mp hb
    split <;> rename_i hm
    · exact (names_one _).congr fun _ _ _ => wrong_numbers (b := 16) (v := 51) rfl (by decide) (by decide) hm
    · exact (names_tag _ _).congr fun _ _ _ => wrong_tag (by rw [tagAllowed_of (v := 51) rfl]; exact hm) (by decide) (fun h => absurd h (by decide))
  case _ =>
    obtain rfl : b = 17 := UInt8.toNat_inj.mp hb
    split <;> rename_i hm
    · exact (names_dyn _).congr fun _ _ _ => wrong_numbers (b := 17) (v := 55) rfl (by decide) (by decide) hm
    · exact (names_tag _ _).congr fun _ _ _ => wrong_tag (by rw [tagAllowed_of (v := 55) rfl]; exact hm) (by decide) (fun h => absurd h (by decide))
  case _ =>
    obtain rfl : b = 18 := UInt8.toNat_inj.mp hb
    split <;> rename_i hm
    · exact (names_dyn _).congr fun _ _ _ => wrong_numbers (b := 18) (v := 51) rfl (by decide) (by decide) hm
    · exact (names_tag _ _).congr fun _ _ _ => wrong_tag (by rw [tagAllowed_of (v := 51) rfl]; exact hm) (by decide) (fun h => absurd h (by decide))
  case _ =>
    obtain rfl : b = 19 := UInt8.toNat_inj.mp hb
    split <;> rename_i hm
    · exact (names_one _).congr fun _ _ _ => wrong_numbers (b := 19) (v := 53) rfl (by decide) (by decide) hm
    · exact (names_tag _ _).congr fun _ _ _ => wrong_tag (by rw [tagAllowed_of (v := 53) rfl]; exact hm) (by decide) (fun h => absurd h (by decide))
  case _ =>
    obtain rfl : b = 20 := UInt8.toNat_inj.mp hb
    split <;> rename_i hm
    · exact (names_one _).congr fun _ _ _ => wrong_numbers (b := 20) (v := 53) rfl (by decide) (by decide) hm
    · exact (names_tag _ _).congr fun _ _ _ => wrong_tag (by rw [tagAllowed_of (v := 53) rfl]; exact hm) (by decide) (fun h => absurd h (by decide))
  case _ =>
    refine (names_tag _ _).congr fun _ _ _ => wrong_tag ?_ (by rintro rfl; simp_all) (by rintro rfl; simp_all)
    rintro ⟨v, hv, -⟩
    unfold tagSince at hv
    split at hv <;> simp_all

/-! ## The loop -/

/-- From the counter `c` on, `es` are read and another constant is to follow. -/
def GoFrom (checks : Bool) (count : UInt16) : UInt16 → List Entry → Prop
  | c, [] => c < count
  | c, e :: es => c < count ∧ (checks = true → c.toNat + (slots e).length < 65536) ∧ GoFrom checks count (c + UInt16.ofNat (slots e).length) es

theorem incrU16_err (checks : Bool) (x : UInt16) (e : ParseError) : incrU16 checks x ≠ .err e := by
  unfold incrU16
  split <;> intro h <;> cases h

theorem loop_names (env : Env) (major count : UInt16) : ∀ (fuel : Nat) (c : UInt16),
    Names C L fuel (constantPoolLoop env major count fuel c) (fun s e => ∃ es body t, s = body ++ t ∧ seq (EntryEnc env.decode major) es body ∧
      GoFrom env.overflowChecks count c es ∧ ConstantWrong L major t e)
  | 0, c => by
    intro bytes ix h1 h2 h3 e _
    omega
  | fuel + 1, c => by
    have hlift : ∀ {c : UInt16} {N}, Names C L N (P.lift (incrU16 env.overflowChecks c)) (fun _ _ => False) := fun {c N} =>
      (Names.lift _).congr fun _ e _ => iff_of_false (incrU16_err _ _ _) id
    unfold constantPoolLoop
    split
    · rename_i hc
      refine (Names.bindK 1 (M := fuel) Names.readU1 Exact.readU1 (by rintro a seg rfl; simp [u1]) (Nat.le_refl _) fun t =>
        Names.bind (readConstant_names env major t) (readConstant_exact env major t) fun e => Names.bind hlift (Exact.lift _) fun c1 =>
        Names.ite (fun _ => Names.bind hlift (Exact.lift _) fun c2 => Names.first (loop_names env major count fuel c2) fun _ _ _ _ h => by cases h)
          (fun _ => Names.first (loop_names env major count fuel c1) fun _ _ _ _ h => by cases h)).congr fun s err _ => ?_
      constructor
      · rintro (⟨rfl, rfl⟩ | ⟨t, s, s1, rfl, rfl, h | ⟨e, s2, s3, rfl, he, h | ⟨c1, s4, s5, rfl, ⟨hc1, rfl⟩, h⟩⟩⟩)
        · exact ⟨[], [], [], rfl, rfl, hc, .noTag⟩
        · exact ⟨[], [], _, rfl, rfl, hc, h⟩
        · exact h.elim
        rw [incrU16_ok] at hc1
        obtain ⟨rfl, hck⟩ := hc1
        have htag := entryEnc_tag he
        rcases h with ⟨ht, h | ⟨c2, s6, s7, rfl, ⟨hc2, rfl⟩, es, body, u, rfl, hs, hgo, hw⟩⟩ | ⟨ht, es, body, u, rfl, hs, hgo, hw⟩
        · exact h.elim
        · rw [if_pos ht] at htag
          rw [incrU16_ok] at hc2
          obtain ⟨rfl, hck2⟩ := hc2
          refine ⟨e :: es, (t :: s2) ++ body, u, by simp [u1], ⟨_, _, rfl, he, hs⟩, ⟨hc, fun hk => ?_, ?_⟩, hw⟩
          · have h1 := hck hk; have h2 := hck2 hk
            rw [UInt16.toNat_add] at h2
            have : (1 : UInt16).toNat = 1 := rfl
            rw [htag]; show c.toNat + 2 < _
            omega
          · rw [htag]
            show GoFrom _ _ (c + 2) es
            rwa [UInt16.add_assoc] at hgo
        · rw [if_neg ht] at htag
          refine ⟨e :: es, (t :: s2) ++ body, u, by simp [u1], ⟨_, _, rfl, he, hs⟩, ⟨hc, fun hk => ?_, ?_⟩, hw⟩
          · rw [htag]; exact hck hk
          · rw [htag]; exact hgo
      · rintro ⟨es, body, u, rfl, hs, hgo, hw⟩
        cases es with
        | nil =>
          cases hs
          cases u with
          | nil => exact .inl ⟨rfl, constantWrong_nil.mp hw⟩
          | cons t u => exact .inr ⟨t, [t], u, rfl, rfl, .inl hw⟩
        | cons e es =>
          obtain ⟨-, hck, hgo⟩ := hgo
          obtain ⟨s, s', rfl, he, hs⟩ := hs
          cases s with
          | nil => exact absurd he entryEnc_ne_nil
          | cons t s =>
            have htag := entryEnc_tag he
            refine .inr ⟨t, [t], s ++ (s' ++ u), by simp, rfl, .inr ⟨e, s, s' ++ u, rfl, he, .inr ⟨c + 1, [], s' ++ u, rfl, ⟨?_, rfl⟩, ?_⟩⟩⟩
            · rw [incrU16_ok]
              refine ⟨rfl, fun hk => ?_⟩
              have := hck hk
              have := slots_length e
              omega
            · by_cases ht : (t == 5 || t == 6) = true
              · rw [if_pos ht] at htag
                rw [htag] at hgo hck
                refine .inl ⟨ht, .inr ⟨c + 1 + 1, [], s' ++ u, rfl, ⟨?_, rfl⟩, es, s', u, rfl, hs, ?_, hw⟩⟩
                · rw [incrU16_ok]
                  refine ⟨rfl, fun hk => ?_⟩
                  have h1 : c.toNat + 2 < _ := hck hk
                  rw [UInt16.toNat_add]
                  have : (1 : UInt16).toNat = 1 := rfl
                  omega
                · rw [UInt16.add_assoc]
                  exact hgo
              · rw [if_neg ht] at htag
                rw [htag] at hgo
                exact .inr ⟨ht, es, s', u, rfl, hs, hgo, hw⟩
    · rename_i hc
      refine (Names.pure []).congr fun s e _ => ?_
      simp only [false_iff]
      rintro ⟨es, body, t, rfl, hs, hgo, hw⟩
      cases es with
      | nil => exact hc hgo
      | cons e es => exact hc hgo.1

theorem goFrom_iff (checks : Bool) (count : UInt16) : ∀ (es : List Entry) (c : UInt16) (n : Nat), c.toNat = n % 65536 →
    (checks = true → n < 65536) →
    (GoFrom checks count c es ↔ (∀ k, k ≤ es.length → (n + ((es.take k).flatMap slots).length) % 65536 < count.toNat) ∧
      (checks = true → n + (es.flatMap slots).length < 65536))
  | [], c, n, hn, hck => by
    have : c < count ↔ c.toNat < count.toNat := Iff.rfl
    simp only [GoFrom, List.length_nil, List.flatMap_nil, Nat.add_zero, this, hn, Nat.le_zero_eq, List.take_nil]
    constructor
    · intro h; exact ⟨fun _ _ => h, hck⟩
    · intro h; exact h.1 0 rfl
  | e :: es, c, n, hn, hck => by
    have hlt : c < count ↔ c.toNat < count.toNat := Iff.rfl
    have hsl := slots_length e
    have hcn := c.toNat_lt
    have hnext : (c + UInt16.ofNat (slots e).length).toNat = (n + (slots e).length) % 65536 := by
      rw [UInt16.toNat_add, UInt16.toNat_ofNat', hn]; omega
    simp only [GoFrom, hlt]
    constructor
    · rintro ⟨h1, h2, h3⟩
      have hc' : checks = true → n + (slots e).length < 65536 := fun hk => by
        have := h2 hk; have := hck hk; omega
      rw [goFrom_iff checks count es _ _ hnext hc'] at h3
      obtain ⟨h3, h5⟩ := h3
      refine ⟨fun k hk => ?_, ?_⟩
      · cases k with
        | zero => simp; omega
        | succ k =>
          have := h3 k (by simpa using hk)
          simp only [List.take_succ_cons, List.flatMap_cons, List.length_append]
          rw [← Nat.add_assoc]; exact this
      · simp only [List.flatMap_cons, List.length_append]; rw [← Nat.add_assoc]; exact h5
    · rintro ⟨h3, h5⟩
      simp only [List.flatMap_cons, List.length_append] at h5
      have hc' : checks = true → n + (slots e).length < 65536 := fun hk => by
        have := h5 hk; omega
      refine ⟨?_, fun hk => ?_, ?_⟩
      · have := h3 0 (by simp); simp at this; omega
      · have := hc' hk; have := hck hk; omega
      · rw [goFrom_iff checks count es _ _ hnext hc']
        refine ⟨fun k hk => ?_, ?_⟩
        · have := h3 (k + 1) (by simpa using hk)
          simp only [List.take_succ_cons, List.flatMap_cons, List.length_append] at this
          rw [Nat.add_assoc]; exact this
        · rw [Nat.add_assoc]; exact h5

theorem readRawPool_names (env : Env) (major : UInt16) : Names C L N (readRawPool env major) (RawPoolSays env.opts L major) := by
  unfold readRawPool
  refine (Names.bind Names.readU2 Exact.readU2 fun count => Names.first (G := fun s e => ∃ es body t, s = body ++ t ∧
    seq (EntryEnc env.decode major) es body ∧ GoFrom env.overflowChecks count 1 es ∧ ConstantWrong L major t e) ?_ fun _ _ _ _ h => by cases h).congr fun s e _ => ?_
  · intro bytes ix h1 h2 h3 e hC
    exact loop_names env major count (bytes.length + 1) 1 bytes ix h1 h2 (by omega) e hC
  · have hgo : ∀ count es, GoFrom env.overflowChecks count 1 es ↔ (∀ k, k ≤ es.length → slotCount (es.take k) % 65536 < count.toNat) ∧
        (env.overflowChecks = true → slotCount es < 65536) := fun count es => goFrom_iff _ _ es 1 1 rfl (by omega)
    simp only [hgo]
    constructor
    · rintro (⟨h, rfl⟩ | ⟨count, s1, t1, rfl, rfl, es, body, t, rfl, hs, ⟨h1, h2⟩, hw⟩)
      · exact .noCount h
      · exact .constant hs h1 h2 hw
    · intro h
      cases h with
      | noCount h => exact .inl ⟨h, rfl⟩
      | @constant count es body t _ hs h1 h2 hw => exact .inr ⟨count, _, _, rfl, rfl, es, body, t, rfl, hs, ⟨h1, h2⟩, hw⟩

end
end Cafebabe
