import Verif.Model.Cesu8
import Verif.Spec.Mutf8
/-!
# UTF-8 and modified UTF-8 decoding
-/

namespace Cafebabe
open Spec Cesu8

theorem char_range (c : Char) : c.toNat < 0xD800 ∨ (0xDFFF < c.toNat ∧ c.toNat < 0x110000) := by
  have := c.valid
  simpa [UInt32.isValidChar, Nat.isValidChar] using this

theorem char_ofNat {n : Nat} (h : n < 0xD800 ∨ (0xDFFF < n ∧ n < 0x110000)) : (Char.ofNat n).toNat = n := by
  have hv : n.isValidChar := by simpa [Nat.isValidChar] using h
  rw [Char.ofNat, dif_pos hv]
  simp [Char.ofNatAux, Char.toNat]

theorem char_toNat (c : Char) : Char.ofNat c.toNat = c := by
  apply Char.ext
  apply UInt32.toNat_inj.mp
  exact char_ofNat (char_range c)

theorem byte_toNat {n : Nat} (h : n < 256) : (UInt8.ofNat n).toNat = n := by
  rw [UInt8.toNat_ofNat']; omega

theorem byte_eq {b : UInt8} {n : Nat} (h : b.toNat = n) : UInt8.ofNat n = b := by
  rw [← h]; exact UInt8.ofNat_toNat

theorem byte_lt (b : UInt8) : b.toNat < 256 := b.toNat_lt

theorem some_char {m n : Nat} {r : Bytes} (h : m = n) : some (Char.ofNat m, r) = some (Char.ofNat n, r) := by rw [h]

theorem utf8Step_two {a b : UInt8} (r : Bytes) (ha : 0xC2 ≤ a.toNat ∧ a.toNat ≤ 0xDF) (hb : 128 ≤ b.toNat ∧ b.toNat ≤ 191) :
    utf8Step (a :: b :: r) = some (Char.ofNat ((a.toNat - 0xC0) * 64 + (b.toNat - 128)), r) := by
  simp only [utf8Step]
  rw [if_neg (by omega), if_neg (by omega), if_pos (by omega)]

theorem utf8Step_three {a b c : UInt8} (r : Bytes) (hb : 128 ≤ b.toNat ∧ b.toNat ≤ 191) (hc : 128 ≤ c.toNat ∧ c.toNat ≤ 191)
    (ha : (a.toNat = 0xE0 ∧ 0xA0 ≤ b.toNat) ∨ (0xE1 ≤ a.toNat ∧ a.toNat ≤ 0xEC) ∨ (a.toNat = 0xED ∧ b.toNat ≤ 0x9F) ∨ (0xEE ≤ a.toNat ∧ a.toNat ≤ 0xEF)) :
    utf8Step (a :: b :: c :: r) = some (Char.ofNat ((a.toNat - 0xE0) * 4096 + (b.toNat - 128) * 64 + (c.toNat - 128)), r) := by
  simp only [utf8Step]
  rw [if_neg (by omega), if_neg (by omega), if_neg (by omega), if_neg (by omega), if_pos (by omega)]

theorem utf8Step_four {a b c d : UInt8} (r : Bytes) (hb : 128 ≤ b.toNat ∧ b.toNat ≤ 191) (hc : 128 ≤ c.toNat ∧ c.toNat ≤ 191)
    (hd : 128 ≤ d.toNat ∧ d.toNat ≤ 191)
    (ha : (a.toNat = 0xF0 ∧ 0x90 ≤ b.toNat) ∨ (0xF1 ≤ a.toNat ∧ a.toNat ≤ 0xF3) ∨ (a.toNat = 0xF4 ∧ b.toNat ≤ 0x8F)) :
    utf8Step (a :: b :: c :: d :: r) =
      some (Char.ofNat ((a.toNat - 0xF0) * 262144 + (b.toNat - 128) * 4096 + (c.toNat - 128) * 64 + (d.toNat - 128)), r) := by
  simp only [utf8Step]
  rw [if_neg (by omega), if_neg (by omega), if_neg (by omega), if_neg (by omega), if_neg (by omega), if_neg (by omega), if_pos (by omega)]

/-- Decoding the encoding of a character. -/
theorem utf8Step_enc (c : Char) (r : Bytes) : utf8Step (utf8Char c ++ r) = some (c, r) := by
  have hc := char_range c
  have hr := char_toNat c
  unfold utf8Char
  simp only
  generalize c.toNat = n at hc hr
  subst hr
  by_cases h1 : n < 0x80
  · rw [if_pos h1]
    simp only [List.cons_append, List.nil_append, utf8Step]
    rw [byte_toNat (by omega), if_pos h1]
  rw [if_neg h1]
  by_cases h2 : n < 0x800
  · rw [if_pos h2, List.cons_append, List.cons_append, List.nil_append]
    have ha := byte_toNat (n := 0xC0 + n / 64) (by omega)
    have hb := byte_toNat (n := 0x80 + n % 64) (by omega)
    rw [utf8Step_two _ (by omega) (by omega), ha, hb]
    exact some_char (by omega)
  rw [if_neg h2]
  by_cases h3 : n < 0x10000
  · rw [if_pos h3, List.cons_append, List.cons_append, List.cons_append, List.nil_append]
    have ha := byte_toNat (n := 0xE0 + n / 4096) (by omega)
    have hb := byte_toNat (n := 0x80 + n / 64 % 64) (by omega)
    have hc := byte_toNat (n := 0x80 + n % 64) (by omega)
    rw [utf8Step_three _ (by omega) (by omega) (by omega), ha, hb, hc]
    exact some_char (by omega)
  · rw [if_neg h3, List.cons_append, List.cons_append, List.cons_append, List.cons_append, List.nil_append]
    have ha := byte_toNat (n := 0xF0 + n / 262144) (by omega)
    have hb := byte_toNat (n := 0x80 + n / 4096 % 64) (by omega)
    have hc := byte_toNat (n := 0x80 + n / 64 % 64) (by omega)
    have hd := byte_toNat (n := 0x80 + n % 64) (by omega)
    rw [utf8Step_four _ (by omega) (by omega) (by omega) (by omega), ha, hb, hc, hd]
    exact some_char (by omega)

theorem utf8Char_ofNat {n : Nat} (h : n < 0xD800 ∨ (0xDFFF < n ∧ n < 0x110000)) : utf8Char (Char.ofNat n) =
    if n < 0x80 then [UInt8.ofNat n]
    else if n < 0x800 then [UInt8.ofNat (0xC0 + n / 64), UInt8.ofNat (0x80 + n % 64)]
    else if n < 0x10000 then [UInt8.ofNat (0xE0 + n / 4096), UInt8.ofNat (0x80 + n / 64 % 64), UInt8.ofNat (0x80 + n % 64)]
    else [UInt8.ofNat (0xF0 + n / 262144), UInt8.ofNat (0x80 + n / 4096 % 64), UInt8.ofNat (0x80 + n / 64 % 64), UInt8.ofNat (0x80 + n % 64)] := by
  unfold utf8Char
  rw [char_ofNat h]

/-- What is decoded is the encoding of the character. -/
theorem utf8Step_inv {b r : Bytes} {c : Char} (h : utf8Step b = some (c, r)) : b = utf8Char c ++ r := by
  match b, h with
  | [], h => cases h
  | a :: b, h =>
    have := byte_lt a
    simp only [utf8Step] at h
    by_cases h1 : a.toNat < 128
    · rw [if_pos h1] at h
      simp only [Option.some.injEq, Prod.mk.injEq] at h
      obtain ⟨rfl, rfl⟩ := h
      rw [utf8Char_ofNat (by omega), if_pos h1, byte_eq rfl]; rfl
    rw [if_neg h1] at h
    match b, h with
    | b :: r', h =>
      simp only at h
      have := byte_lt b
      split at h
      · cases h
      split at h
      · simp only [Option.some.injEq, Prod.mk.injEq] at h
        obtain ⟨rfl, rfl⟩ := h
        rw [utf8Char_ofNat (by omega), if_neg (by omega), if_pos (by omega), byte_eq (b := a) (by omega), byte_eq (b := b) (by omega)]
        rfl
      match r', h with
      | c' :: r', h =>
        simp only at h
        have := byte_lt c'
        split at h
        · cases h
        split at h
        · simp only [Option.some.injEq, Prod.mk.injEq] at h
          obtain ⟨rfl, rfl⟩ := h
          rw [utf8Char_ofNat (by omega), if_neg (by omega), if_neg (by omega), if_pos (by omega), byte_eq (b := a) (by omega),
            byte_eq (b := b) (by omega), byte_eq (b := c') (by omega)]
          rfl
        match r', h with
        | d :: r', h =>
          simp only at h
          have := byte_lt d
          split at h
          · cases h
          split at h
          · simp only [Option.some.injEq, Prod.mk.injEq] at h
            obtain ⟨rfl, rfl⟩ := h
            rw [utf8Char_ofNat (by omega), if_neg (by omega), if_neg (by omega), if_neg (by omega), byte_eq (b := a) (by omega),
              byte_eq (b := b) (by omega), byte_eq (b := c') (by omega), byte_eq (b := d) (by omega)]
            rfl
          · cases h

theorem utf8Step_iff {b r : Bytes} {c : Char} : utf8Step b = some (c, r) ↔ b = utf8Char c ++ r :=
  ⟨utf8Step_inv, fun h => h ▸ utf8Step_enc c r⟩

/-! ### Modified UTF-8 -/

theorem unit_toNat {n : Nat} (h : n < 65536) : (UInt16.ofNat n).toNat = n := by
  rw [UInt16.toNat_ofNat']; omega

/-- The modified UTF-8 encoding of a character: that of its UTF-16 units. -/
theorem mutf8Char_ofNat {n : Nat} (h : n < 0xD800 ∨ (0xDFFF < n ∧ n < 0x110000)) : mutf8 (utf16Char (Char.ofNat n)) =
    if n = 0 then [UInt8.ofNat 0xC0, UInt8.ofNat 0x80]
    else if n < 0x80 then [UInt8.ofNat n]
    else if n < 0x800 then [UInt8.ofNat (0xC0 + n / 64), UInt8.ofNat (0x80 + n % 64)]
    else if n < 0x10000 then [UInt8.ofNat (0xE0 + n / 4096), UInt8.ofNat (0x80 + n / 64 % 64), UInt8.ofNat (0x80 + n % 64)]
    else [UInt8.ofNat 0xED, UInt8.ofNat (0xA0 + (n - 0x10000) / 65536), UInt8.ofNat (0x80 + (n - 0x10000) / 1024 % 64),
      UInt8.ofNat 0xED, UInt8.ofNat (0xB0 + (n - 0x10000) / 64 % 16), UInt8.ofNat (0x80 + (n - 0x10000) % 64)] := by
  unfold utf16Char mutf8
  rw [char_ofNat h]
  simp only
  by_cases h4 : n < 0x10000
  · rw [if_pos h4]
    simp only [List.flatMap_cons, List.flatMap_nil, List.append_nil, unitBytes]
    rw [unit_toNat h4]
    by_cases h0 : n = 0
    · subst h0; rfl
    rw [if_neg h0]
    by_cases h1 : n < 0x80
    · rw [if_pos h1, if_pos (by omega)]
    rw [if_neg h1, if_neg (by omega)]
    by_cases h2 : n < 0x800
    · rw [if_pos h2, if_pos h2]
    · rw [if_neg h2, if_neg h2, if_pos h4]
  · rw [if_neg h4, if_neg (by omega), if_neg (by omega), if_neg (by omega), if_neg h4]
    simp only [List.flatMap_cons, List.flatMap_nil, List.append_nil, unitBytes]
    rw [unit_toNat (by omega), unit_toNat (by omega), if_neg (by omega), if_neg (by omega), if_neg (by omega), if_neg (by omega)]
    simp only [List.cons_append, List.nil_append]
    have e1 : 0xE0 + (0xD800 + (n - 0x10000) / 1024) / 4096 = 0xED := by omega
    have e2 : 0x80 + (0xD800 + (n - 0x10000) / 1024) / 64 % 64 = 0xA0 + (n - 0x10000) / 65536 := by omega
    have e3 : 0x80 + (0xD800 + (n - 0x10000) / 1024) % 64 = 0x80 + (n - 0x10000) / 1024 % 64 := by omega
    have e4 : 0xE0 + (0xDC00 + (n - 0x10000) % 1024) / 4096 = 0xED := by omega
    have e5 : 0x80 + (0xDC00 + (n - 0x10000) % 1024) / 64 % 64 = 0xB0 + (n - 0x10000) / 64 % 16 := by omega
    have e6 : 0x80 + (0xDC00 + (n - 0x10000) % 1024) % 64 = 0x80 + (n - 0x10000) % 64 := by omega
    rw [e1, e2, e3, e4, e5, e6]

theorem javaStep_two {a b : UInt8} (r : Bytes) (ha : 0xC2 ≤ a.toNat ∧ a.toNat ≤ 0xDF) (hb : 128 ≤ b.toNat ∧ b.toNat ≤ 191) :
    javaStep (a :: b :: r) = some (Char.ofNat ((a.toNat - 0xC0) * 64 + (b.toNat - 128)), r) := by
  simp only [javaStep]
  rw [if_neg (by omega), if_neg (by omega), if_neg (by omega), if_neg (by omega), if_pos (by omega)]

theorem javaStep_three {a b c : UInt8} (r : Bytes) (hb : 128 ≤ b.toNat ∧ b.toNat ≤ 191) (hc : 128 ≤ c.toNat ∧ c.toNat ≤ 191)
    (ha : (a.toNat = 0xE0 ∧ 0xA0 ≤ b.toNat) ∨ (0xE1 ≤ a.toNat ∧ a.toNat ≤ 0xEC) ∨ (a.toNat = 0xED ∧ b.toNat ≤ 0x9F) ∨ (0xEE ≤ a.toNat ∧ a.toNat ≤ 0xEF)) :
    javaStep (a :: b :: c :: r) = some (Char.ofNat ((a.toNat - 0xE0) * 4096 + (b.toNat - 128) * 64 + (c.toNat - 128)), r) := by
  simp only [javaStep]
  rw [if_neg (by omega), if_neg (by omega), if_neg (by omega), if_neg (by omega), if_neg (by omega), if_neg (by omega), if_pos (by omega)]

theorem javaStep_six {a b c d e f : UInt8} (r : Bytes) (ha : a.toNat = 0xED) (hb : 0xA0 ≤ b.toNat ∧ b.toNat ≤ 0xAF)
    (hc : 128 ≤ c.toNat ∧ c.toNat ≤ 191) (hd : d.toNat = 0xED) (he : 0xB0 ≤ e.toNat ∧ e.toNat ≤ 0xBF) (hf : 128 ≤ f.toNat ∧ f.toNat ≤ 191) :
    javaStep (a :: b :: c :: d :: e :: f :: r) =
      some (Char.ofNat (0x10000 + ((b.toNat - 0xA0) * 64 + (c.toNat - 128)) * 1024 + ((e.toNat - 0xB0) * 64 + (f.toNat - 128))), r) := by
  simp only [javaStep]
  rw [if_neg (by omega), if_neg (by omega), if_neg (by omega), if_neg (by omega), if_neg (by omega), if_neg (by omega), if_neg (by omega),
    if_pos (by omega), if_pos (by omega)]

/-- Decoding the modified UTF-8 encoding of a character. -/
theorem javaStep_enc (c : Char) (r : Bytes) : javaStep (mutf8 (utf16Char c) ++ r) = some (c, r) := by
  have hc := char_range c
  have hr := char_toNat c
  generalize c.toNat = n at hc hr
  subst hr
  rw [mutf8Char_ofNat hc]
  by_cases h0 : n = 0
  · subst h0; rfl
  rw [if_neg h0]
  by_cases h1 : n < 0x80
  · rw [if_pos h1]
    simp only [List.cons_append, List.nil_append, javaStep]
    rw [byte_toNat (by omega), if_neg h0, if_pos h1]
  rw [if_neg h1]
  by_cases h2 : n < 0x800
  · rw [if_pos h2, List.cons_append, List.cons_append, List.nil_append]
    have ha := byte_toNat (n := 0xC0 + n / 64) (by omega)
    have hb := byte_toNat (n := 0x80 + n % 64) (by omega)
    rw [javaStep_two _ (by omega) (by omega), ha, hb]
    exact some_char (by omega)
  rw [if_neg h2]
  by_cases h3 : n < 0x10000
  · rw [if_pos h3, List.cons_append, List.cons_append, List.cons_append, List.nil_append]
    have ha := byte_toNat (n := 0xE0 + n / 4096) (by omega)
    have hb := byte_toNat (n := 0x80 + n / 64 % 64) (by omega)
    have hc := byte_toNat (n := 0x80 + n % 64) (by omega)
    rw [javaStep_three _ (by omega) (by omega) (by omega), ha, hb, hc]
    exact some_char (by omega)
  · rw [if_neg h3]
    simp only [List.cons_append, List.nil_append]
    have hb := byte_toNat (n := 0xA0 + (n - 0x10000) / 65536) (by omega)
    have hc := byte_toNat (n := 0x80 + (n - 0x10000) / 1024 % 64) (by omega)
    have he := byte_toNat (n := 0xB0 + (n - 0x10000) / 64 % 16) (by omega)
    have hf := byte_toNat (n := 0x80 + (n - 0x10000) % 64) (by omega)
    rw [javaStep_six _ (byte_toNat (by omega)) (by omega) (by omega) (byte_toNat (by omega)) (by omega) (by omega), hb, hc, he, hf]
    exact some_char (by omega)

theorem javaStep_inv {b r : Bytes} {c : Char} (h : javaStep b = some (c, r)) : b = mutf8 (utf16Char c) ++ r := by
  match b, h with
  | [], h => cases h
  | a :: b, h =>
    have := byte_lt a
    simp only [javaStep] at h
    split at h
    · cases h
    rename_i h0
    by_cases h1 : a.toNat < 128
    · rw [if_pos h1] at h
      simp only [Option.some.injEq, Prod.mk.injEq] at h
      obtain ⟨rfl, rfl⟩ := h
      rw [mutf8Char_ofNat (by omega), if_neg h0, if_pos h1, byte_eq rfl]; rfl
    rw [if_neg h1] at h
    match b, h with
    | b :: r', h =>
      simp only at h
      have := byte_lt b
      split at h
      · split at h
        · simp only [Option.some.injEq, Prod.mk.injEq] at h
          obtain ⟨rfl, rfl⟩ := h
          rw [mutf8Char_ofNat (by omega), if_pos rfl, byte_eq (b := a) (by omega), byte_eq (b := b) (by omega)]
          rfl
        · cases h
      split at h
      · cases h
      split at h
      · simp only [Option.some.injEq, Prod.mk.injEq] at h
        obtain ⟨rfl, rfl⟩ := h
        rw [mutf8Char_ofNat (by omega), if_neg (by omega), if_neg (by omega), if_pos (by omega), byte_eq (b := a) (by omega), byte_eq (b := b) (by omega)]
        rfl
      match r', h with
      | c' :: r', h =>
        simp only at h
        have := byte_lt c'
        split at h
        · cases h
        split at h
        · simp only [Option.some.injEq, Prod.mk.injEq] at h
          obtain ⟨rfl, rfl⟩ := h
          rw [mutf8Char_ofNat (by omega), if_neg (by omega), if_neg (by omega), if_neg (by omega), if_pos (by omega), byte_eq (b := a) (by omega),
            byte_eq (b := b) (by omega), byte_eq (b := c') (by omega)]
          rfl
        split at h
        · match r', h with
          | d :: e :: f :: r', h =>
            simp only at h
            have := byte_lt d
            have := byte_lt e
            have := byte_lt f
            split at h
            · simp only [Option.some.injEq, Prod.mk.injEq] at h
              obtain ⟨rfl, rfl⟩ := h
              have hd : d = a := UInt8.toNat_inj.mp (by omega)
              subst hd
              rw [mutf8Char_ofNat (by omega), if_neg (by omega), if_neg (by omega), if_neg (by omega), if_neg (by omega), byte_eq (b := d) (by omega),
                byte_eq (b := b) (by omega), byte_eq (b := c') (by omega), byte_eq (b := e) (by omega), byte_eq (b := f) (by omega)]
              rfl
            · cases h
        · cases h

theorem javaStep_iff {b r : Bytes} {c : Char} : javaStep b = some (c, r) ↔ b = mutf8 (utf16Char c) ++ r :=
  ⟨javaStep_inv, fun h => h ▸ javaStep_enc c r⟩

/-! ### Whole texts -/

/-- A step that inverts a code of non-empty words decodes exactly the texts' encodings. -/
theorem decodeAll_iff {step : Bytes → Option (Char × Bytes)} {enc : Char → Bytes} (hs : ∀ b r c, step b = some (c, r) ↔ b = enc c ++ r)
    (hne : ∀ c, enc c ≠ []) : ∀ (n : Nat) (b : Bytes) (s : Str), b.length ≤ n → (decodeAll step n b = some s ↔ b = s.flatMap enc) := by
  intro n
  induction n with
  | zero =>
    intro b s hb
    cases b with
    | cons x b => simp at hb
    | nil =>
      cases s with
      | nil => simp [decodeAll]
      | cons c s => simp [decodeAll, hne]
  | succ n ih =>
    intro b s hb
    cases b with
    | nil =>
      cases s with
      | nil => simp [decodeAll]
      | cons c s => simp [decodeAll, hne]
    | cons x b =>
      simp only [decodeAll]
      cases hst : step (x :: b) with
      | none =>
        constructor
        · intro h; cases h
        · intro h
          cases s with
          | nil => cases h
          | cons c s =>
            rw [List.flatMap_cons] at h
            rw [(hs _ _ _).mpr h] at hst
            cases hst
      | some p =>
        obtain ⟨c, r⟩ := p
        have he := (hs _ _ _).mp hst
        have hl : r.length ≤ n := by
          have h1 := congrArg List.length he
          have h2 := List.length_pos_iff.mpr (hne c)
          simp only [List.length_cons, List.length_append] at h1 hb
          omega
        simp only
        constructor
        · intro h
          obtain ⟨s', h', rfl⟩ := Option.map_eq_some_iff.mp h
          rw [List.flatMap_cons, he, (ih r s' hl).mp h']
        · intro h
          cases s with
          | nil => cases h
          | cons c' s =>
            rw [List.flatMap_cons] at h
            have := (hs _ _ _).mpr h
            rw [hst] at this
            cases this
            rw [(ih _ s hl).mpr rfl]
            rfl

theorem utf8Char_ne (c : Char) : utf8Char c ≠ [] := by
  intro h
  have := utf8Step_enc c []
  rw [h] at this
  cases this

theorem mutf8Char_ne (c : Char) : mutf8 (utf16Char c) ≠ [] := by
  intro h
  have := javaStep_enc c []
  rw [h] at this
  cases this

theorem mutf8_utf16 (s : Str) : mutf8 (utf16 s) = s.flatMap fun c => mutf8 (utf16Char c) := by
  simp [mutf8, utf16, List.flatMap_assoc]

theorem fromUtf8_iff {b : Bytes} {s : Str} : fromUtf8 b = some s ↔ b = utf8 s :=
  decodeAll_iff (fun _ _ _ => utf8Step_iff) utf8Char_ne _ b s (Nat.le_refl _)

theorem fromJava_iff {b : Bytes} {s : Str} : fromJava b = some s ↔ b = mutf8 (utf16 s) := by
  rw [mutf8_utf16]
  exact decodeAll_iff (fun _ _ _ => javaStep_iff) mutf8Char_ne _ b s (Nat.le_refl _)

/-! ### One text, two spellings -/

theorem byte_inj {m n : Nat} (hm : m < 256) (hn : n < 256) (h : UInt8.ofNat m = UInt8.ofNat n) : m = n := by
  have := congrArg UInt8.toNat h
  rwa [byte_toNat hm, byte_toNat hn] at this

/-- The word of a unit and the UTF-8 of a character that start the same bytes: the character is that unit. -/
theorem unit_char {u : UInt16} {c : Char} {r r' : Bytes} (h : unitBytes u ++ r = utf8Char c ++ r') : utf16Char c = [u] ∧ r = r' := by
  have hc := char_range c
  have hu := u.toNat_lt
  have key : ∀ {n : Nat}, c.toNat = n → u.toNat = n → utf16Char c = [u] := by
    intro n h1 h2
    unfold utf16Char
    simp only
    rw [if_pos (by omega), h1, ← h2, UInt16.ofNat_toNat]
  unfold unitBytes utf8Char at h
  simp only at h
  split at h
  · split at h
    · simp only [List.cons_append, List.nil_append, List.cons.injEq] at h
      have := byte_inj (by omega) (by omega) h.1
      exact ⟨key rfl (by omega), h.2⟩
    · exfalso
      split at h
      · simp only [List.cons_append, List.nil_append, List.cons.injEq] at h
        have := byte_inj (by omega) (by omega) h.1
        omega
      · split at h
        · simp only [List.cons_append, List.nil_append, List.cons.injEq] at h
          have := byte_inj (by omega) (by omega) h.1
          omega
        · simp only [List.cons_append, List.nil_append, List.cons.injEq] at h
          have := byte_inj (by omega) (by omega) h.1
          omega
  · split at h
    · split at h
      · exfalso
        simp only [List.cons_append, List.nil_append, List.cons.injEq] at h
        have := byte_inj (by omega) (by omega) h.1
        omega
      · split at h
        · simp only [List.cons_append, List.nil_append, List.cons.injEq] at h
          have h1 := byte_inj (by omega) (by omega) h.1
          have h2 := byte_inj (by omega) (by omega) h.2.1
          exact ⟨key rfl (by omega), h.2.2⟩
        · exfalso
          split at h
          · simp only [List.cons_append, List.nil_append, List.cons.injEq] at h
            have := byte_inj (by omega) (by omega) h.1
            omega
          · simp only [List.cons_append, List.nil_append, List.cons.injEq] at h
            have := byte_inj (by omega) (by omega) h.1
            omega
    · split at h
      · exfalso
        simp only [List.cons_append, List.nil_append, List.cons.injEq] at h
        have := byte_inj (by omega) (by omega) h.1
        omega
      · split at h
        · exfalso
          simp only [List.cons_append, List.nil_append, List.cons.injEq] at h
          have := byte_inj (by omega) (by omega) h.1
          omega
        · split at h
          · simp only [List.cons_append, List.nil_append, List.cons.injEq] at h
            have h1 := byte_inj (by omega) (by omega) h.1
            have h2 := byte_inj (by omega) (by omega) h.2.1
            have h3 := byte_inj (by omega) (by omega) h.2.2.1
            exact ⟨key rfl (by omega), h.2.2.2⟩
          · exfalso
            simp only [List.cons_append, List.nil_append, List.cons.injEq] at h
            have := byte_inj (by omega) (by omega) h.1
            omega

/-- The words of units are a prefix code. -/
theorem unit_cases (w : UInt16) :
    ((1 ≤ w.toNat ∧ w.toNat < 128) ∧ unitBytes w = [UInt8.ofNat w.toNat]) ∨
    ((w.toNat = 0 ∨ 128 ≤ w.toNat ∧ w.toNat < 2048) ∧ unitBytes w = [UInt8.ofNat (0xC0 + w.toNat / 64), UInt8.ofNat (0x80 + w.toNat % 64)]) ∨
    (2048 ≤ w.toNat ∧
      unitBytes w = [UInt8.ofNat (0xE0 + w.toNat / 4096), UInt8.ofNat (0x80 + w.toNat / 64 % 64), UInt8.ofNat (0x80 + w.toNat % 64)]) := by
  unfold unitBytes
  simp only
  by_cases h1 : 1 ≤ w.toNat ∧ w.toNat < 0x80
  · exact .inl ⟨h1, by rw [if_pos h1]⟩
  · by_cases h2 : w.toNat < 0x800
    · exact .inr (.inl ⟨by omega, by rw [if_neg h1, if_pos h2]⟩)
    · exact .inr (.inr ⟨by omega, by rw [if_neg h1, if_neg h2]⟩)

theorem unit_split {u v : UInt16} {r r' : Bytes} (h : unitBytes u ++ r = unitBytes v ++ r') : u = v ∧ r = r' := by
  have hu := u.toNat_lt
  have hv := v.toNat_lt
  rcases unit_cases u with ⟨cu, eu⟩ | ⟨cu, eu⟩ | ⟨cu, eu⟩ <;> rcases unit_cases v with ⟨cv, ev⟩ | ⟨cv, ev⟩ | ⟨cv, ev⟩ <;> rw [eu, ev] at h <;>
    simp only [List.cons_append, List.nil_append, List.cons.injEq] at h
  · have := byte_inj (by omega) (by omega) h.1
    exact ⟨UInt16.toNat_inj.mp this, h.2⟩
  · have := byte_inj (by omega) (by omega) h.1
    omega
  · have := byte_inj (by omega) (by omega) h.1
    omega
  · have := byte_inj (by omega) (by omega) h.1
    omega
  · have h1 := byte_inj (by omega) (by omega) h.1
    have h2 := byte_inj (by omega) (by omega) h.2.1
    exact ⟨UInt16.toNat_inj.mp (by omega), h.2.2⟩
  · have := byte_inj (by omega) (by omega) h.1
    omega
  · have := byte_inj (by omega) (by omega) h.1
    omega
  · have := byte_inj (by omega) (by omega) h.1
    omega
  · have h1 := byte_inj (by omega) (by omega) h.1
    have h2 := byte_inj (by omega) (by omega) h.2.1
    have h3 := byte_inj (by omega) (by omega) h.2.2.1
    exact ⟨UInt16.toNat_inj.mp (by omega), h.2.2.2⟩

theorem unitBytes_ne (u : UInt16) : unitBytes u ≠ [] := by
  unfold unitBytes
  simp only
  split
  · nofun
  · split <;> nofun

/-- Modified UTF-8 is unambiguous. -/
theorem mutf8_inj : ∀ {us vs : List UInt16}, mutf8 us = mutf8 vs → us = vs
  | [], [], _ => rfl
  | [], v :: vs, h => by
    exfalso
    simp only [mutf8, List.flatMap_nil, List.flatMap_cons] at h
    exact unitBytes_ne v (List.append_eq_nil_iff.mp h.symm).1
  | u :: us, [], h => by
    exfalso
    simp only [mutf8, List.flatMap_nil, List.flatMap_cons] at h
    exact unitBytes_ne u (List.append_eq_nil_iff.mp h).1
  | u :: us, v :: vs, h => by
    simp only [mutf8, List.flatMap_cons] at h
    obtain ⟨rfl, h'⟩ := unit_split h
    rw [mutf8_inj h']

/-- Bytes that are both modified UTF-8 and UTF-8 stand for the same text. -/
theorem mutf8_eq_utf8 : ∀ {us : List UInt16} {s : Str}, mutf8 us = utf8 s → us = utf16 s
  | [], [], _ => rfl
  | [], c :: s, h => by
    exfalso
    simp only [mutf8, utf8, List.flatMap_nil, List.flatMap_cons] at h
    exact utf8Char_ne c (List.append_eq_nil_iff.mp h.symm).1
  | u :: us, [], h => by
    exfalso
    simp only [mutf8, utf8, List.flatMap_nil, List.flatMap_cons] at h
    exact unitBytes_ne u (List.append_eq_nil_iff.mp h).1
  | u :: us, c :: s, h => by
    simp only [mutf8, utf8, List.flatMap_cons] at h
    obtain ⟨h1, h2⟩ := unit_char h
    rw [mutf8_eq_utf8 (us := us) (s := s) h2, utf16, utf16, List.flatMap_cons, h1]
    rfl

theorem utf16Char_inj {s t : Str} (h : utf16 s = utf16 t) : s = t := by
  have h1 := fromJava_iff (b := mutf8 (utf16 s)) (s := s)
  have h2 := fromJava_iff (b := mutf8 (utf16 s)) (s := t)
  have := (h1.mpr rfl).symm.trans (h2.mpr (by rw [h]))
  exact Option.some.inj this

theorem utf8_inj {s t : Str} (h : utf8 s = utf8 t) : s = t := by
  have := (fromUtf8_iff.mpr (rfl : utf8 s = utf8 s)).symm.trans (fromUtf8_iff.mpr h)
  exact Option.some.inj this

/-- What `from_java_cesu8` decodes: the UTF-8 and the modified UTF-8 encodings of a text, nothing else. -/
theorem fromJavaCesu8_iff {b : Bytes} {s : Str} : fromJavaCesu8 b = some s ↔ b = utf8 s ∨ b = mutf8 (utf16 s) := by
  unfold fromJavaCesu8
  cases h : fromUtf8 b with
  | none =>
    simp only
    rw [fromJava_iff]
    refine ⟨.inr, fun h' => h'.resolve_left fun h1 => ?_⟩
    rw [fromUtf8_iff.mpr h1] at h
    cases h
  | some t =>
    have ht := fromUtf8_iff.mp h
    simp only [Option.some.injEq]
    constructor
    · rintro rfl; exact .inl ht
    · rintro (h1 | h1)
      · exact utf8_inj (ht.symm.trans h1)
      · exact (utf16Char_inj (mutf8_eq_utf8 (h1.symm.trans ht))).symm

/-- A Java string is decoded exactly when it is well-formed UTF-16. -/
theorem fromJavaCesu8_mutf8 {us : List UInt16} {s : Str} : fromJavaCesu8 (mutf8 us) = some s ↔ us = utf16 s := by
  rw [fromJavaCesu8_iff]
  constructor
  · rintro (h | h)
    · exact mutf8_eq_utf8 h
    · exact mutf8_inj h
  · rintro rfl; exact .inr rfl

theorem utf8Char_length (c : Char) : 1 ≤ (utf8Char c).length ∧ (utf8Char c).length ≤ (mutf8 (utf16Char c)).length := by
  have hc := char_range c
  have hr := char_toNat c
  generalize c.toNat = n at hc hr
  subst hr
  rw [mutf8Char_ofNat hc, utf8Char_ofNat hc]
  by_cases h0 : n = 0
  · subst h0; simp
  rw [if_neg h0]
  by_cases h1 : n < 0x80
  · rw [if_pos h1, if_pos h1]; simp
  rw [if_neg h1, if_neg h1]
  by_cases h2 : n < 0x800
  · rw [if_pos h2, if_pos h2]; simp
  rw [if_neg h2, if_neg h2]
  by_cases h3 : n < 0x10000
  · rw [if_pos h3, if_pos h3]; simp
  · rw [if_neg h3, if_neg h3]; simp

theorem utf8_length : ∀ s : Str, s.length ≤ (utf8 s).length ∧ (utf8 s).length ≤ (mutf8 (utf16 s)).length
  | [] => ⟨Nat.le_refl _, Nat.le_refl _⟩
  | c :: s => by
    have h1 := utf8Char_length c
    have h2 := utf8_length s
    rw [mutf8_utf16] at h2 ⊢
    simp only [utf8, List.flatMap_cons, List.length_append, List.length_cons] at h2 ⊢
    omega

/-- A character has one spelling unless it is U+0000 or needs a surrogate pair. -/
theorem utf8Char_eq {c : Char} : utf8Char c = mutf8 (utf16Char c) ↔ c.toNat ≠ 0 ∧ c.toNat < 0x10000 := by
  have hc := char_range c
  have hr := char_toNat c
  generalize hn : c.toNat = n at hc hr
  rw [← hr, mutf8Char_ofNat hc, utf8Char_ofNat hc]
  by_cases h0 : n = 0
  · subst h0; simp
  rw [if_neg h0]
  by_cases h1 : n < 0x80
  · rw [if_pos h1, if_pos h1]; simp; omega
  rw [if_neg h1, if_neg h1]
  by_cases h2 : n < 0x800
  · rw [if_pos h2, if_pos h2]; simp; omega
  rw [if_neg h2, if_neg h2]
  by_cases h3 : n < 0x10000
  · rw [if_pos h3, if_pos h3]; simp; omega
  · rw [if_neg h3, if_neg h3]
    constructor
    · intro h; simp at h
    · intro h; exact absurd h.2 h3

theorem utf8_eq_mutf8 : ∀ {s : Str}, utf8 s = mutf8 (utf16 s) ↔ ∀ c ∈ s, c.toNat ≠ 0 ∧ c.toNat < 0x10000
  | [] => by simp [utf8, mutf8, utf16]
  | c :: s => by
    have h1 := utf8Char_length c
    have h2 := utf8_length s
    have ih := utf8_eq_mutf8 (s := s)
    rw [mutf8_utf16] at h2 ih ⊢
    simp only [utf8, List.flatMap_cons, List.mem_cons, forall_eq_or_imp] at h2 ih ⊢
    rw [← utf8Char_eq, ← ih]
    constructor
    · intro h
      have hl := congrArg List.length h
      simp only [List.length_append] at hl
      exact List.append_inj h (by omega)
    · rintro ⟨h3, h4⟩; rw [← h3, h4]

end Cafebabe
