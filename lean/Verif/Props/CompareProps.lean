import Verif.Model.Compare
import Verif.Spec.Compare
import Verif.Props.TextProps
import Verif.Props.ClassProps
/-!
# C64: class names and descriptors compare as their text
-/

namespace Cafebabe
open Spec Examples

/-! ## UTF-8 keeps the order of code points -/

theorem bytesCmp_step {x y : Nat} (hx : x < 256) (hy : y < 256) (xs ys : Bytes) :
    bytesCmp (UInt8.ofNat x :: xs) (UInt8.ofNat y :: ys) = if x < y then .lt else if y < x then .gt else bytesCmp xs ys := by
  have h1 : (UInt8.ofNat x).toNat = x := by simp; omega
  have h2 : (UInt8.ofNat y).toNat = y := by simp; omega
  simp only [bytesCmp, UInt8.lt_iff_toNat_lt, h1, h2]

theorem char_bound (c : Char) : c.toNat < 0x110000 := by
  rcases c.valid with h | h
  · have : c.toNat < 0xD800 := h
    omega
  · exact h.2

/-- The bytes of one char, as numbers. -/
theorem utf8_char (c : Char) : String.utf8EncodeChar c =
    if c.toNat ≤ 127 then [UInt8.ofNat c.toNat]
    else if c.toNat ≤ 2047 then [UInt8.ofNat (c.toNat / 64 % 32 + 192), UInt8.ofNat (c.toNat % 64 + 128)]
    else if c.toNat ≤ 65535 then
      [UInt8.ofNat (c.toNat / 4096 % 16 + 224), UInt8.ofNat (c.toNat / 64 % 64 + 128), UInt8.ofNat (c.toNat % 64 + 128)]
    else [UInt8.ofNat (c.toNat / 262144 % 8 + 240), UInt8.ofNat (c.toNat / 4096 % 64 + 128), UInt8.ofNat (c.toNat / 64 % 64 + 128),
      UInt8.ofNat (c.toNat % 64 + 128)] := rfl

theorem bytesCmp_less {x y : Nat} (hx : x < 256) (hy : y < 256) {xs ys : Bytes} (h : x ≤ y) (h' : x = y → bytesCmp xs ys = .lt) :
    bytesCmp (UInt8.ofNat x :: xs) (UInt8.ofNat y :: ys) = .lt := by
  rw [bytesCmp_step hx hy]
  split
  · rfl
  · rw [if_neg (by omega)]; exact h' (by omega)

theorem cmp_smaller {a b : Char} (h : a.toNat < b.toNat) (s t : Bytes) :
    bytesCmp (String.utf8EncodeChar a ++ s) (String.utf8EncodeChar b ++ t) = .lt := by
  have hb := char_bound b
  rw [utf8_char a, utf8_char b]
  generalize a.toNat = u at *
  generalize b.toNat = v at *
  split <;> [skip; split <;> [skip; split]] <;> (split <;> [skip; split <;> [skip; split]]) <;>
    first
    | (exfalso; omega)
    | (simp only [List.cons_append, List.nil_append]
       repeat
        first
        | (exfalso; omega)
        | (refine bytesCmp_less (by omega) (by omega) (by omega) fun _ => ?_))

theorem bytesCmp_append (p s t : Bytes) : bytesCmp (p ++ s) (p ++ t) = bytesCmp s t := by
  induction p with
  | nil => rfl
  | cons x p ih =>
    have : ¬ x < x := UInt8.lt_irrefl x
    simp only [List.cons_append, bytesCmp, this, if_false, ih]

theorem bytesCmp_swap : ∀ a b : Bytes, bytesCmp b a = (bytesCmp a b).swap
  | [], [] => rfl
  | [], _ :: _ => rfl
  | _ :: _, [] => rfl
  | x :: xs, y :: ys => by
    simp only [bytesCmp, UInt8.lt_iff_toNat_lt]
    by_cases h1 : x.toNat < y.toNat
    · rw [if_pos h1, if_neg (by omega), if_pos h1]; rfl
    · by_cases h2 : y.toNat < x.toNat
      · rw [if_pos h2, if_neg h1, if_pos h2]; rfl
      · rw [if_neg h2, if_neg h1, if_neg h1, if_neg h2]; exact bytesCmp_swap xs ys

theorem asBytes_cons (c : Char) (s : Str) : asBytes (c :: s) = String.utf8EncodeChar c ++ asBytes s := by simp [asBytes]

theorem asBytes_cons_ne (c : Char) (s : Str) : ∃ x xs, asBytes (c :: s) = x :: xs := by
  rw [asBytes_cons, utf8_char]
  split
  · exact ⟨_, _, rfl⟩
  · split
    · exact ⟨_, _, rfl⟩
    · split <;> exact ⟨_, _, rfl⟩

theorem cmp_before {a b : Str} (h : Before a b) : bytesCmp (asBytes a) (asBytes b) = .lt := by
  induction h with
  | @shorter c s =>
    obtain ⟨x, xs, h⟩ := asBytes_cons_ne c s
    rw [h]; rfl
  | smaller h => rw [asBytes_cons, asBytes_cons]; exact cmp_smaller h _ _
  | same _ ih => rw [asBytes_cons, asBytes_cons, bytesCmp_append]; exact ih

theorem before_total : ∀ a b : Str, Before a b ∨ a = b ∨ Before b a
  | [], [] => .inr (.inl rfl)
  | [], _ :: _ => .inl .shorter
  | _ :: _, [] => .inr (.inr .shorter)
  | c :: s, d :: t => by
    rcases Nat.lt_trichotomy c.toNat d.toNat with h | h | h
    · exact .inl (.smaller h)
    · cases Char.toNat_inj.mp h
      rcases before_total s t with h | h | h
      · exact .inl (.same h)
      · exact .inr (.inl (by rw [h]))
      · exact .inr (.inr (.same h))
    · exact .inr (.inr (.smaller h))

theorem bytesCmp_self (a : Bytes) : bytesCmp a a = .eq := by
  have := bytesCmp_append a [] []
  simpa [bytesCmp] using this

theorem asBytes_inj {a b : Str} (h : asBytes a = asBytes b) : a = b := by
  rcases before_total a b with h1 | h1 | h1
  · have := cmp_before h1; rw [h, bytesCmp_self] at this; cases this
  · exact h1
  · have := cmp_before h1; rw [h, bytesCmp_self] at this; cases this

/-- Class names are ordered as their texts by code points (not by UTF-16 units as Java's `String.compareTo`), and `cmp` says `Equal` exactly
for equal texts. -/
theorem C64_order (a b : ClassName) :
    (a.cmp b = .lt ↔ Before a.text b.text) ∧ (a.cmp b = .eq ↔ a.text = b.text) ∧ (a.cmp b = .gt ↔ Before b.text a.text) := by
  unfold ClassName.cmp ClassName.text
  rcases before_total a.name b.name with h | h | h
  · have h1 := cmp_before h
    have h2 : ¬ Before b.name a.name := fun h2 => by
      have := cmp_before h2; rw [bytesCmp_swap, h1] at this; cases this
    have h3 : a.name ≠ b.name := fun h3 => by rw [h3, bytesCmp_self] at h1; cases h1
    rw [h1]; simp [h, h2, h3]
  · rw [h, bytesCmp_self]
    have h2 : ¬ Before b.name b.name := fun h2 => by
      have := cmp_before h2; rw [bytesCmp_self] at this; cases this
    simp [h2]
  · have h0 := cmp_before h
    have h1 : bytesCmp (asBytes a.name) (asBytes b.name) = .gt := by rw [bytesCmp_swap, h0]; rfl
    have h2 : ¬ Before a.name b.name := fun h2 => by
      have := cmp_before h2; rw [h1] at this; cases this
    have h3 : a.name ≠ b.name := fun h3 => by rw [h3, bytesCmp_self] at h1; cases h1
    rw [h1]; simp [h, h2, h3]

/-! ## Equality -/

theorem strEq_iff {a b : Str} : strEq a b = true ↔ a = b := by
  unfold strEq
  rw [beq_iff_eq]
  exact ⟨asBytes_inj, fun h => by rw [h]⟩

theorem typeEq_iff {a b : FieldType} : a.eq b = true ↔ a = b := by
  cases a <;> cases b <;> simp [FieldType.eq, FieldType.variant, ClassName.eq, strEq_iff]
  next x y => exact ⟨fun h => by cases x; cases y; simpa using h, fun h => by rw [h]⟩

theorem fieldEq_iff {a b : FieldDescriptor} : a.eq b = true ↔ a = b := by
  cases a; cases b; simp [FieldDescriptor.eq, typeEq_iff]

theorem returnEq_iff {a b : ReturnDescriptor} : a.eq b = true ↔ a = b := by
  cases a <;> cases b <;> simp [ReturnDescriptor.eq, ReturnDescriptor.variant, fieldEq_iff]

theorem paramsEq_iff : ∀ {a b : List FieldDescriptor}, paramsEq a b = true ↔ a = b
  | [], [] => by simp [paramsEq]
  | [], _ :: _ => by simp [paramsEq]
  | _ :: _, [] => by simp [paramsEq]
  | x :: a, y :: b => by
    have ih := paramsEq_iff (a := a) (b := b)
    simp only [paramsEq, Bool.and_eq_true, beq_iff_eq, List.zip_cons_cons, List.all_cons, List.length_cons, Nat.add_right_cancel_iff,
      List.cons.injEq, fieldEq_iff] at ih ⊢
    constructor
    · rintro ⟨h1, h2, h3⟩
      exact ⟨h2, ih.mp ⟨h1, h3⟩⟩
    · rintro ⟨h1, h2⟩
      exact ⟨(ih.mpr h2).1, h1, (ih.mpr h2).2⟩

theorem methodEq_iff {a b : MethodDescriptor} : a.eq b = true ↔ a = b := by
  cases a; cases b; simp [MethodDescriptor.eq, paramsEq_iff, returnEq_iff]

/-! ## Display is a prefix code -/

theorem until_semicolon {a b r t : Str} (ha : ∀ c ∈ a, c ≠ ';') (hb : ∀ c ∈ b, c ≠ ';') (h : a ++ ';' :: r = b ++ ';' :: t) :
    a = b ∧ r = t := by
  induction a generalizing b with
  | nil =>
    cases b with
    | nil => simpa using h
    | cons c b => simp at h; exact absurd h.1.symm (hb c (by simp))
  | cons x a ih =>
    cases b with
    | nil => simp at h; exact absurd h.1 (ha x (by simp))
    | cons c b =>
      simp only [List.cons_append, List.cons.injEq] at h
      obtain ⟨rfl, h⟩ := h
      obtain ⟨rfl, rfl⟩ := ih (fun c hc => ha c (by simp [hc])) (fun c hc => hb c (by simp [hc])) h
      exact ⟨rfl, rfl⟩

theorem type_code {a b : FieldType} {r t : Str} (ha : HeldType a) (hb : HeldType b) (h : a.display ++ r = b.display ++ t) :
    a = b ∧ r = t := by
  cases a <;> cases b <;> simp [FieldType.display] at h ⊢ <;> first | exact h | skip
  next x y =>
    obtain ⟨h1, h2⟩ := until_semicolon (fun c hc => (ha.1 c hc).2.1) (fun c hc => (hb.1 c hc).2.1) h
    cases x; cases y; exact ⟨by simpa using h1, h2⟩

theorem type_start (a : FieldType) (r : Str) : ∃ c s, a.display ++ r = c :: s ∧ c ≠ '[' ∧ c ≠ ')' ∧ c ≠ 'V' ∧ c ≠ '(' := by
  cases a <;> exact ⟨_, _, rfl, by decide⟩

theorem brackets {n m : Nat} {c d : Char} {s t : Str} (hc : c ≠ '[') (hd : d ≠ '[')
    (h : List.replicate n '[' ++ c :: s = List.replicate m '[' ++ d :: t) : n = m ∧ c :: s = d :: t := by
  induction n generalizing m with
  | zero =>
    cases m with
    | zero => exact ⟨rfl, by simpa using h⟩
    | succ m => simp [List.replicate_succ] at h; exact absurd h.1 hc
  | succ n ih =>
    cases m with
    | zero => simp [List.replicate_succ] at h; exact absurd h.1.symm hd
    | succ m =>
      simp only [List.replicate_succ, List.cons_append, List.cons.injEq, true_and] at h
      obtain ⟨h1, h2⟩ := ih h
      exact ⟨by rw [h1], h2⟩

theorem field_code {a b : FieldDescriptor} {r t : Str} (ha : HeldField a) (hb : HeldField b) (h : a.display ++ r = b.display ++ t) :
    a = b ∧ r = t := by
  unfold FieldDescriptor.display at h
  rw [List.append_assoc, List.append_assoc] at h
  obtain ⟨c, s, h1, h2, -⟩ := type_start a.fieldType r
  obtain ⟨d, u, h3, h4, -⟩ := type_start b.fieldType t
  rw [h1, h3] at h
  obtain ⟨h5, h6⟩ := brackets h2 h4 h
  rw [← h1, ← h3] at h6
  obtain ⟨h7, h8⟩ := type_code ha hb h6
  cases a; cases b
  simp only at h5 h7
  exact ⟨by rw [h7, UInt8.toNat_inj.mp h5], h8⟩

theorem field_start (a : FieldDescriptor) (r : Str) : ∃ c s, a.display ++ r = c :: s ∧ c ≠ ')' ∧ c ≠ 'V' ∧ c ≠ '(' := by
  unfold FieldDescriptor.display
  cases h : a.dimensions.toNat with
  | zero =>
    obtain ⟨c, s, h1, -, h2⟩ := type_start a.fieldType r
    exact ⟨c, s, by simpa using h1, h2⟩
  | succ n => exact ⟨'[', _, rfl, by decide⟩

theorem params_code : ∀ {a b : List FieldDescriptor} {r t : Str}, (∀ p ∈ a, HeldField p) → (∀ p ∈ b, HeldField p) →
    a.flatMap FieldDescriptor.display ++ ')' :: r = b.flatMap FieldDescriptor.display ++ ')' :: t → a = b ∧ r = t
  | [], [], r, t, _, _, h => ⟨rfl, by simpa using h⟩
  | [], y :: b, r, t, _, _, h => by
    rw [List.flatMap_cons, List.append_assoc] at h
    obtain ⟨c, s, h1, h2, -⟩ := field_start y (b.flatMap FieldDescriptor.display ++ ')' :: t)
    rw [h1] at h
    simp at h
    exact absurd h.1.symm h2
  | x :: a, [], r, t, _, _, h => by
    rw [List.flatMap_cons, List.append_assoc] at h
    obtain ⟨c, s, h1, h2, -⟩ := field_start x (a.flatMap FieldDescriptor.display ++ ')' :: r)
    rw [h1] at h
    simp at h
    exact absurd h.1 h2
  | x :: a, y :: b, r, t, ha, hb, h => by
    rw [List.flatMap_cons, List.append_assoc, List.flatMap_cons, List.append_assoc] at h
    obtain ⟨rfl, h'⟩ := field_code (ha x (by simp)) (hb y (by simp)) h
    obtain ⟨rfl, rfl⟩ := params_code (fun p hp => ha p (by simp [hp])) (fun p hp => hb p (by simp [hp])) h'
    exact ⟨rfl, rfl⟩

theorem return_code {a b : ReturnDescriptor} (ha : HeldReturn a) (hb : HeldReturn b) (h : a.display = b.display) : a = b := by
  cases a with
  | void =>
    cases b with
    | void => rfl
    | ret y =>
      obtain ⟨c, s, h1, -, h2, -⟩ := field_start y []
      simp only [ReturnDescriptor.display, List.append_nil] at h h1
      rw [h1] at h; simp at h; exact absurd h.1.symm h2
  | ret x =>
    cases b with
    | void =>
      obtain ⟨c, s, h1, -, h2, -⟩ := field_start x []
      simp only [ReturnDescriptor.display, List.append_nil] at h h1
      rw [h1] at h; simp at h; exact absurd h.1 h2
    | ret y =>
      simp only [ReturnDescriptor.display] at h
      rw [(field_code (r := []) (t := []) ha hb (by simpa using h)).1]

theorem method_code {a b : MethodDescriptor} (ha : HeldMethod a) (hb : HeldMethod b) (h : a.display = b.display) : a = b := by
  simp only [MethodDescriptor.display, List.cons.injEq, true_and] at h
  obtain ⟨h1, h2⟩ := params_code ha.1 hb.1 h
  have := return_code ha.2 hb.2 h2
  cases a; cases b; simp_all

/-! ## The claim -/

/-- Two class names, field types, field, return or method descriptors a user can hold are `==` exactly when their Display texts are equal;
so a set or map keyed by one is the same as one keyed by the text. -/
theorem C64_equality :
    (∀ a b : ClassName, a.eq b = true ↔ a.text = b.text) ∧
    (∀ a b : FieldType, HeldType a → HeldType b → (a.eq b = true ↔ a.display = b.display)) ∧
    (∀ a b : FieldDescriptor, HeldField a → HeldField b → (a.eq b = true ↔ a.display = b.display)) ∧
    (∀ a b : ReturnDescriptor, HeldReturn a → HeldReturn b → (a.eq b = true ↔ a.display = b.display)) ∧
    ∀ a b : MethodDescriptor, HeldMethod a → HeldMethod b → (a.eq b = true ↔ a.display = b.display) := by
  refine ⟨fun a b => strEq_iff, fun a b ha hb => typeEq_iff.trans ⟨fun h => by rw [h], fun h => ?_⟩,
    fun a b ha hb => fieldEq_iff.trans ⟨fun h => by rw [h], fun h => ?_⟩,
    fun a b ha hb => returnEq_iff.trans ⟨fun h => by rw [h], return_code ha hb⟩,
    fun a b ha hb => methodEq_iff.trans ⟨fun h => by rw [h], method_code ha hb⟩⟩
  · exact (type_code (r := []) (t := []) ha hb (by simpa using h)).1
  · exact (field_code (r := []) (t := []) ha hb (by simpa using h)).1

theorem type_hash {a b : FieldType} {r t : List HashWrite} (h : a.hash ++ r = b.hash ++ t) : a = b ∧ r = t := by
  cases a <;> cases b <;> simp [FieldType.hash, FieldType.variant, ClassName.hash, strHash] at h ⊢ <;> first | exact h | skip
  next x y => exact ⟨by cases x; cases y; simpa using asBytes_inj h.1, h.2⟩

theorem field_hash {a b : FieldDescriptor} {r t : List HashWrite} (h : a.hash ++ r = b.hash ++ t) : a = b ∧ r = t := by
  simp only [FieldDescriptor.hash, List.cons_append, List.cons.injEq, HashWrite.u8.injEq] at h
  obtain ⟨h1, h2⟩ := type_hash h.2
  cases a; cases b; simp_all

theorem params_hash : ∀ {a b : List FieldDescriptor} {r t : List HashWrite}, a.length = b.length →
    a.flatMap FieldDescriptor.hash ++ r = b.flatMap FieldDescriptor.hash ++ t → a = b ∧ r = t
  | [], [], r, t, _, h => ⟨rfl, by simpa using h⟩
  | [], _ :: _, _, _, h, _ => by simp at h
  | _ :: _, [], _, _, h, _ => by simp at h
  | x :: a, y :: b, r, t, hl, h => by
    rw [List.flatMap_cons, List.append_assoc, List.flatMap_cons, List.append_assoc] at h
    obtain ⟨rfl, h'⟩ := field_hash h
    obtain ⟨rfl, rfl⟩ := params_hash (by simpa using hl) h'
    exact ⟨rfl, rfl⟩

theorem return_hash {a b : ReturnDescriptor} (h : a.hash = b.hash) : a = b := by
  cases a <;> cases b <;> simp [ReturnDescriptor.hash, ReturnDescriptor.variant] at h ⊢
  exact (field_hash (r := []) (t := []) (by simpa using h)).1

/-- What is hashed is equal exactly when the values are `==`: equal keys hash alike, and nothing that tells values apart is left out of the
hash. -/
theorem C64_hash :
    (∀ a b : ClassName, a.hash = b.hash ↔ a.eq b = true) ∧ (∀ a b : FieldType, a.hash = b.hash ↔ a.eq b = true) ∧
    (∀ a b : FieldDescriptor, a.hash = b.hash ↔ a.eq b = true) ∧ (∀ a b : ReturnDescriptor, a.hash = b.hash ↔ a.eq b = true) ∧
    ∀ a b : MethodDescriptor, a.hash = b.hash ↔ a.eq b = true := by
  refine ⟨fun a b => ?_, fun a b => Iff.trans ⟨fun h => ?_, fun h => by rw [h]⟩ typeEq_iff.symm,
    fun a b => Iff.trans ⟨fun h => ?_, fun h => by rw [h]⟩ fieldEq_iff.symm,
    fun a b => Iff.trans ⟨return_hash, fun h => by rw [h]⟩ returnEq_iff.symm, fun a b => Iff.trans ⟨fun h => ?_, fun h => by rw [h]⟩ methodEq_iff.symm⟩
  · simp [ClassName.hash, strHash, ClassName.eq, strEq]
  · exact (type_hash (r := []) (t := []) (by simpa using h)).1
  · exact (field_hash (r := []) (t := []) (by simpa using h)).1
  · simp only [MethodDescriptor.hash, List.cons.injEq, HashWrite.usize.injEq] at h
    obtain ⟨h1, h2⟩ := params_hash h.1 h.2
    have := return_hash h2
    cases a; cases b; simp_all

/-! ## Which values a user can hold -/

theorem held_of_name {s : Str} (h : ClassNameText s) : LaxShape s := ((C17_decides s).1 ⟨s⟩).mp (C17_accepts_names h) |>.2

theorem held_of_field {d : FieldDescriptor} (h : FieldOK d) : HeldField d := by
  unfold FieldOK at h
  unfold HeldField
  cases hd : d.fieldType <;> rw [hd] at h <;> first | trivial | exact held_of_name h

theorem held_of_return {d : ReturnDescriptor} (h : ReturnOK d) : HeldReturn d := by
  cases d with
  | void => trivial
  | ret d => exact held_of_field h

/-- The hypotheses of `C64_equality` hold of every class name `try_from` returns and of every descriptor parsed from any text, hence of every
descriptor in a parsed class file. -/
theorem C64_held :
    (∀ s c, ClassName.tryFrom s = .ok c → HeldClass c) ∧ (∀ s d, parseFieldDescriptor s 0 = .ok d → HeldField d) ∧
    (∀ s d, parseReturnDescriptor s 0 = .ok d → HeldReturn d) ∧ (∀ s d, parseMethodDescriptor s 0 = .ok d → HeldMethod d) ∧
    ∀ s d, parseArrayDescriptor s = .ok (some d) → HeldField d := by
  refine ⟨fun s c h => ?_, fun s d h => held_of_field ((C34_display_prefix s).1 d h).1,
    fun s d h => held_of_return ((C34_display_prefix s).2.2 d h).1, fun s d h => ?_, fun s d h => ?_⟩
  · obtain ⟨h1, h2⟩ := ((C17_decides s).1 c).mp h
    unfold HeldClass; rw [h1]; exact h2
  · obtain ⟨h1, h2⟩ := ((C34_display_prefix s).2.1 d h).1
    exact ⟨fun p hp => held_of_field (h1 p hp), held_of_return h2⟩
  · unfold parseArrayDescriptor at h
    split at h
    · cases h
    · cases hp : parseFieldDescriptor s 0 with
      | ok d' =>
        rw [hp] at h
        change (if _ then _ else _) = _ at h
        split at h
        · cases h
        · cases h
          exact held_of_field ((C34_display_prefix s).1 _ hp).1
      | _ => rw [hp] at h; cases h

/-- In an accepted class file a name and the text of a descriptor name at most one field and at most one method. -/
theorem C64_in_file {o : Opts} {bytes : Bytes} {cf : ClassFile} (h : Accepts o bytes cf) :
    (∀ (i j : Nat) (f g : FieldInfo), cf.fields[i]? = some f → cf.fields[j]? = some g → f.name = g.name →
      f.descriptor.display = g.descriptor.display → i = j) ∧
    ∀ (i j : Nat) (f g : MethodInfo), cf.methods[i]? = some f → cf.methods[j]? = some g → f.name = g.name →
      f.descriptor.display = g.descriptor.display → i = j := by
  refine ⟨fun i j f g hi hj hn hd => ?_, fun i j f g hi hj hn hd => ?_⟩
  · have h1 := held_of_field ((C18_fields h).1 f (List.mem_of_getElem? hi)).2
    have h2 := held_of_field ((C18_fields h).1 g (List.mem_of_getElem? hj)).2
    exact (C18_fields h).2 i j f g hi hj hn (fieldEq_iff.mp ((C64_equality.2.2.1 _ _ h1 h2).mpr hd))
  · have hm : ∀ (k : Nat) (m : MethodInfo), cf.methods[k]? = some m → HeldMethod m.descriptor := fun k m hk => by
      obtain ⟨h1, h2⟩ := ((C19_methods h).1 m (List.mem_of_getElem? hk)).1
      exact ⟨fun p hp => held_of_field (h1 p hp), held_of_return h2⟩
    exact (C19_methods h).2 i j f g hi hj hn (methodEq_iff.mp ((C64_equality.2.2.2.2 _ _ (hm i f hi) (hm j g hj)).mpr hd))

/-! ## The two plain enums and errors -/

/-- Reference kinds are compared, ordered and hashed as their numbers in a class file: the variants stand in the order of the
`reference_kind` numbers. -/
theorem C64_reference_kinds (a b : ReferenceKind) :
    (a.eq b = true ↔ kindByte a = kindByte b) ∧ (a.eq b = true ↔ a = b) ∧
    (a.partialCmp b = some .lt ↔ (kindByte a).toNat < (kindByte b).toNat) ∧ (a.partialCmp b = some .eq ↔ a = b) ∧
    (a.partialCmp b = some .gt ↔ (kindByte b).toNat < (kindByte a).toNat) ∧ (a.hash = b.hash ↔ a.eq b = true) := by
  cases a <;> cases b <;> decide +kernel

/-- Element types of `newarray` are compared, ordered and hashed as their numbers in a class file (`atype`), not by width or in the order of
the Java language's list of primitive types. -/
theorem C64_array_types (a b : PrimitiveArrayType) :
    (a.eq b = true ↔ arrayTypeByte a = arrayTypeByte b) ∧ (a.eq b = true ↔ a = b) ∧
    (a.cmp b = .lt ↔ (arrayTypeByte a).toNat < (arrayTypeByte b).toNat) ∧ (a.cmp b = .eq ↔ a = b) ∧
    (a.cmp b = .gt ↔ (arrayTypeByte b).toNat < (arrayTypeByte a).toNat) ∧ (a.hash = b.hash ↔ a.eq b = true) := by
  cases a <;> cases b <;> decide +kernel

theorem textsEq_iff : ∀ {a b : List String}, textsEq a b = true ↔ a = b
  | [], [] => by simp [textsEq]
  | [], _ :: _ => by simp [textsEq]
  | _ :: _, [] => by simp [textsEq]
  | x :: a, y :: b => by
    have ih := textsEq_iff (a := a) (b := b)
    simp only [textsEq, Bool.and_eq_true, beq_iff_eq] at ih
    simp only [textsEq, List.length_cons, List.zip_cons_cons, List.all_cons, Bool.and_eq_true, beq_iff_eq, Nat.add_right_cancel_iff,
      strEq_iff, String.toList_inj, List.cons.injEq]
    rw [← ih]
    exact ⟨fun h => ⟨h.2.1, h.1, h.2.2⟩, fun h => ⟨h.2.1, h.1, h.2.2⟩⟩

/-- Two errors are `==` exactly when message and contexts are the same, so equal errors print alike. -/
theorem C64_errors (a b : ParseError) :
    (a.eq b = true ↔ a.msg = b.msg ∧ a.contexts = b.contexts) ∧ (a.eq b = true → a.display = b.display) := by
  have h : a.eq b = true ↔ a.msg = b.msg ∧ a.contexts = b.contexts := by
    simp only [ParseError.eq, Bool.and_eq_true, strEq_iff, String.toList_inj, textsEq_iff]
  refine ⟨h, fun he => ?_⟩
  obtain ⟨h1, h2⟩ := h.mp he
  cases a; cases b; simp_all

/-! ## Witnesses -/

/-- A class name with a `;`, which `try_from` refuses, would make different method descriptors print alike. -/
theorem C64_needs_check :
    let a : MethodDescriptor := ⟨[⟨0, .object ⟨"A;LB".toList⟩⟩], .void⟩
    let b : MethodDescriptor := ⟨[⟨0, .object ⟨"A".toList⟩⟩, ⟨0, .object ⟨"B".toList⟩⟩], .void⟩
    a.display = b.display ∧ a.eq b = false ∧ HeldMethod b ∧ ∀ c, ClassName.tryFrom "A;LB".toList ≠ .ok c := by
  refine ⟨by decide +kernel, by decide +kernel, ?_, fun c h => ?_⟩
  · obtain ⟨h1, h2⟩ := ((C34_display_prefix "(LA;LB;)V".toList).2.1 ⟨[⟨0, .object ⟨"A".toList⟩⟩, ⟨0, .object ⟨"B".toList⟩⟩], .void⟩
      rfl).1
    exact ⟨fun p hp => held_of_field (h1 p hp), held_of_return h2⟩
  · exact absurd rfl ((((C17_decides _).1 c).mp h).2.1 ';' (by decide +kernel)).2.1

/-- A descriptor put together by hand from a class name that `try_from` returned need not be a descriptor: from the empty name comes `L;`. -/
theorem C64_built_by_hand : ∃ c, ClassName.tryFrom [] = .ok c ∧ (FieldDescriptor.mk 0 (.object c)).display = "L;".toList ∧
    HeldField ⟨0, .object c⟩ ∧ ∀ d, parseFieldDescriptor "L;".toList 0 ≠ .ok d := by
  refine ⟨⟨[]⟩, rfl, rfl, C64_held.1 [] _ rfl, fun d h => ?_⟩
  have : (match parseFieldDescriptor "L;".toList 0 with | .ok _ => true | _ => false) = false := by decide +kernel
  rw [h] at this
  cases this

/-- The order is that of code points also beyond the basic plane, where Java's `String.compareTo` has the opposite order. -/
example : (ClassName.mk [Char.ofNat 0xFFFF]).cmp ⟨[Char.ofNat 0x10000]⟩ = .lt ∧ Before [Char.ofNat 0xFFFF] [Char.ofNat 0x10000] :=
  ⟨by decide +kernel, .smaller (by decide +kernel)⟩

/-- Two equal and two different descriptors. -/
example : (FieldDescriptor.mk 2 (.object ⟨"a/B".toList⟩)).eq ⟨2, .object ⟨"a/B".toList⟩⟩ = true ∧
    (FieldDescriptor.mk 2 (.object ⟨"a/B".toList⟩)).eq ⟨1, .object ⟨"a/B".toList⟩⟩ = false ∧
    HeldField ⟨2, .object ⟨"a/B".toList⟩⟩ :=
  ⟨by decide +kernel, by decide +kernel, C64_held.2.1 "[[La/B;".toList _ rfl⟩

end Cafebabe
