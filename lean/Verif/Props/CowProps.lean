import Verif.Proofs.Cow
import Verif.Props.FormatProps
/-!
# C60 Zero copy
-/

namespace Cafebabe
open Spec Examples

theorem decodeCow_iff {data : Bytes} {p : Nat} {c : Cow} : decodeCow data p = some c ↔
    (data = utf8 c.text ∧ c.start = some p) ∨ (data = mutf8 (utf16 c.text) ∧ ¬ Plain c.text ∧ Copied c) := by
  obtain ⟨t, st⟩ := c
  unfold decodeCow Copied
  cases hu : Cesu8.fromUtf8 data with
  | some s =>
    have e := fromUtf8_iff.mp hu
    simp only [Option.some.injEq, Cow.mk.injEq]
    constructor
    · rintro ⟨rfl, rfl⟩; exact .inl ⟨e, rfl⟩
    · rintro (⟨h, rfl⟩ | ⟨h, hp, rfl⟩)
      · exact ⟨utf8_inj (e.symm.trans h), rfl⟩
      · exfalso
        have h2 : mutf8 (utf16 t) = utf8 s := h.symm.trans e
        have := utf16Char_inj (mutf8_eq_utf8 h2)
        subst this
        exact hp (utf8_eq_mutf8.mp h2.symm)
  | none =>
    have hn : ∀ s, data ≠ utf8 s := fun s e => by rw [fromUtf8_iff.mpr e] at hu; cases hu
    simp only [Option.map_eq_some_iff, fromJava_iff, Cow.mk.injEq]
    constructor
    · rintro ⟨a, h, rfl, rfl⟩
      exact .inr ⟨h, fun hp => hn a (h.trans (utf8_eq_mutf8.mpr hp).symm), rfl⟩
    · rintro (⟨h, -⟩ | ⟨h, -, rfl⟩)
      · exact absurd h (hn t)
      · exact ⟨t, h, rfl, rfl⟩

/-- Reading a Utf8 constant with ownership gives the same as without. -/
theorem C60_same_constant {env : Env} (he : env.decode = Cesu8.fromJavaCesu8) (bytes : Bytes) (ix : Nat) :
    SameOutcome (fun r : (Cow ⊕ Bytes) × Nat => (match r.1 with | .inl c => Entry.utf8 c.text | .inr d => Entry.utf8Bytes d, r.2))
      (readConstantUtf8Cow bytes ix) (readConstantUtf8 env bytes ix) := by
  have hb : ∀ {α β : Type} (p : P α) (f : α → P β), (p >>= f) bytes ix = (p bytes ix >>= fun r => f r.1 bytes r.2) := by
    intro α β p f
    show P.bind p f bytes ix = _
    unfold P.bind
    cases p bytes ix <;> rfl
  have hb' : ∀ {α β : Type} (p : P α) (f : α → P β) (b : Bytes) (i : Nat), (p >>= f) b i = (p b i >>= fun r => f r.1 b r.2) := by
    intro α β p f b i
    show P.bind p f b i = _
    unfold P.bind
    cases p b i <;> rfl
  unfold readConstantUtf8Cow readConstantUtf8
  rw [hb, hb]
  refine same_bind (same_refl _) fun l => ?_
  rw [hb', hb']
  refine same_bind (same_refl _) fun i => ?_
  rw [hb', hb']
  refine same_bind (same_refl _) fun d => ?_
  simp only [id, he]
  unfold Cesu8.fromJavaCesu8 decodeCow
  cases Cesu8.fromUtf8 d.1 with
  | some s => rfl
  | none => cases Cesu8.fromJava d.1 <;> rfl

/-- A Utf8 constant that is shown as text is a slice of the file, just behind its length, or it is copied; it is copied exactly when the
constant is the modified UTF-8 of a text with U+0000 or a character above U+FFFF. -/
theorem C60_constant {bytes : Bytes} {ix ix' : Nat} {c : Cow} (hix : ix ≤ bytes.length) (h : readConstantUtf8Cow bytes ix = .ok (.inl c, ix')) :
    ∃ (pre data post : Bytes) (n : UInt16), bytes = pre ++ (u2 n ++ data) ++ post ∧ pre.length = ix ∧ data.length = n.toNat ∧
      ((Lent bytes c ∧ c.start = some (ix + 2) ∧ data = utf8 c.text) ∨ (Copied c ∧ data = mutf8 (utf16 c.text) ∧ ¬ Plain c.text)) := by
  have hb' : ∀ {α β : Type} (p : P α) (f : α → P β) (b : Bytes) (i : Nat), (p >>= f) b i = (p b i >>= fun r => f r.1 b r.2) := by
    intro α β p f b i
    show P.bind p f b i = _
    unfold P.bind
    cases p b i <;> rfl
  unfold readConstantUtf8Cow at h
  rw [hb'] at h
  obtain ⟨⟨n, i⟩, h1, h⟩ := bind_ok h
  rw [hb'] at h
  obtain ⟨⟨j, k⟩, h2, h⟩ := bind_ok h
  cases h2
  rw [hb'] at h
  obtain ⟨⟨data, k⟩, h3, h⟩ := bind_ok h
  simp only at h3 h
  obtain ⟨_, rest, e1, rfl, rfl⟩ := (Exact.readU2 (N := bytes.length + 1) bytes ix hix (by omega) n i).mp h1
  have hl := congrArg List.length e1
  simp only [List.length_drop, List.length_append, u2_length] at hl
  obtain ⟨seg, post, e2, ⟨hn, hseg⟩, hk⟩ := (Exact.takeBytes (N := bytes.length + 1) bytes _ (by rw [u2_length]; omega) (by omega) data k).mp h3
  subst hk
  rw [hseg] at e2
  have e3 : bytes = bytes.take ix ++ (u2 n ++ data) ++ post := by
    conv => lhs; rw [← List.take_append_drop ix bytes]
    rw [e1]
    have : rest = data ++ post := by
      rw [← List.drop_drop, e1] at e2
      rwa [List.drop_left] at e2
    rw [this]; simp
  have hpre : (bytes.take ix).length = ix := by rw [List.length_take]; omega
  refine ⟨bytes.take ix, data, post, n, e3, hpre, hn, ?_⟩
  cases hd : decodeCow data (ix + (u2 n).length) with
  | none => rw [hd] at h; cases h
  | some c' =>
    rw [hd] at h
    cases h
    rw [u2_length] at hd
    rcases decodeCow_iff.mp hd with ⟨ht, hs⟩ | ⟨ht, hp, hs⟩
    · refine .inl ⟨⟨bytes.take ix ++ u2 n, post, ?_, ?_⟩, hs, ht⟩
      · rw [← ht]; conv => lhs; rw [e3]
        simp
      · rw [hs, List.length_append, hpre, u2_length]
    · exact .inr ⟨hs, ht, hp⟩

/-- A constant that holds a Java string, as the JVM specification says, is borrowed exactly when the text needs no modified UTF-8. -/
theorem C60_java (s : Str) (p : Nat) : ∃ c, decodeCow (mutf8 (utf16 s)) p = some c ∧ c.text = s ∧ (Plain s → c.start = some p) ∧ (¬ Plain s → Copied c) := by
  by_cases hp : Plain s
  · exact ⟨⟨s, some p⟩, decodeCow_iff.mpr (.inl ⟨(utf8_eq_mutf8.mpr hp).symm, rfl⟩), rfl, fun _ => rfl, fun h => absurd hp h⟩
  · exact ⟨⟨s, none⟩, decodeCow_iff.mpr (.inr ⟨rfl, hp, rfl⟩), rfl, fun h => absurd h hp, fun _ => rfl⟩

/-- Parsing descriptors with ownership gives the same as without: the same values, the same errors, and never a panic the other does not have. -/
theorem C60_same_descriptor (data : Cow) (index : Nat) :
    SameOutcome plainField (parseFieldDescriptorCow data index) (parseFieldDescriptor data.text index) ∧
      SameOutcome plainReturn (parseReturnDescriptorCow data index) (parseReturnDescriptor data.text index) ∧
      SameOutcome plainMethod (parseMethodDescriptorCow data index) (parseMethodDescriptor data.text index) :=
  ⟨field_same _ _, return_same _ _, method_same _ _⟩

/-- The classes named in a descriptor are slices of the file when the descriptor is one. -/
theorem C60_borrowed {bytes : Bytes} {data : Cow} (hl : Lent bytes data) (index : Nat) :
    (∀ d, parseFieldDescriptorCow data index = .ok d → ∀ n ∈ fieldNames d, Lent bytes n) ∧
      (∀ d, parseReturnDescriptorCow data index = .ok d → ∀ n ∈ returnNames d, Lent bytes n) ∧
      ∀ d, parseMethodDescriptorCow data index = .ok d → ∀ n ∈ methodNames d, Lent bytes n :=
  ⟨fun _ h n hn => (field_slice h n hn).lent hl, fun _ h n hn => (return_slice h n hn).lent hl, fun _ h n hn => (method_slice h n hn).lent hl⟩

/-- And copied when the descriptor was copied: they never point into a copy that is gone. -/
theorem C60_copied {data : Cow} (hl : Copied data) (index : Nat) :
    (∀ d, parseFieldDescriptorCow data index = .ok d → ∀ n ∈ fieldNames d, Copied n) ∧
      (∀ d, parseReturnDescriptorCow data index = .ok d → ∀ n ∈ returnNames d, Copied n) ∧
      ∀ d, parseMethodDescriptorCow data index = .ok d → ∀ n ∈ methodNames d, Copied n :=
  ⟨fun _ h n hn => (field_slice h n hn).copied hl, fun _ h n hn => (return_slice h n hn).copied hl, fun _ h n hn => (method_slice h n hn).copied hl⟩

theorem constantBytes_infix {k i : Nat} {b seg : Bytes} (h : ConstantBytes k b i seg) : seg <:+: b := by
  induction h with
  | here _ => exact ⟨[], _, rfl⟩
  | next _ _ ih =>
    obtain ⟨p, q, rfl⟩ := ih
    rename_i tag t _ _ _
    exact ⟨tag :: t ++ p, q, by simp⟩

theorem rawUtf8_place {bytes : Bytes} {i : Nat} {data : Bytes} (h : RawUtf8 bytes i data) : ∃ pre post, bytes = pre ++ data ++ post := by
  obtain ⟨a, b, -, h⟩ := h
  obtain ⟨p, q, e⟩ := constantBytes_infix h
  refine ⟨bytes.take 10 ++ p ++ [1, a, b], q, ?_⟩
  conv => lhs; rw [← List.take_append_drop 10 bytes]
  rw [← e]; simp

theorem mutf8_append (a b : Str) : mutf8 (utf16 (a ++ b)) = mutf8 (utf16 a) ++ mutf8 (utf16 b) := by simp [mutf8, utf16]

theorem typeTexts_infix {t : FieldType} {s : Str} (h : s ∈ typeTexts t) : s <:+: typeText t := by
  cases t with
  | object c =>
    have : s = c.name := by simpa [typeTexts] using h
    subst this
    exact ⟨['L'], [';'], by simp [typeText]⟩
  | _ => simp [typeTexts] at h

theorem fieldTexts_infix {d : FieldDescriptor} {s : Str} (h : s ∈ typeTexts d.fieldType) : s <:+: fieldText d :=
  (typeTexts_infix h).trans ⟨_, [], by rw [fieldText, List.append_nil]⟩

theorem paramsText_mid (p : FieldDescriptor) (l2 : List FieldDescriptor) :
    ∀ l1, paramsText (l1 ++ p :: l2) = paramsText l1 ++ fieldText p ++ paramsText l2
  | [] => rfl
  | q :: l1 => by
    show fieldText q ++ paramsText (l1 ++ p :: l2) = _
    rw [paramsText_mid p l2 l1]
    simp [paramsText]

/-- Every text the parser shows that needs no modified UTF-8 is there in the file, so that no copy is needed; also the names of the classes in
the descriptors it shows. -/
theorem C60_shown {o : Opts} {bytes : Bytes} {cf : ClassFile} (h : Accepts (javaOpts o) bytes cf) {x : Shown} (hx : ShownBy cf x) {s : Str}
    (hs : s ∈ textsIn x) (hp : Plain s) : ∃ p, Lent bytes ⟨s, some p⟩ := by
  have key : ∀ {t : Str}, Decoded (javaOpts o) bytes t → s <:+: t → ∃ p, Lent bytes ⟨s, some p⟩ := by
    rintro t ⟨i, data, hr, hd⟩ ⟨a, b, rfl⟩
    obtain ⟨pre, post, e⟩ := rawUtf8_place hr
    rcases fromJavaCesu8_iff.mp hd with rfl | rfl
    · exact ⟨(pre ++ utf8 a).length, pre ++ utf8 a, utf8 b ++ post, by rw [e]; simp [utf8], rfl⟩
    · rw [mutf8_append, mutf8_append, ← utf8_eq_mutf8.mpr hp] at e
      exact ⟨(pre ++ mutf8 (utf16 a)).length, pre ++ mutf8 (utf16 a), mutf8 (utf16 b) ++ post, by rw [e]; simp, rfl⟩
  have hf := C39_shown h hx
  cases x with
  | text t =>
    have : s = t := by simpa [textsIn] using hs
    subst this
    exact key hf (List.infix_refl _)
  | raw b => simp [textsIn] at hs
  | field d =>
    obtain ⟨t, ht, -, junk, rfl⟩ := hf
    exact key ht ((fieldTexts_infix hs).trans ⟨[], junk, by simp⟩)
  | method d =>
    obtain ⟨t, ht, -, r, rfl, hret⟩ := hf
    refine key ht ?_
    rcases List.mem_append.mp hs with hs | hs
    · obtain ⟨p, hm, hs⟩ := List.mem_flatMap.mp hs
      obtain ⟨l1, l2, e⟩ := List.append_of_mem hm
      refine (fieldTexts_infix hs).trans ⟨['('] ++ paramsText l1, paramsText l2 ++ [')'] ++ r, ?_⟩
      rw [e, paramsText_mid]; simp
    · cases hr : d.returnType with
      | void => rw [hr] at hs; simp at hs
      | ret f =>
        rw [hr] at hs hret
        obtain ⟨-, junk, rfl⟩ := hret
        exact (fieldTexts_infix hs).trans ⟨['('] ++ paramsText d.parameters ++ [')'], junk, by simp⟩

/-! ### Copies -/

/-- The constants of `copyFile`. -/
def copySegs (data : Bytes) : List Bytes :=
  [utf8Seg [65], [7] ++ u2 1, utf8Seg data, [7] ++ u2 3, utf8Seg [78, 101, 115, 116, 77, 101, 109, 98, 101, 114, 115]]

/-- `class A` with a NestMembers attribute that lists `m` times the class named by `data`. -/
def copyFile (data : Bytes) (m : UInt16) : Bytes :=
  header 0 55 ++ (u2 6 ++ (copySegs data).flatten) ++ ([0, 0x21] ++ u2 2 ++ [0, 0, 0, 0, 0, 0, 0, 0] ++
    (u2 1 ++ (u2 5 ++ (u4 (UInt32.ofNat (2 + 2 * m.toNat)) ++ (u2 m ++ (List.replicate m.toNat (u2 4)).flatten)))))

theorem flatten_replicate_length (n : Nat) (a : UInt16) : (List.replicate n (u2 a)).flatten.length = 2 * n := by
  induction n with
  | zero => rfl
  | succ n ih => rw [List.replicate_succ, List.flatten_cons, List.length_append, ih, u2_length]; omega

/-- Text that is copied is copied for every mention: `m` mentions of a name with `n` bytes take `n + 2 m` bytes in a file, and a constant, but
make `m` separate copies of the name. -/
theorem C60_copies {o : Opts} {s : Str} (m : UInt16) (hl : (mutf8 (utf16 s)).length < 65536) (hb : BinaryName s) (hp : ¬ Plain s) :
    ∃ bytes cf, bytes.length = (mutf8 (utf16 s)).length + 2 * m.toNat + 59 ∧ Accepts (javaOpts o) bytes cf ∧
      AttrOf cf ⟨"NestMembers".toList, .nestMembers (List.replicate m.toNat s)⟩ ∧
      ∀ (i : Nat) (data : Bytes), TextAt cf.constantPool i s → RawUtf8 bytes i data → ∀ p, decodeCow data p = some ⟨s, none⟩ := by
  have hd : DecodesAscii (javaOpts o).decode := java_ascii
  have hA : (javaOpts o).decode [65] = some ['A'] := hd [65] (by decide)
  have hN : (javaOpts o).decode [78, 101, 115, 116, 77, 101, 109, 98, 101, 114, 115] = some "NestMembers".toList := hd _ (by decide)
  have hS : (javaOpts o).decode (mutf8 (utf16 s)) = some s := fromJavaCesu8_iff.mpr (.inr rfl)
  have hneA : s ≠ ['A'] := by rintro rfl; exact hp (by intro c hc; simp at hc; subst hc; decide)
  have hneN : s ≠ "NestMembers".toList := by
    rintro rfl
    refine hp fun c hc => ?_
    have : ∀ c ∈ "NestMembers".toList, c.toNat ≠ 0 ∧ c.toNat < 0x10000 := by decide
    exact this c hc
  have pool : PoolEnc (javaOpts o).decode (javaOpts o).checks 55
      [.zero, .utf8 ['A'], .classInfo (.resolved 1), .utf8 s, .classInfo (.resolved 3), .utf8 "NestMembers".toList]
      (u2 6 ++ (copySegs (mutf8 (utf16 s))).flatten) := by
    refine ⟨[.zero, .utf8 ['A'], .classInfo (.unresolved 1), .utf8 s, .classInfo (.unresolved 3), .utf8 "NestMembers".toList],
      ⟨6, [.utf8 ['A'], .classInfo (.unresolved 1), .utf8 s, .classInfo (.unresolved 3), .utf8 "NestMembers".toList], _, ⟨?_, ?_, ?_⟩, rfl, rfl,
        seq_flatten (.cons (enc_utf8Seg (by decide) hA) (.cons rfl (.cons (enc_utf8Seg hl hS) (.cons rfl (.cons (enc_utf8Seg (by decide) hN) .nil)))))⟩,
      rfl, ?_⟩
    · intro k hk
      simp only [List.length_cons, List.length_nil] at hk
      have : k = 0 ∨ k = 1 ∨ k = 2 ∨ k = 3 ∨ k = 4 := by omega
      rcases this with rfl | rfl | rfl | rfl | rfl <;> (simp [slotCount, slots])
    · simp [slotCount, slots]
    · simp [slotCount, slots]
    · intro i e he
      rcases i with - | - | - | - | - | - | i
      · cases he; trivial
      · cases he; trivial
      · cases he; exact ⟨['A'], rfl, Or.inl ⟨[['A']], by simp, by simp [UnqualifiedName], rfl⟩⟩
      · cases he; trivial
      · cases he; exact ⟨s, rfl, Or.inl hb⟩
      · cases he; trivial
      · simp at he
  have hacc : Accepts (javaOpts o) (copyFile (mutf8 (utf16 s)) m)
      { majorVersion := 55, minorVersion := 0,
        constantPool := [.zero, .utf8 ['A'], .classInfo (.resolved 1), .utf8 s, .classInfo (.resolved 3), .utf8 "NestMembers".toList],
        accessFlags := 0x21, thisClass := ⟨['A']⟩, superClass := none, interfaces := [], fields := [], methods := [],
        attributes := [⟨"NestMembers".toList, .nestMembers (List.replicate m.toNat s)⟩] } := by
    refine accepts_iff_enc.mpr ⟨⟨List.Pairwise.nil, List.Pairwise.nil, fun h => absurd (by decide : (0x21 : UInt16) &&& 0x8000 = 0) h, ?_⟩, ?_⟩
    · rintro x r (h | h) <;> simp at h
    · refine ⟨[0xCA, 0xFE, 0xBA, 0xBE], _, ?_, rfl, u2 0, _, rfl, rfl, u2 55, _, rfl, rfl, _, _, rfl, pool,
        u2 0x21, _, rfl, ⟨0x21, rfl, rfl⟩, u2 2, _, rfl, ⟨2, ⟨⟨1, rfl, rfl⟩, ?_⟩, rfl⟩, u2 0, _, rfl, ⟨0, rfl, rfl⟩,
        u2 0, _, rfl, ⟨0, rfl, u2 0, [], rfl, rfl, rfl⟩, u2 0, _, rfl, ⟨0, rfl, u2 0, [], rfl, rfl, rfl⟩,
        u2 0, u2 1 ++ (u2 5 ++ (u4 (UInt32.ofNat (2 + 2 * m.toNat)) ++ (u2 m ++ (List.replicate m.toNat (u2 4)).flatten))), rfl,
          ⟨0, rfl, u2 0, [], rfl, rfl, rfl⟩, ?_⟩
      · unfold copyFile header
        simp only [List.append_assoc]
        rfl
      · exact ⟨[['A']], by simp, by simp [Segment, UnqualifiedName], rfl⟩
      · refine ⟨1, rfl, u2 1, _, rfl, rfl, _, [], (List.append_nil _).symm, ?_, rfl⟩
        rw [AttrEnc]
        refine ⟨u2 5, _, rfl, ⟨5, rfl, rfl⟩, UInt32.ofNat (2 + 2 * m.toNat), u2 m ++ (List.replicate m.toNat (u2 4)).flatten, ?_, ?_, rfl⟩
        · have := m.toNat_lt
          rw [UInt32.toNat_ofNat', List.length_append, flatten_replicate_length, u2_length]
          omega
        · rw [DataEnc]
          refine ⟨rfl, m, by simp, u2 m, _, rfl, rfl, seq_replicate ⟨4, ⟨3, rfl, rfl⟩, rfl⟩ _⟩
  have hraw : RawUtf8 (copyFile (mutf8 (utf16 s)) m) 3 (mutf8 (utf16 s)) := by
    obtain ⟨a, b, hab⟩ : ∃ a b, u2 (UInt16.ofNat (mutf8 (utf16 s)).length) = [a, b] := ⟨_, _, rfl⟩
    have hn : beNat [a, b] = (mutf8 (utf16 s)).length := by
      rw [← hab, beNat_u2]
      exact small_toNat hl
    refine ⟨a, b, hn.symm, ?_⟩
    have one : ∀ seg ∈ copySegs (mutf8 (utf16 s)), OneConstant seg := by
      intro seg hs
      simp only [copySegs, List.mem_cons, List.not_mem_nil, or_false] at hs
      rcases hs with rfl | rfl | rfl | rfl | rfl
      · exact one_utf8 (by decide)
      · exact ⟨7, _, rfl, rfl, fun _ => rfl⟩
      · exact one_utf8 hl
      · exact ⟨7, _, rfl, rfl, fun _ => rfl⟩
      · exact one_utf8 (by decide)
    have e : (copyFile (mutf8 (utf16 s)) m).drop 10 = (copySegs (mutf8 (utf16 s))).flatten ++ ([0, 0x21] ++ u2 2 ++ [0, 0, 0, 0, 0, 0, 0, 0] ++
        (u2 1 ++ (u2 5 ++ (u4 (UInt32.ofNat (2 + 2 * m.toNat)) ++ (u2 m ++ (List.replicate m.toNat (u2 4)).flatten))))) := by
      simp [copyFile, header, u2]
    have := raw_list (rest := [0, 0x21] ++ u2 2 ++ [0, 0, 0, 0, 0, 0, 0, 0] ++
        (u2 1 ++ (u2 5 ++ (u4 (UInt32.ofNat (2 + 2 * m.toNat)) ++ (u2 m ++ (List.replicate m.toNat (u2 4)).flatten)))))
      (copySegs (mutf8 (utf16 s))) 1 2 _ one rfl
    rw [← e, utf8Seg, hab] at this
    exact this
  refine ⟨_, _, ?_, hacc, .inl (.here (by simp)), ?_⟩
  · simp only [copyFile, header, copySegs, utf8Seg, List.length_append, List.flatten_cons, List.flatten_nil, flatten_replicate_length, u2_length,
      List.length_cons, List.length_nil, u4_length]
    omega
  · intro i data ht hr p
    have hi : i = 3 := by
      unfold TextAt at ht
      rcases i with - | - | - | - | - | - | i
      · simp at ht
      · simp at ht; exact absurd ht.symm hneA
      · simp at ht
      · rfl
      · simp at ht
      · simp at ht; exact absurd ht.symm hneN
      · simp at ht
    subst hi
    obtain ⟨a, b, h1, h2⟩ := hr
    obtain ⟨c, d, h3, h4⟩ := hraw
    have := constantBytes_unique h2 h4
    simp only [List.cons.injEq] at this
    rw [this.2.2.2]
    exact decodeCow_iff.mpr (.inr ⟨rfl, hp, rfl⟩)

/-- For instance: 64 kilobytes of name and up to 65535 mentions of it, in a file of less than 200 kilobytes, make four gigabytes of copies. -/
theorem C60_amplification {o : Opts} (n : Nat) (hn : n < 65534) (m : UInt16) :
    ∃ bytes cf s, bytes.length = n + 2 * m.toNat + 61 ∧ Accepts (javaOpts o) bytes cf ∧ (utf8 s).length = n + 1 ∧
      AttrOf cf ⟨"NestMembers".toList, .nestMembers (List.replicate m.toNat s)⟩ ∧
      ∀ (i : Nat) (data : Bytes), TextAt cf.constantPool i s → RawUtf8 bytes i data → ∀ p, decodeCow data p = some ⟨s, none⟩ := by
  have l1 : ∀ n : Nat, (mutf8 (utf16 (List.replicate n 'A'))).length = n := by
    intro n
    induction n with
    | zero => rfl
    | succ n ih =>
      rw [List.replicate_succ]
      show (mutf8 (utf16Char 'A' ++ utf16 (List.replicate n 'A'))).length = _
      rw [show mutf8 (utf16Char 'A' ++ utf16 (List.replicate n 'A')) = mutf8 (utf16Char 'A') ++ mutf8 (utf16 (List.replicate n 'A')) from
        List.flatMap_append, List.length_append, show (mutf8 (utf16Char 'A')).length = 1 from by decide]
      rw [ih]; omega
  have l2 : ∀ n : Nat, (utf8 (List.replicate n 'A')).length = n := by
    intro n
    induction n with
    | zero => rfl
    | succ n ih =>
      rw [List.replicate_succ]
      rw [show utf8 ('A' :: List.replicate n 'A') = utf8Char 'A' ++ utf8 (List.replicate n 'A') from rfl, List.length_append,
        show (utf8Char 'A').length = 1 from by decide]
      rw [ih]; omega
  have e1 : (mutf8 (utf16 (List.replicate n 'A' ++ [Char.ofNat 0]))).length = n + 2 := by
    have : mutf8 (utf16 (List.replicate n 'A' ++ [Char.ofNat 0])) = mutf8 (utf16 (List.replicate n 'A')) ++ mutf8 (utf16 [Char.ofNat 0]) := by
      simp [mutf8, utf16]
    rw [this, List.length_append, l1]
    rfl
  have e2 : (utf8 (List.replicate n 'A' ++ [Char.ofNat 0])).length = n + 1 := by
    have : utf8 (List.replicate n 'A' ++ [Char.ofNat 0]) = utf8 (List.replicate n 'A') ++ utf8 [Char.ofNat 0] := by simp [utf8]
    rw [this, List.length_append, l2]
    rfl
  obtain ⟨bytes, cf, h1, h2, h3, h4⟩ := C60_copies (o := o) (s := List.replicate n 'A' ++ [Char.ofNat 0]) m (by omega)
    ⟨[List.replicate n 'A' ++ [Char.ofNat 0]], by simp, by
      simp only [List.mem_singleton, forall_eq, UnqualifiedName]
      refine ⟨by simp, ?_⟩
      simp only [List.mem_append, List.mem_replicate, List.mem_singleton]
      rintro c (⟨-, rfl⟩ | rfl) <;> decide, rfl⟩
    (fun h => (h (Char.ofNat 0) (by simp)).1 rfl)
  exact ⟨bytes, cf, _, by omega, h2, e2, h3, h4⟩

/-! ### Concrete cases -/

/-- A file that shows a plain text. -/
example : ∃ bytes cf, Accepts (javaOpts debug) bytes cf ∧ ShownBy cf (.text "NestMembers".toList) ∧ ∃ p, Lent bytes ⟨"NestMembers".toList, some p⟩ := by
  obtain ⟨bytes, cf, s, -, h, -, ha, -⟩ := C60_amplification (o := debug) 3 (by decide) 2
  have : ∀ c ∈ "NestMembers".toList, c.toNat ≠ 0 ∧ c.toNat < 0x10000 := by decide
  exact ⟨bytes, cf, h, .attributeName ha, C60_shown h (.attributeName ha) (by simp [textsIn]) this⟩

/-- Borrowed and copied text. -/
example : Lent [0, 1, 65] ⟨['A'], some 2⟩ ∧ decodeCow [65, 0xC0, 0x80] 7 = some ⟨['A', Char.ofNat 0], none⟩ ∧ decodeCow [65] 7 = some ⟨['A'], some 7⟩ :=
  ⟨⟨[0, 1], [], rfl, rfl⟩, by decide, by decide⟩

/-- The class of a parameter is borrowed from the middle of the descriptor. -/
example : parseMethodDescriptorCow ⟨"(I[La/B;)V".toList, some 100⟩ 0 =
      .ok ⟨[⟨0, .prim .integer⟩, ⟨1, .object ⟨"a/B".toList, some 104⟩⟩], none⟩ ∧
    parseMethodDescriptorCow ⟨"(I[La/B;)V".toList, none⟩ 0 = .ok ⟨[⟨0, .prim .integer⟩, ⟨1, .object ⟨"a/B".toList, none⟩⟩], none⟩ := ⟨rfl, rfl⟩

end Cafebabe
