import Verif.Proofs.Cesu8
import Verif.Props.StringProps
import Verif.Props.SizeProps
/-!
# C58 Text is modified UTF-8

`javaOpts` fixes the decoder of text to the model of the crate (`Verif.Model.Cesu8`); the other options are arbitrary. The specification of
UTF-8, UTF-16 and modified UTF-8 is `Verif.Spec.Mutf8`.
-/

namespace Cafebabe
open Spec Examples

/-- Any options, with the decoder of the crate `cesu8`. -/
def javaOpts (o : Opts) : Opts := { o with decode := Cesu8.fromJavaCesu8 }

/-- A Utf8 constant holding a Java string is text exactly when the string is well-formed UTF-16, and then it is that string. -/
theorem C58_text {o : Opts} {bytes : Bytes} {cf : ClassFile} (h : Accepts (javaOpts o) bytes cf) {i : Nat} {us : List UInt16}
    (hr : RawUtf8 bytes i (mutf8 us)) (hi : i < cf.constantPool.length) (s : Str) : TextAt cf.constantPool i s ↔ us = utf16 s := by
  rw [C39_utf8 h hr hi s]
  exact fromJavaCesu8_mutf8

/-- Whatever its bytes, a Utf8 constant is the text `s` exactly when they are the UTF-8 or the modified UTF-8 encoding of `s`. -/
theorem C58_spellings {o : Opts} {bytes : Bytes} {cf : ClassFile} (h : Accepts (javaOpts o) bytes cf) {i : Nat} {data : Bytes}
    (hr : RawUtf8 bytes i data) (hi : i < cf.constantPool.length) (s : Str) :
    TextAt cf.constantPool i s ↔ data = utf8 s ∨ data = mutf8 (utf16 s) := by
  rw [C39_utf8 h hr hi s]
  exact fromJavaCesu8_iff

/-- The two encodings differ exactly for texts with U+0000 or with a character above U+FFFF; no two texts share an encoding of either kind. -/
theorem C58_two_spellings (s t : Str) :
    (utf8 s = mutf8 (utf16 s) ↔ ∀ c ∈ s, c.toNat ≠ 0 ∧ c.toNat < 0x10000) ∧
      ((utf8 s = utf8 t ∨ utf8 s = mutf8 (utf16 t) ∨ mutf8 (utf16 s) = mutf8 (utf16 t)) → s = t) := by
  refine ⟨utf8_eq_mutf8, ?_⟩
  rintro (h | h | h)
  · exact utf8_inj h
  · exact utf16Char_inj (mutf8_eq_utf8 h.symm).symm
  · exact utf16Char_inj (mutf8_inj h)

/-- A String constant whose Utf8 constant holds a Java string: the text if the string is well-formed UTF-16, else the bytes unchanged. -/
theorem C58_string {o : Opts} {bytes : Bytes} {cf : ClassFile} (h : Accepts (javaOpts o) bytes cf) {i : Nat} {a b : UInt8}
    (hr : RawConstant bytes i [8, a, b]) (hi : i < cf.constantPool.length) {us : List UInt16} (hu : RawUtf8 bytes (beNat [a, b]) (mutf8 us)) :
    (∀ s, LiteralAt cf.constantPool i (.string s) ↔ us = utf16 s) ∧
      (∀ d, LiteralAt cf.constantPool i (.stringBytes d) ↔ d = mutf8 us ∧ ∀ s, us ≠ utf16 s) := by
  obtain ⟨data, hd, hl⟩ := C39_string h hr hi
  have hdata : data = mutf8 us := by
    obtain ⟨a1, b1, -, h1⟩ := hd
    obtain ⟨a2, b2, -, h2⟩ := hu
    have := constantBytes_unique h1 h2
    simp only [List.cons.injEq, true_and] at this
    exact this.2.2
  subst hdata
  change ∀ c, LiteralAt cf.constantPool i c ↔ c = match Cesu8.fromJavaCesu8 (mutf8 us) with
      | some s => .string s
      | none => .stringBytes (mutf8 us) at hl
  have key : ∀ s, Cesu8.fromJavaCesu8 (mutf8 us) = some s ↔ us = utf16 s := fun s => fromJavaCesu8_mutf8
  cases hx : Cesu8.fromJavaCesu8 (mutf8 us) with
  | some t =>
    rw [hx] at hl key
    simp only [Option.some.injEq] at key
    refine ⟨fun s => ?_, fun d => ?_⟩
    · rw [hl, ← key]; simp [eq_comm]
    · rw [hl]
      constructor
      · nofun
      · rintro ⟨-, h⟩; exact absurd ((key t).mp rfl) (h t)
  | none =>
    rw [hx] at hl key
    refine ⟨fun s => ?_, fun d => ?_⟩
    · rw [hl, ← key]; simp
    · rw [hl]
      constructor
      · intro h
        cases h
        exact ⟨rfl, fun s hs => by have := (key s).mpr hs; cases this⟩
      · rintro ⟨rfl, -⟩; rfl

/-- Everything shown as text has, in the file, one of the two encodings; what is shown as bytes has neither. -/
theorem C58_shown {o : Opts} {bytes : Bytes} {cf : ClassFile} (h : Accepts (javaOpts o) bytes cf) :
    (∀ s, ShownBy cf (.text s) → ∃ i, RawUtf8 bytes i (utf8 s) ∨ RawUtf8 bytes i (mutf8 (utf16 s))) ∧
      ∀ d, ShownBy cf (.raw d) → (∃ i, RawUtf8 bytes i d) ∧ ∀ s, d ≠ utf8 s ∧ d ≠ mutf8 (utf16 s) := by
  constructor
  · intro s hs
    obtain ⟨i, data, hr, hd⟩ := C39_shown h hs
    rcases fromJavaCesu8_iff.mp hd with rfl | rfl
    · exact ⟨i, .inl hr⟩
    · exact ⟨i, .inr hr⟩
  · intro d hd
    obtain ⟨hr, hn⟩ := C39_shown h hd
    refine ⟨hr, fun s => ⟨fun e => ?_, fun e => ?_⟩⟩
    · have := fromJavaCesu8_iff.mpr (.inl e)
      exact absurd (hn.symm.trans this) nofun
    · have := fromJavaCesu8_iff.mpr (.inr e)
      exact absurd (hn.symm.trans this) nofun

/-- Text is never larger than its bytes: the characters, and the bytes they take in UTF-8, are at most as many as the bytes decoded. -/
theorem C58_size {b : Bytes} {s : Str} (h : Cesu8.fromJavaCesu8 b = some s) : s.length ≤ b.length ∧ (utf8 s).length ≤ b.length := by
  have h1 := utf8_length s
  rcases fromJavaCesu8_iff.mp h with rfl | rfl <;> omega

theorem utf8_ascii : ∀ b : Bytes, (∀ x ∈ b, 0 < x ∧ x < 128) → b = utf8 (b.map fun x => Char.ofNat x.toNat)
  | [], _ => rfl
  | x :: b, h => by
    have hx : x.toNat < 128 := (h x (by simp)).2
    rw [List.map_cons, utf8, List.flatMap_cons]
    have : utf8Char (Char.ofNat x.toNat) = [x] := by
      unfold utf8Char
      rw [ofNat_toNat_ascii hx]
      simp only
      rw [if_pos hx, UInt8.ofNat_toNat]
    rw [this]
    show x :: b = x :: utf8 _
    rw [← utf8_ascii b fun y hy => h y (by simp [hy])]

/-- The decoder meets what C51 asks of it. -/
theorem java_ascii : DecodesAscii Cesu8.fromJavaCesu8 := fun b h => fromJavaCesu8_iff.mpr (.inl (utf8_ascii b h))

/-- A class named by the Utf8 constant `data`, nothing else. -/
def nameFile (data : Bytes) : Bytes :=
  header 0 52 ++ (u2 3 ++ ([1] ++ u2 (UInt16.ofNat data.length) ++ data ++ [7, 0, 1])) ++
    ([0, 0x21] ++ u2 2 ++ [0, 0, 0, 0, 0, 0, 0, 0, 0, 0])

theorem nameFile_pool {o : Opts} {data : Bytes} {s : Str} (hl : data.length < 65536) (hd : o.decode data = some s)
    (hs : ClassNameText s) : PoolEnc o.decode o.checks 52 [.zero, .utf8 s, .classInfo (.resolved 1)]
      (u2 3 ++ ([1] ++ u2 (UInt16.ofNat data.length) ++ data ++ [7, 0, 1])) := by
  have hb : BinaryName s := by
    obtain ⟨segs, h1, h2, h3⟩ := hs
    exact ⟨segs, h1, fun g hg => (h2 g hg).1, h3⟩
  refine ⟨[.zero, .utf8 s, .classInfo (.unresolved 1)], ⟨3, [.utf8 s, .classInfo (.unresolved 1)], _, ⟨?_, ?_, ?_⟩, rfl, rfl,
    _, _, rfl, ⟨UInt16.ofNat data.length, data, small_toNat hl, hd, rfl⟩, [7, 0, 1], [], rfl, rfl, rfl⟩, rfl, ?_⟩
  · intro k hk
    rcases k with - | - | k
    · show 1 % 65536 < 3; omega
    · show 2 % 65536 < 3; omega
    · exact absurd hk (by simp)
  · show 3 ≤ 3 % 65536; omega
  · intro _; show 3 < 65536; omega
  · intro i e he
    rcases i with - | - | - | i
    · cases he; trivial
    · cases he; trivial
    · cases he; exact ⟨s, rfl, .inl hb⟩
    · simp at he

theorem nameFile_raw {data : Bytes} (hl : data.length < 65536) : RawUtf8 (nameFile data) 1 data ∧ RawConstant (nameFile data) 2 [7, 0, 1] := by
  obtain ⟨a, b, hab⟩ : ∃ a b, u2 (UInt16.ofNat data.length) = [a, b] := ⟨_, _, rfl⟩
  have hn : beNat [a, b] = data.length := by
    rw [← hab, beNat_u2]
    exact small_toNat hl
  have e : (nameFile data).drop 10 = ([1, a, b] ++ data) ++ ([7, 0, 1] ++ ([0, 0x21] ++ u2 2 ++ [0, 0, 0, 0, 0, 0, 0, 0, 0, 0])) := by
    unfold nameFile
    rw [hab]
    simp [header, u2]
  constructor
  · refine ⟨a, b, hn.symm, ?_⟩
    unfold RawConstant
    rw [e]
    exact .here (seg := 1 :: a :: b :: data) (by show some (3 + beNat [a, b]) = some (data.length + 3); rw [hn, Nat.add_comm])
  · unfold RawConstant
    rw [e]
    exact .next (tag := 1) (t := a :: b :: data) (by show some (3 + beNat [a, b]) = some (data.length + 3); rw [hn, Nat.add_comm])
      (.here (k := 2) (seg := [7, 0, 1]) rfl)

/-- A class named by a Java string is accepted exactly when the string is well-formed UTF-16 and a class name; the JVM asks only for the latter,
so a class whose name has a lone surrogate is refused. -/
theorem C58_class_name {o : Opts} {us : List UInt16} (hl : (mutf8 us).length < 65536) :
    (∃ cf, Accepts (javaOpts o) (nameFile (mutf8 us)) cf) ↔ ∃ s, us = utf16 s ∧ ClassNameText s := by
  constructor
  · rintro ⟨cf, h⟩
    obtain ⟨r1, r2⟩ := nameFile_raw hl
    have hn : ¬ CounterOverflow (javaOpts o) (nameFile (mutf8 us)) := by
      rw [C08_overflow_shape]
      rintro ⟨minor, major, -, -, body, rest, e, -⟩
      have e1 : (nameFile (mutf8 us)).drop 8 = (header minor major ++ u2 65535 ++ body ++ rest).drop 8 := congrArg (List.drop 8) e
      have e2 : (byte 0 : UInt8) = byte 255 := by simp [nameFile, header, u2] at e1; exact e1.1
      exact absurd e2 (by decide)
    obtain ⟨count, rest, e, hlen⟩ := C08_slots h hn
    have hcount : count = 3 := by
      have e1 : (nameFile (mutf8 us)).drop 8 = (header cf.minorVersion cf.majorVersion ++ u2 count ++ rest).drop 8 := congrArg (List.drop 8) e
      have e2 : u2 3 ++ (([1] ++ u2 (UInt16.ofNat (mutf8 us).length) ++ mutf8 us ++ [7, 0, 1]) ++
        ([0, 0x21] ++ u2 2 ++ [0, 0, 0, 0, 0, 0, 0, 0, 0, 0])) = u2 count ++ rest := by
        simpa [nameFile, header, u2] using e1
      exact (u2_split e2).1.symm
    subst hcount
    have hge : 3 ≤ cf.constantPool.length := by
      rcases hlen with h | ⟨h, -⟩
      · rw [h]; decide
      · rw [h]; decide
    obtain ⟨pool, fs, ms, as, flags, this, super, n, ixs, -, -, -, h1, -⟩ := enc_parts (accepts_iff_enc.mp h)
    obtain ⟨⟨x, hx, ht⟩, hname⟩ := h1
    have s1 := utf8_of_raw h r1 (by omega)
    obtain ⟨raw, s2, he⟩ := slot_of_raw h r2 (by omega)
    have hx2 : x = 1 := by
      have hthis : this.toNat = 2 := by
        have hlt : this.toNat < cf.constantPool.length := (List.getElem?_eq_some_iff.mp hx).1
        have h0 : cf.constantPool[0]? = some .zero := (goodPool_of_accepts h).first
        rcases hlen with hl3 | ⟨hl4, hu⟩
        · have h9 : this.toNat < 3 := by rw [hl3] at hlt; exact hlt
          rcases Nat.lt_or_ge this.toNat 2 with h2 | h2
          · exfalso
            rcases Nat.lt_or_ge this.toNat 1 with h3 | h3
            · rw [show this.toNat = 0 by omega, h0] at hx; cases hx
            · rw [show this.toNat = 1 by omega] at hx
              rcases s1 with ⟨s, s1, -⟩ | ⟨s1, -⟩ <;> rw [s1] at hx <;> cases hx
          · omega
        · have hl4' : cf.constantPool.length = 4 := hl4
          have hu' : cf.constantPool[3]? = some .unused := hu
          rcases Nat.lt_or_ge this.toNat 2 with h2 | h2
          · exfalso
            rcases Nat.lt_or_ge this.toNat 1 with h3 | h3
            · rw [show this.toNat = 0 by omega, h0] at hx; cases hx
            · rw [show this.toNat = 1 by omega] at hx
              rcases s1 with ⟨s, s1, -⟩ | ⟨s1, -⟩ <;> rw [s1] at hx <;> cases hx
          · rcases Nat.lt_or_ge this.toNat 3 with h3 | h3
            · omega
            · exfalso
              rw [show this.toNat = 3 by omega, hu'] at hx; cases hx
      rw [hthis, s2] at hx
      have : raw = .classInfo (.unresolved 1) := by
        entry_cases raw <;> simp [EntryEnc, u2, u4, u8] at he
        rename_i k
        obtain ⟨e1, e2⟩ := he
        have : u2 k ++ [] = u2 1 ++ [] := by simp only [u2, ← e1, ← e2]; rfl
        rw [(u2_split this).1]
      rw [this] at hx
      cases hx; rfl
    subst hx2
    rcases s1 with ⟨s, s1, hd⟩ | ⟨s1, -⟩
    · have : s = cf.thisClass.name := by
        have ht : cf.constantPool[1]? = some (.utf8 cf.thisClass.name) := ht
        rw [s1] at ht; cases ht; rfl
      exact ⟨s, fromJavaCesu8_mutf8.mp hd, this ▸ hname⟩
    · have ht : cf.constantPool[1]? = some (.utf8 cf.thisClass.name) := ht
      rw [s1] at ht; cases ht
  · rintro ⟨s, rfl, hs⟩
    obtain ⟨cf, h, -⟩ := C13_never_rejected (o := javaOpts o) (minor := 0) (major := 52)
      (nameFile_pool (o := javaOpts o) hl (fromJavaCesu8_mutf8.mpr rfl) hs) (i := 2) (c := ⟨s⟩) ⟨⟨1, rfl, rfl⟩, hs⟩ (by
        intro x r; constructor <;> simp)
    exact ⟨cf, h⟩

/-- `A`, U+0000, `é`, `€`, U+1F600: the two encodings and what is decoded; a lone surrogate, the overlong U+002F, a bare zero byte before a
pair, the example in a comment of the code (constant_pool.rs, on Utf8 constants). -/
theorem C58_witnesses :
    mutf8 (utf16 [Char.ofNat 0x41, Char.ofNat 0, Char.ofNat 0xE9, Char.ofNat 0x20AC, Char.ofNat 0x1F600]) =
        [0x41, 0xC0, 0x80, 0xC3, 0xA9, 0xE2, 0x82, 0xAC, 0xED, 0xA0, 0xBD, 0xED, 0xB8, 0x80] ∧
      utf8 [Char.ofNat 0x41, Char.ofNat 0, Char.ofNat 0xE9, Char.ofNat 0x20AC, Char.ofNat 0x1F600] =
        [0x41, 0, 0xC3, 0xA9, 0xE2, 0x82, 0xAC, 0xF0, 0x9F, 0x98, 0x80] ∧
      Cesu8.fromJavaCesu8 (mutf8 [0x41, 0xD800]) = none ∧ Cesu8.fromJavaCesu8 [0xC0, 0xAF] = none ∧
      Cesu8.fromJavaCesu8 [0, 0xED, 0xA0, 0xBD, 0xED, 0xB8, 0x80] = none ∧
      mutf8 [0xDAB9, 0xBAF5] = [0xED, 0xAA, 0xB9, 0xEB, 0xAB, 0xB5] ∧ Cesu8.fromJavaCesu8 [0xED, 0xAA, 0xB9, 0xEB, 0xAB, 0xB5] = none := by decide +kernel

/-- No text has a lone surrogate. -/
theorem lone_high (s : Str) : utf16 s ≠ [0x41, 0xD800] := by
  intro h
  have := fromJavaCesu8_mutf8.mpr h.symm
  rw [C58_witnesses.2.2.1] at this
  cases this

/-- A class named by the letter A and a lone surrogate is refused, the class named `A` and U+1F600 is accepted. -/
example (o : Opts) : ¬ (∃ cf, Accepts (javaOpts o) (nameFile (mutf8 [0x41, 0xD800])) cf) ∧
    ∃ cf, Accepts (javaOpts o) (nameFile (mutf8 (utf16 [Char.ofNat 0x41, Char.ofNat 0x1F600]))) cf := by
  constructor
  · rw [C58_class_name (by decide +kernel)]
    rintro ⟨s, h, -⟩
    exact lone_high s h.symm
  · rw [C58_class_name (by decide +kernel)]
    exact ⟨_, rfl, [_], by simp, by simp [Segment, UnqualifiedName], rfl⟩

/-- `class A` with String constants for the letter A and a lone surrogate, and for U+1F600 (slots 4 and 6). -/
def surrogates : Bytes :=
  header 0 52 ++ u2 7 ++ text "A" ++ [7, 0, 1] ++ [1, 0, 4] ++ mutf8 [0x41, 0xD800] ++ [8, 0, 3] ++ [1, 0, 6] ++ mutf8 [0xD83D, 0xDE00] ++ [8, 0, 5] ++
    [0, 0x21, 0, 2, 0, 0, 0, 0, 0, 0, 0, 0, 0, 0]

/-- It meets the hypotheses of `C58_string` twice. -/
example : (∃ cf, Accepts (javaOpts debug) surrogates cf ∧ cf.constantPool.length = 7) ∧ RawConstant surrogates 4 [8, 0, 3] ∧ RawUtf8 surrogates 3 (mutf8 [0x41, 0xD800]) ∧
    RawConstant surrogates 6 [8, 0, 5] ∧ RawUtf8 surrogates 5 (mutf8 (utf16 [Char.ofNat 0x1F600])) := by
  have hk : (match run (javaOpts debug) 3 surrogates with
      | .ok cf => cf.constantPool.length
      | _ => 0) = 7 := by decide +kernel
  refine ⟨?_, ?_, ⟨0, 4, rfl, ?_⟩, ?_, ⟨0, 6, rfl, ?_⟩⟩
  · cases hr : run (javaOpts debug) 3 surrogates with
    | ok cf => rw [hr] at hk; exact ⟨cf, ⟨3, hr⟩, hk⟩
    | err e => rw [hr] at hk; exact absurd (show (0 : Nat) = 7 from hk) (by decide)
    | panic k => rw [hr] at hk; exact absurd (show (0 : Nat) = 7 from hk) (by decide)
    | diverge => rw [hr] at hk; exact absurd (show (0 : Nat) = 7 from hk) (by decide)
  · exact .next (tag := 1) (t := [0, 1, 65]) rfl (.next (tag := 7) (t := [0, 1]) rfl (.next (tag := 1) (t := [0, 4, 0x41, 0xED, 0xA0, 0x80]) rfl
      (.here (seg := [8, 0, 3]) rfl)))
  · exact .next (tag := 1) (t := [0, 1, 65]) rfl (.next (tag := 7) (t := [0, 1]) rfl (.here (seg := [1, 0, 4, 0x41, 0xED, 0xA0, 0x80]) rfl))
  · exact .next (tag := 1) (t := [0, 1, 65]) rfl (.next (tag := 7) (t := [0, 1]) rfl (.next (tag := 1) (t := [0, 4, 0x41, 0xED, 0xA0, 0x80]) rfl
      (.next (tag := 8) (t := [0, 3]) rfl (.next (tag := 1) (t := [0, 6, 0xED, 0xA0, 0xBD, 0xED, 0xB8, 0x80]) rfl (.here (seg := [8, 0, 5]) rfl)))))
  · exact .next (tag := 1) (t := [0, 1, 65]) rfl (.next (tag := 7) (t := [0, 1]) rfl (.next (tag := 1) (t := [0, 4, 0x41, 0xED, 0xA0, 0x80]) rfl
      (.next (tag := 8) (t := [0, 3]) rfl (.here (seg := [1, 0, 6, 0xED, 0xA0, 0xBD, 0xED, 0xB8, 0x80]) rfl))))

end Cafebabe
