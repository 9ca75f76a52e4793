import Verif.Proofs.ErrorSizeFile
import Verif.Props.AttributeMessageProps
import Verif.Props.DepthProps
import Verif.Props.Mutf8Props
/-!
# Properties: how long the text of an error can be (C73)
-/

namespace Cafebabe
open Spec Examples

/-- The text of an error has at most 7 characters for each byte of the input and 551 more. The input has fewer than `2^63` bytes, as every Rust
slice, and decoding does not give more characters than it is given bytes, as modified UTF-8 does not. -/
theorem C73_linear {o : Opts} {bytes : Bytes} {e : ParseError} (h : Rejects o bytes e) (hN : bytes.length < 2 ^ 63)
    (hd : ∀ b s, o.decode b = some s → s.length ≤ b.length) : e.display.length ≤ 7 * bytes.length + 551 := by
  have h1 := saysAll_size (by omega) hd (C72_iff.mp h)
  have h2 := (esize_display e).2
  omega

/-- The same with the decoder of the crate for modified UTF-8, for which nothing need be assumed. -/
theorem C73_java {o : Opts} {bytes : Bytes} {e : ParseError} (h : Rejects (javaOpts o) bytes e) (hN : bytes.length < 2 ^ 63) :
    e.display.length ≤ 7 * bytes.length + 551 := C73_linear h hN fun _ _ hb => (C58_size hb).1

/-! ## A family of inputs with long errors -/

/-- What is said inside the attributes of a class is said about the class. -/
theorem saysAll_attach {o : Opts} {cf : ClassFile} {bytes : Bytes} (h : ClassFileEnc o cf bytes) (he : cf.attributes = []) :
    ∃ pre, bytes = pre ++ u2 0 ∧ ∀ t e, AttrsSays o cf.constantPool (pre ++ t).length t e → SaysAll o (pre ++ t) (inside "class" e) := by
  obtain ⟨⟨hd1, hd2, hm, hbs⟩, s, t, rfl, rfl, s, t, rfl, rfl, s, t, rfl, rfl, pool, t, rfl, hp, _, t, rfl, ⟨flags, hf, rfl⟩, _, t, rfl, ⟨this, ht, rfl⟩,
    _, t, rfl, ⟨super, hsup, rfl⟩, s4, t, rfl, hi, sf, t, rfl, hfs, sm, as, rfl, hms, has⟩ := h
  rw [he] at has
  obtain ⟨c, hc, s, t, rfl, rfl, rfl⟩ := has
  have hc : c = 0 := UInt16.toNat_inj.mp hc
  subst hc
  refine ⟨header cf.minorVersion cf.majorVersion ++ (pool ++ (u2 flags ++ (u2 this ++ (u2 super ++ (s4 ++ (sf ++ sm)))))), by simp [header], fun t e ha => ?_⟩
  have eq : header cf.minorVersion cf.majorVersion ++ (pool ++ (u2 flags ++ (u2 this ++ (u2 super ++ (s4 ++ (sf ++ sm)))))) ++ t =
      header cf.minorVersion cf.majorVersion ++ (pool ++ (u2 flags ++ (u2 this ++ (u2 super ++ (s4 ++ (sf ++ (sm ++ t))))))) := by simp
  rw [eq] at ha ⊢
  unfold SaysAll
  refine .back hp (fun h => ?_) ht hsup hi (.attributes hd1 hfs hd2 ?_ ha)
  · have := hm (hf ▸ h); exact ⟨this.1, hf ▸ this.2.1⟩
  · exact hf ▸ hms

/-- `n` arrays in each other, each with one element; the innermost element has the tag `!`, which does not exist. -/
def badNest : Nat → Bytes
  | 0 => [33]
  | n + 1 => [91] ++ (u2 1 ++ badNest n)

theorem badNest_length : ∀ n, (badNest n).length = 3 * n + 1
  | 0 => rfl
  | n + 1 => by simp only [badNest, List.length_append, badNest_length n]; show 1 + (2 + _) = _; omega

/-- A class whose attribute AnnotationDefault has this value. -/
def badFile (n : Nat) : Bytes := deepFront ++ (u2 1 ++ (u2 3 ++ (u4 0 ++ badNest n)))

/-- The error for it. -/
def badError (n : Nat) : ParseError :=
  ⟨"Unrecognized discriminant !", List.replicate n "array index 0" ++ ["AnnotationDefault attribute 0", "class"]⟩

theorem badNest_blamed (N : Nat) (pool : Pool) : ∀ n, Blamed N pool .elementValue (badNest n) ⟨"Unrecognized discriminant !", List.replicate n "array index 0"⟩
  | 0 => .elementTag (b := 33) rfl
  | n + 1 => by
    rw [List.replicate_succ']
    have h : Blamed N pool (.within "array index 0" [.elementValue]) (badNest n) (inside "array index 0" ⟨"Unrecognized discriminant !", List.replicate n "array index 0"⟩) :=
      .within (.here (badNest_blamed N pool n))
    exact .elementValue (b := 91) (ps := [.table2 fun j => [.within s!"array index {j}" [.elementValue]]]) rfl
      (.here (.table2 (n := 1) (.here h)))

theorem badFile_length (n : Nat) : (badFile n).length = 3 * n + 58 := by
  have h1 : deepFront.length = 49 := by decide +kernel
  have h2 : (u4 0).length = 4 := rfl
  have h3 : (u2 1).length = 2 := rfl
  have h4 : (u2 3).length = 2 := rfl
  unfold badFile
  simp only [List.length_append, badNest_length]
  omega

/-- The error for this input, for every number of arrays. -/
theorem C73_nested (c p : Bool) (n : Nat) : Rejects (opts c p) (badFile n) (badError n) := by
  obtain ⟨h1, h2, -, -, h3⟩ := deepCf_facts c p
  obtain ⟨pre, hpre, hat⟩ := saysAll_attach (accepts_iff_enc.mp h1) h2
  obtain rfl := (List.append_inj_left' hpre rfl)
  refine C72_iff.mpr ?_
  have := hat _ _ (.next (count := 1) (as := []) (before := []) (t := u2 3 ++ (u4 0 ++ badNest n)) (by decide) rfl
    (.content h3 (Nat.zero_le _) (.part (title := "AnnotationDefault") (parts := [.within "AnnotationDefault attribute 0" [.elementValue]])
      (fun m hm => by simp [fixedLengths] at hm) (by simp [layouts]; rfl) (.here (.within (.here (badNest_blamed _ _ n)))))))
  simpa [inside, badFile, badError] using this

theorem badError_length (n : Nat) : 17 * n < (badError n).display.length := by
  refine Nat.lt_of_lt_of_le ?_ (esize_display (badError n)).1
  simp only [esize, badError, List.map_append, List.map_replicate, List.sum_append, List.sum_replicate_nat]
  simp
  omega

/-- For every number there is an input that has more bytes and whose error has a text more than five times as long as the input: the factor 7
cannot be replaced by 5, whatever is added. -/
theorem C73_long (c p : Bool) (k : Nat) : ∃ bytes e, k ≤ bytes.length ∧ Rejects (opts c p) bytes e ∧ 5 * bytes.length + k < e.display.length := by
  obtain ⟨n, hn⟩ : ∃ n, n = k + 200 := ⟨_, rfl⟩
  have h1 := badFile_length n
  have h2 := badError_length n
  exact ⟨badFile n, badError n, by omega, C73_nested c p _, by omega⟩

/-- The context of every array stands in the error, so the number of contexts has no bound. -/
theorem C73_contexts (c p : Bool) (k : Nat) : ∃ bytes e, bytes.length = 3 * k + 58 ∧ Rejects (opts c p) bytes e ∧ e.contexts.length = k + 2 :=
  ⟨badFile k, badError k, badFile_length k, C73_nested c p k, by simp [badError]⟩

/-- The hypotheses of `C73_linear` hold of this input and of this decoder, and the text is this one. -/
theorem C73_case : (badFile 2).length < 2 ^ 63 ∧ (∀ b s, debug.decode b = some s → s.length ≤ b.length) ∧ Rejects debug (badFile 2) (badError 2) ∧
    (badError 2).display = "Unrecognized discriminant ! for array index 0 of array index 0 of AnnotationDefault attribute 0 of class" := by
  refine ⟨by decide +kernel, fun b s h => ?_, C73_nested true true 2, by decide +kernel⟩
  have h : ascii b = some s := h
  unfold ascii at h
  split at h
  · cases h; simp
  · cases h

end Cafebabe
