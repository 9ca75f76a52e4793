import Verif.Spec.Show
import Verif.Props.AloneProps
import Verif.Props.RichFacts
import Verif.Props.SizeProps
/-!
# C67: what formatting a class prints
-/

namespace Cafebabe
open Spec Examples

/-- How many constants are printed for a valid constant of the kind, how deeply, and how many texts. -/
def showMost : Entry → Nat × Nat × Nat
  | .classInfo _ | .string _ | .methodType _ | .moduleInfo _ | .packageInfo _ => (2, 2, 1)
  | .nameAndType _ _ => (3, 2, 2)
  | .dynamic _ _ | .invokeDynamic _ _ => (4, 3, 2)
  | .fieldRef _ _ | .methodRef _ _ | .interfaceMethodRef _ _ => (6, 3, 3)
  | .methodHandle _ _ => (7, 4, 3)
  | .utf8 _ | .utf8Bytes _ => (1, 1, 1)
  | _ => (1, 1, 0)

theorem utf8At_most {pool : Pool} {i : Nat} (h : Utf8At pool i) : ∃ e, pool[i]? = some e ∧ showMost e = (1, 1, 1) := by
  rcases h with ⟨s, h⟩ | ⟨s, h⟩ <;> exact ⟨_, h, rfl⟩

theorem textAt_most {pool : Pool} {i : Nat} {s : Str} (h : TextAt pool i s) : ∃ e, pool[i]? = some e ∧ showMost e = (1, 1, 1) := ⟨_, h, rfl⟩

theorem class_most {pool : Pool} {i : Nat} (h : IsClass pool i) : ∃ e, pool[i]? = some e ∧ showMost e = (2, 2, 1) := by
  obtain ⟨x, h⟩ := h
  exact ⟨_, h, rfl⟩

theorem desc_most {pool : Pool} {i : Nat} {D : Str → Prop} (h : HasDescriptor pool i D) : ∃ e, pool[i]? = some e ∧ showMost e = (3, 2, 2) := by
  obtain ⟨x, y, s, h, -⟩ := h
  exact ⟨_, h, rfl⟩

theorem handle_most {pool : Pool} {major : UInt16} {k : ReferenceKind} {i : Nat} (h : HandleTarget major k pool i) :
    ∃ e, pool[i]? = some e ∧ showMost e = (6, 3, 3) := by
  unfold HandleTarget at h
  cases k <;> simp only at h
  case invokeStatic | invokeSpecial =>
    rcases h with ⟨c, n, h⟩ | ⟨-, c, n, h⟩ <;> exact ⟨_, h, rfl⟩
  all_goals
    obtain ⟨c, n, h⟩ := h
    exact ⟨_, h, rfl⟩

theorem one_most {major : UInt16} {pool : Pool} {e : Entry} {j : Nat} (h : EntryOK major pool e) (hr : refsOf e = [.resolved j]) :
    ∃ e', pool[j]? = some e' ∧ 1 + (showMost e').1 ≤ (showMost e).1 ∧ 1 + (showMost e').2.1 ≤ (showMost e).2.1 ∧
      (showMost e').2.2 ≤ (showMost e).2.2 ∧ textLength e = 0 := by
  have fin : ∀ {x : Nat × Nat × Nat}, (∃ e', pool[j]? = some e' ∧ showMost e' = x) → 1 + x.1 ≤ (showMost e).1 → 1 + x.2.1 ≤ (showMost e).2.1 →
      x.2.2 ≤ (showMost e).2.2 → textLength e = 0 → ∃ e', pool[j]? = some e' ∧ 1 + (showMost e').1 ≤ (showMost e).1 ∧
        1 + (showMost e').2.1 ≤ (showMost e).2.1 ∧ (showMost e').2.2 ≤ (showMost e).2.2 ∧ textLength e = 0 := by
    rintro x ⟨e', h1, rfl⟩ h2 h3 h4 h5
    exact ⟨e', h1, h2, h3, h4, h5⟩
  cases e <;> simp [refsOf] at hr <;> subst hr <;> simp only [EntryOK] at h
  case string => exact fin (utf8At_most h) (by simp [showMost]) (by simp [showMost]) (by simp [showMost]) rfl
  case methodHandle => exact fin (handle_most h) (by simp [showMost]) (by simp [showMost]) (by simp [showMost]) rfl
  case dynamic | invokeDynamic => exact fin (desc_most h) (by simp [showMost]) (by simp [showMost]) (by simp [showMost]) rfl
  all_goals
    obtain ⟨s, h, -⟩ := h
    exact fin (textAt_most h) (by simp [showMost]) (by simp [showMost]) (by simp [showMost]) rfl

theorem two_most {major : UInt16} {pool : Pool} {e : Entry} {j k : Nat} (h : EntryOK major pool e) (hr : refsOf e = [.resolved j, .resolved k]) :
    ∃ e' e'', pool[j]? = some e' ∧ pool[k]? = some e'' ∧ 1 + (showMost e').1 + (showMost e'').1 ≤ (showMost e).1 ∧
      1 + (showMost e').2.1 ≤ (showMost e).2.1 ∧ 1 + (showMost e'').2.1 ≤ (showMost e).2.1 ∧
      (showMost e').2.2 + (showMost e'').2.2 ≤ (showMost e).2.2 ∧ textLength e = 0 := by
  cases e <;> simp [refsOf] at hr <;> obtain ⟨rfl, rfl⟩ := hr <;> simp only [EntryOK] at h
  case nameAndType =>
    obtain ⟨⟨s, h1, -⟩, h2⟩ := h
    obtain ⟨e', h1, h3⟩ := textAt_most h1
    obtain ⟨e'', h2, h4⟩ := utf8At_most h2
    exact ⟨e', e'', h1, h2, by rw [h3, h4]; simp [showMost, textLength]⟩
  all_goals
    obtain ⟨e', h1, h3⟩ := class_most h.1
    obtain ⟨e'', h2, h4⟩ := desc_most h.2
    exact ⟨e', e'', h1, h2, by rw [h3, h4]; simp [showMost, textLength]⟩

theorem textLength_most {m : Nat} {e : Entry} (h : textLength e ≤ m) : textLength e ≤ m * (showMost e).2.2 := by
  cases e <;> simp [showMost, textLength] at * <;> omega

theorem shows_most {major : UInt16} {pool : Pool} (hp : PoolOK major pool) {cut : Prop} {m : Nat} (hm : ∀ e ∈ pool, textLength e ≤ m) {i : Nat}
    {s : Shown} (h : ShowsRef cut pool i s) : ∀ e, pool[i]? = some e →
      shownNodes s ≤ (showMost e).1 ∧ shownDepth s ≤ (showMost e).2.1 ∧ shownText s ≤ m * (showMost e).2.2 := by
  have base : ∀ e : Entry, 1 ≤ (showMost e).1 ∧ 1 ≤ (showMost e).2.1 := fun e => by cases e <;> simp [showMost]
  induction h with
  | locked hc => intro e he; exact ⟨(base e).1, (base e).2, Nat.zero_le _⟩
  | none h1 h2 =>
    intro e he
    rw [h1] at he; cases he
    refine ⟨by simpa [shownNodes, shownNodesAll] using (base _).1, by simpa [shownDepth, shownDepthAll] using (base _).2, ?_⟩
    simpa [shownText, shownTextAll] using textLength_most (hm _ (List.mem_of_getElem? h1))
  | one h1 h2 h3 ih =>
    intro e he
    rw [h1] at he; cases he
    obtain ⟨e', h4, h5, h6, h7, h8⟩ := one_most (hp _ _ h1) h2
    obtain ⟨i1, i2, i3⟩ := ih e' h4
    have := Nat.mul_le_mul_left m h7
    refine ⟨?_, ?_, ?_⟩ <;> simp [shownNodes, shownNodesAll, shownDepth, shownDepthAll, shownText, shownTextAll] <;> omega
  | two h1 h2 h3 h4 ih1 ih2 =>
    intro e he
    rw [h1] at he; cases he
    obtain ⟨e', e'', h5, h6, h7, h8, h9, h10, h11⟩ := two_most (hp _ _ h1) h2
    obtain ⟨i1, i2, i3⟩ := ih1 e' h5
    obtain ⟨j1, j2, j3⟩ := ih2 e'' h6
    have := Nat.mul_le_mul_left m h10
    rw [Nat.mul_add] at this
    refine ⟨?_, ?_, ?_⟩ <;> simp [shownNodes, shownNodesAll, shownDepth, shownDepthAll, shownText, shownTextAll] <;> omega

theorem showMost_le (e : Entry) : (showMost e).1 ≤ 7 ∧ (showMost e).2.1 ≤ 4 ∧ (showMost e).2.2 ≤ 3 := by cases e <;> simp [showMost]

theorem shownAll_le {b : Nat} {f : Shown → Nat} {fs : List Shown → Nat} (h0 : fs [] = 0) (h1 : ∀ s l, fs (s :: l) = f s + fs l) :
    ∀ {l : List Shown}, (∀ s ∈ l, f s ≤ b) → fs l ≤ b * l.length
  | [], _ => by rw [h0]; exact Nat.zero_le _
  | s :: l, h => by
    have i1 := h s (by simp)
    have i2 := shownAll_le h0 h1 (l := l) fun t ht => h t (by simp [ht])
    rw [h1, List.length_cons, Nat.mul_succ]
    omega

/-- However an accepted class is formatted, alone or while other threads use it: each constant prints at most 7 constants (itself and those
behind its references), nested at most 4 deep, with at most 3 texts. So the constants of a class print at most 7 times as many, and at most
3 times as much text as if each had the longest text. -/
theorem C67_bounded {o : Opts} {bytes : Bytes} {cf : ClassFile} (h : Accepts o bytes cf) {cut : Prop} {l : List Shown}
    (hl : ShowsPool cut cf.constantPool l) :
    (∀ s ∈ l, shownNodes s ≤ 7 ∧ shownDepth s ≤ 4) ∧ shownNodesAll l ≤ 7 * cf.constantPool.length ∧
      ∀ m, (∀ e ∈ cf.constantPool, textLength e ≤ m) → (∀ s ∈ l, shownText s ≤ 3 * m) ∧ shownTextAll l ≤ 3 * m * cf.constantPool.length := by
  have hp : PoolOK cf.majorVersion cf.constantPool := by
    obtain ⟨seg, _, _, _, _, _, _, _, _, -, ⟨raw, -, -, hp⟩, -⟩ := enc_parts (accepts_iff_enc.mp h)
    exact hp
  obtain ⟨h1, h2⟩ := hl
  have all : ∀ m, (∀ e ∈ cf.constantPool, textLength e ≤ m) → ∀ s ∈ l, shownNodes s ≤ 7 ∧ shownDepth s ≤ 4 ∧ shownText s ≤ 3 * m := by
    intro m hm s hs
    obtain ⟨i, hi, rfl⟩ := List.getElem_of_mem hs
    have hr := (h2 i _ (List.getElem?_eq_getElem hi)).2
    obtain ⟨i1, i2, i3⟩ := shows_most hp hm hr cf.constantPool[i] (List.getElem?_eq_getElem (by omega))
    obtain ⟨j1, j2, j3⟩ := showMost_le cf.constantPool[i]
    have := Nat.mul_le_mul_left m j3
    refine ⟨by omega, by omega, by rw [Nat.mul_comm 3]; omega⟩
  have hsome : ∃ m, ∀ e ∈ cf.constantPool, textLength e ≤ m := by
    have : ∀ l : List Entry, ∃ m, ∀ e ∈ l, textLength e ≤ m := by
      intro l
      induction l with
      | nil => exact ⟨0, by simp⟩
      | cons e l ih =>
        obtain ⟨m, hm⟩ := ih
        refine ⟨m + textLength e, fun f hf => ?_⟩
        rcases List.mem_cons.mp hf with rfl | hf
        · omega
        · have := hm f hf; omega
    exact this _
  obtain ⟨m0, hm0⟩ := hsome
  refine ⟨fun s hs => ⟨(all m0 hm0 s hs).1, (all m0 hm0 s hs).2.1⟩, ?_, fun m hm => ⟨fun s hs => (all m hm s hs).2.2, ?_⟩⟩
  · rw [← h1]
    exact shownAll_le rfl (fun _ _ => rfl) fun s hs => (all m0 hm0 s hs).1
  · rw [← h1]
    exact shownAll_le rfl (fun _ _ => rfl) fun s hs => (all m hm s hs).2.2

/-! ## Amplification -/

/-- A class whose name has `n` letters, with `m` Class constants for that one name. -/
def echoFile (m n : Nat) : Bytes :=
  header 0 52 ++ (u2 (UInt16.ofNat (m + 2)) ++ ([1] ++ u2 (UInt16.ofNat n) ++ List.replicate n 65 ++ (List.replicate m [7, 0, 1]).flatten)) ++
    ([0, 0x21] ++ u2 2 ++ [0, 0, 0, 0, 0, 0, 0, 0, 0, 0])

theorem echoFile_length (m n : Nat) : (echoFile m n).length = n + 3 * m + 27 := by
  simp [echoFile, header, u2]
  omega

/-- The constants of `echoFile m n`, as written. -/
def echoConstants (m n : Nat) : List Entry := .utf8 (List.replicate n 'A') :: List.replicate m (.classInfo (.unresolved 1))

/-- The constants of `echoFile m n`. -/
def echoPool (m n : Nat) : Pool := .zero :: .utf8 (List.replicate n 'A') :: List.replicate m (.classInfo (.resolved 1))

theorem echo_slots {l : List Entry} (h : ∀ e ∈ l, slots e = [e]) : l.flatMap slots = l := by
  induction l with
  | nil => rfl
  | cons e l ih => rw [List.flatMap_cons, h e (by simp), ih fun e he => h e (by simp [he])]; rfl

theorem echo_pool {decode : Bytes → Option Str} (hd : DecodesAscii decode) (checks : Bool) {m n : Nat} (hm : m ≤ 65533) (h1 : 1 ≤ n)
    (hn : n ≤ 65535) :
    PoolEnc decode checks 52 (echoPool m n)
      (u2 (UInt16.ofNat (m + 2)) ++ ([1] ++ u2 (UInt16.ofNat n) ++ List.replicate n 65 ++ (List.replicate m [7, 0, 1]).flatten)) := by
  have hl : (echoConstants m n).length = m + 1 := by simp [echoConstants]
  have hs : ∀ e ∈ echoConstants m n, slots e = [e] := by
    intro e he
    rcases List.mem_cons.mp he with rfl | he
    · rfl
    · rw [(List.mem_replicate.mp he).2]; rfl
  have hc : ∀ k, k ≤ m + 1 → slotCount ((echoConstants m n).take k) = 1 + k := by
    intro k hk
    unfold slotCount
    rw [echo_slots fun e he => hs e (List.mem_of_mem_take he), List.length_take]
    omega
  refine ⟨.zero :: echoConstants m n, ⟨UInt16.ofNat (m + 2), echoConstants m n, _, ⟨?_, ?_, ?_⟩, by rw [echo_slots hs], rfl, ?_⟩, ?_, ?_⟩
  · intro k hk
    rw [hc k (by omega), small_toNat (by omega)]; omega
  · have := hc (m + 1) (Nat.le_refl _)
    rw [List.take_of_length_le (by omega)] at this
    rw [small_toNat (by omega), this]; omega
  · intro _
    have := hc (m + 1) (Nat.le_refl _)
    rw [List.take_of_length_le (by omega)] at this
    omega
  · refine ⟨_, _, rfl, ⟨UInt16.ofNat n, List.replicate n 65, ?_, ?_, rfl⟩, ?_⟩
    · rw [small_toNat (by omega)]; simp
    · rw [hd]
      · simp
      · intro x hx
        rw [(List.mem_replicate.mp hx).2]; decide
    · clear hc hs hl hm
      induction m with
      | zero => rfl
      | succ m ih =>
        rw [List.replicate_succ, List.replicate_succ, List.flatten_cons]
        exact ⟨_, _, rfl, rfl, ih⟩
  · simp [echoPool, echoConstants, linkEntry, link]
  · intro i e he
    rcases i with - | - | i
    · cases he; trivial
    · cases he; trivial
    · have := List.mem_of_getElem? (l := List.replicate m (Entry.classInfo (.resolved 1))) he
      rw [(List.mem_replicate.mp this).2]
      refine ⟨List.replicate n 'A', rfl, Or.inl ⟨[List.replicate n 'A'], by simp, ?_, rfl⟩⟩
      intro s hs
      rw [List.mem_singleton.mp hs]
      refine ⟨by simp; omega, fun c hc => ?_⟩
      rw [(List.mem_replicate.mp hc).2]; decide

theorem shown_replicate {s : Shown} : ∀ m : Nat, shownTextAll (List.replicate m s) = m * shownText s
  | 0 => by simp [shownTextAll]
  | m + 1 => by rw [List.replicate_succ, shownTextAll, shown_replicate m, Nat.succ_mul, Nat.add_comm]

/-- A file of `n + 3 * m + 27` bytes whose constants print `n * (m + 1)` characters of text, for all `m` and `n` in range. -/
theorem C67_amplified (o : Opts) (hd : DecodesAscii o.decode) {m n : Nat} (h1 : 1 ≤ m) (hm : m ≤ 65533) (h2 : 1 ≤ n) (hn : n ≤ 65535) :
    (echoFile m n).length = n + 3 * m + 27 ∧ ∃ cf l, Accepts o (echoFile m n) cf ∧ EndsWith (showPoolL cf.constantPool) (.ok l) ∧
      shownTextAll l = n * (m + 1) := by
  refine ⟨echoFile_length m n, ?_⟩
  have hget : (echoPool m n)[2]? = some (.classInfo (.resolved 1)) := by
    show (List.replicate m _)[0]? = _
    rw [List.getElem?_replicate, if_pos (by omega)]
  have hseg : Segment (List.replicate n 'A') := by
    refine ⟨⟨by simp; omega, fun c hc => ?_⟩, fun c hc => ?_⟩ <;> (rw [(List.mem_replicate.mp hc).2]; decide)
  obtain ⟨cf, hacc, hcp, -⟩ := C13_never_rejected (minor := 0) (i := 2) (c := ⟨List.replicate n 'A'⟩) (echo_pool hd o.checks hm h2 hn)
    ⟨⟨1, hget, rfl⟩, [List.replicate n 'A'], by simp, fun g hg => by rw [List.mem_singleton.mp hg]; exact hseg, rfl⟩ (fun x r => by simp [echoPool])
  obtain ⟨l, hl1, hl2⟩ := C47_format hacc
  refine ⟨cf, l, hacc, hl1, ?_⟩
  have : l = .entry .zero [] :: .entry (.utf8 (List.replicate n 'A')) [] ::
      List.replicate m (.entry (.classInfo (.resolved 1)) [.entry (.utf8 (List.replicate n 'A')) []]) := by
    refine C47_format_unique hl2 ?_
    rw [hcp]
    refine ⟨by simp [echoPool], fun i s hi => ?_⟩
    rcases i with - | - | i
    · cases hi; exact ⟨by simp, .none rfl rfl⟩
    · cases hi; exact ⟨by simp, .none rfl rfl⟩
    · have hi : (List.replicate m (Shown.entry (.classInfo (.resolved 1)) [.entry (.utf8 (List.replicate n 'A')) []]))[i]? = some s := hi
      rw [List.getElem?_replicate] at hi
      split at hi
      · rename_i him
        cases hi
        refine ⟨by simp, .one (j := 1) ?_ rfl (.none rfl rfl)⟩
        show (List.replicate m _)[i]? = _
        rw [List.getElem?_replicate, if_pos him]
      · cases hi
  rw [this]
  simp only [shownTextAll, shownText, textLength, shown_replicate, List.length_replicate]
  rw [Nat.mul_add n m 1, Nat.mul_comm n m]
  simp
  omega

/-- With 65533 constants of 65535 letters: more than 4 GB printed from 262161 bytes. -/
example (o : Opts) (hd : DecodesAscii o.decode) : (echoFile 65533 65535).length = 262161 ∧
    ∃ cf l, Accepts o (echoFile 65533 65535) cf ∧ EndsWith (showPoolL cf.constantPool) (.ok l) ∧ shownTextAll l = 4294770690 :=
  C67_amplified o hd (by omega) (by omega) (by omega) (by omega)

theorem shows_none {pool : Pool} {i : Nat} {e : Entry} {s : Shown} (h : ShowsRef False pool i s) (he : pool[i]? = some e) (hr : refsOf e = []) :
    s = .entry e [] := by
  cases h with
  | locked hc => exact hc.elim
  | none h1 h2 => rw [he] at h1; cases h1; rfl
  | one h1 h2 h3 => rw [he] at h1; cases h1; rw [hr] at h2; cases h2
  | two h1 h2 h3 h4 => rw [he] at h1; cases h1; rw [hr] at h2; cases h2

theorem shows_one {pool : Pool} {i j : Nat} {e : Entry} {s : Shown} (h : ShowsRef False pool i s) (he : pool[i]? = some e)
    (hr : refsOf e = [.resolved j]) : ∃ t, s = .entry e [t] ∧ ShowsRef False pool j t := by
  cases h with
  | locked hc => exact hc.elim
  | none h1 h2 => rw [he] at h1; cases h1; rw [hr] at h2; cases h2
  | one h1 h2 h3 => rw [he] at h1; cases h1; rw [hr] at h2; cases h2; exact ⟨_, rfl, h3⟩
  | two h1 h2 h3 h4 => rw [he] at h1; cases h1; rw [hr] at h2; cases h2

theorem shows_two {pool : Pool} {i j k : Nat} {e : Entry} {s : Shown} (h : ShowsRef False pool i s) (he : pool[i]? = some e)
    (hr : refsOf e = [.resolved j, .resolved k]) : ∃ t u, s = .entry e [t, u] ∧ ShowsRef False pool j t ∧ ShowsRef False pool k u := by
  cases h with
  | locked hc => exact hc.elim
  | none h1 h2 => rw [he] at h1; cases h1; rw [hr] at h2; cases h2
  | one h1 h2 h3 => rw [he] at h1; cases h1; rw [hr] at h2; cases h2
  | two h1 h2 h3 h4 => rw [he] at h1; cases h1; rw [hr] at h2; cases h2; exact ⟨_, _, rfl, h3, h4⟩

theorem shows_handle {o : Opts} {bytes : Bytes} {cf : ClassFile} (h : Accepts o bytes cf) {i a b c d x y : Nat} {e0 e1 e2 e3 : Entry}
    {s1 s2 s3 : Str} (h0 : cf.constantPool[i]? = some e0) (r0 : refsOf e0 = [.resolved a]) (h1 : cf.constantPool[a]? = some e1)
    (r1 : refsOf e1 = [.resolved b, .resolved c]) (h2 : cf.constantPool[b]? = some e2) (r2 : refsOf e2 = [.resolved d])
    (h3 : cf.constantPool[c]? = some e3) (r3 : refsOf e3 = [.resolved x, .resolved y]) (h4 : TextAt cf.constantPool d s1)
    (h5 : TextAt cf.constantPool x s2) (h6 : TextAt cf.constantPool y s3) :
    ∃ l s, EndsWith (showPoolL cf.constantPool) (.ok l) ∧ s ∈ l ∧ shownNodes s = 7 ∧ shownDepth s = 4 := by
  obtain ⟨l, hl1, hl2, hl3⟩ := C47_format h
  have hi : i < l.length := by rw [hl2]; exact (List.getElem?_eq_some_iff.mp h0).1
  have hs := (hl3 i _ (List.getElem?_eq_getElem hi)).2
  refine ⟨l, l[i], hl1, List.getElem_mem hi, ?_⟩
  obtain ⟨t1, q1, hs⟩ := shows_one hs h0 r0
  obtain ⟨t2, t3, rfl, hs2, hs3⟩ := shows_two hs h1 r1
  obtain ⟨t4, rfl, hs4⟩ := shows_one hs2 h2 r2
  obtain ⟨t5, t6, rfl, hs5, hs6⟩ := shows_two hs3 h3 r3
  rw [shows_none hs4 h4 rfl, shows_none hs5 h5 rfl, shows_none hs6 h6 rfl] at q1
  rw [q1]
  simp [shownNodes, shownNodesAll, shownDepth, shownDepthAll]

/-- The bounds of `C67_bounded` are met with equality: `rich` has a method handle that prints 7 constants in 4 levels. -/
theorem C67_tight : ∃ l s, EndsWith (showPoolL richCf.constantPool) (.ok l) ∧ s ∈ l ∧ shownNodes s = 7 ∧ shownDepth s = 4 := by
  have h : (richCf.constantPool[10]? == some (Entry.methodHandle .invokeStatic (.resolved 9)) &&
    richCf.constantPool[9]? == some (Entry.methodRef (.resolved 2) (.resolved 8)) &&
    richCf.constantPool[2]? == some (Entry.classInfo (.resolved 1)) && richCf.constantPool[8]? == some (Entry.nameAndType (.resolved 6) (.resolved 7)) &&
    richCf.constantPool[1]? == some (Entry.utf8 "A".toList) && richCf.constantPool[6]? == some (Entry.utf8 "run".toList) &&
    richCf.constantPool[7]? == some (Entry.utf8 "()V".toList)) = true := by decide +kernel
  simp only [Bool.and_eq_true, beq_iff_eq] at h
  obtain ⟨⟨⟨⟨⟨⟨h0, h1⟩, h2⟩, h3⟩, h4⟩, h5⟩, h6⟩ := h
  exact shows_handle rich_accepted h0 rfl h1 rfl h2 rfl h3 rfl h4 h5 h6

end Cafebabe
