import Verif.Proofs.Size
import Verif.Proofs.Nested
import Verif.Props.NumberProps
import Verif.Props.Whole
import Verif.Props.RichFacts
/-!
# Properties: how large a parsed class can be (C51)
-/

namespace Cafebabe
open Spec Examples

/-! ## The lists -/

theorem entry_fits {decode : Bytes → Option Str} {major : UInt16} (e : Entry) : Fits (EntryEnc decode major e) (slots e).length := by
  intro s h
  have key : 2 ≤ s.length → (slots e).length ≤ s.length := by
    intro h; refine Nat.le_trans ?_ h; unfold slots; split <;> simp
  apply key
  unfold EntryEnc at h
  split at h
  case h_1 => obtain ⟨n, b, -, -, rfl⟩ := h; simp [u2_length] <;> omega
  case h_2 => obtain ⟨n, -, -, rfl⟩ := h; simp [u2_length] <;> omega
  case h_19 => cases h
  all_goals first | (subst h; simp [u2_length, u4_length, u8]) | (obtain ⟨-, rfl⟩ := h; simp [u2_length])

theorem entries_fit {decode : Bytes → Option Str} {major : UInt16} : ∀ es : List Entry,
    Fits (seq (EntryEnc decode major) es) (es.flatMap slots).length
  | [] => fits_zero
  | e :: es => by rw [List.flatMap_cons, List.length_append]; exact fits_cat (entry_fits e) (entries_fit es)

theorem pool_fits {decode : Bytes → Option Str} {checks : Bool} {major : UInt16} {pool : Pool} :
    Fits (PoolEnc decode checks major pool) (1 + pool.length) := by
  rintro _ ⟨raw, ⟨c, es, body, -, rfl, rfl, hs⟩, rfl, -⟩
  have := entries_fit es body hs
  simp only [List.map_cons, List.length_cons, List.length_map, List.length_append, u2_length]; omega

theorem attributes_fit {o : Opts} {pool : Pool} (as : List AttributeInfo) : Fits (AttributesEnc o pool as) (2 + attrsSize as) := by
  unfold AttributesEnc table2
  rw [← attrsEnc_eq]
  exact fits_counted2 (fits_attrs o pool as)

theorem field_fits {o : Opts} {pool : Pool} (f : FieldInfo) : Fits (FieldEnc o pool f) (1 + attrsSize f.attributes) :=
  fits_when ((fits_cat fits_masked (fits_cat fits_ref (fits_cat fits_ref (attributes_fit _)))).mono (by omega))

theorem method_fits {o : Opts} {pool : Pool} {p : Prop} {major : UInt16} (m : MethodInfo) :
    Fits (MethodEnc o pool p major m) (1 + attrsSize m.attributes) :=
  fits_when ((fits_cat fits_masked (fits_cat fits_ref (fits_cat fits_ref (attributes_fit _)))).mono (by omega))

/-- A parsed class has no more elements (in lists at any depth: constants, members, attributes, instructions, switch targets, table rows,
annotation values) than the file has bytes, after the 23 bytes every file has besides. -/
theorem C51_size {o : Opts} {bytes : Bytes} {cf : ClassFile} (h : Accepts o bytes cf) : classSize cf + 23 ≤ bytes.length := by
  have := fits_when (fits_cat (fits_lit _) (fits_cat (fits_lit _) (fits_cat (fits_lit _) (fits_cat pool_fits (fits_cat fits_masked
    (fits_cat fits_ref (fits_cat fits_ref (fits_cat (fits_refs cf.interfaces) (fits_cat
      (fits_table2 (size := fun f : FieldInfo => attrsSize f.attributes) field_fits cf.fields) (fits_cat
      (fits_table2 (size := fun m : MethodInfo => attrsSize m.attributes) method_fits cf.methods) (attributes_fit cf.attributes)))))))))))
    bytes (accepts_iff_enc.mp h)
  simp only [List.length_cons, List.length_nil, u2_length] at this
  unfold classSize
  omega

/-! ## Parameters of methods -/

theorem params_length : ∀ ps : List FieldDescriptor, ps.length ≤ (paramsText ps).length
  | [] => Nat.le_refl _
  | p :: ps => by
    have := params_length ps
    have : 1 ≤ (fieldText p).length := by unfold fieldText typeText; split <;> simp <;> omega
    rw [paramsText, List.length_append, List.length_cons]; omega

theorem prefix_length {d : MethodDescriptor} {s : Str} (h : MethodPrefix d s) : d.parameters.length + 3 ≤ s.length := by
  obtain ⟨-, t, rfl, ht⟩ := h
  have := params_length d.parameters
  have : 1 ≤ t.length := by
    unfold ReturnPrefix at ht
    split at ht
    · subst ht; simp
    · obtain ⟨-, j, rfl⟩ := ht
      unfold fieldText typeText; split <;> simp <;> omega
  simp only [List.length_append, List.length_cons, List.length_nil]; omega

/-- If decoding never gives more characters than it is given bytes (as for modified UTF-8), then no method has more than 65532
parameters. -/
theorem C51_parameters {o : Opts} {bytes : Bytes} {cf : ClassFile} (h : Accepts o bytes cf)
    (hd : ∀ b s, o.decode b = some s → s.length ≤ b.length) {m : MethodInfo} (hm : m ∈ cf.methods) : m.descriptor.parameters.length ≤ 65532 := by
  obtain ⟨pool, fs, ms, as, flags, this, super, n, ixs, -, -, -, -, -, -, -, -, -, hms, -⟩ := enc_parts (accepts_iff_enc.mp h)
  obtain ⟨s, ⟨-, s1, _, rfl, -, s2, _, rfl, -, _, s4, rfl, ⟨i, ⟨t, ht, hp⟩, rfl⟩, -⟩, -⟩ := table2_mem hms hm
  obtain ⟨seg, raw, -, he, henc⟩ := raw_of_slot h ht (by simp) (by simp)
  have : raw = .utf8 t := by cases raw <;> simp_all [linkEntry]
  subst this
  obtain ⟨k, b, hk, hb, -⟩ := henc
  have := hd b t hb
  have := prefix_length hp
  have := k.toNat_lt
  omega

/-! ## Where the bound is reached -/

/-- Decodes non-zero ASCII bytes as themselves. -/
def DecodesAscii (decode : Bytes → Option Str) : Prop :=
  ∀ b : Bytes, (∀ x ∈ b, 0 < x ∧ x < 128) → decode b = some (b.map fun x => Char.ofNat x.toNat)

/-- A method name of four letters. -/
def name4 (k : Nat) : Bytes := [k / 4096 % 16, k / 256 % 16, k / 16 % 16, k % 16].map fun x => UInt8.ofNat (97 + x)

/-- `(`, `n` times `I`, `)V`. -/
def wideDescriptor (n : Nat) : Bytes := [40] ++ List.replicate n 73 ++ [41, 86]

/-- `class A` with `m` methods, all with the same descriptor of `n` parameters. -/
def wideFile (m n : Nat) : Bytes :=
  header 0 52 ++ u2 (UInt16.ofNat (m + 4)) ++ [1, 0, 1, 65] ++ [7, 0, 1] ++ ([1] ++ u2 (UInt16.ofNat (n + 3)) ++ wideDescriptor n) ++
    (List.range m).flatMap (fun k => [1, 0, 4] ++ name4 k) ++ [0, 0x21, 0, 2, 0, 0, 0, 0, 0, 0] ++ u2 (UInt16.ofNat m) ++
    (List.range m).flatMap (fun k => [0, 1] ++ u2 (UInt16.ofNat (k + 4)) ++ [0, 3, 0, 0]) ++ [0, 0]

theorem wideFile_length (m n : Nat) : (wideFile m n).length = n + 15 * m + 37 := by
  have h1 : ∀ m, ((List.range m).flatMap fun k => [1, 0, 4] ++ name4 k).length = 7 * m := by
    intro m; simp [List.length_flatMap, name4]; omega
  have h2 : ∀ m, ((List.range m).flatMap fun k => [0, 1] ++ u2 (UInt16.ofNat (k + 4)) ++ [0, 3, 0, 0]).length = 8 * m := by
    intro m; simp [List.length_flatMap, u2_length]; omega
  unfold wideFile wideDescriptor
  simp only [List.length_append, h1, h2]
  simp [header, u2_length]
  omega

/-- The text of `name4 k`. -/
def name4Text (k : Nat) : Str := (name4 k).map fun x => Char.ofNat x.toNat

/-- The class in `wideFile m n`. -/
def wideClass (m n : Nat) : ClassFile where
  minorVersion := 0
  majorVersion := 52
  constantPool := [.zero, .utf8 ['A'], .classInfo (.resolved 1), .utf8 (['('] ++ List.replicate n 'I' ++ [')', 'V'])] ++
    (List.range m).map fun k => .utf8 (name4Text k)
  accessFlags := 0x21
  thisClass := ⟨['A']⟩
  superClass := none
  interfaces := []
  fields := []
  methods := (List.range m).map fun k => ⟨1, name4Text k, ⟨List.replicate n ⟨0, .integer⟩, .void⟩, []⟩
  attributes := []

theorem seq_flatMap {α : Type} {F : α → Lang} (g : Nat → α) (b : Nat → Bytes) : ∀ l : List Nat, (∀ k ∈ l, F (g k) (b k)) →
    seq F (l.map g) (l.flatMap b)
  | [], _ => rfl
  | k :: l, h => ⟨b k, l.flatMap b, rfl, h k (by simp), seq_flatMap g b l fun j hj => h j (by simp [hj])⟩

theorem digit_lt (x : Nat) : (UInt8.ofNat (97 + x % 16)).toNat = 97 + x % 16 := by
  simp; omega

theorem name4_mem {k : Nat} {x : UInt8} (h : x ∈ name4 k) : 97 ≤ x.toNat ∧ x.toNat < 113 := by
  simp only [name4, List.map_cons, List.map_nil, List.mem_cons, List.not_mem_nil, or_false] at h
  rcases h with rfl | rfl | rfl | rfl <;> rw [digit_lt] <;> omega

theorem ofNat_toNat_ascii {n : Nat} (h : n < 128) : (Char.ofNat n).toNat = n := by
  have hv : n.isValidChar := Or.inl (by omega)
  rw [Char.ofNat, dif_pos hv]
  show (UInt32.ofNatLT n _).toNat = n
  exact UInt32.toNat_ofNatLT ..

theorem name4Text_mem {k : Nat} {c : Char} (h : c ∈ name4Text k) : 97 ≤ c.toNat ∧ c.toNat < 113 := by
  obtain ⟨x, hx, rfl⟩ := List.mem_map.mp h
  have := name4_mem hx
  rw [ofNat_toNat_ascii (by omega)]; exact this

theorem name4Text_inj {j k : Nat} (hj : j < 65536) (hk : k < 65536) (h : name4Text j = name4Text k) : j = k := by
  have h' := congrArg (List.map Char.toNat) h
  simp only [name4Text, name4, List.map_cons, List.map_nil, List.cons.injEq, and_true] at h'
  simp only [digit_lt] at h'
  rw [ofNat_toNat_ascii (by omega), ofNat_toNat_ascii (by omega), ofNat_toNat_ascii (by omega), ofNat_toNat_ascii (by omega),
    ofNat_toNat_ascii (by omega), ofNat_toNat_ascii (by omega), ofNat_toNat_ascii (by omega), ofNat_toNat_ascii (by omega)] at h'
  omega

theorem letter_ne {c d : Char} (h : 97 ≤ c.toNat ∧ c.toNat < 113) (hd : d.toNat < 97) : c ≠ d := by
  rintro rfl; omega

theorem name4_method (k : Nat) (p q : Prop) : MethodName p q (name4Text k) :=
  Or.inr (Or.inr ⟨⟨by simp [name4Text, name4], fun c hc => ⟨letter_ne (name4Text_mem hc) (by decide), letter_ne (name4Text_mem hc) (by decide),
    letter_ne (name4Text_mem hc) (by decide), letter_ne (name4Text_mem hc) (by decide)⟩⟩,
    fun c hc => ⟨letter_ne (name4Text_mem hc) (by decide), letter_ne (name4Text_mem hc) (by decide)⟩⟩)

theorem name4_plain (k : Nat) : name4Text k ≠ "<clinit>".toList := by
  intro h
  have : '<' ∈ name4Text k := by rw [h]; decide
  have := name4Text_mem this
  revert this; decide

theorem slots_utf8 {α : Type} (g : α → Str) : ∀ l : List α, (l.map fun k => Entry.utf8 (g k)).flatMap slots = l.map fun k => Entry.utf8 (g k)
  | [] => rfl
  | k :: l => by rw [List.map_cons, List.flatMap_cons, slots_utf8 g l]; rfl

theorem paramsText_ints : ∀ n, paramsText (List.replicate n ⟨0, .integer⟩) = List.replicate n 'I'
  | 0 => rfl
  | n + 1 => by rw [List.replicate_succ, paramsText, paramsText_ints n, List.replicate_succ]; rfl

theorem small_toNat {n : Nat} (h : n < 65536) : (UInt16.ofNat n).toNat = n := by
  rw [UInt16.toNat_ofNat']; omega

/-- The constants of `wideFile m n`, as written. -/
def wideConstants (m n : Nat) : List Entry :=
  [.utf8 ['A'], .classInfo (.unresolved 1), .utf8 (['('] ++ List.replicate n 'I' ++ [')', 'V'])] ++
    (List.range m).map fun k => .utf8 (name4Text k)

theorem wide_slots (m n : Nat) : (wideConstants m n).flatMap slots = wideConstants m n := by
  unfold wideConstants
  rw [List.flatMap_append, slots_utf8]; rfl

theorem slotCount_take (m n k : Nat) (hk : k ≤ m + 3) : slotCount ((wideConstants m n).take k) = 1 + k := by
  have : ((wideConstants m n).take k).flatMap slots = (wideConstants m n).take k := by
    have : ∀ l : List Entry, (∀ e ∈ l, slots e = [e]) → l.flatMap slots = l := by
      intro l hl
      induction l with
      | nil => rfl
      | cons e l ih => rw [List.flatMap_cons, hl e (by simp), ih fun e he => hl e (by simp [he])]; rfl
    refine this _ fun e he => ?_
    have he := List.mem_of_mem_take he
    simp only [wideConstants, List.mem_append, List.mem_cons, List.not_mem_nil, or_false, List.mem_map] at he
    rcases he with (rfl | rfl | rfl) | ⟨k, -, rfl⟩ <;> rfl
  unfold slotCount
  rw [this, List.length_take]
  have : (wideConstants m n).length = m + 3 := by simp [wideConstants]
  omega

theorem wide_pool {decode : Bytes → Option Str} (hd : DecodesAscii decode) (checks : Bool) {m n : Nat} (hm : m ≤ 65531) (hn : n ≤ 65532) :
    PoolEnc decode checks 52 (wideClass m n).constantPool
      (u2 (UInt16.ofNat (m + 4)) ++ ([1, 0, 1, 65] ++ ([7, 0, 1] ++ (([1] ++ u2 (UInt16.ofNat (n + 3)) ++ wideDescriptor n) ++
        (List.range m).flatMap fun k => [1, 0, 4] ++ name4 k)))) := by
  have hl : (wideConstants m n).length = m + 3 := by simp [wideConstants]
  refine ⟨.zero :: wideConstants m n, ⟨UInt16.ofNat (m + 4), wideConstants m n, _, ⟨?_, ?_, ?_⟩, by rw [wide_slots], rfl, ?_⟩, ?_, ?_⟩
  · intro k hk
    rw [slotCount_take m n k (by omega), small_toNat (by omega)]; omega
  · have := slotCount_take m n (m + 3) (Nat.le_refl _)
    rw [List.take_of_length_le (by omega)] at this
    rw [small_toNat (by omega), this]; omega
  · intro _
    have := slotCount_take m n (m + 3) (Nat.le_refl _)
    rw [List.take_of_length_le (by omega)] at this
    omega
  · refine ⟨_, _, rfl, ⟨1, [65], rfl, ?_, rfl⟩, _, _, rfl, rfl, _, _, rfl, ⟨UInt16.ofNat (n + 3), wideDescriptor n, ?_, ?_, rfl⟩, ?_⟩
    · exact hd _ (by simp)
    · rw [small_toNat (by omega)]; simp [wideDescriptor]
    · rw [hd]
      · simp [wideDescriptor]
      · intro x hx
        simp only [wideDescriptor, List.mem_append, List.mem_cons, List.not_mem_nil, or_false, List.mem_replicate] at hx
        rcases hx with (rfl | ⟨-, rfl⟩) | rfl | rfl <;> decide
    · refine seq_flatMap (fun k => Entry.utf8 (name4Text k)) _ _ fun k _ => ⟨4, name4 k, rfl, ?_, rfl⟩
      refine hd _ fun x hx => ?_
      have := name4_mem hx
      rw [UInt8.lt_iff_toNat_lt, UInt8.lt_iff_toNat_lt]
      exact ⟨Nat.lt_of_lt_of_le (by decide) this.1, Nat.lt_of_lt_of_le this.2 (by decide)⟩
  · simp [wideClass, wideConstants, linkEntry, link]
  · intro i e he
    rcases i with - | - | - | - | i
    · cases he; trivial
    · cases he; trivial
    · cases he
      exact ⟨['A'], rfl, Or.inl ⟨[['A']], by simp, by simp [UnqualifiedName], rfl⟩⟩
    · cases he; trivial
    · obtain ⟨k, -, rfl⟩ := List.mem_map.mp (List.mem_of_getElem? (l := (List.range m).map fun k => Entry.utf8 (name4Text k)) he)
      trivial

/-- `wideFile m n` is accepted: some `n + 15 m` bytes give `m` methods of `n` parameters each. -/
theorem C51_amplified (o : Opts) (hd : DecodesAscii o.decode) {m n : Nat} (hm : m ≤ 65531) (hn : n ≤ 65532) :
    (wideFile m n).length = n + 15 * m + 37 ∧
      ∃ cf, Accepts o (wideFile m n) cf ∧ cf.methods.length = m ∧ ∀ f ∈ cf.methods, f.descriptor.parameters.length = n := by
  refine ⟨wideFile_length m n, wideClass m n, accepts_iff_enc.mpr ?_, by simp [wideClass], fun f hf => ?_⟩
  · have hname : ∀ k, k < m → (wideClass m n).constantPool[k + 4]? = some (.utf8 (name4Text k)) := by
      intro k hk
      rw [wideClass, List.getElem?_append_right (by simp)]
      simp [hk]
    have e : wideFile m n = [0xCA, 0xFE, 0xBA, 0xBE] ++ (u2 0 ++ (u2 52 ++ ((u2 (UInt16.ofNat (m + 4)) ++ ([1, 0, 1, 65] ++ ([7, 0, 1] ++
        (([1] ++ u2 (UInt16.ofNat (n + 3)) ++ wideDescriptor n) ++ (List.range m).flatMap fun k => [1, 0, 4] ++ name4 k)))) ++ (u2 0x21 ++
        (u2 2 ++ (u2 0 ++ (u2 0 ++ (u2 0 ++ ((u2 (UInt16.ofNat m) ++
        (List.range m).flatMap fun k => u2 1 ++ (u2 (UInt16.ofNat (k + 4)) ++ (u2 3 ++ u2 0))) ++ u2 0))))))))) := by
      unfold wideFile header
      simp only [List.append_assoc]
      rfl
    rw [e]
    refine ⟨⟨List.Pairwise.nil, ?_, fun h => absurd h (show ¬ ((0x21 : UInt16) &&& 0x8000 ≠ 0) by decide), ?_⟩, _, _, rfl, rfl, _, _, rfl, rfl, _, _, rfl, rfl, _, _, rfl,
      wide_pool hd o.checks hm hn, _, _, rfl, ⟨0x21, rfl, rfl⟩, _, _, rfl, ⟨2, ?_, rfl⟩, _, _, rfl, ⟨0, rfl, rfl⟩,
      _, _, rfl, ⟨0, rfl, _, _, (List.append_nil _).symm, rfl, rfl⟩, _, _, rfl, ⟨0, rfl, _, _, (List.append_nil _).symm, rfl, rfl⟩,
      _, _, rfl, ⟨UInt16.ofNat m, ?_, _, _, rfl, rfl, ?_⟩, ⟨0, rfl, _, _, (List.append_nil _).symm, rfl, rfl⟩⟩
    · unfold MethodsDistinct wideClass
      rw [List.pairwise_map]
      refine (List.nodup_range (n := m)).imp_of_mem fun {a b} ha hb hab h => hab ?_
      rw [List.mem_range] at ha hb
      exact name4Text_inj (by omega) (by omega) h.1
    · rintro x r (h | h) <;> simp [wideClass] at h
    · exact ⟨⟨1, rfl, rfl⟩, [['A']], by simp, by simp [Segment, UnqualifiedName], rfl⟩
    · rw [small_toNat (by omega)]; simp [wideClass]
    · refine seq_flatMap (fun k => MethodInfo.mk 1 (name4Text k) ⟨List.replicate n ⟨0, .integer⟩, .void⟩ []) _ _ fun k hk => ?_
      rw [List.mem_range] at hk
      refine ⟨⟨name4_method _ _ _, fun _ _ => rfl, fun h => absurd h (name4_plain k)⟩, _, _, rfl, ⟨1, rfl, rfl⟩, _, _, rfl,
        ⟨UInt16.ofNat (k + 4), ?_, rfl⟩, _, _, rfl, ⟨3, ⟨_, rfl, ?_⟩, rfl⟩, ⟨0, rfl, _, _, (List.append_nil _).symm, rfl, rfl⟩⟩
      · rw [small_toNat (by omega)]; exact hname k hk
      · refine ⟨fun p hp => ?_, ['V'], ?_, rfl⟩
        · rw [List.eq_of_mem_replicate hp]; trivial
        · rw [paramsText_ints]; simp
  · obtain ⟨k, -, rfl⟩ := List.mem_map.mp hf
    simp

example : DecodesAscii debug.decode := by
  intro b h
  show ascii b = _
  rw [ascii, if_pos]
  simpa using h

example : classSize richCf + 23 ≤ rich.length ∧ 50 ≤ classSize richCf := ⟨C51_size rich_accepted, by decide +kernel⟩

example (b : Bytes) (s : Str) (h : debug.decode b = some s) : s.length ≤ b.length := by
  have h : ascii b = some s := h
  unfold ascii at h
  split at h
  · cases h; simp
  · cases h

/-- Some 120 kB give 240 million parameters. -/
example (o : Opts) (hd : DecodesAscii o.decode) : (wideFile 4000 60000).length = 120037 ∧
    ∃ cf, Accepts o (wideFile 4000 60000) cf ∧ cf.methods.length = 4000 ∧ ∀ f ∈ cf.methods, f.descriptor.parameters.length = 60000 :=
  C51_amplified o hd (by omega) (by omega)

end Cafebabe
