import Verif.Spec.Format
import Verif.Props.Mutf8Props
/-!
# C59 Format checking of the constants (JVMS 4.8)
-/

namespace Cafebabe
open Spec Examples

/-- These bytes are one constant that takes one slot. -/
def OneConstant (seg : Bytes) : Prop := ∃ tag t, seg = tag :: t ∧ slotWidth tag = 1 ∧ ∀ rest, constantLength (seg ++ rest) = some seg.length

/-- A Utf8 constant. -/
def utf8Seg (data : Bytes) : Bytes := [1] ++ u2 (UInt16.ofNat data.length) ++ data

/-- A class named by the constant in slot 2, with these constants and nothing else. -/
def poolFile (major : UInt16) (segs : List Bytes) : Bytes :=
  header 0 major ++ (u2 (UInt16.ofNat (segs.length + 1)) ++ segs.flatten) ++ ([0, 0x21] ++ u2 2 ++ [0, 0, 0, 0, 0, 0, 0, 0, 0, 0])

theorem one_utf8 {data : Bytes} (hl : data.length < 65536) : OneConstant (utf8Seg data) := by
  obtain ⟨a, b, hab⟩ : ∃ a b, u2 (UInt16.ofNat data.length) = [a, b] := ⟨_, _, rfl⟩
  have hn : beNat [a, b] = data.length := by
    rw [← hab, beNat_u2]
    exact small_toNat hl
  unfold utf8Seg
  rw [hab]
  refine ⟨1, a :: b :: data, rfl, rfl, fun rest => ?_⟩
  show some (3 + beNat [a, b]) = some (data.length + 3)
  rw [hn, Nat.add_comm]

theorem raw_list {rest : Bytes} : ∀ (segs : List Bytes) (k i : Nat) (seg : Bytes), (∀ s ∈ segs, OneConstant s) → segs[i]? = some seg →
    ConstantBytes k (segs.flatten ++ rest) (k + i) seg
  | [], _, _, _, _, h => by simp at h
  | s :: segs, k, 0, seg, h1, h => by
    cases h
    obtain ⟨tag, t, -, -, hc⟩ := h1 s (by simp)
    rw [List.flatten_cons, List.append_assoc]
    exact .here (hc _)
  | s :: segs, k, i + 1, seg, h1, h => by
    obtain ⟨tag, t, rfl, hw, hc⟩ := h1 s (by simp)
    rw [List.flatten_cons, List.append_assoc]
    have := raw_list (rest := rest) segs (k + 1) i seg (fun s hs => h1 s (by simp [hs])) h
    refine .next (hc _) ?_
    rw [hw]
    rwa [show k + 1 + i = k + (i + 1) by omega] at this

theorem poolFile_raw {major : UInt16} {segs : List Bytes} (h1 : ∀ s ∈ segs, OneConstant s) {i : Nat} {seg : Bytes} (h : segs[i]? = some seg) :
    RawConstant (poolFile major segs) (i + 1) seg := by
  unfold RawConstant
  have e : (poolFile major segs).drop 10 = segs.flatten ++ ([0, 0x21] ++ u2 2 ++ [0, 0, 0, 0, 0, 0, 0, 0, 0, 0]) := by
    simp [poolFile, header, u2]
  rw [e, Nat.add_comm]
  exact raw_list segs 1 i seg h1 h

theorem poolFile_slots {o : Opts} {major : UInt16} {segs : List Bytes} {cf : ClassFile} (h : Accepts o (poolFile major segs) cf)
    (hl : segs.length < 65534) : segs.length < cf.constantPool.length := by
  have cut : ∀ {minor' major' count : UInt16} {rest : Bytes}, poolFile major segs = header minor' major' ++ u2 count ++ rest →
      count = UInt16.ofNat (segs.length + 1) := by
    intro minor' major' count rest e
    have e1 : (poolFile major segs).drop 8 = (header minor' major' ++ u2 count ++ rest).drop 8 := congrArg (List.drop 8) e
    have e2 : u2 (UInt16.ofNat (segs.length + 1)) ++ (segs.flatten ++ ([0, 0x21] ++ u2 2 ++ [0, 0, 0, 0, 0, 0, 0, 0, 0, 0])) = u2 count ++ rest := by
      have l1 : (poolFile major segs).drop 8 = u2 (UInt16.ofNat (segs.length + 1)) ++ (segs.flatten ++ ([0, 0x21] ++ u2 2 ++ [0, 0, 0, 0, 0, 0, 0, 0, 0, 0])) := by
        simp [poolFile, header, u2]
      have l2 : (header minor' major' ++ u2 count ++ rest).drop 8 = u2 count ++ rest := by simp [header, u2]
      rw [← l1, e1, l2]
    exact (u2_split e2).1.symm
  have hn : ¬ CounterOverflow o (poolFile major segs) := by
    rw [C08_overflow_shape]
    rintro ⟨minor', major', -, -, body, rest, e, -⟩
    have := cut (minor' := minor') (major' := major') (count := 65535) (rest := body ++ rest) (by rw [e]; simp)
    have := congrArg UInt16.toNat this
    rw [small_toNat (by omega)] at this
    change 65535 = _ at this
    omega
  obtain ⟨count, rest, e, hlen⟩ := C08_slots h hn
  have hc := congrArg UInt16.toNat (cut e)
  rw [small_toNat (by omega)] at hc
  rcases hlen with h | ⟨h, -⟩ <;> omega

theorem slots_single {es : List Entry} (h : ∀ e ∈ es, slots e = [e]) : es.flatMap slots = es := by
  induction es with
  | nil => rfl
  | cons e es ih => rw [List.flatMap_cons, h e (by simp), ih fun e he => h e (by simp [he])]; rfl

theorem seq_flatten {α : Type} {F : α → Lang} {xs : List α} {segs : List Bytes} (h : List.Forall₂ F xs segs) : seq F xs segs.flatten := by
  induction h with
  | nil => rfl
  | cons h _ ih => exact ⟨_, _, rfl, h, ih⟩

theorem poolFile_accepts {o : Opts} {major : UInt16} {segs : List Bytes} {es : List Entry} {c : ClassName} (hl : segs.length < 65534)
    (he : List.Forall₂ (EntryEnc o.decode major) es segs) (hs : ∀ e ∈ es, slots e = [e]) (hok : PoolOK major (.zero :: es.map linkEntry))
    (hc : ClassNameAt (.zero :: es.map linkEntry) 2 c)
    (hd : ∀ x r, Entry.dynamic x r ∉ Entry.zero :: es.map linkEntry ∧ Entry.invokeDynamic x r ∉ Entry.zero :: es.map linkEntry) :
    ∃ cf, Accepts o (poolFile major segs) cf ∧ cf.constantPool = .zero :: es.map linkEntry ∧ cf.accessFlags = 0x21 := by
  have hlen : es.length = segs.length := he.length_eq
  have cnt : ∀ k, k ≤ es.length → slotCount (es.take k) = 1 + k := by
    intro k hk
    unfold slotCount
    rw [slots_single fun e he => hs e (List.mem_of_mem_take he), List.length_take]
    omega
  have hp : PoolEnc o.decode o.checks major (.zero :: es.map linkEntry) (u2 (UInt16.ofNat (segs.length + 1)) ++ segs.flatten) := by
    refine ⟨.zero :: es, ⟨UInt16.ofNat (segs.length + 1), es, segs.flatten, ⟨?_, ?_, ?_⟩, by rw [slots_single hs], rfl, seq_flatten he⟩, rfl, hok⟩
    · intro k hk
      rw [cnt k (by omega), small_toNat (by omega)]; omega
    · have := cnt es.length (Nat.le_refl _)
      rw [List.take_length] at this
      rw [this, small_toNat (by omega)]; omega
    · intro _
      have := cnt es.length (Nat.le_refl _)
      rw [List.take_length] at this
      omega
  exact C13_never_rejected (o := o) (minor := 0) hp (i := 2) hc hd

theorem raw_seg {major : UInt16} {segs : List Bytes} (h1 : ∀ s ∈ segs, OneConstant s) {i : Nat} {data : Bytes}
    (h : segs[i]? = some (utf8Seg data)) (hl : data.length < 65536) : RawUtf8 (poolFile major segs) (i + 1) data := by
  obtain ⟨a, b, hab⟩ : ∃ a b, u2 (UInt16.ofNat data.length) = [a, b] := ⟨_, _, rfl⟩
  have hn : beNat [a, b] = data.length := by
    rw [← hab, beNat_u2]
    exact small_toNat hl
  refine ⟨a, b, hn.symm, ?_⟩
  have := poolFile_raw (major := major) h1 h
  rwa [utf8Seg, hab] at this

theorem enc_utf8Seg {decode : Bytes → Option Str} {major : UInt16} {data : Bytes} {s : Str} (hl : data.length < 65536)
    (h : decode data = some s) : EntryEnc decode major (.utf8 s) (utf8Seg data) := ⟨_, data, small_toNat hl, h, rfl⟩

/-- The member constant of this kind. -/
def memberEntry : MemberKind → CPRef → CPRef → Entry
  | .field => .fieldRef
  | .method => .methodRef
  | .interfaceMethod => .interfaceMethodRef

theorem nat_seg {decode : Bytes → Option Str} {major : UInt16} {e : Entry} {i j : UInt16} (h : EntryEnc decode major e ([12] ++ u2 i ++ u2 j)) :
    e = .nameAndType (.unresolved i) (.unresolved j) := by
  entry_cases e <;> simp only [EntryEnc] at h
  case nameAndType.unresolved.unresolved =>
    simp only [List.cons_append, List.nil_append, List.cons.injEq, true_and] at h
    obtain ⟨h1, h2⟩ := u2_split h
    rw [h1, u2_inj h2]
  all_goals first
    | exact h.elim
    | (exfalso; simp at h)

theorem member_seg {decode : Bytes → Option Str} {major : UInt16} {mk : MemberKind} {e : Entry} {i j : UInt16}
    (h : EntryEnc decode major e ([memberTag mk] ++ u2 i ++ u2 j)) : e = memberEntry mk (.unresolved i) (.unresolved j) := by
  cases mk <;> simp only [memberTag] at h <;> simp only [memberEntry] <;> entry_cases e <;> simp only [EntryEnc] at h
  case field.fieldRef.unresolved.unresolved | method.methodRef.unresolved.unresolved | interfaceMethod.interfaceMethodRef.unresolved.unresolved =>
    simp only [List.cons_append, List.nil_append, List.cons.injEq, true_and] at h
    obtain ⟨h1, h2⟩ := u2_split h
    rw [h1, u2_inj h2]
  all_goals first
    | exact h.elim
    | (exfalso; simp at h)

theorem handle_seg {decode : Bytes → Option Str} {major : UInt16} {e : Entry} {b : UInt8} {i : UInt16}
    (h : EntryEnc decode major e ([15] ++ [b] ++ u2 i)) : ∃ k, kindByte k = b ∧ e = .methodHandle k (.unresolved i) := by
  entry_cases e <;> simp only [EntryEnc] at h
  case methodHandle.unresolved =>
    obtain ⟨-, h⟩ := h
    simp only [List.cons_append, List.nil_append, List.cons.injEq, true_and] at h
    exact ⟨_, h.1.symm, by rw [u2_inj h.2]⟩
  all_goals first
    | exact h.elim
    | (exfalso; simp at h; done)
    | (exfalso; obtain ⟨_, _, -, -, h⟩ := h; simp at h; done)
    | (exfalso; obtain ⟨_, -, -, h⟩ := h; simp at h; done)

/-- `class A` with a member constant of class `A`, its name and descriptor as given, and a method handle of this kind for it. -/
def refFile (mk : MemberKind) (kind : UInt8) (name desc : Bytes) : Bytes :=
  poolFile 52 [utf8Seg [65], [7] ++ u2 1, utf8Seg name, utf8Seg desc, [12] ++ u2 3 ++ u2 4, [memberTag mk] ++ u2 2 ++ u2 5, [15] ++ [kind] ++ u2 6]

theorem ref_one (mk : MemberKind) (kind : UInt8) {name desc : Bytes} (hn : name.length < 65536) (hd : desc.length < 65536) :
    ∀ s ∈ [utf8Seg [65], [7] ++ u2 1, utf8Seg name, utf8Seg desc, [12] ++ u2 3 ++ u2 4, [memberTag mk] ++ u2 2 ++ u2 5, [15] ++ [kind] ++ u2 6],
      OneConstant s := by
  intro s hs
  simp only [List.mem_cons, List.not_mem_nil, or_false] at hs
  rcases hs with rfl | rfl | rfl | rfl | rfl | rfl | rfl
  · exact one_utf8 (by decide)
  · exact ⟨7, _, rfl, rfl, fun _ => rfl⟩
  · exact one_utf8 hn
  · exact one_utf8 hd
  · exact ⟨12, _, rfl, rfl, fun _ => rfl⟩
  · cases mk
    · exact ⟨9, _, rfl, rfl, fun _ => rfl⟩
    · exact ⟨10, _, rfl, rfl, fun _ => rfl⟩
    · exact ⟨11, _, rfl, rfl, fun _ => rfl⟩
  · exact ⟨15, _, rfl, rfl, fun _ => rfl⟩

theorem handle_fits {k : ReferenceKind} {mk : MemberKind} {pool : Pool} {i : Nat} {x y : CPRef} (hi : pool[i]? = some (memberEntry mk x y)) :
    HandleTarget 52 k pool i ↔ HandleFits k mk := by
  cases k <;> cases mk <;> simp [HandleTarget, HandleFits, memberEntry, hi] at hi ⊢

/-- With such a name, descriptor and kind the file is accepted, and slot 7 is the handle, as written. -/
theorem C59_shown {o : Opts} (ha : o.decode [65] = some ['A']) {mk : MemberKind} {k : ReferenceKind} {name desc : Bytes} {s d : Str}
    (hn : name.length < 65536) (hd : desc.length < 65536) (hs : o.decode name = some s) (hu : UnqualifiedName s) (hdd : o.decode desc = some d)
    (hD : DescriptorFits mk d) (hf : HandleFits k mk) :
    ∃ cf, Accepts o (refFile mk (kindByte k) name desc) cf ∧ MethodHandleAt cf.constantPool 7 ⟨k, ['A'], mk, ⟨s, d⟩⟩ := by
  obtain ⟨cf, h, hp, -⟩ := poolFile_accepts (o := o) (major := 52) (c := ⟨['A']⟩)
    (segs := [utf8Seg [65], [7] ++ u2 1, utf8Seg name, utf8Seg desc, [12] ++ u2 3 ++ u2 4, [memberTag mk] ++ u2 2 ++ u2 5, [15] ++ [kindByte k] ++ u2 6])
    (es := [.utf8 ['A'], .classInfo (.unresolved 1), .utf8 s, .utf8 d, .nameAndType (.unresolved 3) (.unresolved 4),
      memberEntry mk (.unresolved 2) (.unresolved 5), .methodHandle k (.unresolved 6)])
    (by simp) (.cons (enc_utf8Seg (by decide) ha) (.cons rfl (.cons (enc_utf8Seg hn hs) (.cons (enc_utf8Seg hd hdd) (.cons rfl
      (.cons (by cases mk <;> rfl) (.cons ⟨by decide, rfl⟩ .nil)))))))
    (by
      intro e he
      simp only [List.mem_cons, List.not_mem_nil, or_false] at he
      rcases he with rfl | rfl | rfl | rfl | rfl | rfl | rfl <;> first | rfl | (cases mk <;> rfl))
    (by
      have m6 : linkEntry (memberEntry mk (.unresolved 2) (.unresolved 5)) = memberEntry mk (.resolved 2) (.resolved 5) := by cases mk <;> rfl
      simp only [List.map_cons, List.map_nil, m6]
      intro i e he
      rcases i with - | - | - | - | - | - | - | - | i
      · cases he; trivial
      · cases he; trivial
      · cases he; exact ⟨['A'], rfl, Or.inl ⟨[['A']], by simp, by simp [UnqualifiedName], rfl⟩⟩
      · cases he; trivial
      · cases he; trivial
      · cases he; exact ⟨⟨s, rfl, hu⟩, .inl ⟨d, rfl⟩⟩
      · cases he
        cases mk
        · exact ⟨⟨_, rfl⟩, _, _, d, rfl, rfl, hD⟩
        · exact ⟨⟨_, rfl⟩, _, _, d, rfl, rfl, hD⟩
        · exact ⟨⟨_, rfl⟩, _, _, d, rfl, rfl, hD⟩
      · cases he; exact (handle_fits (mk := mk) rfl).mpr hf
      · cases he)
    ⟨⟨1, rfl, rfl⟩, [['A']], by simp, by simp [Segment, UnqualifiedName], rfl⟩
    (by
      intro x r
      cases mk <;> simp [memberEntry, linkEntry])
  refine ⟨cf, h, 6, by rw [hp]; rfl, ?_⟩
  rw [hp]
  cases mk <;> exact ⟨2, 5, rfl, ⟨1, rfl, rfl⟩, 3, 4, rfl, rfl, rfl⟩

/-- What acceptance says about a member constant and a method handle for it: the name is an unqualified name, the descriptor is of the right
sort, the handle's kind is one of the nine and fits the sort of member. Nothing else: which name, and what is returned, does not matter. -/
theorem C59_reference {o : Opts} (ha : o.decode [65] = some ['A']) (mk : MemberKind) (kind : UInt8) {name desc : Bytes}
    (hn : name.length < 65536) (hd : desc.length < 65536) :
    (∃ cf, Accepts o (refFile mk kind name desc) cf) ↔
      ∃ s d k, o.decode name = some s ∧ UnqualifiedName s ∧ o.decode desc = some d ∧ DescriptorFits mk d ∧ kindByte k = kind ∧ HandleFits k mk := by
  have h1 := ref_one mk kind hn hd
  constructor
  · rintro ⟨cf, h⟩
    have hlen := poolFile_slots h (by simp)
    simp only [List.length_cons, List.length_nil] at hlen
    have r3 := utf8_of_raw h (raw_seg h1 (i := 2) rfl hn) (by omega)
    have r4 := utf8_of_raw h (raw_seg h1 (i := 3) rfl hd) (by omega)
    obtain ⟨e5, s5, p5⟩ := slot_of_raw h (poolFile_raw h1 (i := 4) rfl) (by omega)
    obtain ⟨e6, s6, p6⟩ := slot_of_raw h (poolFile_raw h1 (i := 5) rfl) (by omega)
    obtain ⟨e7, s7, p7⟩ := slot_of_raw h (poolFile_raw h1 (i := 6) rfl) (by omega)
    obtain ⟨k, hk, rfl⟩ := handle_seg p7
    rw [nat_seg p5] at s5
    rw [member_seg p6] at s6
    have hp := accepts_pool h
    change cf.constantPool[5]? = some (.nameAndType (.resolved 3) (.resolved 4)) at s5
    change cf.constantPool[7]? = some (.methodHandle k (.resolved 6)) at s7
    have s6' : cf.constantPool[6]? = some (memberEntry mk (.resolved 2) (.resolved 5)) := by rw [s6]; cases mk <;> rfl
    obtain ⟨⟨s, hs, hu⟩, -⟩ := hp 5 _ s5
    have hfit := (handle_fits s6').mp (by
      have := hp 7 _ s7
      simp only [EntryOK] at this
      have hm : cf.majorVersion = 52 := by
        obtain ⟨b4, b5, b6, b7, rest, e, -, hm⟩ := C01_header h
        have e1 : (refFile mk kind name desc).take 8 = ([0xCA, 0xFE, 0xBA, 0xBE, b4, b5, b6, b7] ++ rest).take 8 := congrArg (List.take 8) e
        have e2 : [(0 : UInt8), 52] = [b6, b7] := by
          simp [refFile, poolFile, header, u2, byte] at e1
          rw [← e1.2.2.1, ← e1.2.2.2]
        simp only [List.cons.injEq, and_true] at e2
        rw [← e2.1, ← e2.2] at hm
        exact UInt16.toNat_inj.mp hm
      rwa [hm] at this)
    have hdesc : ∃ d, TextAt cf.constantPool 4 d ∧ DescriptorFits mk d := by
      have := hp 6 _ s6'
      cases mk <;> simp only [memberEntry, EntryOK] at this <;> obtain ⟨-, x, y, d, hx, hy, hD⟩ := this <;>
        rw [s5] at hx <;> cases hx <;> exact ⟨d, hy, hD⟩
    obtain ⟨d, ht, hD⟩ := hdesc
    refine ⟨s, d, k, ?_, hu, ?_, hD, hk, hfit⟩
    · change cf.constantPool[3]? = _ at hs
      rcases r3 with ⟨s', r3, e⟩ | ⟨r3, -⟩
      · rw [show 2 + 1 = 3 from rfl, hs] at r3; cases r3; exact e
      · rw [show 2 + 1 = 3 from rfl, hs] at r3; cases r3
    · change cf.constantPool[4]? = _ at ht
      rcases r4 with ⟨s', r4, e⟩ | ⟨r4, -⟩
      · rw [show 3 + 1 = 4 from rfl, ht] at r4; cases r4; exact e
      · rw [show 3 + 1 = 4 from rfl, ht] at r4; cases r4
  · rintro ⟨s, d, k, hs, hu, hdd, hD, rfl, hf⟩
    obtain ⟨cf, h, -⟩ := C59_shown ha hn hd hs hu hdd hD hf
    exact ⟨cf, h⟩

/-- A Utf8 constant, decodable or not. -/
def utf8Entry (o : Opts) (data : Bytes) : Entry :=
  match o.decode data with
  | some s => .utf8 s
  | none => .utf8Bytes data

theorem enc_utf8Entry {o : Opts} {major : UInt16} {data : Bytes} (hl : data.length < 65536) :
    EntryEnc o.decode major (utf8Entry o data) (utf8Seg data) := by
  unfold utf8Entry
  cases h : o.decode data with
  | some s => exact enc_utf8Seg hl h
  | none => exact ⟨_, small_toNat hl, h, rfl⟩

theorem utf8Entry_cases (o : Opts) (data : Bytes) : (∃ s, utf8Entry o data = .utf8 s ∧ o.decode data = some s) ∨ utf8Entry o data = .utf8Bytes data ∧ o.decode data = none := by
  unfold utf8Entry
  cases h : o.decode data with
  | some s => exact .inl ⟨s, rfl, rfl⟩
  | none => exact .inr ⟨rfl, rfl⟩

/-- The descriptor of a NameAndType constant that no member constant uses is not looked at: every content is accepted. -/
theorem C59_types {o : Opts} (ha : o.decode [65] = some ['A']) {desc : Bytes} (hd : desc.length < 65536) :
    ∃ cf, Accepts o (poolFile 52 [utf8Seg [65], [7] ++ u2 1, utf8Seg desc, [12] ++ u2 1 ++ u2 3]) cf ∧
      cf.constantPool[4]? = some (.nameAndType (.resolved 1) (.resolved 3)) ∧ ∀ s, TextAt cf.constantPool 3 s ↔ o.decode desc = some s := by
  have hx := utf8Entry_cases o desc
  have he := enc_utf8Entry (o := o) (major := 52) hd
  generalize utf8Entry o desc = x at hx he
  obtain ⟨cf, h, hp, -⟩ := poolFile_accepts (o := o) (major := 52) (c := ⟨['A']⟩)
    (segs := [utf8Seg [65], [7] ++ u2 1, utf8Seg desc, [12] ++ u2 1 ++ u2 3])
    (es := [.utf8 ['A'], .classInfo (.unresolved 1), x, .nameAndType (.unresolved 1) (.unresolved 3)])
    (by simp) (.cons (enc_utf8Seg (by decide) ha) (.cons rfl (.cons he (.cons rfl .nil))))
    (by
      intro e he
      simp only [List.mem_cons, List.not_mem_nil, or_false] at he
      rcases he with rfl | rfl | rfl | rfl
      · rfl
      · rfl
      · rcases hx with ⟨s, rfl, -⟩ | ⟨rfl, -⟩ <;> rfl
      · rfl)
    (by
      intro i e he
      rcases i with - | - | - | - | - | i
      · cases he; trivial
      · cases he; trivial
      · cases he; exact ⟨['A'], rfl, Or.inl ⟨[['A']], by simp, by simp [UnqualifiedName], rfl⟩⟩
      · cases he; rcases hx with ⟨s, rfl, -⟩ | ⟨rfl, -⟩ <;> trivial
      · cases he
        refine ⟨⟨['A'], rfl, by simp [UnqualifiedName]⟩, ?_⟩
        rcases hx with ⟨s, rfl, -⟩ | ⟨rfl, -⟩
        · exact .inl ⟨s, rfl⟩
        · exact .inr ⟨desc, rfl⟩
      · cases he)
    ⟨⟨1, rfl, rfl⟩, [['A']], by simp, by simp [Segment, UnqualifiedName], rfl⟩
    (by
      intro y r
      rcases hx with ⟨s, rfl, -⟩ | ⟨rfl, -⟩ <;> simp [linkEntry])
  refine ⟨cf, h, by rw [hp]; rfl, fun s => ?_⟩
  unfold TextAt
  rw [hp]
  rcases hx with ⟨t, rfl, ht⟩ | ⟨rfl, ht⟩ <;> simp [linkEntry, ht]

/-- The bytes of a Utf8 constant that only a String constant uses, or none, are not looked at: every content is accepted. -/
theorem C59_utf8 {o : Opts} (ha : o.decode [65] = some ['A']) {data : Bytes} (hd : data.length < 65536) :
    ∃ cf, Accepts o (poolFile 52 [utf8Seg [65], [7] ++ u2 1, utf8Seg data, [8] ++ u2 3]) cf ∧
      3 < cf.constantPool.length ∧ RawUtf8 (poolFile 52 [utf8Seg [65], [7] ++ u2 1, utf8Seg data, [8] ++ u2 3]) 3 data := by
  have h1 : ∀ s ∈ [utf8Seg [65], [7] ++ u2 1, utf8Seg data, [8] ++ u2 3], OneConstant s := by
    intro s hs
    simp only [List.mem_cons, List.not_mem_nil, or_false] at hs
    rcases hs with rfl | rfl | rfl | rfl
    · exact one_utf8 (by decide)
    · exact ⟨7, _, rfl, rfl, fun _ => rfl⟩
    · exact one_utf8 hd
    · exact ⟨8, _, rfl, rfl, fun _ => rfl⟩
  have hx := utf8Entry_cases o data
  have he := enc_utf8Entry (o := o) (major := 52) hd
  generalize utf8Entry o data = x at hx he
  obtain ⟨cf, h, hp, -⟩ := poolFile_accepts (o := o) (major := 52) (c := ⟨['A']⟩)
    (segs := [utf8Seg [65], [7] ++ u2 1, utf8Seg data, [8] ++ u2 3])
    (es := [.utf8 ['A'], .classInfo (.unresolved 1), x, .string (.unresolved 3)])
    (by simp) (.cons (enc_utf8Seg (by decide) ha) (.cons rfl (.cons he (.cons rfl .nil))))
    (by
      intro e he
      simp only [List.mem_cons, List.not_mem_nil, or_false] at he
      rcases he with rfl | rfl | rfl | rfl
      · rfl
      · rfl
      · rcases hx with ⟨s, rfl, -⟩ | ⟨rfl, -⟩ <;> rfl
      · rfl)
    (by
      intro i e he
      rcases i with - | - | - | - | - | i
      · cases he; trivial
      · cases he; trivial
      · cases he; exact ⟨['A'], rfl, Or.inl ⟨[['A']], by simp, by simp [UnqualifiedName], rfl⟩⟩
      · cases he; rcases hx with ⟨s, rfl, -⟩ | ⟨rfl, -⟩ <;> trivial
      · cases he
        rcases hx with ⟨s, rfl, -⟩ | ⟨rfl, -⟩
        · exact .inl ⟨s, rfl⟩
        · exact .inr ⟨data, rfl⟩
      · cases he)
    ⟨⟨1, rfl, rfl⟩, [['A']], by simp, by simp [Segment, UnqualifiedName], rfl⟩
    (by
      intro y r
      rcases hx with ⟨s, rfl, -⟩ | ⟨rfl, -⟩ <;> simp [linkEntry])
  exact ⟨cf, h, by rw [hp]; simp, raw_seg h1 rfl hd⟩

/-- Module and Package constants are accepted in a class that is no module, for every valid name. -/
theorem C59_modules {o : Opts} (ha : o.decode [65] = some ['A']) {m p : Bytes} {s t : Str} (hm : m.length < 65536) (hp : p.length < 65536)
    (hs : o.decode m = some s) (ht : o.decode p = some t) (h1 : ModuleName s) (h2 : BinaryName t) :
    ∃ cf, Accepts o (poolFile 53 [utf8Seg [65], [7] ++ u2 1, utf8Seg m, [19] ++ u2 3, utf8Seg p, [20] ++ u2 5]) cf ∧
      ModuleAt cf.constantPool 4 s ∧ PackageAt cf.constantPool 6 t ∧ cf.accessFlags &&& 0x8000 = 0 := by
  obtain ⟨cf, h, hpool, hfl⟩ := poolFile_accepts (o := o) (major := 53) (c := ⟨['A']⟩)
    (segs := [utf8Seg [65], [7] ++ u2 1, utf8Seg m, [19] ++ u2 3, utf8Seg p, [20] ++ u2 5])
    (es := [.utf8 ['A'], .classInfo (.unresolved 1), .utf8 s, .moduleInfo (.unresolved 3), .utf8 t, .packageInfo (.unresolved 5)])
    (by simp) (.cons (enc_utf8Seg (by decide) ha) (.cons rfl (.cons (enc_utf8Seg hm hs) (.cons ⟨by decide, rfl⟩ (.cons (enc_utf8Seg hp ht)
      (.cons ⟨by decide, rfl⟩ .nil))))))
    (by
      intro e he
      simp only [List.mem_cons, List.not_mem_nil, or_false] at he
      rcases he with rfl | rfl | rfl | rfl | rfl | rfl <;> rfl)
    (by
      intro i e he
      rcases i with - | - | - | - | - | - | - | i
      · cases he; trivial
      · cases he; trivial
      · cases he; exact ⟨['A'], rfl, Or.inl ⟨[['A']], by simp, by simp [UnqualifiedName], rfl⟩⟩
      · cases he; trivial
      · cases he; exact ⟨s, rfl, h1⟩
      · cases he; trivial
      · cases he; exact ⟨t, rfl, h2⟩
      · cases he)
    ⟨⟨1, rfl, rfl⟩, [['A']], by simp, by simp [Segment, UnqualifiedName], rfl⟩
    (by intro y r; simp [linkEntry])
  refine ⟨cf, h, ⟨3, ?_⟩, ⟨5, ?_⟩, by rw [hfl]; decide⟩
  · rw [TextAt, hpool]; exact ⟨rfl, rfl⟩
  · rw [TextAt, hpool]; exact ⟨rfl, rfl⟩

/-- What section 4.8 asks for and is checked: the magic number, no missing and no extra bytes, attributes of their declared length, references to
constants of the right kind, and the names, classes and descriptors of member constants. -/
theorem C59_checked {o : Opts} {bytes : Bytes} {cf : ClassFile} (h : Accepts o bytes cf) :
    [0xCA, 0xFE, 0xBA, 0xBE] <+: bytes ∧ (∀ p, p <+: bytes → p ≠ bytes → ∃ e, Rejects o p e) ∧
      (∀ extra, extra ≠ [] → ∃ e, Rejects o (bytes ++ extra) e) ∧
      (∀ a, AttrOf cf a → ∃ (pre body post : Bytes) (i : UInt16) (n : UInt32), bytes = pre ++ (u2 i ++ u4 n ++ body) ++ post ∧
        TextAt cf.constantPool i.toNat a.name ∧ body.length = n.toNat ∧ DataEnc o cf.constantPool a.name a.data body) ∧
      (∀ (i : Nat) (e : Entry), cf.constantPool[i]? = some e → WellTyped cf.constantPool e) ∧
      ∀ i mk m, MemberRefAt cf.constantPool i mk m → (BinaryName m.className ∨ IsArrayDescriptor m.className) ∧
        UnqualifiedName m.nameAndType.name ∧ DescriptorFits mk m.nameAndType.descriptor := by
  refine ⟨?_, fun p h1 h2 => C02_truncation h h1 h2, fun _ hx => C02_extension h hx, fun a ha => ?_, fun i e hi => C09_well_typed h hi, ?_⟩
  · obtain ⟨b4, b5, b6, b7, rest, rfl, -⟩ := C01_header h
    exact ⟨[b4, b5, b6, b7] ++ rest, rfl⟩
  · obtain ⟨pre, body, post, i, n, h1, -, h2, h3, h4⟩ := C22_exact_length h ha
    exact ⟨pre, body, post, i, n, h1, h2, h3, h4⟩
  · have hp := accepts_pool h
    have core : ∀ {c n : Nat} {m : MemberRef} {D : Str → Prop}, MemberOf cf.constantPool c n m → HasDescriptor cf.constantPool n D →
        (BinaryName m.className ∨ IsArrayDescriptor m.className) ∧ UnqualifiedName m.nameAndType.name ∧ D m.nameAndType.descriptor := by
      rintro c n m D ⟨⟨x, hc, ht⟩, y, z, hn, hy, hz⟩ ⟨y', z', d, hn', hd, hD⟩
      rw [hn] at hn'
      cases hn'
      have : Entry.utf8 m.nameAndType.descriptor = .utf8 d := Option.some.inj (hz.symm.trans hd)
      cases this
      obtain ⟨s, hs, hb⟩ := hp c _ hc
      have : Entry.utf8 m.className = .utf8 s := Option.some.inj (ht.symm.trans hs)
      cases this
      obtain ⟨⟨s, hs, hu⟩, -⟩ := hp n _ hn
      have : Entry.utf8 m.nameAndType.name = .utf8 s := Option.some.inj (hy.symm.trans hs)
      cases this
      exact ⟨hb, hu, hD⟩
    intro i mk m hm
    cases mk
    · obtain ⟨c, n, hi, hm⟩ := hm
      exact core hm (hp i _ hi).2
    · obtain ⟨c, n, hi, hm⟩ := hm
      exact core hm (hp i _ hi).2
    · obtain ⟨c, n, hi, hm⟩ := hm
      exact core hm (hp i _ hi).2

/-- The other constraints of section 4.4 on constants are not checked: for each there is an accepted file that does not meet it, whatever the
options, as long as ASCII is decoded as such. -/
theorem C59_unchecked {o : Opts} (hd : DecodesAscii o.decode) :
    (∃ bytes cf, Accepts o bytes cf ∧ ¬ RefNamesOK cf.constantPool) ∧ (∃ bytes cf, Accepts o bytes cf ∧ ¬ HandleNamesOK cf.constantPool) ∧
      (∃ bytes cf, Accepts o bytes cf ∧ ¬ TypesOK cf.constantPool) ∧ (∃ bytes cf, Accepts o bytes cf ∧ ¬ Utf8BytesOK bytes cf.constantPool.length) ∧
      ∃ bytes cf, Accepts o bytes cf ∧ ¬ ModuleConstantsOK cf := by
  have hA : o.decode [65] = some ['A'] := hd [65] (by decide)
  have hV : o.decode [40, 41, 86] = some "()V".toList := hd [40, 41, 86] (by decide)
  have isV : IsMethodDescriptor "()V".toList := ⟨⟨[], .void⟩, ⟨by simp, trivial⟩, rfl⟩
  refine ⟨?_, ?_, ?_, ?_, ?_⟩
  · -- a Methodref named `<x>`
    obtain ⟨cf, h, m, -, hm⟩ := C59_shown (o := o) hA (mk := .method) (k := .invokeStatic) (name := [60, 120, 62]) (desc := [40, 41, 86])
      (s := "<x>".toList) (d := "()V".toList) (by decide) (by decide) (hd _ (by decide)) (by simp [UnqualifiedName]) hV isV trivial
    refine ⟨_, cf, h, fun hr => ?_⟩
    have := (hr m _ hm rfl).1
    revert this; decide
  · -- a handle of kind 8 for a method named `x`
    obtain ⟨cf, h, hm⟩ := C59_shown (o := o) hA (mk := .method) (k := .newInvokeSpecial) (name := [120]) (desc := [40, 41, 86])
      (s := ['x']) (d := "()V".toList) (by decide) (by decide) (hd _ (by decide)) (by simp [UnqualifiedName]) hV isV trivial
    refine ⟨_, cf, h, fun hr => ?_⟩
    have := (hr 7 _ hm).2 rfl
    revert this; decide
  · -- a NameAndType constant with an empty descriptor
    obtain ⟨cf, h, h4, h3⟩ := C59_types (o := o) hA (desc := []) (by decide)
    refine ⟨_, cf, h, fun hr => ?_⟩
    obtain ⟨d, ht, hD⟩ := hr 4 1 3 h4
    rw [h3, hd [] (by simp)] at ht
    cases ht
    rcases hD with ⟨d, -, hD⟩ | ⟨d, -, hD⟩
    · have := congrArg List.length hD
      have hne : typeText d.fieldType ≠ [] := by cases d.fieldType <;> simp [typeText]
      simp [fieldText] at this
      have := List.length_pos_of_ne_nil hne
      omega
    · cases hD
  · -- a Utf8 constant with the byte 0xFF
    obtain ⟨cf, h, hl, hr⟩ := C59_utf8 (o := o) hA (data := [0xFF]) (by decide)
    refine ⟨_, cf, h, fun hx => ?_⟩
    have := (hx 3 _ hl hr 0xFF (by simp)).2
    revert this; decide
  · obtain ⟨cf, h, h4, -, hf⟩ := C59_modules (o := o) hA (m := [109]) (p := [112]) (by decide) (by decide) (hd _ (by decide)) (hd _ (by decide))
      (.plain (c := 'm') (by decide) (by decide) (by decide) (by decide) .nil) ⟨[['p']], by simp, by simp [UnqualifiedName], rfl⟩
    exact ⟨_, cf, h, fun hx => hx 4 _ (.inl h4) hf⟩

/-- A file that meets the hypotheses of `C59_checked` and has a member constant; the hypotheses of the others are met by every decoder of ASCII. -/
example : Accepts debug rich richCf ∧ MemberRefAt richCf.constantPool 9 .method ⟨['A'], ⟨"run".toList, "()V".toList⟩⟩ := by
  refine ⟨rich_accepted, 2, 8, ?_, ⟨1, ?_, ?_⟩, 6, 7, ?_, ?_, ?_⟩ <;> try unfold TextAt
  all_goals decide +kernel

example : debug.decode [65] = some ['A'] ∧ DecodesAscii (javaOpts debug).decode := ⟨by decide, java_ascii⟩

end Cafebabe
