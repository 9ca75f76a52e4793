import Verif.Proofs.ByteCode
import Verif.Spec.Attributes
/-!
# Proofs: exactness of the attribute readers that do not recurse
-/

namespace Cafebabe
open Spec

/-! ## Record readers -/

theorem P.bind_assoc {α β γ : Type} (p : P α) (q : α → P β) (r : β → P γ) :
    (p >>= fun a => (q a >>= r)) = ((p >>= q) >>= r) := by
  funext bytes ix
  show P.bind p (fun a => P.bind (q a) r) bytes ix = P.bind (P.bind p q) r bytes ix
  unfold P.bind
  cases p bytes ix <;> rfl

/-- One field of a record: `C` collects what is already known about the result. -/
theorem exact_cat {α β : Type} {N : Nat} {p : P α} {f : α → P β} {F : α → Lang} {G : β → Lang} {C : β → Prop} (proj : β → α)
    (hp : Exact N p F) (hf : ∀ a, Exact N (f a) (fun b seg => (C b ∧ proj b = a) ∧ G b seg)) :
    Exact N (p >>= f) (fun b seg => C b ∧ (F (proj b) ⬝ G b) seg) := by
  refine (Exact.bind hp hf).congr ?_
  intro b seg
  constructor
  · rintro ⟨a, s, t, rfl, h1, ⟨h2, rfl⟩, h3⟩
    exact ⟨h2, s, t, rfl, h1, h3⟩
  · rintro ⟨h2, s, t, rfl, h1, h3⟩
    exact ⟨_, s, t, rfl, h1, ⟨h2, rfl⟩, h3⟩

/-- The last field of a record. -/
theorem exact_last {α β : Type} {N : Nat} {p : P α} {F : α → Lang} {C : β → Prop} (proj : β → α) {mk : α → β}
    (hp : Exact N p F) (hmk : ∀ a b, F a b → ∀ x, (C x ∧ proj x = a) ↔ x = mk a) :
    Exact N (p >>= fun a => (pure (mk a) : P β)) (fun b seg => C b ∧ F (proj b) seg) := by
  refine (exact_map hp mk).congr ?_
  intro b seg
  constructor
  · rintro ⟨a, rfl, h⟩
    obtain ⟨h1, h2⟩ := (hmk a seg h _).mpr rfl
    exact ⟨h1, by rw [h2]; exact h⟩
  · rintro ⟨h, h'⟩
    exact ⟨proj b, (hmk _ seg h' b).mp ⟨h, rfl⟩, h'⟩

theorem exact_start {α : Type} {N : Nat} {p : P α} {F : α → Lang} (h : Exact N p (fun a seg => True ∧ F a seg)) : Exact N p F :=
  h.congr (by simp)

theorem exact_failIf {β : Type} {N : Nat} {bad : Bool} {msg : String} {q : Unit → P β} {S : β → Lang}
    (hS : ∀ b seg, S b seg → bad = false) (hq : bad = false → Exact N (q ()) S) : Exact N (P.failIf bad msg >>= q) S := by
  cases bad with
  | false => exact hq rfl
  | true =>
    refine (show Exact N (P.fail msg : P β) (fun _ _ => False) from Exact.fail).congr ?_
    intro b seg
    constructor
    · exact False.elim
    · intro h; exact absurd (hS b seg h) (by simp)

/-! ## Tagged unions -/

theorem exact_tagK {α : Type} {N : Nat} {body : UInt8 → P α} {E : α → Lang} (hne : ∀ x seg, E x seg → seg ≠ [])
    (h : ∀ v, Exact N (body v) (fun x seg => E x (v :: seg))) : Exact (N + 1) (readU1 >>= body) E := by
  refine (Exact.bindK 1 Exact.readU1 (M := N) ?_ (Nat.le_refl _) h).congr ?_
  · rintro a seg rfl; simp [u1]
  · intro x seg
    constructor
    · rintro ⟨v, s, t, rfl, rfl, h⟩; exact h
    · intro h
      cases seg with
      | nil => exact absurd rfl (hne x [] h)
      | cons v t => exact ⟨v, [v], t, rfl, rfl, h⟩

theorem exact_tag {α : Type} {N : Nat} {body : UInt8 → P α} {E : α → Lang} (hne : ∀ x seg, E x seg → seg ≠ [])
    (h : ∀ v, Exact N (body v) (fun x seg => E x (v :: seg))) : Exact N (readU1 >>= body) E :=
  (exact_tagK hne h).mono (by omega)

theorem tag_cat {k v : UInt8} {F : Lang} {seg : Bytes} : (lit [k] ⬝ F) (v :: seg) ↔ v = k ∧ F seg := by
  constructor
  · rintro ⟨s, t, h, rfl, hF⟩
    cases h; exact ⟨rfl, hF⟩
  · rintro ⟨rfl, h⟩; exact ⟨[v], seg, rfl, rfl, h⟩

theorem tag_lit {k v : UInt8} {seg : Bytes} : lit [k] (v :: seg) ↔ v = k ∧ seg = [] := by simp [lit]

theorem cat_ne_nil_left {F G : Lang} {seg : Bytes} (h : (F ⬝ G) seg) (hF : ∀ s, F s → s ≠ []) : seg ≠ [] := by
  obtain ⟨s, t, rfl, h, _⟩ := h
  have := hF s h
  simp [this]

theorem lit_ne_nil {k : UInt8} {b s : Bytes} (h : lit (k :: b) s) : s ≠ [] := by cases h; simp

theorem tagged_ne_nil {k : UInt8} {G : Lang} {seg : Bytes} (h : (lit [k] ⬝ G) seg) : seg ≠ [] :=
  cat_ne_nil_left h fun _ => lit_ne_nil

theorem ref_length {At : Nat → Prop} {seg : Bytes} (h : ref At seg) : seg.length = 2 := by
  obtain ⟨i, _, rfl⟩ := h; rfl

/-! ## Descriptors, flags -/

theorem Decides.ok_iff {α : Type} {r : Res α} {S : α → Prop} (h : Decides r S) (a : α) : r = .ok a ↔ S a := h.1 a

theorem readFieldDescriptor_exact {N : Nat} (pool : Pool) :
    Exact N (readFieldDescriptor pool) (fun d => ref (FieldDescriptorAt pool · d)) := by
  unfold readFieldDescriptor
  refine (Exact.bind (readCpUtf8_exact pool) fun s => Exact.lift _).congr ?_
  intro d seg
  constructor
  · rintro ⟨s, s', t, rfl, ⟨i, hi, rfl⟩, h, rfl⟩
    exact ⟨i, ⟨s, hi, ((parseFieldDescriptor_zero s).ok_iff d).mp h⟩, by simp⟩
  · rintro ⟨i, ⟨s, hi, h⟩, rfl⟩
    exact ⟨s, u2 i, [], by simp, ⟨i, hi, rfl⟩, ((parseFieldDescriptor_zero s).ok_iff d).mpr h, rfl⟩

theorem fromBits_some {mask bits fl : UInt16} : fromBits mask bits = some fl ↔ fl = bits ∧ fl &&& mask = fl := by
  unfold fromBits
  have key : (bits &&& ~~~mask == 0) = true ↔ bits &&& mask = bits := by
    rw [beq_iff_eq, ← UInt16.toBitVec_inj, ← UInt16.toBitVec_inj]
    simp only [UInt16.toBitVec_and, UInt16.toBitVec_not, UInt16.toBitVec_ofNat]
    constructor
    · intro h
      ext i hi
      have := congrArg (fun x : BitVec 16 => x[i]) h
      simp at this
      simp
      intro hb
      exact this hb
    · intro h
      ext i hi
      have := congrArg (fun x : BitVec 16 => x[i]) h
      simp at this
      simp
      exact this
  split
  · rename_i h
    simp only [Option.some.injEq]
    constructor
    · rintro rfl; exact ⟨rfl, key.mp h⟩
    · rintro ⟨rfl, _⟩; rfl
  · rename_i h
    constructor
    · intro h'; cases h'
    · rintro ⟨rfl, h'⟩; exact absurd (key.mpr h') h

theorem strict_exact {N : Nat} (mask : UInt16) (msg c : String) :
    Exact N (readU2 >>= fun bits => (P.okOr (fromBits mask bits) msg).mapErr c) (strictFlags mask) := by
  refine (Exact.bind Exact.readU2 fun bits => Exact.mapErr (Exact.okOr _ _) c).congr ?_
  intro fl seg
  constructor
  · rintro ⟨bits, s, t, rfl, rfl, h, rfl⟩
    obtain ⟨rfl, h'⟩ := fromBits_some.mp h
    exact ⟨h', by simp⟩
  · rintro ⟨h, rfl⟩
    exact ⟨fl, u2 fl, [], by simp, rfl, fromBits_some.mpr ⟨rfl, h⟩, rfl⟩

theorem strict_exact' {N : Nat} (mask : UInt16) (msg : String) :
    Exact N (readU2 >>= fun bits => P.okOr (fromBits mask bits) msg) (strictFlags mask) := by
  refine (Exact.bind Exact.readU2 fun bits => Exact.okOr _ _).congr ?_
  intro fl seg
  constructor
  · rintro ⟨bits, s, t, rfl, rfl, h, rfl⟩
    obtain ⟨rfl, h'⟩ := fromBits_some.mp h
    exact ⟨h', by simp⟩
  · rintro ⟨h, rfl⟩
    exact ⟨fl, u2 fl, [], by simp, rfl, fromBits_some.mpr ⟨rfl, h⟩, rfl⟩

/-! ## Code and StackMapTable rows -/

theorem readExceptionTableEntry_exact {N : Nat} (pool : Pool) (i : Nat) :
    Exact N (readExceptionTableEntry pool i) (ExceptionEnc pool) := by
  unfold readExceptionTableEntry
  refine exact_start ?_
  refine exact_cat ExceptionTableEntry.startPc Exact.readU2 fun a => exact_cat ExceptionTableEntry.endPc Exact.readU2 fun b =>
    exact_cat ExceptionTableEntry.handlerPc Exact.readU2 fun c => exact_last ExceptionTableEntry.catchType (Exact.mapErr (readCpClassinfoOpt_exact pool) _)
      fun d s hd x => ?_
  cases x; simp [and_assoc]

theorem verification_ne_nil {pool : Pool} {x : VerificationType} {seg : Bytes} (h : VerificationEnc pool x seg) : seg ≠ [] := by
  cases x <;> first | exact lit_ne_nil h | exact tagged_ne_nil h

theorem u8_eq {v : UInt8} {n : Nat} (h : v.toNat = n) : v = UInt8.ofNat n := by rw [← h]; simp

theorem readStackmaptableVerification_exact {N : Nat} (pool : Pool) :
    Exact N (readStackmaptableVerification pool) (VerificationEnc pool) := by
  unfold readStackmaptableVerification
  refine exact_tag (fun x seg => verification_ne_nil) fun v => ?_
  split <;> rename_i hv
  · cases u8_eq hv; refine (Exact.pure _).congr fun x seg => ?_; cases x <;> simp [VerificationEnc, tag_cat, tag_lit]
  · cases u8_eq hv; refine (Exact.pure _).congr fun x seg => ?_; cases x <;> simp [VerificationEnc, tag_cat, tag_lit]
  · cases u8_eq hv; refine (Exact.pure _).congr fun x seg => ?_; cases x <;> simp [VerificationEnc, tag_cat, tag_lit]
  · cases u8_eq hv; refine (Exact.pure _).congr fun x seg => ?_; cases x <;> simp [VerificationEnc, tag_cat, tag_lit]
  · cases u8_eq hv; refine (Exact.pure _).congr fun x seg => ?_; cases x <;> simp [VerificationEnc, tag_cat, tag_lit]
  · cases u8_eq hv; refine (Exact.pure _).congr fun x seg => ?_; cases x <;> simp [VerificationEnc, tag_cat, tag_lit]
  · cases u8_eq hv; refine (Exact.pure _).congr fun x seg => ?_; cases x <;> simp [VerificationEnc, tag_cat, tag_lit]
  · cases u8_eq hv
    refine (exact_map (Exact.mapErr (readCpClassinfo_exact pool) _) _).congr fun x seg => ?_
    cases x <;> simp [VerificationEnc, tag_cat, tag_lit]
  · cases u8_eq hv
    refine (exact_map Exact.readU2 _).congr fun x seg => ?_
    cases x <;> simp [VerificationEnc, tag_cat, tag_lit]
  · refine Exact.fail.congr fun x seg => ?_
    cases x <;> simp only [VerificationEnc, tag_cat, tag_lit, false_iff] <;> rintro ⟨rfl, -⟩ <;> simp_all


theorem same_byte {d : UInt16} {v : UInt8} : (d < 64 ∧ v = d.toUInt8) ↔ (v.toNat ≤ 63 ∧ d = v.toUInt16) := by
  have hv := v.toNat_lt
  have hd := d.toNat_lt
  rw [UInt16.lt_iff_toNat_lt, ← UInt8.toNat_inj, ← UInt16.toNat_inj, UInt16.toNat_toUInt8, UInt8.toNat_toUInt16]
  simp; omega

theorem item_byte {d : UInt16} {v : UInt8} :
    (d < 64 ∧ v = 64 + d.toUInt8) ↔ ((64 ≤ v.toNat ∧ v.toNat ≤ 127) ∧ d = (v - 64).toUInt16) := by
  have hv := v.toNat_lt
  have hd := d.toNat_lt
  rw [UInt16.lt_iff_toNat_lt, ← UInt8.toNat_inj, ← UInt16.toNat_inj, UInt8.toNat_add, UInt16.toNat_toUInt8, UInt8.toNat_toUInt16,
    UInt8.toNat_sub]
  simp; omega

theorem chop_byte {k : UInt16} {v : UInt8} :
    (1 ≤ k ∧ k ≤ 3 ∧ v = 251 - k.toUInt8) ↔ ((248 ≤ v.toNat ∧ v.toNat ≤ 250) ∧ k = (251 - v).toUInt16) := by
  have hv := v.toNat_lt
  have hd := k.toNat_lt
  rw [UInt16.le_iff_toNat_le, UInt16.le_iff_toNat_le, ← UInt8.toNat_inj, ← UInt16.toNat_inj, UInt8.toNat_sub, UInt16.toNat_toUInt8,
    UInt8.toNat_toUInt16, UInt8.toNat_sub]
  simp; omega

theorem append_byte {n : Nat} {v : UInt8} :
    ((1 ≤ n ∧ n ≤ 3) ∧ v = 251 + UInt8.ofNat n) ↔ ((252 ≤ v.toNat ∧ v.toNat ≤ 254) ∧ n = (v - 251).toNat) := by
  have hv := v.toNat_lt
  rw [← UInt8.toNat_inj, UInt8.toNat_add, UInt8.toNat_sub]
  simp; omega

/-- The encoding of a frame, by its first byte. -/
theorem frame_cons {pool : Pool} {x : StackMapEntry} {v : UInt8} {seg : Bytes} : FrameEnc pool x (v :: seg) ↔
    match x with
    | .same d => ((v.toNat ≤ 63 ∧ d = v.toUInt16) ∧ seg = []) ∨ (v.toNat = 251 ∧ seg = u2 d)
    | .sameLocals1StackItem d t => (((64 ≤ v.toNat ∧ v.toNat ≤ 127) ∧ d = (v - 64).toUInt16) ∧ VerificationEnc pool t seg) ∨
        (v.toNat = 247 ∧ (lit (u2 d) ⬝ VerificationEnc pool t) seg)
    | .chop d k => ((248 ≤ v.toNat ∧ v.toNat ≤ 250) ∧ k = (251 - v).toUInt16) ∧ seg = u2 d
    | .append d l => ((252 ≤ v.toNat ∧ v.toNat ≤ 254) ∧ l.length = (v - 251).toNat) ∧ (lit (u2 d) ⬝ seq (VerificationEnc pool) l) seg
    | .fullFrame d l s => v.toNat = 255 ∧ (lit (u2 d) ⬝ table2 (VerificationEnc pool) l ⬝ table2 (VerificationEnc pool) s) seg := by
  have h247 : v = 247 ↔ v.toNat = 247 := UInt8.toNat_inj.symm
  have h251 : v = 251 ↔ v.toNat = 251 := UInt8.toNat_inj.symm
  have h255 : v = 255 ↔ v.toNat = 255 := UInt8.toNat_inj.symm
  have lit2 : ∀ {k : UInt8} {b : Bytes} {F : Lang}, (lit ([k] ++ b) ⬝ F) (v :: seg) ↔ v = k ∧ (lit b ⬝ F) seg := by
    intro k b F
    constructor
    · rintro ⟨s, t, h, rfl, hF⟩
      simp at h
      exact ⟨h.1, b, t, h.2, rfl, hF⟩
    · rintro ⟨rfl, s, t, rfl, rfl, hF⟩
      exact ⟨v :: s, t, by simp, rfl, hF⟩
  cases x with
  | same d =>
    simp only [FrameEnc, List.cons_append, List.nil_append, List.cons.injEq, ← and_assoc, same_byte, h251]
  | sameLocals1StackItem d t => simp only [FrameEnc, tag_cat, ← and_assoc, item_byte, lit2, h247]
  | chop d k =>
    simp only [FrameEnc, List.cons_append, List.nil_append, List.cons.injEq]
    rw [← chop_byte]; simp only [and_assoc]
  | append d l => simp only [FrameEnc, when, lit2, ← and_assoc, append_byte]
  | fullFrame d l s => simp only [FrameEnc, lit2, h255]

theorem frame_ne_nil {pool : Pool} {x : StackMapEntry} {seg : Bytes} (h : FrameEnc pool x seg) : seg ≠ [] := by
  rintro rfl
  cases x with
  | same d => rcases h with ⟨_, h⟩ | h <;> simp at h
  | sameLocals1StackItem d t =>
    rcases h with ⟨_, h⟩ | h
    · exact tagged_ne_nil h rfl
    · exact cat_ne_nil_left h (fun s hs => lit_ne_nil hs) rfl
  | chop d k => obtain ⟨_, _, h⟩ := h; simp at h
  | append d l => exact cat_ne_nil_left h.2 (fun s hs => lit_ne_nil hs) rfl
  | fullFrame d l s => exact cat_ne_nil_left h (fun s hs => lit_ne_nil hs) rfl

theorem readStackMapEntry_exact {N : Nat} (pool : Pool) (i : Nat) : Exact N (readStackMapEntry pool i) (FrameEnc pool) := by
  unfold readStackMapEntry
  refine exact_tag (fun x seg => frame_ne_nil) fun v => ?_
  unfold readStackMapEntryBody
  have hv := v.toNat_lt
  simp only [frame_cons]
  split
  · refine (Exact.pure _).congr fun x seg => ?_
    cases x <;> simp <;> try omega
    constructor
    · rintro ⟨rfl, rfl⟩; exact .inl ⟨⟨by omega, rfl⟩, rfl⟩
    · rintro (⟨⟨h1, rfl⟩, rfl⟩ | ⟨h, -⟩)
      · exact ⟨rfl, rfl⟩
      · omega
  split
  · refine (exact_map (Exact.mapErr (readStackmaptableVerification_exact pool) _) _).congr fun x seg => ?_
    cases x <;> simp <;> try omega
    constructor
    · rintro ⟨a, ⟨rfl, rfl⟩, h⟩; exact .inl ⟨⟨by omega, rfl⟩, h⟩
    · rintro (⟨⟨h1, rfl⟩, h⟩ | ⟨h, -⟩)
      · exact ⟨_, ⟨rfl, rfl⟩, h⟩
      · omega
  split
  · refine Exact.failCtx.congr fun x seg => ?_
    cases x <;> simp <;> omega
  split
  · refine (Exact.bind Exact.readU2 fun d => exact_map (Exact.mapErr (readStackmaptableVerification_exact pool) _) _).congr fun x seg => ?_
    constructor
    · rintro ⟨d, s, t, rfl, rfl, a, rfl, h⟩
      exact .inr ⟨by omega, _, _, rfl, rfl, h⟩
    · cases x with
      | sameLocals1StackItem d a =>
        rintro (⟨⟨h1, rfl⟩, h⟩ | ⟨-, s, t, rfl, rfl, h⟩)
        · omega
        · exact ⟨d, _, _, rfl, rfl, a, rfl, h⟩
      | _ => simp <;> omega
  split
  · refine (exact_map Exact.readU2 _).congr fun x seg => ?_
    cases x <;> simp <;> try omega
    constructor
    · rintro ⟨a, ⟨rfl, rfl⟩, h⟩; exact ⟨⟨by omega, rfl⟩, h⟩
    · rintro ⟨⟨h1, rfl⟩, h⟩; exact ⟨_, ⟨rfl, rfl⟩, h⟩
  split
  · refine (exact_map Exact.readU2 _).congr fun x seg => ?_
    cases x <;> simp <;> try omega
    constructor
    · intro h; exact .inr ⟨by omega, h⟩
    · rintro (⟨⟨h1, rfl⟩, h⟩ | ⟨-, h⟩)
      · omega
      · exact h
  split
  · refine (Exact.bind Exact.readU2 fun d => exact_map (Exact.forRange (fun j =>
      Exact.mapErr (readStackmaptableVerification_exact pool) _) _) _).congr fun x seg => ?_
    constructor
    · rintro ⟨d, s, t, rfl, rfl, a, rfl, hl, h⟩
      exact ⟨⟨by omega, hl⟩, _, _, rfl, rfl, h⟩
    · cases x with
      | append d a =>
        rintro ⟨⟨h1, hl⟩, s, t, rfl, rfl, h⟩
        exact ⟨d, _, _, rfl, rfl, a, rfl, hl, h⟩
      | _ => simp <;> omega
  · refine (Exact.bind Exact.readU2 fun d => Exact.bind (Exact.readTable2 fun j =>
      Exact.mapErr (readStackmaptableVerification_exact pool) _) fun l => exact_map (Exact.readTable2 fun j =>
      Exact.mapErr (readStackmaptableVerification_exact pool) _) _).congr fun x seg => ?_
    constructor
    · rintro ⟨d, s, t, rfl, rfl, l, s', t', rfl, hl, a, rfl, h⟩
      exact ⟨by omega, _, _, rfl, rfl, _, _, rfl, hl, h⟩
    · cases x with
      | fullFrame d l a =>
        rintro ⟨h1, s, t, rfl, rfl, s', t', rfl, hl, h⟩
        exact ⟨d, _, _, rfl, rfl, l, _, _, rfl, hl, a, rfl, h⟩
      | _ => simp <;> omega

/-! ## Table rows -/

theorem readInnerClassEntry_exact {N : Nat} (pool : Pool) (i : Nat) : Exact N (readInnerClassEntry pool i) (InnerClassEnc pool) := by
  unfold readInnerClassEntry
  refine exact_start ?_
  refine exact_cat InnerClassEntry.innerClassInfo (Exact.mapErr (readCpClassinfo_exact pool) _) fun a =>
    exact_cat InnerClassEntry.outerClassInfo (Exact.mapErr (readCpClassinfoOpt_exact pool) _) fun b =>
    exact_cat InnerClassEntry.innerName (Exact.mapErr (readCpUtf8Opt_exact pool) _) fun c => ?_
  refine (exact_map Exact.readU2 _).congr fun x seg => ?_
  cases x
  simp only [InnerClassEntry.mk.injEq, maskedFlags, true_and, lit, fromBitsTruncate]
  rw [show innerClassMask = 0x761F from rfl]
  constructor
  · rintro ⟨bits, ⟨rfl, rfl, rfl, rfl⟩, rfl⟩; exact ⟨⟨⟨rfl, rfl⟩, rfl⟩, bits, rfl, rfl⟩
  · rintro ⟨⟨⟨rfl, rfl⟩, rfl⟩, bits, rfl, rfl⟩; exact ⟨bits, ⟨rfl, rfl, rfl, rfl⟩, rfl⟩

theorem readLineNumberEntry_exact {N : Nat} : Exact N readLineNumberEntry LineNumberEnc := by
  unfold readLineNumberEntry
  refine exact_start ?_
  refine exact_cat LineNumberEntry.startPc Exact.readU2 fun a => exact_last LineNumberEntry.lineNumber Exact.readU2 fun b s _ x => ?_
  cases x; simp [and_assoc]

theorem not_isUnqualified {s : Str} : (!isUnqualifiedName s) = false ↔ UnqualifiedName s := by
  rw [← isUnqualifiedName_iff]; simp

theorem readLocalVariableEntry_exact {N : Nat} (pool : Pool) (i : Nat) :
    Exact N (readLocalVariableEntry pool i) (LocalVariableEnc pool) := by
  unfold readLocalVariableEntry LocalVariableEnc
  refine exact_cat LocalVariableEntry.startPc Exact.readU2 fun a => exact_cat LocalVariableEntry.length Exact.readU2 fun b =>
    exact_cat LocalVariableEntry.name (Exact.mapErr (readCpUtf8_exact pool) _) fun c => exact_failIf ?_ fun hc =>
    exact_cat LocalVariableEntry.descriptor (Exact.mapErr (readFieldDescriptor_exact pool) _) fun d =>
    exact_last LocalVariableEntry.index Exact.readU2 fun e s _ x => ?_
  · rintro x seg ⟨⟨⟨⟨h, -⟩, -⟩, rfl⟩, -⟩; exact not_isUnqualified.mpr h
  · have := not_isUnqualified.mp hc
    cases x; simp [and_assoc]
    rintro _ _ rfl _ _; exact this

theorem readLocalVariableTypeEntry_exact {N : Nat} (pool : Pool) (i : Nat) :
    Exact N (readLocalVariableTypeEntry pool i) (LocalVariableTypeEnc pool) := by
  unfold readLocalVariableTypeEntry LocalVariableTypeEnc
  refine exact_cat LocalVariableTypeEntry.startPc Exact.readU2 fun a => exact_cat LocalVariableTypeEntry.length Exact.readU2 fun b =>
    exact_cat LocalVariableTypeEntry.name (Exact.mapErr (readCpUtf8_exact pool) _) fun c => exact_failIf ?_ fun hc =>
    exact_cat LocalVariableTypeEntry.signature (Exact.mapErr (readCpUtf8_exact pool) _) fun d =>
    exact_last LocalVariableTypeEntry.index Exact.readU2 fun e s _ x => ?_
  · rintro x seg ⟨⟨⟨⟨h, -⟩, -⟩, rfl⟩, -⟩; exact not_isUnqualified.mpr h
  · have := not_isUnqualified.mp hc
    cases x; simp [and_assoc]
    rintro _ _ rfl _ _; exact this

theorem readBootstrapMethodEntry_exact {N : Nat} (pool : Pool) (i : Nat) :
    Exact N (readBootstrapMethodEntry pool i) (BootstrapMethodEnc pool) := by
  unfold readBootstrapMethodEntry
  refine exact_start ?_
  refine exact_cat BootstrapMethodEntry.method (Exact.mapErr (readCpMethodhandle_exact pool) _) fun a =>
    exact_last BootstrapMethodEntry.arguments (Exact.readTable2 fun j => Exact.mapErr (readCpBootstrapArgument_exact pool) _) fun b s _ x => ?_
  cases x; simp [and_assoc]

theorem readMethodParameterEntry_exact {N : Nat} (pool : Pool) (i : Nat) :
    Exact N (readMethodParameterEntry pool i) (MethodParameterEnc pool) := by
  unfold readMethodParameterEntry MethodParameterEnc
  have key : ∀ o : Option Str, (o.any fun n => !isUnqualifiedName n) = false ↔ ∀ n, o = some n → UnqualifiedName n := by
    intro o
    cases o with
    | none => simp
    | some n => simp [← isUnqualifiedName_iff]
  refine exact_cat MethodParameterEntry.name (Exact.mapErr (readCpUtf8Opt_exact pool) _) fun c => exact_failIf ?_ fun hc => ?_
  · rintro x seg ⟨⟨h, rfl⟩, -⟩; exact (key _).mpr h
  · rw [P.bind_assoc]
    refine exact_last MethodParameterEntry.accessFlags (strict_exact _ _ _) fun e s _ x => ?_
    have := (key c).mp hc
    cases x; simp [and_assoc]
    rintro rfl _; exact this

/-! ## Modules -/

theorem readModuleRequire_exact {N : Nat} (pool : Pool) (i : Nat) : Exact N (readModuleRequire pool i) (RequireEnc pool) := by
  unfold readModuleRequire
  refine exact_start (exact_cat ModuleRequireEntry.name (Exact.mapErr (readCpModuleinfo_exact pool) _) fun a => ?_)
  rw [P.bind_assoc]
  refine exact_cat ModuleRequireEntry.flags (strict_exact _ _ _) fun b =>
    exact_last ModuleRequireEntry.version (Exact.mapErr (readCpUtf8Opt_exact pool) _) fun c s _ x => ?_
  cases x; simp [and_assoc]

theorem readModuleExports_exact {N : Nat} (pool : Pool) (i : Nat) : Exact N (readModuleExports pool i) (ExportsEnc pool) := by
  unfold readModuleExports
  refine exact_start (exact_cat ModuleExportsEntry.packageName (Exact.mapErr (readCpPackageinfo_exact pool) _) fun a => ?_)
  rw [P.bind_assoc]
  refine exact_cat ModuleExportsEntry.flags (strict_exact _ _ _) fun b =>
    exact_last ModuleExportsEntry.exportsTo (Exact.readTable2 fun j => Exact.mapErr (readCpModuleinfo_exact pool) _) fun c s _ x => ?_
  cases x; simp [and_assoc]

theorem readModuleOpens_exact {N : Nat} (pool : Pool) (i : Nat) : Exact N (readModuleOpens pool i) (OpensEnc pool) := by
  unfold readModuleOpens
  refine exact_start (exact_cat ModuleOpensEntry.packageName (Exact.mapErr (readCpPackageinfo_exact pool) _) fun a => ?_)
  rw [P.bind_assoc]
  refine exact_cat ModuleOpensEntry.flags (strict_exact _ _ _) fun b =>
    exact_last ModuleOpensEntry.opensTo (Exact.readTable2 fun j => Exact.mapErr (readCpModuleinfo_exact pool) _) fun c s _ x => ?_
  cases x; simp [and_assoc]

theorem readModuleProvides_exact {N : Nat} (pool : Pool) (i : Nat) : Exact N (readModuleProvides pool i) (ProvidesEnc pool) := by
  unfold readModuleProvides
  refine exact_start (exact_cat ModuleProvidesEntry.serviceInterfaceName (Exact.mapErr (readCpClassinfo_exact pool) _) fun a =>
    exact_last ModuleProvidesEntry.providesWith (Exact.readTable2 fun j => Exact.mapErr (readCpClassinfo_exact pool) _) fun c s _ x => ?_)
  cases x; simp [and_assoc]

theorem readModuleData_exact {N : Nat} (pool : Pool) : Exact N (readModuleData pool) (ModuleDataEnc pool) := by
  unfold readModuleData
  refine exact_start (exact_cat ModuleData.name (Exact.mapErr (readCpModuleinfo_exact pool) _) fun a => ?_)
  rw [P.bind_assoc]
  refine exact_cat ModuleData.accessFlags (strict_exact' _ _) fun b =>
    exact_cat ModuleData.version (Exact.mapErr (readCpUtf8Opt_exact pool) _) fun c =>
    exact_cat ModuleData.requires (Exact.readTable2 fun j => readModuleRequire_exact pool j) fun d =>
    exact_cat ModuleData.exports (Exact.readTable2 fun j => readModuleExports_exact pool j) fun e =>
    exact_cat ModuleData.opens (Exact.readTable2 fun j => readModuleOpens_exact pool j) fun f =>
    exact_cat ModuleData.uses (Exact.readTable2 fun j => Exact.mapErr (readCpClassinfo_exact pool) _) fun g =>
    exact_last ModuleData.provides (Exact.readTable2 fun j => readModuleProvides_exact pool j) fun h s _ x => ?_
  cases x; simp [and_assoc]

end Cafebabe
