import Verif.Spec.Slots
import Verif.Proofs.DataUnique
import Verif.Proofs.Renumber
/-!
# Proofs: reading the same bytes with two constant pools
-/

namespace Cafebabe
open Spec

/-- Strings of `F` and `G` at the start of the same bytes are equal, and then `Q` holds. -/
def Tw (F G : Lang) (Q : Prop) : Prop := ∀ (s t r r' : Bytes), F s → G t → s ++ r = t ++ r' → s = t ∧ Q

theorem Tw.mono {F G : Lang} {Q R : Prop} (h : Tw F G Q) (hq : Q → R) : Tw F G R := fun s t r r' hf hg he =>
  ⟨(h s t r r' hf hg he).1, hq (h s t r r' hf hg he).2⟩

theorem Tw.same {F G : Lang} {Q : Prop} (h : Tw F G Q) {s : Bytes} (hf : F s) (hg : G s) : Q := (h s s [] [] hf hg rfl).2

theorem Tw.cat {F F' G G' : Lang} {Q R : Prop} (h : Tw F F' Q) (h' : Tw G G' R) : Tw (F ⬝ G) (F' ⬝ G') (Q ∧ R) := by
  rintro _ _ r r' ⟨s1, s2, rfl, a1, a2⟩ ⟨t1, t2, rfl, b1, b2⟩ he
  rw [List.append_assoc, List.append_assoc] at he
  obtain ⟨rfl, q⟩ := h _ _ _ _ a1 b1 he
  obtain ⟨rfl, q'⟩ := h' _ _ _ _ a2 b2 (List.append_cancel_left he)
  exact ⟨rfl, q, q'⟩

/-- A first part that says nothing. -/
theorem Tw.after {F F' G G' : Lang} {Q R : Prop} (h : Tw F F' Q) (h' : Tw G G' R) : Tw (F ⬝ G) (F' ⬝ G') R := (h.cat h').mono And.right

theorem Tw.when {F G : Lang} {Q p q : Prop} (h : Tw F G Q) : Tw (Spec.when p F) (Spec.when q G) Q := fun s t r r' hf hg he => h s t r r' hf.2 hg.2 he

theorem Tw.unique {α : Type} {F : α → Lang} (h : Unique F) (a b : α) : Tw (F a) (F b) (a = b) := fun s t r r' hf hg he =>
  ⟨(h a b s t r r' hf hg he).2, (h a b s t r r' hf hg he).1⟩

theorem Tw.u2 (a b : UInt16) : Tw (lit (u2 a)) (lit (u2 b)) (a = b) := Tw.unique u2_unique a b

theorem Tw.bytes {a b : Bytes} (hl : a.length = b.length) : Tw (lit a) (lit b) (a = b) := by
  rintro _ _ r r' rfl rfl he
  have := (List.append_inj he hl).1
  exact ⟨this, this⟩

theorem Tw.ref {A B : Nat → Prop} : Tw (Spec.ref A) (Spec.ref B) (∃ i, A i ∧ B i) := by
  rintro _ _ r r' ⟨i, hi, rfl⟩ ⟨j, hj, rfl⟩ he
  obtain ⟨rfl, -⟩ := u2_split he
  exact ⟨rfl, _, hi, hj⟩

/-- References to the constants in the same slot. -/
theorem Tw.both {α : Type} {P : Pool × Pool} {F : Pool → Nat → α → Prop} {a b : α} :
    Tw (Spec.ref fun i => F P.1 i a) (Spec.ref fun i => F P.2 i b) (Both P F a b) := Tw.ref

theorem Tw.masked (m a b : UInt16) : Tw (maskedFlags m a) (maskedFlags m b) (a = b) := by
  rintro _ _ r r' ⟨i, hi, rfl⟩ ⟨j, hj, rfl⟩ he
  obtain ⟨rfl, -⟩ := u2_split he
  exact ⟨rfl, hi.trans hj.symm⟩

theorem Tw.strict (m a b : UInt16) : Tw (strictFlags m a) (strictFlags m b) (a = b) := by
  rintro _ _ r r' ⟨_, rfl⟩ ⟨_, rfl⟩ he
  obtain ⟨rfl, -⟩ := u2_split he
  exact ⟨rfl, rfl⟩

theorem Tw.seq {α : Type} {F G : α → Lang} {R : α → α → Prop} (h : ∀ a b, Tw (F a) (G b) (R a b)) :
    ∀ {l m : List α}, l.length = m.length → Tw (Spec.seq F l) (Spec.seq G m) (List.Forall₂ R l m)
  | [], [], _ => fun _ _ _ _ hs ht _ => ⟨Eq.trans hs (Eq.symm ht), .nil⟩
  | a :: l, b :: m, hl => ((h a b).cat (Tw.seq h (by simpa using hl))).mono fun ⟨x, y⟩ => .cons x y

theorem Tw.counted2 {F G : Lang} {Q : Prop} {n m : Nat} (h : n = m → Tw F G Q) : Tw (Spec.counted2 n F) (Spec.counted2 m G) Q := by
  rintro _ _ r r' ⟨c, hc, s1, s2, rfl, rfl, a⟩ ⟨d, hd, t1, t2, rfl, rfl, b⟩ he
  rw [List.append_assoc, List.append_assoc] at he
  obtain ⟨rfl, he'⟩ := u2_split he
  obtain ⟨rfl, q⟩ := h (hc.symm.trans hd) _ _ _ _ a b he'
  exact ⟨rfl, q⟩

theorem Tw.counted1 {F G : Lang} {Q : Prop} {n m : Nat} (h : n = m → Tw F G Q) : Tw (Spec.counted1 n F) (Spec.counted1 m G) Q := by
  rintro _ _ r r' ⟨c, hc, s1, s2, rfl, rfl, a⟩ ⟨d, hd, t1, t2, rfl, rfl, b⟩ he
  simp only [u1, List.cons_append, List.nil_append, List.cons.injEq] at he
  obtain ⟨rfl, he⟩ := he
  obtain ⟨rfl, q⟩ := h (hc.symm.trans hd) _ _ _ _ a b he
  exact ⟨rfl, q⟩

theorem Tw.table2 {α : Type} {F G : α → Lang} {R : α → α → Prop} (h : ∀ a b, Tw (F a) (G b) (R a b)) (l m : List α) :
    Tw (Spec.table2 F l) (Spec.table2 G m) (List.Forall₂ R l m) := Tw.counted2 fun hl => Tw.seq h hl

theorem Tw.table1 {α : Type} {F G : α → Lang} {R : α → α → Prop} (h : ∀ a b, Tw (F a) (G b) (R a b)) (l m : List α) :
    Tw (Spec.table1 F l) (Spec.table1 G m) (List.Forall₂ R l m) := Tw.counted1 fun hl => Tw.seq h hl

theorem Tw.sized4 {F G : Lang} {Q : Prop} (h : ∀ s, F s → G s → Q) : Tw (Spec.sized4 F) (Spec.sized4 G) Q := by
  rintro _ _ r r' ⟨n, s, hn, hf, rfl⟩ ⟨m, t, hm, hg, rfl⟩ he
  rw [List.append_assoc, List.append_assoc] at he
  obtain ⟨rfl, he'⟩ := u4_split he
  obtain ⟨rfl, -⟩ := List.append_inj he' (hn.symm.trans hm)
  exact ⟨rfl, h _ hf hg⟩

/-- Different first bytes. -/
theorem Tw.never {F G : Lang} {a b : UInt8} {Q : Prop} (hf : ∀ s, F s → s.head? = some a) (hg : ∀ s, G s → s.head? = some b) (hab : a ≠ b) :
    Tw F G Q := by
  intro s t r r' h h' he
  have h1 := hf s h
  have h2 := hg t h'
  cases s with
  | nil => cases h1
  | cons x s =>
    cases t with
    | nil => cases h2
    | cons y t =>
      simp only [List.cons_append, List.cons.injEq, List.head?_cons, Option.some.injEq] at he h1 h2
      exact absurd (h1.symm.trans (he.1.trans h2)) hab

theorem head_lit {a : UInt8} {l : Bytes} : ∀ s, lit (a :: l) s → s.head? = some a := by rintro _ rfl; rfl

theorem head_cat {F G : Lang} {a : UInt8} (h : ∀ s, F s → s.head? = some a) : ∀ s, (F ⬝ G) s → s.head? = some a := by
  rintro _ ⟨s, t, rfl, hf, -⟩
  have := h s hf
  cases s with
  | nil => cases this
  | cons x s => exact this

theorem Tw.or {F F' G G' : Lang} {Q : Prop} (h1 : Tw F G Q) (h2 : Tw F G' Q) (h3 : Tw F' G Q) (h4 : Tw F' G' Q) :
    Tw (fun s => F s ∨ F' s) (fun s => G s ∨ G' s) Q := by
  rintro s t r r' (hf | hf) (hg | hg) he
  · exact h1 s t r r' hf hg he
  · exact h2 s t r r' hf hg he
  · exact h3 s t r r' hf hg he
  · exact h4 s t r r' hf hg he

/-- First bytes from two disjoint sets. -/
theorem Tw.apart {F G : Lang} {A B : UInt8 → Prop} {Q : Prop} (hf : ∀ s, F s → ∃ a t, s = a :: t ∧ A a) (hg : ∀ s, G s → ∃ a t, s = a :: t ∧ B a)
    (hab : ∀ a, A a → B a → False) : Tw F G Q := by
  intro s t r r' h h' he
  obtain ⟨a, s, rfl, ha⟩ := hf s h
  obtain ⟨b, t, rfl, hb⟩ := hg t h'
  simp only [List.cons_append, List.cons.injEq] at he
  rw [← he.1] at hb
  exact absurd hb (hab a ha)

/-! ## Rows -/

section
variable {P : Pool × Pool}

theorem exception_two (a b : ExceptionTableEntry) : Tw (ExceptionEnc P.1 a) (ExceptionEnc P.2 b) (ExceptionPair P a b) :=
  (Tw.u2 _ _).cat ((Tw.u2 _ _).cat ((Tw.u2 _ _).cat Tw.both))

theorem innerClass_two (a b : InnerClassEntry) : Tw (InnerClassEnc P.1 a) (InnerClassEnc P.2 b) (InnerClassPair P a b) :=
  Tw.both.cat (Tw.both.cat (Tw.both.cat (Tw.masked _ _ _)))

theorem localVariable_two (a b : LocalVariableEntry) : Tw (LocalVariableEnc P.1 a) (LocalVariableEnc P.2 b) (LocalVariablePair P a b) :=
  ((Tw.u2 _ _).cat ((Tw.u2 _ _).cat (Tw.both.cat (Tw.both.cat (Tw.u2 _ _))))).when

theorem localVariableType_two (a b : LocalVariableTypeEntry) :
    Tw (LocalVariableTypeEnc P.1 a) (LocalVariableTypeEnc P.2 b) (LocalVariableTypePair P a b) :=
  ((Tw.u2 _ _).cat ((Tw.u2 _ _).cat (Tw.both.cat (Tw.both.cat (Tw.u2 _ _))))).when

theorem bootstrapMethod_two (a b : BootstrapMethodEntry) : Tw (BootstrapMethodEnc P.1 a) (BootstrapMethodEnc P.2 b) (BootstrapMethodPair P a b) :=
  Tw.both.cat (Tw.table2 (fun _ _ => Tw.both) _ _)

theorem methodParameter_two (a b : MethodParameterEntry) : Tw (MethodParameterEnc P.1 a) (MethodParameterEnc P.2 b) (MethodParameterPair P a b) :=
  (Tw.both.cat (Tw.strict _ _ _)).when

theorem require_two (a b : ModuleRequireEntry) : Tw (RequireEnc P.1 a) (RequireEnc P.2 b) (RequirePair P a b) :=
  Tw.both.cat ((Tw.strict _ _ _).cat Tw.both)

theorem exports_two (a b : ModuleExportsEntry) : Tw (ExportsEnc P.1 a) (ExportsEnc P.2 b) (ExportsPair P a b) :=
  Tw.both.cat ((Tw.strict _ _ _).cat (Tw.table2 (fun _ _ => Tw.both) _ _))

theorem opens_two (a b : ModuleOpensEntry) : Tw (OpensEnc P.1 a) (OpensEnc P.2 b) (OpensPair P a b) :=
  Tw.both.cat ((Tw.strict _ _ _).cat (Tw.table2 (fun _ _ => Tw.both) _ _))

theorem provides_two (a b : ModuleProvidesEntry) : Tw (ProvidesEnc P.1 a) (ProvidesEnc P.2 b) (ProvidesPair P a b) :=
  Tw.both.cat (Tw.table2 (fun _ _ => Tw.both) _ _)

theorem moduleData_two (a b : ModuleData) : Tw (ModuleDataEnc P.1 a) (ModuleDataEnc P.2 b) (ModulePair P a b) :=
  Tw.both.cat ((Tw.strict _ _ _).cat (Tw.both.cat ((Tw.table2 require_two _ _).cat ((Tw.table2 exports_two _ _).cat
    ((Tw.table2 opens_two _ _).cat ((Tw.table2 (fun _ _ => Tw.both) _ _).cat (Tw.table2 provides_two _ _)))))))

/-! ## Frames -/

theorem verification_two (a b : VerificationType) : Tw (VerificationEnc P.1 a) (VerificationEnc P.2 b) (VerificationPair P a b) := by
  cases a <;> cases b
  case object.object c d =>
    exact ((Tw.bytes rfl).after (Tw.both (F := ClassAt) (a := c) (b := d))).mono .object
  case uninitialized.uninitialized c d =>
    exact ((Tw.bytes rfl).after (Tw.u2 c d)).mono fun h => by subst h; exact .same (by simp)
  all_goals first
    | exact (Tw.bytes rfl).mono fun _ => .same (by simp)
    | exact Tw.never head_lit head_lit (by decide)
    | exact Tw.never (head_cat head_lit) head_lit (by decide)
    | exact Tw.never head_lit (head_cat head_lit) (by decide)
    | exact Tw.never (head_cat head_lit) (head_cat head_lit) (by decide)

/-- The form of frame that a first byte announces. -/
def frameNo (b : UInt8) : Nat :=
  if b < 64 ∨ b = 251 then 0 else if b < 128 ∨ b = 247 then 1 else if b ≤ 250 then 2 else if b ≤ 254 then 3 else 4

/-- The form of a frame. -/
def frameForm : StackMapEntry → Nat
  | .same _ => 0
  | .sameLocals1StackItem _ _ => 1
  | .chop _ _ => 2
  | .append _ _ => 3
  | .fullFrame _ _ _ => 4

theorem short16 {d : UInt16} (h : d < 64) : ∃ n : Nat, n < 64 ∧ d = UInt16.ofNat n := by
  rw [UInt16.lt_iff_toNat_lt] at h
  exact ⟨d.toNat, h, by simp⟩

theorem frame_head {pool : Pool} {f : StackMapEntry} {s : Bytes} (h : FrameEnc pool f s) : ∃ a t, s = a :: t ∧ frameNo a = frameForm f := by
  cases f with
  | same d =>
    rcases h with ⟨hd, rfl⟩ | rfl
    · obtain ⟨n, hn, rfl⟩ := short16 hd
      refine ⟨_, _, rfl, ?_⟩
      revert n; decide +kernel
    · exact ⟨_, _, rfl, rfl⟩
  | sameLocals1StackItem d v =>
    rcases h with ⟨hd, s, t, rfl, rfl, -⟩ | ⟨s, t, rfl, rfl, -⟩
    · obtain ⟨n, hn, rfl⟩ := short16 hd
      refine ⟨_, _, rfl, ?_⟩
      show _ = 1
      revert n; decide +kernel
    · exact ⟨_, _, rfl, rfl⟩
  | chop d k =>
    obtain ⟨h1, h2, rfl⟩ := h
    refine ⟨_, _, rfl, ?_⟩
    rw [UInt16.le_iff_toNat_le] at h1 h2
    have : k = 1 ∨ k = 2 ∨ k = 3 := by
      simp only [← UInt16.toNat_inj]
      simp at h1 h2 ⊢; omega
    rcases this with rfl | rfl | rfl <;> rfl
  | append d l =>
    obtain ⟨⟨h1, h2⟩, s, t, rfl, rfl, -⟩ := h
    refine ⟨_, _, rfl, ?_⟩
    have : l.length = 1 ∨ l.length = 2 ∨ l.length = 3 := by omega
    rcases this with h | h | h <;> rw [h] <;> rfl
  | fullFrame d l m =>
    obtain ⟨s, t, rfl, rfl, -⟩ := h
    exact ⟨_, _, rfl, rfl⟩

theorem short_eq {c d : UInt16} (hc : c < 64) (hd : d < 64) {k : UInt8} (h : k + c.toUInt8 = k + d.toUInt8) : c = d := by
  have hx : c.toUInt8 = d.toUInt8 := by
    have := congrArg (fun x => x - k) h
    simpa [UInt8.add_comm k] using this
  rw [UInt16.lt_iff_toNat_lt] at hc hd
  rw [← UInt8.toNat_inj] at hx
  rw [← UInt16.toNat_inj]
  simp at hx hc hd
  omega

theorem short_ne {c : UInt16} (hc : c < 64) {k m : UInt8} (hk : k ≤ 64) (hm : 240 ≤ m) : k + c.toUInt8 ≠ m := by
  intro h
  rw [UInt16.lt_iff_toNat_lt] at hc
  rw [UInt8.le_iff_toNat_le] at hk hm
  rw [← UInt8.toNat_inj] at h
  simp at hc h hk hm
  omega

theorem frame_two (a b : StackMapEntry) : Tw (FrameEnc P.1 a) (FrameEnc P.2 b) (FramePair P a b) := by
  by_cases hk : frameForm a = frameForm b
  case neg => exact Tw.apart (fun s h => frame_head h) (fun s h => frame_head h) fun c h1 h2 => hk (h1.symm.trans h2)
  cases a <;> cases b <;> try (cases hk; done)
  case same c d =>
    intro s t r r' h h' he
    rcases h with ⟨hc, rfl⟩ | rfl <;> rcases h' with ⟨hd, rfl⟩ | rfl
    · have hx := (List.cons.inj he).1
      obtain rfl := short_eq (k := 0) hc hd (by simpa using hx)
      exact ⟨rfl, .same⟩
    · exact absurd (List.cons.inj he).1 (by simpa using short_ne (k := 0) (m := 251) hc (by decide) (by decide))
    · exact absurd (List.cons.inj he).1.symm (by simpa using short_ne (k := 0) (m := 251) hd (by decide) (by decide))
    · obtain ⟨rfl, -⟩ := u2_split (List.cons.inj he).2
      exact ⟨rfl, .same⟩
  case sameLocals1StackItem c v d w =>
    intro s t r r' h h' he
    rcases h with ⟨hc, s1, s2, rfl, rfl, h⟩ | ⟨s1, s2, rfl, rfl, h⟩ <;> rcases h' with ⟨hd, t1, t2, rfl, rfl, h'⟩ | ⟨t1, t2, rfl, rfl, h'⟩
    · have hx := List.cons.inj he
      obtain rfl := short_eq hc hd hx.1
      obtain ⟨rfl, q⟩ := verification_two v w _ _ _ _ h h' hx.2
      exact ⟨rfl, .oneItem q⟩
    · exact absurd (List.cons.inj he).1 (short_ne hc (by decide) (by decide))
    · exact absurd (List.cons.inj he).1.symm (short_ne hd (by decide) (by decide))
    · have hx := (List.cons.inj he).2
      have hx : (u2 c ++ s2) ++ r = (u2 d ++ t2) ++ r' := hx
      rw [List.append_assoc, List.append_assoc] at hx
      obtain ⟨rfl, hy⟩ := u2_split hx
      obtain ⟨rfl, q⟩ := verification_two v w _ _ _ _ h h' hy
      exact ⟨rfl, .oneItem q⟩
  case chop c k d m =>
    rintro s t r r' ⟨h1, h2, rfl⟩ ⟨h3, h4, rfl⟩ he
    have hx := List.cons.inj he
    obtain ⟨rfl, -⟩ := u2_split hx.2
    have : k = m := by
      have hy := congrArg UInt8.toNat hx.1
      rw [UInt16.le_iff_toNat_le] at h1 h2 h3 h4
      rw [← UInt16.toNat_inj]
      have e1 : k.toUInt8.toNat = k.toNat := by simp at h2 ⊢; omega
      have e2 : m.toUInt8.toNat = m.toNat := by simp at h4 ⊢; omega
      simp only [UInt8.toNat_sub, e1, e2] at hy
      simp at h1 h2 h3 h4 hy
      omega
    subst this
    exact ⟨rfl, .chop⟩
  case append c l d m =>
    rintro s t r r' ⟨⟨h1, h2⟩, h⟩ ⟨⟨h3, h4⟩, h'⟩ he
    obtain ⟨s1, s2, rfl, rfl, h⟩ := h
    obtain ⟨t1, t2, rfl, rfl, h'⟩ := h'
    have hx := List.cons.inj he
    have hl : l.length = m.length := by
      have hy := congrArg UInt8.toNat hx.1
      simp at hy
      omega
    have hx := hx.2
    have hx : (u2 c ++ s2) ++ r = (u2 d ++ t2) ++ r' := hx
    rw [List.append_assoc, List.append_assoc] at hx
    obtain ⟨rfl, hy⟩ := u2_split hx
    obtain ⟨rfl, q⟩ := Tw.seq verification_two hl _ _ _ _ h h' hy
    rw [hl]
    exact ⟨rfl, .append q⟩
  case fullFrame c l m d l' m' =>
    refine ((Tw.bytes (a := [255] ++ u2 c) (b := [255] ++ u2 d) rfl).cat ((Tw.table2 verification_two l l').cat (Tw.table2 verification_two m m'))).mono ?_
    rintro ⟨hd, h1, h2⟩
    obtain rfl := u2_inj (List.cons.inj hd).2
    exact .full h1 h2

/-! ## Annotations -/

/-- The tag of an element value. -/
def valueTag : AnnotationElementValue → UInt8
  | .byteConstant _ => 66
  | .charConstant _ => 67
  | .doubleConstant _ => 68
  | .floatConstant _ => 70
  | .intConstant _ => 73
  | .longConstant _ => 74
  | .shortConstant _ => 83
  | .booleanConstant _ => 90
  | .stringConstant _ => 115
  | .enumConstant _ _ => 101
  | .classLiteral _ => 99
  | .annotationValue _ => 64
  | .arrayValue _ => 91

theorem value_head {pool : Pool} {v : AnnotationElementValue} : ∀ s, ElementValueEnc pool v s → s.head? = some (valueTag v) := by
  intro s h
  cases v <;> rw [ElementValueEnc] at h <;> exact head_cat head_lit s h

theorem value_never {pool pool' : Pool} {v w : AnnotationElementValue} {Q : Prop} (h : valueTag v ≠ valueTag w) :
    Tw (ElementValueEnc pool v) (ElementValueEnc pool' w) Q := Tw.never value_head value_head h

/-- A value that is not an annotation or an array. -/
theorem leaf_two (a b : AnnotationElementValue) (h1 : valueTag a ≠ 64) (h2 : valueTag a ≠ 91) :
    Tw (ElementValueEnc P.1 a) (ElementValueEnc P.2 b) (ElementValuePair P a b) := by
  by_cases hk : valueTag a = valueTag b
  case neg => exact value_never hk
  cases a <;> cases b <;> try (exfalso; revert hk; simp [valueTag]; done)
  all_goals (rw [ElementValueEnc, ElementValueEnc])
  case annotationValue => exact (h1 rfl).elim
  case arrayValue => exact (h2 rfl).elim
  case byteConstant => exact ((Tw.bytes rfl).after (Tw.both (F := IntegerAt))).mono fun h => .byteConstant h
  case charConstant => exact ((Tw.bytes rfl).after (Tw.both (F := IntegerAt))).mono fun h => .charConstant h
  case doubleConstant => exact ((Tw.bytes rfl).after (Tw.both (F := DoubleAt))).mono fun h => .doubleConstant h
  case floatConstant => exact ((Tw.bytes rfl).after (Tw.both (F := FloatAt))).mono fun h => .floatConstant h
  case intConstant => exact ((Tw.bytes rfl).after (Tw.both (F := IntegerAt))).mono fun h => .intConstant h
  case longConstant => exact ((Tw.bytes rfl).after (Tw.both (F := LongAt))).mono fun h => .longConstant h
  case shortConstant => exact ((Tw.bytes rfl).after (Tw.both (F := IntegerAt))).mono fun h => .shortConstant h
  case booleanConstant => exact ((Tw.bytes rfl).after (Tw.both (F := IntegerAt))).mono fun h => .booleanConstant h
  case stringConstant => exact ((Tw.bytes rfl).after (Tw.both (F := TextAt))).mono fun h => .stringConstant h
  case enumConstant => exact ((Tw.bytes rfl).after ((Tw.both (F := FieldDescriptorAt)).cat (Tw.both (F := TextAt)))).mono fun ⟨x, y⟩ => .enumConstant x y
  case classLiteral => exact ((Tw.bytes rfl).after Tw.ref).mono fun ⟨i, x, y⟩ => .classLiteral ⟨i, x.1, y.1⟩

mutual
theorem elementValue_two : ∀ a b : AnnotationElementValue, Tw (ElementValueEnc P.1 a) (ElementValueEnc P.2 b) (ElementValuePair P a b)
  | .byteConstant v, b => leaf_two (.byteConstant v) b (by simp [valueTag]) (by simp [valueTag])
  | .charConstant v, b => leaf_two (.charConstant v) b (by simp [valueTag]) (by simp [valueTag])
  | .doubleConstant v, b => leaf_two (.doubleConstant v) b (by simp [valueTag]) (by simp [valueTag])
  | .floatConstant v, b => leaf_two (.floatConstant v) b (by simp [valueTag]) (by simp [valueTag])
  | .intConstant v, b => leaf_two (.intConstant v) b (by simp [valueTag]) (by simp [valueTag])
  | .longConstant v, b => leaf_two (.longConstant v) b (by simp [valueTag]) (by simp [valueTag])
  | .shortConstant v, b => leaf_two (.shortConstant v) b (by simp [valueTag]) (by simp [valueTag])
  | .booleanConstant v, b => leaf_two (.booleanConstant v) b (by simp [valueTag]) (by simp [valueTag])
  | .stringConstant v, b => leaf_two (.stringConstant v) b (by simp [valueTag]) (by simp [valueTag])
  | .enumConstant v w, b => leaf_two (.enumConstant v w) b (by simp [valueTag]) (by simp [valueTag])
  | .classLiteral v, b => leaf_two (.classLiteral v) b (by simp [valueTag]) (by simp [valueTag])
  | .annotationValue a, b => by
    by_cases hk : valueTag (.annotationValue a) = valueTag b
    case neg => exact value_never hk
    cases b <;> try (exfalso; revert hk; simp [valueTag]; done)
    rw [ElementValueEnc, ElementValueEnc]
    exact ((Tw.bytes rfl).after (annotation_two a _)).mono fun h => .annotationValue h
  | .arrayValue a, b => by
    by_cases hk : valueTag (.arrayValue a) = valueTag b
    case neg => exact value_never hk
    cases b <;> try (exfalso; revert hk; simp [valueTag]; done)
    rw [ElementValueEnc, ElementValueEnc]
    exact ((Tw.bytes rfl).after (Tw.counted2 (elementValues_two a _))).mono fun h => .arrayValue h

theorem elementValues_two : ∀ l m : List AnnotationElementValue, l.length = m.length →
    Tw (ElementValuesEnc P.1 l) (ElementValuesEnc P.2 m) (ElementValuesPair P l m)
  | [], [], _ => by
    rw [ElementValuesEnc, ElementValuesEnc]
    exact (Tw.bytes rfl).mono fun _ => .nil
  | a :: l, b :: m, hl => by
    rw [ElementValuesEnc, ElementValuesEnc]
    exact ((elementValue_two a b).cat (elementValues_two l m (by simpa using hl))).mono fun ⟨h1, h2⟩ => .cons h1 h2

theorem annotation_two : ∀ a b : Annotation, Tw (AnnotationEnc P.1 a) (AnnotationEnc P.2 b) (AnnotationPair P a b)
  | ⟨d, l⟩, ⟨e, m⟩ => by
    rw [AnnotationEnc, AnnotationEnc]
    exact (Tw.both.cat (Tw.counted2 (elements_two l m))).mono fun ⟨h1, h2⟩ => .mk h1 h2

theorem elements_two : ∀ l m : List AnnotationElement, l.length = m.length → Tw (ElementsEnc P.1 l) (ElementsEnc P.2 m) (ElementsPair P l m)
  | [], [], _ => by
    rw [ElementsEnc, ElementsEnc]
    exact (Tw.bytes rfl).mono fun _ => .nil
  | ⟨a, v⟩ :: l, ⟨b, w⟩ :: m, hl => by
    rw [ElementsEnc, ElementsEnc]
    exact ((Tw.both.cat (elementValue_two v w)).cat (elements_two l m (by simpa using hl))).mono fun ⟨⟨h1, h2⟩, h3⟩ => .cons h1 h2 h3
end

theorem parameterAnnotation_two (a b : ParameterAnnotation) :
    Tw (ParameterAnnotationEnc P.1 a) (ParameterAnnotationEnc P.2 b) (ParameterAnnotationPair P a b) := Tw.table2 annotation_two _ _


theorem typeAnnotation_two (a b : TypeAnnotation) : Tw (TypeAnnotationEnc P.1 a) (TypeAnnotationEnc P.2 b) (TypeAnnotationPair P a b) :=
  (Tw.unique (F := TargetEnc) (Exact.unique fun _ => ⟨_, exact_tag (fun _ _ => target_ne_nil) fun v => readTypeAnnotationTarget_exact 0 v⟩) _ _).cat
    ((Tw.unique (F := table1 PathEnc) (Exact.unique fun _ => ⟨_, Exact.readTable1 fun j => readTargetPathEntry_exact 0 j⟩) _ _).cat (annotation_two _ _))

/-! ## Code -/

theorem insn_unique (checks : Bool) (pool : Pool) (pos : Nat) : Unique (InsnEnc checks pool pos) := by
  intro a b s t r r' ha hb he
  have hx := readOpcode_exact checks pool pos (List.replicate pos 0 ++ (s ++ r)) (by simp)
  have h1 := (hx a (pos + s.length)).mpr ⟨s, r, by simp, ha, rfl⟩
  have h2 := (hx b (pos + t.length)).mpr ⟨t, r', by simp [he], hb, rfl⟩
  rw [h1, Res.ok.injEq, Prod.mk.injEq] at h2
  exact ⟨h2.1, List.append_inj_left he (by omega)⟩

/-- The instructions that refer to constants. -/
inductive RefOp : Opcode → Prop where
  | ldc (l) : RefOp (.ldc l)
  | ldcW (l) : RefOp (.ldcW l)
  | ldc2W (l) : RefOp (.ldc2W l)
  | getstatic (m) : RefOp (.getstatic m)
  | putstatic (m) : RefOp (.putstatic m)
  | getfield (m) : RefOp (.getfield m)
  | putfield (m) : RefOp (.putfield m)
  | invokevirtual (m) : RefOp (.invokevirtual m)
  | invokespecial (m) : RefOp (.invokespecial m)
  | invokestatic (m) : RefOp (.invokestatic m)
  | invokeinterface (m) (k) : RefOp (.invokeinterface m k)
  | invokedynamic (d) : RefOp (.invokedynamic d)
  | new (s) : RefOp (.new s)
  | anewarray (t) : RefOp (.anewarray t)
  | checkcast (t) : RefOp (.checkcast t)
  | instanceof (t) : RefOp (.instanceof t)
  | multianewarray (t) (k) : RefOp (.multianewarray t k)

theorem refOp {op : Opcode} (h : constantFree op = false) : RefOp op := by
  cases op with
  | ldc l => exact .ldc l
  | ldcW l => exact .ldcW l
  | ldc2W l => exact .ldc2W l
  | getstatic m => exact .getstatic m
  | putstatic m => exact .putstatic m
  | getfield m => exact .getfield m
  | putfield m => exact .putfield m
  | invokevirtual m => exact .invokevirtual m
  | invokespecial m => exact .invokespecial m
  | invokestatic m => exact .invokestatic m
  | invokeinterface m k => exact .invokeinterface m k
  | invokedynamic d => exact .invokedynamic d
  | new s => exact .new s
  | anewarray t => exact .anewarray t
  | checkcast t => exact .checkcast t
  | instanceof t => exact .instanceof t
  | multianewarray t k => exact .multianewarray t k
  | _ => cases h

/-- The opcode of an instruction that refers to a constant. -/
def refByte : Opcode → UInt8
  | .ldc _ => 0x12
  | .ldcW _ => 0x13
  | .ldc2W _ => 0x14
  | .getstatic _ => 0xb2
  | .putstatic _ => 0xb3
  | .getfield _ => 0xb4
  | .putfield _ => 0xb5
  | .invokevirtual _ => 0xb6
  | .invokespecial _ => 0xb7
  | .invokestatic _ => 0xb8
  | .invokeinterface _ _ => 0xb9
  | .invokedynamic _ => 0xba
  | .new _ => 0xbb
  | .anewarray _ => 0xbd
  | .checkcast _ => 0xc0
  | .instanceof _ => 0xc1
  | .multianewarray _ _ => 0xc5
  | _ => 0

theorem ref_head {checks : Bool} {pool : Pool} {pos : Nat} {op : Opcode} (h : RefOp op) : ∀ s, InsnEnc checks pool pos op s → s.head? = some (refByte op) := by
  cases h with
  | ldc l => rintro _ ⟨i, -, rfl⟩; rfl
  | _ => exact head_cat head_lit

theorem free_enc {checks : Bool} {pool pool' : Pool} {pos : Nat} {op : Opcode} (h : constantFree op = true) :
    InsnEnc checks pool pos op = InsnEnc checks pool' pos op := by
  cases op with
  | ldc l => cases h
  | ldcW l => cases h
  | ldc2W l => cases h
  | getstatic m => cases h
  | putstatic m => cases h
  | getfield m => cases h
  | putfield m => cases h
  | invokevirtual m => cases h
  | invokespecial m => cases h
  | invokestatic m => cases h
  | invokeinterface m k => cases h
  | invokedynamic d => cases h
  | new s => cases h
  | anewarray t => cases h
  | checkcast t => cases h
  | instanceof t => cases h
  | multianewarray t k => cases h
  | _ => rfl

theorem insn_two (checks : Bool) (pos : Nat) (a b : Opcode) : Tw (InsnEnc checks P.1 pos a) (InsnEnc checks P.2 pos b) (OpcodePair P a b) := by
  cases ha : constantFree a with
  | true =>
    rw [free_enc (pool' := P.2) ha]
    exact (Tw.unique (insn_unique checks P.2 pos) a b).mono fun h => h ▸ .same ha
  | false =>
    cases hb : constantFree b with
    | true =>
      rw [free_enc (pool := P.2) (pool' := P.1) hb]
      exact (Tw.unique (insn_unique checks P.1 pos) a b).mono fun h => h ▸ .same (h ▸ hb)
    | false =>
      have hra := refOp ha
      have hrb := refOp hb
      by_cases hk : refByte a = refByte b
      case neg => exact Tw.never (ref_head hra) (ref_head hrb) hk
      cases hra <;> cases hrb <;> try (exfalso; revert hk; simp [refByte]; done)
      case ldc x y =>
        rintro _ _ r r' ⟨i, hi, rfl⟩ ⟨j, hj, rfl⟩ he
        simp only [u1, List.cons_append, List.nil_append, List.cons.injEq, true_and] at he
        obtain ⟨rfl, -⟩ := he
        exact ⟨rfl, .ldc ⟨_, hi, hj⟩⟩
      case ldcW => exact ((Tw.bytes rfl).after (Tw.both (F := LoadableAt))).mono fun h => .ldcW h
      case ldc2W => exact ((Tw.bytes rfl).after (Tw.both (F := LoadableAt))).mono fun h => .ldc2W h
      case getstatic => exact ((Tw.bytes rfl).after (Tw.both (F := FieldRefAt))).mono fun h => .getstatic h
      case putstatic => exact ((Tw.bytes rfl).after (Tw.both (F := FieldRefAt))).mono fun h => .putstatic h
      case getfield => exact ((Tw.bytes rfl).after (Tw.both (F := FieldRefAt))).mono fun h => .getfield h
      case putfield => exact ((Tw.bytes rfl).after (Tw.both (F := FieldRefAt))).mono fun h => .putfield h
      case invokevirtual => exact ((Tw.bytes rfl).after (Tw.both (F := MethodRefAt))).mono fun h => .invokevirtual h
      case invokespecial => exact ((Tw.bytes rfl).after (Tw.both (F := AnyMethodAt))).mono fun h => .invokespecial h
      case invokestatic => exact ((Tw.bytes rfl).after (Tw.both (F := AnyMethodAt))).mono fun h => .invokestatic h
      case invokeinterface x k y m =>
        refine ((Tw.bytes rfl).after ((Tw.both (F := InterfaceMethodRefAt)).cat (Tw.bytes (a := [k, 0]) (b := [m, 0]) rfl))).mono ?_
        rintro ⟨h1, h2⟩
        cases h2
        exact .invokeinterface h1
      case invokedynamic => exact ((Tw.bytes rfl).after ((Tw.both (F := InvokeDynamicAt)).cat (Tw.bytes rfl))).mono fun h => .invokedynamic h.1
      case new => exact ((Tw.bytes rfl).after (Tw.both (F := ClassAt))).mono fun h => .new h
      case anewarray => exact ((Tw.bytes rfl).after (Tw.both (F := ObjectTypeAt))).mono fun h => .anewarray h
      case checkcast => exact ((Tw.bytes rfl).after (Tw.both (F := ObjectTypeAt))).mono fun h => .checkcast h
      case instanceof => exact ((Tw.bytes rfl).after (Tw.both (F := ObjectTypeAt))).mono fun h => .instanceof h
      case multianewarray x k y m =>
        refine ((Tw.bytes rfl).after ((Tw.both (F := ObjectTypeAt)).cat (Tw.bytes (a := [k]) (b := [m]) rfl))).mono ?_
        rintro ⟨h1, h2⟩
        cases h2
        exact .multianewarray h1

theorem insns_two (checks : Bool) {pos : Nat} : ∀ {l m : List (Nat × Opcode)} {s : Bytes}, InsnsEnc checks P.1 pos l s → InsnsEnc checks P.2 pos m s →
    List.Forall₂ (fun x y => x.1 = y.1 ∧ OpcodePair P x.2 y.2) l m := by
  intro l m s h
  induction h generalizing m with
  | nil pos =>
    intro h'
    generalize hs : ([] : Bytes) = s at h'
    cases h' with
    | nil => exact .nil
    | cons h1 h2 =>
      have := insnEnc_ne_nil h1
      simp_all
  | @cons pos op ops s t h1 h2 ih =>
    intro h'
    generalize hs : s ++ t = u at h'
    cases h' with
    | nil =>
      have := insnEnc_ne_nil h1
      simp_all
    | @cons _ op' ops' s' t' h1' h2' =>
      obtain ⟨rfl, q⟩ := insn_two checks pos op op' _ _ _ _ h1 h1' hs
      obtain rfl := List.append_cancel_left hs
      exact .cons ⟨rfl, q⟩ (ih h2')

theorem bytecode_two {o : Opts} {a b : Option ByteCode} {code : Bytes} (h : BytecodeField o P.1 a code) (h' : BytecodeField o P.2 b code) :
    BytecodePair P a b := by
  cases a <;> cases b <;> simp only [BytecodeField] at h h'
  · exact .none
  · rw [h] at h'; cases h'.1
  · rw [h'] at h; cases h.1
  · exact .some (insns_two _ h.2.1 h'.2.1)



/-! ## Attributes -/

theorem kinds_two {o : Opts} {a b : Str} (hn : a = b ∨ a ∉ predefinedNames ∧ b ∉ predefinedNames) {d e : AttributeData} {s : Bytes}
    (h : DataEnc o P.1 a d s) (h' : DataEnc o P.2 b e s) : dataKind d = dataKind e := by
  rw [← dataEnc_kind h, ← dataEnc_kind h']
  rcases hn with rfl | ⟨h1, h2⟩
  · rfl
  · rw [(attrKindOf_iff a .other).mpr (.inr ⟨rfl, h1⟩), (attrKindOf_iff b .other).mpr (.inr ⟨rfl, h2⟩)]

/-- Attributes other than Code and Record. -/
theorem dataLeaf_two {o : Opts} {a b : Str} {d e : AttributeData} {s : Bytes} (hk : dataKind d = dataKind e) (h1 : dataKind d ≠ .code) (h2 : dataKind d ≠ .record)
    (h : DataEnc o P.1 a d s) (h' : DataEnc o P.2 b e s) : DataPair P d e := by
  cases d <;> cases e <;> try (cases hk; done)
  case code => exact (h1 rfl).elim
  case record => exact (h2 rfl).elim
  all_goals (rw [DataEnc] at h h'; replace h := h.2; replace h' := h'.2)
  case enclosingMethod => exact (fun ⟨x, y⟩ => .enclosingMethod x y) (((Tw.both (F := ClassAt)).cat (Tw.both (F := OptAt NameAndTypeAt))).same h h')
  case synthetic => exact .synthetic
  case deprecated => exact .deprecated
  case sourceDebugExtension =>
    obtain rfl := Option.some.inj (Eq.trans (Eq.symm h) h')
    exact .sourceDebugExtension
  case lineNumberTable =>
    obtain rfl := (lineNumber_unique.table2.split h h' (r := []) (r' := []) rfl).1
    exact .lineNumberTable
  case other =>
    obtain rfl := Eq.trans (Eq.symm h) h'
    exact .other
  case constantValue => exact .constantValue (Tw.same (Tw.both (F := LiteralAt)) h h')
  case stackMapTable => exact .stackMapTable (Tw.same (Tw.table2 frame_two _ _) h h')
  case exceptions => exact .exceptions (Tw.same (Tw.table2 (fun _ _ => Tw.both (F := ClassAt)) _ _) h h')
  case innerClasses => exact .innerClasses (Tw.same (Tw.table2 innerClass_two _ _) h h')
  case signature => exact .signature (Tw.same (Tw.both (F := TextAt)) h h')
  case sourceFile => exact .sourceFile (Tw.same (Tw.both (F := TextAt)) h h')
  case localVariableTable => exact .localVariableTable (Tw.same (Tw.table2 localVariable_two _ _) h h')
  case localVariableTypeTable => exact .localVariableTypeTable (Tw.same (Tw.table2 localVariableType_two _ _) h h')
  case runtimeVisibleAnnotations => exact .runtimeVisibleAnnotations (Tw.same (Tw.table2 annotation_two _ _) h h')
  case runtimeInvisibleAnnotations => exact .runtimeInvisibleAnnotations (Tw.same (Tw.table2 annotation_two _ _) h h')
  case runtimeVisibleParameterAnnotations => exact .runtimeVisibleParameterAnnotations (Tw.same (Tw.table1 parameterAnnotation_two _ _) h h')
  case runtimeInvisibleParameterAnnotations => exact .runtimeInvisibleParameterAnnotations (Tw.same (Tw.table1 parameterAnnotation_two _ _) h h')
  case runtimeVisibleTypeAnnotations => exact .runtimeVisibleTypeAnnotations (Tw.same (Tw.table2 typeAnnotation_two _ _) h h')
  case runtimeInvisibleTypeAnnotations => exact .runtimeInvisibleTypeAnnotations (Tw.same (Tw.table2 typeAnnotation_two _ _) h h')
  case annotationDefault => exact .annotationDefault (Tw.same (elementValue_two _ _) h h')
  case bootstrapMethods => exact .bootstrapMethods (Tw.same (Tw.table2 bootstrapMethod_two _ _) h h')
  case methodParameters => exact .methodParameters (Tw.same (Tw.table1 methodParameter_two _ _) h h')
  case moduleAttr => exact .moduleAttr (Tw.same (moduleData_two _ _) h h')
  case modulePackages => exact .modulePackages (Tw.same (Tw.table2 (fun _ _ => Tw.both (F := PackageAt)) _ _) h h')
  case moduleMainClass => exact .moduleMainClass (Tw.same (Tw.both (F := ClassAt)) h h')
  case nestHost => exact .nestHost (Tw.same (Tw.both (F := ClassAt)) h h')
  case nestMembers => exact .nestMembers (Tw.same (Tw.table2 (fun _ _ => Tw.both (F := ClassAt)) _ _) h h')
  case permittedSubclasses => exact .permittedSubclasses (Tw.same (Tw.table2 (fun _ _ => Tw.both (F := ClassAt)) _ _) h h')

theorem name_two (S : SameAttributeNames P) {a b : Str} (h : Both P TextAt a b) : a = b ∨ a ∉ predefinedNames ∧ b ∉ predefinedNames := by
  by_cases ha : a ∈ predefinedNames
  · exact .inl (S a b h (.inl ha))
  · by_cases hb : b ∈ predefinedNames
    · exact .inl (S a b h (.inr hb))
    · exact .inr ⟨ha, hb⟩

mutual
theorem code_two (S : SameAttributeNames P) (o : Opts) : ∀ a b : CodeData, Tw (CodeEnc o P.1 a) (CodeEnc o P.2 b) (CodePair P a b)
  | ⟨ms, ml, code, bc, t, l⟩, ⟨ms', ml', code', bc', t', l'⟩ => by
    rw [CodeEnc, CodeEnc]
    rintro x y r r' ⟨g, h⟩ ⟨g', h'⟩ he
    obtain ⟨hs, rfl, rfl, rfl, q1, q2⟩ := ((Tw.u2 ms ms').cat ((Tw.u2 ml ml').cat ((Tw.sized4 (F := lit code) (G := lit code') (Q := code = code')
      fun s h1 h2 => Eq.trans (Eq.symm h1) h2).cat ((Tw.table2 exception_two t t').cat (Tw.counted2 (attrs_two S o l l')))))) _ _ _ _ h h' he
    exact ⟨hs, .mk (bytecode_two g g') q1 q2⟩

theorem components_two (S : SameAttributeNames P) (o : Opts) : ∀ l m : List RecordComponentEntry, l.length = m.length →
    Tw (ComponentsEnc o P.1 l) (ComponentsEnc o P.2 m) (ComponentsPair P l m)
  | [], [], _ => by
    rw [ComponentsEnc, ComponentsEnc]
    exact (Tw.bytes rfl).mono fun _ => .nil
  | ⟨a, d, l⟩ :: cs, ⟨b, e, m⟩ :: ds, hl => by
    rw [ComponentsEnc, ComponentsEnc, ComponentEnc, ComponentEnc]
    exact (((Tw.both (F := TextAt)).cat ((Tw.both (F := FieldDescriptorAt)).cat (Tw.counted2 (attrs_two S o l m)))).when.cat
      (components_two S o cs ds (by simpa using hl))).mono fun ⟨⟨h1, h2, h3⟩, h4⟩ => .cons h1 h2 h3 h4

theorem data_two (S : SameAttributeNames P) (o : Opts) {a b : Str} (hn : a = b ∨ a ∉ predefinedNames ∧ b ∉ predefinedNames) :
    ∀ (d e : AttributeData) {s : Bytes}, DataEnc o P.1 a d s → DataEnc o P.2 b e s → DataPair P d e
  | .constantValue _, _, _, h, h' => dataLeaf_two (kinds_two hn h h') (by simp [dataKind]) (by simp [dataKind]) h h'
  | .code c, e, s, h, h' => by
    have hk := kinds_two hn h h'
    cases e <;> try (cases hk; done)
    rw [DataEnc] at h h'
    exact .code ((code_two S o c _).same h.2 h'.2)
  | .stackMapTable _, _, _, h, h' => dataLeaf_two (kinds_two hn h h') (by simp [dataKind]) (by simp [dataKind]) h h'
  | .exceptions _, _, _, h, h' => dataLeaf_two (kinds_two hn h h') (by simp [dataKind]) (by simp [dataKind]) h h'
  | .innerClasses _, _, _, h, h' => dataLeaf_two (kinds_two hn h h') (by simp [dataKind]) (by simp [dataKind]) h h'
  | .enclosingMethod _ _, _, _, h, h' => dataLeaf_two (kinds_two hn h h') (by simp [dataKind]) (by simp [dataKind]) h h'
  | .synthetic, _, _, h, h' => dataLeaf_two (kinds_two hn h h') (by simp [dataKind]) (by simp [dataKind]) h h'
  | .signature _, _, _, h, h' => dataLeaf_two (kinds_two hn h h') (by simp [dataKind]) (by simp [dataKind]) h h'
  | .sourceFile _, _, _, h, h' => dataLeaf_two (kinds_two hn h h') (by simp [dataKind]) (by simp [dataKind]) h h'
  | .sourceDebugExtension _, _, _, h, h' => dataLeaf_two (kinds_two hn h h') (by simp [dataKind]) (by simp [dataKind]) h h'
  | .lineNumberTable _, _, _, h, h' => dataLeaf_two (kinds_two hn h h') (by simp [dataKind]) (by simp [dataKind]) h h'
  | .localVariableTable _, _, _, h, h' => dataLeaf_two (kinds_two hn h h') (by simp [dataKind]) (by simp [dataKind]) h h'
  | .localVariableTypeTable _, _, _, h, h' => dataLeaf_two (kinds_two hn h h') (by simp [dataKind]) (by simp [dataKind]) h h'
  | .deprecated, _, _, h, h' => dataLeaf_two (kinds_two hn h h') (by simp [dataKind]) (by simp [dataKind]) h h'
  | .runtimeVisibleAnnotations _, _, _, h, h' => dataLeaf_two (kinds_two hn h h') (by simp [dataKind]) (by simp [dataKind]) h h'
  | .runtimeInvisibleAnnotations _, _, _, h, h' => dataLeaf_two (kinds_two hn h h') (by simp [dataKind]) (by simp [dataKind]) h h'
  | .runtimeVisibleParameterAnnotations _, _, _, h, h' => dataLeaf_two (kinds_two hn h h') (by simp [dataKind]) (by simp [dataKind]) h h'
  | .runtimeInvisibleParameterAnnotations _, _, _, h, h' => dataLeaf_two (kinds_two hn h h') (by simp [dataKind]) (by simp [dataKind]) h h'
  | .runtimeVisibleTypeAnnotations _, _, _, h, h' => dataLeaf_two (kinds_two hn h h') (by simp [dataKind]) (by simp [dataKind]) h h'
  | .runtimeInvisibleTypeAnnotations _, _, _, h, h' => dataLeaf_two (kinds_two hn h h') (by simp [dataKind]) (by simp [dataKind]) h h'
  | .annotationDefault _, _, _, h, h' => dataLeaf_two (kinds_two hn h h') (by simp [dataKind]) (by simp [dataKind]) h h'
  | .bootstrapMethods _, _, _, h, h' => dataLeaf_two (kinds_two hn h h') (by simp [dataKind]) (by simp [dataKind]) h h'
  | .methodParameters _, _, _, h, h' => dataLeaf_two (kinds_two hn h h') (by simp [dataKind]) (by simp [dataKind]) h h'
  | .moduleAttr _, _, _, h, h' => dataLeaf_two (kinds_two hn h h') (by simp [dataKind]) (by simp [dataKind]) h h'
  | .modulePackages _, _, _, h, h' => dataLeaf_two (kinds_two hn h h') (by simp [dataKind]) (by simp [dataKind]) h h'
  | .moduleMainClass _, _, _, h, h' => dataLeaf_two (kinds_two hn h h') (by simp [dataKind]) (by simp [dataKind]) h h'
  | .nestHost _, _, _, h, h' => dataLeaf_two (kinds_two hn h h') (by simp [dataKind]) (by simp [dataKind]) h h'
  | .nestMembers _, _, _, h, h' => dataLeaf_two (kinds_two hn h h') (by simp [dataKind]) (by simp [dataKind]) h h'
  | .permittedSubclasses _, _, _, h, h' => dataLeaf_two (kinds_two hn h h') (by simp [dataKind]) (by simp [dataKind]) h h'
  | .record l, e, s, h, h' => by
    have hk := kinds_two hn h h'
    cases e <;> try (cases hk; done)
    rw [DataEnc] at h h'
    exact .record ((Tw.counted2 (components_two S o l _)).same h.2 h'.2)
  | .other _, _, _, h, h' => dataLeaf_two (kinds_two hn h h') (by simp [dataKind]) (by simp [dataKind]) h h'

theorem attrs_two (S : SameAttributeNames P) (o : Opts) : ∀ l m : List AttributeInfo, l.length = m.length →
    Tw (AttrsEnc o P.1 l) (AttrsEnc o P.2 m) (AttrsPair P l m)
  | [], [], _ => by
    rw [AttrsEnc, AttrsEnc]
    exact (Tw.bytes rfl).mono fun _ => .nil
  | ⟨a, d⟩ :: l, ⟨b, e⟩ :: m, hl => by
    rw [AttrsEnc, AttrsEnc, AttrEnc, AttrEnc]
    refine Tw.mono (Q := (Both P TextAt a b ∧ DataPair P d e) ∧ AttrsPair P l m) ?_ fun ⟨⟨h1, h2⟩, h3⟩ => .cons h1 h2 h3
    refine Tw.cat ?_ (attrs_two S o l m (by simpa using hl))
    rintro _ _ r r' ⟨s1, s2, rfl, a1, a2⟩ ⟨t1, t2, rfl, b1, b2⟩ he
    rw [List.append_assoc, List.append_assoc] at he
    obtain ⟨rfl, q⟩ := (Tw.both (P := P) (F := TextAt)) _ _ _ _ a1 b1 he
    obtain ⟨rfl, q'⟩ := Tw.sized4 (fun s => data_two S o (name_two S q) d e) _ _ _ _ a2 b2 (List.append_cancel_left he)
    exact ⟨rfl, q, q'⟩
end

/-! ## The class -/

theorem attributes_two (S : SameAttributeNames P) (o : Opts) (l m : List AttributeInfo) :
    Tw (AttributesEnc o P.1 l) (AttributesEnc o P.2 m) (AttrsPair P l m) := by
  unfold AttributesEnc table2
  rw [← attrsEnc_eq, ← attrsEnc_eq]
  exact Tw.counted2 (attrs_two S o l m)

theorem field_two (S : SameAttributeNames P) (o : Opts) (a b : FieldInfo) : Tw (FieldEnc o P.1 a) (FieldEnc o P.2 b) (FieldPair P a b) :=
  ((Tw.masked _ _ _).cat (Tw.both.cat (Tw.both.cat (attributes_two S o _ _)))).when

theorem method_two (S : SameAttributeNames P) (o : Opts) {p q : Prop} {v w : UInt16} (a b : MethodInfo) :
    Tw (MethodEnc o P.1 p v a) (MethodEnc o P.2 q w b) (MethodPair P a b) :=
  ((Tw.masked _ _ _).cat (Tw.both.cat (Tw.both.cat (attributes_two S o _ _)))).when


end
end Cafebabe
