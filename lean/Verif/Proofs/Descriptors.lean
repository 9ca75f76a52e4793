import Verif.Model.Descriptors
import Verif.Proofs.Names
/-!
# Proofs: descriptor parsers decide the descriptor grammars
-/

namespace Cafebabe
open Spec

/-- `r` returns `a` exactly when `S a`, and otherwise returns an error: it neither panics nor diverges. -/
def Decides {α : Type} (r : Res α) (S : α → Prop) : Prop :=
  (∀ a, r = .ok a ↔ S a) ∧ ((∃ a, r = .ok a) ∨ ∃ e, r = .err e)

theorem Decides.of_ok {α : Type} {S : α → Prop} {a : α} (h : S a) (hu : ∀ b, S b → b = a) : Decides (.ok a) S :=
  ⟨fun b => ⟨fun h' => by injection h' with h'; exact h' ▸ h, fun h' => by rw [hu b h']⟩, Or.inl ⟨a, rfl⟩⟩

theorem Decides.of_err {α : Type} {S : α → Prop} {e : ParseError} (h : ∀ a, ¬ S a) : Decides (.err e) S :=
  ⟨fun b => ⟨fun h' => (by cases h'), fun h' => absurd h' (h b)⟩, Or.inr ⟨e, rfl⟩⟩

theorem Decides.congr {α : Type} {r : Res α} {S T : α → Prop} (h : Decides r S) (hST : ∀ a, S a ↔ T a) : Decides r T :=
  ⟨fun a => (h.1 a).trans (hST a), h.2⟩

theorem Decides.bind {α β : Type} {r : Res α} {f : α → Res β} {S : α → Prop} {T : β → Prop} (h : Decides r S)
    (hf : ∀ a, S a → Decides (f a) T) (hT : ∀ b, T b → ∃ a, S a) : Decides (r >>= f) T := by
  rcases h.2 with ⟨a, rfl⟩ | ⟨e, rfl⟩
  · exact hf a ((h.1 a).mp rfl)
  · refine Decides.of_err (e := e) fun b hb => ?_
    obtain ⟨a, ha⟩ := hT b hb
    have := (h.1 a).mpr ha
    cases this

/-! ## Slicing -/

theorem strLen_append (a b : Str) : strLen (a ++ b) = strLen a + strLen b := by
  induction a with
  | nil => simp [strLen]
  | cons c a ih => simp [strLen, ih]; omega

theorem utf8Size_pos (c : Char) : 0 < c.utf8Size := Char.utf8Size_pos c

theorem strLen_eq_zero {a : Str} (h : strLen a = 0) : a = [] := by
  cases a with
  | nil => rfl
  | cons c a => have := utf8Size_pos c; simp [strLen] at h; omega

theorem strFrom_zero (s : Str) : strFrom s 0 = .ok s := by cases s <;> rfl

theorem strFrom_append (a b : Str) : strFrom (a ++ b) (strLen a) = .ok b := by
  induction a with
  | nil => exact strFrom_zero b
  | cons c a ih =>
    have hc := utf8Size_pos c
    rw [List.cons_append]
    show strFrom (c :: (a ++ b)) (c.utf8Size + strLen a) = _
    obtain ⟨n, hn⟩ : ∃ n, c.utf8Size + strLen a = n + 1 := ⟨c.utf8Size + strLen a - 1, by omega⟩
    rw [hn, strFrom, if_pos (by omega)]
    rw [show n + 1 - c.utf8Size = strLen a by omega, ih]

theorem strTo_zero (s : Str) : strTo s 0 = .ok [] := by cases s <;> rfl

theorem strTo_append (a b : Str) : strTo (a ++ b) (strLen a) = .ok a := by
  induction a with
  | nil => exact strTo_zero b
  | cons c a ih =>
    have hc := utf8Size_pos c
    rw [List.cons_append]
    show strTo (c :: (a ++ b)) (c.utf8Size + strLen a) = _
    obtain ⟨n, hn⟩ : ∃ n, c.utf8Size + strLen a = n + 1 := ⟨c.utf8Size + strLen a - 1, by omega⟩
    rw [hn, strTo, if_pos (by omega), show n + 1 - c.utf8Size = strLen a by omega, ih]
    rfl

theorem strSlice_append (a b c : Str) : strSlice (a ++ (b ++ c)) (strLen a) (strLen a + strLen b) = .ok b := by
  unfold strSlice
  rw [if_pos (by omega), strFrom_append]
  show strTo (b ++ c) (strLen a + strLen b - strLen a) = _
  rw [show strLen a + strLen b - strLen a = strLen b by omega, strTo_append]

/-! ## `as_bytes` -/

theorem length_utf8EncodeChar (c : Char) : (String.utf8EncodeChar c).length = c.utf8Size := String.length_utf8EncodeChar c

theorem length_asBytes (s : Str) : (asBytes s).length = strLen s := by
  induction s with
  | nil => rfl
  | cons c s ih => simp [asBytes, strLen] at ih ⊢; rw [ih]

theorem asBytes_append (a b : Str) : asBytes (a ++ b) = asBytes a ++ asBytes b := by simp [asBytes]

/-- The first byte of an encoded char is an ASCII byte only for that ASCII char. -/
theorem head_utf8EncodeChar (c d : Char) (hd : d.toNat < 128) :
    (String.utf8EncodeChar c)[0]? = some (UInt8.ofNat d.toNat) ↔ c = d := by
  have hdn : (UInt8.ofNat d.toNat).toNat = d.toNat := by simp; omega
  constructor
  · intro h
    unfold String.utf8EncodeChar at h
    simp only at h
    split at h
    · rename_i hv
      simp only [List.getElem?_cons_zero, Option.some.injEq] at h
      have := congrArg UInt8.toNat h
      rw [hdn] at this
      have hc : c.toNat = d.toNat := by
        rw [← this]
        show c.val.toNat = _
        rw [UInt8.toNat_ofNat']
        omega
      exact Char.toNat_inj.mp hc
    · exfalso
      split at h
      · simp only [List.getElem?_cons_zero, Option.some.injEq] at h
        have := congrArg UInt8.toNat h
        rw [hdn, UInt8.toNat_ofNat'] at this
        omega
      · split at h
        · simp only [List.getElem?_cons_zero, Option.some.injEq] at h
          have := congrArg UInt8.toNat h
          rw [hdn, UInt8.toNat_ofNat'] at this
          omega
        · simp only [List.getElem?_cons_zero, Option.some.injEq] at h
          have := congrArg UInt8.toNat h
          rw [hdn, UInt8.toNat_ofNat'] at this
          omega
  · rintro rfl
    unfold String.utf8EncodeChar
    simp only
    have : c.val.toNat ≤ 127 := by show c.toNat ≤ 127; omega
    rw [if_pos this]
    rfl

theorem head_asBytes (s : Str) (d : Char) (hd : d.toNat < 128) :
    (asBytes s)[0]? = some (UInt8.ofNat d.toNat) ↔ ∃ r, s = d :: r := by
  cases s with
  | nil => simp [asBytes]
  | cons c r =>
    have hl : 0 < (String.utf8EncodeChar c).length := by rw [length_utf8EncodeChar]; exact utf8Size_pos c
    have : (asBytes (c :: r))[0]? = (String.utf8EncodeChar c)[0]? := by
      simp only [asBytes, List.flatMap_cons]
      rw [List.getElem?_append_left hl]
    rw [this, head_utf8EncodeChar c d hd]
    simp

theorem asBytes_at (pre tail : Str) (d : Char) (hd : d.toNat < 128) :
    (asBytes (pre ++ tail))[strLen pre]? = some (UInt8.ofNat d.toNat) ↔ ∃ r, tail = d :: r := by
  rw [asBytes_append, ← length_asBytes pre, List.getElem?_append_right (Nat.le_refl _), Nat.sub_self, head_asBytes tail d hd]

/-! ## Segments -/

/-- A char allowed in a class-name segment. -/
def GoodChar (c : Char) : Prop := c ≠ '.' ∧ c ≠ ';' ∧ c ≠ '[' ∧ c ≠ '/' ∧ c ≠ '<' ∧ c ≠ '>'

instance (c : Char) : Decidable (GoodChar c) := by unfold GoodChar; infer_instance

theorem segment_iff (s : Str) : Segment s ↔ s ≠ [] ∧ ∀ c ∈ s, GoodChar c := by
  unfold Segment UnqualifiedName GoodChar
  constructor
  · rintro ⟨⟨h1, h2⟩, h3⟩
    exact ⟨h1, fun c hc => ⟨(h2 c hc).1, (h2 c hc).2.1, (h2 c hc).2.2.1, (h2 c hc).2.2.2, (h3 c hc).1, (h3 c hc).2⟩⟩
  · rintro ⟨h1, h2⟩
    exact ⟨⟨h1, fun c hc => ⟨(h2 c hc).1, (h2 c hc).2.1, (h2 c hc).2.2.1, (h2 c hc).2.2.2.1⟩⟩,
      fun c hc => (h2 c hc).2.2.2.2⟩

theorem good_split (s : Str) : (∀ c ∈ s, GoodChar c) ∨
    ∃ pre c rest, s = pre ++ c :: rest ∧ (∀ x ∈ pre, GoodChar x) ∧ ¬ GoodChar c := by
  induction s with
  | nil => exact Or.inl (by simp)
  | cons c s ih =>
    by_cases hc : GoodChar c
    · rcases ih with h | ⟨pre, d, rest, rfl, hp, hd⟩
      · exact Or.inl (by simpa using ⟨hc, h⟩)
      · exact Or.inr ⟨c :: pre, d, rest, rfl, by simpa using ⟨hc, hp⟩, hd⟩
    · exact Or.inr ⟨[], c, s, rfl, by simp, hc⟩

theorem stop_unique {pre pre' rest rest' : Str} {c c' : Char} (h : pre ++ c :: rest = pre' ++ c' :: rest')
    (hp : ∀ x ∈ pre, GoodChar x) (hc : ¬ GoodChar c) (hp' : ∀ x ∈ pre', GoodChar x) (hc' : ¬ GoodChar c') :
    pre = pre' ∧ c = c' ∧ rest = rest' := by
  induction pre generalizing pre' with
  | nil =>
    cases pre' with
    | nil => simp at h; simp [h]
    | cons d pre' => simp at h; exact absurd (h.1 ▸ hp' d (by simp)) hc
  | cons d pre ih =>
    cases pre' with
    | nil => simp at h; exact absurd (h.1 ▸ hp d (by simp)) hc'
    | cons d' pre' =>
      simp only [List.cons_append, List.cons.injEq] at h
      obtain ⟨h1, h2, h3⟩ := ih h.2 (fun x hx => hp x (by simp [hx])) (fun x hx => hp' x (by simp [hx]))
      exact ⟨by rw [h.1, h1], h2, h3⟩

theorem no_stop {pre rest : Str} {c : Char} (hc : ¬ GoodChar c) (h : ∀ x ∈ pre ++ c :: rest, GoodChar x) : False :=
  hc (h c (by simp))

theorem parseSegAux_good (data done rest : Str) (hd : data = done ++ rest) (h : ∀ c ∈ rest, GoodChar c) :
    parseUnqualifiedSegmentAux data (strLen done) rest = .ok (data, none) := by
  induction rest generalizing done with
  | nil => rfl
  | cons c rest ih =>
    have hc := h c (by simp)
    unfold GoodChar at hc
    unfold parseUnqualifiedSegmentAux
    rw [if_neg (by simp [hc]), if_neg (by simp [hc]), if_neg (by simp [hc]), if_neg (by simp [hc])]
    have := ih (done ++ [c]) (by rw [hd]; simp) (fun x hx => h x (by simp [hx]))
    rw [strLen_append] at this
    simpa [strLen] using this

theorem parseSeg_good (data : Str) (h : ∀ c ∈ data, GoodChar c) : parseUnqualifiedSegment data = .ok (data, none) :=
  parseSegAux_good data [] data rfl h

theorem parseSegAux_skip (data done pre tail : Str) (h : ∀ c ∈ pre, GoodChar c) :
    parseUnqualifiedSegmentAux data (strLen done) (pre ++ tail) =
      parseUnqualifiedSegmentAux data (strLen (done ++ pre)) tail := by
  induction pre generalizing done with
  | nil => simp
  | cons c rest ih =>
    have hc := h c (by simp)
    unfold GoodChar at hc
    rw [List.cons_append, parseUnqualifiedSegmentAux]
    rw [if_neg (by simp [hc]), if_neg (by simp [hc]), if_neg (by simp [hc]), if_neg (by simp [hc])]
    have := ih (done ++ [c]) (fun x hx => h x (by simp [hx]))
    rw [strLen_append] at this
    simpa [strLen] using this

theorem parseSeg_stop (pre rest : Str) (c : Char) (h : ∀ x ∈ pre, GoodChar x) (hne : pre ≠ []) (hc : c = '/' ∨ c = ';') :
    parseUnqualifiedSegment (pre ++ c :: rest) = .ok (pre, some c) := by
  unfold parseUnqualifiedSegment
  have := parseSegAux_skip (pre ++ c :: rest) [] pre (c :: rest) h
  simp only [strLen, List.nil_append] at this
  rw [this]
  have hl : strLen pre ≠ 0 := fun h0 => hne (strLen_eq_zero h0)
  have hl' : (strLen pre == 0) = false := by simpa using hl
  unfold parseUnqualifiedSegmentAux
  rw [if_neg (by simp [hl']), if_neg (by simp [hl']), if_pos (by rcases hc with rfl | rfl <;> rfl)]
  have h2 := strSlice_append [] pre (c :: rest)
  simp only [strLen, List.nil_append, Nat.zero_add] at h2
  rw [h2]
  rfl

theorem parseSeg_bad (pre rest : Str) (c : Char) (h : ∀ x ∈ pre, GoodChar x) (hc : ¬ GoodChar c)
    (hb : ¬ (pre ≠ [] ∧ (c = '/' ∨ c = ';'))) : ∃ e, parseUnqualifiedSegment (pre ++ c :: rest) = .err e := by
  unfold parseUnqualifiedSegment
  have := parseSegAux_skip (pre ++ c :: rest) [] pre (c :: rest) h
  simp only [strLen, List.nil_append] at this
  rw [this]
  unfold parseUnqualifiedSegmentAux
  by_cases hs : c = '/' ∨ c = ';'
  · have hp : pre = [] := by
      rcases Classical.em (pre = []) with h | h
      · exact h
      · exact absurd ⟨h, hs⟩ hb
    subst hp
    rcases hs with rfl | rfl
    · exact ⟨_, rfl⟩
    · exact ⟨_, rfl⟩
  · have hs1 : c ≠ '/' := fun h => hs (Or.inl h)
    have hs2 : c ≠ ';' := fun h => hs (Or.inr h)
    rw [if_neg (by simp [hs1]), if_neg (by simp [hs2]), if_neg (by simp [hs1, hs2]), if_pos]
    · exact ⟨_, rfl⟩
    · unfold GoodChar at hc
      simp only [ne_eq, hs1, hs2, not_false_eq_true, true_and, Classical.not_and_iff_not_or_not, Classical.not_not] at hc
      rcases hc with rfl | rfl | rfl | rfl <;> rfl

/-! ## Class names -/

/-- Inductive form of `LaxClassName`. -/
inductive LaxName : Str → Prop where
  | last {s : Str} : (∀ c ∈ s, GoodChar c) → LaxName s
  | cons {s r : Str} : s ≠ [] → (∀ c ∈ s, GoodChar c) → LaxName r → LaxName (s ++ '/' :: r)

theorem joinSlash_cons {s : Str} {r : List Str} (h : r ≠ []) : joinSlash (s :: r) = s ++ '/' :: joinSlash r := by
  cases r with
  | nil => exact absurd rfl h
  | cons t r => rfl

theorem laxName_iff (s : Str) : LaxName s ↔ LaxClassName s := by
  constructor
  · intro h
    induction h with
    | @last s h =>
      refine ⟨[], s, by simp, ?_, by simp [joinSlash]⟩
      by_cases hs : s = []
      · exact Or.inl hs
      · exact Or.inr ((segment_iff s).mpr ⟨hs, h⟩)
    | @cons s r h1 h2 _ ih =>
      obtain ⟨segs, last, h3, h4, rfl⟩ := ih
      refine ⟨s :: segs, last, ?_, h4, ?_⟩
      · intro g hg
        simp at hg
        rcases hg with rfl | hg
        · exact (segment_iff _).mpr ⟨h1, h2⟩
        · exact h3 g hg
      · rw [List.cons_append, joinSlash_cons (by simp)]
  · rintro ⟨segs, last, h1, h2, rfl⟩
    induction segs with
    | nil =>
      refine .last ?_
      rcases h2 with rfl | h2
      · simp [joinSlash]
      · exact ((segment_iff _).mp h2).2
    | cons g gs ih =>
      rw [List.cons_append, joinSlash_cons (by simp)]
      have hg := (segment_iff g).mp (h1 g (by simp))
      exact .cons hg.1 hg.2 (ih (fun x hx => h1 x (by simp [hx])))

theorem slash_not_good : ¬ GoodChar '/' := by decide
theorem semi_not_good : ¬ GoodChar ';' := by decide

theorem laxName_stop {pre rest : Str} {c : Char} (hp : ∀ x ∈ pre, GoodChar x) (hc : ¬ GoodChar c) :
    LaxName (pre ++ c :: rest) ↔ pre ≠ [] ∧ c = '/' ∧ LaxName rest := by
  constructor
  · intro h
    generalize hs : pre ++ c :: rest = s at h
    cases h with
    | last h => exact absurd (h c (by rw [← hs]; simp)) hc
    | cons h1 h2 h3 =>
      obtain ⟨rfl, rfl, rfl⟩ := stop_unique hs hp hc h2 slash_not_good
      exact ⟨h1, rfl, h3⟩
  · rintro ⟨h1, rfl, h3⟩
    exact .cons h1 hp h3

theorem classNameLoop_decides (value : Str) : ∀ (fuel : Nat) (done tail : Str), value = done ++ tail → strLen tail < fuel →
    Decides (classNameLoop value fuel (strLen done)) (fun _ => LaxName tail)
  | 0, _, _, _, h => by omega
  | fuel + 1, done, tail, hv, hf => by
    unfold classNameLoop
    rw [hv, strFrom_append]
    show Decides (Res.bind (parseUnqualifiedSegment tail) _) _
    rcases good_split tail with hg | ⟨pre, c, rest, rfl, hp, hc⟩
    · rw [parseSeg_good tail hg]
      exact Decides.of_ok (.last hg) (fun _ _ => rfl)
    · by_cases hok : pre ≠ [] ∧ (c = '/' ∨ c = ';')
      · rw [parseSeg_stop pre rest c hp hok.1 hok.2]
        rcases hok.2 with rfl | rfl
        · show Decides (classNameLoop (done ++ (pre ++ '/' :: rest)) fuel (strLen done + strLen pre + 1)) _
          have hfuel : strLen rest < fuel := by
            simp only [strLen_append, strLen] at hf
            have : ('/' : Char).utf8Size = 1 := by decide
            omega
          have := classNameLoop_decides (done ++ (pre ++ '/' :: rest)) fuel (done ++ pre ++ ['/']) rest (by simp) hfuel
          have e : strLen (done ++ pre ++ ['/']) = strLen done + strLen pre + 1 := by
            simp only [strLen_append, strLen]
            have : ('/' : Char).utf8Size = 1 := by decide
            omega
          rw [e] at this
          refine this.congr fun _ => ?_
          rw [laxName_stop hp slash_not_good]
          simp [hok.1]
        · refine Decides.of_err fun _ h => ?_
          rw [laxName_stop hp hc] at h
          exact absurd h.2.1 (by decide)
      · obtain ⟨e, he⟩ := parseSeg_bad pre rest c hp hc hok
        rw [he]
        refine Decides.of_err fun _ h => ?_
        rw [laxName_stop hp hc] at h
        exact hok ⟨h.1, Or.inl h.2.1⟩

theorem tryFrom_decides (s : Str) : Decides (ClassName.tryFrom s) (fun c => c.name = s ∧ LaxClassName s) := by
  unfold ClassName.tryFrom
  have h := classNameLoop_decides s (strLen s + 1) [] s rfl (by omega)
  refine Decides.bind h (fun _ hl => ?_) (fun c hc => ⟨(), (laxName_iff s).mpr hc.2⟩)
  refine Decides.of_ok ⟨rfl, (laxName_iff s).mp hl⟩ ?_
  rintro ⟨b⟩ ⟨h, -⟩
  simp at h; rw [h]

/-- Inductive form of `ClassNameText`. -/
inductive CNText : Str → Prop where
  | one {s : Str} : s ≠ [] → (∀ c ∈ s, GoodChar c) → CNText s
  | cons {s r : Str} : s ≠ [] → (∀ c ∈ s, GoodChar c) → CNText r → CNText (s ++ '/' :: r)

theorem cnText_iff (s : Str) : CNText s ↔ ClassNameText s := by
  constructor
  · intro h
    induction h with
    | @one s h1 h2 => exact ⟨[s], by simp, by simpa using (segment_iff s).mpr ⟨h1, h2⟩, rfl⟩
    | @cons s r h1 h2 _ ih =>
      obtain ⟨segs, h3, h4, rfl⟩ := ih
      refine ⟨s :: segs, by simp, ?_, (joinSlash_cons h3).symm⟩
      intro g hg
      simp at hg
      rcases hg with rfl | hg
      · exact (segment_iff _).mpr ⟨h1, h2⟩
      · exact h4 g hg
  · rintro ⟨segs, h1, h2, rfl⟩
    induction segs with
    | nil => exact absurd rfl h1
    | cons g gs ih =>
      have hg := (segment_iff g).mp (h2 g (by simp))
      by_cases hgs : gs = []
      · subst hgs; exact .one hg.1 hg.2
      · rw [joinSlash_cons hgs]
        exact .cons hg.1 hg.2 (ih hgs (fun x hx => h2 x (by simp [hx])))

/-- `tail` starts with class name `name` and a `;`. -/
def NameTail (name tail : Str) : Prop := CNText name ∧ ∃ junk, tail = name ++ ';' :: junk

theorem nameTail_good {name tail : Str} (h : ∀ c ∈ tail, GoodChar c) : ¬ NameTail name tail := by
  rintro ⟨-, junk, rfl⟩
  exact absurd (h ';' (by simp)) (by decide)

theorem nameTail_stop {name pre rest : Str} {c : Char} (hp : ∀ x ∈ pre, GoodChar x) (hc : ¬ GoodChar c) :
    NameTail name (pre ++ c :: rest) ↔
      pre ≠ [] ∧ ((c = ';' ∧ name = pre) ∨ (c = '/' ∧ ∃ n, name = pre ++ '/' :: n ∧ NameTail n rest)) := by
  constructor
  · rintro ⟨hn, junk, hj⟩
    cases hn with
    | one h1 h2 =>
      obtain ⟨rfl, rfl, rfl⟩ := stop_unique hj hp hc h2 semi_not_good
      exact ⟨h1, Or.inl ⟨rfl, rfl⟩⟩
    | @cons s r h1 h2 h3 =>
      rw [List.append_assoc, List.cons_append] at hj
      obtain ⟨rfl, rfl, rfl⟩ := stop_unique hj hp hc h2 slash_not_good
      exact ⟨h1, Or.inr ⟨rfl, r, rfl, h3, junk, rfl⟩⟩
  · rintro ⟨h1, ⟨rfl, rfl⟩ | ⟨rfl, n, rfl, h3, junk, rfl⟩⟩
    · exact ⟨.one h1 hp, rest, rfl⟩
    · exact ⟨.cons h1 hp h3, junk, by simp⟩

theorem classDescriptorLoop_decides (data : Str) : ∀ (fuel : Nat) (pre mid tail : Str), data = pre ++ (mid ++ tail) →
    strLen tail < fuel → Decides (classDescriptorLoop data (strLen pre) fuel (strLen pre + strLen mid))
      (fun c => ∃ name, c.name = mid ++ name ∧ NameTail name tail)
  | 0, _, _, _, _, h => by omega
  | fuel + 1, pre, mid, tail, hv, hf => by
    unfold classDescriptorLoop
    have hfrom : strFrom data (strLen pre + strLen mid) = .ok tail := by
      rw [hv, ← List.append_assoc, ← strLen_append, strFrom_append]
    rw [hfrom]
    show Decides (Res.bind (parseUnqualifiedSegment tail) _) _
    rcases good_split tail with hg | ⟨s, c, rest, rfl, hp, hc⟩
    · rw [parseSeg_good tail hg]
      refine Decides.of_err fun c h => ?_
      obtain ⟨name, -, h⟩ := h
      exact nameTail_good hg h
    · by_cases hok : s ≠ [] ∧ (c = '/' ∨ c = ';')
      · rw [parseSeg_stop s rest c hp hok.1 hok.2]
        rcases hok.2 with rfl | rfl
        · show Decides (classDescriptorLoop data (strLen pre) fuel (strLen pre + strLen mid + strLen s + 1)) _
          have h1 : ('/' : Char).utf8Size = 1 := by decide
          have hfuel : strLen rest < fuel := by
            simp only [strLen_append, strLen] at hf
            omega
          have := classDescriptorLoop_decides data fuel pre (mid ++ s ++ ['/']) rest (by rw [hv]; simp) hfuel
          have e : strLen pre + strLen (mid ++ s ++ ['/']) = strLen pre + strLen mid + strLen s + 1 := by
            simp only [strLen_append, strLen]; omega
          rw [e] at this
          refine this.congr fun c => ?_
          constructor
          · rintro ⟨n, hn, ht⟩
            exact ⟨s ++ '/' :: n, by rw [hn]; simp, (nameTail_stop hp slash_not_good).mpr
              ⟨hok.1, Or.inr ⟨rfl, n, rfl, ht⟩⟩⟩
          · rintro ⟨name, hn, ht⟩
            obtain ⟨-, h | ⟨-, n, rfl, ht'⟩⟩ := (nameTail_stop hp slash_not_good).mp ht
            · exact absurd h.1 (by decide)
            · exact ⟨n, by rw [hn]; simp, ht'⟩
        · show Decides (Res.bind (strSlice data (strLen pre) (strLen pre + strLen mid + strLen s)) _) _
          have hslice : strSlice data (strLen pre) (strLen pre + strLen mid + strLen s) = .ok (mid ++ s) := by
            rw [hv, ← List.append_assoc mid, Nat.add_assoc, ← strLen_append, strSlice_append]
          rw [hslice]
          refine Decides.of_ok ⟨s, rfl, (nameTail_stop hp semi_not_good).mpr ⟨hok.1, Or.inl ⟨rfl, rfl⟩⟩⟩ ?_
          rintro ⟨b⟩ ⟨name, hb, ht⟩
          obtain ⟨-, ⟨-, rfl⟩ | h⟩ := (nameTail_stop hp semi_not_good).mp ht
          · simp at hb; rw [hb]
          · exact absurd h.1 (by decide)
      · obtain ⟨e, he⟩ := parseSeg_bad s rest c hp hc hok
        rw [he]
        refine Decides.of_err fun d h => ?_
        obtain ⟨name, -, ht⟩ := h
        obtain ⟨h1, h2⟩ := (nameTail_stop hp hc).mp ht
        rcases h2 with ⟨rfl, -⟩ | ⟨rfl, -⟩
        · exact hok ⟨h1, Or.inr rfl⟩
        · exact hok ⟨h1, Or.inl rfl⟩

theorem parseClassDescriptor_decides (pre tail : Str) :
    Decides (parseClassDescriptor (pre ++ tail) (strLen pre)) (fun c => NameTail c.name tail) := by
  unfold parseClassDescriptor
  have := classDescriptorLoop_decides (pre ++ tail) (strLen (pre ++ tail) + 1) pre [] tail (by simp)
    (by rw [strLen_append]; omega)
  refine this.congr fun c => ?_
  simp

/-! ## Field descriptors -/

/-- The head of a type text, and what follows it. -/
def typeOfChar (c : Char) : Option FieldType :=
  if c = 'B' then some .byte
  else if c = 'C' then some .char
  else if c = 'D' then some .double
  else if c = 'F' then some .float
  else if c = 'I' then some .integer
  else if c = 'J' then some .long
  else if c = 'S' then some .short
  else if c = 'Z' then some .boolean
  else none

/-- `tail` starts with the text of type `t`. -/
def TypeTail (t : FieldType) (tail : Str) : Prop := TypeOK t ∧ ∃ junk, tail = typeText t ++ junk

theorem typeTail_prim {t : FieldType} {c : Char} {rest : Str} {p : FieldType} (hp : typeOfChar c = some p) :
    TypeTail t (c :: rest) ↔ t = p := by
  unfold typeOfChar at hp
  unfold TypeTail
  have key : ∀ d, ((∃ x, p = .object x) → False) → (typeText p = [d]) → (c = d) → 
      ((TypeOK t ∧ ∃ junk, c :: rest = typeText t ++ junk) ↔ t = p) := by
    intro d hno htx hcd
    subst hcd
    constructor
    · rintro ⟨hok, junk, hj⟩
      cases t <;> cases p <;> simp_all [typeText]
    · rintro rfl
      refine ⟨?_, rest, by rw [htx]; rfl⟩
      cases t <;> simp_all [TypeOK]
  split at hp
  · injection hp with hp; subst hp; exact key 'B' (by rintro ⟨x, h⟩; cases h) rfl ‹_›
  split at hp
  · injection hp with hp; subst hp; exact key 'C' (by rintro ⟨x, h⟩; cases h) rfl ‹_›
  split at hp
  · injection hp with hp; subst hp; exact key 'D' (by rintro ⟨x, h⟩; cases h) rfl ‹_›
  split at hp
  · injection hp with hp; subst hp; exact key 'F' (by rintro ⟨x, h⟩; cases h) rfl ‹_›
  split at hp
  · injection hp with hp; subst hp; exact key 'I' (by rintro ⟨x, h⟩; cases h) rfl ‹_›
  split at hp
  · injection hp with hp; subst hp; exact key 'J' (by rintro ⟨x, h⟩; cases h) rfl ‹_›
  split at hp
  · injection hp with hp; subst hp; exact key 'S' (by rintro ⟨x, h⟩; cases h) rfl ‹_›
  split at hp
  · injection hp with hp; subst hp; exact key 'Z' (by rintro ⟨x, h⟩; cases h) rfl ‹_›
  · cases hp

theorem typeTail_object {t : FieldType} {rest : Str} :
    TypeTail t ('L' :: rest) ↔ ∃ c, t = .object c ∧ NameTail c.name rest := by
  unfold TypeTail NameTail
  cases t with
  | object c => simp [typeText, TypeOK, cnText_iff]
  | _ => simp [typeText]

theorem typeTail_none {t : FieldType} {c : Char} {rest : Str} (hp : typeOfChar c = none) (hl : c ≠ 'L') :
    ¬ TypeTail t (c :: rest) := by
  rintro ⟨hok, junk, hj⟩
  cases t <;> simp [typeText] at hj <;> (try exact hl hj.1) <;> (obtain ⟨rfl, -⟩ := hj; simp [typeOfChar] at hp)

/-- The type arms of the field descriptor parser. -/
def parseTypeArm (data : Str) (start : Nat) (c : Char) : Res FieldType :=
  if c == 'B' then Res.ok FieldType.byte
  else if c == 'C' then Res.ok FieldType.char
  else if c == 'D' then Res.ok FieldType.double
  else if c == 'F' then Res.ok FieldType.float
  else if c == 'I' then Res.ok FieldType.integer
  else if c == 'J' then Res.ok FieldType.long
  else if c == 'S' then Res.ok FieldType.short
  else if c == 'Z' then Res.ok FieldType.boolean
  else if c == 'L' then do
    let n ← parseClassDescriptor data start
    Res.ok (FieldType.object n)
  else Res.fail "Unexpected field type"

theorem parseTypeArm_eq (data : Str) (start : Nat) (c : Char) : parseTypeArm data start c =
    match typeOfChar c with
    | some t => .ok t
    | none => if c = 'L' then (do
        let n ← parseClassDescriptor data start
        Res.ok (FieldType.object n)) else Res.fail "Unexpected field type" := by
  unfold parseTypeArm typeOfChar
  simp only [beq_iff_eq]
  by_cases h1 : c = 'B'
  · simp [h1]
  by_cases h2 : c = 'C'
  · simp [h2]
  by_cases h3 : c = 'D'
  · simp [h3]
  by_cases h4 : c = 'F'
  · simp [h4]
  by_cases h5 : c = 'I'
  · simp [h5]
  by_cases h6 : c = 'J'
  · simp [h6]
  by_cases h7 : c = 'S'
  · simp [h7]
  by_cases h8 : c = 'Z'
  · simp [h8]
  simp [h1, h2, h3, h4, h5, h6, h7, h8]

theorem parseTypeArm_decides (pre rest : Str) (c : Char) :
    Decides (parseTypeArm (pre ++ c :: rest) (strLen pre + c.utf8Size) c) (fun t => TypeTail t (c :: rest)) := by
  rw [parseTypeArm_eq]
  cases hc : typeOfChar c with
  | some t =>
    exact Decides.of_ok ((typeTail_prim hc).mpr rfl) (fun b hb => (typeTail_prim hc).mp hb)
  | none =>
    simp only
    split
    · rename_i hl
      subst hl
      have h := parseClassDescriptor_decides (pre ++ ['L']) rest
      rw [strLen_append, List.append_assoc] at h
      simp only [strLen, Nat.add_zero, List.cons_append, List.nil_append] at h
      refine Decides.bind h (fun n hn => ?_) (fun t ht => ?_)
      · refine Decides.of_ok (typeTail_object.mpr ⟨n, rfl, hn⟩) fun b hb => ?_
        obtain ⟨c, rfl, hc'⟩ := typeTail_object.mp hb
        have e1 := (h.1 c).mpr hc'
        have e2 := (h.1 n).mpr hn
        rw [e1] at e2
        injection e2 with e2
        rw [e2]
      · obtain ⟨c, -, hc'⟩ := typeTail_object.mp ht
        exact ⟨c, hc'⟩
    · rename_i hl
      exact Decides.of_err (fun t => typeTail_none hc hl)

theorem parseFieldDescriptorLoop_cons (data : Str) (index dims : Nat) (c : Char) (rest : Str) (hc : c ≠ '[') :
    parseFieldDescriptorLoop data index dims (c :: rest) =
      (parseTypeArm data (index + dims + 1) c >>= fun t => .ok { dimensions := UInt8.ofNat dims, fieldType := t }) := by
  unfold parseFieldDescriptorLoop
  rw [if_neg (by simpa using hc)]
  unfold parseTypeArm
  simp only
  repeat (split; · rfl)
  split
  · cases parseClassDescriptor data (index + dims + 1) <;> rfl
  · rfl

theorem strLen_replicate (n : Nat) : strLen (List.replicate n '[') = n := by
  induction n with
  | zero => rfl
  | succ n ih =>
    rw [List.replicate_succ, strLen, ih]
    have : ('[' : Char).utf8Size = 1 := by decide
    omega

theorem typeTail_not_bracket {t : FieldType} {rest : Str} : ¬ TypeTail t ('[' :: rest) :=
  typeTail_none (by decide) (by decide)

/-- `FieldPrefix` for text that starts with `n` brackets. -/
theorem fieldPrefix_brackets {d : FieldDescriptor} {n : Nat} {tail : Str} (ht : ∀ r, tail ≠ '[' :: r) :
    FieldPrefix d (List.replicate n '[' ++ tail) ↔ d.dimensions.toNat = n ∧ TypeTail d.fieldType tail := by
  unfold FieldPrefix FieldOK fieldText TypeTail
  constructor
  · rintro ⟨hok, junk, hj⟩
    have key : ∀ (a b : Nat) (x y : Str), (∀ r, x ≠ '[' :: r) → (∀ r, y ≠ '[' :: r) →
        List.replicate a '[' ++ x = List.replicate b '[' ++ y → a = b ∧ x = y := by
      intro a
      induction a with
      | zero =>
        intro b x y hx hy h
        cases b with
        | zero => exact ⟨rfl, by simpa using h⟩
        | succ b => exact absurd (by simpa [List.replicate_succ] using h) (hx _)
      | succ a ih =>
        intro b x y hx hy h
        cases b with
        | zero => exact absurd (by simpa [List.replicate_succ] using h.symm) (hy _)
        | succ b =>
          simp only [List.replicate_succ, List.cons_append, List.cons.injEq, true_and] at h
          obtain ⟨h1, h2⟩ := ih b x y hx hy h
          exact ⟨by omega, h2⟩
    rw [List.append_assoc] at hj
    obtain ⟨h1, h2⟩ := key _ _ _ _ ht (fun r hr => typeTail_not_bracket (t := d.fieldType) (rest := r) ⟨hok, junk, hr.symm⟩) hj
    exact ⟨h1.symm, hok, junk, h2⟩
  · rintro ⟨h1, hok, junk, rfl⟩
    exact ⟨hok, junk, by rw [h1, List.append_assoc]⟩

theorem parseFieldDescriptorLoop_decides (pre : Str) : ∀ (rest : Str) (n : Nat), n ≤ 255 →
    Decides (parseFieldDescriptorLoop (pre ++ (List.replicate n '[' ++ rest)) (strLen pre) n rest)
      (fun d => FieldPrefix d (List.replicate n '[' ++ rest))
  | [], n, hn => by
    refine Decides.of_err fun d h => ?_
    rw [fieldPrefix_brackets (by simp)] at h
    obtain ⟨-, -, junk, hj⟩ := h
    cases hf : d.fieldType <;> simp [hf, typeText] at hj
  | c :: rest, n, hn => by
    by_cases hc : c = '['
    · subst hc
      unfold parseFieldDescriptorLoop
      rw [if_pos (by simp)]
      have e : List.replicate n '[' ++ '[' :: rest = List.replicate (n + 1) '[' ++ rest := by
        rw [List.replicate_succ', List.append_assoc]; rfl
      split
      · refine Decides.of_err fun d h => ?_
        rename_i h255
        rw [e] at h
        obtain ⟨hok, junk, hj⟩ := h
        have hd := d.dimensions.toNat_lt
        -- the text has at least 256 brackets, a descriptor at most 255
        have hn' : n = 255 := by omega
        have hg : (List.replicate (n + 1) '[' ++ rest)[d.dimensions.toNat]? = some '[' := by
          rw [List.getElem?_append_left (by rw [List.length_replicate]; omega)]
          rw [List.getElem?_replicate, if_pos (by omega)]
        rw [hj, fieldText, List.append_assoc, List.getElem?_append_right (by simp)] at hg
        simp only [List.length_replicate, Nat.sub_self] at hg
        obtain ⟨r, hr⟩ : ∃ r, typeText d.fieldType ++ junk = '[' :: r := by
          cases h : typeText d.fieldType ++ junk with
          | nil => rw [h] at hg; simp at hg
          | cons x r => rw [h] at hg; simp at hg; exact ⟨r, by rw [hg]⟩
        exact typeTail_not_bracket (t := d.fieldType) ⟨hok, junk, hr.symm⟩
      · have := parseFieldDescriptorLoop_decides pre rest (n + 1) (by omega)
        rw [← e] at this
        exact this
    · rw [parseFieldDescriptorLoop_cons _ _ _ _ _ hc]
      have hsize : ∀ t, TypeTail t (c :: rest) → c.utf8Size = 1 := by
        rintro t ⟨-, junk, hj⟩
        cases t <;> simp [typeText] at hj <;> (obtain ⟨rfl, -⟩ := hj; decide)
      have harm : Decides (parseTypeArm (pre ++ (List.replicate n '[' ++ c :: rest)) (strLen pre + n + 1) c)
          (fun t => TypeTail t (c :: rest)) := by
        have h := parseTypeArm_decides (pre ++ List.replicate n '[') rest c
        rw [strLen_append, strLen_replicate, List.append_assoc] at h
        by_cases h1 : c.utf8Size = 1
        · rwa [h1] at h
        · -- a char of another size starts no type: both calls fail
          have hno : ∀ t, ¬ TypeTail t (c :: rest) := fun t ht => h1 (hsize t ht)
          have : typeOfChar c = none := by
            cases hcc : typeOfChar c with
            | none => rfl
            | some p => exact absurd ((typeTail_prim hcc).mpr rfl) (hno p)
          have hL : c ≠ 'L' := by rintro rfl; exact h1 (by decide)
          rw [parseTypeArm_eq, this]
          simp only [hL, if_false]
          exact Decides.of_err hno
      have hbr : ∀ r, c :: rest ≠ '[' :: r := by intro r h; simp at h; exact hc h.1
      have hdim : (UInt8.ofNat n).toNat = n := by rw [UInt8.toNat_ofNat']; omega
      refine Decides.bind harm (fun t ht => ?_) (fun d hd => ?_)
      · refine Decides.of_ok ?_ fun d hd => ?_
        · rw [fieldPrefix_brackets hbr]
          exact ⟨hdim, ht⟩
        · rw [fieldPrefix_brackets hbr] at hd
          have e1 := (harm.1 _).mpr hd.2
          rw [(harm.1 _).mpr ht] at e1
          injection e1 with e1
          cases d with
          | mk dims ft =>
            simp only at hd e1
            rw [e1, show dims = UInt8.ofNat n from UInt8.toNat_inj.mp (by rw [hdim]; exact hd.1)]
      · rw [fieldPrefix_brackets hbr] at hd
        exact ⟨_, hd.2⟩

theorem parseFieldDescriptor_decides (pre tail : Str) :
    Decides (parseFieldDescriptor (pre ++ tail) (strLen pre)) (fun d => FieldPrefix d tail) := by
  unfold parseFieldDescriptor
  rw [strFrom_append]
  exact parseFieldDescriptorLoop_decides pre tail 0 (by omega)

theorem parseFieldDescriptor_zero (s : Str) : Decides (parseFieldDescriptor s 0) (fun d => FieldPrefix d s) :=
  parseFieldDescriptor_decides [] s

/-! ## Lengths -/

theorem strLen_typeText {t : FieldType} : strLen (typeText t) = t.byteLen := by
  cases t with
  | object c =>
    simp only [typeText, strLen_append, strLen, FieldType.byteLen, ClassName.byteLen]
    have h1 : ('L' : Char).utf8Size = 1 := by decide
    have h2 : (';' : Char).utf8Size = 1 := by decide
    omega
  | _ => rfl

theorem strLen_fieldText (d : FieldDescriptor) : strLen (fieldText d) = d.byteLen := by
  unfold fieldText FieldDescriptor.byteLen
  rw [strLen_append, strLen_replicate, strLen_typeText]

theorem byteLen_pos (d : FieldDescriptor) : 0 < d.byteLen := by
  unfold FieldDescriptor.byteLen
  cases d.fieldType <;> simp [FieldType.byteLen] <;> omega

/-! ## Return and method descriptors -/

theorem not_fieldPrefix_V {d : FieldDescriptor} {r : Str} : ¬ FieldPrefix d ('V' :: r) := by
  intro h
  have := (fieldPrefix_brackets (n := 0) (tail := 'V' :: r) (by simp)).mp h
  exact typeTail_none (by decide) (by decide) this.2

theorem not_fieldPrefix_paren {d : FieldDescriptor} {r : Str} : ¬ FieldPrefix d (')' :: r) := by
  intro h
  have := (fieldPrefix_brackets (n := 0) (tail := ')' :: r) (by simp)).mp h
  exact typeTail_none (by decide) (by decide) this.2

theorem parseReturnDescriptor_decides (pre tail : Str) :
    Decides (parseReturnDescriptor (pre ++ tail) (strLen pre)) (fun d => ReturnPrefix d tail) := by
  unfold parseReturnDescriptor
  rw [strFrom_append]
  show Decides (if tail == ['V'] then _ else _) _
  split
  · rename_i h
    have h : tail = ['V'] := by simpa using h
    subst h
    refine Decides.of_ok (S := fun d => ReturnPrefix d ['V']) rfl fun b hb => ?_
    cases b with
    | void => rfl
    | ret f => exact absurd hb not_fieldPrefix_V
  · rename_i h
    have h : tail ≠ ['V'] := by simpa using h
    have hd := parseFieldDescriptor_decides pre tail
    refine Decides.bind hd (fun d hd' => ?_) (fun b hb => ?_)
    · refine Decides.of_ok (S := fun d => ReturnPrefix d tail) hd' fun b hb => ?_
      cases b with
      | void => exact absurd hb h
      | ret f =>
        have e1 := (hd.1 _).mpr hb
        rw [(hd.1 _).mpr hd'] at e1
        injection e1 with e1
        rw [e1]
    · cases b with
      | void => exact absurd hb h
      | ret f => exact ⟨f, hb⟩

/-- `tail` starts with these parameters and a `)`. -/
def ParamsTail (ps : List FieldDescriptor) (tail : Str) : Prop :=
  (∀ p ∈ ps, FieldOK p) ∧ ∃ junk, tail = paramsText ps ++ ')' :: junk

theorem paramsTail_cons {p : FieldDescriptor} {ps : List FieldDescriptor} {tail : Str} :
    ParamsTail (p :: ps) tail ↔ ∃ rest, FieldOK p ∧ tail = fieldText p ++ rest ∧ ParamsTail ps rest := by
  unfold ParamsTail
  constructor
  · rintro ⟨h1, junk, rfl⟩
    exact ⟨paramsText ps ++ ')' :: junk, h1 p (by simp), by simp [paramsText], fun q hq => h1 q (by simp [hq]), junk, rfl⟩
  · rintro ⟨rest, h1, rfl, h2, junk, rfl⟩
    refine ⟨?_, junk, by simp [paramsText]⟩
    intro q hq
    simp at hq
    rcases hq with rfl | hq
    · exact h1
    · exact h2 q hq

theorem parametersLoop_decides (data : Str) : ∀ (fuel : Nat) (pre tail : Str), data = pre ++ tail → strLen tail < fuel →
    Decides (parametersLoop data (asBytes data) fuel (strLen pre))
      (fun r => ParamsTail r.1 tail ∧ r.2 = strLen (pre ++ paramsText r.1))
  | 0, _, _, _, h => by omega
  | fuel + 1, pre, tail, hv, hf => by
    unfold parametersLoop
    have hat := asBytes_at pre tail ')' (by decide)
    rw [← hv] at hat
    have h41 : UInt8.ofNat (')' : Char).toNat = 41 := by decide
    rw [h41] at hat
    split
    · rename_i hcond
      simp only [Bool.and_eq_true, beq_iff_eq] at hcond
      obtain ⟨r, hr⟩ := hat.mp hcond.2
      refine Decides.of_ok ⟨⟨by simp, r, by simpa [paramsText] using hr⟩, by simp [paramsText]⟩ ?_
      rintro ⟨ps, n⟩ ⟨h1, h2⟩
      cases ps with
      | nil => simp [paramsText] at h2; rw [h2]
      | cons p ps =>
        obtain ⟨rest, hok, ht, -⟩ := paramsTail_cons.mp h1
        exact absurd ⟨hok, rest, hr ▸ ht⟩ (not_fieldPrefix_paren (d := p) (r := r))
    · rename_i hcond
      have hnot : ¬ ∃ r, tail = ')' :: r := by
        intro h
        apply hcond
        have := hat.mpr h
        simp only [Bool.and_eq_true, beq_iff_eq, decide_eq_true_eq]
        refine ⟨?_, this⟩
        obtain ⟨r, hr⟩ := h
        rw [length_asBytes, hv, strLen_append, hr]
        simp only [strLen]
        have := utf8Size_pos ')'
        omega
      have hd := parseFieldDescriptor_decides pre tail
      rw [← hv] at hd
      refine Decides.bind hd (fun p hp => ?_) (fun b hb => ?_)
      · obtain ⟨hok, rest, ht⟩ := hp
        have hlen := strLen_fieldText p
        have hpos := byteLen_pos p
        have hfuel : strLen rest < fuel := by
          rw [ht, strLen_append, hlen] at hf; omega
        have ih := parametersLoop_decides data fuel (pre ++ fieldText p) rest (by rw [hv, ht]; simp) hfuel
        rw [strLen_append, hlen] at ih
        have huniq : ∀ q r', FieldOK q → tail = fieldText q ++ r' → q = p ∧ r' = rest := by
          intro q r' hq hr'
          have e1 := (hd.1 q).mpr ⟨hq, r', hr'⟩
          rw [(hd.1 p).mpr ⟨hok, rest, ht⟩] at e1
          injection e1 with e1
          subst e1
          rw [ht] at hr'
          exact ⟨rfl, (List.append_cancel_left hr').symm⟩
        refine Decides.bind ih (fun r hr => ?_) (fun b hb => ?_)
        · refine Decides.of_ok ⟨paramsTail_cons.mpr ⟨rest, hok, ht, hr.1⟩, ?_⟩ ?_
          · rw [hr.2]; simp [paramsText]
          · rintro ⟨ps, n⟩ ⟨h1, h2⟩
            cases ps with
            | nil =>
              obtain ⟨-, junk, hj⟩ := h1
              exact absurd ⟨junk, by simpa [paramsText] using hj⟩ hnot
            | cons q qs =>
              obtain ⟨r', hq, hr', hps⟩ := paramsTail_cons.mp h1
              obtain ⟨rfl, rfl⟩ := huniq q r' hq hr'
              simp only at h2
              have e1 := (ih.1 (qs, n)).mpr ⟨hps, by rw [h2]; simp [paramsText]⟩
              rw [(ih.1 r).mpr hr] at e1
              injection e1 with e1
              rw [e1]
        · obtain ⟨ps, n⟩ := b
          obtain ⟨h1, h2⟩ := hb
          cases ps with
          | nil =>
            obtain ⟨-, junk, hj⟩ := h1
            exact absurd ⟨junk, by simpa [paramsText] using hj⟩ hnot
          | cons q qs =>
            obtain ⟨r', hq, hr', hps⟩ := paramsTail_cons.mp h1
            obtain ⟨rfl, rfl⟩ := huniq q r' hq hr'
            exact ⟨(qs, n), hps, by simp only at h2; rw [h2]; simp [paramsText]⟩
      · obtain ⟨ps, n⟩ := b
        obtain ⟨h1, h2⟩ := hb
        cases ps with
        | nil =>
          obtain ⟨-, junk, hj⟩ := h1
          exact absurd ⟨junk, by simpa [paramsText] using hj⟩ hnot
        | cons q qs =>
          obtain ⟨r', hq, hr', hps⟩ := paramsTail_cons.mp h1
          exact ⟨q, hq, r', hr'⟩

theorem parseMethodDescriptor_decides (s : Str) : Decides (parseMethodDescriptor s 0) (fun d => MethodPrefix d s) := by
  unfold parseMethodDescriptor
  simp only
  have hat := asBytes_at [] s '(' (by decide)
  simp only [List.nil_append, strLen] at hat
  rw [show UInt8.ofNat ('(' : Char).toNat = 40 by decide] at hat
  split
  · rename_i hcond
    refine Decides.of_err fun d h => ?_
    obtain ⟨-, t, ht, -⟩ := h
    have h1 := hat.mpr ⟨paramsText d.parameters ++ ([')'] ++ t), by rw [ht]; simp⟩
    simp only [Bool.or_eq_true, decide_eq_true_eq, bne_iff_ne, ne_eq] at hcond
    rcases hcond with hcond | hcond
    · rw [List.getElem?_eq_none hcond] at h1; simp at h1
    · exact hcond h1
  · rename_i hcond
    simp only [Bool.or_eq_true, decide_eq_true_eq, bne_iff_ne, ne_eq, not_or, Classical.not_not] at hcond
    obtain ⟨r, hr⟩ := hat.mp hcond.2
    have hparen : ('(' : Char).utf8Size = 1 := by decide
    have hclose : (')' : Char).utf8Size = 1 := by decide
    have hp := parametersLoop_decides s ((asBytes s).length + 1) ['('] r (by simpa using hr) (by
      rw [length_asBytes, hr]; simp only [strLen]; omega)
    rw [show strLen ['('] = 0 + 1 by simp [strLen, hparen]] at hp
    refine Decides.bind hp (fun x hx => ?_) (fun d hd => ?_)
    · obtain ⟨ps, n⟩ := x
      obtain ⟨⟨hok, junk, hj⟩, hn⟩ := hx
      simp only at hok hj hn
      have hret := parseReturnDescriptor_decides (['('] ++ paramsText ps ++ [')']) junk
      have hs : ['('] ++ paramsText ps ++ [')'] ++ junk = s := by rw [hr, hj]; simp
      have hl : strLen (['('] ++ paramsText ps ++ [')']) = n + 1 := by
        rw [hn, strLen_append, strLen]; simp [strLen, hclose]
      rw [hs, hl] at hret
      refine Decides.bind hret (fun t ht => ?_) (fun d hd => ?_)
      · refine Decides.of_ok ⟨hok, junk, by rw [← hs], ht⟩ fun d hd => ?_
        obtain ⟨hok', t', ht', hret'⟩ := hd
        have e0 : r = paramsText d.parameters ++ ')' :: t' := by
          rw [hr] at ht'; simpa using ht'
        have e1 := (hp.1 (d.parameters, strLen (['('] ++ paramsText d.parameters))).mpr ⟨⟨hok', t', e0⟩, rfl⟩
        rw [(hp.1 (ps, n)).mpr ⟨⟨hok, junk, hj⟩, hn⟩] at e1
        injection e1 with e1
        simp only [Prod.mk.injEq] at e1
        obtain ⟨e1, -⟩ := e1
        subst e1
        have e2 : junk = t' := by rw [hj] at e0; simpa using List.append_cancel_left e0
        subst e2
        have e3 := (hret.1 _).mpr hret'
        rw [(hret.1 _).mpr ht] at e3
        injection e3 with e3
        cases d
        simp only at e3
        rw [e3]
      · obtain ⟨hok', t', ht', hret'⟩ := hd
        have e0 : r = paramsText d.parameters ++ ')' :: t' := by
          rw [hr] at ht'; simpa using ht'
        have e1 := (hp.1 (d.parameters, strLen (['('] ++ paramsText d.parameters))).mpr ⟨⟨hok', t', e0⟩, rfl⟩
        rw [(hp.1 (ps, n)).mpr ⟨⟨hok, junk, hj⟩, hn⟩] at e1
        injection e1 with e1
        simp only [Prod.mk.injEq] at e1
        obtain ⟨e1, -⟩ := e1
        subst e1
        have e2 : junk = t' := by rw [hj] at e0; simpa using List.append_cancel_left e0
        subst e2
        exact ⟨_, hret'⟩
    · obtain ⟨hok', t', ht', hret'⟩ := hd
      have e0 : r = paramsText d.parameters ++ ')' :: t' := by
        rw [hr] at ht'; simpa using ht'
      exact ⟨(d.parameters, strLen (['('] ++ paramsText d.parameters)), ⟨hok', t', e0⟩, rfl⟩

/-! ## Whole-string checks -/

theorem strLen_returnText (d : ReturnDescriptor) : strLen (returnText d) = d.byteLen := by
  cases d with
  | void => rfl
  | ret f => exact strLen_fieldText f

theorem foldl_byteLen (ps : List FieldDescriptor) (n : Nat) :
    ps.foldl (fun sum param => sum + param.byteLen) n = n + strLen (paramsText ps) := by
  induction ps generalizing n with
  | nil => simp [paramsText, strLen]
  | cons p ps ih => simp only [List.foldl_cons, ih, paramsText, strLen_append, strLen_fieldText]; omega

theorem strLen_methodText (d : MethodDescriptor) : strLen (methodText d) = d.byteLen := by
  unfold methodText MethodDescriptor.byteLen
  simp only [strLen_append, strLen, foldl_byteLen, strLen_returnText]
  have h1 : ('(' : Char).utf8Size = 1 := by decide
  have h2 : (')' : Char).utf8Size = 1 := by decide
  omega

/-- A text whose parse consumes its full length: prefix and equal length mean equality. -/
theorem append_junk_len {a junk : Str} (h : strLen (a ++ junk) = strLen a) : junk = [] := by
  rw [strLen_append] at h
  exact strLen_eq_zero (by omega)

/-- The outcome of a check: always `ok`, and `true` exactly when `Q`. -/
def Checks (r : Res Bool) (Q : Prop) : Prop := ∃ b, r = .ok b ∧ (b = true ↔ Q)

theorem lenMatches_checks {α : Type} {s : Str} {byteLen : α → Nat} {r : Res α} {S : α → Prop} {Q : Prop} (h : Decides r S)
    (hQ : Q ↔ ∃ a, S a ∧ strLen s = byteLen a) : Checks (lenMatches s byteLen r) Q := by
  rcases h.2 with ⟨a, rfl⟩ | ⟨e, rfl⟩
  · refine ⟨strLen s == byteLen a, rfl, ?_⟩
    rw [beq_iff_eq, hQ]
    constructor
    · intro he; exact ⟨a, (h.1 a).mp rfl, he⟩
    · rintro ⟨b, hb, he⟩
      have := (h.1 b).mpr hb
      injection this with this
      rw [this]; exact he
  · refine ⟨false, rfl, ?_⟩
    simp only [Bool.false_eq_true, false_iff, hQ]
    rintro ⟨b, hb, -⟩
    have := (h.1 b).mpr hb
    cases this

theorem fieldPrefix_len {s : Str} {d : FieldDescriptor} :
    (FieldPrefix d s ∧ strLen s = d.byteLen) ↔ FieldOK d ∧ s = fieldText d := by
  constructor
  · rintro ⟨⟨hok, junk, rfl⟩, hl⟩
    rw [← strLen_fieldText] at hl
    rw [append_junk_len hl]
    exact ⟨hok, by simp⟩
  · rintro ⟨hok, rfl⟩
    exact ⟨⟨hok, [], by simp⟩, strLen_fieldText d⟩

theorem isFieldDescriptor_checks (s : Str) : Checks (isFieldDescriptor s) (IsFieldDescriptor s) := by
  refine lenMatches_checks (parseFieldDescriptor_zero s) ?_
  simp only [fieldPrefix_len]
  rfl

theorem returnPrefix_len {s : Str} {d : ReturnDescriptor} :
    (ReturnPrefix d s ∧ strLen s = d.byteLen) ↔ ReturnOK d ∧ s = returnText d := by
  cases d with
  | void =>
    simp only [ReturnPrefix, ReturnOK, returnText, true_and, and_iff_left_iff_imp]
    rintro rfl; rfl
  | ret f => exact fieldPrefix_len

theorem isReturnDescriptor_checks (s : Str) : Checks (isReturnDescriptor s) (IsReturnDescriptor s) := by
  refine lenMatches_checks (parseReturnDescriptor_decides [] s) ?_
  simp only [returnPrefix_len]
  rfl

theorem methodPrefix_len {s : Str} {d : MethodDescriptor} :
    (MethodPrefix d s ∧ strLen s = d.byteLen) ↔ MethodOK d ∧ s = methodText d := by
  unfold MethodPrefix MethodOK
  constructor
  · rintro ⟨⟨hok, t, rfl, ht⟩, hl⟩
    rw [← strLen_methodText, methodText, strLen_append, strLen_append (a := ['('] ++ paramsText d.parameters ++ [')'])] at hl
    have : ReturnOK d.returnType ∧ t = returnText d.returnType :=
      returnPrefix_len.mp ⟨ht, by rw [← strLen_returnText]; omega⟩
    exact ⟨⟨hok, this.1⟩, by rw [methodText, this.2]⟩
  · rintro ⟨⟨hok, hr⟩, rfl⟩
    refine ⟨⟨hok, returnText d.returnType, rfl, ?_⟩, strLen_methodText d⟩
    exact (returnPrefix_len.mpr ⟨hr, rfl⟩).1

theorem isMethodDescriptor_checks (s : Str) : Checks (isMethodDescriptor s) (IsMethodDescriptor s) := by
  refine lenMatches_checks (parseMethodDescriptor_decides s) ?_
  simp only [methodPrefix_len]
  rfl

theorem fieldText_bracket (d : FieldDescriptor) (hok : FieldOK d) : (∃ r, fieldText d = '[' :: r) ↔ d.dimensions ≠ 0 := by
  constructor
  · rintro ⟨r, hr⟩ h0
    rw [fieldText, h0] at hr
    exact typeTail_not_bracket (t := d.fieldType) (rest := r) ⟨hok, [], by simpa using hr.symm⟩
  · intro h
    have : d.dimensions.toNat ≠ 0 := fun h0 => h (UInt8.toNat_inj.mp h0)
    obtain ⟨n, hn⟩ := Nat.exists_eq_succ_of_ne_zero this
    exact ⟨List.replicate n '[' ++ typeText d.fieldType, by rw [fieldText, hn, List.replicate_succ]; rfl⟩

theorem isArrayDescriptor_checks (s : Str) : Checks (isArrayDescriptor s) (IsArrayDescriptor s) := by
  unfold isArrayDescriptor
  obtain ⟨b, hb, hiff⟩ := isFieldDescriptor_checks s
  rw [hb]
  show Checks (if b then _ else _) _
  have hat := head_asBytes s '[' (by decide)
  rw [show UInt8.ofNat ('[' : Char).toNat = 91 by decide] at hat
  cases b with
  | false =>
    refine ⟨false, rfl, ?_⟩
    simp only [Bool.false_eq_true, false_iff]
    rintro ⟨d, hok, -, hs⟩
    exact absurd (hiff.mpr ⟨d, hok, hs⟩) (by simp)
  | true =>
    obtain ⟨d, hok, hs⟩ := hiff.mp rfl
    have hlen : 0 < (asBytes s).length := by
      rw [length_asBytes, hs, strLen_fieldText]; exact byteLen_pos d
    simp only [if_true]
    obtain ⟨x, hx⟩ : ∃ x, (asBytes s)[0]? = some x := ⟨_, List.getElem?_eq_getElem hlen⟩
    unfold byteAt
    rw [hx]
    refine ⟨x == 91, rfl, ?_⟩
    rw [beq_iff_eq]
    rw [hx, Option.some.injEq] at hat
    rw [hat]
    constructor
    · rintro ⟨r, hr⟩
      exact ⟨d, hok, (fieldText_bracket d hok).mp ⟨r, hs ▸ hr⟩, hs⟩
    · rintro ⟨d', hok', hne, hs'⟩
      obtain ⟨r, hr⟩ := (fieldText_bracket d' hok').mpr hne
      exact ⟨r, by rw [hs', hr]⟩

theorem parseArrayDescriptor_decides (s : Str) : Decides (parseArrayDescriptor s) (fun o =>
    match o with
    | none => ∀ r, s ≠ '[' :: r
    | some d => FieldOK d ∧ d.dimensions ≠ 0 ∧ s = fieldText d) := by
  unfold parseArrayDescriptor
  have hat := head_asBytes s '[' (by decide)
  rw [show UInt8.ofNat ('[' : Char).toNat = 91 by decide] at hat
  split
  · rename_i hcond
    have hno : ∀ r, s ≠ '[' :: r := by
      intro r hr
      simp only [Bool.or_eq_true, List.isEmpty_iff, bne_iff_ne, ne_eq] at hcond
      rcases hcond with h | h
      · rw [h] at hr; cases hr
      · exact h (hat.mpr ⟨r, hr⟩)
    refine Decides.of_ok hno fun b hb => ?_
    cases b with
    | none => rfl
    | some d =>
      obtain ⟨hok, hne, hs⟩ := hb
      obtain ⟨r, hr⟩ := (fieldText_bracket d hok).mpr hne
      exact absurd (hs.trans hr) (hno r)
  · rename_i hcond
    simp only [Bool.or_eq_true, List.isEmpty_iff, bne_iff_ne, ne_eq, not_or, Classical.not_not] at hcond
    obtain ⟨r, hr⟩ := hat.mp hcond.2
    have hd := parseFieldDescriptor_zero s
    refine Decides.bind hd (fun d hd' => ?_) (fun b hb => ?_)
    · split
      · rename_i hne
        refine Decides.of_err fun o ho => ?_
        cases o with
        | none => exact absurd hr (ho r)
        | some d' =>
          obtain ⟨hok, hnz, hs⟩ := ho
          have h2 := fieldPrefix_len.mpr ⟨hok, hs⟩
          have e1 := (hd.1 _).mpr h2.1
          rw [(hd.1 _).mpr hd'] at e1
          injection e1 with e1
          rw [e1] at hne
          simp [h2.2] at hne
      · rename_i heq
        have heq : strLen s = d.byteLen := by simpa using heq
        obtain ⟨hok, hs⟩ := fieldPrefix_len.mp ⟨hd', heq⟩
        refine Decides.of_ok ⟨hok, (fieldText_bracket d hok).mp ⟨r, hs ▸ hr⟩, hs⟩ fun o ho => ?_
        cases o with
        | none => exact absurd hr (ho r)
        | some d' =>
          obtain ⟨hok', -, hs'⟩ := ho
          have e1 := (hd.1 _).mpr (fieldPrefix_len.mpr ⟨hok', hs'⟩).1
          rw [(hd.1 _).mpr hd'] at e1
          injection e1 with e1
          rw [e1]
    · cases b with
      | none => exact absurd hr (hb r)
      | some d' =>
        obtain ⟨hok', -, hs'⟩ := hb
        exact ⟨d', (fieldPrefix_len.mpr ⟨hok', hs'⟩).1⟩

/-! ## Display -/

theorem typeText_display (t : FieldType) : t.display = typeText t := by cases t <;> simp [FieldType.display, typeText]

theorem fieldText_display (d : FieldDescriptor) : d.display = fieldText d := by
  simp [FieldDescriptor.display, fieldText, typeText_display]

theorem returnText_display (d : ReturnDescriptor) : d.display = returnText d := by
  cases d <;> simp [ReturnDescriptor.display, returnText, fieldText_display]

theorem methodText_display (d : MethodDescriptor) : d.display = methodText d := by
  have : ∀ ps : List FieldDescriptor, ps.flatMap FieldDescriptor.display = paramsText ps := by
    intro ps
    induction ps with
    | nil => rfl
    | cons p ps ih => rw [List.flatMap_cons, ih, fieldText_display]; rfl
  simp [MethodDescriptor.display, methodText, this, returnText_display]

end Cafebabe
