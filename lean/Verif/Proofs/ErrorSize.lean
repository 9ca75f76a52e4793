import Verif.Spec.AttributeMessage
import Verif.Proofs.ByteCode
/-!
# The size of the errors described by `SaysAll`

`esize e` is the number of characters of the text of an error, up to one. `Light pool w p`: the errors of the part `p` have at most `w`
characters more than seven times the number of bytes that are left.
-/

namespace Cafebabe
open Spec

/-- The number of characters of the message and of the contexts, with four for each connecting word. -/
def esize (e : ParseError) : Nat := e.msg.toList.length + (e.contexts.map fun c => c.toList.length + 4).sum

theorem esize_inside (c : String) (e : ParseError) : esize (inside c e) = esize e + (c.toList.length + 4) := by
  simp [esize, inside]; omega

theorem esize_plainly (m : String) : esize (plainly m) = m.toList.length := by simp [esize, plainly]

theorem displayContexts_size (cs : List String) : (ParseError.displayContexts " of " cs).toList.length = (cs.map fun c => c.toList.length + 4).sum := by
  induction cs with
  | nil => rfl
  | cons c cs ih => simp [ParseError.displayContexts, ih]; omega

theorem esize_display (e : ParseError) : esize e ≤ e.display.length ∧ e.display.length ≤ esize e + 1 := by
  rw [← String.length_toList]
  obtain ⟨m, cs⟩ := e
  cases cs with
  | nil => simp [ParseError.display, ParseError.displayContexts, esize]
  | cons c cs => simp [ParseError.display, ParseError.displayContexts, esize, displayContexts_size]; omega

/-! ## Numbers in texts -/

theorem plainText (s : String) : toString s = s := by simp only [toString]

theorem natText (n : Nat) : toString n = n.repr := by simp only [toString]

theorem charText (c : Char) : (toString c).toList.length = 1 := by simp [toString]

theorem digits_le {n k : Nat} (hk : 0 < k) (h : n < 10 ^ k) : n.repr.toList.length ≤ k := by
  rw [String.length_toList]
  exact (Nat.length_repr_le_iff hk).mpr h

theorem digits5 {n : Nat} (h : n < 65536) : n.repr.toList.length ≤ 5 := digits_le (by omega) (by omega)
theorem digits20 {n : Nat} (h : n < 18446744073709551616) : n.repr.toList.length ≤ 20 := digits_le (by omega) (by omega)

theorem cutOff_size {N : Nat} (hN : N < 18446744073709551616) (what : String) (t : Bytes) : esize (cutOff N what t) ≤ 63 + what.toList.length := by
  have h := digits20 (n := N - t.length) (Nat.lt_of_le_of_lt (Nat.sub_le _ _) hN)
  have he : esize (cutOff N what t) = (s!"Unexpected end of stream reading {what} at index {N - t.length}").toList.length := by unfold cutOff; exact Eq.refl _
  rw [he]
  simp only [String.toList_append, List.length_append, plainText, natText]
  simp [-Nat.toList_repr]
  omega

/-! ## Parts -/

mutual
/-- The errors of this part have at most `w` characters, besides seven for each byte that is left. -/
inductive Light (pool : Pool) : Nat → Part → Prop where
  | number {w : Nat} {what : String} {size : Nat} : 63 + what.toList.length ≤ w → Light pool w (.number what size)
  | constant {w : Nat} {ok : Nat → Prop} {about : Nat → String → Prop} : 65 ≤ w → (∀ i m, about i m → m.toList.length ≤ w) →
      Light pool w (.constant ok about)
  | judged {w v : Nat} {cs : List String} {ok fine : Nat → Prop} {about : Nat → String → Prop} {c : String} : Light pool v (.constant ok about) →
      v + (cs.map fun c => c.toList.length + 4).sum ≤ w → c.toList.length ≤ w → Light pool w (.judged cs ok about fine c)
  | flags {w : Nat} {mask : UInt16} {c : ParseError} : 65 ≤ w → esize c ≤ w → Light pool w (.flags mask c)
  | table1 {w : Nat} {row : Nat → List Part} : 65 ≤ w → (∀ k, k < 65536 → LightAll pool (w + 7) (row k)) → Light pool w (.table1 row)
  | table2 {w : Nat} {row : Nat → List Part} : 65 ≤ w → (∀ k, k < 65536 → LightAll pool (w + 14) (row k)) → Light pool w (.table2 row)
  | tagged {w : Nat} {follow : UInt8 → Option (List Part)} {c : UInt8 → ParseError} : 65 ≤ w → (∀ b, follow b = none → esize (c b) ≤ w) →
      (∀ b ps, follow b = some ps → LightAll pool (w + 7) ps) → Light pool w (.tagged follow c)
  | within {v w : Nat} {c : String} {ps : List Part} : LightAll pool v ps → v + (c.toList.length + 4) ≤ w → Light pool w (.within c ps)
  | elementValue {w : Nat} : 200 ≤ w → Light pool w .elementValue

inductive LightAll (pool : Pool) : Nat → List Part → Prop where
  | nil {w : Nat} : LightAll pool w []
  | cons {w : Nat} {p : Part} {ps : List Part} : Light pool w p → LightAll pool w ps → LightAll pool w (p :: ps)
  /-- The bytes of the part count for what follows. -/
  | paid {w n : Nat} {p : Part} {ps : List Part} : (∀ s, Fits pool p s → n ≤ s.length) → Light pool w p → LightAll pool (w + 7 * n) ps →
      LightAll pool w (p :: ps)
end

mutual
theorem light_mono {pool : Pool} {w v : Nat} {p : Part} (h : Light pool w p) (hv : w ≤ v) : Light pool v p := by
  match h with
  | .number h => exact .number (by omega)
  | .constant h1 h2 => exact .constant (by omega) fun i m h => Nat.le_trans (h2 i m h) hv
  | .judged h1 h2 h3 => exact .judged h1 (by omega) (by omega)
  | .flags h1 h2 => exact .flags (by omega) (by omega)
  | .table1 h1 h2 => exact .table1 (by omega) fun k hk => lightAll_mono (h2 k hk) (by omega)
  | .table2 h1 h2 => exact .table2 (by omega) fun k hk => lightAll_mono (h2 k hk) (by omega)
  | .tagged h1 h2 h3 => exact .tagged (by omega) (fun b hb => Nat.le_trans (h2 b hb) hv) fun b ps hb => lightAll_mono (h3 b ps hb) (by omega)
  | .within h1 h2 => exact .within h1 (by omega)
  | .elementValue h => exact .elementValue (by omega)

theorem lightAll_mono {pool : Pool} {w v : Nat} {ps : List Part} (h : LightAll pool w ps) (hv : w ≤ v) : LightAll pool v ps := by
  match h with
  | .nil => exact .nil
  | .cons h1 h2 => exact .cons (light_mono h1 hv) (lightAll_mono h2 hv)
  | .paid h0 h1 h2 => exact .paid h0 (light_mono h1 hv) (lightAll_mono h2 (by omega))
end

theorem lightAll_append {pool : Pool} {w : Nat} {ps qs : List Part} (h : LightAll pool w ps) (hq : LightAll pool w qs) :
    LightAll pool w (ps ++ qs) := by
  induction ps generalizing w with
  | nil => exact hq
  | cons p ps ih =>
    cases h with
    | cons h1 h2 => exact .cons h1 (ih h2 hq)
    | paid h0 h1 h2 => exact .paid h0 h1 (ih h2 (lightAll_mono hq (by omega)))

theorem lightAll_rows {pool : Pool} {w n : Nat} {row : Nat → List Part} (h : ∀ k, k < n → LightAll pool w (row k)) :
    LightAll pool w (rows n row) := by
  unfold rows
  have : ∀ l : List Nat, (∀ k ∈ l, k < n) → LightAll pool w (l.flatMap row) := by
    intro l
    induction l with
    | nil => intro _; exact .nil
    | cons k l ih =>
      intro hl
      simp only [List.flatMap_cons]
      exact lightAll_append (h k (hl k (by simp))) (ih fun j hj => hl j (by simp [hj]))
  exact this _ fun k hk => List.mem_range.mp hk

/-! ## What follows the tag of the value of an element -/

/-- Bounds for the number of characters of a text that is made of constants and numbers. -/
macro "textlen" : tactic => `(tactic| ((try simp only [String.toList_append, List.length_append, plainText, natText, charText]); (try simp [-Nat.toList_repr]); try omega))

theorem wrongKind_size {pool : Pool} {K : Entry → Prop} {i : Nat} {m : String} (h : wrongKind pool K i m) : m.toList.length = 39 := by
  obtain ⟨-, rfl⟩ := h
  simp

theorem objectSays_size {s : Str} {m : String} (h : ObjectSays s m) : m.toList.length ≤ 50 := by
  induction h <;> first | assumption | simp

theorem fieldSays_size {s : Str} {m : String} (h : FieldSays s m) : m.toList.length ≤ 60 := by
  cases h with
  | object _ h => have := objectSays_size h; omega
  | _ => simp

theorem light_kind {pool : Pool} {w : Nat} {ok : Nat → Prop} {K : Entry → Prop} (hw : 65 ≤ w) : Light pool w (.constant ok (wrongKind pool K)) :=
  .constant hw fun i m h => by have := wrongKind_size h; omega

theorem light_descriptor {pool : Pool} {w : Nat} (hw : 65 ≤ w) : Light pool w (descriptorIx pool) :=
  .constant hw fun i m h => by
    rcases h with h | ⟨s, -, h⟩
    · have := wrongKind_size h; omega
    · have := fieldSays_size h; omega

theorem light_annotation {pool : Pool} {w : Nat} (hw : 200 ≤ w) : LightAll pool w (annotationParts pool) := by
  refine .cons (.within (v := 100) (.cons (light_descriptor (by omega)) .nil) (by textlen)) (.cons (.table2 (by omega) fun k hk => ?_) .nil)
  have hd := digits5 hk
  refine .paid (n := 2) ?_ (.within (v := 100) (.cons (light_kind (by omega)) .nil) (by textlen)) (.cons (.within (v := 200) (.cons (.elementValue (by omega)) .nil) (by textlen)) .nil)
  intro s hs
  cases hs with
  | within h =>
    cases h with
    | cons h h' => cases h; cases h'; simp [u2]

theorem light_element {pool : Pool} {b : UInt8} {ps : List Part} (h : elementParts pool b = some ps) : LightAll pool 207 ps := by
  unfold elementParts at h
  split at h <;> simp only [Option.some.injEq, reduceCtorEq] at h <;> subst h
  all_goals first
    | exact .cons (light_kind (by omega)) .nil
    | skip
  · refine .cons (.within (v := 100) (.cons (light_descriptor (by omega)) .nil) (by textlen)) (.cons (light_kind (by omega)) .nil)
  · exact .cons (.judged (v := 100) (light_kind (by omega)) (by simp) (by textlen)) .nil
  · exact light_annotation (by omega)
  · refine .cons (.table2 (by omega) fun k hk => ?_) .nil
    have hd := digits5 hk
    exact .cons (.within (v := 200) (.cons (.elementValue (by omega)) .nil) (by textlen)) .nil

/-! ## The errors of parts -/

theorem index_size (i : UInt16) : (s!"Out-of-bounds index {i.toNat} in constant pool reference").toList.length ≤ 56 := by
  have := digits5 (n := i.toNat) i.toNat_lt
  textlen

theorem cut_size {N w n : Nat} {what : String} {t : Bytes} (hN : N < 18446744073709551616) (hw : what = "u2" ∨ what = "u1") (h : 65 ≤ w) :
    esize (cutOff N what t) ≤ w + n := by
  refine Nat.le_trans (cutOff_size hN _ _) ?_
  rcases hw with rfl | rfl <;> simp <;> omega

theorem blamed_size {N : Nat} {pool : Pool} {p : Part} {t : Bytes} {e : ParseError} (hN : N < 18446744073709551616) (h : Blamed N pool p t e) :
    ∀ {w : Nat}, Light pool w p → esize e ≤ w + 7 * t.length := by
  suffices hs : ∀ w, Light pool w p → esize e ≤ w + 7 * t.length from fun {w} => hs w
  induction h using Blamed.rec (motive_2 := fun ps t e _ => ∀ w, LightAll pool w ps → esize e ≤ w + 7 * t.length) with
  | number _ => intro w hl; cases hl with | number h => exact Nat.le_trans (cutOff_size hN _ _) (by omega)
  | noIndex _ => intro w hl; cases hl with | constant h _ => exact cut_size hN (.inl rfl) h
  | outside _ => intro w hl; cases hl with | constant h _ => exact Nat.le_trans (Nat.le_of_eq (esize_plainly _)) (Nat.le_trans (index_size _) (by omega))
  | constant h1 => intro w hl; cases hl with | constant _ h => rw [esize_plainly]; have := h _ _ h1; omega
  | judged _ ih =>
    intro w hl
    cases hl with
    | judged h2 h3 _ =>
      have := ih _ h2
      simp only [esize, List.map_append, List.sum_append] at this ⊢
      omega
  | notFine _ _ => intro w hl; cases hl with | judged _ _ h => rw [esize_plainly]; omega
  | noFlags _ => intro w hl; cases hl with | flags h _ => exact cut_size hN (.inl rfl) h
  | flags _ => intro w hl; cases hl with | flags _ h => omega
  | noCount1 => intro w hl; cases hl with | table1 h _ => exact cut_size hN (.inr rfl) h
  | table1 _ ih =>
    intro w hl
    cases hl with
    | table1 _ h =>
      have := ih _ (lightAll_rows fun k hk => h k (Nat.lt_trans hk (Nat.lt_trans (UInt8.toNat_lt _) (by omega))))
      simp [u1]; omega
  | noCount2 _ => intro w hl; cases hl with | table2 h _ => exact cut_size hN (.inl rfl) h
  | table2 _ ih =>
    intro w hl
    cases hl with
    | table2 _ h =>
      have := ih _ (lightAll_rows fun k hk => h k (Nat.lt_trans hk (UInt16.toNat_lt _)))
      simp [u2]; omega
  | noTag => intro w hl; cases hl with | tagged h _ _ => exact cut_size hN (.inr rfl) h
  | tag h1 => intro w hl; cases hl with | tagged _ h _ => have := h _ h1; omega
  | tagged hb _ ih => intro w hl; cases hl with | tagged _ _ h => have := ih _ (h _ _ hb); simp only [List.length_cons]; omega
  | within _ ih => intro w hl; cases hl with | within h2 h3 => rw [esize_inside]; have := ih _ h2; omega
  | noElementTag => intro w hl; cases hl with | elementValue h => exact cut_size hN (.inr rfl) (by omega)
  | elementTag _ =>
    intro w hl
    cases hl with
    | elementValue h =>
      rw [esize_plainly]
      textlen
  | elementValue hb _ ih =>
    intro w hl
    cases hl with
    | elementValue h => have := ih _ (light_element hb); simp only [List.length_cons]; omega
  | here _ ih w hl =>
    cases hl with
    | cons h2 _ => exact ih _ h2
    | paid _ h2 _ => exact ih _ h2
  | later hf _ ih w hl =>
    cases hl with
    | cons _ h2 => have := ih _ h2; simp only [List.length_append]; omega
    | paid h0 _ h2 => have := ih _ h2; have := h0 _ hf; simp only [List.length_append]; omega

theorem firstBlame_size {N : Nat} {pool : Pool} {ps : List Part} {t : Bytes} {e : ParseError} (hN : N < 18446744073709551616) (h : FirstBlame N pool ps t e)
    {w : Nat} (hl : LightAll pool w ps) : esize e ≤ w + 7 * t.length := by
  induction ps generalizing w t with
  | nil => cases h
  | cons p ps ih =>
    cases h with
    | here h1 =>
      cases hl with
      | cons h2 _ => exact blamed_size hN h1 h2
      | paid _ h2 _ => exact blamed_size hN h1 h2
    | later hf h1 =>
      cases hl with
      | cons _ h2 => have := ih h1 h2; simp only [List.length_append]; omega
      | paid h0 _ h2 => have := ih h1 h2; have := h0 _ hf; simp only [List.length_append]; omega

/-! ## The layouts -/

theorem u8_digits (b : UInt8) : (toString b).toList.length ≤ 3 := by
  have : toString b = b.toNat.repr := rfl
  rw [this]
  exact digits_le (by omega) (by have := b.toNat_lt; omega)

theorem light_word {pool : Pool} {w : Nat} (h : 65 ≤ w) : Light pool w word := .number (by simp; omega)
theorem light_octet {pool : Pool} {w : Nat} (h : 65 ≤ w) : Light pool w octet := .number (by simp; omega)
theorem light_quad {pool : Pool} {w : Nat} (h : 65 ≤ w) : Light pool w quad := .number (by simp; omega)

/-- A part that consists of the index of a constant or of a number. -/
macro "leaf" : tactic => `(tactic| first | exact light_kind (by omega) | exact light_descriptor (by omega) | exact light_word (by omega) | exact light_octet (by omega) | exact light_quad (by omega))

/-- Parts that are leaves, or leaves with a context. -/
macro "leaves" : tactic => `(tactic| repeat' (first | exact LightAll.nil | refine LightAll.cons ?_ ?_ | leaf | refine Light.within (v := 80) (LightAll.cons (by leaf) LightAll.nil) (by textlen)))

theorem light_verification {pool : Pool} {w : Nat} (h : 120 ≤ w) : Light pool w (verification pool) := by
  refine .tagged (by omega) (fun b _ => ?_) fun b ps hb => ?_
  · have hd := u8_digits b
    simp only [esize]
    textlen
  · split at hb
    · cases hb; exact .nil
    · split at hb
      · cases hb; leaves
      · split at hb
        · cases hb; leaves
        · cases hb

theorem rows_within {pool : Pool} {w : Nat} {c : Nat → String} {n : Nat} {p : Part} (h : Light pool 120 p)
    (hc : ∀ k, k < n → (c k).toList.length + 124 ≤ w) : LightAll pool w (rows n fun k => [.within (c k) [p]]) :=
  lightAll_rows fun k hk => .cons (.within (v := 120) (.cons h .nil) (by have := hc k hk; omega)) .nil

theorem table_within {pool : Pool} {w : Nat} {c : Nat → String} {p : Part} (hw : 65 ≤ w) (h : Light pool 120 p)
    (hc : ∀ k, k < 65536 → (c k).toList.length + 110 ≤ w) : Light pool w (.table2 fun k => [.within (c k) [p]]) :=
  .table2 hw fun k hk => .cons (.within (v := 120) (.cons h .nil) (by have := hc k hk; omega)) .nil

theorem light_frame {pool : Pool} {k : Nat} (hk : k < 65536) : Light pool 200 (frame pool k) := by
  have hv := light_verification (pool := pool) (w := 120) (by omega)
  have dk := digits5 hk
  refine .tagged (by omega) (fun b _ => ?_) fun b ps hb => ?_
  · have hd := u8_digits b
    simp only [esize]
    textlen
  · repeat' split at hb
    all_goals first | (cases hb; done) | skip
    all_goals cases hb
    · exact .nil
    · exact .cons (.within (v := 120) (.cons hv .nil) (by textlen)) .nil
    · exact .cons (light_word (by omega)) (.cons (.within (v := 120) (.cons hv .nil) (by textlen)) .nil)
    · leaves
    · refine .cons (light_word (by omega)) (rows_within hv fun j hj => ?_)
      have dj := digits5 (n := j) (by have := b.toNat_lt; omega)
      textlen
    · refine .cons (light_word (by omega)) (.cons (table_within (by omega) hv fun j hj => ?_) (.cons (table_within (by omega) hv fun j hj => ?_) .nil))
      all_goals
        have dj := digits5 hj
        textlen

theorem light_variable {pool : Pool} {k : Nat} (hk : k < 65536) : Light pool 120 (variableName pool k) := by
  have dk := digits5 hk
  exact .judged (v := 80) (light_kind (by omega)) (by textlen) (by textlen)

theorem light_target {pool : Pool} {k : Nat} (hk : k < 65536) : Light pool 120 (target k) := by
  have dk := digits5 hk
  refine .tagged (by omega) (fun b _ => ?_) fun b ps hb => ?_
  · have hd := u8_digits b
    simp only [esize]
    textlen
  · repeat' split at hb
    all_goals first | (cases hb; done) | skip
    all_goals cases hb
    all_goals first | (leaves; done) | skip
    exact .cons (.table2 (by omega) fun _ _ => by leaves) .nil

theorem light_typeAnnotation {pool : Pool} {k : Nat} (hk : k < 65536) : LightAll pool 250 (typeAnnotation pool k) := by
  have dk := digits5 hk
  refine .cons (light_mono (light_target hk) (by omega)) (.cons (.table1 (by omega) fun j hj => ?_) (.cons (.within (v := 200) (light_annotation (by omega)) (by textlen)) .nil))
  have dj := digits5 hj
  refine .cons (.tagged (by omega) (fun b _ => ?_) fun b ps hb => ?_) .nil
  · have hd := u8_digits b
    simp only [esize]
    textlen
  · split at hb
    · cases hb; leaves
    · cases hb

/-- Parts that are leaves, leaves with a context, flags, or tables of these, for which a bound on the number of the row is introduced. -/
macro "parts" : tactic => `(tactic| repeat' (first | exact LightAll.nil | refine LightAll.cons ?_ ?_ | leaf | refine Light.within (v := 80) (LightAll.cons (by leaf) LightAll.nil) (by textlen) | (refine Light.flags ?_ ?_ <;> first | (omega; done) | (simp only [esize]; textlen; done))))

theorem light_module {pool : Pool} : LightAll pool 200 (modulePart pool) := by
  unfold modulePart
  parts
  · refine .table2 (by omega) fun k hk => ?_
    have dk := digits5 hk
    parts
  · refine .table2 (by omega) fun k hk => ?_
    have dk := digits5 hk
    parts
    refine .table2 (by omega) fun j hj => ?_
    have dj := digits5 hj
    parts
  · refine .table2 (by omega) fun k hk => ?_
    have dk := digits5 hk
    parts
    refine .table2 (by omega) fun j hj => ?_
    have dj := digits5 hj
    parts
  · refine .table2 (by omega) fun k hk => ?_
    have dk := digits5 hk
    parts
  · refine .table2 (by omega) fun k hk => ?_
    have dk := digits5 hk
    parts
    refine .table2 (by omega) fun j hj => ?_
    have dj := digits5 hj
    parts

theorem light_one {pool : Pool} {v w : Nat} {c : String} {ps : List Part} (h : LightAll pool v ps) (hc : v + (c.toList.length + 4) ≤ w) :
    LightAll pool w [.within c ps] := .cons (.within h hc) .nil

theorem light_table {pool : Pool} {w : Nat} {row : Nat → List Part} (hw : 65 ≤ w) (h : ∀ k, k < 65536 → LightAll pool (w + 14) (row k)) :
    LightAll pool w [.table2 row] := .cons (.table2 hw h) .nil

theorem light_layouts {pool : Pool} {n : Nat} (hn : n < 65536) {title : String} {ps : List Part} (h : (title, ps) ∈ layouts pool n) :
    LightAll pool 320 ps := by
  have dn := digits5 hn
  simp only [layouts, List.mem_cons, List.not_mem_nil, or_false, Prod.mk.injEq] at h
  rcases h with h | h | h | h | h | h | h | h | h | h | h | h | h | h | h | h | h | h | h | h | h | h | h | h | h | h | h <;> obtain ⟨-, rfl⟩ := h
  · parts
  · refine light_one (v := 250) (light_table (by omega) fun k hk => .cons (light_mono (light_frame hk) (by omega)) .nil) (by textlen)
  · refine light_one (v := 250) (light_table (by omega) fun k hk => ?_) (by textlen)
    have dk := digits5 hk
    parts
  · refine light_one (v := 250) (light_table (by omega) fun k hk => ?_) (by textlen)
    have dk := digits5 hk
    parts
  · parts
  · parts
  · parts
  · parts
  · refine light_one (v := 250) (light_table (by omega) fun k hk => ?_) (by textlen)
    have dk := digits5 hk
    parts
  · refine light_one (v := 250) (light_table (by omega) fun k hk => ?_) (by textlen)
    have dk := digits5 hk
    parts
    · exact light_mono (light_variable hk) (by omega)
    all_goals parts
  · refine light_one (v := 250) (light_table (by omega) fun k hk => ?_) (by textlen)
    have dk := digits5 hk
    parts
    · exact light_mono (light_variable hk) (by omega)
    all_goals parts
  · parts
  · exact light_one (v := 250) (light_table (by omega) fun k hk => light_one (v := 200) (light_annotation (by omega)) (by have dk := digits5 hk; textlen)) (by textlen)
  · exact light_one (v := 250) (light_table (by omega) fun k hk => light_one (v := 200) (light_annotation (by omega)) (by have dk := digits5 hk; textlen)) (by textlen)
  · exact light_one (v := 250) (.cons (.table1 (by omega) fun k hk => light_table (by omega) fun j hj => light_one (v := 200) (light_annotation (by omega))
      (by have dk := digits5 hk; have dj := digits5 hj; textlen)) .nil) (by textlen)
  · exact light_one (v := 250) (.cons (.table1 (by omega) fun k hk => light_table (by omega) fun j hj => light_one (v := 200) (light_annotation (by omega))
      (by have dk := digits5 hk; have dj := digits5 hj; textlen)) .nil) (by textlen)
  · exact light_one (v := 250) (light_table (by omega) fun k hk => lightAll_mono (light_typeAnnotation hk) (by omega)) (by textlen)
  · exact light_one (v := 250) (light_table (by omega) fun k hk => lightAll_mono (light_typeAnnotation hk) (by omega)) (by textlen)
  · exact light_one (v := 250) (.cons (.elementValue (by omega)) .nil) (by textlen)
  · refine light_one (v := 250) (light_table (by omega) fun k hk => ?_) (by textlen)
    have dk := digits5 hk
    parts
    refine .table2 (by omega) fun j hj => ?_
    have dj := digits5 hj
    parts
  · refine light_one (v := 250) (.cons (.table1 (by omega) fun k hk => ?_) .nil) (by textlen)
    have dk := digits5 hk
    refine .cons (.judged (v := 80) (light_kind (by omega)) (by textlen) (by textlen)) ?_
    parts
  · exact light_one light_module (by textlen)
  · refine light_one (v := 250) (light_table (by omega) fun k hk => ?_) (by textlen)
    have dk := digits5 hk
    parts
  · exact light_one (v := 250) (by parts) (by textlen)
  · exact light_one (v := 250) (by parts) (by textlen)
  · refine light_one (v := 250) (light_table (by omega) fun k hk => ?_) (by textlen)
    have dk := digits5 hk
    parts
  · refine light_one (v := 250) (light_table (by omega) fun k hk => ?_) (by textlen)
    have dk := digits5 hk
    parts

theorem light_exceptions {pool : Pool} : Light pool 200 (exceptionTable pool) := by
  refine .table2 (by omega) fun k hk => ?_
  have dk := digits5 hk
  parts

theorem light_load {pool : Pool} : Light pool 100 (loadIx pool) := .constant (by omega) fun i m h => by
  obtain ⟨-, rfl⟩ := h
  simp

theorem light_operands {pool : Pool} (k : Operands) : LightAll pool 100 (operandParts pool k) := by
  cases k <;> unfold operandParts <;> parts
  exact light_load

/-! ## Code -/

theorem i32_digits (j : Int32) : (toString j).toList.length ≤ 11 := by
  have : toString j = toString j.toInt := rfl
  rw [this]
  have h1 := j.toInt_lt
  have h2 := j.le_toInt
  cases hj : j.toInt with
  | ofNat n =>
    have : toString (Int.ofNat n) = n.repr := rfl
    rw [this]
    exact Nat.le_trans (digits_le (k := 10) (by omega) (by rw [hj] at h1; simp only [Int.ofNat_eq_natCast] at h1; omega)) (by omega)
  | negSucc n =>
    have : toString (Int.negSucc n) = "-" ++ (n + 1).repr := rfl
    rw [this, String.toList_append, List.length_append]
    have := digits_le (n := n + 1) (k := 10) (by omega) (by omega)
    simp [-Nat.toList_repr]
    omega

theorem insnWrong_size {checks : Bool} {pool : Pool} {N start : Nat} {t : Bytes} {e : ParseError} (hN : N < 9223372036854775808)
    (hs : start + t.length ≤ N) (h : InsnWrong checks pool N start t e) : esize e ≤ 200 + 7 * t.length := by
  have blame : ∀ {ps : List Part} {t' : Bytes}, LightAll pool 200 ps → t'.length ≤ t.length → FirstBlame N pool ps t' e → esize e ≤ 200 + 7 * t.length := by
    intro ps t' hl ht hf
    have := firstBlame_size (by omega) hf hl
    omega
  have digits : ∀ k, k ≤ 20 → (start + k).repr.toList.length ≤ 20 := fun k hk => digits20 (by omega)
  cases h with
  | @opcode b t h => have := digits20 (n := start) (by omega); have := u8_digits b; rw [esize_plainly]; textlen
  | operands h hf => exact blame (lightAll_mono (light_operands _) (by omega)) (by simp) hf
  | @ldcOutside i t h =>
    have := digits5 (n := i.toNat) (by have := i.toNat_lt; omega)
    rw [esize_plainly]; textlen
  | ldc h => obtain ⟨-, rfl⟩ := h; rw [esize_plainly]; simp; omega
  | newarray h => have := digits 1 (by omega); rw [esize_plainly]; textlen
  | invokeinterface h hz => have := digits 4 (by omega); rw [esize_plainly]; textlen
  | invokedynamic h hz => have := digits 3 (by omega); rw [esize_plainly]; textlen
  | @wide v t h => have := digits 1 (by omega); have := u8_digits v; rw [esize_plainly]; textlen
  | wideLocal _ _ hf => exact blame (by parts) (by simp; omega) hf
  | wideIinc hf => exact blame (by parts) (by simp; omega) hf
  | @noPadding b k t _ _ hk _ => have := digits (1 + k) (by omega); rw [Nat.add_assoc, esize_plainly]; textlen
  | tableHeader _ hf => exact blame (by parts) (by simp; omega) hf
  | @lowHigh pad t d low high hp _ => have := digits (1 + pad.length + 8) (by have := hp.1; omega); rw [Nat.add_assoc, Nat.add_assoc, esize_plainly, ← Nat.add_assoc 1]; textlen
  | @span pad t d low high _ hp _ => have := digits (1 + pad.length + 8) (by have := hp.1; omega); rw [Nat.add_assoc, Nat.add_assoc, esize_plainly, ← Nat.add_assoc 1]; textlen
  | jumps _ _ _ hf => exact blame (lightAll_rows fun _ _ => by parts) (by simp; omega) hf
  | lookupHeader _ hf => exact blame (by parts) (by simp; omega) hf
  | @negative pad t d n hp _ => have := digits (1 + pad.length + 4) (by have := hp.1; omega); rw [Nat.add_assoc, Nat.add_assoc, esize_plainly, ← Nat.add_assoc 1]; textlen
  | pairs _ _ hf => exact blame (lightAll_rows fun _ _ => by parts) (by simp; omega) hf

theorem badJump_size {checks : Bool} {ops : List (Nat × Opcode)} {off : Nat} {j : Int32} {m : String} (h : BadJump checks ops off j m) :
    m.toList.length ≤ 41 := by
  cases h <;> simp

theorem jumpSays_size {checks : Bool} {pool : Pool} {ops : List (Nat × Opcode)} {off : Nat} {op : Opcode} {e : ParseError} {seg : Bytes}
    (he : InsnEnc checks pool off op seg) (h : JumpSays checks ops off op e) : esize e ≤ 100 := by
  cases h with
  | far _ => simp [esize]
  | jump _ _ _ _ hb => have := badJump_size hb; simp [esize]; omega
  | lookupDefault _ hb => have := badJump_size hb; simp [esize]; omega
  | @pair _ _ _ key _ _ _ _ _ _ hb =>
    have := badJump_size hb
    have := i32_digits key
    simp only [esize]
    textlen
  | rangeDefault _ hb => have := badJump_size hb; simp [esize]; omega
  | @range t before after j _ _ _ ht _ hb =>
    have := badJump_size hb
    have hc : t.jumps.length < 4294967296 := by
      simp only [InsnEnc, when] at he
      obtain ⟨⟨_, hj⟩, _⟩ := he
      rcases hj with ⟨_, hj⟩ | ⟨_, _, _, hj⟩
      · omega
      · simp [hj]
    have := digits20 (n := before.length) (by simp [ht] at hc; omega)
    simp only [esize]
    textlen

theorem insns_middle {checks : Bool} {pool : Pool} {off : Nat} {op : Opcode} {after : List (Nat × Opcode)} : ∀ {before : List (Nat × Opcode)} {pos : Nat} {code : Bytes},
    InsnsEnc checks pool pos (before ++ (off, op) :: after) code → ∃ seg, InsnEnc checks pool off op seg := by
  intro before
  induction before with
  | nil => intro pos code h; cases h with | cons h _ => exact ⟨_, h⟩
  | cons b before ih => intro pos code h; cases h with | cons _ h => exact ih h

theorem bytecode_size {checks : Bool} {pool : Pool} {code : Bytes} {e : ParseError} (hN : code.length < 9223372036854775808)
    (h : BytecodeSays checks pool code e) : esize e ≤ 200 + 7 * code.length := by
  cases h with
  | @instruction ops before t _ _ h =>
    have := insnWrong_size (by simpa using hN) (by simp) h
    simp only [List.length_append] at *
    omega
  | @jump before after off op _ e he _ h =>
    obtain ⟨seg, hseg⟩ := insns_middle he
    have := jumpSays_size hseg h
    have ho := ((insnsEnc_offsets he).2 (off, op) (by simp)).2
    have := digits20 (n := off) (by simp at ho; omega)
    rw [esize_inside]
    textlen

/-! ## Attributes -/

theorem text_size {N : Nat} {pool : Pool} {t : Bytes} {e : ParseError} (hN : N < 18446744073709551616) (h : Blamed N pool (textIx pool) t e) :
    esize e ≤ 65 + 7 * t.length := blamed_size hN h (light_kind (by omega))

theorem title_size {title : String} (h : (∃ m, (title, m) ∈ fixedLengths)) : title.toList.length ≤ 20 := by
  obtain ⟨m, h⟩ := h
  simp only [fixedLengths, List.mem_cons, List.not_mem_nil, or_false, Prod.mk.injEq] at h
  rcases h with h | h | h | h | h | h | h | h <;> obtain ⟨rfl, -⟩ := h <;> simp

theorem attrs_size {o : Opts} {pool : Pool} {N : Nat} {s : Bytes} {e : ParseError} (hN : N < 9223372036854775808) (hs : s.length ≤ N)
    (h : AttrsSays o pool N s e) : esize e ≤ 500 + 7 * s.length := by
  have hN' : N < 18446744073709551616 := by omega
  refine AttrsSays.rec
    (motive_1 := fun s e _ => s.length ≤ N → esize e ≤ 500 + 7 * s.length)
    (motive_2 := fun k s e _ => k < 65536 → s.length ≤ N → esize e ≤ 500 + 7 * s.length)
    (motive_3 := fun k _ n s e _ => k < 65536 → n < 4294967296 → s.length ≤ N → esize e ≤ 542 + 7 * s.length)
    (motive_4 := fun s e _ => s.length ≤ N → esize e ≤ 518 + 7 * s.length)
    (motive_5 := fun s e _ => s.length ≤ N → esize e ≤ 516 + 7 * s.length)
    (motive_6 := fun j s e _ => j < 65536 → s.length ≤ N → esize e ≤ 516 + 7 * s.length)
    ?_ ?_ ?_ ?_ ?_ ?_ ?_ ?_ ?_ ?_ ?_ ?_ ?_ ?_ ?_ ?_ ?_ ?_ ?_ ?_ ?_ ?_ ?_ h hs
  -- tables
  · intro t _ _; exact cut_size hN' (.inl rfl) (by omega)
  · intro count as before t e h _ _ ih hs
    have := ih (Nat.lt_trans h (UInt16.toNat_lt _)) (by simp at hs; omega)
    simp only [List.length_append]; omega
  -- attributes
  · intro k t e h hk _
    have := text_size hN' h
    have := digits5 hk
    rw [esize_inside]; textlen
  · intro k i name t _ _ _ _; exact Nat.le_trans (cutOff_size hN' _ _) (by simp; omega)
  · intro k i n name t _ _ _ _; exact Nat.le_trans (cutOff_size hN' _ _) (by simp; omega)
  · intro k i n name t e _ _ _ ih hk hs
    have := ih hk n.toNat_lt (by simp at hs; omega)
    simp [u2, u4]; omega
  · intro k i n name d s t _ _ _ _ _ _ _ hk _
    have := digits5 hk
    rw [esize_plainly]; textlen
  -- content
  · intro k n m title t h _ hk hn _
    have := title_size ⟨m, h⟩
    have := digits5 hk
    have := digits20 (n := n) (by omega)
    rw [esize_inside, esize_plainly]; textlen
  · intro k n title parts t e _ h hf hk _ _
    have := firstBlame_size hN' hf (light_layouts hk h)
    omega
  · intro k n t _ hk _ _
    have := digits5 hk
    rw [esize_inside, esize_plainly]; textlen
  · intro k n t e _ ih hk _ hs
    have := ih hs
    have := digits5 hk
    rw [esize_inside]; textlen
  · intro k n t e _ ih hk _ hs
    have := ih hs
    have := digits5 hk
    rw [esize_inside]; textlen
  -- code
  · intro t e hf _
    have := firstBlame_size (w := 65) hN' hf (by parts)
    omega
  · intro _ _ n t _ _; exact Nat.le_trans (cutOff_size hN' _ _) (by simp; omega)
  · intro _ _ n code t e _ hb hs
    have := blamed_size hN' hb light_exceptions
    simp; omega
  · intro x s t e _ _ ih hs
    have := ih (by simp at hs; omega)
    rw [esize_inside]; simp; omega
  · intro maxStack maxLocals code es as s t rest e hc _ _ hb hs
    have hl : code.length ≤ s.length := by
      obtain ⟨_, _, rfl, _, _, _, rfl, _, _, _, rfl, ⟨_, _, _, rfl, _, rfl⟩, _⟩ := hc
      simp; omega
    have := bytecode_size (by simp at hs; omega) hb
    rw [esize_inside]; simp; omega
  -- records
  · intro t _ _; exact cut_size hN' (.inl rfl) (by omega)
  · intro count cs before t e h _ _ ih hs
    have := ih (Nat.lt_trans h (UInt16.toNat_lt _)) (by simp at hs; omega)
    simp only [List.length_append]; omega
  · intro j t e h hj _
    have := text_size hN' h
    have := digits5 hj
    rw [esize_inside]; textlen
  · intro j i name t _ _ hj _
    have := digits5 hj
    rw [esize_plainly]; textlen
  · intro j i name t e _ _ h hj _
    have := blamed_size (w := 65) hN' h (light_descriptor (by omega))
    have := digits5 hj
    rw [esize_inside]; textlen
  · intro j i d name desc t e _ _ _ _ ih hj hs
    have := ih (by simp at hs; omega)
    have := digits5 hj
    rw [esize_inside]; simp only [u2, List.length_append]; textlen

end Cafebabe
