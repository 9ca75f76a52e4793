import Verif.Proofs.ErrorSize
/-!
# The size of the errors described by `SaysAll`: outside attributes
-/

namespace Cafebabe
open Spec

/-! ## The constant pool -/

theorem entry_size {decode : Bytes → Option Str} {major : UInt16} {e : Entry} {seg : Bytes} (h : EntryEnc decode major e seg) : 3 ≤ seg.length := by
  unfold EntryEnc at h
  split at h
  all_goals first | exact h.elim | skip
  all_goals first
    | (obtain ⟨_, _, _, _, rfl⟩ := h; simp [u2] <;> omega; done)
    | (obtain ⟨_, _, _, rfl⟩ := h; simp [u2] <;> omega; done)
    | (obtain ⟨_, rfl⟩ := h; simp [u2]; done)
    | (subst h; simp [u2, u4, u8])

theorem entries_size {decode : Bytes → Option Str} {major : UInt16} : ∀ {es : List Entry} {body : Bytes}, seq (EntryEnc decode major) es body →
    (es.flatMap slots).length ≤ body.length := by
  intro es
  induction es with
  | nil => intro _ _; simp
  | cons e es ih =>
    rintro _ ⟨s, t, rfl, h, ht⟩
    have := entry_size h
    have := ih ht
    have : (slots e).length ≤ 2 := by unfold slots; split <;> simp
    simp only [List.flatMap_cons, List.length_append]
    omega

theorem rawPool_size {decode : Bytes → Option Str} {checks : Bool} {major : UInt16} {raw : Pool} {seg : Bytes} (h : RawPoolEnc decode checks major raw seg) :
    raw.length ≤ seg.length := by
  obtain ⟨count, es, body, -, rfl, rfl, hs⟩ := h
  have := entries_size hs
  simp only [List.length_cons, List.length_append, u2, List.length_nil]
  omega

theorem entries_text {decode : Bytes → Option Str} {major : UInt16} (hd : ∀ b s, decode b = some s → s.length ≤ b.length) {name : Str} :
    ∀ {es : List Entry} {body : Bytes}, seq (EntryEnc decode major) es body → Entry.utf8 name ∈ es.flatMap slots → name.length ≤ body.length := by
  intro es
  induction es with
  | nil => intro _ _ h; simp at h
  | cons e es ih =>
    rintro _ ⟨s, t, rfl, h, ht⟩ hm
    simp only [List.flatMap_cons, List.mem_append] at hm
    rcases hm with hm | hm
    · have : e = .utf8 name := by unfold slots at hm; split at hm <;> simp_all
      subst this
      obtain ⟨n, b, _, hb, rfl⟩ := h
      have := hd b name hb
      simp only [List.length_append]
      omega
    · have := ih ht hm
      simp only [List.length_append]
      omega

theorem pool_text {decode : Bytes → Option Str} {checks : Bool} {major : UInt16} {pool : Pool} {seg : Bytes} (h : PoolEnc decode checks major pool seg)
    (hd : ∀ b s, decode b = some s → s.length ≤ b.length) {i : Nat} {name : Str} (ht : TextAt pool i name) : name.length ≤ seg.length := by
  obtain ⟨raw, ⟨count, es, body, -, rfl, rfl, hs⟩, rfl, -⟩ := h
  have hm : Entry.utf8 name ∈ (Entry.zero :: es.flatMap slots).map linkEntry := List.mem_of_getElem? ht
  obtain ⟨e, he, hl⟩ := List.mem_map.mp hm
  have : e = .utf8 name := by cases e <;> simp_all [linkEntry]
  subst this
  have := entries_text hd hs (by simpa using he)
  simp only [List.length_append]
  omega

theorem number_size {N : Nat} (hN : N < 18446744073709551616) {ws : List (String × Nat)} {t : Bytes} {e : ParseError} (h : NumberCut N ws t e)
    (hw : ∀ p ∈ ws, p.1.toList.length ≤ 2) : esize e ≤ 65 := by
  induction h with
  | @here w size rest t _ => have := hw (w, size) (by simp); exact Nat.le_trans (cutOff_size hN _ _) (by simp only at this; omega)
  | later _ _ ih => exact ih fun p hp => hw p (by simp [hp])

theorem constantWrong_size {N : Nat} (hN : N < 18446744073709551616) {major : UInt16} {t : Bytes} {e : ParseError} (h : ConstantWrong N major t e) :
    esize e ≤ 200 := by
  have u16 : ∀ v : UInt16, (toString v).toList.length ≤ 5 := fun v => digits5 (n := v.toNat) v.toNat_lt
  have ix : ∀ k, (N - k).repr.toList.length ≤ 20 := fun k => digits20 (by omega)
  cases h with
  | noTag => exact Nat.le_trans (cutOff_size hN _ _) (by simp)
  | @tag b t _ =>
    have := u8_digits b
    have := u16 major
    have := ix (t.length + 1)
    rw [esize_plainly]; textlen
  | @number b t e _ h =>
    refine Nat.le_trans (number_size hN h ?_) (by omega)
    unfold tagNumbers
    split <;> simp
  | text _ => exact Nat.le_trans (cutOff_size hN _ _) (by simp)
  | noKind _ => exact Nat.le_trans (cutOff_size hN _ _) (by simp)
  | @kind k t _ _ =>
    have := u8_digits k
    have := ix (t.length + 1)
    rw [esize_plainly]; textlen
  | noReference _ _ => exact Nat.le_trans (cutOff_size hN _ _) (by simp)

theorem textSays_size {pool : Pool} {D : Str → Prop} {complaint : String} {x : Nat} {m : String} (h : TextSays pool D complaint x m)
    (hc : complaint.toList.length ≤ 65) : m.toList.length ≤ 65 := by
  cases h with
  | bad => exact hc
  | _ => simp

theorem fieldTypeSays_size {pool : Pool} {n : Nat} {m : String} (h : FieldTypeSays pool n m) : m.toList.length ≤ 65 := by
  cases h with
  | kind => simp
  | descriptor _ h => exact textSays_size h (by simp)

theorem methodTypeSays_size {pool : Pool} {n : Nat} {m : String} (h : MethodTypeSays pool n m) : m.toList.length ≤ 65 := by
  cases h with
  | kind => simp
  | descriptor _ _ _ h => exact textSays_size h (by simp)

theorem entrySays_size {major : UInt16} {pool : Pool} {e : Entry} {m : String} (h : EntrySays major pool e m) : m.toList.length ≤ 65 := by
  cases h with
  | classInfo h => exact textSays_size h (by simp)
  | field _ h => exact fieldTypeSays_size h
  | method _ h => exact methodTypeSays_size h
  | interfaceMethod _ h => exact methodTypeSays_size h
  | name h => exact textSays_size h (by simp)
  | methodType h => exact textSays_size h (by simp)
  | dynamic h => exact fieldTypeSays_size h
  | invokeDynamic h => exact methodTypeSays_size h
  | moduleInfo h => exact textSays_size h (by simp)
  | packageInfo h => exact textSays_size h (by simp)
  | _ => simp

theorem poolSays_size {o : Opts} {N : Nat} (hN : N < 18446744073709551616) {major : UInt16} {s : Bytes} {e : ParseError} (hs : s.length ≤ N)
    (h : PoolSays o N major s e) : esize e ≤ 200 := by
  cases h with
  | raw h =>
    cases h with
    | noCount _ => exact Nat.le_trans (cutOff_size hN _ _) (by simp)
    | constant _ _ _ h => exact constantWrong_size hN h
  | @range raw s rest m hr h =>
    have hl := rawPool_size hr
    cases h with
    | @intro i e j _ _ _ hi _ _ _ h =>
      have hi : i < raw.length := (List.getElem?_eq_some_iff.mp hi).1
      have := digits20 (n := i) (by simp at hs; omega)
      have := digits5 j.toNat_lt
      rw [esize_plainly]
      cases h <;> textlen
  | @entry raw s rest i e m hr _ hi h _ =>
    have hl := rawPool_size hr
    have hi : i < (raw.map linkEntry).length := (List.getElem?_eq_some_iff.mp hi).1
    have := digits20 (n := i) (by simp at hs hi; omega)
    have := entrySays_size h
    rw [esize_inside, esize_plainly]
    textlen

/-! ## After the constant pool -/

theorem indexSays_size {N : Nat} (hN : N < 18446744073709551616) {pool : Pool} {K : Entry → Prop} {t : Bytes} {e : ParseError} (h : IndexSays N pool K t e) :
    esize e ≤ 65 := by
  cases h with
  | cut _ => exact Nat.le_trans (cutOff_size hN _ _) (by simp)
  | @outside i t _ => exact Nat.le_trans (Nat.le_of_eq (esize_plainly _)) (Nat.le_trans (index_size _) (by omega))
  | kind _ _ => rw [esize_plainly]; simp

theorem classNameSays_size {s : Str} {m : String} (h : ClassNameSays s m) : m.toList.length ≤ 50 := by
  induction h <;> first | assumption | simp

theorem classIndex_size {N : Nat} (hN : N < 18446744073709551616) {pool : Pool} {opt : Prop} {t : Bytes} {e : ParseError}
    (h : ClassIndexSays N pool opt t e) : esize e ≤ 65 := by
  cases h with
  | index h => exact indexSays_size hN h
  | name _ h => have := classNameSays_size h; rw [esize_plainly]; omega

theorem methodSays_size {s : Str} {m : String} (h : MethodSays s m) : m.toList.length ≤ 60 := by
  cases h with
  | start _ => simp
  | parameter _ _ h => exact fieldSays_size h
  | returns _ _ h => exact fieldSays_size h

theorem descriptorIndex_size {N : Nat} (hN : N < 18446744073709551616) {pool : Pool} {t : Bytes} {e : ParseError} (h : DescriptorIndexSays N pool t e) :
    esize e ≤ 65 := by
  cases h with
  | index h => exact indexSays_size hN h
  | text _ h => have := methodSays_size h; rw [esize_plainly]; omega

theorem fieldWrong_size {N : Nat} (hN : N < 18446744073709551616) {pool : Pool} {A : Bytes → ParseError → Prop} {fs : List FieldInfo} {t : Bytes}
    {e : ParseError} (hf : fs.length < 65536) (h : FieldWrong N pool A fs t e)
    (hA : ∀ s e, s.length ≤ t.length → A s e → esize e ≤ 500 + 7 * s.length) : esize e ≤ 550 + 7 * t.length := by
  have := digits5 hf
  cases h with
  | flags _ => exact Nat.le_trans (cutOff_size hN _ _) (by simp; omega)
  | name h => have := indexSays_size hN h; rw [esize_inside]; textlen
  | badName _ _ => rw [esize_plainly]; textlen
  | descriptor _ _ h => have := indexSays_size hN h; rw [esize_inside]; textlen
  | badDescriptor _ _ _ h => have := fieldSays_size h; rw [esize_plainly]; omega
  | duplicate _ _ _ _ => rw [esize_plainly]; textlen
  | attributes _ _ _ _ h => have := hA _ _ (by simp; omega) h; rw [esize_inside]; textlen

theorem methodWrong_size {N : Nat} (hN : N < 18446744073709551616) {pool : Pool} {A : Bytes → ParseError → Prop} {ii : Prop} {major : UInt16}
    {ms : List MethodInfo} {t : Bytes} {e : ParseError} (hf : ms.length < 65536) (h : MethodWrong N pool A ii major ms t e)
    (hA : ∀ s e, s.length ≤ t.length → A s e → esize e ≤ 500 + 7 * s.length) : esize e ≤ 550 + 7 * t.length := by
  have := digits5 hf
  cases h with
  | flags _ => exact Nat.le_trans (cutOff_size hN _ _) (by simp; omega)
  | name h => have := indexSays_size hN h; rw [esize_inside]; textlen
  | badName _ _ => rw [esize_plainly]; textlen
  | descriptor _ _ h => have := descriptorIndex_size hN h; rw [esize_inside]; textlen
  | special _ _ _ h => rw [esize_plainly]; cases h <;> textlen
  | duplicate _ _ _ _ _ => rw [esize_plainly]; textlen
  | attributes _ _ _ _ _ h => have := hA _ _ (by simp; omega) h; rw [esize_inside]; textlen

theorem barred_size : ∀ l : List String, (barred l).toList.length ≤ 7 + (l.map fun s => s.toList.length + 3).sum := by
  intro l
  induction l with
  | nil => simp [barred]
  | cons a l ih =>
    cases l with
    | nil => simp [barred]; omega
    | cons b rest => simp only [barred, List.map_cons, List.sum_cons, String.toList_append, List.length_append] at ih ⊢; simp; omega

theorem filtered_sum {α : Type} (f : α → Nat) (p : α → Bool) : ∀ l : List α, ((l.filter p).map f).sum ≤ (l.map f).sum := by
  intro l
  induction l with
  | nil => simp
  | cons a l ih => simp only [List.filter_cons]; split <;> simp <;> omega

theorem flagsText_size (flags : UInt16) : (flagsText flags).toList.length ≤ 96 := by
  unfold flagsText
  refine Nat.le_trans (barred_size _) ?_
  rw [List.map_map]
  have := filtered_sum ((fun s : String => s.toList.length + 3) ∘ fun p : UInt16 × String => p.2) (fun p => flags &&& p.1 != 0) classFlags
  refine Nat.le_trans (Nat.add_le_add_left this 7) ?_
  simp [classFlags]

theorem bodySays_size {N : Nat} (hN : N < 18446744073709551616) {major : UInt16} {pool : Pool} {t : Bytes} {e : ParseError} (h : BodySays N major pool t e) :
    esize e ≤ 200 := by
  cases h with
  | noFlags _ => exact Nat.le_trans (cutOff_size hN _ _) (by simp)
  | @flags bits t m h =>
    rw [esize_plainly]
    cases h with
    | version _ _ =>
      have : (toString major).toList.length ≤ 5 := digits5 (n := major.toNat) major.toNat_lt
      textlen
    | others _ _ _ =>
      have := flagsText_size (bits &&& 0xF631)
      textlen
  | thisClass _ h => have := classIndex_size hN h; rw [esize_inside]; textlen
  | superClass _ _ h => have := classIndex_size hN h; rw [esize_inside]; textlen
  | interfaces _ _ _ _ => exact Nat.le_trans (cutOff_size hN _ _) (by simp)
  | @interface' _ _ _ count _ _ ifs _ _ _ _ _ _ hl _ h =>
    have := classIndex_size hN h
    have := digits5 (Nat.lt_trans hl count.toNat_lt)
    rw [esize_inside]; textlen

theorem table2_count {α : Type} {F : α → Lang} {l : List α} {s : Bytes} (h : table2 F l s) : l.length < 65536 := by
  obtain ⟨c, hc, -⟩ := h
  have := c.toNat_lt
  omega

theorem endSays_size {N : Nat} (hN : N < 18446744073709551616) {pool : Pool} {flags : UInt16} {super : Option ClassName} {ifs : List ClassName}
    {fs : List FieldInfo} {ms : List MethodInfo} {as : List AttributeInfo} {rest : Bytes} {m : String} {len : Nat}
    (hc : ∀ c, super = some c → c.name.length ≤ len) (hi : ifs.length < 65536) (hf : fs.length < 65536) (hm : ms.length < 65536) (ha : as.length < 65536)
    (h : EndSays N pool flags super ifs fs ms as rest m) : m.toList.length ≤ 200 + len := by
  have := digits5 hi
  have := digits5 hf
  have := digits5 hm
  cases h with
  | extra _ => have := digits20 (n := N - rest.length) (by omega); textlen
  | @super c _ _ h => have := hc c h; textlen
  | interfaces => textlen
  | fields => textlen
  | methods => textlen
  | bootstrap _ _ _ _ _ h =>
    cases h with
    | index => simp; omega
    | number =>
      have : (bootstrapTables as).length ≤ as.length := List.length_filterMap_le _ _
      have := digits5 (n := (bootstrapTables as).length) (by omega)
      textlen

theorem saysAll_size {o : Opts} {bytes : Bytes} {e : ParseError} (hN : bytes.length < 9223372036854775808)
    (hd : ∀ b s, o.decode b = some s → s.length ≤ b.length) (h : SaysAll o bytes e) : esize e ≤ 550 + 7 * bytes.length := by
  have hN' : bytes.length < 18446744073709551616 := by omega
  have hA : ∀ pool s e, s.length ≤ bytes.length → AttrsSays o pool bytes.length s e → esize e ≤ 500 + 7 * s.length :=
    fun pool s e hs h => attrs_size hN hs h
  unfold SaysAll at h
  generalize hb : bytes.length = N at *
  cases h with
  | header h =>
    cases h with
    | magic => rw [esize_plainly]; simp; omega
    | _ => exact Nat.le_trans (cutOff_size hN' _ _) (by simp; omega)
  | pool h => have := poolSays_size hN' (by simp at hb; omega) h; omega
  | body _ h => have := bodySays_size hN' h; omega
  | @back minor major bits i j pool this super ifs sp si t _ hp _ _ hsup hi h =>
    have hlen : sp.length + t.length ≤ N := by simp at hb; omega
    cases h with
    | fields _ => exact Nat.le_trans (cutOff_size hN' _ _) (by simp; omega)
    | @field count fs before t e hc _ _ h =>
      have := fieldWrong_size hN' (Nat.lt_trans hc count.toNat_lt) h fun s e hs => hA pool s e (by simp at hlen; omega)
      simp at hlen; omega
    | methods _ _ _ => exact Nat.le_trans (cutOff_size hN' _ _) (by simp; omega)
    | @method count fs ms sf before t e _ _ hc _ _ h =>
      have := methodWrong_size hN' (Nat.lt_trans hc count.toNat_lt) h fun s e hs => hA pool s e (by simp at hlen; omega)
      simp at hlen; omega
    | @attributes fs ms sf sm t e _ _ _ _ h =>
      have := hA pool _ _ (by simp at hlen; omega) h
      rw [esize_inside]
      simp at hlen ⊢; omega
    | @final fs ms as sf sm sa rest m _ hf _ hm ha h =>
      have := endSays_size (len := sp.length) hN' (fun c hc => ?_) (table2_count hi) (table2_count hf) (table2_count hm) ?_ h
      · rw [esize_plainly]; omega
      · subst hc
        obtain ⟨⟨x, _, ht⟩, _⟩ := hsup
        exact pool_text hp hd ht
      · exact table2_count ha

end Cafebabe
