import Verif.Proofs.Work
/-!
# Bounds on steps
-/

namespace Cafebabe
open Spec Timed

theorem allT_le (f : Char → Bool) : ∀ s, (allT f s).steps ≤ s.length
  | [] => Nat.le_refl _
  | c :: rest => by
    unfold allT
    rw [steps_tick_bind, List.length_cons]
    split
    · have := allT_le f rest; omega
    · rw [steps_free]; omega

theorem allT_eq (f : Char → Bool) : ∀ {s : Str}, s.all f = true → (allT f s).steps = s.length
  | [], _ => rfl
  | c :: rest, h => by
    unfold allT
    rw [List.all_cons, Bool.and_eq_true] at h
    rw [steps_tick_bind, List.length_cons, if_pos h.1, allT_eq f h.2]; omega

theorem unqualifiedT_le (s : Str) : (isUnqualifiedNameT s).steps ≤ s.length := by
  unfold isUnqualifiedNameT
  split
  · exact Nat.zero_le _
  · exact allT_le _ _

/-- What splitting and looking at the segments costs. -/
def segmentsCost : List Str → Nat
  | [] => 0
  | s :: r => (s.length + 1) + segmentsCost r

theorem segmentsT_le : ∀ l, (segmentsT l).steps ≤ 2 * segmentsCost l
  | [] => Nat.le_refl _
  | s :: r => by
    unfold segmentsT segmentsCost
    rw [steps_tick_bind, steps_bind_ok (isUnqualifiedNameT_out s)]
    have := unqualifiedT_le s
    split
    · have := segmentsT_le r; omega
    · rw [steps_free]; omega

theorem segmentsT_ge : ∀ {l : List Str}, l.all isUnqualifiedName = true → segmentsCost l ≤ (segmentsT l).steps
  | [], _ => Nat.zero_le _
  | s :: r, h => by
    rw [List.all_cons, Bool.and_eq_true] at h
    unfold segmentsT segmentsCost
    rw [steps_tick_bind, steps_bind_ok (isUnqualifiedNameT_out s), if_pos h.1]
    have := segmentsT_ge h.2
    omega

theorem segmentsCost_split : ∀ (s cur : Str), segmentsCost (splitSlashAux cur s) = cur.length + s.length + 1
  | [], cur => by unfold splitSlashAux; simp [segmentsCost]
  | c :: s, cur => by
    unfold splitSlashAux
    split
    · rw [segmentsCost, segmentsCost_split s []]; simp; omega
    · rw [segmentsCost_split s]; simp; omega

theorem binaryT_le (s : Str) : (isBinaryNameT s).steps ≤ 2 * s.length + 2 := by
  have := segmentsT_le (splitSlash s)
  rw [show segmentsCost (splitSlash s) = _ from segmentsCost_split s []] at this
  simp only [List.length_nil] at this
  unfold isBinaryNameT
  omega

theorem binaryT_ge {s : Str} (h : isBinaryName s = true) : s.length + 1 ≤ (isBinaryNameT s).steps := by
  have := segmentsT_ge (l := splitSlash s) h
  rw [show segmentsCost (splitSlash s) = _ from segmentsCost_split s []] at this
  simp only [List.length_nil] at this
  unfold isBinaryNameT
  omega

theorem methodNameT_le (s : Str) (a b : Bool) : (isUnqualifiedMethodNameT s a b).steps ≤ s.length + 2 := by
  unfold isUnqualifiedMethodNameT
  cases s with
  | nil => exact Nat.zero_le _
  | cons x r =>
    simp only [steps_tick_bind, List.length_cons]
    split
    · rw [steps_tick_bind, steps_free]; omega
    · split
      · rw [steps_free]; omega
      · have := allT_le isValidUnqualifiedMethodChar r; omega

theorem moduleT_le (s : Str) : (isModuleNameT s).steps ≤ s.length := by
  induction s using isModuleName.induct <;> (unfold isModuleNameT; simp_all only [steps_tick_bind, List.length_cons, List.length_nil, steps_free, if_true, if_false, Bool.false_eq_true]; try omega)

/-! ## Descriptors -/

theorem segAuxT_good (data : Str) : ∀ (s : Str) (ix : Nat), (∀ c ∈ s, GoodChar c) → (parseUnqualifiedSegmentAuxT data ix s).steps = s.length
  | [], _, _ => rfl
  | c :: rest, ix, h => by
    obtain ⟨h1, h2, h3, h4, h5, h6⟩ := h c (by simp)
    unfold parseUnqualifiedSegmentAuxT
    rw [steps_tick_bind]
    simp only [beq_iff_eq, h1, h2, h3, h4, h5, h6, Bool.and_eq_true, false_and, if_false, Bool.or_eq_true, or_self]
    rw [segAuxT_good data rest _ fun c hc => h c (by simp [hc]), List.length_cons]; omega

theorem segAuxT_stop (data : Str) (c : Char) (hc : ¬ GoodChar c) (rest : Str) : ∀ (s : Str) (ix : Nat), (∀ c ∈ s, GoodChar c) →
    (parseUnqualifiedSegmentAuxT data ix (s ++ c :: rest)).steps = s.length + 1
  | [], ix, h => by
    show (parseUnqualifiedSegmentAuxT data ix (c :: rest)).steps = 1
    unfold parseUnqualifiedSegmentAuxT
    rw [steps_tick_bind]
    split; · rfl
    split; · rfl
    split
    · have : (free (strSlice data 0 ix) >>= fun seg => free (Res.ok (seg, some c))).steps ≤ 0 := steps_free_bind_le fun _ _ => Nat.le_refl _
      omega
    split; · rfl
    rename_i n1 n2
    exfalso
    simp only [Bool.or_eq_true, beq_iff_eq, not_or] at n1 n2
    exact hc ⟨n2.1.1.1, n1.2, n2.1.1.2, n1.1, n2.1.2, n2.2⟩
  | x :: s, ix, h => by
    obtain ⟨h1, h2, h3, h4, h5, h6⟩ := h x (by simp)
    rw [List.cons_append]
    unfold parseUnqualifiedSegmentAuxT
    rw [steps_tick_bind]
    simp only [beq_iff_eq, h1, h2, h3, h4, h5, h6, Bool.and_eq_true, false_and, if_false, Bool.or_eq_true, or_self]
    rw [segAuxT_stop data c hc rest s _ fun c hc => h c (by simp [hc]), List.length_cons]; omega

theorem segT_good {s : Str} (h : ∀ c ∈ s, GoodChar c) : (parseUnqualifiedSegmentT s).steps = s.length := segAuxT_good s s 0 h
theorem segT_stop {s rest : Str} {c : Char} (h : ∀ c ∈ s, GoodChar c) (hc : ¬ GoodChar c) : (parseUnqualifiedSegmentT (s ++ c :: rest)).steps = s.length + 1 :=
  segAuxT_stop _ c hc rest s 0 h

theorem steps_free_bind_ok {α β : Type} {r : Res α} {a : α} (f : α → Timed β) (h : r = .ok a) : (free r >>= f).steps = (f a).steps := by
  rw [steps_bind_ok (t := free r) h, steps_free, Nat.zero_add]

theorem steps_bind_err {α β : Type} {t : Timed α} {e : ParseError} (f : α → Timed β) (h : t.out = .err e) : (t >>= f).steps = t.steps := by
  rcases steps_bind t f with ⟨a, h2, -⟩ | ⟨-, e⟩
  · rw [h] at h2; cases h2
  · exact e

theorem classNameLoopT_le (value : Str) : ∀ (fuel : Nat) (done tail : Str), value = done ++ tail → (classNameLoopT value fuel (strLen done)).steps ≤ 2 * tail.length + 1
  | 0, _, _, _ => Nat.zero_le _
  | fuel + 1, done, tail, hv => by
    unfold classNameLoopT
    rw [steps_tick_bind, steps_free_bind_ok _ (show strFrom value (strLen done) = .ok tail by rw [hv, strFrom_append])]
    rcases good_split tail with hg | ⟨s, c, rest, rfl, hp, hc⟩
    · rw [steps_bind_ok ((segmentT_out tail).trans (parseSeg_good tail hg)), segT_good hg]
      show 1 + (tail.length + 0) ≤ _
      omega
    · simp only [List.length_append, List.length_cons]
      by_cases hok : s ≠ [] ∧ (c = '/' ∨ c = ';')
      · rw [steps_bind_ok ((segmentT_out _).trans (parseSeg_stop s rest c hp hok.1 hok.2)), segT_stop hp hc]
        rcases hok.2 with rfl | rfl
        · show 1 + (s.length + 1 + (classNameLoopT value fuel (strLen done + strLen s + 1)).steps) ≤ _
          have := classNameLoopT_le value fuel (done ++ s ++ ['/']) rest (by rw [hv]; simp)
          rw [show strLen (done ++ s ++ ['/']) = strLen done + strLen s + 1 by simp only [strLen_append]; rfl] at this
          have : 1 ≤ s.length := List.length_pos_iff.mpr hok.1
          omega
        · show 1 + (s.length + 1 + 0) ≤ _
          omega
      · obtain ⟨e, he⟩ := parseSeg_bad s rest c hp hc hok
        rw [steps_bind_err _ ((segmentT_out _).trans he), segT_stop hp hc]
        omega

theorem tryFromT_le (s : Str) : (ClassName.tryFromT s).steps ≤ 2 * s.length + 1 := by
  unfold ClassName.tryFromT
  exact steps_bind_le (n := 0) (classNameLoopT_le s _ [] s rfl) fun _ _ => Nat.le_refl _

theorem classLoopT_le (data : Str) : ∀ (fuel : Nat) (pre mid tail : Str), data = pre ++ (mid ++ tail) →
    (classDescriptorLoopT data (strLen pre) fuel (strLen pre + strLen mid)).steps ≤ 3 * tail.length + mid.length + 1 ∧
      ∀ n, (classDescriptorLoopT data (strLen pre) fuel (strLen pre + strLen mid)).out = .ok n →
        (classDescriptorLoopT data (strLen pre) fuel (strLen pre + strLen mid)).steps + 2 * mid.length ≤ 3 * n.name.length + 2
  | 0, _, _, _, _ => ⟨Nat.zero_le _, nofun⟩
  | fuel + 1, pre, mid, tail, hv => by
    have hfrom : strFrom data (strLen pre + strLen mid) = .ok tail := by
      rw [hv, ← List.append_assoc, ← strLen_append, strFrom_append]
    rw [classLoopT_out]
    unfold classDescriptorLoopT classDescriptorLoop
    rw [steps_tick_bind, steps_free_bind_ok _ hfrom, hfrom, res_bind_ok]
    rcases good_split tail with hg | ⟨s, c, rest, rfl, hp, hc⟩
    · rw [steps_bind_ok ((segmentT_out tail).trans (parseSeg_good tail hg)), segT_good hg, parseSeg_good tail hg]
      refine ⟨?_, nofun⟩
      show 1 + (tail.length + 0) ≤ _
      omega
    · simp only [List.length_append, List.length_cons]
      by_cases hok : s ≠ [] ∧ (c = '/' ∨ c = ';')
      · have hs : 1 ≤ s.length := List.length_pos_iff.mpr hok.1
        rw [steps_bind_ok ((segmentT_out _).trans (parseSeg_stop s rest c hp hok.1 hok.2)), segT_stop hp hc, parseSeg_stop s rest c hp hok.1 hok.2]
        rcases hok.2 with rfl | rfl
        · have ih := classLoopT_le data fuel pre (mid ++ s ++ ['/']) rest (by rw [hv]; simp)
          rw [show strLen pre + strLen (mid ++ s ++ ['/']) = strLen pre + strLen mid + strLen s + 1 by simp only [strLen_append, Nat.add_assoc]; rfl,
            classLoopT_out] at ih
          simp only [List.length_append, List.length_cons, List.length_nil] at ih
          show 1 + (s.length + 1 + (classDescriptorLoopT data (strLen pre) fuel (strLen pre + strLen mid + strLen s + 1)).steps) ≤ _ ∧
            ∀ n, classDescriptorLoop data (strLen pre) fuel (strLen pre + strLen mid + strLen s + 1) = .ok n →
            1 + (s.length + 1 + (classDescriptorLoopT data (strLen pre) fuel (strLen pre + strLen mid + strLen s + 1)).steps) + 2 * mid.length ≤ _
          refine ⟨by omega, fun n hn => ?_⟩
          have := ih.2 n hn
          omega
        · have hslice : strSlice data (strLen pre) (strLen pre + strLen mid + strLen s) = .ok (mid ++ s) := by
            rw [hv, ← List.append_assoc mid, Nat.add_assoc, ← strLen_append, strSlice_append]
          show 1 + (s.length + 1 + (free (strSlice data (strLen pre) (strLen pre + strLen mid + strLen s)) >>= fun name => tick name.length >>= fun _ =>
              free (.ok (⟨name⟩ : ClassName))).steps) ≤ _ ∧
            ∀ n, (strSlice data (strLen pre) (strLen pre + strLen mid + strLen s) >>= fun name => Res.ok (⟨name⟩ : ClassName)) = .ok n →
            1 + (s.length + 1 + (free (strSlice data (strLen pre) (strLen pre + strLen mid + strLen s)) >>= fun name => tick name.length >>= fun _ =>
              free (.ok (⟨name⟩ : ClassName))).steps) + 2 * mid.length ≤ _
          rw [steps_free_bind_ok _ hslice, hslice, res_bind_ok, steps_tick_bind, steps_free, List.length_append]
          refine ⟨by omega, fun n hn => ?_⟩
          cases hn
          simp only [List.length_append]
          omega
      · obtain ⟨e, he⟩ := parseSeg_bad s rest c hp hc hok
        rw [steps_bind_err _ ((segmentT_out _).trans he), segT_stop hp hc, he]
        exact ⟨by omega, nofun⟩

theorem classT_le (pre tail : Str) : (parseClassDescriptorT (pre ++ tail) (strLen pre)).steps ≤ 3 * tail.length + 1 ∧
    ∀ n, (parseClassDescriptorT (pre ++ tail) (strLen pre)).out = .ok n →
      (parseClassDescriptorT (pre ++ tail) (strLen pre)).steps ≤ 3 * n.name.length + 2 := by
  have := classLoopT_le (pre ++ tail) (strLen (pre ++ tail) + 1) pre [] tail rfl
  exact this

theorem fieldTypeT_le (pre rest : Str) (c : Char) (hs : c = 'L' → c.utf8Size = 1) :
    (fieldTypeT (pre ++ c :: rest) (strLen pre + 1) c).steps ≤ 3 * rest.length + 1 ∧
      ∀ t, (fieldTypeT (pre ++ c :: rest) (strLen pre + 1) c).out = .ok t →
        (fieldTypeT (pre ++ c :: rest) (strLen pre + 1) c).steps + 1 ≤ 3 * (typeText t).length := by
  unfold fieldTypeT
  iterate 8 (split; · exact ⟨Nat.zero_le _, fun t ht => by cases ht; decide⟩)
  split
  · rename_i hL
    have hc := beq_iff_eq.mp hL
    subst hc
    have h := classT_le (pre ++ ['L']) rest
    rw [show pre ++ ['L'] ++ rest = pre ++ 'L' :: rest by simp, show strLen (pre ++ ['L']) = strLen pre + 1 by rw [strLen_append]; rfl] at h
    rcases steps_bind (parseClassDescriptorT (pre ++ 'L' :: rest) (strLen pre + 1)) (fun n => free (Res.ok (FieldType.object n))) with ⟨n, hn, e⟩ | ⟨hn, e⟩
    · rw [e, steps_free]
      refine ⟨by have := h.1; omega, fun t ht => ?_⟩
      simp only [out_bind, hn, res_bind_ok, out_free, Res.ok.injEq] at ht
      subst ht
      have := h.2 n hn
      simp only [typeText, List.length_cons, List.length_append, List.length_nil]
      omega
    · rw [e]
      refine ⟨h.1, fun t ht => ?_⟩
      rw [out_bind] at ht
      obtain ⟨n, h1, -⟩ := bind_ok ht
      exact absurd h1 (hn n)
  · exact ⟨Nat.zero_le _, nofun⟩

theorem fieldLoopT_le (pre : Str) : ∀ (rest : Str) (n : Nat), n ≤ 255 →
    (parseFieldDescriptorLoopT (pre ++ (List.replicate n '[' ++ rest)) (strLen pre) n rest).steps ≤ 3 * rest.length + 1 ∧
      ∀ d, (parseFieldDescriptorLoopT (pre ++ (List.replicate n '[' ++ rest)) (strLen pre) n rest).out = .ok d →
        (parseFieldDescriptorLoopT (pre ++ (List.replicate n '[' ++ rest)) (strLen pre) n rest).steps + 3 * n ≤ 3 * (fieldText d).length
  | [], n, hn => ⟨Nat.zero_le _, nofun⟩
  | c :: rest, n, hn => by
    by_cases hc : c = '['
    · subst hc
      have e : List.replicate n '[' ++ '[' :: rest = List.replicate (n + 1) '[' ++ rest := by
        rw [List.replicate_succ', List.append_assoc]; rfl
      rw [e]
      unfold parseFieldDescriptorLoopT
      rw [steps_tick_bind, out_bind, out_tick, res_bind_ok, if_pos (by rfl), List.length_cons]
      split
      · exact ⟨by rw [steps_free]; omega, nofun⟩
      · have ih := fieldLoopT_le pre rest (n + 1) (by omega)
        refine ⟨by have := ih.1; omega, fun d hd => ?_⟩
        have := ih.2 d hd
        omega
    · unfold parseFieldDescriptorLoopT
      rw [steps_tick_bind, out_bind, out_tick, res_bind_ok, if_neg (by simpa using hc), List.length_cons]
      have h := fieldTypeT_le (pre ++ List.replicate n '[') rest c (by rintro rfl; decide)
      rw [strLen_append, strLen_replicate, List.append_assoc] at h
      generalize fieldTypeT (pre ++ (List.replicate n '[' ++ c :: rest)) (strLen pre + n + 1) c = t at h ⊢
      have hdim : (UInt8.ofNat n).toNat = n := by rw [UInt8.toNat_ofNat']; omega
      rcases steps_bind t (fun fieldType => free (Res.ok ({ dimensions := UInt8.ofNat n, fieldType := fieldType } : FieldDescriptor))) with ⟨a, ha, e⟩ | ⟨hn', e⟩
      · rw [e, steps_free, out_bind, ha, res_bind_ok]
        refine ⟨by have := h.1; omega, fun d hd => ?_⟩
        cases hd
        have := h.2 a ha
        simp only [fieldText, hdim, List.length_append, List.length_replicate]
        omega
      · rw [e]
        refine ⟨by have := h.1; omega, fun d hd => ?_⟩
        rw [out_bind] at hd
        obtain ⟨a, h1, -⟩ := bind_ok hd
        exact absurd h1 (hn' a)

theorem fieldT_le (pre tail : Str) : (parseFieldDescriptorT (pre ++ tail) (strLen pre)).steps ≤ 3 * tail.length + 1 ∧
    ∀ d, (parseFieldDescriptorT (pre ++ tail) (strLen pre)).out = .ok d →
      (parseFieldDescriptorT (pre ++ tail) (strLen pre)).steps ≤ 3 * (fieldText d).length := by
  have h := fieldLoopT_le pre tail 0 (by omega)
  unfold parseFieldDescriptorT
  rw [steps_free_bind_ok _ (strFrom_append pre tail), out_bind, out_free, strFrom_append, res_bind_ok]
  exact h

theorem returnT_le (pre tail : Str) : (parseReturnDescriptorT (pre ++ tail) (strLen pre)).steps ≤ 3 * tail.length + 2 := by
  unfold parseReturnDescriptorT
  rw [steps_free_bind_ok _ (strFrom_append pre tail), steps_tick_bind]
  split
  · rw [steps_free]; omega
  · have := steps_bind_le (f := fun d => free (Res.ok (ReturnDescriptor.ret d))) (fieldT_le pre tail).1 (n := 0) fun _ _ => Nat.le_refl _
    omega

theorem parametersT_le (data : Str) : ∀ (fuel : Nat) (pre tail : Str), data = pre ++ tail →
    (parametersLoopT data (asBytes data) fuel (strLen pre)).steps ≤ 4 * tail.length + 2 ∧
      ∀ r, (parametersLoopT data (asBytes data) fuel (strLen pre)).out = .ok r →
        (parametersLoopT data (asBytes data) fuel (strLen pre)).steps ≤ 4 * (paramsText r.1).length + 1
  | 0, _, _, _ => ⟨Nat.zero_le _, nofun⟩
  | fuel + 1, pre, tail, hv => by
    unfold parametersLoopT
    rw [steps_tick_bind, out_bind, out_tick, res_bind_ok]
    split
    · exact ⟨by rw [steps_free]; omega, fun r hr => by rw [steps_free]; omega⟩
    · have hf := fieldT_le pre tail
      have hd := parseFieldDescriptor_decides pre tail
      rw [← hv] at hf hd
      rcases steps_bind (parseFieldDescriptorT data (strLen pre)) (fun parameter => parametersLoopT data (asBytes data) fuel (strLen pre + parameter.byteLen) >>=
        fun x => match x with | (ps, last) => free (Res.ok (parameter :: ps, last))) with ⟨p, hp, e⟩ | ⟨hn, e⟩
      · rw [e]
        have hpre := (hd.1 p).mp (by rw [← fieldT_out]; exact hp)
        obtain ⟨hok, rest, ht⟩ := hpre
        have hpos : 1 ≤ (fieldText p).length := by unfold fieldText typeText; split <;> simp <;> omega
        have ih := parametersT_le data fuel (pre ++ fieldText p) rest (by rw [hv, ht]; simp)
        rw [strLen_append, strLen_fieldText] at ih
        have h3 := hf.2 p hp
        rw [out_bind, hp, res_bind_ok, out_bind]
        generalize parametersLoopT data (asBytes data) fuel (strLen pre + p.byteLen) = t at ih ⊢
        have hle : ∀ m, t.steps ≤ m → (t >>= fun x => match x with | (ps, last) => free (Res.ok (p :: ps, last))).steps ≤ m := by
          intro m hm
          have := steps_bind_le (f := fun x => match x with | (ps, last) => free (Res.ok (p :: ps, last))) hm (n := 0) (fun a _ => Nat.le_refl _)
          omega
        refine ⟨?_, fun r hr => ?_⟩
        · have := hle _ ih.1
          rw [ht, List.length_append]
          omega
        · obtain ⟨⟨ps, last⟩, ha, hr⟩ := bind_ok hr
          have h5 := hle _ (ih.2 _ ha)
          cases hr
          simp only [paramsText, List.length_append] at h5 ⊢
          omega
      · rw [e]
        refine ⟨by have := hf.1; omega, fun r hr => ?_⟩
        rw [out_bind] at hr
        obtain ⟨a, h1, -⟩ := bind_ok hr
        exact absurd h1 (hn a)

theorem methodT_le (s : Str) : (parseMethodDescriptorT s 0).steps ≤ 4 * s.length := by
  unfold parseMethodDescriptorT
  dsimp only
  split
  · exact Nat.zero_le _
  · rename_i hcond
    simp only [Bool.or_eq_true, decide_eq_true_eq, bne_iff_ne, not_or, Decidable.not_not] at hcond
    have hat := asBytes_at [] s '(' (by decide)
    rw [List.nil_append, show UInt8.ofNat ('(' : Char).toNat = 40 from by decide] at hat
    obtain ⟨tail, rfl⟩ := hat.mp hcond.2
    have ih := parametersT_le ('(' :: tail) ((asBytes ('(' :: tail)).length + 1) ['('] tail rfl
    have hd := parametersLoop_decides ('(' :: tail) ((asBytes ('(' :: tail)).length + 1) ['('] tail rfl (by rw [length_asBytes]; simp only [strLen]; omega)
    rw [show strLen ['('] = 0 + 1 from rfl] at ih hd
    rw [List.length_cons]
    rcases steps_bind (parametersLoopT ('(' :: tail) (asBytes ('(' :: tail)) ((asBytes ('(' :: tail)).length + 1) (0 + 1)) (fun x => match x with
      | (parameters, close) => parseReturnDescriptorT ('(' :: tail) (close + 1) >>= fun returnType =>
        free (Res.ok ({ parameters := parameters, returnType := returnType } : MethodDescriptor))) with ⟨⟨ps, last⟩, hp, e⟩ | ⟨hn, e⟩
    · rw [e]
      obtain ⟨⟨-, junk, ht⟩, hl⟩ := (hd.1 (ps, last)).mp (by rw [← parametersT_out]; exact hp)
      have h1 := ih.2 _ hp
      simp only at h1 ht hl
      have e2 : '(' :: tail = (['('] ++ paramsText ps ++ [')']) ++ junk := by rw [ht]; simp
      have e3 : last + 1 = strLen (['('] ++ paramsText ps ++ [')']) := by
        rw [hl, strLen_append (['('] ++ paramsText ps)]; rfl
      have h2 := returnT_le (['('] ++ paramsText ps ++ [')']) junk
      rw [← e2, ← e3] at h2
      have := steps_bind_le (f := fun returnType => free (Res.ok ({ parameters := ps, returnType := returnType } : MethodDescriptor))) h2 (n := 0) (fun a _ => Nat.le_refl _)
      have e4 : tail.length = (paramsText ps).length + (junk.length + 1) := by rw [ht, List.length_append, List.length_cons]
      show _ + (parseReturnDescriptorT ('(' :: tail) (last + 1) >>= fun returnType => free (Res.ok ({ parameters := ps, returnType := returnType } : MethodDescriptor))).steps ≤ _
      omega
    · rw [e]
      have := ih.1
      omega

theorem arrayT_le (s : Str) : (parseArrayDescriptorT s).steps ≤ 3 * s.length + 1 := by
  unfold parseArrayDescriptorT
  split
  · exact Nat.zero_le _
  · refine steps_bind_le (n := 0) (fieldT_le [] s).1 fun a _ => ?_
    split <;> exact Nat.le_refl _

theorem isFieldT_le (s : Str) : (isFieldDescriptorT s).steps ≤ 3 * s.length + 1 := (fieldT_le [] s).1

theorem isArrayT_le (s : Str) : (isArrayDescriptorT s).steps ≤ 3 * s.length + 1 := by
  unfold isArrayDescriptorT
  refine steps_bind_le (n := 0) (isFieldT_le s) fun a _ => ?_
  split
  · exact steps_free_bind_le fun _ _ => Nat.le_refl _
  · exact Nat.le_refl _

theorem paramsLe : ∀ ps : List FieldDescriptor, ps.length ≤ (paramsText ps).length
  | [] => Nat.le_refl _
  | p :: ps => by
    have := paramsLe ps
    have : 1 ≤ (fieldText p).length := by unfold fieldText typeText; split <;> simp <;> omega
    rw [paramsText, List.length_append, List.length_cons]; omega

theorem isMethodT_le (s : Str) : (isMethodDescriptorT s).steps ≤ 5 * s.length := by
  unfold isMethodDescriptorT lenMatchesT
  have := steps_bind_le (t := parseMethodDescriptorT s 0) (f := addUpT) (n := s.length) (methodT_le s) fun d hd => by
    unfold addUpT
    rw [steps_tick_bind, steps_free]
    rw [methodT_out] at hd
    obtain ⟨-, t, ht, -⟩ := ((parseMethodDescriptor_decides s).1 d).mp hd
    have h1 := paramsLe d.parameters
    rw [ht]
    simp only [List.length_cons, List.length_append]
    omega
  show (parseMethodDescriptorT s 0 >>= addUpT).steps ≤ _
  omega

end Cafebabe
