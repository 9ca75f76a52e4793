import Verif.Spec.Memory
import Verif.Proofs.Stop
import Mathlib.Algebra.BigOperators.Intervals
import Mathlib.Data.Fintype.EquivFin
/-!
# Proofs: reference counts of the constants
-/

namespace Cafebabe
open Spec

/-! ## Resolving -/

/-- Storing pointers one after the other. -/
def linkAll (l : List (Nat × Nat)) (h : Heap) : Heap := l.foldl (fun h r => h.link r.1 r.2) h

theorem linkAll_cons (r : Nat × Nat) (l : List (Nat × Nat)) (h : Heap) : linkAll (r :: l) h = linkAll l (h.link r.1 r.2) := rfl

theorem linkAll_append (l l' : List (Nat × Nat)) (h : Heap) : linkAll (l ++ l') h = linkAll l' (linkAll l h) := by
  unfold linkAll; rw [List.foldl_append]

/-- The pointer a reference becomes. -/
def rawTarget (i : Nat) : CPRef → Option (Nat × Nat)
  | .unresolved x => some (i, x.toNat)
  | .resolved _ => none

theorem referencesFrom_cons (i : Nat) (e : Entry) (es : List Entry) :
    referencesFrom i (e :: es) = (refsOf e).filterMap (rawTarget i) ++ referencesFrom (i + 1) es := by
  rw [referencesFrom]
  congr 1

/-- A reference that leads to another slot below `len`. -/
def usableRef (len : Nat) (r : Nat × Nat) : Bool := decide (r.2 ≠ r.1 ∧ r.2 < len)

/-- `resolve` on a list of references. -/
def resolveRefsH (len i : Nat) : List CPRef → Heap → Res Unit × Heap
  | [], h => (.ok (), h)
  | x :: xs, h =>
    match x.resolveH i len h with
    | (.ok _, h') => resolveRefsH len i xs h'
    | (r, h') => (r, h')

theorem resolveH_pair (x : CPRef) (i len : Nat) (h : Heap) : ((x.resolveH i len h).1 = .ok () ∨ ∃ e, (x.resolveH i len h).1 = .err e) := by
  cases x with
  | unresolved ix =>
    unfold CPRef.resolveH
    dsimp only
    split
    · exact .inr ⟨_, rfl⟩
    · split
      · exact .inr ⟨_, rfl⟩
      · exact .inl rfl
  | resolved t => exact .inl rfl

theorem resolveRefsH_one (x : CPRef) (i len : Nat) (h : Heap) : resolveRefsH len i [x] h = x.resolveH i len h := by
  unfold resolveRefsH
  rcases hx : x.resolveH i len h with ⟨r, h'⟩
  cases r <;> rfl

theorem resolveH_refs (e : Entry) (i len : Nat) (h : Heap) : e.resolveH i len h = resolveRefsH len i (refsOf e) h := by
  cases e <;> simp only [Entry.resolveH, refsOf, resolveRefsH_one]
  all_goals first
    | rfl
    | (unfold resolveBothH resolveRefsH
       split
       · next h1 => rw [h1]; simp only [resolveRefsH_one]
       · next r h' h1 h2 => rw [h2]; cases r <;> first | rfl | exact (h1 _ rfl).elim)

theorem resolveRefsH_heap (len i : Nat) : ∀ (xs : List CPRef) (h : Heap),
    (resolveRefsH len i xs h).2 = linkAll ((xs.filterMap (rawTarget i)).takeWhile (usableRef len)) h ∧
      ((resolveRefsH len i xs h).1 = .ok () ↔ ∀ r ∈ xs.filterMap (rawTarget i), usableRef len r = true)
  | [], h => by simp [resolveRefsH, linkAll]
  | .resolved t :: xs, h => by
    have ih := resolveRefsH_heap len i xs h
    simpa [resolveRefsH, CPRef.resolveH, List.filterMap_cons, rawTarget] using ih
  | .unresolved x :: xs, h => by
    have hc : (CPRef.unresolved x :: xs).filterMap (rawTarget i) = (i, x.toNat) :: xs.filterMap (rawTarget i) := by
      simp [rawTarget]
    rw [hc]
    unfold resolveRefsH CPRef.resolveH
    by_cases h1 : x.toNat = i
    · have hb : usableRef len (i, x.toNat) = false := by simp [usableRef, h1]
      simp [h1, linkAll, Res.fail, usableRef]
    · by_cases h2 : x.toNat ≥ len
      · have hb : usableRef len (i, x.toNat) = false := by simp [usableRef]; intro _; omega
        rw [List.takeWhile_cons, hb]
        simp [h1, h2, linkAll, Res.fail, hb]
      · have hb : usableRef len (i, x.toNat) = true := by simp [usableRef, h1]; omega
        have ih := resolveRefsH_heap len i xs (h.link i x.toNat)
        rw [List.takeWhile_cons, hb]
        simp only [h1, h2, if_false, if_true, linkAll_cons]
        refine ⟨ih.1, ih.2.trans ?_⟩
        simp [hb]

theorem takeWhile_append_all {α : Type} (p : α → Bool) : ∀ (l l' : List α), (∀ a ∈ l, p a = true) → (l ++ l').takeWhile p = l ++ l'.takeWhile p
  | [], _, _ => rfl
  | a :: l, l', h => by
    rw [List.cons_append, List.takeWhile_cons, h a List.mem_cons_self, if_pos rfl, takeWhile_append_all p l l' fun b hb => h b (List.mem_cons_of_mem _ hb)]
    rfl

theorem takeWhile_self {α : Type} (p : α → Bool) (l : List α) (h : ∀ a ∈ l, p a = true) : l.takeWhile p = l := by
  have := takeWhile_append_all p l [] h
  simpa using this

theorem mem_takeWhile_imp {α : Type} {p : α → Bool} {a : α} : ∀ {l : List α}, a ∈ l.takeWhile p → p a = true
  | [], h => absurd h List.not_mem_nil
  | b :: l, h => by
    rw [List.takeWhile_cons] at h
    by_cases hb : p b = true
    · rw [if_pos hb] at h
      rcases List.mem_cons.mp h with rfl | h
      · exact hb
      · exact mem_takeWhile_imp h
    · rw [if_neg hb] at h; exact absurd h List.not_mem_nil

theorem takeWhile_append_some {α : Type} (p : α → Bool) : ∀ (l l' : List α), (¬ ∀ a ∈ l, p a = true) → (l ++ l').takeWhile p = l.takeWhile p
  | [], _, h => absurd (fun _ ha => absurd ha List.not_mem_nil) h
  | a :: l, l', h => by
    rw [List.cons_append, List.takeWhile_cons, List.takeWhile_cons]
    by_cases ha : p a = true
    · rw [if_pos ha, if_pos ha, takeWhile_append_some p l l' fun hl => h ?_]
      intro b hb
      rcases List.mem_cons.mp hb with rfl | hb
      · exact ha
      · exact hl b hb
    · rw [if_neg ha, if_neg ha]

theorem resolveFromH_heap (len : Nat) : ∀ (es : List Entry) (i : Nat) (h : Heap),
    (resolveFromH len i es h).2 = linkAll ((referencesFrom i es).takeWhile (usableRef len)) h
  | [], i, h => by simp [resolveFromH, referencesFrom, linkAll]
  | e :: es, i, h => by
    rw [referencesFrom_cons]
    unfold resolveFromH
    rw [resolveH_refs]
    obtain ⟨h1, h2⟩ := resolveRefsH_heap len i (refsOf e) h
    rcases hr : resolveRefsH len i (refsOf e) h with ⟨r, h'⟩
    rw [hr] at h1 h2
    simp only at h1 h2
    by_cases hg : ∀ r ∈ (refsOf e).filterMap (rawTarget i), usableRef len r = true
    · rw [h2.mpr hg, takeWhile_append_all _ _ _ hg, linkAll_append]
      simp only
      rw [resolveFromH_heap len es (i + 1) h', h1, takeWhile_self _ _ hg]
    · rw [takeWhile_append_some _ _ _ hg, ← h1]
      cases r with
      | ok u => exact absurd (h2.mp rfl) hg
      | err e => rfl
      | panic k => rfl
      | diverge => rfl

theorem resolveConstantPoolH_heap (raw : Pool) : (resolveConstantPoolH raw).2 = linkAll (resolvedRefs raw) (Heap.fresh raw.length) := by
  unfold resolveConstantPoolH
  rw [resolveFromH_heap]
  rfl

theorem linkAll_strong (j : Nat) : ∀ (l : List (Nat × Nat)) (h : Heap), (linkAll l h).strong j = h.strong j + (l.map Prod.snd).count j
  | [], h => by simp [linkAll]
  | r :: l, h => by
    rw [linkAll_cons, linkAll_strong j l, List.map_cons, List.count_cons]
    simp only [Heap.link, beq_iff_eq]
    by_cases hj : j = r.2
    · rw [if_pos hj, if_pos hj.symm]; omega
    · rw [if_neg hj, if_neg (Ne.symm hj)]; omega

theorem linkAll_holds (i : Nat) : ∀ (l : List (Nat × Nat)) (h : Heap),
    (linkAll l h).holds i = h.holds i ++ (l.filter (fun r => r.1 = i)).map Prod.snd
  | [], h => by simp [linkAll]
  | r :: l, h => by
    rw [linkAll_cons, linkAll_holds i l]
    simp only [Heap.link, List.filter_cons]
    by_cases hi : i = r.1
    · simp [hi]
    · simp [hi, Ne.symm hi]

theorem linkAll_dropped : ∀ (l : List (Nat × Nat)) (h : Heap), (linkAll l h).dropped = h.dropped
  | [], _ => rfl
  | r :: l, h => by rw [linkAll_cons, linkAll_dropped l]; rfl

theorem resolved_holds (raw : Pool) (i j : Nat) : j ∈ (resolveConstantPoolH raw).2.holds i ↔ RefersTo raw i j := by
  rw [resolveConstantPoolH_heap, linkAll_holds]
  simp [Heap.fresh, RefersTo]

theorem referencesFrom_lt : ∀ (es : List Entry) (i : Nat) (r : Nat × Nat), r ∈ referencesFrom i es → i ≤ r.1 ∧ r.1 < i + es.length
  | [], i, r, h => absurd h List.not_mem_nil
  | e :: es, i, r, h => by
    rw [referencesFrom_cons, List.mem_append] at h
    rcases h with h | h
    · obtain ⟨x, -, hx⟩ := List.mem_filterMap.mp h
      cases x with
      | unresolved y => simp only [rawTarget, Option.some.injEq] at hx; subst hx; simp
      | resolved t => simp [rawTarget] at hx
    · have := referencesFrom_lt es (i + 1) r h
      simp only [List.length_cons]; omega

theorem refersTo_lt {raw : Pool} {i j : Nat} (h : RefersTo raw i j) : i < raw.length ∧ j < raw.length := by
  have hm := List.takeWhile_subset _ h
  have h1 := referencesFrom_lt raw 0 _ hm
  have h2 := mem_takeWhile_imp h
  exact ⟨by simpa using h1.2, (of_decide_eq_true h2).2⟩

/-! ## Dropping -/

/-- The constants not yet dropped. -/
def live (n : Nat) (h : Heap) : Finset Nat := (Finset.range n).filter (· ∉ h.dropped)

/-- The counts are right: `todo` are the pointers that are not stored in a constant. -/
structure Counted (n : Nat) (h : Heap) (todo : List Nat) : Prop where
  holds_lt : ∀ i j, j ∈ h.holds i → i < n ∧ j < n
  todo_lt : ∀ j ∈ todo, j < n
  dropped_lt : ∀ j ∈ h.dropped, j < n
  nodup : h.dropped.Nodup
  count : ∀ j, j < n → h.strong j = todo.count j + ∑ i ∈ live n h, (h.holds i).count j
  zero : ∀ j, j < n → (h.strong j = 0 ↔ j ∈ h.dropped)

theorem mem_live {n : Nat} {h : Heap} {i : Nat} : i ∈ live n h ↔ i < n ∧ i ∉ h.dropped := by simp [live]

theorem live_free {n : Nat} {h : Heap} (i : Nat) : live n (h.free i) = (live n h).erase i := by
  ext j
  simp only [mem_live, Finset.mem_erase, Heap.free, List.mem_cons, not_or]
  constructor
  · rintro ⟨a, b, c⟩; exact ⟨b, a, c⟩
  · rintro ⟨b, a, c⟩; exact ⟨a, b, c⟩

theorem Counted.pos {n : Nat} {h : Heap} {i : Nat} {W : List Nat} (hc : Counted n h (i :: W)) : 1 ≤ h.strong i := by
  rw [hc.count i (hc.todo_lt i List.mem_cons_self), List.count_cons_self]; omega

theorem Counted.release {n : Nat} {h : Heap} {i : Nat} {W : List Nat} (hc : Counted n h (i :: W)) (hn : (h.release i).strong i ≠ 0) :
    Counted n (h.release i) W where
  holds_lt := hc.holds_lt
  todo_lt j hj := hc.todo_lt j (List.mem_cons_of_mem _ hj)
  dropped_lt := hc.dropped_lt
  nodup := hc.nodup
  count j hj := by
    have h1 := hc.count j hj
    rw [List.count_cons] at h1
    simp only [Heap.release, beq_iff_eq] at h1 ⊢
    have hl : live n (h.release i) = live n h := rfl
    simp only [Heap.release] at hl
    rw [hl]
    by_cases hji : j = i
    · rw [if_pos hji]; rw [if_pos hji.symm] at h1; omega
    · rw [if_neg hji]; rw [if_neg (Ne.symm hji)] at h1; omega
  zero j hj := by
    by_cases hji : j = i
    · subst hji
      refine ⟨fun h0 => absurd h0 hn, fun hd => ?_⟩
      have := (hc.zero j hj).mpr hd
      have := hc.pos
      omega
    · have : (h.release i).strong j = h.strong j := by simp [Heap.release, hji]
      rw [this]; exact hc.zero j hj

theorem Counted.free {n : Nat} {h : Heap} {i : Nat} {W : List Nat} (hc : Counted n h (i :: W)) (hn : (h.release i).strong i = 0) :
    Counted n ((h.release i).free i) (h.holds i ++ W) := by
  have hi : i < n := hc.todo_lt i List.mem_cons_self
  have hnd : i ∉ h.dropped := fun hd => by
    have := (hc.zero i hi).mpr hd
    have := hc.pos
    omega
  have hlive : i ∈ live n h := mem_live.mpr ⟨hi, hnd⟩
  constructor
  · exact hc.holds_lt
  · intro j hj
    rcases List.mem_append.mp hj with hj | hj
    · exact (hc.holds_lt i j hj).2
    · exact hc.todo_lt j (List.mem_cons_of_mem _ hj)
  · intro j hj
    rcases List.mem_cons.mp hj with rfl | hj
    · exact hi
    · exact hc.dropped_lt j hj
  · exact List.nodup_cons.mpr ⟨hnd, hc.nodup⟩
  · intro j hj
    have h1 := hc.count j hj
    rw [live_free, List.count_append]
    have hl : live n (h.release i) = live n h := rfl
    have hh : ((h.release i).free i).holds = h.holds := rfl
    rw [hl, hh]
    rw [← Finset.add_sum_erase _ _ hlive, List.count_cons] at h1
    simp only [Heap.release, Heap.free, beq_iff_eq] at h1 ⊢
    by_cases hji : j = i
    · rw [if_pos hji]; rw [if_pos hji.symm] at h1; omega
    · rw [if_neg hji]; rw [if_neg (Ne.symm hji)] at h1; omega
  · intro j hj
    by_cases hji : j = i
    · subst hji
      exact ⟨fun _ => List.mem_cons_self, fun _ => hn⟩
    · have : ((h.release i).free i).strong j = h.strong j := by simp [Heap.release, Heap.free, hji]
      rw [this]
      refine (hc.zero j hj).trans ⟨fun h => List.mem_cons_of_mem _ h, fun h => ?_⟩
      rcases List.mem_cons.mp h with rfl | h
      · exact absurd rfl hji
      · exact h

/-- What dropping keeps: the pointers stored, and what has been dropped. -/
def Later (h h' : Heap) : Prop := h'.holds = h.holds ∧ h.dropped ⊆ h'.dropped

theorem Later.refl (h : Heap) : Later h h := ⟨rfl, fun _ h => h⟩
theorem Later.trans {a b c : Heap} (h : Later a b) (h' : Later b c) : Later a c := ⟨h'.1.trans h.1, fun _ hx => h'.2 (h.2 hx)⟩

/-- One pointer dropped: the counts stay right, and constants that always have another constant of `K` pointing to them stay. -/
theorem dropRc_counted {n : Nat} {K : Nat → Prop} {H : Nat → List Nat} (hK : ∀ k, K k → k < n ∧ ∃ p, K p ∧ k ∈ H p) :
    ∀ (d i : Nat) (h h' : Heap) (W : List Nat), dropRc d i h = some h' → Counted n h (i :: W) → h.holds = H → (∀ k, K k → k ∉ h.dropped) →
      Counted n h' W ∧ Later h h' ∧ ∀ k, K k → k ∉ h'.dropped
  | 0, i, h, h', W, he, _, _, _ => by simp [dropRc] at he
  | d + 1, i, h, h', W, he, hc, hH, hk => by
    unfold dropRc at he
    by_cases h0 : (h.release i).strong i = 0
    · rw [if_pos h0] at he
      have hc' := hc.free h0
      have hnK : ¬ K i := by
        intro hKi
        obtain ⟨hi, p, hp, hip⟩ := hK i hKi
        have h1 := hc.count i hi
        rw [List.count_cons_self] at h1
        have hlp : p ∈ live n h := mem_live.mpr ⟨(hK p hp).1, hk p hp⟩
        rw [← Finset.add_sum_erase _ _ hlp, hH] at h1
        have := List.count_pos_iff.mpr hip
        simp only [Heap.release, if_true] at h0
        omega
      have hk' : ∀ k, K k → k ∉ ((h.release i).free i).dropped := by
        intro k hKk hm
        rcases List.mem_cons.mp hm with rfl | hm
        · exact hnK hKk
        · exact hk k hKk hm
      have hl0 : Later h ((h.release i).free i) := ⟨rfl, fun x hx => List.mem_cons_of_mem _ hx⟩
      -- the recursion keeps the stored pointers, which we carry along
      have key : ∀ (l : List Nat) (g g' : Heap) (W : List Nat), l.foldlM (fun h j => dropRc d j h) g = some g' → Counted n g (l ++ W) →
          g.holds = H → (∀ k, K k → k ∉ g.dropped) → Counted n g' W ∧ Later g g' ∧ ∀ k, K k → k ∉ g'.dropped := by
        intro l
        induction l with
        | nil =>
          intro g g' W he hc _ hk
          simp only [List.foldlM_nil, Option.pure_def, Option.some.injEq] at he
          subst he
          exact ⟨hc, Later.refl _, hk⟩
        | cons j l ih =>
          intro g g' W he hc hg hk
          rw [List.foldlM_cons, Option.bind_eq_bind, Option.bind_eq_some_iff] at he
          obtain ⟨g1, he1, he2⟩ := he
          obtain ⟨c1, l1, k1⟩ := dropRc_counted hK d j g g1 (l ++ W) he1 hc hg hk
          obtain ⟨c2, l2, k2⟩ := ih g1 g' W he2 c1 (l1.1.trans hg) k1
          exact ⟨c2, l1.trans l2, k2⟩
      obtain ⟨c, l, k⟩ := key (h.holds i) _ h' W he hc' hH hk'
      exact ⟨c, hl0.trans l, k⟩
    · rw [if_neg h0] at he
      simp only [Option.some.injEq] at he
      subst he
      exact ⟨hc.release h0, ⟨rfl, fun _ hx => hx⟩, hk⟩

theorem dropList_counted {n : Nat} {K : Nat → Prop} {H : Nat → List Nat} (hK : ∀ k, K k → k < n ∧ ∃ p, K p ∧ k ∈ H p) (d : Nat) :
    ∀ (l : List Nat) (g g' : Heap) (W : List Nat), l.foldlM (fun h j => dropRc d j h) g = some g' → Counted n g (l ++ W) →
      g.holds = H → (∀ k, K k → k ∉ g.dropped) → Counted n g' W ∧ Later g g' ∧ ∀ k, K k → k ∉ g'.dropped
  | [], g, g', W, he, hc, _, hk => by
    simp only [List.foldlM_nil, Option.pure_def, Option.some.injEq] at he
    subst he
    exact ⟨hc, Later.refl _, hk⟩
  | j :: l, g, g', W, he, hc, hg, hk => by
    rw [List.foldlM_cons, Option.bind_eq_bind, Option.bind_eq_some_iff] at he
    obtain ⟨g1, he1, he2⟩ := he
    obtain ⟨c1, l1, k1⟩ := dropRc_counted hK d j g g1 (l ++ W) he1 hc hg hk
    obtain ⟨c2, l2, k2⟩ := dropList_counted hK d l g1 g' W he2 c1 (l1.1.trans hg) k1
    exact ⟨c2, l1.trans l2, k2⟩

/-! ## Dropping ends -/

theorem dropRc_mono : ∀ (d i : Nat) (h h' : Heap), dropRc d i h = some h' → dropRc (d + 1) i h = some h'
  | 0, _, _, _, he => by simp [dropRc] at he
  | d + 1, i, h, h', he => by
    unfold dropRc at he ⊢
    by_cases h0 : (h.release i).strong i = 0
    · rw [if_pos h0] at he ⊢
      have key : ∀ (l : List Nat) (g : Heap), l.foldlM (fun h j => dropRc d j h) g = some h' →
          l.foldlM (fun h j => dropRc (d + 1) j h) g = some h' := by
        intro l
        induction l with
        | nil => exact fun _ h => h
        | cons j l ih =>
          intro g he
          rw [List.foldlM_cons, Option.bind_eq_bind, Option.bind_eq_some_iff] at he ⊢
          obtain ⟨g1, h1, h2⟩ := he
          exact ⟨g1, dropRc_mono d j g g1 h1, ih g1 h2⟩
      exact key _ _ he
    · rw [if_neg h0] at he ⊢; exact he

theorem dropRc_mono_le {d d' i : Nat} {h h' : Heap} (hd : d ≤ d') (he : dropRc d i h = some h') : dropRc d' i h = some h' := by
  obtain ⟨k, rfl⟩ := Nat.exists_eq_add_of_le hd
  induction k with
  | zero => exact he
  | succ k ih => exact dropRc_mono _ _ _ _ (ih (by omega))

theorem dropList_mono {d d' : Nat} (hd : d ≤ d') {h' : Heap} : ∀ (l : List Nat) (g : Heap), l.foldlM (fun h j => dropRc d j h) g = some h' →
    l.foldlM (fun h j => dropRc d' j h) g = some h'
  | [], _, h => h
  | j :: l, g, he => by
    rw [List.foldlM_cons, Option.bind_eq_bind, Option.bind_eq_some_iff] at he ⊢
    obtain ⟨g1, h1, h2⟩ := he
    exact ⟨g1, dropRc_mono_le hd h1, dropList_mono hd l g1 h2⟩

theorem dropPool_mono {d d' n : Nat} (hd : d ≤ d') {h h' : Heap} (he : dropPool d n h = some h') : dropPool d' n h = some h' :=
  dropList_mono hd _ _ he

theorem live_later {n : Nat} {h h' : Heap} (hl : Later h h') : (live n h').card ≤ (live n h).card := by
  refine Finset.card_le_card fun i hi => ?_
  rw [mem_live] at hi ⊢
  exact ⟨hi.1, fun hd => hi.2 (hl.2 hd)⟩

/-- A recursion budget of as many levels as there are constants left is enough. -/
theorem dropRc_total {n : Nat} : ∀ (d i : Nat) (h : Heap) (W : List Nat), Counted n h (i :: W) → (live n h).card ≤ d → ∃ h', dropRc d i h = some h'
  | 0, i, h, W, hc, hd => by
    have hi : i ∈ live n h := mem_live.mpr ⟨hc.todo_lt i List.mem_cons_self, fun hm => by
      have := (hc.zero i (hc.todo_lt i List.mem_cons_self)).mpr hm
      have := hc.pos
      omega⟩
    have := Finset.card_pos.mpr ⟨i, hi⟩
    omega
  | d + 1, i, h, W, hc, hd => by
    have hi : i ∈ live n h := mem_live.mpr ⟨hc.todo_lt i List.mem_cons_self, fun hm => by
      have := (hc.zero i (hc.todo_lt i List.mem_cons_self)).mpr hm
      have := hc.pos
      omega⟩
    unfold dropRc
    by_cases h0 : (h.release i).strong i = 0
    · rw [if_pos h0]
      have hcard : (live n ((h.release i).free i)).card ≤ d := by
        rw [live_free]
        have : live n (h.release i) = live n h := rfl
        rw [this, Finset.card_erase_of_mem hi]
        omega
      have key : ∀ (l : List Nat) (g : Heap), Counted n g (l ++ W) → (live n g).card ≤ d →
          ∃ g', l.foldlM (fun h j => dropRc d j h) g = some g' := by
        intro l
        induction l with
        | nil => exact fun g _ _ => ⟨g, rfl⟩
        | cons j l ih =>
          intro g hg hcg
          obtain ⟨g1, h1⟩ := dropRc_total d j g (l ++ W) hg hcg
          obtain ⟨c1, l1, -⟩ := dropRc_counted (K := fun _ => False) (H := g.holds) (fun _ h => h.elim) d j g g1 (l ++ W) h1 hg rfl (fun _ h => h.elim)
          obtain ⟨g', h2⟩ := ih g1 c1 (Nat.le_trans (live_later l1) hcg)
          exact ⟨g', by rw [List.foldlM_cons, Option.bind_eq_bind, Option.bind_eq_some_iff]; exact ⟨g1, h1, h2⟩⟩
      exact key _ _ (hc.free h0) hcard
    · rw [if_neg h0]; exact ⟨_, rfl⟩

theorem dropList_total {n d : Nat} : ∀ (l : List Nat) (g : Heap) (W : List Nat), Counted n g (l ++ W) → (live n g).card ≤ d →
    ∃ g', l.foldlM (fun h j => dropRc d j h) g = some g'
  | [], g, _, _, _ => ⟨g, rfl⟩
  | j :: l, g, W, hg, hcg => by
    obtain ⟨g1, h1⟩ := dropRc_total d j g (l ++ W) hg hcg
    obtain ⟨c1, l1, -⟩ := dropRc_counted (K := fun _ => False) (H := g.holds) (fun _ h => h.elim) d j g g1 (l ++ W) h1 hg rfl (fun _ h => h.elim)
    obtain ⟨g', h2⟩ := dropList_total l g1 W c1 (Nat.le_trans (live_later l1) hcg)
    exact ⟨g', by rw [List.foldlM_cons, Option.bind_eq_bind, Option.bind_eq_some_iff]; exact ⟨g1, h1, h2⟩⟩

/-- A path of `k` stored pointers from `i`. -/
inductive Chain (H : Nat → List Nat) : Nat → Nat → Prop where
  | nil (i : Nat) : Chain H 0 i
  | cons {k i j : Nat} : j ∈ H i → Chain H k j → Chain H (k + 1) i

/-- A recursion budget of more levels than any path has pointers is enough. -/
theorem dropRc_short {H : Nat → List Nat} : ∀ (d i : Nat) (h : Heap), h.holds = H → (∀ k, Chain H k i → k < d) →
    ∃ h', dropRc d i h = some h' ∧ h'.holds = H
  | 0, i, h, _, hd => absurd (hd 0 (.nil i)) (by omega)
  | d + 1, i, h, hH, hd => by
    unfold dropRc
    by_cases h0 : (h.release i).strong i = 0
    · rw [if_pos h0]
      have key : ∀ (l : List Nat) (g : Heap), g.holds = H → (∀ j ∈ l, j ∈ H i) →
          ∃ g', l.foldlM (fun h j => dropRc d j h) g = some g' ∧ g'.holds = H := by
        intro l
        induction l with
        | nil => exact fun g hg _ => ⟨g, rfl, hg⟩
        | cons j l ih =>
          intro g hg hl
          obtain ⟨g1, h1, hg1⟩ := dropRc_short d j g hg fun k hk => by
            have := hd (k + 1) (.cons (hl j List.mem_cons_self) hk)
            omega
          obtain ⟨g', h2, hg'⟩ := ih g1 hg1 fun x hx => hl x (List.mem_cons_of_mem _ hx)
          exact ⟨g', by rw [List.foldlM_cons, Option.bind_eq_bind, Option.bind_eq_some_iff]; exact ⟨g1, h1, h2⟩, hg'⟩
      exact key _ _ hH fun j hj => by rw [← hH]; exact hj
    · rw [if_neg h0]; exact ⟨_, rfl, hH⟩

theorem dropList_short {H : Nat → List Nat} {d : Nat} : ∀ (l : List Nat) (g : Heap), g.holds = H → (∀ j ∈ l, ∀ k, Chain H k j → k < d) →
    ∃ g', l.foldlM (fun h j => dropRc d j h) g = some g'
  | [], g, _, _ => ⟨g, rfl⟩
  | j :: l, g, hg, hl => by
    obtain ⟨g1, h1, hg1⟩ := dropRc_short d j g hg (hl j List.mem_cons_self)
    obtain ⟨g', h2⟩ := dropList_short l g1 hg1 fun x hx => hl x (List.mem_cons_of_mem _ hx)
    exact ⟨g', by rw [List.foldlM_cons, Option.bind_eq_bind, Option.bind_eq_some_iff]; exact ⟨g1, h1, h2⟩⟩

/-! ## What is left -/

/-- At the start the counts are right: the vector has one pointer to each constant. -/
theorem start_counted (raw : Pool) : Counted raw.length (resolveConstantPoolH raw).2 (List.range raw.length) := by
  rw [resolveConstantPoolH_heap]
  have hlt : ∀ i j, (i, j) ∈ resolvedRefs raw → i < raw.length ∧ j < raw.length := fun i j h => refersTo_lt h
  generalize resolvedRefs raw = l at hlt
  generalize raw.length = n at hlt
  constructor
  · intro i j hj
    rw [linkAll_holds] at hj
    simp only [Heap.fresh, List.nil_append, List.mem_map, List.mem_filter, decide_eq_true_eq] at hj
    obtain ⟨r, ⟨hr, rfl⟩, rfl⟩ := hj
    exact hlt _ _ hr
  · intro j hj; exact List.mem_range.mp hj
  · intro j hj; rw [linkAll_dropped] at hj; exact absurd hj List.not_mem_nil
  · rw [linkAll_dropped]; exact List.nodup_nil
  · intro j hj
    rw [linkAll_strong, List.count_eq_one_of_mem List.nodup_range (List.mem_range.mpr hj)]
    have hlive : live n (linkAll l (Heap.fresh n)) = Finset.range n := by
      ext i; simp [mem_live, linkAll_dropped, Heap.fresh]
    rw [hlive]
    simp only [Heap.fresh, if_pos hj, linkAll_holds, List.nil_append]
    congr 1
    clear hlive
    induction l with
    | nil => simp
    | cons r l ih =>
      have ih := ih fun i j h => hlt i j (List.mem_cons_of_mem _ h)
      rw [List.map_cons, List.count_cons, ih]
      have hr := (hlt r.1 r.2 List.mem_cons_self).1
      have : ∀ i ∈ Finset.range n, (((r :: l).filter fun s => s.1 = i).map Prod.snd).count j =
          ((l.filter fun s => s.1 = i).map Prod.snd).count j + if i = r.1 then (if r.2 = j then 1 else 0) else 0 := by
        intro i _
        rw [List.filter_cons]
        by_cases hi : i = r.1
        · simp [hi, List.count_cons]
        · simp [hi, Ne.symm hi]
      rw [Finset.sum_congr rfl this, Finset.sum_add_distrib, Finset.sum_ite_eq' (Finset.range n) r.1, if_pos (Finset.mem_range.mpr hr)]
      simp
  · intro j hj
    rw [linkAll_dropped, linkAll_strong]
    simp [Heap.fresh, hj]

theorem transGen_pred {α : Type} {r : α → α → Prop} {a b : α} (h : Relation.TransGen r a b) : ∃ c, Relation.ReflTransGen r a c ∧ r c b := by
  cases h with
  | single h => exact ⟨a, .refl, h⟩
  | tail h h' => exact ⟨_, h.to_reflTransGen, h'⟩

/-- Every constant behind a cycle has another one pointing to it. -/
theorem behind_pred {raw : Pool} {j : Nat} (h : BehindCycle raw j) : j < raw.length ∧ ∃ p, BehindCycle raw p ∧ RefersTo raw p j := by
  obtain ⟨k, hk, hj⟩ := h
  have : ∃ p, Relation.ReflTransGen (RefersTo raw) k p ∧ RefersTo raw p j := by
    rcases Relation.ReflTransGen.cases_tail hj with rfl | ⟨p, hp, hpj⟩
    · exact transGen_pred hk
    · exact ⟨p, hp, hpj⟩
  obtain ⟨p, hp, hpj⟩ := this
  exact ⟨(refersTo_lt hpj).2, p, ⟨k, hk, hp⟩, hpj⟩

/-- A set of slots in which each one has another one referring to it is behind cycles. -/
theorem behind_of_pred {raw : Pool} {L : Nat → Prop} (hL : ∀ j, L j → ∃ p, L p ∧ RefersTo raw p j) {j : Nat} (hj : L j) : BehindCycle raw j := by
  have hs : ∃ f : Nat → { x // L x }, (f 0).1 = j ∧ ∀ k, RefersTo raw (f (k + 1)).1 (f k).1 := by
    choose! p hp using hL
    refine ⟨fun k => Nat.rec ⟨j, hj⟩ (fun _ x => ⟨p x.1, (hp x.1 x.2).1⟩) k, rfl, fun k => ?_⟩
    exact (hp _ (Subtype.property _)).2
  obtain ⟨f, h0, hf⟩ := hs
  have hback : ∀ m k, Relation.ReflTransGen (RefersTo raw) (f (k + m)).1 (f k).1 := by
    intro m
    induction m with
    | zero => intro k; exact .refl
    | succ m ih => intro k; exact Relation.ReflTransGen.head (hf (k + m)) (ih k)
  let g : Nat → Fin raw.length := fun k => ⟨(f k).1, (refersTo_lt (hf k)).2⟩
  obtain ⟨a, b, hne, hab⟩ := Finite.exists_ne_map_eq_of_infinite g
  have hab : (f a).1 = (f b).1 := congrArg Fin.val hab
  have key : ∀ a b, a < b → (f a).1 = (f b).1 → BehindCycle raw j := by
    intro a b hlt hab
    obtain ⟨m, rfl⟩ := Nat.exists_eq_add_of_lt hlt
    refine ⟨(f a).1, ?_, ?_⟩
    · have h1 : Relation.TransGen (RefersTo raw) (f (a + m + 1)).1 (f a).1 :=
        Relation.TransGen.head' (hf (a + m)) (hback m a)
      rw [← hab] at h1
      exact h1
    · have := hback a 0
      rw [Nat.zero_add, h0] at this
      exact this
  rcases Nat.lt_or_gt_of_ne hne with h | h
  · exact key a b h hab
  · exact key b a h hab.symm

/-- After dropping the vector, exactly the constants behind a cycle are left. -/
theorem dropPool_left {raw : Pool} {d : Nat} {h' : Heap} (he : dropPool d raw.length (resolveConstantPoolH raw).2 = some h') :
    h'.dropped.Nodup ∧ (∀ j ∈ h'.dropped, j < raw.length) ∧ ∀ j, j < raw.length → (j ∉ h'.dropped ↔ BehindCycle raw j) := by
  have hK : ∀ k, BehindCycle raw k → k < raw.length ∧ ∃ p, BehindCycle raw p ∧ k ∈ (resolveConstantPoolH raw).2.holds p := by
    intro k hk
    obtain ⟨h1, p, hp, hpk⟩ := behind_pred hk
    exact ⟨h1, p, hp, (resolved_holds raw p k).mpr hpk⟩
  have hd0 : (resolveConstantPoolH raw).2.dropped = [] := by rw [resolveConstantPoolH_heap, linkAll_dropped]; rfl
  obtain ⟨hc, hl, hk⟩ := dropList_counted hK d (List.range raw.length) _ h' [] he (by rw [List.append_nil]; exact start_counted raw) rfl
    fun k _ => by rw [hd0]; exact List.not_mem_nil
  refine ⟨hc.nodup, hc.dropped_lt, fun j hj => ⟨fun hn => ?_, hk j⟩⟩
  refine behind_of_pred (L := fun j => j < raw.length ∧ j ∉ h'.dropped) ?_ ⟨hj, hn⟩
  rintro i ⟨hi, hni⟩
  have h1 := hc.count i hi
  have h2 : h'.strong i ≠ 0 := fun h0 => hni ((hc.zero i hi).mp h0)
  rw [List.count_nil, Nat.zero_add] at h1
  rw [h1] at h2
  obtain ⟨p, hp, hpi⟩ := Finset.exists_ne_zero_of_sum_ne_zero h2
  rw [mem_live] at hp
  refine ⟨p, hp, ?_⟩
  rw [← resolved_holds, ← hl.1]
  exact List.count_pos_iff.mp (Nat.pos_of_ne_zero hpi)

/-- Dropping the vector ends, within as many levels of recursion as there are constants. -/
theorem dropPool_total (raw : Pool) : ∃ h', dropPool raw.length raw.length (resolveConstantPoolH raw).2 = some h' := by
  refine dropList_total (n := raw.length) _ _ [] (by rw [List.append_nil]; exact start_counted raw) ?_
  refine Nat.le_trans (Finset.card_filter_le _ _) ?_
  rw [Finset.card_range]

end Cafebabe
