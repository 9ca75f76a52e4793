import Verif.Spec.Iter
import Verif.Props.PoolProps
/-!
# Properties of the constant pool iterator: C14, C15
-/

namespace Cafebabe
open Spec Examples

/-- A valid pool read from a file: slot 0 and only slot 0 is the placeholder. -/
structure GoodPool (major : UInt16) (pool : Pool) : Prop where
  ok : PoolOK major pool
  zero : ∀ i : Nat, pool[i]? = some .zero → i = 0
  first : pool[0]? = some .zero

theorem goodPool_of_accepts {o : Opts} {bytes : Bytes} {cf : ClassFile} (h : Accepts o bytes cf) : GoodPool cf.majorVersion cf.constantPool := by
  refine ⟨accepts_pool h, fun i hi => ?_, ?_⟩
  · rcases C11_version_gate h hi with ⟨-, h⟩ | h | ⟨t, h, -⟩
    · exact h
    · cases h
    · cases h
  · obtain ⟨count, es, body, rest, -, -, hmap, -⟩ := enc_pool (accepts_iff_enc.mp h)
    rw [hmap]; rfl

theorem text_of_name {pool : Pool} {k : Nat} {s : Str} (h : TextAt pool k s) : peelUtf8 pool (.resolved k) = .ok s := peelUtf8_ok.mpr ⟨k, rfl, h⟩

theorem utf8_badAt {pool : Pool} {k : Nat} {b : Bytes} (h : pool[k]? = some (.utf8Bytes b)) : peelUtf8 pool (.resolved k) = .panic .nonUtf8 := by
  have hp : peel pool (.resolved k) = .ok (.utf8Bytes b) := peel_ok.mpr ⟨k, rfl, h⟩
  unfold peelUtf8
  rw [hp]
  rfl

section items
variable {major : UInt16} {pool : Pool}

theorem class_item (hok : PoolOK major pool) {c : Nat} (h : IsClass pool c) : ∃ s, ClassAt pool c s := by
  obtain ⟨x, h⟩ := h
  have := hok c _ h
  cases x with
  | unresolved _ => exact this.elim
  | resolved k => exact let ⟨s, hs, _⟩ := this; ⟨s, k, h, hs⟩

theorem nat_item (hok : PoolOK major pool) {n : Nat} {D : Str → Prop} (h : HasDescriptor pool n D) : ∃ t, NameAndTypeAt pool n t := by
  obtain ⟨x, y, s, hn, hs, -⟩ := h
  have := hok n _ hn
  cases x with
  | unresolved _ => exact this.elim
  | resolved x => exact let ⟨⟨m, hm, _⟩, _⟩ := this; ⟨⟨m, s⟩, x, y, hn, hm, hs⟩

theorem member_item (hok : PoolOK major pool) {c n : Nat} {D : Str → Prop} (h : IsClass pool c ∧ HasDescriptor pool n D) :
    ∃ m, MemberOf pool c n m := by
  obtain ⟨s, hs⟩ := class_item hok h.1
  obtain ⟨t, ht⟩ := nat_item hok h.2
  exact ⟨⟨s, t⟩, hs, ht⟩

theorem member_at {i : Nat} (hok : PoolOK major pool) {x y : CPRef}
    (h : pool[i]? = some (.fieldRef x y) ∨ pool[i]? = some (.methodRef x y) ∨ pool[i]? = some (.interfaceMethodRef x y)) :
    ∃ c n m, x = .resolved c ∧ y = .resolved n ∧ MemberOf pool c n m := by
  rcases h with h | h | h
  all_goals
    have := hok i _ h
    rcases x with _ | c <;> rcases y with _ | n <;> simp only [EntryOK] at this
    obtain ⟨m, hm⟩ := member_item hok this
    exact ⟨c, n, m, rfl, rfl, hm⟩

/-- Every usable slot of a valid pool has an item, unless it is a NameAndType with undecodable descriptor. -/
theorem item_exists (hok : PoolOK major pool) {i : Nat} {e : Entry} (hi : pool[i]? = some e) (hu : usable e = true) (hb : ¬ BadAt pool i) :
    ∃ item, ItemAt pool i item := by
  have h := hok i e hi
  entry_cases e <;> simp only [usable, reduceCtorEq] at hu <;> simp only [EntryOK] at h
  case integer => exact ⟨.literalConstant (.integer _), hi⟩
  case float => exact ⟨.literalConstant (.float _), hi⟩
  case long => exact ⟨.literalConstant (.long _), hi⟩
  case double => exact ⟨.literalConstant (.double _), hi⟩
  case classInfo.resolved => exact let ⟨s, hs, _⟩ := h; ⟨.classInfo s, _, hi, hs⟩
  case string.resolved =>
    rcases h with ⟨s, h⟩ | ⟨s, h⟩
    · exact ⟨.literalConstant (.string s), _, hi, h⟩
    · exact ⟨.literalConstant (.stringBytes s), _, hi, h⟩
  case fieldRef.resolved.resolved => exact let ⟨m, hm⟩ := member_item hok h; ⟨.fieldRef m, _, _, hi, hm⟩
  case methodRef.resolved.resolved => exact let ⟨m, hm⟩ := member_item hok h; ⟨.methodRef m, _, _, hi, hm⟩
  case interfaceMethodRef.resolved.resolved => exact let ⟨m, hm⟩ := member_item hok h; ⟨.interfaceMethodRef m, _, _, hi, hm⟩
  case nameAndType.resolved.resolved =>
    obtain ⟨⟨s, hs, -⟩, ⟨t, ht⟩ | ⟨b, ht⟩⟩ := h
    · exact ⟨.nameAndType ⟨s, t⟩, _, _, hi, hs, ht⟩
    · exact absurd ⟨_, _, b, hi, ht⟩ hb
  case methodHandle.resolved k m =>
    have hm : ∃ x y, pool[m]? = some (.fieldRef x y) ∨ pool[m]? = some (.methodRef x y) ∨ pool[m]? = some (.interfaceMethodRef x y) := by
      obtain ⟨k', e', hk, he, x, y, h⟩ := pointsTo_member h
      cases hk
      rcases h with rfl | rfl | rfl
      · exact ⟨x, y, .inl he⟩
      · exact ⟨x, y, .inr (.inl he)⟩
      · exact ⟨x, y, .inr (.inr he)⟩
    obtain ⟨x, y, hm⟩ := hm
    obtain ⟨c, n, r, rfl, rfl, hr⟩ := member_at hok hm
    rcases hm with hm | hm | hm
    · exact ⟨.methodHandle ⟨k, r.className, .field, r.nameAndType⟩, m, hi, c, n, hm, hr⟩
    · exact ⟨.methodHandle ⟨k, r.className, .method, r.nameAndType⟩, m, hi, c, n, hm, hr⟩
    · exact ⟨.methodHandle ⟨k, r.className, .interfaceMethod, r.nameAndType⟩, m, hi, c, n, hm, hr⟩
  case methodType.resolved => exact let ⟨s, hs, _⟩ := h; ⟨.methodType s, _, hi, hs⟩
  case dynamic.resolved => exact let ⟨t, ht⟩ := nat_item hok h; ⟨.dynamic ⟨_, t⟩, _, hi, ht⟩
  case invokeDynamic.resolved => exact let ⟨t, ht⟩ := nat_item hok h; ⟨.invokeDynamic ⟨_, t⟩, _, hi, ht⟩
  case moduleInfo.resolved => exact let ⟨s, hs, _⟩ := h; ⟨.moduleInfo s, _, hi, hs⟩
  case packageInfo.resolved => exact let ⟨s, hs, _⟩ := h; ⟨.packageInfo s, _, hi, hs⟩

theorem bind_some {α β : Type} {r : Res α} {f : α → β} {b : β} {a : α} (h : r = .ok a) (hb : b = f a) :
    (r >>= fun x => Res.ok (some (f x))) = .ok (some b) := by
  rw [h, hb]; rfl

/-- The item of a slot is what the iterator computes. -/
theorem itemOf_of_itemAt {i : Nat} {e : Entry} {item : ConstantPoolItem} (hi : pool[i]? = some e) (h : ItemAt pool i item) :
    itemOf pool e = .ok (some item) := by
  cases item <;> simp only [ItemAt] at h
  case literalConstant c =>
    cases c <;> simp only [LiteralAt] at h
    case string =>
      obtain ⟨x, h1, h2⟩ := h
      rw [hi] at h1; cases h1
      exact bind_some (peelStringLiteral_ok.mpr ⟨x, rfl, .inl ⟨_, rfl, h2⟩⟩) rfl
    case stringBytes =>
      obtain ⟨x, h1, h2⟩ := h
      rw [hi] at h1; cases h1
      exact bind_some (peelStringLiteral_ok.mpr ⟨x, rfl, .inr ⟨_, rfl, h2⟩⟩) rfl
    all_goals rw [hi] at h; cases h; rfl
  case classInfo => obtain ⟨x, h1, h2⟩ := h; rw [hi] at h1; cases h1; exact bind_some (text_of_name h2) rfl
  case methodType => obtain ⟨x, h1, h2⟩ := h; rw [hi] at h1; cases h1; exact bind_some (text_of_name h2) rfl
  case moduleInfo => obtain ⟨x, h1, h2⟩ := h; rw [hi] at h1; cases h1; exact bind_some (text_of_name h2) rfl
  case packageInfo => obtain ⟨x, h1, h2⟩ := h; rw [hi] at h1; cases h1; exact bind_some (text_of_name h2) rfl
  case fieldRef => obtain ⟨c, n, h1, h2⟩ := h; rw [hi] at h1; cases h1; exact bind_some (makeMemberRef_ok.mpr ⟨c, n, rfl, rfl, h2⟩) rfl
  case methodRef => obtain ⟨c, n, h1, h2⟩ := h; rw [hi] at h1; cases h1; exact bind_some (makeMemberRef_ok.mpr ⟨c, n, rfl, rfl, h2⟩) rfl
  case interfaceMethodRef =>
    obtain ⟨c, n, h1, h2⟩ := h; rw [hi] at h1; cases h1; exact bind_some (makeMemberRef_ok.mpr ⟨c, n, rfl, rfl, h2⟩) rfl
  case nameAndType n =>
    obtain ⟨x, y, h1, h2, h3⟩ := h
    rw [hi] at h1; cases h1
    simp only [itemOf, text_of_name h2, text_of_name h3, Res.ok_bind]
  case methodHandle m =>
    obtain ⟨x, h1, h2⟩ := h
    rw [hi] at h1; cases h1
    have := makeMethodHandle_ok (pool := pool) (x := m.kind) (y := .resolved x) (h := m)
    have h3 : makeMethodHandle pool m.kind (.resolved x) = .ok m := this.mpr ⟨rfl, x, rfl, h2⟩
    simp only [itemOf, h3, unwrapRes, Res.ok_bind]
  case dynamic => obtain ⟨n, h1, h2⟩ := h; rw [hi] at h1; cases h1; exact bind_some (makeDynamic_ok.mpr ⟨n, rfl, rfl, h2⟩) rfl
  case invokeDynamic => obtain ⟨n, h1, h2⟩ := h; rw [hi] at h1; cases h1; exact bind_some (makeDynamic_ok.mpr ⟨n, rfl, rfl, h2⟩) rfl

theorem itemOf_bad (hok : PoolOK major pool) {i : Nat} {e : Entry} (hi : pool[i]? = some e) (hb : BadAt pool i) : itemOf pool e = .panic .nonUtf8 := by
  obtain ⟨x, y, b, h1, h2⟩ := hb
  rw [hi] at h1; cases h1
  have := hok i _ hi
  cases x with
  | unresolved _ => exact this.elim
  | resolved x =>
    obtain ⟨⟨s, hs, -⟩, -⟩ := this
    simp only [itemOf, text_of_name hs, utf8_badAt h2, Res.ok_bind]
    rfl

theorem itemOf_skip {e : Entry} (hz : e ≠ .zero) (hu : usable e = false) : itemOf pool e = .ok none := by
  cases e <;> simp [usable] at hu hz <;> rfl

end items

/-- The usable slots after slot `k`. -/
def usableAfter (pool : Pool) (k : Nat) : List Nat :=
  (List.range' (k + 1) (pool.length - (k + 1))).filter fun i => (pool[i]?.map usable).getD false

theorem usableAfter_end {pool : Pool} {k : Nat} (h : ¬ k + 1 < pool.length) : usableAfter pool k = [] := by
  unfold usableAfter
  rw [show pool.length - (k + 1) = 0 by omega]
  rfl

theorem usableAfter_step {pool : Pool} {k : Nat} {e : Entry} (h : pool[k + 1]? = some e) :
    usableAfter pool k = if usable e then (k + 1) :: usableAfter pool (k + 1) else usableAfter pool (k + 1) := by
  have hlt := (List.getElem?_eq_some_iff.mp h).1
  unfold usableAfter
  rw [show pool.length - (k + 1) = (pool.length - (k + 1 + 1)) + 1 by omega, List.range'_succ, List.filter_cons, h]
  rfl

theorem usableAfter_zero {pool : Pool} (h : pool[0]? = some .zero) : usableSlots pool = usableAfter pool 0 := by
  have hlt := (List.getElem?_eq_some_iff.mp h).1
  unfold usableSlots usableAfter
  rw [show pool.length = (pool.length - 1) + 1 by omega, List.range_eq_range', List.range'_succ, List.filter_cons, h]
  rfl

/-- What one run of the loop finds. -/
theorem loop_finds {major : UInt16} {pool : Pool} (hg : GoodPool major pool) : ∀ (fuel k : Nat), pool.length ≤ fuel + k →
    match usableAfter pool k with
    | [] => ∃ k', iterNextLoop pool (fuel + 1) k = .ok (none, k') ∧ usableAfter pool k' = []
    | i :: rest => (BadAt pool i → iterNextLoop pool (fuel + 1) k = .panic .nonUtf8) ∧
        (¬ BadAt pool i → ∃ item, ItemAt pool i item ∧ iterNextLoop pool (fuel + 1) k = .ok (some item, i) ∧ usableAfter pool i = rest)
  | 0, k, h => by
    rw [usableAfter_end (by omega)]
    exact ⟨k, by unfold iterNextLoop; rw [if_neg (by omega)], usableAfter_end (by omega)⟩
  | fuel + 1, k, h => by
    unfold iterNextLoop
    by_cases hk : k + 1 < pool.length
    · rw [if_pos hk]
      obtain ⟨e, he⟩ : ∃ e, pool[k + 1]? = some e := ⟨_, List.getElem?_eq_getElem hk⟩
      have hz : e ≠ .zero := by
        rintro rfl
        have := hg.zero _ he
        omega
      have hat : poolAt pool (k + 1) = .ok e := by unfold poolAt; rw [he]
      rw [usableAfter_step he]
      simp only [hat, Res.ok_bind]
      cases hu : usable e with
      | false =>
        rw [if_neg (by simp)]
        rw [itemOf_skip hz hu]
        exact loop_finds hg fuel (k + 1) (by omega)
      | true =>
        rw [if_pos rfl]
        refine ⟨fun hb => ?_, fun hb => ?_⟩
        · rw [itemOf_bad hg.ok he hb]; rfl
        · obtain ⟨item, hitem⟩ := item_exists hg.ok he hu hb
          refine ⟨item, hitem, ?_, rfl⟩
          rw [itemOf_of_itemAt he hitem]
          rfl
    · rw [if_neg hk, usableAfter_end hk]
      exact ⟨k, rfl, usableAfter_end hk⟩

/-- What each call returns. -/
theorem nthCall_finds {major : UInt16} {pool : Pool} (hg : GoodPool major pool) (n : Nat) : ∀ k : Nat,
    ((∀ m, m ≤ n → ∀ i, (usableAfter pool k)[m]? = some i → ¬ BadAt pool i) →
      ∃ r, nthCall ⟨pool, k⟩ n = .ok r ∧ match (usableAfter pool k)[n]? with
        | some i => ∃ item, r = some item ∧ ItemAt pool i item
        | none => r = none) ∧
    ((∃ m, m ≤ n ∧ ∃ i, (usableAfter pool k)[m]? = some i ∧ BadAt pool i) → nthCall ⟨pool, k⟩ n = .panic .nonUtf8) := by
  induction n with
  | zero =>
    intro k
    have h := loop_finds hg pool.length k (by omega)
    rcases hl : usableAfter pool k with _ | ⟨i, rest⟩
    · rw [hl] at h
      obtain ⟨k', h1, h2⟩ := h
      refine ⟨fun _ => ⟨none, ?_, by simp⟩, fun ⟨m, _, i, hm, _⟩ => by simp at hm⟩
      simp only [nthCall, ConstantPoolIter.next, h1, Res.ok_bind]
    · rw [hl] at h
      obtain ⟨hbad, hgood⟩ := h
      by_cases hb : BadAt pool i
      · refine ⟨fun hall => absurd hb (hall 0 (Nat.zero_le _) i rfl), fun _ => ?_⟩
        simp only [nthCall, ConstantPoolIter.next, hbad hb]; rfl
      · obtain ⟨item, hitem, h1, h2⟩ := hgood hb
        refine ⟨fun _ => ⟨some item, ?_, item, rfl, hitem⟩, fun ⟨m, hm, j, hj, hbj⟩ => ?_⟩
        · simp only [nthCall, ConstantPoolIter.next, h1, Res.ok_bind]
        · obtain rfl : m = 0 := by omega
          cases hj
          exact absurd hbj hb
  | succ n ih =>
    intro k
    have h := loop_finds hg pool.length k (by omega)
    rcases hl : usableAfter pool k with _ | ⟨i, rest⟩
    · rw [hl] at h
      obtain ⟨k', h1, h2⟩ := h
      refine ⟨fun _ => ⟨none, ?_, by simp⟩, fun ⟨m, _, i, hm, _⟩ => by simp at hm⟩
      obtain ⟨r, hr, hr'⟩ := (ih k').1 (by rw [h2]; simp)
      rw [h2] at hr'
      simp only [List.getElem?_nil] at hr'
      simp only [nthCall, ConstantPoolIter.next, h1, Res.ok_bind, hr, hr']
    · rw [hl] at h
      obtain ⟨hbad, hgood⟩ := h
      by_cases hb : BadAt pool i
      · refine ⟨fun hall => absurd hb (hall 0 (Nat.zero_le _) i rfl), fun _ => ?_⟩
        simp only [nthCall, ConstantPoolIter.next, hbad hb]; rfl
      · obtain ⟨item, hitem, h1, h2⟩ := hgood hb
        have ih := ih i
        rw [h2] at ih
        refine ⟨fun hall => ?_, fun ⟨m, hm, j, hj, hbj⟩ => ?_⟩
        · obtain ⟨r, hr, hr'⟩ := ih.1 fun m hm j hj => hall (m + 1) (by omega) j (by simpa using hj)
          exact ⟨r, by simp only [nthCall, ConstantPoolIter.next, h1, Res.ok_bind, hr], by simpa using hr'⟩
        · rcases m with _ | m
          · cases hj; exact absurd hbj hb
          · have := ih.2 ⟨m, by omega, j, by simpa using hj, hbj⟩
            simp only [nthCall, ConstantPoolIter.next, h1, Res.ok_bind, this]

/-! ## C14 constantpool_iter yields exactly the usable constants -/

/-- The `n`-th call of `next()` on the iterator of a parsed class returns the item of the `n`-th usable slot, and `None` when there are no
more, as long as no slot shown so far is a NameAndType with undecodable descriptor. -/
theorem C14_nth {o : Opts} {bytes : Bytes} {cf : ClassFile} (h : Accepts o bytes cf) (n : Nat)
    (hb : ∀ m, m ≤ n → ∀ i, (usableSlots cf.constantPool)[m]? = some i → ¬ BadAt cf.constantPool i) :
    ∃ r, nthCall cf.constantpoolIter n = .ok r ∧ match (usableSlots cf.constantPool)[n]? with
      | some i => ∃ item, r = some item ∧ ItemAt cf.constantPool i item
      | none => r = none := by
  have hg := goodPool_of_accepts h
  rw [usableAfter_zero hg.first] at hb ⊢
  exact (nthCall_finds hg n 0).1 hb

/-- An item says which constant it came from: its kind and strings are determined by the slot. -/
theorem C14_item_unique {pool : Pool} {i : Nat} {a b : ConstantPoolItem} (ha : ItemAt pool i a) (hb : ItemAt pool i b) : a = b := by
  have : ∃ e, pool[i]? = some e := by
    cases a <;> simp only [ItemAt] at ha
    case literalConstant c => exact literalAt_slot ha
    case nameAndType => exact let ⟨_, _, h, _⟩ := ha; ⟨_, h⟩
    case fieldRef | methodRef | interfaceMethodRef => exact let ⟨_, _, h, _⟩ := ha; ⟨_, h⟩
    all_goals exact let ⟨_, h, _⟩ := ha; ⟨_, h⟩
  obtain ⟨e, he⟩ := this
  have h1 := itemOf_of_itemAt he ha
  rw [itemOf_of_itemAt he hb] at h1
  cases h1
  rfl

/-- The usable slots are exactly those that hold neither the placeholder of slot 0, nor Utf8, nor the second half of a Long or Double; they
are listed in increasing order, so each once. -/
theorem C14_slots (pool : Pool) : (usableSlots pool).Pairwise (· < ·) ∧
    ∀ i, i ∈ usableSlots pool ↔ ∃ e, pool[i]? = some e ∧ e ≠ .zero ∧ e ≠ .unused ∧ ¬ IsUtf8 e := by
  refine ⟨List.Pairwise.filter _ List.pairwise_lt_range, fun i => ?_⟩
  unfold usableSlots
  rw [List.mem_filter, List.mem_range]
  constructor
  · rintro ⟨-, h⟩
    cases hi : pool[i]? with
    | none => rw [hi] at h; simp at h
    | some e =>
      rw [hi] at h
      refine ⟨e, rfl, ?_, ?_, ?_⟩
      · rintro rfl; simp [usable] at h
      · rintro rfl; simp [usable] at h
      · rintro (⟨s, rfl⟩ | ⟨s, rfl⟩) <;> simp [usable] at h
  · rintro ⟨e, hi, h1, h2, h3⟩
    refine ⟨(List.getElem?_eq_some_iff.mp hi).1, ?_⟩
    rw [hi]
    cases e <;> simp [usable, IsUtf8] at h1 h2 h3 ⊢

/-! ## C15 constantpool_iter does not panic -/

/-- A call of `next()` panics exactly when it has to show a NameAndType constant with undecodable descriptor (or an earlier call had to), and
never in another way; it always returns. -/
theorem C15_panics_iff {o : Opts} {bytes : Bytes} {cf : ClassFile} (h : Accepts o bytes cf) (n : Nat) (k : PanicKind) :
    nthCall cf.constantpoolIter n = .panic k ↔
      k = .nonUtf8 ∧ ∃ m, m ≤ n ∧ ∃ i, (usableSlots cf.constantPool)[m]? = some i ∧ BadAt cf.constantPool i := by
  have hg := goodPool_of_accepts h
  rw [usableAfter_zero hg.first]
  obtain ⟨h1, h2⟩ := nthCall_finds hg n 0
  by_cases hb : ∃ m, m ≤ n ∧ ∃ i, (usableAfter cf.constantPool 0)[m]? = some i ∧ BadAt cf.constantPool i
  · have h3 := h2 hb
    show nthCall ⟨cf.constantPool, 0⟩ n = _ ↔ _
    rw [h3]
    constructor
    · intro h; cases h; exact ⟨rfl, hb⟩
    · rintro ⟨rfl, -⟩; rfl
  · obtain ⟨r, hr, -⟩ := h1 fun m hm i hi hbi => hb ⟨m, hm, i, hi, hbi⟩
    show nthCall ⟨cf.constantPool, 0⟩ n = _ ↔ _
    rw [hr]
    constructor
    · intro h; cases h
    · rintro ⟨-, h⟩; exact absurd h hb

/-- Without such a constant iteration never panics and always returns, however often `next()` is called. -/
theorem C15_total {o : Opts} {bytes : Bytes} {cf : ClassFile} (h : Accepts o bytes cf) (hb : ¬ BadDescriptor cf.constantPool) (n : Nat) :
    ∃ r, nthCall cf.constantpoolIter n = .ok r := by
  obtain ⟨r, hr, -⟩ := C14_nth h n fun m hm i hi ⟨x, y, b, h1, h2⟩ => hb ⟨i, x, y, b, h1, h2⟩
  exact ⟨r, hr⟩

/-- If every Utf8 constant decodes there is no such constant. -/
theorem C15_decodable {o : Opts} {bytes : Bytes} {cf : ClassFile} (h : Accepts o bytes cf) (hd : ∀ b, (o.decode b).isSome) :
    ¬ BadDescriptor cf.constantPool := by
  rintro ⟨i, x, y, b, -, hy⟩
  obtain ⟨count, es, body, rest, -, -, hmap, hs, -⟩ := enc_pool (accepts_iff_enc.mp h)
  rw [hmap, List.getElem?_map, Option.map_eq_some_iff] at hy
  obtain ⟨e, he, hl⟩ := hy
  obtain rfl : e = .utf8Bytes b := by cases e <;> simp_all [linkEntry]
  rcases List.mem_cons.mp (List.mem_of_getElem? he) with h0 | hm
  · cases h0
  obtain ⟨f, hf, hm⟩ := List.mem_flatMap.mp hm
  obtain rfl : f = .utf8Bytes b := by
    rcases slots_mem hm with h | h
    · exact h.symm
    · cases h
  obtain ⟨s, hs⟩ := (seq_enc_mem hs).1 _ hf
  obtain ⟨n, -, hn, -⟩ := hs
  have := hd b
  rw [hn] at this
  cases this

theorem oddDescriptor_iter : (match run debug 9 oddDescriptor with
    | .ok cf => (nthCall cf.constantpoolIter 0).isOk && panicOf (nthCall cf.constantpoolIter 1) == some .nonUtf8
    | _ => false) = true := by decide +kernel

/-- The claim "iteration never panics" is false of the code: `oddDescriptor` is accepted and the second call of `next()` panics. -/
theorem C15_witness : ∃ cf, Accepts debug oddDescriptor cf ∧ (∃ r, nthCall cf.constantpoolIter 0 = .ok r) ∧
    nthCall cf.constantpoolIter 1 = .panic .nonUtf8 := by
  have h := oddDescriptor_iter
  cases hr : run debug 9 oddDescriptor with
  | ok cf =>
    rw [hr] at h
    simp only [Bool.and_eq_true, beq_iff_eq] at h
    obtain ⟨h0, hp⟩ := h
    refine ⟨cf, ⟨9, hr⟩, ?_, ?_⟩
    · cases hc : nthCall cf.constantpoolIter 0 with
      | ok r => exact ⟨r, rfl⟩
      | err e => rw [hc] at h0; cases h0
      | panic k => rw [hc] at h0; cases h0
      | diverge => rw [hc] at h0; cases h0
    · cases hc : nthCall cf.constantpoolIter 1 with
      | ok r => rw [hc] at hp; cases hp
      | err e => rw [hc] at hp; cases hp
      | panic k => rw [hc] at hp; cases hp; rfl
      | diverge => rw [hc] at hp; cases hp
  | err e => rw [hr] at h; cases h
  | panic k => rw [hr] at h; cases h
  | diverge => rw [hr] at h; cases h

/-- `rich` has an undecodable Utf8 constant but no NameAndType with undecodable descriptor: all its slots can be shown. -/
example : Accepts debug rich richCf ∧ richCf.constantPool[23]? = some (.utf8Bytes [0xFF]) ∧ 10 ∈ usableSlots richCf.constantPool := by
  refine ⟨rich_accepted, rich_pool.2.2.2.2.2.2.2.2.2.2.2, ((C14_slots _).2 10).mpr ⟨_, rich_pool.2.1, by simp, by simp, ?_⟩⟩
  rintro (⟨s, h⟩ | ⟨s, h⟩) <;> cases h

end Cafebabe
