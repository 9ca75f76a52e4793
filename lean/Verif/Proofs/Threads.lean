import Verif.Spec.Threads
import Verif.Props.IterProps
/-!
# Proofs: locks are taken in increasing rank
-/

namespace Cafebabe
open Spec

/-- The code, run by a thread that holds `held` and whose iterator stands at `ix`, takes mutexes in increasing rank, drops its guards in order
until `base` is left, and ends with an outcome satisfying `Q`; it panics only while all its guards are `Bad` and the iterator stands at a place
allowed by `PO`; if it finds a mutex poisoned, that mutex is `Bad` only if `PO` holds of the place. -/
def Good {α : Type} (rank : Cell → Nat) (Bad : Cell → Prop) (Q : Res α → Prop) (PO : Nat → Prop) (base : List Cell) : Nat → List Cell → Prog α → Prop
  | ix, held, .done r => Q r ∧ match r with
    | .panic _ => PO ix ∧ ∀ c ∈ held, Bad c
    | _ => held = base
  | ix, held, .poisoned => PO ix ∧ ∀ c ∈ held, Bad c
  | ix, held, .lock c p => (∀ h ∈ held, rank h < rank c) ∧ (Bad c → PO ix ∧ ∀ h ∈ held, Bad h) ∧ Good rank Bad Q PO base ix (c :: held) p
  | ix, held, .unlock c p => ∃ rest, held = c :: rest ∧ Good rank Bad Q PO base ix rest p
  | ix, held, .tryLock c p q => Good rank Bad Q PO base ix (c :: held) p ∧ Good rank Bad Q PO base ix held q
  | _, held, .setIndex i p => Good rank Bad Q PO base i held p

section good
variable {α β : Type} {rank : Cell → Nat} {Bad : Cell → Prop} {Q : Res α → Prop} {Q' : Res β → Prop} {PO PO' : Nat → Prop} {base : List Cell}

theorem Good.bind {f : α → Prog β} (hok : ∀ a ix, Q (.ok a) → Good rank Bad Q' PO' base ix base (f a)) (herr : ∀ e, Q (.err e) → Q' (.err e))
    (hpanic : ∀ k, Q (.panic k) → Q' (.panic k)) (hdiv : Q .diverge → Q' .diverge) (hpo : ∀ ix, PO ix → PO' ix) :
    ∀ {p : Prog α} {ix : Nat} {held : List Cell}, Good rank Bad Q PO base ix held p → Good rank Bad Q' PO' base ix held (p.bind f)
  | .done (.ok a), ix, held, h => by
    obtain ⟨h1, rfl⟩ : Q (.ok a) ∧ held = base := h
    exact hok a ix h1
  | .done (.err e), _, _, h => ⟨herr e h.1, h.2⟩
  | .done (.panic k), _, _, h => ⟨hpanic k h.1, hpo _ h.2.1, h.2.2⟩
  | .done .diverge, _, _, h => ⟨hdiv h.1, h.2⟩
  | .poisoned, _, _, h => ⟨hpo _ h.1, h.2⟩
  | .lock _ p, _, _, h => ⟨h.1, fun hb => ⟨hpo _ (h.2.1 hb).1, (h.2.1 hb).2⟩, Good.bind hok herr hpanic hdiv hpo (p := p) h.2.2⟩
  | .unlock _ p, _, _, h => let ⟨rest, h1, h2⟩ := h; ⟨rest, h1, Good.bind hok herr hpanic hdiv hpo (p := p) h2⟩
  | .tryLock _ p q, _, _, h => ⟨Good.bind hok herr hpanic hdiv hpo (p := p) h.1, Good.bind hok herr hpanic hdiv hpo (p := q) h.2⟩
  | .setIndex i p, _, held, h => Good.bind hok herr hpanic hdiv hpo (p := p) (ix := i) (held := held) h

theorem Good.mono {Q₂ : Res α → Prop} (hQ : ∀ r, Q r → Q₂ r) (hpo : ∀ ix, PO ix → PO' ix) :
    ∀ {p : Prog α} {ix : Nat} {held : List Cell}, Good rank Bad Q PO base ix held p → Good rank Bad Q₂ PO' base ix held p
  | .done (.panic _), _, _, h => ⟨hQ _ h.1, hpo _ h.2.1, h.2.2⟩
  | .done (.ok _), _, _, h => ⟨hQ _ h.1, h.2⟩
  | .done (.err _), _, _, h => ⟨hQ _ h.1, h.2⟩
  | .done .diverge, _, _, h => ⟨hQ _ h.1, h.2⟩
  | .poisoned, _, _, h => ⟨hpo _ h.1, h.2⟩
  | .lock _ p, _, _, h => ⟨h.1, fun hb => ⟨hpo _ (h.2.1 hb).1, (h.2.1 hb).2⟩, Good.mono hQ hpo (p := p) h.2.2⟩
  | .unlock _ p, _, _, h => let ⟨rest, h1, h2⟩ := h; ⟨rest, h1, Good.mono hQ hpo (p := p) h2⟩
  | .tryLock _ p q, _, _, h => ⟨Good.mono hQ hpo (p := p) h.1, Good.mono hQ hpo (p := q) h.2⟩
  | .setIndex i p, _, held, h => Good.mono hQ hpo (p := p) (ix := i) (held := held) h

/-- Code that panics or returns under a `try_lock` guard of the formatting code, which never panics. -/
theorem Good.closing {c : Cell} (hp : ∀ k, ¬ Q (.panic k)) (hd : ¬ Q .diverge) :
    ∀ {p : Prog α} {ix : Nat} {held : List Cell}, Good rank Bad Q PO (c :: base) ix held p → Good rank Bad Q PO base ix held (p.closing c)
  | .done (.ok a), _, held, h => by
    obtain ⟨h1, rfl⟩ : Q (.ok a) ∧ held = c :: base := h
    exact ⟨base, rfl, h1, rfl⟩
  | .done (.err e), _, held, h => by
    obtain ⟨h1, rfl⟩ : Q (.err e) ∧ held = c :: base := h
    exact ⟨base, rfl, h1, rfl⟩
  | .done (.panic k), _, _, h => absurd h.1 (hp k)
  | .done .diverge, _, _, h => absurd h.1 hd
  | .poisoned, _, _, h => h
  | .lock _ p, _, _, h => ⟨h.1, h.2.1, Good.closing hp hd (p := p) h.2.2⟩
  | .unlock _ p, _, _, h => let ⟨rest, h1, h2⟩ := h; ⟨rest, h1, Good.closing hp hd (p := p) h2⟩
  | .tryLock _ p q, _, _, h => ⟨Good.closing hp hd (p := p) h.1, Good.closing hp hd (p := q) h.2⟩
  | .setIndex i p, _, held, h => Good.closing hp hd (p := p) (ix := i) (held := held) h
end good

/-! ## The order of the mutexes of a pool -/

/-- Rank of a mutex: method handles before members and dynamic constants, the class of a member before its NameAndType, the name of
a NameAndType before its descriptor. -/
def rankOf (pool : Pool) (c : Cell) : Nat :=
  match pool[c.slot]?, c.second with
  | some (.methodHandle _ _), _ => 0
  | some (.fieldRef _ _), false | some (.methodRef _ _), false | some (.interfaceMethodRef _ _), false => 1
  | some (.dynamic _ _), _ | some (.invokeDynamic _ _), _ => 1
  | some (.fieldRef _ _), true | some (.methodRef _ _), true | some (.interfaceMethodRef _ _), true => 3
  | some (.nameAndType _ _), false => 4
  | some (.nameAndType _ _), true => 5
  | _, _ => 2

/-- The mutexes of NameAndType constants with undecodable descriptor. -/
def BadCell (pool : Pool) (c : Cell) : Prop := BadAt pool c.slot

section evaluate
variable {pool : Pool}

theorem getTarget_ok {t : Nat} {e : Entry} (h : pool[t]? = some e) : getTarget pool (.resolved t) = .ok (t, e) := by
  simp only [getTarget, h]

theorem peelL_eval {α : Type} {c : Cell} {t : Nat} {e : Entry} {k : Nat → Entry → Prog α} (h : pool[t]? = some e) :
    peelL pool c (.resolved t) k = .lock c ((k t e).closing c) := by
  simp only [peelL, getTarget_ok h, Prog.guarded, Prog.bind]

theorem utf8L_eval {c : Cell} {t : Nat} {s : Str} (h : TextAt pool t s) :
    peelUtf8L pool c (.resolved t) = .lock c (.unlock c (.done (.ok s))) := by
  rw [peelUtf8L, peelL_eval h]; rfl

theorem classinfoL_eval {i : Nat} {s : Str} (h : ClassAt pool i s) : ∃ e, pool[i]? = some e ∧
    classinfoL pool i e = .lock ⟨i, false⟩ (.unlock ⟨i, false⟩ (.done (.ok s))) := by
  obtain ⟨x, h1, h2⟩ := h
  exact ⟨_, h1, utf8L_eval h2⟩

theorem natFieldsL_eval {i x y : Nat} {s t : Str} (hs : TextAt pool x s) (ht : TextAt pool y t) :
    nameAndTypeFieldsL pool i (.resolved x) (.resolved y) =
      .lock ⟨i, false⟩ (.lock ⟨i, true⟩ (.unlock ⟨i, true⟩ (.unlock ⟨i, false⟩ (.done (.ok ⟨s, t⟩))))) := by
  simp only [nameAndTypeFieldsL, peelL_eval hs, peelL_eval ht, Entry.getUtf8, Prog.bind, Prog.closing]

theorem natOfL_eval {n : Nat} {t : NameAndType} (h : NameAndTypeAt pool n t) : ∃ e, pool[n]? = some e ∧ nameAndTypeOfL pool n e =
    .lock ⟨n, false⟩ (.lock ⟨n, true⟩ (.unlock ⟨n, true⟩ (.unlock ⟨n, false⟩ (.done (.ok t))))) := by
  obtain ⟨x, y, h1, h2, h3⟩ := h
  exact ⟨_, h1, natFieldsL_eval h2 h3⟩

/-- The lock operations of reading a member. -/
def memberTree {α : Type} (i c n : Nat) (a : α) : Prog α :=
  .lock ⟨i, false⟩ (.lock ⟨c, false⟩ (.unlock ⟨c, false⟩ (.lock ⟨i, true⟩ (.lock ⟨n, false⟩ (.lock ⟨n, true⟩ (.unlock ⟨n, true⟩
    (.unlock ⟨n, false⟩ (.unlock ⟨i, true⟩ (.unlock ⟨i, false⟩ (.done (.ok a)))))))))))

theorem memberL_eval {α : Type} {i c n : Nat} {m : MemberRef} {f : Str → NameAndType → α} (h : MemberOf pool c n m) :
    memberL pool i (.resolved c) (.resolved n) f = memberTree i c n (f m.className m.nameAndType) := by
  obtain ⟨h1, h2⟩ := h
  obtain ⟨ec, hc, hce⟩ := classinfoL_eval h1
  obtain ⟨en, hn, hne⟩ := natOfL_eval h2
  simp only [memberL, peelL_eval hc, peelL_eval hn, hce, hne, Prog.bind, Prog.closing, memberTree]

theorem dynamicL_eval {i n : Nat} {b : UInt16} {t : NameAndType} (h : NameAndTypeAt pool n t) :
    makeDynamicL pool i b (.resolved n) = .lock ⟨i, false⟩ (.lock ⟨n, false⟩ (.lock ⟨n, true⟩ (.unlock ⟨n, true⟩ (.unlock ⟨n, false⟩
      (.unlock ⟨i, false⟩ (.done (.ok ⟨b, t⟩))))))) := by
  obtain ⟨en, hn, hne⟩ := natOfL_eval h
  simp only [makeDynamicL, peelL_eval hn, hne, Prog.bind, Prog.closing]

theorem handleL_eval {i m : Nat} {h : MethodHandle} (hm : MemberRefAt pool m h.memberKind { className := h.className, nameAndType := h.memberRef }) :
    ∃ c n, (∃ e, pool[m]? = some e ∧ (e = .fieldRef (.resolved c) (.resolved n) ∨ e = .methodRef (.resolved c) (.resolved n) ∨
        e = .interfaceMethodRef (.resolved c) (.resolved n))) ∧ MemberOf pool c n { className := h.className, nameAndType := h.memberRef } ∧
      makeMethodHandleL pool i h.kind (.resolved m) = .lock ⟨i, false⟩ ((memberTree m c n h).closing ⟨i, false⟩) := by
  obtain ⟨kind, cls, mk, nt⟩ := h
  cases mk
  all_goals
    obtain ⟨c, n, h1, h2⟩ := hm
    refine ⟨c, n, ⟨_, h1, by simp⟩, h2, ?_⟩
    simp only [makeMethodHandleL, peelL_eval h1]
    rw [memberL_eval h2]

theorem not_bad {i : Nat} {e : Entry} (h : pool[i]? = some e) (hne : ∀ x y, e ≠ .nameAndType x y) : ¬ BadAt pool i := by
  rintro ⟨x, y, b, h1, -⟩
  rw [h] at h1
  exact hne _ _ (Option.some.inj h1)

theorem not_bad_nat {n : Nat} {t : NameAndType} (h : NameAndTypeAt pool n t) : ¬ BadAt pool n := by
  obtain ⟨x, y, h1, -, h3⟩ := h
  rintro ⟨x', y', b, h4, h5⟩
  rw [h1] at h4
  cases h4
  unfold TextAt at h3
  rw [h3] at h5
  cases h5

theorem not_bad_class {c : Nat} {s : Str} (h : ClassAt pool c s) : ¬ BadAt pool c := by
  obtain ⟨x, h1, -⟩ := h
  exact not_bad h1 (by simp)

theorem rank_nat_x {n : Nat} {t : NameAndType} (h : NameAndTypeAt pool n t) : rankOf pool ⟨n, false⟩ = 4 := by
  obtain ⟨x, y, h1, -⟩ := h
  simp [rankOf, h1]

theorem rank_nat_y {n : Nat} {t : NameAndType} (h : NameAndTypeAt pool n t) : rankOf pool ⟨n, true⟩ = 5 := by
  obtain ⟨x, y, h1, -⟩ := h
  simp [rankOf, h1]

theorem rank_class {n : Nat} {s : Str} (h : ClassAt pool n s) : rankOf pool ⟨n, false⟩ = 2 := by
  obtain ⟨x, h1, -⟩ := h
  simp [rankOf, h1]

/-- Reading a member, while holding only mutexes of rank 0. -/
theorem memberTree_good {α : Type} {i c n : Nat} {a : α} {e : Entry} {m : MemberRef} {base : List Cell} {PO : Nat → Prop} {ix : Nat}
    (hbase : ∀ h ∈ base, rankOf pool h = 0) (hi : pool[i]? = some e)
    (he : e = .fieldRef (.resolved c) (.resolved n) ∨ e = .methodRef (.resolved c) (.resolved n) ∨
        e = .interfaceMethodRef (.resolved c) (.resolved n)) (hm : MemberOf pool c n m) :
    Good (rankOf pool) (BadCell pool) (fun r => r = .ok a) PO base ix base (memberTree i c n a) := by
  obtain ⟨h1, h2⟩ := hm
  have hb : ¬ BadAt pool i := not_bad hi (by rcases he with rfl | rfl | rfl <;> simp)
  have r1 : rankOf pool ⟨i, false⟩ = 1 := by rcases he with rfl | rfl | rfl <;> simp [rankOf, hi]
  have r2 : rankOf pool ⟨i, true⟩ = 3 := by rcases he with rfl | rfl | rfl <;> simp [rankOf, hi]
  simp only [memberTree, Good, List.forall_mem_cons, BadCell, hb, not_bad_nat h2, not_bad_class h1, false_implies, true_and, r1, r2, rank_nat_x h2,
    rank_nat_y h2, rank_class h1, List.cons.injEq, exists_eq_left', and_true, true_and]
  have hlt : ∀ k, 0 < k → ∀ x ∈ base, rankOf pool x < k := fun k hk x hx => by rw [hbase x hx]; exact hk
  exact ⟨hlt 1 (by omega), ⟨by omega, hlt 2 (by omega)⟩, ⟨by omega, hlt 3 (by omega)⟩, ⟨by omega, by omega, hlt 4 (by omega)⟩,
    by omega, by omega, by omega, hlt 5 (by omega)⟩

theorem Good.unwrapL {α : Type} {rank : Cell → Nat} {Bad : Cell → Prop} {Q : Res α → Prop} {PO : Nat → Prop} {base : List Cell}
    (he : ∀ e, ¬ Q (.err e)) : ∀ {p : Prog α} {ix : Nat} {held : List Cell}, Good rank Bad Q PO base ix held p →
      Good rank Bad Q PO base ix held p.unwrapL
  | .done (.ok _), _, _, h => h
  | .done (.err e), _, _, h => absurd h.1 (he e)
  | .done (.panic _), _, _, h => h
  | .done .diverge, _, _, h => h
  | .poisoned, _, _, h => h
  | .lock _ p, _, _, h => ⟨h.1, h.2.1, Good.unwrapL he (p := p) h.2.2⟩
  | .unlock _ p, _, _, h => let ⟨rest, h1, h2⟩ := h; ⟨rest, h1, Good.unwrapL he (p := p) h2⟩
  | .tryLock _ p q, _, _, h => ⟨Good.unwrapL he (p := p) h.1, Good.unwrapL he (p := q) h.2⟩
  | .setIndex i p, _, held, h => Good.unwrapL he (p := p) (ix := i) (held := held) h

/-- Code that returns `a`, mapped. -/
theorem Good.map {α β : Type} {rank : Cell → Nat} {Bad : Cell → Prop} {PO : Nat → Prop} {ix : Nat} {base held : List Cell} {a : α} {f : α → β} {p : Prog α}
    (h : Good rank Bad (fun r => r = .ok a) PO base ix held p) : Good rank Bad (fun r => r = .ok (f a)) PO base ix held (mapL f p) :=
  Good.bind (by rintro _ _ ⟨⟩; exact ⟨rfl, rfl⟩) (by simp) (by simp) (by simp) (fun _ => id) h

theorem simple_good {α : Type} {i : Nat} {b : Bool} {a : α} {PO : Nat → Prop} {ix : Nat} (hb : ¬ BadAt pool i) :
    Good (rankOf pool) (BadCell pool) (fun r => r = .ok a) PO [] ix [] (.lock ⟨i, b⟩ (.unlock ⟨i, b⟩ (.done (.ok a)))) := by
  simp [Good, BadCell, hb]

theorem handle_good {i m : Nat} {h : MethodHandle} {PO : Nat → Prop} {ix : Nat} (hi : pool[i]? = some (.methodHandle h.kind (.resolved m)))
    (hm : MemberRefAt pool m h.memberKind { className := h.className, nameAndType := h.memberRef }) :
    Good (rankOf pool) (BadCell pool) (fun r => r = .ok h) PO [] ix [] (makeMethodHandleL pool i h.kind (.resolved m)) := by
  obtain ⟨c, n, ⟨e, he, hc⟩, hmem, h⟩ := handleL_eval (i := i) hm
  rw [h]
  refine ⟨by simp, fun hb => absurd hb (not_bad hi (by simp)), Good.closing (by simp) (by simp) ?_⟩
  exact memberTree_good (by simp [rankOf, hi]) he hc hmem

theorem dynamic_good {i n : Nat} {b : UInt16} {t : NameAndType} {e : Entry} {PO : Nat → Prop} {ix : Nat} (hi : pool[i]? = some e)
    (he : e = .dynamic b (.resolved n) ∨ e = .invokeDynamic b (.resolved n)) (h : NameAndTypeAt pool n t) :
    Good (rankOf pool) (BadCell pool) (fun r => r = .ok ⟨b, t⟩) PO [] ix [] (makeDynamicL pool i b (.resolved n)) := by
  have hb : ¬ BadAt pool i := not_bad hi (by rcases he with rfl | rfl <;> simp)
  have r1 : rankOf pool ⟨i, false⟩ = 1 := by rcases he with rfl | rfl <;> simp [rankOf, hi]
  rw [dynamicL_eval h]
  simp [Good, BadCell, hb, not_bad_nat h, r1, rank_nat_x h, rank_nat_y h]

/-- The iterator's code for a good slot. -/
theorem itemL_good {i : Nat} {e : Entry} {item : ConstantPoolItem} {PO : Nat → Prop} {ix : Nat} (hi : pool[i]? = some e) (h : ItemAt pool i item) :
    Good (rankOf pool) (BadCell pool) (fun r => r = .ok (some item)) PO [] ix [] (itemOfL pool i e) := by
  cases item <;> simp only [ItemAt] at h
  case literalConstant c =>
    cases c <;> simp only [LiteralAt] at h
    case string =>
      obtain ⟨x, h1, h2⟩ := h
      rw [hi] at h1; cases h1
      refine Good.map (f := some ∘ ConstantPoolItem.literalConstant) ?_
      rw [peelStringLiteralL, peelL_eval h2]
      exact simple_good (not_bad hi (by simp))
    case stringBytes =>
      obtain ⟨x, h1, h2⟩ := h
      rw [hi] at h1; cases h1
      refine Good.map (f := some ∘ ConstantPoolItem.literalConstant) ?_
      rw [peelStringLiteralL, peelL_eval h2]
      exact simple_good (not_bad hi (by simp))
    all_goals rw [hi] at h; cases h; exact ⟨rfl, rfl⟩
  case classInfo =>
    obtain ⟨x, h1, h2⟩ := h; rw [hi] at h1; cases h1
    exact Good.map (f := some ∘ ConstantPoolItem.classInfo) (by rw [utf8L_eval h2]; exact simple_good (not_bad hi (by simp)))
  case methodType =>
    obtain ⟨x, h1, h2⟩ := h; rw [hi] at h1; cases h1
    exact Good.map (f := some ∘ ConstantPoolItem.methodType) (by rw [utf8L_eval h2]; exact simple_good (not_bad hi (by simp)))
  case moduleInfo =>
    obtain ⟨x, h1, h2⟩ := h; rw [hi] at h1; cases h1
    exact Good.map (f := some ∘ ConstantPoolItem.moduleInfo) (by rw [utf8L_eval h2]; exact simple_good (not_bad hi (by simp)))
  case packageInfo =>
    obtain ⟨x, h1, h2⟩ := h; rw [hi] at h1; cases h1
    exact Good.map (f := some ∘ ConstantPoolItem.packageInfo) (by rw [utf8L_eval h2]; exact simple_good (not_bad hi (by simp)))
  case fieldRef =>
    obtain ⟨c, n, h1, h2⟩ := h; rw [hi] at h1; cases h1
    exact Good.map (f := some ∘ ConstantPoolItem.fieldRef) (by rw [makeMemberRefL, memberL_eval h2]; exact memberTree_good (by simp) hi (by simp) h2)
  case methodRef =>
    obtain ⟨c, n, h1, h2⟩ := h; rw [hi] at h1; cases h1
    exact Good.map (f := some ∘ ConstantPoolItem.methodRef) (by rw [makeMemberRefL, memberL_eval h2]; exact memberTree_good (by simp) hi (by simp) h2)
  case interfaceMethodRef =>
    obtain ⟨c, n, h1, h2⟩ := h; rw [hi] at h1; cases h1
    exact Good.map (f := some ∘ ConstantPoolItem.interfaceMethodRef)
      (by rw [makeMemberRefL, memberL_eval h2]; exact memberTree_good (by simp) hi (by simp) h2)
  case nameAndType n =>
    have hb := not_bad_nat h
    have hx := rank_nat_x h
    have hy := rank_nat_y h
    obtain ⟨x, y, h1, h2, h3⟩ := h
    rw [hi] at h1; cases h1
    refine Good.map (f := some ∘ ConstantPoolItem.nameAndType) ?_
    rw [natFieldsL_eval h2 h3]
    simp [Good, BadCell, hb, hx, hy]
  case methodHandle m =>
    obtain ⟨x, h1, h2⟩ := h
    rw [hi] at h1; cases h1
    exact Good.map (f := some ∘ ConstantPoolItem.methodHandle) (Good.unwrapL (by simp) (handle_good hi h2))
  case dynamic =>
    obtain ⟨n, h1, h2⟩ := h; rw [hi] at h1; cases h1
    exact Good.map (f := some ∘ ConstantPoolItem.dynamic) (dynamic_good hi (.inl rfl) h2)
  case invokeDynamic =>
    obtain ⟨n, h1, h2⟩ := h; rw [hi] at h1; cases h1
    exact Good.map (f := some ∘ ConstantPoolItem.invokeDynamic) (dynamic_good hi (.inr rfl) h2)

theorem itemL_bad {major : UInt16} (hok : PoolOK major pool) {i : Nat} {e : Entry} {PO : Nat → Prop} {ix : Nat} (hpo : PO ix) (hi : pool[i]? = some e)
    (hb : BadAt pool i) : Good (rankOf pool) (BadCell pool) (fun r => r = .panic .nonUtf8) PO [] ix [] (itemOfL pool i e) := by
  have hb' := hb
  obtain ⟨x, y, b, h1, h2⟩ := hb
  rw [hi] at h1; cases h1
  have := hok i _ hi
  cases x with
  | unresolved _ => exact this.elim
  | resolved x =>
    obtain ⟨⟨s, hs, -⟩, -⟩ := this
    have r1 : rankOf pool ⟨i, false⟩ = 4 := by simp [rankOf, hi]
    have r2 : rankOf pool ⟨i, true⟩ = 5 := by simp [rankOf, hi]
    simp only [itemOfL, nameAndTypeFieldsL, peelL_eval hs, peelL_eval h2, Entry.getUtf8, Prog.bind, Prog.closing, mapL]
    simp [Good, BadCell, hb', hpo, r1, r2]

theorem itemL_skip {e : Entry} {i : Nat} (hz : e ≠ .zero) (hu : usable e = false) : itemOfL pool i e = .done (.ok none) := by
  cases e <;> simp [usable] at hu hz <;> rfl

end evaluate

/-- The place of the iterator when its loop returns or panics, told by the single-threaded loop. -/
def stopIndex (pool : Pool) (fuel k : Nat) : Nat := (iterNextLoopAt pool fuel k).2

/-- The loop that tells where it stopped is the loop. -/
theorem loopAt_loop {pool : Pool} : ∀ (fuel k : Nat), iterNextLoop pool fuel k = (iterNextLoopAt pool fuel k).1.bind fun o => .ok (o, stopIndex pool fuel k)
  | 0, _ => rfl
  | fuel + 1, k => by
    unfold stopIndex iterNextLoop iterNextLoopAt
    by_cases hk : k + 1 < pool.length
    · rw [if_pos hk, if_pos hk]
      obtain ⟨e, he⟩ : ∃ e, pool[k + 1]? = some e := ⟨_, List.getElem?_eq_getElem hk⟩
      have hat : poolAt pool (k + 1) = .ok e := by unfold poolAt; rw [he]
      simp only [hat, Res.ok_bind, Res.bind]
      cases itemOf pool e with
      | ok o =>
        cases o with
        | some item => rfl
        | none => exact loopAt_loop fuel (k + 1)
      | err e => rfl
      | panic k => rfl
      | diverge => rfl
    · rw [if_neg hk, if_neg hk]
      rfl

/-- The code of the loop of `next()` ends like the single-threaded loop, and if it panics, then where that stops. -/
theorem loopL_good {major : UInt16} {pool : Pool} (hg : GoodPool major pool) : ∀ (fuel k ix : Nat),
    Good (rankOf pool) (BadCell pool) (fun r => r = iterNextLoop pool fuel k)
      (fun ix => iterNextLoop pool fuel k = .panic .nonUtf8 ∧ ix = stopIndex pool fuel k) [] ix [] (iterNextLoopL pool fuel k)
  | 0, k, _ => ⟨rfl, rfl⟩
  | fuel + 1, k, ix => by
    unfold iterNextLoopL iterNextLoop stopIndex iterNextLoopAt
    by_cases hk : k + 1 < pool.length
    · simp only [if_pos hk]
      show Good _ _ _ _ _ (k + 1) _ _
      obtain ⟨e, he⟩ : ∃ e, pool[k + 1]? = some e := ⟨_, List.getElem?_eq_getElem hk⟩
      have hz : e ≠ .zero := by
        rintro rfl
        have := hg.zero _ he
        omega
      have hat : poolAt pool (k + 1) = .ok e := by unfold poolAt; rw [he]
      simp only [hat, Res.ok_bind, Prog.bind, Res.bind]
      cases hu : usable e with
      | false =>
        rw [itemL_skip hz hu, itemOf_skip hz hu]
        exact loopL_good hg fuel (k + 1) (k + 1)
      | true =>
        by_cases hb : BadAt pool (k + 1)
        · rw [itemOf_bad hg.ok he hb]
          refine Good.bind ?_ ?_ ?_ ?_ (fun _ => id) (itemL_bad hg.ok ⟨rfl, rfl⟩ he hb)
          · simp
          · simp
          · rintro _ ⟨⟩; rfl
          · simp
        · obtain ⟨item, hitem⟩ := item_exists hg.ok he hu hb
          rw [itemOf_of_itemAt he hitem]
          refine Good.bind ?_ (by simp) (by simp) (by simp) (fun _ => id) (itemL_good he hitem)
          rintro _ _ ⟨⟩
          exact ⟨rfl, rfl⟩
    · simp only [if_neg hk]
      exact ⟨rfl, rfl⟩

/-- `next()` panics and leaves its iterator at `ix`. -/
def PanicsAt (it : ConstantPoolIter) (ix : Nat) : Prop :=
  it.next = .panic .nonUtf8 ∧ it.nextCaught = .ok (.panicked, { it with index := ix })

theorem nextAt_next (it : ConstantPoolIter) : it.next = it.nextAt.1.bind fun o => .ok (o, it.nextAt.2) := by
  unfold ConstantPoolIter.next ConstantPoolIter.nextAt
  rw [loopAt_loop]
  simp only [stopIndex]
  cases (iterNextLoopAt it.pool (it.pool.length + 1) it.index).1 <;> rfl

/-- Catching changes nothing but the panic. -/
theorem nextCaught_of_next {it it' : ConstantPoolIter} {o : Option ConstantPoolItem} (h : it.next = .ok (o, it')) :
    it.nextCaught = .ok (.returned o, it') := by
  rw [nextAt_next] at h
  unfold ConstantPoolIter.nextCaught
  revert h
  rcases it.nextAt with ⟨r, i⟩
  intro h
  cases r with
  | ok o' => cases h; rfl
  | err e => cases h
  | panic k => cases h
  | diverge => cases h

/-- The code of `next()` ends like the single-threaded `next()`. -/
theorem nextL_good {major : UInt16} {it : ConstantPoolIter} (hg : GoodPool major it.pool) (ix : Nat) :
    Good (rankOf it.pool) (BadCell it.pool) (fun r => r = it.next) (PanicsAt it) [] ix [] (nextL it) := by
  have hp : ∀ ix, iterNextLoop it.pool (it.pool.length + 1) it.index = .panic .nonUtf8 ∧ ix = stopIndex it.pool (it.pool.length + 1) it.index →
      PanicsAt it ix := by
    rintro ix ⟨h, rfl⟩
    refine ⟨by unfold ConstantPoolIter.next; rw [h]; rfl, ?_⟩
    rw [loopAt_loop] at h
    unfold ConstantPoolIter.nextCaught ConstantPoolIter.nextAt stopIndex at *
    cases hr : (iterNextLoopAt it.pool (it.pool.length + 1) it.index).1 with
    | ok o => rw [hr] at h; cases h
    | err e => rw [hr] at h; cases h
    | panic k => simp only [hr]
    | diverge => rw [hr] at h; cases h
  unfold nextL ConstantPoolIter.next
  refine Good.bind ?_ ?_ ?_ ?_ hp (loopL_good hg _ _ ix)
  · rintro ⟨item, index⟩ _ h
    rw [← h]; exact ⟨rfl, rfl⟩
  · intro e h; rw [← h]; rfl
  · intro e h; rw [← h]; rfl
  · intro h; rw [← h]; rfl

/-! ## Formatting -/

/-- Formatting slot `i` with this recursion budget returns something sensible and waits for nothing. -/
def ShowGood (pool : Pool) (d i : Nat) : Prop :=
  ∀ (rank : Cell → Nat) (Bad : Cell → Prop) (PO : Nat → Prop) (base : List Cell) (ix : Nat),
    Good rank Bad (fun r => ∃ s, r = .ok s ∧ s ≠ .locked ∧ ShowsRef True pool i s) PO base ix base (showL pool d i)

theorem showCell_good {pool : Pool} {d j : Nat} (h : ShowGood pool d j) {c : Cell} (rank : Cell → Nat) (Bad : Cell → Prop) (PO : Nat → Prop)
    (base : List Cell) (ix : Nat) : Good rank Bad (fun r => ∃ s, r = .ok s ∧ ShowsRef True pool j s) PO base ix base (showCell c (showL pool d j)) := by
  refine ⟨Good.closing (by simp) (by simp) (Good.mono ?_ (fun _ => id) (h rank Bad PO (c :: base) ix)), ⟨.locked, rfl, .locked trivial⟩, rfl⟩
  rintro r ⟨s, h1, -, h2⟩
  exact ⟨s, h1, h2⟩

theorem showGood_of_refs {pool : Pool} {d i : Nat} {e : Entry} (hi : pool[i]? = some e)
    (h : ∀ r ∈ refsOf e, ∃ j, r = .resolved j ∧ ShowGood pool d j) : ShowGood pool (d + 1) i := by
  intro rank Bad PO base ix
  have hat : poolAt pool i = .ok e := by unfold poolAt; rw [hi]
  unfold showL
  simp only [hat, Prog.bind]
  have one : ∀ (x : CPRef), refsOf e = [x] → ∀ c : Cell, Good rank Bad (fun r => ∃ s, r = .ok s ∧ s ≠ .locked ∧ ShowsRef True pool i s) PO base ix base
      (Prog.bind (showCell c (match x with
        | .unresolved _ => .done (.ok (.entry .unused []))
        | .resolved t => showL pool d t)) fun a => .done (.ok (.entry e [a]))) := by
    intro x hx c
    obtain ⟨j, rfl, hj⟩ := h x (by rw [hx]; exact List.mem_singleton.mpr rfl)
    refine Good.bind ?_ (by simp) (by simp) (by simp) (fun _ => id) (showCell_good hj rank Bad PO base ix)
    rintro a ix' ⟨s, h1, h2⟩
    cases h1
    exact ⟨⟨_, rfl, by simp, .one hi hx h2⟩, rfl⟩
  have two : ∀ (x y : CPRef), refsOf e = [x, y] → ∀ c c' : Cell,
      Good rank Bad (fun r => ∃ s, r = .ok s ∧ s ≠ .locked ∧ ShowsRef True pool i s) PO base ix base
      (Prog.bind (showCell c (match x with
        | .unresolved _ => .done (.ok (.entry .unused []))
        | .resolved t => showL pool d t)) fun a => Prog.bind (showCell c' (match y with
        | .unresolved _ => .done (.ok (.entry .unused []))
        | .resolved t => showL pool d t)) fun b => .done (.ok (.entry e [a, b]))) := by
    intro x y hx c c'
    obtain ⟨j, rfl, hj⟩ := h x (by rw [hx]; simp)
    obtain ⟨k, rfl, hk⟩ := h y (by rw [hx]; simp)
    refine Good.bind ?_ (by simp) (by simp) (by simp) (fun _ => id) (showCell_good hj rank Bad PO base ix)
    rintro a ix' ⟨s, h1, h2⟩
    cases h1
    refine Good.bind ?_ (by simp) (by simp) (by simp) (fun _ => id) (showCell_good hk rank Bad PO base ix')
    rintro b _ ⟨u, h1, h3⟩
    cases h1
    exact ⟨⟨_, rfl, by simp, .two hi hx h2 h3⟩, rfl⟩
  cases e
  case classInfo | string | methodHandle | methodType | dynamic | invokeDynamic | moduleInfo | packageInfo => exact one _ rfl _
  case fieldRef | methodRef | interfaceMethodRef | nameAndType => exact two _ _ rfl _ _
  all_goals exact ⟨⟨_, rfl, by simp, .none hi rfl⟩, rfl⟩

section stages
variable {major : UInt16} {pool : Pool}

theorem showGood_text {i d : Nat} {s : Str} (h : TextAt pool i s) : ShowGood pool (d + 1) i := showGood_of_refs h (by simp [refsOf])

theorem showGood_utf8 {i d : Nat} (h : Utf8At pool i) : ShowGood pool (d + 1) i := by
  rcases h with ⟨s, h⟩ | ⟨s, h⟩
  · exact showGood_of_refs h (by simp [refsOf])
  · exact showGood_of_refs h (by simp [refsOf])

theorem showGood_class (hok : PoolOK major pool) {i d : Nat} (h : IsClass pool i) : ShowGood pool (d + 2) i := by
  obtain ⟨x, h⟩ := h
  refine showGood_of_refs h fun r hr => ?_
  obtain rfl : r = x := by simpa [refsOf] using hr
  have := hok i _ h
  cases r with
  | unresolved _ => exact this.elim
  | resolved k => exact let ⟨s, hs, _⟩ := this; ⟨k, rfl, showGood_text hs⟩

theorem showGood_nat (hok : PoolOK major pool) {i d : Nat} {x y : CPRef} (h : pool[i]? = some (.nameAndType x y)) : ShowGood pool (d + 2) i := by
  refine showGood_of_refs h fun r hr => ?_
  have := hok i _ h
  rcases x with _ | x <;> rcases y with _ | y <;> simp only [EntryOK] at this
  obtain ⟨⟨s, hs, -⟩, hy⟩ := this
  rcases (by simpa [refsOf] using hr : r = .resolved x ∨ r = .resolved y) with rfl | rfl
  · exact ⟨x, rfl, showGood_text hs⟩
  · exact ⟨y, rfl, showGood_utf8 hy⟩

theorem showGood_desc (hok : PoolOK major pool) {i d : Nat} {D : Str → Prop} (h : HasDescriptor pool i D) : ShowGood pool (d + 2) i := by
  obtain ⟨x, y, s, hn, -⟩ := h
  exact showGood_nat hok hn

theorem showGood_member (hok : PoolOK major pool) {i d : Nat} {x y : CPRef}
    (h : pool[i]? = some (.fieldRef x y) ∨ pool[i]? = some (.methodRef x y) ∨ pool[i]? = some (.interfaceMethodRef x y)) :
    ShowGood pool (d + 3) i := by
  rcases h with h | h | h
  all_goals
    refine showGood_of_refs h fun r hr => ?_
    have := hok i _ h
    rcases x with _ | x <;> rcases y with _ | y <;> simp only [EntryOK] at this
    rcases (by simpa [refsOf] using hr : r = .resolved x ∨ r = .resolved y) with rfl | rfl
    · exact ⟨x, rfl, showGood_class hok this.1⟩
    · exact ⟨y, rfl, showGood_desc hok this.2⟩

theorem showGood_all (hok : PoolOK major pool) {i d : Nat} {e : Entry} (hi : pool[i]? = some e) : ShowGood pool (d + 4) i := by
  have h := hok i e hi
  entry_cases e <;> simp only [EntryOK] at h
  case fieldRef.resolved.resolved => exact showGood_member (d := d + 1) hok (.inl hi)
  case methodRef.resolved.resolved => exact showGood_member (d := d + 1) hok (.inr (.inl hi))
  case interfaceMethodRef.resolved.resolved => exact showGood_member (d := d + 1) hok (.inr (.inr hi))
  case nameAndType.resolved.resolved => exact showGood_nat (d := d + 2) hok hi
  case classInfo.resolved => exact showGood_class (d := d + 2) hok ⟨_, hi⟩
  case string.resolved x => exact showGood_of_refs hi (by simpa [refsOf] using showGood_utf8 h)
  case methodHandle.resolved k m =>
    obtain ⟨k', e', hk, he, x, y, h⟩ := pointsTo_member h
    cases hk
    refine showGood_of_refs hi ?_
    have : ShowGood pool (d + 3) m := showGood_member (x := x) (y := y) hok (by rcases h with rfl | rfl | rfl <;> simp [he])
    simpa [refsOf] using this
  case methodType.resolved => obtain ⟨s, hs, -⟩ := h; exact showGood_of_refs hi (by simpa [refsOf] using showGood_text hs)
  case moduleInfo.resolved => obtain ⟨s, hs, -⟩ := h; exact showGood_of_refs hi (by simpa [refsOf] using showGood_text hs)
  case packageInfo.resolved => obtain ⟨s, hs, -⟩ := h; exact showGood_of_refs hi (by simpa [refsOf] using showGood_text hs)
  case dynamic.resolved => exact showGood_of_refs hi (by simpa [refsOf] using showGood_desc (d := d + 1) hok h)
  case invokeDynamic.resolved => exact showGood_of_refs hi (by simpa [refsOf] using showGood_desc (d := d + 1) hok h)
  all_goals exact showGood_of_refs hi (by simp [refsOf])

theorem showFrom_good (hok : PoolOK major pool) (rank : Cell → Nat) (Bad : Cell → Prop) (PO : Nat → Prop) : ∀ (es : List Entry) (i d ix : Nat),
    i + es.length = pool.length →
    Good rank Bad (fun r => ∃ l, r = .ok l ∧ l.length = es.length ∧
      ∀ (j : Nat) (s : Shown), l[j]? = some s → s ≠ .locked ∧ ShowsRef True pool (i + j) s) PO [] ix [] (showFromL pool (d + 4) i es)
  | [], i, d, _, _ => ⟨⟨[], rfl, rfl, by simp⟩, rfl⟩
  | e :: es, i, d, ix, h => by
    have hlt : i < pool.length := by simp at h; omega
    unfold showFromL
    refine Good.bind ?_ (by simp) (by simp) (by simp) (fun _ => id) (showGood_all hok (List.getElem?_eq_getElem hlt) rank Bad PO [] ix)
    rintro a ix' ⟨s, h1, h2, h3⟩
    cases h1
    refine Good.bind ?_ (by simp) (by simp) (by simp) (fun _ => id) (showFrom_good hok rank Bad PO es (i + 1) d ix' (by simp at h; omega))
    rintro as _ ⟨l, h1, h4, h5⟩
    cases h1
    refine ⟨⟨_, rfl, by simp [h4], fun j s hj => ?_⟩, rfl⟩
    cases j with
    | zero => cases hj; exact ⟨h2, h3⟩
    | succ j =>
      have := h5 j s hj
      rwa [show i + 1 + j = i + (j + 1) by omega] at this

theorem showPool_good (hok : PoolOK major pool) (rank : Cell → Nat) (Bad : Cell → Prop) (PO : Nat → Prop) (ix : Nat) :
    Good rank Bad (fun r => ∃ l, r = .ok l ∧ ShowsPool True pool l) PO [] ix [] (showPoolL pool) := by
  refine Good.mono ?_ (fun _ => id) (showFrom_good hok rank Bad PO pool 0 pool.length ix (by simp))
  rintro r ⟨l, h1, h2, h3⟩
  exact ⟨l, h1, h2, by simpa using h3⟩

end stages

end Cafebabe
