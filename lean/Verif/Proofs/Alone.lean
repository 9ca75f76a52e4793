import Verif.Spec.Alone
import Verif.Proofs.Threads
/-!
# Proofs: code with locks run by one thread
-/

namespace Cafebabe
open Spec

/-- Run from `held`, the code ends with `r` and gives back its guards when it returns; or, if `W`, it waits for itself. -/
def Sim {α : Type} (W : Prop) (held : List Cell) (p : Prog α) (r : Res α) : Prop :=
  (W ∧ alone held p = none) ∨ ∃ held', alone held p = some (r, held') ∧ match r with
    | .ok _ | .err _ => held' = held
    | .panic _ | .diverge => True

section sim
variable {α β : Type} {W : Prop} {held : List Cell}

theorem Sim.done {r : Res α} : Sim W held (.done r) r := .inr ⟨held, rfl, by cases r <;> trivial⟩

theorem Sim.endsWith {p : Prog α} {r : Res α} (h : Sim False [] p r) : EndsWith p r := by
  rcases h with h | h
  · exact h.1.elim
  · exact h

theorem Sim.weaken {W' : Prop} {p : Prog α} {r : Res α} (h : Sim W held p r) (hw : W → W') : Sim W' held p r :=
  h.imp (fun h => ⟨hw h.1, h.2⟩) id

theorem alone_bind {f : α → Prog β} : ∀ (p : Prog α) (held : List Cell), alone held (p.bind f) =
    match alone held p with
    | none => none
    | some (.ok a, h) => alone h (f a)
    | some (.err e, h) => some (.err e, h)
    | some (.panic k, h) => some (.panic k, h)
    | some (.diverge, h) => some (.diverge, h)
  | .done (.ok a), held => rfl
  | .done (.err e), _ => rfl
  | .done (.panic k), _ => rfl
  | .done .diverge, _ => rfl
  | .poisoned, _ => rfl
  | .lock c p, held => by
    simp only [Prog.bind, alone]
    split
    · rfl
    · exact alone_bind p _
  | .unlock c p, held => alone_bind p _
  | .tryLock c p q, held => by
    simp only [Prog.bind, alone]
    split
    · exact alone_bind q _
    · exact alone_bind p _
  | .setIndex _ p, _ => alone_bind p _

theorem alone_closing {c : Cell} : ∀ (p : Prog α) (held : List Cell), alone held (p.closing c) =
    match alone held p with
    | none => none
    | some (.ok a, h) => some (.ok a, h.erase c)
    | some (.err e, h) => some (.err e, h.erase c)
    | some (.panic k, h) => some (.panic k, h)
    | some (.diverge, h) => some (.diverge, h)
  | .done (.ok a), held => rfl
  | .done (.err e), _ => rfl
  | .done (.panic k), _ => rfl
  | .done .diverge, _ => rfl
  | .poisoned, _ => rfl
  | .lock d p, held => by
    simp only [Prog.closing, alone]
    split
    · rfl
    · exact alone_closing p _
  | .unlock d p, held => alone_closing p _
  | .tryLock d p q, held => by
    simp only [Prog.closing, alone]
    split
    · exact alone_closing q _
    · exact alone_closing p _
  | .setIndex _ p, _ => alone_closing p _

theorem alone_mapErr {c : String} : ∀ (p : Prog α) (held : List Cell), alone held (p.mapErrL c) =
    (alone held p).map fun x => (x.1.mapErr c, x.2)
  | .done r, held => rfl
  | .poisoned, _ => rfl
  | .lock d p, held => by
    simp only [Prog.mapErrL, alone]
    split
    · rfl
    · exact alone_mapErr p _
  | .unlock d p, held => alone_mapErr p _
  | .tryLock d p q, held => by
    simp only [Prog.mapErrL, alone]
    split
    · exact alone_mapErr q _
    · exact alone_mapErr p _
  | .setIndex _ p, _ => alone_mapErr p _

theorem alone_unwrap : ∀ (p : Prog α) (held : List Cell), alone held p.unwrapL = (alone held p).map fun x => (unwrapRes x.1, x.2)
  | .done r, held => by cases r <;> rfl
  | .poisoned, _ => rfl
  | .lock d p, held => by
    simp only [Prog.unwrapL, alone]
    split
    · rfl
    · exact alone_unwrap p _
  | .unlock d p, held => alone_unwrap p _
  | .tryLock d p q, held => by
    simp only [Prog.unwrapL, alone]
    split
    · exact alone_unwrap q _
    · exact alone_unwrap p _
  | .setIndex _ p, _ => alone_unwrap p _

theorem Sim.bind {p : Prog α} {r : Res α} {f : α → Prog β} {g : α → Res β} (h : Sim W held p r)
    (hf : ∀ a, r = .ok a → Sim W held (f a) (g a)) : Sim W held (p.bind f) (r.bind g) := by
  unfold Sim at h ⊢
  rw [alone_bind]
  rcases h with ⟨hw, h⟩ | ⟨h', h, hr⟩
  · rw [h]; exact .inl ⟨hw, rfl⟩
  · rw [h]
    cases r with
    | ok a =>
      have : h' = held := hr
      subst this
      exact hf a rfl
    | err e => exact .inr ⟨h', rfl, hr⟩
    | panic k => exact .inr ⟨h', rfl, trivial⟩
    | diverge => exact .inr ⟨h', rfl, trivial⟩

theorem Sim.mapErr {p : Prog α} {r : Res α} (c : String) (h : Sim W held p r) : Sim W held (p.mapErrL c) (r.mapErr c) := by
  unfold Sim at h ⊢
  rw [alone_mapErr]
  rcases h with ⟨hw, h⟩ | ⟨h', h, hr⟩
  · rw [h]; exact .inl ⟨hw, rfl⟩
  · rw [h]; exact .inr ⟨h', rfl, by cases r <;> exact hr⟩

theorem Sim.unwrap {p : Prog α} {r : Res α} (h : Sim W held p r) : Sim W held p.unwrapL (unwrapRes r) := by
  unfold Sim at h ⊢
  rw [alone_unwrap]
  rcases h with ⟨hw, h⟩ | ⟨h', h, hr⟩
  · rw [h]; exact .inl ⟨hw, rfl⟩
  · rw [h]; exact .inr ⟨h', rfl, by cases r <;> first | exact hr | trivial⟩

theorem Sim.map {p : Prog α} {r : Res α} {f : α → β} (h : Sim W held p r) : Sim W held (mapL f p) (r >>= fun a => .ok (f a)) :=
  h.bind fun _ _ => .done

/-- `peel!` under a guard. -/
theorem Sim.peel {pool : Pool} {c : Cell} {x : CPRef} {k : Nat → Entry → Prog α} {g : Entry → Res α} (hc : c ∈ held → W)
    (hk : ∀ t e, x = .resolved t → pool[t]? = some e → Sim W (c :: held) (k t e) (g e)) :
    Sim W held (peelL pool c x k) (peel pool x >>= g) := by
  have key : Sim W (c :: held) (Prog.bind (.done (getTarget pool x)) fun (slot, e) => k slot e) (Cafebabe.peel pool x >>= g) := by
    cases x with
    | unresolved _ => exact .done
    | resolved t =>
      cases ht : pool[t]? with
      | none =>
        simp only [getTarget, Cafebabe.peel, ht]
        exact .done
      | some e =>
        simp only [getTarget, Cafebabe.peel, ht]
        exact hk t e rfl ht
  unfold peelL Prog.guarded
  unfold Sim at key ⊢
  simp only [alone]
  split
  · exact .inl ⟨hc ‹_›, rfl⟩
  · rw [alone_closing]
    rcases key with ⟨hw, h⟩ | ⟨h', h, hr⟩
    · rw [h]; exact .inl ⟨hw, rfl⟩
    · rw [h]
      generalize (Cafebabe.peel pool x >>= g) = r at h hr
      cases r with
      | ok a => have : h' = c :: held := hr; subst this; exact .inr ⟨_, rfl, by simp⟩
      | err e => have : h' = c :: held := hr; subst this; exact .inr ⟨_, rfl, by simp⟩
      | panic k => exact .inr ⟨h', rfl, trivial⟩
      | diverge => exact .inr ⟨h', rfl, trivial⟩

end sim

/-! ## Lookups -/

section lookups
variable {pool : Pool} {α : Type}

theorem sim_utf8 {W : Prop} {held : List Cell} {c : Cell} {x : CPRef} (hc : c ∉ held) : Sim W held (peelUtf8L pool c x) (peelUtf8 pool x) :=
  Sim.peel (fun h => absurd h hc) fun _ _ _ _ => .done

theorem sim_literal {W : Prop} {held : List Cell} {c : Cell} {x : CPRef} (hc : c ∉ held) :
    Sim W held (peelStringLiteralL pool c x) (peelStringLiteral pool x) :=
  Sim.peel (fun h => absurd h hc) fun _ _ _ _ => .done

theorem sim_classinfo {W : Prop} {held : List Cell} {i : Nat} {e : Entry} (hc : ∀ x, e = .classInfo x → ⟨i, false⟩ ∉ held) :
    Sim W held (classinfoL pool i e) (e.classinfo pool) := by
  cases e
  case classInfo x => exact sim_utf8 (hc x rfl)
  all_goals exact .done

theorem sim_fields {W : Prop} {held : List Cell} {i : Nat} {x y : CPRef} (hx : ⟨i, false⟩ ∉ held) (hy : ⟨i, true⟩ ∉ held) :
    Sim W held (nameAndTypeFieldsL pool i x y)
      (do let name ← peelUtf8 pool x; let descriptor ← peelUtf8 pool y; .ok { name := name, descriptor := descriptor }) := by
  unfold nameAndTypeFieldsL peelUtf8
  rw [Res.bind_assoc]
  refine Sim.peel (fun h => absurd h hx) fun _ ex _ _ => Sim.bind .done fun name _ => ?_
  rw [Res.bind_assoc]
  refine Sim.peel (fun h => ?_) fun _ ey _ _ => Sim.bind .done fun _ _ => .done
  rcases List.mem_cons.mp h with h | h
  · cases h
  · exact absurd h hy

theorem sim_nat {W : Prop} {held : List Cell} {i : Nat} {e : Entry} (hc : ∀ x y b, e = .nameAndType x y → ⟨i, b⟩ ∉ held) :
    Sim W held (nameAndTypeOfL pool i e) (e.nameAndTypeOf pool) := by
  cases e
  case nameAndType x y => exact sim_fields (hc x y _ rfl) (hc x y _ rfl)
  all_goals exact .done

/-- Is the entry a field, method or interface method? -/
def Entry.isMember : Entry → Prop
  | .fieldRef _ _ | .methodRef _ _ | .interfaceMethodRef _ _ => True
  | _ => False

/-- All held mutexes belong to method handles. -/
def HandleCells (pool : Pool) (held : List Cell) : Prop := ∀ c ∈ held, ∃ k x, pool[c.slot]? = some (.methodHandle k x)

theorem sim_member {W : Prop} {held : List Cell} {i : Nat} {e : Entry} {c m : CPRef} {f : Str → NameAndType → α} (hi : pool[i]? = some e)
    (he : e.isMember) (hh : HandleCells pool held) : Sim W held (memberL pool i c m f)
      (do let className ← peelClassinfo pool c; let nt ← peelNameAndType pool m; .ok (f className nt)) := by
  have fresh : ∀ b, (⟨i, b⟩ : Cell) ∉ held := fun b hb => by
    obtain ⟨k, x, h⟩ := hh _ hb
    rw [hi] at h
    cases h
    exact he
  unfold memberL peelClassinfo peelNameAndType
  rw [Res.bind_assoc]
  refine Sim.peel (fun h => absurd h (fresh _)) fun cs ce _ hcs => Sim.bind (sim_classinfo ?_) fun className _ => ?_
  · rintro x rfl h
    rcases List.mem_cons.mp h with h | h
    · cases h; rw [hi] at hcs; cases hcs; exact he
    · obtain ⟨k, x, h⟩ := hh _ h
      rw [hcs] at h; cases h
  rw [Res.bind_assoc]
  refine Sim.peel (fun h => ?_) fun ms me _ hms => Sim.bind (sim_nat ?_) fun nt _ => .done
  · rcases List.mem_cons.mp h with h | h
    · cases h
    · exact absurd h (fresh _)
  · rintro x y b rfl h
    rcases List.mem_cons.mp h with h | h
    · cases h; rw [hi] at hms; cases hms; exact he
    rcases List.mem_cons.mp h with h | h
    · cases h; rw [hi] at hms; cases hms; exact he
    · obtain ⟨k, x, h⟩ := hh _ h
      rw [hms] at h; cases h

theorem sim_memberRef {W : Prop} {i : Nat} {e : Entry} {c m : CPRef} (hi : pool[i]? = some e) (he : e.isMember) :
    Sim W [] (makeMemberRefL pool i c m) (makeMemberRef pool c m) := sim_member hi he (fun _ h => nomatch h)

theorem sim_dynamic {W : Prop} {i : Nat} {e : Entry} {b : UInt16} {y : CPRef} (hi : pool[i]? = some e) (he : ∀ x y, e ≠ .nameAndType x y) :
    Sim W [] (makeDynamicL pool i b y) (makeDynamic pool b y) := by
  unfold makeDynamicL makeDynamic peelNameAndType
  rw [Res.bind_assoc]
  refine Sim.peel (fun h => nomatch h) fun s e' _ hs => Sim.bind (sim_nat ?_) fun nt _ => .done
  rintro x y c rfl h
  rcases List.mem_cons.mp h with h | h
  · cases h; rw [hi] at hs; cases hs; exact he _ _ rfl
  · cases h

theorem sim_handle {W : Prop} {i : Nat} {k : ReferenceKind} {x : ReferenceKind} {y y' : CPRef} (hi : pool[i]? = some (.methodHandle k y')) :
    Sim W [] (makeMethodHandleL pool i x y) (makeMethodHandle pool x y) := by
  unfold makeMethodHandleL makeMethodHandle
  refine Sim.peel (fun h => nomatch h) fun s e _ hs => ?_
  have hh : HandleCells pool [⟨i, false⟩] := fun c hc => by
    obtain rfl := List.mem_singleton.mp hc
    exact ⟨_, _, hi⟩
  cases e
  case fieldRef c m => exact sim_member hs trivial hh
  case methodRef c m => exact sim_member hs trivial hh
  case interfaceMethodRef c m => exact sim_member hs trivial hh
  all_goals exact .done

theorem sim_item {W : Prop} {i : Nat} {e : Entry} (hi : pool[i]? = some e) : Sim W [] (itemOfL pool i e) (itemOf pool e) := by
  cases e
  case classInfo => exact (sim_utf8 (by simp)).map
  case string => exact (sim_literal (by simp)).map
  case fieldRef => exact (sim_memberRef hi trivial).map
  case methodRef => exact (sim_memberRef hi trivial).map
  case interfaceMethodRef => exact (sim_memberRef hi trivial).map
  case nameAndType x y =>
    refine Sim.weaken ?_ id (W := W)
    have := (sim_fields (pool := pool) (W := W) (held := []) (i := i) (x := x) (y := y) (by simp) (by simp)).map (f := some ∘ ConstantPoolItem.nameAndType)
    simp only [Res.bind_assoc] at this
    exact this
  case methodHandle => exact (sim_handle hi).unwrap.map
  case methodType => exact (sim_utf8 (by simp)).map
  case dynamic => exact (sim_dynamic hi (by simp)).map
  case invokeDynamic => exact (sim_dynamic hi (by simp)).map
  case moduleInfo => exact (sim_utf8 (by simp)).map
  case packageInfo => exact (sim_utf8 (by simp)).map
  all_goals exact .done

theorem sim_bootstrap {W : Prop} {i : Nat} {e : Entry} (hi : pool[i]? = some e) :
    Sim W [] (bootstrapArgumentL pool i e) (bootstrapArgumentOf pool e) := by
  cases e
  case classInfo => exact (sim_utf8 (by simp)).map
  case string => exact (sim_literal (by simp)).map
  case methodHandle => exact (sim_handle hi).map
  case methodType => exact (sim_utf8 (by simp)).map
  all_goals exact .done

theorem sim_loadable {W : Prop} {i : Nat} {e : Entry} (hi : pool[i]? = some e) :
    Sim W [] (loadableL pool i e) (getCpLoadable i pool) := by
  have hlt : i < pool.length := (List.getElem?_eq_some_iff.mp hi).1
  have hat : poolAt pool i = .ok e := by unfold poolAt; rw [hi]
  unfold getCpLoadable
  rw [if_neg (by omega), hat]
  cases e
  case classInfo => exact (sim_utf8 (by simp)).map
  case string => exact (sim_literal (by simp)).map
  case methodHandle => exact (sim_handle hi).map
  case methodType => exact (sim_utf8 (by simp)).map
  case dynamic => exact (sim_dynamic hi (by simp)).map
  all_goals exact .done

theorem sim_loop {W : Prop} : ∀ (fuel k : Nat), Sim W [] (iterNextLoopL pool fuel k) (iterNextLoop pool fuel k)
  | 0, _ => .done
  | fuel + 1, k => by
    unfold iterNextLoopL iterNextLoop
    by_cases hk : k + 1 < pool.length
    · rw [if_pos hk, if_pos hk]
      obtain ⟨e, he⟩ : ∃ e, pool[k + 1]? = some e := ⟨_, List.getElem?_eq_getElem hk⟩
      have hat : poolAt pool (k + 1) = .ok e := by unfold poolAt; rw [he]
      rw [hat]
      show Sim W [] (Prog.bind _ _) _
      refine Sim.bind .done fun e' h => ?_
      cases h
      refine Sim.bind (sim_item he) fun o _ => ?_
      cases o with
      | some _ => exact .done
      | none => exact sim_loop fuel (k + 1)
    · rw [if_neg hk, if_neg hk]
      exact .done

theorem sim_next {W : Prop} {it : ConstantPoolIter} : Sim W [] (nextL it) it.next := (sim_loop _ _).bind fun _ _ => .done

end lookups

/-! ## Validation -/

section validation
variable {pool : Pool}

theorem sim_ensure {W : Prop} {held : List Cell} {c : Cell} {x : CPRef} {t : UInt32} (hc : c ∉ held) :
    Sim W held (ensureTypeL pool c x t) (x.ensureType pool t) :=
  Sim.peel (fun h => absurd h hc) fun _ _ _ _ => .done

theorem sim_vfd {W : Prop} {held : List Cell} {i : Nat} {e : Entry} (hc : ∀ x y, e = .nameAndType x y → ⟨i, true⟩ ∉ held) :
    Sim W held (validateFieldDescriptorL pool i e) (e.validateFieldDescriptor pool) := by
  cases e
  case nameAndType x y =>
    have : Entry.validateFieldDescriptor pool (.nameAndType x y) =
        (do let b ← (do let e ← peel pool y; let s ← e.str; isFieldDescriptor s); okIf b "Invalid field descriptor") := by
      simp only [Res.bind_assoc]; rfl
    rw [this]
    exact Sim.bind (Sim.peel (fun h => absurd h (hc x y rfl)) fun _ _ _ _ => Sim.bind .done fun _ _ => .done) fun _ _ => .done
  all_goals exact .done

/-- The method descriptor check does what it does without locks, or waits for itself. -/
theorem sim_vmd : ∀ (d : Nat) {W : Prop} (_ : W) (held : List Cell) (i : Nat) (e : Entry),
    Sim W held (validateMethodDescriptorL pool d i e) (e.validateMethodDescriptor pool d)
  | 0, _, _, _, _, _ => .done
  | d + 1, W, hw, held, i, e => by
    cases e
    case nameAndType x y => exact Sim.peel (fun _ => hw) fun t e _ _ => sim_vmd d hw _ t e
    all_goals exact Sim.bind .done fun _ _ => Sim.bind .done fun _ _ => .done

theorem vmd_more {d d' : Nat} {e : Entry} (hd : d ≤ d') (h : e.validateMethodDescriptor pool d ≠ .diverge) :
    e.validateMethodDescriptor pool d' = e.validateMethodDescriptor pool d := by
  rcases validateMethodDescriptor_agree (b := .budget) pool d d' (.inr ⟨rfl, hd⟩) e with h' | h'
  · exact absurd h' h
  · exact h'.symm

/-- If the check returns without locks, it does not wait for itself: the mutexes it holds belong to longer chains. -/
theorem sim_vmd_ends : ∀ (d k : Nat) (held : List Cell) (i : Nat) (e : Entry), pool[i]? = some e → k ≤ d →
    e.validateMethodDescriptor pool k ≠ .diverge →
    (∀ c ∈ held, ∀ f x y, c.second = true → pool[c.slot]? = some f → f = .nameAndType x y → f.validateMethodDescriptor pool k = .diverge) →
    Sim False held (validateMethodDescriptorL pool d i e) (e.validateMethodDescriptor pool d)
  | 0, k, _, _, e, _, hk, h, _ => by
    obtain rfl : k = 0 := by omega
    exact absurd rfl h
  | d + 1, k, held, i, e, hi, hk, h, hh => by
    by_cases hn : ∃ x y, e = .nameAndType x y
    · obtain ⟨x, y, rfl⟩ := hn
      have hnot : (⟨i, true⟩ : Cell) ∉ held := fun hc => h (hh _ hc _ x y rfl hi rfl)
      -- the least budget with which the check of this entry returns
      have hex : ∃ m, (Entry.nameAndType x y).validateMethodDescriptor pool m ≠ .diverge := ⟨k, h⟩
      classical
      obtain ⟨m, hm, hmin⟩ : ∃ m, (Entry.nameAndType x y).validateMethodDescriptor pool m ≠ .diverge ∧
          ∀ n, n < m → (Entry.nameAndType x y).validateMethodDescriptor pool n = .diverge :=
        ⟨Nat.find hex, Nat.find_spec hex, fun n hn => Classical.not_not.mp (Nat.find_min hex hn)⟩
      have hmk : m ≤ k := by
        rcases Nat.lt_or_ge k m with hlt | hge
        · exact absurd (hmin k hlt) h
        · exact hge
      cases m with
      | zero => exact absurd rfl hm
      | succ m =>
        refine Sim.peel (fun hc => absurd hc hnot) fun t f ht hf => ?_
        subst ht
        have hm' : f.validateMethodDescriptor pool m ≠ .diverge := by
          rw [vmd_nat, peel_resolved hf] at hm; exact hm
        refine sim_vmd_ends d m _ t f hf (by omega) hm' fun c hc g a b hs hg hgn => ?_
        rcases List.mem_cons.mp hc with rfl | hc
        · rw [hi] at hg
          cases hg
          exact hmin m (by omega)
        · have := hh c hc g a b hs hg hgn
          by_contra hne
          rw [← vmd_more (show m ≤ k by omega) hne] at hne
          exact hne this
    · have : Sim False held (validateMethodDescriptorL pool (d + 1) i e) (e.validateMethodDescriptor pool (d + 1)) := by
        cases e
        case nameAndType x y => exact absurd ⟨x, y, rfl⟩ hn
        all_goals exact Sim.bind .done fun _ _ => Sim.bind .done fun _ _ => .done
      exact this

/-- The method descriptor check from mutexes that no chain meets: it waits for itself only if without locks it never returns. -/
theorem sim_vmd_from {W : Prop} {d : Nat} {held : List Cell} {i : Nat} {e : Entry} (hi : pool[i]? = some e)
    (hW : e.validateMethodDescriptor pool d = .diverge → W) (hh : ∀ c ∈ held, ∀ x y, pool[c.slot]? ≠ some (.nameAndType x y)) :
    Sim W held (validateMethodDescriptorL pool d i e) (e.validateMethodDescriptor pool d) := by
  by_cases h : e.validateMethodDescriptor pool d = .diverge
  · exact sim_vmd d (hW h) held i e
  · refine (sim_vmd_ends d d held i e hi (Nat.le_refl _) h fun c hc f x y _ hf hn => ?_).weaken False.elim
    subst hn
    exact absurd hf (hh c hc x y)

/-- The check of one entry. -/
theorem sim_validate {W : Prop} {d : Nat} {major : UInt16} {i : Nat} {e : Entry} (hi : pool[i]? = some e)
    (hW : e.validate d pool major = .diverge → W) : Sim W [] (validateL d pool major i e) (e.validate d pool major) := by
  have vmd : ∀ (b : Bool) (y : CPRef), (∀ x y, e ≠ .nameAndType x y) →
      ((peel pool y >>= fun f => f.validateMethodDescriptor pool d) = .diverge → W) →
      Sim W [] (peelL pool ⟨i, b⟩ y fun s e => validateMethodDescriptorL pool d s e) (peel pool y >>= fun f => f.validateMethodDescriptor pool d) := by
    intro b y hne hd
    refine Sim.peel (fun h => nomatch h) fun t f ht hf => ?_
    subst ht
    rw [peel_resolved hf] at hd
    refine sim_vmd_from hf hd fun c hc x y h => ?_
    obtain rfl := List.mem_singleton.mp hc
    rw [hi] at h
    cases h
    exact hne x y rfl
  have vfd : ∀ (b : Bool) (y : CPRef), (∀ x y, e ≠ .nameAndType x y) →
      Sim W [] (peelL pool ⟨i, b⟩ y fun s e => validateFieldDescriptorL pool s e) (peel pool y >>= fun f => f.validateFieldDescriptor pool) := by
    intro b y hne
    refine Sim.peel (fun h => nomatch h) fun t f ht hf => sim_vfd fun x y hn hc => ?_
    subst hn
    cases List.mem_singleton.mp hc
    rw [hi] at hf
    cases hf
    exact hne x y rfl
  have simple : ∀ (c : Cell) (x : CPRef) (g : Entry → Res Unit), Sim W [] (peelL pool c x fun _ e => .done (g e)) (peel pool x >>= g) :=
    fun c x g => Sim.peel (fun h => nomatch h) fun _ _ _ _ => .done
  have ens : ∀ {c : Cell} {x : CPRef} {t : UInt32}, Sim W [] (ensureTypeL pool c x t) (x.ensureType pool t) := sim_ensure (by simp)
  cases e
  case classInfo x => exact ens.bind fun _ _ => simple _ _ _
  case string x => exact ens
  case fieldRef x y => exact ens.bind fun _ _ => ens.bind fun _ _ => vfd _ _ (by simp)
  case methodRef x y =>
    refine ens.bind fun _ h1 => ens.bind fun _ h2 => vmd _ _ (by simp) fun h => hW ?_
    unfold Entry.validate
    simp only [h1, h2]
    exact h
  case interfaceMethodRef x y =>
    refine ens.bind fun _ h1 => ens.bind fun _ h2 => vmd _ _ (by simp) fun h => hW ?_
    unfold Entry.validate
    simp only [h1, h2]
    exact h
  case nameAndType x y =>
    have : Entry.validate d pool major (.nameAndType x y) = (do
        x.ensureType pool EntryTypes.UTF8
        (peel pool x >>= fun e => e.validateUnqualifiedName)
        y.ensureType pool EntryTypes.UTF8) := by
      simp only [Res.bind_assoc]; rfl
    rw [this]
    exact ens.bind fun _ _ => (simple _ _ _).bind fun _ _ => ens
  case methodHandle => exact ens
  case methodType x =>
    refine ens.bind fun _ h1 => vmd _ _ (by simp) fun h => hW ?_
    unfold Entry.validate
    simp only [h1]
    exact h
  case dynamic => exact ens.bind fun _ _ => vfd _ _ (by simp)
  case invokeDynamic x y =>
    refine ens.bind fun _ h1 => vmd _ _ (by simp) fun h => hW ?_
    unfold Entry.validate
    simp only [h1]
    exact h
  case moduleInfo => exact ens.bind fun _ _ => simple _ _ _
  case packageInfo => exact ens.bind fun _ _ => simple _ _ _
  all_goals exact .done

theorem sim_validateFrom {W : Prop} {d : Nat} {major : UInt16} : ∀ (es : List Entry) (i : Nat), (∀ (j : Nat) (e : Entry), es[j]? = some e → pool[i + j]? = some e) →
    (validateFrom d pool major i es = .diverge → W) → Sim W [] (validateFromL d pool major i es) (validateFrom d pool major i es)
  | [], _, _, _ => .done
  | e :: es, i, hp, hW => by
    unfold validateFromL validateFrom
    refine Sim.bind (Sim.mapErr _ (sim_validate (hp 0 e rfl) fun h => hW ?_)) fun a ha => sim_validateFrom es (i + 1) ?_ fun h => hW ?_
    · unfold validateFrom; rw [h]; rfl
    · intro j f hj
      have := hp (j + 1) f hj
      rwa [show i + (j + 1) = i + 1 + j by omega] at this
    · unfold validateFrom; rw [ha]; exact h

/-- Validation with locks does what validation without locks does; it waits for itself only if the latter never returns. -/
theorem sim_pool {W : Prop} {d : Nat} {major : UInt16} (hW : validateConstantPool d pool major = .diverge → W) :
    Sim W [] (validateConstantPoolL d pool major) (validateConstantPool d pool major) :=
  sim_validateFrom pool 0 (fun j e h => by simpa using h) hW

/-! ### Endless chains -/

theorem cells_bound {n : Nat} {held : List Cell} (hn : held.Nodup) (hb : ∀ c ∈ held, c.slot < n) : held.length ≤ 2 * n := by
  have h1 : (held.map fun c => 2 * c.slot + c.second.toNat).Nodup := by
    refine hn.map_on fun a _ b _ h => ?_
    obtain ⟨s, p⟩ := a
    obtain ⟨t, q⟩ := b
    cases p <;> cases q <;> simp only [Bool.toNat_true, Bool.toNat_false] at h <;> first | omega | (congr 1; omega)
  have h2 : (held.map fun c => 2 * c.slot + c.second.toNat) ⊆ List.range (2 * n) := by
    intro a ha
    obtain ⟨c, hc, rfl⟩ := List.mem_map.mp ha
    have := hb c hc
    rw [List.mem_range]
    have := Bool.toNat_le c.second
    omega
  have := (h1.subperm h2).length_le
  simpa using this

/-- With enough budget the check under locks never exhausts it: a long chain meets a mutex it holds. -/
theorem vmdL_never : ∀ (d : Nat) (held : List Cell) (i : Nat) (e : Entry), pool[i]? = some e → held.Nodup → (∀ c ∈ held, c.slot < pool.length) →
    2 * pool.length < d + held.length → ∀ h, alone held (validateMethodDescriptorL pool d i e) ≠ some (.diverge, h)
  | 0, held, _, _, _, hn, hb, hd, _ => by
    have := cells_bound hn hb
    omega
  | d + 1, held, i, e, hi, hn, hb, hd, h => by
    by_cases hx : ∃ x y, e = .nameAndType x y
    · obtain ⟨x, y, rfl⟩ := hx
      show alone held (peelL pool ⟨i, true⟩ y fun s e => validateMethodDescriptorL pool d s e) ≠ _
      unfold peelL Prog.guarded
      simp only [alone]
      split
      · simp
      · rename_i hc
        rw [alone_closing, alone_bind]
        cases y with
        | unresolved => simp [getTarget, alone]
        | resolved t =>
          cases ht : pool[t]? with
          | none => simp [getTarget, ht, alone]
          | some f =>
            simp only [getTarget, ht, alone]
            have hlt := (List.getElem?_eq_some_iff.mp hi).1
            have ih := vmdL_never d (⟨i, true⟩ :: held) t f ht (List.nodup_cons.mpr ⟨hc, hn⟩)
              (fun c hc => by rcases List.mem_cons.mp hc with rfl | hc; exacts [hlt, hb c hc]) (by simp only [List.length_cons]; omega)
            generalize alone (⟨i, true⟩ :: held) (validateMethodDescriptorL pool d t f) = o at ih
            rcases o with _ | ⟨r, h'⟩
            · simp
            · cases r <;> simp
              exact fun hh => ih _ rfl
    · have hs : Sim True held (validateMethodDescriptorL pool (d + 1) i e) (e.validateMethodDescriptor pool (d + 1)) := sim_vmd _ trivial _ _ _
      have hne : e.validateMethodDescriptor pool (d + 1) ≠ .diverge :=
        (vmd_other_calm (A := fun _ => False) (fun a b hab => hx ⟨a, b, hab⟩)).2
      intro heq
      rcases hs with ⟨_, hs⟩ | ⟨h', hs, -⟩
      · rw [hs] at heq; cases heq
      · rw [hs] at heq
        exact hne (congrArg Prod.fst (Option.some.inj heq))

/-- The code does not exhaust its budget. -/
def Never {α : Type} (held : List Cell) (p : Prog α) : Prop := ∀ h, alone held p ≠ some (.diverge, h)

theorem Never.of_sim {α : Type} {W : Prop} {held : List Cell} {p : Prog α} {r : Res α} (hs : Sim W held p r) (hr : r ≠ .diverge) : Never held p := by
  intro h heq
  rcases hs with ⟨_, hs⟩ | ⟨h', hs, -⟩
  · rw [hs] at heq; cases heq
  · rw [hs] at heq
    exact hr (congrArg Prod.fst (Option.some.inj heq))

theorem Never.bind {α β : Type} {W : Prop} {held : List Cell} {p : Prog α} {r : Res α} {f : α → Prog β} (hs : Sim W held p r) (hp : Never held p)
    (hf : ∀ a, r = .ok a → Never held (f a)) : Never held (p.bind f) := by
  intro h
  rw [alone_bind]
  rcases hs with ⟨_, hs⟩ | ⟨h', hs, hr⟩
  · rw [hs]; simp
  · rw [hs]
    cases r with
    | ok a => have : h' = held := hr; subst this; exact hf a rfl h
    | err e => simp
    | panic k => simp
    | diverge => exact absurd hs (hp h')

theorem Never.mapErr {α : Type} {held : List Cell} {p : Prog α} (c : String) (hp : Never held p) : Never held (p.mapErrL c) := by
  intro h
  rw [alone_mapErr]
  cases ho : alone held p with
  | none => simp
  | some x =>
    obtain ⟨r, h'⟩ := x
    cases r <;> simp [Res.mapErr]
    exact absurd ho (hp h')

section linked
variable (hl : Linked pool)
include hl

omit hl in
theorem never_vmd {d : Nat} {i : Nat} {b : Bool} {y : CPRef} {e : Entry} (hi : pool[i]? = some e) (hd : 2 * pool.length < d) :
    Never [] (peelL pool ⟨i, b⟩ y fun s e => validateMethodDescriptorL pool d s e) := by
  intro h
  unfold peelL Prog.guarded
  simp only [alone]
  rw [if_neg (by simp), alone_closing, alone_bind]
  cases y with
  | unresolved => simp [getTarget, alone]
  | resolved t =>
    cases ht : pool[t]? with
    | none => simp [getTarget, ht, alone]
    | some f =>
      simp only [getTarget, ht, alone]
      have hlt := (List.getElem?_eq_some_iff.mp hi).1
      have ih := vmdL_never (pool := pool) d [⟨i, b⟩] t f ht (by simp) (fun c hc => by rw [List.mem_singleton.mp hc]; exact hlt)
        (by simp only [List.length_cons]; omega)
      generalize alone [⟨i, b⟩] (validateMethodDescriptorL pool d t f) = o at ih
      rcases o with _ | ⟨r, h'⟩
      · simp
      · cases r <;> simp
        exact fun hh => ih _ rfl

theorem never_validate {d : Nat} {major : UInt16} {i : Nat} {e : Entry} (hi : pool[i]? = some e) (hd : 2 * pool.length < d) :
    Never [] (validateL d pool major i e) := by
  have ens : ∀ {c : Cell} {x : CPRef} {t : UInt32}, Sim True [] (ensureTypeL pool c x t) (x.ensureType pool t) := sim_ensure (by simp)
  have nens : ∀ {c : Cell} {x : CPRef} {t : UInt32}, x ∈ refsOf e → Never [] (ensureTypeL pool c x t) := fun {c x t} hx =>
    .of_sim (sim_ensure (W := True) (by simp)) (ensure_calm hl hi hx t (A := fun _ => False)).2
  by_cases hc : e.chained = false
  · obtain ⟨d', rfl⟩ : ∃ d', d = d' + 1 := ⟨d - 1, by omega⟩
    exact .of_sim (sim_validate (W := True) hi fun _ => trivial) (validate_calm hl hi hc d' major).2
  · cases e <;> try exact absurd rfl hc
    case methodRef x y =>
      exact .bind ens (nens (by simp [refsOf])) fun _ _ => .bind ens (nens (by simp [refsOf])) fun _ _ => never_vmd hi hd
    case interfaceMethodRef x y =>
      exact .bind ens (nens (by simp [refsOf])) fun _ _ => .bind ens (nens (by simp [refsOf])) fun _ _ => never_vmd hi hd
    case invokeDynamic x y => exact .bind ens (nens (by simp [refsOf])) fun _ _ => never_vmd hi hd

theorem never_validateFrom {d : Nat} {major : UInt16} (hd : 2 * pool.length < d) : ∀ (es : List Entry) (i : Nat),
    (∀ (j : Nat) (e : Entry), es[j]? = some e → pool[i + j]? = some e) → Never [] (validateFromL d pool major i es)
  | [], _, _ => by intro h; simp [validateFromL, alone]
  | e :: es, i, hp => by
    unfold validateFromL
    refine .bind (Sim.mapErr _ (sim_validate (W := True) (hp 0 e rfl) fun _ => trivial)) (.mapErr _ (never_validate hl (hp 0 e rfl) hd)) fun _ _ =>
      never_validateFrom hd es (i + 1) fun j f hj => ?_
    have := hp (j + 1) f hj
    rwa [show i + (j + 1) = i + 1 + j by omega] at this

theorem never_pool {d : Nat} {major : UInt16} (hd : 2 * pool.length < d) : Never [] (validateConstantPoolL d pool major) :=
  never_validateFrom hl hd pool 0 fun j e h => by simpa using h

/-- With enough budget: validation with locks waits for itself exactly if validation without locks never returns. -/
theorem locks_iff_diverges {d : Nat} {major : UInt16} (hd : 2 * pool.length < d) :
    LocksItself (validateConstantPoolL d pool major) ↔ validateConstantPool d pool major = .diverge := by
  have hs := sim_pool (d := d) (major := major) (pool := pool) id
  constructor
  · intro h
    rcases hs with ⟨hw, -⟩ | ⟨h', hs, -⟩
    · exact hw
    · unfold LocksItself at h; rw [h] at hs; cases hs
  · intro h
    rcases hs with ⟨-, hs⟩ | ⟨h', hs, -⟩
    · exact hs
    · rw [h] at hs
      exact absurd hs (never_pool hl hd h')

end linked

end validation

end Cafebabe
