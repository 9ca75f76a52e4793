import Verif.Proofs.PoolValid
/-!
# Proofs: readers of constant-pool references, for every pool
-/

namespace Cafebabe
open Spec

theorem readCpRefAny_exact {N : Nat} (pool : Pool) :
    Exact N (readCpRefAny pool) (fun e seg => ∃ i : UInt16, pool[i.toNat]? = some e ∧ seg = u2 i) := by
  unfold readCpRefAny
  refine (Exact.bind Exact.readU2 fun i => Exact.ite (fun _ => Exact.fail) (fun _ => Exact.lift _)).congr ?_
  intro e seg
  have key : ∀ i, (poolAt pool i = .ok e) ↔ pool[i]? = some e := by
    intro i
    unfold poolAt
    cases pool[i]? <;> simp
  constructor
  · rintro ⟨i, s, t, rfl, rfl, h⟩
    split at h
    · exact h.elim
    · obtain ⟨h, rfl⟩ := h
      exact ⟨i, (key _).mp h, by simp⟩
  · rintro ⟨i, hi, rfl⟩
    refine ⟨i, _, [], by simp, rfl, ?_⟩
    have hlt := (List.getElem?_eq_some_iff.mp hi).1
    show if _ then _ else _
    rw [if_neg (by omega)]
    exact ⟨(key _).mpr hi, rfl⟩

/-- A reader that looks up an entry and then computes from it. -/
theorem cpReader {α : Type} {N : Nat} {pool : Pool} {f : Entry → P α} {At : Nat → α → Prop}
    (h : ∀ (i : Nat) (e : Entry), pool[i]? = some e → Exact N (f e) (fun a seg => At i a ∧ seg = []))
    (hAt : ∀ i a, At i a → ∃ e, pool[i]? = some e) :
    Exact N (readCpRefAny pool >>= f) (fun a => ref (fun i => At i a)) := by
  intro bytes ix h1 h2 a ix''
  rw [P.bind_ok]
  constructor
  · rintro ⟨e, ix', he, hf⟩
    obtain ⟨seg, rest, hd, ⟨i, hi, rfl⟩, rfl⟩ := (readCpRefAny_exact pool bytes ix h1 h2 e ix').mp he
    have hl := length_of_drop_eq h1 hd
    obtain ⟨seg', rest', hd', ⟨ha, rfl⟩, rfl⟩ := (h _ e hi bytes _ (by omega) (by omega) a ix'').mp hf
    exact ⟨u2 i, rest, hd, ⟨i, ha, rfl⟩, rfl⟩
  · rintro ⟨seg, rest, hd, ⟨i, ha, rfl⟩, rfl⟩
    obtain ⟨e, hi⟩ := hAt _ _ ha
    have hl := length_of_drop_eq h1 hd
    refine ⟨e, ix + (u2 i).length, (readCpRefAny_exact pool bytes ix h1 h2 e _).mpr ⟨_, rest, hd, ⟨i, hi, rfl⟩, rfl⟩, ?_⟩
    exact (h _ e hi bytes _ (by omega) (by omega) a _).mpr ⟨[], rest, drop_of_drop_eq hd, ⟨ha, rfl⟩, rfl⟩

theorem exact_pure' {α : Type} {N : Nat} {x : α} {Q : α → Prop} (h : ∀ a, a = x ↔ Q a) :
    Exact N (pure x : P α) (fun a seg => Q a ∧ seg = []) := (Exact.pure x).congr (by intro a seg; rw [h])

theorem exact_bad' {α : Type} {N : Nat} {Q : α → Prop} (h : ∀ a, ¬ Q a) : Exact N (badType : P α) (fun a seg => Q a ∧ seg = []) :=
  Exact.fail.congr (by intro a seg; simp [h])

theorem exact_lift' {α : Type} {N : Nat} {r : Res α} {Q : α → Prop} (h : ∀ a, r = .ok a ↔ Q a) :
    Exact N (P.lift r) (fun a seg => Q a ∧ seg = []) := (Exact.lift r).congr (by intro a seg; rw [h])

theorem exact_liftMap {α β : Type} {N : Nat} {r : Res α} {f : α → β} {Q : β → Prop} (h : ∀ b, (∃ a, r = .ok a ∧ f a = b) ↔ Q b) :
    Exact N (P.lift r >>= fun a => (pure (f a) : P β)) (fun a seg => Q a ∧ seg = []) := by
  refine (exact_map (Exact.lift r) f).congr ?_
  intro b seg
  rw [← h]
  constructor
  · rintro ⟨a, rfl, hr, rfl⟩; exact ⟨⟨a, hr, rfl⟩, rfl⟩
  · rintro ⟨⟨a, hr, rfl⟩, rfl⟩; exact ⟨a, rfl, hr, rfl⟩

theorem getUtf8_ok {e : Entry} {s : Str} : e.getUtf8 = .ok s ↔ e = .utf8 s := by
  cases e <;> simp [Entry.getUtf8]

theorem peelUtf8_ok {pool : Pool} {x : CPRef} {s : Str} : peelUtf8 pool x = .ok s ↔ ∃ k, x = .resolved k ∧ TextAt pool k s := by
  unfold peelUtf8
  rw [Res.bind_ok]
  constructor
  · rintro ⟨e, he, h⟩
    obtain ⟨k, rfl, hk⟩ := peel_ok.mp he
    rw [getUtf8_ok] at h
    subst h
    exact ⟨k, rfl, hk⟩
  · rintro ⟨k, rfl, hk⟩
    exact ⟨_, peel_ok.mpr ⟨k, rfl, hk⟩, rfl⟩

/-- The class named by a reference: `peel!(c).classinfo()`. -/
theorem peelClassinfo_ok {pool : Pool} {x : CPRef} {s : Str} :
    peelClassinfo pool x = .ok s ↔ ∃ k, x = .resolved k ∧ ClassAt pool k s := by
  unfold peelClassinfo
  rw [Res.bind_ok]
  constructor
  · rintro ⟨e, he, h⟩
    obtain ⟨k, rfl, hk⟩ := peel_ok.mp he
    cases e <;> simp [Entry.classinfo] at h
    obtain ⟨j, rfl, hj⟩ := peelUtf8_ok.mp h
    exact ⟨k, rfl, j, hk, hj⟩
  · rintro ⟨k, rfl, j, hk, hj⟩
    exact ⟨_, peel_ok.mpr ⟨k, rfl, hk⟩, peelUtf8_ok.mpr ⟨j, rfl, hj⟩⟩

theorem nameAndTypePair_ok {pool : Pool} {x y : CPRef} {n : NameAndType} :
    (do let name ← peelUtf8 pool x; let descriptor ← peelUtf8 pool y
        Res.ok ({ name := name, descriptor := descriptor } : NameAndType)) = .ok n ↔
      ∃ j k, x = .resolved j ∧ y = .resolved k ∧ TextAt pool j n.name ∧ TextAt pool k n.descriptor := by
  constructor
  · intro h
    obtain ⟨s, hs, h'⟩ := Res.bind_ok.mp h
    obtain ⟨t, ht, h''⟩ := Res.bind_ok.mp h'
    obtain ⟨j, rfl, hj⟩ := peelUtf8_ok.mp hs
    obtain ⟨k, rfl, hk⟩ := peelUtf8_ok.mp ht
    cases h''
    exact ⟨j, k, rfl, rfl, hj, hk⟩
  · rintro ⟨j, k, rfl, rfl, hj, hk⟩
    exact Res.bind_ok.mpr ⟨_, peelUtf8_ok.mpr ⟨j, rfl, hj⟩, Res.bind_ok.mpr ⟨_, peelUtf8_ok.mpr ⟨k, rfl, hk⟩, rfl⟩⟩

theorem peelNameAndType_ok {pool : Pool} {x : CPRef} {n : NameAndType} :
    peelNameAndType pool x = .ok n ↔ ∃ k, x = .resolved k ∧ NameAndTypeAt pool k n := by
  unfold peelNameAndType
  rw [Res.bind_ok]
  constructor
  · rintro ⟨e, he, h⟩
    obtain ⟨k, rfl, hk⟩ := peel_ok.mp he
    cases e <;> simp only [Entry.nameAndTypeOf, reduceCtorEq] at h
    obtain ⟨j, l, rfl, rfl, hj, hl⟩ := nameAndTypePair_ok.mp h
    exact ⟨k, rfl, j, l, hk, hj, hl⟩
  · rintro ⟨k, rfl, j, l, hk, hj, hl⟩
    exact ⟨_, peel_ok.mpr ⟨k, rfl, hk⟩, nameAndTypePair_ok.mpr ⟨j, l, rfl, rfl, hj, hl⟩⟩

theorem makeMemberRef_ok {pool : Pool} {c m : CPRef} {r : MemberRef} :
    makeMemberRef pool c m = .ok r ↔ ∃ j k, c = .resolved j ∧ m = .resolved k ∧ MemberOf pool j k r := by
  unfold makeMemberRef
  constructor
  · intro h
    obtain ⟨s, hs, h'⟩ := Res.bind_ok.mp h
    obtain ⟨n, hn, h''⟩ := Res.bind_ok.mp h'
    obtain ⟨j, rfl, hj⟩ := peelClassinfo_ok.mp hs
    obtain ⟨k, rfl, hk⟩ := peelNameAndType_ok.mp hn
    cases h''
    exact ⟨j, k, rfl, rfl, hj, hk⟩
  · rintro ⟨j, k, rfl, rfl, hj, hk⟩
    exact Res.bind_ok.mpr ⟨_, peelClassinfo_ok.mpr ⟨j, rfl, hj⟩, Res.bind_ok.mpr ⟨_, peelNameAndType_ok.mpr ⟨k, rfl, hk⟩, rfl⟩⟩

theorem makeDynamic_ok {pool : Pool} {x : UInt16} {y : CPRef} {r : DynamicRef} :
    makeDynamic pool x y = .ok r ↔ ∃ k, r.attrIndex = x ∧ y = .resolved k ∧ NameAndTypeAt pool k r.nameAndType := by
  unfold makeDynamic
  constructor
  · intro h
    obtain ⟨n, hn, h''⟩ := Res.bind_ok.mp h
    obtain ⟨k, rfl, hk⟩ := peelNameAndType_ok.mp hn
    cases h''
    exact ⟨k, rfl, rfl, hk⟩
  · rintro ⟨k, rfl, rfl, hk⟩
    exact Res.bind_ok.mpr ⟨_, peelNameAndType_ok.mpr ⟨k, rfl, hk⟩, rfl⟩

theorem makeHandleFrom_ok {pool : Pool} {x : ReferenceKind} {mk : MemberKind} {c m : CPRef} {h : MethodHandle} :
    makeHandleFrom pool x mk c m = .ok h ↔ h.kind = x ∧ h.memberKind = mk ∧ ∃ j k, c = .resolved j ∧ m = .resolved k ∧
      MemberOf pool j k { className := h.className, nameAndType := h.memberRef } := by
  unfold makeHandleFrom
  constructor
  · intro h
    obtain ⟨s, hs, h'⟩ := Res.bind_ok.mp h
    obtain ⟨n, hn, h''⟩ := Res.bind_ok.mp h'
    obtain ⟨j, rfl, hj⟩ := peelClassinfo_ok.mp hs
    obtain ⟨k, rfl, hk⟩ := peelNameAndType_ok.mp hn
    cases h''
    exact ⟨rfl, rfl, j, k, rfl, rfl, hj, hk⟩
  · rintro ⟨rfl, rfl, j, k, rfl, rfl, hj, hk⟩
    exact Res.bind_ok.mpr ⟨_, peelClassinfo_ok.mpr ⟨j, rfl, hj⟩, Res.bind_ok.mpr ⟨_, peelNameAndType_ok.mpr ⟨k, rfl, hk⟩, rfl⟩⟩

theorem makeMethodHandle_ok {pool : Pool} {x : ReferenceKind} {y : CPRef} {h : MethodHandle} :
    makeMethodHandle pool x y = .ok h ↔ h.kind = x ∧ ∃ m, y = .resolved m ∧
      MemberRefAt pool m h.memberKind { className := h.className, nameAndType := h.memberRef } := by
  unfold makeMethodHandle
  rw [Res.bind_ok]
  constructor
  · rintro ⟨e, he, h⟩
    obtain ⟨k, rfl, hk⟩ := peel_ok.mp he
    cases e <;> simp only [Res.fail_ne_ok] at h
    all_goals
      rw [makeHandleFrom_ok] at h
      obtain ⟨h1, h2, a, b, rfl, rfl, hm⟩ := h
      refine ⟨h1, k, rfl, ?_⟩
      rw [h2]
      exact ⟨a, b, hk, hm⟩
  · rintro ⟨h1, m, rfl, hm⟩
    cases hmk : h.memberKind <;> rw [hmk] at hm <;> obtain ⟨a, b, hk, hm⟩ := hm <;>
      exact ⟨_, peel_ok.mpr ⟨m, rfl, hk⟩, makeHandleFrom_ok.mpr ⟨h1, hmk, a, b, rfl, rfl, hm⟩⟩

theorem peelStringLiteral_ok {pool : Pool} {v : CPRef} {l : LiteralConstant} :
    peelStringLiteral pool v = .ok l ↔ ∃ x, v = .resolved x ∧
      ((∃ s, l = .string s ∧ pool[x]? = some (.utf8 s)) ∨ ∃ b, l = .stringBytes b ∧ pool[x]? = some (.utf8Bytes b)) := by
  unfold peelStringLiteral
  rw [Res.bind_ok]
  constructor
  · rintro ⟨e, he, h⟩
    obtain ⟨k, rfl, hk⟩ := peel_ok.mp he
    refine ⟨k, rfl, ?_⟩
    cases e <;> simp only [Entry.stringLiteral, Res.ok.injEq, reduceCtorEq] at h
    · exact .inl ⟨_, h.symm, hk⟩
    · exact .inr ⟨_, h.symm, hk⟩
  · rintro ⟨x, rfl, ⟨s, rfl, hk⟩ | ⟨b, rfl, hk⟩⟩
    · exact ⟨_, peel_ok.mpr ⟨x, rfl, hk⟩, rfl⟩
    · exact ⟨_, peel_ok.mpr ⟨x, rfl, hk⟩, rfl⟩

/-! ## The readers -/

theorem readCpUtf8_exact {N : Nat} (pool : Pool) : Exact N (readCpUtf8 pool) (fun s => ref (TextAt pool · s)) := by
  unfold readCpUtf8
  refine cpReader (At := fun i s => TextAt pool i s) (fun i e hi => ?_) (fun i a h => ⟨_, h⟩)
  cases e
  case utf8 => exact exact_pure' (by simp [TextAt, hi, eq_comm])
  all_goals exact exact_bad' (by simp [TextAt, hi])

theorem readCpUtf8Opt_exact {N : Nat} (pool : Pool) :
    Exact N (readCpUtf8Opt pool) (fun s => ref (OptAt TextAt pool · s)) := by
  unfold readCpUtf8Opt
  refine cpReader (At := fun i s => OptAt TextAt pool i s) (fun i e hi => ?_) (fun i a h => by cases a <;> exact ⟨_, h⟩)
  cases e
  case utf8 => exact exact_pure' (fun a => by cases a <;> simp [OptAt, TextAt, hi, eq_comm])
  case zero => exact exact_pure' (fun a => by cases a <;> simp [OptAt, TextAt, hi])
  all_goals exact exact_bad' (fun a => by cases a <;> simp [OptAt, TextAt, hi])

theorem readCpClassinfo_exact {N : Nat} (pool : Pool) : Exact N (readCpClassinfo pool) (fun s => ref (ClassAt pool · s)) := by
  unfold readCpClassinfo
  refine cpReader (At := fun i s => ClassAt pool i s) (fun i e hi => ?_) (fun i a ⟨x, h, _⟩ => ⟨_, h⟩)
  cases e
  case classInfo => exact exact_lift' (fun a => by rw [peelUtf8_ok]; simp [ClassAt, hi])
  all_goals exact exact_bad' (by simp [ClassAt, hi])

theorem readCpClassinfoOpt_exact {N : Nat} (pool : Pool) :
    Exact N (readCpClassinfoOpt pool) (fun s => ref (OptAt ClassAt pool · s)) := by
  unfold readCpClassinfoOpt
  refine cpReader (At := fun i s => OptAt ClassAt pool i s) (fun i e hi => ?_)
    (fun i a h => by cases a; exact ⟨_, h⟩; obtain ⟨x, h, _⟩ := h; exact ⟨_, h⟩)
  cases e
  case classInfo =>
    refine exact_liftMap (fun a => ?_)
    cases a <;> simp [OptAt, ClassAt, hi, peelUtf8_ok]
  case zero => exact exact_pure' (fun a => by cases a <;> simp [OptAt, ClassAt, hi])
  all_goals exact exact_bad' (fun a => by cases a <;> simp [OptAt, ClassAt, hi])

theorem readCpModuleinfo_exact {N : Nat} (pool : Pool) : Exact N (readCpModuleinfo pool) (fun s => ref (ModuleAt pool · s)) := by
  unfold readCpModuleinfo
  refine cpReader (At := fun i s => ModuleAt pool i s) (fun i e hi => ?_) (fun i a ⟨x, h, _⟩ => ⟨_, h⟩)
  cases e
  case moduleInfo => exact exact_lift' (fun a => by rw [peelUtf8_ok]; simp [ModuleAt, hi])
  all_goals exact exact_bad' (by simp [ModuleAt, hi])

theorem readCpPackageinfo_exact {N : Nat} (pool : Pool) : Exact N (readCpPackageinfo pool) (fun s => ref (PackageAt pool · s)) := by
  unfold readCpPackageinfo
  refine cpReader (At := fun i s => PackageAt pool i s) (fun i e hi => ?_) (fun i a ⟨x, h, _⟩ => ⟨_, h⟩)
  cases e
  case packageInfo => exact exact_lift' (fun a => by rw [peelUtf8_ok]; simp [PackageAt, hi])
  all_goals exact exact_bad' (by simp [PackageAt, hi])

theorem readCpNameandtypeOpt_exact {N : Nat} (pool : Pool) :
    Exact N (readCpNameandtypeOpt pool) (fun s => ref (OptAt NameAndTypeAt pool · s)) := by
  unfold readCpNameandtypeOpt
  refine cpReader (At := fun i s => OptAt NameAndTypeAt pool i s) (fun i e hi => ?_)
    (fun i a h => by cases a; exact ⟨_, h⟩; obtain ⟨x, y, h, _⟩ := h; exact ⟨_, h⟩)
  cases e
  case nameAndType x y =>
    refine (Exact.bind (Exact.lift _) fun name => exact_map (Exact.lift _) _).congr ?_
    intro a seg
    constructor
    · rintro ⟨s, s1, s2, rfl, ⟨h1, rfl⟩, t, rfl, h2, rfl⟩
      obtain ⟨j, rfl, hj⟩ := peelUtf8_ok.mp h1
      obtain ⟨k, rfl, hk⟩ := peelUtf8_ok.mp h2
      exact ⟨⟨j, k, hi, hj, hk⟩, rfl⟩
    · rintro ⟨h, rfl⟩
      cases a with
      | none => simp [OptAt, hi] at h
      | some n =>
        obtain ⟨j, k, h, hj, hk⟩ := h
        rw [hi] at h
        cases h
        exact ⟨_, [], [], rfl, ⟨peelUtf8_ok.mpr ⟨j, rfl, hj⟩, rfl⟩, _, rfl, peelUtf8_ok.mpr ⟨k, rfl, hk⟩, rfl⟩
  case zero => exact exact_pure' (fun a => by cases a <;> simp [OptAt, NameAndTypeAt, hi])
  all_goals exact exact_bad' (fun a => by cases a <;> simp [OptAt, NameAndTypeAt, hi])

theorem literalAt_slot {pool : Pool} {i : Nat} {a : LiteralConstant} (h : LiteralAt pool i a) : ∃ e, pool[i]? = some e := by
  cases a <;> first | exact ⟨_, h⟩ | (obtain ⟨x, h, _⟩ := h; exact ⟨_, h⟩)

theorem stringLiteral_at {pool : Pool} {i : Nat} {v : CPRef} {l : LiteralConstant} (hi : pool[i]? = some (.string v)) :
    peelStringLiteral pool v = .ok l ↔ LiteralAt pool i l := by
  rw [peelStringLiteral_ok]
  cases l <;> simp [LiteralAt, hi]

theorem readCpLiteralconstant_exact {N : Nat} (pool : Pool) :
    Exact N (readCpLiteralconstant pool) (fun s => ref (LiteralAt pool · s)) := by
  unfold readCpLiteralconstant
  refine cpReader (At := fun i s => LiteralAt pool i s) (fun i e hi => ?_) (fun i a h => literalAt_slot h)
  cases e
  case integer | float | long | double => exact exact_pure' (fun a => by cases a <;> simp [LiteralAt, hi, eq_comm])
  case string => exact exact_lift' (fun a => stringLiteral_at hi)
  all_goals exact exact_bad' (fun a => by cases a <;> simp [LiteralAt, hi])

theorem readCpInteger_exact {N : Nat} (pool : Pool) :
    Exact N (readCpInteger pool) (fun v => ref (fun i => pool[i]? = some (.integer v))) := by
  unfold readCpInteger
  refine cpReader (At := fun i v => pool[i]? = some (.integer v)) (fun i e hi => ?_) (fun i a h => ⟨_, h⟩)
  cases e
  case integer => exact exact_pure' (fun a => by simp [hi, eq_comm])
  all_goals exact exact_bad' (fun a => by simp [hi])

theorem readCpFloat_exact {N : Nat} (pool : Pool) :
    Exact N (readCpFloat pool) (fun v => ref (fun i => pool[i]? = some (.float v))) := by
  unfold readCpFloat
  refine cpReader (At := fun i v => pool[i]? = some (.float v)) (fun i e hi => ?_) (fun i a h => ⟨_, h⟩)
  cases e
  case float => exact exact_pure' (fun a => by simp [hi, eq_comm])
  all_goals exact exact_bad' (fun a => by simp [hi])

theorem readCpLong_exact {N : Nat} (pool : Pool) :
    Exact N (readCpLong pool) (fun v => ref (fun i => pool[i]? = some (.long v))) := by
  unfold readCpLong
  refine cpReader (At := fun i v => pool[i]? = some (.long v)) (fun i e hi => ?_) (fun i a h => ⟨_, h⟩)
  cases e
  case long => exact exact_pure' (fun a => by simp [hi, eq_comm])
  all_goals exact exact_bad' (fun a => by simp [hi])

theorem readCpDouble_exact {N : Nat} (pool : Pool) :
    Exact N (readCpDouble pool) (fun v => ref (fun i => pool[i]? = some (.double v))) := by
  unfold readCpDouble
  refine cpReader (At := fun i v => pool[i]? = some (.double v)) (fun i e hi => ?_) (fun i a h => ⟨_, h⟩)
  cases e
  case double => exact exact_pure' (fun a => by simp [hi, eq_comm])
  all_goals exact exact_bad' (fun a => by simp [hi])

/-- The member references of a type mask. -/
def MemberMask (pool : Pool) (allowed : UInt32) (i : Nat) (m : MemberRef) : Prop :=
  ∃ k, MemberRefAt pool i k m ∧ flagsContains32 allowed (match k with
    | .field => EntryTypes.FIELD_REF
    | .method => EntryTypes.METHOD_REF
    | .interfaceMethod => EntryTypes.INTERFACE_METHOD_REF) = true

theorem readCpMemberref_exact {N : Nat} (pool : Pool) (allowed : UInt32) :
    Exact N (readCpMemberref pool allowed) (fun m => ref (fun i => MemberMask pool allowed i m)) := by
  unfold readCpMemberref
  refine cpReader (At := fun i m => MemberMask pool allowed i m) (fun i e hi => ?_) ?_
  · have hens : ∀ (p : P MemberRef) (Q : MemberRef → Prop), Exact N p (fun a seg => Q a ∧ seg = []) →
        Exact N (P.lift (e.ensureType allowed) >>= fun _ => p)
          (fun a seg => (flagsContains32 allowed e.getType = true ∧ Q a) ∧ seg = []) := by
      intro p Q hp
      refine (Exact.bind (Exact.lift _) fun _ => hp).congr ?_
      intro a seg
      constructor
      · rintro ⟨_, s, t, rfl, ⟨h1, rfl⟩, h2, rfl⟩
        exact ⟨⟨entry_ensureType_ok.mp h1, h2⟩, rfl⟩
      · rintro ⟨⟨h1, h2⟩, rfl⟩
        exact ⟨(), [], [], rfl, ⟨entry_ensureType_ok.mpr h1, rfl⟩, h2, rfl⟩
    cases e
    case fieldRef c m =>
      refine (hens _ (fun a => FieldRefAt pool i a) (exact_lift' fun a => ?_)).congr fun a seg => ?_
      · rw [makeMemberRef_ok]
        unfold FieldRefAt
        rw [hi]
        simp [and_assoc]
      · refine and_congr_left fun _ => ?_
        constructor
        · rintro ⟨h1, h2⟩; exact ⟨.field, h2, h1⟩
        · rintro ⟨k, h2, h1⟩
          cases k with
          | field => exact ⟨h1, h2⟩
          | method => obtain ⟨a, b, h2, -⟩ := h2; rw [hi] at h2; cases h2
          | interfaceMethod => obtain ⟨a, b, h2, -⟩ := h2; rw [hi] at h2; cases h2
    case methodRef c m =>
      refine (hens _ (fun a => MethodRefAt pool i a) (exact_lift' fun a => ?_)).congr fun a seg => ?_
      · rw [makeMemberRef_ok]
        unfold MethodRefAt
        rw [hi]
        simp [and_assoc]
      · refine and_congr_left fun _ => ?_
        constructor
        · rintro ⟨h1, h2⟩; exact ⟨.method, h2, h1⟩
        · rintro ⟨k, h2, h1⟩
          cases k with
          | method => exact ⟨h1, h2⟩
          | field => obtain ⟨a, b, h2, -⟩ := h2; rw [hi] at h2; cases h2
          | interfaceMethod => obtain ⟨a, b, h2, -⟩ := h2; rw [hi] at h2; cases h2
    case interfaceMethodRef c m =>
      refine (hens _ (fun a => InterfaceMethodRefAt pool i a) (exact_lift' fun a => ?_)).congr fun a seg => ?_
      · rw [makeMemberRef_ok]
        unfold InterfaceMethodRefAt
        rw [hi]
        simp [and_assoc]
      · refine and_congr_left fun _ => ?_
        constructor
        · rintro ⟨h1, h2⟩; exact ⟨.interfaceMethod, h2, h1⟩
        · rintro ⟨k, h2, h1⟩
          cases k with
          | interfaceMethod => exact ⟨h1, h2⟩
          | field => obtain ⟨a, b, h2, -⟩ := h2; rw [hi] at h2; cases h2
          | method => obtain ⟨a, b, h2, -⟩ := h2; rw [hi] at h2; cases h2
    all_goals
      refine (hens _ (fun _ => False) (exact_bad' fun a h => h)).congr fun a seg => ?_
      simp only [and_false, false_and, false_iff]
      rintro ⟨⟨k, h2, -⟩, -⟩
      cases k <;> (obtain ⟨a, b, h2, -⟩ := h2; rw [hi] at h2; cases h2)
  · rintro i a ⟨k, h, -⟩
    cases k <;> (obtain ⟨a, b, h, -⟩ := h; exact ⟨_, h⟩)

theorem memberMask_field (pool : Pool) (i : Nat) (m : MemberRef) :
    MemberMask pool EntryTypes.FIELD_REF i m ↔ FieldRefAt pool i m := by
  constructor
  · rintro ⟨k, h, hc⟩
    cases k
    · exact h
    · exact absurd hc (by decide)
    · exact absurd hc (by decide)
  · intro h; exact ⟨.field, h, by decide⟩

theorem memberMask_method (pool : Pool) (i : Nat) (m : MemberRef) :
    MemberMask pool EntryTypes.METHOD_REF i m ↔ MethodRefAt pool i m := by
  constructor
  · rintro ⟨k, h, hc⟩
    cases k
    · exact absurd hc (by decide)
    · exact h
    · exact absurd hc (by decide)
  · intro h; exact ⟨.method, h, by decide⟩

theorem memberMask_imethod (pool : Pool) (i : Nat) (m : MemberRef) :
    MemberMask pool EntryTypes.INTERFACE_METHOD_REF i m ↔ InterfaceMethodRefAt pool i m := by
  constructor
  · rintro ⟨k, h, hc⟩
    cases k
    · exact absurd hc (by decide)
    · exact absurd hc (by decide)
    · exact h
  · intro h; exact ⟨.interfaceMethod, h, by decide⟩

theorem memberMask_methods (pool : Pool) (i : Nat) (m : MemberRef) :
    MemberMask pool EntryTypes.NEW_METHOD_REFS i m ↔ MethodRefAt pool i m ∨ InterfaceMethodRefAt pool i m := by
  constructor
  · rintro ⟨k, h, hc⟩
    cases k
    · exact absurd hc (by decide)
    · exact .inl h
    · exact .inr h
  · rintro (h | h)
    · exact ⟨.method, h, by decide⟩
    · exact ⟨.interfaceMethod, h, by decide⟩

theorem readCpInvokedynamic_exact {N : Nat} (pool : Pool) :
    Exact N (readCpInvokedynamic pool) (fun d => ref (InvokeDynamicAt pool · d)) := by
  unfold readCpInvokedynamic
  refine cpReader (At := fun i d => InvokeDynamicAt pool i d) (fun i e hi => ?_) (fun i a ⟨x, h, _⟩ => ⟨_, h⟩)
  cases e
  case invokeDynamic => exact exact_lift' (fun a => by rw [makeDynamic_ok]; simp [InvokeDynamicAt, hi, eq_comm, and_assoc])
  all_goals exact exact_bad' (by simp [InvokeDynamicAt, hi])

theorem readCpMethodhandle_exact {N : Nat} (pool : Pool) :
    Exact N (readCpMethodhandle pool) (fun d => ref (MethodHandleAt pool · d)) := by
  unfold readCpMethodhandle
  refine cpReader (At := fun i d => MethodHandleAt pool i d) (fun i e hi => ?_) (fun i a ⟨x, h, _⟩ => ⟨_, h⟩)
  cases e
  case methodHandle => exact exact_lift' (fun a => by rw [makeMethodHandle_ok]; simp [MethodHandleAt, hi, eq_comm, and_assoc])
  all_goals exact exact_bad' (by simp [MethodHandleAt, hi])

theorem methodHandle_at {pool : Pool} {i : Nat} {x : ReferenceKind} {y : CPRef} {h : MethodHandle}
    (hi : pool[i]? = some (.methodHandle x y)) : makeMethodHandle pool x y = .ok h ↔ MethodHandleAt pool i h := by
  rw [makeMethodHandle_ok]; simp [MethodHandleAt, hi, eq_comm, and_assoc]

theorem dynamic_at {pool : Pool} {i : Nat} {x : UInt16} {y : CPRef} {d : DynamicRef}
    (hi : pool[i]? = some (.dynamic x y)) : makeDynamic pool x y = .ok d ↔ DynamicAt pool i d := by
  rw [makeDynamic_ok]; simp [DynamicAt, hi, eq_comm, and_assoc]

theorem Res.map_ok {α β : Type} {r : Res α} {f : α → β} {b : β} :
    (r >>= fun a => Res.ok (f a)) = .ok b ↔ ∃ a, r = .ok a ∧ f a = b := by
  rw [Res.bind_ok]; simp

theorem getCpLoadable_ok {pool : Pool} {i : Nat} {l : Loadable} : getCpLoadable i pool = .ok l ↔ LoadableAt pool i l := by
  unfold getCpLoadable
  split
  · rename_i hlen
    have hn : pool[i]? = none := by simp; omega
    simp only [Res.fail_ne_ok, false_iff]
    cases l with
    | literalConstant c => cases c <;> simp [LoadableAt, LiteralAt, hn]
    | _ => simp [LoadableAt, ClassAt, MethodHandleAt, MethodTypeAt, DynamicAt, hn]
  · rename_i hlen
    obtain ⟨e, hi⟩ : ∃ e, pool[i]? = some e := ⟨_, List.getElem?_eq_getElem (by omega)⟩
    have hp : poolAt pool i = .ok e := by unfold poolAt; rw [hi]
    rw [hp, Res.ok_bind]
    cases e
    case integer | float | long | double =>
      simp only [Res.ok.injEq]
      cases l with
      | literalConstant c => cases c <;> simp [LoadableAt, LiteralAt, hi]
      | _ => simp [LoadableAt, ClassAt, MethodHandleAt, MethodTypeAt, DynamicAt, hi]
    case string v =>
      simp only [Res.map_ok, stringLiteral_at hi]
      cases l with
      | literalConstant c => simp [LoadableAt]
      | _ => simp [LoadableAt, ClassAt, MethodHandleAt, MethodTypeAt, DynamicAt, hi]
    case classInfo x =>
      simp only [Res.map_ok, peelUtf8_ok]
      cases l with
      | literalConstant c => cases c <;> simp [LoadableAt, LiteralAt, hi]
      | _ => simp [LoadableAt, ClassAt, MethodHandleAt, MethodTypeAt, DynamicAt, hi]
    case methodType x =>
      simp only [Res.map_ok, peelUtf8_ok]
      cases l with
      | literalConstant c => cases c <;> simp [LoadableAt, LiteralAt, hi]
      | _ => simp [LoadableAt, ClassAt, MethodHandleAt, MethodTypeAt, DynamicAt, hi]
    case methodHandle x y =>
      simp only [Res.map_ok, methodHandle_at hi]
      cases l with
      | literalConstant c => cases c <;> simp [LoadableAt, LiteralAt, hi]
      | methodHandle h => simp [LoadableAt]
      | _ => simp [LoadableAt, ClassAt, MethodTypeAt, DynamicAt, hi]
    case dynamic x y =>
      simp only [Res.map_ok, dynamic_at hi]
      cases l with
      | literalConstant c => cases c <;> simp [LoadableAt, LiteralAt, hi]
      | dynamic h => simp [LoadableAt]
      | _ => simp [LoadableAt, ClassAt, MethodHandleAt, MethodTypeAt, hi]
    all_goals
      simp only [Res.fail_ne_ok, false_iff]
      cases l with
      | literalConstant c => cases c <;> simp [LoadableAt, LiteralAt, hi]
      | _ => simp [LoadableAt, ClassAt, MethodHandleAt, MethodTypeAt, DynamicAt, hi]

theorem bootstrapArgumentOf_ok {pool : Pool} {i : Nat} {e : Entry} {l : BootstrapArgument} (hi : pool[i]? = some e) :
    bootstrapArgumentOf pool e = .ok l ↔ BootstrapArgumentAt pool i l := by
  unfold bootstrapArgumentOf
  cases e
  case integer | float | long | double =>
    simp only [Res.ok.injEq]
    cases l with
    | literalConstant c => cases c <;> simp [BootstrapArgumentAt, LiteralAt, hi]
    | _ => simp [BootstrapArgumentAt, ClassAt, MethodHandleAt, MethodTypeAt, hi]
  case string v =>
    simp only [Res.map_ok, stringLiteral_at hi]
    cases l with
    | literalConstant c => simp [BootstrapArgumentAt]
    | _ => simp [BootstrapArgumentAt, ClassAt, MethodHandleAt, MethodTypeAt, hi]
  case classInfo x =>
    simp only [Res.map_ok, peelUtf8_ok]
    cases l with
    | literalConstant c => cases c <;> simp [BootstrapArgumentAt, LiteralAt, hi]
    | _ => simp [BootstrapArgumentAt, ClassAt, MethodHandleAt, MethodTypeAt, hi]
  case methodType x =>
    simp only [Res.map_ok, peelUtf8_ok]
    cases l with
    | literalConstant c => cases c <;> simp [BootstrapArgumentAt, LiteralAt, hi]
    | _ => simp [BootstrapArgumentAt, ClassAt, MethodHandleAt, MethodTypeAt, hi]
  case methodHandle x y =>
    simp only [Res.map_ok, methodHandle_at hi]
    cases l with
    | literalConstant c => cases c <;> simp [BootstrapArgumentAt, LiteralAt, hi]
    | methodHandle h => simp [BootstrapArgumentAt]
    | _ => simp [BootstrapArgumentAt, ClassAt, MethodTypeAt, hi]
  all_goals
    simp only [Res.fail_ne_ok, false_iff]
    cases l with
    | literalConstant c => cases c <;> simp [BootstrapArgumentAt, LiteralAt, hi]
    | _ => simp [BootstrapArgumentAt, ClassAt, MethodHandleAt, MethodTypeAt, hi]

theorem readCpBootstrapArgument_exact {N : Nat} (pool : Pool) :
    Exact N (readCpBootstrapArgument pool) (fun d => ref (BootstrapArgumentAt pool · d)) := by
  unfold readCpBootstrapArgument
  refine cpReader (At := fun i d => BootstrapArgumentAt pool i d)
    (fun i e hi => exact_lift' fun a => bootstrapArgumentOf_ok hi) (fun i a h => ?_)
  cases a with
  | literalConstant c => exact literalAt_slot h
  | _ => obtain ⟨x, h, _⟩ := h; exact ⟨_, h⟩

theorem readCpObjectArrayType_exact {N : Nat} (pool : Pool) :
    Exact N (readCpObjectArrayType pool) (fun d => ref (ObjectTypeAt pool · d)) := by
  unfold readCpObjectArrayType
  refine cpReader (At := fun i d => ObjectTypeAt pool i d) (fun i e hi => ?_) (fun i a h => ?_)
  · cases e
    case classInfo x =>
      refine (Exact.bind (Exact.lift _) fun name => Exact.bind (Exact.lift _)
        (G := fun o b seg => seg = [] ∧ match o with
          | some desc => b = ObjectArrayType.arrayType desc
          | none => b = ObjectArrayType.binaryName name) fun o => ?_).congr ?_
      · cases o
        · exact (Exact.pure _).congr (by intro a seg; simp [and_comm])
        · exact (Exact.pure _).congr (by intro a seg; simp [and_comm])
      · intro a seg
        constructor
        · rintro ⟨s, s1, s2, rfl, ⟨h1, rfl⟩, o, s3, s4, rfl, ⟨h2, rfl⟩, rfl, h3⟩
          refine ⟨?_, rfl⟩
          obtain ⟨k, rfl, hk⟩ := peelUtf8_ok.mp h1
          have h2 := (parseArrayDescriptor_decides s).1 o |>.mp h2
          cases o with
          | none => subst h3; exact ⟨⟨k, hi, hk⟩, h2⟩
          | some d =>
            subst h3
            simp only at h2
            obtain ⟨h4, h5, rfl⟩ := h2
            exact ⟨⟨k, hi, hk⟩, h4, h5⟩
        · rintro ⟨h, rfl⟩
          cases a with
          | arrayType d =>
            obtain ⟨⟨k, h, hk⟩, h2, h3⟩ := h
            rw [hi] at h; cases h
            exact ⟨_, [], [], rfl, ⟨peelUtf8_ok.mpr ⟨k, rfl, hk⟩, rfl⟩, some d, [], [], rfl,
              ⟨((parseArrayDescriptor_decides _).1 (some d)).mpr ⟨h2, h3, rfl⟩, rfl⟩, rfl, rfl⟩
          | binaryName s =>
            obtain ⟨⟨k, h, hk⟩, h2⟩ := h
            rw [hi] at h; cases h
            exact ⟨_, [], [], rfl, ⟨peelUtf8_ok.mpr ⟨k, rfl, hk⟩, rfl⟩, none, [], [], rfl,
              ⟨((parseArrayDescriptor_decides _).1 none).mpr h2, rfl⟩, rfl, rfl⟩
    all_goals exact exact_bad' (fun a => by cases a <;> simp [ObjectTypeAt, ClassAt, hi])
  · cases a <;> (obtain ⟨⟨x, h, _⟩, _⟩ := h; exact ⟨_, h⟩)

end Cafebabe
