import Verif.Proofs.Exact
import Verif.Proofs.Names
import Verif.Proofs.Descriptors
import Verif.Spec.Pool
/-!
# Proofs: the constant pool reader, raw entries
-/

namespace Cafebabe
open Spec

theorem Res.bind_ok {α β : Type} {r : Res α} {f : α → Res β} {b : β} :
    (r >>= f) = .ok b ↔ ∃ a, r = .ok a ∧ f a = .ok b := by
  show Res.bind r f = _ ↔ _
  cases r <;> simp [Res.bind]

@[simp] theorem Res.ok_bind {α β : Type} {a : α} {f : α → Res β} : ((Res.ok a : Res α) >>= f) = f a := rfl

@[simp] theorem Res.fail_ne_ok {α : Type} {m : String} {a : α} : ((Res.fail m : Res α) = .ok a) ↔ False := by
  simp [Res.fail]

theorem Res.mapErr_ok {α : Type} {r : Res α} {c : String} {a : α} : r.mapErr c = .ok a ↔ r = .ok a := by
  cases r <;> simp [Res.mapErr]

/-! ## Entries -/

theorem exact_map {N : Nat} {α β : Type} {p : P α} {F : α → Lang} (h : Exact N p F) (f : α → β) :
    Exact N (p >>= fun x => (pure (f x) : P β)) (fun b seg => ∃ a, b = f a ∧ F a seg) := by
  refine (Exact.bind h fun a => Exact.pure _).congr ?_
  intro e seg
  constructor
  · rintro ⟨a, s, t, rfl, hF, rfl, rfl⟩
    exact ⟨a, rfl, by simpa using hF⟩
  · rintro ⟨a, rfl, hF⟩
    exact ⟨a, seg, [], by simp, hF, rfl, rfl⟩

theorem Exact.unresolvedRef {N : Nat} : Exact N readUnresolvedCpRef (fun x seg => ∃ i, x = .unresolved i ∧ seg = u2 i) := by
  unfold readUnresolvedCpRef
  exact exact_map Exact.readU2 _

theorem kind_iff (n : UInt8) (k : ReferenceKind) : referenceKindOf n = some k ↔ n = kindByte k := by
  unfold referenceKindOf
  constructor
  · intro h
    split at h <;> rename_i hn <;> cases h <;> exact UInt8.toNat_inj.mp (by rw [hn]; rfl)
  · rintro rfl
    cases k <;> rfl

theorem exact_one {N : Nat} (f : CPRef → Entry) :
    Exact N (readUnresolvedCpRef >>= fun x => (pure (f x) : P Entry)) (fun e seg => ∃ i, e = f (.unresolved i) ∧ seg = u2 i) := by
  refine (Exact.bind Exact.unresolvedRef fun a => Exact.pure _).congr ?_
  intro e seg
  constructor
  · rintro ⟨a, s, t, rfl, ⟨i, rfl, rfl⟩, rfl, rfl⟩
    exact ⟨i, rfl, by simp⟩
  · rintro ⟨i, rfl, rfl⟩
    exact ⟨_, _, [], by simp, ⟨i, rfl, rfl⟩, rfl, rfl⟩

theorem exact_two {N : Nat} (f : CPRef → CPRef → Entry) :
    Exact N (readUnresolvedCpRef >>= fun x => readUnresolvedCpRef >>= fun y => (pure (f x y) : P Entry))
      (fun e seg => ∃ i j, e = f (.unresolved i) (.unresolved j) ∧ seg = u2 i ++ u2 j) := by
  refine (Exact.bind Exact.unresolvedRef fun a => exact_one (f a)).congr ?_
  intro e seg
  constructor
  · rintro ⟨a, s, t, rfl, ⟨i, rfl, rfl⟩, j, rfl, rfl⟩
    exact ⟨i, j, rfl, rfl⟩
  · rintro ⟨i, j, rfl, rfl⟩
    exact ⟨_, _, _, rfl, ⟨i, rfl, rfl⟩, j, rfl, rfl⟩

theorem exact_dyn {N : Nat} (f : UInt16 → CPRef → Entry) :
    Exact N (readU2 >>= fun x => readUnresolvedCpRef >>= fun y => (pure (f x y) : P Entry))
      (fun e seg => ∃ i j, e = f i (.unresolved j) ∧ seg = u2 i ++ u2 j) := by
  refine (Exact.bind Exact.readU2 fun a => exact_one (f a)).congr ?_
  intro e seg
  constructor
  · rintro ⟨a, s, t, rfl, rfl, j, rfl, rfl⟩
    exact ⟨a, j, rfl, rfl⟩
  · rintro ⟨i, j, rfl, rfl⟩
    exact ⟨i, _, _, rfl, rfl, j, rfl, rfl⟩

theorem unexpectedTag_exact {N : Nat} (t : UInt8) (major : UInt16) :
    Exact N (unexpectedTag t major) (fun _ _ => False) :=
  Exact.getIxBind fun _ => Exact.fail

theorem utf8_exact {N : Nat} (env : Env) (major : UInt16) :
    Exact N (readConstantUtf8 env) (fun e seg => EntryEnc env.decode major e (1 :: seg)) := by
  unfold readConstantUtf8
  refine (Exact.bind Exact.readU2 fun n => Exact.getIxBind fun _ => Exact.bind (Exact.takeBytes (n := n.toNat))
    (G := fun b (e : Entry) seg => seg = [] ∧ match env.decode b with
      | some s => e = Entry.utf8 s
      | none => e = Entry.utf8Bytes b) fun b => ?_).congr ?_
  · cases env.decode b with
    | some s => exact (Exact.pure _).congr (by intro a seg; simp [and_comm])
    | none => exact (Exact.pure _).congr (by intro a seg; simp [and_comm])
  · intro e seg
    constructor
    · rintro ⟨n, s, t, rfl, rfl, b, s', t', rfl, ⟨hl, rfl⟩, rfl, hm⟩
      cases hd : env.decode s' with
      | some s => rw [hd] at hm; subst hm; exact ⟨n, s', hl.symm, hd, by simp⟩
      | none => rw [hd] at hm; subst hm; exact ⟨n, hl.symm, hd, by simp⟩
    · intro h
      cases e with
      | utf8 s =>
        obtain ⟨n, b, hl, hd, hs⟩ := h
        simp at hs; subst hs
        exact ⟨n, _, _, rfl, rfl, b, b, [], by simp, ⟨hl.symm, rfl⟩, rfl, by simp [hd]⟩
      | utf8Bytes b =>
        obtain ⟨n, hl, hd, hs⟩ := h
        simp at hs; subst hs
        exact ⟨n, _, _, rfl, rfl, b, b, [], by simp, ⟨hl.symm, rfl⟩, rfl, by simp [hd]⟩
      | methodHandle k x => cases x <;> simp [EntryEnc] at h
      | classInfo x => cases x <;> simp [EntryEnc] at h
      | string x => cases x <;> simp [EntryEnc] at h
      | methodType x => cases x <;> simp [EntryEnc] at h
      | moduleInfo x => cases x <;> simp [EntryEnc] at h
      | packageInfo x => cases x <;> simp [EntryEnc] at h
      | dynamic b x => cases x <;> simp [EntryEnc] at h
      | invokeDynamic b x => cases x <;> simp [EntryEnc] at h
      | fieldRef x y => cases x <;> cases y <;> simp [EntryEnc] at h
      | methodRef x y => cases x <;> cases y <;> simp [EntryEnc] at h
      | interfaceMethodRef x y => cases x <;> cases y <;> simp [EntryEnc] at h
      | nameAndType x y => cases x <;> cases y <;> simp [EntryEnc] at h
      | zero => simp [EntryEnc] at h
      | unused => simp [EntryEnc] at h
      | integer v => simp [EntryEnc] at h
      | float v => simp [EntryEnc] at h
      | long v => simp [EntryEnc] at h
      | double v => simp [EntryEnc] at h

/-- Case analysis on an entry and its references. -/
macro "entry_cases " e:ident : tactic => `(tactic|
  (rcases $e:ident with _ | _ | _ | _ | _ | _ | _ | ⟨_ | _⟩ | ⟨_ | _⟩ | ⟨_ | _, _ | _⟩ | ⟨_ | _, _ | _⟩ | ⟨_ | _, _ | _⟩ |
    ⟨_ | _, _ | _⟩ | ⟨_, _ | _⟩ | ⟨_ | _⟩ | ⟨_, _ | _⟩ | ⟨_, _ | _⟩ | ⟨_ | _⟩ | ⟨_ | _⟩ | _))

theorem readConstant_exact {N : Nat} (env : Env) (major : UInt16) (t : UInt8) :
    Exact N (readConstant env major t) (fun e seg => EntryEnc env.decode major e (t :: seg)) := by
  unfold readConstant
  split <;> rename_i ht
  case _ =>
    obtain rfl : t = 1 := UInt8.toNat_inj.mp ht
    exact utf8_exact env major
  case _ =>
    obtain rfl : t = 3 := UInt8.toNat_inj.mp ht
    refine (exact_map Exact.readU4 _).congr ?_
    intro e seg
    entry_cases e <;> simp [EntryEnc, lit]
    constructor
    · rintro ⟨a, rfl, rfl⟩; simp
    · rintro rfl; exact ⟨_, by simp, rfl⟩
  case _ =>
    obtain rfl : t = 4 := UInt8.toNat_inj.mp ht
    refine (exact_map Exact.readU4 _).congr ?_
    intro e seg
    entry_cases e <;> simp [EntryEnc, lit]
  case _ =>
    obtain rfl : t = 5 := UInt8.toNat_inj.mp ht
    refine (exact_map Exact.readU8 _).congr ?_
    intro e seg
    entry_cases e <;> simp [EntryEnc, lit]
    constructor
    · rintro ⟨a, rfl, rfl⟩; simp
    · rintro rfl; exact ⟨_, by simp, rfl⟩
  case _ =>
    obtain rfl : t = 6 := UInt8.toNat_inj.mp ht
    refine (exact_map Exact.readU8 _).congr ?_
    intro e seg
    entry_cases e <;> simp [EntryEnc, lit]
  case _ =>
    obtain rfl : t = 7 := UInt8.toNat_inj.mp ht
    refine (exact_one _).congr ?_
    intro e seg
    entry_cases e <;> simp [EntryEnc]
  case _ =>
    obtain rfl : t = 8 := UInt8.toNat_inj.mp ht
    refine (exact_one _).congr ?_
    intro e seg
    entry_cases e <;> simp [EntryEnc]
  case _ =>
    obtain rfl : t = 9 := UInt8.toNat_inj.mp ht
    refine (exact_two _).congr ?_
    intro e seg
    entry_cases e <;> simp [EntryEnc, and_assoc]
  case _ =>
    obtain rfl : t = 10 := UInt8.toNat_inj.mp ht
    refine (exact_two _).congr ?_
    intro e seg
    entry_cases e <;> simp [EntryEnc, and_assoc]
  case _ =>
    obtain rfl : t = 11 := UInt8.toNat_inj.mp ht
    refine (exact_two _).congr ?_
    intro e seg
    entry_cases e <;> simp [EntryEnc, and_assoc]
  case _ =>
    obtain rfl : t = 12 := UInt8.toNat_inj.mp ht
    refine (exact_two _).congr ?_
    intro e seg
    entry_cases e <;> simp [EntryEnc, and_assoc]
  case _ =>
    obtain rfl : t = 15 := UInt8.toNat_inj.mp ht
    split
    · rename_i hm
      unfold readConstantMethodhandle
      refine (Exact.bind Exact.readU1 fun n => (show Exact N _ (fun e seg => ∃ k i, n = kindByte k ∧
        e = .methodHandle k (.unresolved i) ∧ seg = u2 i) from ?_)).congr ?_
      · cases hk : referenceKindOf n with
        | none =>
          refine (Exact.getIxBind fun _ => Exact.fail).congr ?_
          intro e seg
          simp only [false_iff]
          rintro ⟨k, i, hn, -⟩
          rw [(kind_iff n k).mpr hn] at hk
          cases hk
        | some k =>
          refine (exact_one _).congr ?_
          intro e seg
          rw [kind_iff] at hk
          constructor
          · rintro ⟨i, rfl, rfl⟩; exact ⟨k, i, hk, rfl, rfl⟩
          · rintro ⟨k', i, hk', rfl, rfl⟩
            have := (kind_iff n k).mpr hk
            rw [(kind_iff n k').mpr hk'] at this
            cases this
            exact ⟨i, rfl, rfl⟩
      · intro e seg
        constructor
        · rintro ⟨n, s, t, rfl, rfl, k, i, rfl, rfl, rfl⟩
          exact ⟨hm, rfl⟩
        · intro h
          entry_cases e <;> simp [EntryEnc] at h
          obtain ⟨-, rfl⟩ := h
          rename_i k i
          exact ⟨_, _, _, rfl, rfl, k, i, rfl, rfl, rfl⟩
    · rename_i hm
      refine (unexpectedTag_exact _ _).congr ?_
      intro e seg
      entry_cases e <;> simp [EntryEnc]
      intro h; exact absurd h hm
  case _ =>
    obtain rfl : t = 16 := UInt8.toNat_inj.mp ht
    split
    · rename_i hm
      refine (exact_one _).congr ?_
      intro e seg
      entry_cases e <;> simp [EntryEnc]
      intro _; exact hm
    · rename_i hm
      refine (unexpectedTag_exact _ _).congr ?_
      intro e seg
      entry_cases e <;> simp [EntryEnc]
      intro h; exact absurd h hm
  case _ =>
    obtain rfl : t = 17 := UInt8.toNat_inj.mp ht
    split
    · rename_i hm
      refine (exact_dyn _).congr ?_
      intro e seg
      entry_cases e <;> simp [EntryEnc, and_assoc]
      intro _; exact hm
    · rename_i hm
      refine (unexpectedTag_exact _ _).congr ?_
      intro e seg
      entry_cases e <;> simp [EntryEnc]
      intro h; exact absurd h hm
  case _ =>
    obtain rfl : t = 18 := UInt8.toNat_inj.mp ht
    split
    · rename_i hm
      refine (exact_dyn _).congr ?_
      intro e seg
      entry_cases e <;> simp [EntryEnc, and_assoc]
      intro _; exact hm
    · rename_i hm
      refine (unexpectedTag_exact _ _).congr ?_
      intro e seg
      entry_cases e <;> simp [EntryEnc]
      intro h; exact absurd h hm
  case _ =>
    obtain rfl : t = 19 := UInt8.toNat_inj.mp ht
    split
    · rename_i hm
      refine (exact_one _).congr ?_
      intro e seg
      entry_cases e <;> simp [EntryEnc]
      intro _; exact hm
    · rename_i hm
      refine (unexpectedTag_exact _ _).congr ?_
      intro e seg
      entry_cases e <;> simp [EntryEnc]
      intro h; exact absurd h hm
  case _ =>
    obtain rfl : t = 20 := UInt8.toNat_inj.mp ht
    split
    · rename_i hm
      refine (exact_one _).congr ?_
      intro e seg
      entry_cases e <;> simp [EntryEnc]
      intro _; exact hm
    · rename_i hm
      refine (unexpectedTag_exact _ _).congr ?_
      intro e seg
      entry_cases e <;> simp [EntryEnc]
      intro h; exact absurd h hm
  case _ =>
    refine (unexpectedTag_exact _ _).congr ?_
    intro e seg
    simp only [false_iff]
    intro h
    entry_cases e <;> simp [EntryEnc] at h <;> first | (simp_all; done) | (obtain ⟨n, b, -, -, rfl, -⟩ := h; simp_all; done) | (obtain ⟨n, -, -, rfl, -⟩ := h; simp_all; done)

/-! ## The loop -/

/-- Counter discipline of the loop started at `c`. -/
def CountFrom (checks : Bool) (count : UInt16) : UInt16 → List Entry → Prop
  | c, [] => ¬ c < count
  | c, e :: es => c < count ∧ (checks = true → c.toNat + (slots e).length < 65536) ∧
      CountFrom checks count (c + UInt16.ofNat (slots e).length) es

theorem slots_length (e : Entry) : 1 ≤ (slots e).length ∧ (slots e).length ≤ 2 := by
  cases e <;> simp [slots]

theorem incrU16_ok (checks : Bool) (x y : UInt16) :
    incrU16 checks x = .ok y ↔ y = x + 1 ∧ (checks = true → x.toNat + 1 < 65536) := by
  unfold incrU16
  have := x.toNat_lt
  have key : (x = 0xFFFF) ↔ x.toNat = 65535 := by
    rw [← UInt16.toNat_inj]; rfl
  split
  · rename_i h
    simp only [Bool.and_eq_true, beq_iff_eq, key] at h
    simp only [reduceCtorEq, false_iff]
    rintro ⟨-, h2⟩
    have := h2 h.1
    omega
  · rename_i h
    simp only [Bool.and_eq_true, beq_iff_eq, key] at h
    simp only [Res.ok.injEq]
    constructor
    · rintro rfl; exact ⟨rfl, fun hc => by have : ¬ x.toNat = 65535 := fun h' => h ⟨hc, h'⟩
                                           omega⟩
    · rintro ⟨rfl, -⟩; rfl

theorem entryEnc_tag {decode : Bytes → Option Str} {major : UInt16} {e : Entry} {t : UInt8} {seg : Bytes}
    (h : EntryEnc decode major e (t :: seg)) : slots e = if t == 5 || t == 6 then [e, .unused] else [e] := by
  entry_cases e <;> simp [EntryEnc] at h <;>
    first
      | (obtain ⟨rfl, -⟩ := h; rfl)
      | (obtain ⟨-, rfl, -⟩ := h; rfl)
      | (obtain ⟨n, b, -, -, rfl, -⟩ := h; rfl)
      | (obtain ⟨n, -, -, rfl, -⟩ := h; rfl)

theorem entryEnc_ne_nil {decode : Bytes → Option Str} {major : UInt16} {e : Entry} :
    ¬ EntryEnc decode major e [] := by
  entry_cases e <;> simp [EntryEnc]

theorem Exact.diverge {α : Type} : Exact 0 (P.diverge : P α) (fun _ _ => False) := by
  intro bytes ix h1 h2 a ix'
  simp [P.diverge]

theorem constantPoolLoop_exact (env : Env) (major count : UInt16) : ∀ (fuel : Nat) (c : UInt16),
    Exact fuel (constantPoolLoop env major count fuel c) (fun out seg => ∃ es, CountFrom env.overflowChecks count c es ∧
      out = es.flatMap slots ∧ seq (EntryEnc env.decode major) es seg)
  | 0, c => by
    intro bytes ix h1 h2 a ix'
    omega
  | fuel + 1, c => by
    unfold constantPoolLoop
    split
    · rename_i hc
      refine (Exact.bindK 1 (M := fuel) Exact.readU1 (by rintro a seg rfl; simp [u1]) (Nat.le_refl _) fun t =>
        Exact.bind (readConstant_exact env major t) fun e => Exact.bind (Exact.lift _) fun c1 =>
        Exact.ite (fun _ => Exact.bind (Exact.lift _) fun c2 => exact_map (constantPoolLoop_exact env major count fuel c2) _)
          (fun _ => exact_map (constantPoolLoop_exact env major count fuel c1) _)).congr ?_
      intro out seg
      constructor
      · rintro ⟨t, s, s1, rfl, rfl, e, s2, s3, rfl, he, c1, s4, s5, rfl, ⟨hc1, rfl⟩, h⟩
        rw [incrU16_ok] at hc1
        obtain ⟨rfl, hck⟩ := hc1
        have htag := entryEnc_tag he
        split at h
        · rename_i ht
          rw [if_pos ht] at htag
          obtain ⟨c2, s6, s7, rfl, ⟨hc2, rfl⟩, a, rfl, es, hcf, rfl, hs⟩ := h
          rw [incrU16_ok] at hc2
          obtain ⟨rfl, hck2⟩ := hc2
          refine ⟨e :: es, ⟨hc, fun hk => ?_, ?_⟩, by simp [htag], t :: s2, s7, by simp [u1], he, hs⟩
          · have h1 := hck hk; have h2 := hck2 hk
            rw [UInt16.toNat_add] at h2
            have : (1 : UInt16).toNat = 1 := rfl
            rw [htag]; show c.toNat + 2 < _
            omega
          · rw [htag]
            show CountFrom _ _ (c + 2) es
            rwa [UInt16.add_assoc] at hcf
        · rename_i ht
          rw [if_neg ht] at htag
          obtain ⟨a, rfl, es, hcf, rfl, hs⟩ := h
          refine ⟨e :: es, ⟨hc, fun hk => ?_, ?_⟩, by simp [htag], t :: s2, s5, by simp [u1], he, hs⟩
          · rw [htag]; exact hck hk
          · rw [htag]; exact hcf
      · rintro ⟨es, hcf, rfl, hs⟩
        cases es with
        | nil => exact absurd hc hcf
        | cons e es =>
          obtain ⟨-, hck, hcf⟩ := hcf
          obtain ⟨s, s', rfl, he, hs⟩ := hs
          cases s with
          | nil => exact absurd he entryEnc_ne_nil
          | cons t s =>
            have htag := entryEnc_tag he
            refine ⟨t, [t], s ++ s', rfl, rfl, e, s, s', rfl, he, c + 1, [], s', rfl, ⟨?_, rfl⟩, ?_⟩
            · rw [incrU16_ok]
              refine ⟨rfl, fun hk => ?_⟩
              have := hck hk
              have := slots_length e
              omega
            · split
              · rename_i ht
                rw [if_pos ht] at htag
                rw [htag] at hcf hck
                refine ⟨c + 1 + 1, [], s', rfl, ⟨?_, rfl⟩, es.flatMap slots, by simp [htag], es, ?_, rfl, hs⟩
                · rw [incrU16_ok]
                  refine ⟨rfl, fun hk => ?_⟩
                  have h1 : c.toNat + 2 < _ := hck hk
                  rw [UInt16.toNat_add]
                  have : (1 : UInt16).toNat = 1 := rfl
                  omega
                · rw [UInt16.add_assoc]
                  exact hcf
              · rename_i ht
                rw [if_neg ht] at htag
                rw [htag] at hcf
                exact ⟨es.flatMap slots, by simp [htag], es, hcf, rfl, hs⟩
    · rename_i hc
      refine (Exact.pure []).congr ?_
      intro out seg
      constructor
      · rintro ⟨rfl, rfl⟩
        exact ⟨[], hc, rfl, rfl⟩
      · rintro ⟨es, hcf, rfl, hs⟩
        cases es with
        | nil => exact ⟨rfl, hs⟩
        | cons e es => exact absurd hcf.1 hc

theorem countFrom_iff (checks : Bool) (count : UInt16) : ∀ (es : List Entry) (c : UInt16) (n : Nat), c.toNat = n % 65536 →
    (checks = true → n < 65536) →
    (CountFrom checks count c es ↔ (∀ k, k < es.length → (n + ((es.take k).flatMap slots).length) % 65536 < count.toNat) ∧
      count.toNat ≤ (n + (es.flatMap slots).length) % 65536 ∧ (checks = true → n + (es.flatMap slots).length < 65536))
  | [], c, n, hn, hck => by
    have : c < count ↔ c.toNat < count.toNat := Iff.rfl
    simp only [CountFrom, List.length_nil, Nat.not_lt_zero, false_imp_iff, implies_true, List.flatMap_nil, Nat.add_zero, true_and,
      this, hn]
    constructor
    · intro h; exact ⟨by omega, hck⟩
    · intro h; omega
  | e :: es, c, n, hn, hck => by
    have hlt : c < count ↔ c.toNat < count.toNat := Iff.rfl
    have hsl := slots_length e
    have hcn := c.toNat_lt
    have hnext : (c + UInt16.ofNat (slots e).length).toNat = (n + (slots e).length) % 65536 := by
      rw [UInt16.toNat_add, UInt16.toNat_ofNat', hn]; omega
    simp only [CountFrom, hlt]
    constructor
    · rintro ⟨h1, h2, h3⟩
      have hc' : checks = true → n + (slots e).length < 65536 := fun hk => by
        have := h2 hk; have := hck hk; omega
      rw [countFrom_iff checks count es _ _ hnext hc'] at h3
      obtain ⟨h3, h4, h5⟩ := h3
      refine ⟨fun k hk => ?_, ?_, ?_⟩
      · cases k with
        | zero => simp; omega
        | succ k =>
          have := h3 k (by simpa using hk)
          simp only [List.take_succ_cons, List.flatMap_cons, List.length_append]
          rw [← Nat.add_assoc]; exact this
      · simp only [List.flatMap_cons, List.length_append]; rw [← Nat.add_assoc]; exact h4
      · simp only [List.flatMap_cons, List.length_append]; rw [← Nat.add_assoc]; exact h5
    · rintro ⟨h3, h4, h5⟩
      simp only [List.flatMap_cons, List.length_append] at h4 h5
      have hc' : checks = true → n + (slots e).length < 65536 := fun hk => by
        have := h5 hk; omega
      refine ⟨?_, fun hk => ?_, ?_⟩
      · have := h3 0 (by simp); simp at this; omega
      · have := hc' hk; have := hck hk; omega
      · rw [countFrom_iff checks count es _ _ hnext hc']
        refine ⟨fun k hk => ?_, ?_, ?_⟩
        · have := h3 (k + 1) (by simpa using hk)
          simp only [List.take_succ_cons, List.flatMap_cons, List.length_append] at this
          rw [Nat.add_assoc]; exact this
        · rw [Nat.add_assoc]; exact h4
        · rw [Nat.add_assoc]; exact h5

theorem readRawPool_exact {N : Nat} (env : Env) (major : UInt16) :
    Exact N (readRawPool env major) (RawPoolEnc env.decode env.overflowChecks major) := by
  unfold readRawPool
  refine (Exact.bind Exact.readU2 fun count => exact_map (F := fun out seg => ∃ es, CountOK env.overflowChecks count es ∧
      out = es.flatMap slots ∧ seq (EntryEnc env.decode major) es seg) ?_ _).congr ?_
  · intro bytes ix h1 h2 a ix'
    rw [constantPoolLoop_exact env major count (bytes.length + 1) 1 bytes ix h1 (by omega)]
    have hc : ∀ es, CountFrom env.overflowChecks count 1 es ↔ CountOK env.overflowChecks count es := by
      intro es
      rw [countFrom_iff _ _ es 1 1 rfl (by omega)]
      rfl
    simp only [hc]
  · intro pool seg
    constructor
    · rintro ⟨count, s, t, rfl, rfl, a, rfl, es, h1, rfl, h2⟩
      exact ⟨count, es, t, h1, rfl, rfl, h2⟩
    · rintro ⟨count, es, body, h1, rfl, rfl, h2⟩
      exact ⟨count, _, body, rfl, rfl, _, rfl, es, h1, rfl, h2⟩

end Cafebabe
