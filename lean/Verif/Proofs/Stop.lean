import Verif.Proofs.Chain
import Verif.Proofs.TameAttr
/-!
# Proofs: how parsing a whole class file can stop
-/

namespace Cafebabe
open Spec

/-! ## Linking -/

theorem ref_resolve_ok {x y : CPRef} {i : Nat} {pool : Pool} : x.resolve i pool = .ok y ↔
    y = link x ∧ ∀ j : UInt16, x = .unresolved j → j.toNat < pool.length ∧ j.toNat ≠ i := by
  constructor
  · intro h
    refine ⟨CPRef.resolve_link h, ?_⟩
    rintro j rfl
    unfold CPRef.resolve at h
    simp only at h
    split at h
    · cases h
    · split at h
      · cases h
      · exact ⟨by omega, by assumption⟩
  · rintro ⟨rfl, h⟩
    cases x with
    | resolved t => rfl
    | unresolved j =>
      have := h j rfl
      unfold CPRef.resolve
      simp only
      rw [if_neg this.2, if_neg (by omega)]
      rfl

theorem entry_resolve_ok {e f : Entry} {i : Nat} {pool : Pool} : e.resolve i pool = .ok f ↔
    f = linkEntry e ∧ ∀ j : UInt16, .unresolved j ∈ refsOf e → j.toNat < pool.length ∧ j.toNat ≠ i := by
  cases e <;> simp only [Entry.resolve, Res.bind_ok, ref_resolve_ok, Res.ok.injEq, refsOf, linkEntry, List.mem_cons, List.not_mem_nil,
    or_false, false_imp_iff, implies_true, and_true]
  all_goals first
    | exact eq_comm
    | (constructor
       · rintro ⟨_, ⟨rfl, h1⟩, _, ⟨rfl, h2⟩, rfl⟩
         exact ⟨rfl, fun j hj => hj.elim (fun h => h1 j h.symm) fun h => h2 j h.symm⟩
       · rintro ⟨rfl, h⟩
         exact ⟨_, ⟨rfl, fun j hj => h j (.inl hj.symm)⟩, _, ⟨rfl, fun j hj => h j (.inr hj.symm)⟩, rfl⟩)
    | (constructor
       · rintro ⟨_, ⟨rfl, h1⟩, rfl⟩
         exact ⟨rfl, fun j hj => h1 j hj.symm⟩
       · rintro ⟨rfl, h⟩
         exact ⟨_, ⟨rfl, fun j hj => h j hj.symm⟩, rfl⟩)

theorem resolveFrom_ok {pool : Pool} : ∀ {es : List Entry} {i : Nat} {q : Pool}, resolveFrom pool i es = .ok q ↔
    q = es.map linkEntry ∧ ∀ (k : Nat) (e : Entry), es[k]? = some e → ∀ j : UInt16, .unresolved j ∈ refsOf e →
      j.toNat < pool.length ∧ j.toNat ≠ i + k
  | [], i, q => by simp [resolveFrom, eq_comm]
  | e :: es, i, q => by
    unfold resolveFrom
    simp only [Res.bind_ok, entry_resolve_ok, resolveFrom_ok (es := es), Res.ok.injEq]
    constructor
    · rintro ⟨_, ⟨rfl, h1⟩, _, ⟨rfl, h2⟩, rfl⟩
      refine ⟨rfl, fun k f hk j hj => ?_⟩
      cases k with
      | zero => simp at hk; subst hk; exact h1 j hj
      | succ k =>
        have := h2 k f (by simpa using hk) j hj
        exact ⟨this.1, by omega⟩
    · rintro ⟨rfl, h⟩
      refine ⟨_, ⟨rfl, fun j hj => h 0 e rfl j hj⟩, _, ⟨rfl, fun k f hk j hj => ?_⟩, rfl⟩
      have := h (k + 1) f (by simpa using hk) j hj
      exact ⟨this.1, by omega⟩

/-- The linking step succeeds exactly when every raw index is in range and no entry refers to itself. -/
theorem resolveConstantPool_ok {raw q : Pool} : resolveConstantPool raw = .ok q ↔ q = raw.map linkEntry ∧ RefsInRange raw := by
  unfold resolveConstantPool
  rw [resolveFrom_ok]
  simp only [Nat.zero_add]
  rfl

theorem enc_refs {decode : Bytes → Option Str} {major : UInt16} {e : Entry} {seg : Bytes} (h : EntryEnc decode major e seg) :
    ∀ x ∈ refsOf e, ∃ j, x = .unresolved j := by
  entry_cases e <;> simp [EntryEnc] at h <;> simp [refsOf]

theorem enc_len {decode : Bytes → Option Str} {major : UInt16} {e : Entry} {seg : Bytes} (h : EntryEnc decode major e seg) :
    (slots e).length ≤ seg.length := by
  entry_cases e <;> simp [EntryEnc] at h <;> first
    | (obtain ⟨n, b, -, -, rfl⟩ := h; simp [slots]; done)
    | (obtain ⟨n, -, -, rfl⟩ := h; simp [slots]; done)
    | (subst h; simp [slots, u8])

theorem seq_enc_mem {decode : Bytes → Option Str} {major : UInt16} : ∀ {es : List Entry} {seg : Bytes},
    seq (EntryEnc decode major) es seg → (∀ e ∈ es, ∃ s, EntryEnc decode major e s) ∧ (es.flatMap slots).length ≤ seg.length
  | [], _, _ => ⟨fun e he => (by cases he), by simp⟩
  | e :: es, _, ⟨s, t, rfl, hs, ht⟩ => by
    have ih := seq_enc_mem ht
    have := enc_len hs
    refine ⟨fun f hf => ?_, by rw [List.flatMap_cons, List.length_append, List.length_append]; omega⟩
    rcases List.mem_cons.mp hf with rfl | hf
    · exact ⟨s, hs⟩
    · exact ih.1 f hf

theorem slots_mem {e f : Entry} (h : f ∈ slots e) : f = e ∨ f = .unused := by
  cases e <;> simp [slots] at h <;> first | exact .inl h | (rcases h with h | h <;> simp [h])

theorem raw_facts {decode : Bytes → Option Str} {checks : Bool} {major : UInt16} {raw : Pool} {seg : Bytes}
    (h : RawPoolEnc decode checks major raw seg) :
    (∀ e ∈ raw, ∀ x ∈ refsOf e, ∃ j, x = .unresolved j) ∧ raw.length < seg.length := by
  obtain ⟨count, es, body, -, rfl, rfl, hs⟩ := h
  obtain ⟨h1, h2⟩ := seq_enc_mem hs
  refine ⟨fun e he x hx => ?_, by simp [u2] at *; omega⟩
  rcases List.mem_cons.mp he with rfl | he
  · cases hx
  · obtain ⟨f, hf, he⟩ := List.mem_flatMap.mp he
    rcases slots_mem he with rfl | rfl
    · obtain ⟨s, hs⟩ := h1 _ hf
      exact enc_refs hs x hx
    · cases hx

theorem refsOf_linkEntry (e : Entry) : refsOf (linkEntry e) = (refsOf e).map link := by cases e <;> rfl

theorem linked_of_range {raw : Pool} (hu : ∀ e ∈ raw, ∀ x ∈ refsOf e, ∃ j, x = .unresolved j) (h : RefsInRange raw) :
    Linked (raw.map linkEntry) := by
  intro i e hi x hx
  rw [List.getElem?_map] at hi
  obtain ⟨f, hf, rfl⟩ := Option.map_eq_some_iff.mp hi
  rw [refsOf_linkEntry] at hx
  obtain ⟨y, hy, rfl⟩ := List.mem_map.mp hx
  obtain ⟨j, rfl⟩ := hu f (List.mem_of_getElem? hf) y hy
  exact ⟨j.toNat, rfl, by rw [List.length_map]; exact (h i f hf j hy).1⟩

/-! ## Reading the pool -/

theorem incrU16_calm {A : PanicKind → Prop} {checks : Bool} (hA : checks = true → A .overflow) (x : UInt16) : Calm A (incrU16 checks x) := by
  unfold incrU16
  refine Calm.ite (fun h => Calm.panic (hA ?_)) fun _ => Calm.ok
  simp at h
  exact h.1

theorem readConstant_tame {N : Nat} {A : PanicKind → Prop} (env : Env) (major : UInt16) (t : UInt8) : Tame N A 0 (readConstant env major t) := by
  have hu : Tame N A 2 readUnresolvedCpRef := Tame.seqK (m := 0) Tame.readU2 fun _ => Tame.pure _
  have h0 := hu.zero
  have hbad : Tame N A 0 (unexpectedTag t major) := Tame.getIx fun _ => Tame.fail
  have h8 : Tame N A 0 readU8 := Tame.readU8.zero
  unfold readConstant
  split
  · unfold readConstantUtf8; tame; split <;> tame
  · unfold readConstantInteger; tame
  · unfold readConstantFloat; tame
  · unfold readConstantLong; tame
  · unfold readConstantDouble; tame
  · unfold readConstantClass; tame
  · unfold readConstantString; tame
  · unfold readConstantFieldref; tame
  · unfold readConstantMethodref; tame
  · unfold readConstantInterfacemethodref; tame
  · unfold readConstantNameandtype; tame
  · refine Tame.ite (fun _ => ?_) fun _ => hbad
    unfold readConstantMethodhandle; tame; split <;> tame
  · refine Tame.ite (fun _ => ?_) fun _ => hbad
    unfold readConstantMethodtype; tame
  · refine Tame.ite (fun _ => ?_) fun _ => hbad
    unfold readConstantDynamic; tame
  · refine Tame.ite (fun _ => ?_) fun _ => hbad
    unfold readConstantInvokedynamic; tame
  · refine Tame.ite (fun _ => ?_) fun _ => hbad
    unfold readConstantModule; tame
  · refine Tame.ite (fun _ => ?_) fun _ => hbad
    unfold readConstantPackage; tame
  · exact hbad

theorem constantPoolLoop_tame {A : PanicKind → Prop} (env : Env) (hA : env.overflowChecks = true → A .overflow) (major count : UInt16) :
    ∀ (fuel : Nat) (c : UInt16), Tame fuel A 0 (constantPoolLoop env major count fuel c)
  | 0, _ => Tame.diverge
  | fuel + 1, c => by
    unfold constantPoolLoop
    refine Tame.ite (fun _ => ?_) fun _ => Tame.pure _
    refine (Tame.bindK (M := fuel) (m := 0) (by omega) Tame.readU1 fun t => ?_).zero
    refine Tame.seq (m := 0) (readConstant_tame env major t) fun e => ?_
    refine Tame.seq (m := 0) (Tame.lift (incrU16_calm hA c)) fun c => ?_
    refine Tame.ite (fun _ => ?_) fun _ => ?_
    · refine Tame.seq (m := 0) (Tame.lift (incrU16_calm hA c)) fun c => ?_
      exact Tame.seq (m := 0) (constantPoolLoop_tame env hA major count fuel c) fun _ => Tame.pure _
    · exact Tame.seq (m := 0) (constantPoolLoop_tame env hA major count fuel c) fun _ => Tame.pure _

/-- In a checked build the loop panics exactly when the slot counter overflows. -/
theorem constantPoolLoop_panic (env : Env) (hck : env.overflowChecks = true) (major count : UInt16) : ∀ (fuel : Nat) (c : UInt16)
    (bytes : Bytes) (ix : Nat), ix ≤ bytes.length → bytes.length < ix + fuel → ∀ k,
    (constantPoolLoop env major count fuel c bytes ix = .panic k ↔ k = .overflow ∧ ∃ es body rest, bytes.drop ix = body ++ rest ∧
      seq (EntryEnc env.decode major) es body ∧ (∀ k, k < es.length → c.toNat + ((es.take k).flatMap slots).length < count.toNat) ∧
      65536 ≤ c.toNat + (es.flatMap slots).length)
  | 0, c, bytes, ix, h1, h2, k => by omega
  | fuel + 1, c, bytes, ix, h1, h2, k => by
    have hc := c.toNat_lt
    unfold constantPoolLoop
    by_cases hlt : c < count
    swap
    · rw [if_neg hlt]
      constructor
      · intro h; cases h
      · rintro ⟨-, es, body, rest, -, hs, h3, h4⟩
        cases es with
        | nil => simp at h4; omega
        | cons e es => have := h3 0 (by simp); simp at this; exact absurd this hlt
    have hlt' : c.toNat < count.toNat := hlt
    have hcount := count.toNat_lt
    rw [if_pos hlt]
    have hinc : ∀ x : UInt16, x.toNat < 65535 → incrU16 env.overflowChecks x = .ok (x + 1) := fun x hx =>
      (incrU16_ok _ _ _).mpr ⟨rfl, fun _ => by omega⟩
    have hex1 := (Exact.readU1 (N := fuel + 1)) bytes ix h1 h2
    have ht1 := (Tame.readU1 (N := fuel + 1) (A := fun _ => False)) bytes ix h1
    -- what the body of the loop does once the constant is read
    have step : ∀ (t : UInt8) (e : Entry) (s r : Bytes), bytes.drop ix = (t :: s) ++ r → EntryEnc env.decode major e (t :: s) →
        ((∃ es body rest, bytes.drop ix = body ++ rest ∧ seq (EntryEnc env.decode major) es body ∧
          (∀ k, k < es.length → c.toNat + ((es.take k).flatMap slots).length < count.toNat) ∧ 65536 ≤ c.toNat + (es.flatMap slots).length) ↔
        (65536 ≤ c.toNat + (slots e).length ∨ (c.toNat + (slots e).length < 65536 ∧ ∃ es body rest, r = body ++ rest ∧
          seq (EntryEnc env.decode major) es body ∧
          (∀ k, k < es.length → c.toNat + (slots e).length + ((es.take k).flatMap slots).length < count.toNat) ∧
          65536 ≤ c.toNat + (slots e).length + (es.flatMap slots).length))) := by
      intro t e s r hd he
      constructor
      · rintro ⟨es, body, rest, hd', hs, h3, h4⟩
        cases es with
        | nil => simp at h4; omega
        | cons e' es =>
          obtain ⟨s', body', rfl, hs', hs2⟩ := hs
          obtain ⟨t', s', rfl⟩ : ∃ t' s'', s' = t' :: s'' := by
            cases s' with
            | nil => exact absurd hs' entryEnc_ne_nil
            | cons a b => exact ⟨a, b, rfl⟩
          rw [hd] at hd'
          simp only [List.cons_append, List.cons.injEq] at hd'
          obtain ⟨rfl, hd'⟩ := hd'
          have hx := readConstant_exact (N := (s ++ r).length + 1) env major t (s ++ r) 0 (Nat.zero_le _) (by omega)
          have e1 := (hx e s.length).mpr ⟨s, r, rfl, he, by omega⟩
          have e2 := (hx e' s'.length).mpr ⟨s', body' ++ rest, by simp [hd'], hs', by omega⟩
          rw [e1, Res.ok.injEq, Prod.mk.injEq] at e2
          obtain ⟨rfl, hl⟩ := e2
          have hrr : r = body' ++ rest := by
            rw [List.append_assoc] at hd'
            exact (List.append_inj hd' hl).2
          simp only [List.flatMap_cons, List.length_append] at h4
          by_cases hb : 65536 ≤ c.toNat + (slots e).length
          · exact .inl hb
          · refine .inr ⟨by omega, es, body', rest, hrr, hs2, fun k hk => ?_, by omega⟩
            have := h3 (k + 1) (by simpa using hk)
            simp only [List.take_succ_cons, List.flatMap_cons, List.length_append] at this
            omega
      · rintro (hb | ⟨hb, es, body, rest, rfl, hs, h3, h4⟩)
        · refine ⟨[e], t :: s, r, hd, ⟨t :: s, [], by simp, he, rfl⟩, fun k hk => ?_, by simpa using hb⟩
          have : k = 0 := by simp at hk; exact hk
          subst this; simpa using hlt'
        · refine ⟨e :: es, (t :: s) ++ body, rest, by rw [hd]; simp, ⟨_, _, rfl, he, hs⟩, fun k hk => ?_, ?_⟩
          · cases k with
            | zero => simpa using hlt'
            | succ k =>
              have := h3 k (by simpa using hk)
              simp only [List.take_succ_cons, List.flatMap_cons, List.length_append]
              omega
          · simp only [List.flatMap_cons, List.length_append]; omega
    have noRead : (∀ t e s r, bytes.drop ix = (t :: s) ++ r → ¬ EntryEnc env.decode major e (t :: s)) →
        ¬ ∃ es body rest, bytes.drop ix = body ++ rest ∧ seq (EntryEnc env.decode major) es body ∧
          (∀ k, k < es.length → c.toNat + ((es.take k).flatMap slots).length < count.toNat) ∧ 65536 ≤ c.toNat + (es.flatMap slots).length := by
      rintro hno ⟨es, body, rest, hd', hs, h3, h4⟩
      cases es with
      | nil => simp at h4; omega
      | cons e' es =>
        obtain ⟨s', body', rfl, hs', hs2⟩ := hs
        cases s' with
        | nil => exact absurd hs' entryEnc_ne_nil
        | cons a b => exact hno a e' b (body' ++ rest) (by rw [hd']; simp) hs'
    show P.bind _ _ bytes ix = _ ↔ _
    unfold P.bind
    unfold TameAt at ht1
    cases hr1 : readU1 bytes ix with
    | panic x => rw [hr1] at ht1; exact ht1.elim
    | diverge => rw [hr1] at ht1; simp only at ht1; omega
    | err x =>
      refine ⟨fun h => (by cases h), fun h => absurd h.2 (noRead fun t e s r hd _ => ?_)⟩
      have := (hex1 t (ix + 1)).mpr ⟨[t], s ++ r, by rw [hd]; rfl, rfl, rfl⟩
      rw [hr1] at this
      cases this
    | ok a =>
      obtain ⟨t, ix1⟩ := a
      obtain ⟨seg1, rest1, hd1, hseg1, rfl⟩ := (hex1 t ix1).mp hr1
      obtain rfl : seg1 = [t] := hseg1
      have hl1 := length_of_drop_eq h1 hd1
      have hd1' : bytes.drop (ix + 1) = rest1 := drop_of_drop_eq hd1
      simp only [List.length_cons, List.length_nil, Nat.zero_add] at hl1 ⊢
      have hex2 := readConstant_exact (N := fuel) env major t bytes (ix + 1) (by omega) (by omega)
      have ht2 := readConstant_tame (N := fuel) (A := fun _ => False) env major t bytes (ix + 1) (by omega)
      unfold TameAt at ht2
      show P.bind _ _ bytes (ix + 1) = _ ↔ _
      unfold P.bind
      cases hr2 : readConstant env major t bytes (ix + 1) with
      | panic x => rw [hr2] at ht2; exact ht2.elim
      | diverge => rw [hr2] at ht2; simp only at ht2; omega
      | err x =>
        refine ⟨fun h => (by cases h), fun h => absurd h.2 (noRead fun t' e s r hd he => ?_)⟩
        rw [hd1] at hd
        simp only [List.cons_append, List.cons.injEq, List.nil_append] at hd
        obtain ⟨rfl, hd⟩ := hd
        have := (hex2 e _).mpr ⟨s, r, by rw [hd1', hd], he, rfl⟩
        rw [hr2] at this
        cases this
      | ok a =>
        obtain ⟨e, ix2⟩ := a
        obtain ⟨s, r, hd2, he, rfl⟩ := (hex2 e ix2).mp hr2
        have hl2 := length_of_drop_eq (by omega) hd2
        have hd2' := drop_of_drop_eq hd2
        have hst := step t e s r (by rw [hd1, ← hd1', hd2]; rfl) he
        rw [hst]
        have hsl := entryEnc_tag he
        simp only
        show P.bind (P.lift _) _ bytes _ = _ ↔ _
        unfold P.bind P.lift
        rw [hinc c (by omega)]
        simp only
        have hc1 : (c + 1).toNat = c.toNat + 1 := by rw [UInt16.toNat_add]; simp; omega
        have tail : ∀ (c' : UInt16) (f : List Entry → List Entry), c'.toNat = c.toNat + (slots e).length →
            ((constantPoolLoop env major count fuel c' >>= fun rest => (pure (f rest) : P (List Entry))) bytes (ix + 1 + s.length) = .panic k ↔
              k = .overflow ∧ (65536 ≤ c.toNat + (slots e).length ∨ (c.toNat + (slots e).length < 65536 ∧ ∃ es body rest, r = body ++ rest ∧
          seq (EntryEnc env.decode major) es body ∧
          (∀ k, k < es.length → c.toNat + (slots e).length + ((es.take k).flatMap slots).length < count.toNat) ∧
          65536 ≤ c.toNat + (slots e).length + (es.flatMap slots).length))) := by
          intro c' f hc'
          have hc'' := c'.toNat_lt
          have ih := constantPoolLoop_panic env hck major count fuel c' bytes (ix + 1 + s.length) (by omega) (by omega) k
          rw [hd2', hc'] at ih
          have hp : ((constantPoolLoop env major count fuel c' >>= fun rest => (pure (f rest) : P (List Entry))) bytes (ix + 1 + s.length) = .panic k ↔
              constantPoolLoop env major count fuel c' bytes (ix + 1 + s.length) = .panic k) := by
            show P.bind _ _ bytes _ = _ ↔ _
            unfold P.bind
            cases constantPoolLoop env major count fuel c' bytes (ix + 1 + s.length) with
            | ok a => exact ⟨fun h => (by cases h), fun h => (by cases h)⟩
            | err _ => exact Iff.rfl.trans ⟨fun h => (by cases h), fun h => (by cases h)⟩
            | panic x => exact ⟨fun h => (by cases h; rfl), fun h => (by cases h; rfl)⟩
            | diverge => exact ⟨fun h => (by cases h), fun h => (by cases h)⟩
          rw [hp, ih]
          constructor
          · rintro ⟨rfl, h⟩; exact ⟨rfl, .inr ⟨by omega, h⟩⟩
          · rintro ⟨rfl, h | ⟨-, h⟩⟩
            · omega
            · exact ⟨rfl, h⟩
        by_cases ht : (t == 5 || t == 6) = true
        · rw [if_pos ht]
          rw [if_pos ht] at hsl
          have hlen : (slots e).length = 2 := by rw [hsl]; rfl
          show P.bind (P.lift _) _ bytes _ = _ ↔ _
          unfold P.bind P.lift
          by_cases h65 : c.toNat = 65534
          · have : incrU16 env.overflowChecks (c + 1) = .panic .overflow := by
              unfold incrU16
              have hff : c + 1 = 0xFFFF := UInt16.toNat_inj.mp (by rw [hc1, h65]; rfl)
              rw [hck, hff]; rfl
            rw [this]
            simp only
            constructor
            · intro h; cases h; exact ⟨rfl, .inl (by omega)⟩
            · rintro ⟨rfl, -⟩; rfl
          · rw [hinc (c + 1) (by omega)]
            simp only
            refine tail (c + 1 + 1) (fun rest => e :: .unused :: rest) ?_
            rw [UInt16.toNat_add, hc1, hlen]; simp; omega
        · rw [if_neg ht]
          rw [if_neg ht] at hsl
          have hlen : (slots e).length = 1 := by rw [hsl]; rfl
          exact tail (c + 1) (fun rest => e :: rest) (by rw [hc1, hlen])

theorem readRawPool_tame {N : Nat} {A : PanicKind → Prop} (env : Env) (hA : env.overflowChecks = true → A .overflow) (major : UInt16) :
    Tame N A 2 (readRawPool env major) := by
  unfold readRawPool
  refine Tame.seqK (m := 0) Tame.readU2 fun count => Tame.seq (k := 0) (m := 0) ?_ fun _ => Tame.pure _
  intro bytes ix hix
  have := constantPoolLoop_tame env hA major count (bytes.length + 1) 1 bytes ix hix
  unfold TameAt at this ⊢
  simp only
  cases hp : constantPoolLoop env major count (bytes.length + 1) 1 bytes ix with
  | ok a => obtain ⟨a, ix'⟩ := a; rw [hp] at this; exact this
  | err e => trivial
  | panic x => rw [hp] at this; exact this
  | diverge => rw [hp] at this; simp only at this; omega

/-- The constants from index `ix` make the slot counter overflow. -/
def OverflowAt (decode : Bytes → Option Str) (major : UInt16) (bytes : Bytes) (ix : Nat) : Prop :=
  ∃ (count : UInt16) (es : List Entry) (body rest : Bytes), bytes.drop ix = u2 count ++ body ++ rest ∧
    seq (EntryEnc decode major) es body ∧ (∀ k, k < es.length → slotCount (es.take k) < count.toNat) ∧ 65536 ≤ slotCount es

/-- In a checked build reading the raw pool panics exactly when the slot counter overflows. -/
theorem readRawPool_panic (env : Env) (hck : env.overflowChecks = true) (major : UInt16) {bytes : Bytes} {ix : Nat} (hix : ix ≤ bytes.length)
    (k : PanicKind) : readRawPool env major bytes ix = .panic k ↔ k = .overflow ∧ OverflowAt env.decode major bytes ix := by
  have hex := (Exact.readU2 (N := bytes.length + 1)) bytes ix hix (by omega)
  have ht := (Tame.readU2 (N := bytes.length + 1) (A := fun _ => False)) bytes ix hix
  unfold TameAt at ht
  unfold readRawPool
  show P.bind _ _ bytes ix = _ ↔ _
  unfold P.bind
  cases hr : readU2 bytes ix with
  | panic x => rw [hr] at ht; exact ht.elim
  | diverge => rw [hr] at ht; simp only at ht; omega
  | err x =>
    refine ⟨fun h => (by cases h), ?_⟩
    rintro ⟨-, count, es, body, rest, hd, -⟩
    have := (hex count (ix + 2)).mpr ⟨u2 count, body ++ rest, by rw [hd, List.append_assoc], rfl, rfl⟩
    rw [hr] at this
    cases this
  | ok a =>
    obtain ⟨count, ix1⟩ := a
    obtain ⟨seg, rest, hd, hseg, rfl⟩ := (hex count ix1).mp hr
    obtain rfl : seg = u2 count := hseg
    have hl := length_of_drop_eq hix hd
    have hd' := drop_of_drop_eq hd
    have hloop := constantPoolLoop_panic env hck major count (bytes.length + 1) 1 bytes (ix + (u2 count).length) (by omega) (by omega) k
    have e1 : OverflowAt env.decode major bytes ix ↔ ∃ es body rest', bytes.drop (ix + (u2 count).length) = body ++ rest' ∧
        seq (EntryEnc env.decode major) es body ∧ (∀ k, k < es.length → (1 : UInt16).toNat + ((es.take k).flatMap slots).length < count.toNat) ∧
        65536 ≤ (1 : UInt16).toNat + (es.flatMap slots).length := by
      rw [hd']
      constructor
      · rintro ⟨count', es, body, rest', hd2, h⟩
        rw [hd, List.append_assoc] at hd2
        have h2 := List.append_inj hd2 rfl
        have := (hex count' (ix + 2)).mpr ⟨u2 count', body ++ rest', by rw [hd, hd2], rfl, rfl⟩
        rw [hr, Res.ok.injEq, Prod.mk.injEq] at this
        obtain ⟨rfl, -⟩ := this
        exact ⟨es, body, rest', h2.2, h⟩
      · rintro ⟨es, body, rest', rfl, h⟩
        exact ⟨count, es, body, rest', by rw [hd, List.append_assoc], h⟩
    rw [e1, ← hloop]
    simp only
    show P.bind _ _ bytes _ = _ ↔ _
    unfold P.bind
    simp only
    cases constantPoolLoop env major count (bytes.length + 1) 1 bytes (ix + (u2 count).length) with
    | ok a => exact ⟨fun h => (by cases h), fun h => (by cases h)⟩
    | err _ => exact ⟨fun h => (by cases h), fun h => (by cases h)⟩
    | panic x => exact ⟨fun h => (by cases h; rfl), fun h => (by cases h; rfl)⟩
    | diverge => exact ⟨fun h => (by cases h), fun h => (by cases h)⟩

theorem readConstantPool_stop (env : Env) (h2 : 2 ≤ env.depth) (major : UInt16) {bytes : Bytes} {ix : Nat} (hix : ix ≤ bytes.length)
    (hb : bytes.length < ix + env.depth) :
    (∀ k, readConstantPool env major bytes ix = .panic k ↔
      k = .overflow ∧ env.overflowChecks = true ∧ OverflowAt env.decode major bytes ix) ∧
    (readConstantPool env major bytes ix = .diverge ↔ ∃ raw seg rest, bytes.drop ix = seg ++ rest ∧
      RawPoolEnc env.decode env.overflowChecks major raw seg ∧ RefsInRange raw ∧ PoolStuck major (raw.map linkEntry)) := by
  have hraw := readRawPool_tame (N := env.depth) (A := fun k => k = .overflow ∧ env.overflowChecks = true) env (fun h => ⟨rfl, h⟩) major bytes ix hix
  have hex := readRawPool_exact env major bytes ix hix hb
  have none : ∀ r, readRawPool env major bytes ix = r → (∀ a i, r ≠ .ok (a, i)) →
      ¬ ∃ raw seg rest, bytes.drop ix = seg ++ rest ∧
      RawPoolEnc env.decode env.overflowChecks major raw seg ∧ RefsInRange raw ∧ PoolStuck major (raw.map linkEntry) := by
    rintro r hr hne ⟨raw, seg, rest, h1, h2, -⟩
    have := (hex raw (ix + seg.length)).mpr ⟨seg, rest, h1, h2, rfl⟩
    rw [hr] at this
    exact hne _ _ this
  have hpan : ∀ k, readRawPool env major bytes ix = .panic k ↔
      k = .overflow ∧ env.overflowChecks = true ∧ OverflowAt env.decode major bytes ix := by
    intro k
    by_cases hck : env.overflowChecks = true
    · rw [readRawPool_panic env hck major hix k]; simp [hck]
    · constructor
      · intro h; unfold TameAt at hraw; rw [h] at hraw; exact absurd hraw.2 hck
      · rintro ⟨-, h, -⟩; exact absurd h hck
  have noPan : (∀ k, readRawPool env major bytes ix ≠ .panic k) → ∀ k : PanicKind, ¬ (k = .overflow ∧ env.overflowChecks = true ∧ OverflowAt env.decode major bytes ix) :=
    fun h k hk => h k ((hpan k).mpr hk)
  unfold readConstantPool
  unfold TameAt at hraw
  show (∀ k, P.bind _ _ bytes ix = _ ↔ _) ∧ (P.bind _ _ bytes ix = _ ↔ _)
  unfold P.bind
  cases hr : readRawPool env major bytes ix with
  | err e =>
    exact ⟨fun k => ⟨fun h => (by cases h), fun h => absurd h (noPan (by simp [hr]) k)⟩, fun h => (by cases h), fun h => absurd h (none _ hr (by simp))⟩
  | panic k =>
    refine ⟨fun k' => ?_, fun h => (by cases h), fun h => absurd h (none _ hr (by simp))⟩
    rw [← hpan k', hr]
  | diverge => rw [hr] at hraw; simp only at hraw; omega
  | ok a =>
    obtain ⟨raw, ix1⟩ := a
    obtain ⟨seg, rest, hd, henc, rfl⟩ := (hex raw ix1).mp hr
    have hlen := length_of_drop_eq hix hd
    obtain ⟨hu, hrl⟩ := raw_facts henc
    have huniq : (∃ raw seg rest, bytes.drop ix = seg ++ rest ∧
        RawPoolEnc env.decode env.overflowChecks major raw seg ∧ RefsInRange raw ∧ PoolStuck major (raw.map linkEntry)) ↔
        RefsInRange raw ∧ PoolStuck major (raw.map linkEntry) := by
      constructor
      · rintro ⟨raw', seg', rest', h1, h2, h3⟩
        have := (hex raw' (ix + seg'.length)).mpr ⟨seg', rest', h1, h2, rfl⟩
        rw [hr] at this
        rw [Res.ok.injEq, Prod.mk.injEq] at this
        rw [this.1]
        exact h3
      · rintro h
        exact ⟨raw, seg, rest, hd, henc, h⟩
    rw [huniq]
    have hnp := noPan (by simp [hr])
    simp only
    show (∀ k, P.bind (P.lift _) _ bytes _ = _ ↔ _) ∧ (P.bind (P.lift _) _ bytes _ = _ ↔ _)
    unfold P.bind P.lift
    cases hq : resolveConstantPool raw with
    | ok q =>
      obtain ⟨rfl, hrange⟩ := resolveConstantPool_ok.mp hq
      have ho := validateConstantPool_outcome (linked_of_range hu hrange) (d := env.depth) (by rw [List.length_map]; omega) h2 major
      simp only
      show (∀ k, P.bind (P.lift _) _ bytes _ = _ ↔ _) ∧ (P.bind (P.lift _) _ bytes _ = _ ↔ _)
      unfold P.bind P.lift
      generalize validateConstantPool env.depth (raw.map linkEntry) major = r at ho
      cases r with
      | ok u =>
        refine ⟨fun k => ⟨fun h => (by cases h), fun h => absurd h (hnp k)⟩, fun h => (by cases h), fun h => ?_⟩
        have := ho.diverge.mpr h.2
        cases this
      | err e =>
        refine ⟨fun k => ⟨fun h => (by cases h), fun h => absurd h (hnp k)⟩, fun h => (by cases h), fun h => ?_⟩
        have := ho.diverge.mpr h.2
        cases this
      | panic k => exact absurd rfl (ho.nopanic k)
      | diverge => exact ⟨fun k => ⟨fun h => (by cases h), fun h => absurd h (hnp k)⟩, fun _ => ⟨hrange, ho.diverge.mp rfl⟩, fun _ => rfl⟩
    | err e =>
      refine ⟨fun k => ⟨fun h => (by cases h), fun h => absurd h (hnp k)⟩, fun h => (by cases h), fun h => ?_⟩
      rw [resolveConstantPool_ok.mpr ⟨rfl, h.1⟩] at hq
      cases hq
    | panic k => exact ((resolveFrom_calm (A := fun _ => False) raw raw 0).1 k hq).elim
    | diverge => exact ((resolveFrom_calm (A := fun _ => False) raw raw 0).2 hq).elim

/-! ## The rest of the class file -/

section
variable {N : Nat} {A : PanicKind → Prop} {major : UInt16} {pool : Pool} (hok : PoolOK major pool)

theorem tryFrom_calm (s : Str) : Calm A (ClassName.tryFrom s) :=
  (tryFrom_decides s).calm

include hok in
theorem readClassName_tame : Tame N A 0 (readClassName pool) :=
  Tame.seq (readCpClassinfo_tame hok) fun s => Tame.lift (tryFrom_calm s)

include hok in
theorem readClassNameOpt_tame : Tame N A 0 (readClassNameOpt pool) := by
  refine Tame.seq (m := 0) (readCpClassinfoOpt_tame hok) fun s => ?_
  cases s with
  | none => exact Tame.pure _
  | some s => exact Tame.seq (Tame.lift (tryFrom_calm s)) fun _ => Tame.pure _

theorem countBootstrap_calm (x : UInt16) : ∀ (n : Nat) (as : List AttributeInfo), Calm A (countBootstrapMethods x n as)
  | _, [] => Calm.ok
  | n, a :: as => by
    unfold countBootstrapMethods
    split
    · exact Calm.ite (fun _ => Calm.fail) fun _ => countBootstrap_calm x _ as
    · exact countBootstrap_calm x _ as

theorem checkBootstrapIndex_calm (x : UInt16) (as : List AttributeInfo) : Calm A (checkBootstrapIndex x as) :=
  Calm.bind (countBootstrap_calm x 0 as) fun _ _ => Calm.ite (fun _ => Calm.fail) fun _ => Calm.ok

theorem validateBootstrapMethods_calm (as : List AttributeInfo) : ∀ pool : Pool, Calm A (validateBootstrapMethods pool as)
  | [] => Calm.ok
  | e :: pool => by
    unfold validateBootstrapMethods
    split
    · exact Calm.bind (checkBootstrapIndex_calm _ as) fun _ _ => validateBootstrapMethods_calm as pool
    · exact Calm.bind (checkBootstrapIndex_calm _ as) fun _ _ => validateBootstrapMethods_calm as pool
    · exact validateBootstrapMethods_calm as pool

theorem checkModuleFlags_tame (a b : UInt16) : Tame N A 0 (checkModuleFlags a b) := by
  unfold checkModuleFlags; tame

theorem checkAtEnd_tame : Tame N A 0 checkAtEnd := by
  intro bytes ix hix
  unfold TameAt checkAtEnd
  split <;> rename_i h <;> split at h <;> cases h
  · exact ⟨Nat.le_refl _, hix⟩
  · trivial

theorem checkModuleEmpty_tame (a : UInt16) (s : Option ClassName) (i : List ClassName) (f : List FieldInfo) (m : List MethodInfo) :
    Tame N A 0 (checkModuleEmpty a s i f m) := by
  unfold checkModuleEmpty
  refine Tame.ite (fun _ => ?_) fun _ => Tame.pure _
  split <;> tame

variable {env : Env} (hattr : Tame N A 0 (readAttributes env pool env.depth))
include hattr

theorem readFieldsFrom_tame : ∀ (n : Nat) (seen : List (Str × FieldDescriptor)) (i : Nat), Tame N A 0 (readFieldsFrom env pool seen i n)
  | 0, _, _ => Tame.pure _
  | n + 1, seen, i => by
    refine Tame.seq (k := 0) (m := 0) ?_ fun f => Tame.seq (readFieldsFrom_tame n _ _) fun _ => Tame.pure _
    unfold readField; tame

theorem readMethodsFrom_tame (ii : Bool) (major : UInt16) : ∀ (n : Nat) (seen : List (Str × MethodDescriptor)) (i : Nat),
    Tame N A 0 (readMethodsFrom env pool ii major seen i n)
  | 0, _, _ => Tame.pure _
  | n + 1, seen, i => by
    refine Tame.seq (k := 0) (m := 0) ?_ fun f => Tame.seq (readMethodsFrom_tame ii major n _ _) fun _ => Tame.pure _
    unfold readMethod; dsimp only; tame

end

/-! ## The whole class file -/

/-- What a panic of the parser on `bytes` means. -/
def PanicCause (env : Env) (bytes : Bytes) (k : PanicKind) : Prop :=
  (k = .overflow ∧ env.overflowChecks = true ∧
    (CounterOverflow env.opts bytes ∨ (env.parseBytecode = true ∧ StartsWithPool env.opts bytes fun _ => True))) ∨
  (k = .nonUtf8 ∧ StartsWithPool env.opts bytes fun pool => Entry.utf8 "EnclosingMethod".toList ∈ pool ∧ BadDescriptor pool)

/-- Everything before the pool. -/
def readHeader : P (UInt16 × UInt16) := do
  let magic ← readU4
  P.failIf (magic != 0xCAFEBABE) "Unexpected magic header"
  let minorVersion ← readU2
  let majorVersion ← readU2
  pure (minorVersion, majorVersion)

/-- Everything after the pool. -/
def readBody (env : Env) (minorVersion majorVersion : UInt16) (constantPool : Pool) : P ClassFile := do
  let bits ← readU2
  let accessFlags := fromBitsTruncate classMask bits
  checkModuleFlags accessFlags majorVersion
  let thisClass ← (readClassName constantPool).mapErr "this_class"
  let superClass ← (readClassNameOpt constantPool).mapErr "super_class"
  let interfaces ← readInterfaces constantPool
  let fields ← readFields env constantPool
  let methods ← readMethods env constantPool (flagsContains16 accessFlags AccessFlags.INTERFACE) majorVersion
  let attributes ← (readAttributes env constantPool env.depth).mapErr "class"
  checkAtEnd
  checkModuleEmpty accessFlags superClass interfaces fields methods
  P.lift (validateBootstrapMethods constantPool attributes)
  pure { majorVersion := majorVersion, minorVersion := minorVersion, constantPool := constantPool,
         accessFlags := accessFlags, thisClass := thisClass, superClass := superClass, interfaces := interfaces,
         fields := fields, methods := methods, attributes := attributes }

theorem P.bind_assoc' {α β γ : Type} (p : P α) (f : α → P β) (g : β → P γ) : ((p >>= f) >>= g) = (p >>= fun a => f a >>= g) := by
  funext bytes ix
  show P.bind (P.bind p f) g bytes ix = P.bind p _ bytes ix
  unfold P.bind
  cases p bytes ix <;> rfl

theorem readClassFile_eq (env : Env) : readClassFile env =
    (readHeader >>= fun v => readConstantPool env v.2 >>= fun pool => readBody env v.1 v.2 pool) := by
  unfold readHeader
  simp only [P.bind_assoc']
  rfl

theorem readHeader_exact {N : Nat} : Exact N readHeader (fun v seg => seg = [0xCA, 0xFE, 0xBA, 0xBE] ++ u2 v.1 ++ u2 v.2) := by
  have h : readHeader = ((readU4 >>= fun magic => P.failIf (magic != 0xCAFEBABE) "Unexpected magic header") >>= fun _ =>
      readU2 >>= fun minor => readU2 >>= fun major => (pure (minor, major) : P _)) := by
    unfold readHeader
    rw [P.bind_assoc']
  rw [h]
  refine (Exact.bind (magic_exact _) fun _ => Exact.bind Exact.readU2 fun minor => exact_map Exact.readU2 fun major => (minor, major)).congr ?_
  rintro ⟨minor, major⟩ seg
  constructor
  · rintro ⟨_, s, t, rfl, rfl, m, s, t, rfl, rfl, m', h, rfl⟩
    cases h
    rw [List.append_assoc]
  · rintro rfl
    exact ⟨(), _, _, List.append_assoc _ _ _, rfl, minor, _, _, rfl, rfl, major, rfl, rfl⟩

theorem readHeader_tame {N : Nat} {A : PanicKind → Prop} : Tame N A 0 readHeader := by
  unfold readHeader; tame

theorem readBody_tame {A : PanicKind → Prop} {env : Env} {major : UInt16} {pool : Pool} (hok : PoolOK major pool)
    (hov : env.overflowChecks = true → env.parseBytecode = true → A .overflow)
    (hA : Entry.utf8 "EnclosingMethod".toList ∈ pool → BadDescriptor pool → A .nonUtf8) (minor : UInt16) :
    Tame env.depth A 0 (readBody env minor major pool) := by
  have hattr := readAttributes_tame hok hov hA env.depth
  have h1 : Tame env.depth A 0 (readClassName pool) := readClassName_tame hok
  have h2 : Tame env.depth A 0 (readClassNameOpt pool) := readClassNameOpt_tame hok
  have h3 : Tame env.depth A 0 (readInterfaces pool) := (Tame.readTable2 (k := 0) (Nat.le_add_right _ _) fun i => h1.mapErr _).zero
  have h4 : Tame env.depth A 0 (readFields env pool) := Tame.seq Tame.readU2 fun c => readFieldsFrom_tame hattr _ _ _
  have h5 : ∀ b, Tame env.depth A 0 (readMethods env pool b major) := fun b => Tame.seq Tame.readU2 fun c => readMethodsFrom_tame hattr _ _ _ _ _
  unfold readBody
  dsimp only
  refine Tame.seq (m := 0) Tame.readU2 fun bits => Tame.seq (m := 0) (checkModuleFlags_tame _ _) fun _ => Tame.seq (m := 0) (h1.mapErr _) fun _ =>
    Tame.seq (m := 0) (h2.mapErr _) fun _ => Tame.seq (m := 0) h3 fun _ => Tame.seq (m := 0) h4 fun _ => Tame.seq (m := 0) (h5 _) fun _ =>
    Tame.seq (m := 0) (hattr.mapErr _) fun _ => Tame.seq (m := 0) checkAtEnd_tame fun _ => Tame.seq (m := 0) (checkModuleEmpty_tame _ _ _ _ _) fun _ =>
    Tame.seq (m := 0) (Tame.lift (validateBootstrapMethods_calm _ _)) fun _ => Tame.pure _

theorem header_split {bytes seg rest : Bytes} {minor major : UInt16}
    (h : bytes.drop 8 = seg ++ rest) (h' : bytes.drop 0 = [0xCA, 0xFE, 0xBA, 0xBE] ++ u2 minor ++ u2 major ++ bytes.drop 8) :
    bytes = header minor major ++ seg ++ rest := by
  rw [List.drop_zero, h] at h'
  rw [h']
  simp [header]

/-- A checked build panics when the slot counter overflows. -/
theorem parse_counter_overflow (env : Env) (bytes : Bytes) (h2 : 2 ≤ env.depth) (hb : bytes.length < env.depth) (hck : env.overflowChecks = true)
    (h : CounterOverflow env.opts bytes) : parseClassWithOptions env bytes = .panic .overflow := by
  obtain ⟨minor, major, count, es, body, rest, hbytes, h⟩ := h
  have hh := (readHeader_exact (N := env.depth) bytes 0 (Nat.zero_le _) (by omega) (minor, major) 8).mpr
    ⟨_, u2 count ++ body ++ rest, by rw [List.drop_zero, hbytes]; simp [header], rfl, rfl⟩
  have hlen : bytes.length = 8 + (u2 count ++ body ++ rest).length := by rw [hbytes]; simp [header, u2_length]; omega
  have hd : bytes.drop 8 = u2 count ++ body ++ rest := by
    rw [hbytes, List.append_assoc, List.append_assoc, ← List.append_assoc (u2 count)]
    rfl
  have hp := ((readConstantPool_stop env h2 major (bytes := bytes) (ix := 8) (by omega) (by omega)).1 .overflow).mpr
    ⟨rfl, hck, count, es, body, rest, hd, h⟩
  have : readClassFile env bytes 0 = .panic .overflow := by
    rw [readClassFile_eq]
    show P.bind _ _ bytes 0 = _
    unfold P.bind
    rw [hh]
    show P.bind _ _ bytes 8 = _
    unfold P.bind
    simp only
    rw [hp]
  unfold parseClassWithOptions
  rw [this]
  rfl

/-- The only ways `parse_class_with_options` stops without a result or an error. -/
theorem parse_stop (env : Env) (bytes : Bytes) (h2 : 2 ≤ env.depth) (hb : bytes.length < env.depth) :
    (∀ k, parseClassWithOptions env bytes = .panic k → PanicCause env bytes k) ∧
      (parseClassWithOptions env bytes = .diverge ↔ StuckInput env.opts bytes) := by
  have key : (∀ k, readClassFile env bytes 0 = .panic k → PanicCause env bytes k) ∧
      (readClassFile env bytes 0 = .diverge ↔ StuckInput env.opts bytes) := by
    rw [readClassFile_eq]
    have hh := readHeader_exact (N := env.depth) bytes 0 (Nat.zero_le _) (by omega)
    have ht := readHeader_tame (N := env.depth) (A := fun _ => False) bytes 0 (Nat.zero_le _)
    unfold TameAt at ht
    have noStuck : (∀ v i, readHeader bytes 0 ≠ .ok (v, i)) → ¬ StuckInput env.opts bytes := by
      rintro h ⟨minor, major, raw, seg, rest, hbytes, -⟩
      refine h (minor, major) 8 ((hh _ _).mpr ⟨_, seg ++ rest, ?_, rfl, rfl⟩)
      rw [List.drop_zero]
      rw [hbytes]
      simp [header]
    show (∀ k, P.bind _ _ bytes 0 = _ → _) ∧ (P.bind _ _ bytes 0 = _ ↔ _)
    unfold P.bind
    cases hr : readHeader bytes 0 with
    | err e => exact ⟨fun k h => (by cases h), fun h => (by cases h), fun h => absurd h (noStuck (by simp [hr]))⟩
    | panic k => rw [hr] at ht; exact ht.elim
    | diverge => rw [hr] at ht; simp only at ht; omega
    | ok a =>
      obtain ⟨⟨minor, major⟩, ix⟩ := a
      obtain ⟨hseg, hrest, hd, rfl, hix⟩ := (hh _ _).mp hr
      have hix8 : ix = 8 := hix
      subst hix8
      have hlen := length_of_drop_eq (Nat.zero_le _) hd
      have h8 : bytes.length = 8 + hrest.length := by rw [← hlen]; simp [u2_length]
      have hdrop : bytes.drop 8 = hrest := by
        rw [List.drop_zero] at hd
        rw [hd]
        rfl
      have hd' : bytes.drop 0 = [0xCA, 0xFE, 0xBA, 0xBE] ++ u2 minor ++ u2 major ++ bytes.drop 8 := by rw [hdrop]; exact hd
      have hstuck : StuckInput env.opts bytes ↔ ∃ raw seg rest, bytes.drop 8 = seg ++ rest ∧
          RawPoolEnc env.decode env.overflowChecks major raw seg ∧ RefsInRange raw ∧ PoolStuck major (raw.map linkEntry) := by
        constructor
        · rintro ⟨minor', major', raw, seg, rest, hbytes, h⟩
          have hrun := (hh (minor', major') 8).mpr ⟨_, seg ++ rest, by rw [List.drop_zero, hbytes]; simp [header], rfl, rfl⟩
          rw [hr, Res.ok.injEq, Prod.mk.injEq, Prod.mk.injEq] at hrun
          refine ⟨raw, seg, rest, ?_, by rw [hrun.1.2]; exact h⟩
          rw [hbytes, List.append_assoc _ seg]
          rfl
        · rintro ⟨raw, seg, rest, h, h'⟩
          exact ⟨minor, major, raw, seg, rest, header_split h hd', h'⟩
      rw [hstuck]
      obtain ⟨hp, hdv⟩ := readConstantPool_stop env h2 major (bytes := bytes) (ix := 8) (by omega) (by omega)
      simp only
      show (∀ k, P.bind _ _ bytes 8 = _ → _) ∧ (P.bind _ _ bytes 8 = _ ↔ _)
      rw [← hdv]
      unfold P.bind
      cases hc : readConstantPool env major bytes 8 with
      | err e => exact ⟨fun k h => (by cases h), fun h => (by cases h), fun h => (by cases h)⟩
      | panic k =>
        refine ⟨fun k' h => ?_, fun h => (by cases h), fun h => (by cases h)⟩
        cases h
        obtain ⟨rfl, hck, count, es, body, rest, hd3, h⟩ := (hp k).mp hc
        refine .inl ⟨rfl, hck, .inl ⟨minor, major, count, es, body, rest, ?_, h⟩⟩
        rw [List.append_assoc] at hd3
        rw [header_split hd3 hd']
        simp
      | diverge => exact ⟨fun k h => (by cases h), fun _ => rfl, fun _ => rfl⟩
      | ok a =>
        obtain ⟨pool, ix2⟩ := a
        obtain ⟨seg, rest, hseg2, henc, rfl⟩ := (readConstantPool_exact env h2 major bytes 8 (by omega) (by omega : bytes.length < 8 + env.depth) pool ix2).mp hc
        have hok : PoolOK major pool := by obtain ⟨raw, -, -, h⟩ := henc; exact h
        have hl2 := length_of_drop_eq (by omega) hseg2
        have hbody := readBody_tame (A := PanicCause env bytes) (env := env) hok (fun h hp => .inl ⟨rfl, h, .inr ⟨hp, minor, major, pool, seg, rest, header_split hseg2 hd', henc, trivial⟩⟩)
          (fun h h' => .inr ⟨rfl, minor, major, pool, seg, rest, header_split hseg2 hd', henc, h, h'⟩) minor bytes (8 + seg.length) (by omega)
        unfold TameAt at hbody
        simp only
        cases hx : readBody env minor major pool bytes (8 + seg.length) with
        | ok a => exact ⟨fun k h => (by cases h), fun h => (by cases h), fun h => (by cases h)⟩
        | err e => exact ⟨fun k h => (by cases h), fun h => (by cases h), fun h => (by cases h)⟩
        | panic k =>
          rw [hx] at hbody
          refine ⟨fun k' h => ?_, fun h => (by cases h), fun h => (by cases h)⟩
          cases h
          exact hbody
        | diverge => rw [hx] at hbody; simp only at hbody; omega
  unfold parseClassWithOptions
  cases hr : readClassFile env bytes 0 with
  | ok a => rw [hr] at key; exact ⟨fun k h => (by cases h), fun h => (by cases h), fun h => (by have := key.2.mpr h; cases this)⟩
  | err e => rw [hr] at key; exact ⟨fun k h => (by cases h), fun h => (by cases h), fun h => (by have := key.2.mpr h; cases this)⟩
  | panic k =>
    rw [hr] at key
    refine ⟨fun k' h => ?_, fun h => (by cases h), fun h => (by have := key.2.mpr h; cases this)⟩
    cases h
    exact key.1 k rfl
  | diverge => rw [hr] at key; exact ⟨fun k h => (by cases h), fun _ => key.2.mp rfl, fun _ => rfl⟩

end Cafebabe
