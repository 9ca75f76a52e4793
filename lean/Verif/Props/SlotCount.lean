import Mathlib.Data.Nat.Find
import Verif.Props.Whole
/-!
# Properties: C08, number of constant-pool slots and the overflow of the slot counter
-/

namespace Cafebabe
open Spec Examples

theorem slotCount_append (a b : List Entry) : slotCount (a ++ b) = slotCount a + (b.flatMap slots).length := by
  simp [slotCount, List.flatMap_append]; omega

theorem slotCount_take_succ {es : List Entry} {k : Nat} (h : k < es.length) :
    slotCount (es.take (k + 1)) = slotCount (es.take k) + (slots es[k]).length := by
  rw [List.take_add_one, List.getElem?_eq_getElem h, slotCount_append]
  simp

theorem seq_take {α : Type} {F : α → Lang} : ∀ {es : List α} {seg : Bytes} (k : Nat), seq F es seg →
    ∃ s t, seg = s ++ t ∧ seq F (es.take k) s
  | [], seg, _, h => ⟨seg, [], by simp, by simpa using h⟩
  | _ :: _, seg, 0, _ => ⟨[], seg, rfl, rfl⟩
  | e :: es, _, k + 1, ⟨s, t, rfl, hs, ht⟩ => by
    obtain ⟨a, b, rfl, h⟩ := seq_take k ht
    exact ⟨s ++ a, b, by simp, s, a, rfl, hs, h⟩

/-- The first prefix that overflows, if the whole does. -/
theorem first_overflow (es : List Entry) (h : 65536 ≤ slotCount es) :
    ∃ k, k ≤ es.length ∧ 65536 ≤ slotCount (es.take k) ∧ ∀ j, j < k → slotCount (es.take j) < 65536 := by
  have hex : ∃ k, 65536 ≤ slotCount (es.take k) := ⟨es.length, by rwa [List.take_length]⟩
  refine ⟨Nat.find hex, ?_, Nat.find_spec hex, fun j hj => ?_⟩
  · exact Nat.find_min' hex (by rwa [List.take_length])
  · have := Nat.find_min hex hj
    omega

/-- The slots in use, when the counter does not overflow. -/
theorem slots_of_count {count : UInt16} {es : List Entry} {checks : Bool} (hc : CountOK checks count es) (hn : slotCount es < 65536) :
    slotCount es = max 1 count.toNat ∨
      (slotCount es = count.toNat + 1 ∧ (Entry.zero :: es.flatMap slots)[count.toNat]? = some .unused) := by
  obtain ⟨h1, h2, -⟩ := hc
  rw [Nat.mod_eq_of_lt hn] at h2
  rcases List.eq_nil_or_concat es with rfl | ⟨es', e, rfl⟩
  · left; simp [slotCount] at h2 ⊢; omega
  · have hlt := h1 es'.length (by simp)
    rw [List.concat_eq_append, List.take_left] at hlt
    rw [List.concat_eq_append] at h2 hn ⊢
    have hs := slotCount_append es' [e]
    simp only [List.flatMap_cons, List.flatMap_nil, List.append_nil] at hs
    have hl := slots_length e
    rw [Nat.mod_eq_of_lt (by omega)] at hlt
    have hpos : 1 ≤ slotCount es' := by simp [slotCount]
    by_cases hlen : slotCount (es' ++ [e]) = count.toNat
    · left; omega
    · right
      have h2len : (slots e).length = 2 := by omega
      refine ⟨by omega, ?_⟩
      have hsl : ∃ f, slots e = [f, .unused] := by
        cases e <;> simp [slots] at h2len ⊢
      obtain ⟨f, hf⟩ := hsl
      have hcount : count.toNat = (es'.flatMap slots).length + 2 := by
        simp only [slotCount] at *; omega
      rw [hcount, List.flatMap_append, List.flatMap_cons, List.flatMap_nil, hf, List.getElem?_cons_succ, List.getElem?_append_right (by omega)]
      simp

/-- What CountOK says of the pool an accepted input has. -/
theorem enc_pool {o : Opts} {bytes : Bytes} {cf : ClassFile} (h : ClassFileEnc o cf bytes) :
    ∃ (count : UInt16) (es : List Entry) (body rest : Bytes),
      bytes = header cf.minorVersion cf.majorVersion ++ u2 count ++ body ++ rest ∧ CountOK o.checks count es ∧
      cf.constantPool = (.zero :: es.flatMap slots).map linkEntry ∧ seq (EntryEnc o.decode cf.majorVersion) es body ∧
      PoolOK cf.majorVersion cf.constantPool := by
  obtain ⟨-, s, t, rfl, rfl, s, t, rfl, rfl, s, t, rfl, rfl, s, t, rfl, ⟨raw, ⟨count, es, body, hc, rfl, rfl, hs⟩, hmap, hok⟩, -⟩ := h
  exact ⟨count, es, body, t, by simp [header], hc, hmap, hs, hok⟩

/-- Unless the slot counter overflows, the pool of an accepted file has exactly the declared number of slots (one if the declared count is
zero), or one more, namely the unusable second slot of a Long or Double in the last declared slot. -/
theorem C08_slots {o : Opts} {bytes : Bytes} {cf : ClassFile} (h : Accepts o bytes cf) (hn : ¬ CounterOverflow o bytes) :
    ∃ (count : UInt16) (rest : Bytes), bytes = header cf.minorVersion cf.majorVersion ++ u2 count ++ rest ∧
      (cf.constantPool.length = max 1 count.toNat ∨
        (cf.constantPool.length = count.toNat + 1 ∧ cf.constantPool[count.toNat]? = some .unused)) := by
  obtain ⟨count, es, body, rest, rfl, hc, hmap, hs, -⟩ := enc_pool (accepts_iff_enc.mp h)
  have hlt : slotCount es < 65536 := by
    by_contra hge
    obtain ⟨k, hk, h1, h2⟩ := first_overflow es (by omega)
    obtain ⟨s, t, rfl, hst⟩ := seq_take k hs
    refine hn ⟨cf.minorVersion, cf.majorVersion, count, es.take k, s, t ++ rest, by simp, hst, fun j hj => ?_, h1⟩
    rw [List.length_take] at hj
    have hj' : j < k := by omega
    have := hc.1 j (by omega)
    rw [List.take_take, Nat.min_eq_left (by omega)]
    rwa [Nat.mod_eq_of_lt (h2 j hj')] at this
  refine ⟨count, body ++ rest, by simp, ?_⟩
  have hlen : cf.constantPool.length = slotCount es := by rw [hmap]; simp [slotCount]; omega
  rw [hlen]
  rcases slots_of_count hc hlt with h | ⟨h, h'⟩
  · exact .inl h
  · refine .inr ⟨h, ?_⟩
    rw [hmap, List.getElem?_map, h']
    rfl

/-- The counter overflows exactly when the declared count is 65535 and a Long or Double starts in slot 65534. -/
theorem C08_overflow_shape {o : Opts} {bytes : Bytes} : CounterOverflow o bytes ↔
    ∃ (minor major : UInt16) (es : List Entry) (e : Entry) (body rest : Bytes),
      bytes = header minor major ++ u2 65535 ++ body ++ rest ∧ seq (EntryEnc o.decode major) (es ++ [e]) body ∧
      slotCount es = 65534 ∧ ((∃ v, e = .long v) ∨ ∃ v, e = .double v) := by
  constructor
  · rintro ⟨minor, major, count, es, body, rest, hb, hs, h1, h2⟩
    rcases List.eq_nil_or_concat es with rfl | ⟨es', e, rfl⟩
    · simp [slotCount] at h2
    · rw [List.concat_eq_append] at h1 h2 hs
      have hlt := h1 es'.length (by simp)
      rw [List.take_left] at hlt
      have hs2 := slotCount_append es' [e]
      simp only [List.flatMap_cons, List.flatMap_nil, List.append_nil] at hs2
      have hl := slots_length e
      have hcl := count.toNat_lt
      have hcount : count = 65535 := by
        rw [← UInt16.toNat_inj]
        show count.toNat = 65535
        omega
      subst hcount
      refine ⟨minor, major, es', e, body, rest, hb, hs, by omega, ?_⟩
      have : (slots e).length = 2 := by omega
      cases e <;> simp [slots] at this ⊢
  · rintro ⟨minor, major, es, e, body, rest, hb, hs, h1, h2⟩
    refine ⟨minor, major, 65535, es ++ [e], body, rest, hb, hs, fun k hk => ?_, ?_⟩
    · rw [List.length_append] at hk
      simp at hk
      rw [List.take_append_of_le_length (by omega)]
      have := slotCount_append (es.take k) (es.drop k)
      rw [List.take_append_drop] at this
      show _ < 65535
      omega
    · rw [slotCount_append, h1]
      rcases h2 with ⟨v, rfl⟩ | ⟨v, rfl⟩ <;> simp [slots]

/-- A build with overflow checks panics on such an input. -/
theorem C08_debug_panics {o : Opts} {bytes : Bytes} (ho : o.checks = true) (h : CounterOverflow o bytes) : Panics o bytes .overflow :=
  panics_counter ho h

/-- A build without overflow checks does not stop at the declared count: if it accepts such an input at all, it has read at least twice as
many slots as declared. -/
theorem C08_release_reads_on {o : Opts} {bytes : Bytes} {cf : ClassFile} (h : Accepts o bytes cf) (hov : CounterOverflow o bytes) :
    65536 + 65535 ≤ cf.constantPool.length := by
  obtain ⟨minor, major, es0, e0, body0, rest0, hb0, hs0, h10, h20⟩ := C08_overflow_shape.mp hov
  obtain ⟨minor', major', count', es1, body1, rest1, hb1, hs1⟩ := hov
  obtain ⟨count, es, body, rest, hb, hc, hmap, hs, -⟩ := enc_pool (accepts_iff_enc.mp h)
  have heads : ∀ {m1 m2 M1 M2 c1 c2 : UInt16} {x y : Bytes}, header m1 M1 ++ u2 c1 ++ x = header m2 M2 ++ u2 c2 ++ y → M1 = M2 ∧ c1 = c2 ∧ x = y := by
    intro m1 m2 M1 M2 c1 c2 x y h
    obtain ⟨h1, h2⟩ := List.append_inj h rfl
    obtain ⟨h3, h4⟩ := List.append_inj h1 rfl
    exact ⟨u2_inj (List.append_inj h3 rfl).2, u2_inj h4, h2⟩
  rw [List.append_assoc] at hb hb1 hb0
  obtain ⟨rfl, rfl, hx⟩ := heads (hb0.symm.trans hb1)
  obtain ⟨rfl, rfl, hx1⟩ := heads (hb.symm.trans hb1)
  have hge : 65536 ≤ slotCount es := by
    by_contra hlt
    have hc' : CountOK true 65535 es := ⟨hc.1, hc.2.1, fun _ => by omega⟩
    let env := envOf (o.withChecks true) 0
    let tail := u2 65535 ++ body ++ rest
    have e1 := (readRawPool_exact (N := tail.length + 1) env cf.majorVersion tail 0 (Nat.zero_le _) (by omega) _ (u2 65535 ++ body).length).mpr
      ⟨u2 65535 ++ body, rest, rfl, ⟨65535, es, body, hc', rfl, rfl, hs⟩, by simp⟩
    have e2 := (readRawPool_panic env rfl cf.majorVersion (bytes := tail) (Nat.zero_le _) .overflow).mpr
      ⟨rfl, 65535, es1, body1, rest1, by show u2 65535 ++ body ++ rest = _; rw [List.append_assoc, hx1, ← List.append_assoc], hs1⟩
    rw [e1] at e2
    cases e2
  have h2 := hc.2.1
  have hlen : cf.constantPool.length = slotCount es := by rw [hmap]; simp [slotCount]; omega
  rw [hlen]
  have : (65535 : UInt16).toNat = 65535 := rfl
  omega

/-! ### A file that shows it -/

/-- Two constants for the class name, `n` Integers, a Long, and `m` more Integers. -/
def overlong (n m : Nat) : List Entry :=
  [.utf8 ['A'], .classInfo (.unresolved 1)] ++ List.replicate n (.integer 0) ++ [.long 0] ++ List.replicate m (.integer 0)

/-- The encoding of the first part, up to and including the Long. -/
def overlongBody1 (n : Nat) : Bytes :=
  [1, 0, 1, 65] ++ [7, 0, 1] ++ (List.replicate n [3, 0, 0, 0, 0]).flatten ++ [5, 0, 0, 0, 0, 0, 0, 0, 0]

/-- The encoding of the second part. -/
def overlongBody2 (m : Nat) : Bytes := (List.replicate m [3, 0, 0, 0, 0]).flatten

/-- The class file, with declared count 65535. -/
def overlongFile (n m : Nat) : Bytes :=
  header 0 52 ++ u2 65535 ++ (overlongBody1 n ++ overlongBody2 m) ++ [0, 0x21, 0, 2, 0, 0, 0, 0, 0, 0, 0, 0, 0, 0]

theorem seq_append {α : Type} {F : α → Lang} : ∀ {a b : List α} {s t : Bytes}, seq F a s → seq F b t → seq F (a ++ b) (s ++ t)
  | [], _, _, _, h, h' => by obtain rfl := h; exact h'
  | x :: xs, _, _, _, ⟨s, s', rfl, hs, hs'⟩, h' => ⟨s, s' ++ _, by simp, hs, seq_append hs' h'⟩

theorem seq_replicate {α : Type} {F : α → Lang} {x : α} {s : Bytes} (h : F x s) : ∀ n, seq F (List.replicate n x) (List.replicate n s).flatten
  | 0 => rfl
  | n + 1 => ⟨s, (List.replicate n s).flatten, by rw [List.replicate_succ, List.flatten_cons], h, seq_replicate h n⟩

theorem zero_enc : EntryEnc ascii 52 (.integer 0) [3, 0, 0, 0, 0] := rfl

theorem overlong_enc1 (n : Nat) :
    seq (EntryEnc ascii 52) ([.utf8 ['A'], .classInfo (.unresolved 1)] ++ List.replicate n (.integer 0) ++ [.long 0]) (overlongBody1 n) := by
  refine seq_append (seq_append (s := [1, 0, 1, 65] ++ [7, 0, 1]) ?_ (seq_replicate zero_enc _)) ?_
  · refine ⟨[1, 0, 1, 65], [7, 0, 1], rfl, ⟨1, [65], rfl, rfl, rfl⟩, [7, 0, 1], [], rfl, rfl, rfl⟩
  · exact ⟨_, [], rfl, rfl, rfl⟩

theorem overlong_enc (n m : Nat) : seq (EntryEnc ascii 52) (overlong n m) (overlongBody1 n ++ overlongBody2 m) :=
  seq_append (overlong_enc1 n) (seq_replicate zero_enc _)

theorem flatMap_slots_integers (n : Nat) : (List.replicate n (Entry.integer 0)).flatMap slots = List.replicate n (Entry.integer 0) := by
  induction n with
  | zero => rfl
  | succ n ih => rw [List.replicate_succ, List.flatMap_cons, ih]; rfl

theorem overlong_slots (n m : Nat) : (overlong n m).flatMap slots =
    [.utf8 ['A'], .classInfo (.unresolved 1)] ++ List.replicate n (.integer 0) ++ [.long 0, .unused] ++ List.replicate m (.integer 0) := by
  unfold overlong
  simp only [List.flatMap_append, flatMap_slots_integers]
  rfl

theorem overlong_length (n m : Nat) : (overlong n m).length = n + 3 + m := by
  unfold overlong; simp; omega

theorem overlong_take (n m k : Nat) (hk : k ≤ n + 3 + m) :
    slotCount ((overlong n m).take k) = if k ≤ n + 2 then 1 + k else 2 + k := by
  unfold overlong
  by_cases h1 : k ≤ n + 2
  · rw [if_pos h1, List.append_assoc, List.take_append_of_le_length (by simp; omega)]
    rcases k with _ | _ | k
    · rfl
    · rfl
    · rw [List.take_append, show ([Entry.utf8 ['A'], .classInfo (.unresolved 1)]).length = 2 from rfl,
        List.take_of_length_le (by simp), List.take_replicate, slotCount_append, flatMap_slots_integers]
      simp [slotCount, slots]
      omega
  · rw [if_neg h1, List.take_append, List.take_of_length_le (by simp; omega), List.take_replicate, slotCount_append, slotCount_append,
      slotCount_append, flatMap_slots_integers, flatMap_slots_integers]
    simp [slotCount, slots]
    omega

theorem overlong_count {n m : Nat} (hn : n = 65531) (hm : m = 65535) : CountOK false 65535 (overlong n m) := by
  refine ⟨fun k hk => ?_, ?_, fun h => by cases h⟩
  · rw [overlong_length] at hk
    rw [overlong_take n m k (by omega)]
    show _ < 65535
    split <;> omega
  · have := overlong_take n m (n + 3 + m) (Nat.le_refl _)
    rw [List.take_of_length_le (by rw [overlong_length])] at this
    rw [this, if_neg (by omega)]
    show 65535 ≤ _
    omega

theorem overlong_mem {n m : Nat} {f : Entry} (hf : f ∈ Entry.zero :: (overlong n m).flatMap slots) :
    f = .zero ∨ f = .utf8 ['A'] ∨ f = .classInfo (.unresolved 1) ∨ f = .integer 0 ∨ f = .long 0 ∨ f = .unused := by
  rw [overlong_slots] at hf
  simp only [List.mem_cons, List.mem_append, List.mem_replicate, List.not_mem_nil] at hf
  rcases hf with rfl | (((rfl | rfl | hf) | ⟨-, rfl⟩) | rfl | rfl | hf) | ⟨-, rfl⟩ <;> first | exact hf.elim | simp

theorem overlong_pool {n m : Nat} (hn : n = 65531) (hm : m = 65535) :
    PoolEnc ascii false 52 ((.zero :: (overlong n m).flatMap slots).map linkEntry) (u2 65535 ++ (overlongBody1 n ++ overlongBody2 m)) := by
  refine ⟨_, ⟨65535, overlong n m, _, overlong_count hn hm, rfl, rfl, overlong_enc n m⟩, rfl, ?_⟩
  intro i e he
  obtain ⟨f, hf, rfl⟩ := List.mem_map.mp (List.mem_of_getElem? he)
  rcases overlong_mem hf with rfl | rfl | rfl | rfl | rfl | rfl
  · trivial
  · trivial
  · refine ⟨['A'], ?_, .inl ⟨[['A']], by simp, ?_, rfl⟩⟩
    · rw [overlong_slots]; rfl
    · intro g hg
      obtain rfl := List.mem_singleton.mp hg
      exact ⟨by simp, by decide⟩
  · trivial
  · trivial
  · trivial

theorem overlong_shape {n m : Nat} (hn : n = 65531) (c p : Bool) : CounterOverflow (opts c p) (overlongFile n m) := by
  refine C08_overflow_shape.mpr ⟨0, 52, [Entry.utf8 ['A'], Entry.classInfo (.unresolved 1)] ++ List.replicate n (Entry.integer 0), .long 0,
    overlongBody1 n, overlongBody2 m ++ [0, 0x21, 0, 2, 0, 0, 0, 0, 0, 0, 0, 0, 0, 0], ?_, overlong_enc1 n, ?_, .inl ⟨0, rfl⟩⟩
  · unfold overlongFile
    simp only [List.append_assoc]
  · rw [slotCount_append, flatMap_slots_integers]; simp [slotCount, slots]; omega

theorem overlong_accepted {n m : Nat} (hn : n = 65531) (hm : m = 65535) :
    ∃ cf, Accepts release (overlongFile n m) cf ∧ cf.constantPool.length = 131071 := by
  let pool : Pool := (.zero :: (overlong n m).flatMap slots).map linkEntry
  have hget : pool[2]? = some (.classInfo (.resolved 1)) := by
    show ((Entry.zero :: (overlong n m).flatMap slots).map linkEntry)[2]? = _
    rw [overlong_slots]; rfl
  have hget1 : pool[1]? = some (.utf8 ['A']) := by
    show ((Entry.zero :: (overlong n m).flatMap slots).map linkEntry)[1]? = _
    rw [overlong_slots]; rfl
  have hget0 : pool[0]? = some .zero := rfl
  refine ⟨{ majorVersion := 52, minorVersion := 0, constantPool := pool, accessFlags := 0x21, thisClass := ⟨['A']⟩, superClass := none,
            interfaces := [], fields := [], methods := [], attributes := [] }, accepts_iff_enc.mpr ?_, ?_⟩
  · refine ⟨⟨List.Pairwise.nil, List.Pairwise.nil, fun h => absurd (by decide : (0x21 : UInt16) &&& 0x8000 = 0) h, ?_⟩, ?_⟩
    · intro x r h
      exfalso
      have hno : ∀ e ∈ pool, e.getType ≠ EntryTypes.DYNAMIC ∧ e.getType ≠ EntryTypes.INVOKE_DYNAMIC := by
        intro e he
        obtain ⟨f, hf, rfl⟩ := List.mem_map.mp he
        rcases overlong_mem hf with rfl | rfl | rfl | rfl | rfl | rfl <;> exact ⟨by decide, by decide⟩
      rcases h with h | h
      · exact (hno _ h).1 rfl
      · exact (hno _ h).2 rfl
    · refine ⟨[0xCA, 0xFE, 0xBA, 0xBE], _, ?_, rfl, u2 0, _, rfl, rfl, u2 52, _, rfl, rfl, u2 65535 ++ (overlongBody1 n ++ overlongBody2 m),
        _, rfl, overlong_pool hn hm,
        u2 0x21, _, rfl, ⟨0x21, rfl, rfl⟩, u2 2, _, rfl, ⟨2, ⟨⟨1, hget, hget1⟩, [['A']], by simp, ?_, rfl⟩, rfl⟩, u2 0, _, rfl, ⟨0, hget0, rfl⟩,
        u2 0, _, rfl, ⟨0, rfl, u2 0, [], rfl, rfl, rfl⟩, u2 0, _, rfl, ⟨0, rfl, u2 0, [], rfl, rfl, rfl⟩,
        u2 0, _, rfl, ⟨0, rfl, u2 0, [], rfl, rfl, rfl⟩, ⟨0, rfl, u2 0, [], rfl, rfl, rfl⟩⟩
      · unfold overlongFile header
        simp only [List.append_assoc]
        rfl
      · intro g hg
        obtain rfl := List.mem_singleton.mp hg
        exact ⟨⟨by simp, by decide⟩, by decide⟩
  · show ((Entry.zero :: (overlong n m).flatMap slots).map linkEntry).length = _
    rw [overlong_slots]
    simp
    omega

/-- A concrete file: a build with overflow checks panics, a build without accepts it with 131071 slots although 65535 are declared. -/
theorem C08_witness : CounterOverflow release (overlongFile 65531 65535) ∧ Panics debug (overlongFile 65531 65535) .overflow ∧
    ∃ cf, Accepts release (overlongFile 65531 65535) cf ∧ cf.constantPool.length = 131071 :=
  ⟨overlong_shape rfl _ _, C08_debug_panics rfl (overlong_shape rfl _ _), overlong_accepted rfl rfl⟩

/-- The hypotheses of `C08_slots` are met by `rich`, whose pool has two-slot constants. -/
example : ∃ cf, Accepts debug rich cf ∧ ¬ CounterOverflow debug rich := by
  obtain ⟨cf, h⟩ := accepted rich_ok
  refine ⟨cf, h, fun hov => ?_⟩
  exact (C03_one_outcome debug rich).2.2.1 cf _ h (C08_debug_panics rfl hov)

end Cafebabe
