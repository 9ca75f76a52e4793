import Verif.Proofs.WorkTop
import Verif.Props.WorkProps
/-!
# C62 Work of parsing
-/

namespace Cafebabe
open Spec Examples Timed

/-- The steps of `parse_class_with_options` on these bytes, recursion budget `d`. -/
def parseSteps (o : Opts) (d : Nat) (bytes : Bytes) : Nat := (parseClassWithOptionsT (envOf o d) bytes).steps

/-- Counting steps changes no outcome. -/
theorem C62_same (o : Opts) (d : Nat) (bytes : Bytes) : (parseClassWithOptionsT (envOf o d) bytes).out = run o d bytes := parseClassWithOptionsT_out (envOf o d) bytes

theorem parseSteps_eq (o : Opts) (d : Nat) (bytes : Bytes) : parseSteps o d bytes = (readClassFileT (envOf o d) bytes 0).steps := by
  unfold parseSteps parseClassWithOptionsT
  rcases steps_bind (readClassFileT (envOf o d) bytes 0) (fun x => match x with | (cf, _) => free (.ok cf)) with ⟨a, -, e⟩ | ⟨-, e⟩
  · rw [e]; rfl
  · rw [e]

theorem run_readT {o : Opts} {d : Nat} {bytes : Bytes} (h : run o d bytes ≠ .diverge) : (readClassFileT (envOf o d) bytes 0).out ≠ .diverge := by
  intro hd
  rw [readClassFileT_out] at hd
  apply h
  rw [run_eq, hd]; rfl

/-- The texts of a pool as read are no longer than the input, if the decoder makes no more characters than it gets bytes. -/
theorem raw_texts {decode : Bytes → Option Str} (hs : ∀ b s, decode b = some s → s.length ≤ b.length) {checks : Bool} {major : UInt16} {raw : Pool} {seg : Bytes}
    (h : RawPoolEnc decode checks major raw seg) : TextsUpTo raw (min seg.length 65535) := by
  obtain ⟨count, es, body, -, rfl, rfl, hq⟩ := h
  intro s hmem
  have hm : Entry.utf8 s ∈ es := by
    rcases List.mem_cons.mp hmem with h | h
    · cases h
    · obtain ⟨e, he, h⟩ := List.mem_flatMap.mp h
      have : e = .utf8 s := by cases e <;> simp_all [slots]
      exact this ▸ he
  obtain ⟨sg, hinf, k, b, hk, hb, rfl⟩ : ∃ sg, sg <:+: body ∧ EntryEnc decode major (.utf8 s) sg := by
    clear hmem
    induction es generalizing body with
    | nil => cases hm
    | cons e es ih =>
      obtain ⟨x, y, rfl, hx, hy⟩ := hq
      rcases List.mem_cons.mp hm with rfl | hm
      · exact ⟨x, ⟨[], y, by simp⟩, hx⟩
      · obtain ⟨sg, hi, he⟩ := ih _ hy hm
        exact ⟨sg, hi.trans ⟨x, [], by simp⟩, he⟩
  have h1 := hs b s hb
  have h2 := k.toNat_lt
  have h3 := hinf.length_le
  simp only [List.length_append] at h3 ⊢
  omega

/-- Whatever the bytes and whatever the outcome - accepted, refused or a panic - parsing that ends takes at most this many steps: proportional to the
product of the size and the longest text, and to the square of the size with a small factor. `hs` holds for the decoder used (C58). -/
theorem C62_bound {o : Opts} (hs : ∀ b s, o.decode b = some s → s.length ≤ b.length) {bytes : Bytes} {d : Nat} (h : run o d bytes ≠ .diverge) :
    parseSteps o d bytes ≤ 181 * min bytes.length 65535 * bytes.length + 2 * bytes.length * bytes.length + 537 * bytes.length + 192 * min bytes.length 65535 + 576 := by
  rw [parseSteps_eq]
  refine readClassFileT_le (envOf o d) (fun major raw ix' h6 hr => ?_) (run_readT h)
  have h8 : 8 ≤ bytes.length := by
    have := (Exact.readU2 (N := bytes.length + 1) bytes 6)
    by_cases hl : 6 ≤ bytes.length
    · obtain ⟨seg, rest, h1, hsg, h2⟩ := (this hl (by omega) major 8).mp h6
      have := congrArg List.length h1
      rw [List.length_drop, List.length_append] at this
      omega
    · exfalso
      unfold readU2 at h6
      revert h6
      split
      · nofun
      · rename_i hc; omega
  obtain ⟨seg, rest, h1, hu, -⟩ := (readRawPool_exact (N := bytes.length + 1) (envOf o d) major bytes 8 h8 (by omega) raw ix').mp hr
  intro s hm
  have h2 := raw_texts hs hu s hm
  have := congrArg List.length h1
  rw [List.length_drop, List.length_append] at this
  omega

/-- A sequence that returns a value: both parts do, and the steps add up. -/
theorem PT.bind_returns {α β : Type} {p : PT α} {f : α → PT β} {bytes : Bytes} {ix : Nat} {r : β × Nat} (h : ((p >>= f) bytes ix).out = .ok r) :
    ∃ a i, (p bytes ix).out = .ok (a, i) ∧ (f a bytes i).out = .ok r ∧ ((p >>= f) bytes ix).steps = (p bytes ix).steps + (f a bytes i).steps := by
  have hdef : (p >>= f) bytes ix = (p bytes ix >>= fun r => f r.1 bytes r.2) := rfl
  rw [hdef] at h ⊢
  rw [out_bind] at h
  cases hp : (p bytes ix).out with
  | ok x =>
    rw [hp, res_bind_ok] at h
    exact ⟨x.1, x.2, rfl, h, steps_bind_ok hp⟩
  | _ => rw [hp] at h; cases h

theorem PT.lift_returns {α : Type} {t : Timed α} {bytes : Bytes} {ix : Nat} {r : α × Nat} (h : (PT.lift t bytes ix).out = .ok r) :
    t.out = .ok r.1 ∧ (PT.lift t bytes ix).steps = t.steps := by
  unfold PT.lift at h ⊢
  rw [out_bind] at h
  cases ht : t.out with
  | ok a =>
    rw [ht] at h
    cases h
    exact ⟨rfl, (steps_bind_ok ht).trans (Nat.add_zero _)⟩
  | _ => rw [ht] at h; cases h

/-- The parts of an accepting run and their steps. -/
theorem parse_parts {o : Opts} {d : Nat} {bytes : Bytes} {cf : ClassFile} (h : run o d bytes = .ok cf) :
    ∃ raw i, readU2 bytes 6 = .ok (cf.majorVersion, 8) ∧ readRawPool (envOf o d) cf.majorVersion bytes 8 = .ok (raw, i) ∧ resolveConstantPool raw = .ok cf.constantPool ∧
      (validateBootstrapMethodsT cf.constantPool cf.attributes).out = .ok () ∧
      (readRawPoolT (envOf o d) cf.majorVersion bytes 8).steps + (validateConstantPoolT d cf.constantPool cf.majorVersion).steps +
        (validateBootstrapMethodsT cf.constantPool cf.attributes).steps ≤ parseSteps o d bytes := by
  have h0 : ∃ i, (readClassFileT (envOf o d) bytes 0).out = .ok (cf, i) := by
    rw [readClassFileT_out]
    rw [run_eq] at h
    cases hr : readClassFile (envOf o d) bytes 0 with
    | ok x => rw [hr] at h; cases h; exact ⟨x.2, rfl⟩
    | _ => rw [hr] at h; cases h
  obtain ⟨ie, h0⟩ := h0
  rw [parseSteps_eq]
  rw [readClassFileT_eq] at h0 ⊢
  obtain ⟨magic, i1, h1, g1, s1⟩ := PT.bind_returns h0
  obtain ⟨_, i2, h2, g2, s2⟩ := PT.bind_returns g1
  obtain ⟨minor, i3, h3, g3, s3⟩ := PT.bind_returns g2
  obtain ⟨major, i4, h4, g4, s4⟩ := PT.bind_returns g3
  obtain ⟨pool, i5, h5, g5, s5⟩ := PT.bind_returns g4
  have b0 : 0 ≤ bytes.length := Nat.zero_le _
  have tooFar : ∀ {v : UInt16} {i j : Nat}, readU2 bytes i = .ok (v, j) → i + 2 ≤ bytes.length := by
    intro v i j hr
    unfold readU2 at hr
    revert hr
    split
    · nofun
    · intro _; omega
  have l3 := tooFar h3
  have l4 := tooFar h4
  have e1 : i1 = 4 := by
    obtain ⟨seg, _, _, hs, rfl⟩ := (Exact.readU4 (N := bytes.length + 1) bytes 0 b0 (by omega) magic i1).mp h1
    cases hs; rfl
  have e2 : i2 = i1 := by
    revert h2
    show Cafebabe.P.failIf _ _ bytes i1 = _ → _
    unfold Cafebabe.P.failIf
    split
    · nofun
    · intro h; cases h; rfl
  have e3 : i3 = i2 + 2 := by
    obtain ⟨seg, _, _, hs, rfl⟩ := (Exact.readU2 (N := bytes.length + 1) bytes i2 (by omega) (by omega) minor i3).mp h3
    cases hs; rfl
  have e4 : i4 = i3 + 2 := by
    obtain ⟨seg, _, _, hs, rfl⟩ := (Exact.readU2 (N := bytes.length + 1) bytes i3 (by omega) (by omega) major i4).mp h4
    cases hs; rfl
  obtain rfl : i4 = 8 := by omega
  obtain rfl : i3 = 6 := by omega
  -- the pool
  unfold readConstantPoolT at h5
  obtain ⟨raw, j1, p1, q1, t1⟩ := PT.bind_returns h5
  obtain ⟨pool', j2, p2, q2, t2⟩ := PT.bind_returns q1
  obtain ⟨_, j3, p3, q3, t3⟩ := PT.bind_returns q2
  cases q3
  obtain ⟨p2, -⟩ := PT.lift_returns p2
  obtain ⟨-, t3'⟩ := PT.lift_returns p3
  -- the rest
  unfold afterPoolT at g5
  obtain ⟨bits, k1, a1, b1, c1⟩ := PT.bind_returns g5
  obtain ⟨_, k2, a2, b2, c2⟩ := PT.bind_returns b1
  obtain ⟨this, k3, a3, b3, c3⟩ := PT.bind_returns b2
  obtain ⟨super, k4, a4, b4, c4⟩ := PT.bind_returns b3
  obtain ⟨is, k5, a5, b5, c5⟩ := PT.bind_returns b4
  obtain ⟨fs, k6, a6, b6, c6⟩ := PT.bind_returns b5
  obtain ⟨ms, k7, a7, b7, c7⟩ := PT.bind_returns b6
  obtain ⟨as, k8, a8, b8, c8⟩ := PT.bind_returns b7
  obtain ⟨_, k9, a9, b9, c9⟩ := PT.bind_returns b8
  obtain ⟨_, k10, a10, b10, c10⟩ := PT.bind_returns b9
  obtain ⟨_, k11, a11, b11, c11⟩ := PT.bind_returns b10
  cases b11
  obtain ⟨a11, c11'⟩ := PT.lift_returns a11
  refine ⟨raw, j1, h4, by rw [← readRawPoolT_out]; exact p1, by rw [← p2]; exact (resolveFromT_out raw raw 0).symm, a11, ?_⟩
  have t1' : (readConstantPoolT (envOf o d) major bytes 8).steps = _ := t1
  rw [t2, t3, t3'] at t1'
  have c1' : (afterPoolT (envOf o d) minor major _ bytes i5).steps = _ := c1
  rw [c2, c3, c4, c5, c6, c7, c8, c9, c10, c11, c11'] at c1'
  rw [s1, s2, s3, s4, s5, t1', c1']
  show (readRawPoolT (envOf o d) major bytes 8).steps + (validateConstantPoolT (envOf o d).depth _ major).steps + _ ≤ _
  dsimp only
  omega

/-- The same for an accepted file, in terms of its longest text. -/
theorem C62_accepted {o : Opts} {bytes : Bytes} {cf : ClassFile} {d n : Nat} (h : run o d bytes = .ok cf) (ht : TextsUpTo cf.constantPool n) :
    parseSteps o d bytes ≤ 181 * n * bytes.length + 2 * bytes.length * bytes.length + 537 * bytes.length + 192 * n + 576 := by
  obtain ⟨raw, i, h6, hr, hp, -⟩ := parse_parts h
  rw [parseSteps_eq]
  refine readClassFileT_le (envOf o d) (fun major raw' ix' h6' hr' => ?_) (run_readT (by rw [h]; nofun))
  rw [h6] at h6'
  cases h6'
  rw [hr] at hr'
  cases hr'
  obtain ⟨e, -⟩ := resolveConstantPool_ok.mp hp
  intro s hs
  exact ht s (e ▸ List.mem_map.mpr ⟨_, hs, rfl⟩)

/-- The steps of an accepting run include those of checking the constants. -/
theorem C62_includes {o : Opts} {bytes : Bytes} {cf : ClassFile} {d : Nat} (h : run o d bytes = .ok cf) :
    (validateConstantPoolT d cf.constantPool cf.majorVersion).steps ≤ parseSteps o d bytes := by
  obtain ⟨raw, i, -, -, -, -, hle⟩ := parse_parts h
  omega

/-- Dynamic and InvokeDynamic constants. -/
def isDynamic : Entry → Bool
  | .dynamic _ _ => true
  | .invokeDynamic _ _ => true
  | _ => false

theorem countBootstrapMethodsT_eq (x : UInt16) : ∀ (l : List AttributeInfo) (found : Nat) {k : Nat}, (countBootstrapMethodsT x found l).out = .ok k →
    (countBootstrapMethodsT x found l).steps = l.length
  | [], _, _, _ => rfl
  | a :: l, found, k, h => by
    unfold countBootstrapMethodsT at h ⊢
    rw [out_bind, out_tick, res_bind_ok] at h
    rw [steps_tick_bind, List.length_cons]
    split at h
    · split at h
      · cases h
      · rw [if_neg ‹_›, countBootstrapMethodsT_eq x l _ h, Nat.add_comm]
    · rw [countBootstrapMethodsT_eq x l _ h, Nat.add_comm]

theorem checkBootstrapIndexT_eq {x : UInt16} {l : List AttributeInfo} {u : Unit} (h : (checkBootstrapIndexT x l).out = .ok u) : (checkBootstrapIndexT x l).steps = l.length := by
  unfold checkBootstrapIndexT at h ⊢
  rw [out_bind] at h
  cases hc : (countBootstrapMethodsT x 0 l).out with
  | ok k =>
    rw [steps_bind_ok hc, countBootstrapMethodsT_eq x l 0 hc]
    split <;> rfl
  | _ => rw [hc] at h; cases h

theorem validateBootstrapMethodsT_eq : ∀ (pool : Pool) (l : List AttributeInfo) {u : Unit}, (validateBootstrapMethodsT pool l).out = .ok u →
    (validateBootstrapMethodsT pool l).steps = pool.length + pool.countP isDynamic * l.length
  | [], l, _, _ => by simp [validateBootstrapMethodsT]
  | e :: pool, l, u, h => by
    unfold validateBootstrapMethodsT at h ⊢
    rw [out_bind, out_tick, res_bind_ok] at h
    rw [steps_tick_bind, List.length_cons]
    have step : ∀ {x : UInt16}, (checkBootstrapIndexT x l >>= fun _ => validateBootstrapMethodsT pool l).out = .ok u →
        (checkBootstrapIndexT x l >>= fun _ => validateBootstrapMethodsT pool l).steps = l.length + (pool.length + pool.countP isDynamic * l.length) := by
      intro x h
      rw [out_bind] at h
      cases hc : (checkBootstrapIndexT x l).out with
      | ok v =>
        rw [hc, res_bind_ok] at h
        rw [steps_bind_ok hc, checkBootstrapIndexT_eq hc, validateBootstrapMethodsT_eq pool l h]
      | _ => rw [hc] at h; cases h
    have hs : (pool.countP isDynamic + 1) * l.length = l.length + pool.countP isDynamic * l.length := by rw [Nat.succ_mul, Nat.add_comm]
    cases e with
    | dynamic x y => rw [List.countP_cons_of_pos rfl, hs]; have := step h; dsimp only at this ⊢; omega
    | invokeDynamic x y => rw [List.countP_cons_of_pos rfl, hs]; have := step h; dsimp only at this ⊢; omega
    | _ =>
      rw [List.countP_cons_of_neg (by simp [isDynamic])]
      have := validateBootstrapMethodsT_eq pool l h
      dsimp only at this ⊢; omega

/-- Every Dynamic and InvokeDynamic constant walks over all attributes of the class: the steps are at least their product. -/
theorem C62_product {o : Opts} {bytes : Bytes} {cf : ClassFile} {d : Nat} (h : run o d bytes = .ok cf) :
    cf.constantPool.countP isDynamic * cf.attributes.length ≤ parseSteps o d bytes := by
  obtain ⟨raw, i, -, -, -, hv, hle⟩ := parse_parts h
  rw [validateBootstrapMethodsT_eq _ _ hv] at hle
  omega

theorem run_of_accepts {o : Opts} {bytes : Bytes} {cf : ClassFile} (h : Accepts o bytes cf) {d : Nat} (hd : run o d bytes ≠ .diverge) : run o d bytes = .ok cf := by
  obtain ⟨e, he⟩ := h
  have h1 := run_done he (by nofun)
  have h2 := run_done (o := o) (bytes := bytes) (d := d) rfl hd
  rw [← h2, h1]

/-- The square is real, for the whole parse as for the checks (C61). -/
theorem C62_quadratic {o : Opts} (hd : DecodesAscii o.decode) {n m : Nat} (hn : 0 < n) (hn' : n < 65536) (hm : 0 < m) (hm' : m < 65533) :
    (sameNameFile n m).length = n + 3 * m + 27 ∧ (∃ cf, Accepts o (sameNameFile n m) cf) ∧
      ∀ d, run o d (sameNameFile n m) ≠ .diverge → m * n ≤ parseSteps o d (sameNameFile n m) := by
  obtain ⟨cf, h, hl, hs⟩ := C61_quadratic hd hn hn' hm hm'
  exact ⟨hl, ⟨cf, h⟩, fun d hr => Nat.le_trans (hs d) (C62_includes (run_of_accepts h hr))⟩

/-! ### Dynamic constants and attributes -/

/-- The constants of `dynFile`. -/
def dynSegs (s : Nat) : List Bytes :=
  [utf8Seg [65], [7] ++ u2 1, utf8Seg [66, 111, 111, 116, 115, 116, 114, 97, 112, 77, 101, 116, 104, 111, 100, 115], utf8Seg [40, 41, 86],
    [12] ++ u2 1 ++ u2 4, [10] ++ u2 2 ++ u2 5, [15] ++ [6] ++ u2 6] ++ List.replicate s ([18] ++ u2 0 ++ u2 5)

/-- `class A` with `s` InvokeDynamic constants, a BootstrapMethods attribute with one method, and `m` empty attributes named `A`. -/
def dynFile (s m : Nat) : Bytes :=
  header 0 52 ++ (u2 (UInt16.ofNat (s + 8)) ++ (dynSegs s).flatten) ++ ([0, 0x21] ++ u2 2 ++ [0, 0, 0, 0, 0, 0, 0, 0] ++
    (u2 (UInt16.ofNat (m + 1)) ++ ((u2 3 ++ (u4 6 ++ (u2 1 ++ (u2 7 ++ u2 0)))) ++ (List.replicate m (u2 1 ++ (u4 0 ++ []))).flatten)))

/-- The entries of `dynFile` before the references are linked. -/
def dynRaw (s : Nat) : List Entry :=
  [.utf8 ['A'], .classInfo (.unresolved 1), .utf8 "BootstrapMethods".toList, .utf8 "()V".toList, .nameAndType (.unresolved 1) (.unresolved 4),
    .methodRef (.unresolved 2) (.unresolved 5), .methodHandle .invokeStatic (.unresolved 6)] ++ List.replicate s (.invokeDynamic 0 (.unresolved 5))

/-- The constants of `dynFile` as shown. -/
def dynPool (s : Nat) : Pool :=
  [.zero, .utf8 ['A'], .classInfo (.resolved 1), .utf8 "BootstrapMethods".toList, .utf8 "()V".toList, .nameAndType (.resolved 1) (.resolved 4),
    .methodRef (.resolved 2) (.resolved 5), .methodHandle .invokeStatic (.resolved 6)] ++ List.replicate s (.invokeDynamic 0 (.resolved 5))

theorem dynPool_eq (s : Nat) : dynPool s = (Entry.zero :: dynRaw s).map linkEntry := by
  simp [dynPool, dynRaw, linkEntry, link, List.map_replicate]

theorem dynPool_get {s i : Nat} {e : Entry} (h : (dynPool s)[i]? = some e) :
    (dynPool 0)[i]? = some e ∨ e = .invokeDynamic 0 (.resolved 5) := by
  unfold dynPool at h ⊢
  by_cases hi : i < 8
  · rw [List.getElem?_append_left (by simpa using hi)] at h
    rw [List.getElem?_append_left (by simpa using hi)]
    exact .inl h
  · rw [List.getElem?_append_right (by simp; omega)] at h
    exact .inr (List.eq_of_mem_replicate (List.mem_of_getElem? h))

theorem dynPool_enc {o : Opts} (hd : DecodesAscii o.decode) {s : Nat} (hs : s < 65527) :
    PoolEnc o.decode o.checks 52 (dynPool s) (u2 (UInt16.ofNat (s + 8)) ++ (dynSegs s).flatten) := by
  have hA : o.decode [65] = some ['A'] := hd [65] (by decide)
  have hB : o.decode [66, 111, 111, 116, 115, 116, 114, 97, 112, 77, 101, 116, 104, 111, 100, 115] = some "BootstrapMethods".toList := hd _ (by decide)
  have hV : o.decode [40, 41, 86] = some "()V".toList := hd _ (by decide)
  have hsl : ∀ e ∈ dynRaw s, slots e = [e] := by
    intro e he
    rcases List.mem_append.mp he with he | he
    · simp only [List.mem_cons, List.not_mem_nil, or_false] at he
      rcases he with rfl | rfl | rfl | rfl | rfl | rfl | rfl <;> rfl
    · rw [List.eq_of_mem_replicate he]; rfl
  have hlen : (dynRaw s).length = s + 7 := by simp [dynRaw]
  have cnt : ∀ k, k ≤ (dynRaw s).length → slotCount ((dynRaw s).take k) = 1 + k := by
    intro k hk
    unfold slotCount
    rw [slots_single fun e he => hsl e (List.mem_of_mem_take he), List.length_take]
    omega
  have hseq : List.Forall₂ (EntryEnc o.decode 52) (dynRaw s) (dynSegs s) := by
    refine .cons (enc_utf8Seg (by decide) hA) (.cons rfl (.cons (enc_utf8Seg (by decide) hB) (.cons (enc_utf8Seg (by decide) hV) (.cons rfl
      (.cons rfl (.cons ⟨by decide, rfl⟩ ?_))))))
    clear hs hsl hlen cnt
    induction s with
    | zero => exact .nil
    | succ s ih => rw [List.replicate_succ, List.replicate_succ]; exact .cons ⟨by decide, rfl⟩ ih
  refine ⟨.zero :: dynRaw s, ⟨UInt16.ofNat (s + 8), dynRaw s, (dynSegs s).flatten, ⟨?_, ?_, ?_⟩, by rw [slots_single hsl], rfl, seq_flatten hseq⟩, dynPool_eq s, ?_⟩
  · intro k hk
    rw [cnt k (by omega), small_toNat (by omega)]; omega
  · have := cnt _ (Nat.le_refl _)
    rw [List.take_length] at this
    rw [this, small_toNat (by omega)]; omega
  · intro _
    have := cnt _ (Nat.le_refl _)
    rw [List.take_length] at this
    omega
  · intro i e he
    have hA : BinaryName ['A'] := ⟨[['A']], by simp, by simp [UnqualifiedName], rfl⟩
    have hV : IsMethodDescriptor "()V".toList := ⟨⟨[], .void⟩, ⟨by simp, trivial⟩, rfl⟩
    rcases dynPool_get he with h | rfl
    · rcases i with - | - | - | - | - | - | - | - | i
      · cases h; trivial
      · cases h; trivial
      · cases h; exact ⟨['A'], rfl, Or.inl hA⟩
      · cases h; trivial
      · cases h; trivial
      · cases h; exact ⟨⟨['A'], rfl, by simp [UnqualifiedName]⟩, .inl ⟨_, rfl⟩⟩
      · cases h; exact ⟨⟨_, rfl⟩, _, _, _, rfl, rfl, hV⟩
      · cases h; exact .inl ⟨_, _, rfl⟩
      · simp [dynPool] at h
    · exact ⟨_, _, _, rfl, rfl, hV⟩

/-- The attributes of `dynFile`. -/
def dynAttrs (m : Nat) : List AttributeInfo :=
  ⟨"BootstrapMethods".toList, .bootstrapMethods [⟨⟨.invokeStatic, ['A'], .method, ⟨['A'], "()V".toList⟩⟩, []⟩]⟩ :: List.replicate m ⟨['A'], .other []⟩

theorem dynAttrs_enc {o : Opts} {s m : Nat} : AttrsEnc o (dynPool s) (dynAttrs m)
    ((u2 3 ++ (u4 6 ++ (u2 1 ++ (u2 7 ++ u2 0)))) ++ (List.replicate m (u2 1 ++ (u4 0 ++ []))).flatten) := by
  refine ⟨_, _, rfl, ?_, ?_⟩
  · rw [AttrEnc]
    refine ⟨u2 3, _, rfl, ⟨3, rfl, rfl⟩, 6, u2 1 ++ (u2 7 ++ u2 0), rfl, ?_, rfl⟩
    rw [DataEnc]
    exact ⟨rfl, 1, rfl, u2 1, _, rfl, rfl, u2 7 ++ u2 0, [], by simp, ⟨u2 7, u2 0, rfl, ⟨7, ⟨6, rfl, 2, 5, rfl, ⟨1, rfl, rfl⟩, 1, 4, rfl, rfl, rfl⟩, rfl⟩, 0, rfl, u2 0, [], rfl, rfl, rfl⟩, rfl⟩
  · induction m with
    | zero => exact rfl
    | succ m ih =>
      rw [List.replicate_succ, List.replicate_succ]
      refine ⟨u2 1 ++ (u4 0 ++ []), _, rfl, ?_, ih⟩
      rw [AttrEnc]
      refine ⟨u2 1, _, rfl, ⟨1, rfl, rfl⟩, 0, [], rfl, ?_, rfl⟩
      rw [DataEnc]
      exact ⟨by decide, rfl⟩

/-- Files of `5 s + 6 m + 82` bytes with `s` InvokeDynamic constants and `m` attributes nobody knows are accepted, after at least `s (m + 1)` steps. -/
theorem C62_dynamic {o : Opts} (hd : DecodesAscii o.decode) {s m : Nat} (hs : s < 65527) (hm : m < 65535) :
    (dynFile s m).length = 5 * s + 6 * m + 82 ∧ (∃ cf, Accepts o (dynFile s m) cf) ∧
      ∀ d, run o d (dynFile s m) ≠ .diverge → s * (m + 1) ≤ parseSteps o d (dynFile s m) := by
  have hl : (dynFile s m).length = 5 * s + 6 * m + 82 := by
    have h1 : (List.replicate s ([18] ++ u2 0 ++ u2 5)).flatten.length = 5 * s := by
      clear hs
      induction s with
      | zero => rfl
      | succ s ih => rw [List.replicate_succ, List.flatten_cons, List.length_append, ih]; simp [u2]; omega
    have h2 : (List.replicate m (u2 1 ++ (u4 0 ++ []))).flatten.length = 6 * m := by
      clear hm
      induction m with
      | zero => rfl
      | succ m ih => rw [List.replicate_succ, List.flatten_cons, List.length_append, ih]; simp [u2, u4]; omega
    unfold dynFile dynSegs
    rw [List.flatten_append]
    simp only [List.length_append, h1, h2, header, List.flatten_cons, List.flatten_nil, utf8Seg, u2_length, u4_length, List.length_cons, List.length_nil]
    omega
  have hacc : Accepts o (dynFile s m)
      { majorVersion := 52, minorVersion := 0, constantPool := dynPool s, accessFlags := 0x21, thisClass := ⟨['A']⟩, superClass := none, interfaces := [],
        fields := [], methods := [], attributes := dynAttrs m } := by
    refine accepts_iff_enc.mpr ⟨⟨List.Pairwise.nil, List.Pairwise.nil, fun h => absurd (by decide : (0x21 : UInt16) &&& 0x8000 = 0) h, ?_⟩, ?_⟩
    · intro x r h
      have hx : x = 0 := by
        rcases h with h | h
        · rcases List.mem_append.mp h with h | h
          · simp at h
          · cases List.eq_of_mem_replicate h
        · rcases List.mem_append.mp h with h | h
          · simp at h
          · cases List.eq_of_mem_replicate h; rfl
      subst hx
      refine ⟨[⟨⟨.invokeStatic, ['A'], .method, ⟨['A'], "()V".toList⟩⟩, []⟩], ?_, by decide⟩
      show bootstrapTables (_ :: List.replicate m _) = _
      unfold bootstrapTables
      simp [List.filterMap_replicate]
    · refine ⟨[0xCA, 0xFE, 0xBA, 0xBE], _, ?_, rfl, u2 0, _, rfl, rfl, u2 52, _, rfl, rfl, _, _, rfl, dynPool_enc hd hs,
        u2 0x21, _, rfl, ⟨0x21, rfl, rfl⟩, u2 2, _, rfl, ⟨2, ⟨⟨1, rfl, rfl⟩, ?_⟩, rfl⟩, u2 0, _, rfl, ⟨0, rfl, rfl⟩,
        u2 0, _, rfl, ⟨0, rfl, u2 0, [], rfl, rfl, rfl⟩, u2 0, _, rfl, ⟨0, rfl, u2 0, [], rfl, rfl, rfl⟩,
        u2 0, u2 (UInt16.ofNat (m + 1)) ++ ((u2 3 ++ (u4 6 ++ (u2 1 ++ (u2 7 ++ u2 0)))) ++ (List.replicate m (u2 1 ++ (u4 0 ++ []))).flatten), rfl,
          ⟨0, rfl, u2 0, [], rfl, rfl, rfl⟩, ?_⟩
      · unfold dynFile header
        simp only [List.append_assoc]
        rfl
      · exact ⟨[['A']], by simp, by simp [Segment, UnqualifiedName], rfl⟩
      · refine ⟨UInt16.ofNat (m + 1), ?_, u2 (UInt16.ofNat (m + 1)), _, rfl, rfl, attrsEnc_eq o (dynPool s) (dynAttrs m) ▸ dynAttrs_enc⟩
        rw [small_toNat (by omega)]
        simp [dynAttrs]
  refine ⟨hl, ⟨_, hacc⟩, fun d hr => ?_⟩
  have := C62_product (run_of_accepts hacc hr)
  have hc : (dynPool s).countP isDynamic = s := by
    unfold dynPool
    rw [List.countP_append, List.countP_replicate]
    simp [isDynamic]
  simp only [hc] at this
  rwa [show (dynAttrs m).length = m + 1 by simp [dynAttrs]] at this

/-- 720916 bytes, more than four thousand million steps. -/
theorem C62_worst {o : Opts} (hd : DecodesAscii o.decode) : ∃ bytes cf, bytes.length = 720916 ∧ Accepts o bytes cf ∧
    ∀ d, run o d bytes ≠ .diverge → 4294246410 ≤ parseSteps o d bytes := by
  obtain ⟨hl, ⟨cf, h⟩, hs⟩ := C62_dynamic hd (s := 65526) (m := 65534) (by omega) (by omega)
  exact ⟨_, cf, by rw [hl], h, hs⟩

/-- For the decoder the library uses, in terms of the size alone. -/
theorem C62_square {o : Opts} (ho : o.decode = Cesu8.fromJavaCesu8) {bytes : Bytes} {d : Nat} (h : run o d bytes ≠ .diverge) :
    parseSteps o d bytes ≤ 183 * bytes.length * bytes.length + 729 * bytes.length + 576 := by
  refine Nat.le_trans (C62_bound (fun b s hb => (C58_size (ho ▸ hb)).1) h) ?_
  have h1 : 181 * min bytes.length 65535 * bytes.length ≤ 181 * bytes.length * bytes.length := Nat.mul_le_mul_right _ (Nat.mul_le_mul_left _ (Nat.min_le_left _ _))
  have h2 : 183 * bytes.length * bytes.length = 181 * bytes.length * bytes.length + 2 * bytes.length * bytes.length := by ring
  omega

/-- Finding an instruction by its offset takes at most one step more than halvings of the list. -/
theorem C62_lookup {bc : ByteCode} {k : Nat} (h : bc.opcodes.length ≤ 2 ^ k) (offset : Nat) :
    (bc.getOpcodeIndexT offset).out = bc.getOpcodeIndex offset ∧ (bc.getOpcodeIndexT offset).steps ≤ k + 1 :=
  ⟨opcodeIndexLoopT_out _ _ _ _ _, getOpcodeIndexT_le h offset⟩

/-- `C62_bound` applies to every input that does not hang; here an accepted file and one cut short. -/
example : parseSteps debug 9 tiny = 57 ∧ parseSteps debug 9 (tiny.take 20) = 13 ∧ parseSteps debug 9 rich = 1101 := by decide +kernel

end Cafebabe
