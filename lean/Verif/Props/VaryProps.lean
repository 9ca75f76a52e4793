import Verif.Proofs.Vary
import Verif.Props.LostProps
import Verif.Props.RenumberProps
/-!
# Properties: nothing else is lost (C76)
-/

namespace Cafebabe
open Spec Examples

/-- Two inputs with the same result are the same but for the indices of equal constants, undefined access flags, the kind of an annotation's target,
the form of a frame, the spelling of text and the lengths that follow from these, and the number of constants if the last takes two slots. -/
theorem C76_same_class {o : Opts} {bytes bytes' : Bytes} {cf : ClassFile} (h : Accepts o bytes cf) (h' : Accepts o bytes' cf) :
    Vary o cf.constantPool bytes bytes' := by
  have hne : cf.constantPool.length ≠ 1 := by
    obtain ⟨-, a1, b1, -, -, a2, b2, -, -, a3, b3, -, -, a4, b4, -, k4, a5, b5, -, -, a6, b6, -, ⟨i, ⟨⟨x, hx, hs⟩, -⟩, -⟩, -⟩ := accepts_iff_enc.mp h
    intro hl
    obtain ⟨raw, ⟨n, es, body, -, rfl, -, -⟩, hp, -⟩ := k4
    rw [hp, List.length_map] at hl
    obtain ⟨h1, -⟩ := List.getElem?_eq_some_iff.mp hx
    rw [hp, List.length_map, hl] at h1
    have h0 : i.toNat = 0 := by omega
    rw [hp, h0] at hx
    cases hx
  refine Vs.when ?_ _ _ (accepts_iff_enc.mp h) (accepts_iff_enc.mp h')
  exact Vs.lit.cat (Vs.lit.cat (Vs.lit.cat ((vs_pool hne).cat ((Vs.masked (by simp)).cat (vs_className.cat (vs_optClassName.cat
    ((Vs.table2 (fun _ => vs_className) _).cat ((Vs.table2 vs_fieldInfo _).cat ((Vs.table2 vs_methodInfo _).cat (vs_attributes _))))))))))

/-! ## The number of constants -/

theorem accepts_recount {o : Opts} {minor major n m : UInt16} {rest : Bytes} {cf : ClassFile}
    (hp : ∀ body, PoolEnc o.decode o.checks major cf.constantPool (u2 n ++ body) → PoolEnc o.decode o.checks major cf.constantPool (u2 m ++ body))
    (h : Accepts o (header minor major ++ (u2 n ++ rest)) cf) : Accepts o (header minor major ++ (u2 m ++ rest)) cf := by
  obtain ⟨hw, a1, b1, e1, k1, a2, b2, e2, k2, a3, b3, e3, k3, a4, b4, e4, k4, k5⟩ := accepts_iff_enc.mp h
  have k4' := k4
  obtain ⟨raw, ⟨c, es, body, hc, hr, ha, hes⟩, hpool, hok⟩ := k4'
  have hs : u2 minor ++ (u2 major ++ (u2 n ++ rest)) = u2 cf.minorVersion ++ (u2 cf.majorVersion ++ (u2 c ++ (body ++ b4))) := by
    rw [e2, e3, e4, k1, k2, k3, ha] at e1
    unfold header at e1
    simp only [List.append_assoc] at e1
    exact List.append_cancel_left e1
  obtain ⟨x1, hs1⟩ := u2_split hs
  obtain ⟨x2, hs2⟩ := u2_split hs1
  obtain ⟨x3, hs3⟩ := u2_split hs2
  subst x1 x2 x3
  rw [ha] at k4
  refine accepts_iff_enc.mpr ⟨hw, _, _, ?_, rfl, _, _, rfl, rfl, _, _, rfl, rfl, _, _, rfl, hp body k4, k5⟩
  rw [hs3]; simp [header]

theorem recount {checks : Bool} {n m : UInt16} {es : List Entry} {pool : Pool} (hp : pool = (Entry.zero :: es.flatMap slots).map linkEntry)
    (hl : pool.getLast? = some .unused) (hn : n.toNat + 1 = m.toNat) (hm : m.toNat = pool.length) (hw : ∀ e ∈ es, Written e) :
    CountOK checks n es ↔ CountOK checks m es := by
  have hN : pool.length = slotCount es := by rw [hp, List.length_map]; simp [slotCount]; omega
  have hlt := m.toNat_lt
  have hne : es ≠ [] := by rintro rfl; rw [hp] at hl; cases hl
  obtain ⟨l, e, rfl⟩ : ∃ l e, es = l ++ [e] := ⟨es.dropLast, es.getLast hne, (List.dropLast_append_getLast hne).symm⟩
  have hs : slotCount (l ++ [e]) = slotCount l + (slots e).length := by simp [slotCount]; omega
  have h2 : (slots e).length = 2 := by
    rcases slots_first e with h | h
    · exfalso
      rw [List.flatMap_append, List.flatMap_singleton, h, List.map_cons, List.map_append] at hp
      rw [hp] at hl
      simp only [List.map_cons, List.map_nil, List.getLast?_cons, List.getLast?_append, List.getLast?_nil, Option.getD_some] at hl
      obtain ⟨_, _, _, hx⟩ := hw e (by simp)
      cases e <;> first | exact hx | (simp [linkEntry] at hl)
    · rw [h]; rfl
  have hk : ∀ k, k < (l ++ [e]).length → slotCount ((l ++ [e]).take k) ≤ slotCount l := by
    intro k hk
    rw [List.length_append, List.length_singleton] at hk
    rw [List.take_append_of_le_length (by omega)]
    have := congrArg (fun x => (x.flatMap slots).length) (List.take_append_drop k l)
    simp only [List.flatMap_append, List.length_append] at this
    unfold slotCount; omega
  constructor
  · rintro ⟨h1, h3, h4⟩
    refine ⟨fun k hk' => Nat.lt_trans (h1 k hk') (by omega), ?_, h4⟩
    rw [Nat.mod_eq_of_lt (by omega)]; omega
  · rintro ⟨h1, h3, h4⟩
    refine ⟨fun k hk' => ?_, by omega, h4⟩
    have := hk k hk'
    rw [Nat.mod_eq_of_lt (by omega)]; omega

/-- If the last constant is a Long or a Double, its second slot need not be counted: the declared number of constants can be one less than the format
demands, with the same result. -/
theorem C76_count {o : Opts} {minor major n m : UInt16} {rest : Bytes} {cf : ClassFile} (hl : cf.constantPool.getLast? = some .unused)
    (hn : n.toNat + 1 = m.toNat) (hm : m.toNat = cf.constantPool.length) :
    Accepts o (header minor major ++ (u2 n ++ rest)) cf ↔ Accepts o (header minor major ++ (u2 m ++ rest)) cf := by
  have key : ∀ {a b : UInt16}, (∀ es, cf.constantPool = (Entry.zero :: es.flatMap slots).map linkEntry → (∀ e ∈ es, Written e) →
      CountOK o.checks a es → CountOK o.checks b es) → ∀ body, PoolEnc o.decode o.checks major cf.constantPool (u2 a ++ body) →
      PoolEnc o.decode o.checks major cf.constantPool (u2 b ++ body) := by
    rintro a b H body ⟨raw, ⟨c, es, body', hc, rfl, ha, hes⟩, hp, hok⟩
    obtain ⟨rfl, rfl⟩ := u2_split ha
    exact ⟨_, ⟨b, es, body, H es hp (seq_written hes) hc, rfl, rfl, hes⟩, hp, hok⟩
  exact ⟨accepts_recount (key fun es hp hw => (recount hp hl hn hm hw).mp), accepts_recount (key fun es hp hw => (recount hp hl hn hm hw).mpr)⟩

/-! ## Witnesses -/

/-- `class A extends B {}` with a Long as the last constant; `n` is the declared number of constants. -/
def ending (n : UInt16) : Bytes :=
  header 0 52 ++ (u2 n ++ (text "A" ++ [7, 0, 1] ++ text "B" ++ [7, 0, 3] ++ [5, 0, 0, 0, 0, 0, 0, 0, 9] ++
    [0, 0x21, 0, 2, 0, 4, 0, 0, 0, 0, 0, 0, 0, 0]))

/-- Both numbers of constants are accepted, with the same class. -/
theorem C76_count_witness : ∃ cf, Accepts debug (ending 7) cf ∧ Accepts debug (ending 6) cf ∧ cf.constantPool.getLast? = some .unused ∧
    cf.constantPool.length = 7 := by
  obtain ⟨cf, h, c⟩ := checked (o := debug) (d := 9) (bytes := ending 7)
    (fun cf => cf.constantPool.getLast? == some .unused && cf.constantPool.length == 7) (by decide +kernel)
  simp only [Bool.and_eq_true, beq_iff_eq] at c
  exact ⟨cf, h, (C76_count c.1 (by decide) (by rw [c.2]; rfl)).mpr h, c⟩

/-- Two different inputs with the same result: an undefined access flag (0x0002), another index of the same class (5 for 2), the other number of
constants. -/
theorem C76_witness : ∃ (cf : ClassFile) (a b : Bytes), a ≠ b ∧ Accepts debug a cf ∧ Accepts debug b cf := by
  let p : Bytes := text "A" ++ [7, 0, 1] ++ text "B" ++ [7, 0, 3] ++ [7, 0, 1] ++ [5, 0, 0, 0, 0, 0, 0, 0, 9]
  let a : Bytes := header 0 52 ++ (u2 8 ++ (p ++ [0, 0x21, 0, 2, 0, 4, 0, 0, 0, 0, 0, 0, 0, 0]))
  let b : Bytes := header 0 52 ++ (u2 7 ++ (p ++ [0, 0x23, 0, 5, 0, 4, 0, 0, 0, 0, 0, 0, 0, 0]))
  let f : ClassFile → Bool := fun cf => cf.minorVersion == 0 && cf.majorVersion == 52 &&
    cf.constantPool == [.zero, .utf8 ['A'], .classInfo (.resolved 1), .utf8 ['B'], .classInfo (.resolved 3), .classInfo (.resolved 1), .long 9, .unused] &&
    cf.accessFlags == 0x21 && cf.thisClass == ⟨['A']⟩ && cf.superClass == some ⟨['B']⟩ && cf.interfaces == [] && cf.fields.isEmpty &&
    cf.methods.isEmpty && cf.attributes.isEmpty
  obtain ⟨cf, h, c⟩ := checked (o := debug) (d := 9) (bytes := a) f (by decide +kernel)
  obtain ⟨cf', h', c'⟩ := checked (o := debug) (d := 9) (bytes := b) f (by decide +kernel)
  have : cf = cf' := by
    obtain ⟨x1, x2, x3, x4, x5, x6, x7, x8, x9, x10⟩ := cf
    obtain ⟨y1, y2, y3, y4, y5, y6, y7, y8, y9, y10⟩ := cf'
    simp only [f, Bool.and_eq_true, beq_iff_eq, List.isEmpty_iff] at c c'
    simp [c, c']
  subst this
  exact ⟨cf, a, b, by decide +kernel, h, h'⟩

end Cafebabe
