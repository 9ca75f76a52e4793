import Verif.Proofs.Reserve
import Verif.Proofs.TameAttr
import Verif.Props.CapacityProps
/-!
# How many rows a reader reserves

`Eats k p`: a value costs at least `k` bytes. `Within k c p`: when the counting reader `p` returns a value, it has consumed one byte for every row
reserved and `k` more; in any outcome it has reserved at most 21845 rows for each byte left and `c` more. (Three bytes are enough to reserve 65535 rows.)
-/

namespace Cafebabe
open Spec Timed

/-! ## Bytes consumed -/

/-- A value costs at least `k` bytes. -/
def Eats {α : Type} (k : Nat) (p : P α) : Prop :=
  ∀ (bytes : Bytes) (ix : Nat) (a : α) (ix' : Nat), ix ≤ bytes.length → p bytes ix = .ok (a, ix') → ix + k ≤ ix' ∧ ix' ≤ bytes.length

namespace Eats

theorem ofTame {α : Type} {N k : Nat} {A : PanicKind → Prop} {p : P α} (h : Tame N A k p) : Eats k p := fun bytes ix a ix' hix hp => by
  have := h bytes ix hix
  unfold TameAt at this
  rw [hp] at this
  exact this

theorem weaken {α : Type} {k m : Nat} {p : P α} (h : Eats k p) (hm : m ≤ k) : Eats m p := fun bytes ix a ix' hix hp => by
  have := h bytes ix a ix' hix hp; omega

theorem pure {α : Type} (a : α) : Eats 0 (Pure.pure a : P α) := fun bytes ix b ix' hix hp => by
  cases hp; exact ⟨Nat.le_refl _, hix⟩

theorem fail {α : Type} {k : Nat} {m : String} : Eats k (P.fail m : P α) := fun _ _ _ _ _ hp => by cases hp

theorem diverge {α : Type} {k : Nat} : Eats k (P.diverge : P α) := fun _ _ _ _ _ hp => by cases hp

theorem lift {α : Type} (r : Res α) : Eats 0 (P.lift r) := fun bytes ix a ix' hix hp => by
  unfold P.lift at hp
  cases r <;> cases hp
  exact ⟨Nat.le_refl _, hix⟩

theorem mapErr {α : Type} {k : Nat} {p : P α} (h : Eats k p) {c : String} : Eats k (p.mapErr c) := fun bytes ix a ix' hix hp => by
  refine h bytes ix a ix' hix ?_
  unfold P.mapErr at hp
  cases hq : p bytes ix with
  | ok r => rw [hq] at hp; exact hp
  | _ => rw [hq] at hp; cases hp

theorem failCtx {α : Type} {k : Nat} {m c : String} : Eats k (P.failCtx m c : P α) := mapErr fail

theorem failIf {b : Bool} {m : String} : Eats 0 (P.failIf b m) := ofTame (N := 0) (A := fun _ => True) Tame.failIf

theorem okOr {α : Type} {o : Option α} {m : String} : Eats 0 (P.okOr o m) := ofTame (N := 0) (A := fun _ => True) Tame.okOr

theorem ensureLength {l e : Nat} : Eats 0 (Cafebabe.ensureLength l e) := ofTame (N := 0) (A := fun _ => True) Tame.ensureLength

theorem bind {α β : Type} {k m : Nat} {p : P α} {f : α → P β} (h : Eats k p) (hf : ∀ a, Eats m (f a)) : Eats (k + m) (p >>= f) := fun bytes ix b ix' hix hp => by
  rw [P.bind_ok] at hp
  obtain ⟨a, ix1, h1, h2⟩ := hp
  have g1 := h bytes ix a ix1 hix h1
  have g2 := hf a bytes ix1 b ix' g1.2 h2
  omega

/-- The first reader is enough. -/
theorem first {α β : Type} {k : Nat} {p : P α} {f : α → P β} (h : Eats k p) (hf : ∀ a, Eats 0 (f a)) : Eats k (p >>= f) := bind h hf

theorem ite {α : Type} {k : Nat} {c : Prop} {i : Decidable c} {p q : P α} (h : Eats k p) (h' : Eats k q) : Eats k (if c then p else q) := by
  split
  · exact h
  · exact h'

theorem readU1 : Eats 1 Cafebabe.readU1 := ofTame (N := 0) (A := fun _ => True) Tame.readU1
theorem readU2 : Eats 2 Cafebabe.readU2 := ofTame (N := 0) (A := fun _ => True) Tame.readU2
theorem readU4 : Eats 4 Cafebabe.readU4 := ofTame (N := 0) (A := fun _ => True) Tame.readU4
theorem takeBytes {n : Nat} {msg : String} : Eats n (Cafebabe.takeBytes n msg) := ofTame (N := 0) (A := fun _ => True) Tame.takeBytes

theorem cp {α : Type} {pool : Pool} {f : Entry → P α} (hf : ∀ e, Eats 0 (f e)) : Eats 2 (readCpRefAny pool >>= f) := by
  refine first ?_ hf
  unfold readCpRefAny
  exact first readU2 fun _ => ite fail (lift _)

theorem badType {α : Type} : Eats 0 (Cafebabe.badType : P α) := fail

end Eats

/-- A reader that consumes nothing or something, of a simple shape. -/
macro "eat0" : tactic => `(tactic| repeat' (first | with_reducible assumption | exact Eats.pure _ | exact Eats.fail | exact Eats.failCtx | exact Eats.lift _ | exact Eats.failIf | exact Eats.okOr | exact Eats.ensureLength | exact Eats.badType | exact Eats.diverge | exact (Eats.readU1).weaken (Nat.zero_le _) | exact (Eats.readU2).weaken (Nat.zero_le _) | exact (Eats.readU4).weaken (Nat.zero_le _) | with_reducible apply Eats.mapErr | with_reducible refine Eats.first ?_ fun _ => ?_ | with_reducible apply Eats.ite))

theorem readCpUtf8_eats (pool : Pool) : Eats 2 (readCpUtf8 pool) := Eats.cp fun e => by cases e <;> eat0
theorem readCpUtf8Opt_eats (pool : Pool) : Eats 2 (readCpUtf8Opt pool) := Eats.cp fun e => by cases e <;> eat0
theorem readCpClassinfo_eats (pool : Pool) : Eats 2 (readCpClassinfo pool) := Eats.cp fun e => by cases e <;> eat0
theorem readCpClassinfoOpt_eats (pool : Pool) : Eats 2 (readCpClassinfoOpt pool) := Eats.cp fun e => by cases e <;> eat0
theorem readCpModuleinfo_eats (pool : Pool) : Eats 2 (readCpModuleinfo pool) := Eats.cp fun e => by cases e <;> eat0
theorem readCpPackageinfo_eats (pool : Pool) : Eats 2 (readCpPackageinfo pool) := Eats.cp fun e => by cases e <;> eat0
theorem readCpNameandtypeOpt_eats (pool : Pool) : Eats 2 (readCpNameandtypeOpt pool) := Eats.cp fun e => by cases e <;> eat0
theorem readCpLiteralconstant_eats (pool : Pool) : Eats 2 (readCpLiteralconstant pool) := Eats.cp fun e => by cases e <;> eat0
theorem readCpMethodhandle_eats (pool : Pool) : Eats 2 (readCpMethodhandle pool) := Eats.cp fun e => by cases e <;> eat0
theorem readCpBootstrapArgument_eats (pool : Pool) : Eats 2 (readCpBootstrapArgument pool) := Eats.cp fun e => by eat0
theorem readCpInteger_eats (pool : Pool) : Eats 2 (readCpInteger pool) := Eats.cp fun e => by cases e <;> eat0
theorem readCpFloat_eats (pool : Pool) : Eats 2 (readCpFloat pool) := Eats.cp fun e => by cases e <;> eat0
theorem readCpLong_eats (pool : Pool) : Eats 2 (readCpLong pool) := Eats.cp fun e => by cases e <;> eat0
theorem readCpDouble_eats (pool : Pool) : Eats 2 (readCpDouble pool) := Eats.cp fun e => by cases e <;> eat0
theorem readFieldDescriptor_eats (pool : Pool) : Eats 2 (readFieldDescriptor pool) := Eats.first (readCpUtf8_eats pool) fun _ => Eats.lift _
theorem readMethodDescriptor_eats (pool : Pool) : Eats 2 (readMethodDescriptor pool) := Eats.first (readCpUtf8_eats pool) fun _ => Eats.lift _
theorem readClassName_eats (pool : Pool) : Eats 2 (readClassName pool) := Eats.first (readCpClassinfo_eats pool) fun _ => Eats.lift _
theorem readClassNameOpt_eats (pool : Pool) : Eats 2 (readClassNameOpt pool) := Eats.first (readCpClassinfoOpt_eats pool) fun o => by cases o <;> eat0

theorem readExceptionTableEntry_eats (pool : Pool) (i : Nat) : Eats 2 (readExceptionTableEntry pool i) := by
  refine Eats.first Eats.readU2 fun _ => ?_
  have := (readCpClassinfoOpt_eats pool).weaken (Nat.zero_le _)
  eat0

theorem readStackmaptableVerification_eats (pool : Pool) : Eats 1 (readStackmaptableVerification pool) := by
  refine Eats.first Eats.readU1 fun v => ?_
  have := (readCpClassinfo_eats pool).weaken (Nat.zero_le _)
  split <;> eat0

theorem readInnerClassEntry_eats (pool : Pool) (i : Nat) : Eats 2 (readInnerClassEntry pool i) := by
  refine Eats.first (readCpClassinfo_eats pool).mapErr fun _ => ?_
  have := (readCpClassinfoOpt_eats pool).weaken (Nat.zero_le _)
  have := (readCpUtf8Opt_eats pool).weaken (Nat.zero_le _)
  eat0

theorem readLineNumberEntry_eats : Eats 2 readLineNumberEntry := Eats.first Eats.readU2 fun _ => by eat0

theorem readLocalVariableEntry_eats (pool : Pool) (i : Nat) : Eats 2 (readLocalVariableEntry pool i) := by
  refine Eats.first Eats.readU2 fun _ => ?_
  have := (readCpUtf8_eats pool).weaken (Nat.zero_le _)
  have := (readFieldDescriptor_eats pool).weaken (Nat.zero_le _)
  eat0

theorem readLocalVariableTypeEntry_eats (pool : Pool) (i : Nat) : Eats 2 (readLocalVariableTypeEntry pool i) := by
  refine Eats.first Eats.readU2 fun _ => ?_
  have := (readCpUtf8_eats pool).weaken (Nat.zero_le _)
  eat0

theorem readLocalVarTarget_eats : Eats 2 readLocalVarTarget := Eats.first Eats.readU2 fun _ => by eat0

theorem readTargetPathEntry_eats (i j : Nat) : Eats 1 (readTargetPathEntry i j) := by
  refine Eats.first Eats.readU1 fun v => ?_
  cases pathKindOf v <;> eat0

theorem readMethodParameterEntry_eats (pool : Pool) (i : Nat) : Eats 2 (readMethodParameterEntry pool i) :=
  Eats.first (readCpUtf8Opt_eats pool).mapErr fun _ => by eat0

theorem readModuleRequire_eats (pool : Pool) (i : Nat) : Eats 2 (readModuleRequire pool i) := by
  refine Eats.first (readCpModuleinfo_eats pool).mapErr fun _ => ?_
  have := (readCpUtf8Opt_eats pool).weaken (Nat.zero_le _)
  eat0

theorem checkEnd_eats (n : Nat) : Eats 0 (checkEnd n) := fun bytes ix a ix' hix hp => by
  unfold checkEnd at hp
  split at hp
  · cases hp
  · cases hp; exact ⟨Nat.le_refl _, hix⟩

theorem takeSlice_eats (n : Nat) : Eats 0 (takeSlice n) := fun bytes ix a ix' hix hp => by
  unfold takeSlice sliceBytes at hp
  split at hp
  · rename_i h
    cases hp
    omega
  · cases hp

/-- The kinds of attribute whose data contain no table. -/
def Tableless (k : AttrKind) : Prop :=
  k = .constantValue ∨ k = .enclosingMethod ∨ k = .synthetic ∨ k = .signature ∨ k = .sourceFile ∨ k = .sourceDebugExtension ∨ k = .deprecated ∨
    k = .moduleMainClass ∨ k = .nestHost ∨ k = .other

theorem readAttributeData_eats (env : Env) (depth : Nat) (rec : P (List AttributeInfo)) (pool : Pool) (i length : Nat) {k : AttrKind} (h : Tableless k) :
    Eats 0 (readAttributeData env depth rec pool i length k) := by
  have h1 := (readCpLiteralconstant_eats pool).weaken (Nat.zero_le _)
  have h2 := (readCpClassinfo_eats pool).weaken (Nat.zero_le _)
  have h3 := (readCpUtf8_eats pool).weaken (Nat.zero_le _)
  have h4 := (readCpNameandtypeOpt_eats pool).weaken (Nat.zero_le _)
  rcases h with rfl | rfl | rfl | rfl | rfl | rfl | rfl | rfl | rfl | rfl <;> unfold readAttributeData
  case inr.inr.inr.inr.inr.inl =>
    refine Eats.first (takeSlice_eats _) fun data => ?_
    cases env.decode data <;> eat0
  case inr.inr.inr.inr.inr.inr.inr.inr.inr => exact Eats.first (takeSlice_eats _) fun _ => Eats.pure _
  all_goals (eat0)

/-- The constants: at least one byte per slot still to be filled. -/
theorem constantPoolLoop_eats (env : Env) (major count : UInt16) : ∀ (fuel : Nat) (cpIx : UInt16), Eats (count.toNat - cpIx.toNat) (constantPoolLoop env major count fuel cpIx)
  | 0, _ => Eats.diverge
  | fuel + 1, cpIx => by
    have hinc : ∀ {x y : UInt16}, incrU16 env.overflowChecks x = .ok y → x.toNat = 65535 ∨ y.toNat = x.toNat + 1 := by
      intro x y h
      unfold incrU16 at h
      split at h
      · cases h
      · cases h
        have := x.toNat_lt
        rw [UInt16.toNat_add]
        have : (1 : UInt16).toNat = 1 := rfl
        omega
    intro bytes ix entries ix' hix h
    unfold constantPoolLoop at h
    have hcount := count.toNat_lt
    split at h
    · rename_i hlt
      rw [P.bind_ok] at h
      obtain ⟨tag, ix1, h1, h⟩ := h
      rw [P.bind_ok] at h
      obtain ⟨e, ix2, h2, h⟩ := h
      have g1 := Eats.readU1 bytes ix tag ix1 hix h1
      have g2 : ix1 + 0 ≤ ix2 ∧ ix2 ≤ bytes.length := Eats.ofTame (N := 0) (A := fun _ => True) (readConstant_tame env major tag) bytes ix1 e ix2 g1.2 h2
      have g2' : (tag == 5 || tag == 6) = true → ix1 + 1 ≤ ix2 := by
        intro ht
        have h8 : Eats 1 readU8 := (Eats.ofTame (N := 0) (A := fun _ => True) Tame.readU8).weaken (by omega)
        rcases (by simpa using ht : tag = 5 ∨ tag = 6) with rfl | rfl
        · exact ((Eats.first h8 fun _ => Eats.pure _ : Eats 1 readConstantLong) bytes ix1 e ix2 g1.2 h2).1
        · exact ((Eats.first h8 fun _ => Eats.pure _ : Eats 1 readConstantDouble) bytes ix1 e ix2 g1.2 h2).1
      have hl : ∀ {x : Res UInt16} {y : UInt16} {i : Nat}, P.lift x bytes ix2 = .ok (y, i) → x = .ok y ∧ i = ix2 := by
        intro x y i hx
        unfold P.lift at hx
        cases x <;> cases hx
        exact ⟨rfl, rfl⟩
      rw [P.bind_ok] at h
      obtain ⟨c1, ix3, h3, h⟩ := h
      obtain ⟨h3', rfl⟩ := hl h3
      split at h
      · rename_i ht
        have := g2' ht
        rw [P.bind_ok] at h
        obtain ⟨c2, ix4, h4, h⟩ := h
        obtain ⟨h4', rfl⟩ := hl h4
        rw [P.bind_ok] at h
        obtain ⟨rest, ix5, h5, h⟩ := h
        obtain ⟨-, rfl⟩ := Prod.mk.inj (Res.ok.inj h)
        have g5 := constantPoolLoop_eats env major count fuel c2 bytes ix4 rest ix5 g2.2 h5
        have := hinc h3'
        have := hinc h4'
        omega
      · rw [P.bind_ok] at h
        obtain ⟨rest, ix5, h5, h⟩ := h
        obtain ⟨-, rfl⟩ := Prod.mk.inj (Res.ok.inj h)
        have g5 := constantPoolLoop_eats env major count fuel c1 bytes ix3 rest ix5 g2.2 h5
        have := hinc h3'
        omega
    · rename_i hge
      cases h
      have : count.toNat ≤ cpIx.toNat := by
        rw [UInt16.lt_iff_toNat_lt] at hge
        omega
      omega

/-! ## Rows reserved -/

/-- When started at `ix`. -/
def WithinAt {α : Type} (k c : Int) (p : PT α) (bytes : Bytes) (ix : Nat) : Prop :=
  (∀ a ix', (p bytes ix).out = .ok (a, ix') → (ix : Int) + (p bytes ix).steps + k ≤ ix' ∧ ix ≤ ix' ∧ ix' ≤ bytes.length) ∧
  ((p bytes ix).steps : Int) ≤ 21845 * ((bytes.length : Int) - ix) + c

/-- Wherever started inside the input. -/
def Within {α : Type} (k c : Int) (p : PT α) : Prop := ∀ bytes ix, ix ≤ bytes.length → WithinAt k c p bytes ix

theorem WithinAt.bind {α β : Type} {k c k1 c1 : Int} {p : PT α} {f : α → PT β} {bytes : Bytes} {ix : Nat} (hp : WithinAt k1 c1 p bytes ix) (hc : c1 ≤ c)
    (hf : ∀ a ix', (p bytes ix).out = .ok (a, ix') → ix' ≤ bytes.length → WithinAt (k - k1) (c + 21845 * k1) (f a) bytes ix') : WithinAt k c (p >>= f) bytes ix := by
  unfold WithinAt at *
  have hdef : (p >>= f) bytes ix = (p bytes ix >>= fun r => f r.1 bytes r.2) := rfl
  rw [hdef]
  rcases steps_bind (p bytes ix) (fun r => f r.1 bytes r.2) with ⟨⟨a, i⟩, ha, hs⟩ | ⟨hn, hs⟩
  · obtain ⟨h1, h2, h3⟩ := hp.1 a i ha
    obtain ⟨hf1, hf2⟩ := hf a i ha h3
    rw [hs, out_bind, ha, res_bind_ok]
    simp only at hf1 hf2 ⊢
    refine ⟨fun b i' hb => ?_, ?_⟩
    · obtain ⟨g1, g2, g3⟩ := hf1 b i' hb
      exact ⟨by push_cast; omega, by omega, g3⟩
    · push_cast; omega
  · rw [hs]
    refine ⟨fun b i' hb => ?_, by omega⟩
    rw [out_bind] at hb
    cases ho : (p bytes ix).out with
    | ok r => exact absurd ho (hn r)
    | _ => rw [ho] at hb; cases hb

namespace Within

theorem bind {α β : Type} {k c k1 c1 : Int} {p : PT α} {f : α → PT β} (hp : Within k1 c1 p) (hc : c1 ≤ c) (hf : ∀ a, Within (k - k1) (c + 21845 * k1) (f a)) :
    Within k c (p >>= f) := fun bytes ix hix => (hp bytes ix hix).bind hc fun a ix' _ hix' => hf a bytes ix' hix'

theorem mono {α : Type} {k k' c c' : Int} {p : PT α} (h : Within k c p) (hk : k' ≤ k) (hc : c ≤ c') : Within k' c' p := fun bytes ix hix => by
  obtain ⟨h1, h2⟩ := h bytes ix hix
  refine ⟨fun a i ha => ?_, by omega⟩
  have := h1 a i ha
  omega

theorem plain {α : Type} {n : Nat} {k c : Int} {p : P α} (h : Eats n p) (hk : k ≤ n) (hc : 0 ≤ c) : Within k c (PT.plain p) := fun bytes ix hix => by
  refine ⟨fun a i ha => ?_, by show ((0 : Nat) : Int) ≤ _; omega⟩
  have := h bytes ix a i hix ha
  show (ix : Int) + ((0 : Nat) : Int) + k ≤ i ∧ _
  omega

theorem pure {α : Type} {k c : Int} (a : α) (hk : k ≤ 0) (hc : 0 ≤ c) : Within k c (Pure.pure a : PT α) := plain (Eats.pure a) (by omega) hc

theorem fail {α : Type} {k c : Int} {m : String} (hc : 0 ≤ c) : Within k c (PT.fail m : PT α) := fun bytes ix hix =>
  ⟨fun a i ha => (by injection ha), by show ((0 : Nat) : Int) ≤ _; omega⟩

theorem failCtx {α : Type} {k c : Int} {m s : String} (hc : 0 ≤ c) : Within k c (PT.plain (P.failCtx m s) : PT α) := fun bytes ix hix =>
  ⟨fun a i ha => (by injection ha), by show ((0 : Nat) : Int) ≤ _; omega⟩

theorem diverge {α : Type} {k c : Int} (hc : 0 ≤ c) : Within k c (PT.diverge : PT α) := fun bytes ix hix =>
  ⟨fun a i ha => (by injection ha), by show ((0 : Nat) : Int) ≤ _; omega⟩

theorem mapErr {α : Type} {k c : Int} {p : PT α} (h : Within k c p) {s : String} : Within k c (p.mapErr s) := fun bytes ix hix => by
  obtain ⟨h1, h2⟩ := h bytes ix hix
  refine ⟨fun a i ha => h1 a i ?_, h2⟩
  unfold PT.mapErr at ha
  rw [out_mapErr] at ha
  cases ho : (p bytes ix).out with
  | ok r => rw [ho] at ha; exact ha
  | _ => rw [ho] at ha; cases ha

theorem ite {α : Type} {k c : Int} {x : Prop} {i : Decidable x} {p q : PT α} (h : x → Within k c p) (h' : ¬ x → Within k c q) : Within k c (if x then p else q) := by
  split
  · exact h ‹_›
  · exact h' ‹_›

/-- A leaf, then the rest. -/
theorem eat {α β : Type} {n : Nat} {k c : Int} {p : P α} {f : α → PT β} (h : Eats n p) (hc : 0 ≤ c) (hf : ∀ a, Within (k - n) (c + 21845 * n) (f a)) :
    Within k c (PT.plain p >>= f) := bind (plain h (Int.le_refl _) (Int.le_refl _)) hc hf

/-- A leaf with a context, then the rest. -/
theorem eatErr {α β : Type} {n : Nat} {k c : Int} {p : P α} {s : String} {f : α → PT β} (h : Eats n p) (hc : 0 ≤ c) (hf : ∀ a, Within (k - n) (c + 21845 * n) (f a)) :
    Within k c ((PT.plain p).mapErr s >>= f) := bind (mapErr (plain h (Int.le_refl _) (Int.le_refl _))) hc hf

/-- Rows reserved. -/
theorem tick {α : Type} {k c : Int} {n : Nat} {q : PT α} (h : Within (k + n) (c - n) q) : Within k c (PT.tick n >>= fun _ => q) := fun bytes ix hix => by
  obtain ⟨h1, h2⟩ := h bytes ix hix
  have hdef : (PT.tick n >>= fun _ => q) bytes ix = (PT.tick n bytes ix >>= fun r => q bytes r.2) := rfl
  have ht : PT.tick n bytes ix = ⟨.ok ((), ix), n⟩ := by
    unfold PT.tick PT.lift
    rfl
  unfold WithinAt
  rw [hdef, ht]
  have e : ((⟨.ok ((), ix), n⟩ : Timed (Unit × Nat)) >>= fun r => q bytes r.2) = ⟨(q bytes ix).out, n + (q bytes ix).steps⟩ := by
    show Timed.bind _ _ = _
    unfold Timed.bind
    rfl
  rw [e]
  refine ⟨fun a i ha => ?_, by show ((n + _ : Nat) : Int) ≤ _; push_cast; omega⟩
  have := h1 a i ha
  show (ix : Int) + ((n + _ : Nat) : Int) + k ≤ i ∧ _
  push_cast
  omega

theorem forRangeFromR {α : Type} {c : Int} (hc : 0 ≤ c) {f : Nat → PT α} (h : ∀ i, Within 1 c (f i)) : ∀ (n i : Nat), Within n c (Cafebabe.forRangeFromR f i n)
  | 0, _ => pure _ (Int.le_refl _) hc
  | n + 1, i => bind (h i) (Int.le_refl _) fun _ => bind (forRangeFromR hc h n (i + 1)) (by omega) fun _ => pure _ (by push_cast; omega) (by omega)

theorem forRangeR {α : Type} {n : Nat} {k c c1 : Int} (hc : 0 ≤ c1) {f : Nat → PT α} (h : ∀ i, Within 1 c1 (f i)) (hk : k ≤ 0) (hn : c1 + n ≤ c) : Within k c (Cafebabe.forRangeR n f) :=
  tick ((forRangeFromR hc h n 0).mono (by omega) (by omega))

theorem table2 {α : Type} {k c c1 : Int} (hc : 0 ≤ c1) {f : Nat → PT α} (h : ∀ i, Within 1 c1 (f i)) (hk : k ≤ 2) (hn : c1 + 21845 ≤ c) : Within k c (Cafebabe.readTable2R f) :=
  eat Eats.readU2 (by omega) fun count => forRangeR hc h (by omega) (by have := count.toNat_lt; push_cast; omega)

theorem table1 {α : Type} {k c c1 : Int} (hc : 0 ≤ c1) {f : Nat → PT α} (h : ∀ i, Within 1 c1 (f i)) (hk : k ≤ 1) (hn : c1 ≤ c) : Within k c (Cafebabe.readTable1R f) :=
  eat Eats.readU1 (by omega) fun count => forRangeR hc h (by omega) (by have := count.toNat_lt; push_cast; omega)

/-- Rows without tables of their own. -/
theorem rows {α : Type} {n : Nat} {p : P α} (h : Eats (n + 1) p) : Within 1 0 (PT.plain p) := plain h (by omega) (Int.le_refl _)

theorem rowsErr {α : Type} {n : Nat} {p : P α} {s : String} (h : Eats (n + 1) p) : Within 1 0 ((PT.plain p).mapErr s) := mapErr (rows h)

end Within

/-! ## Attributes -/

theorem stackmap_within (pool : Pool) (i : Nat) : Within 1 0 (readStackMapEntryR pool i) := by
  unfold readStackMapEntryR readStackMapEntryBodyR
  have hv := readStackmaptableVerification_eats pool
  refine Within.eat Eats.readU1 (Int.le_refl _) fun v => ?_
  refine Within.ite (fun _ => Within.pure _ (by omega) (by omega)) fun _ => Within.ite (fun _ => ?_) fun _ => Within.ite (fun _ => Within.failCtx (by omega)) fun _ =>
    Within.ite (fun _ => ?_) fun _ => Within.ite (fun _ => ?_) fun _ => Within.ite (fun _ => ?_) fun _ => Within.ite (fun h => ?_) fun _ => ?_
  · exact Within.eatErr hv (by omega) fun _ => Within.pure _ (by omega) (by omega)
  · exact Within.eat Eats.readU2 (by omega) fun _ => Within.eatErr hv (by omega) fun _ => Within.pure _ (by omega) (by omega)
  · exact Within.eat Eats.readU2 (by omega) fun _ => Within.pure _ (by omega) (by omega)
  · exact Within.eat Eats.readU2 (by omega) fun _ => Within.pure _ (by omega) (by omega)
  · refine Within.eat Eats.readU2 (by omega) fun _ => Within.bind (k1 := 0) (c1 := 256) (Within.forRangeR (Int.le_refl _) (fun _ => Within.rowsErr hv) (Int.le_refl _) ?_) (by omega) fun _ =>
      Within.pure _ (by omega) (by omega)
    have := (v - 251).toNat_lt
    omega
  · refine Within.eat Eats.readU2 (by omega) fun _ =>
      Within.bind (k1 := 2) (c1 := 21845) (Within.table2 (Int.le_refl _) (fun _ => Within.rowsErr hv) (Int.le_refl _) (Int.le_refl _)) (by omega) fun _ =>
      Within.bind (k1 := 2) (c1 := 21845) (Within.table2 (Int.le_refl _) (fun _ => Within.rowsErr hv) (Int.le_refl _) (Int.le_refl _)) (by omega) fun _ =>
      Within.pure _ (by omega) (by omega)

theorem annotation_within {rec : PT AnnotationElementValue} (h : Within 1 0 rec) (pool : Pool) : Within 4 0 (readAnnotationWithR rec pool) := by
  unfold readAnnotationWithR
  refine Within.eatErr (readFieldDescriptor_eats pool) (Int.le_refl _) fun _ =>
    Within.bind (k1 := 2) (c1 := 21845) (Within.table2 (Int.le_refl _) (fun i => ?_) (Int.le_refl _) (Int.le_refl _)) (by omega) fun _ => Within.pure _ (by omega) (by omega)
  unfold readAnnotationElementWithR
  exact Within.eatErr (readCpUtf8_eats pool) (Int.le_refl _) fun _ => Within.bind h.mapErr (by omega) fun _ => Within.pure _ (by omega) (by omega)

theorem value_within (pool : Pool) : ∀ depth, Within 1 0 (readAnnotationElementValueR pool depth)
  | 0 => Within.diverge (Int.le_refl _)
  | depth + 1 => by
    have h := value_within pool depth
    unfold readAnnotationElementValueR readElementValueWithR readElementValueBodyR
    refine Within.eat Eats.readU1 (Int.le_refl _) fun v => ?_
    repeat' refine Within.ite (fun _ => ?_) fun _ => ?_
    · exact Within.eat (readCpInteger_eats pool) (by omega) fun _ => Within.pure _ (by omega) (by omega)
    · exact Within.eat (readCpInteger_eats pool) (by omega) fun _ => Within.pure _ (by omega) (by omega)
    · exact Within.eat (readCpDouble_eats pool) (by omega) fun _ => Within.pure _ (by omega) (by omega)
    · exact Within.eat (readCpFloat_eats pool) (by omega) fun _ => Within.pure _ (by omega) (by omega)
    · exact Within.eat (readCpInteger_eats pool) (by omega) fun _ => Within.pure _ (by omega) (by omega)
    · exact Within.eat (readCpLong_eats pool) (by omega) fun _ => Within.pure _ (by omega) (by omega)
    · exact Within.eat (readCpInteger_eats pool) (by omega) fun _ => Within.pure _ (by omega) (by omega)
    · exact Within.eat (readCpInteger_eats pool) (by omega) fun _ => Within.pure _ (by omega) (by omega)
    · exact Within.eat (readCpUtf8_eats pool) (by omega) fun _ => Within.pure _ (by omega) (by omega)
    · exact Within.eatErr (readFieldDescriptor_eats pool) (by omega) fun _ => Within.eat (readCpUtf8_eats pool) (by omega) fun _ => Within.pure _ (by omega) (by omega)
    · exact Within.eat (readCpUtf8_eats pool) (by omega) fun _ => Within.eat (Eats.lift _) (by omega) fun _ => Within.eat Eats.failIf (by omega) fun _ => Within.pure _ (by omega) (by omega)
    · exact Within.bind (annotation_within h pool) (by omega) fun _ => Within.pure _ (by omega) (by omega)
    · exact Within.bind (k1 := 0) (c1 := 21845) (Within.table2 (Int.le_refl _) (fun i => h.mapErr) (by omega) (Int.le_refl _)) (by omega) fun _ => Within.pure _ (by omega) (by omega)
    · exact Within.fail (by omega)

theorem readAnnotationR_within (pool : Pool) (depth : Nat) : Within 4 0 (readAnnotationR pool depth) := annotation_within (value_within pool depth) pool

theorem annotations_within (pool : Pool) (depth : Nat) {g : Nat → String} : Within 2 21845 (readTable2R fun i => (readAnnotationR pool depth).mapErr (g i)) :=
  Within.table2 (Int.le_refl _) (fun _ => ((readAnnotationR_within pool depth).mono (by omega) (Int.le_refl _)).mapErr) (Int.le_refl _) (Int.le_refl _)

theorem typeAnnotation_within (pool : Pool) (depth i : Nat) : Within 1 0 (readTypeAnnotationR pool depth i) := by
  unfold readTypeAnnotationR
  refine Within.eat Eats.readU1 (Int.le_refl _) fun v => Within.bind (k1 := 0) (c1 := 21845) ?_ (by omega) fun _ =>
    Within.bind (k1 := 1) (c1 := 0) (Within.table1 (Int.le_refl _) (fun j => Within.rows (readTargetPathEntry_eats i j)) (Int.le_refl _) (Int.le_refl _)) (by omega) fun _ =>
    Within.bind (readAnnotationR_within pool depth).mapErr (by omega) fun _ => Within.pure _ (by omega) (by omega)
  unfold readTypeAnnotationTargetR
  repeat' refine Within.ite (fun _ => ?_) fun _ => ?_
  · exact Within.eat Eats.readU1 (by omega) fun _ => Within.pure _ (by omega) (by omega)
  · exact Within.eat Eats.readU2 (by omega) fun _ => Within.pure _ (by omega) (by omega)
  · exact Within.eat Eats.readU1 (by omega) fun _ => Within.eat Eats.readU1 (by omega) fun _ => Within.pure _ (by omega) (by omega)
  · exact Within.pure _ (by omega) (by omega)
  · exact Within.eat Eats.readU1 (by omega) fun _ => Within.pure _ (by omega) (by omega)
  · exact Within.eat Eats.readU2 (by omega) fun _ => Within.pure _ (by omega) (by omega)
  · exact Within.bind (k1 := 0) (c1 := 21845) (Within.table2 (Int.le_refl _) (fun _ => Within.rows readLocalVarTarget_eats) (by omega) (Int.le_refl _)) (by omega) fun _ => Within.pure _ (by omega) (by omega)
  · exact Within.eat Eats.readU2 (by omega) fun _ => Within.pure _ (by omega) (by omega)
  · exact Within.eat Eats.readU2 (by omega) fun _ => Within.pure _ (by omega) (by omega)
  · exact Within.eat Eats.readU2 (by omega) fun _ => Within.eat Eats.readU1 (by omega) fun _ => Within.pure _ (by omega) (by omega)
  · exact Within.failCtx (by omega)

/-- A table of rows without tables. -/
theorem flat2 {α : Type} {p : Nat → P α} {g : Nat → String} {n : Nat} (h : ∀ i, Eats (n + 1) (p i)) : Within 2 21845 (readTable2R fun i => (PT.plain (p i)).mapErr (g i)) :=
  Within.table2 (Int.le_refl _) (fun i => Within.rowsErr (h i)) (Int.le_refl _) (Int.le_refl _)

theorem flat2' {α : Type} {p : Nat → P α} {n : Nat} (h : ∀ i, Eats (n + 1) (p i)) : Within 2 21845 (readTable2R fun i => PT.plain (p i)) :=
  Within.table2 (Int.le_refl _) (fun i => Within.rows (h i)) (Int.le_refl _) (Int.le_refl _)

theorem bootstrap_within (pool : Pool) (i : Nat) : Within 1 0 (readBootstrapMethodEntryR pool i) := by
  unfold readBootstrapMethodEntryR
  exact Within.eatErr (readCpMethodhandle_eats pool) (Int.le_refl _) fun _ => Within.bind (flat2 fun _ => readCpBootstrapArgument_eats pool) (by omega) fun _ =>
    Within.pure _ (by omega) (by omega)

theorem module_within (pool : Pool) : Within 0 21845 (readModuleDataR pool) := by
  unfold readModuleDataR
  refine Within.eatErr (readCpModuleinfo_eats pool) (by omega) fun _ => Within.eat Eats.readU2 (by omega) fun _ => Within.eat Eats.okOr (by omega) fun _ =>
    Within.eatErr (readCpUtf8Opt_eats pool) (by omega) fun _ => Within.bind (flat2' fun i => readModuleRequire_eats pool i) (by omega) fun _ =>
    Within.bind (k1 := 2) (c1 := 21845) (Within.table2 (Int.le_refl _) (fun i => ?_) (Int.le_refl _) (Int.le_refl _)) (by omega) fun _ =>
    Within.bind (k1 := 2) (c1 := 21845) (Within.table2 (Int.le_refl _) (fun i => ?_) (Int.le_refl _) (Int.le_refl _)) (by omega) fun _ =>
    Within.bind (flat2 fun _ => readCpClassinfo_eats pool) (by omega) fun _ =>
    Within.bind (k1 := 2) (c1 := 21845) (Within.table2 (Int.le_refl _) (fun i => ?_) (Int.le_refl _) (Int.le_refl _)) (by omega) fun _ => Within.pure _ (by omega) (by omega)
  · unfold readModuleExportsR
    exact Within.eatErr (readCpPackageinfo_eats pool) (by omega) fun _ => Within.eat Eats.readU2 (by omega) fun _ => Within.eatErr Eats.okOr (by omega) fun _ =>
      Within.bind (flat2 fun _ => readCpModuleinfo_eats pool) (by omega) fun _ => Within.pure _ (by omega) (by omega)
  · unfold readModuleOpensR
    exact Within.eatErr (readCpPackageinfo_eats pool) (by omega) fun _ => Within.eat Eats.readU2 (by omega) fun _ => Within.eatErr Eats.okOr (by omega) fun _ =>
      Within.bind (flat2 fun _ => readCpModuleinfo_eats pool) (by omega) fun _ => Within.pure _ (by omega) (by omega)
  · unfold readModuleProvidesR
    exact Within.eatErr (readCpClassinfo_eats pool) (by omega) fun _ => Within.bind (flat2 fun _ => readCpClassinfo_eats pool) (by omega) fun _ => Within.pure _ (by omega) (by omega)

/-! ## Code -/

theorem capacityAt_le {checks : Bool} {code : Bytes} {ix n : Nat} (h : ix ≤ code.length) (hc : capacityAt checks code ix = some n) : n ≤ 2147483647 := by
  obtain ⟨hd, rest, -, ⟨d, low, high, -, h | h, -⟩ | ⟨d, np, h, -⟩⟩ := (capacityAt_some h).mp hc
  · omega
  · omega
  · have := int32_high np; omega

theorem capacitiesLoop_sum {checks : Bool} {pool : Pool} {code : Bytes} : ∀ (fuel ix : Nat), ix ≤ code.length →
    (capacitiesLoop checks pool code fuel ix).sum + ix ≤ code.length + 2147483647
  | 0, ix, h => by simp [capacitiesLoop]; omega
  | fuel + 1, ix, h => by
    unfold capacitiesLoop
    split
    · rw [List.sum_append]
      cases ho : readOpcode checks pool code ix with
      | ok r =>
        obtain ⟨op, ix'⟩ := r
        obtain ⟨seg, rest, hd, hi, rfl⟩ := (readOpcode_exact checks pool ix code h op ix').mp ho
        have hl := length_of_drop_eq h hd
        have ih := capacitiesLoop_sum (checks := checks) (pool := pool) (code := code) fuel (ix + seg.length) (by omega)
        simp only
        rw [capacityAt_insn h hd hi]
        cases hz : tableSize op with
        | none => simp; omega
        | some n =>
          have := tableSize_le hi hz
          simp; omega
      | _ =>
        simp only
        cases hc : capacityAt checks code ix with
        | none => simp; omega
        | some n =>
          have := capacityAt_le h hc
          simp; omega
    · simp; omega

theorem code_within (env : Env) (code : Bytes) (pool : Pool) : Within (-code.length) (code.length + 2147483647) (bytecodeR env code pool) := by
  unfold bytecodeR
  refine Within.ite (fun _ => ?_) fun _ => Within.pure _ (by omega) (by omega)
  intro bytes ix hix
  have hsum : (capacities env.overflowChecks code pool).sum ≤ code.length + 2147483647 := by
    have := capacitiesLoop_sum (checks := env.overflowChecks) (pool := pool) (code := code) (code.length + 1) 0 (Nat.zero_le _)
    unfold capacities; omega
  have hout : ((do let b ← PT.lift ((ByteCode.ofCodeR env.overflowChecks code pool).mapErr "bytecode"); Pure.pure (some b) : PT (Option ByteCode)) bytes ix).out =
      (do let b ← P.lift ((ByteCode.ofCode env.overflowChecks code pool).mapErr "bytecode"); Pure.pure (some b) : P (Option ByteCode)) bytes ix :=
    Erases.bind (Erases.lift (out_mapErr _ _)) (fun _ => Erases.pure _) bytes ix
  have hsteps : ((do let b ← PT.lift ((ByteCode.ofCodeR env.overflowChecks code pool).mapErr "bytecode"); Pure.pure (some b) : PT (Option ByteCode)) bytes ix).steps =
      (capacities env.overflowChecks code pool).sum := by
    show (PT.bind (PT.lift ((ByteCode.ofCodeR env.overflowChecks code pool).mapErr "bytecode")) _ bytes ix).steps = _
    unfold PT.bind PT.lift
    show (Timed.bind (Timed.bind _ _) _).steps = _
    cases ho : ByteCode.ofCode env.overflowChecks code pool <;>
      simp [Timed.bind, Timed.mapErr, ByteCode.ofCodeR, ho, Res.mapErr, Pure.pure]
  unfold WithinAt
  rw [hsteps, hout]
  refine ⟨fun a i ha => ?_, by omega⟩
  rw [P.bind_ok] at ha
  obtain ⟨b, i1, h1, h2⟩ := ha
  cases h2
  unfold P.lift at h1
  cases ho : ByteCode.ofCode env.overflowChecks code pool with
  | ok bc =>
    rw [ho] at h1
    cases h1
    have hbc := ((ofCode_ok _ _ _ _).mp ho).1
    have h4 := C44_proportional hbc
    rw [← C44_valid hbc] at h4
    omega
  | _ => rw [ho] at h1; cases h1

theorem codeData_within {env : Env} {rec : PT (List AttributeInfo)} (h : Within 0 (2147483647 + 21845) rec) (pool : Pool) : Within 0 (2147483647 + 6 * 21845) (readCodeDataWithR env rec pool) := by
  unfold readCodeDataWithR
  refine Within.eat Eats.readU2 (by omega) fun _ => Within.eat Eats.readU2 (by omega) fun _ => Within.eat Eats.readU4 (by omega) fun n => ?_
  refine Within.eat (n := 0) (fun bytes ix a ix' hix h => by cases h; exact ⟨Nat.le_refl _, hix⟩) (by omega) fun _ => ?_
  intro bytes ix hix
  refine (Within.plain (Eats.takeBytes (n := n.toNat)) (Int.le_refl _) (Int.le_refl _) bytes ix hix).bind (by omega) fun code ix' hcode hix' => ?_
  have hlen : code.length = n.toNat := by
    obtain ⟨seg, rest, -, ⟨h1, rfl⟩, -⟩ := (Exact.takeBytes (N := bytes.length + 1) bytes ix hix (by omega) code ix').mp hcode
    exact h1
  refine ((Within.bind (flat2' fun i => readExceptionTableEntry_eats pool i) (by omega) fun _ => Within.bind h.mapErr (by omega) fun _ =>
    Within.bind (code_within env code pool) (by omega) fun _ => Within.pure _ (by omega) (by omega)) : Within _ _ _) bytes ix' hix'

/-! ## Attributes -/

theorem record_within {rec : PT (List AttributeInfo)} (h : Within 0 (2147483647 + 21845) rec) (pool : Pool) : Within 0 (2147483647 + 6 * 21845) (readRecordDataWithR rec pool) := by
  refine Within.table2 (c1 := 2147483647) (by omega) (fun i => ?_) (by omega) (by omega)
  unfold readRecordComponentWithR
  exact Within.eatErr (readCpUtf8_eats pool) (by omega) fun _ => Within.eat Eats.failIf (by omega) fun _ => Within.eatErr (readFieldDescriptor_eats pool) (by omega) fun _ =>
    Within.bind h.mapErr (by omega) fun _ => Within.pure _ (by omega) (by omega)

/-- Giving the data of an attribute a constructor. -/
theorem Within.wrap {α β : Type} {k c : Int} {p : PT α} {s : String} {f : α → β} (h : Within k c p) (hk : 0 ≤ k) (hc : c ≤ 2147483647 + 6 * 21845) :
    Within 0 (2147483647 + 6 * 21845) (p.mapErr s >>= fun a => (Pure.pure (f a) : PT β)) :=
  Within.bind ((h.mono (k' := 0) hk hc).mapErr) (Int.le_refl _) fun _ => Within.pure _ (by omega) (by omega)

theorem attributeData_within (env : Env) (depth : Nat) {rec : PT (List AttributeInfo)} (h : Within 0 (2147483647 + 21845) rec) (pool : Pool) (i length : Nat) (k : AttrKind) :
    Within 0 (2147483647 + 6 * 21845) (readAttributeDataR env depth rec pool i length k) := by
  have plain : ∀ {k : AttrKind}, Tableless k → Within 0 (2147483647 + 6 * 21845) (PT.plain (readAttributeData env depth P.diverge pool i length k)) := fun hk =>
    Within.plain (readAttributeData_eats env depth _ pool i length hk) (by omega) (by omega)
  cases k with
  | code => exact (codeData_within h pool).wrap (by omega) (by omega)
  | stackMapTable => exact (Within.table2 (k := 2) (Int.le_refl _) (stackmap_within pool) (by omega) (Int.le_refl _)).wrap (by omega) (by omega)
  | exceptions => exact (flat2 fun _ => readCpClassinfo_eats pool).wrap (by omega) (by omega)
  | innerClasses => exact (flat2' fun i => readInnerClassEntry_eats pool i).wrap (by omega) (by omega)
  | lineNumberTable => exact (flat2' fun _ => readLineNumberEntry_eats).wrap (by omega) (by omega)
  | localVariableTable => exact (flat2' fun i => readLocalVariableEntry_eats pool i).wrap (by omega) (by omega)
  | localVariableTypeTable => exact (flat2' fun i => readLocalVariableTypeEntry_eats pool i).wrap (by omega) (by omega)
  | runtimeVisibleAnnotations => exact (annotations_within pool depth).wrap (by omega) (by omega)
  | runtimeInvisibleAnnotations => exact (annotations_within pool depth).wrap (by omega) (by omega)
  | runtimeVisibleParameterAnnotations =>
    exact (Within.table1 (k := 1) (c1 := 21845) (by omega) (fun i => Within.bind (annotations_within pool depth) (by omega) fun _ => Within.pure _ (by omega) (by omega)) (by omega) (Int.le_refl _)).wrap (by omega) (by omega)
  | runtimeInvisibleParameterAnnotations =>
    exact (Within.table1 (k := 1) (c1 := 21845) (by omega) (fun i => Within.bind (annotations_within pool depth) (by omega) fun _ => Within.pure _ (by omega) (by omega)) (by omega) (Int.le_refl _)).wrap (by omega) (by omega)
  | runtimeVisibleTypeAnnotations => exact (Within.table2 (k := 2) (Int.le_refl _) (typeAnnotation_within pool depth) (by omega) (Int.le_refl _)).wrap (by omega) (by omega)
  | runtimeInvisibleTypeAnnotations => exact (Within.table2 (k := 2) (Int.le_refl _) (typeAnnotation_within pool depth) (by omega) (Int.le_refl _)).wrap (by omega) (by omega)
  | annotationDefault => exact (value_within pool depth).wrap (by omega) (by omega)
  | bootstrapMethods => exact (Within.table2 (k := 2) (Int.le_refl _) (bootstrap_within pool) (by omega) (Int.le_refl _)).wrap (by omega) (by omega)
  | methodParameters => exact (Within.table1 (k := 1) (Int.le_refl _) (fun i => Within.rows (readMethodParameterEntry_eats pool i)) (by omega) (Int.le_refl _)).wrap (by omega) (by omega)
  | moduleAttr => exact (module_within pool).wrap (by omega) (by omega)
  | modulePackages => exact (flat2 fun _ => readCpPackageinfo_eats pool).wrap (by omega) (by omega)
  | nestMembers => exact (flat2 fun _ => readCpClassinfo_eats pool).wrap (by omega) (by omega)
  | permittedSubclasses => exact (flat2 fun _ => readCpClassinfo_eats pool).wrap (by omega) (by omega)
  | record => exact (record_within h pool).wrap (by omega) (by omega)
  | _ => exact plain (by unfold Tableless; simp)

theorem attributes_within (env : Env) (pool : Pool) : ∀ depth, Within 2 (2147483647 + 21845) (readAttributesR env pool depth)
  | 0 => Within.diverge (by omega)
  | depth + 1 => by
    refine Within.table2 (c1 := 2147483647) (by omega) (fun i => ?_) (by omega) (by omega)
    have h := (attributes_within env pool depth).mono (k' := 0) (by omega) (Int.le_refl _)
    unfold readAttributeWithR
    refine Within.eatErr (readCpUtf8_eats pool) (by omega) fun name => Within.eat Eats.readU4 (by omega) fun length => Within.eat (checkEnd_eats _) (by omega) fun e =>
      Within.bind (attributeData_within env depth h pool i _ _) (by omega) fun data => ?_
    refine Within.eat (n := 0) (fun bytes ix a ix' hix h => by cases h; exact ⟨Nat.le_refl _, hix⟩) (by omega) fun _ => ?_
    exact Within.ite (fun _ => Within.fail (by omega)) fun _ => Within.pure _ (by omega) (by omega)

/-! ## Class files -/

theorem fields_within (env : Env) (pool : Pool) : ∀ (n i : Nat) (seen : List (Str × FieldDescriptor)), Within n 2147483647 (readFieldsFromR env pool seen i n)
  | 0, _, _ => Within.pure _ (Int.le_refl _) (by omega)
  | n + 1, i, seen => by
    unfold readFieldsFromR
    refine Within.bind (k1 := 1) (c1 := 2147483647) ?_ (Int.le_refl _) fun _ => Within.bind (fields_within env pool n _ _) (by omega) fun _ => Within.pure _ (by push_cast; omega) (by omega)
    unfold readFieldR
    exact Within.eat Eats.readU2 (by omega) fun _ => Within.eatErr (readCpUtf8_eats pool) (by omega) fun _ => Within.eat Eats.failIf (by omega) fun _ =>
      Within.eatErr (readCpUtf8_eats pool) (by omega) fun _ => Within.eat (Eats.lift _) (by omega) fun _ => Within.eat Eats.failIf (by omega) fun _ =>
      Within.bind (attributes_within env pool env.depth).mapErr (by omega) fun _ => Within.pure _ (by omega) (by omega)

theorem methods_within (env : Env) (pool : Pool) (b : Bool) (major : UInt16) :
    ∀ (n i : Nat) (seen : List (Str × MethodDescriptor)), Within n 2147483647 (readMethodsFromR env pool b major seen i n)
  | 0, _, _ => Within.pure _ (Int.le_refl _) (by omega)
  | n + 1, i, seen => by
    unfold readMethodsFromR
    refine Within.bind (k1 := 1) (c1 := 2147483647) ?_ (Int.le_refl _) fun _ => Within.bind (methods_within env pool b major n _ _) (by omega) fun _ => Within.pure _ (by push_cast; omega) (by omega)
    unfold readMethodR
    exact Within.eat Eats.readU2 (by omega) fun _ => Within.eatErr (readCpUtf8_eats pool) (by omega) fun _ => Within.eat Eats.failIf (by omega) fun _ =>
      Within.eatErr (readMethodDescriptor_eats pool) (by omega) fun _ => Within.eat Eats.failIf (by omega) fun _ => Within.eat Eats.failIf (by omega) fun _ =>
      Within.eat Eats.failIf (by omega) fun _ => Within.eat Eats.failIf (by omega) fun _ =>
      Within.bind (attributes_within env pool env.depth).mapErr (by omega) fun _ => Within.pure _ (by omega) (by omega)

theorem members_within {α : Type} {q : Nat → PT α} (h : ∀ n : Nat, Within n 2147483647 (q n)) : Within 2 (2147483647 + 21845) (PT.plain readU2 >>= fun count : UInt16 => PT.tick count.toNat >>= fun _ => q count.toNat) :=
  Within.eat Eats.readU2 (by omega) fun count => Within.tick ((h _).mono (by omega) (by have := count.toNat_lt; push_cast; omega))

theorem pool_within (env : Env) (major : UInt16) : Within 1 21845 (readConstantPoolR env major) := by
  unfold readConstantPoolR
  refine Within.bind (k1 := 1) (c1 := 21845) ?_ (Int.le_refl _) fun _ => Within.eat (Eats.lift _) (by omega) fun _ => Within.eat (Eats.lift _) (by omega) fun _ => Within.pure _ (by omega) (by omega)
  unfold readRawPoolR
  refine Within.eat Eats.readU2 (by omega) fun count => Within.tick ?_
  have hcount := count.toNat_lt
  refine Within.eat (n := count.toNat - 1) (fun bytes ix a ix' hix h => ?_) (by push_cast; omega) fun _ => Within.pure _ (by push_cast; omega) (by push_cast; omega)
  exact constantPoolLoop_eats env major count (bytes.length + 1) 1 bytes ix a ix' hix h

theorem classFile_within (env : Env) : Within 0 2147483647 (readClassFileR env) := by
  unfold readClassFileR
  refine Within.eat Eats.readU4 (by omega) fun _ => Within.eat Eats.failIf (by omega) fun _ => Within.eat Eats.readU2 (by omega) fun _ => Within.eat Eats.readU2 (by omega) fun major =>
    Within.bind (pool_within env major) (by omega) fun pool => Within.eat Eats.readU2 (by omega) fun bits =>
    Within.eat (Eats.ofTame (N := 0) (A := fun _ => True) (checkModuleFlags_tame _ _)) (by omega) fun _ =>
    Within.eatErr (readClassName_eats pool) (by omega) fun _ => Within.eatErr (readClassNameOpt_eats pool) (by omega) fun _ =>
    Within.bind (flat2 fun _ => readClassName_eats pool) (by omega) fun _ =>
    Within.bind (members_within fun n : Nat => fields_within env pool n 0 []) (by omega) fun _ =>
    Within.bind (members_within fun n : Nat => methods_within env pool _ major n 0 []) (by omega) fun _ =>
    Within.bind (attributes_within env pool env.depth).mapErr (by omega) fun _ => ?_
  refine Within.eat (n := 0) (fun bytes ix a ix' hix h => ?_) (by omega) fun _ =>
    Within.eat (Eats.ofTame (N := 0) (A := fun _ => True) (checkModuleEmpty_tame _ _ _ _ _)) (by omega) fun _ => Within.eat (Eats.lift _) (by omega) fun _ => Within.pure _ (by omega) (by omega)
  unfold checkAtEnd at h
  split at h
  · cases h
  · cases h; exact ⟨Nat.le_refl _, hix⟩

end Cafebabe
