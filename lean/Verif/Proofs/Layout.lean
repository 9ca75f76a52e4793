import Verif.Spec.Layout
import Verif.Spec.Blame
import Verif.Proofs.BytecodeTrail
import Verif.Proofs.MessageIndex
/-!
# Proofs: readers follow their layouts
-/

namespace Cafebabe
open Spec

/-- What `p` reads are these parts, and its errors are about the first part that is wrong. -/
def Follows0 {α : Type} (pool : Pool) (p : P α) (ps : List Part) : Prop := ∀ (bytes : Bytes) (ix : Nat), ix ≤ bytes.length →
  (∀ a ix', p bytes ix = .ok (a, ix') → ∃ s rest, bytes.drop ix = s ++ rest ∧ ix' = ix + s.length ∧ AllFit pool ps s) ∧
  ∀ e, p bytes ix = .err e → FirstFault pool ps (bytes.drop ix) e

theorem allFit_append {pool : Pool} {ps qs : List Part} {s t : Bytes} (h : AllFit pool ps s) (h' : AllFit pool qs t) : AllFit pool (ps ++ qs) (s ++ t) := by
  induction ps generalizing s with
  | nil => cases h; exact h'
  | cons p ps ih =>
    cases h with
    | cons h1 h2 =>
      rw [List.append_assoc]
      exact .cons h1 (ih h2)

theorem allFit_one {pool : Pool} {p : Part} {s : Bytes} (h : Fits pool p s) : AllFit pool [p] s := by
  simpa using AllFit.cons h AllFit.nil

theorem firstFault_left {pool : Pool} {ps : List Part} (qs : List Part) {t : Bytes} {e : ParseError} (h : FirstFault pool ps t e) :
    FirstFault pool (ps ++ qs) t e := by
  cases h with
  | mk h1 h2 => simpa using FirstFault.mk h1 h2

theorem firstFault_right {pool : Pool} {ps qs : List Part} {s t : Bytes} {e : ParseError} (hs : AllFit pool ps s) (h : FirstFault pool qs t e) :
    FirstFault pool (ps ++ qs) (s ++ t) e := by
  cases h with
  | @mk _ after _ _ _ _ h1 h2 =>
    have := FirstFault.mk (after := after) (allFit_append hs h1) h2
    simpa using this

theorem firstFault_one {pool : Pool} {p : Part} {t : Bytes} {e : ParseError} (h : Faulty pool p t e) : FirstFault pool [p] t e :=
  FirstFault.mk (before := []) (after := []) AllFit.nil h

section
variable {α β : Type} {pool : Pool}

theorem Follows0.pure (a : α) : Follows0 pool (Pure.pure a : P α) [] := fun bytes ix _ =>
  ⟨fun b ix' h => by cases h; exact ⟨[], _, rfl, rfl, .nil⟩, fun e h => by cases h⟩

theorem Follows0.diverge {ps : List Part} : Follows0 pool (P.diverge : P α) ps := fun _ _ _ => ⟨fun _ _ h => (by cases h), fun _ h => by cases h⟩

theorem Follows0.bind {p : P α} {f : α → P β} {ps qs : List Part} (hp : Follows0 pool p ps) (hf : ∀ a, Follows0 pool (f a) qs) :
    Follows0 pool (p >>= f) (ps ++ qs) := by
  intro bytes ix hix
  obtain ⟨ho, he⟩ := hp bytes ix hix
  constructor
  · intro b ix'' h
    obtain ⟨a, ix', ha, h⟩ := P.bind_ok.mp h
    obtain ⟨s, rest, hs, rfl, hps⟩ := ho a ix' ha
    have hl := length_of_drop_eq hix hs
    obtain ⟨s', rest', hs', rfl, hqs⟩ := (hf a bytes _ (by omega)).1 b ix'' h
    rw [drop_of_drop_eq hs] at hs'
    exact ⟨s ++ s', rest', by rw [hs, hs', List.append_assoc], by simp; omega, allFit_append hps hqs⟩
  · intro e h
    rcases P.bind_errs.mp h with h | ⟨a, ix', ha, h⟩
    · exact firstFault_left qs (he e h)
    · obtain ⟨s, rest, hs, rfl, hps⟩ := ho a ix' ha
      have hl := length_of_drop_eq hix hs
      have := (hf a bytes _ (by omega)).2 e h
      rw [drop_of_drop_eq hs] at this
      rw [hs]
      exact firstFault_right hps this

theorem Follows0.cons {p : P α} {f : α → P β} {x : Part} {xs : List Part} (hp : Follows0 pool p [x]) (hf : ∀ a, Follows0 pool (f a) xs) :
    Follows0 pool (p >>= f) (x :: xs) := Follows0.bind hp hf

/-- The last part of a record. -/
theorem Follows0.last {p : P α} {f : α → β} {ps : List Part} (hp : Follows0 pool p ps) : Follows0 pool (p >>= fun a => (Pure.pure (f a) : P β)) ps := by
  have := Follows0.bind (f := fun a => (Pure.pure (f a) : P β)) hp fun a => Follows0.pure (f a)
  rwa [List.append_nil] at this

theorem Follows0.within {p : P α} {ps : List Part} (hp : Follows0 pool p ps) (c : String) : Follows0 pool (p.mapErr c) [.within c ps] := by
  intro bytes ix hix
  obtain ⟨ho, he⟩ := hp bytes ix hix
  constructor
  · intro a ix' h
    have h' : p bytes ix = .ok (a, ix') := by
      unfold P.mapErr Res.mapErr at h
      cases hq : p bytes ix with
      | ok x => rw [hq] at h; cases h; rfl
      | err e => rw [hq] at h; cases h
      | panic k => rw [hq] at h; cases h
      | diverge => rw [hq] at h; cases h
    obtain ⟨s, rest, h1, h2, h3⟩ := ho a ix' h'
    exact ⟨s, rest, h1, h2, allFit_one (.within h3)⟩
  · intro e h
    obtain ⟨e', rfl, h'⟩ := mapErr_errs h
    exact firstFault_one (.within (he e' h'))

theorem Follows0.word : Follows0 pool readU2 [Spec.word] := by
  intro bytes ix hix
  constructor
  · intro a ix' h
    obtain ⟨seg, rest, hd, rfl, rfl⟩ := (Exact.readU2 (N := bytes.length + 1) bytes ix hix (by omega) a ix').mp h
    exact ⟨_, rest, hd, rfl, allFit_one (.number rfl)⟩
  · intro e h
    obtain ⟨h1, rfl⟩ := readU2_err h
    exact firstFault_one (.number (by simp; omega) ⟨ix, rfl⟩)

theorem Follows0.octet : Follows0 pool readU1 [Spec.octet] := by
  intro bytes ix hix
  constructor
  · intro a ix' h
    obtain ⟨seg, rest, hd, rfl, rfl⟩ := (Exact.readU1 (N := bytes.length + 1) bytes ix hix (by omega) a ix').mp h
    exact ⟨_, rest, hd, rfl, allFit_one (.number rfl)⟩
  · intro e h
    obtain ⟨h1, rfl⟩ := readU1_err h
    exact firstFault_one (.number (by simp; omega) ⟨ix, rfl⟩)

/-- What is said about the index of a constant: `about` are the messages about unsuitable constants. -/
def IndexErrs (L : Nat) (pool : Pool) (about : Nat → String → Prop) (s : Bytes) (e : ParseError) : Prop :=
  (s.length < 2 ∧ e = cutOff L "u2" s) ∨
  (∃ (i : UInt16) (t : Bytes), s = u2 i ++ t ∧ pool.length ≤ i.toNat ∧ e = plainly s!"Out-of-bounds index {i.toNat} in constant pool reference") ∨
  ∃ (i : UInt16) (t : Bytes) (m : String), s = u2 i ++ t ∧ about i.toNat m ∧ e = plainly m

/-- A reader of the index of a constant. -/
structure RefReader (pool : Pool) (p : P α) (At : Nat → α → Prop) (about : Nat → String → Prop) : Prop where
  exact : ∀ N, Exact N p (fun a => ref fun i => At i a)
  err : ∀ {code : Bytes} {ix : Nat} {e : ParseError}, ix ≤ code.length → p code ix = .err e → readU2 code ix = .err e ∨
    ∃ (i : UInt16) (rest : Bytes), code.drop ix = u2 i ++ rest ∧ (∀ a, ¬ At i.toNat a) ∧ ConstantSays pool i.toNat e
  names : ∀ major, PoolOK major pool → ∀ L N, Names anyError L N p (IndexErrs L pool about)

theorem RefReader.mk' {f : Entry → P α} {At : Nat → α → Prop} {about : Nat → String → Prop}
    (hx : ∀ N, Exact N (readCpRefAny pool >>= f) (fun a => ref fun i => At i a)) (hf : ∀ en, PComplains (f en))
    (hn : ∀ major, PoolOK major pool → ∀ (i : Nat) (en : Entry), pool[i]? = some en → ∀ bytes ix e, f en bytes ix = .err e ↔ ∃ m, about i m ∧ e = plainly m)
    (hr : ∀ i m, about i m → i < pool.length) : RefReader pool (readCpRefAny pool >>= f) At about where
  exact := hx
  err := fun hix h => ref_err hx hf hix h
  names := fun major hok L N => by
    intro bytes ix h1 h2 h3 e _
    refine ((refAny_names (C := anyError) (L := L) (N := N) (pool := pool) (f := f)
      (S := fun en e => ∃ i : Nat, pool[i]? = some en ∧ ∃ m, about i m ∧ e = plainly m) fun i en hi => ?_).congr fun s e _ => ?_)
      bytes ix h1 h2 h3 e trivial
    · intro bytes ix _ _ _ e _
      rw [hn major hok _ _ hi bytes ix e]
      constructor
      · intro h; exact ⟨i, hi, h⟩
      · rintro ⟨i', hi', h⟩
        exact (hn major hok _ _ hi bytes ix e).mp ((hn major hok _ _ hi' bytes ix e).mpr h)
    · refine or_congr_right (or_congr_right ?_)
      constructor
      · rintro ⟨i, t, en, rfl, hi, i', hi', h⟩
        obtain ⟨m, hm⟩ := (hn major hok _ _ hi [] 0 e).mp ((hn major hok _ _ hi' [] 0 e).mpr h)
        exact ⟨i, t, m, rfl, hm⟩
      · rintro ⟨i, t, m, rfl, hm, he⟩
        have := hr _ _ hm
        exact ⟨i, t, _, rfl, List.getElem?_eq_getElem this, _, List.getElem?_eq_getElem this, m, hm, he⟩

/-- A reader that accepts the constants of some kind. -/
theorem RefReader.kinds {f : Entry → P α} {At : Nat → α → Prop} {K : Entry → Prop}
    (hx : ∀ N, Exact N (readCpRefAny pool >>= f) (fun a => ref fun i => At i a)) (hf : ∀ en, PComplains (f en))
    (hk : ∀ major, PoolOK major pool → ∀ (i : Nat) (en : Entry), pool[i]? = some en → (K en ∧ ∀ bytes ix e, f en bytes ix ≠ .err e) ∨
      (¬ K en ∧ ∀ bytes ix, f en bytes ix = .err (plainly "Unexpected constant pool reference type"))) :
    RefReader pool (readCpRefAny pool >>= f) At (wrongKind pool K) := by
  refine .mk' hx hf (fun major hok i en hi bytes ix e => ?_) fun i m h => ?_
  · rcases hk major hok i en hi with ⟨hK, hq⟩ | ⟨hK, hq⟩
    · refine ⟨fun h => absurd h (hq _ _ _), ?_⟩
      rintro ⟨m, ⟨⟨en', h1, h2⟩, -⟩, -⟩
      rw [hi] at h1
      cases h1
      exact absurd hK h2
    · rw [hq]
      constructor
      · intro h; cases h; exact ⟨_, ⟨⟨en, hi, hK⟩, rfl⟩, rfl⟩
      · rintro ⟨m, ⟨-, rfl⟩, rfl⟩; rfl
  · obtain ⟨⟨en, h, -⟩, -⟩ := h
    exact (List.getElem?_eq_some_iff.mp h).1

theorem Follows0.constant {p : P α} {At : Nat → α → Prop} {about : Nat → String → Prop} (h : RefReader pool p At about) :
    Follows0 pool p [.constant (fun i => ∃ a, At i a) about] := by
  intro bytes ix hix
  constructor
  · intro a ix' ha
    obtain ⟨seg, rest, hd, ⟨i, hi, rfl⟩, rfl⟩ := (h.exact (bytes.length + 1) bytes ix hix (by omega) a ix').mp ha
    exact ⟨_, rest, hd, rfl, allFit_one (.constant ⟨a, hi⟩)⟩
  · intro e he
    rcases h.err hix he with h1 | ⟨i, rest, hd, hn, hs⟩
    · obtain ⟨h1, rfl⟩ := readU2_err h1
      exact firstFault_one (.noIndex (by simp; omega) ⟨ix, rfl⟩)
    · rw [hd]
      exact firstFault_one (.constant (fun ⟨a, ha⟩ => hn a ha) hs)

/-- The index of a constant that is then looked at. -/
theorem Follows0.judged {p q : P α} {At : Nat → α → Prop} {about : Nat → String → Prop} {chk : α → P β} {cs : List String} {fine : Nat → Prop} {m : String} (h : RefReader pool p At about)
    (hok : ∀ bytes ix x, q bytes ix = .ok x → p bytes ix = .ok x)
    (herr : ∀ bytes ix e, q bytes ix = .err e → ∃ e', p bytes ix = .err e' ∧ (e'.contexts = [] → e = ⟨e'.msg, cs⟩))
    (hchk : ∀ i a, At i a → (fine i ∧ ∃ g, chk a = Pure.pure g) ∨ (¬ fine i ∧ chk a = P.fail m)) :
    Follows0 pool (q >>= chk) [.judged cs (fun i => ∃ a, At i a) about fine m] := by
  intro bytes ix hix
  constructor
  · intro _ ix'' hb
    obtain ⟨a, ix', ha, hb⟩ := P.bind_ok.mp hb
    obtain ⟨seg, rest, hd, ⟨i, hi, rfl⟩, rfl⟩ := (h.exact (bytes.length + 1) bytes ix hix (by omega) a ix').mp (hok _ _ _ ha)
    rcases hchk _ a hi with ⟨hf, g, hc⟩ | ⟨hf, hc⟩
    · rw [hc] at hb
      cases hb
      exact ⟨_, rest, hd, rfl, allFit_one (.judged ⟨a, hi⟩ hf)⟩
    · rw [hc] at hb
      cases hb
  · intro e he
    rcases P.bind_errs.mp he with he | ⟨a, ix', ha, he⟩
    · obtain ⟨e', he', hc⟩ := herr _ _ _ he
      rcases h.err hix he' with h1 | ⟨i, rest, hd, hn, hs⟩
      · obtain ⟨h1, rfl⟩ := readU2_err h1
        rw [hc rfl]
        exact firstFault_one (.noJudged (by simp; omega) ⟨ix, rfl⟩)
      · rw [hd, hc hs.1]
        exact firstFault_one (.notOk (fun ⟨a, ha⟩ => hn a ha) hs)
    · obtain ⟨seg, rest, hd, ⟨i, hi, rfl⟩, rfl⟩ := (h.exact (bytes.length + 1) bytes ix hix (by omega) a ix').mp (hok _ _ _ ha)
      rcases hchk _ a hi with ⟨hf, g, hc⟩ | ⟨hf, hc⟩
      · rw [hc] at he
        cases he
      · rw [hc] at he
        cases he
        rw [hd]
        exact firstFault_one (.notFine ⟨a, hi⟩ hf)

theorem Follows0.judgedIn {p : P α} {At : Nat → α → Prop} {about : Nat → String → Prop} {chk : α → P β} {c : String} {fine : Nat → Prop} {m : String} (h : RefReader pool p At about)
    (hchk : ∀ i a, At i a → (fine i ∧ ∃ g, chk a = Pure.pure g) ∨ (¬ fine i ∧ chk a = P.fail m)) :
    Follows0 pool (p.mapErr c >>= chk) [.judged [c] (fun i => ∃ a, At i a) about fine m] := by
  refine Follows0.judged h (fun bytes ix x hx => ?_) (fun bytes ix e he => ?_) hchk
  · unfold P.mapErr Res.mapErr at hx
    cases hq : p bytes ix with
    | ok x => rw [hq] at hx; cases hx; rfl
    | err e => rw [hq] at hx; cases hx
    | panic k => rw [hq] at hx; cases hx
    | diverge => rw [hq] at hx; cases hx
  · obtain ⟨e', rfl, h'⟩ := mapErr_errs he
    exact ⟨e', h', fun hc => by simp [ParseErrorIn, hc]⟩

/-- Flags of which no others may be set. -/
theorem Follows0.flags {mask : UInt16} {e : ParseError} {k : UInt16 → P UInt16} (hk : ∀ v, k v = match fromBits mask v with
      | some x => (Pure.pure x : P _)
      | none => fun _ _ => .err e) : Follows0 pool (readU2 >>= k) [.flags mask e] := by
  intro bytes ix hix
  constructor
  · intro a ix'' h
    obtain ⟨v, ix', hv, h⟩ := P.bind_ok.mp h
    obtain ⟨seg, rest, hd, rfl, rfl⟩ := (Exact.readU2 (N := bytes.length + 1) bytes ix hix (by omega) v ix').mp hv
    rw [hk] at h
    cases hm : fromBits mask v with
    | none => rw [hm] at h; cases h
    | some x =>
      rw [hm] at h
      cases h
      obtain ⟨rfl, h2⟩ := fromBits_some.mp hm
      exact ⟨_, rest, hd, rfl, allFit_one (.flags h2)⟩
  · intro e' h
    rcases P.bind_errs.mp h with h | ⟨v, ix', hv, h⟩
    · obtain ⟨h1, rfl⟩ := readU2_err h
      exact firstFault_one (.noFlags (by simp; omega) ⟨ix, rfl⟩)
    · obtain ⟨seg, rest, hd, rfl, rfl⟩ := (Exact.readU2 (N := bytes.length + 1) bytes ix hix (by omega) v ix').mp hv
      rw [hk] at h
      cases hm : fromBits mask v with
      | some x => rw [hm] at h; cases h
      | none =>
        rw [hm] at h
        cases h
        rw [hd]
        refine firstFault_one (.flags fun hv => ?_)
        rw [fromBits_some.mpr ⟨rfl, hv⟩] at hm
        cases hm

theorem flagsIn {mask v : UInt16} {m c : String} : P.mapErr (P.okOr (fromBits mask v) m) c = match fromBits mask v with
    | some x => (Pure.pure x : P _)
    | none => fun _ _ => .err ⟨m, [c]⟩ := by
  cases fromBits mask v <;> rfl

theorem flagsBare {mask v : UInt16} {m : String} : P.okOr (fromBits mask v) m = match fromBits mask v with
    | some x => (Pure.pure x : P _)
    | none => fun _ _ => .err ⟨m, []⟩ := by
  cases fromBits mask v <;> rfl

theorem Follows0.forRangeFrom {f : Nat → P α} {row : Nat → List Part} (hf : ∀ i, Follows0 pool (f i) (row i)) :
    ∀ n i : Nat, Follows0 pool (P.forRangeFrom f i n) ((List.range' i n).flatMap row)
  | 0, i => Follows0.pure []
  | n + 1, i => by
    rw [List.range'_succ, List.flatMap_cons]
    exact Follows0.bind (hf i) fun x => Follows0.last (Follows0.forRangeFrom hf n (i + 1))

theorem Follows0.forRange {f : Nat → P α} {row : Nat → List Part} (hf : ∀ i, Follows0 pool (f i) (row i)) (n : Nat) :
    Follows0 pool (P.forRange n f) (rows n row) := by
  unfold rows
  rw [List.range_eq_range']
  exact Follows0.forRangeFrom hf n 0

theorem Follows0.table2 {f : Nat → P α} {row : Nat → List Part} (hf : ∀ i, Follows0 pool (f i) (row i)) : Follows0 pool (readTable2 f) [.table2 row] := by
  intro bytes ix hix
  constructor
  · intro a ix'' h
    obtain ⟨n, ix', hn, h⟩ := P.bind_ok.mp h
    obtain ⟨seg, rest, hd, rfl, rfl⟩ := (Exact.readU2 (N := bytes.length + 1) bytes ix hix (by omega) n ix').mp hn
    have hl := length_of_drop_eq hix hd
    obtain ⟨s, rest', hs, rfl, hfit⟩ := (Follows0.forRange hf n.toNat bytes _ (by omega)).1 a ix'' h
    rw [drop_of_drop_eq hd] at hs
    exact ⟨u2 n ++ s, rest', by rw [hd, hs, List.append_assoc], by simp; omega, allFit_one (.table2 hfit)⟩
  · intro e h
    rcases P.bind_errs.mp h with h | ⟨n, ix', hn, h⟩
    · obtain ⟨h1, rfl⟩ := readU2_err h
      exact firstFault_one (.noCount2 (by simp; omega) ⟨ix, rfl⟩)
    · obtain ⟨seg, rest, hd, rfl, rfl⟩ := (Exact.readU2 (N := bytes.length + 1) bytes ix hix (by omega) n ix').mp hn
      have hl := length_of_drop_eq hix hd
      have := (Follows0.forRange hf n.toNat bytes _ (by omega)).2 e h
      rw [drop_of_drop_eq hd] at this
      rw [hd]
      exact firstFault_one (.table2 this)

theorem Follows0.table1 {f : Nat → P α} {row : Nat → List Part} (hf : ∀ i, Follows0 pool (f i) (row i)) : Follows0 pool (readTable1 f) [.table1 row] := by
  intro bytes ix hix
  constructor
  · intro a ix'' h
    obtain ⟨n, ix', hn, h⟩ := P.bind_ok.mp h
    obtain ⟨seg, rest, hd, rfl, rfl⟩ := (Exact.readU1 (N := bytes.length + 1) bytes ix hix (by omega) n ix').mp hn
    have hl := length_of_drop_eq hix hd
    obtain ⟨s, rest', hs, rfl, hfit⟩ := (Follows0.forRange hf n.toNat bytes _ (by omega)).1 a ix'' h
    rw [drop_of_drop_eq hd] at hs
    exact ⟨u1 n ++ s, rest', by rw [hd, hs, List.append_assoc], by simp; omega, allFit_one (.table1 hfit)⟩
  · intro e h
    rcases P.bind_errs.mp h with h | ⟨n, ix', hn, h⟩
    · obtain ⟨h1, rfl⟩ := readU1_err h
      rw [List.drop_eq_nil_of_le (by omega)]
      exact firstFault_one (.noCount1 ⟨ix, rfl⟩)
    · obtain ⟨seg, rest, hd, rfl, rfl⟩ := (Exact.readU1 (N := bytes.length + 1) bytes ix hix (by omega) n ix').mp hn
      have hl := length_of_drop_eq hix hd
      have := (Follows0.forRange hf n.toNat bytes _ (by omega)).2 e h
      rw [drop_of_drop_eq hd] at this
      rw [hd]
      exact firstFault_one (.table1 this)

/-- `body` does what the tag says. -/
def Bodies0 (pool : Pool) (body : UInt8 → P α) (follow : UInt8 → Option (List Part)) (c : UInt8 → ParseError) : Prop :=
  ∀ b, (∃ ps, follow b = some ps ∧ Follows0 pool (body b) ps) ∨ (follow b = none ∧ ∀ bytes ix, body b bytes ix = .err (c b))

theorem tag_cases {body : UInt8 → P α} {follow : UInt8 → Option (List Part)} {c : UInt8 → ParseError} (hb : Bodies0 pool body follow c)
    {bytes : Bytes} {ix : Nat} (hix : ix ≤ bytes.length) :
    (∀ a ix', (readU1 >>= body) bytes ix = .ok (a, ix') → ∃ b ps s rest, bytes.drop ix = b :: (s ++ rest) ∧ ix' = ix + (s.length + 1) ∧
      follow b = some ps ∧ AllFit pool ps s) ∧
    ∀ e, (readU1 >>= body) bytes ix = .err e → (bytes.drop ix = [] ∧ CutOff "u1" e) ∨ (∃ b t, bytes.drop ix = b :: t ∧ follow b = none ∧ e = c b) ∨
      ∃ b ps t, bytes.drop ix = b :: t ∧ follow b = some ps ∧ FirstFault pool ps t e := by
  constructor
  · intro a ix'' h
    obtain ⟨n, ix', hn, h⟩ := P.bind_ok.mp h
    obtain ⟨seg, rest, hd, rfl, rfl⟩ := (Exact.readU1 (N := bytes.length + 1) bytes ix hix (by omega) n ix').mp hn
    have hl := length_of_drop_eq hix hd
    rcases hb n with ⟨ps, hps, hf⟩ | ⟨-, hf⟩
    · obtain ⟨s, rest', hs, rfl, hfit⟩ := (hf bytes _ (by omega)).1 a ix'' h
      rw [drop_of_drop_eq hd] at hs
      refine ⟨n, ps, s, rest', by rw [hd, hs]; rfl, ?_, hps, hfit⟩
      have : (u1 n).length = 1 := rfl
      omega
    · rw [hf] at h
      cases h
  · intro e h
    rcases P.bind_errs.mp h with h | ⟨n, ix', hn, h⟩
    · obtain ⟨h1, rfl⟩ := readU1_err h
      exact .inl ⟨List.drop_eq_nil_of_le (by omega), ix, rfl⟩
    · obtain ⟨seg, rest, hd, rfl, rfl⟩ := (Exact.readU1 (N := bytes.length + 1) bytes ix hix (by omega) n ix').mp hn
      have hl := length_of_drop_eq hix hd
      rcases hb n with ⟨ps, hps, hf⟩ | ⟨hps, hf⟩
      · have := (hf bytes _ (by omega)).2 e h
        rw [drop_of_drop_eq hd] at this
        exact .inr (.inr ⟨n, ps, rest, hd, hps, this⟩)
      · rw [hf] at h
        cases h
        exact .inr (.inl ⟨n, rest, hd, hps, rfl⟩)

theorem Follows0.tagged {body : UInt8 → P α} {follow : UInt8 → Option (List Part)} {c : UInt8 → ParseError} (hb : Bodies0 pool body follow c) :
    Follows0 pool (readU1 >>= body) [.tagged follow c] := by
  intro bytes ix hix
  obtain ⟨ho, he⟩ := tag_cases hb hix
  constructor
  · intro a ix' h
    obtain ⟨b, ps, s, rest, hd, rfl, hps, hfit⟩ := ho a ix' h
    exact ⟨b :: s, rest, hd, by simp, allFit_one (.tagged hps hfit)⟩
  · intro e h
    rcases he e h with ⟨hd, hc⟩ | ⟨b, t, hd, hn, rfl⟩ | ⟨b, ps, t, hd, hps, hf⟩ <;> rw [hd]
    · exact firstFault_one (.noTag hc)
    · exact firstFault_one (.tag hn)
    · exact firstFault_one (.tagged hps hf)

theorem Follows0.element {body : UInt8 → P α} (hb : Bodies0 pool body (elementParts pool) fun b => ⟨s!"Unrecognized discriminant {Char.ofNat b.toNat}", []⟩) :
    Follows0 pool (readU1 >>= body) [.elementValue] := by
  intro bytes ix hix
  obtain ⟨ho, he⟩ := tag_cases hb hix
  constructor
  · intro a ix' h
    obtain ⟨b, ps, s, rest, hd, rfl, hps, hfit⟩ := ho a ix' h
    exact ⟨b :: s, rest, hd, by simp, allFit_one (.elementValue hps hfit)⟩
  · intro e h
    rcases he e h with ⟨hd, hc⟩ | ⟨b, t, hd, hn, rfl⟩ | ⟨b, ps, t, hd, hps, hf⟩ <;> rw [hd]
    · exact firstFault_one (.noElementTag hc)
    · exact firstFault_one (.elementTag hn)
    · exact firstFault_one (.elementValue hps hf)

end

/-! ## Bytes that follow the layout are read -/

/-- Bytes with this layout can be read. -/
def Meets {α : Type} (N : Nat) (pool : Pool) (p : P α) (ps : List Part) : Prop := ∀ (bytes : Bytes) (ix : Nat), ix ≤ bytes.length →
  bytes.length < ix + N → ∀ s rest, bytes.drop ix = s ++ rest → AllFit pool ps s → ∃ a, p bytes ix = .ok (a, ix + s.length)

/-- With a valid constant pool, the errors are exactly those for the first part that is wrong. -/
def Named {α : Type} (N : Nat) (pool : Pool) (p : P α) (ps : List Part) : Prop := ∀ major, PoolOK major pool → ∀ L,
  Names anyError L N p (FirstBlame L pool ps)

/-- What `p` reads are these parts, its errors are about the first part that is wrong, and it reads all that has this layout. -/
def Follows {α : Type} (N : Nat) (pool : Pool) (p : P α) (ps : List Part) : Prop := Follows0 pool p ps ∧ Meets N pool p ps ∧ Named N pool p ps

theorem firstBlame_nil {L : Nat} {pool : Pool} {t : Bytes} {e : ParseError} : ¬ FirstBlame L pool [] t e := fun h => by cases h

theorem firstBlame_one {L : Nat} {pool : Pool} {p : Part} {t : Bytes} {e : ParseError} : FirstBlame L pool [p] t e ↔ Blamed L pool p t e := by
  constructor
  · intro h
    cases h with
    | here h => exact h
    | later _ h => exact absurd h firstBlame_nil
  · exact .here

theorem firstBlame_append {L : Nat} {pool : Pool} {ps qs : List Part} {t : Bytes} {e : ParseError} : FirstBlame L pool (ps ++ qs) t e ↔
    FirstBlame L pool ps t e ∨ ∃ s t', t = s ++ t' ∧ AllFit pool ps s ∧ FirstBlame L pool qs t' e := by
  induction ps generalizing t with
  | nil =>
    constructor
    · intro h; exact .inr ⟨[], t, rfl, .nil, h⟩
    · rintro (h | ⟨s, t', rfl, h, h'⟩)
      · exact absurd h firstBlame_nil
      · cases h; exact h'
  | cons p ps ih =>
    constructor
    · intro h
      cases h with
      | here h => exact .inl (.here h)
      | later hs h =>
        rcases ih.mp h with h | ⟨s, t', rfl, h, h'⟩
        · exact .inl (.later hs h)
        · exact .inr ⟨_, t', (List.append_assoc _ _ _).symm, .cons hs h, h'⟩
    · rintro (h | ⟨s, t', rfl, h, h'⟩)
      · cases h with
        | here h => exact .here h
        | later hs h => exact .later hs (ih.mpr (.inl h))
      · cases h with
        | cons hs h =>
          rw [List.append_assoc]
          exact .later hs (ih.mpr (.inr ⟨_, t', rfl, h, h'⟩))

theorem allFit_split {pool : Pool} : ∀ {ps qs : List Part} {s : Bytes}, AllFit pool (ps ++ qs) s → ∃ a b, s = a ++ b ∧ AllFit pool ps a ∧ AllFit pool qs b
  | [], _, s, h => ⟨[], s, rfl, .nil, h⟩
  | p :: ps, qs, s, h => by
    cases h with
    | cons h1 h2 =>
      obtain ⟨a, b, rfl, ha, hb⟩ := allFit_split h2
      exact ⟨_, b, (List.append_assoc _ _ _).symm, .cons h1 ha, hb⟩

theorem allFit_single {pool : Pool} {p : Part} {s : Bytes} (h : AllFit pool [p] s) : Fits pool p s := by
  cases h with
  | cons h1 h2 =>
    cases h2
    rwa [List.append_nil]

section
variable {α β : Type} {pool : Pool} {N : Nat}

theorem Meets.mono {M : Nat} {p : P α} {ps : List Part} (h : Meets M pool p ps) (hle : N ≤ M) : Meets N pool p ps :=
  fun bytes ix h1 h2 => h bytes ix h1 (by omega)

theorem Follows.mono {M : Nat} {p : P α} {ps : List Part} (h : Follows M pool p ps) (hle : N ≤ M) : Follows N pool p ps :=
  ⟨h.1, h.2.1.mono hle, fun major hok L bytes ix h1 h2 h3 => h.2.2 major hok L bytes ix h1 h2 (by omega)⟩

theorem Follows.pure (a : α) : Follows N pool (Pure.pure a : P α) [] :=
  ⟨.pure a, fun bytes ix h1 h2 s rest hs h => by cases h; exact ⟨a, rfl⟩, fun _ _ _ => (Names.pure a).congr fun _ _ _ =>
    ⟨False.elim, fun h => absurd h firstBlame_nil⟩⟩

theorem Follows.diverge {ps : List Part} : Follows 0 pool (P.diverge : P α) ps := ⟨.diverge, fun bytes ix h1 h2 => by omega,
  fun _ _ _ bytes ix h1 h2 h3 => by omega⟩

theorem Meets.bind {p : P α} {f : α → P β} {ps qs : List Part} (hp : Meets N pool p ps) (hf : ∀ a, Meets N pool (f a) qs) :
    Meets N pool (p >>= f) (ps ++ qs) := by
  intro bytes ix h1 h2 s rest hs h
  obtain ⟨a, b, rfl, ha, hb⟩ := allFit_split h
  rw [List.append_assoc] at hs
  obtain ⟨x, hx⟩ := hp bytes ix h1 h2 a _ hs ha
  have hl := length_of_drop_eq h1 hs
  obtain ⟨y, hy⟩ := hf x bytes (ix + a.length) (by omega) (by omega) b rest (drop_of_drop_eq hs) hb
  exact ⟨y, P.bind_ok.mpr ⟨x, _, hx, by rw [hy]; simp; omega⟩⟩

theorem Follows.bind {p : P α} {f : α → P β} {ps qs : List Part} (hp : Follows N pool p ps) (hf : ∀ a, Follows N pool (f a) qs) :
    Follows N pool (p >>= f) (ps ++ qs) := by
  refine ⟨hp.1.bind fun a => (hf a).1, hp.2.1.bind fun a => (hf a).2.1, fun major hok L bytes ix h1 h2 h3 e _ => ?_⟩
  rw [P.bind_errs, firstBlame_append, hp.2.2 major hok L bytes ix h1 h2 h3 e trivial]
  refine or_congr_right ?_
  constructor
  · rintro ⟨a, ix', ha, h⟩
    obtain ⟨s, rest, hs, rfl, hps⟩ := (hp.1 bytes ix (by omega)).1 a ix' ha
    have hl := length_of_drop_eq (h1 ▸ h2) hs
    have := ((hf a).2.2 major hok L bytes (ix + s.length) h1 (by omega) (by omega) e trivial).mp h
    rw [drop_of_drop_eq hs] at this
    exact ⟨s, rest, hs, hps, this⟩
  · rintro ⟨s, t', hs, hps, h⟩
    obtain ⟨a, ha⟩ := hp.2.1 bytes ix (by omega) (by omega) s t' hs hps
    have hl := length_of_drop_eq (h1 ▸ h2) hs
    refine ⟨a, _, ha, ((hf a).2.2 major hok L bytes (ix + s.length) h1 (by omega) (by omega) e trivial).mpr ?_⟩
    rw [drop_of_drop_eq hs]
    exact h

theorem Follows.cons {p : P α} {f : α → P β} {x : Part} {xs : List Part} (hp : Follows N pool p [x]) (hf : ∀ a, Follows N pool (f a) xs) :
    Follows N pool (p >>= f) (x :: xs) := Follows.bind hp hf

/-- The last part of a record. -/
theorem Follows.last {p : P α} {f : α → β} {ps : List Part} (hp : Follows N pool p ps) : Follows N pool (p >>= fun a => (Pure.pure (f a) : P β)) ps := by
  have := Follows.bind (f := fun a => (Pure.pure (f a) : P β)) hp fun a => Follows.pure (f a)
  rwa [List.append_nil] at this

theorem Follows.within {p : P α} {ps : List Part} (hp : Follows N pool p ps) (c : String) : Follows N pool (p.mapErr c) [.within c ps] := by
  refine ⟨hp.1.within c, fun bytes ix h1 h2 s rest hs h => ?_, fun major hok L => (Names.ctx (hp.2.2 major hok L) c).congr fun s e _ => ?_⟩
  · cases allFit_single h with
    | within h =>
      obtain ⟨a, ha⟩ := hp.2.1 bytes ix h1 h2 s rest hs h
      exact ⟨a, by unfold P.mapErr Res.mapErr; rw [ha]⟩
  · rw [firstBlame_one]
    constructor
    · rintro ⟨e', h, rfl⟩; exact .within h
    · intro h
      cases h with
      | within h => exact ⟨_, h, rfl⟩

theorem number_blame {L size : Nat} {what : String} {s : Bytes} {e : ParseError} :
    FirstBlame L pool [.number what size] s e ↔ s.length < size ∧ e = cutOff L what s := by
  rw [firstBlame_one]
  constructor
  · intro h
    cases h with
    | number h => exact ⟨h, rfl⟩
  · rintro ⟨h, rfl⟩; exact .number h

theorem Follows.word : Follows N pool readU2 [Spec.word] := by
  refine ⟨.word, fun bytes ix h1 h2 s rest hs h => ?_, fun major hok L => Names.readU2.congr fun s e _ => number_blame.symm⟩
  cases allFit_single h with
  | number h =>
    match s, h with
    | [x, y], _ =>
      obtain ⟨v, hv⟩ : ∃ v, u2 v = [x, y] := ⟨_, u2_of_bytes x y⟩
      exact ⟨v, (Exact.readU2 bytes ix h1 h2 v _).mpr ⟨_, rest, hs, hv.symm, rfl⟩⟩

theorem Follows.octet : Follows N pool readU1 [Spec.octet] := by
  refine ⟨.octet, fun bytes ix h1 h2 s rest hs h => ?_, fun major hok L => Names.readU1.congr fun s e _ => by
    unfold Spec.octet
    rw [number_blame, Nat.lt_one_iff, List.length_eq_zero_iff]⟩
  cases allFit_single h with
  | number h =>
    match s, h with
    | [x], _ => exact ⟨x, (Exact.readU1 bytes ix h1 h2 x _).mpr ⟨_, rest, hs, rfl, rfl⟩⟩

theorem constant_blame {L : Nat} {ok : Nat → Prop} {about : Nat → String → Prop} {s : Bytes} {e : ParseError} :
    IndexErrs L pool about s e ↔ Blamed L pool (.constant ok about) s e := by
  constructor
  · rintro (⟨h, rfl⟩ | ⟨i, t, rfl, h, rfl⟩ | ⟨i, t, m, rfl, h, rfl⟩)
    · exact .noIndex h
    · exact .outside h
    · exact .constant h
  · intro h
    cases h with
    | noIndex h => exact .inl ⟨h, rfl⟩
    | outside h => exact .inr (.inl ⟨_, _, rfl, h, rfl⟩)
    | constant h => exact .inr (.inr ⟨_, _, _, rfl, h, rfl⟩)

theorem Follows.constant {p : P α} {At : Nat → α → Prop} {about : Nat → String → Prop} (h : RefReader pool p At about) :
    Follows N pool p [.constant (fun i => ∃ a, At i a) about] := by
  refine ⟨.constant h, fun bytes ix h1 h2 s rest hs hf => ?_, fun major hok L => (h.names major hok L N).congr fun s e _ =>
    constant_blame.trans firstBlame_one.symm⟩
  cases allFit_single hf with
  | constant hi =>
    obtain ⟨a, ha⟩ := hi
    exact ⟨a, (h.exact N bytes ix h1 h2 a _).mpr ⟨_, rest, hs, ⟨_, ha, rfl⟩, rfl⟩⟩

/-- The index of a constant that is then looked at. -/
theorem Follows.judged {p q : P α} {At : Nat → α → Prop} {about : Nat → String → Prop} {chk : α → P β} {cs : List String} {fine : Nat → Prop} {m : String} (h : RefReader pool p At about)
    (hok : ∀ bytes ix x, q bytes ix = .ok x ↔ p bytes ix = .ok x)
    (herr : ∀ bytes ix e, q bytes ix = .err e ↔ ∃ e', p bytes ix = .err e' ∧ e = ⟨e'.msg, e'.contexts ++ cs⟩)
    (hchk : ∀ i a, At i a → (fine i ∧ ∃ g, chk a = Pure.pure g) ∨ (¬ fine i ∧ chk a = P.fail m)) :
    Follows N pool (q >>= chk) [.judged cs (fun i => ∃ a, At i a) about fine m] := by
  refine ⟨.judged h (fun bytes ix x => (hok bytes ix x).mp) (fun bytes ix e he => ?_) hchk, fun bytes ix h1 h2 s rest hs hf => ?_,
    fun major hp L bytes ix h1 h2 h3 e _ => ?_⟩
  · obtain ⟨e', h', rfl⟩ := (herr bytes ix e).mp he
    exact ⟨e', h', fun hc => by rw [hc]; rfl⟩
  · cases allFit_single hf with
    | judged hi hfine =>
      obtain ⟨a, ha⟩ := hi
      have := (h.exact N bytes ix h1 h2 a _).mpr ⟨_, rest, hs, ⟨_, ha, rfl⟩, rfl⟩
      rcases hchk _ a ha with ⟨-, g, hg⟩ | ⟨hn, -⟩
      · exact ⟨g, P.bind_ok.mpr ⟨a, _, (hok _ _ _).mpr this, by rw [hg]; rfl⟩⟩
      · exact absurd hfine hn
  · rw [P.bind_errs, firstBlame_one, herr]
    constructor
    · rintro (⟨e', he, rfl⟩ | ⟨a, ix', ha, he⟩)
      · exact .judged (constant_blame.mp ((h.names major hp L N bytes ix h1 h2 h3 e' trivial).mp he))
      · obtain ⟨seg, rest, hd, ⟨i, hi, rfl⟩, rfl⟩ := (h.exact N bytes ix (by omega) (by omega) a ix').mp ((hok _ _ _).mp ha)
        rcases hchk _ a hi with ⟨-, g, hg⟩ | ⟨hn, hg⟩
        · rw [hg] at he; cases he
        · rw [hg] at he
          cases he
          rw [hd]
          exact .notFine ⟨a, hi⟩ hn
    · generalize hd : bytes.drop ix = s
      intro hb
      cases hb with
      | judged hb =>
        rw [← hd] at hb
        exact .inl ⟨_, (h.names major hp L N bytes ix h1 h2 h3 _ trivial).mpr (constant_blame.mpr hb), rfl⟩
      | notFine hi hn =>
        obtain ⟨a, ha⟩ := hi
        rcases hchk _ a ha with ⟨hf, -⟩ | ⟨-, hg⟩
        · exact absurd hf hn
        · exact .inr ⟨a, _, (hok _ _ _).mpr ((h.exact N bytes ix (by omega) (by omega) a _).mpr ⟨_, _, hd, ⟨_, ha, rfl⟩, rfl⟩), by rw [hg]; rfl⟩

theorem Follows.judgedIn {p : P α} {At : Nat → α → Prop} {about : Nat → String → Prop} {chk : α → P β} {c : String} {fine : Nat → Prop} {m : String} (h : RefReader pool p At about)
    (hchk : ∀ i a, At i a → (fine i ∧ ∃ g, chk a = Pure.pure g) ∨ (¬ fine i ∧ chk a = P.fail m)) :
    Follows N pool (p.mapErr c >>= chk) [.judged [c] (fun i => ∃ a, At i a) about fine m] := by
  refine Follows.judged h (fun bytes ix x => ?_) (fun bytes ix e => mapErr_inside) hchk
  unfold P.mapErr Res.mapErr
  cases hq : p bytes ix <;> simp

/-- Flags of which no others may be set. -/
theorem Follows.flags {mask : UInt16} {e : ParseError} {k : UInt16 → P UInt16} (hk : ∀ v, k v = match fromBits mask v with
      | some x => (Pure.pure x : P _)
      | none => fun _ _ => .err e) : Follows N pool (readU2 >>= k) [.flags mask e] := by
  refine ⟨.flags hk, fun bytes ix h1 h2 s rest hs hf => ?_, fun major hp L => ?_⟩
  · cases allFit_single hf with
    | @flags _ v _ hv =>
      refine ⟨v, P.bind_ok.mpr ⟨v, _, (Exact.readU2 bytes ix h1 h2 v _).mpr ⟨_, rest, hs, rfl, rfl⟩, ?_⟩⟩
      rw [hk, fromBits_some.mpr ⟨rfl, hv⟩]
      rfl
  · have hb : ∀ v, Names anyError L N (k v) (fun _ e' => v &&& mask ≠ v ∧ e' = e) := by
      intro v bytes ix _ _ _ e' _
      rw [hk]
      by_cases hv : v &&& mask = v
      · rw [fromBits_some.mpr ⟨rfl, hv⟩]
        exact ⟨fun h => (by cases h), fun h => absurd hv h.1⟩
      · cases hm : fromBits mask v with
        | some x =>
          obtain ⟨rfl, h2⟩ := fromBits_some.mp hm
          exact absurd h2 hv
        | none => exact ⟨fun h => (by cases h; exact ⟨hv, rfl⟩), fun h => (by rw [h.2])⟩
    refine (Names.bind Names.readU2 Exact.readU2 hb).congr fun s e' _ => ?_
    rw [firstBlame_one]
    constructor
    · rintro (⟨h, rfl⟩ | ⟨v, s1, t, rfl, rfl, hv, rfl⟩)
      · exact .noFlags h
      · exact .flags hv
    · intro h
      cases h with
      | noFlags h => exact .inl ⟨h, rfl⟩
      | flags h => exact .inr ⟨_, _, _, rfl, rfl, h, rfl⟩

theorem Follows.forRangeFrom {f : Nat → P α} {row : Nat → List Part} (hf : ∀ i, Follows N pool (f i) (row i)) :
    ∀ n i : Nat, Follows N pool (P.forRangeFrom f i n) ((List.range' i n).flatMap row)
  | 0, i => Follows.pure []
  | n + 1, i => by
    rw [List.range'_succ, List.flatMap_cons]
    exact Follows.bind (hf i) fun x => Follows.last (Follows.forRangeFrom hf n (i + 1))

theorem Follows.forRange {f : Nat → P α} {row : Nat → List Part} (hf : ∀ i, Follows N pool (f i) (row i)) (n : Nat) :
    Follows N pool (P.forRange n f) (rows n row) := by
  unfold rows
  rw [List.range_eq_range']
  exact Follows.forRangeFrom hf n 0

theorem Follows.table2 {f : Nat → P α} {row : Nat → List Part} (hf : ∀ i, Follows N pool (f i) (row i)) : Follows N pool (readTable2 f) [.table2 row] := by
  refine ⟨.table2 fun i => (hf i).1, fun bytes ix h1 h2 s rest hs h => ?_, fun major hp L => (Names.bind Names.readU2 Exact.readU2 fun n =>
    (Follows.forRange hf n.toNat).2.2 major hp L).congr fun s e _ => ?_⟩
  rotate_left
  · rw [firstBlame_one]
    constructor
    · rintro (⟨h, rfl⟩ | ⟨v, s1, t, rfl, rfl, h⟩)
      · exact .noCount2 h
      · exact .table2 h
    · intro h
      cases h with
      | noCount2 h => exact .inl ⟨h, rfl⟩
      | table2 h => exact .inr ⟨_, _, _, rfl, rfl, h⟩
  cases allFit_single h with
  | @table2 _ n t ht =>
    rw [List.append_assoc] at hs
    have hl := length_of_drop_eq h1 hs
    obtain ⟨y, hy⟩ := (Follows.forRange hf n.toNat).2.1 bytes (ix + (u2 n).length) (by omega) (by omega) t rest (drop_of_drop_eq hs) ht
    exact ⟨y, P.bind_ok.mpr ⟨n, _, (Exact.readU2 bytes ix h1 h2 n _).mpr ⟨_, _, hs, rfl, rfl⟩, by rw [hy]; simp; omega⟩⟩

theorem Follows.table1 {f : Nat → P α} {row : Nat → List Part} (hf : ∀ i, Follows N pool (f i) (row i)) : Follows N pool (readTable1 f) [.table1 row] := by
  refine ⟨.table1 fun i => (hf i).1, fun bytes ix h1 h2 s rest hs h => ?_, fun major hp L => (Names.bind Names.readU1 Exact.readU1 fun n =>
    (Follows.forRange hf n.toNat).2.2 major hp L).congr fun s e _ => ?_⟩
  rotate_left
  · rw [firstBlame_one]
    constructor
    · rintro (⟨h, rfl⟩ | ⟨v, s1, t, rfl, rfl, h⟩)
      · subst h; exact .noCount1
      · exact .table1 h
    · intro h
      cases h with
      | noCount1 => exact .inl ⟨rfl, rfl⟩
      | table1 h => exact .inr ⟨_, _, _, rfl, rfl, h⟩
  cases allFit_single h with
  | @table1 _ n t ht =>
    rw [List.append_assoc] at hs
    have hl := length_of_drop_eq h1 hs
    obtain ⟨y, hy⟩ := (Follows.forRange hf n.toNat).2.1 bytes (ix + (u1 n).length) (by omega) (by omega) t rest (drop_of_drop_eq hs) ht
    exact ⟨y, P.bind_ok.mpr ⟨n, _, (Exact.readU1 bytes ix h1 h2 n _).mpr ⟨_, _, hs, rfl, rfl⟩, by rw [hy]; simp; omega⟩⟩

/-- `body` does what the tag says. -/
def Bodies (N : Nat) (pool : Pool) (body : UInt8 → P α) (follow : UInt8 → Option (List Part)) (c : UInt8 → ParseError) : Prop :=
  ∀ b, (∃ ps, follow b = some ps ∧ Follows N pool (body b) ps) ∨ (follow b = none ∧ ∀ bytes ix, body b bytes ix = .err (c b))

theorem Bodies.zero {body : UInt8 → P α} {follow : UInt8 → Option (List Part)} {c : UInt8 → ParseError} (hb : Bodies N pool body follow c) :
    Bodies0 pool body follow c := fun b => (hb b).imp_left fun ⟨ps, h1, h2⟩ => ⟨ps, h1, h2.1⟩

theorem tag_meets {body : UInt8 → P α} {follow : UInt8 → Option (List Part)} {c : UInt8 → ParseError} (hb : Bodies N pool body follow c)
    {bytes : Bytes} {ix : Nat} (h1 : ix ≤ bytes.length) (h2 : bytes.length < ix + (N + 1)) {b : UInt8} {s rest : Bytes} {ps : List Part}
    (hs : bytes.drop ix = b :: s ++ rest) (hf : follow b = some ps) (h : AllFit pool ps s) :
    ∃ a, (readU1 >>= body) bytes ix = .ok (a, ix + (b :: s).length) := by
  have hs : bytes.drop ix = u1 b ++ (s ++ rest) := hs
  have hl := length_of_drop_eq h1 hs
  have h1' : (u1 b).length = 1 := rfl
  rcases hb b with ⟨ps', hf', hp⟩ | ⟨hn, -⟩
  · rw [hf] at hf'
    cases hf'
    obtain ⟨y, hy⟩ := hp.2.1 bytes (ix + (u1 b).length) (by omega) (by omega) s rest (drop_of_drop_eq hs) h
    exact ⟨y, P.bind_ok.mpr ⟨b, _, (Exact.readU1 bytes ix h1 h2 b _).mpr ⟨_, _, hs, rfl, rfl⟩, by rw [hy]; simp; omega⟩⟩
  · rw [hf] at hn
    cases hn

theorem tag_names {M : Nat} {body : UInt8 → P α} {follow : UInt8 → Option (List Part)} {c : UInt8 → ParseError} (hb : Bodies N pool body follow c)
    (hM : M ≤ N + 1) {major : UInt16} (hp : PoolOK major pool) (L : Nat) : Names anyError L M (readU1 >>= body) (fun s e =>
      (s = [] ∧ e = cutOff L "u1" []) ∨ ∃ b t, s = b :: t ∧ ((follow b = none ∧ e = c b) ∨ ∃ ps, follow b = some ps ∧ FirstBlame L pool ps t e)) := by
  have hbody : ∀ b, Names anyError L N (body b) (fun t e => (follow b = none ∧ e = c b) ∨ ∃ ps, follow b = some ps ∧ FirstBlame L pool ps t e) := by
    intro b
    rcases hb b with ⟨ps, hps, hf⟩ | ⟨hn, hf⟩
    · refine (hf.2.2 major hp L).congr fun s e _ => ⟨fun h => .inr ⟨ps, hps, h⟩, ?_⟩
      rintro (⟨h, -⟩ | ⟨ps', h, h'⟩) <;> rw [hps] at h <;> cases h
      exact h'
    · intro bytes ix _ _ _ e _
      rw [hf]
      constructor
      · intro h; cases h; exact .inl ⟨hn, rfl⟩
      · rintro (⟨-, rfl⟩ | ⟨ps', h, -⟩)
        · rfl
        · rw [hn] at h; cases h
  refine (Names.bindK 1 Names.readU1 Exact.readU1 (fun a seg (h : seg = u1 a) => by rw [h]; exact Nat.le_refl _) hM hbody).congr fun s e _ => ?_
  constructor
  · rintro (⟨rfl, rfl⟩ | ⟨b, s1, t, rfl, rfl, h⟩)
    · exact .inl ⟨rfl, rfl⟩
    · exact .inr ⟨b, t, rfl, h⟩
  · rintro (⟨rfl, rfl⟩ | ⟨b, t, rfl, h⟩)
    · exact .inl ⟨rfl, rfl⟩
    · exact .inr ⟨b, _, t, rfl, rfl, h⟩

theorem Follows.tagged {body : UInt8 → P α} {follow : UInt8 → Option (List Part)} {c : UInt8 → ParseError} (hb : Bodies N pool body follow c) :
    Follows N pool (readU1 >>= body) [.tagged follow c] := by
  refine ⟨.tagged hb.zero, fun bytes ix h1 h2 s rest hs h => ?_, fun major hp L => (tag_names hb (by omega) hp L).congr fun s e _ => ?_⟩
  rotate_left
  · rw [firstBlame_one]
    constructor
    · rintro (⟨rfl, rfl⟩ | ⟨b, t, rfl, ⟨h, rfl⟩ | ⟨ps, h, h'⟩⟩)
      · exact .noTag
      · exact .tag h
      · exact .tagged h h'
    · intro h
      cases h with
      | noTag => exact .inl ⟨rfl, rfl⟩
      | tag h => exact .inr ⟨_, _, rfl, .inl ⟨h, rfl⟩⟩
      | tagged h h' => exact .inr ⟨_, _, rfl, .inr ⟨_, h, h'⟩⟩
  cases allFit_single h with
  | tagged hf ht => exact tag_meets hb h1 (by omega) hs hf ht

theorem Follows.element {body : UInt8 → P α} (hb : Bodies N pool body (elementParts pool) fun b => ⟨s!"Unrecognized discriminant {Char.ofNat b.toNat}", []⟩) :
    Follows (N + 1) pool (readU1 >>= body) [.elementValue] := by
  refine ⟨.element hb.zero, fun bytes ix h1 h2 s rest hs h => ?_, fun major hp L => (tag_names hb (Nat.le_refl _) hp L).congr fun s e _ => ?_⟩
  rotate_left
  · rw [firstBlame_one]
    constructor
    · rintro (⟨rfl, rfl⟩ | ⟨b, t, rfl, ⟨h, rfl⟩ | ⟨ps, h, h'⟩⟩)
      · exact .noElementTag
      · exact .elementTag h
      · exact .elementValue h h'
    · intro h
      cases h with
      | noElementTag => exact .inl ⟨rfl, rfl⟩
      | elementTag h => exact .inr ⟨_, _, rfl, .inl ⟨h, rfl⟩⟩
      | elementValue h h' => exact .inr ⟨_, _, rfl, .inr ⟨_, h, h'⟩⟩
  cases allFit_single h with
  | elementValue hf ht => exact tag_meets hb h1 h2 hs hf ht

end

/-! ## Constants -/

section
variable (pool : Pool) {N : Nat}

omit pool in
theorem lift_quiet {α : Type} {r : Res α} (h : Quiet r) (bytes : Bytes) (ix : Nat) (e : ParseError) : P.lift r bytes ix ≠ .err e :=
  fun he => h e (lift_err he)

omit pool in
theorem quiet_pure {α : Type} (a : α) (bytes : Bytes) (ix : Nat) (e : ParseError) : (Pure.pure a : P α) bytes ix ≠ .err e := fun h => by cases h

omit pool in
theorem quiet_bind {α β : Type} {p : P α} {f : α → P β} (hp : ∀ bytes ix e, p bytes ix ≠ .err e) (hf : ∀ a bytes ix e, f a bytes ix ≠ .err e)
    (bytes : Bytes) (ix : Nat) (e : ParseError) : (p >>= f) bytes ix ≠ .err e := by
  intro h
  rcases P.bind_errs.mp h with h | ⟨a, ix', -, h⟩
  · exact hp _ _ _ h
  · exact hf _ _ _ _ h

/-- In a valid pool, the reference of a MethodHandle is a member. -/
theorem handle_quiet {major : UInt16} (hok : PoolOK major pool) {i : Nat} {k : ReferenceKind} {x : CPRef} (hi : pool[i]? = some (.methodHandle k x)) :
    Quiet (makeMethodHandle pool k x) := by
  have := hok i _ hi
  cases x with
  | unresolved j => exact this.elim
  | resolved j =>
    have key : ∃ c n, pool[j]? = some (.fieldRef c n) ∨ pool[j]? = some (.methodRef c n) ∨ pool[j]? = some (.interfaceMethodRef c n) := by
      cases k <;> simp only [EntryOK, HandleTarget] at this
      case invokeStatic | invokeSpecial =>
        rcases this with ⟨c, n, h⟩ | ⟨-, c, n, h⟩
        · exact ⟨c, n, .inr (.inl h)⟩
        · exact ⟨c, n, .inr (.inr h)⟩
      case getField | getStatic | putField | putStatic =>
        obtain ⟨c, n, h⟩ := this
        exact ⟨c, n, .inl h⟩
      case invokeVirtual | newInvokeSpecial =>
        obtain ⟨c, n, h⟩ := this
        exact ⟨c, n, .inr (.inl h)⟩
      case invokeInterface =>
        obtain ⟨c, n, h⟩ := this
        exact ⟨c, n, .inr (.inr h)⟩
    obtain ⟨c, n, h⟩ := key
    have hp : ∀ en, pool[j]? = some en → peel pool (.resolved j) = .ok en := by
      intro en h
      show (match pool[j]? with | some e => Res.ok e | none => .panic .dangling) = _
      rw [h]
    unfold makeMethodHandle
    rcases h with h | h | h <;> rw [hp _ h] <;> exact quiet_handleFrom _ _ _ _ _

theorem utf8_reader : RefReader pool (readCpUtf8 pool) (TextAt pool) (wrongKind pool fun e => ∃ s, e = .utf8 s) :=
  .kinds (fun _ => readCpUtf8_exact pool) (fun en => by
    cases en
    case utf8 => exact .pure _
    all_goals exact .bad) fun major hok i en hi => by
    cases en
    case utf8 => exact .inl ⟨⟨_, rfl⟩, fun _ _ _ h => by cases h⟩
    all_goals exact .inr ⟨by simp, fun _ _ => rfl⟩

theorem utf8Opt_reader : RefReader pool (readCpUtf8Opt pool) (OptAt TextAt pool) (wrongKind pool fun e => e = .zero ∨ ∃ s, e = .utf8 s) :=
  .kinds (fun _ => readCpUtf8Opt_exact pool) (fun en => by
    cases en
    case utf8 => exact .pure _
    case zero => exact .pure _
    all_goals exact .bad) fun major hok i en hi => by
    cases en
    case utf8 => exact .inl ⟨.inr ⟨_, rfl⟩, fun _ _ _ h => by cases h⟩
    case zero => exact .inl ⟨.inl rfl, fun _ _ _ h => by cases h⟩
    all_goals exact .inr ⟨by simp, fun _ _ => rfl⟩

theorem class_reader : RefReader pool (readCpClassinfo pool) (ClassAt pool) (wrongKind pool fun e => ∃ x, e = .classInfo x) :=
  .kinds (fun _ => readCpClassinfo_exact pool) (classinfo_complains pool) fun major hok i en hi => by
    cases en
    case classInfo => exact .inl ⟨⟨_, rfl⟩, lift_quiet (quiet_peelUtf8 _ _)⟩
    all_goals exact .inr ⟨by simp, fun _ _ => rfl⟩

theorem classOpt_reader : RefReader pool (readCpClassinfoOpt pool) (OptAt ClassAt pool) (wrongKind pool fun e => e = .zero ∨ ∃ x, e = .classInfo x) :=
  .kinds (fun _ => readCpClassinfoOpt_exact pool) (fun en => by
    cases en
    case zero => exact .pure _
    case classInfo => exact .bind (.quiet (quiet_peelUtf8 _ _)) fun _ => .pure _
    all_goals exact .bad) fun major hok i en hi => by
    cases en
    case zero => exact .inl ⟨.inl rfl, fun _ _ _ h => by cases h⟩
    case classInfo => exact .inl ⟨.inr ⟨_, rfl⟩, quiet_bind (lift_quiet (quiet_peelUtf8 _ _)) fun _ => quiet_pure _⟩
    all_goals exact .inr ⟨by simp, fun _ _ => rfl⟩

theorem module_reader : RefReader pool (readCpModuleinfo pool) (ModuleAt pool) (wrongKind pool fun e => ∃ x, e = .moduleInfo x) :=
  .kinds (fun _ => readCpModuleinfo_exact pool) (fun en => by
    cases en
    case moduleInfo => exact .quiet (quiet_peelUtf8 _ _)
    all_goals exact .bad) fun major hok i en hi => by
    cases en
    case moduleInfo => exact .inl ⟨⟨_, rfl⟩, lift_quiet (quiet_peelUtf8 _ _)⟩
    all_goals exact .inr ⟨by simp, fun _ _ => rfl⟩

theorem package_reader : RefReader pool (readCpPackageinfo pool) (PackageAt pool) (wrongKind pool fun e => ∃ x, e = .packageInfo x) :=
  .kinds (fun _ => readCpPackageinfo_exact pool) (fun en => by
    cases en
    case packageInfo => exact .quiet (quiet_peelUtf8 _ _)
    all_goals exact .bad) fun major hok i en hi => by
    cases en
    case packageInfo => exact .inl ⟨⟨_, rfl⟩, lift_quiet (quiet_peelUtf8 _ _)⟩
    all_goals exact .inr ⟨by simp, fun _ _ => rfl⟩

theorem natOpt_reader : RefReader pool (readCpNameandtypeOpt pool) (OptAt NameAndTypeAt pool) (wrongKind pool fun e => e = .zero ∨ ∃ x y, e = .nameAndType x y) :=
  .kinds (fun _ => readCpNameandtypeOpt_exact pool) (fun en => by
    cases en
    case zero => exact .pure _
    case nameAndType => exact .bind (.quiet (quiet_peelUtf8 _ _)) fun _ => .bind (.quiet (quiet_peelUtf8 _ _)) fun _ => .pure _
    all_goals exact .bad) fun major hok i en hi => by
    cases en
    case zero => exact .inl ⟨.inl rfl, fun _ _ _ h => by cases h⟩
    case nameAndType => exact .inl ⟨.inr ⟨_, _, rfl⟩, quiet_bind (lift_quiet (quiet_peelUtf8 _ _)) fun _ => quiet_bind (lift_quiet (quiet_peelUtf8 _ _)) fun _ => quiet_pure _⟩
    all_goals exact .inr ⟨by simp, fun _ _ => rfl⟩

theorem literal_reader : RefReader pool (readCpLiteralconstant pool) (LiteralAt pool) (wrongKind pool LiteralKind) :=
  .kinds (fun _ => readCpLiteralconstant_exact pool) (fun en => by
    cases en
    case integer => exact .pure _
    case float => exact .pure _
    case long => exact .pure _
    case double => exact .pure _
    case string => exact .quiet (quiet_stringLiteral _ _)
    all_goals exact .bad) fun major hok i en hi => by
    cases en
    case integer => exact .inl ⟨.inl ⟨_, rfl⟩, fun _ _ _ h => by cases h⟩
    case float => exact .inl ⟨.inr (.inl ⟨_, rfl⟩), fun _ _ _ h => by cases h⟩
    case long => exact .inl ⟨.inr (.inr (.inl ⟨_, rfl⟩)), fun _ _ _ h => by cases h⟩
    case double => exact .inl ⟨.inr (.inr (.inr (.inl ⟨_, rfl⟩))), fun _ _ _ h => by cases h⟩
    case string => exact .inl ⟨.inr (.inr (.inr (.inr ⟨_, rfl⟩))), lift_quiet (quiet_stringLiteral _ _)⟩
    all_goals exact .inr ⟨by simp [LiteralKind], fun _ _ => rfl⟩

theorem integer_reader : RefReader pool (readCpInteger pool) (fun i v => pool[i]? = some (.integer v)) (wrongKind pool fun e => ∃ v, e = .integer v) :=
  .kinds (fun _ => readCpInteger_exact pool) (fun en => by
    cases en
    case integer => exact .pure _
    all_goals exact .bad) fun major hok i en hi => by
    cases en
    case integer => exact .inl ⟨⟨_, rfl⟩, fun _ _ _ h => by cases h⟩
    all_goals exact .inr ⟨by simp, fun _ _ => rfl⟩

theorem float_reader : RefReader pool (readCpFloat pool) (fun i v => pool[i]? = some (.float v)) (wrongKind pool fun e => ∃ v, e = .float v) :=
  .kinds (fun _ => readCpFloat_exact pool) (fun en => by
    cases en
    case float => exact .pure _
    all_goals exact .bad) fun major hok i en hi => by
    cases en
    case float => exact .inl ⟨⟨_, rfl⟩, fun _ _ _ h => by cases h⟩
    all_goals exact .inr ⟨by simp, fun _ _ => rfl⟩

theorem long_reader : RefReader pool (readCpLong pool) (fun i v => pool[i]? = some (.long v)) (wrongKind pool fun e => ∃ v, e = .long v) :=
  .kinds (fun _ => readCpLong_exact pool) (fun en => by
    cases en
    case long => exact .pure _
    all_goals exact .bad) fun major hok i en hi => by
    cases en
    case long => exact .inl ⟨⟨_, rfl⟩, fun _ _ _ h => by cases h⟩
    all_goals exact .inr ⟨by simp, fun _ _ => rfl⟩

theorem double_reader : RefReader pool (readCpDouble pool) (fun i v => pool[i]? = some (.double v)) (wrongKind pool fun e => ∃ v, e = .double v) :=
  .kinds (fun _ => readCpDouble_exact pool) (fun en => by
    cases en
    case double => exact .pure _
    all_goals exact .bad) fun major hok i en hi => by
    cases en
    case double => exact .inl ⟨⟨_, rfl⟩, fun _ _ _ h => by cases h⟩
    all_goals exact .inr ⟨by simp, fun _ _ => rfl⟩

theorem handle_reader : RefReader pool (readCpMethodhandle pool) (MethodHandleAt pool) (wrongKind pool fun e => ∃ k x, e = .methodHandle k x) :=
  .kinds (fun _ => readCpMethodhandle_exact pool) (fun en => by
    cases en
    case methodHandle => exact .lift ((handle_complains _ _ _).mono fun m => List.mem_append_left _)
    all_goals exact .bad) fun major hok i en hi => by
    cases en
    case methodHandle => exact .inl ⟨⟨_, _, rfl⟩, lift_quiet (handle_quiet pool hok hi)⟩
    all_goals exact .inr ⟨by simp, fun _ _ => rfl⟩

theorem argument_reader : RefReader pool (readCpBootstrapArgument pool) (BootstrapArgumentAt pool)
    (wrongKind pool fun e => LiteralKind e ∨ (∃ x, e = .classInfo x) ∨ (∃ k x, e = .methodHandle k x) ∨ ∃ x, e = .methodType x) :=
  .kinds (fun _ => readCpBootstrapArgument_exact pool) (fun en => .lift (by
    refine Complains.mono (L := kindComplaints) ?_ fun m => List.mem_append_left _
    cases en
    case integer | float | long | double => exact .ok _
    case string => exact .bind (.of_quiet (quiet_stringLiteral _ _)) fun _ => .ok _
    case classInfo | methodType => exact .bind (.of_quiet (quiet_peelUtf8 _ _)) fun _ => .ok _
    case methodHandle => exact .bind (handle_complains _ _ _) fun _ => .ok _
    all_goals exact .fail (by decide))) fun major hok i en hi => by
    cases en
    case integer | float | long | double => exact .inl ⟨by simp [LiteralKind], fun _ _ _ h => by cases h⟩
    case string => exact .inl ⟨by simp [LiteralKind], lift_quiet (Quiet.bind (quiet_stringLiteral _ _) fun _ => Quiet.ok _)⟩
    case classInfo | methodType => exact .inl ⟨by simp [LiteralKind], lift_quiet (Quiet.bind (quiet_peelUtf8 _ _) fun _ => Quiet.ok _)⟩
    case methodHandle => exact .inl ⟨by simp [LiteralKind], lift_quiet (Quiet.bind (handle_quiet pool hok hi) fun _ => Quiet.ok _)⟩
    all_goals exact .inr ⟨by simp [LiteralKind], fun _ _ => rfl⟩

theorem parseField_complains (s : Str) : Complains descriptorComplaints (parseFieldDescriptor s 0) :=
  .bind (.of_quiet (strFrom_quiet _ _)) fun _ => fieldDescriptor_complains _ _ _ _

theorem descriptor_reader : RefReader pool (readFieldDescriptor pool) (FieldDescriptorAt pool) (wrongDescriptor pool) := by
  have h : readFieldDescriptor pool = readCpRefAny pool >>= fun en => (match en with
      | .utf8 x => (pure x : P Str)
      | _ => badType) >>= fun d => P.lift (parseFieldDescriptor d 0) := by
    unfold readFieldDescriptor readCpUtf8
    rw [P.bind_assoc]
    congr 2
  have hx : ∀ N, Exact N (readFieldDescriptor pool) (fun d => ref fun i => FieldDescriptorAt pool i d) := fun N => readFieldDescriptor_exact pool
  rw [h] at hx ⊢
  refine .mk' hx (fun en => ?_) (fun major hok i en hi bytes ix e => ?_) fun i m h => ?_
  · cases en
    case utf8 => exact .bind (.pure _) fun _ => .lift ((parseField_complains _).mono fun m => List.mem_append_right _)
    all_goals exact .bind .bad fun _ => .lift ((parseField_complains _).mono fun m => List.mem_append_right _)
  · unfold wrongDescriptor wrongKind TextAt
    rw [hi]
    cases en
    case utf8 d =>
      have hf : Fails (parseFieldDescriptor d 0) (FieldSays d) := parseFieldDescriptor_fails [] d
      have hl : ((pure d : P Str) >>= fun d => P.lift (parseFieldDescriptor d 0)) bytes ix = P.lift (parseFieldDescriptor d 0) bytes ix := rfl
      dsimp only
      rw [hl]
      have he : P.lift (parseFieldDescriptor d 0) bytes ix = .err e ↔ parseFieldDescriptor d 0 = .err e := by
        unfold P.lift
        cases parseFieldDescriptor d 0 <;> simp
      rw [he, hf e]
      constructor
      · rintro ⟨m, rfl, hm⟩
        exact ⟨m, .inr ⟨d, rfl, hm⟩, rfl⟩
      · rintro ⟨m, ⟨⟨en, h1, h2⟩, -⟩ | ⟨s, h, hm⟩, rfl⟩
        · cases h1
          exact absurd ⟨d, rfl⟩ h2
        · cases h
          exact ⟨m, rfl, hm⟩
    all_goals
      constructor
      · intro h
        cases h
        exact ⟨_, .inl ⟨⟨_, rfl, by simp⟩, rfl⟩, rfl⟩
      · rintro ⟨m, ⟨-, rfl⟩ | ⟨s, h, -⟩, rfl⟩
        · rfl
        · cases h
  · rcases h with ⟨⟨en, h, -⟩, -⟩ | ⟨s, h, -⟩ <;> exact (List.getElem?_eq_some_iff.mp h).1

/-! ## Tables -/

theorem verification_follows : Follows N pool (readStackmaptableVerification pool) [verification pool] := by
  unfold readStackmaptableVerification
  refine Follows.tagged fun v => ?_
  generalize v.toNat = n
  rcases n with _ | _ | _ | _ | _ | _ | _ | _ | _ | n
  iterate 7 exact .inl ⟨_, rfl, Follows.pure _⟩
  · exact .inl ⟨_, rfl, Follows.last ((Follows.constant (class_reader pool)).within _)⟩
  · exact .inl ⟨_, rfl, Follows.last Follows.word⟩
  · exact .inr ⟨by rw [if_neg (by omega), if_neg (by omega), if_neg (by omega)], fun _ _ => rfl⟩

theorem frame_follows (k : Nat) : Follows N pool (readStackMapEntry pool k) [frame pool k] := by
  unfold readStackMapEntry
  refine Follows.tagged fun v => ?_
  unfold readStackMapEntryBody
  have hv := v.toNat_lt
  have hver := verification_follows pool (N := N)
  by_cases h1 : v.toNat ≤ 63
  · simp only [if_pos h1]
    exact .inl ⟨[], rfl, Follows.pure _⟩
  simp only [if_neg h1]
  by_cases h2 : v.toNat ≤ 127
  · simp only [if_pos h2]
    exact .inl ⟨_, rfl, Follows.last (hver.within _)⟩
  simp only [if_neg h2]
  by_cases h3 : v.toNat ≤ 246
  · simp only [if_pos h3]
    exact .inr ⟨trivial, fun _ _ => rfl⟩
  simp only [if_neg h3]
  by_cases h4 : v.toNat = 247
  · simp only [if_pos h4]
    exact .inl ⟨_, rfl, Follows.cons Follows.word fun _ => Follows.last (hver.within _)⟩
  simp only [if_neg h4]
  by_cases h5 : v.toNat ≤ 250
  · simp only [if_pos h5, if_pos (show v.toNat ≤ 251 by omega)]
    exact .inl ⟨_, rfl, Follows.last Follows.word⟩
  simp only [if_neg h5]
  by_cases h6 : v.toNat = 251
  · simp only [if_pos h6, if_pos (show v.toNat ≤ 251 by omega)]
    exact .inl ⟨_, rfl, Follows.last Follows.word⟩
  simp only [if_neg h6, if_neg (show ¬ v.toNat ≤ 251 by omega)]
  by_cases h7 : v.toNat ≤ 254
  · simp only [if_pos h7]
    have hn : (v - 251).toNat = v.toNat - 251 := by
      rw [UInt8.toNat_sub_of_le]
      · rfl
      · exact UInt8.le_iff_toNat_le.mpr (by show 251 ≤ v.toNat; omega)
    rw [hn]
    exact .inl ⟨_, rfl, Follows.cons Follows.word fun _ => Follows.last (Follows.forRange (fun j => hver.within _) _)⟩
  simp only [if_neg h7]
  exact .inl ⟨_, rfl, Follows.cons Follows.word fun _ => Follows.cons (Follows.table2 fun j => hver.within _) fun _ =>
    Follows.last (Follows.table2 fun j => hver.within _)⟩

theorem judged_assoc {α β γ : Type} (p : P α) (c : α → P γ) (f : α → P β) :
    (p >>= fun a => c a >>= fun _ => f a) = (p >>= fun a => c a >>= fun _ => (pure a : P α)) >>= f := by
  have h : ∀ a, (c a >>= fun _ => f a) = ((c a >>= fun _ => (pure a : P α)) >>= f) := fun a => by rw [← P.bind_assoc]; rfl
  rw [← P.bind_assoc]
  congr 1
  funext a
  exact h a

theorem failIf_cases {α : Type} {b : Bool} {m : String} {Q : Prop} (hb : b = false ↔ Q) (a : α) :
    (Q ∧ ∃ g, (P.failIf b m >>= fun _ => (pure a : P α)) = pure g) ∨ (¬ Q ∧ (P.failIf b m >>= fun _ => (pure a : P α)) = P.fail m) := by
  cases b with
  | false => exact .inl ⟨hb.mp rfl, a, rfl⟩
  | true => exact .inr ⟨fun h => Bool.noConfusion (hb.mpr h), rfl⟩

theorem text_fine {i : Nat} {s : Str} {Q : Str → Prop} (h : TextAt pool i s) : Q s ↔ ∃ s', TextAt pool i s' ∧ Q s' := by
  refine ⟨fun hq => ⟨s, h, hq⟩, ?_⟩
  rintro ⟨s', h', hq⟩
  unfold TextAt at h h'
  rw [h] at h'
  cases h'
  exact hq

theorem variableName_follows {β : Type} (k : Nat) {f : Str → P β} {xs : List Part} (hf : ∀ a, Follows N pool (f a) xs) :
    Follows N pool ((readCpUtf8 pool).mapErr s!"name for variable {k}" >>= fun name =>
      P.failIf (!isUnqualifiedName name) s!"Invalid unqualified name for variable {k}" >>= fun _ => f name) (variableName pool k :: xs) := by
  rw [judged_assoc]
  exact Follows.cons (Follows.judgedIn (utf8_reader pool) fun i a h => failIf_cases (not_isUnqualified.trans (text_fine pool h)) a) hf

theorem innerClass_follows (k : Nat) : Follows N pool (readInnerClassEntry pool k) [.within s!"inner class info for inner class {k}" [classIx pool],
     .within s!"outer class info for inner class {k}" [classIxOpt pool], .within s!"inner name for inner class {k}" [textIxOpt pool], word] :=
  Follows.cons ((Follows.constant (class_reader pool)).within _) fun _ => Follows.cons ((Follows.constant (classOpt_reader pool)).within _) fun _ =>
    Follows.cons ((Follows.constant (utf8Opt_reader pool)).within _) fun _ => Follows.last Follows.word

theorem lineNumber_follows : Follows N pool readLineNumberEntry [word, word] := Follows.cons Follows.word fun _ => Follows.last Follows.word

theorem localVariable_follows (k : Nat) : Follows N pool (readLocalVariableEntry pool k)
    [word, word, variableName pool k, .within s!"descriptor for variable {k}" [descriptorIx pool], word] :=
  Follows.cons Follows.word fun _ => Follows.cons Follows.word fun _ => variableName_follows pool k fun _ =>
    Follows.cons ((Follows.constant (descriptor_reader pool)).within _) fun _ => Follows.last Follows.word

theorem localVariableType_follows (k : Nat) : Follows N pool (readLocalVariableTypeEntry pool k)
    [word, word, variableName pool k, .within s!"signature for variable {k}" [textIx pool], word] :=
  Follows.cons Follows.word fun _ => Follows.cons Follows.word fun _ => variableName_follows pool k fun _ =>
    Follows.cons ((Follows.constant (utf8_reader pool)).within _) fun _ => Follows.last Follows.word

theorem bootstrap_follows (k : Nat) : Follows N pool (readBootstrapMethodEntry pool k)
    [.within s!"method ref of bootstrap method {k}" [handleIx pool],
     .table2 fun j => [.within s!"argument {j} of bootstrap method {k}" [argumentIx pool]]] :=
  Follows.cons ((Follows.constant (handle_reader pool)).within _) fun _ =>
    Follows.last (Follows.table2 fun _ => (Follows.constant (argument_reader pool)).within _)

theorem methodParameter_follows (k : Nat) : Follows N pool (readMethodParameterEntry pool k)
    [.judged [s!"name of method parameter {k}"] (fun i => ∃ s, OptAt TextAt pool i s) (wrongKind pool fun e => e = .zero ∨ ∃ s, e = .utf8 s)
      (fun i => ∃ s, OptAt TextAt pool i s ∧ ∀ n, s = some n → UnqualifiedName n) s!"Invalid unqualified name for variable {k}",
     .flags 0x9010 ⟨"Invalid access flags found", [s!"method parameter {k}"]⟩] := by
  unfold readMethodParameterEntry
  have key : ∀ o : Option Str, (o.any fun n => !isUnqualifiedName n) = false ↔ ∀ n, o = some n → UnqualifiedName n := by
    intro o
    cases o with
    | none => simp
    | some n => simp [← isUnqualifiedName_iff]
  have opt : ∀ {i : Nat} {s s' : Option Str}, OptAt TextAt pool i s → OptAt TextAt pool i s' → s = s' := by
    intro i s s' h h'
    cases s <;> cases s' <;> simp only [OptAt, TextAt] at h h' <;> rw [h] at h' <;> cases h' <;> rfl
  rw [judged_assoc]
  refine Follows.cons (Follows.judgedIn (utf8Opt_reader pool) fun i a h => failIf_cases ((key a).trans ⟨fun hq => ⟨a, h, hq⟩, ?_⟩) a) fun name => ?_
  · rintro ⟨s', h', hq⟩
    rw [opt h h']
    exact hq
  · rw [P.bind_assoc]
    exact Follows.last (Follows.flags (mask := methodParameterMask) fun v => flagsIn)

theorem require_follows (k : Nat) : Follows N pool (readModuleRequire pool k) [.within s!"name of requires entry {k}" [moduleIx pool],
    .flags 0x9060 ⟨"Invalid module requires flags", [s!"entry {k}"]⟩, .within s!"version of requires entry {k}" [textIxOpt pool]] := by
  unfold readModuleRequire
  refine Follows.cons ((Follows.constant (module_reader pool)).within _) fun _ => ?_
  rw [P.bind_assoc]
  exact Follows.cons (Follows.flags (mask := moduleRequiresMask) fun v => flagsIn) fun _ => Follows.last ((Follows.constant (utf8Opt_reader pool)).within _)

theorem exports_follows (k : Nat) : Follows N pool (readModuleExports pool k) [.within s!"package name of exports entry {k}" [packageIx pool],
    .flags 0x9000 ⟨"Invalid module exports flags", [s!"entry {k}"]⟩,
    .table2 fun j => [.within s!"name of exports_to entry {j} of exports entry {k}" [moduleIx pool]]] := by
  unfold readModuleExports
  refine Follows.cons ((Follows.constant (package_reader pool)).within _) fun _ => ?_
  rw [P.bind_assoc]
  exact Follows.cons (Follows.flags (mask := moduleExportsMask) fun v => flagsIn) fun _ =>
    Follows.last (Follows.table2 fun _ => (Follows.constant (module_reader pool)).within _)

theorem opens_follows (k : Nat) : Follows N pool (readModuleOpens pool k) [.within s!"package name of opens entry {k}" [packageIx pool],
    .flags 0x9000 ⟨"Invalid module opens flags", [s!"entry {k}"]⟩,
    .table2 fun j => [.within s!"name of opens_to entry {j} of opens entry {k}" [moduleIx pool]]] := by
  unfold readModuleOpens
  refine Follows.cons ((Follows.constant (package_reader pool)).within _) fun _ => ?_
  rw [P.bind_assoc]
  exact Follows.cons (Follows.flags (mask := moduleOpensMask) fun v => flagsIn) fun _ =>
    Follows.last (Follows.table2 fun _ => (Follows.constant (module_reader pool)).within _)

theorem provides_follows (k : Nat) : Follows N pool (readModuleProvides pool k)
    [.within s!"service interface name of provides entry {k}" [classIx pool],
     .table2 fun j => [.within s!"provides_with entry {j} of provides entry {k}" [classIx pool]]] :=
  Follows.cons ((Follows.constant (class_reader pool)).within _) fun _ =>
    Follows.last (Follows.table2 fun _ => (Follows.constant (class_reader pool)).within _)

theorem module_follows : Follows N pool (readModuleData pool) (modulePart pool) := by
  unfold readModuleData modulePart
  refine Follows.cons ((Follows.constant (module_reader pool)).within _) fun _ => ?_
  rw [P.bind_assoc]
  exact Follows.cons (Follows.flags (mask := moduleMask) fun v => flagsBare) fun _ =>
    Follows.cons ((Follows.constant (utf8Opt_reader pool)).within _) fun _ => Follows.cons (Follows.table2 (require_follows pool)) fun _ =>
    Follows.cons (Follows.table2 (exports_follows pool)) fun _ => Follows.cons (Follows.table2 (opens_follows pool)) fun _ =>
    Follows.cons (Follows.table2 fun _ => (Follows.constant (class_reader pool)).within _) fun _ => Follows.last (Follows.table2 (provides_follows pool))

/-! ## Annotations -/

theorem annotation_follows {rec : P AnnotationElementValue} (hrec : Follows N pool rec [.elementValue]) :
    Follows N pool (readAnnotationWith rec pool) (annotationParts pool) :=
  Follows.cons ((Follows.constant (descriptor_reader pool)).within _) fun _ => Follows.last (Follows.table2 fun _ =>
    Follows.cons ((Follows.constant (utf8_reader pool)).within _) fun _ => Follows.last (hrec.within _))

theorem element_follows : ∀ depth : Nat, Follows depth pool (readAnnotationElementValue pool depth) [.elementValue]
  | 0 => Follows.diverge
  | depth + 1 => by
    have hrec := element_follows depth
    show Follows (depth + 1) pool (readElementValueWith _ pool) _
    unfold readElementValueWith
    refine Follows.element fun v => ?_
    unfold readElementValueBody
    by_cases h1 : v = 66
    · subst h1; exact .inl ⟨_, rfl, Follows.last (Follows.constant (integer_reader pool))⟩
    rw [if_neg (by simpa using h1)]
    by_cases h2 : v = 67
    · subst h2; exact .inl ⟨_, rfl, Follows.last (Follows.constant (integer_reader pool))⟩
    rw [if_neg (by simpa using h2)]
    by_cases h3 : v = 68
    · subst h3; exact .inl ⟨_, rfl, Follows.last (Follows.constant (double_reader pool))⟩
    rw [if_neg (by simpa using h3)]
    by_cases h4 : v = 70
    · subst h4; exact .inl ⟨_, rfl, Follows.last (Follows.constant (float_reader pool))⟩
    rw [if_neg (by simpa using h4)]
    by_cases h5 : v = 73
    · subst h5; exact .inl ⟨_, rfl, Follows.last (Follows.constant (integer_reader pool))⟩
    rw [if_neg (by simpa using h5)]
    by_cases h6 : v = 74
    · subst h6; exact .inl ⟨_, rfl, Follows.last (Follows.constant (long_reader pool))⟩
    rw [if_neg (by simpa using h6)]
    by_cases h7 : v = 83
    · subst h7; exact .inl ⟨_, rfl, Follows.last (Follows.constant (integer_reader pool))⟩
    rw [if_neg (by simpa using h7)]
    by_cases h8 : v = 90
    · subst h8; exact .inl ⟨_, rfl, Follows.last (Follows.constant (integer_reader pool))⟩
    rw [if_neg (by simpa using h8)]
    by_cases h9 : v = 115
    · subst h9; exact .inl ⟨_, rfl, Follows.last (Follows.constant (utf8_reader pool))⟩
    rw [if_neg (by simpa using h9)]
    by_cases h10 : v = 101
    · subst h10
      exact .inl ⟨_, rfl, Follows.cons ((Follows.constant (descriptor_reader pool)).within _) fun _ => Follows.last (Follows.constant (utf8_reader pool))⟩
    rw [if_neg (by simpa using h10)]
    by_cases h11 : v = 99
    · subst h11
      refine .inl ⟨_, rfl, Follows.judged (utf8_reader pool) (fun _ _ _ => Iff.rfl) (fun _ _ e => ?_) fun i a h => ?_⟩
      · simp
      · obtain ⟨b, hb, hq⟩ := isReturnDescriptor_checks a
        rw [hb, ← text_fine pool (Q := IsReturnDescriptor) h, ← hq]
        cases b with
        | true => exact .inl ⟨rfl, _, rfl⟩
        | false => exact .inr ⟨nofun, rfl⟩
    rw [if_neg (by simpa using h11)]
    by_cases h12 : v = 64
    · subst h12; exact .inl ⟨_, rfl, Follows.last (annotation_follows pool hrec)⟩
    rw [if_neg (by simpa using h12)]
    by_cases h13 : v = 91
    · subst h13; exact .inl ⟨_, rfl, Follows.last (Follows.table2 fun _ => hrec.within _)⟩
    rw [if_neg (by simpa using h13)]
    refine .inr ⟨?_, fun _ _ => rfl⟩
    have hc : ∀ (c : Char), Char.ofNat v.toNat = c → v = UInt8.ofNat c.toNat := by
      rintro c rfl
      have hv := v.toNat_lt
      have : (Char.ofNat v.toNat).toNat = v.toNat := by
        unfold Char.ofNat
        rw [dif_pos (.inl (by omega))]
        rfl
      rw [this]
      simp
    unfold elementParts
    split <;> first | rfl | (rename_i h; exfalso; have := hc _ h; revert this; assumption)

theorem annotations_follows {depth : Nat} (hN : N ≤ depth) : Follows N pool (readAnnotation pool depth) (annotationParts pool) :=
  annotation_follows pool ((element_follows pool depth).mono hN)

theorem target_follows (k : Nat) : Follows N pool (readU1 >>= readTypeAnnotationTarget k) [target k] := by
  refine Follows.tagged fun v => ?_
  unfold readTypeAnnotationTarget
  by_cases h1 : (v == 0x00 || v == 0x01) = true
  · rw [if_pos h1]
    simp only [Bool.or_eq_true, beq_iff_eq] at h1
    rcases h1 with rfl | rfl <;> exact .inl ⟨_, rfl, Follows.last Follows.octet⟩
  rw [if_neg h1]
  by_cases h2 : (v == 0x10) = true
  · rw [if_pos h2]
    obtain rfl := beq_iff_eq.mp h2
    exact .inl ⟨_, rfl, Follows.last Follows.word⟩
  rw [if_neg h2]
  by_cases h3 : (v == 0x11 || v == 0x12) = true
  · rw [if_pos h3]
    simp only [Bool.or_eq_true, beq_iff_eq] at h3
    rcases h3 with rfl | rfl <;> exact .inl ⟨_, rfl, Follows.cons Follows.octet fun _ => Follows.last Follows.octet⟩
  rw [if_neg h3]
  by_cases h4 : (decide (0x13 ≤ v.toNat) && decide (v.toNat ≤ 0x15)) = true
  · rw [if_pos h4]
    simp only [Bool.and_eq_true, decide_eq_true_eq] at h4
    refine .inl ⟨[], ?_, Follows.pure _⟩
    have : v.toNat = 0x13 ∨ v.toNat = 0x14 ∨ v.toNat = 0x15 := by omega
    rcases this with h | h | h <;> rw [h] <;> rfl
  rw [if_neg h4]
  by_cases h5 : (v == 0x16) = true
  · rw [if_pos h5]
    obtain rfl := beq_iff_eq.mp h5
    exact .inl ⟨_, rfl, Follows.last Follows.octet⟩
  rw [if_neg h5]
  by_cases h6 : (v == 0x17) = true
  · rw [if_pos h6]
    obtain rfl := beq_iff_eq.mp h6
    exact .inl ⟨_, rfl, Follows.last Follows.word⟩
  rw [if_neg h6]
  by_cases h7 : (v == 0x40 || v == 0x41) = true
  · rw [if_pos h7]
    simp only [Bool.or_eq_true, beq_iff_eq] at h7
    rcases h7 with rfl | rfl <;> exact .inl ⟨_, rfl, Follows.last (Follows.table2 fun _ => Follows.cons Follows.word fun _ => Follows.cons Follows.word
      fun _ => Follows.last Follows.word)⟩
  rw [if_neg h7]
  by_cases h8 : (v == 0x42) = true
  · rw [if_pos h8]
    obtain rfl := beq_iff_eq.mp h8
    exact .inl ⟨_, rfl, Follows.last Follows.word⟩
  rw [if_neg h8]
  by_cases h9 : (decide (0x43 ≤ v.toNat) && decide (v.toNat ≤ 0x46)) = true
  · rw [if_pos h9]
    simp only [Bool.and_eq_true, decide_eq_true_eq] at h9
    refine .inl ⟨[Spec.word], ?_, Follows.last Follows.word⟩
    have : v.toNat = 0x43 ∨ v.toNat = 0x44 ∨ v.toNat = 0x45 ∨ v.toNat = 0x46 := by omega
    rcases this with h | h | h | h <;> rw [h] <;> rfl
  rw [if_neg h9]
  by_cases h10 : (decide (0x47 ≤ v.toNat) && decide (v.toNat ≤ 0x4B)) = true
  · rw [if_pos h10]
    simp only [Bool.and_eq_true, decide_eq_true_eq] at h10
    refine .inl ⟨[Spec.word, Spec.octet], ?_, Follows.cons Follows.word fun _ => Follows.last Follows.octet⟩
    have : v.toNat = 0x47 ∨ v.toNat = 0x48 ∨ v.toNat = 0x49 ∨ v.toNat = 0x4a ∨ v.toNat = 0x4b := by omega
    rcases this with h | h | h | h | h <;> rw [h] <;> rfl
  rw [if_neg h10]
  refine .inr ⟨?_, fun _ _ => rfl⟩
  have hv : ∀ k : UInt8, v = k ↔ v.toNat = k.toNat := fun k => UInt8.toNat_inj.symm
  simp only [Bool.or_eq_true, beq_iff_eq, Bool.and_eq_true, decide_eq_true_eq, hv] at h1 h2 h3 h4 h5 h6 h7 h8 h9 h10
  simp only [UInt8.reduceToNat] at h1 h2 h3 h5 h6 h7 h8
  simp only [List.mem_cons, List.not_mem_nil, or_false]
  iterate 6 rw [if_neg (by omega)]

theorem path_follows (k j : Nat) : Follows N pool (readTargetPathEntry k j) [.tagged (fun b => if b.toNat ≤ 3 then some [octet] else none) fun b =>
     ⟨s!"Unrecognized path kind {b}", [s!"path element {j} of type annotation {k}"]⟩] := by
  unfold readTargetPathEntry
  refine Follows.tagged fun v => ?_
  unfold pathKindOf
  generalize v.toNat = n
  rcases n with _ | _ | _ | _ | n
  iterate 4 exact .inl ⟨_, rfl, Follows.last Follows.octet⟩
  exact .inr ⟨if_neg (by omega), fun _ _ => rfl⟩

theorem typeAnnotation_follows {depth : Nat} (hN : N ≤ depth) (k : Nat) : Follows N pool (readTypeAnnotation pool depth k) (typeAnnotation pool k) := by
  unfold readTypeAnnotation typeAnnotation
  rw [P.bind_assoc]
  exact Follows.cons (target_follows pool k) fun _ => Follows.cons (Follows.table1 (path_follows pool k)) fun _ =>
    Follows.last ((annotations_follows pool hN).within _)

end

/-! ## The content of an attribute -/

/-- Two ways to write the context of an attribute. -/
theorem title_ctx {title c : String} (h : title.toList ++ " attribute ".toList = c.toList) (i : Nat) : s!"{title} attribute {i}" = c ++ toString i := by
  have ts : ∀ s : String, toString s = s := fun _ => rfl
  apply String.ext
  rw [String.toList_append (s := c), ← h]
  simp [ts, String.toList_append]

/-- `p` reads the content of attribute number `i`, called `title`, of declared length `n`: it follows the layout if the length can be right. -/
def LayoutOf {α : Type} (N : Nat) (pool : Pool) (i : Nat) (name : Str) (n : Nat) (p : P α) : Prop :=
  ∃ (title : String) (parts : List Part), name = title.toList ∧ (title, parts) ∈ layouts pool i ∧
    ((∀ m, (title, m) ∈ fixedLengths → n = m) → Follows N pool p parts) ∧
    ∀ m, (title, m) ∈ fixedLengths → n ≠ m → ∀ bytes ix, p bytes ix = .err ⟨s!"Unexpected length {n}", [s!"{title} attribute {i}"]⟩

section
variable {α β : Type} {pool : Pool} {N i n : Nat}

theorem layout_table {p : P α} {f : α → β} (title : String) {c : String} {parts : List Part} (hp : Follows N pool p parts)
    (hm : (title, [.within s!"{title} attribute {i}" parts]) ∈ layouts pool i) (hc : title.toList ++ " attribute ".toList = c.toList)
    (hf : ∀ m, (title, m) ∉ fixedLengths) :
    LayoutOf N pool i title.toList n (p.mapErr (c ++ toString i) >>= fun a => (Pure.pure (f a) : P β)) := by
  rw [← title_ctx hc]
  exact ⟨title, _, rfl, hm, fun _ => Follows.last (hp.within _), fun m h => absurd h (hf m)⟩

theorem layout_fixed {p : P α} (title : String) {c : String} {m : Nat} {parts : List Part} (hp : Follows N pool p parts)
    (hm : (title, parts) ∈ layouts pool i) (hc : title.toList ++ " attribute ".toList = c.toList) (hf : (title, m) ∈ fixedLengths)
    (hu : ∀ m', (title, m') ∈ fixedLengths → m' = m) :
    LayoutOf N pool i title.toList n ((ensureLength n m).mapErr (c ++ toString i) >>= fun _ => p) := by
  rw [← title_ctx hc]
  refine ⟨title, parts, rfl, hm, fun h => ?_, fun m' h hne bytes ix => ?_⟩
  · unfold ensureLength
    rw [if_neg (by rw [h m hf]; simp)]
    exact hp
  · unfold ensureLength
    rw [hu m' h] at hne
    rw [if_pos hne]
    rfl
end

theorem data_layout {N : Nat} (env : Env) {depth : Nat} (hN : N ≤ depth) (rec : P (List AttributeInfo)) (pool : Pool) (i n : Nat) (name : Str) (k : AttrKind)
    (hk : kindName k = some name) (h1 : k ≠ .code) (h2 : k ≠ .record) (h3 : k ≠ .sourceDebugExtension) :
    LayoutOf N pool i name n (readAttributeData env depth rec pool i n k) := by
  cases k <;> first
    | exact absurd rfl h1
    | exact absurd rfl h2
    | exact absurd rfl h3
    | cases hk
  case constantValue =>
    exact layout_fixed "ConstantValue" (Follows.last ((Follows.constant (literal_reader pool)).within _))
      (by simp [layouts, classIx, textIx, packageIx, literalIx, nameAndTypeIxOpt]) (by decide) (by decide) (by simp [fixedLengths])
  case stackMapTable =>
    exact layout_table "StackMapTable" (Follows.table2 (frame_follows pool))
      (by simp [layouts, classIx, textIx, packageIx, literalIx, nameAndTypeIxOpt]) (by decide) (by simp [fixedLengths])
  case exceptions =>
    exact layout_table "Exceptions" (Follows.table2 fun _ => (Follows.constant (class_reader pool)).within _)
      (by simp [layouts, classIx, textIx, packageIx, literalIx, nameAndTypeIxOpt]) (by decide) (by simp [fixedLengths])
  case innerClasses =>
    exact layout_table "InnerClasses" (Follows.table2 (innerClass_follows pool))
      (by simp [layouts, classIx, textIx, packageIx, literalIx, nameAndTypeIxOpt]) (by decide) (by simp [fixedLengths])
  case enclosingMethod =>
    exact layout_fixed "EnclosingMethod" (Follows.cons ((Follows.constant (class_reader pool)).within _) fun _ => Follows.last ((Follows.constant (natOpt_reader pool)).within _))
      (by simp [layouts, classIx, textIx, packageIx, literalIx, nameAndTypeIxOpt]) (by decide) (by decide) (by simp [fixedLengths])
  case synthetic =>
    exact layout_fixed "Synthetic" (Follows.pure _)
      (by simp [layouts, classIx, textIx, packageIx, literalIx, nameAndTypeIxOpt]) (by decide) (by decide) (by simp [fixedLengths])
  case signature =>
    exact layout_fixed "Signature" (Follows.last ((Follows.constant (utf8_reader pool)).within _))
      (by simp [layouts, classIx, textIx, packageIx, literalIx, nameAndTypeIxOpt]) (by decide) (by decide) (by simp [fixedLengths])
  case sourceFile =>
    exact layout_fixed "SourceFile" (Follows.last ((Follows.constant (utf8_reader pool)).within _))
      (by simp [layouts, classIx, textIx, packageIx, literalIx, nameAndTypeIxOpt]) (by decide) (by decide) (by simp [fixedLengths])
  case lineNumberTable =>
    exact layout_table "LineNumberTable" (Follows.table2 fun _ => lineNumber_follows pool)
      (by simp [layouts, classIx, textIx, packageIx, literalIx, nameAndTypeIxOpt]) (by decide) (by simp [fixedLengths])
  case localVariableTable =>
    exact layout_table "LocalVariableTable" (Follows.table2 (localVariable_follows pool))
      (by simp [layouts, classIx, textIx, packageIx, literalIx, nameAndTypeIxOpt]) (by decide) (by simp [fixedLengths])
  case localVariableTypeTable =>
    exact layout_table "LocalVariableTypeTable" (Follows.table2 (localVariableType_follows pool))
      (by simp [layouts, classIx, textIx, packageIx, literalIx, nameAndTypeIxOpt]) (by decide) (by simp [fixedLengths])
  case deprecated =>
    exact layout_fixed "Deprecated" (Follows.pure _)
      (by simp [layouts, classIx, textIx, packageIx, literalIx, nameAndTypeIxOpt]) (by decide) (by decide) (by simp [fixedLengths])
  case runtimeVisibleAnnotations =>
    exact layout_table "RuntimeVisibleAnnotations" (Follows.table2 fun _ => (annotations_follows pool hN).within _)
      (by simp [layouts, classIx, textIx, packageIx, literalIx, nameAndTypeIxOpt]) (by decide) (by simp [fixedLengths])
  case runtimeVisibleParameterAnnotations =>
    exact layout_table "RuntimeVisibleParameterAnnotations" (Follows.table1 fun _ => Follows.last (Follows.table2 fun _ => (annotations_follows pool hN).within _))
      (by simp [layouts, classIx, textIx, packageIx, literalIx, nameAndTypeIxOpt]) (by decide) (by simp [fixedLengths])
  case runtimeVisibleTypeAnnotations =>
    exact layout_table "RuntimeVisibleTypeAnnotations" (Follows.table2 (typeAnnotation_follows pool hN))
      (by simp [layouts, classIx, textIx, packageIx, literalIx, nameAndTypeIxOpt]) (by decide) (by simp [fixedLengths])
  case runtimeInvisibleAnnotations =>
    exact layout_table "RuntimeInvisibleAnnotations" (Follows.table2 fun _ => (annotations_follows pool hN).within _)
      (by simp [layouts, classIx, textIx, packageIx, literalIx, nameAndTypeIxOpt]) (by decide) (by simp [fixedLengths])
  case runtimeInvisibleParameterAnnotations =>
    exact layout_table "RuntimeInvisibleParameterAnnotations" (Follows.table1 fun _ => Follows.last (Follows.table2 fun _ => (annotations_follows pool hN).within _))
      (by simp [layouts, classIx, textIx, packageIx, literalIx, nameAndTypeIxOpt]) (by decide) (by simp [fixedLengths])
  case runtimeInvisibleTypeAnnotations =>
    exact layout_table "RuntimeInvisibleTypeAnnotations" (Follows.table2 (typeAnnotation_follows pool hN))
      (by simp [layouts, classIx, textIx, packageIx, literalIx, nameAndTypeIxOpt]) (by decide) (by simp [fixedLengths])
  case annotationDefault =>
    exact layout_table "AnnotationDefault" ((element_follows pool depth).mono hN)
      (by simp [layouts, classIx, textIx, packageIx, literalIx, nameAndTypeIxOpt]) (by decide) (by simp [fixedLengths])
  case bootstrapMethods =>
    exact layout_table "BootstrapMethods" (Follows.table2 (bootstrap_follows pool))
      (by simp [layouts, classIx, textIx, packageIx, literalIx, nameAndTypeIxOpt]) (by decide) (by simp [fixedLengths])
  case methodParameters =>
    exact layout_table "MethodParameters" (Follows.table1 (methodParameter_follows pool))
      (by simp [layouts, classIx, textIx, packageIx, literalIx, nameAndTypeIxOpt]) (by decide) (by simp [fixedLengths])
  case moduleAttr =>
    exact layout_table "Module" (module_follows pool)
      (by simp [layouts, classIx, textIx, packageIx, literalIx, nameAndTypeIxOpt]) (by decide) (by simp [fixedLengths])
  case modulePackages =>
    exact layout_table "ModulePackages" (Follows.table2 fun _ => (Follows.constant (package_reader pool)).within _)
      (by simp [layouts, classIx, textIx, packageIx, literalIx, nameAndTypeIxOpt]) (by decide) (by simp [fixedLengths])
  case moduleMainClass =>
    have hc := title_ctx (title := "ModuleMainClass") (c := "ModuleMainClass attribute ") (by decide) i
    have hm : ("ModuleMainClass", [Part.within ("ModuleMainClass attribute " ++ toString i) [classIx pool]]) ∈ layouts pool i := by
      rw [← hc]
      simp [layouts]
    exact layout_fixed "ModuleMainClass" (Follows.last ((Follows.constant (class_reader pool)).within _)) hm (by decide) (by decide)
      (by simp [fixedLengths])
  case nestHost =>
    have hc := title_ctx (title := "NestHost") (c := "NestHost attribute ") (by decide) i
    have hm : ("NestHost", [Part.within ("NestHost attribute " ++ toString i) [classIx pool]]) ∈ layouts pool i := by
      rw [← hc]
      simp [layouts]
    exact layout_fixed "NestHost" (Follows.last ((Follows.constant (class_reader pool)).within _)) hm (by decide) (by decide)
      (by simp [fixedLengths])
  case nestMembers =>
    exact layout_table "NestMembers" (Follows.table2 fun _ => (Follows.constant (class_reader pool)).within _)
      (by simp [layouts, classIx, textIx, packageIx, literalIx, nameAndTypeIxOpt]) (by decide) (by simp [fixedLengths])
  case permittedSubclasses =>
    exact layout_table "PermittedSubclasses" (Follows.table2 fun _ => (Follows.constant (class_reader pool)).within _)
      (by simp [layouts, classIx, textIx, packageIx, literalIx, nameAndTypeIxOpt]) (by decide) (by simp [fixedLengths])

theorem data_tells (env : Env) (depth : Nat) (rec : P (List AttributeInfo)) (pool : Pool) (i n : Nat) (name : Str) (k : AttrKind)
    (hk : kindName k = some name) (h1 : k ≠ .code) (h2 : k ≠ .record) {bytes : Bytes} {ix : Nat} (hix : ix ≤ bytes.length)
    (hn : ix + n ≤ bytes.length) {e : ParseError} (he : readAttributeData env depth rec pool i n k bytes ix = .err e) :
    ContentTrail env.opts pool i name n (bytes.drop ix) e := by
  by_cases h3 : k = .sourceDebugExtension
  · subst h3
    cases hk
    have hs : sliceBytes bytes ix (ix + n) = .ok ((bytes.drop ix).take n) := by
      unfold sliceBytes
      rw [if_pos ⟨by omega, hn⟩]
      congr 2
      omega
    rcases P.bind_errs.mp he with he | ⟨b, ix', hb, he⟩
    · unfold takeSlice at he
      rw [hs] at he
      cases he
    · unfold takeSlice at hb
      rw [hs] at hb
      cases hb
      cases hd : env.decode ((bytes.drop ix).take n) with
      | some s => rw [hd] at he; cases he
      | none =>
        rw [hd] at he
        cases he
        exact .debugExtension rfl hd
  · obtain ⟨title, parts, hname, hm, hf, hl⟩ := data_layout (N := depth) env (Nat.le_refl _) rec pool i n name k hk h1 h2 h3
    by_cases hfix : ∀ m, (title, m) ∈ fixedLengths → n = m
    · exact .part hname hfix hm (((hf hfix).1 bytes ix hix).2 e he)
    · simp only [not_forall] at hfix
      obtain ⟨m, hm', hne⟩ := hfix
      rw [hl m hm' hne] at he
      cases he
      exact .wrongLength hname hm' hne

/-- A reader of the index of a constant. -/
theorem Tells.refs {α : Type} {N : Nat} {pool : Pool} {p : P α} {At : Nat → α → Prop} {about : Nat → String → Prop} (h : RefReader pool p At about) :
    Tells N p (fun s e => NoneOf (fun a => ref fun i => At i a) s ∧ Faulty pool (.constant (fun i => ∃ a, At i a) about) s e) := by
  refine (Tells.none (h.exact N)).and fun bytes ix hix _ e he => ?_
  rcases h.err hix he with h1 | ⟨i, rest, hd, hn, hs⟩
  · obtain ⟨h1, rfl⟩ := readU2_err h1
    exact .noIndex (by simp; omega) ⟨ix, rfl⟩
  · rw [hd]
    exact .constant (fun ⟨a, ha⟩ => hn a ha) hs

end Cafebabe
