import Verif.Proofs.PanicsCode
/-!
# Proofs: when exactly parsing a class file panics
-/

namespace Cafebabe
open Spec

/-! ## Attributes -/

theorem readCpRefAny_tame {N : Nat} {A : PanicKind → Prop} {pool : Pool} : Tame N A 2 (readCpRefAny pool) := by
  have h := Tame.cp (N := N) (A := A) (k := 0) (pool := pool) (f := fun e => (pure e : P Entry)) fun _ _ _ => Tame.pure _
  have e : (readCpRefAny pool >>= fun e => (pure e : P Entry)) = readCpRefAny pool := by
    funext bytes ix
    show P.bind _ _ bytes ix = _
    unfold P.bind
    cases readCpRefAny pool bytes ix <;> rfl
  rw [e] at h
  exact h

section
variable {major : UInt16} {pool : Pool} (hok : PoolOK major pool)
include hok

/-- An optional NameAndType reference panics exactly when the descriptor cannot be decoded. -/
theorem nameandtypeOpt_breaks {N : Nat} : Breaks N (readCpNameandtypeOpt pool) (fun k s => k = .nonUtf8 ∧ ∃ (j : UInt16) (rest : Bytes),
    s = u2 j ++ rest ∧ BadNameAndTypeAt pool j.toNat) := by
  unfold readCpNameandtypeOpt
  refine (Breaks.seqW (H := fun e k _ => k = .nonUtf8 ∧ ∃ (x : CPRef) (y : Nat) (b : Bytes), e = Entry.nameAndType x (.resolved y) ∧
    pool[y]? = some (Entry.utf8Bytes b)) (readCpRefAny_tame (N := 0)) (readCpRefAny_exact pool) fun e he => ?_).congr fun k s => ?_
  · obtain ⟨_, i, hi, -⟩ := he
    cases e with
    | nameAndType x y =>
      obtain ⟨k, k', s, rfl, rfl, ht, hu⟩ := nat_name hok hi
      dsimp only
      rw [peelUtf8_text ht]
      refine (Breaks.first (Breaks.lift (N := N) (peelUtf8 pool (.resolved k'))) (f := fun descriptor =>
        (pure (some { name := s, descriptor := descriptor }) : P (Option NameAndType))) (fun _ _ _ _ h => by cases h)).congr fun κ t => ?_
      rcases hu with ⟨t, hu⟩ | ⟨b, hu⟩
      · rw [peelUtf8_text hu]
        constructor
        · intro h; cases h
        · rintro ⟨-, x, y, b, h, hy⟩
          cases h
          rw [hu] at hy; cases hy
      · have : peelUtf8 pool (.resolved k') = .panic .nonUtf8 := by unfold peelUtf8; rw [peel_resolved hu]; rfl
        rw [this]
        constructor
        · intro h; cases h; exact ⟨rfl, _, _, b, rfl, hu⟩
        · rintro ⟨rfl, -⟩; rfl
    | zero => exact (Breaks.calm (M := 0) (Tame.pure _)).congr fun κ t => by simp
    | _ => exact (Breaks.calm (M := 0) (badType_tame (k := 0))).congr fun κ t => by simp
  · constructor
    · rintro ⟨e, s1, t, rfl, ⟨i, hi, rfl⟩, rfl, x, y, b, rfl, hy⟩; exact ⟨rfl, i, t, rfl, x, y, b, hi, hy⟩
    · rintro ⟨rfl, i, t, rfl, x, y, b, hi, hy⟩; exact ⟨_, u2 i, t, rfl, ⟨i, hi, rfl⟩, rfl, x, y, b, rfl, hy⟩

/-- The contents of an EnclosingMethod attribute on which reading panics. -/
def EnclosingBad (pool : Pool) (k : PanicKind) (s : Bytes) : Prop :=
  k = .nonUtf8 ∧ ∃ (i j : UInt16) (c : Str) (rest : Bytes), s = u2 i ++ (u2 j ++ rest) ∧ ClassAt pool i.toNat c ∧ BadNameAndTypeAt pool j.toNat

/-- The contents of a Code attribute on which reading panics. -/
def CodeBad (o : Opts) (pool : Pool) (R : PanicKind → Lang) (k : PanicKind) (s : Bytes) : Prop :=
  ∃ (maxStack maxLocals : UInt16) (len : UInt32) (code ex t : Bytes) (es : List ExceptionTableEntry),
    s = u2 maxStack ++ (u2 maxLocals ++ (u4 len ++ (code ++ (ex ++ t)))) ∧ len.toNat = code.length ∧ table2 (ExceptionEnc pool) es ex ∧
    (R k t ∨ ∃ (ats rest : Bytes) (as : List AttributeInfo), t = ats ++ rest ∧ AttributesEnc o pool as ats ∧
      k = .overflow ∧ o.checks = true ∧ o.parseBytecode = true ∧ CodeOverflows pool code)

/-- The contents of a Record attribute on which reading panics. -/
def RecordBad (o : Opts) (pool : Pool) (R : PanicKind → Lang) (k : PanicKind) (s : Bytes) : Prop :=
  ∃ (count i j : UInt16) (name : Str) (d : FieldDescriptor) (before t : Bytes) (cs : List RecordComponentEntry),
    s = u2 count ++ (before ++ (u2 i ++ (u2 j ++ t))) ∧ cs.length < count.toNat ∧ seq (ComponentEnc o pool) cs before ∧
    TextAt pool i.toNat name ∧ UnqualifiedName name ∧ FieldDescriptorAt pool j.toNat d ∧ R k t

theorem codeData_breaks {N : Nat} {env : Env} {rec : P (List AttributeInfo)} {R : PanicKind → Lang} (hb : Breaks N rec R)
    (hrec : Exact N rec (table2 (AttrEnc env.opts pool))) : Breaks N (readCodeDataWith env rec pool) (CodeBad env.opts pool R) := by
  have t1 : Tame 0 (fun _ => False) 0 (readTable2 (readExceptionTableEntry pool)) := by
    have := readCpClassinfoOpt_tame (N := 0) (A := fun _ => False) hok
    refine Tame.zero (Tame.readTable2 (k := 0) (Nat.le_add_right _ _) fun i => ?_)
    unfold readExceptionTableEntry; tame
  have t2 : ∀ msg : Nat → String, Tame 0 (fun _ => False) 0 (readU4 >>= fun n => (P.getIx >>= fun ix => takeBytes n.toNat (msg ix))) := by
    intro msg; tame
  unfold readCodeDataWith
  refine (Breaks.seq (Tame.readU2 (N := 0)) Exact.readU2 fun a => Breaks.seq (Tame.readU2 (N := 0)) Exact.readU2 fun b => by
    rw [P.bind_assoc3]
    exact Breaks.seq (t2 _) (sizedCode_exact _) fun code => Breaks.seq t1 (Exact.readTable2 fun j => readExceptionTableEntry_exact pool j) fun es =>
      Breaks.bind (H := fun as k _ => k = .overflow ∧ env.opts.checks = true ∧ env.opts.parseBytecode = true ∧ CodeOverflows pool code)
        (hb.mapErr _) (hrec.mapErr _) fun as => by
      by_cases hp : env.parseBytecode = true
      · simp only [if_pos hp]
        refine (Breaks.first (Breaks.lift _) fun _ _ _ _ h => by cases h).congr fun k s => ?_
        rw [Res.mapErr_panic]
        by_cases hc : env.overflowChecks = true
        · rw [hc, ofCode_panic hok]
          exact ⟨fun ⟨h1, h2⟩ => ⟨h1, hc, hp, h2⟩, fun ⟨h1, _, _, h2⟩ => ⟨h1, h2⟩⟩
        · constructor
          · intro h
            exact ((ofCode_calm (A := fun _ => False) (fun h => hc h) hok code).1 k h).elim
          · rintro ⟨-, h, -⟩; exact absurd h hc
      · simp only [if_neg hp]
        refine (Breaks.calm (M := 0) (c := 0) (Tame.seq (Tame.pure _) fun _ => Tame.pure _)).congr fun k s => ?_
        constructor
        · exact False.elim
        · rintro ⟨-, -, h, -⟩; exact absurd h hp).congr fun k s => ?_
  constructor
  · rintro ⟨a, s1, t1, rfl, rfl, b, s2, t2, rfl, rfl, code, s3, t3, rfl, ⟨n, c, hl, rfl, rfl⟩, es, s4, t4, rfl, hes, h⟩
    refine ⟨a, b, n, c, s4, t4, es, by simp, hl, hes, h.imp_right ?_⟩
    rintro ⟨as, s5, t5, rfl, has, h⟩
    exact ⟨s5, t5, as, rfl, has, h⟩
  · rintro ⟨a, b, n, c, s4, t4, es, rfl, hl, hes, h⟩
    refine ⟨a, _, _, rfl, rfl, b, _, _, rfl, rfl, c, u4 n ++ c, s4 ++ t4, by simp, ⟨n, c, hl, rfl, rfl⟩, es, s4, t4, rfl, hes, h.imp_right ?_⟩
    rintro ⟨s5, t5, as, rfl, has, h⟩
    exact ⟨as, s5, t5, rfl, has, h⟩

omit hok in
theorem recordData_breaks {N : Nat} {env : Env} {rec : P (List AttributeInfo)} {R : PanicKind → Lang} (hb : Breaks N rec R)
    (hrec : Exact N rec (table2 (AttrEnc env.opts pool))) : Breaks N (readRecordDataWith rec pool) (RecordBad env.opts pool R) := by
  unfold readRecordDataWith
  refine ((Breaks.readTable2K (fun j => readRecordComponentWith_exact hrec j) (G := fun k s => ∃ (i j : UInt16) (name : Str) (d : FieldDescriptor)
    (t : Bytes), s = u2 i ++ (u2 j ++ t) ∧ TextAt pool i.toNat name ∧ UnqualifiedName name ∧ FieldDescriptorAt pool j.toNat d ∧ R k t)
    fun i => ?_).mono (Nat.le_add_right _ _)).congr fun k s => ?_
  · unfold readRecordComponentWith
    refine (Breaks.seq (readCpUtf8_tame.mapErr _ : Tame 0 (fun _ => False) 2 _) ((readCpUtf8_exact pool).mapErr _) fun name => Breaks.failIf fun _ =>
      Breaks.seq (readFieldDescriptor_tame.mapErr _ : Tame 0 (fun _ => False) 0 _) ((readFieldDescriptor_exact pool).mapErr _) fun d =>
      Breaks.first (hb.mapErr _) fun _ _ _ _ h => by cases h).congr fun k s => ?_
    constructor
    · rintro ⟨name, s1, t1, rfl, ⟨i, hi, rfl⟩, hn, d, s2, t2, rfl, ⟨j, hj, rfl⟩, h⟩
      exact ⟨i, j, name, d, t2, rfl, hi, not_isUnqualified.mp hn, hj, h⟩
    · rintro ⟨i, j, name, d, t2, rfl, hi, hn, hj, h⟩
      exact ⟨name, _, _, rfl, ⟨i, hi, rfl⟩, not_isUnqualified.mpr hn, d, _, _, rfl, ⟨j, hj, rfl⟩, h⟩
  · constructor
    · rintro ⟨c, cs, s1, t1, rfl, hl, hs, i, j, name, d, t, rfl, h1, h2, h3, h4⟩
      exact ⟨c, i, j, name, d, s1, t, cs, rfl, hl, hs, h1, h2, h3, h4⟩
    · rintro ⟨c, i, j, name, d, s1, t, cs, rfl, hl, hs, h1, h2, h3, h4⟩
      exact ⟨c, cs, s1, _, rfl, hl, hs, i, j, name, d, t, rfl, h1, h2, h3, h4⟩

/-- What makes the contents of an attribute panic. -/
def DataBad (o : Opts) (pool : Pool) (R : PanicKind → Lang) (k : PanicKind) (length : Nat) (s : Bytes) : AttrKind → Prop
  | .enclosingMethod => length = 4 ∧ EnclosingBad pool k s
  | .code => CodeBad o pool R k s
  | .record => RecordBad o pool R k s
  | _ => False

omit hok in
/-- The kinds without nested attributes do not depend on how those are read. -/
theorem data_plain {depth : Nat} {env : Env} {rec : P (List AttributeInfo)} {i length : Nat} {kind : AttrKind} (h1 : kind ≠ .code)
    (h2 : kind ≠ .record) : readAttributeData env depth rec pool i length kind =
      readAttributeData { env with parseBytecode := false } depth (P.fail "") pool i length kind := by
  cases kind with
  | code => exact absurd rfl h1
  | record => exact absurd rfl h2
  | _ => rfl

theorem data_calm {depth : Nat} {env : Env} {rec : P (List AttributeInfo)} {i length : Nat} {kind : AttrKind} (h0 : kind ≠ .enclosingMethod)
    (h1 : kind ≠ .code) (h2 : kind ≠ .record) {bytes : Bytes} {ix : Nat} (hl : ix + length ≤ bytes.length) {k : PanicKind} :
    readAttributeData env depth rec pool i length kind bytes ix ≠ .panic k := by
  intro h
  rw [data_plain h1 h2] at h
  have := readAttributeData_tame (A := fun _ => False) (env := { env with parseBytecode := false }) hok (fun _ h => by cases h) depth
    (rec := P.fail "") i length kind Tame.fail (fun h => absurd h h0) hl
  unfold TameAt at this
  rw [h] at this
  exact this

theorem data_breaks {depth : Nat} {env : Env} {rec : P (List AttributeInfo)} {R : PanicKind → Lang} (hb : Breaks depth rec R)
    (hrec : Exact depth rec (table2 (AttrEnc env.opts pool))) (i length : Nat) (kind : AttrKind) {bytes : Bytes} {ix : Nat}
    (h1 : ix + length ≤ bytes.length) (h2 : bytes.length < ix + depth) (k : PanicKind) :
    readAttributeData env depth rec pool i length kind bytes ix = .panic k ↔ DataBad env.opts pool R k length (bytes.drop ix) kind := by
  cases kind with
  | code =>
    have : Breaks depth (readAttributeData env depth rec pool i length .code) (CodeBad env.opts pool R) := by
      unfold readAttributeData
      exact Breaks.first ((codeData_breaks hok hb hrec).mapErr _) fun _ _ _ _ h => by cases h
    exact this bytes ix (by omega) h2 k
  | record =>
    have : Breaks depth (readAttributeData env depth rec pool i length .record) (RecordBad env.opts pool R) := by
      unfold readAttributeData
      exact Breaks.first ((recordData_breaks hb hrec).mapErr _) fun _ _ _ _ h => by cases h
    exact this bytes ix (by omega) h2 k
  | enclosingMethod =>
    have : Breaks depth (readAttributeData env depth rec pool i length .enclosingMethod) (fun k s => length = 4 ∧ EnclosingBad pool k s) := by
      unfold readAttributeData
      dsimp only
      by_cases hl : length = 4
      · have e : ensureLength length 4 = (pure () : P Unit) := by unfold ensureLength; rw [if_neg (by simp [hl])]
        rw [e]
        refine (Breaks.seq (readCpClassinfo_tame hok |>.mapErr _ : Tame 0 (fun _ => False) 2 _) ((readCpClassinfo_exact pool).mapErr _) fun c =>
          Breaks.first ((nameandtypeOpt_breaks hok).mapErr _) fun _ _ _ _ h => by cases h).congr fun k s => ?_
        constructor
        · rintro ⟨c, s1, t1, rfl, ⟨i, hi, rfl⟩, rfl, j, rest, rfl, hj⟩; exact ⟨hl, rfl, i, j, c, rest, rfl, hi, hj⟩
        · rintro ⟨-, rfl, i, j, c, rest, rfl, hi, hj⟩; exact ⟨c, _, _, rfl, ⟨i, hi, rfl⟩, rfl, j, rest, rfl, hj⟩
      · have e : ensureLength length 4 = P.fail s!"Unexpected length {length}" := by unfold ensureLength; rw [if_pos hl]
        rw [e]
        intro bytes ix _ _ k
        constructor
        · intro h; cases h
        · rintro ⟨h, -⟩; exact absurd h hl
    exact this bytes ix (by omega) h2 k
  | _ => exact ⟨fun h => data_calm hok (by simp) (by simp) (by simp) h1 h, False.elim⟩

theorem attribute_breaks {depth : Nat} {env : Env} {rec : P (List AttributeInfo)} (hb : Breaks depth rec (AttrsPanic env.opts pool))
    (hrec : Exact depth rec (table2 (AttrEnc env.opts pool))) (i : Nat) :
    Breaks depth (readAttributeWith env depth rec pool i) (AttrPanics env.opts pool) := by
  unfold readAttributeWith
  refine (Breaks.seq (readCpUtf8_tame.mapErr _ : Tame 0 (fun _ => False) 2 _) ((readCpUtf8_exact pool).mapErr _) fun name =>
    Breaks.seq (H := fun (n : UInt32) k s => n.toNat ≤ s.length ∧ DataBad env.opts pool (AttrsPanic env.opts pool) k n.toNat s (attrKindOf name))
      (Tame.readU4 (N := 0)) Exact.readU4 fun n => ?_).congr fun k s => ?_
  · intro bytes ix h1 h2 k
    have hce : checkEnd n.toNat bytes ix = if bytes.length < ix + n.toNat then
        Res.fail s!"Unexpected end of stream reading attributes at index {ix}" else .ok (ix + n.toNat, ix) := rfl
    have hdl : (bytes.drop ix).length = bytes.length - ix := by simp
    by_cases hlt : bytes.length < ix + n.toNat
    · rw [if_pos hlt] at hce
      rw [P.bind_err hce]
      constructor
      · intro h; cases h
      · rintro ⟨h, -⟩; omega
    · rw [if_neg hlt] at hce
      rw [P.bind_run hce, P.bind_panic, data_breaks hok hb hrec i n.toNat _ (by omega) h2 k]
      constructor
      · rintro (h | ⟨d, ix', -, h⟩)
        · exact ⟨by omega, h⟩
        · rw [P.bind_panic] at h
          rcases h with h | ⟨e, ix2, -, h⟩
          · cases h
          · split at h <;> cases h
      · rintro ⟨-, h⟩; exact .inl h
  · constructor
    · rintro ⟨name, s1, t1, rfl, ⟨i, hi, rfl⟩, n, s2, t2, rfl, rfl, hn, h⟩
      have hk := (attrKindOf_iff name (attrKindOf name)).mp rfl
      generalize attrKindOf name = kind at h hk
      cases kind with
      | enclosingMethod =>
        obtain ⟨h4, rfl, a, b, c, rest, rfl, hc, hj⟩ := h
        rcases hk with hk | ⟨hk, -⟩
        · cases hk
          have : n = 4 := UInt32.toNat_inj.mp h4
          subst this
          exact .enclosing rfl hi hc hj
        · cases hk
      | code =>
        rcases hk with hk | ⟨hk, -⟩
        · cases hk
          obtain ⟨ms, ml, len, code, ex, t, es, rfl, hl, he, h | ⟨ats, rest, as, rfl, has, rfl, hc, hp, ho⟩⟩ := h
          · exact .inCode ⟨i, n, hi, hn, rfl⟩ hl he h
          · exact .code rfl hc hp ⟨i, n, hi, hn, rfl⟩ hl he has ho
        · cases hk
      | record =>
        rcases hk with hk | ⟨hk, -⟩
        · cases hk
          obtain ⟨c, a, b, name, d, before, t, cs, rfl, hl, hs, h1, h2, h3, h4⟩ := h
          exact .inRecord ⟨i, n, hi, hn, rfl⟩ hl (by rw [componentsEnc_eq]; exact hs) h1 h2 h3 h4
        · cases hk
      | _ => exact h.elim
    · intro h
      have kindOf : ∀ (name : Str) (kind : AttrKind), kindName kind = some name → attrKindOf name = kind :=
        fun name kind h => (attrKindOf_iff name kind).mpr (.inl h)
      cases h with
      | @enclosing n i j c rest hk ht hc hj =>
        refine ⟨_, u2 n, _, rfl, ⟨n, ht, rfl⟩, 4, _, _, rfl, rfl, ?_, ?_⟩
        · show 4 ≤ _
          simp [u2_length]
          omega
        · rw [kindOf _ .enclosingMethod rfl]
          exact ⟨rfl, hk, i, j, c, rest, rfl, hc, hj⟩
      | @code ms ml len code ex ats rest s es as hk hc hp hh hl he has ho =>
        obtain ⟨i, n, hi, hn, rfl⟩ := hh
        refine ⟨_, u2 i, _, rfl, ⟨i, hi, rfl⟩, n, _, _, rfl, rfl, hn, ?_⟩
        rw [kindOf _ .code rfl]
        exact ⟨ms, ml, len, code, ex, _, es, rfl, hl, he, .inr ⟨ats, rest, as, rfl, has, hk, hc, hp, ho⟩⟩
      | @inCode ms ml len code ex t s es hh hl he h =>
        obtain ⟨i, n, hi, hn, rfl⟩ := hh
        refine ⟨_, u2 i, _, rfl, ⟨i, hi, rfl⟩, n, _, _, rfl, rfl, hn, ?_⟩
        rw [kindOf _ .code rfl]
        exact ⟨ms, ml, len, code, ex, _, es, rfl, hl, he, .inl h⟩
      | @inRecord count a b name d before t s cs hh hl hs h1 h2 h3 h4 =>
        obtain ⟨i, n, hi, hn, rfl⟩ := hh
        refine ⟨_, u2 i, _, rfl, ⟨i, hi, rfl⟩, n, _, _, rfl, rfl, hn, ?_⟩
        rw [kindOf _ .record rfl]
        exact ⟨count, a, b, name, d, before, t, cs, rfl, hl, by rw [← componentsEnc_eq]; exact hs, h1, h2, h3, h4⟩

theorem attributes_breaks (env : Env) : ∀ depth, Breaks depth (readAttributes env pool depth) (AttrsPanic env.opts pool)
  | 0 => fun bytes ix h1 h2 => by omega
  | depth + 1 => by
    refine ((Breaks.readTable2K (fun i => readAttributeWith_exact (Nat.le_refl depth) (readAttributes_exact env pool depth) i) fun i =>
      attribute_breaks hok (attributes_breaks env depth) (readAttributes_exact env pool depth) i).mono (by omega)).congr fun k s => ?_
    constructor
    · rintro ⟨c, as, s1, t, rfl, hl, hs, h⟩; exact .next hl (by rw [attrsEnc_eq]; exact hs) h
    · intro h
      cases h with
      | next hl hs h => exact ⟨_, _, _, _, rfl, hl, by rw [← attrsEnc_eq]; exact hs, h⟩

/-! ## Fields and methods -/

omit hok in
/-- A loop that refuses an element whose key was seen before, when reading an element can panic after its key was checked. -/
theorem breaks_distinct {α κ : Type} {N : Nat} (key : α → κ) {loop : List κ → Nat → Nat → P (List α)} {read : List κ → Nat → P α}
    {E : α → Lang} {H : κ → PanicKind → Lang} (h0 : ∀ seen i, loop seen i 0 = pure [])
    (hs : ∀ seen i n, loop seen i (n + 1) = read seen i >>= fun f => loop (key f :: seen) (i + 1) n >>= fun fs => pure (f :: fs))
    (hr : ∀ seen i, Exact N (read seen i) (fun f seg => key f ∉ seen ∧ E f seg))
    (hb : ∀ seen i, Breaks N (read seen i) (fun k s => ∃ x, x ∉ seen ∧ H x k s)) : ∀ (n : Nat) (seen : List κ) (i : Nat),
    Breaks N (loop seen i n) (fun k s => ∃ (fs : List α) (s1 t : Bytes) (x : κ), s = s1 ++ t ∧ fs.length < n ∧
      (fs.Pairwise fun f g => ¬ key f = key g) ∧ (∀ f ∈ fs, key f ∉ seen) ∧ seq E fs s1 ∧ x ∉ seen ∧ (∀ f ∈ fs, ¬ key f = x) ∧ H x k t)
  | 0, seen, i => by
    rw [h0]
    exact (Breaks.calm (M := 0) (Tame.pure [])).congr fun k s => by simp
  | n + 1, seen, i => by
    rw [hs]
    refine (Breaks.bind (hb seen i) (hr seen i) fun f => Breaks.first (f := fun fs => (pure (f :: fs) : P _))
      (breaks_distinct key h0 hs hr hb n (key f :: seen) (i + 1)) fun _ _ _ _ h => by cases h).congr fun k s => ?_
    constructor
    · rintro (⟨x, hx, hH⟩ | ⟨f, s1, t1, rfl, ⟨hf, hE⟩, fs, s2, t2, x, rfl, hl, hp, hn, hq, hx, hy, hH⟩)
      · exact ⟨[], [], s, x, rfl, Nat.succ_pos _, .nil, by simp, rfl, hx, by simp, hH⟩
      · refine ⟨f :: fs, s1 ++ s2, t2, x, by simp, by simpa using hl, List.pairwise_cons.mpr ⟨fun g hg he => hn g hg (by simp [he]), hp⟩, ?_,
          ⟨s1, s2, rfl, hE, hq⟩, fun h => hx (List.mem_cons_of_mem _ h), ?_, hH⟩
        · intro g hg
          rcases List.mem_cons.mp hg with rfl | hg
          · exact hf
          · exact fun hk => hn g hg (List.mem_cons_of_mem _ hk)
        · intro g hg he
          rcases List.mem_cons.mp hg with rfl | hg
          · exact hx (by simp [he])
          · exact hy g hg he
    · rintro ⟨fs, s1, t, x, rfl, hl, hp, hn, hq, hx, hy, hH⟩
      cases fs with
      | nil => cases hq; exact .inl ⟨x, hx, hH⟩
      | cons f fs =>
        obtain ⟨s2, s3, rfl, hE, hq⟩ := hq
        rw [List.pairwise_cons] at hp
        refine .inr ⟨f, s2, s3 ++ t, by simp, ⟨hn f (by simp), hE⟩, fs, s3, t, x, rfl, by simpa using hl, hp.2, ?_, hq, ?_,
          fun g hg => hy g (List.mem_cons_of_mem _ hg), hH⟩
        · intro g hg hk
          rcases List.mem_cons.mp hk with hk | hk
          · exact hp.1 g hg hk.symm
          · exact hn g (List.mem_cons_of_mem _ hg) hk
        · intro hk
          rcases List.mem_cons.mp hk with rfl | hk
          · exact hy f (by simp) rfl
          · exact hx hk

/-- A field panics when its attributes do, the name and the descriptor being fine. -/
def FieldBad (o : Opts) (pool : Pool) (x : Str × FieldDescriptor) (k : PanicKind) (s : Bytes) : Prop :=
  ∃ (bits i j : UInt16) (t : Bytes), s = u2 bits ++ (u2 i ++ (u2 j ++ t)) ∧ TextAt pool i.toNat x.1 ∧ UnqualifiedName x.1 ∧
    FieldDescriptorAt pool j.toNat x.2 ∧ AttrsPanic o pool k t

def MethodBad (o : Opts) (pool : Pool) (inInterface : Prop) (major : UInt16) (x : Str × MethodDescriptor) (k : PanicKind) (s : Bytes) : Prop :=
  ∃ (bits i j : UInt16) (t : Bytes), s = u2 bits ++ (u2 i ++ (u2 j ++ t)) ∧ TextAt pool i.toNat x.1 ∧ MethodName (¬ inInterface) True x.1 ∧
    MethodDescriptorAt pool j.toNat x.2 ∧
    SpecialMethodOK inInterface major { accessFlags := bits, name := x.1, descriptor := x.2, attributes := [] } ∧ AttrsPanic o pool k t

theorem field_breaks (env : Env) (seen : List (Str × FieldDescriptor)) (i : Nat) :
    Breaks env.depth (readField env pool seen i) (fun k s => ∃ x, x ∉ seen ∧ FieldBad env.opts pool x k s) := by
  unfold readField
  refine (Breaks.seq (Tame.readU2 (N := 0)) Exact.readU2 fun bits => Breaks.seq (readCpUtf8_tame.mapErr _ : Tame 0 (fun _ => False) 2 _)
    ((readCpUtf8_exact pool).mapErr _) fun name => Breaks.failIf fun _ => Breaks.seq (readCpUtf8_tame.mapErr _ : Tame 0 (fun _ => False) 2 _)
    ((readCpUtf8_exact pool).mapErr _) fun d => Breaks.seq (c := 0) (M := 0) ?_ (Exact.lift _) fun desc => Breaks.failIf fun _ =>
    Breaks.first ((attributes_breaks hok env env.depth).mapErr _) fun _ _ _ _ h => by cases h).congr fun k s => ?_
  · tame
  · constructor
    · rintro ⟨bits, s1, t1, rfl, rfl, name, s2, t2, rfl, ⟨i, hi, rfl⟩, hn, d, s3, t3, rfl, ⟨j, hj, rfl⟩, desc, s4, t4, rfl, ⟨hp, rfl⟩, hs, h⟩
      exact ⟨(name, desc), by simpa using hs, bits, i, j, t4, rfl, hi, not_isUnqualified.mp hn,
        ⟨d, hj, ((parseFieldDescriptor_zero d).ok_iff desc).mp hp⟩, h⟩
    · rintro ⟨⟨name, desc⟩, hs, bits, i, j, t4, rfl, hi, hn, ⟨d, hj, hp⟩, h⟩
      exact ⟨bits, _, _, rfl, rfl, name, _, _, rfl, ⟨i, hi, rfl⟩, not_isUnqualified.mpr hn, d, _, _, rfl, ⟨j, hj, rfl⟩, desc, [], _, rfl,
        ⟨((parseFieldDescriptor_zero d).ok_iff desc).mpr hp, rfl⟩, by simpa using hs, h⟩

theorem fields_breaks (env : Env) : Breaks env.depth (readFields env pool) (FieldsPanic env.opts pool) := by
  unfold readFields
  refine (Breaks.seq (Tame.readU2 (N := 0)) Exact.readU2 fun c => breaks_distinct (fun f : FieldInfo => (f.name, f.descriptor))
    (fun _ _ => rfl) (fun _ _ _ => rfl) (fun seen i => readField_exact env pool seen i) (fun seen i => field_breaks hok env seen i) c.toNat [] 0).congr
    fun k s => ?_
  constructor
  · rintro ⟨c, s1, t1, rfl, rfl, fs, s2, t2, ⟨name, d⟩, rfl, hl, hp, -, hq, -, hy, bits, i, j, t, rfl, h1, h2, h3, h4⟩
    exact ⟨c, bits, i, j, fs, name, d, s2, t, rfl, hl, by simpa [FieldsDistinct, Prod.mk.injEq] using hp, hq, h1, h2, h3,
      fun f hf => by simpa [Prod.mk.injEq] using hy f hf, h4⟩
  · rintro ⟨c, bits, i, j, fs, name, d, s2, t, rfl, hl, hp, hq, h1, h2, h3, hy, h4⟩
    exact ⟨c, _, _, rfl, rfl, fs, s2, _, (name, d), rfl, hl, by simpa [FieldsDistinct, Prod.mk.injEq] using hp, by simp, hq, by simp,
      fun f hf => by simpa [Prod.mk.injEq] using hy f hf, bits, i, j, t, rfl, h1, h2, h3, h4⟩

theorem method_breaks (env : Env) (inInterface : Bool) (mj : UInt16) (seen : List (Str × MethodDescriptor)) (i : Nat) :
    Breaks env.depth (readMethod env pool inInterface mj seen i)
      (fun k s => ∃ x, x ∉ seen ∧ MethodBad env.opts pool (inInterface = true) mj x k s) := by
  unfold readMethod
  refine (Breaks.seq (Tame.readU2 (N := 0)) Exact.readU2 fun bits => Breaks.seq (readCpUtf8_tame.mapErr _ : Tame 0 (fun _ => False) 2 _)
    ((readCpUtf8_exact pool).mapErr _) fun name => Breaks.failIf fun _ =>
    Breaks.seq (readMethodDescriptor_tame.mapErr _ : Tame 0 (fun _ => False) 0 _) ((readMethodDescriptor_exact pool).mapErr _) fun desc =>
    Breaks.failIf fun _ => Breaks.failIf fun _ => Breaks.failIf fun _ => Breaks.failIf fun _ =>
    Breaks.first ((attributes_breaks hok env env.depth).mapErr _) fun _ _ _ _ h => by cases h).congr fun k s => ?_
  have hname : ∀ name : Str, ((!isUnqualifiedMethodName name (!inInterface) true) = false ↔ MethodName (¬ inInterface = true) True name) := by
    intro name
    have := isUnqualifiedMethodName_iff name (!inInterface) true
    simpa using this
  have hspecial : ∀ (bits : UInt16) (name : Str) (d : MethodDescriptor),
      ((!inInterface && name == "<init>".toList && d.returnType != .void) = false ∧ (name == "<clinit>".toList && d.returnType != .void) = false ∧
        (name == "<clinit>".toList && (decide (mj ≥ 51) && !d.parameters.isEmpty)) = false) ↔
      SpecialMethodOK (inInterface = true) mj { accessFlags := bits, name := name, descriptor := d, attributes := [] } := by
    intro bits name d
    unfold SpecialMethodOK
    by_cases h1 : name = "<init>".toList <;> by_cases h2 : name = "<clinit>".toList <;> cases inInterface <;>
      by_cases h3 : d.returnType = .void <;> by_cases h4 : mj ≥ 51 <;> cases h5 : d.parameters <;>
      simp_all
  constructor
  · rintro ⟨bits, s1, t1, rfl, rfl, name, s2, t2, rfl, ⟨i, hi, rfl⟩, hn, desc, s3, t3, rfl, ⟨j, hj, rfl⟩, h1, h2, h3, hs, h⟩
    exact ⟨(name, desc), by simpa using hs, bits, i, j, t3, rfl, hi, (hname name).mp hn, hj, (hspecial bits name desc).mp ⟨h1, h2, h3⟩, h⟩
  · rintro ⟨⟨name, desc⟩, hs, bits, i, j, t3, rfl, hi, hn, hj, hsp, h⟩
    obtain ⟨h1, h2, h3⟩ := (hspecial bits name desc).mpr hsp
    exact ⟨bits, _, _, rfl, rfl, name, _, _, rfl, ⟨i, hi, rfl⟩, (hname name).mpr hn, desc, _, _, rfl, ⟨j, hj, rfl⟩, h1, h2, h3,
      by simpa using hs, h⟩

theorem methods_breaks (env : Env) (inInterface : Bool) (mj : UInt16) :
    Breaks env.depth (readMethods env pool inInterface mj) (MethodsPanic env.opts pool (inInterface = true) mj) := by
  unfold readMethods
  refine (Breaks.seq (Tame.readU2 (N := 0)) Exact.readU2 fun c => breaks_distinct (fun f : MethodInfo => (f.name, f.descriptor))
    (fun _ _ => rfl) (fun _ _ _ => rfl) (fun seen i => readMethod_exact env pool inInterface mj seen i)
    (fun seen i => method_breaks hok env inInterface mj seen i) c.toNat [] 0).congr fun k s => ?_
  constructor
  · rintro ⟨c, s1, t1, rfl, rfl, fs, s2, t2, ⟨name, d⟩, rfl, hl, hp, -, hq, -, hy, bits, i, j, t, rfl, h1, h2, h3, h4, h5⟩
    exact ⟨c, bits, i, j, fs, name, d, s2, t, rfl, hl, by simpa [MethodsDistinct, Prod.mk.injEq] using hp, hq, h1, h2, h3, h4,
      fun f hf => by simpa [Prod.mk.injEq] using hy f hf, h5⟩
  · rintro ⟨c, bits, i, j, fs, name, d, s2, t, rfl, hl, hp, hq, h1, h2, h3, h4, hy, h5⟩
    exact ⟨c, _, _, rfl, rfl, fs, s2, _, (name, d), rfl, hl, by simpa [MethodsDistinct, Prod.mk.injEq] using hp, by simp, hq, by simp,
      fun f hf => by simpa [Prod.mk.injEq] using hy f hf, bits, i, j, t, rfl, h1, h2, h3, h4, h5⟩

/-- What follows the interfaces panics. -/
def BackPanic (o : Opts) (pool : Pool) (flags major : UInt16) (k : PanicKind) (rest : Bytes) : Prop :=
  FieldsPanic o pool k rest ∨
    ∃ (fs : List FieldInfo) (s t : Bytes), rest = s ++ t ∧ FieldsDistinct fs ∧ table2 (FieldEnc o pool) fs s ∧
      (MethodsPanic o pool (IsInterface flags) major k t ∨
        ∃ (ms : List MethodInfo) (s' t' : Bytes), t = s' ++ t' ∧ MethodsDistinct ms ∧
          table2 (MethodEnc o pool (IsInterface flags) major) ms s' ∧ AttrsPanic o pool k t')

/-- The rest of a class file: flags, class names, interfaces, then what follows. -/
theorem body_breaks (env : Env) (minor : UInt16) : Breaks env.depth (readBody env minor major pool) (fun k s =>
    ∃ (bits : UInt16) (s1 s2 s3 rest : Bytes) (this : ClassName) (super : Option ClassName) (ifs : List ClassName),
      s = u2 bits ++ (s1 ++ (s2 ++ (s3 ++ rest))) ∧
      (IsModule (fromBitsTruncate classMask bits) → 53 ≤ major ∧ fromBitsTruncate classMask bits = 0x8000) ∧
      ref (fun i => ClassNameAt pool i this) s1 ∧ ref (fun i => OptAt ClassNameAt pool i super) s2 ∧
      table2 (fun c => ref fun i => ClassNameAt pool i c) ifs s3 ∧
      BackPanic env.opts pool (fromBitsTruncate classMask bits) major k rest) := by
  have hI : Tame 0 (fun _ => False) 0 (readInterfaces pool) :=
    (Tame.readTable2 (k := 0) (Nat.le_add_right _ _) fun i => (readClassName_tame hok).mapErr _).zero
  have hXI : Exact env.depth (readInterfaces pool) (table2 fun c => ref fun i => ClassNameAt pool i c) :=
    Exact.readTable2 fun i => Exact.mapErr (readClassName_exact hok) _
  have hm : ∀ flags : UInt16, (flagsContains16 flags AccessFlags.INTERFACE = true) = IsInterface flags := fun flags =>
    propext (contains_interface flags)
  unfold readBody
  refine (Breaks.seq (Tame.readU2 (N := 0)) Exact.readU2 fun bits => Breaks.seq (checkModuleFlags_tame (N := 0) _ _)
    (checkModuleFlags_exact (fromBitsTruncate classMask bits) major) fun _ => Breaks.seq ((readClassName_tame (N := 0) hok).mapErr _)
    ((readClassName_exact hok).mapErr _) fun this => Breaks.seq ((readClassNameOpt_tame (N := 0) hok).mapErr _)
    ((readClassNameOpt_exact hok).mapErr _) fun super => Breaks.seq hI hXI fun ifs =>
    Breaks.bind (fields_breaks hok env) (readFields_exact env pool) fun fs =>
    Breaks.bind (methods_breaks hok env _ major) (readMethods_exact env pool _ major) fun ms =>
    Breaks.first ((attributes_breaks hok env env.depth).mapErr _) fun as bytes ix k h => ?_).congr fun k s => ?_
  · have : Tame 0 (fun _ => False) 0 (checkAtEnd >>= fun _ => checkModuleEmpty (fromBitsTruncate classMask bits) super ifs fs ms >>= fun _ =>
        P.lift (validateBootstrapMethods pool as) >>= fun _ =>
          (pure (ClassFile.mk major minor pool (fromBitsTruncate classMask bits) this super ifs fs ms as) : P ClassFile)) :=
      Tame.seq (m := 0) checkAtEnd_tame fun _ => Tame.seq (m := 0) (checkModuleEmpty_tame _ _ _ _ _) fun _ =>
        Tame.seq (m := 0) (Tame.lift (validateBootstrapMethods_calm _ _)) fun _ => Tame.pure _
    by_cases hle : ix ≤ bytes.length
    · have := this bytes ix hle
      unfold TameAt at this
      rw [h] at this
      exact this
    · have hc : checkAtEnd bytes ix = Res.fail s!"Extra bytes found at index {ix} after reading class file" := by
        unfold checkAtEnd
        rw [if_pos (by omega)]
      rw [P.bind_err hc] at h
      cases h
  · simp only [hm]
    constructor
    · rintro ⟨bits, s1, t1, rfl, rfl, _, s2, t2, rfl, ⟨hmod, rfl⟩, this, s3, t3, rfl, hthis, super, s4, t4, rfl, hsuper, ifs, s5, t5, rfl, hifs, h⟩
      refine ⟨bits, s3, s4, s5, t5, this, super, ifs, rfl, hmod, hthis, hsuper, hifs, h.imp_right ?_⟩
      rintro ⟨fs, s6, t6, rfl, ⟨hd, hfs⟩, h⟩
      refine ⟨fs, s6, t6, rfl, hd, hfs, h.imp_right ?_⟩
      rintro ⟨ms, s7, t7, rfl, ⟨hd, hms⟩, h⟩
      exact ⟨ms, s7, t7, rfl, hd, hms, h⟩
    · rintro ⟨bits, s3, s4, s5, t5, this, super, ifs, rfl, hmod, hthis, hsuper, hifs, h⟩
      refine ⟨bits, _, _, rfl, rfl, (), [], _, rfl, ⟨hmod, rfl⟩, this, s3, _, rfl, hthis, super, s4, _, rfl, hsuper, ifs, s5, t5, rfl, hifs,
        h.imp_right ?_⟩
      rintro ⟨fs, s6, t6, rfl, hd, hfs, h⟩
      refine ⟨fs, s6, t6, rfl, ⟨hd, hfs⟩, h.imp_right ?_⟩
      rintro ⟨ms, s7, t7, rfl, hd, hms, h⟩
      exact ⟨ms, s7, t7, rfl, ⟨hd, hms⟩, h⟩

end

theorem pool_breaks (env : Env) (h2 : 2 ≤ env.depth) (major : UInt16) : Breaks env.depth (readConstantPool env major) (fun k s =>
    k = .overflow ∧ env.overflowChecks = true ∧ ∃ (count : UInt16) (es : List Entry) (body rest : Bytes), s = u2 count ++ body ++ rest ∧
      seq (EntryEnc env.decode major) es body ∧ (∀ k, k < es.length → slotCount (es.take k) < count.toNat) ∧ 65536 ≤ slotCount es) :=
  fun _ _ h1 hb k => (readConstantPool_stop env h2 major h1 hb).1 k

theorem file_breaks (env : Env) (h2 : 2 ≤ env.depth) : Breaks env.depth (readClassFile env) (PanicInput env.opts) := by
  rw [readClassFile_eq]
  refine (Breaks.seq (readHeader_tame (N := 0)) readHeader_exact fun v => Breaks.bindK (H := fun pool k s =>
    ∃ (bits : UInt16) (s1 s2 s3 rest : Bytes) (this : ClassName) (super : Option ClassName) (ifs : List ClassName),
      s = u2 bits ++ (s1 ++ (s2 ++ (s3 ++ rest))) ∧
      (IsModule (fromBitsTruncate classMask bits) → 53 ≤ v.2 ∧ fromBitsTruncate classMask bits = 0x8000) ∧
      ref (fun i => ClassNameAt pool i this) s1 ∧ ref (fun i => OptAt ClassNameAt pool i super) s2 ∧
      table2 (fun c => ref fun i => ClassNameAt pool i c) ifs s3 ∧
      BackPanic env.opts pool (fromBitsTruncate classMask bits) v.2 k rest) 0 (pool_breaks env h2 v.2)
      (readConstantPool_exact env h2 v.2) (fun _ _ _ => Nat.zero_le _) (Nat.le_refl _)
    fun pool hp => ?_).congr fun k s => ?_
  · obtain ⟨_, raw, -, -, hok⟩ := hp
    exact body_breaks hok env v.1
  · constructor
    · rintro ⟨⟨minor, major⟩, s1, t1, rfl, rfl, ⟨rfl, hc, count, es, body, rest, rfl, h⟩ | ⟨pool, s2, t2, rfl, hp, bits, s3, s4, s5, rest, this, super, ifs,
        rfl, hm, ht, hs, hi, h⟩⟩
      · exact .inl ⟨rfl, hc, minor, major, count, es, body, rest, by simp [header], h⟩
      · refine .inr ⟨minor, major, pool, fromBitsTruncate classMask bits, header minor major ++ (s2 ++ (u2 bits ++ (s3 ++ (s4 ++ s5)))), rest,
          by simp [header], ⟨this, super, ifs, ⟨_, _, rfl, rfl, s2, _, rfl, hp, u2 bits, _, rfl, ⟨bits, ?_, rfl⟩, s3, _, rfl, ht, s4, s5, rfl, hs, hi⟩, hm⟩, h⟩
        rw [← classMask_eq]; rfl
    · rintro (⟨rfl, hc, minor, major, count, es, body, rest, rfl, h⟩ | ⟨minor, major, pool, flags, front, rest, rfl, ⟨this, super, ifs, ⟨_, _, rfl, rfl,
        s2, _, rfl, hp, _, _, rfl, ⟨bits, hfl, rfl⟩, s3, _, rfl, ht, s4, s5, rfl, hs, hi⟩, hm⟩, h⟩)
      · exact ⟨(minor, major), header minor major, u2 count ++ body ++ rest, by simp, rfl, .inl ⟨rfl, hc, count, es, body, rest, rfl, h⟩⟩
      · have hfl' : fromBitsTruncate classMask bits = flags := by rw [classMask_eq, hfl]; rfl
        subst hfl'
        exact ⟨(minor, major), header minor major, s2 ++ (u2 bits ++ (s3 ++ (s4 ++ (s5 ++ rest)))), by simp, rfl, .inr ⟨pool, s2, u2 bits ++ (s3 ++ (s4 ++ (s5 ++ rest))), rfl, hp, bits, s3, s4, s5,
          rest, this, super, ifs, rfl, hm, ht, hs, hi, h⟩⟩

/-- Parsing panics exactly on the inputs described. -/
theorem panics_iff_input {o : Opts} {bytes : Bytes} {k : PanicKind} : Panics o bytes k ↔ PanicInput o k bytes := by
  rw [panics_iff, run_eq]
  have h := file_breaks (envOf o (bytes.length + 2)) (by simp [envOf]) bytes 0 (Nat.zero_le _) (by simp [envOf]) k
  rw [List.drop_zero] at h
  rw [envOf_opts] at h
  rw [← h]
  cases readClassFile (envOf o (bytes.length + 2)) bytes 0 <;> simp [Res.bind]

end Cafebabe
