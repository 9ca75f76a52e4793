import Verif.Spec.AttributeMessage
import Verif.Proofs.CodeMessage
import Verif.Proofs.LayoutUnique
import Verif.Proofs.Trail
import Verif.Proofs.Message
/-!
# Proofs: the error for a faulty table of attributes
-/

namespace Cafebabe
open Spec

section
variable {L N : Nat} {env : Env} {rec : P (List AttributeInfo)} {pool : Pool} {major : UInt16}

theorem refs_names (hok : PoolOK major pool) {α : Type} {p : P α} {At : Nat → α → Prop} {about : Nat → String → Prop} (h : RefReader pool p At about) :
    Names anyError L N p (Blamed L pool (.constant (fun i => ∃ a, At i a) about)) :=
  (h.names major hok L N).congr fun _ _ _ => constant_blame

/-! ## Code -/

theorem exception_follows (pool : Pool) (j : Nat) :
    Follows N pool (readExceptionTableEntry pool j) [word, word, word, .within s!"catch type of exception table entry {j}" [classIxOpt pool]] :=
  Follows.cons Follows.word fun _ => Follows.cons Follows.word fun _ => Follows.cons Follows.word fun _ =>
    Follows.last ((Follows.constant (classOpt_reader pool)).within _)

theorem exceptions_names (hok : PoolOK major pool) :
    Names anyError L N (readTable2 (readExceptionTableEntry pool)) (Blamed L pool (exceptionTable pool)) :=
  ((Follows.table2 (N := N) (exception_follows pool)).2.2 major hok L).congr fun _ _ _ => firstBlame_one

theorem codeBytes_names (n : UInt32) : Names anyError L N (P.getIx >>= fun ix => takeBytes n.toNat
    s!"Unexpected end of stream reading code attribute at index {ix}") (fun s e => s.length < n.toNat ∧ e = cutOff L "code attribute" s) :=
  (Names.getIxBind fun ix => Names.takeBytes n.toNat _).congr fun s e _ => by
    have := cut_text (w := "code attribute") rfl (L - s.length)
    constructor
    · rintro ⟨h, rfl⟩; exact ⟨h, by unfold cutOff plainly; rw [← this]; rfl⟩
    · rintro ⟨h, rfl⟩; exact ⟨h, by unfold cutOff plainly; rw [← this]; rfl⟩

theorem head_iff {s : Bytes} {e : ParseError} : FirstBlame L pool [word, word, quad] s e ↔
    (s.length < 2 ∧ e = cutOff L "u2" s) ∨ ∃ (a : UInt16) (t : Bytes), s = u2 a ++ t ∧ ((t.length < 2 ∧ e = cutOff L "u2" t) ∨
      ∃ (b : UInt16) (t' : Bytes), t = u2 b ++ t' ∧ t'.length < 4 ∧ e = cutOff L "u4" t') := by
  have hw : ∀ {s : Bytes}, Fits pool word s ↔ ∃ a, s = u2 a := by
    intro s
    constructor
    · intro h
      cases h with
      | number h =>
        obtain ⟨a, b, rfl⟩ := list2 _ h
        exact ⟨_, (u2_of_bytes a b).symm⟩
    · rintro ⟨a, rfl⟩
      exact .number (by rw [u2_length])
  constructor
  · intro h
    cases h with
    | here h => cases h with | number h => exact .inl ⟨h, rfl⟩
    | later h h' =>
      obtain ⟨a, rfl⟩ := hw.mp h
      refine .inr ⟨a, _, rfl, ?_⟩
      cases h' with
      | here h => cases h with | number h => exact .inl ⟨h, rfl⟩
      | later h h' =>
        obtain ⟨b, rfl⟩ := hw.mp h
        refine .inr ⟨b, _, rfl, ?_⟩
        cases h' with
        | here h => cases h with | number h => exact ⟨h, rfl⟩
        | later _ h => cases h
  · rintro (⟨h, rfl⟩ | ⟨a, t, rfl, ⟨h, rfl⟩ | ⟨b, t', rfl, h, rfl⟩⟩)
    · exact .here (.number h)
    · exact .later (hw.mpr ⟨_, rfl⟩) (.here (.number h))
    · exact .later (hw.mpr ⟨_, rfl⟩) (.later (hw.mpr ⟨_, rfl⟩) (.here (.number h)))

/-- The errors before the attributes of a Code attribute. -/
theorem codeHead_names (hok : PoolOK major pool) : Names anyError L N (readCodeHead pool) (fun s e => FirstBlame L pool [word, word, quad] s e ∨
    (∃ (a b : UInt16) (n : UInt32) (t : Bytes), s = u2 a ++ (u2 b ++ (u4 n ++ t)) ∧ t.length < n.toNat ∧ e = cutOff L "code attribute" t) ∨
    ∃ (a b : UInt16) (n : UInt32) (code t : Bytes), s = u2 a ++ (u2 b ++ (u4 n ++ (code ++ t))) ∧ n.toNat = code.length ∧
      Blamed L pool (exceptionTable pool) t e) := by
  unfold readCodeHead
  refine (Names.bind Names.readU2 Exact.readU2 fun a => Names.bind Names.readU2 Exact.readU2 fun b => Names.bind
    (Names.bind Names.readU4 Exact.readU4 fun n => codeBytes_names n) (sizedCode_exact _) fun code =>
    Names.first (exceptions_names hok) fun _ _ _ _ h => by cases h).congr fun s e _ => ?_
  rw [head_iff]
  constructor
  · rintro (⟨h, rfl⟩ | ⟨a, _, t1, rfl, rfl, ⟨h, rfl⟩ | ⟨b, _, t2, rfl, rfl, (⟨h, rfl⟩ | ⟨n, _, t, rfl, rfl, h, rfl⟩) | ⟨_, _, t3, rfl, ⟨n, _, hn, rfl, rfl⟩, h⟩⟩⟩)
    · exact .inl (.inl ⟨h, rfl⟩)
    · exact .inl (.inr ⟨a, _, rfl, .inl ⟨h, rfl⟩⟩)
    · exact .inl (.inr ⟨a, _, rfl, .inr ⟨b, _, rfl, h, rfl⟩⟩)
    · exact .inr (.inl ⟨a, b, n, t, rfl, h, rfl⟩)
    · exact .inr (.inr ⟨a, b, n, _, t3, by simp, hn, h⟩)
  · rintro ((⟨h, rfl⟩ | ⟨a, t, rfl, ⟨h, rfl⟩ | ⟨b, t', rfl, h, rfl⟩⟩) | ⟨a, b, n, t, rfl, h, rfl⟩ | ⟨a, b, n, code, t, rfl, hn, h⟩)
    · exact .inl ⟨h, rfl⟩
    · exact .inr ⟨a, _, t, rfl, rfl, .inl ⟨h, rfl⟩⟩
    · exact .inr ⟨a, _, _, rfl, rfl, .inr ⟨b, _, t', rfl, rfl, .inl (.inl ⟨h, rfl⟩)⟩⟩
    · exact .inr ⟨a, _, _, rfl, rfl, .inr ⟨b, _, _, rfl, rfl, .inl (.inr ⟨n, _, t, rfl, rfl, h, rfl⟩)⟩⟩
    · exact .inr ⟨a, _, _, rfl, rfl, .inr ⟨b, _, _, rfl, rfl, .inr ⟨code, u4 n ++ code, t, by simp, ⟨n, _, hn, rfl, rfl⟩, h⟩⟩⟩

theorem codeTail_names (hok : PoolOK major pool) (x : UInt16 × UInt16 × Bytes × List ExceptionTableEntry) (as : List AttributeInfo) :
    Names anyError L N (readCodeTail env pool x as) (fun _ e => ∃ e', env.parseBytecode = true ∧
      BytecodeSays env.overflowChecks pool x.2.2.1 e' ∧ e = inside "bytecode" e') := by
  intro bytes ix h1 h2 h3 e _
  unfold readCodeTail
  by_cases hp : env.parseBytecode = true
  · rw [if_pos hp, P.bind_errs]
    have hm : P.lift ((ByteCode.ofCode env.overflowChecks x.2.2.1 pool).mapErr "bytecode") bytes ix = .err e ↔
        ∃ e', ByteCode.ofCode env.overflowChecks x.2.2.1 pool = .err e' ∧ e = inside "bytecode" e' := by
      unfold P.lift Res.mapErr
      cases ByteCode.ofCode env.overflowChecks x.2.2.1 pool with
      | ok a => simp
      | panic k => simp
      | diverge => simp
      | err e' =>
        simp only [Res.err.injEq, exists_eq_left']
        exact ⟨fun h => h.symm, fun h => h.symm⟩
    rw [hm]
    constructor
    · rintro (⟨e', h, rfl⟩ | ⟨_, _, -, h⟩)
      · exact ⟨e', hp, (ofCode_iff hok).mp h, rfl⟩
      · cases h
    · rintro ⟨e', -, h, rfl⟩
      exact .inl ⟨e', (ofCode_iff hok).mpr h, rfl⟩
  · rw [if_neg hp]
    constructor
    · intro h; cases h
    · rintro ⟨_, h, -⟩; exact absurd h hp

theorem codeAttr_names (hok : PoolOK major pool) (hrec : Exact N rec (table2 (AttrEnc env.opts pool)))
    (ht : Names anyError L N rec (AttrsSays env.opts pool L)) :
    Names anyError L N (readCodeDataWith env rec pool) (CodeSays env.opts pool L) := by
  rw [readCodeDataWith_head]
  refine (Names.bind (codeHead_names hok) (readCodeHead_exact pool) fun x => Names.bind (Names.ctx ht _) (hrec.mapErr _) fun as =>
    codeTail_names hok x as).congr fun s e _ => ?_
  constructor
  · rintro ((h | ⟨a, b, n, t, rfl, h, rfl⟩ | ⟨a, b, n, code, t, rfl, hn, h⟩) | ⟨⟨a, b, code, es⟩, s1, t1, rfl, hx, ⟨e', h, rfl⟩ |
      ⟨as, s2, t2, rfl, has, e', hp, h, rfl⟩⟩)
    · exact .sizes h
    · exact .cut h
    · exact .exceptions hn h
    · exact .attributes hx h
    · exact .bytecode hx has hp h
  · intro h
    cases h with
    | sizes h => exact .inl (.inl h)
    | @cut a b n t h => exact .inl (.inr (.inl ⟨a, b, n, t, rfl, h, rfl⟩))
    | @exceptions a b n code t e' hn h => exact .inl (.inr (.inr ⟨a, b, n, code, t, rfl, hn, h⟩))
    | @attributes x s t e' hx h => exact .inr ⟨x, s, t, rfl, hx, .inl ⟨e', h, rfl⟩⟩
    | @bytecode a b code es as s t rest e' hx has hp h => exact .inr ⟨(a, b, code, es), s, _, rfl, hx, .inr ⟨as, t, rest, rfl, has, e', hp, h, rfl⟩⟩

/-! ## Record -/

theorem component_names {o : Opts} (hok : PoolOK major pool) (ht : Names anyError L N rec (AttrsSays o pool L)) (j : Nat) :
    Names anyError L N (readRecordComponentWith rec pool j) (ComponentSays o pool L j) := by
  unfold readRecordComponentWith
  refine (Names.bind (Names.ctx (refs_names hok (utf8_reader pool)) _) ((readCpUtf8_exact pool).mapErr _) fun name => Names.failIf fun _ =>
    Names.bind (Names.ctx (refs_names hok (descriptor_reader pool)) _) ((readFieldDescriptor_exact pool).mapErr _) fun d =>
    Names.first (Names.ctx ht _) fun _ _ _ _ h => by cases h).congr fun s e _ => ?_
  constructor
  · rintro (⟨e', h, rfl⟩ | ⟨name, _, t1, rfl, ⟨i, hi, rfl⟩, ⟨hn, rfl⟩ | ⟨hn, ⟨e', h, rfl⟩ | ⟨desc, _, t2, rfl, ⟨d, hd, rfl⟩, e', h, rfl⟩⟩⟩)
    · exact .name h
    · refine .badName hi fun hu => ?_
      rw [not_isUnqualified.mpr hu] at hn
      cases hn
    · exact .descriptor hi (not_isUnqualified.mp hn) h
    · exact .attributes hi (not_isUnqualified.mp hn) hd h
  · intro h
    cases h with
    | name h => exact .inl ⟨_, h, rfl⟩
    | @badName _ i name t hi hn =>
      refine .inr ⟨name, _, _, rfl, ⟨i, hi, rfl⟩, .inl ⟨?_, rfl⟩⟩
      cases hb : !isUnqualifiedName name with
      | true => rfl
      | false => exact absurd (not_isUnqualified.mp hb) hn
    | @descriptor _ i name t e' hi hn h => exact .inr ⟨name, _, _, rfl, ⟨i, hi, rfl⟩, .inr ⟨not_isUnqualified.mpr hn, .inl ⟨e', h, rfl⟩⟩⟩
    | @attributes _ i d name desc t e' hi hn hd h =>
      exact .inr ⟨name, _, _, rfl, ⟨i, hi, rfl⟩, .inr ⟨not_isUnqualified.mpr hn, .inr ⟨desc, _, _, rfl, ⟨d, hd, rfl⟩, e', h, rfl⟩⟩⟩

/-- A table with a two-byte count. -/
theorem table2_names {α : Type} {f : Nat → P α} {F : α → Lang} {G : Nat → Bytes → ParseError → Prop} (hx : ∀ i, Exact N (f i) F)
    (hf : ∀ i, Names anyError L N (f i) (G i)) : Names anyError L (N + 2) (readTable2 f) (fun s e => (s.length < 2 ∧ e = cutOff L "u2" s) ∨
    ∃ (count : UInt16) (xs : List α) (before t : Bytes), s = u2 count ++ (before ++ t) ∧ xs.length < count.toNat ∧ seq F xs before ∧
      G xs.length t e) := by
  unfold readTable2
  refine (Names.bindK 2 Names.readU2 Exact.readU2 (M := N) (by rintro a _ rfl; simp [u2]) (Nat.le_refl _) fun c =>
    Names.forRangeFrom hx hf c.toNat 0).congr fun s e _ => or_congr_right ?_
  constructor
  · rintro ⟨c, _, _, rfl, rfl, xs, s1, t, hl, rfl, hs, hG⟩
    rw [Nat.zero_add] at hG
    exact ⟨c, xs, s1, t, rfl, hl, hs, hG⟩
  · rintro ⟨c, xs, s1, t, rfl, hl, hs, hG⟩
    exact ⟨c, _, _, rfl, rfl, xs, s1, t, hl, rfl, hs, by rwa [Nat.zero_add]⟩

theorem Names.lower {α : Type} {C : ParseError → Prop} {M : Nat} {p : P α} {R : Bytes → ParseError → Prop} (h : Names C L M p R) (hle : N ≤ M) :
    Names C L N p R := fun bytes ix h1 h2 h3 => h bytes ix h1 h2 (by omega)

theorem recordAttr_names {o : Opts} (hok : PoolOK major pool) (hrec : Exact N rec (table2 (AttrEnc o pool)))
    (ht : Names anyError L N rec (AttrsSays o pool L)) : Names anyError L N (readRecordDataWith rec pool) (RecordSays o pool L) := by
  refine ((table2_names (fun j => readRecordComponentWith_exact hrec j) fun j => component_names hok ht j).lower (by omega)).congr fun s e _ => ?_
  constructor
  · rintro (⟨h, rfl⟩ | ⟨count, cs, before, t, rfl, hl, hs, h⟩)
    · exact .count h
    · exact .next hl hs h
  · intro h
    cases h with
    | count h => exact .inl ⟨h, rfl⟩
    | @next count cs before t e' hl hs h => exact .inr ⟨count, cs, before, t, rfl, hl, hs, h⟩

end

/-! ## One attribute -/

theorem fixed_kind {title : String} {m : Nat} (h : (title, m) ∈ fixedLengths) :
    ∃ k, kindName k = some title.toList ∧ k ≠ .code ∧ k ≠ .record ∧ k ≠ .sourceDebugExtension := by
  simp only [fixedLengths, List.mem_cons, List.not_mem_nil, or_false, Prod.mk.injEq] at h
  rcases h with ⟨rfl, -⟩ | ⟨rfl, -⟩ | ⟨rfl, -⟩ | ⟨rfl, -⟩ | ⟨rfl, -⟩ | ⟨rfl, -⟩ | ⟨rfl, -⟩ | ⟨rfl, -⟩
  · exact ⟨.constantValue, rfl, nofun, nofun, nofun⟩
  · exact ⟨.enclosingMethod, rfl, nofun, nofun, nofun⟩
  · exact ⟨.synthetic, rfl, nofun, nofun, nofun⟩
  · exact ⟨.signature, rfl, nofun, nofun, nofun⟩
  · exact ⟨.sourceFile, rfl, nofun, nofun, nofun⟩
  · exact ⟨.deprecated, rfl, nofun, nofun, nofun⟩
  · exact ⟨.moduleMainClass, rfl, nofun, nofun, nofun⟩
  · exact ⟨.nestHost, rfl, nofun, nofun, nofun⟩

/-- What is said about contents, by the kind of attribute. -/
theorem content_iff {o : Opts} {pool : Pool} {L k n : Nat} {name : Str} {t : Bytes} {e : ParseError} : ContentSays o pool L k name n t e ↔
    (attrKindOf name = .code ∧ ∃ e', CodeSays o pool L t e' ∧ e = inside s!"Code attribute {k}" e') ∨
    (attrKindOf name = .record ∧ ∃ e', RecordSays o pool L t e' ∧ e = inside s!"Record attribute {k}" e') ∨
    (attrKindOf name = .sourceDebugExtension ∧ o.decode (t.take n) = none ∧
      e = inside s!"modified utf8 data of SourceDebugExtension attribute {k}" (plainly "invalid modified utf8")) ∨
    (attrKindOf name ≠ .code ∧ attrKindOf name ≠ .record ∧ attrKindOf name ≠ .sourceDebugExtension ∧ kindName (attrKindOf name) = some name ∧
      ∃ title : String, name = title.toList ∧ ((∃ m, (title, m) ∈ fixedLengths ∧ n ≠ m ∧
          e = inside s!"{title} attribute {k}" (plainly s!"Unexpected length {n}")) ∨
        ((∀ m, (title, m) ∈ fixedLengths → n = m) ∧ ∃ parts, (title, parts) ∈ layouts pool k ∧ FirstBlame L pool parts t e))) := by
  have kinds : ∀ {title : String}, (∃ k, kindName k = some title.toList ∧ k ≠ .code ∧ k ≠ .record ∧ k ≠ .sourceDebugExtension) →
      attrKindOf title.toList ≠ .code ∧ attrKindOf title.toList ≠ .record ∧ attrKindOf title.toList ≠ .sourceDebugExtension ∧
        kindName (attrKindOf title.toList) = some title.toList := by
    rintro title ⟨k, hk, h1, h2, h3⟩
    rw [(attrKindOf_iff _ _).mpr (.inl hk)]
    exact ⟨h1, h2, h3, hk⟩
  have named : ∀ {k : AttrKind}, k ≠ .other → attrKindOf name = k → kindName k = some name := by
    intro k hk h
    rcases (attrKindOf_iff _ _).mp h with h | ⟨h, -⟩
    · exact h
    · exact absurd h hk
  constructor
  · intro h
    cases h with
    | wrongLength h hne =>
      obtain ⟨h1, h2, h3, h4⟩ := kinds (fixed_kind h)
      exact .inr (.inr (.inr ⟨h1, h2, h3, h4, _, rfl, .inl ⟨_, h, hne, rfl⟩⟩))
    | part hf hm h =>
      obtain ⟨h1, h2, h3, h4⟩ := kinds (layouts_kind hm)
      exact .inr (.inr (.inr ⟨h1, h2, h3, h4, _, rfl, .inr ⟨hf, _, hm, h⟩⟩))
    | debugExtension h => exact .inr (.inr (.inl ⟨by decide, h, rfl⟩))
    | code h => exact .inl ⟨by decide, _, h, rfl⟩
    | record h => exact .inr (.inl ⟨by decide, _, h, rfl⟩)
  · rintro (⟨hk, e', h, rfl⟩ | ⟨hk, e', h, rfl⟩ | ⟨hk, h, rfl⟩ | ⟨-, -, -, -, title, rfl, ⟨m, hm, hne, rfl⟩ | ⟨hf, parts, hm, h⟩⟩)
    · cases named (by decide) hk; exact .code h
    · cases named (by decide) hk; exact .record h
    · cases named (by decide) hk; exact .debugExtension h
    · exact .wrongLength hm hne
    · exact .part hf hm h

section
variable {L N depth : Nat} {env : Env} {rec : P (List AttributeInfo)} {pool : Pool} {major : UInt16}

/-- The error for the content of an attribute. -/
theorem data_err (hok : PoolOK major pool) (hN : N ≤ depth) (hrec : Exact N rec (table2 (AttrEnc env.opts pool)))
    (ht : Names anyError L N rec (AttrsSays env.opts pool L)) (k n : Nat) (name : Str) {bytes : Bytes} {ix : Nat} (h1 : bytes.length = L) (h2 : ix ≤ L)
    (h3 : L < ix + N) (hn : ix + n ≤ L) (e : ParseError) :
    readAttributeData env depth rec pool k n (attrKindOf name) bytes ix = .err e ↔ ContentSays env.opts pool L k name n (bytes.drop ix) e := by
  rw [content_iff]
  have hk := (attrKindOf_iff name (attrKindOf name)).mp rfl
  have hs : sliceBytes bytes ix (ix + n) = .ok ((bytes.drop ix).take n) := by
    unfold sliceBytes
    rw [if_pos ⟨by omega, by omega⟩]
    congr 2
    omega
  by_cases c1 : attrKindOf name = .code
  · rw [c1]
    have := (Names.first (C := anyError) (f := fun d => (Pure.pure (AttributeData.code d) : P _)) (Names.ctx (codeAttr_names (N := N) hok hrec ht) s!"Code attribute {k}")
      (fun _ _ _ _ h => by cases h)) bytes ix h1 h2 h3 e trivial
    refine Iff.trans this ?_
    simp
  by_cases c2 : attrKindOf name = .record
  · rw [c2]
    have := (Names.first (C := anyError) (f := fun d => (Pure.pure (AttributeData.record d) : P _)) (Names.ctx (recordAttr_names (N := N) hok hrec ht) s!"Record attribute {k}")
      (fun _ _ _ _ h => by cases h)) bytes ix h1 h2 h3 e trivial
    refine Iff.trans this ?_
    simp
  by_cases c3 : attrKindOf name = .sourceDebugExtension
  · rw [c3]
    have : readAttributeData env depth rec pool k n .sourceDebugExtension bytes ix = .err e ↔
        env.opts.decode ((bytes.drop ix).take n) = none ∧
        e = inside s!"modified utf8 data of SourceDebugExtension attribute {k}" (plainly "invalid modified utf8") := by
      show (takeSlice n >>= _) bytes ix = .err e ↔ _
      rw [P.bind_errs]
      unfold takeSlice
      rw [hs]
      show (_ ∨ _) ↔ env.decode ((bytes.drop ix).take n) = none ∧ _
      cases hd : env.decode ((bytes.drop ix).take n) with
      | some s =>
        simp only [reduceCtorEq, false_and, iff_false]
        rintro (h | ⟨b, ix', hb, he⟩)
        · cases h
        · cases hb; rw [hd] at he; cases he
      | none =>
        simp only [true_and]
        constructor
        · rintro (h | ⟨b, ix', hb, he⟩)
          · cases h
          · cases hb; rw [hd] at he; cases he; rfl
        · rintro rfl
          refine .inr ⟨_, _, rfl, ?_⟩
          rw [hd]
          rfl
    refine this.trans ?_
    simp
  rcases hk with hk | ⟨hk, hno⟩
  · obtain ⟨title, parts, hname, hm, hf, hl⟩ := data_layout (N := N) env hN rec pool k n name _ hk c1 c2 c3
    simp only [c1, c2, c3, false_and, false_or, ne_eq, not_false_eq_true, true_and, hk]
    by_cases hfix : ∀ m, (title, m) ∈ fixedLengths → n = m
    · rw [(hf hfix).2.2 major hok L bytes ix h1 h2 h3 e trivial]
      constructor
      · intro h
        exact ⟨title, hname, .inr ⟨hfix, parts, hm, h⟩⟩
      · rintro ⟨title', ht', h⟩
        have : title' = title := String.toList_inj.mp (ht'.symm.trans hname)
        subst this
        rcases h with ⟨m, hm', hne, -⟩ | ⟨-, parts', hm', h⟩
        · exact absurd (hfix m hm') hne
        · rwa [layouts_unique hm hm']
    · simp only [not_forall] at hfix
      obtain ⟨m, hm', hne⟩ := hfix
      rw [hl m hm' hne]
      constructor
      · intro h
        cases h
        exact ⟨title, hname, .inl ⟨m, hm', hne, rfl⟩⟩
      · rintro ⟨title', ht', h⟩
        have : title' = title := String.toList_inj.mp (ht'.symm.trans hname)
        subst this
        rcases h with ⟨m', -, -, rfl⟩ | ⟨hfix, -⟩
        · rfl
        · exact absurd (hfix m hm') hne
  · constructor
    · intro he
      rw [hk] at he
      rcases P.bind_errs.mp he with he | ⟨_, _, -, he⟩
      · unfold takeSlice at he; rw [hs] at he; cases he
      · cases he
    · rintro (⟨h, -⟩ | ⟨h, -⟩ | ⟨h, -⟩ | ⟨-, -, -, h, -⟩)
      · exact absurd h c1
      · exact absurd h c2
      · exact absurd h c3
      · rw [hk] at h; cases h

/-- When the content is read, and is not of the declared length. -/
theorem data_mismatch (hN : N ≤ depth) (hrec : Exact N rec (table2 (AttrEnc env.opts pool))) (k n : Nat) (name : Str) {bytes : Bytes} {ix : Nat}
    (h1 : bytes.length = L) (h2 : ix ≤ L) (h3 : L < ix + N) (hn : ix + n ≤ L) :
    (∃ d ix', readAttributeData env depth rec pool k n (attrKindOf name) bytes ix = .ok (d, ix') ∧ ix' ≠ ix + n) ↔
      name ∈ predefinedNames ∧ name ≠ "SourceDebugExtension".toList ∧ (∀ title m, name = title.toList → (title, m) ∈ fixedLengths → n = m) ∧
        ∃ d seg rest, bytes.drop ix = seg ++ rest ∧ DataEnc env.opts pool name d seg ∧ seg.length ≠ n := by
  have hk := (attrKindOf_iff name (attrKindOf name)).mp rfl
  obtain ⟨S, hS, hSl, hD⟩ := readAttributeData_reads (pool := pool) hN hrec k n name
  have hs : sliceBytes bytes ix (ix + n) = .ok ((bytes.drop ix).take n) := by
    unfold sliceBytes
    rw [if_pos ⟨by omega, by omega⟩]
    congr 2
    omega
  constructor
  · rintro ⟨d, ix', hd, hne⟩
    obtain ⟨seg, rest, hsr, hSd, rfl⟩ := (hS bytes ix (by omega) (by omega) d ix').mp hd
    refine ⟨?_, ?_, ?_, d, seg, rest, hsr, hD d seg hSd, by omega⟩
    · rcases hk with hk | ⟨hk, -⟩
      · by_contra hno
        have := (attrKindOf_iff name .other).mpr (.inr ⟨rfl, hno⟩)
        rw [this] at hk
        cases hk
      · rw [hk] at hd
        obtain ⟨b, i1, hb, he⟩ := P.bind_ok.mp hd
        unfold takeSlice at hb
        rw [hs] at hb
        cases hb
        exact absurd (congrArg Prod.snd (Res.ok.inj he)).symm hne
    · rintro rfl
      obtain ⟨b, i1, hb, he⟩ := P.bind_ok.mp hd
      unfold takeSlice at hb
      rw [hs] at hb
      cases hb
      cases hde : env.decode ((bytes.drop ix).take n) with
      | some s => rw [hde] at he; exact hne (congrArg Prod.snd (Res.ok.inj he)).symm
      | none => rw [hde] at he; cases he
    · rintro title m rfl hm
      obtain ⟨kk, hkk, g1, g2, g3⟩ := fixed_kind hm
      rw [(attrKindOf_iff _ _).mpr (.inl hkk)] at hd
      obtain ⟨title', parts, ht, -, -, hl⟩ := data_layout (N := N) env hN rec pool k n title.toList kk hkk g1 g2 g3
      have : title' = title := String.toList_inj.mp ht.symm
      subst this
      by_contra hc
      rw [hl m hm hc] at hd
      cases hd
  · rintro ⟨hpre, hsde, hfix, d, seg, rest, hsr, hde, hne⟩
    have hread : ∃ d', readAttributeData env depth rec pool k n (attrKindOf name) bytes ix = .ok (d', ix + seg.length) := by
      have hlen := length_of_drop_eq (by omega) hsr
      rcases hk with hk | ⟨-, hno⟩
      · by_cases c1 : attrKindOf name = .code
        · rw [c1] at hk ⊢
          cases hk
          have hX := exact_map (Exact.mapErr (readCodeDataWith_exact hrec) s!"Code attribute {k}") AttributeData.code
          have hc : ∃ c, d = .code c := by
            have := dataEnc_kind hde
            cases d <;> first | exact ⟨_, rfl⟩ | exact absurd this (by simp only [dataKind]; decide)
          obtain ⟨c, rfl⟩ := hc
          rw [DataEnc] at hde
          exact ⟨_, (hX bytes ix (by omega) (by omega) (.code c) _).mpr ⟨seg, rest, hsr, ⟨c, rfl, hde.2⟩, rfl⟩⟩
        by_cases c2 : attrKindOf name = .record
        · rw [c2] at hk ⊢
          cases hk
          have hX := exact_map (Exact.mapErr (Exact.readTable2 fun j => readRecordComponentWith_exact hrec j) s!"Record attribute {k}") AttributeData.record
          have hc : ∃ c, d = .record c := by
            have := dataEnc_kind hde
            cases d <;> first | exact ⟨_, rfl⟩ | exact absurd this (by simp only [dataKind]; decide)
          obtain ⟨c, rfl⟩ := hc
          rw [DataEnc] at hde
          refine ⟨_, (hX bytes ix (by omega) (by omega) (.record c) _).mpr ⟨seg, rest, hsr, ⟨c, rfl, ?_⟩, rfl⟩⟩
          simp only [table2, ← componentsEnc_eq]
          exact hde.2
        by_cases c3 : attrKindOf name = .sourceDebugExtension
        · rw [c3] at hk
          cases hk
          exact absurd rfl hsde
        obtain ⟨title, parts, rfl, hm, hf, -⟩ := data_layout (N := N) env hN rec pool k n name _ hk c1 c2 c3
        exact (hf fun m => hfix title m rfl).2.1 bytes ix (by omega) (by omega) seg rest hsr ((parts_iff env.opts hm seg).mp ⟨d, hde⟩)
      · exact absurd hpre hno
    obtain ⟨d', hd'⟩ := hread
    exact ⟨d', _, hd', by omega⟩

theorem attr_names (hok : PoolOK major pool) (hN : N ≤ depth) (hrec : Exact N rec (table2 (AttrEnc env.opts pool)))
    (ht : Names anyError L N rec (AttrsSays env.opts pool L)) (k : Nat) :
    Names anyError L N (readAttributeWith env depth rec pool k) (AttrSays env.opts pool L k) := by
  unfold readAttributeWith
  refine (Names.bind (Names.ctx (refs_names hok (utf8_reader pool)) _) ((readCpUtf8_exact pool).mapErr _) fun name =>
    Names.bind Names.readU4 Exact.readU4 fun n => (?_ : Names anyError L N _ (fun s e => (s.length < n.toNat ∧ e = cutOff L "attributes" s) ∨
      (n.toNat ≤ s.length ∧ (ContentSays env.opts pool L k name n.toNat s e ∨
       (e = plainly s!"Length mismatch when reading attribute {k}" ∧ name ∈ predefinedNames ∧ name ≠ "SourceDebugExtension".toList ∧
        (∀ title m, name = title.toList → (title, m) ∈ fixedLengths → n.toNat = m) ∧
        ∃ d seg rest, s = seg ++ rest ∧ DataEnc env.opts pool name d seg ∧ seg.length ≠ n.toNat)))))).congr fun s e _ => ?_
  · intro bytes ix h1 h2 h3 e _
    rw [P.bind_errs]
    by_cases hc : bytes.length < ix + n.toNat
    · have he : checkEnd n.toNat bytes ix = .err (cutOff L "attributes" (bytes.drop ix)) := by
        unfold checkEnd
        rw [if_pos hc, ← cutOff_drop h1 h2, ← cut_text (w := "attributes") rfl]
        rfl
      rw [he]
      have hlt : (bytes.drop ix).length < n.toNat := by simp; omega
      constructor
      · rintro (h | ⟨_, _, h, -⟩)
        · cases h; exact .inl ⟨hlt, rfl⟩
        · cases h
      · rintro (⟨-, rfl⟩ | ⟨h, -⟩)
        · exact .inl rfl
        · omega
    · have he : checkEnd n.toNat bytes ix = .ok (ix + n.toNat, ix) := by
        unfold checkEnd
        rw [if_neg hc]
      rw [he]
      dsimp only
      have hge : n.toNat ≤ (bytes.drop ix).length := by simp; omega
      have herr := data_err hok hN hrec ht k n.toNat name h1 h2 h3 (by omega) e
      have hmis := data_mismatch hN hrec k n.toNat name h1 h2 h3 (by omega)
      rw [← hmis]
      constructor
      · rintro (h | ⟨fin, ix0, h, h'⟩)
        · cases h
        · cases h
          refine .inr ⟨hge, ?_⟩
          rcases P.bind_errs.mp h' with h' | ⟨d, ix1, hd, h'⟩
          · exact .inl (herr.mp h')
          · rcases P.bind_errs.mp h' with h' | ⟨j, ix2, hj, h'⟩
            · cases h'
            cases hj
            split at h'
            · rename_i hne
              cases h'
              exact .inr ⟨rfl, d, _, hd, fun h => hne h.symm⟩
            · cases h'
      · rintro (⟨h, -⟩ | ⟨-, h⟩)
        · omega
        · refine .inr ⟨_, _, rfl, P.bind_errs.mpr ?_⟩
          rcases h with h | ⟨rfl, d, ix', hd, hne⟩
          · exact .inl (herr.mpr h)
          · refine .inr ⟨d, ix', hd, P.bind_errs.mpr (.inr ⟨ix', ix', rfl, ?_⟩)⟩
            rw [if_pos fun h => hne h.symm]
            rfl
  · constructor
    · rintro (⟨e', h, rfl⟩ | ⟨name, _, t1, rfl, ⟨i, hi, rfl⟩, ⟨h, rfl⟩ | ⟨n, _, t2, rfl, rfl, ⟨h, rfl⟩ | ⟨hl, h | ⟨rfl, p1, p2, p3, d, seg, rest, rfl, hD, hne⟩⟩⟩⟩)
      · exact .name h
      · exact .length hi h
      · exact .cut hi h
      · exact .content hi hl h
      · exact .mismatch hi p1 p2 p3 hD hne hl
    · intro h
      cases h with
      | name h => exact .inl ⟨_, h, rfl⟩
      | @length _ i name t hi h => exact .inr ⟨name, _, _, rfl, ⟨i, hi, rfl⟩, .inl ⟨h, rfl⟩⟩
      | @cut _ i n name t hi h => exact .inr ⟨name, _, _, rfl, ⟨i, hi, rfl⟩, .inr ⟨n, _, _, rfl, rfl, .inl ⟨h, rfl⟩⟩⟩
      | @content _ i n name t e' hi hl h => exact .inr ⟨name, _, _, rfl, ⟨i, hi, rfl⟩, .inr ⟨n, _, _, rfl, rfl, .inr ⟨hl, .inl h⟩⟩⟩
      | @mismatch _ i n name d s t hi p1 p2 p3 hD hne hl =>
        exact .inr ⟨name, _, _, rfl, ⟨i, hi, rfl⟩, .inr ⟨n, _, _, rfl, rfl, .inr ⟨hl, .inr ⟨rfl, p1, p2, p3, d, s, t, rfl, hD, hne⟩⟩⟩⟩

end

/-- The error for a table of attributes. -/
theorem attrs_names {L : Nat} (env : Env) {pool : Pool} {major : UInt16} (hok : PoolOK major pool) :
    ∀ depth : Nat, Names anyError L depth (readAttributes env pool depth) (AttrsSays env.opts pool L)
  | 0 => fun bytes ix h1 h2 h3 => by omega
  | depth + 1 => by
    refine ((table2_names (fun i => readAttributeWith_exact (Nat.le_refl depth) (readAttributes_exact env pool depth) i) fun i =>
      attr_names hok (Nat.le_refl depth) (readAttributes_exact env pool depth) (attrs_names env hok depth) i).lower (by omega)).congr fun s e _ => ?_
    constructor
    · rintro (⟨h, rfl⟩ | ⟨count, as, before, t, rfl, hl, hs, h⟩)
      · exact .count h
      · exact .next hl hs h
    · intro h
      cases h with
      | count h => exact .inl ⟨h, rfl⟩
      | @next count as before t e' hl hs h => exact .inr ⟨count, as, before, t, rfl, hl, hs, h⟩

end Cafebabe
