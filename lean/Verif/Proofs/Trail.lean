import Verif.Proofs.BytecodeTrail
import Verif.Proofs.Layout
import Verif.Proofs.TrailBase
import Verif.Proofs.Front
/-!
# Proofs: errors in tables of attributes lead to the first fault
-/

namespace Cafebabe
open Spec

/-! ## Code -/

/-- The part of `readCodeDataWith` before the nested attributes. -/
def readCodeHead (pool : Pool) : P (UInt16 × UInt16 × Bytes × List ExceptionTableEntry) :=
  readU2 >>= fun a => readU2 >>= fun b => (readU4 >>= fun n => (P.getIx >>= fun ix =>
    takeBytes n.toNat s!"Unexpected end of stream reading code attribute at index {ix}")) >>= fun code =>
    readTable2 (readExceptionTableEntry pool) >>= fun d => pure (a, b, code, d)

/-- The part of `readCodeDataWith` after the nested attributes. -/
def readCodeTail (env : Env) (pool : Pool) (x : UInt16 × UInt16 × Bytes × List ExceptionTableEntry) (as : List AttributeInfo) : P CodeData :=
  if env.parseBytecode then P.lift ((ByteCode.ofCode env.overflowChecks x.2.2.1 pool).mapErr "bytecode") >>= fun b => pure
    { maxStack := x.1, maxLocals := x.2.1, code := x.2.2.1, bytecode := some b, exceptionTable := x.2.2.2, attributes := as }
  else pure { maxStack := x.1, maxLocals := x.2.1, code := x.2.2.1, bytecode := none, exceptionTable := x.2.2.2, attributes := as }

theorem readCodeDataWith_head (env : Env) (rec : P (List AttributeInfo)) (pool : Pool) :
    readCodeDataWith env rec pool = readCodeHead pool >>= fun x => rec.mapErr "code attribute" >>= fun as => readCodeTail env pool x as := by
  unfold readCodeDataWith readCodeHead readCodeTail
  by_cases h : env.parseBytecode = true
  · simp only [if_pos h, ← P.bind_assoc]
    rfl
  · simp only [if_neg h, ← P.bind_assoc]
    rfl

theorem readCodeHead_exact {N : Nat} (pool : Pool) : Exact N (readCodeHead pool) (CodeHead pool) := by
  unfold readCodeHead
  refine (Exact.bind Exact.readU2 fun a => Exact.bind Exact.readU2 fun b => Exact.bind (sizedCode_exact _) fun code =>
    Exact.bind (Exact.readTable2 fun j => readExceptionTableEntry_exact pool j) fun d => Exact.pure (a, b, code, d)).congr fun x seg => ?_
  unfold CodeHead
  constructor
  · rintro ⟨a, s1, t1, rfl, rfl, b, s2, t2, rfl, rfl, code, s3, t3, rfl, hc, d, s4, t4, rfl, hd, rfl, rfl⟩
    rw [List.append_nil]
    exact ⟨_, _, rfl, rfl, _, _, rfl, rfl, s3, _, rfl, hc, hd⟩
  · obtain ⟨a, b, code, d⟩ := x
    rintro ⟨_, _, rfl, rfl, _, _, rfl, rfl, s3, t3, rfl, hc, hd⟩
    exact ⟨a, _, _, rfl, rfl, b, _, _, rfl, rfl, code, s3, t3, rfl, hc, d, t3, [], by simp, hd, rfl, rfl⟩

/-- One row of the exception table. -/
theorem exception_tells {N : Nat} (pool : Pool) (j : Nat) : Tells N (readExceptionTableEntry pool j) (fun s e => PlainEnd e ∨
    ∃ (a b c : UInt16) (t : Bytes) (e' : ParseError), s = u2 a ++ (u2 b ++ (u2 c ++ t)) ∧ NoneOf (fun c => ref fun i => OptAt ClassAt pool i c) t ∧
      Faulty pool (classIxOpt pool) t e' ∧ e = ParseErrorIn e' s!"catch type of exception table entry {j}") := by
  unfold readExceptionTableEntry
  refine (Tells.bind Tells.readU2 Exact.readU2 fun a => Tells.bind Tells.readU2 Exact.readU2 fun b => Tells.bind Tells.readU2 Exact.readU2 fun c =>
    Tells.first ((Tells.refs (classOpt_reader pool)).mapErr _) fun _ _ _ _ h => by cases h).imp fun s e => ?_
  rintro (⟨-, h⟩ | ⟨a, _, _, rfl, rfl, ⟨-, h⟩ | ⟨b, _, _, rfl, rfl, ⟨-, h⟩ | ⟨c, _, t, rfl, rfl, e', rfl, hn, hw⟩⟩⟩)
  · exact .inl h
  · exact .inl h
  · exact .inl h
  · exact .inr ⟨a, b, c, t, e', rfl, hn, hw, rfl⟩

theorem codeHead_tells {N : Nat} (o : Opts) (pool : Pool) : Tells N (readCodeHead pool) (CodeTrail o pool) := by
  have h1 := Tells.none (readCodeHead_exact (N := N) pool)
  refine Tells.imp (h1.and (S := fun s e => PlainEnd e ∨ CodeTrail o pool s e) ?_) ?_
  · have hc : ∀ n : UInt32, Tells N (P.getIx >>= fun ix => takeBytes n.toNat s!"Unexpected end of stream reading code attribute at index {ix}")
        (fun _ e => PlainEnd e) := by
      intro n bytes ix h1 h2 e he
      have := (Tells.takeBytes bytes ix h1 h2 e he).2
      rw [this]
      exact plainEnd_u "code attribute" ix
    unfold readCodeHead
    refine (Tells.bind Tells.readU2 Exact.readU2 fun a => Tells.bind Tells.readU2 Exact.readU2 fun b =>
      Tells.bind ((Tells.bind Tells.readU4 Exact.readU4 fun n => hc n).imp (S := fun _ e => PlainEnd e) ?_) (sizedCode_exact _) fun code =>
      Tells.first ((Tells.readTable2K (N := N) (fun j => readExceptionTableEntry_exact pool j) fun j => exception_tells pool j).mono (by omega))
        fun _ _ _ _ h => by cases h).imp fun s e => ?_
    · rintro s e (⟨-, h⟩ | ⟨_, _, _, _, _, h⟩) <;> exact h
    · rintro (⟨-, h⟩ | ⟨a, _, _, rfl, rfl, ⟨-, h⟩ | ⟨b, _, _, rfl, rfl, h | ⟨code, _, _, rfl, ⟨n, _, hn, rfl, rfl⟩, ⟨-, h⟩ |
        ⟨count, es, before, t, rfl, hl, hs, -, h | ⟨x, y, z, t, e', rfl, hno, hw, rfl⟩⟩⟩⟩⟩)
      · exact .inl h
      · exact .inl h
      · exact .inl h
      · exact .inl h
      · exact .inl h
      · refine .inr ?_
        rw [List.append_assoc (u4 n)]
        exact .catchType hn hl hs hno hw
  · rintro s e ⟨hn, h | h⟩
    · exact .cut hn h
    · exact h

theorem code_tells {N : Nat} {env : Env} {rec : P (List AttributeInfo)} {pool : Pool} (hrec : Exact N rec (table2 (AttrEnc env.opts pool)))
    (ht : Tells N rec (AttrsTrail env.opts pool)) : Tells N (readCodeDataWith env rec pool) (CodeTrail env.opts pool) := by
  rw [readCodeDataWith_head]
  have hb : ∀ (x : UInt16 × UInt16 × Bytes × List ExceptionTableEntry) (as : List AttributeInfo), Tells N (readCodeTail env pool x as)
      (fun _ e => ∃ e', e = ParseErrorIn e' "bytecode" ∧ env.parseBytecode = true ∧
        (∀ bc, ¬ ByteCodeEnc env.overflowChecks pool bc x.2.2.1) ∧ BytecodeTrail env.overflowChecks pool x.2.2.1 e') := by
    intro x as bytes ix h1 h2 e he
    unfold readCodeTail at he
    by_cases hp : env.parseBytecode = true
    · rw [if_pos hp] at he
      rcases P.bind_errs.mp he with he | ⟨_, _, -, he⟩
      · unfold P.lift at he
        cases hq : ByteCode.ofCode env.overflowChecks x.2.2.1 pool with
        | err e' =>
          rw [hq] at he
          cases he
          refine ⟨e', rfl, hp, fun bc hbc => ?_, ofCode_err hq⟩
          rw [(ofCode_ok _ _ _ _).mpr hbc] at hq
          cases hq
        | ok a => rw [hq] at he; cases he
        | panic k => rw [hq] at he; cases he
        | diverge => rw [hq] at he; cases he
      · cases he
    · rw [if_neg hp] at he
      cases he
  refine (Tells.bind (codeHead_tells env.opts pool) (readCodeHead_exact pool) fun x => Tells.bind (ht.mapErr _) (hrec.mapErr _) fun as => hb x as).imp
    fun s e => ?_
  rintro (h | ⟨⟨a, b, code, es⟩, s1, t1, rfl, hx, ⟨e', rfl, h⟩ | ⟨as, s2, t2, rfl, has, e', rfl, hp, hn, hbt⟩⟩)
  · exact h
  · exact .attributes hx h
  · exact .bytecode hx has hp hn hbt

/-! ## Record -/

theorem component_tells {N : Nat} {o : Opts} {rec : P (List AttributeInfo)} {pool : Pool}
    (ht : Tells N rec (AttrsTrail o pool)) (j : Nat) : Tells N (readRecordComponentWith rec pool j) (ComponentTrail o pool j) := by
  unfold readRecordComponentWith
  refine (Tells.bind ((Tells.refs (utf8_reader pool)).mapErr _) ((readCpUtf8_exact pool).mapErr _) fun name => Tells.failIf fun _ =>
    Tells.bind ((Tells.refs (descriptor_reader pool)).mapErr _) ((readFieldDescriptor_exact pool).mapErr _) fun d =>
    Tells.first (ht.mapErr _) fun _ _ _ _ h => by cases h).imp fun s e => ?_
  rintro (⟨e', rfl, h⟩ | ⟨name, _, t1, rfl, ⟨i, hi, rfl⟩, ⟨hn, rfl⟩ | ⟨hn, ⟨e', rfl, h, hw⟩ | ⟨desc, _, t2, rfl, ⟨d, hd, rfl⟩, e', rfl, h⟩⟩⟩)
  · exact .name h.1 h.2
  · refine .badName hi fun hu => ?_
    rw [not_isUnqualified.mpr hu] at hn
    cases hn
  · exact .descriptor hi (not_isUnqualified.mp hn) h hw
  · exact .attributes hi (not_isUnqualified.mp hn) hd h

theorem record_tells {N : Nat} {o : Opts} {rec : P (List AttributeInfo)} {pool : Pool} (hrec : Exact N rec (table2 (AttrEnc o pool)))
    (ht : Tells N rec (AttrsTrail o pool)) : Tells N (readRecordDataWith rec pool) (RecordTrail o pool) := by
  refine ((Tells.readTable2K (fun j => readRecordComponentWith_exact hrec j) fun j => component_tells ht j).mono (by omega)).imp fun s e => ?_
  rintro (⟨h, he⟩ | ⟨count, cs, before, t, rfl, hl, hs, hn, h⟩)
  · exact .count h he
  · exact .next hl hs hn h

/-! ## One attribute -/

theorem namesAttr {name : Str} {c : String} {i : Nat} (pre : String) (hp : pre ∈ partNames) (hn : name ∈ predefinedNames)
    (h : pre.toList ++ (name ++ " attribute ".toList) = c.toList) : NamesAttr (c ++ toString i) name i := by
  refine ⟨hn, pre, hp, ?_⟩
  have ts : ∀ s : String, toString s = s := fun _ => rfl
  rw [String.toList_append (s := c), ← h]
  simp [ts, String.toList_append]

/-- All the errors in the content of an attribute that is neither Code nor Record have a context with its name and number. -/
theorem data_names (env : Env) (depth : Nat) (rec : P (List AttributeInfo)) (pool : Pool) (i length : Nat) (name : Str) (k : AttrKind)
    (hk : kindName k = some name ∨ k = .other) (h1 : k ≠ .code) (h2 : k ≠ .record) :
    InCtx (fun c => NamesAttr c name i) (readAttributeData env depth rec pool i length k) := by
  cases k <;> first
    | exact absurd rfl h1
    | exact absurd rfl h2
    | exact InCtx.bind (InCtx.takeSlice _) fun _ => InCtx.pure _
    | skip
  case sourceDebugExtension =>
    rcases hk with hk | hk
    · cases hk
      refine InCtx.bind (InCtx.takeSlice _) fun b => ?_
      cases env.decode b with
      | some s => exact InCtx.pure _
      | none => exact InCtx.mapErr (namesAttr "modified utf8 data of " (by decide) (by decide) (by decide))
    · cases hk
  all_goals
    rcases hk with hk | hk
    · cases hk
      repeat first
        | exact InCtx.pure _
        | refine InCtx.bind (InCtx.mapErr (namesAttr "" (by decide) (by decide) (by decide))) fun _ => ?_
        | refine InCtx.bind (InCtx.mapErr (namesAttr "value field of " (by decide) (by decide) (by decide))) fun _ => ?_
        | refine InCtx.bind (InCtx.mapErr (namesAttr "class info of " (by decide) (by decide) (by decide))) fun _ => ?_
        | refine InCtx.bind (InCtx.mapErr (namesAttr "method info of " (by decide) (by decide) (by decide))) fun _ => ?_
        | refine InCtx.bind (InCtx.mapErr (namesAttr "signature field of " (by decide) (by decide) (by decide))) fun _ => ?_
    · cases hk

theorem attr_tells {N depth : Nat} {env : Env} {rec : P (List AttributeInfo)} {pool : Pool} (hN : N ≤ depth)
    (hrec : Exact N rec (table2 (AttrEnc env.opts pool))) (ht : Tells N rec (AttrsTrail env.opts pool)) (k : Nat) :
    Tells N (readAttributeWith env depth rec pool k) (AttrTrail env.opts pool k) := by
  unfold readAttributeWith
  refine (Tells.bind ((Tells.refs (utf8_reader pool)).mapErr _) ((readCpUtf8_exact pool).mapErr _) fun name => Tells.bind Tells.readU4 Exact.readU4
    fun n => (?_ : Tells N _ (fun s e => (s.length < n.toNat ∧ PlainEnd e) ∨ (n.toNat ≤ s.length ∧
      ((name ≠ "Code".toList ∧ name ≠ "Record".toList ∧ ∃ c e', e = ParseErrorIn e' c ∧ NamesAttr c name k ∧
         ContentTrail env.opts pool k name n.toNat s (ParseErrorIn e' c)) ∨
       (name = "Code".toList ∧ ∃ e', e = ParseErrorIn e' s!"Code attribute {k}" ∧ CodeTrail env.opts pool s e') ∨
       (name = "Record".toList ∧ ∃ e', e = ParseErrorIn e' s!"Record attribute {k}" ∧ RecordTrail env.opts pool s e') ∨
       (e = ⟨s!"Length mismatch when reading attribute {k}", []⟩ ∧ ∃ d seg rest, s = seg ++ rest ∧ DataEnc env.opts pool name d seg ∧
          seg.length ≠ n.toNat)))))).imp fun s e => ?_
  · intro bytes ix h1 h2 e he
    rcases P.bind_errs.mp he with he | ⟨fin, ix', hc, he⟩
    · unfold checkEnd at he
      split at he
      · cases he
        exact .inl ⟨by simp; omega, plainEnd_u "attributes" ix⟩
      · cases he
    · unfold checkEnd at hc
      split at hc
      · cases hc
      cases hc
      refine .inr ⟨by simp; omega, ?_⟩
      rcases P.bind_errs.mp he with he | ⟨d, ix1, hd, he⟩
      · have hk := (attrKindOf_iff name (attrKindOf name)).mp rfl
        by_cases c1 : attrKindOf name = .code
        · rw [c1] at hk he
          have hname : name = "Code".toList := by
            rcases hk with hk | ⟨hk, -⟩
            · cases hk; rfl
            · cases hk
          have := Tells.first (f := fun d => (pure (AttributeData.code d) : P _)) ((code_tells hrec ht).mapErr s!"Code attribute {k}")
            (fun _ _ _ _ h => by cases h) bytes ix h1 h2 e he
          obtain ⟨e', h, h'⟩ := this
          exact .inr (.inl ⟨hname, e', h, h'⟩)
        by_cases c2 : attrKindOf name = .record
        · rw [c2] at hk he
          have hname : name = "Record".toList := by
            rcases hk with hk | ⟨hk, -⟩
            · cases hk; rfl
            · cases hk
          have := Tells.first (f := fun d => (pure (AttributeData.record d) : P _)) ((record_tells hrec ht).mapErr s!"Record attribute {k}")
            (fun _ _ _ _ h => by cases h) bytes ix h1 h2 e he
          obtain ⟨e', h, h'⟩ := this
          exact .inr (.inr (.inl ⟨hname, e', h, h'⟩))
        refine .inl ⟨?_, ?_, ?_⟩
        · rintro rfl; exact c1 (by decide)
        · rintro rfl; exact c2 (by decide)
        · obtain ⟨c, e', rfl, hc⟩ := data_names env depth rec pool k _ name _ (hk.imp_right And.left) c1 c2 bytes ix e he
          refine ⟨c, e', rfl, hc, ?_⟩
          rcases hk with hk | ⟨hk, -⟩
          · exact data_tells env depth rec pool k n.toNat name _ hk c1 c2 h1 (by omega) he
          · rw [hk] at he
            rcases P.bind_errs.mp he with he | ⟨_, _, -, he⟩
            · exact absurd he (Quiet.bind (Quiet.sliceBytes _ _ _) (fun _ => Quiet.ok _) _)
            · cases he
      · obtain ⟨S, hS, -, hD⟩ := readAttributeData_reads hN hrec k n.toNat name
        obtain ⟨seg, rest, hs, hSd, rfl⟩ := (hS bytes ix h1 h2 d ix1).mp hd
        rcases P.bind_errs.mp he with he | ⟨j, ix2, hj, he⟩
        · cases he
        cases hj
        split at he
        · rename_i hne
          cases he
          exact .inr (.inr (.inr ⟨rfl, d, seg, rest, hs, hD d seg hSd, by omega⟩))
        · cases he
  · rintro (⟨e', rfl, h⟩ | ⟨name, _, t1, rfl, ⟨i, hi, rfl⟩, ⟨h, he⟩ | ⟨n, _, t2, rfl, rfl, ⟨h, he⟩ | ⟨hl, ⟨h1, h2, c, e', rfl, hc, hct⟩ | ⟨rfl, e', rfl, h⟩ |
      ⟨rfl, e', rfl, h⟩ | ⟨rfl, d, seg, rest, rfl, hD, hne⟩⟩⟩⟩)
    · exact .name h.1 h.2
    · exact .length hi h he
    · exact .cut hi h he
    · exact .content hi hl h1 h2 hc hct
    · exact .code ⟨i, n, hi, hl, rfl⟩ h
    · exact .record ⟨i, n, hi, hl, rfl⟩ h
    · exact .mismatch hi hD hne hl

/-- Every error in a table of attributes leads to its first fault. -/
theorem attrs_tells (env : Env) (pool : Pool) : ∀ depth : Nat, Tells depth (readAttributes env pool depth) (AttrsTrail env.opts pool)
  | 0 => fun bytes ix h1 h2 => by omega
  | depth + 1 => by
    refine ((Tells.readTable2K (fun i => readAttributeWith_exact (Nat.le_refl depth) (readAttributes_exact env pool depth) i) fun i =>
      attr_tells (Nat.le_refl depth) (readAttributes_exact env pool depth) (attrs_tells env pool depth) i).mono (by omega)).imp fun s e => ?_
    rintro (⟨h, he⟩ | ⟨count, as, before, t, rfl, hl, hs, hn, h⟩)
    · exact .count h he
    · exact .next hl hs hn h

/-! ## Fields, methods, the class -/

/-- The error is not about the attributes of a field, of a method or of the class. -/
def Elsewhere (e : ParseError) : Prop :=
  ∃ q : Place, q.context = lastContext e ∧ (∀ i, q ≠ .field i) ∧ (∀ i, q ≠ .method i) ∧ q ≠ .classAttributes

theorem elsewhere_plain {e : ParseError} (h : e.contexts = []) : Elsewhere e :=
  ⟨.plain, by simp [Place.context, lastContext, h], nofun, nofun, nofun⟩

theorem elsewhere_ctx {e : ParseError} {c : String} (q : Place) (hq : q.context = some c) (h1 : ∀ i, q ≠ .field i) (h2 : ∀ i, q ≠ .method i)
    (h3 : q ≠ .classAttributes) : Elsewhere (ParseErrorIn e c) :=
  ⟨q, by rw [hq]; simp [lastContext, ParseErrorIn], h1, h2, h3⟩

theorem Tells.bare {α : Type} {N : Nat} {p : P α} (h : Bare p) : Tells N p (fun _ e => Elsewhere e) :=
  fun bytes ix _ _ e he => elsewhere_plain (h bytes ix e he)

theorem field_tells (env : Env) (pool : Pool) (fs : List FieldInfo) :
    Tells env.depth (readField env pool (fs.map fun f => (f.name, f.descriptor)).reverse fs.length) (fun s e => Elsewhere e ∨
      ∃ (bits n d : UInt16) (name : Str) (desc : FieldDescriptor) (t : Bytes) (e' : ParseError), s = u2 bits ++ (u2 n ++ (u2 d ++ t)) ∧
        TextAt pool n.toNat name ∧ UnqualifiedName name ∧ FieldDescriptorAt pool d.toNat desc ∧
        (∀ f ∈ fs, ¬ (f.name = name ∧ f.descriptor = desc)) ∧ e = ParseErrorIn e' s!"class field {fs.length}" ∧ AttrsTrail env.opts pool t e') := by
  unfold readField
  refine (Tells.bind (Tells.bare Bare.readU2) Exact.readU2 fun bits => Tells.bind ((Tells.none (readCpUtf8_exact pool)).mapErr _)
    ((readCpUtf8_exact pool).mapErr _) fun name => Tells.failIf fun _ => Tells.bind ((Tells.none (readCpUtf8_exact pool)).mapErr _)
    ((readCpUtf8_exact pool).mapErr _) fun d => Tells.bind (Tells.bare (Bare.lift (BareR.parseFieldDescriptor d 0))) (Exact.lift _) fun desc =>
    Tells.failIf fun _ => Tells.first ((attrs_tells env pool env.depth).mapErr _) fun _ _ _ _ h => by cases h).imp fun s e => ?_
  rintro (h | ⟨bits, s1, t1, rfl, rfl, ⟨e', rfl, -⟩ | ⟨name, s2, t2, rfl, ⟨i, hi, rfl⟩, ⟨-, rfl⟩ | ⟨hn, ⟨e', rfl, h⟩ | ⟨d, s3, t3, rfl, ⟨j, hj, rfl⟩,
    h | ⟨desc, s4, t4, rfl, ⟨hp, rfl⟩, ⟨-, rfl⟩ | ⟨hs, e', rfl, h⟩⟩⟩⟩⟩⟩)
  · exact .inl h
  · exact .inl (elsewhere_ctx (.fieldName fs.length) rfl (fun _ h => by cases h) (fun _ h => by cases h) fun h => by cases h)
  · exact .inl (elsewhere_plain rfl)
  · exact .inl (elsewhere_ctx (.fieldDescriptor fs.length) rfl (fun _ h => by cases h) (fun _ h => by cases h) fun h => by cases h)
  · exact .inl h
  · exact .inl (elsewhere_plain rfl)
  · refine .inr ⟨bits, i, j, name, desc, t4, e', rfl, hi, not_isUnqualified.mp hn, ⟨d, hj, ((parseFieldDescriptor_zero d).ok_iff desc).mp hp⟩, ?_, rfl, h⟩
    intro f hf he
    have : (fs.map fun f => (f.name, f.descriptor)).reverse.contains (name, desc) = true := by simpa using ⟨f, hf, he⟩
    rw [this] at hs
    cases hs

theorem method_tells (env : Env) (pool : Pool) (inInterface : Bool) (mj : UInt16) (ms : List MethodInfo) :
    Tells env.depth (readMethod env pool inInterface mj (ms.map fun f => (f.name, f.descriptor)).reverse ms.length) (fun s e => Elsewhere e ∨
      ∃ (bits n d : UInt16) (name : Str) (desc : MethodDescriptor) (t : Bytes) (e' : ParseError), s = u2 bits ++ (u2 n ++ (u2 d ++ t)) ∧
        TextAt pool n.toNat name ∧ MethodName (¬ inInterface = true) True name ∧ MethodDescriptorAt pool d.toNat desc ∧
        SpecialMethodOK (inInterface = true) mj { accessFlags := bits, name := name, descriptor := desc, attributes := [] } ∧
        (∀ m ∈ ms, ¬ (m.name = name ∧ m.descriptor = desc)) ∧ e = ParseErrorIn e' s!"class method {ms.length}" ∧ AttrsTrail env.opts pool t e') := by
  unfold readMethod
  have hname : ∀ name : Str, ((!isUnqualifiedMethodName name (!inInterface) true) = false ↔ MethodName (¬ inInterface = true) True name) := by
    intro name
    have := isUnqualifiedMethodName_iff name (!inInterface) true
    simpa using this
  have hspecial : ∀ (bits : UInt16) (name : Str) (d : MethodDescriptor),
      (!inInterface && name == "<init>".toList && d.returnType != .void) = false → (name == "<clinit>".toList && d.returnType != .void) = false →
        (name == "<clinit>".toList && (decide (mj ≥ 51) && !d.parameters.isEmpty)) = false →
      SpecialMethodOK (inInterface = true) mj { accessFlags := bits, name := name, descriptor := d, attributes := [] } := by
    intro bits name d
    unfold SpecialMethodOK
    by_cases h1 : name = "<init>".toList <;> by_cases h2 : name = "<clinit>".toList <;> cases inInterface <;>
      by_cases h3 : d.returnType = .void <;> by_cases h4 : mj ≥ 51 <;> cases h5 : d.parameters <;>
      simp_all
  refine (Tells.bind (Tells.bare Bare.readU2) Exact.readU2 fun bits => Tells.bind ((Tells.none (readCpUtf8_exact pool)).mapErr _)
    ((readCpUtf8_exact pool).mapErr _) fun name => Tells.failIf fun _ => Tells.bind ((Tells.none (readMethodDescriptor_exact pool)).mapErr _)
    ((readMethodDescriptor_exact pool).mapErr _) fun desc => Tells.failIf fun _ => Tells.failIf fun _ => Tells.failIf fun _ => Tells.failIf fun _ =>
    Tells.first ((attrs_tells env pool env.depth).mapErr _) fun _ _ _ _ h => by cases h).imp fun s e => ?_
  rintro (h | ⟨bits, s1, t1, rfl, rfl, ⟨e', rfl, -⟩ | ⟨name, s2, t2, rfl, ⟨i, hi, rfl⟩, ⟨-, rfl⟩ | ⟨hn, ⟨e', rfl, h⟩ | ⟨desc, s3, t3, rfl, ⟨j, hj, rfl⟩,
    ⟨-, rfl⟩ | ⟨g1, ⟨-, rfl⟩ | ⟨g2, ⟨-, rfl⟩ | ⟨g3, ⟨-, rfl⟩ | ⟨hs, e', rfl, h⟩⟩⟩⟩⟩⟩⟩⟩)
  · exact .inl h
  · exact .inl (elsewhere_ctx (.methodName ms.length) rfl (fun _ h => by cases h) (fun _ h => by cases h) fun h => by cases h)
  · exact .inl (elsewhere_plain rfl)
  · exact .inl (elsewhere_ctx (.methodDescriptor ms.length) rfl (fun _ h => by cases h) (fun _ h => by cases h) fun h => by cases h)
  · exact .inl (elsewhere_plain rfl)
  · exact .inl (elsewhere_plain rfl)
  · exact .inl (elsewhere_plain rfl)
  · exact .inl (elsewhere_plain rfl)
  · refine .inr ⟨bits, i, j, name, desc, t3, e', rfl, hi, (hname name).mp hn, hj, hspecial bits name desc g1 g2 g3, ?_, rfl, h⟩
    intro f hf he
    have : (ms.map fun f => (f.name, f.descriptor)).reverse.contains (name, desc) = true := by simpa using ⟨f, hf, he⟩
    rw [this] at hs
    cases hs

/-- What follows the interfaces. -/
theorem back_tells (env : Env) (minor major flags : UInt16) (pool : Pool) (this : ClassName) (super : Option ClassName) (ifs : List ClassName)
    {front : Bytes} (hfront : FrontEnc env.opts minor major pool flags front) :
    Tells env.depth (readBack env minor major pool flags this super ifs) (fun s e => Elsewhere e ∨
      ∃ (q : Place) (c : String) (t : Bytes) (e' : ParseError), q.context = some c ∧ AttrsAt env.opts q pool (front ++ s) t ∧
        e = ParseErrorIn e' c ∧ AttrsTrail env.opts pool t e') := by
  have hm : (flagsContains16 flags AccessFlags.INTERFACE = true) = IsInterface flags := propext (contains_interface flags)
  have hfs : Tells env.depth (readFields env pool) (fun s e => Elsewhere e ∨
      ∃ (q : Place) (c : String) (t : Bytes) (e' : ParseError), q.context = some c ∧ AttrsAt env.opts q pool (front ++ s) t ∧
        e = ParseErrorIn e' c ∧ AttrsTrail env.opts pool t e') := by
    unfold readFields
    refine (Tells.bind (Tells.bare Bare.readU2) Exact.readU2 fun c => tells_distinct (fun f : FieldInfo => (f.name, f.descriptor))
      (fun _ _ => rfl) (fun _ _ _ => rfl) (fun seen i => readField_exact env pool seen i) (fun pre => field_tells env pool pre) c.toNat []).imp
      fun s e => ?_
    rintro (h | ⟨c, s1, t1, rfl, rfl, fs, s2, t2, rfl, hl, hp, -, hq, h | ⟨bits, n, d, name, desc, t, e', rfl, hn, hu, hd, hno, rfl, h⟩⟩)
    · exact .inl h
    · exact .inl h
    · simp only [List.nil_append] at *
      refine .inr ⟨.field fs.length, _, t, e', rfl, ?_, rfl, h⟩
      exact .field hfront hl (by simpa [FieldsDistinct, Prod.mk.injEq] using hp) hq hn hu hd hno
  have hms : ∀ (fs : List FieldInfo) (sf : Bytes), FieldsDistinct fs → table2 (FieldEnc env.opts pool) fs sf →
      Tells env.depth (readMethods env pool (flagsContains16 flags AccessFlags.INTERFACE) major) (fun s e => Elsewhere e ∨
      ∃ (q : Place) (c : String) (t : Bytes) (e' : ParseError), q.context = some c ∧ AttrsAt env.opts q pool (front ++ (sf ++ s)) t ∧
        e = ParseErrorIn e' c ∧ AttrsTrail env.opts pool t e') := by
    intro fs sf hdf hfs
    unfold readMethods
    refine (Tells.bind (Tells.bare Bare.readU2) Exact.readU2 fun c => tells_distinct (fun f : MethodInfo => (f.name, f.descriptor))
      (fun _ _ => rfl) (fun _ _ _ => rfl) (fun seen i => readMethod_exact env pool _ major seen i)
      (fun pre => method_tells env pool _ major pre) c.toNat []).imp fun s e => ?_
    simp only [hm]
    rintro (h | ⟨c, s1, t1, rfl, rfl, ms, s2, t2, rfl, hl, hp, -, hq, h | ⟨bits, n, d, name, desc, t, e', rfl, hn, hu, hd, hsp, hno, rfl, h⟩⟩)
    · exact .inl h
    · exact .inl h
    · simp only [List.nil_append] at *
      refine .inr ⟨.method ms.length, _, t, e', rfl, ?_, rfl, h⟩
      exact .method hfront hdf hfs hl (by simpa [MethodsDistinct, Prod.mk.injEq] using hp) hq hn hu hd hsp hno
  unfold readBack
  refine (Tells.bind hfs (readFields_exact env pool) fun fs => (?_ : Tells env.depth _ (fun s e => ∀ sf, FieldsDistinct fs →
    table2 (FieldEnc env.opts pool) fs sf → Elsewhere e ∨ ∃ (q : Place) (c : String) (t : Bytes) (e' : ParseError), q.context = some c ∧
      AttrsAt env.opts q pool (front ++ (sf ++ s)) t ∧ e = ParseErrorIn e' c ∧ AttrsTrail env.opts pool t e'))).imp fun s e => ?_
  · intro bytes ix h1 h2 e he sf hdf hfs
    refine Tells.imp (S := fun s e => Elsewhere e ∨ ∃ (q : Place) (c : String) (t : Bytes) (e' : ParseError), q.context = some c ∧
      AttrsAt env.opts q pool (front ++ (sf ++ s)) t ∧ e = ParseErrorIn e' c ∧ AttrsTrail env.opts pool t e') (Tells.bind (hms fs sf hdf hfs) (readMethods_exact env pool _ major) fun ms =>
      Tells.bind ((attrs_tells env pool env.depth).mapErr _) ((readAttributes_exact env pool env.depth).mapErr _) fun as =>
      Tells.bare (Bare.bind Bare.atEnd fun _ => Bare.bind (Bare.moduleEmpty _ _ _ _ _) fun _ => Bare.bind (Bare.lift (BareR.bootstrap as pool))
        fun _ => Bare.pure _)) (fun s e => ?_) bytes ix h1 h2 e he
    simp only [hm]
    rintro (h | ⟨ms, s7, t7, rfl, ⟨hdm, hms⟩, ⟨e', rfl, h⟩ | ⟨as, s8, t8, rfl, -, h⟩⟩)
    · exact h
    · exact .inr ⟨.classAttributes, _, t7, e', rfl, .ofClass hfront hdf hfs hdm hms, rfl, h⟩
    · exact .inl h
  · rintro (h | ⟨fs, sf, t, rfl, ⟨hdf, hfs⟩, h⟩)
    · exact h
    · exact h sf hdf hfs

end Cafebabe
