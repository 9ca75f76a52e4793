import Verif.Proofs.Annotations
/-!
# Proofs: exactness of `read_attributes`
-/

namespace Cafebabe
open Spec

/-- The part of the environment the format depends on. -/
def Env.opts (env : Env) : Opts := ⟨env.decode, env.overflowChecks, env.parseBytecode⟩

theorem attrsEnc_eq (o : Opts) (pool : Pool) : ∀ as, AttrsEnc o pool as = seq (AttrEnc o pool) as
  | [] => by simp [AttrsEnc, seq]
  | a :: as => by simp only [AttrsEnc, seq, attrsEnc_eq o pool as]

theorem componentsEnc_eq (o : Opts) (pool : Pool) : ∀ cs, ComponentsEnc o pool cs = seq (ComponentEnc o pool) cs
  | [] => by simp [ComponentsEnc, seq]
  | c :: cs => by simp only [ComponentsEnc, seq, componentsEnc_eq o pool cs]

/-! ## Kinds and names -/

/-- The name of each known attribute. -/
def kindName : AttrKind → Option Str
  | .constantValue => some "ConstantValue".toList
  | .code => some "Code".toList
  | .stackMapTable => some "StackMapTable".toList
  | .exceptions => some "Exceptions".toList
  | .innerClasses => some "InnerClasses".toList
  | .enclosingMethod => some "EnclosingMethod".toList
  | .synthetic => some "Synthetic".toList
  | .signature => some "Signature".toList
  | .sourceFile => some "SourceFile".toList
  | .sourceDebugExtension => some "SourceDebugExtension".toList
  | .lineNumberTable => some "LineNumberTable".toList
  | .localVariableTable => some "LocalVariableTable".toList
  | .localVariableTypeTable => some "LocalVariableTypeTable".toList
  | .deprecated => some "Deprecated".toList
  | .runtimeVisibleAnnotations => some "RuntimeVisibleAnnotations".toList
  | .runtimeInvisibleAnnotations => some "RuntimeInvisibleAnnotations".toList
  | .runtimeVisibleParameterAnnotations => some "RuntimeVisibleParameterAnnotations".toList
  | .runtimeInvisibleParameterAnnotations => some "RuntimeInvisibleParameterAnnotations".toList
  | .runtimeVisibleTypeAnnotations => some "RuntimeVisibleTypeAnnotations".toList
  | .runtimeInvisibleTypeAnnotations => some "RuntimeInvisibleTypeAnnotations".toList
  | .annotationDefault => some "AnnotationDefault".toList
  | .bootstrapMethods => some "BootstrapMethods".toList
  | .methodParameters => some "MethodParameters".toList
  | .moduleAttr => some "Module".toList
  | .modulePackages => some "ModulePackages".toList
  | .moduleMainClass => some "ModuleMainClass".toList
  | .nestHost => some "NestHost".toList
  | .nestMembers => some "NestMembers".toList
  | .permittedSubclasses => some "PermittedSubclasses".toList
  | .record => some "Record".toList
  | .other => none

theorem lookup_memS {α : Type} : ∀ {l : List (Str × α)} {v : Str} {a : α}, l.lookup v = some a → (v, a) ∈ l
  | [], v, a, h => by simp at h
  | (w, b) :: l, v, a, h => by
    rw [List.lookup_cons] at h
    split at h
    · rename_i hv
      simp at hv; cases h; rw [hv]; simp
    · exact List.mem_cons_of_mem _ (lookup_memS h)

theorem lookup_noneS {α : Type} : ∀ {l : List (Str × α)} {v : Str}, l.lookup v = none → v ∉ l.map (·.1)
  | [], v, h => by simp
  | (w, b) :: l, v, h => by
    rw [List.lookup_cons] at h
    split at h
    · cases h
    · rename_i hv
      have hne : v ≠ w := by simpa using hv
      simp only [List.map_cons, List.mem_cons, not_or]
      exact ⟨hne, lookup_noneS h⟩

theorem attrTable_names : ∀ row ∈ attrTable, kindName row.2 = some row.1 := by decide +kernel

theorem attrTable_keys : attrTable.map (·.1) = predefinedNames := rfl

theorem kindName_kind (k : AttrKind) (s : Str) (h : kindName k = some s) : attrKindOf s = k := by
  cases k <;> cases h <;> rfl

theorem attrKindOf_iff (name : Str) (k : AttrKind) :
    attrKindOf name = k ↔ (kindName k = some name ∨ (k = .other ∧ name ∉ predefinedNames)) := by
  constructor
  · intro h
    unfold attrKindOf at h
    cases hl : attrTable.lookup name with
    | some k' =>
      rw [hl] at h; cases h
      exact .inl (attrTable_names _ (lookup_memS hl))
    | none =>
      rw [hl] at h; cases h
      exact .inr ⟨rfl, by rw [← attrTable_keys]; exact lookup_noneS hl⟩
  · rintro (h | ⟨rfl, h⟩)
    · exact kindName_kind k name h
    · unfold attrKindOf
      cases hl : attrTable.lookup name with
      | some k' =>
        have := List.mem_map_of_mem (f := (·.1)) (lookup_memS hl)
        rw [attrTable_keys] at this
        exact absurd this h
      | none => rfl

/-! ## Code and Record -/

theorem P.bind_assoc3 {α β γ δ : Type} (p : P α) (q : α → P β) (r : α → β → P γ) (s : γ → P δ) :
    (p >>= fun a => (q a >>= fun b => (r a b >>= s))) = ((p >>= fun a => (q a >>= fun b => r a b)) >>= s) := by
  simp only [P.bind_assoc]

theorem sizedCode_exact {N : Nat} (msg : Nat → String) :
    Exact N (readU4 >>= fun n => (P.getIx >>= fun ix => takeBytes n.toNat (msg ix))) (fun code => sized4 (lit code)) := by
  refine (Exact.bind Exact.readU4 (G := fun n code seg => code.length = n.toNat ∧ seg = code) fun n =>
    Exact.getIxBind fun ix => Exact.takeBytes (n := n.toNat)).congr ?_
  intro code seg
  constructor
  · rintro ⟨n, s, t, rfl, rfl, h, rfl⟩; exact ⟨n, t, h.symm, rfl, rfl⟩
  · rintro ⟨n, b, h, rfl, rfl⟩; exact ⟨n, _, _, rfl, rfl, h.symm, rfl⟩

theorem codeEnc_eq (o : Opts) (pool : Pool) (c : CodeData) : CodeEnc o pool c = when (BytecodeField o pool c.bytecode c.code)
    (lit (u2 c.maxStack) ⬝ lit (u2 c.maxLocals) ⬝ sized4 (lit c.code) ⬝ table2 (ExceptionEnc pool) c.exceptionTable ⬝
      table2 (AttrEnc o pool) c.attributes) := by
  cases c
  simp only [CodeEnc, attrsEnc_eq, table2]

theorem readCodeDataWith_exact {N : Nat} {env : Env} {rec : P (List AttributeInfo)} {pool : Pool}
    (hrec : Exact N rec (table2 (AttrEnc env.opts pool))) : Exact N (readCodeDataWith env rec pool) (CodeEnc env.opts pool) := by
  refine Exact.congr ?_ fun c seg => by rw [codeEnc_eq]
  unfold readCodeDataWith
  refine exact_cat CodeData.maxStack Exact.readU2 fun a => exact_cat CodeData.maxLocals Exact.readU2 fun b => ?_
  rw [P.bind_assoc3]
  refine exact_cat CodeData.code (sizedCode_exact _) fun code =>
    exact_cat CodeData.exceptionTable (Exact.readTable2 fun j => readExceptionTableEntry_exact pool j) fun d => ?_
  refine (Exact.bind (Exact.mapErr hrec _) (G := fun attrs x seg => seg = [] ∧
    x = { maxStack := a, maxLocals := b, code := code, bytecode := x.bytecode, exceptionTable := d, attributes := attrs } ∧
      BytecodeField env.opts pool x.bytecode code) fun attrs => ?_).congr fun x seg => ?_
  · by_cases hb : env.parseBytecode = true
    · simp only [if_pos hb]
      refine (Exact.bind (Exact.lift _) fun b => Exact.bind (Exact.pure _) fun bc => Exact.pure _).congr fun x seg => ?_
      simp only [Res.mapErr_ok, ofCode_ok]
      constructor
      · rintro ⟨bc, s, t, rfl, ⟨h, rfl⟩, _, s', t', rfl, ⟨rfl, rfl⟩, rfl, rfl⟩
        exact ⟨rfl, rfl, hb, h⟩
      · rintro ⟨rfl, h1, h2⟩
        cases hbc : x.bytecode with
        | none => rw [hbc] at h2; exact absurd hb (by rw [show env.parseBytecode = false from h2]; simp)
        | some bc =>
          rw [hbc] at h2 h1
          exact ⟨bc, [], [], rfl, ⟨h2.2, rfl⟩, some bc, [], [], rfl, ⟨rfl, rfl⟩, h1, rfl⟩
    · simp only [if_neg hb]
      refine (Exact.bind (Exact.pure none) fun bc => Exact.pure _).congr fun x seg => ?_
      constructor
      · rintro ⟨_, s, t, rfl, ⟨rfl, rfl⟩, rfl, rfl⟩
        exact ⟨rfl, rfl, by show env.parseBytecode = false; simpa using hb⟩
      · rintro ⟨rfl, h1, h2⟩
        cases hbc : x.bytecode with
        | none => rw [hbc] at h1; exact ⟨none, [], [], rfl, ⟨rfl, rfl⟩, h1, rfl⟩
        | some bc => rw [hbc] at h2; exact absurd h2.1 hb
  · constructor
    · rintro ⟨attrs, s, t, rfl, h, rfl, h1, h2⟩
      rw [h1]
      exact ⟨⟨⟨⟨⟨h2, rfl⟩, rfl⟩, rfl⟩, rfl⟩, by simpa using h⟩
    · rintro ⟨⟨⟨⟨⟨h2, rfl⟩, rfl⟩, rfl⟩, rfl⟩, h⟩
      exact ⟨_, seg, [], by simp, h, rfl, by cases x; rfl, h2⟩

theorem componentEnc_eq (o : Opts) (pool : Pool) (c : RecordComponentEntry) : ComponentEnc o pool c = when (UnqualifiedName c.name)
    ((ref fun i => TextAt pool i c.name) ⬝ (ref fun i => FieldDescriptorAt pool i c.descriptor) ⬝ table2 (AttrEnc o pool) c.attributes) := by
  cases c
  simp only [ComponentEnc, attrsEnc_eq, table2]

theorem readRecordComponentWith_exact {N : Nat} {o : Opts} {rec : P (List AttributeInfo)} {pool : Pool}
    (hrec : Exact N rec (table2 (AttrEnc o pool))) (i : Nat) : Exact N (readRecordComponentWith rec pool i) (ComponentEnc o pool) := by
  refine Exact.congr ?_ fun c seg => by rw [componentEnc_eq]
  unfold readRecordComponentWith
  refine exact_cat RecordComponentEntry.name (Exact.mapErr (readCpUtf8_exact pool) _) fun c => exact_failIf ?_ fun hc =>
    exact_cat RecordComponentEntry.descriptor (Exact.mapErr (readFieldDescriptor_exact pool) _) fun d =>
    exact_last RecordComponentEntry.attributes (Exact.mapErr hrec _) fun e s _ x => ?_
  · rintro x seg ⟨⟨h, rfl⟩, -⟩; exact not_isUnqualified.mpr h
  · have := not_isUnqualified.mp hc
    cases x; simp [and_assoc]
    rintro rfl _ _; exact this

/-! ## One attribute -/

/-- What the arm of kind `k` reads, given the declared length. -/
def KindLang (o : Opts) (pool : Pool) (length : Nat) (name : Str) (d : AttributeData) : Lang := fun seg =>
  seg.length = length → DataEnc o pool name d seg

theorem exact_ensure {β : Type} {N : Nat} {l e : Nat} {c : String} {q : Unit → P β} {S : β → Lang}
    (hq : Exact N (q ()) S) : Exact N ((ensureLength l e).mapErr c >>= q) (fun b seg => l = e ∧ S b seg) := by
  refine (Exact.bind (Exact.mapErr (Exact.ensureLength l e) c) fun _ => hq).congr ?_
  intro b seg
  constructor
  · rintro ⟨_, s, t, rfl, ⟨h, rfl⟩, hS⟩; exact ⟨h, hS⟩
  · rintro ⟨h, hS⟩; exact ⟨(), [], seg, rfl, ⟨h, rfl⟩, hS⟩

/-- `p` reads the content of an attribute of this name and declared length (and nothing else, whatever the declared length). -/
def ReadsData (o : Opts) (pool : Pool) (N length : Nat) (name : Str) (p : P AttributeData) : Prop :=
  ∃ S : AttributeData → Lang, Exact N p S ∧ (∀ d seg, seg.length = length → (S d seg ↔ DataEnc o pool name d seg)) ∧
    ∀ d seg, S d seg → DataEnc o pool name d seg

theorem readsData_table {α : Type} {o : Opts} {pool : Pool} {N length : Nat} {name : Str} {p : P α} {F : α → Lang} {mk : α → AttributeData}
    (hp : Exact N p F) (h : ∀ d seg, (∃ a, d = mk a ∧ F a seg) ↔ DataEnc o pool name d seg) :
    ReadsData o pool N length name (p >>= fun a => pure (mk a)) := by
  exact ⟨_, exact_map hp mk, fun d seg _ => h d seg, fun d seg => (h d seg).mp⟩

theorem readsData_fixed {o : Opts} {pool : Pool} {N length e : Nat} {name : Str} {c : String} {q : Unit → P AttributeData} {S : AttributeData → Lang}
    (hq : Exact N (q ()) S) (hl : ∀ d seg, S d seg → seg.length = e) (h : ∀ d seg, S d seg ↔ DataEnc o pool name d seg) :
    ReadsData o pool N length name ((ensureLength length e).mapErr c >>= q) := by
  refine ⟨_, exact_ensure hq, fun d seg hlen => ?_, fun d seg hS => (h d seg).mp hS.2⟩
  rw [← h]
  constructor
  · rintro ⟨_, h⟩; exact h
  · intro hS; exact ⟨by rw [← hlen, hl d seg hS], hS⟩

/-- The kind of attribute data. -/
def dataKind : AttributeData → AttrKind
  | .constantValue _ => .constantValue
  | .code _ => .code
  | .stackMapTable _ => .stackMapTable
  | .exceptions _ => .exceptions
  | .innerClasses _ => .innerClasses
  | .enclosingMethod _ _ => .enclosingMethod
  | .synthetic => .synthetic
  | .signature _ => .signature
  | .sourceFile _ => .sourceFile
  | .sourceDebugExtension _ => .sourceDebugExtension
  | .lineNumberTable _ => .lineNumberTable
  | .localVariableTable _ => .localVariableTable
  | .localVariableTypeTable _ => .localVariableTypeTable
  | .deprecated => .deprecated
  | .runtimeVisibleAnnotations _ => .runtimeVisibleAnnotations
  | .runtimeInvisibleAnnotations _ => .runtimeInvisibleAnnotations
  | .runtimeVisibleParameterAnnotations _ => .runtimeVisibleParameterAnnotations
  | .runtimeInvisibleParameterAnnotations _ => .runtimeInvisibleParameterAnnotations
  | .runtimeVisibleTypeAnnotations _ => .runtimeVisibleTypeAnnotations
  | .runtimeInvisibleTypeAnnotations _ => .runtimeInvisibleTypeAnnotations
  | .annotationDefault _ => .annotationDefault
  | .bootstrapMethods _ => .bootstrapMethods
  | .methodParameters _ => .methodParameters
  | .moduleAttr _ => .moduleAttr
  | .modulePackages _ => .modulePackages
  | .moduleMainClass _ => .moduleMainClass
  | .nestHost _ => .nestHost
  | .nestMembers _ => .nestMembers
  | .permittedSubclasses _ => .permittedSubclasses
  | .record _ => .record
  | .other _ => .other

theorem dataEnc_kind {o : Opts} {pool : Pool} {name : Str} {d : AttributeData} {seg : Bytes} (h : DataEnc o pool name d seg) :
    attrKindOf name = dataKind d := by
  refine (attrKindOf_iff name (dataKind d)).mpr ?_
  cases d <;> rw [DataEnc] at h
  case other => exact .inr ⟨rfl, h.1⟩
  all_goals exact .inl (by rw [h.1]; rfl)

macro "data_iff" : tactic => `(tactic| (
  intro d seg
  constructor
  · rintro ⟨a, ha, h⟩; subst ha; rw [DataEnc]; exact ⟨_root_.rfl, h⟩
  · intro h
    have hd : dataKind d = _ := (dataEnc_kind h).symm
    cases d <;> first
      | (cases hd; done)
      | (rw [DataEnc] at h; exact ⟨_, _root_.rfl, h.2⟩)))

/-- What a proof that the arm of kind `k` is right has to show. -/
def KindOK (k : AttrKind) : Prop := ∀ (N depth : Nat) (env : Env) (rec : P (List AttributeInfo)) (pool : Pool), N ≤ depth →
    Exact N rec (table2 (AttrEnc env.opts pool)) → ∀ (i length : Nat) (name : Str), kindName k = some name →
    ReadsData env.opts pool N length name (readAttributeData env depth rec pool i length k)

theorem kindOK_constantValue : KindOK .constantValue := by
  intro N depth env rec pool hN hrec i length name hk
  cases hk
  refine readsData_fixed (exact_map (Exact.mapErr (readCpLiteralconstant_exact pool) _) AttributeData.constantValue)
    (by rintro d seg ⟨a, rfl, h⟩; exact ref_length h) ?_
  data_iff

theorem kindOK_code : KindOK .code := by
  intro N depth env rec pool hN hrec i length name hk
  cases hk
  refine readsData_table (mk := AttributeData.code) (Exact.mapErr (readCodeDataWith_exact hrec) _) ?_
  data_iff

theorem kindOK_stackMapTable : KindOK .stackMapTable := by
  intro N depth env rec pool hN hrec i length name hk
  cases hk
  refine readsData_table (mk := AttributeData.stackMapTable) (Exact.mapErr (Exact.readTable2 fun j => readStackMapEntry_exact pool j) _) ?_
  data_iff

theorem kindOK_exceptions : KindOK .exceptions := by
  intro N depth env rec pool hN hrec i length name hk
  cases hk
  refine readsData_table (mk := AttributeData.exceptions) (Exact.mapErr (Exact.readTable2 fun j => Exact.mapErr (readCpClassinfo_exact pool) _) _) ?_
  data_iff

theorem kindOK_innerClasses : KindOK .innerClasses := by
  intro N depth env rec pool hN hrec i length name hk
  cases hk
  refine readsData_table (mk := AttributeData.innerClasses) (Exact.mapErr (Exact.readTable2 fun j => readInnerClassEntry_exact pool j) _) ?_
  data_iff

theorem kindOK_enclosingMethod : KindOK .enclosingMethod := by
  intro N depth env rec pool hN hrec i length name hk
  cases hk
  refine readsData_fixed (Exact.bind (Exact.mapErr (readCpClassinfo_exact pool) _) fun c =>
    exact_map (Exact.mapErr (readCpNameandtypeOpt_exact pool) _) (AttributeData.enclosingMethod c)) ?_ ?_
  · rintro d seg ⟨c, s, t, rfl, h, m, rfl, h'⟩
    rw [List.length_append, ref_length h, ref_length h']
  · intro d seg
    constructor
    · rintro ⟨c, s, t, rfl, h, m, rfl, h'⟩; rw [DataEnc]; exact ⟨rfl, s, t, rfl, h, h'⟩
    · intro h
      have hd : dataKind d = _ := (dataEnc_kind h).symm
      cases d with
      | enclosingMethod c m =>
        rw [DataEnc] at h
        obtain ⟨-, s, t, rfl, h, h'⟩ := h
        exact ⟨c, s, t, rfl, h, m, rfl, h'⟩
      | _ => cases hd

theorem kindOK_synthetic : KindOK .synthetic := by
  intro N depth env rec pool hN hrec i length name hk
  cases hk
  refine readsData_fixed (Exact.pure _) ?_ ?_
  · rintro d seg ⟨rfl, rfl⟩; rfl
  · intro d seg
    constructor
    · rintro ⟨rfl, rfl⟩; rw [DataEnc]; exact ⟨rfl, rfl⟩
    · intro h
      have hd : dataKind d = _ := (dataEnc_kind h).symm
      cases d <;> first
        | (cases hd; done)
        | (rw [DataEnc] at h; exact ⟨rfl, h.2⟩)

theorem kindOK_signature : KindOK .signature := by
  intro N depth env rec pool hN hrec i length name hk
  cases hk
  refine readsData_fixed (exact_map (Exact.mapErr (readCpUtf8_exact pool) _) AttributeData.signature)
    (by rintro d seg ⟨a, rfl, h⟩; exact ref_length h) ?_
  data_iff

theorem kindOK_sourceFile : KindOK .sourceFile := by
  intro N depth env rec pool hN hrec i length name hk
  cases hk
  refine readsData_fixed (exact_map (Exact.mapErr (readCpUtf8_exact pool) _) AttributeData.sourceFile)
    (by rintro d seg ⟨a, rfl, h⟩; exact ref_length h) ?_
  data_iff

theorem kindOK_sourceDebugExtension : KindOK .sourceDebugExtension := by
  intro N depth env rec pool hN hrec i length name hk
  cases hk
  refine ⟨_, Exact.bind (Exact.takeSlice (n := length)) (G := fun b d seg => seg = [] ∧ ∃ s, env.decode b = some s ∧
    d = .sourceDebugExtension s) (fun b => ?_), fun d seg hlen => ?_, ?_⟩
  · cases hd : env.decode b with
    | none => exact Exact.failCtx.congr (by simp)
    | some s => exact (Exact.pure _).congr (by simp [and_comm])
  · constructor
    · rintro ⟨b, s, t, rfl, ⟨h, rfl⟩, rfl, x, hx, rfl⟩; rw [DataEnc]; exact ⟨rfl, by simpa [Env.opts] using hx⟩
    · intro h
      have hd : dataKind d = _ := (dataEnc_kind h).symm
      cases d <;> first
        | (cases hd; done)
        | (rw [DataEnc] at h; exact ⟨seg, seg, [], by simp, ⟨hlen, rfl⟩, rfl, _, h.2, rfl⟩)
  · rintro d _ ⟨b, s, t, rfl, ⟨h, rfl⟩, rfl, x, hx, rfl⟩; rw [DataEnc]; exact ⟨rfl, by simpa [Env.opts] using hx⟩

theorem kindOK_lineNumberTable : KindOK .lineNumberTable := by
  intro N depth env rec pool hN hrec i length name hk
  cases hk
  refine readsData_table (mk := AttributeData.lineNumberTable) (Exact.mapErr (Exact.readTable2 fun j => readLineNumberEntry_exact) _) ?_
  data_iff

theorem kindOK_localVariableTable : KindOK .localVariableTable := by
  intro N depth env rec pool hN hrec i length name hk
  cases hk
  refine readsData_table (mk := AttributeData.localVariableTable) (Exact.mapErr (Exact.readTable2 fun j => readLocalVariableEntry_exact pool j) _) ?_
  data_iff

theorem kindOK_localVariableTypeTable : KindOK .localVariableTypeTable := by
  intro N depth env rec pool hN hrec i length name hk
  cases hk
  refine readsData_table (mk := AttributeData.localVariableTypeTable) (Exact.mapErr (Exact.readTable2 fun j => readLocalVariableTypeEntry_exact pool j) _) ?_
  data_iff

theorem kindOK_deprecated : KindOK .deprecated := by
  intro N depth env rec pool hN hrec i length name hk
  cases hk
  refine readsData_fixed (Exact.pure _) ?_ ?_
  · rintro d seg ⟨rfl, rfl⟩; rfl
  · intro d seg
    constructor
    · rintro ⟨rfl, rfl⟩; rw [DataEnc]; exact ⟨rfl, rfl⟩
    · intro h
      have hd : dataKind d = _ := (dataEnc_kind h).symm
      cases d <;> first
        | (cases hd; done)
        | (rw [DataEnc] at h; exact ⟨rfl, h.2⟩)

theorem kindOK_runtimeVisibleAnnotations : KindOK .runtimeVisibleAnnotations := by
  intro N depth env rec pool hN hrec i length name hk
  cases hk
  refine readsData_table (mk := AttributeData.runtimeVisibleAnnotations) (Exact.mapErr ((readAnnotationData_exact pool depth).mono hN) _) ?_
  data_iff

theorem kindOK_runtimeInvisibleAnnotations : KindOK .runtimeInvisibleAnnotations := by
  intro N depth env rec pool hN hrec i length name hk
  cases hk
  refine readsData_table (mk := AttributeData.runtimeInvisibleAnnotations) (Exact.mapErr ((readAnnotationData_exact pool depth).mono hN) _) ?_
  data_iff

theorem kindOK_runtimeVisibleParameterAnnotations : KindOK .runtimeVisibleParameterAnnotations := by
  intro N depth env rec pool hN hrec i length name hk
  cases hk
  refine readsData_table (mk := AttributeData.runtimeVisibleParameterAnnotations) (Exact.mapErr ((readParameterAnnotationData_exact pool depth).mono hN) _) ?_
  data_iff

theorem kindOK_runtimeInvisibleParameterAnnotations : KindOK .runtimeInvisibleParameterAnnotations := by
  intro N depth env rec pool hN hrec i length name hk
  cases hk
  refine readsData_table (mk := AttributeData.runtimeInvisibleParameterAnnotations) (Exact.mapErr ((readParameterAnnotationData_exact pool depth).mono hN) _) ?_
  data_iff

theorem kindOK_runtimeVisibleTypeAnnotations : KindOK .runtimeVisibleTypeAnnotations := by
  intro N depth env rec pool hN hrec i length name hk
  cases hk
  refine readsData_table (mk := AttributeData.runtimeVisibleTypeAnnotations) (Exact.mapErr ((readTypeAnnotationData_exact pool depth).mono hN) _) ?_
  data_iff

theorem kindOK_runtimeInvisibleTypeAnnotations : KindOK .runtimeInvisibleTypeAnnotations := by
  intro N depth env rec pool hN hrec i length name hk
  cases hk
  refine readsData_table (mk := AttributeData.runtimeInvisibleTypeAnnotations) (Exact.mapErr ((readTypeAnnotationData_exact pool depth).mono hN) _) ?_
  data_iff

theorem kindOK_annotationDefault : KindOK .annotationDefault := by
  intro N depth env rec pool hN hrec i length name hk
  cases hk
  refine readsData_table (mk := AttributeData.annotationDefault) (Exact.mapErr ((readAnnotationElementValue_exact pool depth).mono hN) _) ?_
  data_iff

theorem kindOK_bootstrapMethods : KindOK .bootstrapMethods := by
  intro N depth env rec pool hN hrec i length name hk
  cases hk
  refine readsData_table (mk := AttributeData.bootstrapMethods) (Exact.mapErr (Exact.readTable2 fun j => readBootstrapMethodEntry_exact pool j) _) ?_
  data_iff

theorem kindOK_methodParameters : KindOK .methodParameters := by
  intro N depth env rec pool hN hrec i length name hk
  cases hk
  refine readsData_table (mk := AttributeData.methodParameters) (Exact.mapErr (Exact.readTable1 fun j => readMethodParameterEntry_exact pool j) _) ?_
  data_iff

theorem kindOK_moduleAttr : KindOK .moduleAttr := by
  intro N depth env rec pool hN hrec i length name hk
  cases hk
  refine readsData_table (mk := AttributeData.moduleAttr) (Exact.mapErr (readModuleData_exact pool) _) ?_
  data_iff

theorem kindOK_modulePackages : KindOK .modulePackages := by
  intro N depth env rec pool hN hrec i length name hk
  cases hk
  refine readsData_table (mk := AttributeData.modulePackages) (Exact.mapErr (Exact.readTable2 fun j => Exact.mapErr (readCpPackageinfo_exact pool) _) _) ?_
  data_iff

theorem kindOK_moduleMainClass : KindOK .moduleMainClass := by
  intro N depth env rec pool hN hrec i length name hk
  cases hk
  refine readsData_fixed (exact_map (Exact.mapErr (readCpClassinfo_exact pool) _) AttributeData.moduleMainClass)
    (by rintro d seg ⟨a, rfl, h⟩; exact ref_length h) ?_
  data_iff

theorem kindOK_nestHost : KindOK .nestHost := by
  intro N depth env rec pool hN hrec i length name hk
  cases hk
  refine readsData_fixed (exact_map (Exact.mapErr (readCpClassinfo_exact pool) _) AttributeData.nestHost)
    (by rintro d seg ⟨a, rfl, h⟩; exact ref_length h) ?_
  data_iff

theorem kindOK_nestMembers : KindOK .nestMembers := by
  intro N depth env rec pool hN hrec i length name hk
  cases hk
  refine readsData_table (mk := AttributeData.nestMembers) (Exact.mapErr (Exact.readTable2 fun j => Exact.mapErr (readCpClassinfo_exact pool) _) _) ?_
  data_iff

theorem kindOK_permittedSubclasses : KindOK .permittedSubclasses := by
  intro N depth env rec pool hN hrec i length name hk
  cases hk
  refine readsData_table (mk := AttributeData.permittedSubclasses) (Exact.mapErr (Exact.readTable2 fun j => Exact.mapErr (readCpClassinfo_exact pool) _) _) ?_
  data_iff

theorem kindOK_record : KindOK .record := by
  intro N depth env rec pool hN hrec i length name hk
  cases hk
  refine readsData_table (mk := AttributeData.record) (Exact.mapErr (Exact.readTable2 fun j => readRecordComponentWith_exact hrec j) _) ?_
  simp only [table2, ← componentsEnc_eq]
  data_iff

theorem readAttributeData_reads {N depth : Nat} {env : Env} {rec : P (List AttributeInfo)} {pool : Pool} (hN : N ≤ depth)
    (hrec : Exact N rec (table2 (AttrEnc env.opts pool))) (i length : Nat) (name : Str) :
    ReadsData env.opts pool N length name (readAttributeData env depth rec pool i length (attrKindOf name)) := by
  have hk := (attrKindOf_iff name (attrKindOf name)).mp rfl
  generalize attrKindOf name = k at hk
  rcases hk with hk | ⟨rfl, hk⟩
  · cases k with
    | other => cases hk
    | constantValue => exact kindOK_constantValue N depth env rec pool hN hrec i length name hk
    | code => exact kindOK_code N depth env rec pool hN hrec i length name hk
    | stackMapTable => exact kindOK_stackMapTable N depth env rec pool hN hrec i length name hk
    | exceptions => exact kindOK_exceptions N depth env rec pool hN hrec i length name hk
    | innerClasses => exact kindOK_innerClasses N depth env rec pool hN hrec i length name hk
    | enclosingMethod => exact kindOK_enclosingMethod N depth env rec pool hN hrec i length name hk
    | synthetic => exact kindOK_synthetic N depth env rec pool hN hrec i length name hk
    | signature => exact kindOK_signature N depth env rec pool hN hrec i length name hk
    | sourceFile => exact kindOK_sourceFile N depth env rec pool hN hrec i length name hk
    | sourceDebugExtension => exact kindOK_sourceDebugExtension N depth env rec pool hN hrec i length name hk
    | lineNumberTable => exact kindOK_lineNumberTable N depth env rec pool hN hrec i length name hk
    | localVariableTable => exact kindOK_localVariableTable N depth env rec pool hN hrec i length name hk
    | localVariableTypeTable => exact kindOK_localVariableTypeTable N depth env rec pool hN hrec i length name hk
    | deprecated => exact kindOK_deprecated N depth env rec pool hN hrec i length name hk
    | runtimeVisibleAnnotations => exact kindOK_runtimeVisibleAnnotations N depth env rec pool hN hrec i length name hk
    | runtimeInvisibleAnnotations => exact kindOK_runtimeInvisibleAnnotations N depth env rec pool hN hrec i length name hk
    | runtimeVisibleParameterAnnotations => exact kindOK_runtimeVisibleParameterAnnotations N depth env rec pool hN hrec i length name hk
    | runtimeInvisibleParameterAnnotations => exact kindOK_runtimeInvisibleParameterAnnotations N depth env rec pool hN hrec i length name hk
    | runtimeVisibleTypeAnnotations => exact kindOK_runtimeVisibleTypeAnnotations N depth env rec pool hN hrec i length name hk
    | runtimeInvisibleTypeAnnotations => exact kindOK_runtimeInvisibleTypeAnnotations N depth env rec pool hN hrec i length name hk
    | annotationDefault => exact kindOK_annotationDefault N depth env rec pool hN hrec i length name hk
    | bootstrapMethods => exact kindOK_bootstrapMethods N depth env rec pool hN hrec i length name hk
    | methodParameters => exact kindOK_methodParameters N depth env rec pool hN hrec i length name hk
    | moduleAttr => exact kindOK_moduleAttr N depth env rec pool hN hrec i length name hk
    | modulePackages => exact kindOK_modulePackages N depth env rec pool hN hrec i length name hk
    | moduleMainClass => exact kindOK_moduleMainClass N depth env rec pool hN hrec i length name hk
    | nestHost => exact kindOK_nestHost N depth env rec pool hN hrec i length name hk
    | nestMembers => exact kindOK_nestMembers N depth env rec pool hN hrec i length name hk
    | permittedSubclasses => exact kindOK_permittedSubclasses N depth env rec pool hN hrec i length name hk
    | record => exact kindOK_record N depth env rec pool hN hrec i length name hk
  · refine ⟨_, exact_map (Exact.takeSlice (n := length)) AttributeData.other, fun d seg hlen => ⟨?_, ?_⟩, ?_⟩
    · rintro ⟨b, rfl, h, rfl⟩; rw [DataEnc]; exact ⟨hk, rfl⟩
    · intro h
      have hd : dataKind d = .other := by rw [← dataEnc_kind h]; exact (attrKindOf_iff _ _).mpr (.inr ⟨rfl, hk⟩)
      cases d with
      | other b => rw [DataEnc] at h; obtain ⟨-, rfl⟩ := h; exact ⟨_, rfl, hlen, rfl⟩
      | _ => cases hd
    · rintro d _ ⟨b, rfl, h, rfl⟩; rw [DataEnc]; exact ⟨hk, rfl⟩

theorem exact_sizedBody {α β : Type} {N length : Nat} {p : P α} {S T : α → Lang} {mk : α → β} {msg : Nat → String} (hp : Exact N p S)
    (h : ∀ d seg, seg.length = length → (S d seg ↔ T d seg)) :
    Exact N (checkEnd length >>= fun e => p >>= fun d => P.getIx >>= fun ix =>
      if e ≠ ix then P.fail (msg ix) else pure (mk d)) (fun x seg => ∃ d, x = mk d ∧ seg.length = length ∧ T d seg) := by
  intro bytes ix h1 h2 x ix''
  rw [P.bind_ok]
  constructor
  · rintro ⟨e, ix0, hc, h3⟩
    unfold checkEnd at hc
    split at hc
    · cases hc
    · cases hc
      obtain ⟨d, ix1, hd, h4⟩ := P.bind_ok.mp h3
      obtain ⟨j, ix2, hj, h5⟩ := P.bind_ok.mp h4
      cases hj
      obtain ⟨seg, rest, hdrop, hS, rfl⟩ := (hp bytes ix h1 h2 d ix1).mp hd
      split at h5
      · cases h5
      · rename_i he
        cases h5
        have hl : seg.length = length := by omega
        exact ⟨seg, rest, hdrop, ⟨d, rfl, hl, (h d seg hl).mp hS⟩, rfl⟩
  · rintro ⟨seg, rest, hdrop, ⟨d, rfl, hl, hT⟩, rfl⟩
    have hlen := length_of_drop_eq h1 hdrop
    refine ⟨ix + length, ix, ?_, ?_⟩
    · unfold checkEnd; rw [if_neg (by omega)]
    · refine P.bind_ok.mpr ⟨d, ix + seg.length, (hp bytes ix h1 h2 d _).mpr ⟨seg, rest, hdrop, (h d seg hl).mpr hT, rfl⟩, ?_⟩
      refine P.bind_ok.mpr ⟨ix + seg.length, ix + seg.length, rfl, ?_⟩
      rw [if_neg (by omega)]
      rfl

theorem readAttributeWith_exact {N depth : Nat} {env : Env} {rec : P (List AttributeInfo)} {pool : Pool} (hN : N ≤ depth)
    (hrec : Exact N rec (table2 (AttrEnc env.opts pool))) (i : Nat) :
    Exact N (readAttributeWith env depth rec pool i) (AttrEnc env.opts pool) := by
  unfold readAttributeWith
  refine (Exact.bind (Exact.mapErr (readCpUtf8_exact pool) _) fun name => Exact.bind Exact.readU4
    (G := fun length x seg => ∃ d, x = ⟨name, d⟩ ∧ seg.length = length.toNat ∧ DataEnc env.opts pool name d seg) fun length => ?_).congr ?_
  · obtain ⟨S, hS, h, -⟩ := readAttributeData_reads hN hrec i length.toNat name
    exact exact_sizedBody hS h
  · rintro ⟨name, d⟩ seg
    rw [AttrEnc]
    constructor
    · rintro ⟨n', s, t, rfl, hn, l, s2, t2, rfl, rfl, d', h, hl, hD⟩
      cases h
      exact ⟨s, _, rfl, hn, l, t2, hl.symm, hD, rfl⟩
    · rintro ⟨s, t, rfl, hn, l, b, hl, hD, rfl⟩
      exact ⟨name, s, _, rfl, hn, l, _, _, rfl, rfl, d, rfl, hl.symm, hD⟩

theorem readAttributes_exact (env : Env) (pool : Pool) :
    ∀ depth, Exact depth (readAttributes env pool depth) (table2 (AttrEnc env.opts pool))
  | 0 => exact_diverge
  | depth + 1 => (Exact.readTable2K fun i =>
      readAttributeWith_exact (Nat.le_refl depth) (readAttributes_exact env pool depth) i).mono (by omega)

end Cafebabe
