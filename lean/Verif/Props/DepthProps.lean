import Verif.Proofs.Depth
import Verif.Props.AttrProps
/-!
# Property C27: recursion depth
-/

namespace Cafebabe
open Spec Examples

/-! ## Class files can be given any attributes -/

/-- Attributes can be put into the empty attribute table at the end of a class file. -/
theorem attach {o : Opts} {cf : ClassFile} {bytes : Bytes} (h : ClassFileEnc o cf bytes) (he : cf.attributes = []) :
    ∃ pre, bytes = pre ++ u2 0 ∧ (∀ count : UInt16, 0 < count.toNat → OpenFile o cf.constantPool (pre ++ u2 count)) ∧ ∀ as seg, AttributesEnc o cf.constantPool as seg → ClassFileEnc o { cf with attributes := as } (pre ++ seg) := by
  obtain ⟨⟨hd1, hd2, hm, hbs⟩, s, t, rfl, rfl, s, t, rfl, rfl, s, t, rfl, rfl, pool, t, rfl, hp, s1, t, rfl, hf, s2, t, rfl, ht,
    s3, t, rfl, hsup, s4, t, rfl, hi, sf, t, rfl, hfs, sm, as, rfl, hms, has⟩ := h
  rw [he] at has hbs
  obtain ⟨c, hc, s, t, rfl, rfl, rfl⟩ := has
  have hc : c = 0 := UInt16.toNat_inj.mp hc
  subst hc
  refine ⟨[0xCA, 0xFE, 0xBA, 0xBE] ++ (u2 cf.minorVersion ++ (u2 cf.majorVersion ++ (pool ++ (s1 ++ (s2 ++ (s3 ++ (s4 ++ (sf ++ sm)))))))),
    by simp, fun count hc => ?_, fun as seg has => ?_⟩
  · have hfr : FrontEnc o cf.minorVersion cf.majorVersion cf.constantPool cf.accessFlags
        (header cf.minorVersion cf.majorVersion ++ (pool ++ (s1 ++ (s2 ++ (s3 ++ s4))))) :=
      ⟨_, _, _, ⟨_, _, rfl, rfl, _, _, rfl, hp, _, _, rfl, hf, _, _, rfl, ht, _, _, rfl, hsup, hi⟩, fun h => ⟨(hm h).1, (hm h).2.1⟩⟩
    have := OpenFile.ofClass hfr hfs hms (OpenAttrs.here (count := count) (as := []) (s := []) rfl hc)
    simpa [header] using this
  refine ⟨⟨hd1, hd2, hm, ?_⟩, [0xCA, 0xFE, 0xBA, 0xBE], u2 cf.minorVersion ++ (u2 cf.majorVersion ++ (pool ++ (s1 ++ (s2 ++ (s3 ++ (s4 ++ (sf ++
        (sm ++ seg)))))))), by simp, rfl, _, _, rfl, rfl, _, _, rfl, rfl, _, _, rfl, hp, _, _, rfl, hf, _, _, rfl, ht, _, _, rfl,
        hsup, _, _, rfl, hi, _, _, rfl, hfs, _, _, rfl, hms, has⟩
  intro x r hx
  obtain ⟨l, hl, -⟩ := hbs x r hx
  cases hl

/-! ## C27 Recursion depth has no constant bound -/

/-- A run that returns a class file had a recursion budget of at least its nesting. -/
theorem C27_lower_bound {o : Opts} {d : Nat} {bytes : Bytes} {cf : ClassFile} (h : run o d bytes = .ok cf) : nesting cf ≤ d := run_nesting h

/-- With a smaller budget the recursion does not come to an end. -/
theorem C27_too_small {o : Opts} {d : Nat} {bytes : Bytes} {cf : ClassFile} (h : Accepts o bytes cf) (hd : d < nesting cf) :
    run o d bytes = .diverge := by
  by_cases hr : run o d bytes = .diverge
  · exact hr
  · have := run_done rfl hr
    rw [accepts_iff.mp h] at this
    have := C27_lower_bound this.symm
    omega

/-- A budget of "input length plus two" is always enough, if any is. -/
theorem C27_upper_bound {o : Opts} {bytes : Bytes} {d : Nat} (h : run o d bytes ≠ .diverge) : run o (bytes.length + 2) bytes = run o d bytes :=
  C04_depth_linear h

/-- `n` arrays of one element inside each other, and an empty one inside the last. -/
def nest : Nat → Bytes
  | 0 => [91, 0, 0]
  | n + 1 => [91, 0, 1] ++ nest n

/-- The value it encodes. -/
def nestValue : Nat → AnnotationElementValue
  | 0 => .arrayValue []
  | n + 1 => .arrayValue [nestValue n]

/-- A class without attributes, up to the attribute count. -/
def deepFront : Bytes :=
  header 0 52 ++ u2 4 ++ text "A" ++ [7, 0, 1] ++ text "AnnotationDefault" ++ [0, 0x21, 0, 2, 0, 0, 0, 0, 0, 0, 0, 0]

/-- A class with one attribute, AnnotationDefault with value `nestValue n`, declared with `length` bytes. -/
def deepFile (length : UInt32) (n : Nat) : Bytes := deepFront ++ (u2 1 ++ (u2 3 ++ (u4 length ++ nest n)))

theorem nest_length : ∀ n, (nest n).length = 3 * n + 3
  | 0 => rfl
  | n + 1 => by rw [nest, List.length_append, nest_length n]; show 3 + _ = _; omega

theorem deepFile_length (length : UInt32) (n : Nat) : (deepFile length n).length = 3 * n + 60 := by
  unfold deepFile
  simp only [List.length_append, nest_length]
  have h1 : deepFront.length = 49 := by decide +kernel
  have h2 : (u4 length).length = 4 := rfl
  have h3 : (u2 1).length = 2 := rfl
  have h4 : (u2 3).length = 2 := rfl
  omega

theorem nest_enc (pool : Pool) : ∀ n, ElementValueEnc pool (nestValue n) (nest n)
  | 0 => elementValue_cons.mpr ⟨rfl, 0, rfl, u2 0, [], rfl, rfl, rfl⟩
  | n + 1 => elementValue_cons.mpr ⟨rfl, 1, rfl, u2 1, nest n, rfl, rfl, nest n, [], by simp, nest_enc pool n, rfl⟩

theorem nestValue_nesting : ∀ n, valueNesting (nestValue n) = n + 1
  | 0 => rfl
  | n + 1 => by
    show valueNesting (.arrayValue [nestValue n]) = _
    rw [valueNesting, valuesNesting, valuesNesting, nestValue_nesting n]; omega

/-- The class without attributes. -/
def deepCf (o : Opts) : ClassFile :=
  match run o 2 (deepFront ++ u2 0) with
  | .ok cf => cf
  | _ => { majorVersion := 0, minorVersion := 0, constantPool := [], accessFlags := 0, thisClass := ⟨[]⟩, superClass := none, interfaces := [],
           fields := [], methods := [], attributes := [] }

theorem deep_checks (c p : Bool) : ((run (opts c p) 2 (deepFront ++ u2 0)).isOk && (deepCf (opts c p)).attributes.isEmpty &&
    (deepCf (opts c p)).fields.isEmpty && (deepCf (opts c p)).methods.isEmpty &&
    ((deepCf (opts c p)).constantPool[3]? == some (Entry.utf8 "AnnotationDefault".toList))) = true := by
  cases c <;> cases p <;> decide +kernel

theorem deepCf_facts (c p : Bool) : Accepts (opts c p) (deepFront ++ u2 0) (deepCf (opts c p)) ∧ (deepCf (opts c p)).attributes = [] ∧
    (deepCf (opts c p)).fields = [] ∧ (deepCf (opts c p)).methods = [] ∧
    TextAt (deepCf (opts c p)).constantPool 3 "AnnotationDefault".toList := by
  have h := deep_checks c p
  simp only [Bool.and_eq_true, List.isEmpty_iff, beq_iff_eq] at h
  obtain ⟨⟨⟨⟨h1, h2⟩, hf⟩, hm⟩, h3⟩ := h
  refine ⟨⟨2, ?_⟩, h2, hf, hm, h3⟩
  unfold deepCf
  cases hr : run (opts c p) 2 (deepFront ++ u2 0) with
  | ok cf => rfl
  | err e => rw [hr] at h1; cases h1
  | panic k => rw [hr] at h1; cases h1
  | diverge => rw [hr] at h1; cases h1

/-- An accepted input that needs a budget of more than `n`, of length `3 * n + 60`, for every `n` up to the largest attribute length. -/
theorem C27_accepted (c p : Bool) (n : Nat) (hn : 3 * n + 3 < 2 ^ 32) :
    ∃ bytes cf, bytes.length = 3 * n + 60 ∧ Accepts (opts c p) bytes cf ∧ nesting cf = n + 2 ∧ ∀ d, d < n + 2 → run (opts c p) d bytes = .diverge := by
  obtain ⟨h1, h2, hf, hm, h3⟩ := deepCf_facts c p
  obtain ⟨pre, hpre, -, hat⟩ := attach (accepts_iff_enc.mp h1) h2
  obtain rfl := (List.append_inj_left' hpre rfl)
  have hl : (UInt32.ofNat (3 * n + 3)).toNat = 3 * n + 3 := by simpa using Nat.mod_eq_of_lt hn
  have hacc : Accepts (opts c p) (deepFile (UInt32.ofNat (3 * n + 3)) n)
      { deepCf (opts c p) with attributes := [⟨"AnnotationDefault".toList, .annotationDefault (nestValue n)⟩] } := by
    refine accepts_iff_enc.mpr (hat _ _ ⟨1, rfl, u2 1, _, rfl, rfl, _, [], (List.append_nil _).symm, ?_, rfl⟩)
    rw [AttrEnc]
    refine ⟨u2 3, _, rfl, ⟨3, h3, rfl⟩, _, nest n, by rw [hl, nest_length], ?_, rfl⟩
    rw [DataEnc]
    exact ⟨rfl, nest_enc _ n⟩
  have hnest : nesting { deepCf (opts c p) with attributes := [⟨"AnnotationDefault".toList, .annotationDefault (nestValue n)⟩] } = n + 2 := by
    unfold nesting
    simp only [hf, hm, List.map_nil, largest, attrsNesting, dataNesting, nestValue_nesting]
    omega
  exact ⟨_, _, deepFile_length _ n, hacc, hnest, fun d hd => C27_too_small hacc (by omega)⟩

/-! The recursion of rejected inputs is not limited by the largest attribute length: the declared length is compared only afterwards. -/

/-- Everything before the attributes of the class. -/
def readShell (env : Env) : P ClassFile := do
  let (minorVersion, majorVersion) ← readHeader
  let constantPool ← readConstantPool env majorVersion
  let bits ← readU2
  let accessFlags := fromBitsTruncate classMask bits
  checkModuleFlags accessFlags majorVersion
  let thisClass ← (readClassName constantPool).mapErr "this_class"
  let superClass ← (readClassNameOpt constantPool).mapErr "super_class"
  let interfaces ← readInterfaces constantPool
  let fields ← readFields env constantPool
  let methods ← readMethods env constantPool (flagsContains16 accessFlags AccessFlags.INTERFACE) majorVersion
  pure { majorVersion := majorVersion, minorVersion := minorVersion, constantPool := constantPool,
         accessFlags := accessFlags, thisClass := thisClass, superClass := superClass, interfaces := interfaces,
         fields := fields, methods := methods, attributes := [] }

theorem readClassFile_shell (env : Env) : readClassFile env = (readShell env >>= fun cf =>
    (readAttributes env cf.constantPool env.depth).mapErr "class" >>= fun as => checkAtEnd >>= fun _ => finish { cf with attributes := as }) := by
  rw [readClassFile_eq]
  unfold readShell readBody
  simp only [P.bind_assoc']
  rfl

theorem readShell_grows (env : Env) : Grows (readShell env) := by
  unfold readShell
  refine Grows.bind (by unfold readHeader; grow) fun v => Grows.bind (readConstantPool_grows env _) fun pool => ?_
  have hf : Grows (readFields env pool) := Grows.bind Grows.readU2 fun _ => readFieldsFrom_grows _ _ _ _ _
  have hm : ∀ b, Grows (readMethods env pool b v.2) := fun b => Grows.bind Grows.readU2 fun _ => readMethodsFrom_grows _ _ _ _ _ _ _
  refine Grows.bind Grows.readU2 fun bits => ?_
  have hm := hm (flagsContains16 (fromBitsTruncate classMask bits) AccessFlags.INTERFACE)
  dsimp only
  grow

theorem readShell_agree {e f : Env} (h : EnvRel .budget e f) : Agree .budget (readShell e) (readShell f) := by
  refine Agree.bindRight fun v => Agree.bind (readConstantPool_agree h v.2) fun pool => Agree.bindRight fun _ => Agree.bindRight fun _ =>
    Agree.bindRight fun _ => Agree.bindRight fun _ => Agree.bindRight fun _ => ?_
  exact Agree.bind (Agree.bindRight fun _ => readFieldsFrom_agree h pool _ _ _) fun _ =>
    Agree.bindLeft (Agree.bindRight fun _ => readMethodsFrom_agree h pool _ _ _ _ _)

theorem shell_checks (c p : Bool) : (match readShell (envOf (opts c p) 2) deepFront 0 with
    | .ok (cf, ix) => ix == 49 && cf.constantPool[3]? == some (Entry.utf8 "AnnotationDefault".toList)
    | _ => false) = true := by
  cases c <;> cases p <;> decide +kernel

theorem shell_run (c p : Bool) (d : Nat) (hd : 2 ≤ d) (rest : Bytes) : ∃ cf, readShell (envOf (opts c p) d) (deepFront ++ rest) 0 = .ok (cf, 49) ∧
    TextAt cf.constantPool 3 "AnnotationDefault".toList := by
  have h := shell_checks c p
  split at h
  · rename_i cf ix hr
    simp only [Bool.and_eq_true, beq_iff_eq] at h
    obtain ⟨rfl, h⟩ := h
    refine ⟨cf, ?_, h⟩
    have h1 : readShell (envOf (opts c p) 2) (deepFront ++ rest) 0 = .ok (cf, 49) := by
      rcases readShell_grows (envOf (opts c p) 2) 0 deepFront (Nat.zero_le _) with h1 | ⟨h1, -⟩
      · rcases h1 with ⟨e, m, n, h1, -⟩ | h1 <;> simp only at h1 <;> rw [hr] at h1 <;> cases h1
      · rw [← hr]; exact h1 rest
    rcases readShell_agree (e := envOf (opts c p) 2) (f := envOf (opts c p) d) ⟨rfl, rfl, .inr ⟨rfl, hd⟩, .inl rfl⟩ (deepFront ++ rest) 0 with h2 | h2
    · rw [h1] at h2; cases h2
    · rw [← h2, h1]
  · cases h

theorem P.bind_diverge {α β : Type} {p : P α} {f : α → P β} {bytes : Bytes} {ix : Nat} (h : p bytes ix = .diverge) : (p >>= f) bytes ix = .diverge := by
  show P.bind p f bytes ix = _
  unfold P.bind
  rw [h]

theorem P.mapErr_diverge {α : Type} {p : P α} {c : String} {bytes : Bytes} {ix : Nat} (h : p bytes ix = .diverge) : p.mapErr c bytes ix = .diverge := by
  unfold P.mapErr
  rw [h]; rfl

/-- A budget of `d` does not get through `d` arrays. -/
theorem nest_diverges (pool : Pool) : ∀ (d n : Nat) (pre rest : Bytes), d ≤ n →
    readAnnotationElementValue pool d (pre ++ (nest n ++ rest)) pre.length = .diverge
  | 0, _, _, _, _ => rfl
  | d + 1, 0, _, _, h => by omega
  | d + 1, n + 1, pre, rest, h => by
    have ih := nest_diverges pool d n (pre ++ [91] ++ u2 1) rest (by omega)
    have e : pre ++ (nest (n + 1) ++ rest) = pre ++ ([91] ++ (u2 1 ++ (nest n ++ rest))) := by simp [nest, u2, byte]
    rw [e]
    generalize hb : pre ++ ([91] ++ (u2 1 ++ (nest n ++ rest))) = bytes at *
    unfold readAnnotationElementValue readElementValueWith
    rw [Exact.readU1.bind_run (N := bytes.length + 1) (a := 91) (seg := [91]) (rest := u2 1 ++ (nest n ++ rest)) hb.symm rfl (by omega)]
    show (readTable2 (fun i => (readAnnotationElementValue pool d).mapErr s!"array index {i}") >>= fun vs =>
      (pure (AnnotationElementValue.arrayValue vs) : P _)) _ _ = _
    refine P.bind_diverge ?_
    unfold readTable2
    rw [Exact.readU2.bind_run (N := bytes.length + 1) (a := 1) (seg := u2 1) (rest := nest n ++ rest) (by rw [← hb]; simp) rfl (by omega)]
    refine P.bind_diverge (P.mapErr_diverge ?_)
    rw [← hb, show pre ++ ([91] ++ (u2 1 ++ (nest n ++ rest))) = pre ++ [91] ++ u2 1 ++ (nest n ++ rest) by simp]
    exact ih

/-- With budget `d` the recursion on `deepFile length n` does not come to an end, whatever length the attribute declares. -/
theorem deepFile_diverges (c p : Bool) (length : UInt32) (hl : length.toNat ≤ 3) (d n : Nat) (hn : 1 ≤ n) (h : d ≤ n + 1) :
    run (opts c p) d (deepFile length n) = .diverge := by
  have key : ∀ d, 2 ≤ d → d ≤ n + 1 → run (opts c p) d (deepFile length n) = .diverge := by
    intro d h2 h
    obtain ⟨cf, hs, ht⟩ := shell_run c p d h2 (u2 1 ++ (u2 3 ++ (u4 length ++ nest n)))
    rw [run_eq, readClassFile_shell]
    have hlen := deepFile_length length n
    unfold deepFile at hlen ⊢
    rw [P.bind_run hs]
    have h0 : deepFront.length = 49 := by decide +kernel
    rw [← h0]
    have : (readAttributes (envOf (opts c p) d) cf.constantPool (envOf (opts c p) d).depth)
        (deepFront ++ (u2 1 ++ (u2 3 ++ (u4 length ++ nest n)))) deepFront.length = .diverge := by
      obtain ⟨d', rfl⟩ : ∃ d', d = d' + 1 := ⟨d - 1, by omega⟩
      show readAttributes _ _ (d' + 1) _ _ = _
      unfold readAttributes readTable2
      rw [Exact.readU2.bind_run (N := 3 * n + 61) (a := 1) (rest := u2 3 ++ (u4 length ++ nest n)) rfl rfl (by omega)]
      refine P.bind_diverge ?_
      unfold readAttributeWith
      rw [(Exact.mapErr (readCpUtf8_exact cf.constantPool) _).bind_run (N := 3 * n + 61) (a := "AnnotationDefault".toList) (seg := u2 3)
        (rest := u4 length ++ nest n) (by simp) ⟨3, ht, rfl⟩ (by omega)]
      rw [Exact.readU4.bind_run (N := 3 * n + 61) (a := length) (rest := nest n) (by simp) rfl (by omega)]
      have hce : checkEnd length.toNat (deepFront ++ (u2 1 ++ (u2 3 ++ (u4 length ++ nest n)))) (deepFront ++ u2 1 ++ u2 3 ++ u4 length).length =
          .ok ((deepFront ++ u2 1 ++ u2 3 ++ u4 length).length + length.toNat, (deepFront ++ u2 1 ++ u2 3 ++ u4 length).length) := by
        unfold checkEnd
        rw [if_neg]
        have := nest_length n
        simp only [List.length_append] at hlen ⊢
        omega
      rw [P.bind_run hce]
      refine P.bind_diverge ?_
      have hk : attrKindOf "AnnotationDefault".toList = .annotationDefault := by decide +kernel
      rw [hk]
      unfold readAttributeData
      refine P.bind_diverge (P.mapErr_diverge ?_)
      have := nest_diverges cf.constantPool d' n (deepFront ++ u2 1 ++ u2 3 ++ u4 length) [] (by omega)
      simpa using this
    rw [P.bind_diverge (P.mapErr_diverge this)]
    rfl
  by_cases h2 : 2 ≤ d
  · exact key d h2 h
  · rcases run_mono (o := opts c p) (show d ≤ 2 by omega) (deepFile length n) with h3 | h3
    · exact h3
    · rw [h3]; exact key 2 (Nat.le_refl _) (by omega)

/-- No recursion budget suffices: for every budget there is an input, of length linear in the budget, on which it is exhausted although the call
does return (with a larger budget) and refuses the input. -/
theorem C27_unbounded (c p : Bool) (d : Nat) :
    ∃ bytes, bytes.length = 3 * d + 63 ∧ run (opts c p) d bytes = .diverge ∧ Refused (opts c p) bytes ∧ ¬ Hangs (opts c p) bytes := by
  refine ⟨deepFile 0 (d + 1), by rw [deepFile_length]; omega, deepFile_diverges c p 0 (by decide) d (d + 1) (by omega) (by omega), ?_⟩
  have hr : Refused (opts c p) (deepFile 0 (d + 1)) := by
    obtain ⟨h1, h2, hf, hm, h3⟩ := deepCf_facts c p
    obtain ⟨pre, hpre, hop, -⟩ := attach (accepts_iff_enc.mp h1) h2
    obtain rfl := (List.append_inj_left' hpre rfl)
    have := C22_wrong_length_refused (rest := []) (hop 1 (by decide)) (i := 3) (n := 0) (name := "AnnotationDefault".toList)
      (d := .annotationDefault (nestValue (d + 1))) (body := nest (d + 1)) h3 (by decide +kernel) (by decide +kernel)
      (by rw [DataEnc]; exact ⟨rfl, nest_enc _ _⟩) (by rw [nest_length]; exact fun h => by cases h)
    unfold deepFile
    simpa using this
  refine ⟨hr, fun hh => ?_⟩
  rcases hr with ⟨e, d', hd'⟩ | ⟨k, d', hd'⟩
  · rw [hh d'] at hd'; cases hd'
  · rw [hh d'] at hd'; cases hd'

/-- `rich` has an annotation inside an array inside an annotation, in an attribute: nesting 3 (or more), so budget 2 is not enough. -/
example : nesting richCf = 3 ∧ run debug 2 rich = .diverge := by
  have h : nesting richCf = 3 := by decide +kernel
  exact ⟨h, C27_too_small rich_accepted (by omega)⟩

end Cafebabe
