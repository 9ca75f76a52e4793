import Verif.Proofs.WorkPool
import Verif.Proofs.Stop
import Verif.Props.CowProps
/-!
# C61 Work of the checks
-/

namespace Cafebabe
open Spec Examples Timed

/-- Counting steps changes no outcome: texts. -/
theorem C61_same_text (s : Str) (i : Nat) : (isBinaryNameT s).out = .ok (isBinaryName s) ∧ (isUnqualifiedNameT s).out = .ok (isUnqualifiedName s) ∧
    (∀ a b, (isUnqualifiedMethodNameT s a b).out = .ok (isUnqualifiedMethodName s a b)) ∧ (isModuleNameT s).out = .ok (isModuleName s) ∧
    (ClassName.tryFromT s).out = ClassName.tryFrom s ∧ (parseFieldDescriptorT s i).out = parseFieldDescriptor s i ∧
    (parseReturnDescriptorT s i).out = parseReturnDescriptor s i ∧ (parseMethodDescriptorT s i).out = parseMethodDescriptor s i ∧
    (parseArrayDescriptorT s).out = parseArrayDescriptor s ∧ (isFieldDescriptorT s).out = isFieldDescriptor s ∧
    (isArrayDescriptorT s).out = isArrayDescriptor s ∧ (isMethodDescriptorT s).out = isMethodDescriptor s :=
  ⟨isBinaryNameT_out s, isUnqualifiedNameT_out s, isUnqualifiedMethodNameT_out s, isModuleNameT_out s, tryFromT_out s, fieldT_out s i, returnT_out s i,
    methodT_out s i, arrayT_out s, isFieldT_out s, isArrayT_out s, isMethodT_out s⟩

/-- Counting steps changes no outcome: constants. -/
theorem C61_same_pool (d : Nat) (pool : Pool) (major : UInt16) : (validateConstantPoolT d pool major).out = validateConstantPool d pool major :=
  validateFromT_out d pool major pool 0

/-- Checking a text, whatever the outcome, takes steps in proportion to its length. -/
theorem C61_text (s : Str) : (isBinaryNameT s).steps ≤ 2 * s.length + 2 ∧ (isUnqualifiedNameT s).steps ≤ s.length ∧
    (∀ a b, (isUnqualifiedMethodNameT s a b).steps ≤ s.length + 2) ∧ (isModuleNameT s).steps ≤ s.length ∧
    (ClassName.tryFromT s).steps ≤ 2 * s.length + 1 ∧ (parseFieldDescriptorT s 0).steps ≤ 3 * s.length + 1 ∧
    (parseReturnDescriptorT s 0).steps ≤ 3 * s.length + 2 ∧ (parseMethodDescriptorT s 0).steps ≤ 4 * s.length ∧
    (parseArrayDescriptorT s).steps ≤ 3 * s.length + 1 ∧ (isFieldDescriptorT s).steps ≤ 3 * s.length + 1 ∧
    (isArrayDescriptorT s).steps ≤ 3 * s.length + 1 ∧ (isMethodDescriptorT s).steps ≤ 5 * s.length :=
  ⟨binaryT_le s, unqualifiedT_le s, methodNameT_le s, moduleT_le s, tryFromT_le s, (fieldT_le [] s).1, returnT_le [] s, methodT_le s, arrayT_le s,
    isFieldT_le s, isArrayT_le s, isMethodT_le s⟩

/-- A field descriptor that is understood takes steps in proportion to the descriptor, however much text follows it. -/
theorem C61_prefix (s : Str) (d : FieldDescriptor) (h : parseFieldDescriptor s 0 = .ok d) :
    (parseFieldDescriptorT s 0).steps ≤ 3 * (fieldText d).length :=
  (fieldT_le [] s).2 d (by rw [← h]; exact fieldT_out s 0)

/-- Checking the constants of any file, valid or not, takes no more steps than this, or it never ends (C05). -/
theorem C61_pool {o : Opts} {raw pool : Pool} {seg : Bytes} {d n : Nat} {major : UInt16}
    (hu : RawPoolEnc o.decode o.checks major raw seg) (hr : resolveConstantPool raw = .ok pool) (ht : TextsUpTo pool n) (hd : validateConstantPool d pool major ≠ .diverge) :
    (validateConstantPoolT d pool major).steps ≤ pool.length * (5 * n + pool.length + 7) := by
  obtain ⟨rfl, hrange⟩ := resolveConstantPool_ok.mp hr
  exact validatePoolT_le (linked_of_range (raw_facts hu).1 hrange) ht (by rw [C61_same_pool]; exact hd)

/-- Checking the constants of an accepted file takes, per slot, steps in proportion to the longest text. -/
theorem C61_accepted {o : Opts} {bytes : Bytes} {cf : ClassFile} (h : Accepts o bytes cf) {d n : Nat} (hd : 2 ≤ d) (ht : TextsUpTo cf.constantPool n) :
    (validateConstantPoolT d cf.constantPool cf.majorVersion).steps ≤ cf.constantPool.length * (5 * n + 7) := by
  have hok := accepts_pool h
  generalize cf.constantPool = pool at hok ht ⊢
  have hout : (validateConstantPoolT d pool cf.majorVersion).out ≠ .diverge := by
    rw [C61_same_pool, (validateConstantPool_ok hd).mpr hok]; nofun
  refine Nat.le_trans (validateFromT_le (m := 5 * n + 1 + 5) pool 0 (fun e he hnd => ?_) hout) (Nat.le_refl _)
  obtain ⟨i, hi⟩ := List.getElem?_of_mem he
  have hoke := hok i e hi
  -- a text costs no reference, a NameAndType with a text one
  have text : ∀ {f : Entry} {s : Str}, f ∈ pool → f = .utf8 s → (f.validateMethodDescriptorT pool d).steps ≤ 5 * n + 1 := by
    rintro f s hf rfl
    obtain ⟨k, rfl⟩ : ∃ k, d = k + 1 := ⟨d - 1, by omega⟩
    rw [vmdT_other (by simp)]
    exact Nat.le_trans (methodText_le ht hf) (by omega)
  have nat : ∀ {f : Entry} {j : Nat} {D : Str → Prop}, HasDescriptor pool j D → peel pool (.resolved j) = .ok f →
      (f.validateMethodDescriptorT pool d).steps ≤ 5 * n + 1 := by
    rintro f j D ⟨x, y, s, hj, hs, -⟩ hp
    rw [peel_resolved hj] at hp
    cases hp
    obtain ⟨k, rfl⟩ : ∃ k, d = k + 1 + 1 := ⟨d - 2, by omega⟩
    rw [vmdT_nat]
    refine Nat.le_trans (steps_bind_le (m := 1) (n := 5 * n) (by rw [peelT_steps]) fun g hg => ?_) (by omega)
    rw [peelT_out, peel_resolved hs] at hg
    cases hg
    rw [vmdT_other (by simp)]
    exact methodText_le ht (List.mem_of_getElem? hs)
  refine validateT_le ht d 1 cf.majorVersion e hnd fun f hf hcase _ => ?_
  rcases hcase with ⟨x, y, rfl, hp⟩ | ⟨x, y, rfl, hp⟩ | ⟨x, rfl, hp⟩ | ⟨b, y, rfl, hp⟩
  · obtain ⟨c, rfl⟩ : ∃ c, x = .resolved c := by cases x <;> simp_all [EntryOK]
    obtain ⟨j, rfl⟩ : ∃ j, y = .resolved j := by cases y <;> simp_all [EntryOK]
    exact nat hoke.2 hp
  · obtain ⟨c, rfl⟩ : ∃ c, x = .resolved c := by cases x <;> simp_all [EntryOK]
    obtain ⟨j, rfl⟩ : ∃ j, y = .resolved j := by cases y <;> simp_all [EntryOK]
    exact nat hoke.2 hp
  · obtain ⟨j, rfl⟩ : ∃ j, x = .resolved j := by cases x <;> simp_all [EntryOK]
    obtain ⟨s, hs, -⟩ := hoke
    rw [peel_resolved hs] at hp
    cases hp
    exact text hf rfl
  · obtain ⟨j, rfl⟩ : ∃ j, y = .resolved j := by cases y <;> simp_all [EntryOK]
    exact nat hoke hp

/-- For a decoder that makes no more characters than it gets bytes, the texts of a file are shorter than the file and than 65536. -/
theorem texts_short {o : Opts} (ho : ∀ b s, o.decode b = some s → s.length ≤ b.length) {bytes : Bytes} {cf : ClassFile} (h : Accepts o bytes cf) :
    TextsUpTo cf.constantPool (min bytes.length 65535) := by
  intro s hs
  obtain ⟨i, hi⟩ := List.getElem?_of_mem hs
  obtain ⟨seg, raw, hraw, he, henc⟩ := raw_of_slot h hi (by simp) (by simp)
  have : raw = .utf8 s := by cases raw <;> simp_all [linkEntry]
  subst this
  obtain ⟨k, b, hk, hb, rfl⟩ := henc
  have h1 := ho b s hb
  have h2 := k.toNat_lt
  have h3 : ([1] ++ u2 k ++ b).length ≤ bytes.length := Nat.le_trans (constantBytes_infix hraw).length_le (by rw [List.length_drop]; omega)
  simp only [List.length_append] at h3
  omega

/-- Checking the constants of an accepted file takes at most `5 n²` steps for a file of `n` bytes, and at most 327682 steps per byte. -/
theorem C61_file {o : Opts} (ho : o.decode = Cesu8.fromJavaCesu8) {bytes : Bytes} {cf : ClassFile} (h : Accepts o bytes cf) {d : Nat} (hd : 2 ≤ d) :
    (validateConstantPoolT d cf.constantPool cf.majorVersion).steps ≤ 5 * bytes.length * bytes.length ∧
      (validateConstantPoolT d cf.constantPool cf.majorVersion).steps ≤ 327682 * bytes.length := by
  have h1 := C61_accepted h hd (texts_short (fun b s hb => (C58_size (ho ▸ hb)).1) h)
  have h2 := C51_size h
  have h3 : cf.constantPool.length + 23 ≤ bytes.length := by unfold classSize at h2; omega
  constructor
  · have : cf.constantPool.length * (5 * min bytes.length 65535 + 7) ≤ cf.constantPool.length * (5 * bytes.length + 7) := Nat.mul_le_mul_left _ (by omega)
    have : cf.constantPool.length * (5 * bytes.length + 7) + 23 * (5 * bytes.length + 7) ≤ bytes.length * (5 * bytes.length + 7) := by
      rw [← Nat.add_mul]; exact Nat.mul_le_mul_right _ h3
    have e : bytes.length * (5 * bytes.length + 7) = 5 * bytes.length * bytes.length + 7 * bytes.length := by ring
    omega
  · have : cf.constantPool.length * (5 * min bytes.length 65535 + 7) ≤ bytes.length * 327682 := Nat.mul_le_mul (by omega) (by omega)
    omega

/-- Class `A…A` with `m` Class constants that all name it. -/
def sameNameFile (n m : Nat) : Bytes := poolFile 52 (utf8Seg (List.replicate n 65) :: List.replicate m ([7] ++ u2 1))

theorem validateFromT_ge {d : Nat} {pool : Pool} {major : UInt16} {m : Nat} : ∀ (es : List Entry) (i : Nat),
    (∀ e ∈ es, (e.validateT d pool major).out = .ok () ∧ m ≤ (e.validateT d pool major).steps) → es.length * m ≤ (validateFromT d pool major i es).steps
  | [], _, _ => by simp
  | e :: es, i, h => by
    unfold validateFromT
    obtain ⟨h1, h2⟩ := h e (by simp)
    rw [steps_tick_bind, steps_bind_ok (a := ()) (by rw [out_mapErr, h1]; rfl), steps_mapErr, List.length_cons, Nat.succ_mul]
    have := validateFromT_ge es (i + 1) fun f hf => h f (by simp [hf])
    omega

theorem validateFromT_skip {d : Nat} {pool : Pool} {major : UInt16} {e : Entry} {es : List Entry} {i : Nat} (h : (e.validateT d pool major).out = .ok ()) :
    (validateFromT d pool major (i + 1) es).steps ≤ (validateFromT d pool major i (e :: es)).steps := by
  rw [validateFromT]
  rw [steps_tick_bind, steps_bind_ok (a := ()) (by rw [out_mapErr, h]; rfl)]
  omega

theorem classInfoT_ge {d : Nat} {pool : Pool} {major : UInt16} {k : Nat} {s : Str} (hk : pool[k]? = some (.utf8 s)) (hs : isBinaryName s = true) :
    ((Entry.classInfo (.resolved k)).validateT d pool major).out = .ok () ∧ s.length ≤ ((Entry.classInfo (.resolved k)).validateT d pool major).steps := by
  have hp := peel_resolved hk
  have he : (CPRef.ensureTypeT pool (.resolved k) EntryTypes.UTF8).out = .ok () := by
    rw [ensureTypeT_out]; unfold CPRef.ensureType; rw [hp, res_bind_ok]; unfold Entry.ensureType; exact if_pos (show flagsContains32 EntryTypes.UTF8 (Entry.utf8 s).getType = true from (by decide : flagsContains32 EntryTypes.UTF8 EntryTypes.UTF8 = true))
  constructor
  · rw [validateT_out]
    rw [ensureTypeT_out] at he
    show (CPRef.ensureType pool (.resolved k) EntryTypes.UTF8 >>= fun _ => peel pool (.resolved k) >>= fun e => e.validateClassinfoName) = _
    rw [he, res_bind_ok, hp, res_bind_ok]
    unfold Entry.validateClassinfoName
    rw [show (Entry.utf8 s).str = .ok s from rfl, res_bind_ok, if_pos hs]
  · unfold Entry.validateT
    show s.length ≤ (CPRef.ensureTypeT pool (.resolved k) EntryTypes.UTF8 >>= fun _ => peelT pool (.resolved k) >>= fun e => e.validateClassinfoNameT).steps
    rw [steps_bind_ok he, steps_bind_ok (a := Entry.utf8 s) (by rw [peelT_out, hp])]
    unfold Entry.validateClassinfoNameT
    rw [steps_free_bind_ok (r := (Entry.utf8 s).str) (a := s) _ rfl, steps_bind_ok (isBinaryNameT_out s)]
    have := binaryT_ge hs
    omega

/-- The work can grow with the square of the file: a file of `n + 3 m + 27` bytes with `m` constants that name the same class of `n` letters is
accepted after at least `m n` steps. -/
theorem C61_quadratic {o : Opts} (hd : DecodesAscii o.decode) {n m : Nat} (hn : 0 < n) (hn' : n < 65536) (hm : 0 < m) (hm' : m < 65533) :
    ∃ cf, Accepts o (sameNameFile n m) cf ∧ (sameNameFile n m).length = n + 3 * m + 27 ∧
      ∀ d, m * n ≤ (validateConstantPoolT d cf.constantPool cf.majorVersion).steps := by
  have hA : o.decode (List.replicate n 65) = some (List.replicate n 'A') := by
    rw [hd _ (by intro b hb; rw [List.eq_of_mem_replicate hb]; decide), List.map_replicate]
    rfl
  have hbn : BinaryName (List.replicate n 'A') :=
    ⟨[List.replicate n 'A'], by simp, fun g hg => by
      obtain rfl := List.mem_singleton.mp hg
      refine ⟨by rw [Ne, List.replicate_eq_nil_iff]; omega, fun c hc => ?_⟩
      rw [List.eq_of_mem_replicate hc]; decide, rfl⟩
  have hcn : ClassNameText (List.replicate n 'A') :=
    ⟨[List.replicate n 'A'], by simp, fun g hg => by
      obtain rfl := List.mem_singleton.mp hg
      refine ⟨⟨by rw [Ne, List.replicate_eq_nil_iff]; omega, fun c hc => ?_⟩, fun c hc => ?_⟩ <;> (rw [List.eq_of_mem_replicate hc]; decide), rfl⟩
  have hl : (List.replicate n (65 : UInt8)).length < 65536 := by simpa using hn'
  have hmap : (Entry.utf8 (List.replicate n 'A') :: List.replicate m (.classInfo (.unresolved 1))).map linkEntry =
      Entry.utf8 (List.replicate n 'A') :: List.replicate m (.classInfo (.resolved 1)) := by
    rw [List.map_cons, List.map_replicate]; rfl
  obtain ⟨cf, h, hp, -⟩ := poolFile_accepts (o := o) (major := 52) (c := ⟨List.replicate n 'A'⟩)
    (segs := utf8Seg (List.replicate n 65) :: List.replicate m ([7] ++ u2 1))
    (es := Entry.utf8 (List.replicate n 'A') :: List.replicate m (.classInfo (.unresolved 1)))
    (by rw [List.length_cons, List.length_replicate]; omega)
    (.cons (enc_utf8Seg hl hA) (by
      clear hm hm' hmap
      induction m with
      | zero => exact .nil
      | succ m ih => rw [List.replicate_succ, List.replicate_succ]; exact .cons rfl ih))
    (by
      intro e he
      rcases List.mem_cons.mp he with rfl | he
      · rfl
      · rw [List.eq_of_mem_replicate he]; rfl)
    (by
      rw [hmap]
      intro i e he
      rcases List.mem_cons.mp (List.mem_of_getElem? he) with rfl | he
      · trivial
      rcases List.mem_cons.mp he with rfl | he
      · trivial
      rw [List.eq_of_mem_replicate he]
      exact ⟨_, rfl, .inl hbn⟩)
    (by
      rw [hmap]
      refine ⟨⟨1, ?_, rfl⟩, hcn⟩
      show (List.replicate m (Entry.classInfo (.resolved 1)))[0]? = _
      rw [List.getElem?_replicate, if_pos hm])
    (by
      rw [hmap]
      intro x r
      simp)
  refine ⟨cf, h, ?_, fun d => ?_⟩
  · have : ∀ m, (List.replicate m ([7] ++ u2 1) : List Bytes).flatten.length = 3 * m := by
      intro m
      induction m with
      | zero => rfl
      | succ m ih => rw [List.replicate_succ, List.flatten_cons, List.length_append, ih]; simp [u2_length]; omega
    simp only [sameNameFile, poolFile, header, List.flatten_cons, utf8Seg, List.length_append, u2_length, this, List.length_replicate, List.length_cons, List.length_nil]
    omega
  · rw [hp, hmap]
    unfold validateConstantPoolT
    have key := validateFromT_ge (d := d) (pool := .zero :: Entry.utf8 (List.replicate n 'A') :: List.replicate m (.classInfo (.resolved 1))) (major := cf.majorVersion)
      (m := n) (List.replicate m (.classInfo (.resolved 1))) 2 fun e he => by
        rw [List.eq_of_mem_replicate he]
        have := classInfoT_ge (d := d) (pool := .zero :: Entry.utf8 (List.replicate n 'A') :: List.replicate m (.classInfo (.resolved 1)))
          (major := cf.majorVersion) (k := 1) (s := List.replicate n 'A') rfl ((isBinaryName_iff _).mpr hbn)
        rwa [List.length_replicate] at this
    rw [List.length_replicate] at key
    exact Nat.le_trans key (Nat.le_trans (validateFromT_skip rfl) (validateFromT_skip rfl))

/-- A file of 262158 bytes for which checking the constants takes more than four thousand million steps. -/
theorem C61_worst {o : Opts} (hd : DecodesAscii o.decode) : ∃ bytes cf, bytes.length = 262158 ∧ Accepts o bytes cf ∧
    ∀ d, 4294639620 ≤ (validateConstantPoolT d cf.constantPool cf.majorVersion).steps := by
  obtain ⟨cf, h, hl, hs⟩ := C61_quadratic hd (n := 65535) (m := 65532) (by omega) (by omega) (by omega) (by omega)
  exact ⟨_, cf, by rw [hl], h, hs⟩

/-- The hypotheses of `C61_file` are met by these files, for the decoder the library uses. -/
example : ∃ cf, Accepts (javaOpts debug) (sameNameFile 9 4) cf ∧ 36 ≤ (validateConstantPoolT 2 cf.constantPool cf.majorVersion).steps ∧
    (validateConstantPoolT 2 cf.constantPool cf.majorVersion).steps ≤ 5 * (sameNameFile 9 4).length * (sameNameFile 9 4).length := by
  obtain ⟨cf, h, -, hs⟩ := C61_quadratic (o := javaOpts debug) java_ascii (n := 9) (m := 4) (by decide) (by decide) (by decide) (by decide)
  exact ⟨cf, h, hs 2, (C61_file rfl h (Nat.le_refl 2)).1⟩

/-- A pool with a chain of NameAndType constants meets the hypotheses of `C61_pool`; it is refused. -/
example : (validateConstantPoolT 9 [.zero, .methodType (.resolved 2), .nameAndType (.resolved 3) (.resolved 4), .utf8 ['x'], .utf8 "()V".toList] 52).out =
      .err ⟨"Unexpected constant pool reference type", ["constant pool entry 1"]⟩ ∧
    (validateConstantPoolT 9 [.zero, .methodRef (.resolved 5) (.resolved 2), .nameAndType (.resolved 3) (.resolved 4), .utf8 ['x'], .utf8 "()V".toList,
      .classInfo (.resolved 3)] 52) = ⟨.ok (), 21⟩ := ⟨rfl, rfl⟩

/-- The counts on a class name, a field descriptor with text behind it, and a method descriptor. -/
example : (isBinaryNameT "a/b".toList).steps = 6 ∧ (parseFieldDescriptorT "[La/b;tail".toList 0).steps = 11 ∧
    (parseFieldDescriptorT "[La/b;tail".toList 0).out = .ok ⟨1, .object ⟨"a/b".toList⟩⟩ ∧ (isMethodDescriptorT "(IJ)V".toList).steps = 8 :=
  ⟨rfl, rfl, rfl, rfl⟩

end Cafebabe
