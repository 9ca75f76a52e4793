import Verif.Proofs.ReserveBound
import Verif.Props.ErrorSizeProps
import Verif.Props.FullFacts
import Verif.Props.TrailProps
/-!
# Properties: how many rows parsing reserves (C74)
-/

namespace Cafebabe
open Spec Examples Timed

/-- The parser that counts the rows it reserves, on an input, with recursion budget `d`. -/
def counted (o : Opts) (d : Nat) (bytes : Bytes) : Timed ClassFile := parseClassWithOptionsR (envOf o d) bytes

/-- The sum of the arguments of all calls of `Vec::with_capacity` made for an input before the call returns, with recursion budget `d`. -/
def reserved (o : Opts) (d : Nat) (bytes : Bytes) : Nat := (counted o d bytes).steps

/-- Counting changes no outcome: the counting parser gives what the parser gives. -/
theorem C74_same (o : Opts) (d : Nat) (bytes : Bytes) : (counted o d bytes).out = run o d bytes := parseClassWithOptionsR_out _ _

theorem counted_steps (o : Opts) (d : Nat) (bytes : Bytes) : reserved o d bytes = (readClassFileR (envOf o d) bytes 0).steps := by
  unfold reserved counted parseClassWithOptionsR
  rcases steps_bind (readClassFileR (envOf o d) bytes 0) (fun x => (free (.ok x.1) : Timed ClassFile)) with ⟨a, -, e⟩ | ⟨-, e⟩
  · exact e.trans (Nat.add_zero _)
  · exact e

/-- An accepted input has at least one byte for every row reserved for it. -/
theorem C74_accepted {o : Opts} {d : Nat} {bytes : Bytes} {cf : ClassFile} (h : run o d bytes = .ok cf) : reserved o d bytes ≤ bytes.length := by
  rw [counted_steps]
  rw [run_eq, ← readClassFileR_out (envOf o d) bytes 0] at h
  cases hr : (readClassFileR (envOf o d) bytes 0).out with
  | ok r =>
    have := (classFile_within (envOf o d) bytes 0 (Nat.zero_le _)).1 r.1 r.2 hr
    omega
  | _ => rw [hr] at h; cases h

/-- Whatever the outcome, at most 21845 rows are reserved for each byte of the input, and 2147483647 more. -/
theorem C74_bound (o : Opts) (d : Nat) (bytes : Bytes) : reserved o d bytes ≤ 21845 * bytes.length + 2147483647 := by
  rw [counted_steps]
  have := (classFile_within (envOf o d) bytes 0 (Nat.zero_le _)).2
  omega

/-! ## A family of inputs for which this much is reserved -/

/-- `n` arrays in each other, each declaring 65535 elements. -/
def greedyNest : Nat → Bytes
  | 0 => [33]
  | n + 1 => [91] ++ (u2 65535 ++ greedyNest n)

/-- A class whose attribute AnnotationDefault has this value. -/
def greedyFile (n : Nat) : Bytes := deepFront ++ (u2 1 ++ (u2 3 ++ (u4 0 ++ greedyNest n)))

theorem greedyNest_length : ∀ n, (greedyNest n).length = 3 * n + 1
  | 0 => rfl
  | n + 1 => by simp only [greedyNest, List.length_append, greedyNest_length n]; show 1 + (2 + _) = _; omega

theorem greedyFile_length (n : Nat) : (greedyFile n).length = 3 * n + 58 := by
  have h1 : deepFront.length = 49 := by decide +kernel
  have h2 : (u4 0).length = 4 := rfl
  have h3 : (u2 1).length = 2 := rfl
  have h4 : (u2 3).length = 2 := rfl
  unfold greedyFile
  simp only [List.length_append, greedyNest_length]
  omega

theorem firstRow {N : Nat} {pool : Pool} {q : Nat → Part} {t : Bytes} {e : ParseError} (n : UInt16) (hn : 0 < n.toNat) (h : Blamed N pool (q 0) t e) :
    FirstBlame N pool (rows n.toNat fun j => [q j]) t e := by
  obtain ⟨k, hk⟩ : ∃ k, n.toNat = k + 1 := ⟨n.toNat - 1, by omega⟩
  rw [hk]
  unfold rows
  rw [List.range_succ_eq_map, List.flatMap_cons]
  exact .here h

theorem greedyNest_blamed (N : Nat) (pool : Pool) : ∀ n, Blamed N pool .elementValue (greedyNest n) ⟨"Unrecognized discriminant !", List.replicate n "array index 0"⟩
  | 0 => .elementTag (b := 33) rfl
  | n + 1 => by
    rw [List.replicate_succ']
    have h : Blamed N pool (.within "array index 0" [.elementValue]) (greedyNest n) (inside "array index 0" ⟨"Unrecognized discriminant !", List.replicate n "array index 0"⟩) :=
      .within (.here (greedyNest_blamed N pool n))
    exact .elementValue (b := 91) (ps := [.table2 fun j => [.within s!"array index {j}" [.elementValue]]]) rfl
      (.here (.table2 (n := 65535) (firstRow 65535 (by decide) h)))

/-- These inputs are rejected, with an error of the usual kind. -/
theorem C74_refused (c p : Bool) (n : Nat) : Rejects (opts c p) (greedyFile n) (badError n) := by
  obtain ⟨h1, h2, -, -, h3⟩ := deepCf_facts c p
  obtain ⟨pre, hpre, hat⟩ := saysAll_attach (accepts_iff_enc.mp h1) h2
  obtain rfl := (List.append_inj_left' hpre rfl)
  refine C72_iff.mpr ?_
  have := hat _ _ (.next (count := 1) (as := []) (before := []) (t := u2 3 ++ (u4 0 ++ greedyNest n)) (by decide) rfl
    (.content h3 (Nat.zero_le _) (.part (title := "AnnotationDefault") (parts := [.within "AnnotationDefault attribute 0" [.elementValue]])
      (fun m hm => by simp [fixedLengths] at hm) (by simp [layouts]; rfl) (.here (.within (.here (greedyNest_blamed _ _ n)))))))
  simpa [inside, greedyFile, badError] using this

/-! The rows of a later part count once the earlier parts have returned a value. -/

theorem rowsFirst {α β : Type} {n : Nat} {q : PT α} {g : α → PT β} {bytes : Bytes} {ix : Nat} (h : n ≤ (q bytes ix).steps) : n ≤ ((q >>= g) bytes ix).steps := by
  have hdef : (q >>= g) bytes ix = (q bytes ix >>= fun r => g r.1 bytes r.2) := rfl
  rw [hdef]
  rcases steps_bind (q bytes ix) (fun r => g r.1 bytes r.2) with ⟨a, -, e⟩ | ⟨-, e⟩ <;> omega

theorem rowsAfter {α β : Type} {n : Nat} {q : PT α} {g : α → PT β} {bytes : Bytes} {ix ix1 : Nat} {a : α} (h0 : (q bytes ix).out = .ok (a, ix1))
    (h : n ≤ (g a bytes ix1).steps) : n ≤ ((q >>= g) bytes ix).steps := by
  have hdef : (q >>= g) bytes ix = (q bytes ix >>= fun r => g r.1 bytes r.2) := rfl
  rw [hdef, steps_bind_ok h0]
  exact Nat.le_trans h (Nat.le_add_left _ _)

theorem rowsTick {β : Type} {n m : Nat} {g : Unit → PT β} {bytes : Bytes} {ix : Nat} (h : n ≤ (g () bytes ix).steps) : m + n ≤ ((PT.tick m >>= g) bytes ix).steps := by
  have hdef : (PT.tick m >>= g) bytes ix = (PT.tick m bytes ix >>= fun r => g r.1 bytes r.2) := rfl
  have ho : (PT.tick m bytes ix).out = .ok ((), ix) := rfl
  have hs : (PT.tick m bytes ix).steps = m := rfl
  rw [hdef, steps_bind_ok ho, hs]
  exact Nat.add_le_add_left h _

theorem readU1_runs {bytes pre rest : Bytes} {b : UInt8} (h : bytes = pre ++ ([b] ++ rest)) : readU1 bytes pre.length = .ok (b, (pre ++ [b]).length) := by
  subst h
  exact Exact.readU1.run (N := (pre ++ ([b] ++ rest)).length + 1) rfl rfl (by omega)

theorem readU2_runs {bytes pre rest : Bytes} {b : UInt16} (h : bytes = pre ++ (u2 b ++ rest)) : readU2 bytes pre.length = .ok (b, (pre ++ u2 b).length) := by
  subst h
  exact Exact.readU2.run (N := (pre ++ (u2 b ++ rest)).length + 1) rfl rfl (by omega)

/-- The value of the attribute alone. -/
theorem greedyNest_rows (pool : Pool) : ∀ (n d : Nat) (pre : Bytes), n ≤ d → 65535 * n ≤ (readAnnotationElementValueR pool d (pre ++ greedyNest n) pre.length).steps
  | 0, _, _, _ => Nat.zero_le _
  | n + 1, 0, _, h => by omega
  | n + 1, d + 1, pre, h => by
    have ih := greedyNest_rows pool n d (pre ++ [91] ++ u2 65535) (by omega)
    have e : pre ++ greedyNest (n + 1) = pre ++ [91] ++ u2 65535 ++ greedyNest n := by simp [greedyNest]
    have e1 : pre ++ greedyNest (n + 1) = pre ++ ([91] ++ (u2 65535 ++ greedyNest n)) := rfl
    rw [show 65535 * (n + 1) = 65535 + 65535 * n by omega, e]
    generalize hb : pre ++ [91] ++ u2 65535 ++ greedyNest n = bytes at *
    unfold readAnnotationElementValueR readElementValueWithR
    refine rowsAfter (readU1_runs (e.symm.trans e1)) ?_
    show _ ≤ ((readTable2R (fun i => (readAnnotationElementValueR pool d).mapErr s!"array index {i}") >>= fun vs =>
      (pure (AnnotationElementValue.arrayValue vs) : PT _)) bytes (pre ++ [91]).length).steps
    refine rowsFirst ?_
    unfold readTable2R
    refine rowsAfter (readU2_runs (b := 65535) (rest := greedyNest n) (by rw [← hb]; simp)) ?_
    unfold forRangeR
    refine rowsTick ?_
    show _ ≤ (forRangeFromR _ 0 (65534 + 1) bytes _).steps
    unfold forRangeFromR
    exact rowsFirst ih

/-- Everything before the attributes of the class, counting. -/
def readShellR (env : Env) : PT ClassFile := do
  let magic ← PT.plain readU4
  PT.failIf (magic != 0xCAFEBABE) "Unexpected magic header"
  let minorVersion ← PT.plain readU2
  let majorVersion ← PT.plain readU2
  let constantPool ← readConstantPoolR env majorVersion
  let bits ← PT.plain readU2
  let accessFlags := fromBitsTruncate classMask bits
  PT.plain <| checkModuleFlags accessFlags majorVersion
  let thisClass ← (PT.plain (readClassName constantPool)).mapErr "this_class"
  let superClass ← (PT.plain (readClassNameOpt constantPool)).mapErr "super_class"
  let interfaces ← readInterfacesR constantPool
  let fields ← readFieldsR env constantPool
  let methods ← readMethodsR env constantPool (flagsContains16 accessFlags AccessFlags.INTERFACE) majorVersion
  pure { majorVersion := majorVersion, minorVersion := minorVersion, constantPool := constantPool,
         accessFlags := accessFlags, thisClass := thisClass, superClass := superClass, interfaces := interfaces,
         fields := fields, methods := methods, attributes := [] }

theorem pt_assoc {α β γ : Type} (q : PT α) (g : α → PT β) (k : β → PT γ) : (q >>= g) >>= k = q >>= fun a => g a >>= k := by
  funext bytes ix
  show PT.bind (PT.bind q g) k bytes ix = PT.bind q (fun a => PT.bind (g a) k) bytes ix
  unfold PT.bind
  show Timed.bind (Timed.bind _ _) _ = Timed.bind _ fun _ => Timed.bind _ _
  unfold Timed.bind
  cases (q bytes ix).out with
  | ok r =>
    dsimp only
    cases (g r.1 bytes r.2).out <;> simp [Nat.add_assoc]
  | _ => rfl

theorem pt_pure_bind {α β : Type} (a : α) (g : α → PT β) : (pure a : PT α) >>= g = g a := by
  funext bytes ix
  show Timed.bind (⟨.ok (a, ix), 0⟩ : Timed (α × Nat)) (fun r => g r.1 bytes r.2) = _
  unfold Timed.bind
  simp

theorem readClassFileR_shell (env : Env) : readClassFileR env = (readShellR env >>= fun cf =>
    (readAttributesR env cf.constantPool env.depth).mapErr "class" >>= fun as => PT.plain checkAtEnd >>= fun _ =>
    PT.plain (checkModuleEmpty cf.accessFlags cf.superClass cf.interfaces cf.fields cf.methods) >>= fun _ =>
    PT.plain (P.lift (validateBootstrapMethods cf.constantPool as)) >>= fun _ => pure { cf with attributes := as }) := by
  unfold readClassFileR readShellR
  simp only [pt_assoc, pt_pure_bind]

theorem readShellR_out (env : Env) : Erases (readShellR env) (readShell env) := by
  have e : readShell env = (readU4 >>= fun magic => P.failIf (magic != 0xCAFEBABE) "Unexpected magic header" >>= fun _ => readU2 >>= fun minor => readU2 >>= fun major =>
      readConstantPool env major >>= fun pool => readU2 >>= fun bits => checkModuleFlags (fromBitsTruncate classMask bits) major >>= fun _ =>
      (readClassName pool).mapErr "this_class" >>= fun thisClass => (readClassNameOpt pool).mapErr "super_class" >>= fun superClass =>
      readInterfaces pool >>= fun interfaces => readFields env pool >>= fun fields =>
      readMethods env pool (flagsContains16 (fromBitsTruncate classMask bits) AccessFlags.INTERFACE) major >>= fun methods =>
      pure { majorVersion := major, minorVersion := minor, constantPool := pool, accessFlags := fromBitsTruncate classMask bits, thisClass := thisClass, superClass := superClass,
             interfaces := interfaces, fields := fields, methods := methods, attributes := [] }) := by
    unfold readShell readHeader
    simp only [P.bind_assoc']
    rfl
  rw [e]
  unfold readShellR readInterfacesR readInterfaces readFieldsR readFields readMethodsR readMethods
  exact Erases.bind (Erases.plain _) fun magic => Erases.bind (Erases.failIf _ _) fun _ => Erases.bind (Erases.plain _) fun minor =>
    Erases.bind (Erases.plain _) fun major => Erases.bind (readConstantPoolR_out env major) fun pool => Erases.bind (Erases.plain _) fun bits => Erases.bind (Erases.plain _) fun _ =>
    Erases.bind (Erases.mapErr (Erases.plain _) _) fun thisClass => Erases.bind (Erases.mapErr (Erases.plain _) _) fun superClass => Erases.bind (by erase) fun interfaces =>
    Erases.bind (Erases.bind (Erases.plain _) fun _ => Erases.tick (readFieldsFromR_out env pool _ _ _)) fun fields =>
    Erases.bind (Erases.bind (Erases.plain _) fun _ => Erases.tick (readMethodsFromR_out env pool _ major _ _ _)) fun methods => Erases.pure _

/-- With `3 * n + 58` bytes, 65535 rows are reserved `n` times before the input is rejected. (The budget does not matter as long as it
suffices for the `n` levels.) -/
theorem C74_nested (c p : Bool) (n d : Nat) (hd : n + 2 ≤ d) : (greedyFile n).length = 3 * n + 58 ∧ 65535 * n ≤ reserved (opts c p) d (greedyFile n) := by
  refine ⟨greedyFile_length n, ?_⟩
  rw [counted_steps, readClassFileR_shell]
  obtain ⟨cf, hs, ht⟩ := shell_run c p d (by omega) (u2 1 ++ (u2 3 ++ (u4 0 ++ greedyNest n)))
  have h0 : deepFront.length = 49 := by decide +kernel
  rw [← h0] at hs
  refine rowsAfter ((readShellR_out _ _ _).trans hs) (rowsFirst ?_)
  obtain ⟨d, rfl⟩ : ∃ d', d = d' + 1 := ⟨d - 1, by omega⟩
  show _ ≤ (readAttributesR _ _ (d + 1) (greedyFile n) deepFront.length).steps
  unfold readAttributesR readTable2R
  have hN := greedyFile_length n
  have hc : readU2 (greedyFile n) deepFront.length = .ok (1, (deepFront ++ u2 1).length) := readU2_runs (b := 1) (rest := u2 3 ++ (u4 0 ++ greedyNest n)) rfl
  refine rowsAfter hc ?_
  unfold forRangeR
  refine Nat.le_trans ?_ (rowsTick (Nat.le_refl _))
  refine Nat.le_trans ?_ (Nat.le_add_left _ _)
  show _ ≤ (forRangeFromR _ 0 (0 + 1) _ _).steps
  unfold forRangeFromR
  refine rowsFirst ?_
  unfold readAttributeWithR
  refine rowsAfter ((Exact.mapErr (readCpUtf8_exact cf.constantPool) _).run (N := 3 * n + 59) (a := "AnnotationDefault".toList) (seg := u2 3)
        (rest := u4 0 ++ greedyNest n) (by simp [greedyFile]) ⟨3, ht, rfl⟩ (by omega)) ?_
  have hl : readU4 (greedyFile n) (deepFront ++ u2 1 ++ u2 3).length = .ok (0, (deepFront ++ u2 1 ++ u2 3 ++ u4 0).length) :=
    Exact.readU4.run (N := 3 * n + 59) (rest := greedyNest n) (by simp [greedyFile]) rfl (by omega)
  refine rowsAfter hl ?_
  have hce : checkEnd (0 : UInt32).toNat (greedyFile n) (deepFront ++ u2 1 ++ u2 3 ++ u4 0).length =
      .ok ((deepFront ++ u2 1 ++ u2 3 ++ u4 0).length, (deepFront ++ u2 1 ++ u2 3 ++ u4 0).length) := by
    unfold checkEnd
    rw [if_neg]
    · rfl
    · show ¬ (greedyFile n).length < _ + 0
      unfold greedyFile
      simp only [List.length_append]
      omega
  refine rowsAfter (a := (deepFront ++ u2 1 ++ u2 3 ++ u4 0).length) hce (rowsFirst ?_)
  have hk : attrKindOf "AnnotationDefault".toList = .annotationDefault := by decide +kernel
  rw [hk]
  unfold readAttributeDataR
  refine rowsFirst ?_
  have := greedyNest_rows cf.constantPool n d (deepFront ++ u2 1 ++ u2 3 ++ u4 0) (by omega)
  simpa [greedyFile, PT.mapErr] using this

/-- The rate of `C74_bound` is reached: for every number there is a longer input that is rejected and for which, up to a constant, 21845 rows per
byte are reserved. -/
theorem C74_rate (c p : Bool) (k : Nat) : ∃ bytes e, k ≤ bytes.length ∧ Rejects (opts c p) bytes e ∧
    ∃ d0, ∀ d, d0 ≤ d → 21845 * bytes.length ≤ reserved (opts c p) d bytes + 1267010 := by
  refine ⟨greedyFile k, badError k, by rw [greedyFile_length]; omega, C74_refused c p k, k + 2, fun d hd => ?_⟩
  have := C74_nested c p k d hd
  omega

/-- A method whose code is the header of a tableswitch for the values from 0 to 2147483646, and nothing else. -/
def greedySwitch : Bytes := withCode ([0xaa, 0, 0, 0] ++ u4 0 ++ u4 0 ++ u4 2147483646)

/-- The constant of `C74_bound` is reached as well: 90 bytes, which are rejected, and 2147483647 rows for one table. -/
theorem C74_switch : greedySwitch.length = 90 ∧ reserved debug 9 greedySwitch = 2147483647 + 8 ∧ reserved release 9 greedySwitch = 2147483647 + 8 ∧
    Rejects debug greedySwitch ⟨"Unexpected end of stream reading u4 at index 16", ["bytecode", "Code attribute 0", "class method 0"]⟩ :=
  ⟨by decide +kernel, by decide +kernel, by decide +kernel, rejects_of (d := 9) (by decide +kernel)⟩

/-- The counts for an accepted input, which meets the hypothesis of `C74_accepted`, and for one of the rejected inputs. -/
theorem C74_cases : Accepts debug rich richCf ∧ reserved debug 9 rich = 64 ∧ rich.length = 478 ∧ reserved debug 9 (greedyFile 2) = 131075 ∧ (greedyFile 2).length = 64 :=
  ⟨rich_accepted, by decide +kernel, by decide +kernel, by decide +kernel, by decide +kernel⟩

end Cafebabe
