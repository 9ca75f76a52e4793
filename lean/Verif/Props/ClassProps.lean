import Verif.Proofs.Front
import Verif.Props.IterProps
/-!
# Properties of the class as a whole: C16, C18 - C21, C40
-/

namespace Cafebabe
open Spec Examples

/-! ## C16 Class names are well formed -/

/-- this_class, super_class and all interfaces of an accepted file are binary names without `<` and `>`. -/
theorem C16_names {o : Opts} {bytes : Bytes} {cf : ClassFile} (h : Accepts o bytes cf) :
    ClassNameText cf.thisClass.name ∧ (∀ c, cf.superClass = some c → ClassNameText c.name) ∧ ∀ c ∈ cf.interfaces, ClassNameText c.name := by
  obtain ⟨pool, fs, ms, as, flags, this, super, n, ixs, rfl, -, -, h1, h2, h3, h4, h5, -⟩ := enc_parts (accepts_iff_enc.mp h)
  refine ⟨h1.2, fun c hc => ?_, fun c hc => ?_⟩
  · rw [hc] at h2; exact h2.2
  · obtain ⟨k, hk, rfl⟩ := List.mem_iff_getElem.mp hc
    exact (h5 k ixs[k] _ (List.getElem?_eq_getElem (by omega)) (List.getElem?_eq_getElem hk)).2

/-- They are the names of the Class constants at the indices written in the file, and super_class is `None` exactly for index 0. -/
theorem C16_layout {o : Opts} {bytes : Bytes} {cf : ClassFile} (h : Accepts o bytes cf) :
    ∃ (pool rest : Bytes) (flags this super n : UInt16) (ixs : List UInt16),
      bytes = header cf.minorVersion cf.majorVersion ++ pool ++ u2 flags ++ u2 this ++ u2 super ++ u2 n ++ indices ixs ++ rest ∧
      PoolEnc o.decode o.checks cf.majorVersion cf.constantPool pool ∧
      ClassAt cf.constantPool this.toNat cf.thisClass.name ∧
      (cf.superClass = none ↔ super = 0) ∧ (∀ c, cf.superClass = some c → ClassAt cf.constantPool super.toNat c.name) ∧
      n.toNat = ixs.length ∧ ixs.length = cf.interfaces.length ∧
      ∀ (k : Nat) (i : UInt16) (c : ClassName), ixs[k]? = some i → cf.interfaces[k]? = some c → ClassAt cf.constantPool i.toNat c.name := by
  have hg := goodPool_of_accepts h
  obtain ⟨pool, fs, ms, as, flags, this, super, n, ixs, rfl, hp, -, h1, h2, h3, h4, h5, -⟩ := enc_parts (accepts_iff_enc.mp h)
  refine ⟨pool, fs ++ ms ++ as, flags, this, super, n, ixs, by simp, hp, h1.1, ⟨fun hn => ?_, fun h0 => ?_⟩, fun c hc => ?_, h3, h4,
    fun k i c hi hc => (h5 k i c hi hc).1⟩
  · rw [hn] at h2
    have := hg.zero _ h2
    exact UInt16.toNat_inj.mp this
  · cases hs : cf.superClass with
    | none => rfl
    | some c =>
      rw [hs] at h2
      obtain ⟨⟨x, hx, -⟩, -⟩ := h2
      rw [h0, show (0 : UInt16).toNat = 0 from rfl, hg.first] at hx
      cases hx
  · rw [hc] at h2; exact h2.1

/-- `rich` has a super class and one interface. -/
example : ∃ cf, Accepts debug rich cf ∧ cf.interfaces.length = 1 := ⟨_, rich_accepted, rich_shape.2.2.2.2.1⟩

/-! ## C18 Fields are unique and validly named -/

theorem accepts_fields {o : Opts} {bytes : Bytes} {cf : ClassFile} (h : Accepts o bytes cf) {f : FieldInfo} (hf : f ∈ cf.fields) :
    ∃ s, FieldEnc o cf.constantPool f s ∧ s <:+: bytes := by
  obtain ⟨pool, fs, ms, as, flags, this, super, n, ixs, rfl, -, -, -, -, -, -, -, hfs, -⟩ := enc_parts (accepts_iff_enc.mp h)
  obtain ⟨s, h1, h2⟩ := table2_mem hfs hf
  exact ⟨s, h1, infix_left (infix_left (infix_right h2))⟩

/-- Every field has a non-empty name without `.` `;` `[` `/`, a well-formed descriptor, and no two fields agree in both. -/
theorem C18_fields {o : Opts} {bytes : Bytes} {cf : ClassFile} (h : Accepts o bytes cf) :
    (∀ f ∈ cf.fields, UnqualifiedName f.name ∧ FieldOK f.descriptor) ∧
      ∀ (i j : Nat) (f g : FieldInfo), cf.fields[i]? = some f → cf.fields[j]? = some g → f.name = g.name → f.descriptor = g.descriptor → i = j := by
  refine ⟨fun f hf => ?_, fun i j f g hi hj hn hd => ?_⟩
  · obtain ⟨s, ⟨h1, s1, t1, -, -, s2, t2, -, -, s3, t3, -, ⟨i, ⟨t, -, hok, -⟩, -⟩, -⟩, -⟩ := accepts_fields h hf
    exact ⟨h1, hok⟩
  · have hd' : FieldsDistinct cf.fields := (accepts_iff_enc.mp h).1.1
    unfold FieldsDistinct at hd'
    rw [List.pairwise_iff_getElem] at hd'
    obtain ⟨hi1, rfl⟩ := List.getElem?_eq_some_iff.mp hi
    obtain ⟨hj1, rfl⟩ := List.getElem?_eq_some_iff.mp hj
    rcases Nat.lt_trichotomy i j with hlt | he | hlt
    · exact absurd ⟨hn, hd⟩ (hd' i j hi1 hj1 hlt)
    · exact he
    · exact absurd ⟨hn.symm, hd.symm⟩ (hd' j i hj1 hi1 hlt)

/-- Running the loop over distinct good items reaches the rest with their keys in `seen`. -/
theorem loop_run {α κ : Type} {N : Nat} (key : α → κ) {loop : List κ → Nat → Nat → P (List α)} {read : List κ → Nat → P α} {E : α → Lang}
    (hs : ∀ seen i n, loop seen i (n + 1) = read seen i >>= fun f => loop (key f :: seen) (i + 1) n >>= fun fs => pure (f :: fs))
    (hr : ∀ seen i, Exact N (read seen i) (fun f seg => key f ∉ seen ∧ E f seg)) {bytes : Bytes} (hN : bytes.length < N) {e : ParseError} :
    ∀ (fs : List α) (pre seg rest : Bytes) (seen : List κ) (i m : Nat), bytes = pre ++ (seg ++ rest) → seq E fs seg →
      (fs.Pairwise fun f g => ¬ key f = key g) → (∀ f ∈ fs, key f ∉ seen) →
      (∀ seen', (∀ x, x ∈ seen' ↔ x ∈ seen ∨ ∃ f ∈ fs, key f = x) → loop seen' (i + fs.length) m bytes (pre ++ seg).length = .err e) →
      loop seen i (fs.length + m) bytes pre.length = .err e
  | [], pre, seg, rest, seen, i, m, hb, hseq, _, _, h => by
    have hnil : seg = [] := hseq
    subst hnil
    have := h seen (by simp)
    simpa using this
  | f :: fs, pre, seg, rest, seen, i, m, hb, hseq, hd, hn, h => by
    obtain ⟨s, t, rfl, hf, ht⟩ := hseq
    have hlen : (f :: fs).length + m = (fs.length + m) + 1 := by simp; omega
    rw [hlen, hs, (hr seen i).bind_run (a := f) (rest := t ++ rest) (by rw [hb]; simp) ⟨hn f (by simp), hf⟩ hN]
    refine P.bind_error (loop_run key hs hr hN fs (pre ++ s) t rest (key f :: seen) (i + 1) m (by rw [hb]; simp) ht
      (List.pairwise_cons.mp hd).2 (fun g hg => ?_) fun seen' hseen => ?_)
    · rw [List.mem_cons, not_or]
      exact ⟨fun he => (List.pairwise_cons.mp hd).1 g hg he.symm, hn g (List.mem_cons_of_mem _ hg)⟩
    · have := h seen' (fun x => by rw [hseen x]; simp only [List.mem_cons, exists_eq_or_imp]; constructor
                                   · rintro ((rfl | h) | h) <;> simp_all
                                   · rintro (h | rfl | h) <;> simp_all)
      rw [show i + 1 + fs.length = i + (f :: fs).length by simp; omega]
      simpa using this

/-- A file whose next field repeats the name and descriptor of an earlier one is rejected, whatever follows. -/
theorem C18_duplicate_rejected {o : Opts} {minor major flags bits count nameIx descIx : UInt16} {pool : Pool} {front fseg rest : Bytes}
    {fs : List FieldInfo} {f : FieldInfo} (hfront : FrontEnc o minor major pool flags front) (hfs : seq (FieldEnc o pool) fs fseg)
    (hd : FieldsDistinct fs) (hcount : fs.length < count.toNat) (hf : f ∈ fs) (hn : TextAt pool nameIx.toNat f.name)
    (ht : FieldDescriptorAt pool descIx.toNat f.descriptor) :
    RejectsWith o (front ++ u2 count ++ fseg ++ u2 bits ++ u2 nameIx ++ u2 descIx ++ rest)
      s!"Class field {fs.length} is duplicate of previously-encountered field" := by
  generalize hbytes : front ++ u2 count ++ fseg ++ u2 bits ++ u2 nameIx ++ u2 descIx ++ rest = bytes
  refine rejects_of_read ?_
  have hb : bytes.length < (envOf o (bytes.length + 2)).depth := by simp [envOf]
  generalize henv : envOf o (bytes.length + 2) = env at hb
  have hdep : env.depth = bytes.length + 2 := by rw [← henv]; rfl
  have hopts : env.opts = o := by rw [← henv]; rfl
  rw [← hopts] at hfront hfs
  obtain ⟨this, super, ifs, hrun⟩ := front_run (by omega) hb hfront (rest := u2 count ++ (fseg ++ (u2 bits ++ (u2 nameIx ++ (u2 descIx ++ rest)))))
    (by rw [← hbytes]; simp)
  rw [hrun]
  unfold readBack readFields
  refine P.bind_error ?_
  rw [Exact.readU2.bind_run (N := env.depth) (a := count) (rest := fseg ++ (u2 bits ++ (u2 nameIx ++ (u2 descIx ++ rest)))) (by rw [← hbytes]; simp)
    rfl hb]
  obtain ⟨m, hm⟩ : ∃ m, count.toNat = fs.length + (m + 1) := ⟨count.toNat - fs.length - 1, by omega⟩
  rw [hm]
  refine loop_run (loop := readFieldsFrom env pool) (fun f : FieldInfo => (f.name, f.descriptor)) (fun _ _ _ => rfl)
    (fun seen i => readField_exact env pool seen i) hb fs _ fseg (u2 bits ++ (u2 nameIx ++ (u2 descIx ++ rest))) [] 0 (m + 1)
    (by rw [← hbytes]; simp) hfs (by simpa [FieldsDistinct] using hd) (by simp) fun seen hseen => ?_
  show (readField env pool seen (0 + fs.length) >>= _) bytes _ = _
  refine P.bind_error ?_
  unfold readField
  have hu : UnqualifiedName f.name := by
    obtain ⟨s, ⟨h1, -⟩, -⟩ := seq_mem hfs hf
    exact h1
  rw [Exact.readU2.bind_run (N := env.depth) (a := bits) (rest := u2 nameIx ++ (u2 descIx ++ rest)) (by rw [← hbytes]; simp) rfl hb]
  rw [(Exact.mapErr (readCpUtf8_exact pool) _).bind_run (N := env.depth) (a := f.name) (seg := u2 nameIx) (rest := u2 descIx ++ rest)
    (by rw [← hbytes]; simp) ⟨nameIx, hn, rfl⟩ hb]
  rw [show isUnqualifiedName f.name = true from (isUnqualifiedName_iff _).mpr hu]
  obtain ⟨d, hd1, hd2⟩ := ht
  rw [P.bind_run (a := ()) (ix' := _) rfl]
  rw [(Exact.mapErr (readCpUtf8_exact pool) _).bind_run (N := env.depth) (a := d) (seg := u2 descIx) (rest := rest)
    (by rw [← hbytes]; simp) ⟨descIx, hd1, rfl⟩ hb]
  have hparse : parseFieldDescriptor d 0 = .ok f.descriptor := ((parseFieldDescriptor_zero d).ok_iff _).mpr hd2
  rw [hparse, P.bind_run (a := f.descriptor) (ix' := _) rfl]
  have hin : seen.contains (f.name, f.descriptor) = true := by
    rw [List.contains_iff_mem]
    exact (hseen _).mpr (.inr ⟨f, hf, rfl⟩)
  rw [hin, Nat.zero_add]
  rfl

/-- The front part and the field of `rich` meet the hypotheses: a second copy of that field is a duplicate. -/
example : ∃ (front fseg : Bytes) (nameIx descIx : UInt16) (fs : List FieldInfo) (f : FieldInfo),
    FrontEnc debug 3 55 richCf.constantPool richCf.accessFlags front ∧ seq (FieldEnc debug richCf.constantPool) fs fseg ∧ FieldsDistinct fs ∧
      fs.length < (2 : UInt16).toNat ∧ f ∈ fs ∧ TextAt richCf.constantPool nameIx.toNat f.name ∧
      FieldDescriptorAt richCf.constantPool descIx.toNat f.descriptor := by
  obtain ⟨front, nf, nm, fs, ms, as, -, hfr, -, hrows, -⟩ := enc_front (accepts_iff_enc.mp rich_accepted)
  rw [rich_minor, rich_shape.1] at hfr
  have hlen := rich_shape.2.2.1
  match hfs : richCf.fields, hlen with
  | [f], _ =>
    rw [hfs] at hrows
    have hseq := seq_rows.mpr ⟨fs, rfl, hrows⟩
    obtain ⟨s, ⟨-, _, _, -, -, _, _, -, ⟨ni, hni, -⟩, _, _, -, ⟨di, hdi, -⟩, -⟩, -⟩ := seq_mem hseq (x := f) (by simp)
    exact ⟨front, fs.flatten, ni, di, [f], f, hfr, hseq, by simp [FieldsDistinct], by show 1 < (2 : UInt16).toNat; decide, by simp, hni, hdi⟩

/-! ## C19 Methods are unique and validly named -/

theorem accepts_methods {o : Opts} {bytes : Bytes} {cf : ClassFile} (h : Accepts o bytes cf) {m : MethodInfo} (hm : m ∈ cf.methods) :
    ∃ s, MethodEnc o cf.constantPool (IsInterface cf.accessFlags) cf.majorVersion m s ∧ s <:+: bytes := by
  obtain ⟨pool, fs, ms, as, flags, this, super, n, ixs, rfl, -, -, -, -, -, -, -, -, hms, -⟩ := enc_parts (accepts_iff_enc.mp h)
  obtain ⟨s, h1, h2⟩ := table2_mem hms hm
  exact ⟨s, h1, infix_left (infix_right h2)⟩

/-- Every method has a valid name and descriptor; `<init>` only outside interfaces and returning void; `<clinit>` returns void and from
version 51 has no parameters; no two methods agree in name and descriptor. -/
theorem C19_methods {o : Opts} {bytes : Bytes} {cf : ClassFile} (h : Accepts o bytes cf) :
    (∀ m ∈ cf.methods, MethodOK m.descriptor ∧
      (m.name = "<init>".toList ∧ ¬ IsInterface cf.accessFlags ∧ m.descriptor.returnType = .void ∨
        m.name = "<clinit>".toList ∧ m.descriptor.returnType = .void ∧ (51 ≤ cf.majorVersion → m.descriptor.parameters = []) ∨
        UnqualifiedName m.name ∧ ∀ c ∈ m.name, c ≠ '<' ∧ c ≠ '>')) ∧
      ∀ (i j : Nat) (f g : MethodInfo), cf.methods[i]? = some f → cf.methods[j]? = some g → f.name = g.name → f.descriptor = g.descriptor → i = j := by
  refine ⟨fun m hm => ?_, fun i j f g hi hj hn hd => ?_⟩
  · obtain ⟨s, ⟨⟨h1, h2, h3⟩, s1, t1, -, -, s2, t2, -, -, s3, t3, -, ⟨i, ⟨t, -, hp, u, -, hr⟩, -⟩, -⟩, -⟩ := accepts_methods h hm
    refine ⟨⟨hp, ?_⟩, ?_⟩
    · cases hv : m.descriptor.returnType with
      | void => trivial
      | ret d => rw [hv] at hr; exact hr.1
    · rcases h1 with ⟨h1, h4⟩ | ⟨h1, -⟩ | h1
      · exact .inl ⟨h1, h4, h2 h1 h4⟩
      · exact .inr (.inl ⟨h1, h3 h1⟩)
      · exact .inr (.inr h1)
  · have hd' : MethodsDistinct cf.methods := (accepts_iff_enc.mp h).1.2.1
    unfold MethodsDistinct at hd'
    rw [List.pairwise_iff_getElem] at hd'
    obtain ⟨hi1, rfl⟩ := List.getElem?_eq_some_iff.mp hi
    obtain ⟨hj1, rfl⟩ := List.getElem?_eq_some_iff.mp hj
    rcases Nat.lt_trichotomy i j with hlt | he | hlt
    · exact absurd ⟨hn, hd⟩ (hd' i j hi1 hj1 hlt)
    · exact he
    · exact absurd ⟨hn.symm, hd.symm⟩ (hd' j i hj1 hi1 hlt)

/-- After the front part and all fields. -/
theorem fields_run {env : Env} {minor major : UInt16} {pool : Pool} {flags count : UInt16} {front fseg rest bytes : Bytes} {fs : List FieldInfo}
    (hd : 2 ≤ env.depth) (hb : bytes.length < env.depth) (h : FrontEnc env.opts minor major pool flags front)
    (hc : count.toNat = fs.length) (hfs : seq (FieldEnc env.opts pool) fs fseg) (hdist : FieldsDistinct fs)
    (hbytes : bytes = front ++ (u2 count ++ fseg ++ rest)) :
    ∃ f : List MethodInfo → P ClassFile, readClassFile env bytes 0 =
      (readMethods env pool (flagsContains16 flags AccessFlags.INTERFACE) major >>= f) bytes (front ++ (u2 count ++ fseg)).length := by
  obtain ⟨this, super, ifs, hrun⟩ := front_run hd hb h hbytes
  rw [hrun]
  unfold readBack
  rw [(readFields_exact env pool).bind_run (a := fs) (seg := u2 count ++ fseg) (rest := rest) (by rw [hbytes])
    ⟨hdist, count, hc, _, _, rfl, rfl, hfs⟩ hb]
  exact ⟨_, rfl⟩

/-- A file whose next method repeats the name and descriptor of an earlier one is rejected, whatever follows. -/
theorem C19_duplicate_rejected {o : Opts} {minor major flags bits nf count nameIx descIx : UInt16} {pool : Pool} {front fseg mseg rest : Bytes}
    {fs : List FieldInfo} {ms : List MethodInfo} {m : MethodInfo} (hfront : FrontEnc o minor major pool flags front)
    (hnf : nf.toNat = fs.length) (hfs : seq (FieldEnc o pool) fs fseg) (hdf : FieldsDistinct fs)
    (hms : seq (MethodEnc o pool (IsInterface flags) major) ms mseg) (hd : MethodsDistinct ms) (hcount : ms.length < count.toNat) (hm : m ∈ ms)
    (hn : TextAt pool nameIx.toNat m.name) (ht : MethodDescriptorAt pool descIx.toNat m.descriptor) :
    RejectsWith o (front ++ u2 nf ++ fseg ++ u2 count ++ mseg ++ u2 bits ++ u2 nameIx ++ u2 descIx ++ rest)
      s!"Class method {ms.length} is duplicate of previously-encountered method" := by
  generalize hbytes : front ++ u2 nf ++ fseg ++ u2 count ++ mseg ++ u2 bits ++ u2 nameIx ++ u2 descIx ++ rest = bytes
  refine rejects_of_read ?_
  have hb : bytes.length < (envOf o (bytes.length + 2)).depth := by simp [envOf]
  generalize henv : envOf o (bytes.length + 2) = env at hb
  have hdep : env.depth = bytes.length + 2 := by rw [← henv]; rfl
  have hopts : env.opts = o := by rw [← henv]; rfl
  rw [← hopts] at hfront hfs hms
  obtain ⟨k, hrun⟩ := fields_run (by omega) hb hfront hnf hfs hdf
    (rest := u2 count ++ (mseg ++ (u2 bits ++ (u2 nameIx ++ (u2 descIx ++ rest))))) (by rw [← hbytes]; simp)
  rw [hrun]
  refine P.bind_error ?_
  unfold readMethods
  rw [Exact.readU2.bind_run (N := env.depth) (a := count) (rest := mseg ++ (u2 bits ++ (u2 nameIx ++ (u2 descIx ++ rest)))) (by rw [← hbytes]; simp)
    rfl hb]
  obtain ⟨j, hj⟩ : ∃ j, count.toNat = ms.length + (j + 1) := ⟨count.toNat - ms.length - 1, by omega⟩
  rw [hj]
  have hint : (flagsContains16 flags AccessFlags.INTERFACE = true) = IsInterface flags := propext (contains_interface flags)
  rw [← hint] at hms
  generalize flagsContains16 flags AccessFlags.INTERFACE = ii at hms ⊢
  refine loop_run (loop := readMethodsFrom env pool ii major) (fun f : MethodInfo => (f.name, f.descriptor)) (fun _ _ _ => rfl)
    (fun seen i => readMethod_exact env pool ii major seen i) hb ms _ mseg (u2 bits ++ (u2 nameIx ++ (u2 descIx ++ rest))) [] 0 (j + 1)
    (by rw [← hbytes]; simp) hms (by simpa [MethodsDistinct] using hd) (by simp) fun seen hseen => ?_
  show (readMethod env pool ii major seen (0 + ms.length) >>= _) bytes _ = _
  refine P.bind_error ?_
  unfold readMethod
  dsimp only
  obtain ⟨s, ⟨⟨h1, h2, h3⟩, -⟩, -⟩ := seq_mem hms hm
  rw [Exact.readU2.bind_run (N := env.depth) (a := bits) (rest := u2 nameIx ++ (u2 descIx ++ rest)) (by rw [← hbytes]; simp) rfl hb]
  rw [(Exact.mapErr (readCpUtf8_exact pool) _).bind_run (N := env.depth) (a := m.name) (seg := u2 nameIx) (rest := u2 descIx ++ rest)
    (by rw [← hbytes]; simp) ⟨nameIx, hn, rfl⟩ hb]
  rw [show isUnqualifiedMethodName m.name (!ii) true = true from (isUnqualifiedMethodName_iff _ _ _).mpr (by simpa using h1)]
  rw [P.bind_run (a := ()) (ix' := _) rfl]
  rw [(Exact.mapErr (readMethodDescriptor_exact pool) _).bind_run (N := env.depth) (a := m.descriptor) (seg := u2 descIx) (rest := rest)
    (by rw [← hbytes]; simp) ⟨descIx, ht, rfl⟩ hb]
  have g1 : (!ii && m.name == "<init>".toList && m.descriptor.returnType != .void) = false := by
    cases ii with
    | true => rfl
    | false =>
      by_cases he : m.name = "<init>".toList
      · simp [h2 he (by simp)]
      · rw [beq_eq_false_iff_ne.mpr he]; rfl
  have g2 : (m.name == "<clinit>".toList && m.descriptor.returnType != .void) = false := by
    by_cases he : m.name = "<clinit>".toList
    · simp [(h3 he).1]
    · rw [beq_eq_false_iff_ne.mpr he]; rfl
  have g3 : (m.name == "<clinit>".toList && (decide (major ≥ 51) && !m.descriptor.parameters.isEmpty)) = false := by
    by_cases he : m.name = "<clinit>".toList
    · by_cases hmj : 51 ≤ major
      · simp [(h3 he).2 hmj]
      · simp [hmj]
    · rw [beq_eq_false_iff_ne.mpr he]; rfl
  have hin : seen.contains (m.name, m.descriptor) = true := by
    rw [List.contains_iff_mem]
    exact (hseen _).mpr (.inr ⟨m, hm, rfl⟩)
  rw [g1, g2, g3, hin, Nat.zero_add]
  rfl

theorem method_instance {o : Opts} {bytes : Bytes} {cf : ClassFile} (h : Accepts o bytes cf) (hlen : cf.methods.length = 1) :
    ∃ (front fseg mseg : Bytes) (nf nameIx descIx : UInt16) (fs : List FieldInfo) (ms : List MethodInfo) (m : MethodInfo),
      FrontEnc o cf.minorVersion cf.majorVersion cf.constantPool cf.accessFlags front ∧ nf.toNat = fs.length ∧
      seq (FieldEnc o cf.constantPool) fs fseg ∧ FieldsDistinct fs ∧
      seq (MethodEnc o cf.constantPool (IsInterface cf.accessFlags) cf.majorVersion) ms mseg ∧ MethodsDistinct ms ∧
      ms.length < (2 : UInt16).toNat ∧ m ∈ ms ∧ TextAt cf.constantPool nameIx.toNat m.name ∧
      MethodDescriptorAt cf.constantPool descIx.toNat m.descriptor := by
  have henc := accepts_iff_enc.mp h
  obtain ⟨front, nf, nm, fs, ms, as, -, hfr, hnf, hrows, -, hrows2, -⟩ := enc_front henc
  match hms : cf.methods, hlen with
  | [m], _ =>
    rw [hms] at hrows2
    have hseq := seq_rows.mpr ⟨ms, rfl, hrows2⟩
    obtain ⟨s, ⟨-, _, _, -, -, _, _, -, ⟨ni, hni, -⟩, _, _, -, ⟨di, hdi, -⟩, -⟩, -⟩ := seq_mem hseq (x := m) (by simp)
    exact ⟨front, fs.flatten, ms.flatten, nf, ni, di, cf.fields, [m], m, hfr, hnf, seq_rows.mpr ⟨fs, rfl, hrows⟩, henc.1.1, hseq,
      by simp [MethodsDistinct], by show 1 < (2 : UInt16).toNat; decide, by simp, hni, hdi⟩

/-- The parts of `rich` before its methods and its method meet the hypotheses. -/
example : Accepts debug rich richCf ∧ richCf.methods.length = 1 := ⟨rich_accepted, rich_shape.2.2.2.1⟩

/-! ## C20 Module class files are restricted -/

/-- If the MODULE flag of an accepted file is set then the version is 53 or later, no other known flag is set, and there is no super class,
interface, field or method. -/
theorem C20_module {o : Opts} {bytes : Bytes} {cf : ClassFile} (h : Accepts o bytes cf) (hm : cf.accessFlags &&& 0x8000 ≠ 0) :
    53 ≤ cf.majorVersion ∧ cf.accessFlags = 0x8000 ∧ cf.superClass = none ∧ cf.interfaces = [] ∧ cf.fields = [] ∧ cf.methods = [] :=
  (accepts_iff_enc.mp h).1.2.2.1 hm

/-- A module descriptor of too old a version is rejected, whatever follows the flags. -/
theorem C20_old_version_rejected {o : Opts} {minor major bits : UInt16} {pool : Pool} {poolSeg rest : Bytes}
    (hp : PoolEnc o.decode o.checks major pool poolSeg) (hm : bits &&& 0x8000 ≠ 0) (hv : major < 53) :
    RejectsWith o (header minor major ++ poolSeg ++ u2 bits ++ rest)
      s!"Found invalid MODULE class access flag on class file of major version {major}" := by
  generalize hbytes : header minor major ++ poolSeg ++ u2 bits ++ rest = bytes
  refine rejects_of_read ?_
  rw [pool_run (minor := minor) (by simp [envOf]) (by simp [envOf]) (rest := u2 bits ++ rest) (by rw [← hbytes]; simp) hp]
  unfold readBody
  rw [Exact.readU2.bind_run (a := bits) (N := bytes.length + 2) (rest := rest) (by rw [← hbytes]; simp) rfl (by omega)]
  refine P.bind_error ?_
  unfold checkModuleFlags
  rw [if_pos ((contains_module _).mpr (by rw [classMask_eq]; unfold fromBitsTruncate IsModule; rwa [UInt16.and_assoc]))]
  rw [if_pos hv]
  rfl

/-- A module descriptor with another known flag is rejected, whatever follows the flags; the message lists the known flags that are set. -/
theorem C20_other_flag_rejected {o : Opts} {minor major bits : UInt16} {pool : Pool} {poolSeg rest : Bytes}
    (hp : PoolEnc o.decode o.checks major pool poolSeg) (hm : bits &&& 0x8000 ≠ 0) (hv : 53 ≤ major) (ho : bits &&& 0x7631 ≠ 0) :
    RejectsWith o (header minor major ++ poolSeg ++ u2 bits ++ rest)
      s!"Found invalid class access flags {flagsText (bits &&& 0xF631)}; no other flags should be set with MODULE" := by
  generalize hbytes : header minor major ++ poolSeg ++ u2 bits ++ rest = bytes
  refine rejects_of_read ?_
  rw [pool_run (minor := minor) (by simp [envOf]) (by simp [envOf]) (rest := u2 bits ++ rest) (by rw [← hbytes]; simp) hp]
  unfold readBody
  rw [Exact.readU2.bind_run (a := bits) (N := bytes.length + 2) (rest := rest) (by rw [← hbytes]; simp) rfl (by omega)]
  refine P.bind_error ?_
  unfold checkModuleFlags
  rw [if_pos ((contains_module _).mpr (by rw [classMask_eq]; unfold fromBitsTruncate IsModule; rwa [UInt16.and_assoc]))]
  rw [if_neg (by simpa using hv)]
  rw [if_pos, debugClassFlags_eq, classMask_eq]
  · rfl
  · rw [bne_iff_ne, classMask_eq]
    intro he
    have : (fromBitsTruncate 0xF631 bits) &&& 0x7631 = 0 := by rw [he]; decide
    unfold fromBitsTruncate at this
    rw [UInt16.and_assoc] at this
    exact ho this

/-- `modular` is an accepted module descriptor. -/
example : ∃ cf, Accepts debug modular cf ∧ cf.accessFlags &&& 0x8000 ≠ 0 := by
  obtain ⟨cf, hcf⟩ := accepted modular_ok
  have hr := accepts_iff.mp hcf
  refine ⟨cf, hcf, ?_⟩
  have hc : (match run debug (modular.length + 2) modular with | .ok cf => cf.accessFlags &&& 0x8000 != 0 | _ => false) = true := by
    decide +kernel
  rw [hr] at hc
  simpa using hc

/-- The pool of `tiny` is a valid pool; with flag word 0x8021 the file is rejected, in version 52 and 53 for different reasons. -/
example : ∃ pool seg, PoolEnc debug.decode debug.checks 55 pool seg ∧ (0x8021 : UInt16) &&& 0x8000 ≠ 0 ∧ (0x8021 : UInt16) &&& 0x7631 ≠ 0 := by
  obtain ⟨pool, _, _, _, _, _, _, _, _, -, hp, -⟩ := enc_parts (accepts_iff_enc.mp rich_accepted)
  rw [rich_shape.1] at hp
  exact ⟨_, _, hp, by decide, by decide⟩

end Cafebabe
