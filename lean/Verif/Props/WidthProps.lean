import Verif.Proofs.Width
import Verif.Proofs.Front
import Verif.Props.CapacityProps
/-!
# C46: targets with a narrow `usize`
-/

namespace Cafebabe
open Spec Examples

theorem Narrow.run {α : Type} {w : Nat} {checks : Bool} {p q : P α} (h : Narrow w checks p q) {bytes : Bytes} {ix : Nat} {x : α × Nat}
    (hl : bytes.length < 2 ^ w) (hix : ix ≤ bytes.length) (hq : q bytes ix = .ok x) : p bytes ix = .ok x := by
  rcases h bytes ix hl hix with ⟨h1, -⟩ | ⟨-, ⟨e, h2⟩, -, -⟩
  · rw [h1, hq]
  · rw [h2] at hq; cases hq

/-- The index additions the other readers make cannot leave `usize` on a slice Rust can build (at most `isize::MAX` bytes): the 4-byte reader
and the reader of a Utf8 constant's bytes are the unbounded ones. -/
theorem C46_small_reads (w : Nat) (hw : 32 ≤ w) (checks : Bool) (bytes : Bytes) (hl : bytes.length < 2 ^ (w - 1)) (ix : Nat) (hix : ix ≤ bytes.length) :
    readU4W w checks bytes ix = readU4 bytes ix ∧
      ∀ (n : UInt16) (msg : String), takeBytesW w checks n.toNat msg bytes ix = takeBytes n.toNat msg bytes ix := by
  have hp : 2 ^ 31 ≤ 2 ^ (w - 1) := Nat.pow_le_pow_right (by omega) (by omega)
  have hp2 : 2 ^ w = 2 ^ (w - 1) + 2 ^ (w - 1) := by
    obtain ⟨v, rfl⟩ : ∃ v, w = v + 1 := ⟨w - 1, by omega⟩
    rw [Nat.add_sub_cancel, Nat.pow_succ]; omega
  have hadd : ∀ k, k < 65536 → addUsize w checks ix k = .ok (ix + k) := fun k hk => by
    unfold addUsize; rw [if_pos (by omega)]
  constructor
  · unfold readU4W readU4
    rw [hadd 4 (by omega), hadd 0 (by omega), hadd 1 (by omega), hadd 2 (by omega), hadd 3 (by omega)]
    rfl
  · intro n msg
    unfold takeBytesW takeBytes
    rw [hadd _ n.toNat_lt]
    rfl

/-- On every target, for every input Rust can build: the outcome is the one computed with unbounded indices, or some index plus a 4-byte
length exceeds `usize`, the input is rejected with unbounded indices and not accepted on the target; a build with overflow checks then
panics. -/
theorem C46_cases (w : Nat) (hw : 32 ≤ w) (o : Opts) (d : Nat) (bytes : Bytes) (hl : bytes.length < 2 ^ (w - 1)) :
    runOn w o d bytes = run o d bytes ∨ Wrapped w o.checks bytes (runOn w o d bytes) (run o d bytes) :=
  runOn_narrow hw o d bytes (Nat.lt_of_lt_of_le hl (Nat.pow_le_pow_right (by omega) (by omega)))

/-- If no index plus a 4-byte length can leave `usize`, the target makes no difference. -/
theorem C46_same (w : Nat) (o : Opts) (d : Nat) (bytes : Bytes) (hl : bytes.length + 2 ^ 32 ≤ 2 ^ w) : runOn w o d bytes = run o d bytes := by
  have hw : 32 ≤ w := by
    rcases Nat.lt_or_ge w 32 with h | h
    · have := Nat.pow_lt_pow_right (a := 2) (by omega) h; omega
    · exact h
  rcases runOn_narrow hw o d bytes (by omega) with h | ⟨h, -⟩
  · exact h
  · omega

/-- 64-bit targets: no input Rust can build makes a difference. -/
theorem C46_64_bit (o : Opts) (d : Nat) (bytes : Bytes) (hl : bytes.length < 2 ^ 63) : runOn 64 o d bytes = run o d bytes :=
  C46_same 64 o d bytes (by omega)

/-- Which files are accepted, and with what result, is the same on every target. -/
theorem C46_accepts (w : Nat) (hw : 32 ≤ w) (o : Opts) (bytes : Bytes) (hl : bytes.length < 2 ^ (w - 1)) (cf : ClassFile) :
    AcceptsOn w o bytes cf ↔ Accepts o bytes cf := by
  constructor <;> rintro ⟨d, h⟩ <;> refine ⟨d, ?_⟩ <;> rcases C46_cases w hw o d bytes hl with h1 | ⟨-, ⟨e, h2⟩, h3, -⟩
  · rw [← h1, h]
  · exact absurd h (h3 _)
  · rw [h1, h]
  · rw [h2] at h; cases h

/-! ## Files on which a narrow `usize` makes a difference -/

section
variable {w : Nat} {checks : Bool}

/-- The reader panics with `k`, or (`none`) returns an error. -/
def FailsAs {α : Type} (k : Option PanicKind) (r : Res α) : Prop :=
  match k with
  | some k => r = .panic k
  | none => ∃ e, r = .err e

theorem FailsAs.bind {α β : Type} {k : Option PanicKind} {p : P α} {f : α → P β} {bytes : Bytes} {ix : Nat} (h : FailsAs k (p bytes ix)) :
    FailsAs k ((p >>= f) bytes ix) := by
  show FailsAs k (P.bind p f bytes ix)
  unfold P.bind
  cases k with
  | some k => rw [show p bytes ix = .panic k from h]; rfl
  | none =>
    obtain ⟨e, he⟩ := h
    rw [he]
    exact ⟨e, rfl⟩

theorem FailsAs.mapErr {α : Type} {k : Option PanicKind} {p : P α} {bytes : Bytes} {ix : Nat} (h : FailsAs k (p bytes ix)) (c : String) :
    FailsAs k (p.mapErr c bytes ix) := by
  unfold P.mapErr
  cases k with
  | some k => rw [show p bytes ix = .panic k from h]; rfl
  | none =>
    obtain ⟨e, he⟩ := h
    rw [he]
    exact ⟨_, rfl⟩

theorem loop_panics {α : Type} {N : Nat} {f g : Nat → P α} {F : α → Lang} (hn : ∀ i, Narrow w checks (f i) (g i)) (hg : ∀ i, Exact N (g i) F)
    {bytes rest : Bytes} {k : Option PanicKind} (hN : bytes.length < N) (hl : bytes.length < 2 ^ w) : ∀ (as : List α) (s pre : Bytes) (i n : Nat),
    seq F as s → bytes = pre ++ (s ++ rest) → as.length < n → (∀ i, FailsAs k (f i bytes (pre ++ s).length)) →
      FailsAs k (P.forRangeFrom f i n bytes pre.length)
  | _, _, _, _, 0, _, _, h, _ => absurd h (Nat.not_lt_zero _)
  | [], _, pre, i, n + 1, rfl, _, _, hk => by
    unfold P.forRangeFrom
    rw [List.append_nil] at hk
    exact (hk i).bind
  | a :: as, _, pre, i, n + 1, ⟨s1, s2, rfl, h1, h2⟩, hb, hlen, hk => by
    unfold P.forRangeFrom
    have hr := (hn i).run (ix := pre.length) hl (by rw [hb]; simp) ((hg i).run (rest := s2 ++ rest) (by rw [hb]; simp) h1 hN)
    rw [P.bind_run hr]
    exact (loop_panics (rest := rest) hn hg hN hl as s2 (pre ++ s1) (i + 1) n h2 (by rw [hb]; simp) (by simpa using hlen)
      (fun i => by rw [List.append_assoc]; exact hk i)).bind

theorem readAttributeWithW_panics (hw : 32 ≤ w) {env : Env} {d : Nat} {rec : P (List AttributeInfo)} {pool : Pool} {bytes pre rest : Bytes}
    {i : UInt16} {n : UInt32} {name : Str} (hb : bytes = pre ++ (u2 i ++ u4 n) ++ rest) (hi : TextAt pool i.toNat name) (hnm : name ∉ predefinedNames)
    (hl : bytes.length < 2 ^ w) (hn : 2 ^ w ≤ pre.length + 6 + n.toNat) (j : Nat) :
    readAttributeWithW w env d rec pool j bytes pre.length = .panic (if env.overflowChecks then .overflow else .bounds) := by
  unfold readAttributeWithW
  rw [(Exact.mapErr (readCpUtf8_exact (N := bytes.length + 1) pool) _).bind_run (a := name) (seg := u2 i) (rest := u4 n ++ rest) (by rw [hb]; simp)
    ⟨i, hi, rfl⟩ (Nat.lt_succ_self _)]
  rw [(Exact.readU4 (N := bytes.length + 1)).bind_run (a := n) (seg := u4 n) (rest := rest) (by rw [hb]; simp) rfl (Nat.lt_succ_self _)]
  have hpl : (pre ++ u2 i ++ u4 n).length = pre.length + 6 := by simp [u2, u4]
  have hle : (pre ++ u2 i ++ u4 n).length ≤ bytes.length := by rw [hb]; simp
  rw [← hpl] at hn
  generalize (pre ++ u2 i ++ u4 n).length = ix at hn hle
  rcases addUsize_cases (checks := env.overflowChecks) hw (a := ix) (b := n.toNat) (by omega) n.toNat_lt with ⟨h, -⟩ | ⟨-, ⟨hc, h⟩ | ⟨hc, h, hlt⟩⟩
  · omega
  · show P.bind _ _ _ _ = _
    unfold P.bind checkEndW
    rw [h, hc]
    rfl
  · have hce : checkEndW w env.overflowChecks n.toNat bytes ix = .ok (ix + n.toNat - 2 ^ w, ix) := by
      unfold checkEndW; rw [h]
      show (if _ then _ else _) = _
      rw [if_neg (by omega)]
    rw [P.bind_run hce]
    show P.bind _ _ _ _ = _
    unfold P.bind
    rw [readAttributeDataW_wrap hw (by rw [(attrKindOf_iff name .other).mpr (.inr ⟨rfl, hnm⟩)]; rfl) (by omega) n.toNat_lt hn]

theorem readAttributeWithW_past {env : Env} {d : Nat} {rec : P (List AttributeInfo)} {pool : Pool} {bytes pre rest : Bytes}
    {i : UInt16} {n : UInt32} {name : Str} (hb : bytes = pre ++ (u2 i ++ u4 n) ++ rest) (hi : TextAt pool i.toNat name)
    (hl : bytes.length + 2 ^ 32 ≤ 2 ^ w) (hn : bytes.length < pre.length + 6 + n.toNat) (j : Nat) :
    ∃ e, readAttributeWithW w env d rec pool j bytes pre.length = .err e := by
  unfold readAttributeWithW
  rw [(Exact.mapErr (readCpUtf8_exact (N := bytes.length + 1) pool) _).bind_run (a := name) (seg := u2 i) (rest := u4 n ++ rest) (by rw [hb]; simp)
    ⟨i, hi, rfl⟩ (Nat.lt_succ_self _)]
  rw [(Exact.readU4 (N := bytes.length + 1)).bind_run (a := n) (seg := u4 n) (rest := rest) (by rw [hb]; simp) rfl (Nat.lt_succ_self _)]
  have hpl : (pre ++ u2 i ++ u4 n).length = pre.length + 6 := by simp [u2, u4]
  have hle : (pre ++ u2 i ++ u4 n).length ≤ bytes.length := by rw [hb]; simp
  rw [← hpl] at hn
  generalize (pre ++ u2 i ++ u4 n).length = ix at hn hle
  have hn' := n.toNat_lt
  have he : ∃ e, checkEndW w env.overflowChecks n.toNat bytes ix = .err e := by
    unfold checkEndW addUsize
    rw [if_pos (by omega)]
    refine ⟨ParseError.new s!"Unexpected end of stream reading attributes at index {ix}", ?_⟩
    show (if _ then _ else _) = _
    rw [if_pos (by omega)]
    rfl
  obtain ⟨e, he⟩ := he
  exact ⟨e, P.bind_error he⟩

theorem readClassFileW_eq (env : Env) : readClassFileW w env =
    (readHeader >>= fun v => readConstantPool env v.2 >>= fun pool => do
      let bits ← readU2
      let accessFlags := fromBitsTruncate classMask bits
      checkModuleFlags accessFlags v.2
      let thisClass ← (readClassName pool).mapErr "this_class"
      let superClass ← (readClassNameOpt pool).mapErr "super_class"
      let interfaces ← readInterfaces pool
      let fields ← readFieldsW w env pool
      let methods ← readMethodsW w env pool (flagsContains16 accessFlags AccessFlags.INTERFACE) v.2
      let attributes ← (readAttributesW w env pool env.depth).mapErr "class"
      checkAtEnd
      checkModuleEmpty accessFlags superClass interfaces fields methods
      P.lift (validateBootstrapMethods pool attributes)
      pure { majorVersion := v.2, minorVersion := v.1, constantPool := pool, accessFlags := accessFlags, thisClass := thisClass,
             superClass := superClass, interfaces := interfaces, fields := fields, methods := methods, attributes := attributes }) := by
  unfold readHeader
  simp only [P.bind_assoc']
  rfl

theorem frontW_panics (hw : 32 ≤ w) {env : Env} {minor major flags : UInt16} {pool : Pool} {front fs ms rest bytes : Bytes}
    {fields : List FieldInfo} {methods : List MethodInfo} {k : Option PanicKind} (hd : 2 ≤ env.depth)
    (hb : bytes.length < env.depth) (hl : bytes.length < 2 ^ w) (h : FrontEnc env.opts minor major pool flags front)
    (hF : FieldsDistinct fields) (hf : table2 (FieldEnc env.opts pool) fields fs) (hM : MethodsDistinct methods)
    (hm : table2 (MethodEnc env.opts pool (IsInterface flags) major) methods ms)
    (hbytes : bytes = front ++ (fs ++ (ms ++ rest)))
    (ha : FailsAs k (readAttributesW w env pool env.depth bytes (front ++ fs ++ ms).length)) :
    FailsAs k (readClassFileW w env bytes 0) := by
  obtain ⟨this, super, ifs, ⟨s1, t, rfl, rfl, s2, t, rfl, hp, s3, t, rfl, ⟨bits, hfl, rfl⟩, s4, t, rfl, ht, s5, s6, rfl, hs, hi⟩, hmod⟩ := h
  have hok : PoolOK major pool := by obtain ⟨raw, -, -, hok⟩ := hp; exact hok
  rw [readClassFileW_eq]
  rw [show (0 : Nat) = ([] : Bytes).length from rfl,
    readHeader_exact.bind_run (a := (minor, major)) (seg := header minor major) (rest := s2 ++ (u2 bits ++ (s4 ++ (s5 ++ s6)) ++ (fs ++ (ms ++ rest))))
      (by rw [hbytes]; simp) rfl (N := env.depth) hb]
  rw [(readConstantPool_exact (N := env.depth) env hd major).bind_run (rest := u2 bits ++ (s4 ++ (s5 ++ s6)) ++ (fs ++ (ms ++ rest)))
    (by rw [hbytes]; simp) hp hb]
  rw [Exact.readU2.bind_run (a := bits) (N := env.depth) (rest := s4 ++ (s5 ++ s6) ++ (fs ++ (ms ++ rest))) (by rw [hbytes]; simp) rfl hb]
  have hfl' : fromBitsTruncate classMask bits = flags := by rw [classMask_eq, hfl]; rfl
  simp only [hfl']
  have hcm := (checkModuleFlags_exact (N := env.depth) flags major).run (a := ()) (bytes := bytes) (seg := [])
    (pre := header minor major ++ s2 ++ u2 bits) (rest := s4 ++ (s5 ++ s6) ++ (fs ++ (ms ++ rest))) (by rw [hbytes]; simp) ⟨hmod, rfl⟩ hb
  rw [List.append_nil] at hcm
  rw [List.nil_append, P.bind_run hcm]
  rw [(Exact.mapErr (readClassName_exact (N := env.depth) hok) _).bind_run (a := this) (rest := s5 ++ s6 ++ (fs ++ (ms ++ rest))) (by rw [hbytes]; simp) ht hb]
  rw [(Exact.mapErr (readClassNameOpt_exact (N := env.depth) hok) _).bind_run (a := super) (rest := s6 ++ (fs ++ (ms ++ rest))) (by rw [hbytes]; simp) hs hb]
  unfold readInterfaces
  rw [(Exact.readTable2 fun i => Exact.mapErr (readClassName_exact (N := env.depth) hok) _).bind_run (a := ifs) (rest := fs ++ (ms ++ rest))
    (by rw [hbytes]; simp) hi hb]
  generalize hpre : header minor major ++ s2 ++ u2 bits ++ s4 ++ s5 ++ s6 = pre
  have hpre' : header minor major ++ (s2 ++ (u2 bits ++ (s4 ++ (s5 ++ s6)))) = pre := by rw [← hpre]; simp
  rw [hpre'] at ha hbytes
  have hle : pre.length ≤ bytes.length := by rw [hbytes]; simp
  have hle2 : (pre ++ fs).length ≤ bytes.length := by rw [hbytes]; simp
  rw [P.bind_run ((readFieldsW_narrow hw env pool).run hl hle ((readFields_exact env pool).run (rest := ms ++ rest) hbytes ⟨hF, hf⟩ hb))]
  rw [P.bind_run ((readMethodsW_narrow hw env pool _ major).run hl hle2
    ((readMethods_exact env pool (flagsContains16 flags AccessFlags.INTERFACE) major).run (a := methods) (seg := ms) (rest := rest)
      (by rw [hbytes]; simp) ⟨hM, by simp only [contains_interface]; exact hm⟩ hb))]
  exact (ha.mapErr _).bind

end

/-- Files on which a narrow target differs: after any well-formed class file up to a class attribute, an attribute with an unknown name whose
declared length `n` carries the index beyond `usize` makes the parser panic on that target (integer overflow with overflow checks, slice out
of range without), where a wider target returns an error. Any bytes may follow. -/
theorem C46_panics {w : Nat} (hw : 32 ≤ w) {o : Opts} {minor major flags count i : UInt16} {n : UInt32} {pool : Pool} {front fs ms s rest : Bytes}
    {fields : List FieldInfo} {methods : List MethodInfo} {as : List AttributeInfo} {name : Str}
    (hfr : FrontEnc o minor major pool flags front) (hF : FieldsDistinct fields) (hf : table2 (FieldEnc o pool) fields fs)
    (hM : MethodsDistinct methods) (hm : table2 (MethodEnc o pool (IsInterface flags) major) methods ms) (has : seq (AttrEnc o pool) as s)
    (hc : as.length < count.toNat) (hi : TextAt pool i.toNat name) (hnm : name ∉ predefinedNames) {pre : Bytes}
    (hpre : pre = front ++ fs ++ ms ++ (u2 count ++ s) ++ (u2 i ++ u4 n)) (hl : (pre ++ rest).length < 2 ^ (w - 1)) (hn : 2 ^ w ≤ pre.length + n.toNat) :
    PanicsOn w o (pre ++ rest) (if o.checks then .overflow else .bounds) ∧ ∃ e, Rejects o (pre ++ rest) e := by
  have hl' : (pre ++ rest).length < 2 ^ w := Nat.lt_of_lt_of_le hl (Nat.pow_le_pow_right (by omega) (by omega))
  have key : ∀ (v : Nat) (k : Option PanicKind), 32 ≤ v → (pre ++ rest).length < 2 ^ v →
      (∀ (env : Env) (d : Nat) (rec : P (List AttributeInfo)) (j : Nat), env.overflowChecks = o.checks →
        FailsAs k (readAttributeWithW v env d rec pool j (pre ++ rest) (front ++ fs ++ ms ++ u2 count ++ s).length)) →
      FailsAs k (runOn v o ((pre ++ rest).length + 2) (pre ++ rest)) := by
    intro v k hv hlv hr
    generalize hb : pre ++ rest = bytes at hlv hr
    generalize he : envOf o (bytes.length + 2) = env
    have hd : env.depth = bytes.length + 2 := by rw [← he]; rfl
    have ho : o = env.opts := by rw [← he]; rfl
    have hck : env.overflowChecks = o.checks := by rw [← he]; rfl
    have ha : FailsAs k (readAttributesW v env pool env.depth bytes (front ++ fs ++ ms).length) := by
      rw [hd]
      unfold readAttributesW readTable2
      rw [(Exact.readU2 (N := bytes.length + 1)).bind_run (a := count) (seg := u2 count) (rest := s ++ (u2 i ++ u4 n) ++ rest)
        (by rw [← hb, hpre]; simp) rfl (Nat.lt_succ_self _)]
      exact loop_panics (N := bytes.length + 1) (fun j => readAttributeWithW_narrow hv (readAttributesW_narrow hv env pool _))
        (fun j => readAttributeWith_exact (Nat.le_refl _) (readAttributes_exact env pool _) j) (Nat.lt_succ_self _) hlv as s _ 0 count.toNat
        (ho ▸ has) (rest := u2 i ++ u4 n ++ rest) (by rw [← hb, hpre]; simp) hc fun j => hr env _ _ j hck
    unfold runOn parseClassWithOptionsW
    have hfin := frontW_panics hv (by omega) (by omega) hlv (ho ▸ hfr) hF (ho ▸ hf) hM (ho ▸ hm)
      (rest := u2 count ++ s ++ (u2 i ++ u4 n) ++ rest) (by rw [← hb, hpre]; simp) ha
    show FailsAs k (readClassFileW v (envOf o _) bytes 0 >>= _)
    rw [he]
    cases k with
    | some k => rw [show readClassFileW v env bytes 0 = .panic k from hfin]; rfl
    | none =>
      obtain ⟨e, hfin⟩ := hfin
      rw [hfin]
      exact ⟨e, rfl⟩
  have hp6 : pre.length = (front ++ fs ++ ms ++ u2 count ++ s).length + 6 := by rw [hpre]; simp [u2, u4]; omega
  have hsplit : pre ++ rest = (front ++ fs ++ ms ++ u2 count ++ s) ++ (u2 i ++ u4 n) ++ rest := by rw [hpre]; simp
  refine ⟨⟨_, key w (some (if o.checks then .overflow else .bounds)) hw hl' fun env d rec j hck => ?_⟩, ?_⟩
  · rw [← hck]
    exact readAttributeWithW_panics hw hsplit hi hnm hl' (by omega) j
  · have hbig : (pre ++ rest).length + 2 ^ 32 ≤ 2 ^ (w + 33) := by
      have h1 : 2 ^ 32 ≤ 2 ^ w := Nat.pow_le_pow_right (by omega) hw
      have h2 : 2 ^ (w + 1) ≤ 2 ^ (w + 33) := Nat.pow_le_pow_right (by omega) (by omega)
      have h3 : 2 ^ (w + 1) = 2 ^ w + 2 ^ w := by rw [Nat.pow_succ]; omega
      omega
    obtain ⟨e, he⟩ := key (w + 33) none (by omega) (by omega) fun env d rec j hck =>
      readAttributeWithW_past hsplit hi hbig (by omega) j
    rw [C46_same _ _ _ _ hbig] at he
    exact ⟨e, _, he⟩

/-- Every accepted class file with some unknown attribute name in its pool can be turned into such a file: keep everything up to the class
attributes and declare one of that name, of a length that carries the index beyond `usize`. -/
theorem C46_after_every_class {w : Nat} (hw : 32 ≤ w) {o : Opts} {bytes : Bytes} {cf : ClassFile} (h : Accepts o bytes cf) {i : UInt16} {name : Str}
    (hi : TextAt cf.constantPool i.toNat name) (hnm : name ∉ predefinedNames) :
    ∃ pre attrs, bytes = pre ++ attrs ∧ ∀ (n : UInt32) (rest : Bytes), (pre ++ u2 1 ++ u2 i ++ u4 n ++ rest).length < 2 ^ (w - 1) →
      2 ^ w ≤ pre.length + 8 + n.toNat →
      PanicsOn w o (pre ++ u2 1 ++ u2 i ++ u4 n ++ rest) (if o.checks then .overflow else .bounds) ∧
        ∃ e, Rejects o (pre ++ u2 1 ++ u2 i ++ u4 n ++ rest) e := by
  obtain ⟨⟨hd1, hd2, hm, hbs⟩, s, t, rfl, rfl, s, t, rfl, rfl, s, t, rfl, rfl, pool, t, rfl, hp, s1, t, rfl, hf, s2, t, rfl, ht,
    s3, t, rfl, hsup, s4, t, rfl, hifs, sf, t, rfl, hfs, sm, as, rfl, hms, has⟩ := accepts_iff_enc.mp h
  have hfr : FrontEnc o cf.minorVersion cf.majorVersion cf.constantPool cf.accessFlags
      (header cf.minorVersion cf.majorVersion ++ (pool ++ (s1 ++ (s2 ++ (s3 ++ s4))))) :=
    ⟨_, _, _, ⟨_, _, rfl, rfl, _, _, rfl, hp, _, _, rfl, hf, _, _, rfl, ht, _, _, rfl, hsup, hifs⟩, fun h => ⟨(hm h).1, (hm h).2.1⟩⟩
  refine ⟨header cf.minorVersion cf.majorVersion ++ (pool ++ (s1 ++ (s2 ++ (s3 ++ s4)))) ++ sf ++ sm, as, by simp [header], fun n rest hl hn => ?_⟩
  generalize header cf.minorVersion cf.majorVersion ++ (pool ++ (s1 ++ (s2 ++ (s3 ++ s4)))) = front at hfr hl hn
  have he : front ++ sf ++ sm ++ u2 1 ++ u2 i ++ u4 n = front ++ sf ++ sm ++ (u2 1 ++ []) ++ (u2 i ++ u4 n) := by simp
  refine C46_panics hw (as := []) (s := []) (count := 1) hfr hd1 hfs hd2 hms rfl (by decide) hi hnm he hl ?_
  simp only [List.length_append] at hn ⊢
  have h1 : (u2 1).length = 2 := rfl
  have h2 : (u2 i).length = 2 := rfl
  have h3 : (u4 n).length = 4 := rfl
  omega

/-- A 44-byte file for 32-bit targets: `tiny`, with a class attribute named "A" of length 0xFFFFFFFF and no content. -/
def wrapping : Bytes :=
  header 0 52 ++ u2 5 ++ text "A" ++ [7, 0, 1] ++ text "B" ++ [7, 0, 3] ++ [0, 0x21, 0, 2, 0, 4, 0, 0, 0, 0, 0, 0, 0, 1, 0, 1, 0xff, 0xff, 0xff, 0xff]

/-- It panics there in both build modes, and is rejected on 64-bit targets. -/
theorem C46_witness (parse : Bool) : wrapping.length = 44 ∧ PanicsOn 32 (opts true parse) wrapping .overflow ∧
    PanicsOn 32 (opts false parse) wrapping .bounds ∧ ∀ checks, ∃ e, Rejects (opts checks parse) wrapping e := by
  have hp : ∀ (o : Opts) (k : PanicKind), panicOf (runOn 32 o 3 wrapping) = some k → PanicsOn 32 o wrapping k := fun o k h => by
    refine ⟨3, ?_⟩
    cases hr : runOn 32 o 3 wrapping with
    | panic k' => rw [hr] at h; cases h; rfl
    | ok _ => rw [hr] at h; cases h
    | err _ => rw [hr] at h; cases h
    | diverge => rw [hr] at h; cases h
  refine ⟨rfl, hp _ _ ?_, hp _ _ ?_, fun checks => rejected (d := 3) ?_⟩
  · cases parse <;> decide +kernel
  · cases parse <;> decide +kernel
  · cases checks <;> cases parse <;> decide +kernel

/-- `tiny` meets the hypotheses of `C46_after_every_class`. -/
example : ∃ cf, Accepts debug tiny cf ∧ TextAt cf.constantPool 1 "A".toList ∧ "A".toList ∉ predefinedNames := by
  have h : (match run debug 3 tiny with | .ok cf => cf.constantPool[1]? == some (Entry.utf8 "A".toList) | _ => false) = true := by decide +kernel
  cases hr : run debug 3 tiny with
  | ok cf =>
    rw [hr] at h
    exact ⟨cf, ⟨3, hr⟩, (by simpa using h : cf.constantPool[1]? = _), by decide +kernel⟩
  | err _ => rw [hr] at h; cases h
  | panic _ => rw [hr] at h; cases h
  | diverge => rw [hr] at h; cases h

/-- On 32-bit targets the memory requested for a switch (see C44) can exceed `isize::MAX` bytes even at four bytes per entry, which makes
`Vec::with_capacity` panic; on 64-bit targets it cannot, even at eight bytes per entry. -/
theorem C46_capacity (checks : Bool) (pool : Pool) :
    (∃ (code : Bytes) (n : Nat), code.length = 16 ∧ n ∈ capacities checks code pool ∧ 2 ^ 31 - 1 < n * 4) ∧
      ∀ (code : Bytes) (n : Nat), n ∈ capacities checks code pool → n * 8 ≤ 2 ^ 63 - 1 := by
  constructor
  · obtain ⟨code, h1, h2, -⟩ := C44_tableswitch checks pool 2147483647 (by omega) (by omega)
    exact ⟨code, 2147483647, h1, by rw [h2]; simp, by omega⟩
  · intro code n h
    have := C44_bound checks pool code n h
    omega

end Cafebabe
