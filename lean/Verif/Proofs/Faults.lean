import Verif.Proofs.FaultsBase
import Std.Data.String.ToNat
/-!
# Proofs: the place named by an error is the first that is wrong
-/

namespace Cafebabe
open Spec

theorem noneOf_u2 (s : Bytes) : NoneOf (fun v : UInt16 => lit (u2 v)) s ↔ s.length < 2 := by
  constructor
  · intro h
    match s with
    | [] => decide
    | [_] => simp
    | a :: b :: t =>
      exact absurd (u2_of_bytes a b).symm (h _ [a, b] t rfl)
  · rintro h v _ rest rfl rfl
    simp [u2_length] at h
    omega

theorem blames_u2 {N : Nat} : Blames N readU2 (fun q s => q = .plain ∧ s.length < 2) :=
  (Blames.bare Bare.readU2 (Errs.calm (Tame.readU2 (A := fun _ => False)) (Nat.le_refl N) Exact.readU2)).congr fun q s => by
    rw [← noneOf_u2]

theorem utf8_errs {N : Nat} (pool : Pool) : Errs N (readCpUtf8 pool) (NoneOf fun n => ref fun i => TextAt pool i n) :=
  Errs.calm (readCpUtf8_tame (N := N)) (Nat.le_refl _) (readCpUtf8_exact pool)

section
variable {major : UInt16} {pool : Pool} (hok : PoolOK major pool)
include hok

theorem attrs_errs (env : Env) : Errs env.depth (readAttributes env pool env.depth) (AttrsFault env.opts pool) :=
  Errs.broken (A := fun _ => True) (readAttributes_tame hok (fun _ _ => trivial) (fun _ _ => trivial) env.depth) (readAttributes_exact env pool env.depth)
    (attributes_breaks hok env env.depth)

theorem field_blames (env : Env) (fs : List FieldInfo) :
    Blames env.depth (readField env pool (fs.map fun f => (f.name, f.descriptor)).reverse fs.length) (FieldFault env.opts pool fs) := by
  unfold readField
  refine (Blames.bind blames_u2 Exact.readU2 fun bits => Blames.bind (Blames.ctx (.fieldName fs.length) rfl (utf8_errs pool))
    ((readCpUtf8_exact pool).mapErr _) fun name => Blames.failIf fun _ => Blames.bind (Blames.ctx (.fieldDescriptor fs.length) rfl (utf8_errs pool))
    ((readCpUtf8_exact pool).mapErr _) fun d => Blames.bind (Blames.bare (Bare.lift (BareR.parseFieldDescriptor d 0)) (Errs.lift _)) (Exact.lift _) fun desc =>
    Blames.failIf fun _ => Blames.first (Blames.ctx (.field fs.length) rfl (attrs_errs hok env)) fun _ _ _ _ h => by cases h).congr fun q s => ?_
  constructor
  · rintro (⟨rfl, h⟩ | ⟨bits, s1, t1, rfl, rfl, ⟨rfl, h⟩ | ⟨name, s2, t2, rfl, ⟨i, hi, rfl⟩, ⟨hn, rfl⟩ | ⟨hn, ⟨rfl, h⟩ | ⟨d, s3, t3, rfl, ⟨j, hj, rfl⟩,
      ⟨rfl, e, he⟩ | ⟨desc, s4, t4, rfl, ⟨hp, rfl⟩, ⟨hs, rfl⟩ | ⟨hs, rfl, h⟩⟩⟩⟩⟩⟩)
    · exact .flags h
    · exact .name h
    · refine .badName hi fun hu => ?_
      rw [not_isUnqualified.mpr hu] at hn
      cases hn
    · exact .descriptor hi (not_isUnqualified.mp hn) h
    · refine .badDescriptor hi (not_isUnqualified.mp hn) hj ?_
      rintro fd ⟨d', hd', hp⟩
      have := hj.symm.trans hd'
      simp only [Option.some.injEq, Entry.utf8.injEq] at this
      subst this
      rw [((parseFieldDescriptor_zero d).ok_iff fd).mpr hp] at he
      cases he
    · refine .duplicate hi (not_isUnqualified.mp hn) ⟨d, hj, ((parseFieldDescriptor_zero d).ok_iff desc).mp hp⟩ ?_
      obtain ⟨f, hf, h⟩ : ∃ f ∈ fs, (f.name, f.descriptor) = (name, desc) := by simpa using hs
      exact ⟨f, hf, by simpa using h⟩
    · refine .attributes hi (not_isUnqualified.mp hn) ⟨d, hj, ((parseFieldDescriptor_zero d).ok_iff desc).mp hp⟩ ?_ h
      intro f hf he
      have : (fs.map fun f => (f.name, f.descriptor)).reverse.contains (name, desc) = true := by simpa using ⟨f, hf, he⟩
      rw [this] at hs
      cases hs
  · intro h
    cases h with
    | flags h => exact .inl ⟨rfl, h⟩
    | @name bits s h => exact .inr ⟨bits, _, _, rfl, rfl, .inl ⟨rfl, h⟩⟩
    | @badName bits i name s hi hn =>
      refine .inr ⟨bits, _, _, rfl, rfl, .inr ⟨name, _, _, rfl, ⟨i, hi, rfl⟩, .inl ⟨?_, rfl⟩⟩⟩
      cases hb : !isUnqualifiedName name with
      | true => rfl
      | false => exact absurd (not_isUnqualified.mp hb) hn
    | @descriptor bits i name s hi hn h =>
      exact .inr ⟨bits, _, _, rfl, rfl, .inr ⟨name, _, _, rfl, ⟨i, hi, rfl⟩, .inr ⟨not_isUnqualified.mpr hn, .inl ⟨rfl, h⟩⟩⟩⟩
    | @badDescriptor bits i j name d s hi hn hj h =>
      refine .inr ⟨bits, _, _, rfl, rfl, .inr ⟨name, _, _, rfl, ⟨i, hi, rfl⟩, .inr ⟨not_isUnqualified.mpr hn, .inr ⟨d, _, _, rfl, ⟨j, hj, rfl⟩,
        .inl ⟨rfl, ?_⟩⟩⟩⟩⟩
      rcases (parseFieldDescriptor_zero d).2 with ⟨fd, hfd⟩ | h
      · exact absurd ⟨d, hj, ((parseFieldDescriptor_zero d).ok_iff fd).mp hfd⟩ (h fd)
      · exact h
    | @duplicate bits i j name desc s hi hn hd h =>
      obtain ⟨d, hj, hp⟩ := hd
      obtain ⟨f, hf, h1, h2⟩ := h
      refine .inr ⟨bits, _, _, rfl, rfl, .inr ⟨name, _, _, rfl, ⟨i, hi, rfl⟩, .inr ⟨not_isUnqualified.mpr hn, .inr ⟨d, _, _, rfl, ⟨j, hj, rfl⟩,
        .inr ⟨desc, [], _, rfl, ⟨((parseFieldDescriptor_zero d).ok_iff desc).mpr hp, rfl⟩, .inl ⟨?_, rfl⟩⟩⟩⟩⟩⟩
      simpa using ⟨f, hf, h1, h2⟩
    | @attributes bits i j name desc s hi hn hd hno h =>
      obtain ⟨d, hj, hp⟩ := hd
      refine .inr ⟨bits, _, _, rfl, rfl, .inr ⟨name, _, _, rfl, ⟨i, hi, rfl⟩, .inr ⟨not_isUnqualified.mpr hn, .inr ⟨d, _, _, rfl, ⟨j, hj, rfl⟩,
        .inr ⟨desc, [], _, rfl, ⟨((parseFieldDescriptor_zero d).ok_iff desc).mpr hp, rfl⟩, .inr ⟨?_, rfl, h⟩⟩⟩⟩⟩⟩
      simpa using hno

theorem method_blames (env : Env) (inInterface : Bool) (mj : UInt16) (ms : List MethodInfo) :
    Blames env.depth (readMethod env pool inInterface mj (ms.map fun f => (f.name, f.descriptor)).reverse ms.length)
      (MethodFault env.opts pool (inInterface = true) mj ms) := by
  unfold readMethod
  have hname : ∀ name : Str, ((!isUnqualifiedMethodName name (!inInterface) true) = false ↔ MethodName (¬ inInterface = true) True name) := by
    intro name
    have := isUnqualifiedMethodName_iff name (!inInterface) true
    simpa using this
  have hspecial : ∀ (bits : UInt16) (name : Str) (d : MethodDescriptor),
      ((!inInterface && name == "<init>".toList && d.returnType != .void) = false ∧ (name == "<clinit>".toList && d.returnType != .void) = false ∧
        (name == "<clinit>".toList && (decide (mj ≥ 51) && !d.parameters.isEmpty)) = false) ↔
      SpecialMethodOK (inInterface = true) mj { accessFlags := bits, name := name, descriptor := d, attributes := [] } := by
    intro bits name d
    unfold SpecialMethodOK
    by_cases h1 : name = "<init>".toList <;> by_cases h2 : name = "<clinit>".toList <;> cases inInterface <;>
      by_cases h3 : d.returnType = .void <;> by_cases h4 : mj ≥ 51 <;> cases h5 : d.parameters <;>
      simp_all
  have hdesc : Errs env.depth (readMethodDescriptor pool) (NoneOf fun d => ref fun j => MethodDescriptorAt pool j d) :=
    Errs.calm (readMethodDescriptor_tame (N := env.depth) (A := fun _ => False)) (Nat.le_refl _) (readMethodDescriptor_exact pool)
  refine (Blames.bind blames_u2 Exact.readU2 fun bits => Blames.bind (Blames.ctx (.methodName ms.length) rfl (utf8_errs pool))
    ((readCpUtf8_exact pool).mapErr _) fun name => Blames.failIf fun _ => Blames.bind (Blames.ctx (.methodDescriptor ms.length) rfl hdesc)
    ((readMethodDescriptor_exact pool).mapErr _) fun desc => Blames.failIf fun _ => Blames.failIf fun _ => Blames.failIf fun _ =>
    Blames.failIf fun _ => Blames.first (Blames.ctx (.method ms.length) rfl (attrs_errs hok env)) fun _ _ _ _ h => by cases h).congr fun q s => ?_
  constructor
  · rintro (⟨rfl, h⟩ | ⟨bits, s1, t1, rfl, rfl, ⟨rfl, h⟩ | ⟨name, s2, t2, rfl, ⟨i, hi, rfl⟩, ⟨hn, rfl⟩ | ⟨hn, ⟨rfl, h⟩ | ⟨desc, s3, t3, rfl, ⟨j, hj, rfl⟩, h⟩⟩⟩⟩)
    · exact .flags h
    · exact .name h
    · refine .badName hi fun hu => ?_
      rw [(hname name).mpr hu] at hn
      cases hn
    · exact .descriptor hi ((hname name).mp hn) h
    · have hn' := (hname name).mp hn
      by_cases hsp : SpecialMethodOK (inInterface = true) mj { accessFlags := bits, name := name, descriptor := desc, attributes := [] }
      · obtain ⟨g1, g2, g3⟩ := (hspecial bits name desc).mpr hsp
        rcases h with ⟨h, -⟩ | ⟨-, ⟨h, -⟩ | ⟨-, ⟨h, -⟩ | ⟨-, ⟨hs, rfl⟩ | ⟨hs, rfl, h⟩⟩⟩⟩
        · rw [g1] at h; cases h
        · rw [g2] at h; cases h
        · rw [g3] at h; cases h
        · refine .duplicate hi hn' hj hsp ?_
          obtain ⟨f, hf, h⟩ : ∃ f ∈ ms, (f.name, f.descriptor) = (name, desc) := by simpa using hs
          exact ⟨f, hf, by simpa using h⟩
        · refine .attributes hi hn' hj hsp ?_ h
          intro f hf he
          have : (ms.map fun f => (f.name, f.descriptor)).reverse.contains (name, desc) = true := by simpa using ⟨f, hf, he⟩
          rw [this] at hs
          cases hs
      · have : q = .plain := by
          rcases h with ⟨-, h⟩ | ⟨g1, ⟨-, h⟩ | ⟨g2, ⟨-, h⟩ | ⟨g3, -⟩⟩⟩
          · exact h
          · exact h
          · exact h
          · exact absurd ((hspecial bits name desc).mp ⟨g1, g2, g3⟩) hsp
        subst this
        exact .special hi hn' hj hsp
  · intro h
    cases h with
    | flags h => exact .inl ⟨rfl, h⟩
    | @name bits s h => exact .inr ⟨bits, _, _, rfl, rfl, .inl ⟨rfl, h⟩⟩
    | @badName bits i name s hi hn =>
      refine .inr ⟨bits, _, _, rfl, rfl, .inr ⟨name, _, _, rfl, ⟨i, hi, rfl⟩, .inl ⟨?_, rfl⟩⟩⟩
      cases hb : !isUnqualifiedMethodName name (!inInterface) true with
      | true => rfl
      | false => exact absurd ((hname name).mp hb) hn
    | @descriptor bits i name s hi hn h =>
      exact .inr ⟨bits, _, _, rfl, rfl, .inr ⟨name, _, _, rfl, ⟨i, hi, rfl⟩, .inr ⟨(hname name).mpr hn, .inl ⟨rfl, h⟩⟩⟩⟩
    | @special bits i j name desc s hi hn hj hsp =>
      refine .inr ⟨bits, _, _, rfl, rfl, .inr ⟨name, _, _, rfl, ⟨i, hi, rfl⟩, .inr ⟨(hname name).mpr hn, .inr ⟨desc, _, _, rfl, ⟨j, hj, rfl⟩, ?_⟩⟩⟩⟩
      have := mt (hspecial bits name desc).mp hsp
      by_cases g1 : (!inInterface && name == "<init>".toList && desc.returnType != .void) = true
      · exact .inl ⟨g1, rfl⟩
      · refine .inr ⟨by simpa using g1, ?_⟩
        by_cases g2 : (name == "<clinit>".toList && desc.returnType != .void) = true
        · exact .inl ⟨g2, rfl⟩
        · refine .inr ⟨by simpa using g2, .inl ⟨?_, rfl⟩⟩
          by_cases g3 : (name == "<clinit>".toList && (decide (mj ≥ 51) && !desc.parameters.isEmpty)) = true
          · exact g3
          · exact absurd ⟨Bool.eq_false_iff.mpr g1, Bool.eq_false_iff.mpr g2, Bool.eq_false_iff.mpr g3⟩ this
    | @duplicate bits i j name desc s hi hn hj hsp h =>
      obtain ⟨g1, g2, g3⟩ := (hspecial bits name desc).mpr hsp
      obtain ⟨f, hf, h1, h2⟩ := h
      refine .inr ⟨bits, _, _, rfl, rfl, .inr ⟨name, _, _, rfl, ⟨i, hi, rfl⟩, .inr ⟨(hname name).mpr hn, .inr ⟨desc, _, _, rfl, ⟨j, hj, rfl⟩,
        .inr ⟨g1, .inr ⟨g2, .inr ⟨g3, .inl ⟨?_, rfl⟩⟩⟩⟩⟩⟩⟩⟩
      simpa using ⟨f, hf, h1, h2⟩
    | @attributes bits i j name desc s hi hn hj hsp hno h =>
      obtain ⟨g1, g2, g3⟩ := (hspecial bits name desc).mpr hsp
      refine .inr ⟨bits, _, _, rfl, rfl, .inr ⟨name, _, _, rfl, ⟨i, hi, rfl⟩, .inr ⟨(hname name).mpr hn, .inr ⟨desc, _, _, rfl, ⟨j, hj, rfl⟩,
        .inr ⟨g1, .inr ⟨g2, .inr ⟨g3, .inr ⟨?_, rfl, h⟩⟩⟩⟩⟩⟩⟩⟩
      simpa using hno

theorem fields_blames (env : Env) : Blames env.depth (readFields env pool) (fun q s => (q = .plain ∧ s.length < 2) ∨
    ∃ (count : UInt16) (fs : List FieldInfo) (before t : Bytes), s = u2 count ++ (before ++ t) ∧ fs.length < count.toNat ∧ FieldsDistinct fs ∧
      seq (FieldEnc env.opts pool) fs before ∧ FieldFault env.opts pool fs q t) := by
  unfold readFields
  refine (Blames.bind blames_u2 Exact.readU2 fun c => blames_distinct (fun f : FieldInfo => (f.name, f.descriptor))
    (fun _ _ => rfl) (fun _ _ _ => rfl) (fun seen i => readField_exact env pool seen i) (fun pre => field_blames hok env pre) c.toNat []).congr
    fun q s => or_congr_right ?_
  constructor
  · rintro ⟨c, s1, t1, rfl, rfl, fs, s2, t2, rfl, hl, hp, -, hq, h⟩
    exact ⟨c, fs, s2, t2, rfl, hl, by simpa [FieldsDistinct, Prod.mk.injEq] using hp, hq, h⟩
  · rintro ⟨c, fs, s2, t2, rfl, hl, hp, hq, h⟩
    exact ⟨c, _, _, rfl, rfl, fs, s2, t2, rfl, hl, by simpa [FieldsDistinct, Prod.mk.injEq] using hp, by simp, hq, h⟩

theorem methods_blames (env : Env) (inInterface : Bool) (mj : UInt16) : Blames env.depth (readMethods env pool inInterface mj) (fun q s =>
    (q = .plain ∧ s.length < 2) ∨
    ∃ (count : UInt16) (ms : List MethodInfo) (before t : Bytes), s = u2 count ++ (before ++ t) ∧ ms.length < count.toNat ∧ MethodsDistinct ms ∧
      seq (MethodEnc env.opts pool (inInterface = true) mj) ms before ∧ MethodFault env.opts pool (inInterface = true) mj ms q t) := by
  unfold readMethods
  refine (Blames.bind blames_u2 Exact.readU2 fun c => blames_distinct (fun f : MethodInfo => (f.name, f.descriptor))
    (fun _ _ => rfl) (fun _ _ _ => rfl) (fun seen i => readMethod_exact env pool inInterface mj seen i)
    (fun pre => method_blames hok env inInterface mj pre) c.toNat []).congr fun q s => or_congr_right ?_
  constructor
  · rintro ⟨c, s1, t1, rfl, rfl, fs, s2, t2, rfl, hl, hp, -, hq, h⟩
    exact ⟨c, fs, s2, t2, rfl, hl, by simpa [MethodsDistinct, Prod.mk.injEq] using hp, hq, h⟩
  · rintro ⟨c, fs, s2, t2, rfl, hl, hp, hq, h⟩
    exact ⟨c, _, _, rfl, rfl, fs, s2, t2, rfl, hl, by simpa [MethodsDistinct, Prod.mk.injEq] using hp, by simp, hq, h⟩

theorem interfaces_blames {N : Nat} : Blames N (readInterfaces pool) (fun q s => (q = .plain ∧ s.length < 2) ∨
    ∃ (count : UInt16) (ifs : List ClassName) (before t : Bytes), s = u2 count ++ (before ++ t) ∧ ifs.length < count.toNat ∧
      seq (fun c => ref fun i => ClassNameAt pool i c) ifs before ∧ q = .interface' ifs.length ∧ NoneOf (fun c => ref fun i => ClassNameAt pool i c) t) := by
  unfold readInterfaces readTable2
  have hE : Errs N (readClassName pool) (NoneOf fun c => ref fun i => ClassNameAt pool i c) :=
    Errs.calm (readClassName_tame (N := N) (A := fun _ => False) hok) (Nat.le_refl _) (readClassName_exact hok)
  refine (Blames.bind blames_u2 Exact.readU2 fun c => Blames.forRangeFrom (fun i => (readClassName_exact hok).mapErr _)
    (fun i => Blames.ctx (.interface' i) rfl hE) c.toNat 0).congr fun q s => or_congr_right ?_
  constructor
  · rintro ⟨c, s1, t1, rfl, rfl, ifs, hl, s2, t2, rfl, hq, rfl, h⟩
    exact ⟨c, ifs, s2, t2, rfl, hl, hq, by simp, h⟩
  · rintro ⟨c, ifs, s2, t2, rfl, hl, hq, rfl, h⟩
    exact ⟨c, _, _, rfl, rfl, ifs, hl, s2, t2, rfl, hq, by simp, h⟩

/-- What follows the constant pool, up to the interfaces. -/
theorem body_blames (env : Env) (minor : UInt16) : Blames env.depth (readBody env minor major pool) (fun q s => BodyFault env.opts major pool q s ∨
    ∃ (bits i j : UInt16) (this : ClassName) (super : Option ClassName) (ifs : List ClassName) (si t : Bytes),
      s = u2 bits ++ (u2 i ++ (u2 j ++ (si ++ t))) ∧ (IsModule (bits &&& 0xF631) → 53 ≤ major ∧ bits &&& 0xF631 = 0x8000) ∧
      ClassNameAt pool i.toNat this ∧ OptAt ClassNameAt pool j.toNat super ∧ table2 (fun c => ref fun i => ClassNameAt pool i c) ifs si ∧
      BackFault env.opts major pool (bits &&& 0xF631) super ifs q t) := by
  have hm : ∀ flags : UInt16, (flagsContains16 flags AccessFlags.INTERFACE = true) = IsInterface flags := fun flags =>
    propext (contains_interface flags)
  have hmask : ∀ bits : UInt16, fromBitsTruncate classMask bits = bits &&& 0xF631 := fun bits => by rw [classMask_eq]; rfl
  have hthis : Errs env.depth (readClassName pool) (NoneOf fun c => ref fun i => ClassNameAt pool i c) :=
    Errs.calm (readClassName_tame (A := fun _ => False) hok) (Nat.le_refl _) (readClassName_exact hok)
  have hsuper : Errs env.depth (readClassNameOpt pool) (NoneOf fun c => ref fun i => OptAt ClassNameAt pool i c) :=
    Errs.calm (readClassNameOpt_tame (A := fun _ => False) hok) (Nat.le_refl _) (readClassNameOpt_exact hok)
  have hXI : Exact env.depth (readInterfaces pool) (table2 fun c => ref fun i => ClassNameAt pool i c) :=
    Exact.readTable2 fun i => Exact.mapErr (readClassName_exact hok) _
  have hflags : ∀ fl : UInt16, Blames env.depth (checkModuleFlags fl major) (fun q _ => q = .plain ∧ IsModule fl ∧ ¬ (53 ≤ major ∧ fl = 0x8000)) := by
    intro fl
    refine (Blames.bare (Bare.moduleFlags _ _) (Errs.calm (checkModuleFlags_tame (A := fun _ => False) fl major) (Nat.le_refl _)
      (checkModuleFlags_exact fl major))).congr fun q s => and_congr_right fun _ => ?_
    constructor
    · intro h
      by_contra hc
      exact h () [] s rfl ⟨fun hmod => by by_contra hc'; exact hc ⟨hmod, hc'⟩, rfl⟩
    · rintro ⟨h1, h2⟩ _ seg rest - ⟨h, -⟩
      exact h2 (h h1)
  have hend : ∀ (fl : UInt16) (this : ClassName) (super : Option ClassName) (ifs : List ClassName) (fs : List FieldInfo) (ms : List MethodInfo)
      (as : List AttributeInfo), (IsModule fl → 53 ≤ major ∧ fl = 0x8000) →
      Blames env.depth (checkAtEnd >>= fun _ => checkModuleEmpty fl super ifs fs ms >>= fun _ =>
        P.lift (validateBootstrapMethods pool as) >>= fun _ => (pure (ClassFile.mk major minor pool fl this super ifs fs ms as) : P ClassFile))
        (fun q s => q = .plain ∧ EndFault pool fl super ifs fs ms as s) := by
    intro fl this super ifs fs ms as hmod
    refine (Blames.bare (Bare.bind Bare.atEnd fun _ => Bare.bind (Bare.moduleEmpty _ _ _ _ _) fun _ => Bare.bind (Bare.lift (BareR.bootstrap as pool))
      fun _ => Bare.pure _) ?_)
    intro bytes ix h1 h2
    have hce : checkAtEnd bytes ix = if ix ≠ bytes.length then Res.fail s!"Extra bytes found at index {ix} after reading class file" else .ok ((), ix) := rfl
    have hdrop : bytes.drop ix = [] ↔ ix = bytes.length := by
      rw [List.drop_eq_nil_iff]; omega
    have hme := checkModuleEmpty_tame (N := env.depth) (A := fun _ => False) fl super ifs fs ms bytes ix h1
    have hmx := checkModuleEmpty_exact (N := env.depth) fl super ifs fs ms bytes ix h1 h2
    have hbs := validateBootstrapMethods_calm (A := fun _ => False) as pool
    have hbx := validateBootstrapMethods_ok as pool
    unfold TameAt at hme
    unfold EndFault
    by_cases hix : ix = bytes.length
    · rw [if_neg (by simpa using hix)] at hce
      rw [P.bind_run hce]
      have hnil := hdrop.mpr hix
      simp only [hnil, ne_eq, not_true_eq_false, false_or]
      cases hc : checkModuleEmpty fl super ifs fs ms bytes ix with
      | panic k => rw [hc] at hme; exact hme.elim
      | diverge => rw [hc] at hme; simp only at hme; omega
      | err e =>
        rw [P.bind_err hc]
        refine ⟨fun _ => .inl ?_, fun _ => ⟨e, rfl⟩⟩
        by_contra hcon
        have := (hmx () ix).mpr ⟨[], bytes.drop ix, rfl, ⟨?_, rfl⟩, rfl⟩
        · rw [hc] at this; cases this
        · intro hM
          by_contra hc'
          exact hcon ⟨hM, hc'⟩
      | ok a =>
        obtain ⟨_, ix'⟩ := a
        obtain ⟨seg, rest, hs, ⟨hM, rfl⟩, rfl⟩ := (hmx () ix').mp hc
        rw [P.bind_run hc]
        have hM' : ¬ (IsModule fl ∧ ¬ (super = none ∧ ifs = [] ∧ fs = [] ∧ ms = [])) := fun ⟨a, b⟩ => b (hM a)
        simp only [hM', false_or]
        cases hv : validateBootstrapMethods pool as with
        | ok u =>
          constructor
          · rintro ⟨e, he⟩; cases he
          · intro h; exact absurd (hbx.mp hv) h
        | err e =>
          refine ⟨fun _ h => ?_, fun _ => ⟨e, rfl⟩⟩
          rw [hbx.mpr h] at hv
          cases hv
        | panic k => exact (hbs.1 k hv).elim
        | diverge => exact (hbs.2 hv).elim
    · rw [if_pos (by simpa using hix)] at hce
      rw [P.bind_err hce]
      exact ⟨fun _ => .inl (fun h => hix (hdrop.mp h)), fun _ => ⟨_, rfl⟩⟩
  unfold readBody
  dsimp only
  refine (Blames.bind blames_u2 Exact.readU2 fun bits => Blames.bindW (hflags (fromBitsTruncate classMask bits))
    (checkModuleFlags_exact (fromBitsTruncate classMask bits) major) fun _ hmod => Blames.bind (Blames.ctx .thisClass rfl hthis)
    ((readClassName_exact hok).mapErr _) fun this => Blames.bind (Blames.ctx .superClass rfl hsuper)
    ((readClassNameOpt_exact hok).mapErr _) fun super => Blames.bind (interfaces_blames hok) hXI fun ifs =>
    Blames.bind (fields_blames hok env) (readFields_exact env pool) fun fs =>
    Blames.bind (methods_blames hok env _ major) (readMethods_exact env pool _ major) fun ms =>
    Blames.bind (Blames.ctx .classAttributes rfl (attrs_errs hok env)) ((readAttributes_exact env pool env.depth).mapErr _) fun as =>
    hend (fromBitsTruncate classMask bits) this super ifs fs ms as (hmod.elim fun _ h => h.1)).congr fun q s => ?_
  simp only [hm, hmask]
  constructor
  · rintro (⟨rfl, h⟩ | ⟨bits, s1, t1, rfl, rfl, ⟨rfl, h1, h2⟩ | ⟨_, s2, t2, rfl, ⟨hmod, rfl⟩, ⟨rfl, h⟩ | ⟨this, s3, t3, rfl, ⟨i, hthis, rfl⟩, ⟨rfl, h⟩ |
      ⟨super, s4, t4, rfl, ⟨j, hsuper, rfl⟩, (⟨rfl, h⟩ | ⟨c, ifs, s5, t5, rfl, hl, hq, rfl, h⟩) | ⟨ifs, s5, t5, rfl, hifs, h⟩⟩⟩⟩⟩)
    · exact .inl (.flags h)
    · exact .inl (.moduleFlag h1 h2)
    · exact .inl (.thisClass hmod h)
    · exact .inl (.superClass hmod hthis h)
    · exact .inl (.interfaces hmod hthis hsuper h)
    · exact .inl (.interface' hmod hthis hsuper hl hq h)
    · refine .inr ⟨bits, i, j, this, super, ifs, s5, t5, rfl, hmod, hthis, hsuper, hifs, ?_⟩
      rcases h with (⟨rfl, h⟩ | ⟨c, fs, s6, t6, rfl, hl, hd, hq, h⟩) | ⟨fs, s6, t6, rfl, ⟨hdf, hfs⟩, (⟨rfl, h⟩ | ⟨c, ms, s7, t7, rfl, hl, hd, hq, h⟩) |
        ⟨ms, s7, t7, rfl, ⟨hdm, hms⟩, ⟨rfl, h⟩ | ⟨as, s8, t8, rfl, has, rfl, h⟩⟩⟩
      · exact .fields h
      · exact .field hl hd hq h
      · exact .methods hdf hfs h
      · exact .method hdf hfs hl hd hq h
      · exact .attributes hdf hfs hdm hms h
      · exact .final hdf hfs hdm hms has h
  · rintro (h | ⟨bits, i, j, this, super, ifs, si, t, rfl, hmod, hthis, hsuper, hifs, h⟩)
    · cases h with
      | flags h => exact .inl ⟨rfl, h⟩
      | @moduleFlag bits s h1 h2 => exact .inr ⟨bits, _, _, rfl, rfl, .inl ⟨rfl, h1, h2⟩⟩
      | @thisClass bits s hmod h => exact .inr ⟨bits, _, _, rfl, rfl, .inr ⟨(), [], _, rfl, ⟨hmod, rfl⟩, .inl ⟨rfl, h⟩⟩⟩
      | @superClass bits i this s hmod hthis h =>
        exact .inr ⟨bits, _, _, rfl, rfl, .inr ⟨(), [], _, rfl, ⟨hmod, rfl⟩, .inr ⟨this, _, _, rfl, ⟨i, hthis, rfl⟩, .inl ⟨rfl, h⟩⟩⟩⟩
      | @interfaces bits i j this super s hmod hthis hsuper h =>
        exact .inr ⟨bits, _, _, rfl, rfl, .inr ⟨(), [], _, rfl, ⟨hmod, rfl⟩, .inr ⟨this, _, _, rfl, ⟨i, hthis, rfl⟩, .inr ⟨super, _, _, rfl, ⟨j, hsuper, rfl⟩,
          .inl (.inl ⟨rfl, h⟩)⟩⟩⟩⟩
      | @interface' bits i j count this super ifs before s hmod hthis hsuper hl hq h =>
        exact .inr ⟨bits, _, _, rfl, rfl, .inr ⟨(), [], _, rfl, ⟨hmod, rfl⟩, .inr ⟨this, _, _, rfl, ⟨i, hthis, rfl⟩, .inr ⟨super, _, _, rfl, ⟨j, hsuper, rfl⟩,
          .inl (.inr ⟨count, ifs, before, s, rfl, hl, hq, rfl, h⟩)⟩⟩⟩⟩
    · refine .inr ⟨bits, _, _, rfl, rfl, .inr ⟨(), [], _, rfl, ⟨hmod, rfl⟩, .inr ⟨this, _, _, rfl, ⟨i, hthis, rfl⟩, .inr ⟨super, _, _, rfl, ⟨j, hsuper, rfl⟩,
        .inr ⟨ifs, si, t, rfl, hifs, ?_⟩⟩⟩⟩⟩
      cases h with
      | fields h => exact .inl (.inl ⟨rfl, h⟩)
      | @field q count fs before s hl hd hq h => exact .inl (.inr ⟨count, fs, before, s, rfl, hl, hd, hq, h⟩)
      | @methods fs sf s hdf hfs h => exact .inr ⟨fs, sf, s, rfl, ⟨hdf, hfs⟩, .inl (.inl ⟨rfl, h⟩)⟩
      | @method q count fs ms sf before s hdf hfs hl hd hq h =>
        exact .inr ⟨fs, sf, _, rfl, ⟨hdf, hfs⟩, .inl (.inr ⟨count, ms, before, s, rfl, hl, hd, hq, h⟩)⟩
      | @attributes fs ms sf sm s hdf hfs hdm hms h =>
        exact .inr ⟨fs, sf, _, rfl, ⟨hdf, hfs⟩, .inr ⟨ms, sm, _, rfl, ⟨hdm, hms⟩, .inl ⟨rfl, h⟩⟩⟩
      | @final fs ms as sf sm sa rest hdf hfs hdm hms has h =>
        exact .inr ⟨fs, sf, _, rfl, ⟨hdf, hfs⟩, .inr ⟨ms, sm, _, rfl, ⟨hdm, hms⟩, .inr ⟨as, sa, rest, rfl, has, rfl, h⟩⟩⟩

end

/-! ## The constant pool -/

theorem raw_breaks {N : Nat} (env : Env) (major : UInt16) : Breaks N (readRawPool env major) (fun k s =>
    k = .overflow ∧ env.overflowChecks = true ∧ ∃ (count : UInt16) (es : List Entry) (body rest : Bytes), s = u2 count ++ body ++ rest ∧
      seq (EntryEnc env.decode major) es body ∧ (∀ k, k < es.length → slotCount (es.take k) < count.toNat) ∧ 65536 ≤ slotCount es) := by
  intro bytes ix h1 h2 k
  by_cases hck : env.overflowChecks = true
  · rw [readRawPool_panic env hck major h1 k]
    simp only [hck, true_and]
    rfl
  · have hraw := readRawPool_tame (N := N) (A := fun k => k = .overflow ∧ env.overflowChecks = true) env (fun h => ⟨rfl, h⟩) major bytes ix h1
    constructor
    · intro h; unfold TameAt at hraw; rw [h] at hraw; exact absurd hraw.2 hck
    · rintro ⟨-, h, -⟩; exact absurd h hck

theorem validateFrom_blames {d : Nat} {pool : Pool} {major : UInt16} {Q S : Entry → Prop} : ∀ (es : List Entry) (i : Nat),
    (∀ e ∈ es, Outcome (e.validate d pool major) (Q e) (S e)) → ∀ c : Option String,
    (∃ x, validateFrom d pool major i es = .err x ∧ lastContext x = c) ↔
      ∃ (k : Nat) (e : Entry), (Place.poolEntry (i + k)).context = c ∧ es[k]? = some e ∧ ¬ Q e ∧ ¬ S e ∧
        ∀ (j : Nat) (f : Entry), j < k → es[j]? = some f → Q f
  | [], i, _, c => by simp [validateFrom]
  | e :: es, i, h, c => by
    have h1 := h e (by simp)
    have h2 := validateFrom_blames es (i + 1) (fun e he => h e (by simp [he])) c
    unfold validateFrom
    cases hv : e.validate d pool major with
    | ok u =>
      have hQ : Q e := h1.ok.mp (by rw [hv])
      show (∃ x, validateFrom d pool major (i + 1) es = .err x ∧ _) ↔ _
      rw [h2]
      constructor
      · rintro ⟨k, f, hc, hk, hn, hs, hb⟩
        refine ⟨k + 1, f, by rw [← hc, Nat.add_assoc, Nat.add_comm 1 k], hk, hn, hs, fun j g hj hg => ?_⟩
        cases j with
        | zero => simp only [List.getElem?_cons_zero, Option.some.injEq] at hg; exact hg ▸ hQ
        | succ j => exact hb j g (by omega) hg
      · rintro ⟨k, f, hc, hk, hn, hs, hb⟩
        cases k with
        | zero => simp only [List.getElem?_cons_zero, Option.some.injEq] at hk; exact absurd (hk ▸ hQ) hn
        | succ k => exact ⟨k, f, by rw [← hc, Nat.add_assoc, Nat.add_comm 1 k], hk, hn, hs, fun j g hj hg => hb (j + 1) g (by omega) hg⟩
    | err x =>
      have hnQ : ¬ Q e := fun hq => by have := h1.ok.mpr hq; rw [hv] at this; cases this
      have hnS : ¬ S e := fun hq => by have := h1.diverge.mpr hq; rw [hv] at this; cases this
      constructor
      · rintro ⟨y, hy, rfl⟩
        cases hy
        exact ⟨0, e, by simp [lastContext, ParseError.withContext, Place.context], rfl, hnQ, hnS, fun j f hj => absurd hj (by omega)⟩
      · rintro ⟨k, f, hc, hk, hn, hs, hb⟩
        cases k with
        | zero => exact ⟨_, rfl, by rw [← hc]; simp [lastContext, ParseError.withContext, Place.context]⟩
        | succ k => exact absurd (hb 0 e (by omega) rfl) hnQ
    | panic k => exact absurd hv (h1.nopanic k)
    | diverge =>
      have hS : S e := h1.diverge.mp hv
      have hnQ : ¬ Q e := fun hq => by have := h1.ok.mpr hq; rw [hv] at this; cases this
      constructor
      · rintro ⟨y, hy, -⟩; cases hy
      · rintro ⟨k, f, hc, hk, hn, hs, hb⟩
        cases k with
        | zero => simp only [List.getElem?_cons_zero, Option.some.injEq] at hk; exact absurd (hk ▸ hS) hs
        | succ k => exact absurd (hb 0 e (by omega) rfl) hnQ

theorem pool_blames (env : Env) (h2 : 2 ≤ env.depth) (major : UInt16) :
    Blames env.depth (readConstantPool env major) (PoolFault env.opts major) := by
  have hrawE : Errs env.depth (readRawPool env major) _ :=
    Errs.broken (A := fun _ => True) (readRawPool_tame env (fun _ => trivial) major) (readRawPool_exact env major) (raw_breaks env major)
  have hraw := Blames.bare (Bare.readRawPool env major) hrawE
  intro bytes ix h1 hb c
  have hr := hraw bytes ix h1 hb c
  have hex := readRawPool_exact (N := env.depth) env major bytes ix h1 hb
  have key : (∃ e, readConstantPool env major bytes ix = .err e ∧ lastContext e = c) ↔
      (∃ e, readRawPool env major bytes ix = .err e ∧ lastContext e = c) ∨ ∃ raw ix', readRawPool env major bytes ix = .ok (raw, ix') ∧
        ∃ e, (resolveConstantPool raw >>= fun pool => validateConstantPool env.depth pool major) = .err e ∧ lastContext e = c := by
    unfold readConstantPool
    simp only [P.bind_errs, or_and_right, exists_or]
    refine or_congr_right ⟨?_, ?_⟩
    · rintro ⟨e, ⟨raw, ix', h, h'⟩, hc⟩
      refine ⟨raw, ix', h, e, ?_, hc⟩
      rcases h' with h' | ⟨pool, ix2, h', h'' | ⟨u, ix3, -, h''⟩⟩
      · unfold P.lift at h'
        cases hq : resolveConstantPool raw with
        | err x => rw [hq] at h'; cases h'; rfl
        | ok x => rw [hq] at h'; cases h'
        | panic x => rw [hq] at h'; cases h'
        | diverge => rw [hq] at h'; cases h'
      · unfold P.lift at h' h''
        cases hq : resolveConstantPool raw with
        | err x => rw [hq] at h'; cases h'
        | ok x =>
          rw [hq] at h'; cases h'
          show validateConstantPool env.depth pool major = _
          cases hv : validateConstantPool env.depth pool major with
          | err x => rw [hv] at h''; cases h''; rfl
          | ok x => rw [hv] at h''; cases h''
          | panic x => rw [hv] at h''; cases h''
          | diverge => rw [hv] at h''; cases h''
        | panic x => rw [hq] at h'; cases h'
        | diverge => rw [hq] at h'; cases h'
      · cases h''
    · rintro ⟨raw, ix', h, e, h', hc⟩
      refine ⟨e, ⟨raw, ix', h, ?_⟩, hc⟩
      unfold P.lift
      cases hq : resolveConstantPool raw with
      | err x => rw [hq] at h'; cases h'; exact .inl rfl
      | ok x =>
        rw [hq] at h'
        refine .inr ⟨x, ix', rfl, .inl ?_⟩
        have h'' : validateConstantPool env.depth x major = .err e := h'
        rw [h'']
      | panic x => rw [hq] at h'; cases h'
      | diverge => rw [hq] at h'; cases h'
  rw [key, hr]
  constructor
  · rintro (⟨q, hq, rfl, hn, hp⟩ | ⟨raw, ix', hok, e, he, hc⟩)
    · exact ⟨.plain, hq, .raw hn fun hck hov => hp .overflow ⟨rfl, hck, hov⟩⟩
    · obtain ⟨seg, rest, hd, henc, rfl⟩ := (hex raw ix').mp hok
      obtain ⟨hu, hrl⟩ := raw_facts henc
      have hlen := length_of_drop_eq h1 hd
      rw [hd]
      cases hq : resolveConstantPool raw with
      | ok pool =>
        obtain ⟨rfl, hrange⟩ := resolveConstantPool_ok.mp hq
        rw [hq] at he
        have hl := linked_of_range hu hrange
        have hv := (validateFrom_blames (d := env.depth) (pool := raw.map linkEntry) (major := major) (Q := EntryPasses major (raw.map linkEntry))
          (S := EntryStuck (raw.map linkEntry)) (raw.map linkEntry) 0 (fun e he => by
            obtain ⟨i, hi⟩ := List.mem_iff_getElem?.mp he
            exact validate_outcome hl hi (by rw [List.length_map]; omega) h2 major) c).mp ⟨e, he, hc⟩
        obtain ⟨k, f, hkc, hk, hn, hs, hb⟩ := hv
        rw [Nat.zero_add] at hkc
        exact ⟨.poolEntry k, hkc, .entry henc hrange hk hn hs hb⟩
      | err x =>
        rw [hq] at he
        cases he
        refine ⟨.plain, ?_, .range henc fun h => ?_⟩
        · rw [← hc]
          have := BareR.resolveFrom raw raw 0 _ hq
          simp [Place.context, lastContext, this]
        · rw [resolveConstantPool_ok.mpr ⟨rfl, h⟩] at hq
          cases hq
      | panic k => rw [hq] at he; cases he
      | diverge => rw [hq] at he; cases he
  · rintro ⟨q, hqc, hF⟩
    generalize hgs : bytes.drop ix = s at hF
    cases hF with
    | raw hn hov =>
      subst hgs
      exact .inl ⟨.plain, hqc, rfl, hn, fun k ⟨_, hck, h⟩ => hov hck h⟩
    | @range raw s rest henc hnr =>
      refine .inr ⟨raw, _, (hex raw _).mpr ⟨s, rest, hgs, henc, rfl⟩, ?_⟩
      cases hq : resolveConstantPool raw with
      | ok pool => exact absurd (resolveConstantPool_ok.mp hq).2 hnr
      | err x =>
        refine ⟨x, rfl, ?_⟩
        have := BareR.resolveFrom raw raw 0 x hq
        rw [← hqc]
        simp [Place.context, lastContext, this]
      | panic k => exact ((resolveFrom_calm (A := fun _ => False) raw raw 0).1 k hq).elim
      | diverge => exact ((resolveFrom_calm (A := fun _ => False) raw raw 0).2 hq).elim
    | @entry raw s rest i e henc hrange hk hn hs hbefore =>
      refine .inr ⟨raw, _, (hex raw _).mpr ⟨s, rest, hgs, henc, rfl⟩, ?_⟩
      obtain ⟨hu, hrl⟩ := raw_facts henc
      have hlen := length_of_drop_eq h1 hgs
      have hl := linked_of_range hu hrange
      rw [resolveConstantPool_ok.mpr ⟨rfl, hrange⟩]
      exact (validateFrom_blames (d := env.depth) (pool := raw.map linkEntry) (major := major) (Q := EntryPasses major (raw.map linkEntry))
          (S := EntryStuck (raw.map linkEntry)) (raw.map linkEntry) 0 (fun e he => by
            obtain ⟨i, hi⟩ := List.mem_iff_getElem?.mp he
            exact validate_outcome hl hi (by rw [List.length_map]; omega) h2 major) c).mpr
        ⟨i, e, by rw [Nat.zero_add]; exact hqc, hk, hn, hs, hbefore⟩

/-! ## The file -/

theorem file_blames (env : Env) (h2 : 2 ≤ env.depth) : Blames env.depth (readClassFile env) (FaultAt env.opts) := by
  rw [readClassFile_eq]
  refine (Blames.bind (Blames.bare Bare.header (Errs.calm (readHeader_tame (A := fun _ => False)) (Nat.le_refl _) readHeader_exact)) readHeader_exact
    fun v => Blames.bindW (H := fun pool q s => BodyFault env.opts v.2 pool q s ∨
    ∃ (bits i j : UInt16) (this : ClassName) (super : Option ClassName) (ifs : List ClassName) (si t : Bytes),
      s = u2 bits ++ (u2 i ++ (u2 j ++ (si ++ t))) ∧ (IsModule (bits &&& 0xF631) → 53 ≤ v.2 ∧ bits &&& 0xF631 = 0x8000) ∧
      ClassNameAt pool i.toNat this ∧ OptAt ClassNameAt pool j.toNat super ∧ table2 (fun c => ref fun i => ClassNameAt pool i c) ifs si ∧
      BackFault env.opts v.2 pool (bits &&& 0xF631) super ifs q t) (pool_blames env h2 v.2) (readConstantPool_exact env h2 v.2)
    fun pool hp => ?_).congr fun q s => ?_
  · obtain ⟨_, raw, -, -, hok⟩ := hp
    exact body_blames hok env v.1
  · constructor
    · rintro (⟨rfl, h⟩ | ⟨⟨minor, major⟩, s1, t1, rfl, rfl, h | ⟨pool, s2, t2, rfl, hp, h | ⟨bits, i, j, this, super, ifs, si, t, rfl, hmod, hthis, hsuper, hifs, h⟩⟩⟩)
      · exact .header fun minor major rest he => h (minor, major) _ rest he rfl
      · exact .pool h
      · exact .body hp h
      · exact .back hp hmod hthis hsuper hifs h
    · intro h
      cases h with
      | header h => exact .inl ⟨rfl, fun v seg rest hs he => h v.1 v.2 rest (by rw [hs, he]; rfl)⟩
      | @pool q minor major s h => exact .inr ⟨(minor, major), _, s, rfl, rfl, .inl h⟩
      | @body q minor major pool sp s hp h => exact .inr ⟨(minor, major), _, _, rfl, rfl, .inr ⟨pool, sp, s, rfl, hp, .inl h⟩⟩
      | @back q minor major bits i j pool this super ifs sp si s hp hmod hthis hsuper hifs h =>
        exact .inr ⟨(minor, major), _, _, rfl, rfl, .inr ⟨pool, sp, _, rfl, hp, .inr ⟨bits, i, j, this, super, ifs, si, s, rfl, hmod, hthis, hsuper, hifs, h⟩⟩⟩

end Cafebabe
