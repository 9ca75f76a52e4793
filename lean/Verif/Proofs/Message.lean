import Verif.Proofs.MessageEnd
/-!
# Proofs: the error for an input that is wrong outside its attributes
-/

namespace Cafebabe
open Spec

section
variable {C : ParseError → Prop} {L N : Nat}

theorem header_names : Names C L N readHeader (HeaderSays L) := by
  unfold readHeader
  refine (Names.bind Names.readU4 Exact.readU4 fun m => Names.failIf fun _ => Names.bind Names.readU2 Exact.readU2 fun minor =>
    Names.first (f := fun major => (Pure.pure (minor, major) : P _)) Names.readU2 fun _ _ _ _ h => by cases h).congr fun s e _ => ?_
  have hm : u4 0xCAFEBABE = [0xCA, 0xFE, 0xBA, 0xBE] := rfl
  constructor
  · rintro (⟨h, rfl⟩ | ⟨m, s1, t, rfl, rfl, ⟨h, rfl⟩ | ⟨h, ⟨h', rfl⟩ | ⟨minor, s2, t2, rfl, rfl, h', rfl⟩⟩⟩)
    · exact .noMagic h
    · refine .magic (by rw [u4_length]) fun hu => ?_
      have : m = 0xCAFEBABE := u4_inj (by rw [hu, hm])
      subst this
      cases h
    · have : m = 0xCAFEBABE := by simpa using h
      subst this
      exact .noMinor h'
    · have : m = 0xCAFEBABE := by simpa using h
      subst this
      exact .noMajor h'
  · intro h
    cases h with
    | noMagic h => exact .inl ⟨h, rfl⟩
    | @magic s t h4 h =>
      obtain ⟨a, b, c, d, rfl⟩ := list4 s h4
      refine .inr ⟨_, _, t, rfl, (u4_of_bytes a b c d).symm, .inl ⟨?_, rfl⟩⟩
      rw [bne_iff_ne]
      intro he
      have := u4_of_bytes a b c d
      rw [he, hm] at this
      exact h this.symm
    | noMinor h => exact .inr ⟨0xCAFEBABE, _, _, rfl, rfl, .inr ⟨rfl, .inl ⟨h, rfl⟩⟩⟩
    | @noMajor minor t h => exact .inr ⟨0xCAFEBABE, _, _, rfl, rfl, .inr ⟨rfl, .inr ⟨minor, _, t, rfl, rfl, h, rfl⟩⟩⟩

theorem parseField_names (d : Str) : Names C L N (P.lift (parseFieldDescriptor d 0)) (fun _ e => ∃ m, FieldSays d m ∧ e = plainly m) :=
  Names.fails (parseFieldDescriptor_fails [] d)

/-- The errors that are not about the attributes of a part. -/
def Outside : ParseError → Prop := fun e => ¬ InAttributes e

theorem inside_last (c : String) (e : ParseError) : (inside c e).contexts.getLast? = some c := by
  simp [inside]

theorem field_skipped (i : Nat) (e : ParseError) : ¬ Outside (inside s!"class field {i}" e) :=
  fun h => h (.inr ⟨i, .inl (inside_last _ e)⟩)

theorem method_skipped (i : Nat) (e : ParseError) : ¬ Outside (inside s!"class method {i}" e) :=
  fun h => h (.inr ⟨i, .inr (inside_last _ e)⟩)

theorem class_skipped (e : ParseError) : ¬ Outside (inside "class" e) := fun h => h (.inl (inside_last _ e))

/-- The contexts of errors in the attributes of a part. -/
inductive PartContext : String → Prop where
  | field (i : Nat) : PartContext s!"class field {i}"
  | method (i : Nat) : PartContext s!"class method {i}"
  | ofClass : PartContext "class"

/-- The errors in tables of attributes for which `C` holds are those of `A`. -/
def AttrsNamed (C : ParseError → Prop) (L : Nat) (env : Env) (pool : Pool) (A : Bytes → ParseError → Prop) : Prop := ∀ c, PartContext c →
  Names C L env.depth ((readAttributes env pool env.depth).mapErr c) (fun s e => ∃ e', A s e' ∧ e = inside c e')

theorem attrsNamed_skip (env : Env) (pool : Pool) : AttrsNamed Outside L env pool (fun _ _ => False) := by
  intro c hc
  refine (Names.skip fun e => ?_).congr fun s e _ => by simp
  cases hc with
  | field i => exact field_skipped i e
  | method i => exact method_skipped i e
  | ofClass => exact class_skipped e

theorem attrsNamed_all {env : Env} {pool : Pool} {A : Bytes → ParseError → Prop} (h : Names anyError L env.depth (readAttributes env pool env.depth) A) :
    AttrsNamed anyError L env pool A := fun c _ => Names.ctx h c

theorem field_names (env : Env) (pool : Pool) {A : Bytes → ParseError → Prop} (hA : AttrsNamed C L env pool A) (fs : List FieldInfo) :
    Names C L env.depth (readField env pool (fs.map fun f => (f.name, f.descriptor)).reverse fs.length) (FieldWrong L pool A fs) := by
  unfold readField
  refine (Names.bind Names.readU2 Exact.readU2 fun bits => Names.bind (Names.ctx (readCpUtf8_names pool) _)
    ((readCpUtf8_exact pool).mapErr _) fun name => Names.failIf fun _ => Names.bind (Names.ctx (readCpUtf8_names pool) _)
    ((readCpUtf8_exact pool).mapErr _) fun d => Names.bind (parseField_names d) (Exact.lift _) fun desc =>
    Names.failIf fun _ => Names.first (hA _ (.field fs.length)) fun _ _ _ _ h => by cases h).congr fun s e _ => ?_
  constructor
  · rintro (⟨h, rfl⟩ | ⟨bits, s1, t1, rfl, rfl, ⟨e', h, rfl⟩ | ⟨name, s2, t2, rfl, ⟨i, hi, rfl⟩, ⟨hn, rfl⟩ | ⟨hn, ⟨e', h, rfl⟩ |
      ⟨d, s3, t3, rfl, ⟨j, hj, rfl⟩, ⟨m, hm, rfl⟩ | ⟨desc, s4, t4, rfl, ⟨hp, rfl⟩, ⟨hs, rfl⟩ | ⟨hs, e', h, rfl⟩⟩⟩⟩⟩⟩)
    · exact .flags h
    · exact .name h
    · refine .badName hi fun hu => ?_
      rw [not_isUnqualified.mpr hu] at hn
      cases hn
    · exact .descriptor hi (not_isUnqualified.mp hn) h
    · exact .badDescriptor hi (not_isUnqualified.mp hn) hj hm
    · refine .duplicate hi (not_isUnqualified.mp hn) ⟨d, hj, ((parseFieldDescriptor_zero d).ok_iff desc).mp hp⟩ ?_
      obtain ⟨f, hf, h⟩ : ∃ f ∈ fs, (f.name, f.descriptor) = (name, desc) := by simpa using hs
      exact ⟨f, hf, by simpa using h⟩
    · refine .attributes hi (not_isUnqualified.mp hn) ⟨d, hj, ((parseFieldDescriptor_zero d).ok_iff desc).mp hp⟩ (fun f hf he => ?_) h
      have : (fs.map fun f => (f.name, f.descriptor)).reverse.contains (name, desc) = true := by simpa using ⟨f, hf, he⟩
      rw [this] at hs
      cases hs
  · intro h
    cases h with
    | flags h => exact .inl ⟨h, rfl⟩
    | @name bits s e' h => exact .inr ⟨bits, _, _, rfl, rfl, .inl ⟨e', h, rfl⟩⟩
    | @attributes bits i j name desc s e' hi hn hd hno h =>
      obtain ⟨d, hj, hp⟩ := hd
      refine .inr ⟨bits, _, _, rfl, rfl, .inr ⟨name, _, _, rfl, ⟨i, hi, rfl⟩, .inr ⟨not_isUnqualified.mpr hn, .inr ⟨d, _, _, rfl, ⟨j, hj, rfl⟩,
        .inr ⟨desc, [], _, rfl, ⟨((parseFieldDescriptor_zero d).ok_iff desc).mpr hp, rfl⟩, .inr ⟨?_, e', h, rfl⟩⟩⟩⟩⟩⟩
      rw [Bool.eq_false_iff]
      intro hc
      obtain ⟨f, hf, he⟩ : ∃ f ∈ fs, (f.name, f.descriptor) = (name, desc) := by simpa using hc
      exact hno f hf (by simpa using he)
    | @badName bits i name s hi hn =>
      refine .inr ⟨bits, _, _, rfl, rfl, .inr ⟨name, _, _, rfl, ⟨i, hi, rfl⟩, .inl ⟨?_, rfl⟩⟩⟩
      cases hb : !isUnqualifiedName name with
      | true => rfl
      | false => exact absurd (not_isUnqualified.mp hb) hn
    | @descriptor bits i name s e' hi hn h =>
      exact .inr ⟨bits, _, _, rfl, rfl, .inr ⟨name, _, _, rfl, ⟨i, hi, rfl⟩, .inr ⟨not_isUnqualified.mpr hn, .inl ⟨e', h, rfl⟩⟩⟩⟩
    | @badDescriptor bits i j name d s m hi hn hj hm =>
      exact .inr ⟨bits, _, _, rfl, rfl, .inr ⟨name, _, _, rfl, ⟨i, hi, rfl⟩, .inr ⟨not_isUnqualified.mpr hn, .inr ⟨d, _, _, rfl, ⟨j, hj, rfl⟩,
        .inl ⟨m, hm, rfl⟩⟩⟩⟩⟩
    | @duplicate bits i j name desc s hi hn hd h =>
      obtain ⟨d, hj, hp⟩ := hd
      obtain ⟨f, hf, h1, h2⟩ := h
      refine .inr ⟨bits, _, _, rfl, rfl, .inr ⟨name, _, _, rfl, ⟨i, hi, rfl⟩, .inr ⟨not_isUnqualified.mpr hn, .inr ⟨d, _, _, rfl, ⟨j, hj, rfl⟩,
        .inr ⟨desc, [], _, rfl, ⟨((parseFieldDescriptor_zero d).ok_iff desc).mpr hp, rfl⟩, .inl ⟨?_, rfl⟩⟩⟩⟩⟩⟩
      simpa using ⟨f, hf, h1, h2⟩

theorem method_names (env : Env) (pool : Pool) {A : Bytes → ParseError → Prop} (hA : AttrsNamed C L env pool A) (inInterface : Bool) (mj : UInt16)
    (ms : List MethodInfo) :
    Names C L env.depth (readMethod env pool inInterface mj (ms.map fun f => (f.name, f.descriptor)).reverse ms.length)
      (MethodWrong L pool A (inInterface = true) mj ms) := by
  unfold readMethod
  have hname : ∀ name : Str, ((!isUnqualifiedMethodName name (!inInterface) true) = false ↔ MethodName (¬ inInterface = true) True name) := by
    intro name
    have := isUnqualifiedMethodName_iff name (!inInterface) true
    simpa using this
  have hspecial : ∀ (bits : UInt16) (name : Str) (d : MethodDescriptor),
      ((!inInterface && name == "<init>".toList && d.returnType != .void) = false ∧ (name == "<clinit>".toList && d.returnType != .void) = false ∧
        (name == "<clinit>".toList && (decide (mj ≥ 51) && !d.parameters.isEmpty)) = false) ↔
      SpecialMethodOK (inInterface = true) mj { accessFlags := bits, name := name, descriptor := d, attributes := [] } := by
    intro bits name d
    unfold SpecialMethodOK
    by_cases h1 : name = "<init>".toList <;> by_cases h2 : name = "<clinit>".toList <;> cases inInterface <;>
      by_cases h3 : d.returnType = .void <;> by_cases h4 : mj ≥ 51 <;> cases h5 : d.parameters <;>
      simp_all
  have hi1 : ∀ (name : Str) (d : MethodDescriptor), (!inInterface && name == "<init>".toList && d.returnType != .void) = true ↔
      ¬ inInterface = true ∧ name = "<init>".toList ∧ d.returnType ≠ .void := by
    intro name d; simp [and_assoc]
  have hi2 : ∀ (name : Str) (d : MethodDescriptor), (name == "<clinit>".toList && d.returnType != .void) = true ↔
      name = "<clinit>".toList ∧ d.returnType ≠ .void := by
    intro name d; simp
  have hi3 : ∀ (name : Str) (d : MethodDescriptor), (name == "<clinit>".toList && (decide (mj ≥ 51) && !d.parameters.isEmpty)) = true ↔
      name = "<clinit>".toList ∧ 51 ≤ mj ∧ d.parameters ≠ [] := by
    intro name d; simp
  refine (Names.bind Names.readU2 Exact.readU2 fun bits => Names.bind (Names.ctx (readCpUtf8_names pool) _)
    ((readCpUtf8_exact pool).mapErr _) fun name => Names.failIf fun _ => Names.bind (Names.ctx (readMethodDescriptor_names pool) _)
    ((readMethodDescriptor_exact pool).mapErr _) fun desc => Names.failIf fun _ => Names.failIf fun _ => Names.failIf fun _ =>
    Names.failIf fun _ => Names.first (hA _ (.method ms.length)) fun _ _ _ _ h => by cases h).congr fun s e _ => ?_
  constructor
  · rintro (⟨h, rfl⟩ | ⟨bits, s1, t1, rfl, rfl, ⟨e', h, rfl⟩ | ⟨name, s2, t2, rfl, ⟨i, hi, rfl⟩, ⟨hn, rfl⟩ | ⟨hn, ⟨e', h, rfl⟩ |
      ⟨desc, s3, t3, rfl, ⟨j, hj, rfl⟩, ⟨g1, rfl⟩ | ⟨g1, ⟨g2, rfl⟩ | ⟨g2, ⟨g3, rfl⟩ | ⟨g3, ⟨g4, rfl⟩ | ⟨g4, e', h, rfl⟩⟩⟩⟩⟩⟩⟩⟩)
    · exact .flags h
    · exact .name h
    · refine .badName hi fun hu => ?_
      rw [(hname name).mpr hu] at hn
      cases hn
    · exact .descriptor hi ((hname name).mp hn) h
    · obtain ⟨a, b, c⟩ := (hi1 name desc).mp g1
      exact .special hi ((hname name).mp hn) hj (.init a b c)
    · obtain ⟨b, c⟩ := (hi2 name desc).mp g2
      exact .special hi ((hname name).mp hn) hj (.clinit b c)
    · obtain ⟨b, c, d⟩ := (hi3 name desc).mp g3
      refine .special hi ((hname name).mp hn) hj (.arguments b ?_ c d)
      by_contra hv
      rw [(hi2 name desc).mpr ⟨b, hv⟩] at g2
      cases g2
    · refine .duplicate hi ((hname name).mp hn) hj ((hspecial bits name desc).mp ⟨g1, g2, g3⟩) ?_
      obtain ⟨f, hf, h⟩ : ∃ f ∈ ms, (f.name, f.descriptor) = (name, desc) := by simpa using g4
      exact ⟨f, hf, by simpa using h⟩
    · refine .attributes hi ((hname name).mp hn) hj ((hspecial bits name desc).mp ⟨g1, g2, g3⟩) (fun f hf he => ?_) h
      have : (ms.map fun f => (f.name, f.descriptor)).reverse.contains (name, desc) = true := by simpa using ⟨f, hf, he⟩
      rw [this] at g4
      cases g4
  · intro h
    cases h with
    | flags h => exact .inl ⟨h, rfl⟩
    | @attributes bits i j name desc s e' hi hn hj hsp hno h =>
      obtain ⟨g1, g2, g3⟩ := (hspecial bits name desc).mpr hsp
      refine .inr ⟨bits, _, _, rfl, rfl, .inr ⟨name, _, _, rfl, ⟨i, hi, rfl⟩, .inr ⟨(hname name).mpr hn, .inr ⟨desc, _, _, rfl, ⟨j, hj, rfl⟩,
        .inr ⟨g1, .inr ⟨g2, .inr ⟨g3, .inr ⟨?_, e', h, rfl⟩⟩⟩⟩⟩⟩⟩⟩
      rw [Bool.eq_false_iff]
      intro hc
      obtain ⟨f, hf, he⟩ : ∃ f ∈ ms, (f.name, f.descriptor) = (name, desc) := by simpa using hc
      exact hno f hf (by simpa using he)
    | @name bits s e' h => exact .inr ⟨bits, _, _, rfl, rfl, .inl ⟨e', h, rfl⟩⟩
    | @badName bits i name s hi hn =>
      refine .inr ⟨bits, _, _, rfl, rfl, .inr ⟨name, _, _, rfl, ⟨i, hi, rfl⟩, .inl ⟨?_, rfl⟩⟩⟩
      cases hb : !isUnqualifiedMethodName name (!inInterface) true with
      | true => rfl
      | false => exact absurd ((hname name).mp hb) hn
    | @descriptor bits i name s e' hi hn h =>
      exact .inr ⟨bits, _, _, rfl, rfl, .inr ⟨name, _, _, rfl, ⟨i, hi, rfl⟩, .inr ⟨(hname name).mpr hn, .inl ⟨e', h, rfl⟩⟩⟩⟩
    | @special bits i j name desc s m hi hn hj hsp =>
      refine .inr ⟨bits, _, _, rfl, rfl, .inr ⟨name, _, _, rfl, ⟨i, hi, rfl⟩, .inr ⟨(hname name).mpr hn, .inr ⟨desc, _, _, rfl, ⟨j, hj, rfl⟩, ?_⟩⟩⟩⟩
      have hdiff : "<clinit>".toList ≠ "<init>".toList := by decide
      cases hsp with
      | init a b c => exact .inl ⟨(hi1 name desc).mpr ⟨a, b, c⟩, rfl⟩
      | clinit b c =>
        refine .inr ⟨Bool.eq_false_iff.mpr fun h => ?_, .inl ⟨(hi2 name desc).mpr ⟨b, c⟩, rfl⟩⟩
        exact hdiff (b.symm.trans ((hi1 name desc).mp h).2.1)
      | arguments b c d f =>
        refine .inr ⟨Bool.eq_false_iff.mpr fun h => ?_, .inr ⟨Bool.eq_false_iff.mpr fun h => ?_, .inl ⟨(hi3 name desc).mpr ⟨b, d, f⟩, rfl⟩⟩⟩
        · exact hdiff (b.symm.trans ((hi1 name desc).mp h).2.1)
        · exact ((hi2 name desc).mp h).2 c
    | @duplicate bits i j name desc s hi hn hj hsp h =>
      obtain ⟨g1, g2, g3⟩ := (hspecial bits name desc).mpr hsp
      obtain ⟨f, hf, h1, h2⟩ := h
      refine .inr ⟨bits, _, _, rfl, rfl, .inr ⟨name, _, _, rfl, ⟨i, hi, rfl⟩, .inr ⟨(hname name).mpr hn, .inr ⟨desc, _, _, rfl, ⟨j, hj, rfl⟩,
        .inr ⟨g1, .inr ⟨g2, .inr ⟨g3, .inl ⟨?_, rfl⟩⟩⟩⟩⟩⟩⟩⟩
      simpa using ⟨f, hf, h1, h2⟩

theorem fields_names (env : Env) (pool : Pool) {A : Bytes → ParseError → Prop} (hA : AttrsNamed C L env pool A) : Names C L env.depth (readFields env pool) (fun s e => (s.length < 2 ∧ e = cutOff L "u2" s) ∨
    ∃ (count : UInt16) (fs : List FieldInfo) (before t : Bytes), s = u2 count ++ (before ++ t) ∧ fs.length < count.toNat ∧ FieldsDistinct fs ∧
      seq (FieldEnc env.opts pool) fs before ∧ FieldWrong L pool A fs t e) := by
  unfold readFields
  refine (Names.bind Names.readU2 Exact.readU2 fun c => names_distinct (fun f : FieldInfo => (f.name, f.descriptor))
    (fun _ _ => rfl) (fun _ _ _ => rfl) (fun seen i => readField_exact env pool seen i) (fun pre => field_names env pool hA pre) c.toNat []).congr
    fun s e _ => or_congr_right ?_
  constructor
  · rintro ⟨c, s1, t1, rfl, rfl, fs, s2, t2, rfl, hl, hp, -, hq, h⟩
    exact ⟨c, fs, s2, t2, rfl, hl, by simpa [FieldsDistinct, Prod.mk.injEq] using hp, hq, h⟩
  · rintro ⟨c, fs, s2, t2, rfl, hl, hp, hq, h⟩
    exact ⟨c, _, _, rfl, rfl, fs, s2, t2, rfl, hl, by simpa [FieldsDistinct, Prod.mk.injEq] using hp, by simp, hq, h⟩

theorem methods_names (env : Env) (pool : Pool) {A : Bytes → ParseError → Prop} (hA : AttrsNamed C L env pool A) (inInterface : Bool) (mj : UInt16) :
    Names C L env.depth (readMethods env pool inInterface mj)
    (fun s e => (s.length < 2 ∧ e = cutOff L "u2" s) ∨
    ∃ (count : UInt16) (ms : List MethodInfo) (before t : Bytes), s = u2 count ++ (before ++ t) ∧ ms.length < count.toNat ∧ MethodsDistinct ms ∧
      seq (MethodEnc env.opts pool (inInterface = true) mj) ms before ∧ MethodWrong L pool A (inInterface = true) mj ms t e) := by
  unfold readMethods
  refine (Names.bind Names.readU2 Exact.readU2 fun c => names_distinct (fun f : MethodInfo => (f.name, f.descriptor))
    (fun _ _ => rfl) (fun _ _ _ => rfl) (fun seen i => readMethod_exact env pool inInterface mj seen i)
    (fun pre => method_names env pool hA inInterface mj pre) c.toNat []).congr fun s e _ => or_congr_right ?_
  constructor
  · rintro ⟨c, s1, t1, rfl, rfl, fs, s2, t2, rfl, hl, hp, -, hq, h⟩
    exact ⟨c, fs, s2, t2, rfl, hl, by simpa [MethodsDistinct, Prod.mk.injEq] using hp, hq, h⟩
  · rintro ⟨c, fs, s2, t2, rfl, hl, hp, hq, h⟩
    exact ⟨c, _, _, rfl, rfl, fs, s2, t2, rfl, hl, by simpa [MethodsDistinct, Prod.mk.injEq] using hp, by simp, hq, h⟩

section
variable {major : UInt16} {pool : Pool} (hok : PoolOK major pool)
include hok

theorem interfaces_names : Names C L N (readInterfaces pool) (fun s e => (s.length < 2 ∧ e = cutOff L "u2" s) ∨
    ∃ (count : UInt16) (ifs : List ClassName) (before t : Bytes) (e' : ParseError), s = u2 count ++ (before ++ t) ∧ ifs.length < count.toNat ∧
      seq (fun c => ref fun i => ClassNameAt pool i c) ifs before ∧ ClassIndexSays L pool False t e' ∧ e = inside s!"interface {ifs.length}" e') := by
  unfold readInterfaces readTable2
  refine (Names.bind Names.readU2 Exact.readU2 fun c => Names.forRangeFrom (fun i => (readClassName_exact hok).mapErr _)
    (fun i => Names.ctx (readClassName_names hok) _) c.toNat 0).congr fun s e _ => or_congr_right ?_
  constructor
  · rintro ⟨c, s1, t1, rfl, rfl, ifs, s2, t2, hl, rfl, hq, e', h, rfl⟩
    exact ⟨c, ifs, s2, t2, e', rfl, hl, hq, h, by rw [Nat.zero_add]⟩
  · rintro ⟨c, ifs, s2, t2, e', rfl, hl, hq, h, rfl⟩
    exact ⟨c, _, _, rfl, rfl, ifs, s2, t2, hl, rfl, hq, e', h, by rw [Nat.zero_add]⟩

theorem body_names (env : Env) {A : Pool → Bytes → ParseError → Prop} (hA : AttrsNamed C L env pool (A pool)) (minor : UInt16) :
    Names C L env.depth (readBody env minor major pool) (fun s e => BodySays L major pool s e ∨
    ∃ (bits i j : UInt16) (this : ClassName) (super : Option ClassName) (ifs : List ClassName) (si t : Bytes),
      s = u2 bits ++ (u2 i ++ (u2 j ++ (si ++ t))) ∧ (IsModule (bits &&& 0xF631) → 53 ≤ major ∧ bits &&& 0xF631 = 0x8000) ∧
      ClassNameAt pool i.toNat this ∧ OptAt ClassNameAt pool j.toNat super ∧ table2 (fun c => ref fun i => ClassNameAt pool i c) ifs si ∧
      BackSays env.opts A L major pool (bits &&& 0xF631) super ifs t e) := by
  have hm : ∀ flags : UInt16, (flagsContains16 flags AccessFlags.INTERFACE = true) = IsInterface flags := fun flags =>
    propext (contains_interface flags)
  have hmask : ∀ bits : UInt16, fromBitsTruncate classMask bits = bits &&& 0xF631 := fun bits => by rw [classMask_eq]; rfl
  have hXI : Exact env.depth (readInterfaces pool) (table2 fun c => ref fun i => ClassNameAt pool i c) :=
    Exact.readTable2 fun i => Exact.mapErr (readClassName_exact hok) _
  unfold readBody
  dsimp only
  refine (Names.bind Names.readU2 Exact.readU2 fun bits => Names.bind (checkModuleFlags_names (fromBitsTruncate classMask bits) major)
    (checkModuleFlags_exact (fromBitsTruncate classMask bits) major) fun _ => Names.bind (Names.ctx (readClassName_names hok) _)
    ((readClassName_exact hok).mapErr _) fun this => Names.bind (Names.ctx (readClassNameOpt_names hok) _)
    ((readClassNameOpt_exact hok).mapErr _) fun super => Names.bind (interfaces_names hok) hXI fun ifs =>
    Names.bind (fields_names env pool hA) (readFields_exact env pool) fun fs =>
    Names.bind (methods_names env pool hA _ major) (readMethods_exact env pool _ major) fun ms =>
    Names.bind (hA _ .ofClass) ((readAttributes_exact env pool env.depth).mapErr _) fun as =>
    end_names pool (fromBitsTruncate classMask bits) super ifs fs ms as _).congr fun s e _ => ?_
  simp only [hm, hmask]
  constructor
  · rintro (⟨h, rfl⟩ | ⟨bits, s1, t1, rfl, rfl, ⟨m, h, rfl⟩ | ⟨_, s2, t2, rfl, ⟨hmod, rfl⟩, ⟨e', h, rfl⟩ | ⟨this, s3, t3, rfl, ⟨i, hthis, rfl⟩, ⟨e', h, rfl⟩ |
      ⟨super, s4, t4, rfl, ⟨j, hsuper, rfl⟩, (⟨h, rfl⟩ | ⟨c, ifs, s5, t5, e', rfl, hl, hq, h, rfl⟩) | ⟨ifs, s5, t5, rfl, hifs, h⟩⟩⟩⟩⟩)
    · exact .inl (.noFlags h)
    · exact .inl (.flags h)
    · exact .inl (.thisClass hmod h)
    · exact .inl (.superClass hmod hthis h)
    · exact .inl (.interfaces hmod hthis hsuper h)
    · exact .inl (.interface' hmod hthis hsuper hl hq h)
    · refine .inr ⟨bits, i, j, this, super, ifs, s5, t5, rfl, hmod, hthis, hsuper, hifs, ?_⟩
      rcases h with (⟨h, rfl⟩ | ⟨c, fs, s6, t6, rfl, hl, hd, hq, h⟩) | ⟨fs, s6, t6, rfl, ⟨hdf, hfs⟩, (⟨h, rfl⟩ | ⟨c, ms, s7, t7, rfl, hl, hd, hq, h⟩) |
        ⟨ms, s7, t7, rfl, ⟨hdm, hms⟩, ⟨e', h, rfl⟩ | ⟨as, s8, t8, rfl, has, m, h, rfl⟩⟩⟩
      · exact .fields h
      · exact .field hl hd hq h
      · exact .methods hdf hfs h
      · exact .method hdf hfs hl hd hq h
      · exact .attributes hdf hfs hdm hms h
      · exact .final hdf hfs hdm hms has h
  · rintro (h | ⟨bits, i, j, this, super, ifs, si, t, rfl, hmod, hthis, hsuper, hifs, h⟩)
    · cases h with
      | noFlags h => exact .inl ⟨h, rfl⟩
      | @flags bits s m h => exact .inr ⟨bits, _, _, rfl, rfl, .inl ⟨m, h, rfl⟩⟩
      | @thisClass bits s e' hmod h => exact .inr ⟨bits, _, _, rfl, rfl, .inr ⟨(), [], _, rfl, ⟨hmod, rfl⟩, .inl ⟨e', h, rfl⟩⟩⟩
      | @superClass bits i this s e' hmod hthis h =>
        exact .inr ⟨bits, _, _, rfl, rfl, .inr ⟨(), [], _, rfl, ⟨hmod, rfl⟩, .inr ⟨this, _, _, rfl, ⟨i, hthis, rfl⟩, .inl ⟨e', h, rfl⟩⟩⟩⟩
      | @interfaces bits i j this super s hmod hthis hsuper h =>
        exact .inr ⟨bits, _, _, rfl, rfl, .inr ⟨(), [], _, rfl, ⟨hmod, rfl⟩, .inr ⟨this, _, _, rfl, ⟨i, hthis, rfl⟩, .inr ⟨super, _, _, rfl, ⟨j, hsuper, rfl⟩,
          .inl (.inl ⟨h, rfl⟩)⟩⟩⟩⟩
      | @interface' bits i j count this super ifs before s e' hmod hthis hsuper hl hq h =>
        exact .inr ⟨bits, _, _, rfl, rfl, .inr ⟨(), [], _, rfl, ⟨hmod, rfl⟩, .inr ⟨this, _, _, rfl, ⟨i, hthis, rfl⟩, .inr ⟨super, _, _, rfl, ⟨j, hsuper, rfl⟩,
          .inl (.inr ⟨count, ifs, before, s, e', rfl, hl, hq, h, rfl⟩)⟩⟩⟩⟩
    · refine .inr ⟨bits, _, _, rfl, rfl, .inr ⟨(), [], _, rfl, ⟨hmod, rfl⟩, .inr ⟨this, _, _, rfl, ⟨i, hthis, rfl⟩, .inr ⟨super, _, _, rfl, ⟨j, hsuper, rfl⟩,
        .inr ⟨ifs, si, t, rfl, hifs, ?_⟩⟩⟩⟩⟩
      cases h with
      | fields h => exact .inl (.inl ⟨h, rfl⟩)
      | @field count fs before s e' hl hd hq h => exact .inl (.inr ⟨count, fs, before, s, rfl, hl, hd, hq, h⟩)
      | @methods fs sf s hdf hfs h => exact .inr ⟨fs, sf, s, rfl, ⟨hdf, hfs⟩, .inl (.inl ⟨h, rfl⟩)⟩
      | @method count fs ms sf before s e' hdf hfs hl hd hq h =>
        exact .inr ⟨fs, sf, _, rfl, ⟨hdf, hfs⟩, .inl (.inr ⟨count, ms, before, s, rfl, hl, hd, hq, h⟩)⟩
      | @attributes fs ms sf sm s e' hdf hfs hdm hms h =>
        exact .inr ⟨fs, sf, _, rfl, ⟨hdf, hfs⟩, .inr ⟨ms, sm, _, rfl, ⟨hdm, hms⟩, .inl ⟨e', h, rfl⟩⟩⟩
      | @final fs ms as sf sm sa rest m hdf hfs hdm hms has h =>
        exact .inr ⟨fs, sf, _, rfl, ⟨hdf, hfs⟩, .inr ⟨ms, sm, _, rfl, ⟨hdm, hms⟩, .inr ⟨as, sa, rest, rfl, has, m, h, rfl⟩⟩⟩

end

theorem file_names (env : Env) (h2 : 2 ≤ env.depth) {A : Pool → Bytes → ParseError → Prop}
    (hA : ∀ major pool, PoolOK major pool → AttrsNamed C L env pool (A pool)) : Names C L env.depth (readClassFile env) (SaysOf env.opts A L) := by
  rw [readClassFile_eq]
  refine (Names.bind header_names readHeader_exact
    fun v => Names.bindW (H := fun pool s e => BodySays L v.2 pool s e ∨
    ∃ (bits i j : UInt16) (this : ClassName) (super : Option ClassName) (ifs : List ClassName) (si t : Bytes),
      s = u2 bits ++ (u2 i ++ (u2 j ++ (si ++ t))) ∧ (IsModule (bits &&& 0xF631) → 53 ≤ v.2 ∧ bits &&& 0xF631 = 0x8000) ∧
      ClassNameAt pool i.toNat this ∧ OptAt ClassNameAt pool j.toNat super ∧ table2 (fun c => ref fun i => ClassNameAt pool i c) ifs si ∧
      BackSays env.opts A L v.2 pool (bits &&& 0xF631) super ifs t e) (readConstantPool_names env h2 v.2) (readConstantPool_exact env h2 v.2)
    fun pool hp => ?_).congr fun s e _ => ?_
  · obtain ⟨_, raw, -, -, hok⟩ := hp
    exact body_names hok env (hA _ _ hok) v.1
  · constructor
    · rintro (h | ⟨⟨minor, major⟩, s1, t1, rfl, rfl, h | ⟨pool, s2, t2, rfl, hp, h | ⟨bits, i, j, this, super, ifs, si, t, rfl, hmod, hthis, hsuper, hifs, h⟩⟩⟩)
      · exact .header h
      · exact .pool h
      · exact .body hp h
      · exact .back hp hmod hthis hsuper hifs h
    · intro h
      cases h with
      | header h => exact .inl h
      | @pool minor major s e' h => exact .inr ⟨(minor, major), _, s, rfl, rfl, .inl h⟩
      | @body minor major pool sp s e' hp h => exact .inr ⟨(minor, major), _, _, rfl, rfl, .inr ⟨pool, sp, s, rfl, hp, .inl h⟩⟩
      | @back minor major bits i j pool this super ifs sp si s e' hp hmod hthis hsuper hifs h =>
        exact .inr ⟨(minor, major), _, _, rfl, rfl, .inr ⟨pool, sp, _, rfl, hp, .inr ⟨bits, i, j, this, super, ifs, si, s, rfl, hmod, hthis, hsuper, hifs, h⟩⟩⟩

end
end Cafebabe
