import Verif.Model.ClassFile
import Verif.Spec.ClassFile
import Verif.Proofs.Attributes
/-!
# Proofs: `parse_class` accepts exactly the class files
-/

namespace Cafebabe
open Spec

/-! ## Class names -/

theorem joinSlash_segs {gs hs : List Str} (hg : gs ≠ []) (hh : hs ≠ []) (h1 : ∀ g ∈ gs, ∀ c ∈ g, c ≠ '/')
    (h2 : ∀ g ∈ hs, ∀ c ∈ g, c ≠ '/') (h : joinSlash gs = joinSlash hs) : gs = hs := by
  obtain ⟨g, gs, rfl⟩ := List.exists_cons_of_ne_nil hg
  obtain ⟨k, hs, rfl⟩ := List.exists_cons_of_ne_nil hh
  have e1 := splitSlashAux_joinSlash (cur := []) h1
  have e2 := splitSlashAux_joinSlash (cur := []) h2
  rw [h] at e1
  simpa using e1.symm.trans e2

theorem mem_joinSlash {c : Char} {g : Str} : ∀ {gs : List Str}, g ∈ gs → c ∈ g → c ∈ joinSlash gs
  | [s], h, hc => by simp at h; subst h; exact hc
  | s :: t :: r, h, hc => by
    rw [joinSlash_cons_cons]
    rcases List.mem_cons.mp h with rfl | h
    · exact List.mem_append_left _ hc
    · exact List.mem_append_right _ (List.mem_cons_of_mem _ (mem_joinSlash h hc))

theorem of_mem_joinSlash {c : Char} : ∀ {gs : List Str}, c ∈ joinSlash gs → c = '/' ∨ ∃ g ∈ gs, c ∈ g
  | [], h => by simp [joinSlash] at h
  | [s], h => .inr ⟨s, by simp, h⟩
  | s :: t :: r, h => by
    rw [joinSlash_cons_cons] at h
    rcases List.mem_append.mp h with h | h
    · exact .inr ⟨s, by simp, h⟩
    · rcases List.mem_cons.mp h with h | h
      · exact .inl h
      · rcases of_mem_joinSlash h with h | ⟨g, hg, h⟩
        · exact .inl h
        · exact .inr ⟨g, List.mem_cons_of_mem _ hg, h⟩

theorem lax_no_bracket {s : Str} (h : LaxClassName s) : '[' ∉ s := by
  obtain ⟨segs, last, h1, h2, rfl⟩ := h
  intro hb
  rcases of_mem_joinSlash hb with hb | ⟨g, hg, hb'⟩
  · simp at hb
  · rcases List.mem_append.mp hg with hg | hg
    · exact ((h1 g hg).1.2 _ hb').2.2.1 rfl
    · simp at hg; subst hg
      rcases h2 with rfl | h2
      · simp at hb'
      · exact (h2.1.2 _ hb').2.2.1 rfl

theorem lax_of_class {s : Str} (h : ClassNameText s) : LaxClassName s := by
  obtain ⟨segs, hne, h1, rfl⟩ := h
  refine ⟨segs.dropLast, segs.getLast hne, fun g hg => h1 g (List.dropLast_subset _ hg), .inr (h1 _ (List.getLast_mem hne)), ?_⟩
  rw [List.dropLast_concat_getLast hne]

theorem class_of_lax {s : Str} (h : LaxClassName s) (hb : BinaryName s) : ClassNameText s := by
  obtain ⟨segs, last, h1, h2, rfl⟩ := h
  obtain ⟨gs, hgs, hg, he⟩ := hb
  have : segs ++ [last] = gs := by
    refine joinSlash_segs (by simp) hgs ?_ (fun g hg' c hc => ((hg g hg').2 c hc).2.2.2) he
    intro g hg' c hc
    rcases List.mem_append.mp hg' with hg' | hg'
    · exact ((h1 g hg').1.2 c hc).2.2.2
    · simp at hg'; subst hg'
      rcases h2 with rfl | h2
      · simp at hc
      · exact (h2.1.2 c hc).2.2.2
  have hl : UnqualifiedName last := hg last (by rw [← this]; simp)
  refine ⟨segs ++ [last], by simp, ?_, rfl⟩
  intro g hg'
  rcases List.mem_append.mp hg' with hg' | hg'
  · exact h1 g hg'
  · simp at hg'; subst hg'
    rcases h2 with rfl | h2
    · exact absurd rfl hl.1
    · exact h2

theorem classAt_lax {major : UInt16} {pool : Pool} (hok : PoolOK major pool) {i : Nat} {s : Str} (h : ClassAt pool i s) :
    LaxClassName s ↔ ClassNameText s := by
  obtain ⟨x, hi, hx⟩ := h
  obtain ⟨s', hs', hb⟩ := hok i _ hi
  have : s' = s := by unfold TextAt at hs' hx; rw [hs'] at hx; cases hx; rfl
  subst this
  refine ⟨fun hl => ?_, lax_of_class⟩
  rcases hb with hb | ⟨d, hd, hdim, rfl⟩
  · exact class_of_lax hl hb
  · obtain ⟨r, hr⟩ := (fieldText_bracket d hd).mpr hdim
    exact absurd (by rw [hr]; simp) (lax_no_bracket hl)

theorem readClassName_exact {N : Nat} {major : UInt16} {pool : Pool} (hok : PoolOK major pool) :
    Exact N (readClassName pool) (fun c => ref fun i => ClassNameAt pool i c) := by
  unfold readClassName
  refine (Exact.bind (readCpClassinfo_exact pool) fun s => Exact.lift _).congr ?_
  intro c seg
  constructor
  · rintro ⟨s, s', t, rfl, ⟨i, hi, rfl⟩, h, rfl⟩
    obtain ⟨rfl, hl⟩ := ((tryFrom_decides s).ok_iff c).mp h
    exact ⟨i, ⟨hi, (classAt_lax hok hi).mp hl⟩, by simp⟩
  · rintro ⟨i, ⟨hi, h⟩, rfl⟩
    exact ⟨c.name, u2 i, [], by simp, ⟨i, hi, rfl⟩, ((tryFrom_decides _).ok_iff c).mpr ⟨rfl, (classAt_lax hok hi).mpr h⟩, rfl⟩

theorem readClassNameOpt_exact {N : Nat} {major : UInt16} {pool : Pool} (hok : PoolOK major pool) :
    Exact N (readClassNameOpt pool) (fun c => ref fun i => OptAt ClassNameAt pool i c) := by
  unfold readClassNameOpt
  refine (Exact.bind (readCpClassinfoOpt_exact pool) (G := fun o c seg => seg = [] ∧ (match o with
    | none => c = none
    | some s => ∃ c', c = some c' ∧ c'.name = s ∧ LaxClassName s)) fun o => ?_).congr ?_
  · cases o with
    | none => exact (Exact.pure none).congr (by simp [and_comm])
    | some s =>
      refine (exact_map (Exact.lift (ClassName.tryFrom s)) some).congr ?_
      intro c seg
      constructor
      · rintro ⟨c', rfl, h, rfl⟩; exact ⟨rfl, c', rfl, ((tryFrom_decides s).ok_iff _).mp h⟩
      · rintro ⟨rfl, c', rfl, h⟩; exact ⟨c', rfl, ((tryFrom_decides s).ok_iff _).mpr h, rfl⟩
  · intro c seg
    constructor
    · rintro ⟨o, s', t, rfl, ⟨i, hi, rfl⟩, rfl, h⟩
      refine ⟨i, ?_, by simp⟩
      cases o with
      | none => cases h; exact hi
      | some s =>
        obtain ⟨c', rfl, rfl, hl⟩ := h
        exact ⟨hi, (classAt_lax hok hi).mp hl⟩
    · rintro ⟨i, hi, rfl⟩
      cases c with
      | none => exact ⟨none, u2 i, [], by simp, ⟨i, hi, rfl⟩, rfl, rfl⟩
      | some c => exact ⟨some c.name, u2 i, [], by simp, ⟨i, hi.1, rfl⟩, rfl, c, rfl, rfl, lax_of_class hi.2⟩

/-! ## Fields -/

theorem P.bind_pure' {α β γ : Type} (p : P α) (g : α → β) (k : β → P γ) :
    (p >>= fun a => k (g a)) = ((p >>= fun a => (pure (g a) : P β)) >>= k) := by
  rw [← P.bind_assoc]; rfl

theorem maskedFlags_exact {N : Nat} (mask : UInt16) :
    Exact N (readU2 >>= fun bits => (pure (fromBitsTruncate mask bits) : P UInt16)) (maskedFlags mask) := by
  refine (exact_map Exact.readU2 _).congr ?_
  intro fl seg
  constructor
  · rintro ⟨bits, rfl, rfl⟩; exact ⟨bits, rfl, rfl⟩
  · rintro ⟨bits, rfl, rfl⟩; exact ⟨bits, rfl, rfl⟩

/-- Flags read first, used last. -/
theorem exact_flags {β : Type} {N : Nat} {mask : UInt16} {f : UInt16 → P β} {G : β → Lang} {C : β → Prop} (proj : β → UInt16)
    (hf : ∀ a, Exact N (f a) (fun b seg => (C b ∧ proj b = fromBitsTruncate mask a) ∧ G b seg)) :
    Exact N (readU2 >>= f) (fun b seg => C b ∧ (maskedFlags mask (proj b) ⬝ G b) seg) := by
  refine (Exact.bind Exact.readU2 hf).congr ?_
  intro b seg
  constructor
  · rintro ⟨a, s, t, rfl, rfl, ⟨h2, h⟩, h3⟩
    exact ⟨h2, _, t, rfl, ⟨a, h, rfl⟩, h3⟩
  · rintro ⟨h2, s, t, rfl, ⟨a, h, rfl⟩, h3⟩
    exact ⟨a, _, t, rfl, rfl, ⟨h2, h⟩, h3⟩

theorem fieldMask_eq : fieldMask = 0x50DF := by decide
theorem methodMask_eq : methodMask = 0x1DFF := by decide
theorem classMask_eq : classMask = 0xF631 := by decide

theorem readField_exact (env : Env) (pool : Pool) (seen : List (Str × FieldDescriptor)) (i : Nat) :
    Exact env.depth (readField env pool seen i) (fun f seg => (f.name, f.descriptor) ∉ seen ∧ FieldEnc env.opts pool f seg) := by
  refine Exact.congr (F := fun f seg => ((f.name, f.descriptor) ∉ seen ∧ UnqualifiedName f.name) ∧
    (maskedFlags 0x50DF f.accessFlags ⬝ (ref fun i => TextAt pool i f.name) ⬝
      (ref fun i => FieldDescriptorAt pool i f.descriptor) ⬝ AttributesEnc env.opts pool f.attributes) seg) ?_
      fun f seg => and_assoc
  unfold readField
  rw [fieldMask_eq]
  refine exact_flags FieldInfo.accessFlags fun bits => ?_
  refine exact_cat FieldInfo.name (Exact.mapErr (readCpUtf8_exact pool) _) fun name => exact_failIf ?_ fun hn => ?_
  · rintro f seg ⟨⟨⟨⟨-, h⟩, -⟩, rfl⟩, -⟩; exact not_isUnqualified.mpr h
  have hn := not_isUnqualified.mp hn
  refine Exact.congr (F := fun f seg => ((((f.name, f.descriptor) ∉ seen ∧ UnqualifiedName f.name) ∧
    f.accessFlags = fromBitsTruncate 0x50DF bits) ∧ f.name = name) ∧
      ((ref fun i => FieldDescriptorAt pool i f.descriptor) ⬝ AttributesEnc env.opts pool f.attributes) seg) ?_ fun f seg => Iff.rfl
  rw [show (do
      let d ← (readCpUtf8 pool).mapErr s!"descriptor of class field {i}"
      let descriptor ← P.lift (parseFieldDescriptor d 0)
      P.failIf (seen.contains (name, descriptor)) s!"Class field {i} is duplicate of previously-encountered field"
      let attributes ← (readAttributes env pool env.depth).mapErr s!"class field {i}"
      pure { accessFlags := fromBitsTruncate 0x50DF bits, name := name, descriptor := descriptor, attributes := attributes })
      = ((readCpUtf8 pool).mapErr s!"descriptor of class field {i}" >>= fun d => P.lift (parseFieldDescriptor d 0)) >>= (fun descriptor => do
      P.failIf (seen.contains (name, descriptor)) s!"Class field {i} is duplicate of previously-encountered field"
      let attributes ← (readAttributes env pool env.depth).mapErr s!"class field {i}"
      pure ({ accessFlags := fromBitsTruncate 0x50DF bits, name := name, descriptor := descriptor, attributes := attributes } : FieldInfo))
      from P.bind_assoc _ _ _]
  have hd : Exact env.depth ((readCpUtf8 pool).mapErr s!"descriptor of class field {i}" >>= fun d => P.lift (parseFieldDescriptor d 0))
      (fun d => ref (FieldDescriptorAt pool · d)) := by
    refine (Exact.bind (Exact.mapErr (readCpUtf8_exact pool) _) fun s => Exact.lift _).congr ?_
    intro d seg
    constructor
    · rintro ⟨s, s', t, rfl, ⟨i, hi, rfl⟩, h, rfl⟩
      exact ⟨i, ⟨s, hi, ((parseFieldDescriptor_zero s).ok_iff d).mp h⟩, by simp⟩
    · rintro ⟨i, ⟨s, hi, h⟩, rfl⟩
      exact ⟨s, u2 i, [], by simp, ⟨i, hi, rfl⟩, ((parseFieldDescriptor_zero s).ok_iff d).mpr h, rfl⟩
  refine exact_cat FieldInfo.descriptor hd fun d => exact_failIf ?_ fun hs => ?_
  · rintro f seg ⟨⟨⟨⟨⟨h, -⟩, -⟩, rfl⟩, rfl⟩, -⟩; simpa using h
  have hs : (name, d) ∉ seen := by simpa using hs
  refine exact_last FieldInfo.attributes (Exact.mapErr (readAttributes_exact env pool env.depth) _) fun as _ _ x => ?_
  cases x
  simp only [FieldInfo.mk.injEq]
  constructor
  · rintro ⟨⟨⟨⟨-, rfl⟩, rfl⟩, rfl⟩, rfl⟩; exact ⟨rfl, rfl, rfl, rfl⟩
  · rintro ⟨rfl, rfl, rfl, rfl⟩; exact ⟨⟨⟨⟨⟨hs, hn⟩, rfl⟩, rfl⟩, rfl⟩, rfl⟩

/-- A loop that refuses an element whose key was seen before. -/
theorem exact_distinct {α κ : Type} {N : Nat} (key : α → κ) {loop : List κ → Nat → Nat → P (List α)} {read : List κ → Nat → P α}
    {E : α → Lang} (h0 : ∀ seen i, loop seen i 0 = pure [])
    (hs : ∀ seen i n, loop seen i (n + 1) = read seen i >>= fun f => loop (key f :: seen) (i + 1) n >>= fun fs => pure (f :: fs))
    (hr : ∀ seen i, Exact N (read seen i) (fun f seg => key f ∉ seen ∧ E f seg)) : ∀ (n : Nat) (seen : List κ) (i : Nat),
    Exact N (loop seen i n) (fun fs seg => fs.length = n ∧ (fs.Pairwise fun f g => ¬ key f = key g) ∧ (∀ f ∈ fs, key f ∉ seen) ∧
      seq E fs seg)
  | 0, seen, i => by
    rw [h0]
    refine (Exact.pure _).congr ?_
    intro fs seg
    constructor
    · rintro ⟨rfl, rfl⟩; exact ⟨rfl, by simp, by simp, rfl⟩
    · rintro ⟨h, -, -, hs⟩
      cases fs with
      | nil => exact ⟨rfl, hs⟩
      | cons _ _ => simp at h
  | n + 1, seen, i => by
    rw [hs]
    refine (Exact.bind (hr seen i) fun f => exact_map (exact_distinct key h0 hs hr n (key f :: seen) (i + 1)) _).congr ?_
    intro fs seg
    constructor
    · rintro ⟨f, s, t, rfl, ⟨h1, h2⟩, fs, rfl, h3, h4, h5, h6⟩
      refine ⟨by simp [h3], List.pairwise_cons.mpr ⟨fun g hg he => h5 g hg (by simp [he]), h4⟩, ?_, s, t, rfl, h2, h6⟩
      intro g hg
      rcases List.mem_cons.mp hg with rfl | hg
      · exact h1
      · exact fun hk => h5 g hg (List.mem_cons_of_mem _ hk)
    · rintro ⟨h3, h4, h5, h6⟩
      cases fs with
      | nil => simp at h3
      | cons f fs =>
        obtain ⟨s, t, rfl, h2, h6⟩ := h6
        rw [List.pairwise_cons] at h4
        refine ⟨f, s, t, rfl, ⟨h5 f (by simp), h2⟩, fs, rfl, by simpa using h3, h4.2, ?_, h6⟩
        intro g hg hk
        rcases List.mem_cons.mp hk with hk | hk
        · exact h4.1 g hg hk.symm
        · exact h5 g (List.mem_cons_of_mem _ hg) hk

theorem exact_distinct2 {α κ : Type} {N : Nat} {key : α → κ} {loop : List κ → Nat → Nat → P (List α)} {E : α → Lang}
    (h : ∀ (n : Nat) (seen : List κ) (i : Nat), Exact N (loop seen i n) (fun fs seg => fs.length = n ∧
      (fs.Pairwise fun f g => ¬ key f = key g) ∧ (∀ f ∈ fs, key f ∉ seen) ∧ seq E fs seg)) :
    Exact N (readU2 >>= fun c => loop [] 0 c.toNat) (fun fs seg => (fs.Pairwise fun f g => ¬ key f = key g) ∧ table2 E fs seg) := by
  refine (Exact.bind Exact.readU2 fun c => h c.toNat [] 0).congr ?_
  intro fs seg
  constructor
  · rintro ⟨c, s, t, rfl, rfl, h1, h2, -, h3⟩; exact ⟨h2, c, h1.symm, _, t, rfl, rfl, h3⟩
  · rintro ⟨h2, c, h1, s, t, rfl, rfl, h3⟩; exact ⟨c, _, t, rfl, rfl, h1.symm, h2, by simp, h3⟩

theorem readFields_exact (env : Env) (pool : Pool) :
    Exact env.depth (readFields env pool) (fun fs seg => FieldsDistinct fs ∧ table2 (FieldEnc env.opts pool) fs seg) := by
  refine (exact_distinct2 (exact_distinct (fun f : FieldInfo => (f.name, f.descriptor)) (fun _ _ => rfl) (fun _ _ _ => rfl)
    fun seen i => readField_exact env pool seen i)).congr ?_
  intro fs seg
  simp only [FieldsDistinct, Prod.mk.injEq]

/-! ## Methods -/

theorem readMethodDescriptor_exact {N : Nat} (pool : Pool) :
    Exact N (readMethodDescriptor pool) (fun d => ref (MethodDescriptorAt pool · d)) := by
  unfold readMethodDescriptor
  refine (Exact.bind (readCpUtf8_exact pool) fun s => Exact.lift _).congr ?_
  intro d seg
  constructor
  · rintro ⟨s, s', t, rfl, ⟨i, hi, rfl⟩, h, rfl⟩
    exact ⟨i, ⟨s, hi, ((parseMethodDescriptor_decides s).ok_iff d).mp h⟩, by simp⟩
  · rintro ⟨i, ⟨s, hi, h⟩, rfl⟩
    exact ⟨s, u2 i, [], by simp, ⟨i, hi, rfl⟩, ((parseMethodDescriptor_decides s).ok_iff d).mpr h, rfl⟩

theorem readMethod_exact (env : Env) (pool : Pool) (inInterface : Bool) (major : UInt16) (seen : List (Str × MethodDescriptor)) (i : Nat) :
    Exact env.depth (readMethod env pool inInterface major seen i)
      (fun m seg => (m.name, m.descriptor) ∉ seen ∧ MethodEnc env.opts pool (inInterface = true) major m seg) := by
  refine Exact.congr (F := fun m seg => ((m.name, m.descriptor) ∉ seen ∧ (MethodName (¬ inInterface = true) True m.name ∧
    SpecialMethodOK (inInterface = true) major m)) ∧
    (maskedFlags 0x1DFF m.accessFlags ⬝ (ref fun i => TextAt pool i m.name) ⬝
      (ref fun i => MethodDescriptorAt pool i m.descriptor) ⬝ AttributesEnc env.opts pool m.attributes) seg) ?_
      fun f seg => and_assoc
  unfold readMethod
  rw [methodMask_eq]
  refine exact_flags MethodInfo.accessFlags fun bits => ?_
  refine exact_cat MethodInfo.name (Exact.mapErr (readCpUtf8_exact pool) _) fun name => exact_failIf ?_ fun hn => ?_
  · rintro f seg ⟨⟨⟨⟨-, h, -⟩, -⟩, rfl⟩, -⟩
    have := (isUnqualifiedMethodName_iff f.name (!inInterface) true).mpr (by simpa using h)
    simp [this]
  have hn : MethodName (¬ inInterface = true) True name := by
    simpa using (isUnqualifiedMethodName_iff name (!inInterface) true).mp (by simpa using hn)
  refine exact_cat MethodInfo.descriptor (Exact.mapErr (readMethodDescriptor_exact pool) _) fun d =>
    exact_failIf ?_ fun h1 => exact_failIf ?_ fun h2 => exact_failIf ?_ fun h3 => exact_failIf ?_ fun h4 => ?_
  · rintro f seg ⟨⟨⟨⟨⟨-, -, h⟩, -⟩, rfl⟩, rfl⟩, -⟩
    have := h.1
    cases inInterface <;> simp_all
  · rintro f seg ⟨⟨⟨⟨⟨-, -, h⟩, -⟩, rfl⟩, rfl⟩, -⟩
    have := h.2
    simp_all
  · rintro f seg ⟨⟨⟨⟨⟨-, -, h⟩, -⟩, rfl⟩, rfl⟩, -⟩
    have := h.2
    simp only [Bool.and_eq_false_iff, beq_eq_false_iff_ne]
    by_cases hc : f.name = "<clinit>".toList
    · right
      by_cases hm : 51 ≤ major
      · right; simp [(this hc).2 hm]
      · left; simpa using hm
    · left; exact hc
  · rintro f seg ⟨⟨⟨⟨⟨h, -⟩, -⟩, rfl⟩, rfl⟩, -⟩; simpa using h
  have hs : (name, d) ∉ seen := by simpa using h4
  refine exact_last MethodInfo.attributes (Exact.mapErr (readAttributes_exact env pool env.depth) _) fun as _ _ x => ?_
  cases x
  simp only [MethodInfo.mk.injEq]
  constructor
  · rintro ⟨⟨⟨⟨-, rfl⟩, rfl⟩, rfl⟩, rfl⟩; exact ⟨rfl, rfl, rfl, rfl⟩
  · rintro ⟨rfl, rfl, rfl, rfl⟩
    refine ⟨⟨⟨⟨⟨hs, hn, ?_, ?_⟩, rfl⟩, rfl⟩, rfl⟩, rfl⟩
    · rintro hi hni
      cases inInterface <;> simp_all
    · intro hc
      refine ⟨by simp_all, fun hm => ?_⟩
      simp only [Bool.and_eq_false_iff] at h3
      rcases h3 with h3 | h3 | h3
      · exact absurd hc (by simpa using h3)
      · exact absurd hm (by simpa using h3)
      · simpa using h3

theorem readMethods_exact (env : Env) (pool : Pool) (inInterface : Bool) (major : UInt16) :
    Exact env.depth (readMethods env pool inInterface major) (fun ms seg => MethodsDistinct ms ∧
      table2 (MethodEnc env.opts pool (inInterface = true) major) ms seg) := by
  refine (exact_distinct2 (exact_distinct (fun f : MethodInfo => (f.name, f.descriptor)) (fun _ _ => rfl) (fun _ _ _ => rfl)
    fun seen i => readMethod_exact env pool inInterface major seen i)).congr ?_
  intro fs seg
  simp only [MethodsDistinct, Prod.mk.injEq]

/-! ## The whole file -/

/-- On inputs with fewer than `N` bytes left, `p` returns `a` exactly when what is left is in `F a`. -/
def ExactEnd {α : Type} (N : Nat) (p : P α) (F : α → Lang) : Prop :=
  ∀ (bytes : Bytes) (ix : Nat), ix ≤ bytes.length → bytes.length < ix + N → ∀ (a : α) (ix' : Nat),
    p bytes ix = .ok (a, ix') ↔ F a (bytes.drop ix) ∧ ix' = bytes.length

theorem ExactEnd.congr {α : Type} {N : Nat} {p : P α} {F G : α → Lang} (h : ExactEnd N p F)
    (hFG : ∀ a seg, F a seg ↔ G a seg) : ExactEnd N p G := by
  intro bytes ix h1 h2 a ix'
  rw [h bytes ix h1 h2 a ix', hFG]

theorem ExactEnd.bind {α β : Type} {N : Nat} {p : P α} {f : α → P β} {F : α → Lang} {G : α → β → Lang} (hp : Exact N p F)
    (hf : ∀ a, (∃ seg, F a seg) → ExactEnd N (f a) (G a)) : ExactEnd N (p >>= f) (fun b seg => ∃ a, (F a ⬝ G a b) seg) := by
  intro bytes ix h1 h2 b ix''
  rw [P.bind_ok]
  constructor
  · rintro ⟨a, ix', ha, hb⟩
    obtain ⟨seg, rest, hd, hF, rfl⟩ := (hp bytes ix h1 h2 a ix').mp ha
    have hl := length_of_drop_eq h1 hd
    obtain ⟨hG, rfl⟩ := (hf a ⟨seg, hF⟩ bytes _ (by omega) (by omega) b ix'').mp hb
    rw [drop_of_drop_eq hd] at hG
    exact ⟨⟨a, seg, rest, hd, hF, hG⟩, rfl⟩
  · rintro ⟨⟨a, seg, rest, hd, hF, hG⟩, rfl⟩
    have hl := length_of_drop_eq h1 hd
    refine ⟨a, _, (hp bytes ix h1 h2 a _).mpr ⟨seg, rest, hd, hF, rfl⟩, ?_⟩
    refine (hf a ⟨seg, hF⟩ bytes _ (by omega) (by omega) b _).mpr ⟨?_, rfl⟩
    rw [drop_of_drop_eq hd]; exact hG

/-- One field of a record. -/
theorem end_cat {α β : Type} {N : Nat} {p : P α} {f : α → P β} {F : α → Lang} {G : β → Lang} {C : β → Prop} (proj : β → α)
    (hp : Exact N p F) (hf : ∀ a, (∃ seg, F a seg) → ExactEnd N (f a) (fun b seg => (C b ∧ proj b = a) ∧ G b seg)) :
    ExactEnd N (p >>= f) (fun b seg => C b ∧ (F (proj b) ⬝ G b) seg) := by
  refine (ExactEnd.bind hp hf).congr ?_
  intro b seg
  constructor
  · rintro ⟨a, s, t, rfl, h1, ⟨h2, rfl⟩, h3⟩
    exact ⟨h2, s, t, rfl, h1, h3⟩
  · rintro ⟨h2, s, t, rfl, h1, h3⟩
    exact ⟨_, s, t, rfl, h1, ⟨h2, rfl⟩, h3⟩

/-- A check that reads nothing. -/
theorem end_guard {β : Type} {N : Nat} {g : P Unit} {q : Unit → P β} {Q : Prop} {S : β → Lang}
    (hg : Exact N g (fun _ seg => Q ∧ seg = [])) (hS : ∀ b seg, S b seg → Q) (hq : Q → ExactEnd N (q ()) S) : ExactEnd N (g >>= q) S := by
  refine (ExactEnd.bind hg fun _ ⟨_, hQ, _⟩ => hq hQ).congr ?_
  intro b seg
  constructor
  · rintro ⟨_, s, t, rfl, ⟨_, rfl⟩, h⟩; exact h
  · intro h; exact ⟨(), [], seg, rfl, ⟨hS b seg h, rfl⟩, h⟩

theorem end_atEnd {β : Type} {N : Nat} {x : β} {g : P Unit} {r : Res Unit} {Q : Prop} (hg : Exact N g (fun _ seg => Q ∧ seg = [])) :
    ExactEnd N (checkAtEnd >>= fun _ => g >>= fun _ => P.lift r >>= fun _ => pure x) (fun b seg => (Q ∧ r = .ok () ∧ b = x) ∧ lit [] seg) := by
  intro bytes ix h1 h2 b ix'
  simp only [P.bind_ok]
  constructor
  · rintro ⟨_, ix1, hc, _, ix2, h3, _, ix3, h4, h5⟩
    unfold checkAtEnd at hc
    split at hc
    · cases hc
    · rename_i he
      cases hc
      obtain ⟨seg, rest, hd, ⟨hQ, rfl⟩, rfl⟩ := (hg bytes ix h1 h2 _ _).mp h3
      obtain ⟨seg, rest, hd, ⟨hr, rfl⟩, rfl⟩ := (Exact.lift (N := N) r bytes _ (by simpa using h1) (by simpa using h2) _ _).mp h4
      cases h5
      refine ⟨⟨⟨hQ, hr, rfl⟩, ?_⟩, by show _ = _; simp_all⟩
      show List.drop _ _ = _
      apply List.drop_eq_nil_of_le; omega
  · rintro ⟨⟨⟨hQ, rfl, rfl⟩, hd⟩, rfl⟩
    have hl : ix = bytes.length := by
      have := List.drop_eq_nil_iff.mp (show bytes.drop ix = [] from hd); omega
    subst hl
    refine ⟨(), bytes.length, by simp [checkAtEnd], (), bytes.length, ?_, (), bytes.length, rfl, rfl⟩
    exact (hg bytes _ h1 h2 _ _).mpr ⟨[], _, rfl, ⟨hQ, rfl⟩, rfl⟩

theorem bit_contains (b : BitVec 16) (k : Nat) : ¬ b &&& BitVec.twoPow 16 k = 0#16 → b &&& BitVec.twoPow 16 k = BitVec.twoPow 16 k := by
  rw [BitVec.and_twoPow]
  split <;> simp

theorem contains_module (fl : UInt16) : flagsContains16 fl AccessFlags.MODULE = true ↔ IsModule fl := by
  unfold flagsContains16 IsModule AccessFlags.MODULE
  rw [beq_iff_eq]
  constructor
  · intro h; rw [h]; decide
  · intro h
    rw [Ne, ← UInt16.toBitVec_inj] at h
    rw [← UInt16.toBitVec_inj]
    simp only [UInt16.toBitVec_and, UInt16.toBitVec_ofNat] at h ⊢
    generalize fl.toBitVec = b at h ⊢
    rw [show (32768#16 : BitVec 16) = BitVec.twoPow 16 15 by decide] at h ⊢
    exact bit_contains b 15 h

theorem contains_interface (fl : UInt16) : flagsContains16 fl AccessFlags.INTERFACE = true ↔ IsInterface fl := by
  unfold flagsContains16 IsInterface AccessFlags.INTERFACE
  rw [beq_iff_eq]
  constructor
  · intro h; rw [h]; decide
  · intro h
    rw [Ne, ← UInt16.toBitVec_inj] at h
    rw [← UInt16.toBitVec_inj]
    simp only [UInt16.toBitVec_and, UInt16.toBitVec_ofNat] at h ⊢
    generalize fl.toBitVec = b at h ⊢
    rw [show (512#16 : BitVec 16) = BitVec.twoPow 16 9 by decide] at h ⊢
    exact bit_contains b 9 h

theorem exact_condPure {N : Nat} {c : Prop} {inst : Decidable c} {p : P Unit} {Q : Prop} (hp : Exact N p (fun _ seg => Q ∧ seg = [])) :
    Exact N (if c then p else pure ()) (fun _ seg => (c → Q) ∧ seg = []) := by
  split
  · rename_i h; exact hp.congr (by simp [h])
  · rename_i h; exact (Exact.pure ()).congr (by simp [h])

theorem debugFlagsFrom_some (flags : UInt16) : ∀ l : List (UInt16 × String), debugFlagsFrom flags false l =
    match (l.filter fun p => flagsContains16 flags p.1).map (·.2) with
    | [] => ""
    | a :: rest => " | " ++ barred (a :: rest)
  | [] => rfl
  | (f, n) :: l => by
    have ih := debugFlagsFrom_some flags l
    unfold debugFlagsFrom
    by_cases h : flagsContains16 flags f = true
    · rw [if_pos h, List.filter_cons_of_pos (by simpa using h)]
      simp only [List.map_cons]
      rw [ih]
      cases hl : (l.filter fun p => flagsContains16 flags p.1).map (·.2) with
      | nil => simp [barred]
      | cons b r => simp [barred, String.append_assoc]
    · rw [if_neg h, List.filter_cons_of_neg (by simpa using h), ih]

theorem debugFlagsFrom_none (flags : UInt16) : ∀ l : List (UInt16 × String), debugFlagsFrom flags true l =
    barred ((l.filter fun p => flagsContains16 flags p.1).map (·.2))
  | [] => rfl
  | (f, n) :: l => by
    have ih := debugFlagsFrom_none flags l
    unfold debugFlagsFrom
    by_cases h : flagsContains16 flags f = true
    · rw [if_pos h, List.filter_cons_of_pos (by simpa using h)]
      simp only [List.map_cons]
      rw [debugFlagsFrom_some]
      cases hl : (l.filter fun p => flagsContains16 flags p.1).map (·.2) with
      | nil => simp [barred]
      | cons b r => simp [barred, String.append_assoc]
    · rw [if_neg h, List.filter_cons_of_neg (by simpa using h), ih]

/-- A set of flags is written as the specification says. -/
theorem debugClassFlags_eq (flags : UInt16) : debugClassFlags flags = flagsText flags := by
  unfold debugClassFlags flagsText
  rw [debugFlagsFrom_none]
  congr 2
  have hb : ∀ (f : UInt16) (k : Nat), k < 16 → f.toBitVec = BitVec.twoPow 16 k → flagsContains16 flags f = (flags &&& f != 0) := by
    intro f k hk hf
    unfold flagsContains16
    rw [Bool.eq_iff_iff, beq_iff_eq, bne_iff_ne, Ne, ← UInt16.toBitVec_inj, ← UInt16.toBitVec_inj, UInt16.toBitVec_and, hf]
    constructor
    · intro h h0
      rw [h] at h0
      have := congrArg (fun b : BitVec 16 => b.getLsbD k) h0
      simp [hk] at this
    · exact bit_contains _ k
  show List.filter _ classFlags = List.filter _ classFlags
  refine List.filter_congr fun p hp => ?_
  obtain ⟨k, hk, hf⟩ := (by decide : ∀ p ∈ classFlags, ∃ k, k < 16 ∧ p.1.toBitVec = BitVec.twoPow 16 k) p hp
  exact hb p.1 k hk hf

theorem checkModuleFlags_exact {N : Nat} (fl major : UInt16) :
    Exact N (checkModuleFlags fl major) (fun _ seg => (IsModule fl → 53 ≤ major ∧ fl = 0x8000) ∧ seg = []) := by
  unfold checkModuleFlags
  refine (exact_condPure (Q := 53 ≤ major ∧ fl = 0x8000) ?_).congr (by simp only [contains_module, implies_true])
  by_cases h1 : major < 53
  · rw [if_pos h1]; exact Exact.fail.congr (by intro _ _; simp; intro h; exact absurd h1 (by simpa using h))
  · rw [if_neg h1]
    have h1' : 53 ≤ major := by simpa using h1
    by_cases h2 : fl = 0x8000
    · rw [if_neg (by simp [h2, AccessFlags.MODULE])]; exact (Exact.pure ()).congr (by simp [h1', h2])
    · rw [if_pos (by simpa [AccessFlags.MODULE] using h2)]; exact Exact.fail.congr (by simp [h2])

theorem checkModuleEmpty_exact {N : Nat} (fl : UInt16) (sc : Option ClassName) (is : List ClassName) (fs : List FieldInfo)
    (ms : List MethodInfo) : Exact N (checkModuleEmpty fl sc is fs ms) (fun _ seg =>
      (IsModule fl → sc = none ∧ is = [] ∧ fs = [] ∧ ms = []) ∧ seg = []) := by
  unfold checkModuleEmpty
  refine (exact_condPure (Q := sc = none ∧ is = [] ∧ fs = [] ∧ ms = []) ?_).congr (by simp only [contains_module, implies_true])
  cases sc with
  | some c => exact Exact.fail.congr (by simp)
  | none =>
    cases is with
    | cons _ _ => exact Exact.fail.congr (by simp)
    | nil =>
      cases fs with
      | cons _ _ => exact Exact.fail.congr (by simp)
      | nil =>
        cases ms with
        | cons _ _ => exact Exact.fail.congr (by simp)
        | nil => exact (Exact.pure ()).congr (by simp)

theorem countBootstrap_ok (x : UInt16) : ∀ (as : List AttributeInfo) (found n : Nat), countBootstrapMethods x found as = .ok n ↔
    (∀ l ∈ bootstrapTables as, x.toNat < l.length) ∧ n = found + (bootstrapTables as).length
  | [], found, n => by simp [countBootstrapMethods, bootstrapTables, eq_comm]
  | a :: as, found, n => by
    unfold countBootstrapMethods bootstrapTables
    split
    · rename_i l hl
      rw [List.filterMap_cons, hl]
      simp only [List.mem_cons, forall_eq_or_imp, List.length_cons]
      split
      · rename_i hge
        simp [Res.fail]
        intro h; omega
      · rename_i hlt
        rw [countBootstrap_ok x as]
        unfold bootstrapTables
        constructor
        · rintro ⟨h1, rfl⟩; exact ⟨⟨by omega, h1⟩, by omega⟩
        · rintro ⟨⟨_, h1⟩, rfl⟩; exact ⟨h1, by omega⟩
    · rename_i hne
      rw [countBootstrap_ok x as, List.filterMap_cons]
      split
      · exact Iff.rfl
      · rename_i l hl
        split at hl
        · rename_i l' hl'; exact absurd hl' (hne l')
        · cases hl

theorem checkBootstrapIndex_ok (x : UInt16) (as : List AttributeInfo) :
    checkBootstrapIndex x as = .ok () ↔ ∃ l, bootstrapTables as = [l] ∧ x.toNat < l.length := by
  unfold checkBootstrapIndex
  constructor
  · intro h
    cases hc : countBootstrapMethods x 0 as with
    | ok n =>
      rw [hc] at h
      have h : (if n ≠ 1 then Res.fail s!"Found unexpected number of BootstrapMethods attributes in class; found {n}, expected 1"
        else Res.ok ()) = Res.ok () := h
      obtain ⟨h1, h2⟩ := (countBootstrap_ok x as 0 n).mp hc
      split at h
      · cases h
      · rename_i hn
        have : (bootstrapTables as).length = 1 := by omega
        obtain ⟨l, hl⟩ := List.length_eq_one_iff.mp this
        exact ⟨l, hl, h1 l (by simp [hl])⟩
    | err _ => rw [hc] at h; cases h
    | panic _ => rw [hc] at h; cases h
    | diverge => rw [hc] at h; cases h
  · rintro ⟨l, hl, hx⟩
    have : countBootstrapMethods x 0 as = .ok 1 := (countBootstrap_ok x as 0 1).mpr (by simp [hl, hx])
    rw [this]; rfl

theorem Res.seq_ok {α : Type} {r : Res Unit} {f : Unit → Res α} {a : α} : (r >>= f) = .ok a ↔ r = .ok () ∧ f () = .ok a := by
  cases r with
  | ok u => exact ⟨fun h => ⟨rfl, h⟩, fun h => h.2⟩
  | err _ => exact ⟨fun h => (by cases h), fun h => (by cases h.1)⟩
  | panic _ => exact ⟨fun h => (by cases h), fun h => (by cases h.1)⟩
  | diverge => exact ⟨fun h => (by cases h), fun h => (by cases h.1)⟩

theorem validateBootstrapMethods_ok (as : List AttributeInfo) : ∀ pool : Pool,
    validateBootstrapMethods pool as = .ok () ↔ BootstrapIndicesOK pool as
  | [] => by simp [validateBootstrapMethods, BootstrapIndicesOK]
  | e :: pool => by
    unfold validateBootstrapMethods
    have ih := validateBootstrapMethods_ok as pool
    split
    · rename_i x r
      rw [Res.seq_ok, ih, checkBootstrapIndex_ok]
      constructor
      · rintro ⟨h1, h2⟩ y r' (h | h)
        · rcases List.mem_cons.mp h with h | h
          · cases h; exact h1
          · exact h2 y r' (.inl h)
        · rcases List.mem_cons.mp h with h | h
          · cases h
          · exact h2 y r' (.inr h)
      · intro h
        exact ⟨h x r (.inl (by simp)), fun y r' h' => h y r' (h'.imp (List.mem_cons_of_mem _) (List.mem_cons_of_mem _))⟩
    · rename_i x r
      rw [Res.seq_ok, ih, checkBootstrapIndex_ok]
      constructor
      · rintro ⟨h1, h2⟩ y r' (h | h)
        · rcases List.mem_cons.mp h with h | h
          · cases h
          · exact h2 y r' (.inl h)
        · rcases List.mem_cons.mp h with h | h
          · cases h; exact h1
          · exact h2 y r' (.inr h)
      · intro h
        exact ⟨h x r (.inr (by simp)), fun y r' h' => h y r' (h'.imp (List.mem_cons_of_mem _) (List.mem_cons_of_mem _))⟩
    · rename_i h1 h2
      rw [ih]
      constructor
      · rintro h y r' (h' | h')
        · rcases List.mem_cons.mp h' with h' | h'
          · exact absurd h'.symm (h1 y r')
          · exact h y r' (.inl h')
        · rcases List.mem_cons.mp h' with h' | h'
          · exact absurd h'.symm (h2 y r')
          · exact h y r' (.inr h')
      · exact fun h y r' h' => h y r' (h'.imp (List.mem_cons_of_mem _) (List.mem_cons_of_mem _))

theorem end_flags {β : Type} {N : Nat} {mask : UInt16} {f : UInt16 → P β} {G : β → Lang} {C : β → Prop} (proj : β → UInt16)
    (hf : ∀ a, ExactEnd N (f a) (fun b seg => (C b ∧ proj b = fromBitsTruncate mask a) ∧ G b seg)) :
    ExactEnd N (readU2 >>= f) (fun b seg => C b ∧ (maskedFlags mask (proj b) ⬝ G b) seg) := by
  refine (ExactEnd.bind Exact.readU2 fun a _ => hf a).congr ?_
  intro b seg
  constructor
  · rintro ⟨a, s, t, rfl, rfl, ⟨h2, h⟩, h3⟩
    exact ⟨h2, _, t, rfl, ⟨a, h, rfl⟩, h3⟩
  · rintro ⟨h2, s, t, rfl, ⟨a, h, rfl⟩, h3⟩
    exact ⟨a, _, t, rfl, rfl, ⟨h2, h⟩, h3⟩

theorem magic_exact {N : Nat} (msg : String) :
    Exact N (readU4 >>= fun magic => P.failIf (magic != 0xCAFEBABE) msg) (fun _ => lit [0xCA, 0xFE, 0xBA, 0xBE]) := by
  refine (Exact.bind Exact.readU4 fun m => Exact.failIf _ _).congr ?_
  intro _ seg
  constructor
  · rintro ⟨m, s, t, rfl, rfl, h, rfl⟩
    have : m = 0xCAFEBABE := by simpa using h
    subst this; rfl
  · rintro rfl; exact ⟨0xCAFEBABE, u4 0xCAFEBABE, [], rfl, rfl, rfl, rfl⟩

/-- Like `end_cat`, for a field whose language depends on earlier fields and whose reader also checks `D`. -/
theorem end_catD {α β : Type} {N : Nat} {p : P α} {f : α → P β} {F : α → Lang} {F' : β → Lang} {D : α → Prop} {G : β → Lang}
    {C : β → Prop} (proj : β → α) (hp : Exact N p (fun a seg => D a ∧ F a seg)) (hC : ∀ b, C b → D (proj b) ∧ F' b = F (proj b))
    (hf : ∀ a, (∃ seg, F a seg) → D a → ExactEnd N (f a) (fun b seg => (C b ∧ proj b = a) ∧ G b seg)) :
    ExactEnd N (p >>= f) (fun b seg => C b ∧ (F' b ⬝ G b) seg) := by
  refine (end_cat (C := C) (G := G) proj hp fun a ⟨seg, hD, hF⟩ => hf a ⟨seg, hF⟩ hD).congr ?_
  intro b seg
  constructor
  · rintro ⟨h1, s, t, rfl, ⟨h2, h3⟩, h4⟩; exact ⟨h1, s, t, rfl, (hC b h1).2 ▸ h3, h4⟩
  · rintro ⟨h1, s, t, rfl, h3, h4⟩; exact ⟨h1, s, t, rfl, ⟨(hC b h1).1, (hC b h1).2 ▸ h3⟩, h4⟩

/-- Like `end_cat`, for a field whose language depends on earlier fields. -/
theorem end_catF {α β : Type} {N : Nat} {p : P α} {f : α → P β} {F : α → Lang} {F' : β → Lang} {G : β → Lang}
    {C : β → Prop} (proj : β → α) (hp : Exact N p F) (hC : ∀ b, C b → F' b = F (proj b))
    (hf : ∀ a, (∃ seg, F a seg) → ExactEnd N (f a) (fun b seg => (C b ∧ proj b = a) ∧ G b seg)) :
    ExactEnd N (p >>= f) (fun b seg => C b ∧ (F' b ⬝ G b) seg) :=
  end_catD (D := fun _ => True) proj (hp.congr (by simp)) (fun b h => ⟨trivial, hC b h⟩) fun a h _ => hf a h

theorem cat_nil (F : Lang) : (F ⬝ lit []) = F := by
  funext seg
  apply propext
  constructor
  · rintro ⟨s, t, rfl, h, rfl⟩; simpa using h
  · intro h; exact ⟨seg, [], by simp, h, rfl⟩

theorem readClassFile_exact (env : Env) (hd : 2 ≤ env.depth) :
    ExactEnd env.depth (readClassFile env) (ClassFileEnc env.opts) := by
  unfold readClassFile ClassFileEnc
  have hmagic := magic_exact (N := env.depth) "Unexpected magic header"
  rw [P.bind_assoc]
  refine ExactEnd.congr (F := fun cf seg => (FieldsDistinct cf.fields ∧ MethodsDistinct cf.methods ∧ ModuleRestrictions cf ∧
      BootstrapIndicesOK cf.constantPool cf.attributes) ∧
    (lit [0xCA, 0xFE, 0xBA, 0xBE] ⬝ lit (u2 cf.minorVersion) ⬝ lit (u2 cf.majorVersion) ⬝
      PoolEnc env.opts.decode env.opts.checks cf.majorVersion cf.constantPool ⬝ maskedFlags 0xF631 cf.accessFlags ⬝
      (ref fun i => ClassNameAt cf.constantPool i cf.thisClass) ⬝
      (ref fun i => OptAt ClassNameAt cf.constantPool i cf.superClass) ⬝
      table2 (fun c => ref fun i => ClassNameAt cf.constantPool i c) cf.interfaces ⬝
      table2 (FieldEnc env.opts cf.constantPool) cf.fields ⬝
      table2 (MethodEnc env.opts cf.constantPool (IsInterface cf.accessFlags) cf.majorVersion) cf.methods ⬝
      AttributesEnc env.opts cf.constantPool cf.attributes ⬝ lit []) seg) ?_ ?_
  · refine end_cat (fun _ => ()) hmagic fun _ _ => ?_
    refine end_cat ClassFile.minorVersion Exact.readU2 fun minor _ => ?_
    refine end_cat ClassFile.majorVersion Exact.readU2 fun major _ => ?_
    refine end_catF ClassFile.constantPool (readConstantPool_exact env hd major)
      (by rintro b ⟨⟨⟨-, -⟩, -⟩, rfl⟩; rfl) fun pool ⟨_, raw, _, _, hok⟩ => ?_
    rw [classMask_eq]
    refine end_flags ClassFile.accessFlags fun bits => ?_
    generalize hfl : fromBitsTruncate 0xF631 bits = fl
    refine end_guard (checkModuleFlags_exact fl major) ?_ fun hmod => ?_
    · rintro cf seg ⟨⟨⟨⟨⟨⟨⟨-, -, hm, -⟩, -⟩, -⟩, rfl⟩, -⟩, rfl⟩, -⟩ h
      exact ⟨(hm h).1, (hm h).2.1⟩
    refine end_catF ClassFile.thisClass (Exact.mapErr (readClassName_exact hok) _)
      (by rintro b ⟨⟨⟨⟨⟨-, -⟩, -⟩, -⟩, rfl⟩, -⟩; rfl) fun this _ => ?_
    refine end_catF ClassFile.superClass (Exact.mapErr (readClassNameOpt_exact hok) _)
      (by rintro b ⟨⟨⟨⟨⟨⟨-, -⟩, -⟩, -⟩, rfl⟩, -⟩, -⟩; rfl) fun super _ => ?_
    refine end_catF ClassFile.interfaces (Exact.readTable2 fun i => Exact.mapErr (readClassName_exact hok) _)
      (by rintro b ⟨⟨⟨⟨⟨⟨⟨-, -⟩, -⟩, -⟩, rfl⟩, -⟩, -⟩, -⟩; rfl) fun is _ => ?_
    refine end_catD ClassFile.fields (readFields_exact env pool)
      (by rintro b ⟨⟨⟨⟨⟨⟨⟨⟨⟨h, -⟩, -⟩, -⟩, -⟩, rfl⟩, -⟩, -⟩, -⟩, -⟩; exact ⟨h, rfl⟩) fun fs _ hfs => ?_
    refine end_catD ClassFile.methods (readMethods_exact env pool _ major)
      (by
        rintro b ⟨⟨⟨⟨⟨⟨⟨⟨⟨⟨-, h, -⟩, -⟩, -⟩, rfl⟩, rfl⟩, rfl⟩, -⟩, -⟩, -⟩, -⟩
        exact ⟨h, by simp only [contains_interface]⟩) fun ms _ hms => ?_
    refine end_catF ClassFile.attributes (Exact.mapErr (readAttributes_exact env pool env.depth) _)
      (by rintro b ⟨⟨⟨⟨⟨⟨⟨⟨⟨⟨-, -⟩, -⟩, -⟩, rfl⟩, -⟩, -⟩, -⟩, -⟩, -⟩, -⟩; rfl) fun as _ => ?_
    refine (end_atEnd (checkModuleEmpty_exact fl super is fs ms)).congr ?_
    rintro x seg
    rw [validateBootstrapMethods_ok]
    refine and_congr_left fun _ => ?_
    constructor
    · rintro ⟨h1, h2, rfl⟩
      exact ⟨⟨⟨⟨⟨⟨⟨⟨⟨⟨⟨⟨hfs, hms, fun h => ⟨(hmod h).1, (hmod h).2, h1 h⟩, h2⟩, rfl⟩, rfl⟩, rfl⟩, rfl⟩, rfl⟩, rfl⟩, rfl⟩, rfl⟩, rfl⟩, rfl⟩, rfl⟩
    · rintro ⟨⟨⟨⟨⟨⟨⟨⟨⟨⟨⟨⟨-, -, hm, hb⟩, -⟩, rfl⟩, rfl⟩, rfl⟩, rfl⟩, rfl⟩, rfl⟩, rfl⟩, rfl⟩, rfl⟩, rfl⟩
      exact ⟨fun h => (hm h).2.2, hb, rfl⟩
  · intro cf seg
    unfold when
    refine and_congr_right fun _ => ?_
    simp only [cat_nil]

/-- `parse_class_with_options` returns `cf` exactly when the input is a class file with content `cf`. -/
theorem parseClassWithOptions_ok (env : Env) (bytes : Bytes) (hd : 2 ≤ env.depth) (hb : bytes.length < env.depth) (cf : ClassFile) :
    parseClassWithOptions env bytes = .ok cf ↔ ClassFileEnc env.opts cf bytes := by
  have h := readClassFile_exact env hd bytes 0 (by omega) (by omega) cf
  unfold parseClassWithOptions
  constructor
  · intro hp
    cases hr : readClassFile env bytes 0 with
    | ok x =>
      obtain ⟨c, ix⟩ := x
      rw [hr] at hp
      cases hp
      exact ((h ix).mp hr).1
    | err _ => rw [hr] at hp; cases hp
    | panic _ => rw [hr] at hp; cases hp
    | diverge => rw [hr] at hp; cases hp
  · intro hc
    rw [(h bytes.length).mpr ⟨hc, rfl⟩]
    rfl

end Cafebabe
