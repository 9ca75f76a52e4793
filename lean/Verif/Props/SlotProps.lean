import Verif.Proofs.Slots
import Verif.Proofs.SlotSame
import Verif.Props.RenumberProps
import Verif.Props.LostProps
/-!
# Properties: constants are looked up by slot, and nothing else is taken from the pool (C75)
-/

namespace Cafebabe
open Spec Examples

/-- Two accepted files that agree after their constant pools, whose predefined attribute names are in the same slots, give classes that
correspond: equal but for the constants, and with the constant of the same slot wherever one occurs. -/
theorem C75_slots {o : Opts} {minor major minor' major' : UInt16} {p p' rest : Bytes} {cf cf' : ClassFile}
    (h : Accepts o (header minor major ++ (p ++ rest)) cf) (h' : Accepts o (header minor' major' ++ (p' ++ rest)) cf')
    (hp : PoolEnc o.decode o.checks major cf.constantPool p) (hp' : PoolEnc o.decode o.checks major' cf'.constantPool p')
    (S : SameAttributeNames (cf.constantPool, cf'.constantPool)) : ClassPair (cf.constantPool, cf'.constantPool) cf cf' := by
  have key : ∀ {minor major : UInt16} {p rest : Bytes} {cf : ClassFile}, Accepts o (header minor major ++ (p ++ rest)) cf →
      PoolEnc o.decode o.checks major cf.constantPool p →
      (maskedFlags 0xF631 cf.accessFlags ⬝ (ref fun i => ClassNameAt cf.constantPool i cf.thisClass) ⬝
        (ref fun i => OptAt ClassNameAt cf.constantPool i cf.superClass) ⬝
        table2 (fun c => ref fun i => ClassNameAt cf.constantPool i c) cf.interfaces ⬝
        table2 (FieldEnc o cf.constantPool) cf.fields ⬝
        table2 (MethodEnc o cf.constantPool (IsInterface cf.accessFlags) cf.majorVersion) cf.methods ⬝
        AttributesEnc o cf.constantPool cf.attributes) rest := by
    intro minor major sp body cf h hp
    obtain ⟨-, a1, b1, e1, k1, a2, b2, e2, k2, a3, b3, e3, k3, a4, b4, e4, k4, k5⟩ := accepts_iff_enc.mp h
    have hs : u2 minor ++ (u2 major ++ (sp ++ body)) = u2 cf.minorVersion ++ (u2 cf.majorVersion ++ (a4 ++ b4)) := by
      rw [e2, e3, e4, k1, k2, k3] at e1
      unfold header at e1
      simp only [List.append_assoc] at e1
      exact List.append_cancel_left e1
    obtain ⟨rfl, -⟩ := u2_unique _ _ _ _ _ _ rfl rfl hs
    have hs := List.append_cancel_left hs
    obtain ⟨rfl, -⟩ := u2_unique _ _ _ _ _ _ rfl rfl hs
    have hs := List.append_cancel_left hs
    obtain ⟨-, rfl⟩ := pool_unique o _ _ _ _ _ _ _ hp k4 hs
    rw [List.append_cancel_left hs]
    exact k5
  have e := key h hp
  have e' := key h' hp'
  let P : Pool × Pool := (cf.constantPool, cf'.constantPool)
  have t7 := attributes_two (P := P) S o cf.attributes cf'.attributes
  have t6 := (Tw.table2 (method_two (P := P) (p := IsInterface cf.accessFlags) (q := IsInterface cf'.accessFlags) (v := cf.majorVersion)
    (w := cf'.majorVersion) S o) cf.methods cf'.methods).cat t7
  have t5 := (Tw.table2 (field_two (P := P) S o) cf.fields cf'.fields).cat t6
  have t4 := (Tw.table2 (fun a b => Tw.both (P := P) (F := ClassNameAt) (a := a) (b := b)) cf.interfaces cf'.interfaces).cat t5
  have t3 := (Tw.both (P := P) (F := OptAt ClassNameAt) (a := cf.superClass) (b := cf'.superClass)).cat t4
  have t2 := (Tw.both (P := P) (F := ClassNameAt) (a := cf.thisClass) (b := cf'.thisClass)).cat t3
  obtain ⟨x1, x2, x3, x4, x5, x6, x7⟩ := ((Tw.masked 0xF631 cf.accessFlags cf'.accessFlags).cat t2).same e e'
  exact ⟨x1, x2, x3, x4, x5, x6, x7⟩

/-- With equal constants, however these are written, the classes are equal but for the versions: correspondence over one pool is equality, so it
leaves no part of a class out. -/
theorem C75_same_constants {o : Opts} {minor major minor' major' : UInt16} {p p' rest : Bytes} {cf cf' : ClassFile}
    (h : Accepts o (header minor major ++ (p ++ rest)) cf) (h' : Accepts o (header minor' major' ++ (p' ++ rest)) cf')
    (hp : PoolEnc o.decode o.checks major cf.constantPool p) (hp' : PoolEnc o.decode o.checks major' cf'.constantPool p')
    (he : cf'.constantPool = cf.constantPool) : cf' = { cf with minorVersion := cf'.minorVersion, majorVersion := cf'.majorVersion } := by
  have hc := C75_slots h h' hp hp' (by
    rw [he]; intro s t hst _; exact single_text.both hst)
  rw [he] at hc
  have := classPair_same hc
  rw [he] at this
  exact this

/-- The same constants after another version. -/
example : ∃ cf cf', Accepts debug (header 3 55 ++ (richPool ++ (rich.drop (8 + richPool.length)))) cf ∧
    Accepts debug (header 0 56 ++ (richPool ++ (rich.drop (8 + richPool.length)))) cf' ∧
    cf' = { cf with minorVersion := 0, majorVersion := 56 } := by
  have hp : PoolEnc debug.decode debug.checks 55 (match okOf (readConstantPool (envOf debug 2) 55 richPool 0) with | some (p, _) => p | none => [])
      richPool := poolEnc_of_run (by decide +kernel)
  have hp' : PoolEnc debug.decode debug.checks 56 (match okOf (readConstantPool (envOf debug 2) 55 richPool 0) with | some (p, _) => p | none => [])
      richPool := poolEnc_of_run (by decide +kernel)
  obtain ⟨cf, h⟩ := accepted (o := debug) (d := 9) (bytes := header 3 55 ++ (richPool ++ (rich.drop (8 + richPool.length)))) (by decide +kernel)
  obtain ⟨cf', h', c⟩ := checked (o := debug) (d := 9) (bytes := header 0 56 ++ (richPool ++ (rich.drop (8 + richPool.length))))
    (fun cf => cf.minorVersion == 0 && cf.majorVersion == 56) (by decide +kernel)
  have e := pool_of_file h hp
  have e' := pool_of_file h' hp'
  simp only [Bool.and_eq_true, beq_iff_eq] at c
  have := C75_same_constants h h' (e ▸ hp) (e' ▸ hp') (by rw [e, e'])
  rw [c.1, c.2] at this
  exact ⟨cf, cf', h, h', this⟩

/-! ## Renaming -/

/-- A constant with its text renamed. -/
def renamed (ρ : Str → Str) : Entry → Entry
  | .utf8 s => .utf8 (ρ s)
  | e => e

theorem renamed_text {ρ : Str → Str} {pool : Pool} {a b : Str} (h : Both (pool, pool.map (renamed ρ)) TextAt a b) : b = ρ a := by
  obtain ⟨i, ha, hb⟩ := h
  unfold TextAt at ha hb
  simp only [List.getElem?_map] at hb
  rw [ha] at hb
  simp only [Option.map_some, renamed, Option.some.injEq, Entry.utf8.injEq] at hb
  exact hb.symm

theorem renamed_class {ρ : Str → Str} {pool : Pool} {a b : Str} (h : Both (pool, pool.map (renamed ρ)) ClassAt a b) : b = ρ a := by
  obtain ⟨i, ⟨x, hx, ha⟩, y, hy, hb⟩ := h
  simp only [List.getElem?_map] at hy
  rw [hx] at hy
  simp only [Option.map_some, renamed, Option.some.injEq, Entry.classInfo.injEq, CPRef.resolved.injEq] at hy
  subst hy
  exact renamed_text ⟨x, ha, hb⟩

theorem forall₂_map {α β : Type} {R : α → α → Prop} {f : α → β} {g : β → β} {l m : List α} (h : List.Forall₂ R l m)
    (hr : ∀ a b, R a b → f b = g (f a)) : m.map f = (l.map f).map g := by
  induction h with
  | nil => rfl
  | cons hab _ ih => simp only [List.map_cons]; rw [hr _ _ hab, ih]

theorem pair_names {P : Pool × Pool} {ρ : Str → Str} (hP : ∀ a b, Both P TextAt a b → b = ρ a) :
    ∀ {l m : List AttributeInfo}, AttrsPair P l m → m.map (·.name) = (l.map (·.name)).map ρ
  | _, _, .nil => rfl
  | _, _, .cons ha _ hl => by
    simp only [List.map_cons]
    rw [hP _ _ ha, pair_names hP hl]

/-- If the second pool is the first with its texts renamed, every name of the second class is the new name for that of the first, and every
number is the same. -/
theorem C75_renamed {o : Opts} {ρ : Str → Str} {minor major minor' major' : UInt16} {p p' rest : Bytes} {cf cf' : ClassFile}
    (h : Accepts o (header minor major ++ (p ++ rest)) cf) (h' : Accepts o (header minor' major' ++ (p' ++ rest)) cf')
    (hp : PoolEnc o.decode o.checks major cf.constantPool p) (hp' : PoolEnc o.decode o.checks major' cf'.constantPool p')
    (hr : cf'.constantPool = cf.constantPool.map (renamed ρ)) (S : ∀ s, s ∈ predefinedNames ∨ ρ s ∈ predefinedNames → ρ s = s) :
    cf'.accessFlags = cf.accessFlags ∧ cf'.thisClass.name = ρ cf.thisClass.name ∧
      cf'.superClass.map (·.name) = (cf.superClass.map (·.name)).map ρ ∧ cf'.interfaces.map (·.name) = (cf.interfaces.map (·.name)).map ρ ∧
      cf'.fields.map (·.name) = (cf.fields.map (·.name)).map ρ ∧ cf'.methods.map (·.name) = (cf.methods.map (·.name)).map ρ ∧
      cf'.fields.map (·.accessFlags) = cf.fields.map (·.accessFlags) ∧ cf'.methods.map (·.accessFlags) = cf.methods.map (·.accessFlags) ∧
      cf'.attributes.map (·.name) = (cf.attributes.map (·.name)).map ρ ∧
      cf'.fields.map (fun f => f.attributes.map (·.name)) = cf.fields.map (fun f => (f.attributes.map (·.name)).map ρ) ∧
      cf'.methods.map (fun f => f.attributes.map (·.name)) = cf.methods.map (fun f => (f.attributes.map (·.name)).map ρ) := by
  have hS : SameAttributeNames (cf.constantPool, cf'.constantPool) := by
    intro s t hst hm
    rw [hr] at hst
    have ht := renamed_text hst
    subst ht
    exact (S s hm).symm
  obtain ⟨x1, x2, x3, x4, x5, x6, x7⟩ := C75_slots h h' hp hp' hS
  rw [hr] at x2 x3 x4 x5 x6 x7
  have ht : ∀ a b, Both (cf.constantPool, cf.constantPool.map (renamed ρ)) TextAt a b → b = ρ a := fun _ _ => renamed_text
  have hc : ∀ a b, Both (cf.constantPool, cf.constantPool.map (renamed ρ)) ClassNameAt a b → b.name = ρ a.name :=
    fun a b ⟨i, ha, hb⟩ => renamed_class ⟨i, ha.1, hb.1⟩
  refine ⟨x1.symm, hc _ _ x2, ?_, forall₂_map x4 hc, forall₂_map x5 fun a b h => ht _ _ h.2.1, forall₂_map x6 fun a b h => ht _ _ h.2.1,
    ?_, ?_, pair_names ht x7, ?_, ?_⟩
  · obtain ⟨i, ha, hb⟩ := x3
    cases hs : cf.superClass with
    | none =>
      rw [hs] at ha
      cases hs' : cf'.superClass with
      | none => rfl
      | some b =>
        rw [hs'] at hb
        obtain ⟨⟨y, hy, _⟩, _⟩ := hb
        unfold OptAt at ha
        simp only [List.getElem?_map] at hy
        rw [ha] at hy
        simp [renamed] at hy
    | some a =>
      rw [hs] at ha
      cases hs' : cf'.superClass with
      | none =>
        rw [hs'] at hb
        obtain ⟨⟨y, hy, _⟩, _⟩ := ha
        unfold OptAt at hb
        simp only [List.getElem?_map] at hb
        rw [hy] at hb
        simp [renamed] at hb
      | some b =>
        rw [hs'] at hb
        exact congrArg some (hc a b ⟨i, ha, hb⟩)
  · have := forall₂_map (f := FieldInfo.accessFlags) (g := id) x5 fun a b h => h.1.symm
    simpa using this
  · have := forall₂_map (f := MethodInfo.accessFlags) (g := id) x6 fun a b h => h.1.symm
    simpa using this
  · have := forall₂_map (f := fun f : FieldInfo => f.attributes.map (·.name)) (g := List.map ρ) x5 fun a b h => pair_names ht h.2.2.2
    rw [List.map_map] at this
    exact this
  · have := forall₂_map (f := fun f : MethodInfo => f.attributes.map (·.name)) (g := List.map ρ) x6 fun a b h => pair_names ht h.2.2.2
    rw [List.map_map] at this
    exact this

/-! ## Witnesses -/

/-- The constants of `rich`, with other texts (a longer class name among them) and other numbers. -/
def richPool' : Bytes :=
  u2 38 ++
  text "p/Zed" ++ [7, 0, 1] ++ text "java/lang/Number" ++ [7, 0, 3] ++
  text "Code" ++ text "jog" ++ text "()I" ++ [12, 0, 6, 0, 7] ++ [10, 0, 2, 0, 8] ++
  [15, 6, 0, 9] ++ [18, 0, 0, 0, 8] ++ text "BootstrapMethods" ++ [5, 0, 0, 0, 0, 0, 0, 0, 6] ++
  text "xy" ++ text "S" ++ text "ConstantValue" ++ [3, 0, 0, 0, 7] ++
  text "[[Ljava/lang/Object;" ++ [7, 0, 19] ++ text "ho" ++ [8, 0, 21] ++
  [1, 0, 1, 0xFE] ++ [8, 0, 23] ++ text "LineNumberTable" ++ text "YourAttr" ++
  text "RuntimeVisibleAnnotations" ++ text "LB;" ++ text "w" ++ [12, 0, 15, 0, 16] ++
  [9, 0, 2, 0, 30] ++ [6, 0x7F, 0xF8, 0, 0, 0, 0, 0, 2] ++ text "StackMapTable" ++
  [16, 0, 7] ++ [11, 0, 2, 0, 8] ++ [17, 0, 0, 0, 30]

/-- What follows the constants of `rich`. -/
def richRest : Bytes :=
  [0x40, 0x21, 0, 2, 0, 4, 0, 1, 0, 2] ++
  u2 1 ++ [0, 0x19, 0, 15, 0, 16] ++ u2 1 ++ attr 17 [0, 18] ++
  u2 1 ++ [0, 0x09, 0, 6, 0, 7] ++ u2 1 ++ richCodeAttr ++
  u2 2 ++ attr 12 [0, 1, 0, 10, 0, 3, 0, 22, 0, 20, 0, 35] ++
    attr 27 [0, 1, 0, 28, 0, 1, 0, 29, 91, 0, 1, 64, 0, 28, 0, 0]

/-- The predefined attribute names of two pools are in the same slots. -/
def sameNames : Pool → Pool → Bool
  | .utf8 s :: p, .utf8 t :: q => ((!predefinedNames.contains s && !predefinedNames.contains t) || s == t) && sameNames p q
  | _ :: p, _ :: q => sameNames p q
  | _, _ => true

theorem sameNames_sound : ∀ {p q : Pool}, sameNames p q = true → SameAttributeNames (p, q)
  | [], _, _ => by rintro s t ⟨i, ha, -⟩; simp [TextAt] at ha
  | _ :: _, [], _ => by rintro s t ⟨i, -, hb⟩; simp [TextAt] at hb
  | a :: p, b :: q, h => by
    have hq : sameNames p q = true := by
      cases a <;> cases b <;> simp only [sameNames, Bool.and_eq_true] at h <;> first | exact h | exact h.2
    rintro s t ⟨i, ha, hb⟩ hm
    cases i with
    | succ i => exact sameNames_sound hq s t ⟨i, by simpa [TextAt] using ha, by simpa [TextAt] using hb⟩ hm
    | zero =>
      simp only [TextAt, List.getElem?_cons_zero, Option.some.injEq] at ha hb
      subst ha hb
      simp only [sameNames, Bool.and_eq_true, Bool.or_eq_true, Bool.not_eq_true', beq_iff_eq, List.contains_eq_mem, decide_eq_false_iff_not] at h
      rcases h.1 with ⟨h1, h2⟩ | h1
      · exact absurd hm (not_or.mpr ⟨h1, h2⟩)
      · exact h1

/-- The pool that some bytes stand for. -/
def poolOf (o : Opts) (major : UInt16) (sp : Bytes) : Pool :=
  match okOf (readConstantPool (envOf o 2) major sp 0) with
  | some (pool, _) => pool
  | none => []

/-- `rich` with other texts and numbers: the hypotheses are met, and the classes differ. -/
theorem C75_witness : ∃ cf cf', Accepts debug (header 3 55 ++ (richPool ++ richRest)) cf ∧ Accepts debug (header 0 55 ++ (richPool' ++ richRest)) cf' ∧
    PoolEnc debug.decode debug.checks 55 cf.constantPool richPool ∧ PoolEnc debug.decode debug.checks 55 cf'.constantPool richPool' ∧
    SameAttributeNames (cf.constantPool, cf'.constantPool) ∧
    cf.thisClass.name = "A".toList ∧ cf'.thisClass.name = "p/Zed".toList ∧ cf.methods.map (·.name) = ["run".toList] ∧
    cf'.methods.map (·.name) = ["jog".toList] := by
  obtain ⟨cf, h, c⟩ := checked (o := debug) (d := 9) (bytes := header 3 55 ++ (richPool ++ richRest))
    (fun cf => cf.thisClass.name == "A".toList && cf.methods.map (·.name) == ["run".toList]) (by decide +kernel)
  obtain ⟨cf', h', c'⟩ := checked (o := debug) (d := 9) (bytes := header 0 55 ++ (richPool' ++ richRest))
    (fun cf => cf.thisClass.name == "p/Zed".toList && cf.methods.map (·.name) == ["jog".toList]) (by decide +kernel)
  have hp : PoolEnc debug.decode debug.checks 55 (poolOf debug 55 richPool) richPool := poolEnc_of_run (by decide +kernel)
  have hp' : PoolEnc debug.decode debug.checks 55 (poolOf debug 55 richPool') richPool' := poolEnc_of_run (by decide +kernel)
  have e := pool_of_file h hp
  have e' := pool_of_file h' hp'
  have S : SameAttributeNames (cf.constantPool, cf'.constantPool) := by
    rw [e, e']; exact sameNames_sound (by decide +kernel)
  simp only [Bool.and_eq_true, beq_iff_eq] at c c'
  exact ⟨cf, cf', h, h', e ▸ hp, e' ▸ hp', S, c.1, c'.1, c.2, c'.2⟩

/-- `tiny` with the class renamed. -/
example : ∃ cf cf' : ClassFile, Accepts debug tiny cf ∧ cf.thisClass.name = "A".toList ∧ cf'.thisClass.name = "longer/Name".toList ∧
    cf'.superClass.map (·.name) = cf.superClass.map (·.name) := by
  let ρ : Str → Str := fun s => if s = "A".toList then "longer/Name".toList else s
  let body : Bytes := [0, 0x21, 0, 2, 0, 4, 0, 0, 0, 0, 0, 0, 0, 0]
  have hp : PoolEnc debug.decode debug.checks 52 [.zero, .utf8 "A".toList, .classInfo (.resolved 1), .utf8 ['B'], .classInfo (.resolved 3)]
      (u2 5 ++ text "A" ++ [7, 0, 1] ++ text "B" ++ [7, 0, 3]) := poolEnc_of_run (by decide +kernel)
  have hp' : PoolEnc debug.decode debug.checks 52 [.zero, .utf8 "longer/Name".toList, .classInfo (.resolved 1), .utf8 ['B'], .classInfo (.resolved 3)]
      (u2 5 ++ text "longer/Name" ++ [7, 0, 1] ++ text "B" ++ [7, 0, 3]) := poolEnc_of_run (by decide +kernel)
  obtain ⟨cf, h, c⟩ := checked (o := debug) (d := 9) (bytes := header 0 52 ++ ((u2 5 ++ text "A" ++ [7, 0, 1] ++ text "B" ++ [7, 0, 3]) ++ body))
    (fun cf => cf.thisClass.name == "A".toList && cf.superClass.map (·.name) == some "B".toList) (by decide +kernel)
  obtain ⟨cf', h'⟩ := accepted (o := debug) (d := 9)
    (bytes := header 0 52 ++ ((u2 5 ++ text "longer/Name" ++ [7, 0, 1] ++ text "B" ++ [7, 0, 3]) ++ body)) (by decide +kernel)
  have e := pool_of_file h hp
  have e' := pool_of_file h' hp'
  simp only [Bool.and_eq_true, beq_iff_eq] at c
  obtain ⟨-, x2, x3, -⟩ := C75_renamed (ρ := ρ) h h' (e ▸ hp) (e' ▸ hp') (by rw [e, e']; decide +kernel) (by
    intro s hs
    by_cases hA : s = "A".toList
    · subst hA; exact absurd hs (by decide +kernel)
    · exact if_neg hA)
  refine ⟨cf, cf', h, c.1, by rw [x2, c.1]; decide +kernel, ?_⟩
  rw [x3, c.2]; decide +kernel

/-- The hypothesis on the attribute names is needed: with another text for the name `Code`, the method has no code. -/
theorem C75_attribute_names : ∃ cf cf' : ClassFile, ∃ p p' rest : Bytes, Accepts debug (header 0 52 ++ (p ++ rest)) cf ∧ Accepts debug (header 0 52 ++ (p' ++ rest)) cf' ∧
    PoolEnc debug.decode debug.checks 52 cf.constantPool p ∧ PoolEnc debug.decode debug.checks 52 cf'.constantPool p' ∧
    cf'.constantPool = cf.constantPool.map (renamed fun s => if s = "Code".toList then "Kode".toList else s) ∧
    ¬ ClassPair (cf.constantPool, cf'.constantPool) cf cf' := by
  let rest : Bytes := [0, 0x21, 0, 2, 0, 0, 0, 0, 0, 0] ++
    u2 1 ++ [0, 0x09, 0, 4, 0, 5] ++ u2 1 ++ attr 3 (u2 1 ++ u2 1 ++ u4 1 ++ [0xb1] ++ u2 0 ++ u2 0) ++ u2 0
  let p : Bytes := u2 6 ++ text "A" ++ [7, 0, 1] ++ text "Code" ++ text "m" ++ text "()V"
  let p' : Bytes := u2 6 ++ text "A" ++ [7, 0, 1] ++ text "Kode" ++ text "m" ++ text "()V"
  have hp : PoolEnc debug.decode debug.checks 52 (poolOf debug 52 p) p := poolEnc_of_run (by decide +kernel)
  have hp' : PoolEnc debug.decode debug.checks 52 (poolOf debug 52 p') p' := poolEnc_of_run (by decide +kernel)
  let isCode : ClassFile → Bool := fun cf => match cf.methods with
    | [m] => match m.attributes with
      | [⟨_, .code _⟩] => true
      | _ => false
    | _ => false
  obtain ⟨cf, h, c⟩ := checked (o := debug) (d := 9) (bytes := header 0 52 ++ (p ++ rest)) isCode (by decide +kernel)
  obtain ⟨cf', h', c'⟩ := checked (o := debug) (d := 9) (bytes := header 0 52 ++ (p' ++ rest)) (fun cf => !isCode cf) (by decide +kernel)
  have e := pool_of_file h hp
  have e' := pool_of_file h' hp'
  refine ⟨cf, cf', p, p', rest, h, h', e ▸ hp, e' ▸ hp', by rw [e, e']; decide +kernel, ?_⟩
  intro hc
  have hm := hc.methods
  simp only [isCode, Bool.not_eq_true'] at c c'
  generalize cf.methods = ms at hm c
  generalize cf'.methods = ms' at hm c'
  cases hm with
  | nil => cases c
  | @cons m m' ms ms' h1 h2 =>
    cases h2 with
    | cons => cases c
    | nil =>
      have ha := h1.2.2.2
      simp only at c c'
      generalize m.attributes = as at ha c
      generalize m'.attributes = as' at ha c'
      cases ha with
      | nil => cases c
      | @cons a b d e l l' _ hd hl =>
        cases hl with
        | cons => cases d <;> cases c
        | nil => cases hd <;> first | (cases c'; done) | (cases c; done)

end Cafebabe
