import Verif.Spec.Assemble
import Verif.Proofs.Nested
import Verif.Proofs.Run
import Verif.Proofs.Attributes
import Verif.Props.PruneProps
/-!
# C66: the parts of a class are independent
-/

namespace Cafebabe
open Spec Examples

theorem seq_all {α : Type} {F : α → Lang} : ∀ {xs : List α}, (∀ x ∈ xs, ∃ s, F x s) → ∃ seg, seq F xs seg
  | [], _ => ⟨[], rfl⟩
  | x :: xs, h => by
    obtain ⟨s, hs⟩ := h x (by simp)
    obtain ⟨t, ht⟩ := seq_all (xs := xs) fun y hy => h y (by simp [hy])
    exact ⟨s ++ t, s, t, rfl, hs, ht⟩

theorem table2_all {α : Type} {F : α → Lang} {xs : List α} (hl : xs.length < 65536) (h : ∀ x ∈ xs, ∃ s, F x s) : ∃ seg, table2 F xs seg := by
  obtain ⟨t, ht⟩ := seq_all h
  exact ⟨_, UInt16.ofNat xs.length, by simp; omega, _, t, rfl, rfl, ht⟩

theorem table2_fits {α : Type} {F : α → Lang} {xs : List α} {seg : Bytes} (h : table2 F xs seg) : xs.length < 65536 := by
  obtain ⟨c, hc, -⟩ := h
  have := c.toNat_lt
  omega

theorem poolEnc_zero {decode : Bytes → Option Str} {checks : Bool} {major : UInt16} {pool : Pool} {seg : Bytes}
    (h : PoolEnc decode checks major pool seg) : pool[0]? = some .zero := by
  obtain ⟨raw, ⟨_, _, _, -, rfl, -, -⟩, rfl, -⟩ := h
  rfl

theorem classSeen_at {o : Opts} {pool : Pool} {c : ClassName} (h : ClassSeen o pool c) : ∃ i : UInt16, ClassNameAt pool i.toNat c := by
  obtain ⟨bytes, cf, h, rfl, hc⟩ := h
  obtain ⟨pool, fs, ms, as, flags, this, super, n, ixs, rfl, -, -, ht, hs, -, hl, hi, -, -, -⟩ := enc_parts (accepts_iff_enc.mp h)
  rcases hc with rfl | hc | hc
  · exact ⟨this, ht⟩
  · rw [hc] at hs; exact ⟨super, hs⟩
  · obtain ⟨k, hk, rfl⟩ := List.getElem_of_mem hc
    exact ⟨ixs[k], hi k _ _ (List.getElem?_eq_getElem (by omega)) (List.getElem?_eq_getElem hk)⟩

theorem attrSeen_enc {o : Opts} {pool : Pool} {a : AttributeInfo} (h : AttrSeen o pool a) : ∃ s, AttrEnc o pool a s := by
  obtain ⟨bytes, cf, h, rfl, ha⟩ := h
  obtain ⟨s, hs, -⟩ := attrOf_enc (accepts_iff_enc.mp h) ha
  exact ⟨s, hs⟩

theorem attrsSeen_enc {o : Opts} {pool : Pool} {as : List AttributeInfo} (h : AttrsSeen o pool as) : ∃ s, AttributesEnc o pool as s :=
  table2_all h.1 fun a ha => attrSeen_enc (h.2 a ha)

theorem fieldFrom_enc {o : Opts} {pool : Pool} {f : FieldInfo} (h : FieldFrom o pool f) : ∃ s, FieldEnc o pool f s := by
  obtain ⟨hf, ⟨b1, c1, h1, rfl, g1, hg1, hn1⟩, ⟨b2, c2, h2, hp, g2, hg2, hn2⟩, ha⟩ := h
  obtain ⟨s, hs⟩ := attrsSeen_enc ha
  obtain ⟨_, fs, _, _, _, _, _, _, _, -, -, -, -, -, -, -, -, hfs, -, -⟩ := enc_parts (accepts_iff_enc.mp h1)
  obtain ⟨_, ⟨hu, _, _, -, -, _, _, -, ⟨i, hi, -⟩, -⟩, -⟩ := table2_mem hfs hg1
  obtain ⟨_, fs, _, _, _, _, _, _, _, -, -, -, -, -, -, -, -, hfs, -, -⟩ := enc_parts (accepts_iff_enc.mp h2)
  obtain ⟨_, ⟨-, _, _, -, -, _, _, -, -, _, _, -, ⟨j, hj, -⟩, -⟩, -⟩ := table2_mem hfs hg2
  rw [hn1] at hu hi
  rw [hn2, hp] at hj
  exact ⟨_, hu, _, _, rfl, ⟨f.accessFlags, hf.symm, rfl⟩, _, _, rfl, ⟨i, hi, rfl⟩, _, _, rfl, ⟨j, hj, rfl⟩, hs⟩

theorem methodFrom_enc {o : Opts} {pool : Pool} {major : UInt16} {iface : Prop} {m : MethodInfo} (h : MethodFrom o pool major iface m) :
    ∃ s, MethodEnc o pool iface major m s := by
  obtain ⟨hf, ⟨b1, c1, h1, rfl, rfl, hif, g, hg, hn, hd⟩, ha⟩ := h
  obtain ⟨s, hs⟩ := attrsSeen_enc ha
  obtain ⟨_, fs, _, _, _, _, _, _, _, -, -, -, -, -, -, -, -, -, hms, -⟩ := enc_parts (accepts_iff_enc.mp h1)
  obtain ⟨_, ⟨⟨hu, hu'⟩, _, _, -, -, _, _, -, ⟨i, hi, -⟩, _, _, -, ⟨j, hj, -⟩, -⟩, -⟩ := table2_mem hms hg
  rw [SpecialMethodOK, hn, hd, propext hif] at hu'
  rw [hn, propext hif] at hu
  rw [hn] at hi
  rw [hd] at hj
  exact ⟨_, ⟨hu, hu'⟩, _, _, rfl, ⟨m.accessFlags, hf.symm, rfl⟩, _, _, rfl, ⟨i, hi, rfl⟩, _, _, rfl, ⟨j, hj, rfl⟩, hs⟩

/-- Parts of accepted files with the same constant pool, put together in any way, make a class that some file parses to exactly if the
tables fit and the class as a whole meets the four requirements. -/
theorem C66_assembled {o : Opts} {cf : ClassFile} : (∃ bytes, Accepts o bytes cf) ↔ Assembled o cf := by
  constructor
  · rintro ⟨bytes, h⟩
    have he := accepts_iff_enc.mp h
    obtain ⟨h1, h2, h3, h4⟩ := he.1
    obtain ⟨pool, fs, ms, as, flags, this, super, n, ixs, -, -, hfl, ht, hs, hn, hl, hi, hfs, hms, has⟩ := enc_parts he
    have mask : ∀ {x m y : UInt16}, x = y &&& m → x &&& m = x := by
      rintro x m y rfl
      rw [UInt16.and_assoc, UInt16.and_self]
    exact {
      poolSeen := ⟨bytes, cf, h, rfl, rfl⟩
      flags := mask hfl
      thisSeen := ⟨bytes, cf, h, rfl, .inl rfl⟩
      superSeen := fun c hc => ⟨bytes, cf, h, rfl, .inr (.inl hc)⟩
      interfacesFit := by have := n.toNat_lt; omega
      interfacesSeen := fun c hc => ⟨bytes, cf, h, rfl, .inr (.inr hc)⟩
      fieldsFit := table2_fits hfs
      fieldsFrom := fun f hf => by
        obtain ⟨_, ⟨-, _, _, -, ⟨_, hm, -⟩, _, _, -, -, _, _, -, -, ha⟩, -⟩ := table2_mem hfs hf
        exact ⟨mask hm, ⟨bytes, cf, h, rfl, f, hf, rfl⟩, ⟨bytes, cf, h, rfl, f, hf, rfl⟩, table2_fits ha,
          fun a haf => ⟨bytes, cf, h, rfl, .inr (.inl ⟨f, hf, .here haf⟩)⟩⟩
      methodsFit := table2_fits hms
      methodsFrom := fun m hm => by
        obtain ⟨_, ⟨-, _, _, -, ⟨_, hk, -⟩, _, _, -, -, _, _, -, -, ha⟩, -⟩ := table2_mem hms hm
        exact ⟨mask hk, ⟨bytes, cf, h, rfl, rfl, Iff.rfl, m, hm, rfl, rfl⟩, table2_fits ha,
          fun a haf => ⟨bytes, cf, h, rfl, .inr (.inr ⟨m, hm, .here haf⟩)⟩⟩
      attributes := ⟨table2_fits has, fun a ha => ⟨bytes, cf, h, rfl, .inl (.here ha)⟩⟩
      fieldsDistinct := h1
      methodsDistinct := h2
      moduleOK := h3
      bootstrapOK := h4 }
  · intro h
    obtain ⟨b0, c0, h0, hp, hv⟩ := h.poolSeen
    obtain ⟨sp, _, _, _, _, _, _, _, _, -, hpool, -⟩ := enc_parts (accepts_iff_enc.mp h0)
    rw [hp, hv] at hpool
    obtain ⟨this, ht⟩ := classSeen_at h.thisSeen
    have hs : ∃ i : UInt16, OptAt ClassNameAt cf.constantPool i.toNat cf.superClass := by
      cases hc : cf.superClass with
      | none => exact ⟨0, poolEnc_zero hpool⟩
      | some c => exact classSeen_at (h.superSeen c hc)
    obtain ⟨super, hs⟩ := hs
    obtain ⟨si, hi⟩ := table2_all (F := fun c => ref fun i => ClassNameAt cf.constantPool i c) h.interfacesFit fun c hc => by
      obtain ⟨i, hi⟩ := classSeen_at (h.interfacesSeen c hc)
      exact ⟨_, i, hi, rfl⟩
    obtain ⟨sf, hf⟩ := table2_all h.fieldsFit fun f hf => fieldFrom_enc (h.fieldsFrom f hf)
    obtain ⟨sm, hm⟩ := table2_all h.methodsFit fun m hm => methodFrom_enc (h.methodsFrom m hm)
    obtain ⟨sa, ha⟩ := attrsSeen_enc h.attributes
    exact ⟨_, accepts_iff_enc.mpr ⟨⟨h.fieldsDistinct, h.methodsDistinct, h.moduleOK, h.bootstrapOK⟩, _, _, rfl, rfl, _, _, rfl, rfl, _, _, rfl,
      rfl, sp, _, rfl, hpool, _, _, rfl, ⟨cf.accessFlags, h.flags.symm, rfl⟩, _, _, rfl, ⟨this, ht, rfl⟩, _, _, rfl, ⟨super, hs, rfl⟩, si, _, rfl,
      hi, sf, _, rfl, hf, sm, sa, rfl, hm, ha⟩⟩

/-! ## Order and merging -/

theorem bootstrapTables_single_perm {as bs : List AttributeInfo} (hp : as.Perm bs) {l : List BootstrapMethodEntry} (h : bootstrapTables as = [l]) :
    bootstrapTables bs = [l] := by
  have := hp.filterMap fun a => match a.data with
    | .bootstrapMethods l => some l
    | _ => none
  exact List.singleton_perm.mp (h ▸ this) |>.symm

theorem attrsSeen_perm {o : Opts} {pool : Pool} {as bs : List AttributeInfo} (hp : as.Perm bs) (h : AttrsSeen o pool as) : AttrsSeen o pool bs :=
  ⟨by rw [← hp.length_eq]; exact h.1, fun a ha => h.2 a (hp.mem_iff.mpr ha)⟩

/-- A class with its interfaces, fields, methods and attributes in another order is accepted as well. -/
theorem C66_order {o : Opts} {bytes : Bytes} {cf : ClassFile} (h : Accepts o bytes cf) {is : List ClassName} {fs : List FieldInfo}
    {ms : List MethodInfo} {as : List AttributeInfo} (hi : cf.interfaces.Perm is) (hf : cf.fields.Perm fs) (hm : cf.methods.Perm ms)
    (ha : cf.attributes.Perm as) :
    ∃ bytes', Accepts o bytes' { cf with interfaces := is, fields := fs, methods := ms, attributes := as } := by
  have hs := C66_assembled.mp ⟨bytes, h⟩
  refine C66_assembled.mpr { hs with
    interfacesFit := by rw [← hi.length_eq]; exact hs.interfacesFit
    interfacesSeen := fun c hc => hs.interfacesSeen c (hi.mem_iff.mpr hc)
    fieldsFit := by rw [← hf.length_eq]; exact hs.fieldsFit
    fieldsFrom := fun f h => hs.fieldsFrom f (hf.mem_iff.mpr h)
    methodsFit := by rw [← hm.length_eq]; exact hs.methodsFit
    methodsFrom := fun m h => hs.methodsFrom m (hm.mem_iff.mpr h)
    attributes := attrsSeen_perm ha hs.attributes
    fieldsDistinct := hf.pairwise hs.fieldsDistinct fun hx hy => hx ⟨hy.1.symm, hy.2.symm⟩
    methodsDistinct := hm.pairwise hs.methodsDistinct fun hx hy => hx ⟨hy.1.symm, hy.2.symm⟩
    moduleOK := fun hm' => ?_
    bootstrapOK := fun x r hx => ?_ }
  · obtain ⟨h1, h2, h3, h4, h5, h6⟩ := hs.moduleOK hm'
    rw [h4] at hi
    rw [h5] at hf
    rw [h6] at hm
    exact ⟨h1, h2, h3, hi.symm.eq_nil, hf.symm.eq_nil, hm.symm.eq_nil⟩
  · obtain ⟨l, h1, h2⟩ := hs.bootstrapOK x r hx
    exact ⟨l, bootstrapTables_single_perm ha h1, h2⟩

/-- Two accepted classes with the same constants, version and flags (not modules): the class with the interfaces, fields and methods of both
is accepted, if the tables fit and no field or method is in both. -/
theorem C66_merged {o : Opts} {bytes bytes' : Bytes} {cf cf' : ClassFile} (h : Accepts o bytes cf) (h' : Accepts o bytes' cf')
    (hp : cf'.constantPool = cf.constantPool) (hv : cf'.majorVersion = cf.majorVersion) (hfl : cf'.accessFlags = cf.accessFlags)
    (hmod : ¬ IsModule cf.accessFlags) (hi : cf.interfaces.length + cf'.interfaces.length < 65536)
    (hf : cf.fields.length + cf'.fields.length < 65536) (hm : cf.methods.length + cf'.methods.length < 65536)
    (hdf : ∀ f ∈ cf.fields, ∀ g ∈ cf'.fields, ¬ (f.name = g.name ∧ f.descriptor = g.descriptor))
    (hdm : ∀ f ∈ cf.methods, ∀ g ∈ cf'.methods, ¬ (f.name = g.name ∧ f.descriptor = g.descriptor)) :
    ∃ bytes'', Accepts o bytes'' { cf with
      interfaces := cf.interfaces ++ cf'.interfaces, fields := cf.fields ++ cf'.fields, methods := cf.methods ++ cf'.methods } := by
  have hs := C66_assembled.mp ⟨bytes, h⟩
  have hs' := C66_assembled.mp ⟨bytes', h'⟩
  refine C66_assembled.mpr { hs with
    interfacesFit := by simpa using hi
    interfacesSeen := fun c hc => ?_
    fieldsFit := by simpa using hf
    fieldsFrom := fun f h => ?_
    methodsFit := by simpa using hm
    methodsFrom := fun m h => ?_
    fieldsDistinct := List.pairwise_append.mpr ⟨hs.fieldsDistinct, hs'.fieldsDistinct, hdf⟩
    methodsDistinct := List.pairwise_append.mpr ⟨hs.methodsDistinct, hs'.methodsDistinct, hdm⟩
    moduleOK := fun hm' => absurd hm' hmod }
  · rcases List.mem_append.mp hc with hc | hc
    · exact hs.interfacesSeen c hc
    · have := hs'.interfacesSeen c hc; rw [hp] at this; exact this
  · rcases List.mem_append.mp h with h | h
    · exact hs.fieldsFrom f h
    · have := hs'.fieldsFrom f h; rw [hp] at this; exact this
  · rcases List.mem_append.mp h with h | h
    · exact hs.methodsFrom m h
    · have := hs'.methodsFrom m h; rw [hp, hv, hfl] at this; exact this

/-- The flags of a class may be any known flags without MODULE, as long as INTERFACE stays as it is; those of fields and methods any known flags. -/
theorem C66_flags {o : Opts} {bytes : Bytes} {cf : ClassFile} (h : Accepts o bytes cf) {flags : UInt16}
    (hm : flags &&& 0x7631 = flags) (hi : IsInterface flags ↔ IsInterface cf.accessFlags) {ff : FieldInfo → UInt16} {fm : MethodInfo → UInt16}
    (hf : ∀ f ∈ cf.fields, ff f &&& 0x50DF = ff f) (hg : ∀ m ∈ cf.methods, fm m &&& 0x1DFF = fm m) :
    ∃ bytes', Accepts o bytes' { cf with
      accessFlags := flags
      fields := cf.fields.map fun f => { f with accessFlags := ff f }
      methods := cf.methods.map fun m => { m with accessFlags := fm m } } := by
  have hs := C66_assembled.mp ⟨bytes, h⟩
  have hsub : flags &&& 0x8000 = 0 := by
    rw [← hm, UInt16.and_assoc]
    rw [show (0x7631 : UInt16) &&& 0x8000 = 0 by decide, UInt16.and_zero]
  refine C66_assembled.mpr { hs with
    flags := ?_
    fieldsFit := by simpa using hs.fieldsFit
    fieldsFrom := fun f hf' => ?_
    methodsFit := by simpa using hs.methodsFit
    methodsFrom := fun m hm' => ?_
    fieldsDistinct := List.pairwise_map.mpr hs.fieldsDistinct
    methodsDistinct := List.pairwise_map.mpr hs.methodsDistinct
    moduleOK := fun hm' => absurd hsub hm' }
  · show flags &&& 0xF631 = flags
    rw [← hm, UInt16.and_assoc, show (0x7631 : UInt16) &&& 0xF631 = 0x7631 by decide]
  · obtain ⟨g, hg', rfl⟩ := List.mem_map.mp hf'
    exact { hs.fieldsFrom g hg' with flags := hf g hg' }
  · obtain ⟨g, hg', rfl⟩ := List.mem_map.mp hm'
    have := hs.methodsFrom g hg'
    exact { flags := hg g hg', seen := by rw [propext hi]; exact this.seen, attributes := this.attributes }

/-! ## Witnesses -/

/-- A class that breaks requirements: final, abstract, an annotation but not an interface, no super class; a public private final volatile
field with two constant values, one of another type; a private static abstract method with two Code attributes and 256 parameters; a public
protected method without code; a `<clinit>` that is not static; two SourceFile attributes; NestHost and NestMembers. -/
def unruly : Bytes :=
  header 0 55 ++ u2 19 ++ text "A" ++ [7, 0, 1] ++ text "Code" ++ text "m" ++ [1, 1, 3, 40] ++ List.replicate 256 73 ++ [41, 86] ++ text "()V" ++
    text "x" ++ text "I" ++ text "ConstantValue" ++ [5, 0, 0, 0, 0, 0, 0, 0, 5] ++ [3, 0, 0, 0, 1] ++ text "SourceFile" ++ text "NestHost" ++
    text "NestMembers" ++ text "<clinit>" ++ text "A.java" ++ [3, 0, 0, 0, 2] ++
    [0x24, 0x10, 0, 2, 0, 0, 0, 0] ++
    u2 1 ++ [0, 0x53, 0, 7, 0, 8] ++ u2 2 ++ attr 9 [0, 10] ++ attr 9 [0, 12] ++
    u2 3 ++
      [4, 0x0A, 0, 4, 0, 5] ++ u2 2 ++ attr 3 [0, 0, 0, 0, 0, 0, 0, 1, 0xb1, 0, 0, 0, 0] ++ attr 3 [0, 0, 0, 0, 0, 0, 0, 1, 0, 0, 0, 0, 0] ++
      [0, 5, 0, 4, 0, 6] ++ u2 0 ++
      [0, 0, 0, 16, 0, 6] ++ u2 0 ++
    u2 4 ++ attr 13 [0, 17] ++ attr 13 [0, 1] ++ attr 14 [0, 2] ++ attr 15 [0, 1, 0, 2]

/-- An interface without the ABSTRACT flag and without a super class, with a private field and a protected native method. -/
def unrulyInterface : Bytes :=
  header 0 55 ++ u2 7 ++ text "A" ++ [7, 0, 1] ++ text "m" ++ text "()V" ++ text "x" ++ text "I" ++
    [2, 0, 0, 2, 0, 0, 0, 0] ++ u2 1 ++ [0, 2, 0, 5, 0, 6] ++ u2 0 ++ u2 1 ++ [1, 4, 0, 3, 0, 4] ++ u2 0 ++ u2 0

instance (l : LiteralConstant) (d : FieldDescriptor) : Decidable (ConstantFits l d) := by
  unfold ConstantFits; cases l <;> infer_instance

instance (d : FieldDescriptor) (a : AttributeInfo) : Decidable (WrongConstant d a) := by
  unfold WrongConstant; split <;> infer_instance

instance (cf : ClassFile) (l : Law) : Decidable (Violates cf l) := by
  cases l <;> unfold Violates <;> infer_instance

/-- The requirements that `unrulyInterface` breaks and `unruly` does not. -/
def brokenByInterface : List Law := [.interfaceAbstract, .interfaceSuper, .interfaceField, .interfaceMethod]

/-- The requirements that `unruly` breaks. -/
def brokenByClass : List Law :=
  [.superclass, .finalAbstract, .annotationInterface, .fieldAccess, .fieldFinalVolatile, .methodAccess, .abstractMethod, .initializerStatic,
    .parameterWords, .codeAbsent, .codePresent, .oneCode, .oneConstantValue, .oneSourceFile, .constantType, .nest]

/-- None of these requirements is checked: each is broken by some accepted class. -/
theorem C66_unchecked (law : Law) : ∃ bytes cf, Accepts debug bytes cf ∧ Violates cf law := by
  have h1 : (match run debug 9 unruly with
    | .ok cf => brokenByClass.all fun l => decide (Violates cf l)
    | _ => false) = true := by decide +kernel
  have h2 : (match run debug 9 unrulyInterface with
    | .ok cf => brokenByInterface.all fun l => decide (Violates cf l)
    | _ => false) = true := by decide +kernel
  split at h1
  · rename_i cf1 hcf1
    split at h2
    · rename_i cf2 hcf2
      have h3 : law ∈ brokenByClass ∨ law ∈ brokenByInterface := by cases law <;> decide
      rw [List.all_eq_true] at h1 h2
      rcases h3 with h3 | h3
      · exact ⟨unruly, cf1, ⟨9, hcf1⟩, of_decide_eq_true (h1 law h3)⟩
      · exact ⟨unrulyInterface, cf2, ⟨9, hcf2⟩, of_decide_eq_true (h2 law h3)⟩
    · cases h2
  · cases h1

/-- Dropping fields, methods and interfaces, by `C66_assembled`. -/
theorem parts_of {o : Opts} {bytes : Bytes} {cf : ClassFile} (h : Accepts o bytes cf) (bf bm : Bool) :
    ∃ bytes', Accepts o bytes' { cf with fields := if bf then cf.fields else [], methods := if bm then cf.methods else [] } := by
  have hs := C66_assembled.mp ⟨bytes, h⟩
  refine C66_assembled.mpr { hs with
    fieldsFit := ?_, fieldsFrom := ?_, methodsFit := ?_, methodsFrom := ?_, fieldsDistinct := ?_, methodsDistinct := ?_, moduleOK := ?_ }
  · cases bf <;> simp [hs.fieldsFit]
  · cases bf <;> simp; exact hs.fieldsFrom
  · cases bm <;> simp [hs.methodsFit]
  · cases bm <;> simp; exact hs.methodsFrom
  · cases bf <;> simp [hs.fieldsDistinct]; exact List.Pairwise.nil
  · cases bm <;> simp [hs.methodsDistinct]; exact List.Pairwise.nil
  · intro hm
    obtain ⟨h1, h2, h3, h4, h5, h6⟩ := hs.moduleOK hm
    exact ⟨h1, h2, h3, h4, by cases bf <;> simp [h5], by cases bm <;> simp [h6]⟩

/-- `rich` is assembled from its parts, and its two attributes can be swapped. -/
example : Assembled debug richCf ∧ ∃ bytes, Accepts debug bytes { richCf with attributes := richCf.attributes.reverse } :=
  ⟨C66_assembled.mp ⟨_, rich_accepted⟩,
    C66_order rich_accepted (.refl _) (.refl _) (.refl _) (List.reverse_perm richCf.attributes).symm⟩

theorem merge_front {o : Opts} {bytes : Bytes} {cf : ClassFile} (h : Accepts o bytes cf) (hmod : ¬ IsModule cf.accessFlags)
    (hi : cf.interfaces.length < 32768) : ∃ bytes', Accepts o bytes' { cf with interfaces := cf.interfaces ++ cf.interfaces } := by
  obtain ⟨b1, h1⟩ := parts_of h true false
  obtain ⟨b2, h2⟩ := parts_of h false true
  have hs := C66_assembled.mp ⟨_, h⟩
  obtain ⟨b3, h3⟩ := C66_merged h1 h2 rfl rfl rfl hmod (by simp; omega) (by simpa using hs.fieldsFit) (by simpa using hs.methodsFit)
    (by simp) (by simp)
  exact ⟨b3, by simpa using h3⟩

/-- The fields of `rich` and its methods, from two files, merged (each with the interface, which is then listed twice). -/
example : ∃ bytes, Accepts debug bytes { richCf with interfaces := richCf.interfaces ++ richCf.interfaces } :=
  merge_front rich_accepted (by decide +kernel) (by decide +kernel)

/-- `rich` with every field private, volatile and final, and every method abstract and native. -/
example : ∃ bytes, Accepts debug bytes { richCf with
    accessFlags := 0x2010
    fields := richCf.fields.map fun f => { f with accessFlags := 0x52 }
    methods := richCf.methods.map fun m => { m with accessFlags := 0x500 } } :=
  C66_flags rich_accepted (by decide) (by decide +kernel) (fun _ _ => by decide) (fun _ _ => by decide)

end Cafebabe
