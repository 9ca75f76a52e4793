import Verif.Proofs.Renumber
import Verif.Proofs.Open
import Verif.Proofs.Nested
import Verif.Props.RichFacts
import Verif.Props.Whole
/-!
# Properties: the numbering of the constants does not matter (C50)
-/

namespace Cafebabe
open Spec Examples

theorem bootstrap_blank : ∀ as : List AttributeInfo, bootstrapTables (blankAttrs as) = bootstrapTables as
  | [] => by rw [blankAttrs]
  | ⟨n, d⟩ :: as => by
    rw [blankAttrs, blankAttr]
    have ih := bootstrap_blank as
    unfold bootstrapTables at ih ⊢
    rw [List.filterMap_cons, List.filterMap_cons, ih]
    cases d <;> rw [blankData] <;> first | rfl | (intros; contradiction)

theorem attributes_go {π : Nat → Nat} {pool pool' : Pool} (R : Renumbers π pool pool') (o : Opts) (as : List AttributeInfo) :
    GoesTo π (AttributesEnc o pool) (AttributesEnc o pool') blankAttrs as := by
  intro s h
  unfold AttributesEnc table2 at h
  rw [← attrsEnc_eq] at h
  obtain ⟨c, hc, s, t, rfl, h1, h2⟩ := h
  obtain ⟨as', t', r, h', e, f⟩ := attrs_go R o as t h2
  refine ⟨as', s ++ t', (Rewritten.rfl' _).append r, ?_, e, f⟩
  unfold AttributesEnc table2
  rw [← attrsEnc_eq]
  exact ⟨c, by rw [hc, lens_of_blank e], s, t', rfl, h1, h'⟩

theorem goesTo_seq {β : Type} {π : Nat → Nat} {E E' : β → Lang} {blank : β → β} (h : ∀ d, GoesTo π E E' blank d) :
    ∀ l : List β, GoesTo π (seq E) (seq E') (List.map blank) l
  | [] => goesTo_leaf goes_refl
  | d :: l => by
    rintro _ ⟨s, t, rfl, h1, h2⟩
    obtain ⟨d', s', r, h1', e, f⟩ := h d s h1
    obtain ⟨l', t', r', h2', e', f'⟩ := goesTo_seq h l t h2
    exact ⟨d' :: l', s' ++ t', r.append r', ⟨s', t', rfl, h1', h2'⟩, by simp [e, e'], fun hπ => by rw [f hπ, f' hπ]⟩

theorem goesTo_table2 {β : Type} {π : Nat → Nat} {E E' : β → Lang} {blank : β → β} (h : ∀ d, GoesTo π E E' blank d) (l : List β) :
    GoesTo π (table2 E) (table2 E') (List.map blank) l := by
  rintro _ ⟨c, hc, s, t, rfl, h1, h2⟩
  obtain ⟨l', t', r, h', e, f⟩ := goesTo_seq h l t h2
  have hl : l'.length = l.length := by have := congrArg List.length e; simpa using this
  exact ⟨l', s ++ t', (Rewritten.rfl' _).append r, ⟨c, by rw [hc, hl], s, t', rfl, h1, h'⟩, e, f⟩

theorem field_goes {π : Nat → Nat} {pool pool' : Pool} (R : Renumbers π pool pool') (o : Opts) (f : FieldInfo) :
    GoesTo π (FieldEnc o pool) (FieldEnc o pool') (fun f => { f with attributes := blankAttrs f.attributes }) f := by
  rintro _ ⟨h0, s1, _, rfl, h1, s2, _, rfl, h2, s3, s4, rfl, h3, h4⟩
  obtain ⟨s2', r2, h2'⟩ := goes_ref R (At' := fun i => TextAt pool' i f.name) (fun i h => text_moves R h) s2 h2
  obtain ⟨s3', r3, h3'⟩ := goes_ref R (At' := fun i => FieldDescriptorAt pool' i f.descriptor) (fun i h => fieldDescriptor_moves R h) s3 h3
  obtain ⟨as', s4', r4, h4', e, g⟩ := attributes_go R o f.attributes s4 h4
  exact ⟨{ f with attributes := as' }, s1 ++ (s2' ++ (s3' ++ s4')), (Rewritten.rfl' _).append (r2.append (r3.append r4)),
    ⟨h0, s1, _, rfl, h1, s2', _, rfl, h2', s3', s4', rfl, h3', h4'⟩, by dsimp only; rw [e], fun hπ => by rw [g hπ]⟩

theorem method_goes {π : Nat → Nat} {pool pool' : Pool} (R : Renumbers π pool pool') (o : Opts) (p : Prop) (major : UInt16) (f : MethodInfo) :
    GoesTo π (MethodEnc o pool p major) (MethodEnc o pool' p major) (fun f => { f with attributes := blankAttrs f.attributes }) f := by
  rintro _ ⟨h0, s1, _, rfl, h1, s2, _, rfl, h2, s3, s4, rfl, h3, h4⟩
  obtain ⟨s2', r2, h2'⟩ := goes_ref R (At' := fun i => TextAt pool' i f.name) (fun i h => text_moves R h) s2 h2
  obtain ⟨s3', r3, h3'⟩ := goes_ref R (At' := fun i => MethodDescriptorAt pool' i f.descriptor) (fun i h => methodDescriptor_moves R h) s3 h3
  obtain ⟨as', s4', r4, h4', e, g⟩ := attributes_go R o f.attributes s4 h4
  exact ⟨{ f with attributes := as' }, s1 ++ (s2' ++ (s3' ++ s4')), (Rewritten.rfl' _).append (r2.append (r3.append r4)),
    ⟨h0, s1, _, rfl, h1, s2', _, rfl, h2', s3', s4', rfl, h3', h4'⟩, by dsimp only; rw [e], fun hπ => by rw [g hπ]⟩

theorem pairwise_of_map_eq {α β : Type} (f : α → β) (R : β → β → Prop) {l l' : List α} (h : l'.map f = l.map f)
    (hl : l.Pairwise fun a b => R (f a) (f b)) : l'.Pairwise fun a b => R (f a) (f b) := by
  rw [← List.pairwise_map (f := f)] at hl ⊢
  rw [h]; exact hl

/-- An accepted file with its pool replaced by a renumbered one (which may contain further constants) can be rewritten, by renumbering
indices only, to a file that is accepted as well; the class it gives is the same but for the pool and the raw bytes of code. If no number
changes, nothing needs to be rewritten. -/
theorem C50_renumbered {o : Opts} {π : Nat → Nat} {minor major : UInt16} {sp sp' body : Bytes} {cf : ClassFile} {pool' : Pool}
    (h : Accepts o (header minor major ++ (sp ++ body)) cf) (hp : PoolEnc o.decode o.checks major cf.constantPool sp)
    (hp' : PoolEnc o.decode o.checks major pool' sp') (R : Renumbers π cf.constantPool pool') (hb : BootstrapIndicesOK pool' cf.attributes) :
    ∃ (body' : Bytes) (cf' : ClassFile), Rewritten π body body' ∧ Accepts o (header minor major ++ (sp' ++ body')) cf' ∧
      cf'.constantPool = pool' ∧ content cf' = content cf ∧
      ((∀ i, i < 65536 → π i = i) → body' = body ∧ cf' = { cf with constantPool := pool' }) := by
  obtain ⟨⟨h1, h2, h3, -⟩, a1, b1, e1, k1, a2, b2, e2, k2, a3, b3, e3, k3, a4, b4, e4, k4, a5, b5, e5, k5, a6, b6, e6, k6, a7, b7, e7, k7,
    a8, b8, e8, k8, a9, b9, e9, k9, a10, b10, e10, k10, k11⟩ := accepts_iff_enc.mp h
  have hs : u2 minor ++ (u2 major ++ (sp ++ body)) = u2 cf.minorVersion ++ (u2 cf.majorVersion ++ (a4 ++ b4)) := by
    rw [e2, e3, e4, k1, k2, k3] at e1
    unfold header at e1
    simp only [List.append_assoc] at e1
    exact List.append_cancel_left e1
  obtain ⟨rfl, -⟩ := u2_unique _ _ _ _ _ _ rfl rfl hs
  have hs := List.append_cancel_left hs
  obtain ⟨rfl, -⟩ := u2_unique _ _ _ _ _ _ rfl rfl hs
  have hs := List.append_cancel_left hs
  obtain ⟨-, rfl⟩ := pool_unique o _ _ _ _ _ _ _ hp k4 hs
  have hbody := List.append_cancel_left hs
  obtain ⟨a6', r6, k6'⟩ := goes_ref R (At' := fun i => ClassNameAt pool' i cf.thisClass) (fun i h => className_moves R h) a6 k6
  obtain ⟨a7', r7, k7'⟩ := goes_ref R (At' := fun i => OptAt ClassNameAt pool' i cf.superClass) (fun i h => opt_moves R (className_moves R) h) a7 k7
  obtain ⟨a8', r8, k8'⟩ := goes_table2 (F' := fun c => ref fun i => ClassNameAt pool' i c) (fun c => goes_ref R fun i h => className_moves R h)
    cf.interfaces a8 k8
  obtain ⟨fs', a9', r9, k9', ef, gf⟩ := goesTo_table2 (field_goes R o) cf.fields a9 k9
  obtain ⟨ms', a10', r10, k10', em, gm⟩ := goesTo_table2 (method_goes R o (IsInterface cf.accessFlags) cf.majorVersion) cf.methods a10 k10
  obtain ⟨as', b10', r11, k11', ea, ga⟩ := attributes_go R o cf.attributes b10 k11
  have hnil : ∀ {β γ : Type} {f : β → γ} {l l' : List β}, l'.map f = l.map f → l = [] → l' = [] := by
    rintro β γ f l l' h rfl; simpa using h
  refine ⟨a5 ++ (a6' ++ (a7' ++ (a8' ++ (a9' ++ (a10' ++ b10'))))),
    { cf with constantPool := pool', fields := fs', methods := ms', attributes := as' }, ?_, ?_, rfl, ?_, ?_⟩
  · rw [hbody, e5, e6, e7, e8, e9, e10]
    exact (Rewritten.rfl' _).append (r6.append (r7.append (r8.append (r9.append (r10.append r11)))))
  · refine accepts_iff_enc.mpr ⟨⟨?_, ?_, ?_, ?_⟩, a1, _, ?_, k1, a2, _, rfl, k2, a3, _, rfl, k3, sp', _, rfl, hp', a5, _, rfl, k5, a6', _, rfl, k6',
      a7', _, rfl, k7', a8', _, rfl, k8', a9', _, rfl, k9', a10', b10', rfl, k10', k11'⟩
    · exact pairwise_of_map_eq (fun f : FieldInfo => ({ f with attributes := blankAttrs f.attributes } : FieldInfo))
        (fun (f g : FieldInfo) => ¬ (f.name = g.name ∧ f.descriptor = g.descriptor)) ef h1
    · exact pairwise_of_map_eq (fun f : MethodInfo => ({ f with attributes := blankAttrs f.attributes } : MethodInfo))
        (fun (f g : MethodInfo) => ¬ (f.name = g.name ∧ f.descriptor = g.descriptor)) em h2
    · intro hm
      obtain ⟨x1, x2, x3, x4, x5, x6⟩ := h3 hm
      exact ⟨x1, x2, x3, x4, hnil ef x5, hnil em x6⟩
    · intro x r hx
      obtain ⟨l, hl, hlt⟩ := hb x r hx
      exact ⟨l, by rw [← hl, ← bootstrap_blank, ← bootstrap_blank cf.attributes, ea], hlt⟩
    · rw [k1, k2, k3]; simp [header]
  · show ClassFile.mk _ _ _ _ _ _ _ (List.map _ fs') (List.map _ ms') (blankAttrs as') = ClassFile.mk _ _ _ _ _ _ _ _ _ _
    rw [ef, em, ea]
  · intro hπ
    constructor
    · rw [hbody, e5, e6, e7, e8, e9, e10, r6.eq hπ, r7.eq hπ, r8.eq hπ, r9.eq hπ, r10.eq hπ, r11.eq hπ]
    · rw [gf hπ, gm hπ, ga hπ]

/-! ## Appending constants -/

theorem lookup_append {pool ext : Pool} {i : Nat} {e : Entry} (h : pool[i]? = some e) : (pool ++ ext)[i]? = some e := by
  rw [List.getElem?_append_left (List.getElem?_eq_some_iff.mp h).1]; exact h

theorem entryOK_append {major : UInt16} {pool : Pool} (ext : Pool) {e : Entry} (h : EntryOK major pool e) : EntryOK major (pool ++ ext) e := by
  have tx : ∀ {i : Nat} {s : Str}, TextAt pool i s → TextAt (pool ++ ext) i s := fun h => lookup_append h
  have ux : ∀ {i : Nat}, Utf8At pool i → Utf8At (pool ++ ext) i := fun h =>
    h.imp (fun ⟨s, h⟩ => ⟨s, lookup_append h⟩) fun ⟨s, h⟩ => ⟨s, lookup_append h⟩
  have cx : ∀ {i : Nat}, IsClass pool i → IsClass (pool ++ ext) i := fun ⟨x, h⟩ => ⟨x, lookup_append h⟩
  have dx : ∀ {i : Nat} {D : Str → Prop}, HasDescriptor pool i D → HasDescriptor (pool ++ ext) i D := fun ⟨x, y, s, h, ht, hd⟩ =>
    ⟨x, y, s, lookup_append h, tx ht, hd⟩
  unfold EntryOK at h ⊢
  split at h <;> try exact h
  · obtain ⟨s, h, h'⟩ := h; exact ⟨s, tx h, h'⟩
  · exact ux h
  · exact ⟨cx h.1, dx h.2⟩
  · exact ⟨cx h.1, dx h.2⟩
  · exact ⟨cx h.1, dx h.2⟩
  · obtain ⟨⟨s, h, h'⟩, h''⟩ := h; exact ⟨⟨s, tx h, h'⟩, ux h''⟩
  · unfold HandleTarget at h ⊢
    split <;> simp only at h
    all_goals first
      | (obtain ⟨c, n, h⟩ := h; exact ⟨c, n, lookup_append h⟩)
      | exact h.imp (fun ⟨c, n, h⟩ => ⟨c, n, lookup_append h⟩) fun ⟨hv, c, n, h⟩ => ⟨hv, c, n, lookup_append h⟩
  · obtain ⟨s, h, h'⟩ := h; exact ⟨s, tx h, h'⟩
  · exact dx h
  · exact dx h
  · obtain ⟨s, h, h'⟩ := h; exact ⟨s, tx h, h'⟩
  · obtain ⟨s, h, h'⟩ := h; exact ⟨s, tx h, h'⟩

theorem seq_both {α : Type} {F : α → Lang} : ∀ {xs ys : List α} {s t : Bytes}, seq F xs s → seq F ys t → seq F (xs ++ ys) (s ++ t)
  | [], _, _, _, h, h' => by cases h; exact h'
  | x :: xs, _, _, _, ⟨s1, s2, rfl, h1, h2⟩, h' => ⟨s1, s2 ++ _, List.append_assoc _ _ _, h1, seq_both h2 h'⟩

/-- Constants appended to a valid pool (and counted), valid in the pool they become part of, give a valid pool. -/
theorem pool_appended {decode : Bytes → Option Str} {checks : Bool} {major count count' : UInt16} {pool : Pool} {cb nb : Bytes} {new : List Entry}
    (hp : PoolEnc decode checks major pool (u2 count ++ cb)) (hn : seq (EntryEnc decode major) new nb)
    (hc : count'.toNat = pool.length + (new.flatMap slots).length)
    (hv : ∀ e ∈ new, EntryOK major (pool ++ (new.flatMap slots).map linkEntry) (linkEntry e)) :
    PoolEnc decode checks major (pool ++ (new.flatMap slots).map linkEntry) (u2 count' ++ (cb ++ nb)) := by
  obtain ⟨raw, ⟨n, es, body, -, rfl, hs, hes⟩, rfl, hok⟩ := hp
  obtain ⟨-, rfl⟩ : n = count ∧ body = cb := by
    obtain ⟨rfl, -⟩ := u2_unique _ _ _ _ _ _ rfl rfl hs
    exact ⟨rfl, (List.append_cancel_left hs).symm⟩
  refine ⟨.zero :: (es ++ new).flatMap slots, ⟨count', es ++ new, body ++ nb, ⟨?_, ?_, ?_⟩, rfl, rfl, seq_both hes hn⟩, by simp, ?_⟩
  · intro k hk
    have hlt : slotCount ((es ++ new).take k) < slotCount (es ++ new) := by
      have hd : ((es ++ new).take k).flatMap slots ++ ((es ++ new).drop k).flatMap slots = (es ++ new).flatMap slots := by
        rw [← List.flatMap_append, List.take_append_drop]
      have hl := congrArg List.length hd
      rw [List.length_append] at hl
      have hne : 0 < (((es ++ new).drop k).flatMap slots).length := by
        cases hx : (es ++ new).drop k with
        | nil => rw [List.drop_eq_nil_iff] at hx; omega
        | cons e l =>
          rw [List.flatMap_cons, List.length_append]
          cases e <;> simp [slots] <;> omega
      unfold slotCount; omega
    have he : slotCount (es ++ new) = count'.toNat := by
      rw [hc]; simp [slotCount]; omega
    have := count'.toNat_lt
    rw [Nat.mod_eq_of_lt (by omega)]; omega
  · have he : slotCount (es ++ new) = count'.toNat := by
      rw [hc]; simp [slotCount]; omega
    have := count'.toNat_lt
    rw [Nat.mod_eq_of_lt (by omega)]; omega
  · have he : slotCount (es ++ new) = count'.toNat := by
      rw [hc]; simp [slotCount]; omega
    have := count'.toNat_lt
    omega
  · intro i e hi
    rw [List.getElem?_append] at hi
    split at hi
    · exact entryOK_append _ (hok i e hi)
    · obtain ⟨x, hx, rfl⟩ := List.mem_map.mp (List.mem_of_getElem? hi)
      obtain ⟨y, hy, hxy⟩ := List.mem_flatMap.mp hx
      have := hv y hy
      have hcase : x = y ∨ x = .unused := by
        cases y <;> simp [slots] at hxy <;> first | exact .inl hxy | exact hxy
      rcases hcase with rfl | rfl
      · exact this
      · simp [linkEntry, EntryOK]

/-- Constants appended to the pool of an accepted file, valid in the pool they become part of, change nothing but the pool: the file is
accepted as it stands otherwise, and gives the same class. -/
theorem C50_appended {o : Opts} {minor major count count' : UInt16} {cb nb body : Bytes} {cf : ClassFile} {new : List Entry}
    (h : Accepts o (header minor major ++ (u2 count ++ (cb ++ body))) cf)
    (hp : PoolEnc o.decode o.checks major cf.constantPool (u2 count ++ cb)) (hn : seq (EntryEnc o.decode major) new nb)
    (hc : count'.toNat = cf.constantPool.length + (new.flatMap slots).length)
    (hv : ∀ e ∈ new, EntryOK major (cf.constantPool ++ (new.flatMap slots).map linkEntry) (linkEntry e))
    (hb : BootstrapIndicesOK (cf.constantPool ++ (new.flatMap slots).map linkEntry) cf.attributes) :
    Accepts o (header minor major ++ (u2 count' ++ (cb ++ (nb ++ body))))
      { cf with constantPool := cf.constantPool ++ (new.flatMap slots).map linkEntry } := by
  have hme : ∀ e : Entry, moveEntry id e = e := by
    have hr : ∀ r : CPRef, moveRef id r = r := by intro r; cases r <;> rfl
    intro e; cases e <;> simp [moveEntry, hr]
  have R : Renumbers id cf.constantPool (cf.constantPool ++ (new.flatMap slots).map linkEntry) :=
    ⟨fun i e hi _ => by rw [hme]; exact lookup_append hi, fun i h => h, fun i h => h⟩
  obtain ⟨body', cf', -, h', -, -, hid⟩ := C50_renumbered (sp := u2 count ++ cb) (sp' := u2 count' ++ (cb ++ nb)) (body := body)
    (by simpa using h) hp (pool_appended hp hn hc hv) R hb
  obtain ⟨rfl, rfl⟩ := hid fun _ _ => rfl
  simpa using h'

/-! ## Witnesses -/

/-- The value of an outcome. -/
def okOf {α : Type} : Res α → Option α
  | .ok a => some a
  | _ => none

theorem poolEnc_of_run {o : Opts} {major : UInt16} {sp : Bytes} {pool : Pool}
    (h : okOf (readConstantPool (envOf o 2) major sp 0) = some (pool, sp.length)) : PoolEnc o.decode o.checks major pool sp := by
  have hr : readConstantPool (envOf o 2) major sp 0 = .ok (pool, sp.length) := by
    cases hr : readConstantPool (envOf o 2) major sp 0 with
    | ok a => rw [hr] at h; exact congrArg Res.ok (Option.some.inj h)
    | _ => rw [hr] at h; cases h
  obtain ⟨seg, rest, hs, hp, hl⟩ := (readConstantPool_exact (N := sp.length + 1) (envOf o 2) (Nat.le_refl _) major sp 0 (Nat.zero_le _) (by omega)
    pool sp.length).mp hr
  rw [List.drop_zero] at hs
  have hr : rest = [] := by
    have := congrArg List.length hs
    rw [List.length_append] at this
    exact List.length_eq_zero_iff.mp (by omega)
  rw [hr, List.append_nil] at hs
  rw [hs]; exact hp

theorem pool_of_file {o : Opts} {minor major : UInt16} {sp body : Bytes} {pool : Pool} {cf : ClassFile}
    (h : Accepts o (header minor major ++ (sp ++ body)) cf) (hp : PoolEnc o.decode o.checks major pool sp) : cf.constantPool = pool := by
  obtain ⟨seg, fs, ms, as, flags, this, super, n, ixs, e, hp', -⟩ := enc_parts (accepts_iff_enc.mp h)
  unfold header at e
  simp only [List.append_assoc] at e
  have e := List.append_cancel_left e
  obtain ⟨-, e1⟩ := u2_unique _ _ _ _ _ _ rfl rfl e
  rw [e1] at e
  have e := List.append_cancel_left e
  obtain ⟨hm, e1⟩ := u2_unique _ _ _ _ _ _ rfl rfl e
  rw [e1] at e
  have e := List.append_cancel_left e
  rw [← hm] at hp'
  exact (pool_unique o _ _ _ _ _ _ _ hp hp' e).1.symm

/-- The constants of `tiny`, each pair swapped. -/
def swapped : Bytes := u2 5 ++ [7, 0, 2] ++ text "A" ++ [7, 0, 4] ++ text "B"

/-- The new slots. -/
def swap : Nat → Nat
  | 1 => 2
  | 2 => 1
  | 3 => 4
  | 4 => 3
  | i => i

/-- `tiny` with its constants reordered is accepted with renumbered indices, and gives the same class. -/
example : ∃ (body' : Bytes) (cf cf' : ClassFile), Accepts debug tiny cf ∧ Rewritten swap [0, 0x21, 0, 2, 0, 4, 0, 0, 0, 0, 0, 0, 0, 0] body' ∧
    Accepts debug (header 0 52 ++ (swapped ++ body')) cf' ∧ content cf' = content cf ∧ cf'.constantPool ≠ cf.constantPool := by
  obtain ⟨cf, h⟩ := accepted tiny_ok
  have hp : PoolEnc debug.decode debug.checks 52 [.zero, .utf8 ['A'], .classInfo (.resolved 1), .utf8 ['B'], .classInfo (.resolved 3)]
      (u2 5 ++ text "A" ++ [7, 0, 1] ++ text "B" ++ [7, 0, 3]) := poolEnc_of_run (by decide +kernel)
  have hp' : PoolEnc debug.decode debug.checks 52 [.zero, .classInfo (.resolved 2), .utf8 ['A'], .classInfo (.resolved 4), .utf8 ['B']]
      swapped := poolEnc_of_run (by decide +kernel)
  have h' : Accepts debug (header 0 52 ++ ((u2 5 ++ text "A" ++ [7, 0, 1] ++ text "B" ++ [7, 0, 3]) ++
      [0, 0x21, 0, 2, 0, 4, 0, 0, 0, 0, 0, 0, 0, 0])) cf := h
  have hcf := pool_of_file h' hp
  obtain ⟨body', cf', hr, ha, hpool, hc, -⟩ := C50_renumbered h' (hcf ▸ hp) hp' (π := swap) (by
    rw [hcf]
    refine ⟨fun i e hi _ => ?_, fun i hi => ?_, fun i hi => ?_⟩
    · match i with
      | 0 | 1 | 2 | 3 | 4 => cases hi; rfl
      | i + 5 => cases hi
    · unfold swap; split <;> omega
    · unfold swap; split <;> omega) (by intro x r h; simp at h)
  exact ⟨body', cf, cf', h, hr, ha, hc, by rw [hpool, hcf]; decide⟩

/-- Three constants appended to `tiny`. -/
example : ∃ cf, Accepts debug tiny cf ∧ Accepts debug (header 0 52 ++ (u2 9 ++ ((text "A" ++ [7, 0, 1] ++ text "B" ++ [7, 0, 3]) ++
    ((text "C" ++ ([7, 0, 5] ++ ([5] ++ u8 7 ++ []))) ++ [0, 0x21, 0, 2, 0, 4, 0, 0, 0, 0, 0, 0, 0, 0]))))
    { cf with constantPool := cf.constantPool ++ [.utf8 ['C'], .classInfo (.resolved 5), .long 7, .unused] } := by
  obtain ⟨cf, h⟩ := accepted tiny_ok
  have hp : PoolEnc debug.decode debug.checks 52 [.zero, .utf8 ['A'], .classInfo (.resolved 1), .utf8 ['B'], .classInfo (.resolved 3)]
      (u2 5 ++ (text "A" ++ [7, 0, 1] ++ text "B" ++ [7, 0, 3])) := poolEnc_of_run (by decide +kernel)
  have h' : Accepts debug (header 0 52 ++ (u2 5 ++ ((text "A" ++ [7, 0, 1] ++ text "B" ++ [7, 0, 3]) ++
      [0, 0x21, 0, 2, 0, 4, 0, 0, 0, 0, 0, 0, 0, 0]))) cf := h
  have hcf := pool_of_file (sp := u2 5 ++ (text "A" ++ [7, 0, 1] ++ text "B" ++ [7, 0, 3])) h' hp
  refine ⟨cf, h, C50_appended (new := [.utf8 ['C'], .classInfo (.unresolved 5), .long 7]) h' (hcf ▸ hp) ?_ ?_ ?_ ?_⟩
  · exact ⟨text "C", _, rfl, ⟨1, [0x43], rfl, by decide, rfl⟩, [7, 0, 5], _, rfl, rfl, [5] ++ u8 7, _, rfl, rfl, rfl⟩
  · rw [hcf]; rfl
  · rw [hcf]
    intro e he
    simp only [List.mem_cons, List.not_mem_nil, or_false] at he
    rcases he with rfl | rfl | rfl
    · trivial
    · exact ⟨['C'], rfl, .inl ⟨[['C']], by simp, by intro g hg; rw [List.mem_singleton.mp hg]; exact ⟨by simp, by simp⟩, rfl⟩⟩
    · trivial
  · rw [hcf]
    intro x r h; simp [slots, linkEntry] at h

end Cafebabe
