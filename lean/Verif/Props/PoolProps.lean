import Verif.Spec.PoolGraph
import Verif.Props.SlotCount
import Verif.Props.RichFacts
/-!
# Properties of the constant pool: C09 - C13
-/

namespace Cafebabe
open Spec Examples

theorem accepts_pool {o : Opts} {bytes : Bytes} {cf : ClassFile} (h : Accepts o bytes cf) : PoolOK cf.majorVersion cf.constantPool := by
  obtain ⟨_, _, _, _, _, _, _, _, h⟩ := enc_pool (accepts_iff_enc.mp h)
  exact h

/-! ## C09 Constant-pool references are resolved and well typed -/

theorem pointsTo_text {pool : Pool} {k : Nat} {s : Str} (h : TextAt pool k s) : PointsTo pool (.resolved k) IsText := ⟨k, _, rfl, h, s, rfl⟩

theorem pointsTo_utf8 {pool : Pool} {k : Nat} (h : Utf8At pool k) : PointsTo pool (.resolved k) IsUtf8 := by
  rcases h with ⟨s, h⟩ | ⟨b, h⟩
  · exact ⟨k, _, rfl, h, .inl ⟨s, rfl⟩⟩
  · exact ⟨k, _, rfl, h, .inr ⟨b, rfl⟩⟩

theorem pointsTo_class {pool : Pool} {k : Nat} (h : IsClass pool k) : PointsTo pool (.resolved k) IsClassInfo := by
  obtain ⟨x, h⟩ := h
  exact ⟨k, _, rfl, h, x, rfl⟩

theorem pointsTo_nat {pool : Pool} {k : Nat} {D : Str → Prop} (h : HasDescriptor pool k D) : PointsTo pool (.resolved k) IsNameType := by
  obtain ⟨x, y, s, h, -⟩ := h
  exact ⟨k, _, rfl, h, x, _, rfl⟩

theorem pointsTo_member {major : UInt16} {r : ReferenceKind} {pool : Pool} {k : Nat} (h : HandleTarget major r pool k) :
    PointsTo pool (.resolved k) IsMember := by
  cases r <;> simp only [HandleTarget] at h
  case invokeStatic | invokeSpecial =>
    rcases h with ⟨c, n, h⟩ | ⟨-, c, n, h⟩
    · exact ⟨k, _, rfl, h, c, n, by simp⟩
    · exact ⟨k, _, rfl, h, c, n, by simp⟩
  all_goals
    obtain ⟨c, n, h⟩ := h
    exact ⟨k, _, rfl, h, c, n, by simp⟩

theorem wellTyped_of_ok {major : UInt16} {pool : Pool} {e : Entry} (h : EntryOK major pool e) : WellTyped pool e := by
  entry_cases e <;> simp only [EntryOK] at h <;> simp only [WellTyped]
  case classInfo.resolved | methodType.resolved | moduleInfo.resolved | packageInfo.resolved =>
    obtain ⟨s, h, -⟩ := h
    exact pointsTo_text h
  case string.resolved => exact pointsTo_utf8 h
  case fieldRef.resolved.resolved | methodRef.resolved.resolved | interfaceMethodRef.resolved.resolved =>
    exact ⟨pointsTo_class h.1, pointsTo_nat h.2⟩
  case nameAndType.resolved.resolved =>
    obtain ⟨⟨s, hs, -⟩, h⟩ := h
    exact ⟨pointsTo_text hs, pointsTo_utf8 h⟩
  case methodHandle.resolved => exact pointsTo_member h
  case dynamic.resolved | invokeDynamic.resolved => exact pointsTo_nat h

/-- Every reference in the pool of an accepted file leads to an entry of the pool of the kind the format requires. -/
theorem C09_well_typed {o : Opts} {bytes : Bytes} {cf : ClassFile} (h : Accepts o bytes cf) {i : Nat} {e : Entry}
    (hi : cf.constantPool[i]? = some e) : WellTyped cf.constantPool e := wellTyped_of_ok (accepts_pool h i e hi)

theorem wellTyped_refs {pool : Pool} {e : Entry} (h : WellTyped pool e) {r : CPRef} (hr : r ∈ refsOf e) : ∃ Q, PointsTo pool r Q := by
  cases e <;> simp only [refsOf, List.mem_cons, List.not_mem_nil, or_false] at hr <;> simp only [WellTyped] at h <;>
    first
      | (subst hr; exact ⟨_, h⟩)
      | (rcases hr with rfl | rfl
         · exact ⟨_, h.1⟩
         · exact ⟨_, h.2⟩)

/-- In particular every stored reference is resolved, to a slot of the pool. -/
theorem C09_resolved {o : Opts} {bytes : Bytes} {cf : ClassFile} (h : Accepts o bytes cf) {i : Nat} {e : Entry}
    (hi : cf.constantPool[i]? = some e) {r : CPRef} (hr : r ∈ refsOf e) : ∃ k, r = .resolved k ∧ k < cf.constantPool.length := by
  obtain ⟨Q, k, e', rfl, hk, -⟩ := wellTyped_refs (C09_well_typed h hi) hr
  exact ⟨k, rfl, (List.getElem?_eq_some_iff.mp hk).1⟩

/-- Slot 10 of `rich` is a MethodHandle; its reference is resolved and well typed. -/
example : Accepts debug rich richCf ∧ richCf.constantPool[10]? = some (.methodHandle .invokeStatic (.resolved 9)) ∧
    PointsTo richCf.constantPool (.resolved 9) IsMember :=
  ⟨rich_accepted, rich_pool.2.1, C09_well_typed rich_accepted rich_pool.2.1⟩

/-! ## C10 Constant pool is acyclic -/

/-- Height of a constant in the reference graph. -/
def height : Entry → Nat
  | .classInfo _ | .string _ | .nameAndType _ _ | .methodType _ | .moduleInfo _ | .packageInfo _ => 1
  | .fieldRef _ _ | .methodRef _ _ | .interfaceMethodRef _ _ | .dynamic _ _ | .invokeDynamic _ _ => 2
  | .methodHandle _ _ => 3
  | .zero | .utf8 _ | .utf8Bytes _ | .integer _ | .float _ | .long _ | .double _ | .unused => 0

theorem pointsTo_height {pool : Pool} {k : Nat} {Q : Entry → Prop} {n : Nat} (h : PointsTo pool (.resolved k) Q) (hQ : ∀ e, Q e → height e < n)
    {e : Entry} (he : pool[k]? = some e) : height e < n := by
  obtain ⟨k', e', hk, he', hq⟩ := h
  cases hk
  rw [he] at he'
  cases he'
  exact hQ _ hq

theorem height_text : ∀ e, IsText e → height e < 1 := by rintro _ ⟨s, rfl⟩; simp [height]
theorem height_utf8 : ∀ e, IsUtf8 e → height e < 1 := by rintro _ (⟨s, rfl⟩ | ⟨s, rfl⟩) <;> simp [height]
theorem height_class : ∀ e, IsClassInfo e → height e < 2 := by rintro _ ⟨s, rfl⟩; simp [height]
theorem height_nat : ∀ e, IsNameType e → height e < 2 := by rintro _ ⟨s, t, rfl⟩; simp [height]
theorem height_member : ∀ e, IsMember e → height e < 3 := by rintro _ ⟨s, t, rfl | rfl | rfl⟩ <;> simp [height]

theorem edge_height {pool : Pool} (hw : ∀ (i : Nat) (e : Entry), pool[i]? = some e → WellTyped pool e) {i j : Nat} {e f : Entry}
    (hi : pool[i]? = some e) (hr : .resolved j ∈ refsOf e) (hj : pool[j]? = some f) : height f < height e := by
  have h := hw i e hi
  cases e <;> simp only [refsOf, List.mem_cons, List.not_mem_nil, or_false] at hr <;> simp only [WellTyped] at h
  case classInfo | methodType | moduleInfo | packageInfo => subst hr; exact pointsTo_height h height_text hj
  case string => subst hr; exact pointsTo_height h height_utf8 hj
  case methodHandle => subst hr; exact pointsTo_height h height_member hj
  case dynamic | invokeDynamic => subst hr; exact pointsTo_height h height_nat hj
  case fieldRef | methodRef | interfaceMethodRef =>
    rcases hr with rfl | rfl
    · exact pointsTo_height h.1 height_class hj
    · exact pointsTo_height h.2 height_nat hj
  case nameAndType =>
    rcases hr with rfl | rfl
    · exact pointsTo_height h.1 height_text hj
    · exact pointsTo_height h.2 height_utf8 hj

theorem path_height {pool : Pool} (hw : ∀ (i : Nat) (e : Entry), pool[i]? = some e → WellTyped pool e) {n i j : Nat} (h : Path pool n i j) :
    ∀ e, pool[i]? = some e → n ≤ height e := by
  induction h with
  | nil => intros; omega
  | cons hE _ ih =>
    intro e he
    obtain ⟨e', he', hr⟩ := hE
    rw [he] at he'
    cases he'
    obtain ⟨Q, k, f, hk, hf, -⟩ := wellTyped_refs (hw _ _ he) hr
    cases hk
    have h1 := edge_height hw he hr hf
    have h2 := ih f hf
    omega

theorem path_trans {pool : Pool} {n m i j k : Nat} (h : Path pool n i j) (h' : Path pool m j k) : Path pool (n + m) i k := by
  induction h with
  | nil => simpa using h'
  | @cons n' _ _ _ hE _ ih =>
    have := Path.cons hE (ih h')
    rwa [show n' + 1 + m = n' + m + 1 by omega]

/-- In the pool of an accepted file no path of references is longer than three. -/
theorem C10_short_paths {o : Opts} {bytes : Bytes} {cf : ClassFile} (h : Accepts o bytes cf) {n i j : Nat} (hp : Path cf.constantPool n i j) :
    n ≤ 3 := by
  cases hp with
  | nil => omega
  | cons hE hp =>
    have hE' := hE
    obtain ⟨e, he, -⟩ := hE'
    have := path_height (fun i e hi => C09_well_typed h hi) (.cons hE hp) e he
    have : height e ≤ 3 := by cases e <;> simp [height]
    omega

/-- There is no cycle of references. -/
theorem C10_acyclic {o : Opts} {bytes : Bytes} {cf : ClassFile} (h : Accepts o bytes cf) {n i : Nat} : ¬ Path cf.constantPool (n + 1) i i := by
  intro hp
  have hp4 := path_trans hp (path_trans hp (path_trans hp hp))
  have := C10_short_paths h hp4
  omega

/-- The bound three is attained. -/
example : Path richCf.constantPool 3 10 1 :=
  .cons ⟨_, rich_pool.2.1, by simp [refsOf]⟩ (.cons ⟨_, rich_pool.2.2.1, by simp [refsOf]⟩
    (.cons (j := 1) (i := 2) ⟨_, rich_pool.2.2.2.2.1, by simp [refsOf]⟩ (.nil 1)))

/-! ## C11 Constant tags are gated by class-file version -/

theorem tagOf_enc {decode : Bytes → Option Str} {major : UInt16} {e : Entry} {seg : Bytes} (h : EntryEnc decode major e seg) :
    ∃ t rest, seg = t :: rest ∧ tagOf e = some t ∧ TagAllowed major t := by
  have h0 : (0 : UInt16) ≤ major := UInt16.le_iff_toNat_le.mpr (Nat.zero_le _)
  entry_cases e <;> simp only [EntryEnc] at h
  case utf8 => obtain ⟨n, b, -, -, rfl⟩ := h; exact ⟨_, _, rfl, rfl, _, rfl, h0⟩
  case utf8Bytes => obtain ⟨n, -, -, rfl⟩ := h; exact ⟨_, _, rfl, rfl, _, rfl, h0⟩
  all_goals first
    | (subst h; exact ⟨_, _, rfl, rfl, _, rfl, h0⟩)
    | (obtain ⟨hm, rfl⟩ := h; exact ⟨_, _, rfl, rfl, _, rfl, hm⟩)

theorem tagOf_link (e : Entry) : tagOf (linkEntry e) = tagOf e := by cases e <;> rfl

/-- Every constant of an accepted file has a tag that its class-file version allows. -/
theorem C11_version_gate {o : Opts} {bytes : Bytes} {cf : ClassFile} (h : Accepts o bytes cf) {i : Nat} {e : Entry}
    (hi : cf.constantPool[i]? = some e) : e = .zero ∧ i = 0 ∨ e = .unused ∨ ∃ t, tagOf e = some t ∧ TagAllowed cf.majorVersion t := by
  obtain ⟨count, es, body, rest, -, -, hmap, hs, -⟩ := enc_pool (accepts_iff_enc.mp h)
  rw [hmap, List.getElem?_map, Option.map_eq_some_iff] at hi
  obtain ⟨f, hf, rfl⟩ := hi
  rcases i with _ | i
  · cases hf; exact .inl ⟨rfl, rfl⟩
  · right
    rw [List.getElem?_cons_succ] at hf
    obtain ⟨g, hg, hm⟩ := List.mem_flatMap.mp (List.mem_of_getElem? hf)
    rcases slots_mem hm with rfl | rfl
    · obtain ⟨seg, hseg⟩ := (seq_enc_mem hs).1 _ hg
      obtain ⟨t, _, -, ht, hv⟩ := tagOf_enc hseg
      exact .inr ⟨t, by rw [tagOf_link]; exact ht, hv⟩
    · exact .inl rfl

/-- The rule in figures. -/
theorem C11_versions {o : Opts} {bytes : Bytes} {cf : ClassFile} (h : Accepts o bytes cf) :
    (∀ (k : ReferenceKind) (x : CPRef), Entry.methodHandle k x ∈ cf.constantPool → 51 ≤ cf.majorVersion) ∧
    (∀ x : CPRef, Entry.methodType x ∈ cf.constantPool → 51 ≤ cf.majorVersion) ∧
    (∀ (b : UInt16) (x : CPRef), Entry.invokeDynamic b x ∈ cf.constantPool → 51 ≤ cf.majorVersion) ∧
    (∀ x : CPRef, Entry.moduleInfo x ∈ cf.constantPool → 53 ≤ cf.majorVersion) ∧
    (∀ x : CPRef, Entry.packageInfo x ∈ cf.constantPool → 53 ≤ cf.majorVersion) ∧
    (∀ (b : UInt16) (x : CPRef), Entry.dynamic b x ∈ cf.constantPool → 55 ≤ cf.majorVersion) := by
  have key : ∀ e ∈ cf.constantPool, e ≠ .zero → e ≠ .unused → ∃ t, tagOf e = some t ∧ TagAllowed cf.majorVersion t := by
    intro e he h1 h2
    obtain ⟨i, hi⟩ := List.getElem?_of_mem he
    rcases C11_version_gate h hi with ⟨h', -⟩ | h' | h'
    · exact absurd h' h1
    · exact absurd h' h2
    · exact h'
  refine ⟨?_, ?_, ?_, ?_, ?_, ?_⟩ <;> intros <;> rename_i hm <;> obtain ⟨t, ht, v, hv, hle⟩ := key _ hm (by simp) (by simp) <;> cases ht <;>
    cases hv <;> exact hle

/-- Two encodings of constants at the start of the same bytes are the same. -/
theorem entryEnc_prefix {decode : Bytes → Option Str} {major : UInt16} {e e' : Entry} {s s' t t' : Bytes} (h : EntryEnc decode major e s)
    (h' : EntryEnc decode major e' s') (heq : s ++ t = s' ++ t') : e = e' ∧ s = s' ∧ t = t' := by
  obtain ⟨a, r, rfl, -⟩ := tagOf_enc h
  obtain ⟨a', r', rfl, -⟩ := tagOf_enc h'
  simp only [List.cons_append, List.cons.injEq] at heq
  obtain ⟨rfl, heq⟩ := heq
  let env : Env := { decode := decode, overflowChecks := false, depth := 0, parseBytecode := false }
  have e1 := (readConstant_exact (N := (r ++ t).length + 1) env major a (r ++ t) 0 (Nat.zero_le _) (by omega) e r.length).mpr
    ⟨r, t, rfl, h, by simp⟩
  have e2 := (readConstant_exact (N := (r ++ t).length + 1) env major a (r ++ t) 0 (Nat.zero_le _) (by omega) e' r'.length).mpr
    ⟨r', t', heq, h', by simp⟩
  rw [e1, Res.ok.injEq, Prod.mk.injEq] at e2
  obtain ⟨h1, h2⟩ := List.append_inj heq e2.2
  exact ⟨e2.1, by rw [h1], h2⟩

/-- If bytes start with constants `es` followed by a byte that is no allowed tag, then any reading of constants from there yields a prefix of
`es`. -/
theorem constants_prefix {decode : Bytes → Option Str} {major : UInt16} {t : UInt8} (ht : ¬ TagAllowed major t) {tl : Bytes} :
    ∀ {es es' : List Entry} {s s' r : Bytes}, seq (EntryEnc decode major) es s → seq (EntryEnc decode major) es' s' →
      s ++ t :: tl = s' ++ r → ∃ k, k ≤ es.length ∧ es' = es.take k
  | _, [], _, _, _, _, _, _ => ⟨0, Nat.zero_le _, rfl⟩
  | [], e' :: es', _, _, _, h, ⟨s', t', rfl, hs', _⟩, heq => by
    obtain rfl := h
    obtain ⟨a, r', rfl, -, hv⟩ := tagOf_enc hs'
    simp only [List.nil_append, List.cons_append, List.cons.injEq] at heq
    obtain ⟨rfl, -⟩ := heq
    exact absurd hv ht
  | e :: es, e' :: es', _, _, r, ⟨s, u, rfl, hs, hu⟩, ⟨s', u', rfl, hs', hu'⟩, heq => by
    rw [List.append_assoc, List.append_assoc] at heq
    obtain ⟨he, hse, heq2⟩ := entryEnc_prefix hs hs' heq
    subst he hse
    obtain ⟨k, hk, rfl⟩ := constants_prefix ht hu hu' heq2
    exact ⟨k + 1, by simpa using hk, rfl⟩

theorem header_inj {m1 m2 M1 M2 : UInt16} {x y : Bytes} (h : header m1 M1 ++ x = header m2 M2 ++ y) : m1 = m2 ∧ M1 = M2 ∧ x = y := by
  obtain ⟨h3, h4⟩ := List.append_inj h rfl
  obtain ⟨h5, h6⟩ := List.append_inj h3 rfl
  exact ⟨u2_inj (List.append_inj h5 rfl).2, u2_inj h6, h4⟩

/-- Tags that are unassigned or not yet allowed are rejected: if fewer slots than declared are filled by well-formed constants and the next
byte is no tag allowed in this version, the parser returns an error. -/
theorem C11_bad_tag {o : Opts} {minor major count : UInt16} {es : List Entry} {body rest : Bytes} {t : UInt8}
    (hs : seq (EntryEnc o.decode major) es body) (hc : slotCount es < count.toNat) (ht : ¬ TagAllowed major t) :
    ∃ e, Rejects o (header minor major ++ u2 count ++ body ++ t :: rest) e := by
  have hcl := count.toNat_lt
  -- no complete pool can be read
  have take_le : ∀ k, slotCount (es.take k) ≤ slotCount es := by
    intro k
    have := slotCount_append (es.take k) (es.drop k)
    rw [List.take_append_drop] at this
    omega
  have nopool : ∀ {m M : UInt16} {raw : Pool} {seg r : Bytes},
      header minor major ++ u2 count ++ body ++ t :: rest = header m M ++ seg ++ r → ¬ RawPoolEnc o.decode o.checks M raw seg := by
    rintro m M raw seg r hb ⟨count', es', body', hc', -, rfl, hs'⟩
    rw [List.append_assoc, List.append_assoc, List.append_assoc] at hb
    obtain ⟨rfl, rfl, hb2⟩ := header_inj hb
    rw [List.append_assoc] at hb2
    obtain ⟨h1, hb3⟩ := List.append_inj hb2 rfl
    obtain rfl := u2_inj h1
    obtain ⟨k, -, rfl⟩ := constants_prefix ht hs hs' hb3
    have h2 := hc'.2.1
    have h3 := take_le k
    rw [Nat.mod_eq_of_lt (by omega)] at h2
    omega
  rcases outcome_cases o (header minor major ++ u2 count ++ body ++ t :: rest) with ⟨cf, h⟩ | h | ⟨k, h⟩ | h
  · obtain ⟨count', es', body', rest', hb, hc', -, hs', -⟩ := enc_pool (accepts_iff_enc.mp h)
    rw [List.append_assoc (header _ _) (u2 count') body'] at hb
    exact absurd ⟨count', es', body', hc', rfl, rfl, hs'⟩ (nopool hb)
  · exact h
  · rcases C06_panic_causes h with ⟨-, -, ⟨m, M, count', es', body', rest', hb, hs', -, hge⟩ | ⟨-, m, M, pool, seg, r, hb, ⟨raw, hraw, -⟩, -⟩⟩ |
      ⟨-, m, M, pool, seg, r, hb, ⟨raw, hraw, -⟩, -⟩
    · exfalso
      rw [List.append_assoc, List.append_assoc, List.append_assoc, List.append_assoc] at hb
      obtain ⟨rfl, rfl, hb2⟩ := header_inj hb
      obtain ⟨h1, hb3⟩ := List.append_inj hb2 rfl
      obtain ⟨k, -, rfl⟩ := constants_prefix ht hs hs' hb3
      have h3 := take_le k
      omega
    · exact absurd hraw (nopool hb)
    · exact absurd hraw (nopool hb)
  · obtain ⟨m, M, raw, seg, r, hb, hraw, -⟩ := hangs_iff_stuck.mp h
    exact absurd hraw (nopool hb)

/-- For instance an InvokeDynamic constant in a version 50 file, or tag 2. -/
example : ¬ TagAllowed 50 18 ∧ ¬ TagAllowed 65 2 ∧ TagAllowed 51 18 := by
  refine ⟨?_, ?_, 51, rfl, by decide⟩
  · rintro ⟨v, hv, h⟩; cases hv; revert h; decide
  · rintro ⟨v, hv, h⟩; cases hv

example : ∃ e, Rejects debug (header 0 50 ++ u2 3 ++ text "A" ++ 18 :: [0, 0, 0, 1]) e :=
  C11_bad_tag (es := [Entry.utf8 ['A']]) ⟨text "A", [], rfl, ⟨1, [65], rfl, rfl, rfl⟩, rfl⟩ (by decide)
    (by rintro ⟨v, hv, h⟩; cases hv; revert h; decide)

/-! ## C12 Method handles match their reference kind -/

/-- JVMS 4.4.8: each kind of method handle refers to a member constant of the kind it needs. -/
theorem C12_handles {o : Opts} {bytes : Bytes} {cf : ClassFile} (h : Accepts o bytes cf) {i : Nat} {k : ReferenceKind} {x : CPRef}
    (hi : cf.constantPool[i]? = some (.methodHandle k x)) :
    1 ≤ kindByte k ∧ kindByte k ≤ 9 ∧
    ∃ (j : Nat) (e : Entry), x = .resolved j ∧ cf.constantPool[j]? = some e ∧
      (kindByte k = 1 ∨ kindByte k = 2 ∨ kindByte k = 3 ∨ kindByte k = 4 → tagOf e = some 9) ∧
      (kindByte k = 5 ∨ kindByte k = 8 → tagOf e = some 10) ∧
      (kindByte k = 6 ∨ kindByte k = 7 → tagOf e = some 10 ∨ (52 ≤ cf.majorVersion ∧ tagOf e = some 11)) ∧
      (kindByte k = 9 → tagOf e = some 11) := by
  have hok := accepts_pool h i _ hi
  cases x with
  | unresolved j => exact hok.elim
  | resolved j =>
    refine ⟨by cases k <;> decide, by cases k <;> decide, j, ?_⟩
    cases k <;> simp only [EntryOK, HandleTarget] at hok
    case invokeStatic | invokeSpecial =>
      rcases hok with ⟨c, n, h⟩ | ⟨hm, c, n, h⟩
      · exact ⟨_, rfl, h, by simp [kindByte], by simp [kindByte], fun _ => .inl rfl, by simp [kindByte]⟩
      · exact ⟨_, rfl, h, by simp [kindByte], by simp [kindByte], fun _ => .inr ⟨hm, rfl⟩, by simp [kindByte]⟩
    all_goals
      obtain ⟨c, n, h⟩ := hok
      exact ⟨_, rfl, h, by simp [kindByte, tagOf], by simp [kindByte, tagOf], by simp [kindByte, tagOf], by simp [kindByte, tagOf]⟩

example : Accepts debug rich richCf ∧ richCf.constantPool[10]? = some (.methodHandle .invokeStatic (.resolved 9)) :=
  ⟨rich_accepted, rich_pool.2.1⟩

/-- The kind is the encoded byte, so bytes outside 1-9 are never read as a kind. -/
theorem C12_kind_byte {decode : Bytes → Option Str} {major : UInt16} {e : Entry} {b : UInt8} {rest : Bytes}
    (h : EntryEnc decode major e (15 :: b :: rest)) : ∃ k x, e = .methodHandle k x ∧ kindByte k = b ∧ 1 ≤ b ∧ b ≤ 9 := by
  entry_cases e <;> simp [EntryEnc, u2, u4, u8] at h
  obtain ⟨-, rfl, -⟩ := h
  refine ⟨_, _, rfl, rfl, ?_, ?_⟩ <;> rename_i k _ <;> cases k <;> decide

/-! ## C13 Names and descriptors in the pool are valid -/

/-- What acceptance guarantees of the names and descriptors in the pool. -/
theorem C13_names {o : Opts} {bytes : Bytes} {cf : ClassFile} (h : Accepts o bytes cf) {i : Nat} :
    (∀ x, cf.constantPool[i]? = some (.classInfo x) → ∃ k s, x = .resolved k ∧ TextAt cf.constantPool k s ∧ (BinaryName s ∨ IsArrayDescriptor s)) ∧
    (∀ c n, cf.constantPool[i]? = some (.fieldRef c n) → ∃ k s, n = .resolved k ∧ IsFieldDescriptor s ∧
      ∃ name, NameAndTypeAt cf.constantPool k ⟨name, s⟩ ∧ UnqualifiedName name) ∧
    (∀ c n, cf.constantPool[i]? = some (.methodRef c n) ∨ cf.constantPool[i]? = some (.interfaceMethodRef c n) →
      ∃ k s, n = .resolved k ∧ IsMethodDescriptor s ∧ ∃ name, NameAndTypeAt cf.constantPool k ⟨name, s⟩ ∧ UnqualifiedName name) ∧
    (∀ b n, cf.constantPool[i]? = some (.dynamic b n) → ∃ k s, n = .resolved k ∧ IsFieldDescriptor s ∧
      ∃ name, NameAndTypeAt cf.constantPool k ⟨name, s⟩ ∧ UnqualifiedName name) ∧
    (∀ b n, cf.constantPool[i]? = some (.invokeDynamic b n) → ∃ k s, n = .resolved k ∧ IsMethodDescriptor s ∧
      ∃ name, NameAndTypeAt cf.constantPool k ⟨name, s⟩ ∧ UnqualifiedName name) ∧
    (∀ x, cf.constantPool[i]? = some (.methodType x) → ∃ k s, x = .resolved k ∧ TextAt cf.constantPool k s ∧ IsMethodDescriptor s) ∧
    (∀ x y, cf.constantPool[i]? = some (.nameAndType x y) → ∃ k s, x = .resolved k ∧ TextAt cf.constantPool k s ∧ UnqualifiedName s) ∧
    (∀ x, cf.constantPool[i]? = some (.packageInfo x) → ∃ k s, x = .resolved k ∧ TextAt cf.constantPool k s ∧ BinaryName s) ∧
    (∀ x, cf.constantPool[i]? = some (.moduleInfo x) → ∃ k s, x = .resolved k ∧ TextAt cf.constantPool k s ∧ ModuleName s) := by
  have hp := accepts_pool h
  have nat : ∀ {k : Nat} {D : Str → Prop}, HasDescriptor cf.constantPool k D →
      ∃ k' s, CPRef.resolved k = .resolved k' ∧ D s ∧ ∃ name, NameAndTypeAt cf.constantPool k' ⟨name, s⟩ ∧ UnqualifiedName name := by
    rintro k D ⟨x, y, s, hk, hs, hD⟩
    have := hp k _ hk
    cases x with
    | unresolved _ => exact this.elim
    | resolved x =>
      obtain ⟨⟨name, hn, hu⟩, -⟩ := this
      exact ⟨k, s, rfl, hD, name, ⟨x, y, hk, hn, hs⟩, hu⟩
  refine ⟨?_, ?_, ?_, ?_, ?_, ?_, ?_, ?_, ?_⟩
  · intro x hi
    have := hp i _ hi
    cases x with
    | unresolved _ => exact this.elim
    | resolved k => exact let ⟨s, h1, h2⟩ := this; ⟨k, s, rfl, h1, h2⟩
  · intro c n hi
    have := hp i _ hi
    cases c <;> cases n <;> first | exact this.elim | exact nat this.2
  · rintro c n (hi | hi)
    · have := hp i _ hi
      cases c <;> cases n <;> first | exact this.elim | exact nat this.2
    · have := hp i _ hi
      cases c <;> cases n <;> first | exact this.elim | exact nat this.2
  · intro c n hi
    have := hp i _ hi
    cases n <;> first | exact this.elim | exact nat this
  · intro c n hi
    have := hp i _ hi
    cases n <;> first | exact this.elim | exact nat this
  · intro x hi
    have := hp i _ hi
    cases x with
    | unresolved _ => exact this.elim
    | resolved k => exact let ⟨s, h1, h2⟩ := this; ⟨k, s, rfl, h1, h2⟩
  · intro x y hi
    have := hp i _ hi
    cases x <;> cases y <;> first | exact this.elim | exact let ⟨⟨s, h1, h2⟩, _⟩ := this; ⟨_, s, rfl, h1, h2⟩
  · intro x hi
    have := hp i _ hi
    cases x with
    | unresolved _ => exact this.elim
    | resolved k => exact let ⟨s, h1, h2⟩ := this; ⟨k, s, rfl, h1, h2⟩
  · intro x hi
    have := hp i _ hi
    cases x with
    | unresolved _ => exact this.elim
    | resolved k => exact let ⟨s, h1, h2⟩ := this; ⟨k, s, rfl, h1, h2⟩

/-- Conversely no pool meeting the conditions is rejected: with any such pool that has a class of its own to name and no Dynamic or
InvokeDynamic constants (which would also need bootstrap methods), the smallest class file with that pool is accepted. -/
theorem C13_never_rejected {o : Opts} {minor major : UInt16} {pool : Pool} {seg : Bytes} (hp : PoolEnc o.decode o.checks major pool seg)
    {i : UInt16} {c : ClassName} (hc : ClassNameAt pool i.toNat c) (hd : ∀ x r, Entry.dynamic x r ∉ pool ∧ Entry.invokeDynamic x r ∉ pool) :
    ∃ cf, Accepts o (header minor major ++ seg ++ ([0, 0x21] ++ u2 i ++ [0, 0, 0, 0, 0, 0, 0, 0, 0, 0])) cf ∧ cf.constantPool = pool ∧
      cf.accessFlags = 0x21 := by
  have h0 : pool[0]? = some .zero := by
    obtain ⟨raw, ⟨_, _, _, -, rfl, -, -⟩, rfl, -⟩ := hp
    rfl
  refine ⟨{ majorVersion := major, minorVersion := minor, constantPool := pool, accessFlags := 0x21, thisClass := c, superClass := none,
            interfaces := [], fields := [], methods := [], attributes := [] }, accepts_iff_enc.mpr ?_, rfl, rfl⟩
  refine ⟨⟨List.Pairwise.nil, List.Pairwise.nil, fun h => absurd (by decide : (0x21 : UInt16) &&& 0x8000 = 0) h, ?_⟩, ?_⟩
  · rintro x r (h | h)
    · exact absurd h (hd x r).1
    · exact absurd h (hd x r).2
  · refine ⟨[0xCA, 0xFE, 0xBA, 0xBE], _, ?_, rfl, u2 minor, _, rfl, rfl, u2 major, _, rfl, rfl, seg, _, rfl, hp,
      u2 0x21, _, rfl, ⟨0x21, rfl, rfl⟩, u2 i, _, rfl, ⟨i, hc, rfl⟩, u2 0, _, rfl, ⟨0, h0, rfl⟩,
      u2 0, _, rfl, ⟨0, rfl, u2 0, [], rfl, rfl, rfl⟩, u2 0, _, rfl, ⟨0, rfl, u2 0, [], rfl, rfl, rfl⟩,
      u2 0, _, rfl, ⟨0, rfl, u2 0, [], rfl, rfl, rfl⟩, ⟨0, rfl, u2 0, [], rfl, rfl, rfl⟩⟩
    unfold header
    simp only [List.append_assoc]
    rfl

/-- Nor is the pool reader itself ever unhappy with such a pool, wherever it is in the input and whatever follows. -/
theorem C13_reader {o : Opts} {d : Nat} (hd : 2 ≤ d) {major : UInt16} {pool : Pool} {seg before rest : Bytes}
    (hp : PoolEnc o.decode o.checks major pool seg) :
    readConstantPool (envOf o d) major (before ++ seg ++ rest) before.length = .ok (pool, before.length + seg.length) :=
  (readConstantPool_exact (N := (before ++ seg ++ rest).length + 1) (envOf o d) hd major _ _ (by simp) (by omega) _ _).mpr
    ⟨seg, rest, by simp, hp, rfl⟩

/-- `rich` has a class, a member reference, an InvokeDynamic and a Dynamic constant. -/
example : Accepts debug rich richCf ∧ richCf.constantPool[2]? = some (.classInfo (.resolved 1)) ∧
    richCf.constantPool[9]? = some (.methodRef (.resolved 2) (.resolved 8)) ∧ richCf.constantPool[11]? = some (.invokeDynamic 0 (.resolved 8)) ∧
    richCf.constantPool[37]? = some (.dynamic 0 (.resolved 30)) :=
  ⟨rich_accepted, rich_pool.2.2.2.2.1, rich_pool.2.2.1, rich_pool.2.2.2.2.2.2.2.2.1, rich_pool.2.2.2.2.2.2.2.2.2.1⟩

/-- The pool of `tiny` meets the hypotheses of `C13_never_rejected`. -/
example : ∃ pool seg, PoolEnc debug.decode debug.checks 52 pool seg ∧ ClassNameAt pool (2 : UInt16).toNat ⟨['A']⟩ ∧
    ∀ x r, Entry.dynamic x r ∉ pool ∧ Entry.invokeDynamic x r ∉ pool := by
  refine ⟨[.zero, .utf8 ['A'], .classInfo (.resolved 1)], u2 3 ++ ([1, 0, 1, 65] ++ [7, 0, 1]), ⟨[.zero, .utf8 ['A'], .classInfo (.unresolved 1)],
    ⟨3, [.utf8 ['A'], .classInfo (.unresolved 1)], _, ⟨?_, by decide, by decide⟩, rfl, rfl, ?_⟩, rfl, ?_⟩, ⟨⟨1, rfl, rfl⟩, [['A']], by simp, ?_, rfl⟩, ?_⟩
  · intro k hk
    have : k = 0 ∨ k = 1 := by simp at hk; omega
    rcases this with rfl | rfl <;> decide
  · exact ⟨[1, 0, 1, 65], [7, 0, 1], rfl, ⟨1, [65], rfl, rfl, rfl⟩, [7, 0, 1], [], rfl, rfl, rfl⟩
  · intro i e hi
    have hm := List.mem_of_getElem? hi
    simp only [List.mem_cons, List.not_mem_nil, or_false] at hm
    rcases hm with rfl | rfl | rfl
    · trivial
    · trivial
    · exact ⟨['A'], rfl, .inl ⟨[['A']], by simp, fun g hg => by obtain rfl := List.mem_singleton.mp hg; exact ⟨by simp, by decide⟩, rfl⟩⟩
  · intro g hg
    obtain rfl := List.mem_singleton.mp hg
    exact ⟨⟨by simp, by decide⟩, by decide⟩
  · intro x r; simp

end Cafebabe
