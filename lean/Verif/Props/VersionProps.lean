import Verif.Spec.Version
import Verif.Proofs.Open
import Verif.Proofs.DataUnique
import Verif.Props.RichFacts
import Verif.Props.Whole
/-!
# Properties: the class-file version (C52)
-/

namespace Cafebabe
open Spec Examples

theorem entry_allowed {decode : Bytes → Option Str} {M : UInt16} {pool : Pool} {e : Entry} {s : Bytes} (h : EntryEnc decode M e s)
    (hok : EntryOK M pool (linkEntry e)) : ConstantAllowed M pool (linkEntry e) := by
  unfold EntryEnc at h
  split at h <;> first | trivial | exact h.1 | skip
  obtain ⟨h1, -⟩ := h
  refine ⟨h1, ?_⟩
  rintro hk ⟨m, c, n, hm, hp⟩
  cases hm
  have hok : HandleTarget M _ pool _ := hok
  rcases hk with rfl | rfl
  · rcases hok with ⟨c', n', h⟩ | h
    · rw [hp] at h; cases h
    · exact h.1
  · rcases hok with ⟨c', n', h⟩ | h
    · rw [hp] at h; cases h
    · exact h.1

theorem entry_moved {decode : Bytes → Option Str} {M M' : UInt16} {pool : Pool} {e : Entry} {s : Bytes} (h : EntryEnc decode M e s)
    (ha : ConstantAllowed M' pool (linkEntry e)) : EntryEnc decode M' e s := by
  unfold EntryEnc at h ⊢
  split at h <;> first | exact h | exact ⟨ha, h.2⟩ | exact ⟨ha.1, h.2⟩

theorem entryOK_moved {M M' : UInt16} {pool : Pool} {e : Entry} (h : EntryOK M pool e) (ha : ConstantAllowed M' pool e) : EntryOK M' pool e := by
  unfold EntryOK at h ⊢
  split at h <;> try exact h
  rename_i k m
  have ha' := ha.2
  unfold HandleTarget at h ⊢
  cases k <;> try exact h
  · exact h.imp id fun h => ⟨ha' (.inl rfl) ⟨m, h.2.choose, h.2.choose_spec.choose, rfl, h.2.choose_spec.choose_spec⟩, h.2⟩
  · exact h.imp id fun h => ⟨ha' (.inr rfl) ⟨m, h.2.choose, h.2.choose_spec.choose, rfl, h.2.choose_spec.choose_spec⟩, h.2⟩

theorem seq_imp {α : Type} {F G : α → Lang} : ∀ {l : List α} {s : Bytes}, (∀ a ∈ l, ∀ s, F a s → G a s) → seq F l s → seq G l s
  | [], _, _, h => h
  | a :: l, _, h, ⟨s, t, e, h1, h2⟩ => ⟨s, t, e, h a (by simp) s h1, seq_imp (fun b hb => h b (by simp [hb])) h2⟩

theorem table2_imp {α : Type} {F G : α → Lang} {l : List α} {s : Bytes} (h : ∀ a ∈ l, ∀ s, F a s → G a s) : table2 F l s → table2 G l s := by
  rintro ⟨c, hc, s, t, rfl, h1, h2⟩
  exact ⟨c, hc, s, t, rfl, h1, seq_imp h h2⟩

theorem link_mem {es : List Entry} {e : Entry} (h : e ∈ es) : linkEntry e ∈ (Entry.zero :: es.flatMap slots).map linkEntry := by
  refine List.mem_map_of_mem (List.mem_cons_of_mem _ (List.mem_flatMap.mpr ⟨e, h, ?_⟩))
  unfold slots; split <;> simp

theorem pool_allowed {decode : Bytes → Option Str} {checks : Bool} {M : UInt16} {pool : Pool} {s : Bytes} (h : PoolEnc decode checks M pool s) :
    ∀ e ∈ pool, ConstantAllowed M pool e := by
  obtain ⟨raw, ⟨c, es, body, -, rfl, rfl, hs⟩, hp, hok⟩ := h
  intro e he
  obtain ⟨i, hi⟩ := List.mem_iff_getElem?.mp he
  have hoke := hok i e hi
  rw [hp] at he
  obtain ⟨r, hr, rfl⟩ := List.mem_map.mp he
  rcases List.mem_cons.mp hr with rfl | hr
  · trivial
  · obtain ⟨x, hx, hxr⟩ := List.mem_flatMap.mp hr
    obtain ⟨t, ht, -⟩ := seq_mem hs hx
    have : r = x ∨ r = .unused := by
      unfold slots at hxr; split at hxr <;> simp_all
    rcases this with rfl | rfl
    · exact entry_allowed ht hoke
    · trivial

theorem pool_moved {decode : Bytes → Option Str} {checks : Bool} {M M' : UInt16} {pool : Pool} {s : Bytes} (h : PoolEnc decode checks M pool s)
    (ha : ∀ e ∈ pool, ConstantAllowed M' pool e) : PoolEnc decode checks M' pool s := by
  obtain ⟨raw, ⟨c, es, body, hc, rfl, rfl, hs⟩, rfl, hok⟩ := h
  exact ⟨_, ⟨c, es, body, hc, rfl, rfl, seq_imp (fun e he s h => entry_moved h (ha _ (link_mem he))) hs⟩, rfl,
    fun i e hi => entryOK_moved (hok i e hi) (ha e (List.mem_of_getElem? hi))⟩

theorem allowed_raised {M : UInt16} {pool : Pool} {e : Entry} (h : ConstantAllowed M pool e) : ConstantAllowed 65535 pool e := by
  unfold ConstantAllowed at h ⊢
  split at h <;> first | exact ⟨by decide, fun _ _ => by decide⟩ | exact (by decide) | trivial

theorem optClassNameAt_unique {pool : Pool} {a b : Option ClassName} {i : Nat} (ha : OptAt ClassNameAt pool i a) (hb : OptAt ClassNameAt pool i b) :
    a = b := by
  cases a <;> cases b
  · rfl
  · obtain ⟨⟨x, hx, -⟩, -⟩ := hb; rw [show pool[i]? = some .zero from ha] at hx; cases hx
  · obtain ⟨⟨x, hx, -⟩, -⟩ := ha; rw [show pool[i]? = some .zero from hb] at hx; cases hx
  · rw [classNameAt_unique ha hb]

theorem thisRef_unique (pool : Pool) : Unique (fun c => ref fun i => ClassNameAt pool i c) := ref_unique fun _ _ _ h h' => classNameAt_unique h h'

theorem superRef_unique (pool : Pool) : Unique (fun c => ref fun i => OptAt ClassNameAt pool i c) :=
  ref_unique fun _ _ _ h h' => optClassNameAt_unique h h'

theorem special_lowered {p : Prop} {M : UInt16} {m : MethodInfo} (h : SpecialMethodOK p M m) : SpecialMethodOK p 0 m :=
  ⟨h.1, fun hn => ⟨(h.2 hn).1, fun h => absurd h (by decide)⟩⟩

/-- The same bytes under two versions give the same content. -/
theorem same_content {o : Opts} {minor major minor' major' : UInt16} {rest : Bytes} {cf cf' : ClassFile}
    (h : ClassFileEnc o cf (header minor major ++ rest)) (h' : ClassFileEnc o cf' (header minor' major' ++ rest)) :
    cf' = { cf with minorVersion := minor', majorVersion := major' } := by
  obtain ⟨-, s, t, e1, rfl, s, t, rfl, rfl, s, t, rfl, rfl, pool, t, rfl, hp, _, t, rfl, ⟨f, hf, rfl⟩, s2, t, rfl, ht,
    s3, t, rfl, hsup, s4, t, rfl, hi, sf, t, rfl, hfs, sm, as, rfl, hms, has⟩ := h
  obtain ⟨-, s', t', e1', rfl, s', t', rfl, rfl, s', t', rfl, rfl, pool', t', rfl, hp', _, t', rfl, ⟨f', hf', rfl⟩, s2', t', rfl, ht',
    s3', t', rfl, hsup', s4', t', rfl, hi', sf', t', rfl, hfs', sm', as', rfl, hms', has'⟩ := h'
  obtain ⟨v1, v2, e⟩ := header_peel (r := rest) (c := cf.minorVersion) (d := cf.majorVersion)
    (r' := pool ++ (u2 f ++ (s2 ++ (s3 ++ (s4 ++ (sf ++ (sm ++ as))))))) (by rw [e1]; simp [header])
  obtain ⟨v1', v2', e'⟩ := header_peel (r := rest) (c := cf'.minorVersion) (d := cf'.majorVersion)
    (r' := pool' ++ (u2 f' ++ (s2' ++ (s3' ++ (s4' ++ (sf' ++ (sm' ++ as'))))))) (by rw [e1']; simp [header])
  rw [e] at e'
  obtain ⟨p, rfl, e2⟩ := (pool_unique o 65535).split (pool_moved hp fun e he => allowed_raised (pool_allowed hp e he))
    (pool_moved hp' fun e he => allowed_raised (pool_allowed hp' e he)) e'
  rw [← p] at ht' hsup' hi' hfs' hms' has'
  obtain ⟨rfl, e3⟩ := u2_split e2
  obtain ⟨p1, rfl, e4⟩ := (thisRef_unique cf.constantPool).split ht ht' e3
  obtain ⟨p2, rfl, e5⟩ := (superRef_unique cf.constantPool).split hsup hsup' e4
  obtain ⟨p3, rfl, e6⟩ := (thisRef_unique cf.constantPool).table2.split hi hi' e5
  obtain ⟨p4, rfl, e7⟩ := (field_unique o _).table2.split hfs hfs' e6
  rw [← hf] at hf'
  have lower : ∀ {M : UInt16} {ms : List MethodInfo} {s : Bytes}, table2 (MethodEnc o cf.constantPool (IsInterface cf.accessFlags) M) ms s →
      table2 (MethodEnc o cf.constantPool (IsInterface cf.accessFlags) 0) ms s := fun h =>
    table2_imp (fun m _ s h => ⟨⟨h.1.1, special_lowered h.1.2⟩, h.2⟩) h
  rw [hf'] at hms'
  obtain ⟨p5, rfl, e8⟩ := (method_unique o _ cf.accessFlags 0).table2.split (lower hms) (lower hms') e7
  obtain ⟨p6, -⟩ := attrs_unique o _ _ _ _ _ [] [] has has' (by simpa using e8)
  cases cf; cases cf'
  simp_all

/-- Two class files that differ only in the version: the second one is accepted exactly if its version permits what the first one contains,
and the results differ only in the version. -/
theorem C52_version {o : Opts} {minor major : UInt16} {rest : Bytes} {cf : ClassFile} (h : Accepts o (header minor major ++ rest) cf)
    (minor' major' : UInt16) (cf' : ClassFile) :
    Accepts o (header minor' major' ++ rest) cf' ↔ VersionAllows cf major' ∧ cf' = { cf with minorVersion := minor', majorVersion := major' } := by
  rw [accepts_iff_enc] at h ⊢
  constructor
  · intro h'
    have e := same_content h h'
    refine ⟨?_, e⟩
    obtain ⟨⟨-, -, hm, -⟩, s', t', e1', rfl, s', t', rfl, rfl, s', t', rfl, rfl, pool', t', rfl, hp', _, t', rfl, ⟨f', hf', rfl⟩, s2', t', rfl, ht',
      s3', t', rfl, hsup', s4', t', rfl, hi', sf', t', rfl, hfs', sm', as', rfl, hms', has'⟩ := h'
    subst e
    refine ⟨pool_allowed hp', fun hM m hx hn => ?_, fun hx => (hm hx).1⟩
    obtain ⟨s, ⟨⟨-, hs⟩, -⟩, -⟩ := table2_mem hms' hx
    exact (hs.2 hn).2 hM
  · rintro ⟨⟨ha, hb, hc⟩, rfl⟩
    obtain ⟨⟨h1, h2, hm, h4⟩, s, t, e1, rfl, s, t, rfl, rfl, s, t, rfl, rfl, pool, t, rfl, hp, s1, t, rfl, hf, s2, t, rfl, ht,
      s3, t, rfl, hsup, s4, t, rfl, hi, sf, t, rfl, hfs, sm, as, rfl, hms, has⟩ := h
    obtain ⟨v1, v2, e⟩ := header_peel (r := rest) (c := cf.minorVersion) (d := cf.majorVersion)
      (r' := pool ++ (s1 ++ (s2 ++ (s3 ++ (s4 ++ (sf ++ (sm ++ as))))))) (by rw [e1]; simp [header])
    refine ⟨⟨h1, h2, fun hx => ⟨hc hx, (hm hx).2⟩, h4⟩, [0xCA, 0xFE, 0xBA, 0xBE], u2 minor' ++ (u2 major' ++ rest), by simp [header], rfl,
      _, _, rfl, rfl, _, _, rfl, rfl, pool, _, e, pool_moved hp ha, s1, _, rfl, hf, s2, _, rfl, ht, s3, _, rfl, hsup, s4, _, rfl, hi,
      sf, _, rfl, hfs, sm, as, rfl, table2_imp (fun m hmem s h => ⟨⟨h.1.1, h.1.2.1, fun hn => ⟨(h.1.2.2 hn).1, fun hM => hb hM m hmem hn⟩⟩, h.2⟩) hms, has⟩

/-- The minor version is never looked at, and from 55 on neither is the major version. -/
theorem C52_later {o : Opts} {minor major minor' major' : UInt16} {rest : Bytes} {cf : ClassFile} (h : Accepts o (header minor major ++ rest) cf)
    (hv : major' = major ∨ (51 ≤ major ∧ major ≤ major') ∨ 55 ≤ major ∧ 55 ≤ major') :
    Accepts o (header minor' major' ++ rest) { cf with minorVersion := minor', majorVersion := major' } := by
  refine (C52_version h _ _ _).mpr ⟨?_, rfl⟩
  have hs : VersionAllows cf major := ((C52_version h minor major { cf with minorVersion := minor, majorVersion := major }).mp
    (by rw [accepts_iff_enc] at h; have := same_content h h; rw [← this]; exact accepts_iff_enc.mpr h)).1
  have key : (51 ≤ major' → 51 ≤ major) ∧ ∀ v : UInt16, v ≤ 55 → v ≤ major → v ≤ major' := by
    simp only [UInt16.le_iff_toNat_le] at hv ⊢
    have h1 : (51 : UInt16).toNat = 51 := rfl
    have h2 : (55 : UInt16).toNat = 55 := rfl
    rcases hv with rfl | hv | hv
    · exact ⟨id, fun _ _ h => h⟩
    · exact ⟨fun _ => hv.1, fun v _ h => by omega⟩
    · exact ⟨fun _ => by omega, fun v h _ => by omega⟩
  refine ⟨fun e he => ?_, fun h51 => hs.2.1 (key.1 h51), fun hm => key.2 _ (by decide) (hs.2.2 hm)⟩
  have := hs.1 e he
  unfold ConstantAllowed at this ⊢
  split at this <;> first
    | exact key.2 _ (by decide) this
    | exact ⟨key.2 _ (by decide) this.1, fun h1 h2 => key.2 _ (by decide) (this.2 h1 h2)⟩
    | trivial

/-- Any version will do for a class without such constants. -/
example (minor major : UInt16) : ∃ cf, Accepts debug (header minor major ++ tiny.drop 8) cf := by
  have hk : (match run debug 3 tiny with
      | .ok cf => (cf.constantPool.all fun e => match e with | .zero | .utf8 _ | .classInfo _ => true | _ => false) && cf.methods.isEmpty &&
          cf.accessFlags == 0x21
      | _ => false) = true := by decide +kernel
  cases hr : run debug 3 tiny with
  | ok cf =>
    rw [hr] at hk
    simp only [Bool.and_eq_true, List.all_eq_true, List.isEmpty_iff, beq_iff_eq] at hk
    obtain ⟨⟨h1, h2⟩, h3⟩ := hk
    have h : Accepts debug (header 0 52 ++ tiny.drop 8) cf := ⟨3, hr⟩
    refine ⟨_, (C52_version h _ _ _).mpr ⟨⟨fun e he => ?_, fun _ m hm => ?_, fun hm => ?_⟩, rfl⟩⟩
    · have := h1 e he
      unfold ConstantAllowed
      split <;> first | trivial | cases this
    · rw [h2] at hm; cases hm
    · rw [h3] at hm; exact absurd hm (by unfold IsModule; decide)
  | err e => rw [hr] at hk; cases hk
  | panic k => rw [hr] at hk; cases hk
  | diverge => rw [hr] at hk; cases hk

/-- `rich` contains a Dynamic constant. -/
example (major : UInt16) : (∃ cf, Accepts debug (header 0 major ++ rich.drop 8) cf) ↔ 55 ≤ major := by
  have e : rich = header 3 55 ++ rich.drop 8 := by
    conv => lhs; rw [← List.take_append_drop 8 rich]
    rw [show rich.take 8 = header 3 55 from by decide +kernel]
  have h := rich_accepted
  generalize rich.drop 8 = rest at e ⊢
  rw [e] at h
  have hd : (match richCf.constantPool[37]? with | some (.dynamic _ _) => true | _ => false) = true := by decide +kernel
  generalize richCf = cf at h hd
  constructor
  · rintro ⟨cf', hc⟩
    obtain ⟨ha, -⟩ := (C52_version h 0 major cf').mp hc
    cases hx : cf.constantPool[37]? with
    | none => rw [hx] at hd; cases hd
    | some x =>
      have := ha.1 x (List.mem_of_getElem? hx)
      rw [hx] at hd
      cases x <;> first | exact this | cases hd
  · intro hm
    exact ⟨_, C52_later h (.inr (.inr ⟨by decide, hm⟩))⟩

end Cafebabe
