import Verif.Proofs.Memory
import Verif.Props.FaultProps
import Verif.Props.FormatProps
import Verif.Props.PoolProps
/-!
# C63 The memory of the constants
-/

namespace Cafebabe
open Spec Examples

/-! ## The outcome of resolving is the same -/

theorem resolveH_same (x : CPRef) (i : Nat) (pool : Pool) (h : Heap) : (x.resolveH i pool.length h).1 = (x.resolve i pool).bind fun _ => .ok () := by
  cases x with
  | unresolved ix =>
    unfold CPRef.resolveH CPRef.resolve
    dsimp only
    by_cases h1 : ix.toNat = i
    · rw [if_pos h1, if_pos h1]; rfl
    · rw [if_neg h1, if_neg h1]
      by_cases h2 : ix.toNat ≥ pool.length
      · rw [if_pos h2, if_pos h2]; rfl
      · rw [if_neg h2, if_neg h2]; rfl
  | resolved t => rfl

theorem resolveBothH_same (x y : CPRef) (f : CPRef → CPRef → Entry) (i : Nat) (pool : Pool) (h : Heap) :
    (resolveBothH x y i pool.length h).1 = ((x.resolve i pool).bind fun x => (y.resolve i pool).bind fun y => .ok (f x y)).bind fun _ => .ok () := by
  have hx := resolveH_same x i pool h
  unfold resolveBothH
  rcases hr : x.resolveH i pool.length h with ⟨r, h'⟩
  rw [hr] at hx
  have hy := resolveH_same y i pool h'
  cases hxr : x.resolve i pool <;> rw [hxr] at hx <;> simp only [Res.bind] at hx <;> subst hx <;> simp only [Res.bind]
  rw [hy]
  cases y.resolve i pool <;> rfl

theorem entry_resolveH_same (e : Entry) (i : Nat) (pool : Pool) (h : Heap) :
    (e.resolveH i pool.length h).1 = (e.resolve i pool).bind fun _ => .ok () := by
  cases e <;> simp only [Entry.resolveH, Entry.resolve] <;> first
    | rfl
    | (rw [resolveH_same]; rename_i x; cases CPRef.resolve x i pool <;> rfl)
    | exact resolveBothH_same _ _ _ _ _ _

theorem resolveFromH_same (pool : Pool) : ∀ (es : List Entry) (i : Nat) (h : Heap),
    (resolveFromH pool.length i es h).1 = (resolveFrom pool i es).bind fun _ => .ok ()
  | [], _, _ => rfl
  | e :: es, i, h => by
    have he := entry_resolveH_same e i pool h
    unfold resolveFromH resolveFrom
    rcases hr : e.resolveH i pool.length h with ⟨r, h'⟩
    rw [hr] at he
    have ih := resolveFromH_same pool es (i + 1) h'
    cases hxr : e.resolve i pool <;> rw [hxr] at he <;> simp only [Res.bind] at he <;> subst he <;> simp only
    · rw [ih]
      cases resolveFrom pool (i + 1) es <;> rfl
    all_goals rfl

/-- Resolving with pointers succeeds and fails exactly as resolving does in the rest of the model, with the same error. -/
theorem C63_same (raw : Pool) : (resolveConstantPoolH raw).1 = (resolveConstantPool raw).bind fun _ => .ok () := resolveFromH_same raw raw 0 _

/-! ## What is in memory -/

theorem readConstants_eq (env : Env) : readConstants env = (readHeader >>= fun v => readRawPool env v.2) := by
  unfold readConstants readHeader
  simp only [P.bind_assoc']
  rfl

theorem memory_iff {o : Opts} {bytes : Bytes} {n : Nat} {h : Heap} : memory o bytes = some (n, h) ↔
    ∃ minor major raw seg rest, bytes = header minor major ++ seg ++ rest ∧ RawPoolEnc o.decode o.checks major raw seg ∧
      n = raw.length ∧ h = (resolveConstantPoolH raw).2 := by
  unfold memory poolMemory
  rw [readConstants_eq]
  have hex := (Exact.bind (N := bytes.length + 1) readHeader_exact fun v => readRawPool_exact
    { decode := o.decode, overflowChecks := o.checks, depth := 0, parseBytecode := o.parseBytecode } v.2) bytes 0 (Nat.zero_le _) (by omega)
  constructor
  · intro hm
    split at hm
    · next raw ix hr =>
      obtain ⟨s, rest, hs, ⟨v, s1, s2, rfl, hs1, hs2⟩, -⟩ := (hex raw ix).mp hr
      simp only [Option.some.injEq, Prod.mk.injEq] at hm
      exact ⟨v.1, v.2, raw, s2, rest, by rw [List.drop_zero] at hs; rw [hs, hs1]; rfl, hs2, hm.1.symm, hm.2.symm⟩
    · cases hm
  · rintro ⟨minor, major, raw, seg, rest, rfl, hraw, rfl, rfl⟩
    have := (hex raw (0 + (header minor major ++ seg).length)).mpr
      ⟨header minor major ++ seg, rest, by rw [List.drop_zero], ⟨(minor, major), _, _, rfl, rfl, hraw⟩, rfl⟩
    rw [this]

/-- The pool at the start of a file is unique. -/
theorem memory_of_raw {o : Opts} {minor major : UInt16} {raw : Pool} {seg rest : Bytes} (hraw : RawPoolEnc o.decode o.checks major raw seg) :
    memory o (header minor major ++ seg ++ rest) = some (raw.length, (resolveConstantPoolH raw).2) :=
  memory_iff.mpr ⟨minor, major, raw, seg, rest, rfl, hraw, rfl, rfl⟩

/-- Dropping the constants always ends, needs at most as many levels of recursion as there are constants, drops none twice, and only constants
that exist; and the outcome does not depend on how much recursion is allowed, if it is enough. -/
theorem C63_drop {o : Opts} {bytes : Bytes} {n : Nat} {h : Heap} (hm : memory o bytes = some (n, h)) :
    ∃ h', (∀ depth, n ≤ depth → dropPool depth n h = some h') ∧ (∀ depth h'', dropPool depth n h = some h'' → h'' = h') ∧
      h'.dropped.Nodup ∧ ∀ j ∈ h'.dropped, j < n := by
  obtain ⟨minor, major, raw, seg, rest, -, -, rfl, rfl⟩ := memory_iff.mp hm
  obtain ⟨h', hd⟩ := dropPool_total raw
  obtain ⟨h1, h2, -⟩ := dropPool_left hd
  refine ⟨h', fun depth hle => dropPool_mono hle hd, fun depth h'' hd' => ?_, h1, h2⟩
  rcases Nat.le_total depth raw.length with hle | hle
  · have := dropPool_mono hle hd'
    rw [hd] at this
    exact (Option.some.inj this).symm
  · have := dropPool_mono hle hd
    rw [hd'] at this
    exact Option.some.inj this

/-- Which constants stay in memory for ever: exactly those that can be reached from a cycle of references among the references in front of the
first one that cannot be resolved. -/
theorem C63_leak_iff {o : Opts} {minor major : UInt16} {raw : Pool} {seg rest : Bytes} (hraw : RawPoolEnc o.decode o.checks major raw seg) (j : Nat) :
    Leaks o (header minor major ++ seg ++ rest) j ↔ BehindCycle raw j := by
  unfold Leaks
  rw [memory_of_raw hraw]
  constructor
  · rintro ⟨n, h, depth, h', hm, hd, hj, hn⟩
    simp only [Option.some.injEq, Prod.mk.injEq] at hm
    obtain ⟨rfl, rfl⟩ := hm
    exact ((dropPool_left hd).2.2 j hj).mp hn
  · intro hb
    obtain ⟨h', hd⟩ := dropPool_total raw
    have hj := (behind_pred hb).1
    exact ⟨_, _, _, h', rfl, hd, hj, ((dropPool_left hd).2.2 j hj).mpr hb⟩

/-- If the constants cannot all be read then nothing stays. -/
theorem C63_unread {o : Opts} {bytes : Bytes} (h : ∀ minor major raw seg rest, bytes = header minor major ++ seg ++ rest →
    ¬ RawPoolEnc o.decode o.checks major raw seg) (j : Nat) : ¬ Leaks o bytes j := by
  rintro ⟨n, h0, depth, h', hm, -⟩
  obtain ⟨minor, major, raw, seg, rest, hb, hr, -⟩ := memory_iff.mp hm
  exact h minor major raw seg rest hb hr

/-- The hypothesis of `C63_unread` is met, for example by a file cut inside its magic number. -/
example (j : Nat) : ¬ Leaks debug [0xCA, 0xFE] j :=
  C63_unread (fun minor major raw seg rest h _ => by
    have := congrArg List.length h
    simp [header, u2] at this) j

/-! ## Valid pools -/

theorem mem_referencesFrom : ∀ (es : List Entry) (k i j : Nat), (k + i, j) ∈ referencesFrom k es ↔
    ∃ (e : Entry) (x : UInt16), es[(i : Nat)]? = some e ∧ CPRef.unresolved x ∈ refsOf e ∧ x.toNat = j
  | [], k, i, j => by simp [referencesFrom]
  | e :: es, k, i, j => by
    rw [referencesFrom_cons, List.mem_append, List.mem_filterMap]
    have hout : ∀ r ∈ referencesFrom (k + 1) es, k + 1 ≤ r.1 := fun r hr => (referencesFrom_lt es (k + 1) r hr).1
    cases i with
    | zero =>
      constructor
      · rintro (⟨x, hx, he⟩ | h)
        · cases x with
          | unresolved y =>
            simp only [rawTarget, Option.some.injEq, Prod.mk.injEq] at he
            exact ⟨e, y, rfl, hx, he.2⟩
          | resolved t => simp [rawTarget] at he
        · have := hout _ h; simp at this
      · rintro ⟨e', x, he, hx, rfl⟩
        cases he
        exact .inl ⟨_, hx, rfl⟩
    | succ i =>
      have ih := mem_referencesFrom es (k + 1) i j
      rw [show k + 1 + i = k + (i + 1) by omega] at ih
      rw [ih]
      constructor
      · rintro (⟨x, hx, he⟩ | h)
        · cases x with
          | unresolved y => simp only [rawTarget, Option.some.injEq, Prod.mk.injEq] at he; omega
          | resolved t => simp [rawTarget] at he
        · exact h
      · exact .inr

/-- In a pool that can be resolved, every reference has been. -/
theorem refersTo_edge {raw : Pool} (hr : RefsInRange raw) (hu : ∀ e ∈ raw, ∀ x ∈ refsOf e, ∃ j, x = .unresolved j) {i j : Nat} :
    RefersTo raw i j ↔ Edge (raw.map linkEntry) i j := by
  have hall : resolvedRefs raw = referencesFrom 0 raw := by
    refine takeWhile_self _ _ fun r hm => ?_
    obtain ⟨i, j⟩ := r
    rw [show i = 0 + i by omega, mem_referencesFrom] at hm
    obtain ⟨e, x, he, hx, rfl⟩ := hm
    have := hr i e he x hx
    simp only [decide_eq_true_eq]
    exact ⟨this.2, this.1⟩
  unfold RefersTo
  rw [hall]
  have := mem_referencesFrom raw 0 i j
  rw [Nat.zero_add] at this
  rw [this]
  unfold Edge
  rw [List.getElem?_map]
  constructor
  · rintro ⟨e, x, he, hx, rfl⟩
    exact ⟨linkEntry e, by rw [he]; rfl, by rw [refsOf_linkEntry]; exact List.mem_map.mpr ⟨_, hx, rfl⟩⟩
  · rintro ⟨f, hf, hx⟩
    obtain ⟨e, he, rfl⟩ := Option.map_eq_some_iff.mp hf
    rw [refsOf_linkEntry] at hx
    obtain ⟨y, hy, hyl⟩ := List.mem_map.mp hx
    obtain ⟨z, rfl⟩ := hu e (List.mem_of_getElem? he) y hy
    cases hyl
    exact ⟨e, z, he, hy, rfl⟩

theorem path_of_trans {pool : Pool} {i j : Nat} (h : Relation.TransGen (Edge pool) i j) : ∃ n, Path pool (n + 1) i j := by
  induction h using Relation.TransGen.head_induction_on with
  | single h => exact ⟨0, .cons h (.nil _)⟩
  | head h _ ih => obtain ⟨n, hn⟩ := ih; exact ⟨n + 1, .cons h hn⟩

theorem path_of_chain {raw : Pool} {H : Nat → List Nat} (hE : ∀ i j, j ∈ H i → Edge (raw.map linkEntry) i j) {k i : Nat} (h : Chain H k i) :
    ∃ j, Path (raw.map linkEntry) k i j := by
  induction h with
  | nil i => exact ⟨i, .nil i⟩
  | cons hj _ ih => obtain ⟨j, hp⟩ := ih; exact ⟨j, .cons (hE _ _ hj) hp⟩

/-- A pool whose constants are all valid: dropping it takes at most four levels of recursion, and leaves nothing. -/
theorem valid_dropped {major : UInt16} {raw : Pool} (hu : ∀ e ∈ raw, ∀ x ∈ refsOf e, ∃ j, x = .unresolved j) (hok : PoolOK major (raw.map linkEntry)) :
    ∃ h', dropPool 4 raw.length (resolveConstantPoolH raw).2 = some h' ∧ h'.dropped.Perm (List.range raw.length) := by
  have hw : ∀ (i : Nat) (e : Entry), (raw.map linkEntry)[i]? = some e → WellTyped (raw.map linkEntry) e := fun i e hi => wellTyped_of_ok (hok i e hi)
  have short : ∀ {n i j : Nat}, Path (raw.map linkEntry) n i j → n ≤ 3 := by
    intro n i j hp
    cases hp with
    | nil => omega
    | cons hE hp =>
      have hE' := hE
      obtain ⟨e, he, -⟩ := hE'
      have := path_height hw (.cons hE hp) e he
      have : height e ≤ 3 := by cases e <;> simp [height]
      omega
  have acyclic : ∀ {n i : Nat}, ¬ Path (raw.map linkEntry) (n + 1) i i := by
    intro n i hp
    have := short (path_trans hp (path_trans hp (path_trans hp hp)))
    omega
  have hr : RefsInRange raw := by
    intro i e he j hj
    have hi : (raw.map linkEntry)[(i : Nat)]? = some (linkEntry e) := by rw [List.getElem?_map, he]; rfl
    have hx : CPRef.resolved j.toNat ∈ refsOf (linkEntry e) := by rw [refsOf_linkEntry]; exact List.mem_map.mpr ⟨_, hj, rfl⟩
    obtain ⟨Q, k, e', hk, he', -⟩ := wellTyped_refs (hw _ _ hi) hx
    cases hk
    have hlt := (List.getElem?_eq_some_iff.mp he').1
    rw [List.length_map] at hlt
    refine ⟨hlt, fun hji => acyclic (n := 0) (i := i) (.cons ⟨_, hi, ?_⟩ (.nil i))⟩
    rw [hji] at hx
    exact hx
  have hE : ∀ i j, j ∈ (resolveConstantPoolH raw).2.holds i → Edge (raw.map linkEntry) i j := fun i j hj =>
    (refersTo_edge hr hu).mp ((resolved_holds raw i j).mp hj)
  obtain ⟨h', hd⟩ := dropList_short (d := 4) (List.range raw.length) (resolveConstantPoolH raw).2 rfl fun j _ k hk => by
    obtain ⟨m, hp⟩ := path_of_chain hE hk
    have := short hp
    omega
  refine ⟨h', hd, ?_⟩
  obtain ⟨h1, h2, h3⟩ := dropPool_left hd
  refine (List.perm_ext_iff_of_nodup h1 List.nodup_range).mpr fun j => ⟨fun hj => List.mem_range.mpr (h2 j hj), fun hj => ?_⟩
  by_contra hn
  obtain ⟨k, hk, -⟩ := (h3 j (List.mem_range.mp hj)).mp hn
  have : Relation.TransGen (Edge (raw.map linkEntry)) k k := by
    exact Relation.TransGen.mono (fun _ _ h => (refersTo_edge hr hu).mp h) _ _ hk
  obtain ⟨n, hp⟩ := path_of_trans this
  exact acyclic hp

/-- If all constants are valid then, however parsing goes on, every constant is given back exactly once, within four levels of recursion. -/
theorem C63_valid_pool {o : Opts} {bytes : Bytes} (h : StartsWithPool o bytes fun _ => True) :
    ∃ n h h', memory o bytes = some (n, h) ∧ dropPool 4 n h = some h' ∧ h'.dropped.Perm (List.range n) := by
  obtain ⟨minor, major, pool, seg, rest, rfl, ⟨raw, hraw, rfl, hok⟩, -⟩ := h
  obtain ⟨h', hd, hp⟩ := valid_dropped (raw_facts hraw).1 hok
  exact ⟨_, _, h', memory_of_raw hraw, hd, hp⟩

/-- The hypothesis of `C63_valid_pool` is met by the header and pool of `rich`, whatever follows them, although such a file is mostly rejected. -/
example : ∃ front, front <+: rich ∧ ∀ rest, ∃ n h h', memory debug (front ++ rest) = some (n, h) ∧ dropPool 4 n h = some h' ∧
    h'.dropped.Perm (List.range n) := by
  obtain ⟨count, es, body, rest, hb, hc, hm, hs, hok⟩ := enc_pool (accepts_iff_enc.mp rich_accepted)
  refine ⟨_, ⟨rest, hb.symm⟩, fun rest' => C63_valid_pool ⟨richCf.minorVersion, richCf.majorVersion, richCf.constantPool, u2 count ++ body, rest', by simp, ⟨_, ⟨count, es, body, hc, rfl, rfl, hs⟩, hm, hok⟩, trivial⟩⟩

/-- Dropping an accepted class file gives every constant back exactly once, within four levels of recursion. -/
theorem C63_accepted {o : Opts} {bytes : Bytes} {cf : ClassFile} (h : Accepts o bytes cf) :
    ∃ h h', memory o bytes = some (cf.constantPool.length, h) ∧ dropPool 4 cf.constantPool.length h = some h' ∧
      h'.dropped.Perm (List.range cf.constantPool.length) := by
  obtain ⟨count, es, body, rest, rfl, hc, hmap, hs, hok⟩ := enc_pool (accepts_iff_enc.mp h)
  have hraw : RawPoolEnc o.decode o.checks cf.majorVersion (.zero :: es.flatMap slots) (u2 count ++ body) := ⟨count, es, body, hc, rfl, rfl, hs⟩
  rw [hmap] at hok
  obtain ⟨h', hd, hp⟩ := valid_dropped (raw_facts hraw).1 hok
  have hm := memory_of_raw (minor := cf.minorVersion) (rest := rest) hraw
  rw [hmap, List.length_map]
  exact ⟨_, h', by rw [List.append_assoc (header _ _)]; exact hm, hd, hp⟩

/-- In particular nothing of an accepted file stays in memory. -/
theorem C63_no_leak {o : Opts} {bytes : Bytes} {cf : ClassFile} (h : Accepts o bytes cf) (j : Nat) : ¬ Leaks o bytes j := by
  obtain ⟨h0, h', hm, hd, hp⟩ := C63_accepted h
  rintro ⟨n, h1, depth, h2, hm', hd', hj, hn⟩
  obtain ⟨h3, -, hu, -⟩ := C63_drop hm
  rw [hm] at hm'
  simp only [Option.some.injEq, Prod.mk.injEq] at hm'
  obtain ⟨rfl, rfl⟩ := hm'
  rw [hu _ _ hd', ← hu _ _ hd] at hn
  exact hn (hp.mem_iff.mpr (List.mem_range.mpr hj))

/-! ## Rejected files -/

/-- The Class constants of the slots from `k` on, the one of slot `i` refers to slot `f i`. -/
def classesTo (f : Nat → Nat) (k n : Nat) : List Entry := (List.range' k n).map fun i => .classInfo (.unresolved (UInt16.ofNat (f i)))

/-- A file that ends after its constants, which are `n` Class constants; the one of slot `i` refers to slot `f i`. -/
def classesFile (f : Nat → Nat) (n : Nat) : Bytes :=
  header 0 52 ++ (u2 (UInt16.ofNat (n + 1)) ++ ((List.range' 1 n).map fun i => [7] ++ u2 (UInt16.ofNat (f i))).flatten)

theorem classesTo_references (f : Nat → Nat) (hf : ∀ i, f i < 65536) : ∀ (n k : Nat),
    referencesFrom k (classesTo f k n) = (List.range' k n).map fun i => (i, f i)
  | 0, _ => rfl
  | n + 1, k => by
    have ih := classesTo_references f hf n (k + 1)
    unfold classesTo at ih ⊢
    rw [List.range'_succ, List.map_cons, referencesFrom_cons, ih]
    simp [refsOf, rawTarget, small_toNat (hf k)]

theorem classesFile_length (f : Nat → Nat) (n : Nat) : (classesFile f n).length = 3 * n + 10 := by
  unfold classesFile
  simp only [List.length_append, List.length_flatten, List.map_map]
  have : (List.map (List.length ∘ fun i => [7] ++ u2 (UInt16.ofNat (f i))) (List.range' 1 n)).sum = 3 * n := by
    rw [show (List.length ∘ fun i => [7] ++ u2 (UInt16.ofNat (f i))) = fun _ => 3 by funext i; simp [u2]]
    rw [List.map_const', List.sum_replicate, List.length_range']; exact Nat.mul_comm _ _
  rw [this]
  simp [header, u2]
  omega

theorem classesFile_raw (o : Opts) (f : Nat → Nat) {n : Nat} (hn : n ≤ 65534) :
    RawPoolEnc o.decode o.checks 52 (.zero :: classesTo f 1 n) (u2 (UInt16.ofNat (n + 1)) ++ ((List.range' 1 n).map fun i => [7] ++ u2 (UInt16.ofNat (f i))).flatten) := by
  have hs : ∀ e ∈ classesTo f 1 n, slots e = [e] := by
    intro e he
    obtain ⟨i, -, rfl⟩ := List.mem_map.mp he
    rfl
  have cnt : ∀ k, k ≤ n → slotCount ((classesTo f 1 n).take k) = 1 + k := by
    intro k hk
    unfold slotCount
    rw [slots_single fun e he => hs e (List.mem_of_mem_take he), List.length_take]
    simp [classesTo]
    omega
  have hlen : (classesTo f 1 n).length = n := by simp [classesTo]
  have hall := cnt n (Nat.le_refl _)
  rw [List.take_of_length_le (by omega)] at hall
  refine ⟨_, classesTo f 1 n, _, ⟨?_, ?_, ?_⟩, by rw [slots_single hs], rfl, seq_flatten ?_⟩
  · intro k hk
    rw [cnt k (by omega), small_toNat (by omega)]; omega
  · rw [hall, small_toNat (by omega)]; omega
  · intro _; omega
  · unfold classesTo
    rw [List.forall₂_map_left_iff, List.forall₂_map_right_iff]
    exact List.forall₂_same.mpr fun i _ => rfl

/-- Such a file is rejected because of its first constant, if each of its references can be resolved. -/
theorem classesFile_rejected (o : Opts) (f : Nat → Nat) {n : Nat} (h1 : 1 ≤ n) (hn : n ≤ 65534) (hf : ∀ i, f i ≤ n ∧ f i ≠ i) :
    ∃ e, Rejects o (classesFile f n) e := by
  have hraw := classesFile_raw o f hn
  obtain ⟨m, rfl⟩ : ∃ m, n = m + 1 := ⟨n - 1, by omega⟩
  have hslot : ∀ i e, (Entry.zero :: classesTo f 1 (m + 1))[(i : Nat)]? = some e →
      e = .zero ∨ (e = .classInfo (.unresolved (UInt16.ofNat (f i))) ∧ i ≤ m + 1) := by
    intro i e he
    cases i with
    | zero => left; simpa using he.symm
    | succ i =>
      right
      rw [List.getElem?_cons_succ, classesTo, List.getElem?_map, Option.map_eq_some_iff] at he
      obtain ⟨a, ha, rfl⟩ := he
      obtain ⟨hlt, rfl⟩ := List.getElem?_eq_some_iff.mp ha
      rw [List.length_range'] at hlt
      simp only [List.getElem_range']
      rw [show 1 + 1 * i = i + 1 by omega]
      exact ⟨rfl, by omega⟩
  have hrange : RefsInRange (.zero :: classesTo f 1 (m + 1)) := by
    intro i e he j hj
    rcases hslot i e he with rfl | ⟨rfl, hi⟩
    · cases hj
    · simp only [refsOf, List.mem_singleton, CPRef.unresolved.injEq] at hj
      subst hj
      rw [small_toNat (by have := (hf i).1; omega)]
      simp only [classesTo, List.length_cons, List.length_map, List.length_range']
      have := hf i
      exact ⟨by omega, this.2⟩
  have hone : ((Entry.zero :: classesTo f 1 (m + 1)).map linkEntry)[1]? = some (.classInfo (.resolved (f 1))) := by
    have : (UInt16.ofNat (f 1)).toNat = f 1 := small_toNat (by have := (hf 1).1; omega)
    simp [classesTo, List.range'_succ, linkEntry, Spec.link, this]
  have hfault : PoolFault o 52 (.poolEntry 1) ((u2 (UInt16.ofNat (m + 1 + 1)) ++ ((List.range' 1 (m + 1)).map fun i => [7] ++ u2 (UInt16.ofNat (f i))).flatten) ++ []) := by
    refine PoolFault.entry hraw hrange hone ?_ (by simp [EntryStuck]) ?_
    · intro hp
      simp only [EntryPasses, EntryOK] at hp
      obtain ⟨s, ht, -⟩ := hp
      unfold TextAt at ht
      rw [List.getElem?_map, Option.map_eq_some_iff] at ht
      obtain ⟨e, he, hl⟩ := ht
      rcases hslot _ e he with rfl | ⟨rfl, -⟩ <;> cases hl
    · intro j g hj hg
      obtain rfl : j = 0 := by omega
      cases hg
      trivial
  rw [List.append_nil] at hfault
  obtain ⟨e, he, -⟩ := (C49_place_iff (.poolEntry 1)).mpr (FaultAt.pool (minor := 0) hfault)
  exact ⟨e, he⟩

theorem classesFile_refersTo (f : Nat → Nat) {n : Nat} (hn : n ≤ 65534) (hf : ∀ i, f i ≤ n ∧ f i ≠ i) :
    resolvedRefs (.zero :: classesTo f 1 n) = (List.range' 1 n).map fun i => (i, f i) := by
  have h1 : referencesFrom 0 (.zero :: classesTo f 1 n) = (List.range' 1 n).map fun i => (i, f i) := by
    rw [referencesFrom_cons, classesTo_references f fun i => by have := (hf i).1; omega]
    rfl
  unfold resolvedRefs
  rw [h1]
  refine takeWhile_self _ _ fun r hr => ?_
  obtain ⟨i, -, rfl⟩ := List.mem_map.mp hr
  have := hf i
  simp only [decide_eq_true_eq, Resolvable, classesTo, List.length_cons, List.length_map, List.length_range']
  exact ⟨this.2, by omega⟩

/-- For every `n`, a rejected file of `3 * n + 10` bytes whose `n` constants stay in memory for ever. -/
theorem C63_cycle (o : Opts) {n : Nat} (h2 : 2 ≤ n) (hn : n ≤ 65534) :
    ∃ bytes e, bytes.length = 3 * n + 10 ∧ Rejects o bytes e ∧ ∀ j, Leaks o bytes j ↔ 1 ≤ j ∧ j ≤ n := by
  let f : Nat → Nat := fun i => if i < n then i + 1 else if i = n then 1 else 0
  have hf : ∀ i, f i ≤ n ∧ f i ≠ i := by
    intro i
    simp only [f]
    split
    · omega
    · split <;> omega
  obtain ⟨e, he⟩ := classesFile_rejected o f (by omega) hn hf
  refine ⟨classesFile f n, e, classesFile_length f n, he, fun j => ?_⟩
  have hl := C63_leak_iff (minor := 0) (rest := []) (classesFile_raw o f hn) j
  rw [List.append_nil] at hl
  refine hl.trans ?_
  have href : ∀ i j, RefersTo (.zero :: classesTo f 1 n) i j ↔ 1 ≤ i ∧ i ≤ n ∧ j = f i := by
    intro i j
    unfold RefersTo
    rw [classesFile_refersTo f hn hf]
    simp only [List.mem_map, List.mem_range'_1, Prod.mk.injEq]
    constructor
    · rintro ⟨a, ha, rfl, rfl⟩; exact ⟨ha.1, by omega, rfl⟩
    · rintro ⟨h1, h2, rfl⟩; exact ⟨i, ⟨h1, by omega⟩, rfl, rfl⟩
  constructor
  · intro hb
    obtain ⟨p, -, hp⟩ := (behind_pred hb).2
    obtain ⟨h1, h2, rfl⟩ := (href p j).mp hp
    simp only [f]
    split
    · omega
    · split <;> omega
  · rintro ⟨hj1, hjn⟩
    have reach : ∀ j, j + 1 ≤ n → Relation.ReflTransGen (RefersTo (.zero :: classesTo f 1 n)) 1 (j + 1) := by
      intro j
      induction j with
      | zero => intro _; exact .refl
      | succ j ih =>
        intro hj
        refine Relation.ReflTransGen.tail (ih (by omega)) ((href _ _).mpr ⟨by omega, by omega, ?_⟩)
        simp only [f]
        rw [if_pos (by omega)]
    obtain ⟨j, rfl⟩ : ∃ i, j = i + 1 := ⟨j - 1, by omega⟩
    refine ⟨1, ?_, reach j hjn⟩
    have hlast := reach (n - 1) (by omega)
    rw [show n - 1 + 1 = n by omega] at hlast
    refine Relation.TransGen.tail' hlast ((href _ _).mpr ⟨by omega, by omega, ?_⟩)
    simp [f]

/-! ## Deep recursion -/

theorem dropRc_deep : ∀ (d m : Nat) (h : Heap), d ≤ m → (∀ i, i < m → h.holds (i + 1) = [i]) → (∀ i, i ≤ m → h.strong i = 1) → dropRc d m h = none
  | 0, _, _, _, _, _ => rfl
  | d + 1, m, h, hd, hh, hs => by
    obtain ⟨m, rfl⟩ : ∃ k, m = k + 1 := ⟨m - 1, by omega⟩
    unfold dropRc
    rw [if_pos (by simp [Heap.release, hs (m + 1) (Nat.le_refl _)]), hh m (by omega)]
    have := dropRc_deep d m ((h.release (m + 1)).free (m + 1)) (by omega) (fun i hi => hh i (by omega)) fun i hi => by
      simp only [Heap.release, Heap.free]
      rw [if_neg (by omega)]
      exact hs i (by omega)
    simp [List.foldlM_cons, this]

/-- Dropping the pointers of the vector to constants that have another pointer to them. -/
theorem dropFirst {h : Heap} (d : Nat) : ∀ (k : Nat), (∀ i, i < k → h.strong i = 2) →
    ∃ h', (List.range k).foldlM (fun h i => dropRc (d + 1) i h) h = some h' ∧ h'.holds = h.holds ∧
      (∀ i, h'.strong i = if i < k then 1 else h.strong i)
  | 0, _ => ⟨h, rfl, rfl, fun i => by simp⟩
  | k + 1, hk => by
    obtain ⟨h', he, hh, hs⟩ := dropFirst d k fun i hi => hk i (by omega)
    have hsk : h'.strong k = 2 := by rw [hs, if_neg (by omega)]; exact hk k (by omega)
    refine ⟨h'.release k, ?_, hh, fun i => ?_⟩
    · rw [List.range_succ, List.foldlM_append, he]
      simp only [Option.bind_eq_bind, Option.bind_some, List.foldlM_cons, List.foldlM_nil]
      unfold dropRc
      rw [if_neg (by simp [Heap.release, hsk])]
      rfl
    · simp only [Heap.release, hs]
      by_cases hik : i = k
      · subst hik
        rw [if_pos rfl, if_neg (by omega), if_pos (by omega), hk i (by omega)]
      · rw [if_neg hik]
        by_cases hlt : i < k
        · rw [if_pos hlt, if_pos (by omega)]
        · rw [if_neg hlt, if_neg (by omega)]

/-- For every `n`, a rejected file of `3 * n + 10` bytes with `n + 1` constants (the one of slot 0 included), which are all given back, but only
by a recursion that is `n + 1` levels deep. -/
theorem C63_deep (o : Opts) {n : Nat} (h1 : 1 ≤ n) (hn : n ≤ 65534) :
    ∃ bytes e h, bytes.length = 3 * n + 10 ∧ Rejects o bytes e ∧ memory o bytes = some (n + 1, h) ∧ (∀ j, ¬ Leaks o bytes j) ∧
      ∀ depth, dropPool depth (n + 1) h = none ↔ depth ≤ n := by
  let f : Nat → Nat := fun i => if 1 ≤ i ∧ i ≤ n then i - 1 else if i = 0 then 1 else 0
  have hf : ∀ i, f i ≤ n ∧ f i ≠ i := by
    intro i
    simp only [f]
    split
    · omega
    · split <;> omega
  have hraw := classesFile_raw o f hn
  obtain ⟨e, he⟩ := classesFile_rejected o f h1 hn hf
  have hm := memory_of_raw (minor := 0) (rest := []) hraw
  rw [List.append_nil] at hm
  have hlen : (Entry.zero :: classesTo f 1 n).length = n + 1 := by simp [classesTo]
  rw [hlen] at hm
  have href : resolvedRefs (.zero :: classesTo f 1 n) = (List.range' 1 n).map fun i => (i, i - 1) := by
    rw [classesFile_refersTo f hn hf]
    refine List.map_congr_left fun i hi => ?_
    rw [List.mem_range'_1] at hi
    simp only [f]
    rw [if_pos (by omega)]
  refine ⟨classesFile f n, e, _, classesFile_length f n, he, hm, fun j hj => ?_, fun depth => ?_⟩
  · have hl := C63_leak_iff (minor := 0) (rest := []) hraw j
    rw [List.append_nil] at hl
    have hlt : ∀ a b, RefersTo (.zero :: classesTo f 1 n) a b → b < a := by
      intro a b hab
      unfold RefersTo at hab
      rw [href] at hab
      simp only [List.mem_map, List.mem_range'_1, Prod.mk.injEq] at hab
      obtain ⟨i, hi, rfl, rfl⟩ := hab
      omega
    obtain ⟨k, hk, -⟩ := hl.mp hj
    have : ∀ a b, Relation.TransGen (RefersTo (.zero :: classesTo f 1 n)) a b → b < a := by
      intro a b hab
      induction hab with
      | single h => exact hlt _ _ h
      | tail _ h ih => have := hlt _ _ h; omega
    exact absurd (this k k hk) (by omega)
  · constructor
    · intro hnone
      by_contra hgt
      obtain ⟨h', hd⟩ := dropPool_total (.zero :: classesTo f 1 n)
      rw [hlen] at hd
      rw [dropPool_mono (by omega : n + 1 ≤ depth) hd] at hnone
      cases hnone
    · intro hle
      cases depth with
      | zero =>
        unfold dropPool
        rw [List.range_succ_eq_map, List.foldlM_cons]
        rfl
      | succ d =>
        have hstrong : ∀ i, i ≤ n → (resolveConstantPoolH (.zero :: classesTo f 1 n)).2.strong i = if i < n then 2 else 1 := by
          intro i hi
          rw [resolveConstantPoolH_heap, linkAll_strong, href, hlen, List.map_map]
          have hmap : List.map (Prod.snd ∘ fun i : Nat => (i, i - 1)) (List.range' 1 n) = List.range n := by
            rw [List.range'_eq_map_range, List.map_map, List.map_congr_left (g := id) (fun a _ => by simp), List.map_id]
          rw [hmap]
          simp only [Heap.fresh]
          rw [if_pos (by omega)]
          by_cases hin : i < n
          · rw [List.count_eq_one_of_mem List.nodup_range (List.mem_range.mpr hin), if_pos hin]
          · rw [List.count_eq_zero_of_not_mem (fun h => hin (List.mem_range.mp h)), if_neg hin]
        have hholds : ∀ i, i < n → (resolveConstantPoolH (.zero :: classesTo f 1 n)).2.holds (i + 1) = [i] := by
          intro i hi
          rw [resolveConstantPoolH_heap, linkAll_holds, href]
          simp only [Heap.fresh, List.nil_append]
          have : ((List.range' 1 n).map fun i => (i, i - 1)).filter (fun r => decide (r.1 = i + 1)) = [(i + 1, i)] := by
            rw [List.filter_map]
            have hfil : (List.range' 1 n).filter ((fun r : Nat × Nat => decide (r.1 = i + 1)) ∘ fun i => (i, i - 1)) = [i + 1] := by
              have h3 : List.range' 1 n = List.range' 1 i ++ (i + 1) :: List.range' (i + 2) (n - i - 1) := by
                rw [show (i + 1) :: List.range' (i + 2) (n - i - 1) = List.range' (i + 1) (n - i) by
                  rw [show n - i = (n - i - 1) + 1 by omega, List.range'_succ]; simp]
                rw [show i + 1 = 1 + 1 * i by omega, List.range'_append]
                congr 1; omega
              rw [h3, List.filter_append, List.filter_cons]
              have ha : (List.range' 1 i).filter ((fun r : Nat × Nat => decide (r.1 = i + 1)) ∘ fun i => (i, i - 1)) = [] := by
                rw [List.filter_eq_nil_iff]
                intro a ha
                rw [List.mem_range'_1] at ha
                simp; omega
              have hb : (List.range' (i + 2) (n - i - 1)).filter ((fun r : Nat × Nat => decide (r.1 = i + 1)) ∘ fun i => (i, i - 1)) = [] := by
                rw [List.filter_eq_nil_iff]
                intro a ha
                rw [List.mem_range'_1] at ha
                simp; omega
              rw [ha, hb]
              simp
            rw [hfil]; simp
          rw [this]; rfl
        obtain ⟨h', hd, hh, hs⟩ := dropFirst (h := (resolveConstantPoolH (.zero :: classesTo f 1 n)).2) d n fun i hi => by
          rw [hstrong i (by omega), if_pos hi]
        unfold dropPool
        rw [List.range_succ, List.foldlM_append, hd]
        have := dropRc_deep (d + 1) n h' hle (fun i hi => by rw [hh]; exact hholds i hi) fun i hi => by
          rw [hs]
          by_cases hin : i < n
          · rw [if_pos hin]
          · rw [if_neg hin, hstrong i hi, if_neg hin]
        simp [List.foldlM_cons, this]

/-! ## Witnesses -/

/-- Sixteen bytes: two Class constants that refer to each other. -/
def leaky : Bytes := header 0 52 ++ (u2 3 ++ ([7, 0, 2] ++ [7, 0, 1]))

/-- The outcome of dropping. -/
def droppedOf (o : Opts) (depth : Nat) (bytes : Bytes) : Option (List Nat) :=
  (memory o bytes).bind fun m => (dropPool depth m.1 m.2).map Heap.dropped

/-- A small rejected file that leaks, and an accepted one (`full_accepted`) whose constants are given back, for which three levels of recursion
are not enough. -/
theorem C63_witness : (∃ e, Rejects debug leaky e) ∧ leaky.length = 16 ∧ Leaks debug leaky 1 ∧ Leaks debug leaky 2 ∧ ¬ Leaks debug leaky 0 ∧
    (∃ l, droppedOf debug 4 full = some l ∧ l.length = 44) ∧ droppedOf debug 3 full = none := by
  have hd : droppedOf debug 3 leaky = some [0] := by decide +kernel
  have hm : ∃ h h', memory debug leaky = some (3, h) ∧ dropPool 3 3 h = some h' ∧ h'.dropped = [0] := by
    have h3 : (memory debug leaky).map Prod.fst = some 3 := by decide +kernel
    unfold droppedOf at hd
    cases hm : memory debug leaky with
    | none => rw [hm] at h3; cases h3
    | some m =>
      rw [hm] at h3 hd
      obtain ⟨n, h⟩ := m
      cases h3
      simp only [Option.bind_some, Option.map_eq_some_iff] at hd
      obtain ⟨h', h4, h5⟩ := hd
      exact ⟨h, h', rfl, h4, h5⟩
  obtain ⟨h, h', hm, h4, h5⟩ := hm
  refine ⟨?_, rfl, ⟨3, h, 3, h', hm, h4, by omega, by rw [h5]; decide⟩, ⟨3, h, 3, h', hm, h4, by omega, by rw [h5]; decide⟩, ?_, ?_, by decide +kernel⟩
  · obtain ⟨e, he, -⟩ := (C49_place_iff (.poolEntry 1)).mpr (located (o := debug) (bytes := leaky) (d := 9) (.poolEntry 1) (by decide +kernel))
    exact ⟨e, he⟩
  · rintro ⟨n, h1, depth, h2, hm', hd', -, hn⟩
    obtain ⟨h3, -, hu, -⟩ := C63_drop hm
    rw [hm] at hm'
    simp only [Option.some.injEq, Prod.mk.injEq] at hm'
    obtain ⟨rfl, rfl⟩ := hm'
    rw [hu _ _ hd', ← hu _ _ h4, h5] at hn
    exact hn (by simp)
  · have : (droppedOf debug 4 full).any (fun l => decide (l.length = 44)) = true := by decide +kernel
    cases hr : droppedOf debug 4 full with
    | none => rw [hr] at this; cases this
    | some l => rw [hr] at this; exact ⟨l, rfl, by simpa using this⟩

end Cafebabe
