import Verif.Proofs.Alone
import Verif.Proofs.Stop
import Verif.Props.PoolProps
import Verif.Props.Whole
import Verif.Props.RichFacts
/-!
# Properties of the `threadsafe` feature in a single thread: C47

`EndsWith p r`: the code `p` with locks, run by a thread that holds nothing, ends with the outcome `r` and has dropped its guards.
`LocksItself p`: it waits for a mutex its own thread holds.
-/

namespace Cafebabe
open Spec Examples

/-! ## C47 The threadsafe build does what the default build does -/

/-- Every lookup of a constant in any pool (however broken) has the outcome it has without locks, and leaves no mutex locked: the
constants shown by the iterator, operands of `ldc`, bootstrap arguments. -/
theorem C47_lookups {pool : Pool} {i : Nat} {e : Entry} (hi : pool[i]? = some e) :
    EndsWith (itemOfL pool i e) (itemOf pool e) ∧ EndsWith (loadableL pool i e) (getCpLoadable i pool) ∧
    EndsWith (bootstrapArgumentL pool i e) (bootstrapArgumentOf pool e) :=
  ⟨(sim_item hi).endsWith, (sim_loadable hi).endsWith, (sim_bootstrap hi).endsWith⟩

/-- The same for the parts of a constant: text, string literal, members, method handles, call sites, names and types. -/
theorem C47_parts (pool : Pool) (i : Nat) :
    (∀ b x, EndsWith (peelUtf8L pool ⟨i, b⟩ x) (peelUtf8 pool x)) ∧
    (∀ b x, EndsWith (peelStringLiteralL pool ⟨i, b⟩ x) (peelStringLiteral pool x)) ∧
    (∀ e, EndsWith (classinfoL pool i e) (e.classinfo pool)) ∧
    (∀ e, EndsWith (nameAndTypeOfL pool i e) (e.nameAndTypeOf pool)) ∧
    (∀ c m, pool[i]? = some (.fieldRef c m) ∨ pool[i]? = some (.methodRef c m) ∨ pool[i]? = some (.interfaceMethodRef c m) →
      EndsWith (makeMemberRefL pool i c m) (makeMemberRef pool c m)) ∧
    (∀ b y, pool[i]? = some (.dynamic b y) ∨ pool[i]? = some (.invokeDynamic b y) → EndsWith (makeDynamicL pool i b y) (makeDynamic pool b y)) ∧
    (∀ k y, pool[i]? = some (.methodHandle k y) → EndsWith (makeMethodHandleL pool i k y) (makeMethodHandle pool k y)) := by
  refine ⟨fun b x => (sim_utf8 (by simp)).endsWith, fun b x => (sim_literal (by simp)).endsWith,
    fun e => (sim_classinfo fun _ _ => by simp).endsWith, fun e => (sim_nat fun _ _ _ _ => by simp).endsWith, ?_, ?_,
    fun k y h => (sim_handle h).endsWith⟩
  · rintro c m (h | h | h) <;> exact (sim_memberRef h trivial).endsWith
  · rintro b y (h | h) <;> exact (sim_dynamic h (by simp)).endsWith

/-- `next()` of the constant pool iterator. -/
theorem C47_next (it : ConstantPoolIter) : EndsWith (nextL it) it.next := sim_next.endsWith

/-- Validation of any pool: if the default build returns, the threadsafe build returns the same. -/
theorem C47_validation {d : Nat} {pool : Pool} {major : UInt16} (h : validateConstantPool d pool major ≠ .diverge) :
    EndsWith (validateConstantPoolL d pool major) (validateConstantPool d pool major) :=
  (sim_pool fun hd => h hd).endsWith

/-- The pools that come from input, where validation begins: the threadsafe build waits for itself exactly if some method reference leads
to a cycle of descriptors (while all entries before it pass), which are the inputs where the default build recurses without end. All others
are validated as without locks. `d` is any recursion budget of more than twice the length of the pool; it is not used up. -/
theorem C47_deadlock_iff {decode : Bytes → Option Str} {checks : Bool} {major : UInt16} {raw : Pool} {seg : Bytes}
    (hraw : RawPoolEnc decode checks major raw seg) (hr : RefsInRange raw) {d : Nat} (hd : 2 * raw.length < d) :
    (LocksItself (validateConstantPoolL d (raw.map linkEntry) major) ↔ PoolStuck major (raw.map linkEntry)) ∧
    (¬ PoolStuck major (raw.map linkEntry) →
      EndsWith (validateConstantPoolL d (raw.map linkEntry) major) (validateConstantPool d (raw.map linkEntry) major)) ∧
    (EndsWith (validateConstantPoolL d (raw.map linkEntry) major) (.ok ()) ↔ ∀ e ∈ raw.map linkEntry, EntryPasses major (raw.map linkEntry) e) := by
  have hl := linked_of_range (raw_facts hraw).1 hr
  have hlen : (raw.map linkEntry).length = raw.length := List.length_map _
  have hpos : 0 < raw.length := by obtain ⟨count, es, body, -, rfl, -⟩ := hraw; simp
  have ho := validateConstantPool_outcome hl (d := d) (by omega) (by omega) major
  have hdl := locks_iff_diverges hl (d := d) (major := major) (by omega)
  have hend : ¬ PoolStuck major (raw.map linkEntry) →
      EndsWith (validateConstantPoolL d (raw.map linkEntry) major) (validateConstantPool d (raw.map linkEntry) major) :=
    fun h => C47_validation fun hh => h (ho.diverge.mp hh)
  refine ⟨hdl.trans ho.diverge, hend, ?_, ?_⟩
  · rintro ⟨held, h1, -⟩
    have hns : ¬ PoolStuck major (raw.map linkEntry) := fun hs => by
      have : LocksItself _ := hdl.mpr (ho.diverge.mpr hs)
      unfold LocksItself at this
      rw [this] at h1
      cases h1
    obtain ⟨held', h2, -⟩ := hend hns
    rw [h1] at h2
    simp only [Option.some.injEq, Prod.mk.injEq] at h2
    exact ho.ok.mp h2.1.symm
  · intro h
    have h2 := ho.ok.mpr h
    have := C47_validation (d := d) (pool := raw.map linkEntry) (major := major) (by rw [h2]; simp)
    rwa [h2] at this

/-! ### Formatting -/

theorem show_alone {pool : Pool} (hw : ∀ (i : Nat) (e : Entry), pool[i]? = some e → WellTyped pool e) : ∀ (d : Nat) (i : Nat) (e : Entry) (held : List Cell),
    pool[i]? = some e → height e < d → (∀ c ∈ held, ∃ f, pool[c.slot]? = some f ∧ height e < height f) →
    ∃ s, alone held (showL pool d i) = some (.ok s, held) ∧ s ≠ .locked ∧ ShowsRef False pool i s
  | 0, _, _, _, _, hd, _ => absurd hd (Nat.not_lt_zero _)
  | d + 1, i, e, held, hi, hd, hh => by
    have hat : poolAt pool i = .ok e := by unfold poolAt; rw [hi]
    have fresh : ∀ b, (⟨i, b⟩ : Cell) ∉ held := fun b hb => by
      obtain ⟨f, hf, hlt⟩ := hh _ hb
      rw [hi] at hf; cases hf
      exact Nat.lt_irrefl _ hlt
    have sub : ∀ (b : Bool) (x : CPRef), x ∈ refsOf e → ∃ j s, x = .resolved j ∧ ShowsRef False pool j s ∧
        alone held (showCell ⟨i, b⟩ (match x with
          | .unresolved _ => .done (.ok (.entry .unused []))
          | .resolved t => showL pool d t)) = some (.ok s, held) := by
      intro b x hx
      obtain ⟨Q, j, f, rfl, hj, -⟩ := wellTyped_refs (hw i e hi) hx
      have hlt := edge_height hw hi hx hj
      obtain ⟨s, h1, -, h3⟩ := show_alone hw d j f (⟨i, b⟩ :: held) hj (by omega) (by
        intro c hc
        rcases List.mem_cons.mp hc with rfl | hc
        · exact ⟨e, hi, hlt⟩
        · obtain ⟨g, hg, hlt'⟩ := hh c hc
          exact ⟨g, hg, by omega⟩)
      refine ⟨j, s, rfl, h3, ?_⟩
      unfold showCell
      simp only [alone]
      rw [if_neg (fresh b), alone_closing, h1]
      simp
    unfold showL
    rw [hat]
    simp only [Prog.bind]
    cases e
    all_goals dsimp only
    case classInfo x | string x | methodType x | moduleInfo x | packageInfo x =>
      obtain ⟨j, s, rfl, hs, ha⟩ := sub false x (by simp [refsOf])
      dsimp only at ha
      exact ⟨_, by rw [alone_bind, ha]; rfl, by simp, .one hi rfl hs⟩
    case methodHandle k x =>
      obtain ⟨j, s, rfl, hs, ha⟩ := sub false x (by simp [refsOf])
      dsimp only at ha
      exact ⟨_, by rw [alone_bind, ha]; rfl, by simp, .one hi rfl hs⟩
    case dynamic k x | invokeDynamic k x =>
      obtain ⟨j, s, rfl, hs, ha⟩ := sub false x (by simp [refsOf])
      dsimp only at ha
      exact ⟨_, by rw [alone_bind, ha]; rfl, by simp, .one hi rfl hs⟩
    case fieldRef x y | methodRef x y | interfaceMethodRef x y | nameAndType x y =>
      obtain ⟨j, s, rfl, hs, ha⟩ := sub false x (by simp [refsOf])
      obtain ⟨k, u, rfl, hu, hb⟩ := sub true y (by simp [refsOf])
      dsimp only at ha hb
      refine ⟨.entry _ [s, u], ?_, by simp, .two hi rfl hs hu⟩
      rw [alone_bind, ha]
      dsimp only
      rw [alone_bind, hb]
      rfl
    all_goals exact ⟨_, rfl, by simp, .none hi rfl⟩

theorem height_le (e : Entry) : height e ≤ 3 := by cases e <;> simp [height]

theorem showFrom_alone {pool : Pool} (hw : ∀ (i : Nat) (e : Entry), pool[i]? = some e → WellTyped pool e) {d : Nat} (hd : 4 ≤ d) : ∀ (es : List Entry) (i : Nat),
    (∀ (j : Nat) (e : Entry), es[j]? = some e → pool[i + j]? = some e) →
    ∃ l, alone [] (showFromL pool d i es) = some (.ok l, []) ∧ l.length = es.length ∧
      ∀ (j : Nat) (s : Shown), l[j]? = some s → s ≠ .locked ∧ ShowsRef False pool (i + j) s
  | [], i, _ => ⟨[], rfl, rfl, fun j s h => by simp at h⟩
  | e :: es, i, hp => by
    obtain ⟨s, h1, h2, h3⟩ := show_alone hw d i e [] (hp 0 e rfl) (by have := height_le e; omega) (by simp)
    obtain ⟨l, h4, h5, h6⟩ := showFrom_alone hw hd es (i + 1) fun j f hj => by
      have := hp (j + 1) f hj
      rwa [show i + (j + 1) = i + 1 + j by omega] at this
    refine ⟨s :: l, ?_, by simp [h5], fun j u hj => ?_⟩
    · unfold showFromL
      rw [alone_bind, h1]
      dsimp only
      rw [alone_bind, h4]
      rfl
    · cases j with
      | zero => cases hj; exact ⟨h2, h3⟩
      | succ j =>
        have := h6 j u hj
        rwa [show i + 1 + j = i + (j + 1) by omega] at this

/-- Formatting an accepted class in a program where nobody else uses it shows every constant in full: no `<locked>` part, and no lock is
left. -/
theorem C47_format {o : Opts} {bytes : Bytes} {cf : ClassFile} (h : Accepts o bytes cf) :
    ∃ l, EndsWith (showPoolL cf.constantPool) (.ok l) ∧ ShowsPool False cf.constantPool l := by
  obtain ⟨l, h1, h2, h3⟩ := showFrom_alone (fun i e hi => C09_well_typed h hi) (d := cf.constantPool.length + 4) (by omega) cf.constantPool 0
    fun j e hj => by simpa using hj
  exact ⟨l, ⟨[], h1, rfl⟩, h2, fun i s hi => by have := h3 i s hi; rwa [Nat.zero_add] at this⟩

/-- What formatting shows of a slot is determined by the pool. -/
theorem C47_format_unique {pool : Pool} {l l' : List Shown} (h : ShowsPool False pool l) (h' : ShowsPool False pool l') : l = l' := by
  have hu : ∀ {i : Nat} {s : Shown}, ShowsRef False pool i s → ∀ {s' : Shown}, ShowsRef False pool i s' → s = s' := by
    intro i s hs
    induction hs with
    | locked hc => exact hc.elim
    | none hi hr =>
      intro s' hs'
      cases hs' with
      | locked hc => exact hc.elim
      | none hi' hr' => rw [hi] at hi'; cases hi'; rfl
      | one hi' hr' _ => rw [hi] at hi'; cases hi'; rw [hr] at hr'; cases hr'
      | two hi' hr' _ _ => rw [hi] at hi'; cases hi'; rw [hr] at hr'; cases hr'
    | one hi hr _ ih =>
      intro s' hs'
      cases hs' with
      | locked hc => exact hc.elim
      | none hi' hr' => rw [hi] at hi'; cases hi'; rw [hr] at hr'; cases hr'
      | one hi' hr' h1 => rw [hi] at hi'; cases hi'; rw [hr] at hr'; cases hr'; rw [ih h1]
      | two hi' hr' _ _ => rw [hi] at hi'; cases hi'; rw [hr] at hr'; cases hr'
    | two hi hr _ _ ih1 ih2 =>
      intro s' hs'
      cases hs' with
      | locked hc => exact hc.elim
      | none hi' hr' => rw [hi] at hi'; cases hi'; rw [hr] at hr'; cases hr'
      | one hi' hr' _ => rw [hi] at hi'; cases hi'; rw [hr] at hr'; cases hr'
      | two hi' hr' h1 h2 => rw [hi] at hi'; cases hi'; rw [hr] at hr'; cases hr'; rw [ih1 h1, ih2 h2]
  refine List.ext_getElem? fun i => ?_
  cases hi : l[i]? with
  | none =>
    rw [List.getElem?_eq_none_iff] at hi
    rw [eq_comm, List.getElem?_eq_none_iff]
    have := h.1; have := h'.1
    omega
  | some s =>
    have hlt := (List.getElem?_eq_some_iff.mp hi).1
    have hlt' : i < l'.length := by have := h.1; have := h'.1; omega
    have hi' : l'[i]? = some l'[i] := List.getElem?_eq_getElem hlt'
    rw [hi', hu (h.2 i s hi).2 (h'.2 i _ hi').2]

/-! ### Concrete cases -/

/-- The pool of `cyclic` before validation: slots 3 and 4 name each other as descriptors. -/
def cyclicPool : Pool :=
  [.zero, .methodRef (.resolved 2) (.resolved 3), .classInfo (.resolved 5), .nameAndType (.resolved 5) (.resolved 4),
    .nameAndType (.resolved 5) (.resolved 3), .utf8 "A".toList]

/-- Whether a run by one thread waits for itself. -/
def stuck (p : Prog Unit) : Bool := (alone [] p).isNone

/-- It waits for itself in a threadsafe build, with any budget above its 6 slots doubled; here by evaluation with one. -/
example : stuck (validateConstantPoolL 13 cyclicPool 52) = true := by decide +kernel

/-- So the threadsafe build deadlocks with itself for every input on which the default build hangs, `cyclic` for one. -/
theorem C47_hanging_inputs {o : Opts} {bytes : Bytes} (h : Hangs o bytes) :
    ∃ major raw seg, RawPoolEnc o.decode o.checks major raw seg ∧ RefsInRange raw ∧
      ∀ d, 2 * raw.length < d → LocksItself (validateConstantPoolL d (raw.map linkEntry) major) := by
  obtain ⟨minor, major, raw, seg, rest, -, h1, h2, h3⟩ := (C05_hangs_iff o bytes).mp h
  exact ⟨major, raw, seg, h1, h2, fun d hd => (C47_deadlock_iff h1 h2 hd).1.mpr h3⟩

example : ∃ major raw seg, RawPoolEnc debug.decode debug.checks major raw seg ∧ RefsInRange raw ∧
      ∀ d, 2 * raw.length < d → LocksItself (validateConstantPoolL d (raw.map linkEntry) major) := C47_hanging_inputs C05_cyclic_hangs.1

/-- Slot 10 of `rich` is a MethodHandle: its lookup takes five locks and gives them all back. -/
example : richCf.constantPool[10]? = some (.methodHandle .invokeStatic (.resolved 9)) ∧
    EndsWith (makeMethodHandleL richCf.constantPool 10 .invokeStatic (.resolved 9)) (makeMethodHandle richCf.constantPool .invokeStatic (.resolved 9)) :=
  ⟨rich_pool.2.1, (C47_parts _ 10).2.2.2.2.2.2 _ _ rich_pool.2.1⟩

example : ∃ l, EndsWith (showPoolL richCf.constantPool) (.ok l) ∧ ShowsPool False richCf.constantPool l := C47_format rich_accepted

end Cafebabe
