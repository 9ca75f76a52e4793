import Verif.Proofs.WorkCostClass
/-!
# How many steps: the whole parse
-/

namespace Cafebabe
open Spec Timed

/-- `CostAt` after a run known not to go on for ever. -/
theorem CostAt.bindNd {α β : Type} {L c c1 e e1 : Int} {Q : α → Prop} {R : β → Prop} {p : PT α} {f : α → PT β} {bytes : Bytes} {ix : Nat}
    (hnd : ((p >>= f) bytes ix).out ≠ .diverge) (hp : (p bytes ix).out ≠ .diverge → CostAt L Q c1 e1 p bytes ix) (he : e1 ≤ e)
    (hf : ∀ a ix', (p bytes ix).out = .ok (a, ix') → Q a → ix' ≤ bytes.length → (f a bytes ix').out ≠ .diverge → CostAt L R (c - c1) (e - c1) (f a) bytes ix') :
    CostAt L R c e (p >>= f) bytes ix := by
  have hdef : (p >>= f) bytes ix = (p bytes ix >>= fun r => f r.1 bytes r.2) := rfl
  rw [hdef, out_bind] at hnd
  refine CostAt.bind (hp fun h => ?_) he fun a ix' ha hq hix' => hf a ix' ha hq hix' fun h => ?_
  · rw [h] at hnd; exact hnd rfl
  · rw [ha, res_bind_ok] at hnd; exact hnd h

theorem CostAt.liftNd {α : Type} {L : Int} (hL : 0 ≤ L) {t : Timed α} {m : Nat} {c e : Int} {Q : α → Prop} {bytes : Bytes} {ix : Nat} (hix : ix ≤ bytes.length)
    (hnd : (PT.lift t bytes ix).out ≠ .diverge) (h : t.out ≠ .diverge → t.steps ≤ m) (hc : (m : Int) ≤ c) (he : (m : Int) ≤ e) (hq : ∀ a, t.out = .ok a → Q a) :
    CostAt L Q c e (PT.lift t) bytes ix := by
  refine Cost.lift hL (h fun hd => ?_) hc he hq bytes ix hix
  unfold PT.lift at hnd
  rw [out_bind, hd] at hnd
  exact hnd rfl

/-- `/repo/src/lib.rs:389-459` what follows the constants; only a name for a part of `readClassFileT`. -/
def afterPoolT (env : Env) (minorVersion majorVersion : UInt16) (constantPool : Pool) : PT ClassFile := do
  let bits ← PT.once readU2
  let accessFlags := fromBitsTruncate classMask bits
  PT.plain <| checkModuleFlags accessFlags majorVersion
  let thisClass ← (readClassNameT constantPool).mapErr "this_class"
  let superClass ← (readClassNameOptT constantPool).mapErr "super_class"
  let interfaces ← readInterfacesT constantPool
  let fields ← readFieldsT env constantPool
  let methods ← readMethodsT env constantPool (flagsContains16 accessFlags AccessFlags.INTERFACE) majorVersion
  let attributes ← (readAttributesT env constantPool env.depth).mapErr "class"
  PT.once checkAtEnd
  PT.plain <| checkModuleEmpty accessFlags superClass interfaces fields methods
  PT.lift (validateBootstrapMethodsT constantPool attributes)
  pure { majorVersion := majorVersion, minorVersion := minorVersion, constantPool := constantPool,
         accessFlags := accessFlags, thisClass := thisClass, superClass := superClass, interfaces := interfaces,
         fields := fields, methods := methods, attributes := attributes }

theorem readClassFileT_eq (env : Env) : readClassFileT env = (PT.once readU4 >>= fun magic => PT.failIf (magic != 0xCAFEBABE) "Unexpected magic header" >>= fun _ =>
    PT.once readU2 >>= fun minor => PT.once readU2 >>= fun major => readConstantPoolT env major >>= fun pool => afterPoolT env minor major pool) := rfl

theorem afterPoolT_cost {pool : Pool} {n : Nat} {W L : Int} (r : Rate pool n W L) (h11 : 11 * W ≤ L) (env : Env) (minor major : UInt16) {bytes : Bytes} {ix : Nat} (hix : ix ≤ bytes.length) :
    CostAt L (fun _ => True) ((pool.length * (bytes.length + 1) : Nat) : Int) (8 * W + (pool.length * (bytes.length + 1) : Nat)) (afterPoolT env minor major pool) bytes ix := by
  have hw := r.work
  generalize hB : pool.length * (bytes.length + 1) = B
  unfold afterPoolT
  refine (Cost.once1 r Tame.readU2 bytes ix hix).bind (by omega) fun bits ix _ _ hix => ?_
  dsimp only
  refine (Cost.plain0 r (checkModuleFlags_tame _ major) bytes ix hix).bind (by omega) fun _ ix _ _ hix => ?_
  refine ((readClassNameT_cost r).mapErr _ bytes ix hix).bind (by omega) fun _ ix _ _ hix => ?_
  refine ((readClassNameOptT_cost r).mapErr _ bytes ix hix).bind (by omega) fun _ ix _ _ hix => ?_
  refine ((readInterfacesT_cost r) bytes ix hix).bind (by omega) fun _ ix _ _ hix => ?_
  refine ((readFieldsT_cost r h11 env) bytes ix hix).bind (by omega) fun _ ix _ _ hix => ?_
  refine ((readMethodsT_cost r h11 env _ major) bytes ix hix).bind (by omega) fun _ i0 _ _ h0 => ?_
  refine ((readAttributesT_cost r h11 env env.depth).mapErr "class" bytes i0 h0).bind (by omega) fun attributes ix' ha _ hix' => ?_
  refine (Cost.once0 r checkAtEnd_tame bytes ix' hix').bind (by omega) fun _ ix _ _ hix => ?_
  refine (Cost.plain0 r (checkModuleEmpty_tame _ _ _ _ _) bytes ix hix).bind (by omega) fun _ ix _ _ hix => ?_
  have hlen : attributes.length ≤ bytes.length := by
    refine attributes_le r h11 env env.depth (ix := i0) (ix' := ix') h0 ?_
    unfold PT.mapErr at ha
    rw [out_mapErr] at ha
    cases ho : (readAttributesT env pool env.depth bytes i0).out with
    | ok r => rw [ho] at ha; exact ha
    | _ => rw [ho] at ha; cases ha
  have hb : (validateBootstrapMethodsT pool attributes).steps ≤ B := by
    rw [← hB]
    exact Nat.le_trans (validateBootstrapMethodsT_le pool attributes) (Nat.mul_le_mul_left _ (by omega))
  refine (Cost.lift r.pos hb (Int.le_refl _) (Int.le_refl _) (Q := fun _ => True) (fun _ _ => trivial) bytes ix hix).bind (by omega) fun _ ix _ _ hix => ?_
  exact Cost.pure r.pos trivial (by omega) (by omega) bytes ix hix

theorem texts_link {raw : Pool} {n : Nat} (h : TextsUpTo raw n) : TextsUpTo (raw.map linkEntry) n := by
  intro s hs
  obtain ⟨e, he, h1⟩ := List.mem_map.mp hs
  have : e = .utf8 s := by cases e <;> simp_all [linkEntry]
  exact h s (this ▸ he)

/-- Steps of the constants: read, resolved, checked. -/
def poolWork (n s : Nat) : Nat := s + s * (5 * n + s + 7)

theorem readConstantPoolT_cost {n : Nat} {W L : Int} (hw : 16 * n + 48 ≤ W) (h11 : 11 * W ≤ L) (env : Env) (major : UInt16) {bytes : Bytes} {ix s : Nat} (hix : ix ≤ bytes.length)
    (hs : bytes.length ≤ ix + s)
    (ht : ∀ raw ix', readRawPool env major bytes ix = .ok (raw, ix') → TextsUpTo raw n) (hnd : (readConstantPoolT env major bytes ix).out ≠ .diverge) :
    CostAt L (fun pool => TextsUpTo pool n ∧ pool.length ≤ s) ((poolWork n s : Nat) : Int) (4 * W + (poolWork n s : Nat)) (readConstantPoolT env major) bytes ix := by
  have r : Rate [] n W L := ⟨fun _ h => (by cases h), hw, by omega⟩
  generalize hP : poolWork n s = P
  unfold readConstantPoolT at hnd ⊢
  refine CostAt.bindNd hnd (fun _ => readRawPoolT_cost r env major bytes ix hix) (by omega) fun raw ix1 h1 _ hix1 hnd1 => ?_
  rw [readRawPoolT_out] at h1
  have htr := ht raw ix1 h1
  obtain ⟨seg, rest, hb, hu, -⟩ := (readRawPool_exact (N := bytes.length + 1) env major bytes ix hix (by omega) raw ix1).mp h1
  have hlen : raw.length ≤ s := by
    have := (raw_facts hu).2
    have := congrArg List.length hb
    simp only [List.length_append, List.length_drop] at this
    omega
  have hmul : raw.length * (5 * n + raw.length + 7) ≤ s * (5 * n + s + 7) := Nat.mul_le_mul hlen (by omega)
  refine CostAt.bindNd hnd1 (c1 := raw.length) (e1 := raw.length) (Q := fun pool => resolveConstantPool raw = .ok pool)
    (fun hn => CostAt.liftNd r.pos hix1 hn (m := raw.length) (fun _ => resolveFromT_le raw raw 0) (Int.le_refl _) (Int.le_refl _) fun pool hp => ?_)
    (by unfold poolWork at hP; omega) fun pool ix2 h2 hp hix2 hnd2 => ?_
  · rw [← hp]; exact (resolveFromT_out raw raw 0).symm
  · obtain ⟨rfl, hrange⟩ := resolveConstantPool_ok.mp hp
    have hl := linked_of_range (raw_facts hu).1 hrange
    have htp := texts_link htr
    refine CostAt.bindNd hnd2 (c1 := (raw.length * (5 * n + raw.length + 7) : Nat)) (e1 := (raw.length * (5 * n + raw.length + 7) : Nat)) (Q := fun _ => True)
      (fun hn => CostAt.liftNd r.pos hix2 hn (m := raw.length * (5 * n + raw.length + 7)) (fun hn => ?_) (Int.le_refl _) (Int.le_refl _) fun _ _ => trivial)
      (by unfold poolWork at hP; omega) fun _ ix3 _ _ hix3 _ => ?_
    · have := validatePoolT_le hl htp hn
      rwa [List.length_map] at this
    · exact Cost.pure r.pos ⟨htp, by rw [List.length_map]; exact hlen⟩ (by unfold poolWork at hP; omega) (by unfold poolWork at hP; omega) bytes ix3 hix3

/-- The whole parse. -/
theorem readClassFileT_le {n : Nat} (env : Env) {bytes : Bytes} (ht : ∀ major raw ix', readU2 bytes 6 = .ok (major, 8) → readRawPool env major bytes 8 = .ok (raw, ix') → TextsUpTo raw n)
    (hnd : (readClassFileT env bytes 0).out ≠ .diverge) :
    (readClassFileT env bytes 0).steps ≤ 181 * n * bytes.length + 2 * bytes.length * bytes.length + 537 * bytes.length + 192 * n + 576 := by
  generalize hW : (16 * n + 48 : Int) = W
  have hw : 16 * n + 48 ≤ W := by omega
  have r : Rate [] n W (11 * W) := ⟨fun _ h => (by cases h), hw, by omega⟩
  generalize hP : poolWork n bytes.length = P
  generalize hB : bytes.length * (bytes.length + 1) = B
  have hix : 0 ≤ bytes.length := Nat.zero_le _
  have key : CostAt (11 * W) (fun _ => True) (12 * W + P + B) (12 * W + P + B) (readClassFileT env) bytes 0 := by
    rw [readClassFileT_eq] at hnd ⊢
    refine CostAt.bindNd hnd (fun _ => Cost.once1 r Tame.readU4 bytes 0 hix) (by omega) fun magic i1 h1 _ hix1 hnd => ?_
    refine CostAt.bindNd hnd (fun _ => Cost.failIf r bytes i1 hix1) (by omega) fun _ i2 h2 _ hix2 hnd => ?_
    refine CostAt.bindNd hnd (fun _ => Cost.once1 r Tame.readU2 bytes i2 hix2) (by omega) fun minor i3 h3 _ hix3 hnd => ?_
    refine CostAt.bindNd hnd (fun _ => Cost.once1 r Tame.readU2 bytes i3 hix3) (by omega) fun major i4 h4 _ hix4 hnd5 => ?_
    have e1 : i1 = 4 := by
      obtain ⟨seg, _, _, hs, rfl⟩ := (Exact.readU4 (N := bytes.length + 1) bytes 0 hix (by omega) magic i1).mp h1
      cases hs; rfl
    have e2 : i2 = i1 := by
      revert h2
      show Cafebabe.P.failIf _ _ bytes i1 = _ → _
      unfold Cafebabe.P.failIf
      split
      · nofun
      · intro h; cases h; rfl
    have e3 : i3 = i2 + 2 := by
      obtain ⟨seg, _, _, hs, rfl⟩ := (Exact.readU2 (N := bytes.length + 1) bytes i2 hix2 (by omega) minor i3).mp h3
      cases hs; rfl
    have e4 : i4 = i3 + 2 := by
      obtain ⟨seg, _, _, hs, rfl⟩ := (Exact.readU2 (N := bytes.length + 1) bytes i3 hix3 (by omega) major i4).mp h4
      cases hs; rfl
    obtain rfl : i4 = 8 := by omega
    obtain rfl : i3 = 6 := by omega
    refine CostAt.bindNd hnd5 (fun hn => readConstantPoolT_cost hw (Int.le_refl _) env major hix4 (s := bytes.length) (by omega) (fun raw ix' => ht major raw ix' h4) hn) (by omega) fun pool i5 h5 hq hix5 hnd => ?_
    have h := afterPoolT_cost (n := n) (W := W) (L := 11 * W) ⟨hq.1, hw, by omega⟩ (Int.le_refl _) env minor major hix5
    have hm : pool.length * (bytes.length + 1) ≤ B := by rw [← hB]; exact Nat.mul_le_mul_right _ hq.2
    refine ⟨fun a i ha => ?_, ?_⟩
    · obtain ⟨g0, g1, g2, g3⟩ := h.1 a i ha
      exact ⟨g0, g1, g2, by omega⟩
    · have := h.2; omega
  have h2 := key.2
  have : ((readClassFileT env bytes 0).steps : Int) ≤ ((181 * n * bytes.length + 2 * bytes.length * bytes.length + 537 * bytes.length + 192 * n + 576 : Nat) : Int) := by
    refine Int.le_trans h2 ?_
    subst hP hB hW
    unfold poolWork
    push_cast
    generalize (bytes.length : Int) = S
    have e : (12 * (16 * (n : Int) + 48) + (S + S * (5 * n + S + 7)) + S * (S + 1) + 11 * (16 * n + 48) * (S - 0)) = 181 * n * S + 2 * S * S + 537 * S + 192 * n + 576 := by ring
    omega
  exact Int.ofNat_le.mp this

end Cafebabe
