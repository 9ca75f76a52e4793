import Verif.Spec.Lost
import Verif.Proofs.Resize
import Verif.Props.CodeProps
import Verif.Props.AttrProps
/-!
# Properties: distinctions that a parsed class does not show (C56)
-/

namespace Cafebabe
open Spec Examples

theorem replaceIn_self {a : AttributeInfo} {as : List AttributeInfo} (h : AttrIn a as) : ReplaceIn a a as as := by
  induction h with
  | here h => obtain ⟨xs, ys, rfl⟩ := List.append_of_mem h; exact .here xs ys
  | @code as name c h _ ih =>
    obtain ⟨xs, ys, rfl⟩ := List.append_of_mem h
    have := ReplaceIn.code xs ys name c c.attributes ih
    cases c
    exact this
  | @record as name l r h hr _ ih =>
    obtain ⟨xs, ys, rfl⟩ := List.append_of_mem h
    obtain ⟨rs, ts, rfl⟩ := List.append_of_mem hr
    have := ReplaceIn.record xs ys name rs ts r r.attributes ih
    cases r
    exact this

theorem replaceOf_self {a : AttributeInfo} {cf : ClassFile} (h : AttrOf cf a) : ReplaceOf a a cf cf := by
  rcases h with h | ⟨f, hf, h⟩ | ⟨f, hf, h⟩
  · exact .ofClass cf.attributes (replaceIn_self h)
  · obtain ⟨xs, ys, he⟩ := List.append_of_mem hf
    have := ReplaceOf.ofField (cf := cf) xs ys f f.attributes he (replaceIn_self h)
    cases f
    cases cf
    cases he
    exact this
  · obtain ⟨xs, ys, he⟩ := List.append_of_mem hf
    have := ReplaceOf.ofMethod (cf := cf) xs ys f f.attributes he (replaceIn_self h)
    cases f
    cases cf
    cases he
    exact this

/-- The first byte of a target. -/
theorem target_first {t : TypeAnnotationTarget} {s : Bytes} (h : TargetEnc t s) :
    ∃ b r, s = b :: r ∧ b ∈ targetKinds t ∧ ∀ b' ∈ targetKinds t, TargetEnc t (b' :: r) := by
  have dec : ∀ (p : UInt8 → Prop) [DecidablePred p] (l : List UInt8), (∀ b : Fin 256, p (UInt8.ofNat b.val) ↔ UInt8.ofNat b.val ∈ l) → ∀ b, p b ↔ b ∈ l := by
    intro p _ l h b
    have := h ⟨b.toNat, b.toNat_lt⟩
    simpa using this
  cases t with
  | supertype k => obtain ⟨_, r, rfl, rfl, h⟩ := h; exact ⟨_, r, rfl, by simp [targetKinds], fun b' hb' => by
      simp only [targetKinds, List.mem_singleton] at hb'; subst hb'; exact ⟨_, r, rfl, rfl, h⟩⟩
  | formalParameter k => obtain ⟨_, r, rfl, rfl, h⟩ := h; exact ⟨_, r, rfl, by simp [targetKinds], fun b' hb' => by
      simp only [targetKinds, List.mem_singleton] at hb'; subst hb'; exact ⟨_, r, rfl, rfl, h⟩⟩
  | throws k => obtain ⟨_, r, rfl, rfl, h⟩ := h; exact ⟨_, r, rfl, by simp [targetKinds], fun b' hb' => by
      simp only [targetKinds, List.mem_singleton] at hb'; subst hb'; exact ⟨_, r, rfl, rfl, h⟩⟩
  | catch_ k => obtain ⟨_, r, rfl, rfl, h⟩ := h; exact ⟨_, r, rfl, by simp [targetKinds], fun b' hb' => by
      simp only [targetKinds, List.mem_singleton] at hb'; subst hb'; exact ⟨_, r, rfl, rfl, h⟩⟩
  | typeParameter k =>
    have hk := dec (fun b => b = 0x00 ∨ b = 0x01) [0x00, 0x01] (by decide +kernel)
    obtain ⟨_, r, rfl, ⟨b, hb, rfl⟩, h⟩ := h
    exact ⟨b, r, rfl, (hk b).mp hb, fun b' hb' => ⟨[b'], r, rfl, ⟨b', (hk b').mpr hb', rfl⟩, h⟩⟩
  | typeParameterBound k l =>
    have hk := dec (fun b => b = 0x11 ∨ b = 0x12) [0x11, 0x12] (by decide +kernel)
    obtain ⟨_, r, rfl, ⟨b, hb, rfl⟩, h⟩ := h
    exact ⟨b, r, rfl, (hk b).mp hb, fun b' hb' => ⟨[b'], r, rfl, ⟨b', (hk b').mpr hb', rfl⟩, h⟩⟩
  | empty =>
    have hk := dec (fun b => 0x13 ≤ b ∧ b ≤ 0x15) [0x13, 0x14, 0x15] (by decide +kernel)
    obtain ⟨b, hb, rfl⟩ := h
    exact ⟨b, [], rfl, (hk b).mp hb, fun b' hb' => ⟨b', (hk b').mpr hb', rfl⟩⟩
  | localVar vs =>
    have hk := dec (fun b => b = 0x40 ∨ b = 0x41) [0x40, 0x41] (by decide +kernel)
    obtain ⟨_, r, rfl, ⟨b, hb, rfl⟩, h⟩ := h
    exact ⟨b, r, rfl, (hk b).mp hb, fun b' hb' => ⟨[b'], r, rfl, ⟨b', (hk b').mpr hb', rfl⟩, h⟩⟩
  | offset n =>
    have hk := dec (fun b => 0x43 ≤ b ∧ b ≤ 0x46) [0x43, 0x44, 0x45, 0x46] (by decide +kernel)
    obtain ⟨_, r, rfl, ⟨b, hb, rfl⟩, h⟩ := h
    exact ⟨b, r, rfl, (hk b).mp hb, fun b' hb' => ⟨[b'], r, rfl, ⟨b', (hk b').mpr hb', rfl⟩, h⟩⟩
  | typeArgument n k =>
    have hk := dec (fun b => 0x47 ≤ b ∧ b ≤ 0x4B) [0x47, 0x48, 0x49, 0x4A, 0x4B] (by decide +kernel)
    obtain ⟨_, r, rfl, ⟨b, hb, rfl⟩, h⟩ := h
    exact ⟨b, r, rfl, (hk b).mp hb, fun b' hb' => ⟨[b'], r, rfl, ⟨b', (hk b').mpr hb', rfl⟩, h⟩⟩

theorem data_types {o : Opts} {pool : Pool} {name : Str} {d : AttributeData} {l : List TypeAnnotation} {body : Bytes}
    (hl : typeAnnotationsOf d = some l) (h : DataEnc o pool name d body) : table2 (TypeAnnotationEnc pool) l body ∧
      ∀ body', table2 (TypeAnnotationEnc pool) l body' → DataEnc o pool name d body' := by
  cases d <;> cases hl <;> rw [DataEnc] at h <;> exact ⟨h.2, fun body' h' => by rw [DataEnc]; exact ⟨h.1, h'⟩⟩

/-- The kind of a type annotation's target: the byte can be replaced by any other of its group without changing the result. -/
theorem C56_targets {o : Opts} {bytes : Bytes} {cf : ClassFile} (h : Accepts o bytes cf) {a : AttributeInfo} (ha : AttrOf cf a)
    {xs ys : List TypeAnnotation} {t : TypeAnnotation} (ht : typeAnnotationsOf a.data = some (xs ++ t :: ys)) :
    ∃ (pre sx post : Bytes) (i count : UInt16) (n : UInt32) (b : UInt8),
      bytes = pre ++ (u2 i ++ u4 n ++ (u2 count ++ sx ++ b :: post)) ∧ TextAt cf.constantPool i.toNat a.name ∧
      OpenFile o cf.constantPool pre ∧ seq (TypeAnnotationEnc cf.constantPool) xs sx ∧ b ∈ targetKinds t.targetType ∧
      ∀ b' ∈ targetKinds t.targetType, Accepts o (pre ++ (u2 i ++ u4 n ++ (u2 count ++ sx ++ b' :: post))) cf := by
  have hnb : NotBootstrap a := by intro l hl; rw [hl] at ht; cases ht
  obtain ⟨pre, s, post, rfl, hop, hs, hnew⟩ := replace_enc (replaceOf_self ha) (accepts_iff_enc.mp h) hnb hnb
  obtain ⟨nm, d⟩ := a
  rw [AttrEnc] at hs
  obtain ⟨_, _, rfl, ⟨i, hi, rfl⟩, n, w, hn, hd, rfl⟩ := hs
  obtain ⟨hd1, hd2⟩ := data_types ht hd
  obtain ⟨c, sx, st, sy, hc, rfl, h1, ⟨tg, rest, rfl, h2, h3⟩, h4⟩ := table2_split.mp hd1
  obtain ⟨b, r, rfl, hb, hbs⟩ := target_first h2
  refine ⟨pre, sx, r ++ rest ++ sy ++ post, i, c, n, b, by simp, hi, hop, h1, hb, fun b' hb' => accepts_iff_enc.mpr ?_⟩
  have hw := hd2 (u2 c ++ sx ++ (b' :: r ++ rest) ++ sy) (table2_split.mpr ⟨c, sx, b' :: r ++ rest, sy, hc, rfl, h1, ⟨b' :: r, rest, rfl, hbs b' hb', h3⟩, h4⟩)
  have := hnew (u2 i ++ (u4 n ++ (u2 c ++ sx ++ (b' :: r ++ rest) ++ sy))) (by
    rw [AttrEnc]; exact ⟨_, _, rfl, ⟨i, hi, rfl⟩, n, _, by rw [hn]; simp, hw, rfl⟩) (by simp)
  simpa using this

/-- Another encoding of the same instructions changes nothing but the bytes of the code. -/
theorem C56_code {o : Opts} {bytes : Bytes} {cf cf' : ClassFile} (h : Accepts o bytes cf) {name : Str} {c : CodeData} {code : Bytes} {bc : ByteCode}
    (hb : c.bytecode = some bc) (hlen : code.length = c.code.length) (hops : InsnsEnc o.checks cf.constantPool 0 bc.opcodes code)
    (hr : ReplaceOf ⟨name, .code c⟩ ⟨"Code".toList, .code { c with code := code }⟩ cf cf') :
    ∃ (pre post : Bytes), bytes = pre ++ c.code ++ post ∧ Accepts o (pre ++ code ++ post) cf' := by
  obtain ⟨pre, body, post, i, n, rfl, hn, ⟨ks, nested, m, ne, na, rfl, h1, h2, h3, h4, h5, h6, h7⟩, hacc⟩ := C43_accepted h hr
  refine ⟨pre ++ (u2 i ++ u4 n ++ (u2 c.maxStack ++ u2 c.maxLocals ++ u4 m)),
    (u2 ne ++ (List.zipWith exceptionRow c.exceptionTable ks).flatten) ++ (u2 na ++ nested.flatten) ++ post, by simp, ?_⟩
  rcases h7 with ⟨hnone, -⟩ | ⟨bc', hbc', hp, -, hs, hj⟩
  · rw [hb] at hnone; cases hnone
  · rw [hb] at hbc'
    cases hbc'
    have := hacc (u2 c.maxStack ++ u2 c.maxLocals ++ (u4 m ++ code) ++ (u2 ne ++ (List.zipWith exceptionRow c.exceptionTable ks).flatten) ++
        (u2 na ++ nested.flatten)) ks nested (by simp [hlen]) ⟨m, ne, na, rfl, by rw [h1, hlen], h2, h3, h4, h5, h6, .inr ⟨bc, hb, hp, hops, hs, hj⟩⟩
    simpa using this

/-- Re-encoding one instruction. -/
theorem insns_patch {checks : Bool} {pool : Pool} {off : Nat} {op : Opcode} {seg' : Bytes} : ∀ {ops : List (Nat × Opcode)} {pos : Nat} {code : Bytes},
    InsnsEnc checks pool pos ops code → (off, op) ∈ ops → InsnEnc checks pool off op seg' →
    ∃ pre seg post, code = pre ++ seg ++ post ∧ pos + pre.length = off ∧ InsnEnc checks pool off op seg ∧
      (seg'.length = seg.length → InsnsEnc checks pool pos ops (pre ++ seg' ++ post)) := by
  intro ops pos code h
  induction h with
  | nil => intro h; cases h
  | @cons pos op' ops s t h1 h2 ih =>
    intro hm hs
    rcases List.mem_cons.mp hm with he | hm
    · cases he
      refine ⟨[], s, t, rfl, rfl, h1, fun hl => ?_⟩
      rw [← hl] at h2
      exact .cons hs h2
    · obtain ⟨pre, seg, post, rfl, hoff, hseg, hall⟩ := ih hm hs
      refine ⟨s ++ pre, seg, post, by simp, by simp; omega, hseg, fun hl => ?_⟩
      have := InsnsEnc.cons h1 (hall hl)
      simpa using this

/-- Whether `invokestatic` or `invokespecial` names a method of a class or of an interface: the index can be replaced by that of a constant of
the other kind with the same names, and nothing but the bytes of the code changes. -/
theorem C56_invoke {o : Opts} {bytes : Bytes} {cf cf' : ClassFile} (h : Accepts o bytes cf) {name : Str} {c : CodeData} {bc : ByteCode} {off : Nat}
    {m : MemberRef} (hb : c.bytecode = some bc) (hop : (off, .invokestatic m) ∈ bc.opcodes ∨ (off, .invokespecial m) ∈ bc.opcodes) {j : UInt16}
    (hj : MethodRefAt cf.constantPool j.toNat m ∨ InterfaceMethodRefAt cf.constantPool j.toNat m)
    (hr : ReplaceOf ⟨name, .code c⟩ ⟨"Code".toList, .code { c with code := c.code.take (off + 1) ++ u2 j ++ c.code.drop (off + 3) }⟩ cf cf') :
    ∃ (pre post : Bytes), bytes = pre ++ c.code ++ post ∧
      Accepts o (pre ++ (c.code.take (off + 1) ++ u2 j ++ c.code.drop (off + 3)) ++ post) cf' := by
  obtain ⟨pre, body, post, i, n, -, hn, ⟨ks, nested, k, ne, na, -, -, -, -, -, -, -, h7⟩, -⟩ := C43_accepted h hr
  rcases h7 with ⟨hnone, -⟩ | ⟨bc', hbc', hp, hops, -⟩
  · rw [hb] at hnone; cases hnone
  rw [hb] at hbc'
  cases hbc'
  have key : ∀ (op : Opcode) (b : UInt8), (off, op) ∈ bc.opcodes →
      (∀ s, InsnEnc o.checks cf.constantPool off op s ↔ ∃ k : UInt16, (MethodRefAt cf.constantPool k.toNat m ∨ InterfaceMethodRefAt cf.constantPool k.toNat m) ∧ s = [b] ++ u2 k) →
      InsnsEnc o.checks cf.constantPool 0 bc.opcodes (c.code.take (off + 1) ++ u2 j ++ c.code.drop (off + 3)) ∧
        (c.code.take (off + 1) ++ u2 j ++ c.code.drop (off + 3)).length = c.code.length := by
    intro op b hm hop
    obtain ⟨p, s, q, hc, hoff, hs, hall⟩ := insns_patch (seg' := [b] ++ u2 j) hops hm ((hop _).mpr ⟨j, hj, rfl⟩)
    obtain ⟨k, -, rfl⟩ := (hop s).mp hs
    have hp : p.length = off := by omega
    have h1 : c.code.take (off + 1) = p ++ [b] := by
      rw [hc, ← hp, show p ++ ([b] ++ u2 k) ++ q = (p ++ [b]) ++ (u2 k ++ q) by simp, show p.length + 1 = (p ++ [b]).length by simp, List.take_left]
    have h2 : c.code.drop (off + 3) = q := by
      rw [hc, ← hp, show p.length + 3 = (p ++ ([b] ++ u2 k)).length by simp [u2_length], List.drop_left]
    rw [h1, h2]
    refine ⟨?_, by rw [hc]; simp [u2_length]⟩
    have := hall (by simp [u2_length])
    simpa using this
  have hcode : InsnsEnc o.checks cf.constantPool 0 bc.opcodes (c.code.take (off + 1) ++ u2 j ++ c.code.drop (off + 3)) ∧
      (c.code.take (off + 1) ++ u2 j ++ c.code.drop (off + 3)).length = c.code.length := by
    rcases hop with hop | hop
    · refine key _ 0xb8 hop fun s => ?_
      constructor
      · rintro ⟨_, _, rfl, rfl, k, hk, rfl⟩; exact ⟨k, hk, rfl⟩
      · rintro ⟨k, hk, rfl⟩; exact ⟨_, _, rfl, rfl, k, hk, rfl⟩
    · refine key _ 0xb7 hop fun s => ?_
      constructor
      · rintro ⟨_, _, rfl, rfl, k, hk, rfl⟩; exact ⟨k, hk, rfl⟩
      · rintro ⟨k, hk, rfl⟩; exact ⟨_, _, rfl, rfl, k, hk, rfl⟩
  exact C56_code h hb hcode.2 hcode.1 hr

/-- A frame without new locals, with a small offset: it can be written in one way and in another, two bytes longer. -/
theorem frame_forms {pool : Pool} {f : StackMapEntry} (hf : ShortFrame f) {s : Bytes} (h : FrameEnc pool f s) :
    ∃ s', FrameEnc pool f s' ∧ (s'.length = s.length + 2 ∨ s'.length + 2 = s.length) := by
  cases f with
  | same d =>
    rcases h with ⟨h1, rfl⟩ | rfl
    · exact ⟨_, .inr rfl, .inl (by simp [u2_length])⟩
    · exact ⟨_, .inl ⟨hf, rfl⟩, .inr (by simp [u2_length])⟩
  | sameLocals1StackItem d v =>
    rcases h with ⟨h1, _, t, rfl, rfl, h⟩ | ⟨_, t, rfl, rfl, h⟩
    · exact ⟨_, .inr ⟨_, t, rfl, rfl, h⟩, .inl (by simp only [List.length_append, List.length_cons, List.length_nil, u2_length]; omega)⟩
    · exact ⟨_, .inl ⟨hf, _, t, rfl, rfl, h⟩, .inr (by simp only [List.length_append, List.length_cons, List.length_nil, u2_length]; omega)⟩
  | _ => exact hf.elim

/-- Whether a stack map frame is written in the short or in the extended form: wherever such a frame with an offset below 64 stands, there is
another file, two bytes longer or shorter, that gives exactly the same result. -/
theorem C56_frames {o : Opts} {bytes : Bytes} {cf : ClassFile} (h : Accepts o bytes cf) {name : Str} {xs ys : List StackMapEntry} {f : StackMapEntry}
    (ha : AttrOf cf ⟨name, .stackMapTable (xs ++ f :: ys)⟩) (hf : ShortFrame f) (hN : bytes.length + 2 < 2 ^ 32) :
    ∃ bytes', Accepts o bytes' cf ∧ (bytes'.length = bytes.length + 2 ∨ bytes'.length + 2 = bytes.length) := by
  have hnb : NotBootstrap ⟨name, .stackMapTable (xs ++ f :: ys)⟩ := fun l h => by cases h
  obtain ⟨s, hs, hle, hnew⟩ := resize_enc (replaceOf_self ha) (accepts_iff_enc.mp h) hnb hnb
  rw [AttrEnc] at hs
  obtain ⟨_, _, rfl, ⟨i, hi, rfl⟩, n, b, hn, hd, rfl⟩ := hs
  rw [DataEnc] at hd
  obtain ⟨rfl, hd⟩ := hd
  obtain ⟨c, sx, st, sy, hc, rfl, h1, h2, h3⟩ := table2_split.mp hd
  obtain ⟨st', h4, h5⟩ := frame_forms hf h2
  have hlt := n.toNat_lt
  have e : ∀ v w : UInt32, (u4 v).length = (u4 w).length := fun _ _ => rfl
  have hn' := fitsU4 (n := (u2 c ++ sx ++ st' ++ sy).length) (by simp only [List.length_append] at hle ⊢; omega)
  obtain ⟨bytes', h6, h7⟩ := hnew (u2 i ++ (u4 (UInt32.ofNat (u2 c ++ sx ++ st' ++ sy).length) ++ (u2 c ++ sx ++ st' ++ sy))) (by
      rw [AttrEnc]
      refine ⟨_, _, rfl, ⟨i, hi, rfl⟩, _, _, hn', ?_, rfl⟩
      rw [DataEnc]
      exact ⟨rfl, table2_split.mpr ⟨c, sx, st', sy, hc, rfl, h1, h4, h3⟩⟩) (by
    simp only [List.length_append, e _ n]; omega)
  refine ⟨bytes', accepts_iff_enc.mpr h6, ?_⟩
  simp only [List.length_append, e _ n] at h7
  omega

/-! ## Witnesses -/

/-- A fact about what a concrete file parses to, from one evaluation. -/
theorem checked {o : Opts} {d : Nat} {bytes : Bytes} (f : ClassFile → Bool) (h : (match run o d bytes with | .ok cf => f cf | _ => false) = true) :
    ∃ cf, Accepts o bytes cf ∧ f cf = true := by
  cases hr : run o d bytes with
  | ok cf => rw [hr] at h; exact ⟨cf, ⟨d, hr⟩, h⟩
  | err e => rw [hr] at h; cases h
  | panic k => rw [hr] at h; cases h
  | diverge => rw [hr] at h; cases h

/-- A class with a type annotation `@A`. -/
def annotated : Bytes :=
  header 0 52 ++ u2 5 ++ text "A" ++ [7, 0, 1] ++ text "RuntimeVisibleTypeAnnotations" ++ text "LA;" ++ [0, 0x21, 0, 2, 0, 0, 0, 0, 0, 0, 0, 0] ++
    u2 1 ++ attr 3 (u2 1 ++ [0x14] ++ [0] ++ u2 4 ++ u2 0)

/-- The file `annotated` has a type annotation on a field, return type or receiver: these three cannot be told apart. -/
theorem C56_targets_witness : ∃ (cf : ClassFile) (a : AttributeInfo) (t : TypeAnnotation), Accepts debug annotated cf ∧ AttrOf cf a ∧
    typeAnnotationsOf a.data = some ([] ++ t :: []) ∧ targetKinds t.targetType = [0x13, 0x14, 0x15] := by
  obtain ⟨cf, hcf, h⟩ := checked (o := debug) (d := 9) (bytes := annotated) (fun cf => match cf.attributes[0]? with
    | some (AttributeInfo.mk _ (.runtimeVisibleTypeAnnotations [t])) => (match t.targetType with | .empty => true | _ => false)
    | _ => false) (by decide +kernel)
  split at h
  · rename_i n t hb
    refine ⟨cf, _, t, hcf, .inl (.here (List.mem_of_getElem? hb)), rfl, ?_⟩
    split at h
    · rename_i ht; rw [ht]; rfl
    · cases h
  · cases h

/-- A class with a stack map frame in the short form. -/
def framed : Bytes :=
  header 0 52 ++ u2 4 ++ text "A" ++ [7, 0, 1] ++ text "StackMapTable" ++ [0, 0x21, 0, 2, 0, 0, 0, 0, 0, 0, 0, 0] ++ u2 1 ++ attr 3 (u2 2 ++ [3, 251, 0, 60])

/-- The file `framed` meets the hypotheses of `C56_frames`, for each of its two frames. -/
theorem C56_frames_witness : ∃ (cf : ClassFile) (name : Str), Accepts debug framed cf ∧ AttrOf cf ⟨name, .stackMapTable ([] ++ .same 3 :: [.same 60])⟩ ∧
    AttrOf cf ⟨name, .stackMapTable ([.same 3] ++ .same 60 :: [])⟩ ∧ ShortFrame (.same 3) ∧ ShortFrame (.same 60) ∧ framed.length = 59 := by
  obtain ⟨cf, hcf, h⟩ := checked (o := debug) (d := 9) (bytes := framed) (fun cf => match cf.attributes[0]? with
    | some (AttributeInfo.mk _ (.stackMapTable [.same a, .same b])) => a == 3 && b == 60
    | _ => false) (by decide +kernel)
  split at h
  · rename_i n a b hb
    simp only [Bool.and_eq_true, beq_iff_eq] at h
    obtain ⟨rfl, rfl⟩ := h
    have := List.mem_of_getElem? hb
    exact ⟨cf, n, hcf, .inl (.here this), .inl (.here this), by show (3 : UInt16) < 64; decide, by show (60 : UInt16) < 64; decide, by decide +kernel⟩
  · cases h

/-- `static void m() { A.m(); }`, and a constant pool that has `A.m` both as a method of a class (7) and of an interface (8). -/
def invoker : Bytes :=
  header 0 52 ++ u2 9 ++ text "A" ++ [7, 0, 1] ++ text "Code" ++ text "m" ++ text "()V" ++ [12, 0, 4, 0, 5] ++ [10, 0, 2, 0, 6] ++ [11, 0, 2, 0, 6] ++
    [0, 0x21, 0, 2, 0, 0, 0, 0, 0, 0] ++ u2 1 ++ [0, 0x09, 0, 4, 0, 5] ++ u2 1 ++ attr 3 (u2 1 ++ u2 1 ++ u4 4 ++ [0xb8, 0, 7, 0xb1] ++ u2 0 ++ u2 0) ++ u2 0

theorem C56_invoke_witness : ∃ (cf cf' : ClassFile) (name : Str) (c : CodeData) (bc : ByteCode) (m : MemberRef), Accepts debug invoker cf ∧
    c.bytecode = some bc ∧ (0, .invokestatic m) ∈ bc.opcodes ∧ MethodRefAt cf.constantPool 7 m ∧ InterfaceMethodRefAt cf.constantPool 8 m ∧
    c.code = [0xb8, 0, 7, 0xb1] ∧ ReplaceOf ⟨name, .code c⟩ ⟨"Code".toList, .code { c with code := [0xb8, 0, 8, 0xb1] }⟩ cf cf' := by
  obtain ⟨cf, hcf, h⟩ := checked (o := debug) (d := 9) (bytes := invoker) (fun cf => match cf.methods with
    | [m] => (match m.attributes with
      | [AttributeInfo.mk _ (.code c)] => c.code == [0xb8, 0, 7, 0xb1] && (match c.bytecode with
        | some bc => (match bc.opcodes with
          | [(0, .invokestatic m), _] => m == ⟨"A".toList, ⟨"m".toList, "()V".toList⟩⟩
          | _ => false)
        | none => false)
      | _ => false)
    | _ => false) (by decide +kernel)
  obtain ⟨cf2, hcf2, h2⟩ := checked (o := debug) (d := 9) (bytes := invoker) (fun cf =>
    cf.constantPool[1]? == some (Entry.utf8 "A".toList) && cf.constantPool[2]? == some (Entry.classInfo (.resolved 1)) &&
    cf.constantPool[4]? == some (Entry.utf8 "m".toList) && cf.constantPool[5]? == some (Entry.utf8 "()V".toList) &&
    cf.constantPool[6]? == some (Entry.nameAndType (.resolved 4) (.resolved 5)) &&
    cf.constantPool[7]? == some (Entry.methodRef (.resolved 2) (.resolved 6)) &&
    cf.constantPool[8]? == some (Entry.interfaceMethodRef (.resolved 2) (.resolved 6))) (by decide +kernel)
  have : cf2 = cf := by
    rw [accepts_iff] at hcf hcf2
    rw [hcf] at hcf2
    cases hcf2; rfl
  subst this
  simp only [Bool.and_eq_true, beq_iff_eq] at h2
  obtain ⟨⟨⟨⟨⟨⟨p1, p2⟩, p4⟩, p5⟩, p6⟩, p7⟩, p8⟩ := h2
  split at h
  · rename_i md hmd
    split at h
    · rename_i nm c hat
      simp only [Bool.and_eq_true, beq_iff_eq] at h
      obtain ⟨hcode, h⟩ := h
      split at h
      · rename_i bc hbc
        split at h
        · rename_i m x hops
          have ha : AttrOf cf2 ⟨nm, .code c⟩ := .inr (.inr ⟨md, by rw [hmd]; simp, .here (by rw [hat]; simp)⟩)
          obtain ⟨cf', hr⟩ := replaceOf_exists ⟨"Code".toList, .code { c with code := [0xb8, 0, 8, 0xb1] }⟩ ha
          have hm : m = ⟨"A".toList, ⟨"m".toList, "()V".toList⟩⟩ := by simpa using h
          have hmem : MemberOf cf2.constantPool 2 6 m := by
            subst hm
            exact ⟨⟨1, p2, p1⟩, 4, 5, p6, p4, p5⟩
          exact ⟨cf2, cf', nm, c, bc, m, hcf, hbc, by rw [hops]; simp, ⟨2, 6, p7, hmem⟩, ⟨2, 6, p8, hmem⟩, hcode, hr⟩
        · cases h
      · cases h
    · cases h
  · cases h

end Cafebabe
