import Verif.Spec.Cow
import Verif.Proofs.Cesu8
import Verif.Proofs.Descriptors
/-!
# Borrowed and copied text: the functions of `Model/Cow` against those of the plain model
-/

namespace Cafebabe
open Spec

theorem same_bind {α β γ δ : Type} {f : α → β} {g : γ → δ} {r : Res α} {s : Res β} {k : α → Res γ} {l : β → Res δ}
    (h : SameOutcome f r s) (hk : ∀ a, SameOutcome g (k a) (l (f a))) : SameOutcome g (r >>= k) (s >>= l) := by
  cases r <;> cases s <;> first | exact h.elim | skip
  · cases h; exact hk _
  · exact h
  · exact h
  · trivial

theorem same_refl {α : Type} : ∀ r : Res α, SameOutcome id r r
  | .ok _ => rfl
  | .err _ => rfl
  | .panic _ => rfl
  | .diverge => trivial

theorem same_fail {α β : Type} {f : α → β} {m : String} : SameOutcome f (Res.fail m) (Res.fail m) := rfl

theorem slice_same (data : Cow) (i j : Nat) :
    SameOutcome (fun c : Cow => ClassName.mk c.text) (data.slice i j) (do let name ← strSlice data.text i j; .ok ⟨name⟩) :=
  same_bind (same_refl _) fun _ => rfl

theorem classLoop_same (data : Cow) (index : Nat) : ∀ fuel next,
    SameOutcome (fun c : Cow => ClassName.mk c.text) (classDescriptorLoopCow data index fuel next) (classDescriptorLoop data.text index fuel next)
  | 0, _ => trivial
  | fuel + 1, next => by
    unfold classDescriptorLoopCow classDescriptorLoop
    refine same_bind (same_refl _) fun tail => ?_
    refine same_bind (same_refl _) fun r => ?_
    obtain ⟨seg, c⟩ := r
    cases c with
    | none => rfl
    | some c =>
      simp only [id]
      split
      · exact slice_same _ _ _
      · split
        · exact classLoop_same data index fuel _
        · rfl

theorem class_same (data : Cow) (index : Nat) :
    SameOutcome (fun c : Cow => ClassName.mk c.text) (parseClassDescriptorCow data index) (parseClassDescriptor data.text index) :=
  classLoop_same data index _ _

theorem byteLen_plain (d : FieldDescriptorCow) (h : ∀ t, d.fieldType = .prim t → t.byteLen = 1) : (plainField d).byteLen = d.byteLen := by
  obtain ⟨n, t⟩ := d
  cases t with
  | prim t => exact congrArg (n.toNat + ·) (h t rfl)
  | object c => rfl

/-- The primitive alternatives hold primitive types. -/
def PrimOK (d : FieldDescriptorCow) : Prop := ∀ t, d.fieldType = .prim t → t.byteLen = 1

theorem fieldLoop_same (data : Cow) (index : Nat) : ∀ (s : Str) (dims : Nat),
    SameOutcome plainField (parseFieldDescriptorLoopCow data index dims s) (parseFieldDescriptorLoop data.text index dims s)
  | [], _ => rfl
  | c :: rest, dims => by
    unfold parseFieldDescriptorLoopCow parseFieldDescriptorLoop
    by_cases hc : (c == '[') = true
    · rw [if_pos hc, if_pos hc]
      split
      · rfl
      · exact fieldLoop_same data index rest _
    · rw [if_neg hc, if_neg hc]
      unfold fieldTypeCow
      by_cases h1 : (c == 'B') = true
      · simp only [h1]; rfl
      by_cases h2 : (c == 'C') = true
      · simp only [h1, h2]; rfl
      by_cases h3 : (c == 'D') = true
      · simp only [h1, h2, h3]; rfl
      by_cases h4 : (c == 'F') = true
      · simp only [h1, h2, h3, h4]; rfl
      by_cases h5 : (c == 'I') = true
      · simp only [h1, h2, h3, h4, h5]; rfl
      by_cases h6 : (c == 'J') = true
      · simp only [h1, h2, h3, h4, h5, h6]; rfl
      by_cases h7 : (c == 'S') = true
      · simp only [h1, h2, h3, h4, h5, h6, h7]; rfl
      by_cases h8 : (c == 'Z') = true
      · simp only [h1, h2, h3, h4, h5, h6, h7, h8]; rfl
      by_cases h9 : (c == 'L') = true
      · simp only [h1, h2, h3, h4, h5, h6, h7, h8, h9]
        have := class_same data (index + dims + 1)
        revert this
        generalize parseClassDescriptorCow data (index + dims + 1) = x
        generalize parseClassDescriptor data.text (index + dims + 1) = y
        intro h
        cases x <;> cases y <;> first | exact h.elim | exact h | (cases h; rfl)
      · simp only [h1, h2, h3, h4, h5, h6, h7, h8, h9]; rfl

theorem field_same (data : Cow) (index : Nat) : SameOutcome plainField (parseFieldDescriptorCow data index) (parseFieldDescriptor data.text index) :=
  same_bind (same_refl _) fun _ => fieldLoop_same data index _ 0

theorem bind_ok {α β : Type} {r : Res α} {k : α → Res β} {b : β} (h : (r >>= k) = .ok b) : ∃ a, r = .ok a ∧ k a = .ok b := by
  cases r with
  | ok a => exact ⟨a, rfl, h⟩
  | err e => cases h
  | panic k => cases h
  | diverge => cases h

theorem fieldLoop_prim (data : Cow) (index : Nat) : ∀ (s : Str) (dims : Nat) (d : FieldDescriptorCow),
    parseFieldDescriptorLoopCow data index dims s = .ok d → PrimOK d
  | [], _, _, h => by cases h
  | c :: rest, dims, d, h => by
    unfold parseFieldDescriptorLoopCow at h
    by_cases hc : (c == '[') = true
    · rw [if_pos hc] at h
      split at h
      · cases h
      · exact fieldLoop_prim data index rest _ d h
    · rw [if_neg hc] at h
      obtain ⟨t, ht, h⟩ := bind_ok h
      cases h
      rintro u rfl
      unfold fieldTypeCow at ht
      have key : ∀ {b : Bool} {x : FieldType} {r : Res FieldTypeCow}, (if b = true then Res.ok (FieldTypeCow.prim x) else r) = .ok (.prim u) →
          x.byteLen = 1 → (r = .ok (.prim u) → u.byteLen = 1) → u.byteLen = 1 := by
        intro b x r h hx hr
        cases b
        · exact hr h
        · cases h; exact hx
      refine key ht rfl fun h => key h rfl fun h => key h rfl fun h => key h rfl fun h => key h rfl fun h => key h rfl fun h => key h rfl fun h =>
        key h rfl fun h => ?_
      split at h
      · obtain ⟨_, _, h⟩ := bind_ok h
        cases h
      · cases h

theorem field_prim {data : Cow} {index : Nat} {d : FieldDescriptorCow} (h : parseFieldDescriptorCow data index = .ok d) : PrimOK d := by
  obtain ⟨_, _, h⟩ := bind_ok h
  exact fieldLoop_prim _ _ _ _ _ h

theorem same_bind_of {α β γ δ : Type} {f : α → β} {g : γ → δ} {r : Res α} {s : Res β} {k : α → Res γ} {l : β → Res δ}
    (h : SameOutcome f r s) (hk : ∀ a, r = .ok a → SameOutcome g (k a) (l (f a))) : SameOutcome g (r >>= k) (s >>= l) := by
  cases r <;> cases s <;> first | exact h.elim | skip
  · cases h; exact hk _ rfl
  · exact h
  · exact h
  · trivial

theorem return_same (data : Cow) (index : Nat) :
    SameOutcome plainReturn (parseReturnDescriptorCow data index) (parseReturnDescriptor data.text index) := by
  refine same_bind (same_refl _) fun tail => ?_
  simp only [id]
  split
  · rfl
  · exact same_bind (field_same _ _) fun _ => rfl

theorem parameters_same (data : Cow) (bytes : Bytes) : ∀ fuel index,
    SameOutcome (fun p : List FieldDescriptorCow × Nat => (p.1.map plainField, p.2)) (parametersLoopCow data bytes fuel index)
      (parametersLoop data.text bytes fuel index)
  | 0, _ => trivial
  | fuel + 1, index => by
    unfold parametersLoopCow parametersLoop
    split
    · rfl
    · refine same_bind_of (field_same _ _) fun d hd => ?_
      rw [byteLen_plain d (field_prim hd)]
      exact same_bind (parameters_same data bytes fuel _) fun _ => rfl

theorem method_same (data : Cow) (index : Nat) :
    SameOutcome plainMethod (parseMethodDescriptorCow data index) (parseMethodDescriptor data.text index) := by
  unfold parseMethodDescriptorCow parseMethodDescriptor
  simp only
  split
  · rfl
  · refine same_bind (parameters_same data _ _ _) fun r => ?_
    exact same_bind (return_same _ _) fun _ => rfl

/-! ## Slices -/

theorem strLen_utf8 : ∀ s : Str, strLen s = (utf8 s).length
  | [] => rfl
  | c :: s => by
    have h : c.utf8Size = (utf8Char c).length := by
      have := char_range c
      unfold Char.utf8Size utf8Char
      have e : c.toNat = c.val.toNat := rfl
      simp only [UInt32.le_iff_toNat_le]
      repeat' split
      all_goals simp at *
      all_goals omega
    show c.utf8Size + strLen s = _
    rw [strLen_utf8 s, h]
    simp [utf8]

theorem strFrom_inv : ∀ {s t : Str} {i : Nat}, strFrom s i = .ok t → ∃ a, s = a ++ t ∧ strLen a = i
  | s, t, 0, h => by
    rw [strFrom_zero] at h
    cases h
    exact ⟨[], rfl, rfl⟩
  | [], _, _ + 1, h => by cases h
  | c :: s, t, i + 1, h => by
    unfold strFrom at h
    split at h
    · obtain ⟨a, rfl, ha⟩ := strFrom_inv h
      exact ⟨c :: a, rfl, by unfold strLen; omega⟩
    · cases h
  termination_by s => s.length

theorem strTo_inv : ∀ {s t : Str} {n : Nat}, strTo s n = .ok t → ∃ b, s = t ++ b
  | s, t, 0, h => by
    rw [strTo_zero] at h
    cases h
    exact ⟨s, rfl⟩
  | [], _, _ + 1, h => by cases h
  | c :: s, t, n + 1, h => by
    unfold strTo at h
    split at h
    · obtain ⟨r, hr, h'⟩ := bind_ok h
      obtain ⟨b, e⟩ := strTo_inv hr
      cases h'
      exact ⟨b, by rw [e]; rfl⟩
    · cases h

/-- `n` is a slice of `data`, borrowed from the same place when `data` is borrowed and copied when `data` is owned. -/
def SliceOf (data n : Cow) : Prop := ∃ a b, data.text = a ++ n.text ++ b ∧ n.start = data.start.map (· + (utf8 a).length)

theorem slice_of {data n : Cow} {i j : Nat} (h : data.slice i j = .ok n) : SliceOf data n := by
  obtain ⟨t, ht, h⟩ := bind_ok h
  cases h
  unfold strSlice at ht
  split at ht
  · obtain ⟨u, hu, ht⟩ := bind_ok ht
    obtain ⟨a, e, ha⟩ := strFrom_inv hu
    obtain ⟨b, rfl⟩ := strTo_inv ht
    exact ⟨a, b, by rw [e, List.append_assoc], by rw [← strLen_utf8, ha]⟩
  · cases ht

theorem classLoop_slice {data n : Cow} {index : Nat} : ∀ {fuel next}, classDescriptorLoopCow data index fuel next = .ok n → SliceOf data n
  | 0, _, h => by cases h
  | fuel + 1, next, h => by
    unfold classDescriptorLoopCow at h
    obtain ⟨tail, -, h⟩ := bind_ok h
    obtain ⟨⟨seg, c⟩, -, h⟩ := bind_ok h
    cases c with
    | none => cases h
    | some c =>
      simp only at h
      split at h
      · exact slice_of h
      · split at h
        · exact classLoop_slice h
        · cases h

theorem fieldLoop_slice {data : Cow} {index : Nat} : ∀ {s : Str} {dims : Nat} {d : FieldDescriptorCow},
    parseFieldDescriptorLoopCow data index dims s = .ok d → ∀ n ∈ fieldNames d, SliceOf data n
  | [], _, _, h => by cases h
  | c :: rest, dims, d, h => by
    unfold parseFieldDescriptorLoopCow at h
    by_cases hc : (c == '[') = true
    · rw [if_pos hc] at h
      split at h
      · cases h
      · exact fieldLoop_slice h
    · rw [if_neg hc] at h
      obtain ⟨t, ht, h⟩ := bind_ok h
      cases h
      intro n hn
      cases t with
      | prim t => cases hn
      | object m =>
        have : n = m := by simpa [fieldNames, typeNames] using hn
        subst this
        have key : ∀ {b : Bool} {x : FieldType} {r : Res FieldTypeCow}, (if b = true then Res.ok (FieldTypeCow.prim x) else r) = .ok (.object n) →
            r = .ok (.object n) := by
          intro b x r h
          cases b
          · exact h
          · cases h
        unfold fieldTypeCow at ht
        have h := key (key (key (key (key (key (key (key ht)))))))
        split at h
        · obtain ⟨m, hm, h⟩ := bind_ok h
          cases h
          exact classLoop_slice hm
        · cases h

theorem field_slice {data : Cow} {index : Nat} {d : FieldDescriptorCow} (h : parseFieldDescriptorCow data index = .ok d) :
    ∀ n ∈ fieldNames d, SliceOf data n := by
  obtain ⟨_, _, h⟩ := bind_ok h
  exact fieldLoop_slice h

theorem return_slice {data : Cow} {index : Nat} {d : ReturnDescriptorCow} (h : parseReturnDescriptorCow data index = .ok d) :
    ∀ n ∈ returnNames d, SliceOf data n := by
  obtain ⟨tail, -, h⟩ := bind_ok h
  split at h
  · cases h; intro n hn; cases hn
  · obtain ⟨d, hd, h⟩ := bind_ok h
    cases h
    exact field_slice hd

theorem parameters_slice {data : Cow} {bytes : Bytes} : ∀ {fuel index : Nat} {r : List FieldDescriptorCow × Nat},
    parametersLoopCow data bytes fuel index = .ok r → ∀ n ∈ r.1.flatMap fieldNames, SliceOf data n
  | 0, _, _, h => by cases h
  | fuel + 1, index, r, h => by
    unfold parametersLoopCow at h
    split at h
    · cases h; intro n hn; cases hn
    · obtain ⟨d, hd, h⟩ := bind_ok h
      obtain ⟨r', hr, h⟩ := bind_ok h
      cases h
      intro n hn
      rw [List.flatMap_cons, List.mem_append] at hn
      rcases hn with hn | hn
      · exact field_slice hd n hn
      · exact parameters_slice hr n hn

theorem method_slice {data : Cow} {index : Nat} {d : MethodDescriptorCow} (h : parseMethodDescriptorCow data index = .ok d) :
    ∀ n ∈ methodNames d, SliceOf data n := by
  unfold parseMethodDescriptorCow at h
  simp only at h
  split at h
  · cases h
  · obtain ⟨r, hr, h⟩ := bind_ok h
    obtain ⟨t, ht, h⟩ := bind_ok h
    cases h
    intro n hn
    rcases List.mem_append.mp hn with hn | hn
    · exact parameters_slice hr n hn
    · exact return_slice ht n hn

theorem SliceOf.lent {bytes : Bytes} {data n : Cow} (h : SliceOf data n) (hl : Lent bytes data) : Lent bytes n := by
  obtain ⟨a, b, e, hs⟩ := h
  obtain ⟨pre, post, rfl, hp⟩ := hl
  refine ⟨pre ++ utf8 a, utf8 b ++ post, ?_, ?_⟩
  · rw [e]; simp [utf8]
  · rw [hs, hp]; simp

theorem SliceOf.copied {data n : Cow} (h : SliceOf data n) (hl : Copied data) : Copied n := by
  obtain ⟨a, b, e, hs⟩ := h
  rw [Copied] at hl
  rw [Copied, hs, hl]
  rfl

end Cafebabe
