import Verif.Props.AttrProps
import Verif.Spec.Frames
/-!
# Property C25: stack map tables
-/

namespace Cafebabe
open Spec Examples

/-- A frame starts with a frame type byte, which determines its kind and, for the short forms, its offset delta. -/
theorem frame_kind {pool : Pool} {f : StackMapEntry} {seg : Bytes} (h : FrameEnc pool f seg) :
    ∃ b r, seg = b :: r ∧ FrameKind b f := by
  cases f with
  | same d =>
    rcases h with ⟨hd, rfl⟩ | rfl
    · refine ⟨_, [], rfl, .inl ⟨?_, ?_⟩⟩
      · rw [UInt8.lt_iff_toNat_lt]; rw [UInt16.lt_iff_toNat_lt] at hd
        have : d.toNat < 64 := hd
        simp; omega
      · apply UInt16.toNat_inj.mp
        rw [UInt16.lt_iff_toNat_lt] at hd
        have : d.toNat < 64 := hd
        simp; omega
    · exact ⟨251, _, rfl, .inr rfl⟩
  | sameLocals1StackItem d v =>
    rcases h with ⟨hd, _, t, rfl, rfl, -⟩ | ⟨_, t, rfl, rfl, -⟩
    · rw [UInt16.lt_iff_toNat_lt] at hd
      have hd' : d.toNat < 64 := hd
      have hb : (64 + d.toUInt8).toNat = 64 + d.toNat := by simp; omega
      refine ⟨_, t, rfl, .inl ⟨?_, ?_, ?_⟩⟩
      · rw [UInt8.le_iff_toNat_le, hb]; simp
      · rw [UInt8.lt_iff_toNat_lt, hb]; simp; omega
      · have h64 : (64 : UInt16) ≤ (64 + d.toUInt8).toUInt16 := by
          rw [UInt16.le_iff_toNat_le, UInt8.toNat_toUInt16, hb]; simp
        apply UInt16.toNat_inj.mp
        rw [UInt16.toNat_sub_of_le _ _ h64, UInt8.toNat_toUInt16, hb]
        simp
    · exact ⟨247, _, rfl, .inr rfl⟩
  | chop d k =>
    obtain ⟨h1, h2, rfl⟩ := h
    rw [UInt16.le_iff_toNat_le] at h1 h2
    have h1' : 1 ≤ k.toNat := h1
    have h2' : k.toNat ≤ 3 := h2
    have hk : k.toUInt8.toNat = k.toNat := by simp; omega
    have hle : k.toUInt8 ≤ 251 := by rw [UInt8.le_iff_toNat_le, hk]; simp; omega
    have hb : (251 - k.toUInt8).toNat = 251 - k.toNat := by rw [UInt8.toNat_sub_of_le _ _ hle, hk]; rfl
    refine ⟨_, _, rfl, ?_, ?_, ?_⟩
    · rw [UInt8.le_iff_toNat_le, hb]; simp; omega
    · rw [UInt8.le_iff_toNat_le, hb]; simp; omega
    · have hle' : (251 - k.toUInt8).toUInt16 ≤ 251 := by rw [UInt16.le_iff_toNat_le, UInt8.toNat_toUInt16, hb]; simp
      apply UInt16.toNat_inj.mp
      rw [UInt16.toNat_sub_of_le _ _ hle', UInt8.toNat_toUInt16, hb]
      simp; omega
  | append d locals =>
    obtain ⟨⟨h1, h2⟩, _, t, rfl, rfl, -⟩ := h
    have hk : (UInt8.ofNat locals.length).toNat = locals.length := by simp; omega
    have hb : (251 + UInt8.ofNat locals.length).toNat = 251 + locals.length := by rw [UInt8.toNat_add, hk]; simp; omega
    refine ⟨_, _, rfl, ?_, ?_, ?_⟩
    · rw [UInt8.le_iff_toNat_le, hb]; simp; omega
    · rw [UInt8.le_iff_toNat_le, hb]; simp; omega
    · rw [hb]; omega
  | fullFrame d locals stack =>
    obtain ⟨_, t, rfl, rfl, -⟩ := h
    exact ⟨255, _, rfl, rfl⟩

/-- Each frame of each StackMapTable of an accepted file is exactly the encoded one: the table is a count and the frames one after the other,
filling the attribute; the frame type byte of each gives its kind. -/
theorem C25_decoded {o : Opts} {bytes : Bytes} {cf : ClassFile} (h : Accepts o bytes cf) {name : Str} {l : List StackMapEntry}
    (ha : AttrOf cf ⟨name, .stackMapTable l⟩) :
    ∃ (pre post : Bytes) (rows : List Bytes) (i count : UInt16) (n : UInt32),
      bytes = pre ++ (u2 i ++ u4 n ++ (u2 count ++ rows.flatten)) ++ post ∧ OpenFile o cf.constantPool pre ∧
      TextAt cf.constantPool i.toNat "StackMapTable".toList ∧ n.toNat = (u2 count ++ rows.flatten).length ∧ count.toNat = l.length ∧
      rows.length = l.length ∧ ∀ (k : Nat) (f : StackMapEntry), l[k]? = some f →
        ∃ (b : UInt8) (r : Bytes), rows[k]? = some (b :: r) ∧ FrameKind b f ∧ FrameEnc cf.constantPool f (b :: r) := by
  obtain ⟨pre, body, post, i, n, hb, hop, hi, hn, hd⟩ := C22_exact_length h ha
  rw [DataEnc] at hd
  obtain ⟨rfl, count, hc, _, _, rfl, rfl, h5⟩ := hd
  obtain ⟨rows, rfl, hl, hr⟩ := seq_rows_at h5
  refine ⟨pre, post, rows, i, count, n, hb, hop, hi, hn.symm, hc, hl, fun k f hk => ?_⟩
  obtain ⟨s, hs, he⟩ := hr k f hk
  obtain ⟨b, r, rfl, hb⟩ := frame_kind he
  exact ⟨b, r, hs, hb, he⟩

/-- Conversely a reader of one frame returns `f` on exactly the encodings of `f`, for every frame, with any bytes around it. -/
theorem C25_frame_exact (pool : Pool) (f : StackMapEntry) (bytes : Bytes) (i ix ix' : Nat) (hix : ix ≤ bytes.length) :
    readStackMapEntry pool i bytes ix = .ok (f, ix') ↔
      ∃ seg rest, bytes.drop ix = seg ++ rest ∧ FrameEnc pool f seg ∧ ix' = ix + seg.length :=
  readStackMapEntry_exact (N := bytes.length + 1) pool i bytes ix hix (by omega) f ix'

theorem dataEnc_of_frames {o : Opts} {pool : Pool} {d : AttributeData} {seg : Bytes} (h : DataEnc o pool "StackMapTable".toList d seg) :
    ∃ l, d = .stackMapTable l ∧ table2 (FrameEnc pool) l seg := by
  have hk := dataEnc_kind h
  rw [show attrKindOf "StackMapTable".toList = .stackMapTable from by decide +kernel] at hk
  cases d <;> try (cases hk; done)
  rw [DataEnc] at h
  exact ⟨_, rfl, h.2⟩

/-- If no frame starts after the first frames of a table, the file is refused. -/
theorem frame_refused {o : Opts} {pool : Pool} {pre rest s : Bytes} {i count : UInt16} {n : UInt32} {l : List StackMapEntry}
    (hop : OpenFile o pool pre) (hi : TextAt pool i.toNat "StackMapTable".toList) (hs : seq (FrameEnc pool) l s) (hl : l.length < count.toNat)
    (hno : ∀ f u v, rest = u ++ v → ¬ FrameEnc pool f u) : Refused o (pre ++ (u2 i ++ u4 n ++ (u2 count ++ s) ++ rest)) := by
  refine refused_of_noAttr hop fun x t r he hx => ?_
  obtain ⟨-, b, -, hb, hd⟩ := attrEnc_split hx (r := u2 count ++ s ++ rest) (t := r) (by simpa using he) hi
  obtain ⟨l', -, htab⟩ := dataEnc_of_frames hd
  obtain ⟨f, cs, u, v, -, hf, -, hr⟩ := (frame_unique pool).table2_peel hs hl htab hb
  exact hno f u (v ++ r) (by simpa using hr) hf

/-- Reserved frame types 128 to 246 are refused, whatever follows. -/
theorem C25_reserved_refused {o : Opts} {pool : Pool} {pre rest s : Bytes} {i count : UInt16} {n : UInt32} {l : List StackMapEntry} {b : UInt8}
    (hop : OpenFile o pool pre) (hi : TextAt pool i.toNat "StackMapTable".toList) (hs : seq (FrameEnc pool) l s) (hl : l.length < count.toNat)
    (h1 : 128 ≤ b) (h2 : b ≤ 246) : Refused o (pre ++ (u2 i ++ u4 n ++ (u2 count ++ s) ++ (b :: rest))) := by
  refine frame_refused hop hi hs hl fun f u v he hf => ?_
  obtain ⟨b', r, rfl, hk⟩ := frame_kind hf
  simp only [List.cons_append, List.cons.injEq] at he
  obtain ⟨rfl, -⟩ := he
  rw [UInt8.le_iff_toNat_le] at h1 h2
  have h1' : 128 ≤ b.toNat := h1
  have h2' : b.toNat ≤ 246 := h2
  unfold FrameKind at hk
  split at hk
  · rcases hk with ⟨hk, -⟩ | rfl
    · rw [UInt8.lt_iff_toNat_lt] at hk; have : b.toNat < 64 := hk; omega
    · simp at h2'
  · rcases hk with ⟨-, hk, -⟩ | rfl
    · rw [UInt8.lt_iff_toNat_lt] at hk; have : b.toNat < 128 := hk; omega
    · simp at h2'
  · have hk := hk.1; rw [UInt8.le_iff_toNat_le] at hk; have : 248 ≤ b.toNat := hk; omega
  · have hk := hk.1; rw [UInt8.le_iff_toNat_le] at hk; have : 252 ≤ b.toNat := hk; omega
  · subst hk; simp at h2'

/-- A verification type starts with a tag of at most 8. -/
theorem verification_tag {pool : Pool} {v : VerificationType} {seg : Bytes} (h : VerificationEnc pool v seg) : ∃ b r, seg = b :: r ∧ b ≤ 8 := by
  cases v with
  | object c => obtain ⟨_, t, rfl, rfl, -⟩ := h; exact ⟨7, t, rfl, by decide⟩
  | uninitialized c => obtain ⟨_, t, rfl, rfl, -⟩ := h; exact ⟨8, t, rfl, by decide⟩
  | _ => subst h; exact ⟨_, [], rfl, by decide⟩

/-- An open frame continued with something that does not start a verification type is not a frame. -/
theorem openFrame_no {pool : Pool} {pre rest : Bytes} (h : OpenFrame pool pre) (hno : ∀ v s t, rest = s ++ t → ¬ VerificationEnc pool v s)
    (f : StackMapEntry) (u w : Bytes) (he : pre ++ rest = u ++ w) : ¬ FrameEnc pool f u := by
  intro hf
  obtain ⟨b, r, rfl, hk⟩ := frame_kind hf
  cases h with
  | @sameLocals1 d hd =>
    rw [UInt8.lt_iff_toNat_lt] at hd
    have hd' : d.toNat < 64 := hd
    have hb' : (64 + d).toNat = 64 + d.toNat := by rw [UInt8.toNat_add]; simp; omega
    simp only [List.cons_append, List.cons.injEq, List.nil_append] at he
    obtain ⟨rfl, he⟩ := he
    cases f with
    | same e =>
      rcases hk with ⟨hk, -⟩ | hk
      · rw [UInt8.lt_iff_toNat_lt, hb'] at hk; have : 64 + d.toNat < 64 := hk; omega
      · have := congrArg UInt8.toNat hk; rw [hb'] at this; simp at this; omega
    | sameLocals1StackItem e v =>
      rcases hf with ⟨-, _, t, hx, rfl, hv⟩ | ⟨_, t, hx, rfl, hv⟩
      · simp only [List.cons_append, List.cons.injEq, List.nil_append] at hx
        obtain ⟨-, rfl⟩ := hx
        exact hno v _ _ he hv
      · simp only [List.cons_append, List.cons.injEq] at hx
        have := congrArg UInt8.toNat hx.1; rw [hb'] at this; simp at this; omega
    | chop e k => have := hk.1; rw [UInt8.le_iff_toNat_le, hb'] at this; simp at this; omega
    | append e k => have := hk.1; rw [UInt8.le_iff_toNat_le, hb'] at this; simp at this; omega
    | fullFrame e k t => have := congrArg UInt8.toNat hk; rw [hb'] at this; simp at this; omega
  | @sameLocals1Extended d =>
    simp only [List.cons_append, List.cons.injEq, List.nil_append] at he
    obtain ⟨rfl, he⟩ := he
    cases f with
    | same e => rcases hk with ⟨hk, -⟩ | hk <;> revert hk <;> decide
    | sameLocals1StackItem e v =>
      rcases hf with ⟨hd, _, t, hx, rfl, hv⟩ | ⟨_, t, hx, rfl, hv⟩
      · simp only [List.cons_append, List.cons.injEq, List.nil_append] at hx
        rw [UInt16.lt_iff_toNat_lt] at hd
        have hd' : e.toNat < 64 := hd
        have := congrArg UInt8.toNat hx.1
        simp at this; omega
      · simp only [List.cons_append, List.cons.injEq, List.nil_append] at hx
        obtain ⟨-, rfl⟩ := hx
        obtain ⟨-, he2⟩ := u2_split (a := d) (b := e) (r := rest) (r' := t ++ w) (by simpa using he)
        exact hno v _ _ he2 hv
    | chop e k => have := hk.1; revert this; decide
    | append e k => have := hk.1; revert this; decide
    | fullFrame e k t => have hk' : (247 : UInt8) = 255 := hk; revert hk'; decide
  | @append k d locals s h1 h2 hs hl =>
    rw [UInt8.le_iff_toNat_le] at h1 h2
    have h1' : 1 ≤ k.toNat := h1
    have h2' : k.toNat ≤ 3 := h2
    have hb' : (251 + k).toNat = 251 + k.toNat := by rw [UInt8.toNat_add]; simp; omega
    simp only [List.cons_append, List.cons.injEq, List.nil_append] at he
    obtain ⟨rfl, he⟩ := he
    cases f with
    | same e =>
      rcases hk with ⟨hk, -⟩ | hk
      · rw [UInt8.lt_iff_toNat_lt, hb'] at hk; simp at hk; omega
      · have := congrArg UInt8.toNat hk; rw [hb'] at this; simp at this; omega
    | sameLocals1StackItem e v =>
      rcases hk with ⟨-, hk, -⟩ | hk
      · rw [UInt8.lt_iff_toNat_lt, hb'] at hk; simp at hk; omega
      · have := congrArg UInt8.toNat hk; rw [hb'] at this; simp at this; omega
    | chop e k => have := hk.2.1; rw [UInt8.le_iff_toNat_le, hb'] at this; simp at this; omega
    | append e ls =>
      have hlen := hk.2.2
      rw [hb'] at hlen
      obtain ⟨-, _, t, hx, rfl, hv⟩ := hf
      simp only [List.cons_append, List.cons.injEq, List.nil_append] at hx
      obtain ⟨-, rfl⟩ := hx
      obtain ⟨-, he2⟩ := u2_split (a := d) (b := e) (r := s ++ rest) (r' := t ++ w) (by simpa using he)
      obtain ⟨v, cs, p, q, -, hv', -, hr⟩ := (verification_unique pool).seq_peel hs hv he2 (by omega)
      exact hno v p (q ++ w) (by simpa using hr) hv'
    | fullFrame e k t => have := congrArg UInt8.toNat hk; rw [hb'] at this; simp at this; omega
  | @fullLocals d count locals s hs hl =>
    simp only [List.cons_append, List.cons.injEq, List.nil_append] at he
    obtain ⟨rfl, he⟩ := he
    cases f with
    | same e => rcases hk with ⟨hk, -⟩ | hk <;> revert hk <;> decide
    | sameLocals1StackItem e v =>
      rcases hk with ⟨-, hk, -⟩ | hk <;> revert hk <;> decide
    | chop e k => have := hk.2.1; revert this; decide
    | append e k => have := hk.2.1; revert this; decide
    | fullFrame e ls st =>
      obtain ⟨_, t, hx, rfl, s2, t2, rfl, h3, h4⟩ := hf
      simp only [List.cons_append, List.cons.injEq, List.nil_append] at hx
      obtain ⟨-, rfl⟩ := hx
      obtain ⟨-, he2⟩ := u2_split (a := d) (b := e) (r := u2 count ++ s ++ rest) (r' := s2 ++ (t2 ++ w)) (by simpa using he)
      obtain ⟨v, cs, p, q, -, hv', -, hr⟩ := (verification_unique pool).table2_peel hs hl h3 he2
      exact hno v p (q ++ (t2 ++ w)) (by simpa using hr) hv'
  | @fullStack d count locals stack s t h0 hs hl =>
    simp only [List.cons_append, List.cons.injEq, List.nil_append] at he
    obtain ⟨rfl, he⟩ := he
    cases f with
    | same e => rcases hk with ⟨hk, -⟩ | hk <;> revert hk <;> decide
    | sameLocals1StackItem e v =>
      rcases hk with ⟨-, hk, -⟩ | hk <;> revert hk <;> decide
    | chop e k => have := hk.2.1; revert this; decide
    | append e k => have := hk.2.1; revert this; decide
    | fullFrame e ls st =>
      obtain ⟨_, _, hx, rfl, s2, t2, rfl, h3, h4⟩ := hf
      simp only [List.cons_append, List.cons.injEq, List.nil_append] at hx
      obtain ⟨-, rfl⟩ := hx
      obtain ⟨-, he2⟩ := u2_split (a := d) (b := e) (r := s ++ (u2 count ++ t ++ rest)) (r' := s2 ++ (t2 ++ w)) (by simpa using he)
      obtain ⟨rfl, rfl, he3⟩ := (verification_unique pool).table2.split h0 h3 he2
      obtain ⟨v, cs, p, q, -, hv', -, hr⟩ := (verification_unique pool).table2_peel hs hl h4 he3
      exact hno v p (q ++ w) (by simpa using hr) hv'

/-- Verification type tags above 8 are refused wherever a verification type is expected, whatever follows. -/
theorem C25_unknown_tag_refused {o : Opts} {pool : Pool} {pre fr rest s : Bytes} {i count : UInt16} {n : UInt32} {l : List StackMapEntry} {b : UInt8}
    (hop : OpenFile o pool pre) (hi : TextAt pool i.toNat "StackMapTable".toList) (hs : seq (FrameEnc pool) l s) (hl : l.length < count.toNat)
    (hfr : OpenFrame pool fr) (hb : 8 < b) : Refused o (pre ++ (u2 i ++ u4 n ++ (u2 count ++ s) ++ (fr ++ b :: rest))) := by
  refine frame_refused hop hi hs hl fun f u v he => openFrame_no hfr (fun w p q he' hw => ?_) f u v he
  obtain ⟨b', r, rfl, hk⟩ := verification_tag hw
  simp only [List.cons_append, List.cons.injEq] at he'
  obtain ⟨rfl, -⟩ := he'
  rw [UInt8.le_iff_toNat_le] at hk
  rw [UInt8.lt_iff_toNat_lt] at hb
  omega

/-- `full` cut off before its StackMapTable meets the hypotheses. -/
example : ∃ (pre : Bytes) (i : UInt16), OpenFile debug fullCf.constantPool pre ∧ TextAt fullCf.constantPool i.toNat "StackMapTable".toList ∧
    seq (FrameEnc fullCf.constantPool) [.same 3, .chop 7 2] [3, 249, 0, 7] ∧ OpenFrame fullCf.constantPool [253, 0, 1, 4] := by
  obtain ⟨pre, body, i, ⟨name, d⟩, hop, hi, hk, hd⟩ := full_open .stackMapTable
  have hn : name = "StackMapTable".toList := by
    cases d <;> try (cases hk; done)
    rw [DataEnc] at hd; exact hd.1
  subst hn
  refine ⟨pre, i, hop, hi, ⟨[3], [249, 0, 7], rfl, .inl ⟨by decide, rfl⟩, [249, 0, 7], [], rfl, ⟨by decide, by decide, rfl⟩, rfl⟩, ?_⟩
  exact OpenFrame.append (k := 2) (d := 1) (locals := [.long]) (s := [4]) (by decide) (by decide) ⟨[4], [], rfl, rfl, rfl⟩ (by decide)

end Cafebabe
