import Verif.Proofs.AttrLeaf
/-!
# Proofs: exactness of the annotation readers
-/

namespace Cafebabe
open Spec

theorem elementValuesEnc_eq (pool : Pool) : ∀ vs, ElementValuesEnc pool vs = seq (ElementValueEnc pool) vs
  | [] => by simp [ElementValuesEnc, seq]
  | v :: vs => by simp only [ElementValuesEnc, seq, elementValuesEnc_eq pool vs]

/-- One element-value pair. -/
def ElementEnc (pool : Pool) (e : AnnotationElement) : Lang := (ref fun i => TextAt pool i e.name) ⬝ ElementValueEnc pool e.value

theorem elementsEnc_eq (pool : Pool) : ∀ es, ElementsEnc pool es = seq (ElementEnc pool) es
  | [] => by simp [ElementsEnc, seq]
  | ⟨n, v⟩ :: es => by simp only [ElementsEnc, seq, elementsEnc_eq pool es, ElementEnc]

theorem annotationEnc_eq (pool : Pool) (a : Annotation) : AnnotationEnc pool a =
    ((ref fun i => FieldDescriptorAt pool i a.typeDescriptor) ⬝ table2 (ElementEnc pool) a.elements) := by
  cases a
  simp only [AnnotationEnc, elementsEnc_eq, table2]

theorem exact_diverge {α : Type} {F : α → Lang} : Exact 0 (P.diverge : P α) F := by
  intro bytes ix h1 h2; omega

theorem readAnnotationElementWith_exact {N : Nat} {rec : P AnnotationElementValue} (pool : Pool) (i : Nat)
    (hrec : Exact N rec (ElementValueEnc pool)) : Exact N (readAnnotationElementWith rec pool i) (ElementEnc pool) := by
  unfold readAnnotationElementWith
  refine exact_start (exact_cat AnnotationElement.name (Exact.mapErr (readCpUtf8_exact pool) _) fun a =>
    exact_last AnnotationElement.value (Exact.mapErr hrec _) fun b s _ x => ?_)
  cases x; simp

theorem readAnnotationWith_exact {N : Nat} {rec : P AnnotationElementValue} (pool : Pool)
    (hrec : Exact N rec (ElementValueEnc pool)) : Exact N (readAnnotationWith rec pool) (AnnotationEnc pool) := by
  unfold readAnnotationWith
  refine Exact.congr ?_ fun a seg => by rw [annotationEnc_eq]
  refine exact_start (exact_cat Annotation.typeDescriptor (Exact.mapErr (readFieldDescriptor_exact pool) _) fun a =>
    exact_last Annotation.elements (Exact.readTable2 fun j => readAnnotationElementWith_exact pool j hrec) fun b s _ x => ?_)
  cases x; simp

/-- The encoding of an element value, by its tag byte. -/
theorem elementValue_cons {pool : Pool} {x : AnnotationElementValue} {v : UInt8} {seg : Bytes} :
    ElementValueEnc pool x (v :: seg) ↔
    match x with
    | .byteConstant c => v = 66 ∧ ref (fun i => pool[i]? = some (.integer c)) seg
    | .charConstant c => v = 67 ∧ ref (fun i => pool[i]? = some (.integer c)) seg
    | .doubleConstant c => v = 68 ∧ ref (fun i => pool[i]? = some (.double c)) seg
    | .floatConstant c => v = 70 ∧ ref (fun i => pool[i]? = some (.float c)) seg
    | .intConstant c => v = 73 ∧ ref (fun i => pool[i]? = some (.integer c)) seg
    | .longConstant c => v = 74 ∧ ref (fun i => pool[i]? = some (.long c)) seg
    | .shortConstant c => v = 83 ∧ ref (fun i => pool[i]? = some (.integer c)) seg
    | .booleanConstant c => v = 90 ∧ ref (fun i => pool[i]? = some (.integer c)) seg
    | .stringConstant s => v = 115 ∧ ref (fun i => TextAt pool i s) seg
    | .enumConstant t c => v = 101 ∧ ((ref fun i => FieldDescriptorAt pool i t) ⬝ ref fun i => TextAt pool i c) seg
    | .classLiteral s => v = 99 ∧ ref (fun i => TextAt pool i s ∧ IsReturnDescriptor s) seg
    | .annotationValue a => v = 64 ∧ AnnotationEnc pool a seg
    | .arrayValue vs => v = 91 ∧ table2 (ElementValueEnc pool) vs seg := by
  cases x <;> simp only [ElementValueEnc, tag_cat, table2, elementValuesEnc_eq]

theorem elementValue_ne_nil {pool : Pool} {x : AnnotationElementValue} {seg : Bytes} (h : ElementValueEnc pool x seg) : seg ≠ [] := by
  cases x <;> (unfold ElementValueEnc at h; exact tagged_ne_nil h)

theorem exact_ite {α : Type} {N : Nat} {c : Prop} {inst : Decidable c} {p q : P α} {F : α → Lang} (hp : c → Exact N p F)
    (hq : ¬ c → Exact N q F) : Exact N (if c then p else q) F := by
  by_cases h : c
  · rw [if_pos h]; exact hp h
  · rw [if_neg h]; exact hq h

theorem readElementValueWith_exact {N : Nat} {rec : P AnnotationElementValue} (pool : Pool)
    (hrec : Exact N rec (ElementValueEnc pool)) : Exact (N + 1) (readElementValueWith rec pool) (ElementValueEnc pool) := by
  unfold readElementValueWith
  refine exact_tagK (fun x seg => elementValue_ne_nil) fun v => ?_
  unfold readElementValueBody
  refine Exact.congr ?_ (fun x seg => elementValue_cons.symm)
  refine exact_ite (fun hv => ?_) fun n => ?_
  · cases eq_of_beq hv
    refine (exact_map (readCpInteger_exact pool) _).congr fun x seg => ?_
    cases x <;> simp
  refine exact_ite (fun hv => ?_) fun n1 => ?_
  · cases eq_of_beq hv
    refine (exact_map (readCpInteger_exact pool) _).congr fun x seg => ?_
    cases x <;> simp
  refine exact_ite (fun hv => ?_) fun n2 => ?_
  · cases eq_of_beq hv
    refine (exact_map (readCpDouble_exact pool) _).congr fun x seg => ?_
    cases x <;> simp
  refine exact_ite (fun hv => ?_) fun n3 => ?_
  · cases eq_of_beq hv
    refine (exact_map (readCpFloat_exact pool) _).congr fun x seg => ?_
    cases x <;> simp
  refine exact_ite (fun hv => ?_) fun n4 => ?_
  · cases eq_of_beq hv
    refine (exact_map (readCpInteger_exact pool) _).congr fun x seg => ?_
    cases x <;> simp
  refine exact_ite (fun hv => ?_) fun n5 => ?_
  · cases eq_of_beq hv
    refine (exact_map (readCpLong_exact pool) _).congr fun x seg => ?_
    cases x <;> simp
  refine exact_ite (fun hv => ?_) fun n6 => ?_
  · cases eq_of_beq hv
    refine (exact_map (readCpInteger_exact pool) _).congr fun x seg => ?_
    cases x <;> simp
  refine exact_ite (fun hv => ?_) fun n7 => ?_
  · cases eq_of_beq hv
    refine (exact_map (readCpInteger_exact pool) _).congr fun x seg => ?_
    cases x <;> simp
  refine exact_ite (fun hv => ?_) fun n8 => ?_
  · cases eq_of_beq hv
    refine (exact_map (readCpUtf8_exact pool) _).congr fun x seg => ?_
    cases x <;> simp
  refine exact_ite (fun hv => ?_) fun n9 => ?_
  · cases eq_of_beq hv
    refine (Exact.bind (Exact.mapErr (readFieldDescriptor_exact pool) _) fun t => exact_map (readCpUtf8_exact pool) _).congr fun x seg => ?_
    constructor
    · rintro ⟨t, s, s', rfl, h, c, rfl, hc⟩
      exact ⟨rfl, s, s', rfl, h, hc⟩
    · cases x with
      | enumConstant t c =>
        rintro ⟨-, s, s', rfl, h, hc⟩
        exact ⟨t, s, s', rfl, h, c, rfl, hc⟩
      | _ => simp
  refine exact_ite (fun hv => ?_) fun n10 => ?_
  · cases eq_of_beq hv
    refine (Exact.bind (readCpUtf8_exact pool) (G := fun s x seg => seg = [] ∧ IsReturnDescriptor s ∧ x = .classLiteral s)
      fun s => ?_).congr fun x seg => ?_
    · obtain ⟨b, hb, hiff⟩ := isReturnDescriptor_checks s
      refine (Exact.bind (Exact.lift _) fun b => Exact.bind (Exact.failIf _ _) fun _ => Exact.pure _).congr fun x seg => ?_
      constructor
      · rintro ⟨b', s', t, rfl, ⟨h, rfl⟩, _, s2, t2, rfl, ⟨h2, rfl⟩, rfl, rfl⟩
        rw [hb] at h; cases h
        exact ⟨rfl, hiff.mp (by simpa using h2), rfl⟩
      · rintro ⟨rfl, h, rfl⟩
        exact ⟨b, [], [], rfl, ⟨hb, rfl⟩, (), [], [], rfl, ⟨by rw [hiff.mpr h]; rfl, rfl⟩, rfl, rfl⟩
    · constructor
      · rintro ⟨s, s', t, rfl, ⟨i, hi, rfl⟩, rfl, h, rfl⟩
        exact ⟨rfl, i, ⟨hi, h⟩, by simp⟩
      · cases x with
        | classLiteral s =>
          rintro ⟨-, i, ⟨hi, h⟩, rfl⟩
          exact ⟨s, u2 i, [], by simp, ⟨i, hi, rfl⟩, rfl, h, rfl⟩
        | _ => simp
  refine exact_ite (fun hv => ?_) fun n11 => ?_
  · cases eq_of_beq hv
    refine (exact_map (readAnnotationWith_exact pool hrec) _).congr fun x seg => ?_
    cases x <;> simp
  refine exact_ite (fun hv => ?_) fun n12 => ?_
  · cases eq_of_beq hv
    refine (exact_map (Exact.readTable2 fun i => Exact.mapErr hrec _) _).congr fun x seg => ?_
    cases x <;> simp
  · refine Exact.fail.congr fun x seg => ?_
    cases x <;> simp_all

theorem readAnnotationElementValue_exact (pool : Pool) :
    ∀ depth, Exact depth (readAnnotationElementValue pool depth) (ElementValueEnc pool)
  | 0 => exact_diverge
  | depth + 1 => readElementValueWith_exact pool (readAnnotationElementValue_exact pool depth)

theorem readAnnotation_exact (pool : Pool) (depth : Nat) : Exact depth (readAnnotation pool depth) (AnnotationEnc pool) :=
  readAnnotationWith_exact pool (readAnnotationElementValue_exact pool depth)

theorem readAnnotationData_exact (pool : Pool) (depth : Nat) :
    Exact depth (readAnnotationData pool depth) (table2 (AnnotationEnc pool)) :=
  Exact.readTable2 fun _ => Exact.mapErr (readAnnotation_exact pool depth) _

theorem readParameterAnnotationData_exact (pool : Pool) (depth : Nat) :
    Exact depth (readParameterAnnotationData pool depth) (table1 (ParameterAnnotationEnc pool)) := by
  refine Exact.readTable1 fun i => ?_
  unfold readParameterAnnotation
  refine exact_start (exact_last ParameterAnnotation.annotations
    (Exact.readTable2 fun j => Exact.mapErr (readAnnotation_exact pool depth) _) fun b s _ x => ?_)
  cases x; simp

/-! ## Type annotations -/

theorem readLocalVarTarget_exact {N : Nat} : Exact N readLocalVarTarget LocalVarEnc := by
  unfold readLocalVarTarget
  refine exact_start (exact_cat TypeAnnotationLocalVarTargetEntry.startPc Exact.readU2 fun a =>
    exact_cat TypeAnnotationLocalVarTargetEntry.length Exact.readU2 fun b =>
    exact_last TypeAnnotationLocalVarTargetEntry.index Exact.readU2 fun c s _ x => ?_)
  cases x; simp [and_assoc]

theorem byteIn_cat {p : UInt8 → Prop} {v : UInt8} {F : Lang} {seg : Bytes} : (byteIn p ⬝ F) (v :: seg) ↔ p v ∧ F seg := by
  constructor
  · rintro ⟨s, t, h, ⟨b, hb, rfl⟩, hF⟩
    cases h; exact ⟨hb, hF⟩
  · rintro ⟨h, hF⟩; exact ⟨[v], seg, rfl, ⟨v, h, rfl⟩, hF⟩

theorem byteIn_cons {p : UInt8 → Prop} {v : UInt8} {seg : Bytes} : byteIn p (v :: seg) ↔ p v ∧ seg = [] := by
  constructor
  · rintro ⟨b, hb, h⟩; cases h; exact ⟨hb, rfl⟩
  · rintro ⟨h, rfl⟩; exact ⟨v, h, rfl⟩

/-- The encoding of a target, by its target type byte. -/
theorem target_cons {x : TypeAnnotationTarget} {v : UInt8} {seg : Bytes} : TargetEnc x (v :: seg) ↔
    match x with
    | .typeParameter k => (v.toNat = 0x00 ∨ v.toNat = 0x01) ∧ lit (u1 k) seg
    | .supertype k => v.toNat = 0x10 ∧ lit (u2 k) seg
    | .typeParameterBound k l => (v.toNat = 0x11 ∨ v.toNat = 0x12) ∧ (lit (u1 k) ⬝ lit (u1 l)) seg
    | .empty => (0x13 ≤ v.toNat ∧ v.toNat ≤ 0x15) ∧ seg = []
    | .formalParameter k => v.toNat = 0x16 ∧ lit (u1 k) seg
    | .throws k => v.toNat = 0x17 ∧ lit (u2 k) seg
    | .localVar vs => (v.toNat = 0x40 ∨ v.toNat = 0x41) ∧ table2 LocalVarEnc vs seg
    | .catch_ k => v.toNat = 0x42 ∧ lit (u2 k) seg
    | .offset o => (0x43 ≤ v.toNat ∧ v.toNat ≤ 0x46) ∧ lit (u2 o) seg
    | .typeArgument o k => (0x47 ≤ v.toNat ∧ v.toNat ≤ 0x4B) ∧ (lit (u2 o) ⬝ lit (u1 k)) seg := by
  have e : ∀ k : UInt8, v = k ↔ v.toNat = k.toNat := fun k => UInt8.toNat_inj.symm
  have l : ∀ k : UInt8, v ≤ k ↔ v.toNat ≤ k.toNat := fun k => UInt8.le_iff_toNat_le
  have l' : ∀ k : UInt8, k ≤ v ↔ k.toNat ≤ v.toNat := fun k => UInt8.le_iff_toNat_le
  cases x <;> simp only [TargetEnc, byteIn_cat, byteIn_cons, tag_cat, e, l, l'] <;> rfl

theorem byteIn_ne_nil {p : UInt8 → Prop} {s : Bytes} (h : byteIn p s) : s ≠ [] := by
  obtain ⟨b, _, rfl⟩ := h; simp

theorem target_ne_nil {x : TypeAnnotationTarget} {seg : Bytes} (h : TargetEnc x seg) : seg ≠ [] := by
  cases x <;> first | exact tagged_ne_nil h | exact cat_ne_nil_left h (fun _ => byteIn_ne_nil) | exact byteIn_ne_nil h

theorem beq_toNat {v k : UInt8} : (v == k) = true ↔ v.toNat = k.toNat := by rw [beq_iff_eq, UInt8.toNat_inj]

theorem readTypeAnnotationTarget_exact {N : Nat} (i : Nat) (v : UInt8) :
    Exact N (readTypeAnnotationTarget i v) (fun x seg => TargetEnc x (v :: seg)) := by
  unfold readTypeAnnotationTarget
  have hv := v.toNat_lt
  simp only [target_cons, Bool.or_eq_true, Bool.and_eq_true, decide_eq_true_eq, beq_toNat]
  simp only [show (0 : UInt8).toNat = 0 from rfl, show (1 : UInt8).toNat = 1 from rfl, show (16 : UInt8).toNat = 16 from rfl,
    show (17 : UInt8).toNat = 17 from rfl, show (18 : UInt8).toNat = 18 from rfl, show (22 : UInt8).toNat = 22 from rfl,
    show (23 : UInt8).toNat = 23 from rfl, show (64 : UInt8).toNat = 64 from rfl, show (65 : UInt8).toNat = 65 from rfl,
    show (66 : UInt8).toNat = 66 from rfl]
  split
  · refine (exact_map Exact.readU1 _).congr fun x seg => ?_
    cases x <;> simp <;> omega
  split
  · refine (exact_map Exact.readU2 _).congr fun x seg => ?_
    cases x <;> simp <;> omega
  split
  · refine (Exact.bind Exact.readU1 fun a => exact_map Exact.readU1 _).congr fun x seg => ?_
    constructor
    · rintro ⟨a, s, t, rfl, rfl, b, rfl, rfl⟩; exact ⟨by omega, _, _, rfl, rfl, rfl⟩
    · cases x with
      | typeParameterBound a b => rintro ⟨-, s, t, rfl, rfl, rfl⟩; exact ⟨a, _, _, rfl, rfl, b, rfl, rfl⟩
      | _ => simp <;> omega
  split
  · refine (Exact.pure _).congr fun x seg => ?_
    cases x <;> simp <;> omega
  split
  · refine (exact_map Exact.readU1 _).congr fun x seg => ?_
    cases x <;> simp <;> omega
  split
  · refine (exact_map Exact.readU2 _).congr fun x seg => ?_
    cases x <;> simp <;> omega
  split
  · refine (exact_map (Exact.readTable2 fun _ => readLocalVarTarget_exact) _).congr fun x seg => ?_
    cases x <;> simp <;> omega
  split
  · refine (exact_map Exact.readU2 _).congr fun x seg => ?_
    cases x <;> simp <;> omega
  split
  · refine (exact_map Exact.readU2 _).congr fun x seg => ?_
    cases x <;> simp <;> omega
  split
  · refine (Exact.bind Exact.readU2 fun a => exact_map Exact.readU1 _).congr fun x seg => ?_
    constructor
    · rintro ⟨a, s, t, rfl, rfl, b, rfl, rfl⟩; exact ⟨by omega, _, _, rfl, rfl, rfl⟩
    · cases x with
      | typeArgument a b => rintro ⟨-, s, t, rfl, rfl, rfl⟩; exact ⟨a, _, _, rfl, rfl, b, rfl, rfl⟩
      | _ => simp <;> omega
  · refine Exact.failCtx.congr fun x seg => ?_
    cases x <;> simp <;> omega

theorem pathKind_iff (v : UInt8) (k : TypeAnnotationTargetPathKind) : pathKindOf v = some k ↔ v = pathKindByte k := by
  unfold pathKindOf
  constructor
  · intro h
    split at h <;> rename_i hn <;> cases h <;> exact UInt8.toNat_inj.mp (by rw [hn]; rfl)
  · rintro rfl
    cases k <;> rfl

theorem readTargetPathEntry_exact {N : Nat} (i j : Nat) : Exact N (readTargetPathEntry i j) PathEnc := by
  unfold readTargetPathEntry
  refine exact_tag (fun x seg h => lit_ne_nil h) fun v => ?_
  cases hk : pathKindOf v with
  | none =>
    refine Exact.failCtx.congr fun x seg => ?_
    simp only [false_iff]
    intro h
    have h := List.cons.inj (show v :: seg = _ from h)
    rw [(pathKind_iff v x.pathKind).mpr h.1] at hk
    cases hk
  | some k =>
    refine (exact_map Exact.readU1 _).congr fun x seg => ?_
    have hv := (pathKind_iff v k).mp hk
    constructor
    · rintro ⟨a, rfl, rfl⟩; rw [hv]; rfl
    · intro h
      have h := List.cons.inj (show v :: seg = _ from h)
      have := (pathKind_iff v x.pathKind).mpr h.1
      rw [hk] at this; cases this
      exact ⟨x.argumentIndex, by cases x; rfl, h.2⟩

theorem readTypeAnnotation_exact (pool : Pool) (depth i : Nat) :
    Exact depth (readTypeAnnotation pool depth i) (TypeAnnotationEnc pool) := by
  unfold readTypeAnnotation
  rw [P.bind_assoc]
  refine exact_start (exact_cat TypeAnnotation.targetType
    (exact_tag (E := TargetEnc) (fun x seg => target_ne_nil) fun v => readTypeAnnotationTarget_exact i v) fun a =>
    exact_cat TypeAnnotation.targetPath (Exact.readTable1 fun j => readTargetPathEntry_exact i j) fun b =>
    exact_last TypeAnnotation.annotation (Exact.mapErr (readAnnotation_exact pool depth) _) fun c s _ x => ?_)
  cases x; simp [and_assoc]

theorem readTypeAnnotationData_exact (pool : Pool) (depth : Nat) :
    Exact depth (readTypeAnnotationData pool depth) (table2 (TypeAnnotationEnc pool)) :=
  Exact.readTable2 fun i => readTypeAnnotation_exact pool depth i

end Cafebabe
