import Verif.Proofs.Layout
/-!
# Proofs: layouts are unambiguous, and a first fault is a fault
-/

namespace Cafebabe
open Spec

theorem u2_both {a b : UInt16} {s t : Bytes} (h : u2 a ++ s = u2 b ++ t) : a = b ∧ s = t := by
  obtain ⟨h1, h2⟩ := List.append_inj h rfl
  exact ⟨u2_inj h1, h2⟩

mutual
theorem fits_unique {pool : Pool} {p : Part} {s s' r r' : Bytes} (h : Fits pool p s) (h' : Fits pool p s') (he : s ++ r = s' ++ r') : s = s' :=
  match h, h' with
  | .number h1, .number h2 => (List.append_inj he (h1.trans h2.symm)).1
  | .constant (i := i) _, .constant (i := j) _ => by rw [(u2_both he).1]
  | .judged (i := i) _ _, .judged (i := j) _ _ => by rw [(u2_both he).1]
  | .flags (v := i) _, .flags (v := j) _ => by rw [(u2_both he).1]
  | .table1 (n := n) (s := s) h1, .table1 (n := n') (s := s') h2 => by
    have : n = n' := by injection he
    subst this
    rw [allFit_unique (r := r) (r' := r') h1 h2 (by simpa using he)]
  | .table2 (n := n) (s := s) h1, .table2 (n := n') (s := s') h2 => by
    rw [List.append_assoc, List.append_assoc] at he
    obtain ⟨rfl, he'⟩ := u2_both he
    rw [allFit_unique h1 h2 he']
  | .tagged (b := b) hb h1, .tagged (b := b') hb' h2 => by
    simp only [List.cons_append, List.cons.injEq] at he
    obtain ⟨rfl, he⟩ := he
    rw [hb] at hb'
    cases hb'
    rw [allFit_unique h1 h2 he]
  | .within h1, .within h2 => allFit_unique h1 h2 he
  | .elementValue (b := b) hb h1, .elementValue (b := b') hb' h2 => by
    simp only [List.cons_append, List.cons.injEq] at he
    obtain ⟨rfl, he⟩ := he
    rw [hb] at hb'
    cases hb'
    rw [allFit_unique h1 h2 he]

theorem allFit_unique {pool : Pool} {ps : List Part} {s s' r r' : Bytes} (h : AllFit pool ps s) (h' : AllFit pool ps s') (he : s ++ r = s' ++ r') :
    s = s' :=
  match h, h' with
  | .nil, .nil => rfl
  | .cons (s := a) (t := b) h1 h2, .cons (s := a') (t := b') h1' h2' => by
    rw [List.append_assoc, List.append_assoc] at he
    have := fits_unique h1 h1' he
    subst this
    rw [allFit_unique h2 h2' (List.append_cancel_left he)]
end

mutual
theorem faulty_not {pool : Pool} {p : Part} {t s r : Bytes} {e : ParseError} (h : Faulty pool p t e) (he : t = s ++ r) (hf : Fits pool p s) : False :=
  match h, hf with
  | .number h1 _, .number h2 => by subst he; simp [u2] at h1; omega
  | .noIndex h1 _, .constant _ => by subst he; simp [u2] at h1; omega
  | .constant h1 _, .constant h2 => by rw [(u2_both he).1] at h1; exact h1 h2
  | .noJudged h1 _, .judged _ _ => by subst he; simp [u2] at h1; omega
  | .notOk h1 _, .judged h2 _ => by rw [(u2_both he).1] at h1; exact h1 h2
  | .notFine _ h1, .judged _ h2 => by rw [(u2_both he).1] at h1; exact h1 h2
  | .noFlags h1 _, .flags _ => by subst he; simp [u2] at h1; omega
  | .flags h1, .flags h2 => by rw [(u2_both he).1] at h1; exact h1 h2
  | .noCount1 _, .table1 _ => by cases he
  | .table1 (n := n) h1, .table1 (n := n') h2 => by
    have : n = n' := by injection he
    subst this
    exact firstFault_not h1 (r := r) (by simpa using he) h2
  | .noCount2 h1 _, .table2 _ => by subst he; simp [u2] at h1; omega
  | .table2 (n := n) h1, .table2 (n := n') h2 => by
    rw [List.append_assoc] at he
    obtain ⟨rfl, he'⟩ := u2_both he
    exact firstFault_not h1 he' h2
  | .noTag (e := _) _, .tagged _ _ => by cases he
  | .tag (c := _) h1, .tagged h2 _ => by
    simp only [List.cons_append, List.cons.injEq] at he
    rw [he.1, h2] at h1
    cases h1
  | .tagged h1 h1', .tagged h2 h2' => by
    simp only [List.cons_append, List.cons.injEq] at he
    rw [he.1, h2] at h1
    cases h1
    exact firstFault_not h1' he.2 h2'
  | .within h1, .within h2 => firstFault_not h1 he h2
  | .noElementTag _, .elementValue _ _ => by cases he
  | .elementTag h1, .elementValue h2 _ => by
    simp only [List.cons_append, List.cons.injEq] at he
    rw [he.1, h2] at h1
    cases h1
  | .elementValue h1 h1', .elementValue h2 h2' => by
    simp only [List.cons_append, List.cons.injEq] at he
    rw [he.1, h2] at h1
    cases h1
    exact firstFault_not h1' he.2 h2'

theorem firstFault_not {pool : Pool} {ps : List Part} {t s r : Bytes} {e : ParseError} (h : FirstFault pool ps t e) (he : t = s ++ r)
    (hf : AllFit pool ps s) : False :=
  match h with
  | .mk (s := a) (t := b) h1 h2 => by
    obtain ⟨a', b', rfl, h1', h2'⟩ := allFit_split hf
    rw [List.append_assoc] at he
    have := allFit_unique h1 h1' he
    subst this
    have he := List.append_cancel_left he
    cases h2' with
    | cons h3 h4 =>
      rw [List.append_assoc] at he
      exact faulty_not h2 he h3
end

/-! ## The layouts and the formats of the attributes -/

theorem layouts_titles (pool : Pool) (i : Nat) : (layouts pool i).map Prod.fst = ["ConstantValue", "StackMapTable", "Exceptions", "InnerClasses",
    "EnclosingMethod", "Synthetic", "Signature", "SourceFile", "LineNumberTable", "LocalVariableTable", "LocalVariableTypeTable", "Deprecated",
    "RuntimeVisibleAnnotations", "RuntimeInvisibleAnnotations", "RuntimeVisibleParameterAnnotations", "RuntimeInvisibleParameterAnnotations",
    "RuntimeVisibleTypeAnnotations", "RuntimeInvisibleTypeAnnotations", "AnnotationDefault", "BootstrapMethods", "MethodParameters", "Module",
    "ModulePackages", "ModuleMainClass", "NestHost", "NestMembers", "PermittedSubclasses"] := rfl

theorem layouts_unique {pool : Pool} {i : Nat} {title : String} {ps qs : List Part} (h : (title, ps) ∈ layouts pool i) (h' : (title, qs) ∈ layouts pool i) :
    ps = qs := by
  have hn : ((layouts pool i).map Prod.fst).Nodup := by
    rw [layouts_titles]
    decide
  have := List.inj_on_of_nodup_map hn h h' rfl
  cases this
  rfl

theorem layouts_kind {pool : Pool} {i : Nat} {title : String} {ps : List Part} (h : (title, ps) ∈ layouts pool i) :
    ∃ k, kindName k = some title.toList ∧ k ≠ .code ∧ k ≠ .record ∧ k ≠ .sourceDebugExtension := by
  have := List.mem_map_of_mem (f := Prod.fst) h
  rw [layouts_titles] at this
  simp only [List.mem_cons, List.not_mem_nil, or_false] at this
  have key : ∀ k : AttrKind, kindName k = some title.toList → k ≠ .code → k ≠ .record → k ≠ .sourceDebugExtension →
    ∃ k, kindName k = some title.toList ∧ k ≠ .code ∧ k ≠ .record ∧ k ≠ .sourceDebugExtension := fun k a b c d => ⟨k, a, b, c, d⟩
  rcases this with rfl | rfl | rfl | rfl | rfl | rfl | rfl | rfl | rfl | rfl | rfl | rfl | rfl | rfl | rfl | rfl | rfl | rfl | rfl | rfl | rfl | rfl |
    rfl | rfl | rfl | rfl | rfl
  · exact key .constantValue rfl nofun nofun nofun
  · exact key .stackMapTable rfl nofun nofun nofun
  · exact key .exceptions rfl nofun nofun nofun
  · exact key .innerClasses rfl nofun nofun nofun
  · exact key .enclosingMethod rfl nofun nofun nofun
  · exact key .synthetic rfl nofun nofun nofun
  · exact key .signature rfl nofun nofun nofun
  · exact key .sourceFile rfl nofun nofun nofun
  · exact key .lineNumberTable rfl nofun nofun nofun
  · exact key .localVariableTable rfl nofun nofun nofun
  · exact key .localVariableTypeTable rfl nofun nofun nofun
  · exact key .deprecated rfl nofun nofun nofun
  · exact key .runtimeVisibleAnnotations rfl nofun nofun nofun
  · exact key .runtimeInvisibleAnnotations rfl nofun nofun nofun
  · exact key .runtimeVisibleParameterAnnotations rfl nofun nofun nofun
  · exact key .runtimeInvisibleParameterAnnotations rfl nofun nofun nofun
  · exact key .runtimeVisibleTypeAnnotations rfl nofun nofun nofun
  · exact key .runtimeInvisibleTypeAnnotations rfl nofun nofun nofun
  · exact key .annotationDefault rfl nofun nofun nofun
  · exact key .bootstrapMethods rfl nofun nofun nofun
  · exact key .methodParameters rfl nofun nofun nofun
  · exact key .moduleAttr rfl nofun nofun nofun
  · exact key .modulePackages rfl nofun nofun nofun
  · exact key .moduleMainClass rfl nofun nofun nofun
  · exact key .nestHost rfl nofun nofun nofun
  · exact key .nestMembers rfl nofun nofun nofun
  · exact key .permittedSubclasses rfl nofun nofun nofun

theorem fixed_unique {title : String} {m m' : Nat} (h : (title, m) ∈ fixedLengths) (h' : (title, m') ∈ fixedLengths) : m = m' := by
  have hn : (fixedLengths.map Prod.fst).Nodup := by decide
  have := List.inj_on_of_nodup_map hn h h' rfl
  cases this
  rfl

/-- The layout of an attribute describes the contents that can be read. -/
theorem parts_iff (o : Opts) {pool : Pool} {i : Nat} {title : String} {parts : List Part} (h : (title, parts) ∈ layouts pool i) (s : Bytes) :
    (∃ d, DataEnc o pool title.toList d s) ↔ AllFit pool parts s := by
  obtain ⟨k, hk, k1, k2, k3⟩ := layouts_kind h
  let N := s.length + 1
  let env := envOf o N
  have hopts : env.opts = o := rfl
  have hkind : attrKindOf title.toList = k := (attrKindOf_iff _ _).mpr (.inl hk)
  have base : ∀ n : Nat, LayoutOf N pool i title.toList n (readAttributeData env N (readAttributes env pool N) pool i n k) ∧
      ReadsData o pool N n title.toList (readAttributeData env N (readAttributes env pool N) pool i n k) := by
    intro n
    refine ⟨data_layout env (Nat.le_refl _) _ pool i n title.toList k hk k1 k2 k3, ?_⟩
    have := readAttributeData_reads (env := env) (pool := pool) (Nat.le_refl N) (readAttributes_exact env pool N) i n title.toList
    rwa [hkind, hopts] at this
  have go : ∀ n : Nat, (∀ m, (title, m) ∈ fixedLengths → n = m) →
      Follows N pool (readAttributeData env N (readAttributes env pool N) pool i n k) parts := by
    intro n hn
    obtain ⟨title', parts', ht, hm, hf, -⟩ := (base n).1
    have : title = title' := String.toList_inj.mp ht
    subst this
    rw [layouts_unique h hm]
    exact hf hn
  constructor
  · rintro ⟨d, hd⟩
    obtain ⟨title', parts', ht, hm, -, hl⟩ := (base s.length).1
    obtain ⟨S, hS, h1, -⟩ := (base s.length).2
    have : title = title' := String.toList_inj.mp ht
    subst this
    have hok := (hS s 0 (Nat.zero_le _) (by omega) d s.length).mpr ⟨s, [], by simp, (h1 d s rfl).mpr hd, by simp⟩
    by_cases hn : ∀ m, (title, m) ∈ fixedLengths → s.length = m
    · obtain ⟨t, rest, ht, hlen, hfit⟩ := ((go s.length hn).1 s 0 (Nat.zero_le _)).1 d s.length hok
      rw [List.drop_zero] at ht
      have : rest = [] := by
        have := congrArg List.length ht
        rw [List.length_append] at this
        exact List.length_eq_zero_iff.mp (by omega)
      subst this
      rw [List.append_nil] at ht
      rwa [ht]
    · simp only [not_forall] at hn
      obtain ⟨m, hm', hne⟩ := hn
      rw [hl m hm' hne] at hok
      cases hok
  · intro hfit
    obtain ⟨n, hn⟩ : ∃ n, ∀ m, (title, m) ∈ fixedLengths → n = m := by
      by_cases hx : ∃ m, (title, m) ∈ fixedLengths
      · obtain ⟨m, hm⟩ := hx
        exact ⟨m, fun m' hm' => fixed_unique hm hm'⟩
      · exact ⟨0, fun m hm => absurd ⟨m, hm⟩ hx⟩
    obtain ⟨d, hd⟩ := (go n hn).2.1 s 0 (Nat.zero_le _) (by omega) s [] (by simp) hfit
    obtain ⟨S, hS, -, h2⟩ := (base n).2
    obtain ⟨t, rest, ht, hSd, hlen⟩ := (hS s 0 (Nat.zero_le _) (by omega) d _).mp hd
    rw [List.drop_zero] at ht
    have : rest = [] := by
      have := congrArg List.length ht
      rw [List.length_append] at this
      exact List.length_eq_zero_iff.mp (by omega)
    subst this
    rw [List.append_nil] at ht
    rw [ht]
    exact ⟨d, h2 d t hSd⟩

end Cafebabe
