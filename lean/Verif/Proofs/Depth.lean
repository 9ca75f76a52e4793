import Verif.Spec.Depth
import Verif.Proofs.Front
/-!
# Proofs: a run with recursion budget `d` returns nothing nested deeper than `d`
-/

namespace Cafebabe
open Spec

/-- Whatever the reader returns satisfies `Q`. -/
def Post {α : Type} (p : P α) (Q : α → Prop) : Prop := ∀ bytes ix a ix', p bytes ix = .ok (a, ix') → Q a

theorem Post.any {α : Type} (p : P α) : Post p fun _ => True := fun _ _ _ _ _ => trivial

theorem Post.pure {α : Type} {a : α} {Q : α → Prop} (h : Q a) : Post (Pure.pure a : P α) Q := by
  intro bytes ix b ix' he
  cases he; exact h

theorem Post.bind {α β : Type} {p : P α} {f : α → P β} {Q : α → Prop} {R : β → Prop} (h : Post p Q) (hf : ∀ a, Q a → Post (f a) R) :
    Post (p >>= f) R := by
  intro bytes ix b ix' he
  obtain ⟨a, ix1, h1, h2⟩ := P.bind_ok.mp he
  exact hf a (h _ _ _ _ h1) _ _ _ _ h2

theorem Post.seq {α β : Type} {p : P α} {f : α → P β} {R : β → Prop} (hf : ∀ a, Post (f a) R) : Post (p >>= f) R :=
  Post.bind (Post.any p) fun a _ => hf a

theorem Post.mapErr {α : Type} {p : P α} {Q : α → Prop} {c : String} (h : Post p Q) : Post (p.mapErr c) Q := by
  intro bytes ix a ix' he
  refine h bytes ix a ix' ?_
  unfold P.mapErr at he
  cases hp : p bytes ix with
  | ok x => rw [hp] at he; exact he
  | err e => rw [hp] at he; cases he
  | panic k => rw [hp] at he; cases he
  | diverge => rw [hp] at he; cases he

theorem Post.fail {α : Type} {m : String} {Q : α → Prop} : Post (P.fail m : P α) Q := fun _ _ _ _ h => by cases h

theorem Post.ite {α : Type} {c : Prop} {inst : Decidable c} {p q : P α} {Q : α → Prop} (h : Post p Q) (h' : Post q Q) :
    Post (if c then p else q) Q := by
  split <;> assumption

theorem Post.forRangeFrom {α : Type} {f : Nat → P α} {Q : α → Prop} (h : ∀ i, Post (f i) Q) : ∀ n i, Post (P.forRangeFrom f i n) fun l => ∀ a ∈ l, Q a
  | 0, _ => Post.pure (by simp)
  | n + 1, i => Post.bind (h i) fun a ha => Post.bind (Post.forRangeFrom h n (i + 1)) fun l hl => Post.pure (by
      intro b hb
      rcases List.mem_cons.mp hb with rfl | hb
      · exact ha
      · exact hl b hb)

theorem Post.readTable2 {α : Type} {f : Nat → P α} {Q : α → Prop} (h : ∀ i, Post (f i) Q) : Post (readTable2 f) fun l => ∀ a ∈ l, Q a :=
  Post.seq fun _ => Post.forRangeFrom h _ _

theorem Post.readTable1 {α : Type} {f : Nat → P α} {Q : α → Prop} (h : ∀ i, Post (f i) Q) : Post (readTable1 f) fun l => ∀ a ∈ l, Q a :=
  Post.seq fun _ => Post.forRangeFrom h _ _

theorem Post.mono {α : Type} {p : P α} {Q R : α → Prop} (h : Post p Q) (hi : ∀ a, Q a → R a) : Post p R :=
  fun _ _ _ _ he => hi _ (h _ _ _ _ he)

theorem largest_le {l : List Nat} {d : Nat} (h : ∀ x ∈ l, x ≤ d) : largest l ≤ d := by
  induction l with
  | nil => exact Nat.zero_le _
  | cons x xs ih =>
    have := ih fun y hy => h y (List.mem_cons_of_mem _ hy)
    have := h x List.mem_cons_self
    unfold largest; omega

theorem le_largest {l : List Nat} {x : Nat} (h : x ∈ l) : x ≤ largest l := by
  induction l with
  | nil => cases h
  | cons y ys ih =>
    unfold largest
    rcases List.mem_cons.mp h with rfl | h
    · omega
    · have := ih h; omega

theorem largest_map_le {α : Type} {f : α → Nat} {l : List α} {d : Nat} (h : ∀ x ∈ l, f x ≤ d) : largest (l.map f) ≤ d := by
  refine largest_le fun x hx => ?_
  obtain ⟨a, ha, rfl⟩ := List.mem_map.mp hx
  exact h a ha

theorem valuesNesting_eq : ∀ vs, valuesNesting vs = largest (vs.map valueNesting)
  | [] => rfl
  | v :: vs => by rw [valuesNesting, valuesNesting_eq vs]; rfl

theorem elementsNesting_eq : ∀ vs, elementsNesting vs = largest (vs.map fun e => valueNesting e.value)
  | [] => rfl
  | ⟨_, v⟩ :: vs => by rw [elementsNesting, elementsNesting_eq vs]; rfl

theorem attrsNesting_eq : ∀ as, attrsNesting as = largest (as.map fun a => dataNesting a.data)
  | [] => rfl
  | ⟨_, v⟩ :: vs => by rw [attrsNesting, attrsNesting_eq vs]; rfl

theorem componentsNesting_eq : ∀ cs, componentsNesting cs = largest (cs.map fun c => attrsNesting c.attributes + 1)
  | [] => rfl
  | ⟨_, _, v⟩ :: vs => by rw [componentsNesting, componentsNesting_eq vs]; rfl

theorem readAnnotationWith_post {rec : P AnnotationElementValue} {pool : Pool} {d : Nat} (h : Post rec fun v => valueNesting v ≤ d) :
    Post (readAnnotationWith rec pool) fun a => annotationNesting a ≤ d := by
  unfold readAnnotationWith
  refine Post.seq fun t => Post.bind (Post.readTable2 (Q := fun e => valueNesting e.value ≤ d) fun i => ?_) fun l hl => Post.pure ?_
  · unfold readAnnotationElementWith
    exact Post.seq fun n => Post.bind h.mapErr fun v hv => Post.pure hv
  · rw [annotationNesting, elementsNesting_eq]
    exact largest_map_le hl

theorem readAnnotationElementValue_post (pool : Pool) : ∀ d, Post (readAnnotationElementValue pool d) fun v => valueNesting v ≤ d
  | 0 => fun _ _ _ _ h => by cases h
  | d + 1 => by
    have ih := readAnnotationElementValue_post pool d
    unfold readAnnotationElementValue readElementValueWith
    refine Post.seq fun v => ?_
    unfold readElementValueBody
    have leaf : ∀ {x : AnnotationElementValue}, valueNesting x = 1 → valueNesting x ≤ d + 1 := fun h => by omega
    refine Post.ite (Post.seq fun x => Post.pure (leaf (by rw [valueNesting]; all_goals simp))) ?_
    refine Post.ite (Post.seq fun x => Post.pure (leaf (by rw [valueNesting]; all_goals simp))) ?_
    refine Post.ite (Post.seq fun x => Post.pure (leaf (by rw [valueNesting]; all_goals simp))) ?_
    refine Post.ite (Post.seq fun x => Post.pure (leaf (by rw [valueNesting]; all_goals simp))) ?_
    refine Post.ite (Post.seq fun x => Post.pure (leaf (by rw [valueNesting]; all_goals simp))) ?_
    refine Post.ite (Post.seq fun x => Post.pure (leaf (by rw [valueNesting]; all_goals simp))) ?_
    refine Post.ite (Post.seq fun x => Post.pure (leaf (by rw [valueNesting]; all_goals simp))) ?_
    refine Post.ite (Post.seq fun x => Post.pure (leaf (by rw [valueNesting]; all_goals simp))) ?_
    refine Post.ite (Post.seq fun x => Post.pure (leaf (by rw [valueNesting]; all_goals simp))) ?_
    refine Post.ite (Post.seq fun x => Post.seq fun y => Post.pure (leaf (by rw [valueNesting]; all_goals simp))) ?_
    refine Post.ite (Post.seq fun x => Post.seq fun y => Post.seq fun z => Post.pure (leaf (by rw [valueNesting]; all_goals simp))) ?_
    refine Post.ite (Post.bind (readAnnotationWith_post ih) fun a ha => Post.pure (by rw [valueNesting]; omega)) ?_
    refine Post.ite (Post.bind (Post.readTable2 fun i => ih.mapErr) fun vs hvs => Post.pure ?_) Post.fail
    rw [valueNesting, valuesNesting_eq]
    have := largest_map_le hvs
    omega

theorem readAnnotation_post (pool : Pool) (d : Nat) : Post (readAnnotation pool d) fun a => annotationNesting a ≤ d :=
  readAnnotationWith_post (readAnnotationElementValue_post pool d)

theorem readAnnotationData_post (pool : Pool) (d : Nat) : Post (readAnnotationData pool d) fun l => largest (l.map annotationNesting) ≤ d :=
  (Post.readTable2 fun _ => (readAnnotation_post pool d).mapErr).mono fun _ h => largest_map_le h

theorem readParameterAnnotationData_post (pool : Pool) (d : Nat) :
    Post (readParameterAnnotationData pool d) fun l => largest (l.map fun p => largest (p.annotations.map annotationNesting)) ≤ d := by
  refine (Post.readTable1 (Q := fun p : ParameterAnnotation => largest (p.annotations.map annotationNesting) ≤ d) fun i => ?_).mono
    fun _ h => largest_map_le h
  exact Post.bind (Post.readTable2 fun _ => (readAnnotation_post pool d).mapErr) fun l hl => Post.pure (largest_map_le hl)

theorem readTypeAnnotationData_post (pool : Pool) (d : Nat) :
    Post (readTypeAnnotationData pool d) fun l => largest (l.map fun t => annotationNesting t.annotation) ≤ d := by
  refine (Post.readTable2 (Q := fun t : TypeAnnotation => annotationNesting t.annotation ≤ d) fun i => ?_).mono fun _ h => largest_map_le h
  unfold readTypeAnnotation
  exact Post.seq fun _ => Post.seq fun _ => Post.seq fun _ => Post.bind (readAnnotation_post pool d).mapErr fun a ha => Post.pure ha

theorem readAttributeData_post {env : Env} {d : Nat} {rec : P (List AttributeInfo)} {pool : Pool} (h : Post rec fun as => attrsNesting as + 1 ≤ d)
    (i length : Nat) (k : AttrKind) : Post (readAttributeData env d rec pool i length k) fun x => dataNesting x ≤ d := by
  have zero : ∀ {x : AttributeData}, dataNesting x = 0 → dataNesting x ≤ d := fun h => by omega
  unfold readAttributeData
  cases k <;> dsimp only
  case code =>
    refine Post.bind (Q := fun c => codeNesting c ≤ d) (Post.mapErr ?_) fun c hc => Post.pure (by rw [dataNesting]; exact hc)
    unfold readCodeDataWith
    exact Post.seq fun _ => Post.seq fun _ => Post.seq fun _ => Post.seq fun _ => Post.seq fun _ => Post.seq fun _ =>
      Post.bind h.mapErr fun as has => Post.ite
        (Post.seq fun _ => Post.seq fun _ => Post.pure (by rw [codeNesting]; exact has))
        (Post.seq fun _ => Post.pure (by rw [codeNesting]; exact has))
  case record =>
    refine Post.bind (Q := fun l => componentsNesting l ≤ d) (Post.mapErr ?_) fun c hc => Post.pure (by rw [dataNesting]; exact hc)
    refine (Post.readTable2 (Q := fun c : RecordComponentEntry => attrsNesting c.attributes + 1 ≤ d) fun i => ?_).mono fun l hl => by
      rw [componentsNesting_eq]; exact largest_map_le hl
    unfold readRecordComponentWith
    exact Post.seq fun _ => Post.seq fun _ => Post.seq fun _ => Post.bind h.mapErr fun as has => Post.pure has
  case runtimeVisibleAnnotations => exact Post.bind (readAnnotationData_post pool d).mapErr fun c hc => Post.pure (by rw [dataNesting]; exact hc)
  case runtimeInvisibleAnnotations => exact Post.bind (readAnnotationData_post pool d).mapErr fun c hc => Post.pure (by rw [dataNesting]; exact hc)
  case runtimeVisibleParameterAnnotations =>
    exact Post.bind (readParameterAnnotationData_post pool d).mapErr fun c hc => Post.pure (by rw [dataNesting]; exact hc)
  case runtimeInvisibleParameterAnnotations =>
    exact Post.bind (readParameterAnnotationData_post pool d).mapErr fun c hc => Post.pure (by rw [dataNesting]; exact hc)
  case runtimeVisibleTypeAnnotations =>
    exact Post.bind (readTypeAnnotationData_post pool d).mapErr fun c hc => Post.pure (by rw [dataNesting]; exact hc)
  case runtimeInvisibleTypeAnnotations =>
    exact Post.bind (readTypeAnnotationData_post pool d).mapErr fun c hc => Post.pure (by rw [dataNesting]; exact hc)
  case annotationDefault =>
    exact Post.bind (readAnnotationElementValue_post pool d).mapErr fun c hc => Post.pure (by rw [dataNesting]; exact hc)
  case sourceDebugExtension =>
    refine Post.seq fun b => ?_
    cases env.decode b with
    | some s => exact Post.pure (zero (by rw [dataNesting]; all_goals simp))
    | none => exact Post.mapErr Post.fail
  all_goals
    first
    | exact Post.seq fun _ => Post.pure (zero (by rw [dataNesting]; all_goals simp))
    | exact Post.seq fun _ => Post.seq fun _ => Post.pure (zero (by rw [dataNesting]; all_goals simp))
    | exact Post.seq fun _ => Post.seq fun _ => Post.seq fun _ => Post.pure (zero (by rw [dataNesting]; all_goals simp))

theorem readAttributes_post (env : Env) (pool : Pool) : ∀ d, Post (readAttributes env pool d) fun as => attrsNesting as + 1 ≤ d
  | 0 => fun _ _ _ _ h => by cases h
  | d + 1 => by
    have ih := readAttributes_post env pool d
    unfold readAttributes
    refine (Post.readTable2 (Q := fun a : AttributeInfo => dataNesting a.data ≤ d) fun i => ?_).mono fun l hl => by
      have := largest_map_le hl
      rw [attrsNesting_eq]; omega
    unfold readAttributeWith
    exact Post.seq fun _ => Post.seq fun _ => Post.seq fun _ => Post.bind (readAttributeData_post ih _ _ _) fun x hx => Post.seq fun _ =>
      Post.ite Post.fail (Post.pure hx)

theorem readFieldsFrom_post (env : Env) (pool : Pool) : ∀ n seen i,
    Post (readFieldsFrom env pool seen i n) fun fs => ∀ f ∈ fs, attrsNesting f.attributes + 1 ≤ env.depth
  | 0, _, _ => Post.pure (by simp)
  | n + 1, seen, i => by
    have ih := readFieldsFrom_post env pool n
    have ha := readAttributes_post env pool env.depth
    unfold readFieldsFrom
    refine Post.bind (Q := fun f : FieldInfo => attrsNesting f.attributes + 1 ≤ env.depth) ?_ fun f hf => Post.bind (ih _ _) fun fs hfs => Post.pure (by
      intro g hg
      rcases List.mem_cons.mp hg with rfl | hg
      · exact hf
      · exact hfs g hg)
    unfold readField
    exact Post.seq fun _ => Post.seq fun _ => Post.seq fun _ => Post.seq fun _ => Post.seq fun _ => Post.seq fun _ =>
      Post.bind ha.mapErr fun as has => Post.pure has

theorem readMethodsFrom_post (env : Env) (pool : Pool) (ii : Bool) (major : UInt16) : ∀ n seen i,
    Post (readMethodsFrom env pool ii major seen i n) fun fs => ∀ f ∈ fs, attrsNesting f.attributes + 1 ≤ env.depth
  | 0, _, _ => Post.pure (by simp)
  | n + 1, seen, i => by
    have ih := readMethodsFrom_post env pool ii major n
    have ha := readAttributes_post env pool env.depth
    unfold readMethodsFrom
    refine Post.bind (Q := fun f : MethodInfo => attrsNesting f.attributes + 1 ≤ env.depth) ?_ fun f hf => Post.bind (ih _ _) fun fs hfs => Post.pure (by
      intro g hg
      rcases List.mem_cons.mp hg with rfl | hg
      · exact hf
      · exact hfs g hg)
    unfold readMethod
    dsimp only
    exact Post.seq fun _ => Post.seq fun _ => Post.seq fun _ => Post.seq fun _ => Post.seq fun _ => Post.seq fun _ => Post.seq fun _ => Post.seq fun _ =>
      Post.bind ha.mapErr fun as has => Post.pure has

theorem readClassFile_post (env : Env) : Post (readClassFile env) fun cf => nesting cf ≤ env.depth := by
  have ha := fun pool => readAttributes_post env pool env.depth
  unfold readClassFile
  refine Post.seq fun _ => Post.seq fun _ => Post.seq fun _ => Post.seq fun major => Post.seq fun pool => Post.seq fun bits => Post.seq fun _ =>
    Post.seq fun _ => Post.seq fun _ => Post.seq fun _ => ?_
  refine Post.bind (Post.seq fun _ => readFieldsFrom_post env pool _ _ _) fun fs hfs =>
    Post.bind (Post.seq fun _ => readMethodsFrom_post env pool _ _ _ _ _) fun ms hms =>
    Post.bind (ha pool).mapErr fun as has => Post.seq fun _ => Post.seq fun _ => Post.seq fun _ => Post.pure ?_
  have h1 : largest (fs.map fun f => attrsNesting f.attributes) ≤ env.depth - 1 := largest_map_le fun f hf => by have := hfs f hf; omega
  have h2 : largest (ms.map fun f => attrsNesting f.attributes) ≤ env.depth - 1 := largest_map_le fun f hf => by have := hms f hf; omega
  unfold nesting
  dsimp only
  omega

theorem run_nesting {o : Opts} {d : Nat} {bytes : Bytes} {cf : ClassFile} (h : run o d bytes = .ok cf) : nesting cf ≤ d := by
  rw [run_eq] at h
  cases hr : readClassFile (envOf o d) bytes 0 with
  | ok x => rw [hr] at h; cases h; exact readClassFile_post (envOf o d) bytes 0 x.1 x.2 hr
  | err e => rw [hr] at h; cases h
  | panic k => rw [hr] at h; cases h
  | diverge => rw [hr] at h; cases h

end Cafebabe
