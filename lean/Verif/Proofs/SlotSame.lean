import Verif.Proofs.Slots
/-!
# Proofs: over one pool, corresponding results are equal
-/

namespace Cafebabe
open Spec

/-- A slot stands for at most one thing. -/
def Single {α : Type} (F : Pool → Nat → α → Prop) : Prop := ∀ (pool : Pool) (i : Nat) (a b : α), F pool i a → F pool i b → a = b

theorem Single.both {α : Type} {F : Pool → Nat → α → Prop} (h : Single F) {pool : Pool} {a b : α} (hb : Both (pool, pool) F a b) : a = b := by
  obtain ⟨i, h1, h2⟩ := hb
  exact h pool i a b h1 h2

theorem single_text : Single TextAt := by
  intro pool i a b h h'
  unfold TextAt at h h'; rw [h] at h'; cases h'; rfl

theorem single_class : Single ClassAt := by
  rintro pool i a b ⟨x, h, k⟩ ⟨y, h', k'⟩
  rw [h] at h'; cases h'; exact single_text pool x a b k k'

theorem single_module : Single ModuleAt := by
  rintro pool i a b ⟨x, h, k⟩ ⟨y, h', k'⟩
  rw [h] at h'; cases h'; exact single_text pool x a b k k'

theorem single_package : Single PackageAt := by
  rintro pool i a b ⟨x, h, k⟩ ⟨y, h', k'⟩
  rw [h] at h'; cases h'; exact single_text pool x a b k k'

theorem single_methodType : Single MethodTypeAt := by
  rintro pool i a b ⟨x, h, k⟩ ⟨y, h', k'⟩
  rw [h] at h'; cases h'; exact single_text pool x a b k k'

theorem single_nameAndType : Single NameAndTypeAt := by
  rintro pool i ⟨a, b⟩ ⟨c, d⟩ ⟨x, y, h, k, l⟩ ⟨x', y', h', k', l'⟩
  rw [h] at h'; cases h'
  have e1 : a = c := single_text pool x _ _ k k'
  have e2 : b = d := single_text pool y _ _ l l'
  rw [e1, e2]

theorem single_literal : Single LiteralAt := by
  intro pool i a b h h'
  cases a <;> cases b <;> simp only [LiteralAt] at h h'
  all_goals first
    | (rw [h] at h'; cases h'; rfl)
    | (rw [h] at h'; cases h'; done)
    | (obtain ⟨x, h, k⟩ := h; obtain ⟨y, h', k'⟩ := h'; rw [h] at h'; cases h'; rw [k] at k'; cases k'; rfl)
    | (obtain ⟨x, h, k⟩ := h; obtain ⟨y, h', k'⟩ := h'; rw [h] at h'; cases h'; rw [k] at k'; cases k'; done)
    | (obtain ⟨x, h, k⟩ := h; rw [h] at h'; cases h'; done)
    | (obtain ⟨x, h', k⟩ := h'; rw [h] at h'; cases h'; done)

theorem single_member {pool : Pool} {c n : Nat} {a b : MemberRef} (h : MemberOf pool c n a) (h' : MemberOf pool c n b) : a = b := by
  obtain ⟨x, y⟩ := a
  obtain ⟨x', y'⟩ := b
  have e1 : x = x' := single_class pool c _ _ h.1 h'.1
  have e2 : y = y' := single_nameAndType pool n _ _ h.2 h'.2
  rw [e1, e2]

theorem single_fieldRef : Single FieldRefAt := by
  rintro pool i a b ⟨c, n, h, k⟩ ⟨c', n', h', k'⟩
  rw [h] at h'; cases h'; exact single_member k k'

theorem single_methodRef : Single MethodRefAt := by
  rintro pool i a b ⟨c, n, h, k⟩ ⟨c', n', h', k'⟩
  rw [h] at h'; cases h'; exact single_member k k'

theorem single_interfaceMethodRef : Single InterfaceMethodRefAt := by
  rintro pool i a b ⟨c, n, h, k⟩ ⟨c', n', h', k'⟩
  rw [h] at h'; cases h'; exact single_member k k'

theorem single_anyMethod : Single AnyMethodAt := by
  rintro pool i a b (h | h) (h' | h')
  · exact single_methodRef pool i a b h h'
  · obtain ⟨c, n, h, -⟩ := h; obtain ⟨c', n', h', -⟩ := h'; rw [h] at h'; cases h'
  · obtain ⟨c, n, h, -⟩ := h; obtain ⟨c', n', h', -⟩ := h'; rw [h] at h'; cases h'
  · exact single_interfaceMethodRef pool i a b h h'

theorem single_invokeDynamic : Single InvokeDynamicAt := by
  rintro pool i ⟨a, b⟩ ⟨c, d⟩ ⟨x, h, k⟩ ⟨y, h', k'⟩
  rw [h] at h'; cases h'
  have e : b = d := single_nameAndType pool x _ _ k k'
  rw [e]

theorem single_dynamic : Single DynamicAt := by
  rintro pool i ⟨a, b⟩ ⟨c, d⟩ ⟨x, h, k⟩ ⟨y, h', k'⟩
  rw [h] at h'; cases h'
  have e : b = d := single_nameAndType pool x _ _ k k'
  rw [e]

theorem single_memberRef {pool : Pool} {i : Nat} {k k' : MemberKind} {a b : MemberRef} (h : MemberRefAt pool i k a) (h' : MemberRefAt pool i k' b) :
    k = k' ∧ a = b := by
  cases k <;> cases k' <;> simp only [MemberRefAt] at h h'
  all_goals (obtain ⟨c, n, h, m⟩ := h; obtain ⟨c', n', h', m'⟩ := h'; rw [h] at h'; cases h')
  all_goals exact ⟨rfl, single_member m m'⟩

theorem single_methodHandle : Single MethodHandleAt := by
  rintro pool i ⟨a, b, c, d⟩ ⟨a', b', c', d'⟩ ⟨m, h, k⟩ ⟨m', h', k'⟩
  rw [h] at h'; cases h'
  obtain ⟨e1, e2⟩ := single_memberRef k k'
  cases e2
  cases e1
  rfl

theorem literal_entry {pool : Pool} {i : Nat} {c : LiteralConstant} (h : LiteralAt pool i c) :
    ∃ e, pool[i]? = some e ∧ (∀ x, e ≠ .classInfo x) ∧ (∀ k x, e ≠ .methodHandle k x) ∧ (∀ x, e ≠ .methodType x) ∧ ∀ x y, e ≠ .dynamic x y := by
  cases c <;> simp only [LiteralAt] at h
  all_goals first
    | exact ⟨_, h, by simp, by simp, by simp, by simp⟩
    | (obtain ⟨x, h, -⟩ := h; exact ⟨_, h, by simp, by simp, by simp, by simp⟩)

theorem single_loadable : Single LoadableAt := by
  intro pool i a b h h'
  cases a <;> cases b <;> simp only [LoadableAt] at h h'
  case literalConstant.literalConstant => rw [single_literal pool i _ _ h h']
  case classInfo.classInfo => rw [single_class pool i _ _ h h']
  case methodHandle.methodHandle => rw [single_methodHandle pool i _ _ h h']
  case methodType.methodType => rw [single_methodType pool i _ _ h h']
  case dynamic.dynamic => rw [single_dynamic pool i _ _ h h']
  all_goals exfalso
  all_goals first
    | (obtain ⟨e, he, h1, h2, h3, h4⟩ := literal_entry h; obtain ⟨x, hx, -⟩ := h'; rw [he] at hx; cases hx; first | exact h1 _ rfl | exact h2 _ _ rfl | exact h3 _ rfl | exact h4 _ _ rfl)
    | (obtain ⟨e, he, h1, h2, h3, h4⟩ := literal_entry h'; obtain ⟨x, hx, -⟩ := h; rw [he] at hx; cases hx; first | exact h1 _ rfl | exact h2 _ _ rfl | exact h3 _ rfl | exact h4 _ _ rfl)
    | (obtain ⟨x, hx, -⟩ := h; obtain ⟨y, hy, -⟩ := h'; rw [hx] at hy; cases hy)

theorem single_bootstrapArgument : Single BootstrapArgumentAt := by
  intro pool i a b h h'
  cases a <;> cases b <;> simp only [BootstrapArgumentAt] at h h'
  case literalConstant.literalConstant => rw [single_literal pool i _ _ h h']
  case classInfo.classInfo => rw [single_class pool i _ _ h h']
  case methodHandle.methodHandle => rw [single_methodHandle pool i _ _ h h']
  case methodType.methodType => rw [single_methodType pool i _ _ h h']
  all_goals exfalso
  all_goals first
    | (obtain ⟨e, he, h1, h2, h3, h4⟩ := literal_entry h; obtain ⟨x, hx, -⟩ := h'; rw [he] at hx; cases hx; first | exact h1 _ rfl | exact h2 _ _ rfl | exact h3 _ rfl)
    | (obtain ⟨e, he, h1, h2, h3, h4⟩ := literal_entry h'; obtain ⟨x, hx, -⟩ := h; rw [he] at hx; cases hx; first | exact h1 _ rfl | exact h2 _ _ rfl | exact h3 _ rfl)
    | (obtain ⟨x, hx, -⟩ := h; obtain ⟨y, hy, -⟩ := h'; rw [hx] at hy; cases hy)

theorem fieldPrefix_single {s : Str} {d e : FieldDescriptor} (h : FieldPrefix d s) (h' : FieldPrefix e s) : d = e := by
  have h1 := (parseFieldDescriptor_zero s).1 d |>.mpr h
  have h2 := (parseFieldDescriptor_zero s).1 e |>.mpr h'
  rw [h1] at h2; cases h2; rfl

theorem methodPrefix_single {s : Str} {d e : MethodDescriptor} (h : MethodPrefix d s) (h' : MethodPrefix e s) : d = e := by
  have h1 := (parseMethodDescriptor_decides s).1 d |>.mpr h
  have h2 := (parseMethodDescriptor_decides s).1 e |>.mpr h'
  rw [h1] at h2; cases h2; rfl

theorem single_fieldDescriptor : Single FieldDescriptorAt := by
  rintro pool i a b ⟨s, h, k⟩ ⟨t, h', k'⟩
  have e := single_text pool i _ _ h h'
  subst e
  exact fieldPrefix_single k k'

theorem single_methodDescriptor : Single MethodDescriptorAt := by
  rintro pool i a b ⟨s, h, k⟩ ⟨t, h', k'⟩
  have e := single_text pool i _ _ h h'
  subst e
  exact methodPrefix_single k k'

theorem single_objectType : Single ObjectTypeAt := by
  intro pool i a b h h'
  have head : ∀ {d : FieldDescriptor}, d.dimensions ≠ 0 → ∃ r, fieldText d = '[' :: r := by
    intro d hd
    unfold fieldText
    obtain ⟨n, hn⟩ : ∃ n, d.dimensions.toNat = n + 1 := ⟨d.dimensions.toNat - 1, by
      have : d.dimensions.toNat ≠ 0 := fun h => hd (UInt8.toNat_inj.mp h)
      omega⟩
    rw [hn, List.replicate_succ]
    exact ⟨_, rfl⟩
  cases a <;> cases b <;> simp only [ObjectTypeAt] at h h'
  · have e := single_class pool i _ _ h.1 h'.1
    exact congrArg ObjectArrayType.arrayType (fieldPrefix_single ⟨h.2.1, [], (List.append_nil _).symm⟩ ⟨h'.2.1, [], by rw [e, List.append_nil]⟩)
  · obtain ⟨r, hr⟩ := head h.2.2
    exact absurd ((single_class pool i _ _ h.1 h'.1).symm.trans hr) (h'.2 r)
  · obtain ⟨r, hr⟩ := head h'.2.2
    exact absurd ((single_class pool i _ _ h.1 h'.1).trans hr) (h.2 r)
  · rw [single_class pool i _ _ h.1 h'.1]

theorem single_className : Single ClassNameAt := fun _ _ _ _ h h' => classNameAt_unique h h'

theorem single_integer : Single IntegerAt := by intro pool i a b h h'; unfold IntegerAt at h h'; rw [h] at h'; cases h'; rfl
theorem single_float : Single FloatAt := by intro pool i a b h h'; unfold FloatAt at h h'; rw [h] at h'; cases h'; rfl
theorem single_long : Single LongAt := by intro pool i a b h h'; unfold LongAt at h h'; rw [h] at h'; cases h'; rfl
theorem single_double : Single DoubleAt := by intro pool i a b h h'; unfold DoubleAt at h h'; rw [h] at h'; cases h'; rfl

theorem single_opt {α : Type} {F : Pool → Nat → α → Prop} (h : Single F) (hz : ∀ pool i a, F pool i a → pool[i]? ≠ some .zero) : Single (OptAt F) := by
  intro pool i a b ha hb
  cases a <;> cases b <;> simp only [OptAt] at ha hb
  · rfl
  · exact absurd ha (hz _ _ _ hb)
  · exact absurd hb (hz _ _ _ ha)
  · rw [h pool i _ _ ha hb]

theorem single_optClass : Single (OptAt ClassAt) := single_opt single_class fun pool i a ⟨x, h, _⟩ => by rw [h]; simp
theorem single_optClassName : Single (OptAt ClassNameAt) := single_opt single_className fun pool i a ⟨⟨x, h, _⟩, _⟩ => by rw [h]; simp
theorem single_optText : Single (OptAt TextAt) := single_opt single_text fun pool i a h => by rw [h]; simp
theorem single_optNameAndType : Single (OptAt NameAndTypeAt) := single_opt single_nameAndType fun pool i a ⟨x, y, h, _⟩ => by rw [h]; simp

theorem forall₂_same {α : Type} {R : α → α → Prop} {l m : List α} (h : List.Forall₂ R l m) (hr : ∀ a b, R a b → a = b) : l = m := by
  induction h with
  | nil => rfl
  | cons hab _ ih => rw [hr _ _ hab, ih]

variable {pool : Pool}

theorem opcode_same {a b : Opcode} (h : OpcodePair (pool, pool) a b) : a = b := by
  cases h with
  | same => rfl
  | ldc h | ldcW h | ldc2W h => rw [single_loadable.both h]
  | getstatic h | putstatic h | getfield h | putfield h => rw [single_fieldRef.both h]
  | invokevirtual h => rw [single_methodRef.both h]
  | invokespecial h | invokestatic h => rw [single_anyMethod.both h]
  | invokeinterface h => rw [single_interfaceMethodRef.both h]
  | invokedynamic h => rw [single_invokeDynamic.both h]
  | new h => rw [single_class.both h]
  | anewarray h | checkcast h | instanceof h | multianewarray h => rw [single_objectType.both h]

theorem bytecode_same {a b : Option ByteCode} (h : BytecodePair (pool, pool) a b) : a = b := by
  cases h with
  | none => rfl
  | @some a b h =>
    obtain ⟨l⟩ := a
    obtain ⟨m⟩ := b
    rw [show l = m from forall₂_same h fun x y ⟨h1, h2⟩ => Prod.ext h1 (opcode_same h2)]

theorem exception_same (a b : ExceptionTableEntry) (h : ExceptionPair (pool, pool) a b) : a = b := by
  obtain ⟨h1, h2, h3, h4⟩ := h
  have h4 := single_optClass.both h4
  cases a; cases b; simp_all

theorem verificationPair_same (a b : VerificationType) (h : VerificationPair (pool, pool) a b) : a = b := by
  cases h with
  | same => rfl
  | object h => rw [single_class.both h]

theorem framePair_same (a b : StackMapEntry) (h : FramePair (pool, pool) a b) : a = b := by
  cases h with
  | same | chop => rfl
  | oneItem h => rw [verificationPair_same _ _ h]
  | append h => rw [forall₂_same h verificationPair_same]
  | full h h' => rw [forall₂_same h verificationPair_same, forall₂_same h' verificationPair_same]

theorem innerClass_same (a b : InnerClassEntry) (h : InnerClassPair (pool, pool) a b) : a = b := by
  obtain ⟨h1, h2, h3, h4⟩ := h
  have h1 := single_class.both h1
  have h2 := single_optClass.both h2
  have h3 := single_optText.both h3
  cases a; cases b; simp_all

theorem localVariable_same (a b : LocalVariableEntry) (h : LocalVariablePair (pool, pool) a b) : a = b := by
  obtain ⟨h1, h2, h3, h4, h5⟩ := h
  have h3 := single_text.both h3
  have h4 := single_fieldDescriptor.both h4
  cases a; cases b; simp_all

theorem localVariableType_same (a b : LocalVariableTypeEntry) (h : LocalVariableTypePair (pool, pool) a b) : a = b := by
  obtain ⟨h1, h2, h3, h4, h5⟩ := h
  have h3 := single_text.both h3
  have h4 := single_text.both h4
  cases a; cases b; simp_all

theorem bootstrapMethod_same (a b : BootstrapMethodEntry) (h : BootstrapMethodPair (pool, pool) a b) : a = b := by
  obtain ⟨h1, h2⟩ := h
  have h1 := single_methodHandle.both h1
  have h2 := forall₂_same h2 fun _ _ => single_bootstrapArgument.both
  cases a; cases b; simp_all

theorem methodParameter_same (a b : MethodParameterEntry) (h : MethodParameterPair (pool, pool) a b) : a = b := by
  obtain ⟨h1, h2⟩ := h
  have h1 := single_optText.both h1
  cases a; cases b; simp_all

theorem require_same (a b : ModuleRequireEntry) (h : RequirePair (pool, pool) a b) : a = b := by
  obtain ⟨h1, h2, h3⟩ := h
  have h1 := single_module.both h1
  have h3 := single_optText.both h3
  cases a; cases b; simp_all

theorem exports_same (a b : ModuleExportsEntry) (h : ExportsPair (pool, pool) a b) : a = b := by
  obtain ⟨h1, h2, h3⟩ := h
  have h1 := single_package.both h1
  have h3 := forall₂_same h3 fun _ _ => single_module.both
  cases a; cases b; simp_all

theorem opens_same (a b : ModuleOpensEntry) (h : OpensPair (pool, pool) a b) : a = b := by
  obtain ⟨h1, h2, h3⟩ := h
  have h1 := single_package.both h1
  have h3 := forall₂_same h3 fun _ _ => single_module.both
  cases a; cases b; simp_all

theorem provides_same (a b : ModuleProvidesEntry) (h : ProvidesPair (pool, pool) a b) : a = b := by
  obtain ⟨h1, h2⟩ := h
  have h1 := single_class.both h1
  have h2 := forall₂_same h2 fun _ _ => single_class.both
  cases a; cases b; simp_all

theorem modulePair_same (a b : ModuleData) (h : ModulePair (pool, pool) a b) : a = b := by
  obtain ⟨h1, h2, h3, h4, h5, h6, h7, h8⟩ := h
  have h1 := single_module.both h1
  have h3 := single_optText.both h3
  have h4 := forall₂_same h4 require_same
  have h5 := forall₂_same h5 exports_same
  have h6 := forall₂_same h6 opens_same
  have h7 := forall₂_same h7 fun _ _ => single_class.both
  have h8 := forall₂_same h8 provides_same
  cases a; cases b; simp_all

theorem annotationPair_same (a b : Annotation) (h : AnnotationPair (pool, pool) a b) : a = b := by
  refine AnnotationPair.rec (motive_1 := fun v w _ => v = w) (motive_2 := fun l m _ => l = m) (motive_3 := fun a b _ => a = b)
    (motive_4 := fun l m _ => l = m) ?_ ?_ ?_ ?_ ?_ ?_ ?_ ?_ ?_ ?_ ?_ ?_ ?_ ?_ ?_ ?_ ?_ ?_ h
  · intro a b h; rw [single_integer.both h]
  · intro a b h; rw [single_integer.both h]
  · intro a b h; rw [single_double.both h]
  · intro a b h; rw [single_float.both h]
  · intro a b h; rw [single_integer.both h]
  · intro a b h; rw [single_long.both h]
  · intro a b h; rw [single_integer.both h]
  · intro a b h; rw [single_integer.both h]
  · intro a b h; rw [single_text.both h]
  · intro a b c d h h'; rw [single_fieldDescriptor.both h, single_text.both h']
  · intro a b h; rw [single_text.both h]
  · intro a b _ h; rw [h]
  · intro a b _ h; rw [h]
  · rfl
  · intro a b l m _ _ h h'; rw [h, h']
  · intro a b l m h _ h'; rw [single_fieldDescriptor.both h, h']
  · rfl
  · intro a b v w l m h _ _ h' h''; rw [single_text.both h, h', h'']

theorem elementValuePair_same (v w : AnnotationElementValue) (h : ElementValuePair (pool, pool) v w) : v = w := by
  refine ElementValuePair.rec (motive_1 := fun v w _ => v = w) (motive_2 := fun l m _ => l = m) (motive_3 := fun a b _ => a = b)
    (motive_4 := fun l m _ => l = m) ?_ ?_ ?_ ?_ ?_ ?_ ?_ ?_ ?_ ?_ ?_ ?_ ?_ ?_ ?_ ?_ ?_ ?_ h
  · intro a b h; rw [single_integer.both h]
  · intro a b h; rw [single_integer.both h]
  · intro a b h; rw [single_double.both h]
  · intro a b h; rw [single_float.both h]
  · intro a b h; rw [single_integer.both h]
  · intro a b h; rw [single_long.both h]
  · intro a b h; rw [single_integer.both h]
  · intro a b h; rw [single_integer.both h]
  · intro a b h; rw [single_text.both h]
  · intro a b c d h h'; rw [single_fieldDescriptor.both h, single_text.both h']
  · intro a b h; rw [single_text.both h]
  · intro a b _ h; rw [h]
  · intro a b _ h; rw [h]
  · rfl
  · intro a b l m _ _ h h'; rw [h, h']
  · intro a b l m h _ h'; rw [single_fieldDescriptor.both h, h']
  · rfl
  · intro a b v w l m h _ _ h' h''; rw [single_text.both h, h', h'']

theorem parameterAnnotation_same (a b : ParameterAnnotation) (h : ParameterAnnotationPair (pool, pool) a b) : a = b := by
  have h := forall₂_same h annotationPair_same
  cases a; cases b; simp_all

theorem typeAnnotation_same (a b : TypeAnnotation) (h : TypeAnnotationPair (pool, pool) a b) : a = b := by
  obtain ⟨h1, h2, h3⟩ := h
  have h3 := annotationPair_same _ _ h3
  cases a; cases b; simp_all

theorem attrsPair_same (l m : List AttributeInfo) (h : AttrsPair (pool, pool) l m) : l = m := by
  refine AttrsPair.rec (motive_1 := fun a b _ => a = b) (motive_2 := fun l m _ => l = m) (motive_3 := fun a b _ => a = b)
    (motive_4 := fun l m _ => l = m)
    (fun h h' _ h'' => by rw [bytecode_same h, forall₂_same h' exception_same, h''])
    rfl (fun h h' _ _ k k' => by rw [single_text.both h, single_fieldDescriptor.both h', k, k'])
    (fun h => by rw [single_literal.both h])
    (fun _ h => by rw [h])
    (fun h => by rw [forall₂_same h framePair_same])
    (fun h => by rw [forall₂_same h fun _ _ => single_class.both])
    (fun h => by rw [forall₂_same h innerClass_same])
    (fun h h' => by rw [single_class.both h, single_optNameAndType.both h'])
    rfl
    (fun h => by rw [single_text.both h])
    (fun h => by rw [single_text.both h])
    rfl rfl
    (fun h => by rw [forall₂_same h localVariable_same])
    (fun h => by rw [forall₂_same h localVariableType_same])
    rfl
    (fun h => by rw [forall₂_same h annotationPair_same])
    (fun h => by rw [forall₂_same h annotationPair_same])
    (fun h => by rw [forall₂_same h parameterAnnotation_same])
    (fun h => by rw [forall₂_same h parameterAnnotation_same])
    (fun h => by rw [forall₂_same h typeAnnotation_same])
    (fun h => by rw [forall₂_same h typeAnnotation_same])
    (fun h => by rw [elementValuePair_same _ _ h])
    (fun h => by rw [forall₂_same h bootstrapMethod_same])
    (fun h => by rw [forall₂_same h methodParameter_same])
    (fun h => by rw [modulePair_same _ _ h])
    (fun h => by rw [forall₂_same h fun _ _ => single_package.both])
    (fun h => by rw [single_class.both h])
    (fun h => by rw [single_class.both h])
    (fun h => by rw [forall₂_same h fun _ _ => single_class.both])
    (fun h => by rw [forall₂_same h fun _ _ => single_class.both])
    (fun _ h => by rw [h])
    rfl
    rfl
    (fun h _ _ k k' => by rw [single_text.both h, k, k']) h

theorem fieldPair_same (a b : FieldInfo) (h : FieldPair (pool, pool) a b) : a = b := by
  obtain ⟨h1, h2, h3, h4⟩ := h
  have h2 := single_text.both h2
  have h3 := single_fieldDescriptor.both h3
  have h4 := attrsPair_same _ _ h4
  cases a; cases b; simp_all

theorem methodPair_same (a b : MethodInfo) (h : MethodPair (pool, pool) a b) : a = b := by
  obtain ⟨h1, h2, h3, h4⟩ := h
  have h2 := single_text.both h2
  have h3 := single_methodDescriptor.both h3
  have h4 := attrsPair_same _ _ h4
  cases a; cases b; simp_all

/-- Over one pool, corresponding classes are equal but for the versions and the pools themselves. -/
theorem classPair_same {a b : ClassFile} (h : ClassPair (pool, pool) a b) :
    b = { a with minorVersion := b.minorVersion, majorVersion := b.majorVersion, constantPool := b.constantPool } := by
  obtain ⟨h1, h2, h3, h4, h5, h6, h7⟩ := h
  have h2 := single_className.both h2
  have h3 := single_optClassName.both h3
  have h4 := forall₂_same h4 fun _ _ => single_className.both
  have h5 := forall₂_same h5 fieldPair_same
  have h6 := forall₂_same h6 methodPair_same
  have h7 := attrsPair_same _ _ h7
  cases a; cases b; simp_all

end Cafebabe
