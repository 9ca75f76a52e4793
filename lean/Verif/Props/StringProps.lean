import Verif.Spec.Strings
import Verif.Props.NumberProps
/-!
# Strings are never lossy: C39
-/

namespace Cafebabe
open Spec Examples

/-- Where something shown comes from, in terms of the pool. -/
def SrcAt (pool : Pool) : Shown → Prop
  | .text s => ∃ i, TextAt pool i s
  | .field d => ∃ i, FieldDescriptorAt pool i d
  | .method d => ∃ i, MethodDescriptorAt pool i d
  | .raw b => ∃ i, pool[(i : Nat)]? = some (Entry.utf8Bytes b)

/-- All of them have a source. -/
def Srcs (pool : Pool) (l : List Shown) : Prop := ∀ x ∈ l, SrcAt pool x

theorem srcs_nil (pool : Pool) : Srcs pool [] := fun _ h => nomatch h

theorem srcs_cons {pool : Pool} {x : Shown} {l : List Shown} (h : SrcAt pool x) (hl : Srcs pool l) : Srcs pool (x :: l) := fun y hy => by
  rcases List.mem_cons.mp hy with rfl | hy
  · exact h
  · exact hl y hy

theorem srcs_append {pool : Pool} {l m : List Shown} (h : Srcs pool l) (hm : Srcs pool m) : Srcs pool (l ++ m) := fun y hy => by
  rcases List.mem_append.mp hy with hy | hy
  · exact h y hy
  · exact hm y hy

theorem srcs_flatMap {α : Type} {pool : Pool} {xs : List α} {f : α → List Shown} (h : ∀ x ∈ xs, Srcs pool (f x)) : Srcs pool (xs.flatMap f) :=
  fun y hy => by
    obtain ⟨x, hx, hy⟩ := List.mem_flatMap.mp hy
    exact h x hx y hy

theorem srcs_map {pool : Pool} {xs : List Str} (h : ∀ x ∈ xs, ∃ i, TextAt pool i x) : Srcs pool (xs.map .text) := fun y hy => by
  obtain ⟨x, hx, rfl⟩ := List.mem_map.mp hy
  exact h x hx

theorem srcs_text {pool : Pool} {i : Nat} {s : Str} (h : TextAt pool i s) : Srcs pool [.text s] := srcs_cons ⟨i, h⟩ (srcs_nil _)

theorem src_class {pool : Pool} {i : Nat} {s : Str} (h : ClassAt pool i s) : SrcAt pool (.text s) := by
  obtain ⟨x, -, h⟩ := h; exact ⟨x, h⟩

theorem src_moduleAt {pool : Pool} {i : Nat} {s : Str} (h : ModuleAt pool i s) : SrcAt pool (.text s) := by
  obtain ⟨x, -, h⟩ := h; exact ⟨x, h⟩

theorem src_package {pool : Pool} {i : Nat} {s : Str} (h : PackageAt pool i s) : SrcAt pool (.text s) := by
  obtain ⟨x, -, h⟩ := h; exact ⟨x, h⟩

theorem src_methodType {pool : Pool} {i : Nat} {s : Str} (h : MethodTypeAt pool i s) : SrcAt pool (.text s) := by
  obtain ⟨x, -, h⟩ := h; exact ⟨x, h⟩

theorem srcs_nameAndType {pool : Pool} {i : Nat} {n : NameAndType} (h : NameAndTypeAt pool i n) : Srcs pool (shownNameAndType n) := by
  obtain ⟨x, y, -, h1, h2⟩ := h
  exact srcs_cons ⟨x, h1⟩ (srcs_text h2)

theorem srcs_memberOf {pool : Pool} {c n : Nat} {m : MemberRef} (h : MemberOf pool c n m) : Srcs pool (shownMember m) :=
  srcs_cons (src_class h.1) (srcs_nameAndType h.2)

theorem srcs_fieldRef {pool : Pool} {i : Nat} {m : MemberRef} (h : FieldRefAt pool i m) : Srcs pool (shownMember m) := by
  obtain ⟨c, n, -, h⟩ := h; exact srcs_memberOf h

theorem srcs_methodRef {pool : Pool} {i : Nat} {m : MemberRef} (h : MethodRefAt pool i m) : Srcs pool (shownMember m) := by
  obtain ⟨c, n, -, h⟩ := h; exact srcs_memberOf h

theorem srcs_interfaceMethodRef {pool : Pool} {i : Nat} {m : MemberRef} (h : InterfaceMethodRefAt pool i m) : Srcs pool (shownMember m) := by
  obtain ⟨c, n, -, h⟩ := h; exact srcs_memberOf h

theorem srcs_handle {pool : Pool} {i : Nat} {h : MethodHandle} (hh : MethodHandleAt pool i h) : Srcs pool (shownHandle h) := by
  obtain ⟨m, -, hm⟩ := hh
  unfold MemberRefAt at hm
  split at hm
  · exact srcs_fieldRef hm
  · exact srcs_methodRef hm
  · exact srcs_interfaceMethodRef hm

theorem srcs_literal {pool : Pool} {i : Nat} {c : LiteralConstant} (h : LiteralAt pool i c) : Srcs pool (shownLiteral c) := by
  cases c with
  | string s => obtain ⟨x, -, h⟩ := h; exact srcs_text h
  | stringBytes b => obtain ⟨x, -, h⟩ := h; exact srcs_cons ⟨x, h⟩ (srcs_nil _)
  | integer | float | long | double => exact srcs_nil _

theorem srcs_dynamic {pool : Pool} {i : Nat} {d : DynamicRef} (h : DynamicAt pool i d) : Srcs pool (shownNameAndType d.nameAndType) := by
  obtain ⟨n, -, h⟩ := h; exact srcs_nameAndType h

theorem srcs_invokeDynamic {pool : Pool} {i : Nat} {d : DynamicRef} (h : InvokeDynamicAt pool i d) : Srcs pool (shownNameAndType d.nameAndType) := by
  obtain ⟨n, -, h⟩ := h; exact srcs_nameAndType h

theorem srcs_one {pool : Pool} {x : Shown} (h : SrcAt pool x) : Srcs pool [x] := srcs_cons h (srcs_nil _)

theorem srcs_loadable {pool : Pool} {i : Nat} {l : Loadable} (h : LoadableAt pool i l) : Srcs pool (shownLoadable l) := by
  cases l with
  | literalConstant c => exact srcs_literal h
  | classInfo s => exact srcs_one (src_class h)
  | methodHandle m => exact srcs_handle h
  | methodType s => exact srcs_one (src_methodType h)
  | dynamic d => exact srcs_dynamic h

theorem srcs_argument {pool : Pool} {i : Nat} {l : BootstrapArgument} (h : BootstrapArgumentAt pool i l) : Srcs pool (shownArgument l) := by
  cases l with
  | literalConstant c => exact srcs_literal h
  | classInfo s => exact srcs_one (src_class h)
  | methodHandle m => exact srcs_handle h
  | methodType s => exact srcs_one (src_methodType h)

theorem srcs_object {pool : Pool} {i : Nat} {t : ObjectArrayType} (h : ObjectTypeAt pool i t) : Srcs pool (shownObject t) := by
  cases t with
  | arrayType d =>
    obtain ⟨⟨x, -, h1⟩, h2, -⟩ := h
    exact srcs_one ⟨x, fieldText d, h1, h2, [], by simp⟩
  | binaryName s => exact srcs_one (src_class h.1)

theorem srcs_opt {pool : Pool} {i : Nat} {F : Pool → Nat → Str → Prop} (hF : ∀ s, F pool i s → SrcAt pool (.text s)) {s : Option Str}
    (h : OptAt F pool i s) : Srcs pool (shownOpt s) := by
  cases s with
  | none => exact srcs_nil _
  | some s => exact srcs_one (hF s h)

theorem srcs_optText {pool : Pool} {i : Nat} {s : Option Str} (h : OptAt TextAt pool i s) : Srcs pool (shownOpt s) :=
  srcs_opt (fun _ h => ⟨i, h⟩) h

theorem srcs_optClass {pool : Pool} {i : Nat} {s : Option Str} (h : OptAt ClassAt pool i s) : Srcs pool (shownOpt s) :=
  srcs_opt (fun _ h => src_class h) h

/-- The operands of an instruction. -/
theorem srcs_insn {checks : Bool} {pool : Pool} {pos : Nat} {op : Opcode} {seg : Bytes} (h : InsnEnc checks pool pos op seg) :
    Srcs pool (shownOpcode op) := by
  cases op <;> try exact srcs_nil _
  case ldc l => obtain ⟨i, h, -⟩ := h; exact srcs_loadable h
  case ldcW l => obtain ⟨s, t, -, -, i, h, -⟩ := h; exact srcs_loadable h
  case ldc2W l => obtain ⟨s, t, -, -, i, h, -⟩ := h; exact srcs_loadable h
  case getstatic | putstatic | getfield | putfield => obtain ⟨s, t, -, -, i, h, -⟩ := h; exact srcs_fieldRef h
  case invokevirtual => obtain ⟨s, t, -, -, i, h, -⟩ := h; exact srcs_methodRef h
  case invokespecial | invokestatic => obtain ⟨s, t, -, -, i, h | h, -⟩ := h <;> first | exact srcs_methodRef h | exact srcs_interfaceMethodRef h
  case invokeinterface => obtain ⟨s, t, -, -, s, t, -, ⟨i, h, -⟩, -⟩ := h; exact srcs_interfaceMethodRef h
  case invokedynamic => obtain ⟨s, t, -, -, s, t, -, ⟨i, h, -⟩, -⟩ := h; exact srcs_invokeDynamic h
  case new => obtain ⟨s, t, -, -, i, h, -⟩ := h; exact srcs_one (src_class h)
  case anewarray | checkcast | instanceof => obtain ⟨s, t, -, -, i, h, -⟩ := h; exact srcs_object h
  case multianewarray => obtain ⟨s, t, -, -, s, t, -, ⟨i, h, -⟩, -⟩ := h; exact srcs_object h

theorem srcs_insns {checks : Bool} {pool : Pool} {pos : Nat} {ops : List (Nat × Opcode)} {seg : Bytes} (h : InsnsEnc checks pool pos ops seg) :
    Srcs pool (ops.flatMap fun p => shownOpcode p.2) := by
  induction h with
  | nil => exact srcs_nil _
  | cons h1 _ ih => rw [List.flatMap_cons]; exact srcs_append (srcs_insn h1) ih

theorem srcs_verification {pool : Pool} {v : VerificationType} {seg : Bytes} (h : VerificationEnc pool v seg) : Srcs pool (shownVerification v) := by
  cases v <;> try exact srcs_nil _
  obtain ⟨s, t, -, -, i, h, -⟩ := h
  exact srcs_one (src_class h)

theorem srcs_seq {α : Type} {pool : Pool} {F : α → Lang} {f : α → List Shown} (hF : ∀ x seg, F x seg → Srcs pool (f x)) {xs : List α} {seg : Bytes}
    (h : seq F xs seg) : Srcs pool (xs.flatMap f) := srcs_flatMap fun x hx => by
  obtain ⟨s, hs, -⟩ := seq_mem h hx
  exact hF x s hs

theorem srcs_table2 {α : Type} {pool : Pool} {F : α → Lang} {f : α → List Shown} (hF : ∀ x seg, F x seg → Srcs pool (f x)) {xs : List α} {seg : Bytes}
    (h : table2 F xs seg) : Srcs pool (xs.flatMap f) := by
  obtain ⟨c, -, s, t, -, -, h⟩ := h
  exact srcs_seq hF h

theorem srcs_table1 {α : Type} {pool : Pool} {F : α → Lang} {f : α → List Shown} (hF : ∀ x seg, F x seg → Srcs pool (f x)) {xs : List α} {seg : Bytes}
    (h : table1 F xs seg) : Srcs pool (xs.flatMap f) := by
  obtain ⟨c, -, s, t, -, -, h⟩ := h
  exact srcs_seq hF h

theorem srcs_refs {pool : Pool} {At : Str → Nat → Prop} (hA : ∀ s i, At s i → SrcAt pool (.text s)) {xs : List Str} {seg : Bytes}
    (h : table2 (fun s => ref fun i => At s i) xs seg) : Srcs pool (xs.map .text) := srcs_map fun x hx => by
  obtain ⟨s, ⟨i, hs, -⟩, -⟩ := table2_mem h hx
  exact hA x _ hs

theorem srcs_frame {pool : Pool} {f : StackMapEntry} {seg : Bytes} (h : FrameEnc pool f seg) : Srcs pool (shownFrame f) := by
  cases f with
  | same | chop => exact srcs_nil _
  | sameLocals1StackItem d v =>
    rcases h with ⟨-, s, t, -, -, h⟩ | ⟨s, t, -, -, h⟩ <;> exact srcs_verification h
  | append d l =>
    obtain ⟨-, s, t, -, -, h⟩ := h
    exact srcs_seq (fun _ _ h => srcs_verification h) h
  | fullFrame d l st =>
    obtain ⟨s, t, -, -, s, t, -, h1, h2⟩ := h
    exact srcs_append (srcs_table2 (fun _ _ h => srcs_verification h) h1) (srcs_table2 (fun _ _ h => srcs_verification h) h2)

mutual
theorem srcs_value (pool : Pool) : ∀ (v : AnnotationElementValue) (seg : Bytes), ElementValueEnc pool v seg → Srcs pool (shownValue v)
  | .stringConstant s, _, h => by
    rw [ElementValueEnc] at h; rw [shownValue]
    obtain ⟨s, t, -, -, i, h, -⟩ := h
    exact srcs_text h
  | .enumConstant t c, _, h => by
    rw [ElementValueEnc] at h; rw [shownValue]
    obtain ⟨s, t, -, -, s, t, -, ⟨i, h1, -⟩, j, h2, -⟩ := h
    exact srcs_cons ⟨_, h1⟩ (srcs_text h2)
  | .classLiteral s, _, h => by
    rw [ElementValueEnc] at h; rw [shownValue]
    obtain ⟨s, t, -, -, i, h, -⟩ := h
    exact srcs_text h.1
  | .annotationValue a, _, h => by
    rw [ElementValueEnc] at h; rw [shownValue]
    obtain ⟨s, t, -, -, h⟩ := h
    exact srcs_annotation pool a t h
  | .arrayValue vs, _, h => by
    rw [ElementValueEnc] at h; rw [shownValue]
    obtain ⟨s, t, -, -, c, -, s, t, -, -, h⟩ := h
    exact srcs_values pool vs t h
  | .byteConstant _, _, _ | .charConstant _, _, _ | .doubleConstant _, _, _ | .floatConstant _, _, _ | .intConstant _, _, _
  | .longConstant _, _, _ | .shortConstant _, _, _ | .booleanConstant _, _, _ => by
    rw [shownValue] <;> first | exact srcs_nil _ | (intros; contradiction)

theorem srcs_values (pool : Pool) : ∀ (vs : List AnnotationElementValue) (seg : Bytes), ElementValuesEnc pool vs seg → Srcs pool (shownValues vs)
  | [], _, _ => by rw [shownValues]; exact srcs_nil _
  | v :: vs, _, h => by
    rw [ElementValuesEnc] at h; rw [shownValues]
    obtain ⟨s, t, -, h1, h2⟩ := h
    exact srcs_append (srcs_value pool v s h1) (srcs_values pool vs t h2)

theorem srcs_annotation (pool : Pool) : ∀ (a : Annotation) (seg : Bytes), AnnotationEnc pool a seg → Srcs pool (shownAnnotation a)
  | ⟨d, es⟩, _, h => by
    rw [AnnotationEnc] at h; rw [shownAnnotation]
    obtain ⟨s, t, -, ⟨i, h1, -⟩, c, -, s, t, -, -, h⟩ := h
    exact srcs_cons ⟨_, h1⟩ (srcs_elements pool es t h)

theorem srcs_elements (pool : Pool) : ∀ (es : List AnnotationElement) (seg : Bytes), ElementsEnc pool es seg → Srcs pool (shownElements es)
  | [], _, _ => by rw [shownElements]; exact srcs_nil _
  | ⟨n, v⟩ :: es, _, h => by
    rw [ElementsEnc] at h; rw [shownElements]
    obtain ⟨s, t, -, ⟨s', t', -, ⟨i, h1, -⟩, h2⟩, h3⟩ := h
    exact srcs_cons ⟨_, h1⟩ (srcs_append (srcs_value pool v _ h2) (srcs_elements pool es t h3))
end

theorem srcs_moduleData {pool : Pool} {d : ModuleData} {seg : Bytes} (h : ModuleDataEnc pool d seg) : Srcs pool (shownModule d) := by
  obtain ⟨s, t, -, ⟨i, h1, -⟩, s, t, -, -, s, t, -, ⟨j, h2, -⟩, s, t, -, h3, s, t, -, h4, s, t, -, h5, s, t, -, h6, h7⟩ := h
  refine srcs_cons (src_moduleAt h1) (srcs_append (srcs_append (srcs_append (srcs_append (srcs_append (srcs_optText h2) ?_) ?_) ?_) ?_) ?_)
  · refine srcs_table2 (fun e seg he => ?_) h3
    obtain ⟨s, t, -, ⟨i, h1, -⟩, s, t, -, -, j, h2, -⟩ := he
    exact srcs_cons (src_moduleAt h1) (srcs_optText h2)
  · refine srcs_table2 (fun e seg he => ?_) h4
    obtain ⟨s, t, -, ⟨i, h1, -⟩, s, t, -, -, h2⟩ := he
    exact srcs_cons (src_package h1) (srcs_refs (fun _ _ => src_moduleAt) h2)
  · refine srcs_table2 (fun e seg he => ?_) h5
    obtain ⟨s, t, -, ⟨i, h1, -⟩, s, t, -, -, h2⟩ := he
    exact srcs_cons (src_package h1) (srcs_refs (fun _ _ => src_moduleAt) h2)
  · exact srcs_refs (fun _ _ => src_class) h6
  · refine srcs_table2 (fun e seg he => ?_) h7
    obtain ⟨s, t, -, ⟨i, h1, -⟩, h2⟩ := he
    exact srcs_cons (src_class h1) (srcs_refs (fun _ _ => src_class) h2)

/-- The content of an attribute. -/
theorem srcs_data {o : Opts} {pool : Pool} {name : Str} {d : AttributeData} {seg : Bytes} (h : DataEnc o pool name d seg) : Srcs pool (shownData d) := by
  cases d <;> rw [DataEnc] at h <;> obtain ⟨-, h⟩ := h
  case constantValue c => obtain ⟨i, h, -⟩ := h; exact srcs_literal h
  case code c =>
    obtain ⟨ms, ml, code, bc, et, as⟩ := c
    rw [CodeEnc] at h
    obtain ⟨hb, s1, t1, -, -, s2, t2, -, -, s3, t3, -, -, s4, t4, -, h4, -⟩ := h
    refine srcs_append (srcs_table2 (fun e seg he => ?_) h4) ?_
    · obtain ⟨s, t, -, -, s, t, -, -, s, t, -, -, i, h, -⟩ := he
      exact srcs_optClass h
    · cases bc with
      | none => exact srcs_nil _
      | some bc => exact srcs_insns hb.2.1
  case stackMapTable t => exact srcs_table2 (fun _ _ h => srcs_frame h) h
  case exceptions l => exact srcs_refs (fun _ _ => src_class) h
  case innerClasses l =>
    refine srcs_table2 (fun e seg he => ?_) h
    obtain ⟨s, t, -, ⟨i, h1, -⟩, s, t, -, ⟨j, h2, -⟩, s, t, -, ⟨k, h3, -⟩, -⟩ := he
    exact srcs_cons (src_class h1) (srcs_append (srcs_optClass h2) (srcs_optText h3))
  case enclosingMethod c m =>
    obtain ⟨s, t, -, ⟨i, h1, -⟩, j, h2, -⟩ := h
    refine srcs_cons (src_class h1) ?_
    cases m with
    | none => exact srcs_nil _
    | some n => exact srcs_nameAndType h2
  case signature s => obtain ⟨i, h, -⟩ := h; exact srcs_text h
  case sourceFile s => obtain ⟨i, h, -⟩ := h; exact srcs_text h
  case localVariableTable l =>
    refine srcs_table2 (fun e seg he => ?_) h
    obtain ⟨-, s, t, -, -, s, t, -, -, s, t, -, ⟨i, h1, -⟩, s, t, -, ⟨j, h2, -⟩, -⟩ := he
    exact srcs_cons ⟨_, h1⟩ (srcs_one ⟨_, h2⟩)
  case localVariableTypeTable l =>
    refine srcs_table2 (fun e seg he => ?_) h
    obtain ⟨-, s, t, -, -, s, t, -, -, s, t, -, ⟨i, h1, -⟩, s, t, -, ⟨j, h2, -⟩, -⟩ := he
    exact srcs_cons ⟨_, h1⟩ (srcs_text h2)
  case runtimeVisibleAnnotations | runtimeInvisibleAnnotations => exact srcs_table2 (srcs_annotation pool) h
  case runtimeVisibleParameterAnnotations | runtimeInvisibleParameterAnnotations =>
    exact srcs_table1 (fun p seg hp => srcs_table2 (srcs_annotation pool) hp) h
  case runtimeVisibleTypeAnnotations | runtimeInvisibleTypeAnnotations =>
    refine srcs_table2 (fun e seg he => ?_) h
    obtain ⟨s, t, -, -, s, t, -, -, h⟩ := he
    exact srcs_annotation pool _ _ h
  case annotationDefault v => exact srcs_value pool v _ h
  case bootstrapMethods l =>
    refine srcs_table2 (fun e seg he => ?_) h
    obtain ⟨s, t, -, ⟨i, h1, -⟩, h2⟩ := he
    refine srcs_append (srcs_handle h1) (srcs_table2 (fun a seg ha => ?_) h2)
    obtain ⟨i, h, -⟩ := ha
    exact srcs_argument h
  case methodParameters l =>
    refine srcs_table1 (fun e seg he => ?_) h
    obtain ⟨-, s, t, -, ⟨i, h1, -⟩, -⟩ := he
    exact srcs_optText h1
  case moduleAttr d => exact srcs_moduleData h
  case modulePackages l => exact srcs_refs (fun _ _ => src_package) h
  case moduleMainClass | nestHost => obtain ⟨i, h, -⟩ := h; exact srcs_one (src_class h)
  case nestMembers | permittedSubclasses => exact srcs_refs (fun _ _ => src_class) h
  case record l =>
    rw [componentsEnc_eq] at h
    refine srcs_table2 (F := ComponentEnc o pool) (fun r seg hr => ?_) h
    obtain ⟨n, d, as⟩ := r
    rw [ComponentEnc] at hr
    obtain ⟨-, s, t, -, ⟨i, h1, -⟩, s, t, -, ⟨j, h2, -⟩, -⟩ := hr
    exact srcs_cons ⟨_, h1⟩ (srcs_one ⟨_, h2⟩)
  all_goals exact srcs_nil _

theorem srcs_item {pool : Pool} {i : Nat} {t : ConstantPoolItem} (h : ItemAt pool i t) : Srcs pool (shownItem t) := by
  cases t with
  | literalConstant c => exact srcs_literal h
  | classInfo s => exact srcs_one (src_class h)
  | fieldRef m => exact srcs_fieldRef h
  | methodRef m => exact srcs_methodRef h
  | interfaceMethodRef m => exact srcs_interfaceMethodRef h
  | nameAndType n => exact srcs_nameAndType h
  | methodHandle m => exact srcs_handle h
  | methodType s => exact srcs_one (src_methodType h)
  | dynamic d => exact srcs_dynamic h
  | invokeDynamic d => exact srcs_invokeDynamic h
  | moduleInfo s => exact srcs_one (src_moduleAt h)
  | packageInfo s => exact srcs_one (src_package h)

/-- Text slots hold the decoded content of their constant. -/
theorem raw_text {o : Opts} {bytes : Bytes} {cf : ClassFile} (h : Accepts o bytes cf) {i : Nat} {s : Str} (hi : TextAt cf.constantPool i s) :
    ∃ data, RawUtf8 bytes i data ∧ o.decode data = some s := by
  obtain ⟨seg, raw, h1, h2, h3⟩ := raw_of_slot h hi (by intro h; cases h) (by intro h; cases h)
  cases raw <;> cases h2
  obtain ⟨n, b, hn, hd, rfl⟩ := h3
  refine ⟨b, ⟨_, _, ?_, h1⟩, hd⟩
  rw [← hn]
  exact (beNat_u2 n).symm

theorem raw_bytes {o : Opts} {bytes : Bytes} {cf : ClassFile} (h : Accepts o bytes cf) {i : Nat} {b : Bytes}
    (hi : cf.constantPool[i]? = some (.utf8Bytes b)) : RawUtf8 bytes i b ∧ o.decode b = none := by
  obtain ⟨seg, raw, h1, h2, h3⟩ := raw_of_slot h hi (by intro h; cases h) (by intro h; cases h)
  cases raw <;> cases h2
  obtain ⟨n, hn, hd, rfl⟩ := h3
  refine ⟨⟨_, _, ?_, h1⟩, hd⟩
  rw [← hn]
  exact (beNat_u2 n).symm

/-! ## C39 String constants are never lossy -/

/-- Everything a parsed class file shows as text - names, descriptors, annotations, instruction operands, constants, at any depth - is the decoded
content of a Utf8 constant of the file, and what is shown as bytes is exactly the content of one that cannot be decoded. -/
theorem C39_shown {o : Opts} {bytes : Bytes} {cf : ClassFile} (h : Accepts o bytes cf) {x : Shown} (hx : ShownBy cf x) : FromConstant o bytes x := by
  have henc := accepts_iff_enc.mp h
  have main : SrcAt cf.constantPool x := by
    obtain ⟨-, -, -, this, super, -, ixs, -, -, h1, -, h2, -, hl, h3⟩ := C16_layout h
    cases hx with
    | thisClass => exact src_class h1
    | superClass hc => exact src_class (h2 _ hc)
    | interface hc =>
      obtain ⟨k, hk, rfl⟩ := List.mem_iff_getElem.mp hc
      exact src_class (h3 k ixs[k] _ (List.getElem?_eq_getElem (by omega)) (List.getElem?_eq_getElem hk))
    | fieldName hf =>
      obtain ⟨s, ⟨-, s1, t1, -, -, s2, t2, -, ⟨i, hi, -⟩, -⟩, -⟩ := accepts_fields h hf
      exact ⟨_, hi⟩
    | fieldDescriptor hf =>
      obtain ⟨s, ⟨-, s1, t1, -, -, s2, t2, -, -, s3, t3, -, ⟨i, hi, -⟩, -⟩, -⟩ := accepts_fields h hf
      exact ⟨_, hi⟩
    | methodName hm =>
      obtain ⟨s, ⟨-, s1, t1, -, -, s2, t2, -, ⟨i, hi, -⟩, -⟩, -⟩ := accepts_methods h hm
      exact ⟨_, hi⟩
    | methodDescriptor hm =>
      obtain ⟨s, ⟨-, s1, t1, -, -, s2, t2, -, -, s3, t3, -, ⟨i, hi, -⟩, -⟩, -⟩ := accepts_methods h hm
      exact ⟨_, hi⟩
    | @attributeName a ha =>
      obtain ⟨seg, hs, -⟩ := attrOf_enc henc ha
      obtain ⟨n, d⟩ := a
      rw [AttrEnc] at hs
      obtain ⟨s, t, -, ⟨i, hi, -⟩, -⟩ := hs
      exact ⟨_, hi⟩
    | @attributeData a _ ha hx =>
      obtain ⟨seg, hs, -⟩ := attrOf_enc henc ha
      obtain ⟨n, d⟩ := a
      obtain ⟨s, hs, -⟩ := attrEnc_data hs
      exact srcs_data hs x hx
    | item hi hx => exact srcs_item hi x hx
  cases x with
  | text s => obtain ⟨i, hi⟩ := main; exact ⟨i, raw_text h hi⟩
  | field d =>
    obtain ⟨i, s, hi, hd⟩ := main
    exact ⟨s, ⟨i, raw_text h hi⟩, hd⟩
  | method d =>
    obtain ⟨i, s, hi, hd⟩ := main
    exact ⟨s, ⟨i, raw_text h hi⟩, hd⟩
  | raw b =>
    obtain ⟨i, hi⟩ := main
    obtain ⟨h1, h2⟩ := raw_bytes h hi
    exact ⟨⟨i, h1⟩, h2⟩

theorem utf8_of_raw {o : Opts} {bytes : Bytes} {cf : ClassFile} (h : Accepts o bytes cf) {i : Nat} {data : Bytes} (hr : RawUtf8 bytes i data)
    (hi : i < cf.constantPool.length) :
    (∃ s, cf.constantPool[i]? = some (.utf8 s) ∧ o.decode data = some s) ∨ cf.constantPool[i]? = some (.utf8Bytes data) ∧ o.decode data = none := by
  obtain ⟨a, b, hl, hr⟩ := hr
  obtain ⟨raw, h1, h2⟩ := slot_of_raw h hr hi
  cases raw with
  | utf8 s =>
    obtain ⟨n, d, -, hd, he⟩ := h2
    cases he
    exact .inl ⟨s, h1, hd⟩
  | utf8Bytes d =>
    obtain ⟨n, -, hd, he⟩ := h2
    cases he
    exact .inr ⟨h1, hd⟩
  | integer | float | long | double => cases h2
  | classInfo x | string x => cases x <;> first | exact h2.elim | cases h2
  | methodType x | moduleInfo x | packageInfo x => cases x <;> first | exact h2.elim | (obtain ⟨-, h3⟩ := h2; cases h3)
  | methodHandle k x | dynamic k x | invokeDynamic k x => cases x <;> first | exact h2.elim | (obtain ⟨-, h3⟩ := h2; cases h3)
  | fieldRef x y | methodRef x y | interfaceMethodRef x y | nameAndType x y => cases x <;> cases y <;> first | exact h2.elim | cases h2
  | zero | unused => exact h2.elim

/-- A Utf8 constant is text exactly when its bytes decode, and then it is the decoded text; one that does not decode is no text at all. -/
theorem C39_utf8 {o : Opts} {bytes : Bytes} {cf : ClassFile} (h : Accepts o bytes cf) {i : Nat} {data : Bytes} (hr : RawUtf8 bytes i data)
    (hi : i < cf.constantPool.length) (s : Str) : TextAt cf.constantPool i s ↔ o.decode data = some s := by
  unfold TextAt
  rcases utf8_of_raw h hr hi with ⟨s', h1, h2⟩ | ⟨h1, h2⟩
  · rw [h1, h2]; simp
  · rw [h1, h2]; simp

/-- A String constant is the decoded text of the Utf8 constant it refers to, or its bytes if they do not decode; nothing else. -/
theorem C39_string {o : Opts} {bytes : Bytes} {cf : ClassFile} (h : Accepts o bytes cf) {i : Nat} {a b : UInt8}
    (hr : RawConstant bytes i [8, a, b]) (hi : i < cf.constantPool.length) :
    ∃ data, RawUtf8 bytes (beNat [a, b]) data ∧ ∀ c, LiteralAt cf.constantPool i c ↔ c = match o.decode data with
      | some s => .string s
      | none => .stringBytes data := by
  obtain ⟨raw, h1, h2⟩ := slot_of_raw h hr hi
  have hraw : ∃ k : UInt16, raw = .string (.unresolved k) ∧ u2 k = [a, b] := by
    cases raw with
    | utf8 s => obtain ⟨n, d, -, -, he⟩ := h2; cases he
    | utf8Bytes d => obtain ⟨n, -, -, he⟩ := h2; cases he
    | integer | float | long | double => cases h2
    | classInfo x => cases x <;> first | exact h2.elim | cases h2
    | string x =>
      cases x with
      | unresolved k => refine ⟨k, rfl, ?_⟩; cases h2; rfl
      | resolved k => exact h2.elim
    | methodType x | moduleInfo x | packageInfo x => cases x <;> first | exact h2.elim | (obtain ⟨-, h3⟩ := h2; cases h3)
    | methodHandle k x | dynamic k x | invokeDynamic k x => cases x <;> first | exact h2.elim | (obtain ⟨-, h3⟩ := h2; cases h3)
    | fieldRef x y | methodRef x y | interfaceMethodRef x y | nameAndType x y => cases x <;> cases y <;> first | exact h2.elim | cases h2
    | zero | unused => exact h2.elim
  obtain ⟨k, rfl, hk⟩ := hraw
  have hslot : cf.constantPool[i]? = some (.string (.resolved k.toNat)) := h1
  have hok : EntryOK cf.majorVersion cf.constantPool (.string (.resolved k.toNat)) := by
    obtain ⟨count, es, body, rest, -, -, -, -, hok⟩ := enc_pool (accepts_iff_enc.mp h)
    exact hok _ _ hslot
  rw [← hk, beNat_u2]
  rcases hok with ⟨s, hs⟩ | ⟨d, hd⟩
  · obtain ⟨data, h3, h4⟩ := raw_text h hs
    refine ⟨data, h3, fun c => ?_⟩
    rw [h4]
    constructor
    · intro hc
      cases c <;> simp only [LiteralAt, hslot] at hc
      case string s' => obtain ⟨x, hx, hx'⟩ := hc; cases hx; rw [hs] at hx'; cases hx'; rfl
      case stringBytes s' => obtain ⟨x, hx, hx'⟩ := hc; cases hx; rw [hs] at hx'; cases hx'
      all_goals cases hc
    · rintro rfl; exact ⟨_, hslot, hs⟩
  · obtain ⟨h3, h4⟩ := raw_bytes h hd
    refine ⟨d, h3, fun c => ?_⟩
    rw [h4]
    constructor
    · intro hc
      cases c <;> simp only [LiteralAt, hslot] at hc
      case string s' => obtain ⟨x, hx, hx'⟩ := hc; cases hx; rw [hd] at hx'; cases hx'
      case stringBytes s' => obtain ⟨x, hx, hx'⟩ := hc; cases hx; rw [hd] at hx'; cases hx'; rfl
      all_goals cases hc
    · rintro rfl; exact ⟨_, hslot, hd⟩

/-- SourceDebugExtension text is the decoded content of its attribute. -/
theorem C39_source_debug {o : Opts} {bytes : Bytes} {cf : ClassFile} (h : Accepts o bytes cf) {name s : Str}
    (ha : AttrOf cf ⟨name, .sourceDebugExtension s⟩) :
    ∃ (i : UInt16) (n : UInt32) (body : Bytes), u2 i ++ u4 n ++ body <:+: bytes ∧ TextAt cf.constantPool i.toNat "SourceDebugExtension".toList ∧
      n.toNat = body.length ∧ o.decode body = some s := by
  obtain ⟨seg, hs, hi⟩ := attrOf_enc (accepts_iff_enc.mp h) ha
  rw [AttrEnc] at hs
  obtain ⟨s1, t, rfl, ⟨i, ht, rfl⟩, n, body, hn, hd, rfl⟩ := hs
  rw [DataEnc] at hd
  obtain ⟨rfl, hd⟩ := hd
  exact ⟨i, n, body, by rwa [List.append_assoc], ht, hn, hd⟩

/-- `rich` has a String constant (slot 24) whose Utf8 constant (slot 23) does not decode; its bytes are shown. -/
example : Accepts debug rich richCf ∧ LiteralAt richCf.constantPool 24 (.stringBytes [0xFF]) ∧ RawUtf8 rich 23 [0xFF] ∧ ascii [0xFF] = none ∧
    ShownBy richCf (.raw [0xFF]) := by
  obtain ⟨-, -, -, -, -, -, -, -, -, -, h1, h2⟩ := rich_pool
  have hl : LiteralAt richCf.constantPool 24 (.stringBytes [0xFF]) := ⟨23, h1, h2⟩
  exact ⟨rich_accepted, hl, (raw_bytes rich_accepted h2).1, by decide,
    .item (i := 24) (t := .literalConstant (.stringBytes [0xFF])) hl (by simp [shownItem, shownLiteral])⟩

/-- Its bytes are a String constant for slot 23, inside the pool. -/
example : ∃ a b, RawConstant rich 24 [8, a, b] ∧ 24 < richCf.constantPool.length ∧ beNat [a, b] = 23 := by
  obtain ⟨h0, -, -, -, -, -, -, -, -, -, h1, h2⟩ := rich_pool
  obtain ⟨seg, raw, h3, h4, h5⟩ := raw_of_slot rich_accepted h1 (by intro h; cases h) (by intro h; cases h)
  cases raw <;> simp only [linkEntry, reduceCtorEq, Entry.string.injEq] at h4
  rename_i x
  cases x with
  | resolved k => exact h5.elim
  | unresolved k =>
    cases h5
    refine ⟨_, _, h3, by rw [h0]; decide, ?_⟩
    have : k.toNat = 23 := by simpa [link] using h4.symm
    exact (beNat_u2 k).trans this

end Cafebabe
