import Verif.Proofs.Open
/-!
# Proofs: the content of a predefined attribute determines its own length
-/

namespace Cafebabe
open Spec

theorem param_unique (pool : Pool) : Unique (MethodParameterEnc pool) := Exact.unique fun _ => ⟨_, readMethodParameterEntry_exact pool 0⟩
theorem require_unique (pool : Pool) : Unique (RequireEnc pool) := Exact.unique fun _ => ⟨_, readModuleRequire_exact pool 0⟩
theorem exports_unique (pool : Pool) : Unique (ExportsEnc pool) := Exact.unique fun _ => ⟨_, readModuleExports_exact pool 0⟩
theorem opens_unique (pool : Pool) : Unique (OpensEnc pool) := Exact.unique fun _ => ⟨_, readModuleOpens_exact pool 0⟩
theorem literal_unique (pool : Pool) : Unique (fun c => ref fun i => LiteralAt pool i c) := Exact.unique fun _ => ⟨_, readCpLiteralconstant_exact pool⟩
theorem classRef_unique (pool : Pool) : Unique (fun c => ref fun i => ClassAt pool i c) := Exact.unique fun _ => ⟨_, readCpClassinfo_exact pool⟩
theorem packageRef_unique (pool : Pool) : Unique (fun c => ref fun i => PackageAt pool i c) := Exact.unique fun _ => ⟨_, readCpPackageinfo_exact pool⟩
theorem textRef_unique (pool : Pool) : Unique (fun c => ref fun i => TextAt pool i c) := Exact.unique fun _ => ⟨_, readCpUtf8_exact pool⟩
theorem natOptRef_unique (pool : Pool) : Unique (fun c => ref fun i => OptAt NameAndTypeAt pool i c) := Exact.unique fun _ => ⟨_, readCpNameandtypeOpt_exact pool⟩
theorem frame_unique (pool : Pool) : Unique (FrameEnc pool) := Exact.unique fun _ => ⟨_, readStackMapEntry_exact pool 0⟩
theorem verification_unique (pool : Pool) : Unique (VerificationEnc pool) := Exact.unique fun _ => ⟨_, readStackmaptableVerification_exact pool⟩
theorem innerClass_unique (pool : Pool) : Unique (InnerClassEnc pool) := Exact.unique fun _ => ⟨_, readInnerClassEntry_exact pool 0⟩
theorem lineNumber_unique : Unique LineNumberEnc := Exact.unique fun _ => ⟨_, readLineNumberEntry_exact⟩
theorem localVariable_unique (pool : Pool) : Unique (LocalVariableEnc pool) := Exact.unique fun _ => ⟨_, readLocalVariableEntry_exact pool 0⟩
theorem localVariableType_unique (pool : Pool) : Unique (LocalVariableTypeEnc pool) := Exact.unique fun _ => ⟨_, readLocalVariableTypeEntry_exact pool 0⟩
theorem bootstrapMethod_unique (pool : Pool) : Unique (BootstrapMethodEnc pool) := Exact.unique fun _ => ⟨_, readBootstrapMethodEntry_exact pool 0⟩
theorem moduleData_unique (pool : Pool) : Unique (ModuleDataEnc pool) := Exact.unique fun _ => ⟨_, readModuleData_exact pool⟩
theorem annotation_unique (pool : Pool) : Unique (AnnotationEnc pool) := Exact.unique fun N => ⟨_, readAnnotation_exact pool N⟩
theorem elementValue_unique (pool : Pool) : Unique (ElementValueEnc pool) := Exact.unique fun N => ⟨_, readAnnotationElementValue_exact pool N⟩
theorem annotations_unique (pool : Pool) : Unique (table2 (AnnotationEnc pool)) := Exact.unique fun N => ⟨_, readAnnotationData_exact pool N⟩
theorem parameterAnnotations_unique (pool : Pool) : Unique (table1 (ParameterAnnotationEnc pool)) :=
  Exact.unique fun N => ⟨_, readParameterAnnotationData_exact pool N⟩
theorem typeAnnotations_unique (pool : Pool) : Unique (table2 (TypeAnnotationEnc pool)) := Exact.unique fun N => ⟨_, readTypeAnnotationData_exact pool N⟩
theorem typeAnnotation_unique (pool : Pool) : Unique (TypeAnnotationEnc pool) := Exact.unique fun N => ⟨_, readTypeAnnotation_exact pool N 0⟩
theorem params_unique (pool : Pool) : Unique (table1 (MethodParameterEnc pool)) :=
  Exact.unique fun _ => ⟨_, Exact.readTable1 fun i => readMethodParameterEntry_exact pool i⟩
theorem code_unique (o : Opts) (pool : Pool) : Unique (CodeEnc o pool) := Exact.unique fun N =>
  ⟨_, readCodeDataWith_exact (readAttributes_exact (envOf o N) pool N)⟩

/-- The content of a predefined attribute, other than SourceDebugExtension, determines where it ends. -/
theorem data_unique (o : Opts) (pool : Pool) {name : Str} (hn : name ∈ predefinedNames) (hd : name ≠ "SourceDebugExtension".toList) :
    Unique (DataEnc o pool name) := by
  intro d d' s t r r' h h' he
  have hk := (dataEnc_kind h).symm.trans (dataEnc_kind h')
  cases d <;> cases d' <;> try (cases hk; done)
  all_goals (rw [DataEnc] at h h')
  all_goals (try (simp only [componentsEnc_eq] at h h'))
  all_goals (obtain ⟨hn1, h⟩ := h; obtain ⟨-, h'⟩ := h')
  case constantValue => obtain ⟨rfl, rfl, -⟩ := (literal_unique pool).split h h' he; exact ⟨rfl, rfl⟩
  case code => obtain ⟨rfl, rfl, -⟩ := (code_unique o pool).split h h' he; exact ⟨rfl, rfl⟩
  case stackMapTable => obtain ⟨rfl, rfl, -⟩ := (frame_unique pool).table2.split h h' he; exact ⟨rfl, rfl⟩
  case exceptions => obtain ⟨rfl, rfl, -⟩ := (classRef_unique pool).table2.split h h' he; exact ⟨rfl, rfl⟩
  case innerClasses => obtain ⟨rfl, rfl, -⟩ := (innerClass_unique pool).table2.split h h' he; exact ⟨rfl, rfl⟩
  case enclosingMethod =>
    obtain ⟨s1, s2, rfl, h1, h2⟩ := h
    obtain ⟨t1, t2, rfl, h3, h4⟩ := h'
    obtain ⟨rfl, rfl, he2⟩ := (classRef_unique pool).split h1 h3 (r := s2 ++ r) (r' := t2 ++ r') (by simpa using he)
    obtain ⟨rfl, rfl, -⟩ := (natOptRef_unique pool).split h2 h4 he2
    exact ⟨rfl, rfl⟩
  case synthetic => exact ⟨rfl, h.trans h'.symm⟩
  case signature => obtain ⟨rfl, rfl, -⟩ := (textRef_unique pool).split h h' he; exact ⟨rfl, rfl⟩
  case sourceFile => obtain ⟨rfl, rfl, -⟩ := (textRef_unique pool).split h h' he; exact ⟨rfl, rfl⟩
  case sourceDebugExtension => exact absurd hn1 hd
  case lineNumberTable => obtain ⟨rfl, rfl, -⟩ := lineNumber_unique.table2.split h h' he; exact ⟨rfl, rfl⟩
  case localVariableTable => obtain ⟨rfl, rfl, -⟩ := (localVariable_unique pool).table2.split h h' he; exact ⟨rfl, rfl⟩
  case localVariableTypeTable => obtain ⟨rfl, rfl, -⟩ := (localVariableType_unique pool).table2.split h h' he; exact ⟨rfl, rfl⟩
  case deprecated => exact ⟨rfl, h.trans h'.symm⟩
  case runtimeVisibleAnnotations => obtain ⟨rfl, rfl, -⟩ := (annotations_unique pool).split h h' he; exact ⟨rfl, rfl⟩
  case runtimeInvisibleAnnotations => obtain ⟨rfl, rfl, -⟩ := (annotations_unique pool).split h h' he; exact ⟨rfl, rfl⟩
  case runtimeVisibleParameterAnnotations => obtain ⟨rfl, rfl, -⟩ := (parameterAnnotations_unique pool).split h h' he; exact ⟨rfl, rfl⟩
  case runtimeInvisibleParameterAnnotations => obtain ⟨rfl, rfl, -⟩ := (parameterAnnotations_unique pool).split h h' he; exact ⟨rfl, rfl⟩
  case runtimeVisibleTypeAnnotations => obtain ⟨rfl, rfl, -⟩ := (typeAnnotations_unique pool).split h h' he; exact ⟨rfl, rfl⟩
  case runtimeInvisibleTypeAnnotations => obtain ⟨rfl, rfl, -⟩ := (typeAnnotations_unique pool).split h h' he; exact ⟨rfl, rfl⟩
  case annotationDefault => obtain ⟨rfl, rfl, -⟩ := (elementValue_unique pool).split h h' he; exact ⟨rfl, rfl⟩
  case bootstrapMethods => obtain ⟨rfl, rfl, -⟩ := (bootstrapMethod_unique pool).table2.split h h' he; exact ⟨rfl, rfl⟩
  case methodParameters => obtain ⟨rfl, rfl, -⟩ := (params_unique pool).split h h' he; exact ⟨rfl, rfl⟩
  case moduleAttr => obtain ⟨rfl, rfl, -⟩ := (moduleData_unique pool).split h h' he; exact ⟨rfl, rfl⟩
  case modulePackages => obtain ⟨rfl, rfl, -⟩ := (packageRef_unique pool).table2.split h h' he; exact ⟨rfl, rfl⟩
  case moduleMainClass => obtain ⟨rfl, rfl, -⟩ := (classRef_unique pool).split h h' he; exact ⟨rfl, rfl⟩
  case nestHost => obtain ⟨rfl, rfl, -⟩ := (classRef_unique pool).split h h' he; exact ⟨rfl, rfl⟩
  case nestMembers => obtain ⟨rfl, rfl, -⟩ := (classRef_unique pool).table2.split h h' he; exact ⟨rfl, rfl⟩
  case permittedSubclasses => obtain ⟨rfl, rfl, -⟩ := (classRef_unique pool).table2.split h h' he; exact ⟨rfl, rfl⟩
  case record => obtain ⟨rfl, rfl, -⟩ := (component_unique o pool).table2.split h h' he; exact ⟨rfl, rfl⟩
  case other => exact absurd hn hn1

end Cafebabe
