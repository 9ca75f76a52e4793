import Verif.Spec.Open
/-!
# Specification: replacing one attribute of a class file
-/

namespace Cafebabe.Spec

/-- The second list is the first with one occurrence of `a` replaced by `a'`: directly, or nested at any depth in a Code attribute or in a
component of a Record attribute. -/
inductive ReplaceIn (a a' : AttributeInfo) : List AttributeInfo → List AttributeInfo → Prop where
  | here (xs ys : List AttributeInfo) : ReplaceIn a a' (xs ++ a :: ys) (xs ++ a' :: ys)
  | code (xs ys : List AttributeInfo) (name : Str) (c : CodeData) (as' : List AttributeInfo) : ReplaceIn a a' c.attributes as' →
      ReplaceIn a a' (xs ++ ⟨name, .code c⟩ :: ys) (xs ++ ⟨name, .code { c with attributes := as' }⟩ :: ys)
  | record (xs ys : List AttributeInfo) (name : Str) (rs ts : List RecordComponentEntry) (r : RecordComponentEntry)
      (as' : List AttributeInfo) : ReplaceIn a a' r.attributes as' →
      ReplaceIn a a' (xs ++ ⟨name, .record (rs ++ r :: ts)⟩ :: ys) (xs ++ ⟨name, .record (rs ++ { r with attributes := as' } :: ts)⟩ :: ys)

/-- `cf'` is `cf` with one occurrence of the attribute `a`, anywhere in the class, replaced by `a'`; nothing else differs. -/
inductive ReplaceOf (a a' : AttributeInfo) (cf : ClassFile) : ClassFile → Prop where
  | ofClass (as' : List AttributeInfo) : ReplaceIn a a' cf.attributes as' → ReplaceOf a a' cf { cf with attributes := as' }
  | ofField (fs gs : List FieldInfo) (f : FieldInfo) (as' : List AttributeInfo) : cf.fields = fs ++ f :: gs → ReplaceIn a a' f.attributes as' →
      ReplaceOf a a' cf { cf with fields := fs ++ { f with attributes := as' } :: gs }
  | ofMethod (fs gs : List MethodInfo) (f : MethodInfo) (as' : List AttributeInfo) : cf.methods = fs ++ f :: gs → ReplaceIn a a' f.attributes as' →
      ReplaceOf a a' cf { cf with methods := fs ++ { f with attributes := as' } :: gs }

/-- Not a BootstrapMethods attribute (which the check of C21 looks at). -/
def NotBootstrap (a : AttributeInfo) : Prop := ∀ l, a.data ≠ .bootstrapMethods l

end Cafebabe.Spec
