import Verif.Spec.Run
/-!
# Specification: a class without some of its interfaces, members and attributes
-/

namespace Cafebabe.Spec

mutual
/-- The Code attribute with only the attributes that `keep` allows, at any depth. -/
def pruneCode (keep : AttributeInfo → Bool) : CodeData → CodeData
  | ⟨maxStack, maxLocals, code, bytecode, exceptionTable, attributes⟩ =>
    ⟨maxStack, maxLocals, code, bytecode, exceptionTable, pruneAttrs keep attributes⟩

/-- The component with only the attributes that `keep` allows, at any depth. -/
def pruneComponent (keep : AttributeInfo → Bool) : RecordComponentEntry → RecordComponentEntry
  | ⟨name, descriptor, attributes⟩ => ⟨name, descriptor, pruneAttrs keep attributes⟩

/-- Each component. -/
def pruneComponents (keep : AttributeInfo → Bool) : List RecordComponentEntry → List RecordComponentEntry
  | [] => []
  | c :: cs => pruneComponent keep c :: pruneComponents keep cs

/-- The content with only the nested attributes that `keep` allows, at any depth. -/
def pruneData (keep : AttributeInfo → Bool) : AttributeData → AttributeData
  | .code c => .code (pruneCode keep c)
  | .record l => .record (pruneComponents keep l)
  | d => d

/-- The attribute with only the nested attributes that `keep` allows, at any depth. -/
def pruneAttr (keep : AttributeInfo → Bool) : AttributeInfo → AttributeInfo
  | ⟨name, data⟩ => ⟨name, pruneData keep data⟩

/-- The attributes that `keep` allows, each with only the nested attributes that it allows. -/
def pruneAttrs (keep : AttributeInfo → Bool) : List AttributeInfo → List AttributeInfo
  | [] => []
  | a :: as => if keep a then pruneAttr keep a :: pruneAttrs keep as else pruneAttrs keep as
end

/-- What to keep of a class. -/
structure Keep where
  iface : ClassName → Bool
  field : FieldInfo → Bool
  method : MethodInfo → Bool
  attr : AttributeInfo → Bool

/-- The class with only the interfaces, fields, methods and attributes (at any depth) to be kept, in the same order. -/
def prune (k : Keep) (cf : ClassFile) : ClassFile :=
  { cf with
    interfaces := cf.interfaces.filter k.iface
    fields := (cf.fields.filter k.field).map fun f => { f with attributes := pruneAttrs k.attr f.attributes }
    methods := (cf.methods.filter k.method).map fun m => { m with attributes := pruneAttrs k.attr m.attributes }
    attributes := pruneAttrs k.attr cf.attributes }

/-- The BootstrapMethods attributes of the class are kept, or no constant needs them. -/
def KeepsBootstrap (k : Keep) (cf : ClassFile) : Prop :=
  (∀ a ∈ cf.attributes, (∃ l, a.data = .bootstrapMethods l) → k.attr a = true) ∨
    ∀ (x : UInt16) (r : CPRef), Entry.dynamic x r ∉ cf.constantPool ∧ Entry.invokeDynamic x r ∉ cf.constantPool

/-- The second list is the first with `a` inserted somewhere: directly, or nested at any depth in a Code attribute or in a component of a
Record attribute. The table that gets it had fewer than 65535 attributes. -/
inductive InsertIn (a : AttributeInfo) : List AttributeInfo → List AttributeInfo → Prop where
  | here (xs ys : List AttributeInfo) : xs.length + ys.length < 65535 → InsertIn a (xs ++ ys) (xs ++ a :: ys)
  | code (xs ys : List AttributeInfo) (name : Str) (c : CodeData) (as' : List AttributeInfo) : InsertIn a c.attributes as' →
      InsertIn a (xs ++ ⟨name, .code c⟩ :: ys) (xs ++ ⟨name, .code { c with attributes := as' }⟩ :: ys)
  | record (xs ys : List AttributeInfo) (name : Str) (rs ts : List RecordComponentEntry) (r : RecordComponentEntry)
      (as' : List AttributeInfo) : InsertIn a r.attributes as' →
      InsertIn a (xs ++ ⟨name, .record (rs ++ r :: ts)⟩ :: ys) (xs ++ ⟨name, .record (rs ++ { r with attributes := as' } :: ts)⟩ :: ys)

/-- `cf'` is `cf` with the attribute `a` inserted at one place anywhere in the class; nothing else differs. -/
inductive InsertOf (a : AttributeInfo) (cf : ClassFile) : ClassFile → Prop where
  | ofClass (as' : List AttributeInfo) : InsertIn a cf.attributes as' → InsertOf a cf { cf with attributes := as' }
  | ofField (fs gs : List FieldInfo) (f : FieldInfo) (as' : List AttributeInfo) : cf.fields = fs ++ f :: gs → InsertIn a f.attributes as' →
      InsertOf a cf { cf with fields := fs ++ { f with attributes := as' } :: gs }
  | ofMethod (fs gs : List MethodInfo) (f : MethodInfo) (as' : List AttributeInfo) : cf.methods = fs ++ f :: gs → InsertIn a f.attributes as' →
      InsertOf a cf { cf with methods := fs ++ { f with attributes := as' } :: gs }

end Cafebabe.Spec
