import Verif.Spec.Nested
/-!
# Specification: a class file with the parsed bytecode removed
-/

namespace Cafebabe.Spec

mutual
/-- Without the bytecode, at any depth. -/
def stripCode : CodeData → CodeData
  | ⟨maxStack, maxLocals, code, _, exceptionTable, attributes⟩ => ⟨maxStack, maxLocals, code, none, exceptionTable, stripAttrs attributes⟩

/-- The component with the bytecode removed from its attributes. -/
def stripComponent : RecordComponentEntry → RecordComponentEntry
  | ⟨name, descriptor, attributes⟩ => ⟨name, descriptor, stripAttrs attributes⟩

/-- Each component. -/
def stripComponents : List RecordComponentEntry → List RecordComponentEntry
  | [] => []
  | c :: cs => stripComponent c :: stripComponents cs

/-- The content with the bytecode removed, at any depth. -/
def stripData : AttributeData → AttributeData
  | .code c => .code (stripCode c)
  | .record l => .record (stripComponents l)
  | d => d

/-- The attribute with the bytecode removed, at any depth. -/
def stripAttr : AttributeInfo → AttributeInfo
  | ⟨name, data⟩ => ⟨name, stripData data⟩

/-- Each attribute. -/
def stripAttrs : List AttributeInfo → List AttributeInfo
  | [] => []
  | a :: as => stripAttr a :: stripAttrs as
end

/-- The class with every `CodeData.bytecode` set to `None`, at any depth; nothing else changes. -/
def strip (cf : ClassFile) : ClassFile :=
  { cf with
    fields := cf.fields.map fun f => { f with attributes := stripAttrs f.attributes }
    methods := cf.methods.map fun m => { m with attributes := stripAttrs m.attributes }
    attributes := stripAttrs cf.attributes }

/-- The options with bytecode parsing on. -/
def withBytecode (o : Opts) : Opts := { o with parseBytecode := true }

/-- The options with bytecode parsing off. -/
def withoutBytecode (o : Opts) : Opts := { o with parseBytecode := false }

end Cafebabe.Spec
