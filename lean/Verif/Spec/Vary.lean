import Verif.Spec.Lost
/-!
# Specification: ways of writing the same class

`Vary o pool s t`: `t` is `s` with pieces of the following kinds written differently, and no other change.
-/

namespace Cafebabe.Spec

/-- Two slots that stand for the same thing. For descriptors this ignores text after the descriptor. -/
inductive Alike (pool : Pool) (i j : Nat) : Prop where
  | absent : pool[i]? = some .zero → pool[j]? = some .zero → Alike pool i j
  | text {s : Str} : TextAt pool i s → TextAt pool j s → Alike pool i j
  | fieldDescriptor {d : FieldDescriptor} : FieldDescriptorAt pool i d → FieldDescriptorAt pool j d → Alike pool i j
  | methodDescriptor {d : MethodDescriptor} : MethodDescriptorAt pool i d → MethodDescriptorAt pool j d → Alike pool i j
  | literal {c : LiteralConstant} : LiteralAt pool i c → LiteralAt pool j c → Alike pool i j
  | class {s : Str} : ClassAt pool i s → ClassAt pool j s → Alike pool i j
  | module {s : Str} : ModuleAt pool i s → ModuleAt pool j s → Alike pool i j
  | package {s : Str} : PackageAt pool i s → PackageAt pool j s → Alike pool i j
  | nameAndType {n : NameAndType} : NameAndTypeAt pool i n → NameAndTypeAt pool j n → Alike pool i j
  | methodHandle {h : MethodHandle} : MethodHandleAt pool i h → MethodHandleAt pool j h → Alike pool i j
  | methodType {s : Str} : MethodTypeAt pool i s → MethodTypeAt pool j s → Alike pool i j

/-- The same class written in another way. -/
inductive Vary (o : Opts) (pool : Pool) : Bytes → Bytes → Prop where
  /-- A piece that is the same. -/
  | same {s : Bytes} : Vary o pool s s
  /-- One piece after the other. -/
  | both {s t s' t' : Bytes} : Vary o pool s t → Vary o pool s' t' → Vary o pool (s ++ s') (t ++ t')
  /-- The other way round. -/
  | symm {s t : Bytes} : Vary o pool s t → Vary o pool t s
  /-- Another index of the same constant. -/
  | index {i j : UInt16} : Alike pool i.toNat j.toNat → Vary o pool (u2 i) (u2 j)
  /-- Undefined bits in the access flags of the class, a field, a method, an inner class. -/
  | flags {mask a b : UInt16} : mask ∈ [0xF631, 0x50DF, 0x1DFF, 0x761F] → a &&& mask = b &&& mask → Vary o pool (u2 a) (u2 b)
  /-- Another kind of target of a type annotation. -/
  | target {t : TypeAnnotationTarget} {a b : UInt8} : a ∈ targetKinds t → b ∈ targetKinds t → Vary o pool [a] [b]
  /-- The beginning of a frame in its short and its extended form. -/
  | sameFrame {d : UInt16} : d < 64 → Vary o pool [d.toUInt8] ([251] ++ u2 d)
  | oneItemFrame {d : UInt16} : d < 64 → Vary o pool [64 + d.toUInt8] ([247] ++ u2 d)
  /-- Another spelling of the same text, in the constants. -/
  | text {a b : Bytes} {s : Str} {n m : UInt16} : o.decode a = some s → o.decode b = some s → n.toNat = a.length → m.toNat = b.length →
      Vary o pool ([1] ++ u2 n ++ a) ([1] ++ u2 m ++ b)
  /-- Another spelling of the same text, as the content of an attribute, which is preceded by its length. -/
  | content {a b : Bytes} {s : Str} {n m : UInt32} : o.decode a = some s → o.decode b = some s → n.toNat = a.length → m.toNat = b.length →
      Vary o pool (u4 n ++ a) (u4 m ++ b)
  /-- The content of an attribute, preceded by its length. -/
  | sized {s t : Bytes} {n m : UInt32} : Vary o pool s t → n.toNat = s.length → m.toNat = t.length → Vary o pool (u4 n ++ s) (u4 m ++ t)
  /-- The number of constants, if the last one takes two slots. -/
  | count {n m : UInt16} : pool.getLast? = some .unused → n.toNat + 1 = m.toNat → m.toNat = pool.length % 65536 → Vary o pool (u2 n) (u2 m)

end Cafebabe.Spec
