import Verif.Spec.Layout
import Verif.Spec.Errors
/-!
# Specification: the error for a part that is wrong

`Blamed N pool p t e`: the bytes `t`, with which an input (or a code array) of `N` bytes ends, do not start with the part `p`, and `e`, message
and contexts, is the error for that. `FirstBlame N pool parts t e`: `t` starts with some of the parts, and `e` is the error for the next one.
-/

namespace Cafebabe.Spec

mutual
/-- The bytes do not start with this part, and the error for it. -/
inductive Blamed (N : Nat) (pool : Pool) : Part → Bytes → ParseError → Prop where
  | number {what : String} {size : Nat} {t : Bytes} : t.length < size → Blamed N pool (.number what size) t (cutOff N what t)
  | noIndex {ok : Nat → Prop} {about : Nat → String → Prop} {t : Bytes} : t.length < 2 → Blamed N pool (.constant ok about) t (cutOff N "u2" t)
  /-- There is no constant with this index. -/
  | outside {ok : Nat → Prop} {about : Nat → String → Prop} {i : UInt16} {t : Bytes} : pool.length ≤ i.toNat →
      Blamed N pool (.constant ok about) (u2 i ++ t) (plainly s!"Out-of-bounds index {i.toNat} in constant pool reference")
  /-- The constant is not suitable. -/
  | constant {ok : Nat → Prop} {about : Nat → String → Prop} {i : UInt16} {t : Bytes} {m : String} : about i.toNat m →
      Blamed N pool (.constant ok about) (u2 i ++ t) (plainly m)
  | judged {cs : List String} {ok fine : Nat → Prop} {about : Nat → String → Prop} {c : String} {t : Bytes} {e : ParseError} :
      Blamed N pool (.constant ok about) t e → Blamed N pool (.judged cs ok about fine c) t ⟨e.msg, e.contexts ++ cs⟩
  /-- The constant is of the right kind, but not fine. -/
  | notFine {cs : List String} {ok fine : Nat → Prop} {about : Nat → String → Prop} {c : String} {i : UInt16} {t : Bytes} : ok i.toNat →
      ¬ fine i.toNat → Blamed N pool (.judged cs ok about fine c) (u2 i ++ t) (plainly c)
  | noFlags {mask : UInt16} {c : ParseError} {t : Bytes} : t.length < 2 → Blamed N pool (.flags mask c) t (cutOff N "u2" t)
  /-- A bit outside the mask. -/
  | flags {mask v : UInt16} {c : ParseError} {t : Bytes} : v &&& mask ≠ v → Blamed N pool (.flags mask c) (u2 v ++ t) c
  | noCount1 {row : Nat → List Part} : Blamed N pool (.table1 row) [] (cutOff N "u1" [])
  /-- In one of the rows that are announced. -/
  | table1 {row : Nat → List Part} {n : UInt8} {t : Bytes} {e : ParseError} : FirstBlame N pool (rows n.toNat row) t e →
      Blamed N pool (.table1 row) (u1 n ++ t) e
  | noCount2 {row : Nat → List Part} {t : Bytes} : t.length < 2 → Blamed N pool (.table2 row) t (cutOff N "u2" t)
  | table2 {row : Nat → List Part} {n : UInt16} {t : Bytes} {e : ParseError} : FirstBlame N pool (rows n.toNat row) t e →
      Blamed N pool (.table2 row) (u2 n ++ t) e
  | noTag {follow : UInt8 → Option (List Part)} {c : UInt8 → ParseError} : Blamed N pool (.tagged follow c) [] (cutOff N "u1" [])
  /-- An unknown tag. -/
  | tag {follow : UInt8 → Option (List Part)} {c : UInt8 → ParseError} {b : UInt8} {t : Bytes} : follow b = none →
      Blamed N pool (.tagged follow c) (b :: t) (c b)
  | tagged {follow : UInt8 → Option (List Part)} {c : UInt8 → ParseError} {b : UInt8} {ps : List Part} {t : Bytes} {e : ParseError} :
      follow b = some ps → FirstBlame N pool ps t e → Blamed N pool (.tagged follow c) (b :: t) e
  /-- The error gets the context. -/
  | within {c : String} {ps : List Part} {t : Bytes} {e : ParseError} : FirstBlame N pool ps t e → Blamed N pool (.within c ps) t (inside c e)
  | noElementTag : Blamed N pool .elementValue [] (cutOff N "u1" [])
  | elementTag {b : UInt8} {t : Bytes} : elementParts pool b = none →
      Blamed N pool .elementValue (b :: t) (plainly s!"Unrecognized discriminant {Char.ofNat b.toNat}")
  | elementValue {b : UInt8} {ps : List Part} {t : Bytes} {e : ParseError} : elementParts pool b = some ps → FirstBlame N pool ps t e →
      Blamed N pool .elementValue (b :: t) e

/-- The bytes start with some of the parts, and then comes a part that is wrong. -/
inductive FirstBlame (N : Nat) (pool : Pool) : List Part → Bytes → ParseError → Prop where
  | here {p : Part} {ps : List Part} {t : Bytes} {e : ParseError} : Blamed N pool p t e → FirstBlame N pool (p :: ps) t e
  | later {p : Part} {ps : List Part} {s t : Bytes} {e : ParseError} : Fits pool p s → FirstBlame N pool ps t e →
      FirstBlame N pool (p :: ps) (s ++ t) e
end

end Cafebabe.Spec
