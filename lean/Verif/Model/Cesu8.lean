import Verif.Model.Basic
/-!
# Model of `cesu8::from_java_cesu8` (crate `cesu8` 1.1.0)

The crate is a dependency (`/repo/Cargo.toml:25`), called in `/repo/src/constant_pool.rs:464` and `/repo/src/attributes.rs:1128`. Its source is
not part of `/repo` and not in this sandbox; this module follows the published source of version 1.1.0. Only C58 uses it: everywhere else the
decoder is an arbitrary function (`Env.decode`).

Simplified: the crate writes UTF-8 bytes into a vector and computes with bit operations; here characters are produced, by arithmetic. The
crate asserts that its output is valid UTF-8; that holds here by construction.
-/

namespace Cafebabe.Cesu8

/-- `core::str::from_utf8` (standard library), one character: the well-formed sequences of the Unicode standard, table 3-7. -/
def utf8Step : Bytes → Option (Char × Bytes)
  | [] => none
  | a :: r =>
    if a.toNat < 128 then some (Char.ofNat a.toNat, r)
    else match r with
      | [] => none
      | b :: r =>
        if b.toNat < 128 ∨ 191 < b.toNat then none
        else if 0xC2 ≤ a.toNat ∧ a.toNat ≤ 0xDF then some (Char.ofNat ((a.toNat - 0xC0) * 64 + (b.toNat - 128)), r)
        else match r with
          | [] => none
          | c :: r =>
            if c.toNat < 128 ∨ 191 < c.toNat then none
            else if (a.toNat = 0xE0 ∧ 0xA0 ≤ b.toNat) ∨ (0xE1 ≤ a.toNat ∧ a.toNat ≤ 0xEC) ∨ (a.toNat = 0xED ∧ b.toNat ≤ 0x9F) ∨
                (0xEE ≤ a.toNat ∧ a.toNat ≤ 0xEF) then
              some (Char.ofNat ((a.toNat - 0xE0) * 4096 + (b.toNat - 128) * 64 + (c.toNat - 128)), r)
            else match r with
              | [] => none
              | d :: r =>
                if d.toNat < 128 ∨ 191 < d.toNat then none
                else if (a.toNat = 0xF0 ∧ 0x90 ≤ b.toNat) ∨ (0xF1 ≤ a.toNat ∧ a.toNat ≤ 0xF3) ∨ (a.toNat = 0xF4 ∧ b.toNat ≤ 0x8F) then
                  some (Char.ofNat ((a.toNat - 0xF0) * 262144 + (b.toNat - 128) * 4096 + (c.toNat - 128) * 64 + (d.toNat - 128)), r)
                else none

/-- `decode_from_iter` of the crate, variant Java, one character: no zero byte; `C0 80` is U+0000; two- and three-byte sequences as in UTF-8;
two three-byte sequences for a surrogate pair; no four-byte sequence. -/
def javaStep : Bytes → Option (Char × Bytes)
  | [] => none
  | a :: r =>
    if a.toNat = 0 then none
    else if a.toNat < 128 then some (Char.ofNat a.toNat, r)
    else match r with
      | [] => none
      | b :: r =>
        if a.toNat = 0xC0 then (if b.toNat = 0x80 then some (Char.ofNat 0, r) else none)
        else if b.toNat < 128 ∨ 191 < b.toNat then none
        else if 0xC2 ≤ a.toNat ∧ a.toNat ≤ 0xDF then some (Char.ofNat ((a.toNat - 0xC0) * 64 + (b.toNat - 128)), r)
        else match r with
          | [] => none
          | c :: r =>
            if c.toNat < 128 ∨ 191 < c.toNat then none
            else if (a.toNat = 0xE0 ∧ 0xA0 ≤ b.toNat) ∨ (0xE1 ≤ a.toNat ∧ a.toNat ≤ 0xEC) ∨ (a.toNat = 0xED ∧ b.toNat ≤ 0x9F) ∨
                (0xEE ≤ a.toNat ∧ a.toNat ≤ 0xEF) then
              some (Char.ofNat ((a.toNat - 0xE0) * 4096 + (b.toNat - 128) * 64 + (c.toNat - 128)), r)
            else if a.toNat = 0xED ∧ b.toNat ≤ 0xAF then
              match r with
              | d :: e :: f :: r =>
                if d.toNat = 0xED ∧ (0xB0 ≤ e.toNat ∧ e.toNat ≤ 0xBF) ∧ (128 ≤ f.toNat ∧ f.toNat ≤ 191) then
                  some (Char.ofNat (0x10000 + ((b.toNat - 0xA0) * 64 + (c.toNat - 128)) * 1024 + ((e.toNat - 0xB0) * 64 + (f.toNat - 128))), r)
                else none
              | _ => none
            else none

/-- The loop over the characters, with the number of bytes as budget. -/
def decodeAll (step : Bytes → Option (Char × Bytes)) : Nat → Bytes → Option Str
  | _, [] => some []
  | 0, _ :: _ => none
  | n + 1, b :: bs =>
    match step (b :: bs) with
    | none => none
    | some (c, r) => (decodeAll step n r).map (c :: ·)

/-- `core::str::from_utf8`. -/
def fromUtf8 (b : Bytes) : Option Str := decodeAll utf8Step b.length b

/-- `decode_from_iter(.., Variant::Java)`. -/
def fromJava (b : Bytes) : Option Str := decodeAll javaStep b.length b

/-- `cesu8::from_java_cesu8`: valid UTF-8 is taken as it is (`Cow::Borrowed`), anything else is decoded as modified UTF-8 (`Cow::Owned`). -/
def fromJavaCesu8 (b : Bytes) : Option Str :=
  match fromUtf8 b with
  | some s => some s
  | none => fromJava b

end Cafebabe.Cesu8
