import Verif.Model.Basic
/-!
# Specification: UTF-8, UTF-16 and modified UTF-8 (Unicode 3.9, JVMS 4.4.7)

No function of the model is used.
-/

namespace Cafebabe.Spec

/-- The UTF-8 encoding of a character. -/
def utf8Char (c : Char) : Bytes :=
  let n := c.toNat
  if n < 0x80 then [UInt8.ofNat n]
  else if n < 0x800 then [UInt8.ofNat (0xC0 + n / 64), UInt8.ofNat (0x80 + n % 64)]
  else if n < 0x10000 then [UInt8.ofNat (0xE0 + n / 4096), UInt8.ofNat (0x80 + n / 64 % 64), UInt8.ofNat (0x80 + n % 64)]
  else [UInt8.ofNat (0xF0 + n / 262144), UInt8.ofNat (0x80 + n / 4096 % 64), UInt8.ofNat (0x80 + n / 64 % 64), UInt8.ofNat (0x80 + n % 64)]

/-- The UTF-8 encoding of a text. -/
def utf8 (s : Str) : Bytes := s.flatMap utf8Char

/-- The UTF-16 code units of a character: one, or a surrogate pair. -/
def utf16Char (c : Char) : List UInt16 :=
  let n := c.toNat
  if n < 0x10000 then [UInt16.ofNat n]
  else [UInt16.ofNat (0xD800 + (n - 0x10000) / 1024), UInt16.ofNat (0xDC00 + (n - 0x10000) % 1024)]

/-- The UTF-16 code units of a text. -/
def utf16 (s : Str) : List UInt16 := s.flatMap utf16Char

/-- JVMS 4.4.7: the encoding of one code unit. U+0000 takes two bytes; surrogates are encoded like any other unit. -/
def unitBytes (u : UInt16) : Bytes :=
  let n := u.toNat
  if 1 ≤ n ∧ n < 0x80 then [UInt8.ofNat n]
  else if n < 0x800 then [UInt8.ofNat (0xC0 + n / 64), UInt8.ofNat (0x80 + n % 64)]
  else [UInt8.ofNat (0xE0 + n / 4096), UInt8.ofNat (0x80 + n / 64 % 64), UInt8.ofNat (0x80 + n % 64)]

/-- JVMS 4.4.7: the modified UTF-8 encoding of a Java string, which is any sequence of code units. -/
def mutf8 (us : List UInt16) : Bytes := us.flatMap unitBytes

end Cafebabe.Spec
