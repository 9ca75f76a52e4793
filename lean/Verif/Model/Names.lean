import Verif.Model.Basic
/-!
# Model: name predicates (`/repo/src/names.rs`)
-/

namespace Cafebabe

/-- `/repo/src/names.rs:14-16` `is_valid_unqualified_char`. -/
def isValidUnqualifiedChar (c : Char) : Bool := !(c == '.' || c == ';' || c == '[' || c == '/')

/-- `/repo/src/names.rs:10-12` `is_unqualified_name`. -/
def isUnqualifiedName (name : Str) : Bool := !name.isEmpty && name.all isValidUnqualifiedChar

/-- Rust `str::split('/')`: the pieces between slashes; the empty string has one (empty) piece. `cur` holds the current piece. -/
def splitSlashAux (cur : Str) : Str → List Str
  | [] => [cur]
  | c :: rest => if c == '/' then cur :: splitSlashAux [] rest else splitSlashAux (cur ++ [c]) rest

/-- Rust `name.split('/')`. -/
def splitSlash (name : Str) : List Str := splitSlashAux [] name

/-- `/repo/src/names.rs:1-8` `is_binary_name` (the loop returns false at the first bad segment). -/
def isBinaryName (name : Str) : Bool := (splitSlash name).all isUnqualifiedName

/-- `/repo/src/names.rs:31-33` `is_valid_unqualified_method_char`. -/
def isValidUnqualifiedMethodChar (c : Char) : Bool :=
  !(c == '.' || c == ';' || c == '[' || c == '/' || c == '<' || c == '>')

/-- `/repo/src/names.rs:18-29` `is_unqualified_method_name`. -/
def isUnqualifiedMethodName (name : Str) (allowInit allowClinit : Bool) : Bool :=
  match name with
  | [] => false
  | x :: chars =>
    if x == '<' then
      (allowInit && name == "<init>".toList) || (allowClinit && name == "<clinit>".toList)
    else if !isValidUnqualifiedMethodChar x then false
    else chars.all isValidUnqualifiedMethodChar

/-- `/repo/src/names.rs:35-50` `is_module_name` (the `while let` loop over `chars`). -/
def isModuleName : Str → Bool
  | [] => true
  | c :: chars =>
    if c.toNat ≤ 0x1F then false
    else if c == '\\' then
      match chars with
      | [] => false
      | d :: rest => if d == '\\' || d == ':' || d == '@' then isModuleName rest else false
    else if c == ':' || c == '@' then false
    else isModuleName chars

end Cafebabe
