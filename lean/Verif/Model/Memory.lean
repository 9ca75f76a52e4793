import Verif.Model.ClassFile
/-!
# Model: the memory of the constants (`CafeRc` = `Rc`, or `Arc` with the feature threadsafe)

Elsewhere in the model a resolved reference is the number of the slot it leads to. In the code it is a reference counted pointer
(`/repo/src/constant_pool.rs:24-28`, `/repo/src/lib.rs:40-43`): the vector of constants holds one pointer to each constant, and resolving a
reference stores a second one inside the constant that refers. Here is when a constant is dropped: when the last pointer to it is. Modelled are
the places that make pointers that last (`/repo/src/constant_pool.rs:49,660,664,694`) and the end of the vector, which is when the
`ClassFile` is dropped or when the parser returns an error or panics after the constants were read. All other clones
(`/repo/src/constant_pool.rs:714`) are temporary: they are dropped by the function that made them, before the vector is.
-/

namespace Cafebabe

/-- The constants in memory: for each slot the reference count, the pointers stored in the constant (in the order of its fields), and the slots
whose constant has been dropped, the last one first. -/
structure Heap where
  strong : Nat → Nat
  holds : Nat → List Nat
  dropped : List Nat

namespace Heap

/-- After the loop of `/repo/src/constant_pool.rs:660-696`: `n` constants, one pointer to each, in the vector; all references unresolved. -/
def fresh (n : Nat) : Heap := { strong := fun i => if i < n then 1 else 0, holds := fun _ => [], dropped := [] }

/-- `*self = ConstantPoolRef::Resolved(pool[target].clone())`, `/repo/src/constant_pool.rs:49`, in the constant of slot `myIndex`. -/
def link (h : Heap) (myIndex target : Nat) : Heap :=
  { h with strong := fun i => if i = target then h.strong i + 1 else h.strong i,
           holds := fun i => if i = myIndex then h.holds i ++ [target] else h.holds i }

/-- `Rc::drop`, first half: one pointer less (standard library). -/
def release (h : Heap) (i : Nat) : Heap := { h with strong := fun j => if j = i then h.strong j - 1 else h.strong j }

/-- `Rc::drop`, when no pointer is left: the constant is dropped. Its memory is returned as soon as its fields are dropped. -/
def free (h : Heap) (i : Nat) : Heap := { h with dropped := i :: h.dropped }

end Heap

/-- `/repo/src/constant_pool.rs:31-54` `ConstantPoolRef::resolve`, on a reference of the constant in slot `myIndex`; `len` is `pool.len()`. -/
def CPRef.resolveH (self : CPRef) (myIndex len : Nat) (h : Heap) : Res Unit × Heap :=
  match self with
  | .unresolved ix =>
    let target := ix.toNat
    if target = myIndex then
      (Res.fail s!"Constant pool entry at index {myIndex} could not be resolved due to self-reference", h)
    else if target ≥ len then
      (Res.fail s!"Constant pool entry at index {myIndex} references out-of-bounds index {target}", h)
    else (.ok (), h.link myIndex target)
  | .resolved _ => (.ok (), h)

/-- `/repo/src/constant_pool.rs:202-206`: two references, the second one only if the first can be resolved. -/
def resolveBothH (x y : CPRef) (myIndex len : Nat) (h : Heap) : Res Unit × Heap :=
  match x.resolveH myIndex len h with
  | (.ok _, h') => y.resolveH myIndex len h'
  | (r, h') => (r, h')

/-- `/repo/src/constant_pool.rs:173-208` `ConstantPoolEntry::resolve`. -/
def Entry.resolveH (self : Entry) (myIndex len : Nat) (h : Heap) : Res Unit × Heap :=
  match self with
  | .zero | .utf8 _ | .utf8Bytes _ | .integer _ | .float _ | .long _ | .double _ | .unused => (.ok (), h)
  | .classInfo x | .string x | .methodHandle _ x | .methodType x | .dynamic _ x | .invokeDynamic _ x | .moduleInfo x | .packageInfo x =>
    x.resolveH myIndex len h
  | .fieldRef x y | .methodRef x y | .interfaceMethodRef x y | .nameAndType x y => resolveBothH x y myIndex len h

/-- `/repo/src/constant_pool.rs:634-639` `resolve_constant_pool`, from slot `i`. What was resolved before an error stays resolved. -/
def resolveFromH (len : Nat) : Nat → List Entry → Heap → Res Unit × Heap
  | _, [], h => (.ok (), h)
  | i, e :: es, h =>
    match e.resolveH i len h with
    | (.ok _, h') => resolveFromH len (i + 1) es h'
    | (r, h') => (r, h')

/-- `/repo/src/constant_pool.rs:634-639` `resolve_constant_pool`, on the constants as read. -/
def resolveConstantPoolH (raw : Pool) : Res Unit × Heap := resolveFromH raw.length 0 raw (Heap.fresh raw.length)

/-- Dropping one pointer to the constant of slot `i` (`Rc::drop`, standard library): the count goes down; if it is zero then the constant is
dropped, that is, the pointers it stores are dropped in the order of its fields (derived drop of `/repo/src/constant_pool.rs:148-170`). `depth`
bounds the recursion; `none` means that it was not enough. -/
def dropRc : Nat → Nat → Heap → Option Heap
  | 0, _, _ => none
  | depth + 1, i, h =>
    if (h.release i).strong i = 0 then (h.holds i).foldlM (fun h j => dropRc depth j h) ((h.release i).free i)
    else some (h.release i)

/-- Dropping the vector `constant_pool` (`/repo/src/lib.rs:325`, `/repo/src/constant_pool.rs:659`): its `n` pointers in order. -/
def dropPool (depth n : Nat) (h : Heap) : Option Heap := (List.range n).foldlM (fun h i => dropRc depth i h) h

/-- The part of `/repo/src/lib.rs:373-395` up to `/repo/src/constant_pool.rs:697`: the constants as read, before references are resolved. -/
def readConstants (env : Env) : P Pool := do
  let magic ← readU4
  P.failIf (magic != 0xCAFEBABE) "Unexpected magic header"
  let _ ← readU2
  let majorVersion ← readU2
  readRawPool env majorVersion

/-- The constants in memory when parsing ends, whatever its outcome, together with their number. `none`: they were not read completely. (Then no
reference has been resolved, and each of the constants read so far is dropped with the only pointer to it.) -/
def poolMemory (env : Env) (rawBytes : Bytes) : Option (Nat × Heap) :=
  match readConstants env rawBytes 0 with
  | .ok (raw, _) => some (raw.length, (resolveConstantPoolH raw).2)
  | _ => none

end Cafebabe
