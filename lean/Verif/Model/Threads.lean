import Verif.Model.Caught
/-!
# Model: the `threadsafe` feature

With the feature `threadsafe`, each reference stored in a constant pool entry sits in a `Mutex`
(`/repo/src/constant_pool.rs:19-22`) and `peel!` locks it (`/repo/src/constant_pool.rs:71-76`). The guard is a temporary of the
expression in which `peel!` stands: by the Rust rules for temporaries it lives to the end of the enclosing match arm, `if`
condition, statement or function body, whichever is the smallest, and guards are released in reverse order. So locks nest.

A piece of Rust code is modelled by the tree of its lock operations (`Prog`). `Machine` runs any number of such pieces, one per
thread, under any schedule, with the documented semantics of `std::sync::Mutex`: `lock` waits while any thread (the caller
included) holds the mutex, a guard dropped while its thread unwinds from a panic poisons the mutex, `lock` on a poisoned mutex
gives an error, which `unwrap` turns into a panic, and `try_lock` (used by `Debug for Mutex`) never waits. A mutex of a parsed
class is never written to (the only writer is `resolve`, run while the pool is built), so its contents are read from the pool.
-/

namespace Cafebabe

/-- The identity of a mutex: the slot of the entry that contains it, and whether it is the second of two. -/
structure Cell where
  slot : Nat
  second : Bool
deriving DecidableEq, Repr

/-- Lock operations of a piece of code, ending in its outcome. `poisoned` is the panic of `lock().unwrap()` on a poisoned mutex; `setIndex` is
an assignment to the field `index` of the iterator (`/repo/src/constant_pool.rs:1136`). -/
inductive Prog (α : Type) where
  | done (r : Res α)
  | poisoned
  | lock (c : Cell) (next : Prog α)
  | unlock (c : Cell) (next : Prog α)
  | tryLock (c : Cell) (yes no : Prog α)
  | setIndex (i : Nat) (next : Prog α)

namespace Prog

/-- Sequencing (`?`; panics propagate). -/
def bind {α β : Type} : Prog α → (α → Prog β) → Prog β
  | done (.ok a), f => f a
  | done (.err e), _ => done (.err e)
  | done (.panic k), _ => done (.panic k)
  | done .diverge, _ => done .diverge
  | poisoned, _ => poisoned
  | lock c p, f => lock c (p.bind f)
  | unlock c p, f => unlock c (p.bind f)
  | tryLock c p q, f => tryLock c (p.bind f) (q.bind f)
  | setIndex i p, f => setIndex i (p.bind f)

instance : Monad Prog where
  pure a := done (.ok a)
  bind := bind

/-- Drop the guard of `c` when the code returns, by `Ok` or `Err`; when it panics the guard is dropped by the unwinding. -/
def closing {α : Type} (c : Cell) : Prog α → Prog α
  | done (.ok a) => unlock c (done (.ok a))
  | done (.err e) => unlock c (done (.err e))
  | done (.panic k) => done (.panic k)
  | done .diverge => done .diverge
  | poisoned => poisoned
  | lock d p => lock d (p.closing c)
  | unlock d p => unlock d (p.closing c)
  | tryLock d p q => tryLock d (p.closing c) (q.closing c)
  | setIndex i p => setIndex i (p.closing c)

/-- `/repo/src/constant_pool.rs:74` `x.lock().unwrap()`, with the code that runs while the guard lives. -/
def guarded {α : Type} (c : Cell) (p : Prog α) : Prog α := lock c (p.closing c)

/-- Turn an `Err` into a panic (`.unwrap()`, `/repo/src/constant_pool.rs:1177`). -/
def unwrapL {α : Type} : Prog α → Prog α
  | done (.ok a) => done (.ok a)
  | done (.err _) => done (.panic .unwrapErr)
  | done (.panic k) => done (.panic k)
  | done .diverge => done .diverge
  | poisoned => poisoned
  | lock d p => lock d p.unwrapL
  | unlock d p => unlock d p.unwrapL
  | tryLock d p q => tryLock d p.unwrapL q.unwrapL
  | setIndex i p => setIndex i p.unwrapL

/-- `.map_err(..)` around code that locks (`/repo/src/constant_pool.rs:646-648`). -/
def mapErrL {α : Type} (context : String) : Prog α → Prog α
  | done r => done (r.mapErr context)
  | poisoned => poisoned
  | lock d p => lock d (p.mapErrL context)
  | unlock d p => unlock d (p.mapErrL context)
  | tryLock d p q => tryLock d (p.mapErrL context) (q.mapErrL context)
  | setIndex i p => setIndex i (p.mapErrL context)

end Prog

open Prog

/-- `/repo/src/constant_pool.rs:56-61` `ConstantPoolRef::get`, with the slot of the target. -/
def getTarget (pool : Pool) (r : CPRef) : Res (Nat × Entry) :=
  match r with
  | .unresolved _ => .panic .unresolved
  | .resolved slot =>
    match pool[slot]? with
    | some e => .ok (slot, e)
    | none => .panic .dangling

/-- `/repo/src/constant_pool.rs:71-76` `peel!(x)` where `x` is the mutex `c` with contents `r`; `k` is the code that runs until the
guard is dropped, given the slot and the contents of the target. -/
def peelL {α : Type} (pool : Pool) (c : Cell) (r : CPRef) (k : Nat → Entry → Prog α) : Prog α :=
  guarded c (Prog.bind (done (getTarget pool r)) fun (slot, e) => k slot e)

/-- `peel!(x).utf8()`, up to the end of the expression (`/repo/src/constant_pool.rs:398-403`). -/
def peelUtf8L (pool : Pool) (c : Cell) (x : CPRef) : Prog Str := peelL pool c x fun _ e => done e.getUtf8

/-- `peel!(x).string_literal()` (`/repo/src/constant_pool.rs:405-411`). -/
def peelStringLiteralL (pool : Pool) (c : Cell) (x : CPRef) : Prog LiteralConstant := peelL pool c x fun _ e => done e.stringLiteral

/-- `/repo/src/constant_pool.rs:413-418` `ConstantPoolEntry::classinfo` of slot `i`. -/
def classinfoL (pool : Pool) (i : Nat) : Entry → Prog Str
  | .classInfo x => peelUtf8L pool ⟨i, false⟩ x
  | _ => done (.panic .nonClassInfo)

/-- `NameAndType { name: peel!(x).utf8(), descriptor: peel!(y).utf8() }` (`/repo/src/constant_pool.rs:422-425`, 806-809, 1170-1173):
the guard of `x` lives while `y` is locked. -/
def nameAndTypeFieldsL (pool : Pool) (i : Nat) (x y : CPRef) : Prog NameAndType :=
  peelL pool ⟨i, false⟩ x fun _ ex =>
    Prog.bind (done ex.getUtf8) fun name =>
      peelL pool ⟨i, true⟩ y fun _ ey =>
        Prog.bind (done ey.getUtf8) fun descriptor => done (.ok { name := name, descriptor := descriptor })

/-- `/repo/src/constant_pool.rs:420-430` `ConstantPoolEntry::name_and_type` of slot `i`. -/
def nameAndTypeOfL (pool : Pool) (i : Nat) : Entry → Prog NameAndType
  | .nameAndType x y => nameAndTypeFieldsL pool i x y
  | _ => done (.panic .nonNameAndType)

/-- `peel!(c).classinfo()` and then `peel!(m).name_and_type()` in one expression: the guard of `c` lives while `m` is used
(`/repo/src/constant_pool.rs:907-910`, 1002-1004, 1007-1009, 1012-1014, 1154-1155, 1158-1159, 1163-1164). `f` builds the value. -/
def memberL {α : Type} (pool : Pool) (i : Nat) (c m : CPRef) (f : Str → NameAndType → α) : Prog α :=
  peelL pool ⟨i, false⟩ c fun cs ce =>
    Prog.bind (classinfoL pool cs ce) fun className =>
      peelL pool ⟨i, true⟩ m fun ms me =>
        Prog.bind (nameAndTypeOfL pool ms me) fun nameAndType => done (.ok (f className nameAndType))

/-- `MemberRef { .. }` of slot `i` (`/repo/src/constant_pool.rs:907-910`). -/
def makeMemberRefL (pool : Pool) (i : Nat) (c m : CPRef) : Prog MemberRef :=
  memberL pool i c m fun cn nt => { className := cn, nameAndType := nt }

/-- `Dynamic`/`InvokeDynamic` of slot `i` (`/repo/src/constant_pool.rs:927-930`, 973-976). -/
def makeDynamicL (pool : Pool) (i : Nat) (b : UInt16) (y : CPRef) : Prog DynamicRef :=
  peelL pool ⟨i, false⟩ y fun s e =>
    Prog.bind (nameAndTypeOfL pool s e) fun nt => done (.ok { attrIndex := b, nameAndType := nt })

/-- `/repo/src/constant_pool.rs:996-1024` `make_method_handle` for slot `i`: the guard of `y` is a temporary of the `let` statement
and lives through the whole `match`, also when an arm returns early. -/
def makeMethodHandleL (pool : Pool) (i : Nat) (x : ReferenceKind) (y : CPRef) : Prog MethodHandle :=
  peelL pool ⟨i, false⟩ y fun s e =>
    match e with
    | .fieldRef c m => memberL pool s c m fun cn nt => { kind := x, className := cn, memberKind := .field, memberRef := nt }
    | .methodRef c m => memberL pool s c m fun cn nt => { kind := x, className := cn, memberKind := .method, memberRef := nt }
    | .interfaceMethodRef c m =>
      memberL pool s c m fun cn nt => { kind := x, className := cn, memberKind := .interfaceMethod, memberRef := nt }
    | _ => done (Res.fail "Unexpected constant pool reference type")

/-- Apply a function to the value. -/
def mapL {α β : Type} (f : α → β) (p : Prog α) : Prog β := p.bind fun a => done (.ok (f a))

/-- `/repo/src/constant_pool.rs:958-978` the `match` of `get_cp_loadable` on slot `i`. -/
def loadableL (pool : Pool) (i : Nat) (e : Entry) : Prog Loadable :=
  match e with
  | .integer v => done (.ok (.literalConstant (.integer v)))
  | .float v => done (.ok (.literalConstant (.float v)))
  | .long v => done (.ok (.literalConstant (.long v)))
  | .double v => done (.ok (.literalConstant (.double v)))
  | .string v => mapL Loadable.literalConstant (peelStringLiteralL pool ⟨i, false⟩ v)
  | .classInfo x => mapL Loadable.classInfo (peelUtf8L pool ⟨i, false⟩ x)
  | .methodHandle x y => mapL Loadable.methodHandle (makeMethodHandleL pool i x y)
  | .methodType x => mapL Loadable.methodType (peelUtf8L pool ⟨i, false⟩ x)
  | .dynamic x y => mapL Loadable.dynamic (makeDynamicL pool i x y)
  | _ => done (Res.fail "Unexpected non-loadable constant pool reference found")

/-- `/repo/src/constant_pool.rs:1052-1074` the `match` of `read_cp_bootstrap_argument` on slot `i`. -/
def bootstrapArgumentL (pool : Pool) (i : Nat) (e : Entry) : Prog BootstrapArgument :=
  match e with
  | .integer v => done (.ok (.literalConstant (.integer v)))
  | .float v => done (.ok (.literalConstant (.float v)))
  | .long v => done (.ok (.literalConstant (.long v)))
  | .double v => done (.ok (.literalConstant (.double v)))
  | .string v => mapL BootstrapArgument.literalConstant (peelStringLiteralL pool ⟨i, false⟩ v)
  | .classInfo x => mapL BootstrapArgument.classInfo (peelUtf8L pool ⟨i, false⟩ x)
  | .methodHandle x y => mapL BootstrapArgument.methodHandle (makeMethodHandleL pool i x y)
  | .methodType x => mapL BootstrapArgument.methodType (peelUtf8L pool ⟨i, false⟩ x)
  | _ => done (Res.fail "Unexpected constant pool reference type")

/-- `/repo/src/constant_pool.rs:1137-1193` the `match` of `ConstantPoolIter::next` on slot `i`; `none` for `continue`. -/
def itemOfL (pool : Pool) (i : Nat) (e : Entry) : Prog (Option ConstantPoolItem) :=
  match e with
  | .zero => done (.panic .zeroItem)
  | .utf8 _ => done (.ok none)
  | .utf8Bytes _ => done (.ok none)
  | .integer v => done (.ok (some (.literalConstant (.integer v))))
  | .float v => done (.ok (some (.literalConstant (.float v))))
  | .long v => done (.ok (some (.literalConstant (.long v))))
  | .double v => done (.ok (some (.literalConstant (.double v))))
  | .classInfo x => mapL (some ∘ ConstantPoolItem.classInfo) (peelUtf8L pool ⟨i, false⟩ x)
  | .string x => mapL (some ∘ ConstantPoolItem.literalConstant) (peelStringLiteralL pool ⟨i, false⟩ x)
  | .fieldRef c m => mapL (some ∘ ConstantPoolItem.fieldRef) (makeMemberRefL pool i c m)
  | .methodRef c m => mapL (some ∘ ConstantPoolItem.methodRef) (makeMemberRefL pool i c m)
  | .interfaceMethodRef c m => mapL (some ∘ ConstantPoolItem.interfaceMethodRef) (makeMemberRefL pool i c m)
  | .nameAndType x y => mapL (some ∘ ConstantPoolItem.nameAndType) (nameAndTypeFieldsL pool i x y)
  | .methodHandle x y => mapL (some ∘ ConstantPoolItem.methodHandle) (unwrapL (makeMethodHandleL pool i x y))
  | .methodType x => mapL (some ∘ ConstantPoolItem.methodType) (peelUtf8L pool ⟨i, false⟩ x)
  | .dynamic x y => mapL (some ∘ ConstantPoolItem.dynamic) (makeDynamicL pool i x y)
  | .invokeDynamic x y => mapL (some ∘ ConstantPoolItem.invokeDynamic) (makeDynamicL pool i x y)
  | .moduleInfo x => mapL (some ∘ ConstantPoolItem.moduleInfo) (peelUtf8L pool ⟨i, false⟩ x)
  | .packageInfo x => mapL (some ∘ ConstantPoolItem.packageInfo) (peelUtf8L pool ⟨i, false⟩ x)
  | .unused => done (.ok none)

/-- The `while` loop of `/repo/src/constant_pool.rs:1134-1197`. -/
def iterNextLoopL (pool : Pool) : Nat → Nat → Prog (Option ConstantPoolItem × Nat)
  | 0, _ => done .diverge
  | fuel + 1, index =>
    if index + 1 < pool.length then
      setIndex (index + 1) <|
        Prog.bind (done (poolAt pool (index + 1))) fun e =>
          Prog.bind (itemOfL pool (index + 1) e) fun
            | some item => done (.ok (some item, index + 1))
            | none => iterNextLoopL pool fuel (index + 1)
    else done (.ok (none, index))

/-- `/repo/src/constant_pool.rs:1134-1197` `ConstantPoolIter::next` with locks. -/
def nextL (it : ConstantPoolIter) : Prog (Option ConstantPoolItem × ConstantPoolIter) :=
  Prog.bind (iterNextLoopL it.pool (it.pool.length + 1) it.index) fun (item, index) => done (.ok (item, { it with index := index }))

/-! ## Validation -/

/-- `/repo/src/constant_pool.rs:99-101` `CafeCell::ensure_type`: the guard is dropped when the function returns. -/
def ensureTypeL (pool : Pool) (c : Cell) (x : CPRef) (allowed : UInt32) : Prog Unit := peelL pool c x fun _ e => done (e.ensureType allowed)

/-- `/repo/src/constant_pool.rs:372-383` `validate_field_descriptor` of slot `i`. -/
def validateFieldDescriptorL (pool : Pool) (i : Nat) (self : Entry) : Prog Unit :=
  match self with
  | .nameAndType _ y =>
    Prog.bind (peelL pool ⟨i, true⟩ y fun _ e => Prog.bind (done e.str) fun s => done (isFieldDescriptor s)) fun b =>
      done (okIf b "Invalid field descriptor")
  | _ => done (.panic .nonDescriptor)

/-- `/repo/src/constant_pool.rs:385-396` `validate_method_descriptor` of slot `i`: the guard of `y` lives during the recursive call. -/
def validateMethodDescriptorL (pool : Pool) : Nat → Nat → Entry → Prog Unit
  | 0, _, _ => done .diverge
  | depth + 1, i, self =>
    match self with
    | .nameAndType _ y => peelL pool ⟨i, true⟩ y fun s e => validateMethodDescriptorL pool depth s e
    | e => Prog.bind (done e.str) fun s => Prog.bind (done (isMethodDescriptor s)) fun b => done (okIf b "Invalid method descriptor")

/-- `/repo/src/constant_pool.rs:238-314` `ConstantPoolEntry::validate` of slot `i`. -/
def validateL (depth : Nat) (pool : Pool) (majorVersion : UInt16) (i : Nat) (self : Entry) : Prog Unit :=
  match self with
  | .classInfo x =>
    Prog.bind (ensureTypeL pool ⟨i, false⟩ x EntryTypes.UTF8) fun _ => peelL pool ⟨i, false⟩ x fun _ e => done e.validateClassinfoName
  | .string x => ensureTypeL pool ⟨i, false⟩ x EntryTypes.UTF8
  | .fieldRef x y =>
    Prog.bind (ensureTypeL pool ⟨i, false⟩ x EntryTypes.CLASS_INFO) fun _ =>
    Prog.bind (ensureTypeL pool ⟨i, true⟩ y EntryTypes.NAME_AND_TYPE) fun _ =>
    peelL pool ⟨i, true⟩ y fun s e => validateFieldDescriptorL pool s e
  | .methodRef x y =>
    Prog.bind (ensureTypeL pool ⟨i, false⟩ x EntryTypes.CLASS_INFO) fun _ =>
    Prog.bind (ensureTypeL pool ⟨i, true⟩ y EntryTypes.NAME_AND_TYPE) fun _ =>
    peelL pool ⟨i, true⟩ y fun s e => validateMethodDescriptorL pool depth s e
  | .interfaceMethodRef x y =>
    Prog.bind (ensureTypeL pool ⟨i, false⟩ x EntryTypes.CLASS_INFO) fun _ =>
    Prog.bind (ensureTypeL pool ⟨i, true⟩ y EntryTypes.NAME_AND_TYPE) fun _ =>
    peelL pool ⟨i, true⟩ y fun s e => validateMethodDescriptorL pool depth s e
  | .nameAndType x y =>
    Prog.bind (ensureTypeL pool ⟨i, false⟩ x EntryTypes.UTF8) fun _ =>
    Prog.bind (peelL pool ⟨i, false⟩ x fun _ e => done e.validateUnqualifiedName) fun _ =>
    ensureTypeL pool ⟨i, true⟩ y EntryTypes.UTF8
  | .methodHandle x y => ensureTypeL pool ⟨i, false⟩ y (handleTargetTypes x majorVersion)
  | .methodType x =>
    Prog.bind (ensureTypeL pool ⟨i, false⟩ x EntryTypes.UTF8) fun _ =>
    peelL pool ⟨i, false⟩ x fun s e => validateMethodDescriptorL pool depth s e
  | .dynamic _ y =>
    Prog.bind (ensureTypeL pool ⟨i, false⟩ y EntryTypes.NAME_AND_TYPE) fun _ =>
    peelL pool ⟨i, false⟩ y fun s e => validateFieldDescriptorL pool s e
  | .invokeDynamic _ y =>
    Prog.bind (ensureTypeL pool ⟨i, false⟩ y EntryTypes.NAME_AND_TYPE) fun _ =>
    peelL pool ⟨i, false⟩ y fun s e => validateMethodDescriptorL pool depth s e
  | .moduleInfo x =>
    Prog.bind (ensureTypeL pool ⟨i, false⟩ x EntryTypes.UTF8) fun _ => peelL pool ⟨i, false⟩ x fun _ e => done e.validateModuleName
  | .packageInfo x =>
    Prog.bind (ensureTypeL pool ⟨i, false⟩ x EntryTypes.UTF8) fun _ => peelL pool ⟨i, false⟩ x fun _ e => done e.validateBinaryName
  | .zero | .utf8 _ | .utf8Bytes _ | .integer _ | .float _ | .long _ | .double _ | .unused => done (.ok ())

/-- `/repo/src/constant_pool.rs:641-651` `validate_constant_pool`, from slot `i`. -/
def validateFromL (depth : Nat) (pool : Pool) (majorVersion : UInt16) : Nat → List Entry → Prog Unit
  | _, [] => done (.ok ())
  | i, e :: es =>
    Prog.bind (mapErrL s!"constant pool entry {i}" (validateL depth pool majorVersion i e)) fun _ =>
      validateFromL depth pool majorVersion (i + 1) es

/-- `/repo/src/constant_pool.rs:641-651` `validate_constant_pool`. -/
def validateConstantPoolL (depth : Nat) (pool : Pool) (majorVersion : UInt16) : Prog Unit :=
  validateFromL depth pool majorVersion 0 pool

/-! ## Debug formatting -/

/-- What `{:?}` shows of an entry: the entry with what is shown for each of its references, or `<locked>`. The text itself and the
`poisoned: ..` marks are not modelled. -/
inductive Shown where
  | locked
  | entry (e : Entry) (parts : List Shown)

/-- The `Debug` implementation of `std::sync::Mutex` around the derived one of `ConstantPoolRef`
(`/repo/src/constant_pool.rs:24`): `try_lock`, format the contents while the guard lives, or `<locked>`. -/
def showCell (c : Cell) (inside : Prog Shown) : Prog Shown := tryLock c (inside.closing c) (done (.ok .locked))

/-- `/repo/src/constant_pool.rs:148-170` the derived `Debug for ConstantPoolEntry`, of slot `i`. The derived code follows references
without bound, so it takes the recursion budget. -/
def showL (pool : Pool) : Nat → Nat → Prog Shown
  | 0, _ => done .diverge
  | depth + 1, i =>
    let sub (c : Cell) (x : CPRef) : Prog Shown :=
      showCell c (match x with
        | .unresolved _ => done (.ok (.entry .unused []))
        | .resolved t => showL pool depth t)
    Prog.bind (done (poolAt pool i)) fun e =>
      match e with
      | .classInfo x | .string x | .methodHandle _ x | .methodType x | .dynamic _ x | .invokeDynamic _ x | .moduleInfo x
      | .packageInfo x => Prog.bind (sub ⟨i, false⟩ x) fun a => done (.ok (.entry e [a]))
      | .fieldRef x y | .methodRef x y | .interfaceMethodRef x y | .nameAndType x y =>
        Prog.bind (sub ⟨i, false⟩ x) fun a => Prog.bind (sub ⟨i, true⟩ y) fun b => done (.ok (.entry e [a, b]))
      | e => done (.ok (.entry e []))

/-- The constant pool part of the derived `Debug for ClassFile` (`/repo/src/lib.rs:321-333`): all slots in order, from slot `i`. -/
def showFromL (pool : Pool) (depth : Nat) : Nat → List Entry → Prog (List Shown)
  | _, [] => done (.ok [])
  | i, _ :: es =>
    Prog.bind (showL pool depth i) fun a => Prog.bind (showFromL pool depth (i + 1) es) fun as => done (.ok (a :: as))

/-- The constant pool part of the derived `Debug for ClassFile` (`/repo/src/lib.rs:321-333`). -/
def showPoolL (pool : Pool) : Prog (List Shown) := showFromL pool (pool.length + 4) 0 pool

/-! ## Threads -/

/-- What a thread may do with a shared class: call `next()` on its iterator, with or without catching a panic (`std::panic::catch_unwind`),
get a new iterator, or format the class. -/
inductive Call where
  | next
  | nextCaught
  | restart
  | debug
deriving DecidableEq, Repr

/-- What a call returns; `panicked` is the `Err` of `catch_unwind`. -/
inductive Reply where
  | item (item : Option ConstantPoolItem)
  | restarted
  | shown (s : List Shown)
  | panicked

/-- A thread: the calls it still has to make, its iterator as the last call left it, the guards it holds (newest first), the call under way,
the answers so far, the field `index` of its iterator during the call, and whether the call is one under `catch_unwind`. -/
structure Thread where
  calls : List Call
  iter : ConstantPoolIter
  held : List Cell
  run : Option (Prog (Reply × ConstantPoolIter))
  log : List Reply
  index : Nat
  catching : Bool

/-- The code run by a call (`/repo/src/lib.rs:337-339` `constantpool_iter`, `/repo/src/constant_pool.rs:1134-1197`,
`/repo/src/lib.rs:321-333`). -/
def Call.code (it : ConstantPoolIter) : Call → Prog (Reply × ConstantPoolIter)
  | .next | .nextCaught => mapL (fun (item, it') => (Reply.item item, it')) (nextL it)
  | .restart => done (.ok (.restarted, ConstantPoolIter.new it.pool))
  | .debug => mapL (fun s => (Reply.shown s, it)) (showPoolL it.pool)

/-- Threads sharing one class, and the poisoned mutexes. -/
structure Machine where
  threads : List Thread
  poison : Cell → Prop

/-- No thread holds the mutex. -/
def Machine.free (m : Machine) (c : Cell) : Prop := ∀ t ∈ m.threads, c ∉ t.held

/-- Mutex `c` becomes poisoned. -/
def Machine.poisoning (m : Machine) (c : Cell) : Cell → Prop := fun d => d = c ∨ m.poison d

/-- One step of a thread `t` in the machine `m`: the thread after the step and the poisoned mutexes after it. -/
inductive ThreadStep (m : Machine) : Thread → Thread → (Cell → Prop) → Prop where
  /-- begin the next call -/
  | call {t : Thread} {c : Call} {cs : List Call} : t.run = none → t.calls = c :: cs →
      ThreadStep m t { t with calls := cs, run := some (c.code t.iter), index := t.iter.index, catching := c == .nextCaught } m.poison
  /-- `lock` succeeds -/
  | lock {t : Thread} {c : Cell} {p : Prog (Reply × ConstantPoolIter)} : t.run = some (.lock c p) → m.free c → ¬ m.poison c →
      ThreadStep m t { t with held := c :: t.held, run := some p } m.poison
  /-- `lock` finds the mutex poisoned, `unwrap` panics -/
  | refused {t : Thread} {c : Cell} {p : Prog (Reply × ConstantPoolIter)} : t.run = some (.lock c p) → m.free c → m.poison c →
      ThreadStep m t { t with run := some .poisoned } m.poison
  /-- a guard is dropped -/
  | unlock {t : Thread} {c : Cell} {p : Prog (Reply × ConstantPoolIter)} : t.run = some (.unlock c p) →
      ThreadStep m t { t with held := t.held.erase c, run := some p } m.poison
  /-- `try_lock` succeeds, or finds the mutex free but poisoned -/
  | took {t : Thread} {c : Cell} {p q : Prog (Reply × ConstantPoolIter)} : t.run = some (.tryLock c p q) → m.free c →
      ThreadStep m t { t with held := c :: t.held, run := some p } m.poison
  /-- `try_lock` fails -/
  | missed {t : Thread} {c : Cell} {p q : Prog (Reply × ConstantPoolIter)} : t.run = some (.tryLock c p q) → ¬ m.free c →
      ThreadStep m t { t with run := some q } m.poison
  /-- the field `index` of the iterator is set -/
  | setIndex {t : Thread} {i : Nat} {p : Prog (Reply × ConstantPoolIter)} : t.run = some (.setIndex i p) →
      ThreadStep m t { t with index := i, run := some p } m.poison
  /-- the call returns -/
  | returned {t : Thread} {r : Reply} {it : ConstantPoolIter} : t.run = some (.done (.ok (r, it))) →
      ThreadStep m t { t with iter := it, run := none, log := t.log ++ [r] } m.poison
  /-- unwinding from a panic drops a guard, which poisons its mutex -/
  | unwind {t : Thread} {c : Cell} {cs : List Cell} {k : PanicKind} : t.run = some (.done (.panic k)) → t.held = c :: cs →
      ThreadStep m t { t with held := cs } (m.poisoning c)
  /-- the same, when the panic came from a poisoned mutex -/
  | unwindPoisoned {t : Thread} {c : Cell} {cs : List Cell} : t.run = some .poisoned → t.held = c :: cs →
      ThreadStep m t { t with held := cs } (m.poisoning c)
  /-- a panic reaches `catch_unwind`; the iterator is as the call left it -/
  | caught {t : Thread} {k : PanicKind} : t.run = some (.done (.panic k)) → t.held = [] → t.catching = true →
      ThreadStep m t { t with iter := { t.iter with index := t.index }, run := none, log := t.log ++ [.panicked] } m.poison
  /-- the same, when the panic came from a poisoned mutex -/
  | caughtPoisoned {t : Thread} : t.run = some .poisoned → t.held = [] → t.catching = true →
      ThreadStep m t { t with iter := { t.iter with index := t.index }, run := none, log := t.log ++ [.panicked] } m.poison

/-- One step of the machine: any thread makes a step, the others wait. -/
inductive Step : Machine → Machine → Prop where
  | mk {before after : List Thread} {t t' : Thread} {po po' : Cell → Prop} :
      ThreadStep ⟨before ++ t :: after, po⟩ t t' po' → Step ⟨before ++ t :: after, po⟩ ⟨before ++ t' :: after, po'⟩

/-- Threads about to make their calls on a class with this pool. -/
def Machine.start (pool : Pool) (jobs : List (List Call)) : Machine :=
  ⟨jobs.map fun cs => { calls := cs, iter := ConstantPoolIter.new pool, held := [], run := none, log := [],
                            index := 0, catching := false }, fun _ => False⟩

end Cafebabe
