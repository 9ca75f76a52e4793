import Verif.Spec.ClassFile
import Verif.Spec.Chains
/-!
# Specification: outcomes of a call to the parser

The model of `parse_class_with_options` carries a recursion budget. These definitions remove it: a call accepts, rejects or panics when
some budget lets it finish that way, and hangs (recurses without end) when every budget is exhausted.
-/

namespace Cafebabe.Spec

/-- One run of `parse_class_with_options` with recursion budget `d`. -/
def run (o : Opts) (d : Nat) (bytes : Bytes) : Res ClassFile :=
  parseClassWithOptions { decode := o.decode, overflowChecks := o.checks, depth := d, parseBytecode := o.parseBytecode } bytes

/-- The call returns `Ok(cf)`. -/
def Accepts (o : Opts) (bytes : Bytes) (cf : ClassFile) : Prop := ∃ d, run o d bytes = .ok cf

/-- The call returns `Err(e)`. -/
def Rejects (o : Opts) (bytes : Bytes) (e : ParseError) : Prop := ∃ d, run o d bytes = .err e

/-- The call panics. -/
def Panics (o : Opts) (bytes : Bytes) (k : PanicKind) : Prop := ∃ d, run o d bytes = .panic k

/-- The call recurses without end. -/
def Hangs (o : Opts) (bytes : Bytes) : Prop := ∀ d, run o d bytes = .diverge

/-- The first eight bytes of a class file. -/
def header (minor major : UInt16) : Bytes := [0xCA, 0xFE, 0xBA, 0xBE] ++ u2 minor ++ u2 major

/-- The input starts with a header and a readable pool with all indices in range, whose check follows an endless chain of NameAndType
descriptors before any entry fails. -/
def StuckInput (o : Opts) (bytes : Bytes) : Prop :=
  ∃ minor major raw seg rest, bytes = header minor major ++ seg ++ rest ∧ RawPoolEnc o.decode o.checks major raw seg ∧
    RefsInRange raw ∧ PoolStuck major (raw.map linkEntry)

/-- Reading the pool makes the 16-bit slot counter overflow: constants are read, each starting below the declared count, until one ends
at slot 65536 or later. -/
def CounterOverflow (o : Opts) (bytes : Bytes) : Prop :=
  ∃ (minor major count : UInt16) (es : List Entry) (body rest : Bytes), bytes = header minor major ++ u2 count ++ body ++ rest ∧
    seq (EntryEnc o.decode major) es body ∧ (∀ k, k < es.length → slotCount (es.take k) < count.toNat) ∧ 65536 ≤ slotCount es

/-- The pool has a NameAndType entry whose descriptor text cannot be decoded. -/
def BadDescriptor (pool : Pool) : Prop :=
  ∃ (i : Nat) (x : CPRef) (y : Nat) (b : Bytes), pool[i]? = some (Entry.nameAndType x (.resolved y)) ∧
    pool[y]? = some (Entry.utf8Bytes b)

/-- The input starts with a header and a valid pool satisfying `Q`. -/
def StartsWithPool (o : Opts) (bytes : Bytes) (Q : Pool → Prop) : Prop :=
  ∃ minor major pool seg rest, bytes = header minor major ++ seg ++ rest ∧ PoolEnc o.decode o.checks major pool seg ∧ Q pool

end Cafebabe.Spec
