#!/usr/bin/env python3
"""Run the executable model on the crate's own test data: the assertions of the unit tests in /repo/src (descriptors.rs, bytecode.rs,
constant_pool/tests.rs, translated from the Rust text) and the class files under /repo/tests.  This tests that the model says
what the crate's authors say about the code; it proves nothing.  Needs a built tree; the Lean file it writes is temporary."""
import os, re, subprocess, sys, tempfile
root = os.path.dirname(os.path.dirname(os.path.abspath(__file__)))
repo = "/repo"
L = ["import Verif", "open Cafebabe Cafebabe.Examples", """
def tally (cs : List (String × Bool)) : IO Unit := do
  let bad := cs.filter (!·.2)
  IO.println s!"{cs.length} checks, {bad.length} failed"
  for b in bad do IO.println s!"FAILED {b.1}"
def S (s : String) : Str := s.toList
def okTrue : Res Bool → Bool | .ok true => true | _ => false
def okFalse : Res Bool → Bool | .ok false => true | _ => false
def isOk {α} : Res α → Bool | .ok _ => true | _ => false
def isErrX {α} : Res α → Bool | .err _ => true | _ => false
def errIs {α} (m : String) : Res α → Bool | .err e => e.contexts.isEmpty && e.msg == m | _ => false
def methodIs (s : Str) (f : MethodDescriptor → Bool) : Bool := match parseMethodDescriptor s 0 with | .ok d => f d | _ => false
"""]
checks = []
def check(label, expr): checks.append(f'({lstr(label)}, {expr})')
def lstr(s): return '"' + s.replace('\\', '\\\\').replace('"', '\\"') + '"'
# descriptors.rs
src = open(f"{repo}/src/descriptors.rs").read(); src = src[src.index("#[cfg(test)]"):]
for neg, kind, s in re.findall(r'assert!\((!?)is_(field|method)_descriptor\("([^"]*)"\)\);', src):
    check(f"is_{kind}_descriptor {s} {neg}", f'{"okFalse" if neg else "okTrue"} (is{kind.capitalize()}Descriptor (S "{s}"))')
for s, r in re.findall(r'assert!\(ClassName::try_from\(Cow::Borrowed\("([^"]*)"\)\).is_(ok|err)\(\)\);', src):
    check(f"ClassName::try_from {s} {r}", f'{"isOk" if r == "ok" else "isErrX"} (ClassName.tryFrom (S "{s}"))')
def fd(t):
    d, ty = re.match(r'dimensions: (\d+),\s*field_type: FieldType::(.*?),?\s*$', t.strip(), re.S).groups()
    m = re.match(r'Object\(ClassName\("([^"]*)"', ty)
    ty = f'(.object ⟨S "{m.group(1)}"⟩)' if m else '.' + ty[0].lower() + ty[1:]
    return f'(⟨{d}, {ty}⟩ : FieldDescriptor)'
for name, body in re.findall(r'fn (test_\w+)\(\) \{(.*?)\n    \}', src, re.S):
    m = re.search(r'let chars = Cow::from\("([^"]*)"', body)
    if not m: continue
    s = m.group(1)
    ps = [fd(x) for x in re.findall(r'parameters.next\(\).unwrap\(\),\s*FieldDescriptor \{(.*?)\}', body, re.S)]
    r = re.search(r'ReturnDescriptor::Return\(FieldDescriptor \{(.*?)\}', body, re.S)
    rt = f'(.ret {fd(r.group(1))})' if r else '.void'
    check(f"{name} {s}", f'methodIs (S "{s}") fun d => d.parameters = [{", ".join(ps)}] ∧ d.returnType = {rt} ∧ d.display = S "{s}"')
for n, r in ((255, "isOk"), (256, "isErrX")):
    check(f"test_max_array_depth {n}", f'{r} (parseMethodDescriptor (S "(" ++ List.replicate {n} \'[\' ++ S "J)V") 0)')
n_desc = len(checks)
# bytecode.rs
src = open(f"{repo}/src/bytecode.rs").read(); src = src[src.index("#[cfg(test)]"):]
ops = []
for m in re.finditer(r'opcodes: vec!\[(.*?)\]|get_opcode_index\((\d+)\), (None|Some\((\d+)\))', src):
    if m.group(2) is None: ops = re.findall(r'\((\d+), Opcode::Nop\)', m.group(1) or "")
    else:
        want = "none" if m.group(3) == "None" else f"some {m.group(4)}"
        check(f"get_opcode_index {ops} {m.group(2)}", f'(match ByteCode.getOpcodeIndex ⟨[{", ".join(f"({o}, .nop)" for o in ops)}]⟩ {m.group(2)} with | .ok r => r == {want} | _ => false)')
n_bc = len(checks)
# constant_pool/tests.rs
src = open(f"{repo}/src/constant_pool/tests.rs").read(); src = src[src.index("#[test]"):]
def parse(t):
    """one Rust expression -> (head, args); returns the rest"""
    t = t.lstrip()
    m = re.match(r'"([^"]*)"', t)
    if m: return ("str", m.group(1)), t[m.end():]
    m = re.match(r'&\[\]', t)
    if m: return ("bytes", []), t[m.end():]
    m = re.match(r'[\w:.]+', t); head = m.group(0); t = t[m.end():].lstrip()
    if not t.startswith("("): return (head, None), t
    args = []; t = t[1:].lstrip()
    while not t.startswith(")"):
        a, t = parse(t); args.append(a); t = t.lstrip()
        if t.startswith(","): t = t[1:].lstrip()
    return (head, args), t[1:]
def low(x): return x[0].lower() + x[1:]
def lower(e, pool, kind):
    """add the entry to the pool (its references first); returns its slot"""
    h, args = e
    if h in ("Zero", "Unused"): c = "." + low(h)
    elif h == "Utf8": c = f'.utf8 (S {lstr(args[0][1][0][1])})'
    elif h == "Utf8Bytes": c = ".utf8Bytes []"
    elif h in ("Integer", "Long"): c = f".{low(h)} {args[0][0]}"
    elif h == "Float": c = ".float 0x40000000"
    elif h == "Double": c = ".double 0x4010000000000000"
    else:
        out = []
        for a in args:
            if a[0] == "wrap": out.append(f"(.resolved {lower(a[1][0], pool, kind)})")
            elif a[0] == "kind": out.append("." + low(kind))
            else: out.append(a[0])
        c = f".{low(h)} {' '.join(out)}"
    pool.append(c); return len(pool) - 1
def vcheck(label, e, versions, kind, msg):
    pool = [".zero"]; i = lower(e, pool, kind)
    test = "isOk" if msg is None else f"errIs {lstr(msg)}"
    check(f"{label} versions {versions[0]}..{versions[-1]} {kind or ''}",
          f'(let pool : Pool := [{", ".join(pool)}]; (List.range {len(versions)}).all fun v => {test} (Entry.validate 100 pool (UInt16.ofNat (v + {versions[0]})) (pool[{i}]?.getD .zero)))')
ALL = range(45, 145)
for name, body in re.findall(r'fn (test_\w+)\(\) \{(.*?)\n\}', src, re.S):
    loops = re.split(r'for kind in \[([^\]]*)\] \{', body)
    parts = [([None], loops[0])] + [(re.findall(r'\w+', loops[i]), loops[i + 1]) for i in range(1, len(loops), 2)]
    for kinds, text in parts:
        for kind in kinds:
            m = re.search(r'for version in VERSIONS \{\s*let entry = (.*?);\s*if version >= (\d+)', text, re.S)
            if m:
                e, _ = parse(m.group(1)); lim = int(m.group(2))
                vcheck(name, e, [v for v in ALL if v >= lim], kind, None)
                vcheck(name, e, [v for v in ALL if v < lim], kind, "Unexpected constant pool reference type")
            for m in re.finditer(r'assert_validate_(passes|fails)!\(', text):
                if text[m.end():].lstrip().startswith("version"): continue
                e, rest = parse(text[m.end():])
                msg = re.match(r'\s*,\s*"([^"]*)"', rest)
                assert (msg is not None) == (m.group(1) == "fails"), (name, rest[:40])
                vcheck(f"{name} {e[0]}", e, ALL, kind, msg.group(1) if msg else None)
n_cp = len(checks)
CH = 200
for i in range(0, len(checks), CH):
    L.append(f"def cs{i // CH} : List (String × Bool) := [\n  " + ",\n  ".join(checks[i:i + CH]) + "]")
L.append("""
def readFile (p : String) : IO Bytes := do return (← IO.FS.readBinFile p).toList
/-- Modified UTF-8 (what `cesu8::from_java_cesu8` is documented to decode): one to three bytes, C0 80 for NUL, surrogate pairs as two triples. -/
partial def mutf8 : Bytes → Option Str
  | [] => some []
  | a :: r =>
    if a < 0x80 then (if a == 0 then none else (Char.ofNat a.toNat :: ·) <$> mutf8 r)
    else match r with
      | b :: r =>
        if b &&& 0xC0 != 0x80 then none
        else if a &&& 0xE0 == 0xC0 then
          let v := (a.toNat % 32) * 64 + b.toNat % 64
          if v < 0x80 && v != 0 then none else (Char.ofNat v :: ·) <$> mutf8 r
        else if a &&& 0xF0 == 0xE0 then
          match r with
          | c :: r =>
            if c &&& 0xC0 != 0x80 then none else
            let v := ((a.toNat % 16) * 64 + b.toNat % 64) * 64 + c.toNat % 64
            if v < 0x800 then none
            else if v < 0xD800 || v > 0xDFFF then (Char.ofNat v :: ·) <$> mutf8 r
            else match r with
              | 0xED :: e :: f :: r =>
                let w := (13 * 64 + e.toNat % 64) * 64 + f.toNat % 64
                if v < 0xDC00 && 0xDC00 ≤ w && w ≤ 0xDFFF then
                  (Char.ofNat (0x10000 + (v - 0xD800) * 1024 + (w - 0xDC00)) :: ·) <$> mutf8 r
                else none
              | _ => none
          | [] => none
        else none
      | [] => none
def envFor (n : Nat) : Env := { decode := mutf8, overflowChecks := true, depth := n, parseBytecode := true }
def items (it : ConstantPoolIter) : Nat → List ConstantPoolItem
  | 0 => []
  | n + 1 => match it.next with
    | .ok (some x, it') => x :: items it' n
    | _ => []
def describe (cf : ClassFile) : String :=
  s!"{String.ofList cf.thisClass.name} version {cf.majorVersion} pool {cf.constantPool.length} fields {cf.fields.length} methods {cf.methods.map fun m => String.ofList m.name ++ String.ofList m.descriptor.display} attributes {cf.attributes.map fun a => String.ofList a.name}"
def main : IO Unit := do""")
for i in range((len(checks) + CH - 1) // CH): L.append(f"  tally cs{i}")
L.append(f"""
  let b ← readFile "{repo}/tests/iterator/Object.class"
  match parseClass (envFor (b.length + 10)) b with
  | .ok cf =>
    IO.println ("Object.class: " ++ describe cf)
    let xs := items (.new cf.constantPool) 1000
    tally [("first", xs[0]? = some (.classInfo (S "java/lang/StringBuilder"))),
      ("second", xs[1]? = some (.methodRef ⟨S "java/lang/StringBuilder", ⟨S "<init>", S "()V"⟩⟩)),
      ("number of items", xs.length = 32), ("last", xs[31]? = some (.classInfo (S "java/lang/Throwable")))]
  | .err e => IO.println s!"FAILED Object.class: {{e.msg}} {{e.contexts}}"
  | _ => IO.println "FAILED Object.class"
  let b ← readFile "{repo}/tests/parse/clazz/Kotlin.clazz"
  match parseClass (envFor (b.length + 10)) b with
  | .ok cf => IO.println ("Kotlin.clazz: " ++ describe cf)
  | .err e => IO.println s!"FAILED Kotlin.clazz: {{e.msg}} {{e.contexts}}"
  | _ => IO.println "FAILED Kotlin.clazz"
""")
f = tempfile.NamedTemporaryFile("w", suffix=".lean", delete=False); f.write("\n".join(L)); f.close()
print(f.name, "descriptors", n_desc, "bytecode", n_bc - n_desc, "constant pool", n_cp - n_bc)
r = subprocess.run(["lake", "env", "lean", "--run", f.name], cwd=f"{root}/lean", capture_output=True, text=True)
print(r.stdout[-6000:], r.stderr[-3000:])
sys.exit(r.returncode or "FAILED" in r.stdout)
