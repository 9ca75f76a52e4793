import Verif.Proofs.Nested
/-!
# Proofs: running the parser over a known front part
-/

namespace Cafebabe
open Spec

theorem P.bind_run {α β : Type} {p : P α} {f : α → P β} {bytes : Bytes} {ix ix' : Nat} {a : α} (h : p bytes ix = .ok (a, ix')) :
    (p >>= f) bytes ix = f a bytes ix' := by
  show P.bind p f bytes ix = _
  unfold P.bind
  rw [h]

/-- Run an exact reader over a segment of its language. -/
theorem Exact.run {α : Type} {N : Nat} {p : P α} {F : α → Lang} (h : Exact N p F) {bytes pre seg rest : Bytes} {a : α}
    (hb : bytes = pre ++ (seg ++ rest)) (hF : F a seg) (hN : bytes.length < N) : p bytes pre.length = .ok (a, (pre ++ seg).length) := by
  refine (h bytes pre.length (by subst hb; simp) (by omega) a _).mpr ⟨seg, rest, by subst hb; simp, hF, by simp⟩

theorem Exact.bind_run {α β : Type} {N : Nat} {p : P α} {F : α → Lang} (h : Exact N p F) {f : α → P β} {bytes pre seg rest : Bytes} {a : α}
    (hb : bytes = pre ++ (seg ++ rest)) (hF : F a seg) (hN : bytes.length < N) :
    (p >>= f) bytes pre.length = f a bytes (pre ++ seg).length := P.bind_run (h.run hb hF hN)

/-- What happens after the interfaces. -/
def readBack (env : Env) (minor major : UInt16) (pool : Pool) (flags : UInt16) (this : ClassName) (super : Option ClassName)
    (ifs : List ClassName) : P ClassFile := do
  let fields ← readFields env pool
  let methods ← readMethods env pool (flagsContains16 flags AccessFlags.INTERFACE) major
  let attributes ← (readAttributes env pool env.depth).mapErr "class"
  checkAtEnd
  checkModuleEmpty flags super ifs fields methods
  P.lift (validateBootstrapMethods pool attributes)
  pure { majorVersion := major, minorVersion := minor, constantPool := pool,
         accessFlags := flags, thisClass := this, superClass := super, interfaces := ifs,
         fields := fields, methods := methods, attributes := attributes }

/-- After the header and a valid pool. -/
theorem pool_run {env : Env} {minor major : UInt16} {pool : Pool} {poolSeg rest bytes : Bytes} (hd : 2 ≤ env.depth)
    (hb : bytes.length < env.depth) (h : bytes = header minor major ++ poolSeg ++ rest)
    (hp : PoolEnc env.decode env.overflowChecks major pool poolSeg) :
    readClassFile env bytes 0 = readBody env minor major pool bytes (header minor major ++ poolSeg).length := by
  rw [readClassFile_eq]
  rw [show (0 : Nat) = ([] : Bytes).length from rfl,
    readHeader_exact.bind_run (a := (minor, major)) (seg := header minor major) (rest := poolSeg ++ rest) (by subst h; simp)
      rfl (N := env.depth) hb]
  rw [(readConstantPool_exact (N := env.depth) env hd major).bind_run (rest := rest) (by subst h; simp) hp hb]
  simp

theorem front_run {env : Env} {minor major : UInt16} {pool : Pool} {flags : UInt16} {seg rest bytes : Bytes} (hd : 2 ≤ env.depth)
    (hb : bytes.length < env.depth) (h : FrontEnc env.opts minor major pool flags seg) (hbytes : bytes = seg ++ rest) :
    ∃ this super ifs, readClassFile env bytes 0 = readBack env minor major pool flags this super ifs bytes seg.length := by
  obtain ⟨this, super, ifs, ⟨s1, t, rfl, rfl, s2, t, rfl, hp, s3, t, rfl, ⟨bits, hfl, rfl⟩, s4, t, rfl, ht, s5, s6, rfl, hs, hi⟩, hm⟩ := h
  have hok : PoolOK major pool := by obtain ⟨raw, -, -, hok⟩ := hp; exact hok
  refine ⟨this, super, ifs, ?_⟩
  rw [pool_run (minor := minor) hd hb (rest := u2 bits ++ (s4 ++ (s5 ++ s6)) ++ rest) (by subst hbytes; simp) hp]
  unfold readBody
  rw [Exact.readU2.bind_run (a := bits) (N := env.depth) (rest := s4 ++ (s5 ++ s6) ++ rest) (by subst hbytes; simp) rfl hb]
  have hfl' : fromBitsTruncate classMask bits = flags := by rw [classMask_eq, hfl]; rfl
  simp only [hfl']
  have hcm := (checkModuleFlags_exact (N := env.depth) flags major).run (a := ()) (bytes := bytes) (seg := [])
    (pre := header minor major ++ s2 ++ u2 bits) (rest := s4 ++ (s5 ++ s6) ++ rest) (by subst hbytes; simp) ⟨hm, rfl⟩ hb
  rw [List.append_nil] at hcm
  rw [P.bind_run hcm]
  rw [(Exact.mapErr (readClassName_exact (N := env.depth) hok) _).bind_run (a := this) (rest := s5 ++ s6 ++ rest) (by subst hbytes; simp) ht hb]
  rw [(Exact.mapErr (readClassNameOpt_exact (N := env.depth) hok) _).bind_run (a := super) (rest := s6 ++ rest) (by subst hbytes; simp) hs hb]
  unfold readInterfaces
  rw [(Exact.readTable2 fun i => Exact.mapErr (readClassName_exact (N := env.depth) hok) _).bind_run (a := ifs) (rest := rest)
    (by subst hbytes; simp) hi hb]
  unfold readBack
  simp

/-- An error of the body is an error of the parser. -/
theorem rejects_of_read {o : Opts} {bytes : Bytes} {e : ParseError} (h : readClassFile (envOf o (bytes.length + 2)) bytes 0 = .err e) :
    Rejects o bytes e := ⟨bytes.length + 2, by rw [run_eq, h]; rfl⟩

theorem P.bind_error {α β : Type} {p : P α} {f : α → P β} {bytes : Bytes} {ix : Nat} {e : ParseError} (h : p bytes ix = .err e) :
    (p >>= f) bytes ix = .err e := by
  show P.bind p f bytes ix = _
  unfold P.bind
  rw [h]

end Cafebabe
