# Formal model of staktrace/cafebabe in Lean 4

## 1. Approach

`lean/Verif/Model/*` is a function-by-function transcription of `/repo/src/*.rs` into total, computable
Lean functions.  `lean/Verif/Spec/*` is a separate, declarative specification (a grammar of encodings,
name/descriptor grammars, well-formedness of a constant pool) that does not use the parser.
`lean/Verif/Proofs/*` are helper lemmas, `lean/Verif/Props/*` are the property theorems (`theorem Cnn_...`), one file per group,
with `example`s or `..._witness` theorems showing that a concrete non-trivial case meets their hypotheses.

Modelling choices:

* A Rust `fn f(bytes, &mut ix, ..) -> Result<T, ParseError>` becomes `P T := Bytes → Nat → Res (T × Nat)`:
  the input slice, the index before, and the outcome with the index after.
* `Res` has four outcomes: `ok`, `err` (a `ParseError` with message and contexts), `panic kind` (every `panic!`,
  `unwrap`, out-of-range index/slice, off-boundary `str` slice and checked-arithmetic overflow of the Rust code is an explicit
  branch), and `diverge` (the recursion budget ran out).
* Integers keep their Rust types: `u8/u16/u32/u64` are `UInt8/16/32/64`, `i8/i16/i32/i64` are `Int8/16/32/64` (wrapping
  arithmetic), `as` casts are the corresponding conversions.  `usize` is `Nat`: this assumes a 64-bit target, where no index sum can
  wrap because slices are at most `isize::MAX` long; `Model/Width.lean` (C46) redoes every index sum for `w`-bit `usize`.
  `f32/f64` are represented by their bits.
* Build mode is a parameter `overflowChecks : Bool` (debug build: arithmetic overflow panics; release build: wraps).
* Recursion (`read_attributes` ↔ `read_code_data`/`read_record_data`, `read_annotation` ↔ `read_annotation_element_value`,
  `validate_method_descriptor`) takes a recursion budget `depth`; theorems show which budget always suffices and that results do
  not depend on it (C04).  The statements of the properties use `Accepts/Rejects/Panics/Hangs` (`Spec/Run.lean`), from which the budget
  is gone: "some budget lets the call finish so", resp. "no budget does".  `while`/`loop` loops take a step bound computed from the
  input that theorems show is never hit.
* Strings (`Cow<str>`, `&str`) are `List Char`; `str.len()` and slicing are in UTF-8 bytes, with a panic when a slice is off a boundary.
* `cesu8::from_java_cesu8` (a dependency, source not available here) is a parameter `decode : Bytes → Option Str`.  All positive
  theorems hold for every such function.  Concrete witnesses use a small ASCII decoder.  Only C58 and C60 fix the decoder: `Model/Cesu8.lean`
  follows the published source of cesu8 1.1.0 from memory and trusts `core::str::from_utf8` to be as the Unicode standard says.
* `Rc`/`Arc` + `RefCell`/`Mutex` references in the pool: a resolved reference is the index of the pool slot it aliases (the pool vector is
  never changed after construction).  `Model/Threads.lean` models the cells again as mutexes (C41, C47), `Model/Memory.lean` the reference
  counts (C63), `Model/Caught.lean` what a caught panic leaves of an iterator (C77).  `Model/Glue.lean` is the code the compiler generates to drop
  and print the rest of a class (C78).
* `HashSet` of (name, descriptor) is a list with membership.  `bitflags` types are their bit words.

Main proof devices:

* `Exact N p F` (`Proofs/Exact.lean`): with fewer than `N` bytes left, reader `p` returns `a` and stops at `ix'` exactly when the
  bytes from `ix` to `ix'` are in the language `F a`.  It composes through bind, loops and recursion; the instance for the whole parser
  is C03.
* `Tame N A c p` (`Proofs/Tame.lean`): `p` panics only in ways allowed by `A` and does not exhaust a budget of `N`.
* `Breaks N p G` (`Proofs/PanicsCode.lean`): `p` panics in the way `k` exactly when what is left of the input is in `G k`.  The instance
  for the whole parser is `C06_panics_iff`.
* `Agree`, `Grows`, `Moved`, `Stays`, `Narrow`, `Sim`: relational versions (two build modes, longer inputs, shifted inputs, other pointer
  width, locked cells).
* For threads: a transition system over per-thread continuations and mutex states; rank of the pool graph (C10) as the lock order.

## 2. Trusted base

* Lean 4.33.0 kernel; axioms used: `propext`, `Classical.choice`, `Quot.sound` only.  `AXIOMS.md` lists the axioms of every theorem named in
  `MANIFEST.json` (written by `tools/gen_axioms.py` from `#print axioms`).
* That the model transcribes the Rust code (each definition cites file and lines; `tools/check_citations.py` checks that the cited lines
  exist and mention the function) and that Rust semantics are as stated above.  `tools/conform.py` runs the model on the crate's own unit
  tests (144 assertions of `descriptors.rs`, `bytecode.rs`, `constant_pool/tests.rs` translated, over all class-file versions these
  loop over) and on the class files under `/repo/tests`; all agree.  This is testing of the transcription, not part of any proof.
* Modelled: all of `src/lib.rs`, `src/attributes.rs`, `src/bytecode.rs`, `src/constant_pool.rs`,
  `src/descriptors.rs`, `src/names.rs`, `src/error.rs` that decides results: every parsing, validating and iterating
  function, the `Display` of descriptors and errors, and (for C41, C47) the mutexes of the `threadsafe` feature.
* Not modelled: lifetimes; borrowing is modelled only as far as `Model/Cow` (C60) says; the text of `Debug` output, allocation failure (except the capacity requests of C44, C74 and
  C46), the text of the cesu8 crate's error (one message, about SourceDebugExtension), `Hash`/`Ord` derives
  (only that equality is structural), wall-clock time (only step counts: `Model/Work` and `Model/WorkParse`, C61 and C62; what counts as a step is said there; a `HashSet` lookup counts as one comparison), stack size (only recursion depth, C04/C27), `examples/`, `tests/`.
* Assumptions of particular properties.
  C41/C47: `std::sync::Mutex` excludes, is not reentrant (a relock blocks for ever), is poisoned by a panic while held, and a temporary guard is
  dropped at the end of its full expression / `match`; the cells are not written after parsing; the parser's own lookups happen one at a time,
  each returning with no lock held.  `Debug` of a mutex uses `try_lock`.
  C44: every other table takes its initial capacity from a `u8`/`u16` count, so only switch tables can ask for more than 65535 rows (all tables together: C74, `Model/Reserve`).
  C46: only `usize` sums and comparisons are widened; a slice is at most `isize::MAX` bytes.

## 3. Properties

| id | what is modelled | how it is proved |
|---|---|---|
| C01 | `parse_class_with_options`, readers | inversion of the parser |
| C02 | whole parser | prefix-freeness from the exactness theorem C03 |
| C03 | whole parser vs `Spec` grammar | `Exact` for every reader |
| C04 | recursion budget | `Tame`: budget > remaining bytes ⇒ no `diverge` outside pool validation |
| C05 | `validate_method_descriptor` | iff: descriptor chains that never end; cycle characterisation; `diverge` for all budgets on a concrete file |
| C06 | explicit panic branches | `Tame` gives the complete list, `Breaks` the exact set of inputs for each panic; witnesses of each kind |
| C07 | `overflowChecks` flag | relational lemma between the two runs |
| C08 | slot counter as `UInt16` | arithmetic of the counter; symbolic witness |
| C09–C13 | pool resolution + validation | validation ⇔ declarative `PoolOK` |
| C14, C15 | `ConstantPoolIter::next` | induction over slots; iff for the panic |
| C16, C17 | `ClassName::try_from` | loop invariant over segments |
| C18–C21 | class-level checks | inversion, induction over member lists |
| C22, C23 | `read_attributes` | corollaries of exactness; unique readability for the refusals |
| C24–C26, C43 | attribute readers | exactness lemmas, both directions, plus refusal theorems at any nesting |
| C27 | budget | family of witnesses by induction; upper bound from C04 |
| C28–C32 | bytecode | loop invariants; table facts over all 256 opcodes (whole finite domain); `Int32` arithmetic |
| C33 | `parse_bytecode` | relational lemma |
| C34–C36 | descriptors over `List Char` with byte offsets | grammar equivalence, round trip |
| C37 | names | list induction |
| C38 | readers | bit-level lemmas, two's complement |
| C39 | utf8 entries | corollary of pool exactness |
| C40 | flag masks | bit-level statement per context |
| C41 | lock programs of `next` (also under `catch_unwind`) and of formatting, any number of threads | transition system; rank argument over all interleavings; bounded total work |
| C42 | `ParseError` | list induction |
| C44 | `Vec::with_capacity` calls of the switch readers | bound and explicit family |
| C45 | all readers | `Moved`: runs at two positions of two inputs with the same bytes |
| C46 | `w`-bit `usize` arithmetic of the bounds checks | modular arithmetic, `Narrow` simulation |
| C47 | mutex cells in one thread | simulation of plain lookups by locked lookups; iff for self-deadlock |
| C48 | whole parser | grammar is closed under removing/inserting members and attributes; inserted via C03 |
| C49 | whole parser with error contexts | calculus `Blames N p G`: parser `p` fails with outermost context in `N q` exactly on the inputs described by `G q`; composed over the parser; contexts of different places differ |
| C50 | whole parser | `Goes π F G`: every string of `F` (old pool) can be rewritten to one of `G` (new pool); composed over the grammar; back to the parser by C03 |
| C51 | whole parser | `Fits F w`: every string of grammar `F` has at least `w` bytes; composed over the grammar; an explicit family of files for the lower bound |
| C52 | whole parser | both files in the grammar share everything after the header; version conditions of the grammar collected in `VersionAllows` |
| C53 | whole parser | `zeroed`: the class with those numbers set to 0; same `zeroed` means each string of the one grammar can be exchanged for one of the other of equal length (`Turns`), by mutual induction over attributes |
| C54 | `SaysEnd` (message prefix), `Accepts`/`Rejects`/`Panics`/`Hangs` on `bytes ++ extra` | `Grows` calculus: every reader either notices the end (error with the prefix) or gives the same outcome, and ends inside the input, on every extension |
| C55 | `AttrsTrail` (mutual inductive relation between a faulty table of attributes and its error), `AttrsAt`, `NamesAttr` | `Tells` calculus: what is left of the input and the error of each reader satisfy the relation; induction on the nesting budget; contexts determine name and number |
| C56 | `targetKinds` (groups of `target_type` bytes), `ReplaceOf`, `Accepts` of the patched file | in-place replacement of one attribute (C24) with the same attribute in another encoding; one instruction re-encoded inside `InsnsEnc`; for frames replacement by an attribute of another size, adapting the lengths around it (`resize_enc`) |
| C57 | `OpenFile` (a file cut before an attribute), `InsertOf`, `AttrOf` | induction on the cut gives the attribute read there; unique decodability of attributes; insertion (C48) of the encoding found elsewhere |
| C58 | the decoder of the crate (`Model/Cesu8`), `utf8`, `utf16`, `mutf8` of `Spec/Mutf8` | each step of the decoder inverts the encoding of one character (arithmetic on bytes), induction over the characters; C39 carries it to files |
| C59 | the constraints of `Spec/Format` on constants | the checked ones from C01, C02, C09, C22 and the pool invariant; the unchecked ones by acceptance theorems for a family of small files |
| C60 | `Cow` with its place in the input (`Model/Cow`): decoding, `parse_class_descriptor` and its callers; elsewhere a `Cow` is only moved or cloned | outcome by outcome agreement with the plain model; slices of borrowed text stay inside it; C39 and C58 for whole files; explicit family of files for the copies |
| C61 | the functions of `names.rs`, `descriptors.rs` and pool validation once more with a step counter (`Model/Work`) | erasure theorem (same outcome as the plain model); induction with an amortised bound per function; explicit family of files for the lower bound |
| C62 | the whole parser once more with a step counter (`Model/WorkParse`) | erasure theorem for the whole parser (same outcome as the plain model); potential argument: every byte read pays for a fixed number of steps (`Cost`), per function; explicit families of files for the lower bounds |
| C63 | reference counts of the constants (`Model/Memory`): a count per slot, the pointers stored in each constant, `Rc::drop` with an explicit recursion depth | counts equal the number of live pointers (invariant of resolving and of dropping, by induction on the depth); what keeps a positive count has a live predecessor, hence lies behind a cycle (finite graph); explicit families of files for the leak and for the depth |
| C64 | derived `PartialEq`, `Ord` and `Hash` of class names, descriptors, the two plain enums and `ParseError` (`Model/Compare`), over UTF-8 bytes | Display is a prefix code (induction over parameters and dimensions, `;` ends a name); UTF-8 of a smaller char is smaller at the first difference |
| C65 | one instruction of a code array replaced; static constraints of JVMS 4.9.1 as predicates on instructions (`Spec/Static`) | splitting the instruction list at a position (induction), C43 for the rest of the attribute, C48 for inserting code of any length; one file that breaks all constraints |
| C66 | classes as values, put together from parts of several accepted files; requirements of JVMS 4.1-4.7 that relate parts, as predicates on the result (`Spec/Assemble`) | the format theorem (C03) in both directions: the encoding of each part is taken from the file it was seen in; two files that between them break all listed requirements |
| C67 | the tree that `{:?}` prints for each constant (`showPoolL`, C47), its nodes, depth and text (`Spec/Show`) | induction over the printed tree with a bound for each kind of constant; a family of files with one text shared by all class constants |
| C68 | the errors of the code reader, instruction by instruction (`Spec/BytecodeTrail`) | case analysis over the opcode table for each way an instruction can fail, induction over the code for the first fault, and over the jumps of an instruction; lifted to files by C55 |
| C69 | the layouts of the attributes as lists of parts, with the contexts and messages of each (`Spec/Layout`) | a relation between readers and layouts (what is read has the layout, what has the layout is read, an error is about the first part that is wrong) that is closed under sequencing, tables, tags and contexts; induction over the nesting of annotation values; layouts are unambiguous by mutual induction; lifted to files by C55 |
| C70 | a relation from texts to messages, by the first fault from the left (`Spec/TextMessage`) | each loop returns an error exactly for the messages of the relation, by induction on the text that is left, with the deciders of C17 and C34 for the parts that are read before the fault |
| C71 | a relation from inputs to errors with their texts, by the first fault outside attributes (`Spec/Message`) | `Names`: each reader returns exactly the errors of the relation on what is left, composed through sequencing, loops and contexts with the exact languages of C01 for the parts before the fault; the constant pool by the outcome of each check |
| C72 | the relation of C71 with the errors in attributes: `Blamed`/`FirstBlame` over the layouts of C69, mutual relations for tables of attributes, Code, Record and their nesting, and the errors of bytecode (`Spec/Blame`, `Spec/AttributeMessage`, `Spec/CodeMessage`) | `Names` for the reader of attributes by induction on the depth, from the layouts and the unique readability of their parts; combined with the exact characterisations of the accepted, hanging and panicking inputs |
| C73 | `ParseError.display` on the errors of `Rejects`, through the description of all errors of C72 | a size for each part of each layout (`Light`), with bytes already read credited against the contexts they cause; mutual induction over the faults of C72; the lower bound is a family of nested arrays; for accepted inputs each reader reserves exactly the rows of the value it returns (`Keeps`, `Spec/Reserve`) |
| C74 | the whole parser once more, counting the arguments of `Vec::with_capacity` (`Model/Reserve`) | the counting parser gives the same outcomes (`Erases`); a potential argument for each reader (`Within`): rows reserved against bytes consumed when a value is returned, against bytes left in any outcome; the lower bound is a family of nested arrays; for accepted inputs each reader reserves exactly the rows of the value it returns (`Keeps`, `Spec/Reserve`) |
| C75 | the whole parser; `Spec/Slots` (pairs of results that differ in their constants only) | two-sided unambiguity (`Tw`): if one byte string begins with an encoding of `a` over one pool and of `b` over another, the segments are the same and `a`, `b` correspond; closed under concatenation, counts, tables, alternatives, then by induction over nested values, code, attributes |
| C76 | the whole parser; `Spec/Vary` (how one class can be written in two ways; the pieces are given by kind, not by position) | two encodings of one value vary (`Vs`): closed under concatenation, counts, tables, lengths, alternatives, then by induction over nested values and attributes; the number of constants from `CountOK` |
| C77 | `ConstantPoolIter::next` with its writes to `index` and what is left after a panic (`Model/Caught`), calls under `catch_unwind` as calls of the threads of C41 | induction over slots; the invariant of C41 extended by the place of the iterator: a call panics only at the slot the single-threaded call panics at, so poisoned mutexes are those of such slots |
| C78 | the tree of values of a parsed class, type by type, as drop glue and `#[derive(Debug)]` walk it (`Model/Glue`; leaves simplified; constants are in `Model/Memory` and `Model/Threads`) | height and size of the tree by mutual induction, against the nesting of C27 and the size of C51 |

Every property is fully stated and proved; where the natural English property is false of the code, the theorem states exactly for which inputs it
holds and a concrete input on which it fails is exhibited.

## 4. What the model shows about the code (proved)

1. Two NameAndType constants that are each other's descriptor make `parse_class` recurse for ever (C05); with `threadsafe` the same file
   deadlocks a single thread (C47).
2. A NameAndType whose descriptor bytes are not modified UTF-8 is accepted; an EnclosingMethod attribute naming it makes `parse_class` panic
   (C06), and otherwise `constantpool_iter` panics (C15).  With `threadsafe` such a panic poisons only that constant's own cells (C41).
3. The `u16` slot counter of the pool overflows when the last declared slot is a Long/Double at 65534/65535: debug panics, release reads on (C08).
4. `tableswitch` with low = i32::MIN, high = i32::MAX: debug panics; release wraps to zero jumps and accepts (C32).  A jump past i32::MAX: debug
   panics, release rejects (C06, C30).
5. Descriptors read outside the constant pool (fields, methods, records, local variables, annotations) accept trailing garbage (C34).
6. `ClassName::try_from` accepts "" and "a/" (C17).  '<' and '>' are refused in `this_class` though accepted in a Class constant.
7. The MODULE-flag check ignores flag bits the crate does not know (C20); empty module names are accepted (C13).
8. Recursion depth is bounded only by the input length (C27); switch tables reserve capacity from their header alone (C44), which panics on
   32-bit targets (C46).  On 32-bit targets an unknown attribute with a huge declared length panics (C46; 44-byte witness).
9. `Debug` of a shared class in a `threadsafe` build may print `<locked>` depending on the schedule (C47 models `try_lock`).
10. The lists of a parsed class are bounded by the file size, but method descriptors are parsed anew for each method: 120 kB give 240 million
    `FieldDescriptor`s (C51). (Read off the source, not proved: `Cow::Owned` texts are cloned at every 2-byte reference in the same way.)
11. Every version number, 0 and 65535 included, is accepted; only the contents listed in C52 need a minimum.
12. Exception handlers, line numbers, variable ranges and slots, frame offsets and type annotation targets may hold any numbers (C53); only jumps
    (C30) and bootstrap indices (C21) are checked.
13. Type annotation targets lose their kind (field, return type and receiver are all `Empty`), and `invokestatic`/`invokespecial` do not show
    whether they name a class or an interface method; stack map frames do not show whether they were written short or extended; none of this can be recovered from the result (C56).
14. Attributes are read by name alone: a predefined name where the JVM must ignore it (wrong structure, version too old) is still decoded, and a
    file that is valid for a JVM is refused if the content does not have the predefined layout (C57).
15. A name with a lone surrogate, legal for the JVM, is refused, while plain UTF-8 (four-byte sequences, bare zero bytes), illegal for the JVM, is
    understood (C58).
16. The README says that all of JVMS 4.8 is checked, but 4.8 includes the constraints of 4.4, of which these are not checked: names of Methodrefs
    beginning with `<`, names in method handles (4.4.8), descriptors of NameAndType constants that nobody refers to, bytes 0 and F0 - FF in Utf8
    constants, Module and Package constants outside modules (C59).
17. Text that is not plain UTF-8 is copied for every mention: a file of 200 kilobytes can make 4 gigabytes of copies (C60).
18. Each Class constant checks its name again: validation is quadratic, a file of 262158 bytes takes more than 4.29 * 10^9 steps (C61).
19. `validate_bootstrap_methods` walks over all class attributes for each Dynamic or InvokeDynamic constant: a file of 720916 bytes takes more than 4.29 * 10^9 steps (C62).
20. Constants that refer to each other in a cycle are never freed when the file is rejected (`Rc` cycle): a service that parses untrusted files leaks up to 65534 constants per 196612-byte file. Dropping a rejected chain of Class constants recurses once per constant, up to 65535 levels (C63).
21. A field descriptor put together by hand from `ClassName::try_from("")` prints as `L;`, which no descriptor reader accepts (C64).
22. Code arrays of length 0 and of 65536 bytes and more are accepted, and none of the constraints of JVMS 4.9.1 on single instructions is checked (C65).
23. Of the requirements of JVMS 4.1 to 4.7 that relate parts of a class, only distinct members, `<init>`/`<clinit>` descriptors, module restrictions and bootstrap indices are checked; e.g. a class other than `java/lang/Object` without super class, an abstract method with two Code attributes or 256 parameters are accepted (C66).
24. `{:?}` of a class prints the text of a constant anew wherever it is referenced: a 256 KB file prints more than 4 GB (C67).
25. An error about an instruction whose operand is the index of an unsuitable constant says nothing about the place of the instruction; other indices are counted from the start of the code (C68).
26. A name of a method parameter that is not an unqualified name is reported as one "for variable K", with no context naming the parameter; the field of a SourceFile attribute is called its "signature field" (C69).
27. (C71) A field whose descriptor is malformed is rejected with an error that has no context and no number: it does not say which field is wrong, while for the name of a field, for a method and for a duplicate the error does (`/repo/src/lib.rs:179`, `parse_field_descriptor` without `map_err`; `C71_unnamed_field`).
28. *Errors longer than the input.* Each level of nested element values adds a context to the error, so a rejected input of 3n + 58 bytes gives an error text of more than 17n characters, for every n (`C73_nested`, `C73_long`); a caller that logs errors of untrusted inputs logs more than five times the input. It is never more than 7 times the input plus a constant (`C73_linear`).
29. *Nested tables are reserved at full declared size.* Each nested element value of an annotation reserves as many rows as its count declares before reading the first one, and keeps them while it reads the next level (the model only sums up, but a reader that returns a value has every row it reserved in that value, `Keeps` in `Proofs/ReserveExact`, so nothing is given back before an error): for 3n + 58 bytes 65535n rows are reserved before the input is rejected (`C74_nested`, `C74_rate`), so an input of 3 kB asks for 65 million rows. Accepted inputs reserve at most one row per byte (`C74_accepted`).
30. *The last Long or Double need not be counted in full.* If the last constant takes two slots, a `constant_pool_count` one less than the format demands is accepted with the same result (`C76_count`).
31. *The panic of C15 is contained.* A program that catches it can go on with the same iterator or a new one, also with `threadsafe`: the mutexes poisoned are locked by nothing but showing the same constant again (`C77_again`).
32. *Dropping recurses without bound.* A class with deeply nested annotations that was parsed on a thread with a large stack can overflow the stack of the thread that drops or prints it: drop glue of `AnnotationElementValue` recurses as deeply as the values are nested (`C78_unbounded`).

## 5. Testing the theorems

`seeded/LOG.jsonl` records the wrong programs tried: each line is one edit of the model, the claims it breaks, the theorems that then fail.
`seeded/AUTO.jsonl` records further edits, made mechanically (one token of a definition of the model changed, chosen at random): for each whether some proof then fails and in which module first; an edit after which all theorems still prove has a note saying why no claim is false of it. (There a failing proof only shows that the edit is noticed; `LOG.jsonl` is about theorems.)
