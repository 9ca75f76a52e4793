{"id": "C01", "title": "Magic number and version words", "statement": "parse_class returns Ok only if the input starts with the bytes CA FE BA BE; the reported minor_version and major_version are the big-endian values of bytes 4-5 and 6-7; any input that starts otherwise, or is shorter than 4 bytes, yields Err.", "quantifier": "every byte string, both settings of parse_bytecode, both build modes", "why_tests_cant": "The set of byte strings is infinite; a test only samples headers.", "anchors": ["src/lib.rs:parse_class_with_options", "src/lib.rs:read_u4", "src/lib.rs:read_u2"]}
{"id": "C02", "title": "Whole input is consumed", "statement": "If parse_class accepts an input then it accepts no proper extension and no proper prefix of that input: every byte of an accepted file is part of the structure, and truncated or padded files are rejected.", "quantifier": "every accepted byte string and every non-empty suffix / every proper prefix", "why_tests_cant": "Needs all truncation points and all possible trailing data of all files.", "anchors": ["src/lib.rs:parse_class_with_options", "src/attributes.rs:read_attributes"]}
{"id": "C03", "title": "Acceptance is exactly the class-file grammar", "statement": "parse_class returns Ok(cf) for an input exactly when the input is an encoding of cf according to a declarative grammar of the class-file format (JVMS 4.1-4.7 layout plus the checks the crate documents); in particular the result is unique and every field of cf equals the encoded value.", "quantifier": "every byte string and every ClassFile value", "why_tests_cant": "Soundness and completeness both quantify over all inputs; tests compare with a handful of javac outputs.", "anchors": ["src/lib.rs:parse_class_with_options", "src/lib.rs:read_fields", "src/lib.rs:read_methods", "src/lib.rs:read_interfaces", "src/attributes.rs", "src/constant_pool.rs"]}
{"id": "C04", "title": "Parsing always returns", "statement": "For every input parse_class terminates after recursion depth at most linear in the input length, returning Ok or Err (or panicking), PROVIDED the constant pool has no NameAndType whose descriptor chain is cyclic. (The unconditional claim is false of the code: see C05.)", "quantifier": "every byte string", "why_tests_cant": "Termination for all inputs is not observable by running finitely many inputs.", "anchors": ["src/attributes.rs:read_attributes", "src/attributes.rs:read_annotation_element_value", "src/bytecode.rs:read_opcodes", "src/constant_pool.rs:read_constant_pool", "src/constant_pool.rs:ConstantPoolEntry::validate_method_descriptor"]}
{"id": "C05", "title": "Cyclic NameAndType descriptors", "statement": "A user expects a class file whose constant pool contains NameAndType entries that use each other as descriptors to be rejected with Err. Determine for every pool whether validation returns: it fails to return (unbounded recursion / stack overflow, self-deadlock with the threadsafe feature) exactly when a MethodRef/InterfaceMethodRef/InvokeDynamic entry reaches a descriptor cycle before another entry has failed validation.", "quantifier": "every constant pool", "why_tests_cant": "Non-termination cannot be established by a finite run, and the bad pools are adversarial.", "anchors": ["src/constant_pool.rs:validate_method_descriptor", "src/constant_pool.rs:validate_constant_pool"]}
{"id": "C06", "title": "Parsing does not panic", "statement": "parse_class never panics: for every input it returns Ok or Err. The full claim is false of the code (witnesses: EnclosingMethod naming a NameAndType whose descriptor is not decodable; integer overflow in overflow-checked builds). What holds: the complete list of reachable panics is exactly those two kinds, in a build without overflow checks the only reachable panic is the EnclosingMethod one, and the inputs on which each panic happens are characterised exactly: everything read before is well formed, and what stands there is such an attribute, slot counter, tableswitch or jump.", "quantifier": "every byte string, both build modes", "why_tests_cant": "Absence of panics is universally quantified over inputs; fuzzing only samples.", "anchors": ["src/constant_pool.rs:ConstantPoolEntry::utf8", "src/constant_pool.rs:ConstantPoolRef::get", "src/constant_pool.rs:read_cp_nameandtype_opt", "src/bytecode.rs:read_opcodes", "src/descriptors.rs:ClassName::try_from"]}
{"id": "C07", "title": "Build modes agree", "statement": "If an overflow-checked (debug) build does not panic on an input, a release build returns the identical result, so behaviour differs between build modes only on inputs where the debug build panics with arithmetic overflow.", "quantifier": "every byte string", "why_tests_cant": "Needs a comparison of two semantics on all inputs.", "anchors": ["src/constant_pool.rs:read_constant_pool", "src/bytecode.rs:read_opcodes", "src/bytecode.rs:ByteCode::validate_jump"]}
{"id": "C08", "title": "Constant-pool counter overflow", "statement": "A constant pool whose declared count is 65535 and whose last declared slot starts a Long/Double makes the slot counter overflow: a debug build panics, and a release build keeps reading pool entries past the declared count instead of stopping. For every other input the pool holds exactly `count` slots (or count+1 when the last entry is two-slot wide, or 1 when count is 0).", "quantifier": "every constant pool encoding", "why_tests_cant": "Requires a specific pool of 65534 slots; and the positive part is over all pools.", "anchors": ["src/constant_pool.rs:read_constant_pool"]}
{"id": "C09", "title": "Constant-pool references are resolved and well typed", "statement": "In every accepted class file each reference stored in a constant-pool entry points inside the pool at an entry of the kind JVMS 4.4 requires (Class/String/MethodType/Module/Package -> Utf8, *ref -> Class and NameAndType, NameAndType -> Utf8 and Utf8, Dynamic/InvokeDynamic -> NameAndType), and no resolved reference is missing.", "quantifier": "every accepted input and every pool index", "why_tests_cant": "All pools and all reference patterns.", "anchors": ["src/constant_pool.rs:ConstantPoolRef::resolve", "src/constant_pool.rs:ConstantPoolEntry::validate"]}
{"id": "C10", "title": "Constant pool is acyclic", "statement": "In every accepted class file the reference graph of the constant pool is acyclic and has no path longer than three edges, hence the Rc/Arc graph is freed on drop and reads through it terminate.", "quantifier": "every accepted input", "why_tests_cant": "Cycles of any length must be excluded for all pools.", "anchors": ["src/constant_pool.rs:ConstantPoolRef::resolve", "src/constant_pool.rs:ConstantPoolEntry::validate"]}
{"id": "C11", "title": "Constant tags are gated by class-file version", "statement": "An accepted file contains MethodHandle, MethodType and InvokeDynamic constants only if major_version >= 51, Module and Package constants only if >= 53, Dynamic constants only if >= 55; unknown tags are never accepted.", "quantifier": "every accepted input", "why_tests_cant": "All pools x all versions.", "anchors": ["src/constant_pool.rs:read_constant_pool"]}
{"id": "C12", "title": "Method handles match their reference kind", "statement": "In every accepted file a MethodHandle of kind 1-4 refers to a field ref, 5 and 8 to a method ref, 9 to an interface method ref, 6 and 7 to a method ref or, from major version 52, an interface method ref; and no other kind is accepted.", "quantifier": "every accepted input", "why_tests_cant": "All pools x all versions.", "anchors": ["src/constant_pool.rs:ConstantPoolEntry::validate", "src/constant_pool.rs:read_constant_methodhandle"]}
{"id": "C13", "title": "Names and descriptors in the pool are valid", "statement": "In every accepted file each Class constant is a binary name or an array descriptor, each field ref / Dynamic has a field descriptor, each method ref / InvokeDynamic / MethodType has a method descriptor, NameAndType names are unqualified names, Package constants are binary names and Module constants are valid module names - and a pool meeting these conditions is never rejected.", "quantifier": "every accepted input / every pool", "why_tests_cant": "All strings in all pools.", "anchors": ["src/constant_pool.rs:ConstantPoolEntry::validate", "src/names.rs", "src/descriptors.rs"]}
{"id": "C14", "title": "constantpool_iter yields exactly the usable constants", "statement": "Iterating a parsed class yields, in increasing index order and exactly once each, every constant-pool slot except index 0, Utf8 entries and the phantom slot after Long/Double, each item carrying the fully resolved strings of that slot; after the last item the iterator keeps returning None. (A NameAndType with an undecodable descriptor makes next() panic instead, see C15; what was returned before is as described.)", "quantifier": "every accepted input and every number of next() calls", "why_tests_cant": "All pools and all call sequences.", "anchors": ["src/constant_pool.rs:ConstantPoolIter", "src/lib.rs:ClassFile::constantpool_iter"]}
{"id": "C15", "title": "constantpool_iter does not panic", "statement": "Iterating the constant pool of a successfully parsed class never panics. False of the code: a NameAndType that no member/dynamic constant uses may have an undecodable descriptor, and yielding it panics. What holds: iteration panics exactly at such entries and nowhere else.", "quantifier": "every accepted input", "why_tests_cant": "All pools.", "anchors": ["src/constant_pool.rs:ConstantPoolIter::next", "src/constant_pool.rs:ConstantPoolEntry::utf8"]}
{"id": "C16", "title": "Class names are well formed", "statement": "this_class, super_class and every interface of an accepted file are binary names: non-empty '/'-separated segments without . ; [ < >; they equal the string of the referenced Class constant; and super_class is None exactly when its index is 0.", "quantifier": "every accepted input", "why_tests_cant": "All names.", "anchors": ["src/descriptors.rs:ClassName::try_from", "src/lib.rs:parse_class_with_options", "src/lib.rs:read_interfaces"]}
{"id": "C17", "title": "ClassName::try_from decides binary names", "statement": "ClassName::try_from(s) succeeds exactly for valid binary names. False of the code: it accepts the empty string and names ending in '/'. What holds: it succeeds exactly when s contains none of . ; [ < > and no '/' is at the start or directly after another '/' ; it never panics and returns s unchanged.", "quantifier": "every string", "why_tests_cant": "All strings.", "anchors": ["src/descriptors.rs:ClassName::try_from", "src/descriptors.rs:parse_unqualified_segment"]}
{"id": "C18", "title": "Fields are unique and validly named", "statement": "In every accepted file no two fields have the same name and descriptor, and each field name is a non-empty unqualified name; a file with two such fields is rejected.", "quantifier": "every accepted input and every pair of fields", "why_tests_cant": "All pairs in all files.", "anchors": ["src/lib.rs:read_fields"]}
{"id": "C19", "title": "Methods are unique and validly named", "statement": "In every accepted file no two methods have the same name and descriptor; each method name is an unqualified method name or <init> / <clinit>; <init> occurs only in non-interfaces and returns void; <clinit> returns void and from major version 51 takes no parameters.", "quantifier": "every accepted input and every method", "why_tests_cant": "All methods in all files.", "anchors": ["src/lib.rs:read_methods", "src/names.rs:is_unqualified_method_name"]}
{"id": "C20", "title": "Module class files are restricted", "statement": "If an accepted file has the MODULE flag then its major version is at least 53, it has no other known class flag, and it has no super class, interfaces, fields or methods.", "quantifier": "every accepted input", "why_tests_cant": "All flag words and contents.", "anchors": ["src/lib.rs:parse_class_with_options"]}
{"id": "C21", "title": "Bootstrap method indices are in range", "statement": "If an accepted file has any Dynamic or InvokeDynamic constant then the class has exactly one BootstrapMethods attribute and every such constant's index is smaller than its length; in particular the attr_index of every invokedynamic instruction or loadable Dynamic constant in the file is in range.", "quantifier": "every accepted input and every dynamic constant", "why_tests_cant": "All pools x attribute lists.", "anchors": ["src/lib.rs:validate_bootstrap_methods"]}
{"id": "C22", "title": "Attributes consume exactly their declared length", "statement": "In every accepted file each attribute (at class, field, method, Code or record-component level, at any nesting depth) consumes exactly attribute_length bytes, nested attributes lie entirely inside their parent, and an attribute whose content is shorter or longer than declared makes parsing fail.", "quantifier": "every accepted input and every attribute at every depth", "why_tests_cant": "All nestings and lengths.", "anchors": ["src/attributes.rs:read_attributes", "src/attributes.rs:read_code_data", "src/attributes.rs:read_record_data"]}
{"id": "C23", "title": "Unknown attributes are preserved verbatim", "statement": "An attribute whose name is not one of the 30 predefined ones is returned as Other with exactly its declared bytes, whatever those bytes are, and never influences how the rest of the file is parsed.", "quantifier": "every attribute name and every content", "why_tests_cant": "All names and contents.", "anchors": ["src/attributes.rs:read_attributes"]}
{"id": "C24", "title": "Attribute tables decode exactly", "statement": "For each predefined attribute with fixed-layout rows (ConstantValue, Exceptions, InnerClasses, EnclosingMethod, Signature, SourceFile, LineNumberTable, LocalVariableTable, LocalVariableTypeTable, BootstrapMethods, MethodParameters, Module and its sub-tables, ModulePackages, ModuleMainClass, NestHost, NestMembers, PermittedSubclasses, Record) reading succeeds exactly when the bytes are the big-endian encoding of the returned rows, in order, with every constant-pool index resolved to a constant of the right kind.", "quantifier": "every byte string, pool and table size", "why_tests_cant": "All table sizes and contents.", "anchors": ["src/attributes.rs"]}
{"id": "C25", "title": "StackMapTable decodes exactly", "statement": "Each stack map frame is decoded per JVMS 4.7.4: frame kind, offset_delta, chop count, locals and stack are exactly the encoded ones for every frame_type byte, and reserved frame types 128-246 and unknown verification tags are rejected.", "quantifier": "every frame sequence", "why_tests_cant": "All 256 frame types x contents.", "anchors": ["src/attributes.rs:read_stackmaptable_data", "src/attributes.rs:read_stackmaptable_verification"]}
{"id": "C26", "title": "Annotations decode exactly at any nesting depth", "statement": "Annotations, parameter annotations, type annotations and element values (including nested annotations and arrays to any depth) are accepted exactly when they follow the JVMS 4.7.16-4.7.22 layout and are returned with the encoded structure.", "quantifier": "every byte string and every nesting depth", "why_tests_cant": "Unbounded nesting.", "anchors": ["src/attributes.rs:read_annotation_element_value", "src/attributes.rs:read_annotation", "src/attributes.rs:read_type_annotation_data"]}
{"id": "C27", "title": "Recursion depth has no constant bound", "statement": "A user wants bounded stack use. The code has none: for every recursion budget there is an accepted-by-grammar input, of size linear in the budget, that needs more (nested element_value arrays), while an input never needs more than its own length.", "quantifier": "every recursion budget / every input", "why_tests_cant": "A statement about all budgets.", "anchors": ["src/attributes.rs:read_annotation_element_value", "src/attributes.rs:read_attributes"]}
{"id": "C28", "title": "Opcode offsets partition the code array", "statement": "In parsed bytecode the first opcode is at offset 0, offsets strictly increase, each opcode spans exactly to the next offset and the last one ends at the end of the code array; no byte is skipped or decoded twice.", "quantifier": "every code array accepted by the parser", "why_tests_cant": "All code arrays.", "anchors": ["src/bytecode.rs:read_opcodes"]}
{"id": "C29", "title": "get_opcode_index finds exactly the opcode starts", "statement": "On parsed bytecode get_opcode_index(o) = Some(i) exactly when opcodes[i] starts at offset o, and None exactly when no opcode starts there; the search always terminates and never indexes out of range.", "quantifier": "every parsed bytecode and every offset; more generally every strictly sorted opcode list", "why_tests_cant": "All list lengths and offsets.", "anchors": ["src/bytecode.rs:ByteCode::get_opcode_index"]}
{"id": "C30", "title": "Jump targets are opcode starts", "statement": "In every accepted file parsed with bytecode enabled, for each branch, jsr, tableswitch and lookupswitch instruction, source offset + jump (as mathematical integers, default included) is the offset of some opcode of the same method; code violating this is rejected.", "quantifier": "every accepted input, method, instruction and jump", "why_tests_cant": "All control-flow graphs, including offsets near the 32-bit limits.", "anchors": ["src/bytecode.rs:ByteCode::validate_jumps", "src/bytecode.rs:ByteCode::validate_opcode_jumps", "src/bytecode.rs:ByteCode::validate_jump"]}
{"id": "C31", "title": "Instruction decoding matches the JVM instruction set", "statement": "Reading an instruction succeeds exactly when the bytes are one of its JVMS chapter 6 encodings (narrow, wide or implicit-index forms, switch padding to 4-byte alignment, reserved zero bytes, signed operands) and yields that instruction with exactly those operands; unassigned opcodes are rejected.", "quantifier": "every byte string, offset and pool", "why_tests_cant": "All operand values and alignments of ~200 opcodes.", "anchors": ["src/bytecode.rs:read_opcodes"]}
{"id": "C32", "title": "tableswitch has one jump per value", "statement": "Every decoded tableswitch satisfies low <= high and has exactly high-low+1 jumps. False of release builds: low = i32::MIN, high = i32::MAX wraps to zero jumps and is accepted (a debug build panics). What holds: it is true for every other decoded tableswitch and in every overflow-checked build.", "quantifier": "every accepted code array, both build modes", "why_tests_cant": "The counterexample is one point in a 2^64 space.", "anchors": ["src/bytecode.rs:read_opcodes"]}
{"id": "C33", "title": "parse_bytecode only affects the bytecode field", "statement": "If parsing succeeds with parse_bytecode(true) it succeeds with parse_bytecode(false), and the two results are equal except that every CodeData.bytecode (at any depth) is Some with the former and None with the latter. parse_class decodes bytecode (the default), and the option is what it was last set to.", "quantifier": "every byte string", "why_tests_cant": "Relates two runs on all inputs.", "anchors": ["src/lib.rs:ParseOptions", "src/attributes.rs:read_code_data"]}
{"id": "C34", "title": "Descriptors round-trip", "statement": "For every descriptor value a parser can return, parsing its Display form gives the same value back; and for every string s that parses, Display of the result is a prefix of s. The equality Display(parse s) = s is false of the code for fields, methods, local variables, record components and annotations (trailing text after a complete descriptor is ignored, unless it is a method descriptor that returns V, e.g. field descriptor \"Ijunk\"); it holds for all descriptors checked in constant-pool validation.", "quantifier": "every descriptor value and every string", "why_tests_cant": "All strings.", "anchors": ["src/descriptors.rs:parse_field_descriptor", "src/descriptors.rs:parse_method_descriptor", "src/descriptors.rs:Display", "src/lib.rs:read_fields", "src/lib.rs:read_methods"]}
{"id": "C35", "title": "Descriptor validation decides the JVMS grammar", "statement": "The strings accepted as field, array, return and method descriptors in the constant pool are exactly the JVMS 4.3 grammar with at most 255 array dimensions (object names restricted to non-empty '/'-separated segments without . ; [ < >).", "quantifier": "every string", "why_tests_cant": "All strings.", "anchors": ["src/descriptors.rs:is_field_descriptor", "src/descriptors.rs:is_array_descriptor", "src/descriptors.rs:is_method_descriptor", "src/descriptors.rs:is_return_descriptor"]}
{"id": "C36", "title": "Descriptor parsing never slices off a character boundary", "statement": "Parsing any string as a field, method, return or array descriptor or class name never panics, for all Unicode content, and the reported number of dimensions is exact (no truncation to u8).", "quantifier": "every string", "why_tests_cant": "All Unicode strings and offsets.", "anchors": ["src/descriptors.rs:parse_field_descriptor", "src/descriptors.rs:parse_method_descriptor", "src/descriptors.rs:parse_class_descriptor"]}
{"id": "C37", "title": "Name predicates decide their grammars", "statement": "The name checks accept exactly: unqualified names (non-empty, none of . ; [ /), binary names (non-empty '/'-joined unqualified names), method names (additionally no < > unless <init>/<clinit>), module names (no control characters; \\ only as \\\\ \\: \\@; no bare : or @).", "quantifier": "every string", "why_tests_cant": "All strings.", "anchors": ["src/names.rs"]}
{"id": "C38", "title": "Numeric constants are bit-exact", "statement": "Integer and Long constants are the two's complement value of the encoded big-endian bytes, Float and Double constants carry exactly the encoded bits (including NaN payloads), and sign extension of narrow operands (bipush, sipush, iinc, branches) is exact.", "quantifier": "every 1-, 2-, 4- and 8-byte value", "why_tests_cant": "2^64 values.", "anchors": ["src/lib.rs:read_u1", "src/lib.rs:read_u2", "src/lib.rs:read_u4", "src/lib.rs:read_u8", "src/constant_pool.rs:read_constant_long"]}
{"id": "C39", "title": "String constants are never lossy", "statement": "A String constant is exposed as the decoded text when its bytes are valid modified UTF-8 and otherwise as exactly the raw bytes; an undecodable Utf8 entry is never exposed as text anywhere (names, descriptors, annotations).", "quantifier": "every constant pool and every decoder behaviour", "why_tests_cant": "All byte sequences.", "anchors": ["src/constant_pool.rs:read_constant_utf8", "src/constant_pool.rs:ConstantPoolEntry::string_literal", "src/constant_pool.rs:read_cp_utf8"]}
{"id": "C40", "title": "Access flags", "statement": "Class, field, method and inner-class flags are the encoded word with exactly the bits unknown for that context cleared; method-parameter and module flags containing an unknown bit are rejected.", "quantifier": "every 16-bit flag word in every context", "why_tests_cant": "All flag words x contexts.", "anchors": ["src/lib.rs:AccessFlags", "src/lib.rs:FieldAccessFlags", "src/lib.rs:MethodAccessFlags", "src/lib.rs:ClassAccessFlags", "src/attributes.rs:InnerClassAccessFlags", "src/attributes.rs:MethodParameterAccessFlags", "src/attributes.rs:ModuleAccessFlags"]}
{"id": "C41", "title": "Threadsafe iteration is deadlock free", "statement": "With the threadsafe feature, any number of threads may iterate the constant pool of a shared ClassFile under any schedule: no thread ever locks a mutex it already holds, no reachable state is a deadlock, and every thread eventually finishes if scheduled.", "quantifier": "every accepted pool, every number of threads, every interleaving", "why_tests_cant": "All schedules.", "anchors": ["src/constant_pool.rs:peel", "src/constant_pool.rs:ConstantPoolIter::next", "src/constant_pool.rs:make_method_handle"]}
{"id": "C42", "title": "Error display", "statement": "The Display form of a ParseError is its message, followed by ' for ' and the innermost context, followed by ' of ' and each enclosing context outward; wrapping an error never changes its message or drops a context.", "quantifier": "every error and every nesting of contexts", "why_tests_cant": "All context lists.", "anchors": ["src/error.rs:ParseError"]}
{"id": "C43", "title": "Code attribute decodes exactly", "statement": "A Code attribute is accepted exactly when it is max_stack, max_locals, a code array of the declared length lying inside the file, an exception table and nested attributes in that order; CodeData.code is exactly the encoded code slice; each catch_type is None exactly for index 0; bytecode is Some exactly when parse_bytecode is on.", "quantifier": "every byte string", "why_tests_cant": "All code attributes.", "anchors": ["src/attributes.rs:read_code_data"]}
{"id": "C44", "title": "Memory reserved before validation", "statement": "A user wants memory use proportional to the input. The code reserves switch tables from the header alone: for every n from 1 to 2^31-1 a 16-byte (tableswitch) or 12-byte (lookupswitch) code array makes the parser request capacity for n entries before noticing that the data is missing, and no request is ever larger; for code that is accepted the requests add up to at most a quarter of the code's length. (All other tables take their count from a u1 or u2 field.)", "quantifier": "every switch header", "why_tests_cant": "All header values.", "anchors": ["src/bytecode.rs:read_opcodes"]}
{"id": "C45", "title": "Parsing is a function of the bytes and options", "statement": "Results of nested readers depend only on the bytes of the structure itself, the constant pool and the options: the same structure embedded at any position in any file decodes to the same value (switch alignment depends only on the offset inside the code array).", "quantifier": "every structure, position and surrounding bytes", "why_tests_cant": "All embeddings.", "anchors": ["src/attributes.rs", "src/bytecode.rs:read_opcodes"]}
{"id": "C46", "title": "32-bit targets: attribute length arithmetic", "statement": "On targets with 32-bit usize, index + attribute_length (and code_length) can exceed usize::MAX. For every pointer width w >= 32 and every input of at most isize::MAX bytes: the accepted files and their results are those of unbounded index arithmetic; outcomes are identical whenever input length + 2^32 <= 2^w (so always on 64-bit targets); where they differ, the input is rejected under unbounded arithmetic and the narrow target does not accept (a build with overflow checks panics). False is 'no panics on 32-bit': every accepted class extended by an unknown attribute whose declared length carries the index past 2^32 panics (overflow in debug, slice range in release) where a 64-bit target returns Err.", "quantifier": "every index, length and pointer width", "why_tests_cant": "Needs inputs near 4 GiB or a 32-bit target.", "anchors": ["src/attributes.rs:read_attributes", "src/attributes.rs:read_code_data"]}
{"id": "C47", "title": "Threadsafe build equals default build", "statement": "The feature threadsafe changes no result: in a single thread every lookup of a constant, every call of next() on the constant pool iterator and the validation of the pool give, with a mutex around each reference, the outcome they give without, and leave no mutex locked; {:?} of an accepted class that nobody else uses shows every constant in full. The exception is exact: validation waits for a mutex its own thread holds precisely for the pools (a cycle of NameAndType descriptors) on which the default build recurses without end.", "quantifier": "every constant pool (also malformed ones), every slot, every accepted class", "why_tests_cant": "The pools and the nesting of guards are unbounded; a self-deadlock shows only for particular reference cycles.", "anchors": ["src/constant_pool.rs:peel", "src/constant_pool.rs:validate", "src/constant_pool.rs:ConstantPoolIter", "src/constant_pool.rs:make_method_handle"]}
{"id": "C48", "title": "Members and attributes are independent", "statement": "Removing any interfaces, fields, methods or attributes (attributes at any depth, in Code or in record components) from an accepted class gives a class that is accepted as well and parses to exactly what is left, as long as the BootstrapMethods attribute is kept when Dynamic or InvokeDynamic constants exist. In the other direction, inserting a well-formed attribute, in particular one with an unknown name and any content, into any attribute table that has room is accepted and changes nothing else in the result.", "quantifier": "every accepted file, every subset of its members and attributes, every insertion point", "why_tests_cant": "All combinations of members and attributes; checks that span several of them (duplicates, module restrictions, bootstrap indices) could depend on any.", "anchors": ["src/lib.rs:parse_class_with_options", "src/attributes.rs:read_attributes", "src/lib.rs:validate_bootstrap_methods"]}
{"id": "C49", "title": "An error names the first place that is wrong", "statement": "When parsing fails, the outermost context of the error (the last words of its text) names a place: constant pool entry i, this_class, super_class, interface i, the name or the descriptor of field or method i, field or method i, or the class attributes; no context stands for the header, the raw constants, counts, name and duplicate checks and the checks at the end. A file is rejected with an error that names a place exactly when everything before that place is well formed and what stands there is not, whatever follows; so the place is unique, and a file is rejected exactly when it has such a place.", "quantifier": "every byte string, every set of options, every place", "why_tests_cant": "The place and the order of the checks range over all files with any combination of faults; a test fixes one fault.", "anchors": ["src/lib.rs:parse_class_with_options", "src/lib.rs:read_fields", "src/lib.rs:read_methods", "src/lib.rs:read_interfaces", "src/constant_pool.rs:read_constant_pool", "src/error.rs:ParseError"]}
{"id": "C50", "title": "The numbering of the constants does not matter", "statement": "Take an accepted file and replace its constant pool by another valid one that holds the same constants in other slots (moved by any renumbering, equal constants possibly merged, further constants possibly added; one-byte indices must stay one-byte). Then the rest of the file can be rewritten, by renumbering indices only, to a file that is accepted and gives the same class except for the pool itself and the raw bytes of code: same names, members, attributes and instructions. In particular constants appended to the pool (and counted), each valid in the pool it becomes part of, change nothing but the pool, and the rest of the file stays as it is, byte for byte.", "quantifier": "every accepted file, every renumbering, every list of appended constants", "why_tests_cant": "All pools and all permutations; any reader could depend on the position or the number of a constant.", "anchors": ["src/constant_pool.rs:read_constant_pool", "src/attributes.rs:read_attributes", "src/bytecode.rs:read_opcodes", "src/lib.rs:parse_class_with_options"]}
{"id": "C51", "title": "The result is not larger than the file, except for parsed descriptors", "statement": "The number of elements of all lists in a parsed class, at any depth (constants, interfaces, members, attributes, instructions, switch targets, table rows, frames, annotation values), is at most the number of bytes of the file minus 23. A method has at most 65532 parameters, provided that decoding does not give more characters than bytes; but a descriptor is parsed anew for every method that uses it, so the parameters of all methods together are not bounded like that: for all m and n in range there is an accepted file of n + 15 m + 37 bytes that gives m methods of n parameters each.", "quantifier": "every accepted file; every m up to 65531 and n up to 65532", "why_tests_cant": "All files at any size; that no table can be declared larger than its bytes concerns every reader at once.", "anchors": ["src/lib.rs:parse_class_with_options", "src/lib.rs:read_methods", "src/descriptors.rs:parse_method_descriptor", "src/attributes.rs:read_attributes"]}
{"id": "C52", "title": "The version matters only through what it permits", "statement": "Of two files that differ only in the version words, the second is accepted exactly when its major version permits what the first one contains (MethodHandle, MethodType and InvokeDynamic constants from 51, InvokeStatic/InvokeSpecial handles of interface methods from 52, Module and Package constants and module declarations from 53, Dynamic constants from 55; before 51 a <clinit> may have parameters), and the results then differ only in the version. The minor version is never looked at, from 55 on neither is the major version, and a class without such content is accepted under every version from 0 to 65535, so a user must check the version himself.", "quantifier": "every accepted file, every pair of versions", "why_tests_cant": "Every reader could look at the version; all versions and all contents.", "anchors": ["src/lib.rs:parse_class_with_options", "src/constant_pool.rs:read_constant_pool", "src/constant_pool.rs:validate", "src/lib.rs:read_methods"]}
{"id": "C53", "title": "Numbers that describe code are not checked", "statement": "Take an accepted class and change, in any way, max_stack and max_locals, the ranges and handlers of exception tables, line number tables, the ranges and slots of local variable tables, the numbers of type annotation targets and paths, the offsets of uninitialized verification types and of chop, append and full frames, and the flags of fields, methods and inner classes (to flags known for them). The changed class is again what parse_class returns, for a file of the same length: none of these numbers is checked against the code, the tables or each other, so a user must not use them as indices unchecked.", "quantifier": "every accepted class and every choice of the numbers, at any nesting depth", "why_tests_cant": "All classes and all combinations of values; any reader might check one number against another.", "anchors": ["src/attributes.rs:read_code_data", "src/attributes.rs:read_stackmaptable_data", "src/attributes.rs:read_linenumber_data", "src/attributes.rs:read_localvariable_data", "src/attributes.rs:read_type_annotation_data", "src/lib.rs:read_fields", "src/lib.rs:read_methods"]}
{"id": "C54", "title": "Truncated input is reported as such; other verdicts do not change with more input", "statement": "Every proper prefix of an accepted class file is rejected, with the message 'Unexpected end of stream reading W at index i', where an item W (u1, u2, u4, u8, CONSTANT_Utf8, code attribute, attributes) starts at i, inside the prefix, and ends beyond it but inside the complete file; as long as the item stays incomplete, longer inputs are rejected with the same error. Conversely a rejection whose message does not start so is final: no continuation of the input is accepted; the longer input is rejected with the same error (or, if the input was complete and failed only one of the last checks, with 'Extra bytes found at index n after reading class file', n being the length of the complete class file). Bytes after an accepted class file are rejected with exactly that message. Panics and endless recursion are not avoided by more input either.", "quantifier": "every byte string, every continuation, every place to cut, both settings of parse_bytecode and of overflow checks", "why_tests_cant": "A caller that reads from a stream relies on the message to decide whether to wait for more; tests cut a few files at a few places.", "anchors": ["src/lib.rs:read_u1", "src/lib.rs:read_u2", "src/lib.rs:read_u4", "src/lib.rs:read_u8", "src/attributes.rs:read_attributes", "src/constant_pool.rs:read_constant_pool", "src/lib.rs:parse_class_with_options"]}
{"id": "C55", "title": "Inside attributes an error leads to the first fault", "statement": "When the outermost context of an error is a field, a method or the class, the fault is in its attributes and everything before them is well formed. The other contexts lead on: the next one ends with 'attribute K' (for a fault in the content 'NAME attribute K', possibly with a part in front), where K is the number and NAME the name of the first attribute that cannot be read; 'Code attribute K' is followed by 'code attribute' (everything before the attributes of that Code attribute is well formed, and the rest of the error describes the first fault among them in the same way, at any depth of nesting), by 'bytecode' (the rest of the Code attribute is well formed, the code is not) or by the number of the exception table entry; 'Record attribute K' by the component. If the place is the only context, the input ends too early or the message gives the number of the first attribute whose declared length is not the size of its well-formed content.", "quantifier": "every rejected byte string, every set of options, every nesting depth", "why_tests_cant": "The trail ranges over all files with any combination of faults at any depth; a test fixes one.", "anchors": ["src/attributes.rs:read_attributes", "src/attributes.rs:read_code_data", "src/attributes.rs:read_record_data", "src/lib.rs:read_fields", "src/lib.rs:read_methods", "src/error.rs:ParseError"]}
{"id": "C56", "title": "Distinctions that a parsed class does not show", "statement": "Some distinctions of the class-file format are lost, so a user cannot recover them from the result. The kind of a type annotation's target: in an accepted file the target_type byte of any type annotation, at any depth, can be replaced by any other of its group (0x00/0x01, 0x11/0x12, 0x13-0x15, 0x40/0x41, 0x43-0x46, 0x47-0x4B) and the file is still accepted with exactly the same result; so field, return and receiver annotations look alike, and so do instanceof, new and method references. Whether invokestatic or invokespecial names a method of a class or of an interface: the index can be replaced by that of a constant of the other kind with the same names, and nothing changes in the result but the raw bytes of the code. In general another encoding of the same instructions changes only these bytes. Whether a stack map frame without new locals and with an offset below 64 is written in the short or the extended form: wherever one stands, there is another file, two bytes longer or shorter, with exactly the same result.", "quantifier": "every accepted file, every type annotation, every instruction, every stack map frame, at any nesting depth", "why_tests_cant": "All files and positions; that nothing else in the result depends on the byte concerns the whole parser.", "anchors": ["src/attributes.rs:read_type_annotation_data", "src/attributes.rs:TypeAnnotationTarget", "src/bytecode.rs:read_opcodes", "src/constant_pool.rs:read_cp_memberref"]}
{"id": "C57", "title": "Where an attribute stands does not matter", "statement": "How an attribute is read depends on its name, its bytes and the constants, not on the structure it belongs to, its position, or the version of the class file. At every place of an accepted file where an attribute starts, the result has the attribute that the bytes there encode; the same bytes at two places, of one file or of two files with the same constants, give equal attributes; an attribute found anywhere can be copied to any other attribute table with room and is read there as the same attribute. Consequently a predefined name is never passed over, as the JVM specification demands where the name is not predefined for that structure or version: at every such place, in files of every version, a predefined name with content that does not have its layout is refused, while under any other name the same content is accepted.", "quantifier": "every place where an attribute may stand, at any nesting depth, every version, every attribute, every set of options", "why_tests_cant": "All files, versions, places and attributes; a test fixes one combination.", "anchors": ["src/attributes.rs:read_attributes", "src/attributes.rs:read_code_data", "src/attributes.rs:read_record_data", "src/lib.rs:read_fields", "src/lib.rs:read_methods", "src/lib.rs:parse_class_with_options"]}
{"id": "C58", "title": "Text is modified UTF-8", "statement": "With the decoder of the crate cesu8 that the library calls, a Utf8 constant holding a Java string (any sequence of UTF-16 code units, encoded as the JVM specification says) is text exactly when the string is well-formed UTF-16, and the text is that string; a String constant is then the text, and otherwise the undecoded bytes. Exactly two encodings of a text are understood, its modified UTF-8 and its plain UTF-8; they differ exactly for texts with U+0000 or characters above U+FFFF, and no bytes are understood as two texts. Everything shown as text has one of them in the file, everything shown as bytes has neither. Decoding never makes text larger than its bytes. A class named by a Java string is accepted exactly when the string is well-formed UTF-16 and a class name: names with lone surrogates, legal for the JVM, are refused.", "quantifier": "every file, every sequence of code units, every sequence of bytes, every set of options other than the decoder", "why_tests_cant": "All sequences of bytes and code units; a test fixes some strings.", "anchors": ["src/constant_pool.rs:read_constant_utf8", "src/attributes.rs:read_attributes", "Cargo.toml:cesu8"]}
{"id": "C59", "title": "Format checking of constants", "statement": "Of the format checks of JVMS 4.8 (which the README claims), an accepted file always meets these: magic number, neither truncated nor extended, attributes of exactly their declared length, references to constants of the right kind, and for every Fieldref, Methodref and InterfaceMethodref a class name or array type, an unqualified name and a descriptor of the right sort. Not checked are: that a Methodref whose name begins with < is a void <init>, that method handles name or do not name <init> and <clinit>, that the descriptor of a NameAndType nobody refers to is a descriptor, that Utf8 constants avoid the bytes 0 and F0 to FF, that Module and Package constants appear only in modules. For each of these every candidate is accepted: every unqualified name and every descriptor in a member constant with every handle kind that fits, every descriptor text, every byte sequence, every module and package name.", "quantifier": "every file and set of options; every name, descriptor, handle kind and byte sequence", "why_tests_cant": "All files, and unbounded families of constants; a test fixes a few constants.", "anchors": ["src/constant_pool.rs:ConstantPoolEntry::validate", "src/constant_pool.rs:read_constant_pool", "README.md"]}
{"id": "C60", "title": "Zero copy", "statement": "Text is borrowed from the input whenever it can be: a Utf8 constant shown as text is a slice of the input, just behind its length, whose bytes are the UTF-8 of the text, unless the constant is the modified UTF-8 of a text with U+0000 or a character above U+FFFF, and only then it is copied. The classes named in a field, return or method descriptor are slices of the input when the descriptor is, and copies when it is a copy; values and errors are the same either way. In an accepted file every text shown that has neither U+0000 nor a character above U+FFFF, including class names inside descriptors, is there in the input as plain UTF-8. What is copied is copied for each mention: for all n and m a file of n + 2m + 61 bytes makes m copies of a name of n + 1 bytes.", "quantifier": "every file, position, text, descriptor and index; all n and m that fit the format", "why_tests_cant": "Ownership of every string of every file; a test looks at some strings of some files.", "anchors": ["src/constant_pool.rs:read_constant_utf8", "src/descriptors.rs:parse_class_descriptor", "src/descriptors.rs:parse_method_descriptor", "README.md"]}
{"id": "C61", "title": "Work of the checks", "statement": "Checking a name or parsing a descriptor looks at its text a fixed number of times: at most 5 steps per character whatever the outcome, and a field descriptor that is understood costs steps in proportion to itself however long the text behind it is. Checking the constants of any pool, valid or not, that is not checked for ever (C05) takes at most slots * (5 * longest text + slots + 7) steps, of an accepted file at most slots * (5 * longest text + 7), so at most 5 * bytes^2 and 327682 * bytes. The square is real: for all n and m in range a file of n + 3m + 27 bytes is accepted after at least n * m steps; 262158 bytes make more than 4.29 * 10^9 steps.", "quantifier": "every text, pool and file; all n and m that fit the format", "why_tests_cant": "Running time over all inputs; a test times a few.", "anchors": ["src/names.rs", "src/descriptors.rs", "src/constant_pool.rs:validate_constant_pool"]}
{"id": "C62", "title": "Work of parsing", "statement": "Parsing any input that does not recurse for ever (C05), whatever the outcome - accepted, refused, panic - takes at most 183 * bytes^2 + 729 * bytes + 576 steps, and for an accepted file whose longest text has n characters at most 181 * n * bytes + 2 * bytes^2 + 537 * bytes + 192 * n + 576. The squares are real, twice: constants naming one class again and again (C61), and Dynamic or InvokeDynamic constants, each of which walks over all attributes of the class: an accepted file with s of them and a class attributes takes at least s * a steps, for all s and a that fit the format there is such a file of 5 s + 6 a + 76 bytes, and 720916 bytes take more than 4.29 * 10^9 steps. Everything else is linear: reading bytecode, jumps and their targets, tables, annotations. Finding an instruction by its offset takes at most k + 1 steps among at most 2^k instructions.", "quantifier": "every byte string, accepted or not; all file shapes that fit the format", "why_tests_cant": "Running time over all inputs; a test times a few.", "anchors": ["src/lib.rs:parse_class_with_options", "src/lib.rs:validate_bootstrap_methods", "src/constant_pool.rs", "src/attributes.rs", "src/bytecode.rs:get_opcode_index"]}
{"id": "C63", "title": "Memory of the constants is given back", "statement": "Constants point to each other with reference counted pointers. Dropping an accepted class gives the memory of every constant back, each exactly once, with at most four nested drops; so does every outcome of parsing (error or panic) once all constants have been found valid. If parsing fails earlier, dropping still ends, needs at most as many nested drops as there are constants, and drops none twice; but exactly the constants that can be reached from a cycle of references (counting those in front of the first reference that cannot be resolved) are never given back: for every n from 2 to 65534 there is a rejected file of 3 n + 10 bytes that leaks n constants, and another rejected one that leaks nothing but needs n + 1 nested drops.", "quantifier": "every byte string, all outcomes; all pools that fit the format", "why_tests_cant": "Leaks and recursion depth over all reference graphs; a test sees a few graphs, and a leak is invisible to it.", "anchors": ["src/constant_pool.rs:resolve_constant_pool", "src/constant_pool.rs:ConstantPoolRef", "src/lib.rs:CafeRc", "src/lib.rs:ClassFile"]}
{"id": "C64", "title": "Class names and descriptors compare as their text", "statement": "Any two class names, field types, field, return or method descriptors a user can hold (parsed, or put together by hand from class names that ClassName::try_from returned) are == exactly when their Display texts are equal, and what they feed to a Hasher is equal exactly when they are ==. Class names are ordered as their texts by code points. Reference kinds and array element types are compared, ordered and hashed as their numbers in the class file. Two errors are == exactly when message and contexts are the same. So in an accepted class file a name and a descriptor text name at most one field and at most one method. A descriptor put together by hand can print as text that is no descriptor (L; from the empty class name).", "quantifier": "all pairs of values a user can hold; all class names; every accepted class file; all errors", "why_tests_cant": "Injectivity of Display over unboundedly many names, dimensions and parameter lists, and UTF-8 order against code-point order for all texts.", "anchors": ["src/descriptors.rs:ClassName", "src/descriptors.rs:FieldType", "src/descriptors.rs:FieldDescriptor", "src/descriptors.rs:ReturnDescriptor", "src/descriptors.rs:MethodDescriptor", "src/constant_pool.rs:ReferenceKind", "src/bytecode.rs:PrimitiveArrayType", "src/error.rs:ParseError"]}
{"id": "C65", "title": "Instructions are checked one by one", "statement": "Any instruction of an accepted class can be overwritten with any other instruction of the same length whose own jumps land on instructions: the file is accepted and the result differs in that instruction only. So the layout of each instruction, the kinds of the constants it names and jump targets are all a user may rely on. The constraints of JVMS 4.9.1 are not checked: reserved opcodes, jsr and ret in version 51 or later, ldc of two-word and ldc2_w of one-word constants, unsorted lookupswitch keys, wrong invokeinterface counts, multianewarray with no or too many dimensions, new of array classes, calls of <clinit>, variables beyond max_locals and code that runs off its end all occur in accepted files. Code arrays of every length from 0 to 2^31 - 1 do, although JVMS 4.7.3 allows 1 to 65535.", "quantifier": "every accepted class, every instruction and replacement; every code length below 2^31", "why_tests_cant": "A universal statement over programs and replacements; tests show single accepted files only.", "anchors": ["src/bytecode.rs:read_opcodes", "src/bytecode.rs:ByteCode", "src/attributes.rs:read_code_data"]}
{"id": "C66", "title": "The parts of a class are checked one by one", "statement": "A class is what some file parses to exactly when each of its parts was returned from some accepted file with the same constant pool (constants from a file of the same major version, class names from any of the three places, names and descriptors of fields and, in files of the same version and kind, of methods, attributes from anywhere at any depth), its flags are known ones, its tables have at most 65535 rows, no two fields or methods have the same name and descriptor, and the rules for modules and bootstrap methods hold. So reordering or merging members gives acceptable classes, flags combine freely, and no other requirement relating parts is checked: missing super classes, abstract methods with code, methods without code or with two Code attributes, contradictory flags, ConstantValue of the wrong type, more than 255 parameters, and so on (20 requirements of JVMS 4.1 to 4.7) occur in accepted files.", "quantifier": "every class value and every combination of parts of accepted files", "why_tests_cant": "An equivalence over all combinations of parts of all accepted files; tests show single combinations.", "anchors": ["src/lib.rs:parse_class_with_options", "src/lib.rs:read_fields", "src/lib.rs:read_methods", "src/attributes.rs:read_attributes"]}
{"id": "C67", "title": "What formatting the constants prints", "statement": "{:?} of an accepted class ends (see C47). For each constant it prints at most 7 constants (the constant itself and those behind its references, again for each reference), nested at most 4 deep, with at most 3 texts, whatever other threads do; so the constants of a class print at most 7 times their number and 3 times (their number times the longest text) characters of text. The product is real: for all m up to 65533 and n up to 65535 there is an accepted file of n + 3 m + 27 bytes whose constants print n (m + 1) characters of text.", "quantifier": "every accepted input; every m and n in range", "why_tests_cant": "Bounds over all accepted files, and a family of files too large for tests (4 GB of output from 256 KB).", "anchors": ["src/constant_pool.rs:ConstantPoolEntry", "src/constant_pool.rs:ConstantPoolRef", "src/lib.rs:ClassFile"]}
{"id": "C68", "title": "Errors in the code point to the first faulty instruction", "statement": "An error from within the code of a Code attribute is about the first fault there: the first bytes that are not an instruction or, if all are instructions, the first instruction with a jump that does not land on an instruction, and in it the first such jump. The index in the message is counted from the start of the code and is that of the byte or number that is wrong (the unassigned opcode, the opcode after wide, the array type, the byte that should be zero, the upper bound or the number of pairs of a switch, the number that is cut off); 'opcode at offset N', 'default jump offset', 'match offset K' and 'range offset N' name the instruction and the jump. When the operand of an instruction is the index of an unsuitable constant the error says what is wrong with the constant, and not where the instruction is.", "quantifier": "every input rejected within the code of a Code attribute, both kinds of overflow behaviour", "why_tests_cant": "The claim is about the place named by the error for every faulty code; tests look at a few messages.", "anchors": ["src/bytecode.rs:ByteCode::from", "src/bytecode.rs:read_opcodes", "src/bytecode.rs:validate_jumps", "src/attributes.rs:CodeData"]}
{"id": "C69", "title": "Inside an attribute, an error is about the first part that is wrong", "statement": "For every predefined attribute other than Code, Record and SourceDebugExtension there is a list of parts (numbers, constants of a certain kind, flags, tables, tagged alternatives) such that the contents that can be read are exactly these parts one after the other. An error inside such an attribute, of a field, a method, the class, a Code attribute or a record component, is about the first part that is wrong: all parts before it are well formed, its contexts are those of the part (in tables with the number of the row, which is the first one that is wrong), and its message says what is wrong with it: the number or index is cut off, the constant does not exist or is of another kind, the flag is unknown, the tag is unknown, the name is not an unqualified name. If the declared length of an attribute of fixed size is another one, that is the error, whatever the content.", "quantifier": "every input rejected inside an attribute with a predefined name", "why_tests_cant": "The claim is about the place named by the error for every faulty content, at any depth of nesting; tests look at a few messages.", "anchors": ["src/attributes.rs:read_attributes", "src/attributes.rs:read_stackmaptable_data", "src/attributes.rs:read_annotation", "src/attributes.rs:read_type_annotation_data", "src/attributes.rs:read_module_data", "src/attributes.rs:ensure_length"]}
{"id": "C70", "title": "What is said about a text that is not a class name or a descriptor", "statement": "ClassName::try_from, and the reading of field and method descriptors, return an error exactly for the texts that are not accepted, and the error is determined: reading the text from the left, it is the message about the first thing that is wrong (a segment that starts with '/' or ';', a disallowed character, a ';' in the name of a class, a missing ';', more than 255 dimensions, an unknown type, a text that ends before the type, a missing '('), without contexts. Exactly one thing is said about such a text, and it does not change when more text is appended, unless the fault was that the text ends.", "quantifier": "every text, for each of the three parsers", "why_tests_cant": "An equivalence over all texts of any length; tests look at a few texts.", "anchors": ["src/descriptors.rs:ClassName", "src/descriptors.rs:parse_unqualified_segment", "src/descriptors.rs:parse_class_descriptor", "src/descriptors.rs:parse_field_descriptor", "src/descriptors.rs:parse_method_descriptor"]}
{"id": "C71", "title": "Outside attributes, the whole error is determined by the first thing that is wrong", "statement": "For an input that is wrong somewhere other than in the attributes of a field, of a method or of the class, the error returned, message and contexts, is exactly the one for the first thing that is wrong: which number is cut off and at which index, which tag, kind or index of a constant is wrong and where, what is wrong with a constant, a name or a descriptor, which check of the class, of a field or of a method fails, and which of the checks at the end. Conversely every error whose outermost context is not one of attributes is of this form. There is one such error at most, with at most one context. (A malformed descriptor of a field is reported without saying which field has it.)", "quantifier": "every input and every option, decoder and overflow setting; every error", "why_tests_cant": "An equivalence between all inputs and all errors with their texts; tests compare a few error messages.", "anchors": ["src/lib.rs:parse_class_with_options", "src/lib.rs:read_fields", "src/lib.rs:read_methods", "src/lib.rs:read_interfaces", "src/lib.rs:validate_bootstrap_methods", "src/constant_pool.rs:read_constant_pool", "src/constant_pool.rs:resolve_constant_pool", "src/constant_pool.rs:validate_constant_pool", "src/constant_pool.rs:read_cp_ref_any", "src/error.rs:ParseError"]}
{"id": "C72", "title": "The whole error is determined by the first thing that is wrong, wherever it is", "statement": "For every input, the error returned, message and all contexts, is exactly the one for the first thing that is wrong, also in attributes at any depth of nesting and in bytecode: a name, a length or the bytes of an attribute, a declared length that is not the one of its kind or not the size of the content, the first part of the content that cannot be read, the parts of Code and Record attributes and the attributes in them, and last the instructions of the code and their jumps. An input is rejected with an error exactly when it has a first fault with that error, there is one such error at most, and every input is exactly one of: the encoding of a class, an input that is followed for ever, an input that panics, an input with a first fault.", "quantifier": "every input and every option, decoder and overflow setting; every error; any depth of nested attributes and element values", "why_tests_cant": "An equivalence between all inputs and all errors with their texts and contexts; tests compare a few error messages.", "anchors": ["src/lib.rs:parse_class_with_options", "src/attributes.rs:read_attributes", "src/attributes.rs:read_code_data", "src/attributes.rs:read_record_data", "src/attributes.rs:read_annotation_element_value", "src/attributes.rs:read_stackmaptable_data", "src/bytecode.rs:ByteCode", "src/error.rs:ParseError"]}
{"id": "C73", "title": "The text of an error is at most linear in the size of the input", "statement": "For every input that is rejected, the text of the error (as displayed) has at most 7 characters per byte of the input plus 551; with the crate's modified UTF-8 decoder this needs no assumption except that the input is a slice. The text is not bounded by a constant, nor by 5 times the input: for every n there is an input of 3n + 58 bytes whose error repeats the context of each of n nested element values and is longer than 17n characters.", "quantifier": "every input below 2^63 bytes, every option and overflow setting, every decoder that does not lengthen texts; every number of nested values", "why_tests_cant": "A bound over all inputs and all errors, for unbounded nesting; tests see a few short errors.", "anchors": ["src/error.rs:ParseError", "src/error.rs:Display", "src/attributes.rs:read_annotation_element_value", "src/attributes.rs:read_attributes", "src/lib.rs:parse_class_with_options"]}
{"id": "C74", "title": "Rows reserved for an input as a whole", "statement": "Readers of tables reserve room for as many rows as a count declares before the first row is read. For an input that is accepted all these reservations together are exactly the declared number of constants plus the rows of all tables in the result (so none is larger than needed, none is thrown away, and no table outgrows its reservation), at most one row per byte of the input. For every input, whatever its outcome, they are at most 21845 rows per byte plus 2^31 - 1 (one switch table). The rate is reached: for every n a rejected input of 3n + 58 bytes has n nested element values that each declare 65535 elements, and 65535 n rows are reserved before the error is noticed. Counting changes no outcome.", "quantifier": "every input, every option and overflow setting, every decoder, every recursion budget; every number of nested values for the lower bound", "why_tests_cant": "A bound on the sum over all tables of every input, including all rejected ones; a test measures one input.", "anchors": ["src/attributes.rs:read_annotation_element_value", "src/attributes.rs:read_attributes", "src/constant_pool.rs:read_constant_pool", "src/bytecode.rs:read_opcodes", "src/lib.rs:parse_class_with_options"]}
{"id": "C75", "title": "Constants are taken by slot, and nothing else is taken from the pool", "statement": "If two accepted inputs agree in everything after their constant pools, and no slot holds the name of a predefined attribute in one pool and another text in the other, then the two classes correspond: they have the same structure, flags, numbers, offsets, targets and raw bytes, and wherever one has a name, descriptor, literal, class, member, handle or module from its pool, the other has what its own pool has in the same slot. So a pool whose texts are renamed gives a class with exactly these names renamed. Without the condition on attribute names this fails: an attribute under another name is not decoded.", "quantifier": "every pair of accepted inputs with a common tail, whatever their pools, versions, sizes; every option and decoder; every renaming", "why_tests_cant": "A relation between two runs on arbitrary pools and an arbitrary tail: a reader that took a constant from a neighbouring slot, or let a constant decide anything but its own value, could pass every test on files whose constants happen to be distinct.", "anchors": ["src/constant_pool.rs:read_cp_utf8", "src/constant_pool.rs:read_cp_classinfo", "src/attributes.rs:read_attributes", "src/bytecode.rs:read_opcodes", "src/lib.rs:parse_class_with_options"]}
{"id": "C76", "title": "Nothing else is lost: how two inputs with the same result can differ", "statement": "If two accepted inputs give the same class, they are the same byte string but for pieces of these kinds, and lengths that follow from them: an index of another slot that stands for the same thing; access flags that agree in the defined bits; the kind byte of a type annotation's target where the crate reports several kinds alike; the short or the extended form of a stack map frame; another spelling of the same text in a Utf8 constant or a SourceDebugExtension; and the declared number of constants, which may be one less if the last constant takes two slots. All other bytes are the same, in the same order. The exception for the number of constants is exact: with the last constant a Long or a Double both numbers are accepted with the same result.", "quantifier": "every pair of accepted inputs with equal results, of any size and nesting; every option and decoder", "why_tests_cant": "A statement about all pairs of inputs with equal results: a reader that skipped or ignored a byte anywhere would pass tests on every file where that byte has its usual value.", "anchors": ["src/lib.rs:parse_class_with_options", "src/constant_pool.rs:read_constant_pool", "src/attributes.rs:read_attributes", "src/attributes.rs:read_innerclasses_data"]}
{"id": "C77", "title": "A panic of constantpool_iter can be caught", "statement": "Calling next() on a constant pool iterator under std::panic::catch_unwind shows every usable constant of a parsed class exactly once and in order, whatever happened before: the n-th call panics if the n-th usable slot is a NameAndType constant with undecodable descriptor (C15), returns the item of that slot otherwise, and None after the last one. Catching changes nothing else. With the feature threadsafe the same holds for any number of threads under any schedule, although the panics poison mutexes: no such thread dies, each gets the answers it would get alone, and a new iterator of the same class shows the same again.", "quantifier": "every accepted input, every number of calls; with threadsafe: every number of threads and iterators, every interleaving", "why_tests_cant": "The panic happens while guards are held, so whether later calls, other iterators and other threads are harmed depends on which mutexes are poisoned and on what the iterator had already written: histories and schedules a test would have to enumerate.", "anchors": ["src/constant_pool.rs:ConstantPoolIter", "src/lib.rs:ClassFile::constantpool_iter"]}
{"id": "C78", "title": "Dropping and printing a class recurse as deeply as it is nested", "statement": "What the compiler generates for the types of a parsed class - drop glue, and fmt of derive(Debug) - ends for every class, and needs a number of calls inside each other that is determined by the class and lies between 2 n and 5 n + 9, where n is the nesting of attribute tables and annotation values (the recursion budget of C27). So if parsing returned a class and needed at most d calls inside each other, dropping and printing it need at most 5 d + 9; the values visited are at most 16 per byte of the file and 5 per method parameter (C51). A user wants a fixed bound; there is none: for every n up to the largest attribute length there is an accepted file of 3 n + 60 bytes whose class needs at least 2 n + 4 calls inside each other to be dropped. (The constants of the class are the subject of C63 and C67.)", "quantifier": "every class a user can hold, every accepted file; every n that fits the format", "why_tests_cant": "The depth depends on how annotations, Code and Record attributes are nested in the input, which is unbounded; a test shows one depth, and whether it overflows the stack depends on the thread that happens to drop the value.", "anchors": ["src/attributes.rs:AnnotationElementValue", "src/attributes.rs:AttributeData", "src/lib.rs:ClassFile"]}
