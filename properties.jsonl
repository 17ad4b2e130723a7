{"id": "C01", "title": "Primitive wire values survive a write/read cycle", "statement": "Writing any integer, bool, float bit pattern, fixed byte array, NUL-terminated string without interior NUL, length-prefixed string or length-prefixed list to a stream and reading it back with the matching reader returns the same value and leaves the stream positioned exactly after it.", "quantifier": "every value of every primitive type, every following stream content, every list length below the prefix range", "why_tests_cant": "2^64 values per type and unboundedly many strings/lists; a test checks a handful.", "anchors": ["core/src/encode.rs: Encode, EncodeExt", "core/src/decode.rs: Decode, DecodeExt"]}
{"id": "C02", "title": "Every bytecode instruction survives a write/read cycle", "statement": "For every instruction the compiler or loader can hold, other than the in-memory label marker, encoding it and decoding the bytes yields the same instruction and consumes exactly the bytes written, with jump offsets restored exactly, including offsets that wrap the 16-bit range.", "quantifier": "all 104 opcodes and all operand values, any trailing bytes", "why_tests_cant": "The operand space is astronomically large and the opcode table must match in both directions for each entry.", "anchors": ["core/src/bytecode.rs: Instr::encode, Instr::decode"]}
{"id": "C03", "title": "A function body survives a write/read cycle", "statement": "Writing a function body (size prefix followed by the instructions) and reading it returns the same instruction list, whenever the body's total code size fits the 16-bit code address space and contains no label markers. The reader stops exactly at the end of the body.", "quantifier": "all instruction lists of any length satisfying the size bound, any trailing bytes", "why_tests_cant": "The reader decides where to stop by summing virtual sizes; a mismatch for any single combination corrupts everything that follows.", "anchors": ["core/src/bytecode.rs: Code::encode, Code::decode, Instr::size"]}
{"id": "C04", "title": "Malformed bytecode is rejected rather than misread", "statement": "Decoding any byte string that begins with an unknown opcode fails; decoding any strict prefix of a valid instruction encoding fails instead of yielding some instruction; no two different instructions share an encoding, and no instruction's encoding is a prefix of another's.", "quantifier": "all byte strings, all instructions, all truncation points", "why_tests_cant": "All truncation points of all instructions cannot be enumerated.", "anchors": ["core/src/bytecode.rs: Instr::decode", "core/src/decode.rs"]}
{"id": "C05", "title": "Jump offsets address the position they were made from", "statement": "Converting a target position to an offset relative to a base and resolving that offset against the same base gives back the target, for every pair of 16-bit positions under the release build's wrapping arithmetic; under checked arithmetic no overflow occurs when both are below 32768.", "quantifier": "all pairs of 16-bit positions", "why_tests_cant": "2^32 pairs; the boundary at 32768 is exactly where tests on small functions never go.", "anchors": ["core/src/bytecode.rs: Location::relative, Offset::absolute"]}
{"id": "C06", "title": "Code positions: iteration and seeking agree", "statement": "Iterating a body visits every instruction once, in order, each at the position equal to the sum of the sizes of the instructions before it; seeking a cursor to that position makes that instruction the next one popped, and seeking to a position that is not an instruction start is an error.", "quantifier": "all instruction lists whose total size fits 16 bits, all positions", "why_tests_cant": "Seeking is by binary search over cumulative offsets; correctness for every length and position needs induction.", "anchors": ["core/src/bytecode.rs: CodeCursor, CodeIter, Code::iter, Code::cursor"]}
{"id": "C07", "title": "Every emitted jump lands on the labelled instruction", "statement": "After label resolution the produced body contains no label markers, has the same instructions in the same order, and every jump-like operand resolved against its own instruction's position is the position of the first real instruction following the marker of its label (or the end of the body).", "quantifier": "all instruction lists with any number of labels, each marked exactly once, total size within 16 bits", "why_tests_cant": "Two-pass assembly correctness depends on all sizes in between; tests only look at a few bodies.", "anchors": ["compiler/src/assembler.rs: Assembler::into_code", "core/src/bytecode.rs: Instr::resolve_labels"]}
{"id": "C08", "title": "Every definition survives a write/read cycle", "statement": "Encoding any definition the tool can hold in a consistent state (class, enum, enum value, function with its body, field, parameter, local, type, source file) and decoding it yields the same definition with only the derived presence flags recomputed; a second cycle changes nothing at all.", "quantifier": "all definitions, all list lengths, all flag words", "why_tests_cant": "Optional sections are governed by flag bits in a 32-bit word; all combinations cannot be tested.", "anchors": ["core/src/definition.rs: Encode/Decode impls"]}
{"id": "C09", "title": "A script bundle survives save and load", "statement": "Saving a bundle to a stream and loading it returns the same four string tables and the same definitions (index 0 excepted, which is always the placeholder), for every bundle below 4 GiB whose strings contain no NUL and whose definition table is non-empty.", "quantifier": "all bundles: any number of strings, duplicates across tables, any number of definitions", "why_tests_cant": "Layout depends on the sizes of every part, with seeks and back-patching; only a general argument covers all sizes.", "anchors": ["core/src/bundle.rs: ScriptBundle::load, ScriptBundle::save, ConstantPool::encode, ConstantPool::decode"]}
{"id": "C10", "title": "The saved header describes the file", "statement": "In a saved file each table entry of the header records exactly the position and the number of elements of that table's bytes and the checksum of those bytes, the header checksum is that of the header with the placeholder checksum 0xDEADBEEF, and loading does not depend on any checksum.", "quantifier": "all bundles, any checksum function", "why_tests_cant": "Needs to hold for all table sizes; the game, not the tool, is the consumer of these fields.", "anchors": ["core/src/bundle.rs: Header, TableHeader::new, ConstantPool::encode"]}
{"id": "C11", "title": "String pools intern faithfully", "statement": "Adding a string to a pool returns an index that reads back as that string, adding it again returns the same index, indexes handed out earlier keep reading back the same strings, and two indexes returned for different strings are different - for pools in the state the loader or earlier additions leave them.", "quantifier": "all pools reachable by loading and adding, all strings, all histories of additions", "why_tests_cant": "It is an invariant over unbounded histories of interleaved additions.", "anchors": ["core/src/bundle.rs: Strings::add, Strings::get, Strings::get_index, Strings::decode_from"]}
{"id": "C12", "title": "Pool updates touch only what they name", "statement": "Adding, replacing, renaming and swapping definitions affects exactly the named indexes: every other index keeps its definition, added indexes are fresh, swapping twice restores the pool, and indexes remain valid under any sequence of operations.", "quantifier": "all pools, all indexes, all operation histories", "why_tests_cant": "Frame conditions over all other indexes are universally quantified.", "anchors": ["core/src/bundle.rs: ConstantPool::{add_definition,put_definition,rename,swap_definition,reserve}"]}
{"id": "C13", "title": "Remapping class indexes is a faithful renaming", "statement": "Applying an index permutation to a pool renames exactly the class references (base classes, owners of functions and fields, constructor, new and cast operands) and nothing else; remapping by a permutation and then by its inverse restores the pool.", "quantifier": "all pools, all finite index maps", "why_tests_cant": "Holds for every instruction of every body of every function.", "anchors": ["core/src/mapper.rs: PoolMapper::map, MultiMapper::apply"]}
{"id": "C14", "title": "Stored type names parse back to the type", "statement": "Rendering a type name built from single-argument wrappers to its storage form and parsing it returns the same type name, provided no component contains a colon; parsing never fails and re-rendering a parsed name reproduces the text exactly.", "quantifier": "all type names of any nesting depth, all strings", "why_tests_cant": "Unbounded nesting depth.", "anchors": ["core/src/ast.rs: TypeName::repr, TypeName::from_repr"]}
{"id": "C15", "title": "Function signatures identify overloads", "statement": "Two function declarations with the same signature string have the same name and the same parameter types up to reference wrappers (and, for operators and casts, the same out-flags and return type). Full statement fails because parameter names are concatenated without a separator; it holds where the parameter type names form a uniquely decodable set, and the function name is always recoverable.", "quantifier": "all function names and parameter lists", "why_tests_cant": "A collision appears only for particular combinations of names, which tests do not guess.", "anchors": ["compiler/src/symbol.rs: FunctionSignature, FunctionSignatureBuilder", "core/src/ast.rs: TypeName::mangled"]}
{"id": "C16", "title": "Module paths parse back from their rendering", "statement": "Parsing a rendered module path yields the same path when no component contains a dot or semicolon and the path is non-empty; parsing a function's full path ignores its signature suffix as long as the suffix contains no dot.", "quantifier": "all module paths of any length", "why_tests_cant": "Unbounded length; separators interact.", "anchors": ["compiler/src/symbol.rs: ModulePath::parse, ModulePath::render, ModulePath::with_child, ModulePath::with_function"]}
{"id": "C17", "title": "Imports bring in exactly the visible symbols", "statement": "Importing a module, a symbol or a selection makes available exactly the existing symbols at those paths that are visible at the requested level, each function set restricted to its visible members, never a hidden one; unresolved paths are reported as errors; previously imported overloads of the same function name are kept.", "quantifier": "all symbol tables, all import statements, all visibility levels", "why_tests_cant": "Quantifies over all symbol tables and all sequences of imports.", "anchors": ["compiler/src/symbol.rs: SymbolMap::populate_import, Symbol::visible", "compiler/src/scope.rs: Scope::add_symbol"]}
{"id": "C18", "title": "Source positions map to the file that contains them", "statement": "After adding any sequence of source files, every byte position inside or at the end of a file maps to that very file, positions past the last file map to none, and no position belongs to two files.", "quantifier": "all sequences of files of any contents, all positions (total size below 4 GiB)", "why_tests_cant": "Binary search over arbitrary many file ranges.", "anchors": ["compiler/src/source_map.rs: Files::add, Files::lookup_file", "core/src/ast.rs: Span::compare_pos"]}
{"id": "C19", "title": "Reported line and column are the true ones", "statement": "For every position in a file the reported line is the number of newlines before it and the reported column is the number of characters between the preceding newline and it; the enclosing line returned for that line number is the text of that line including its newline.", "quantifier": "all files, all character positions", "why_tests_cant": "Every text and every position.", "anchors": ["compiler/src/source_map.rs: File::lookup, File::enclosing_line, Files::lookup"]}
{"id": "C20", "title": "Compile-time conditions evaluate as boolean logic", "statement": "Evaluating a conditional-compilation expression yields the truth value of the corresponding boolean formula where module-existence tests are true exactly for the modules being compiled; unsupported constructs give an error and never a value; a declaration with several conditions is kept exactly when all of them evaluate to true.", "quantifier": "all expressions of any depth, all module sets, all annotation lists", "why_tests_cant": "Unbounded expression depth.", "anchors": ["compiler/src/cte.rs: Context::eval", "compiler/src/unit.rs: eval_conditions"]}
{"id": "C21", "title": "Implicit conversions respect the type hierarchy", "statement": "An implicit conversion is found exactly when the documented rules allow it: equal types, null to references, subclass to superclass, references to references with a subclass target, strong/weak mixes, value to script_ref, anything to Variant; the conversion chosen is determined by the two types, and identity conversions compose transitively on classes and references to them.", "quantifier": "all types of any nesting, all acyclic class hierarchies", "why_tests_cant": "All hierarchies and nesting depths.", "anchors": ["compiler/src/typechecker.rs: find_conversion, collect_supertypes"]}
{"id": "C22", "title": "The type of a conditional is the least common supertype", "statement": "When the unification of two types succeeds, both types convert to the result by identity, and for classes every other common superclass is a superclass of the result; it is symmetric in its arguments, and fails exactly when no common superclass exists.", "quantifier": "all pairs of types, all acyclic hierarchies", "why_tests_cant": "All hierarchies.", "anchors": ["compiler/src/typechecker.rs: lub"]}
{"id": "C23", "title": "Overload resolution picks an applicable overload or fails", "statement": "When a call resolves, the chosen overload is one of the candidates, accepts the given number of arguments (between its required and total parameters) and each argument has an implicit conversion to its parameter type; no earlier candidate in declaration order was applicable; when resolution fails, no candidate was applicable.", "quantifier": "all candidate lists, all argument lists, all hierarchies", "why_tests_cant": "All combinations of candidates and arguments.", "anchors": ["compiler/src/typechecker.rs: resolve_overload, validate_call, validate_args"]}
{"id": "C24", "title": "Names resolve to the innermost declaration", "statement": "A name used as a value denotes the most recently declared local in an enclosing block, else the parameter, else the symbol of that name; declarations in an inner block never leak to code after the block; a field or method found on an object is the one declared in the nearest class up the inheritance chain.", "quantifier": "all nesting structures and declaration sequences, all class hierarchies", "why_tests_cant": "All programs.", "anchors": ["compiler/src/scope.rs: resolve_reference, add_local, resolve_field, resolve_method", "compiler/src/typechecker.rs: check (block scopes)"]}
{"id": "C25", "title": "Generated expression code is uniquely readable", "statement": "The instruction sequence generated for an expression determines the expression: the decompiler's reader consumes exactly those instructions, whatever follows, and rebuilds the same operator tree.", "quantifier": "all expressions of any depth, any following code", "why_tests_cant": "Unbounded depth; arity of every instruction must agree between two independent components.", "anchors": ["compiler/src/assembler.rs: assemble, assemble_call, assemble_intrinsic", "decompiler/src/lib.rs: consume, consume_with"]}
{"id": "C26", "title": "Compiled control flow behaves as the source", "statement": "Running the code generated for a body of sequences, if/else, while, switch, break, return, conditional expressions, assignments and calls has the same effects in the same order and the same outcome as the source statements have under their structured meaning, from every starting state, whether or not loops terminate.", "quantifier": "all statement bodies (within the 16-bit code size), all initial states, any number of loop iterations, any interpretation of calls", "why_tests_cant": "All programs, all states and all run lengths.", "anchors": ["compiler/src/assembler.rs: assemble, assemble_seq, into_code"]}
{"id": "C27", "title": "break leaves the innermost loop or switch", "statement": "A break inside a loop or switch body (possibly nested in if/else blocks) jumps to the first instruction after that innermost loop or switch; a break outside any loop or switch is rejected at compile time rather than compiled into a stray jump.", "quantifier": "all nestings", "why_tests_cant": "All nesting shapes.", "anchors": ["compiler/src/assembler.rs: Expr::Break, Expr::While, Expr::Switch"]}
{"id": "C28", "title": "switch runs the first matching case with fall-through", "statement": "The code for a switch compares the value with each case in order, runs the body of the first match (cases with empty bodies share the next non-empty body), falls through to following bodies until a break, and runs the default when nothing matches. The full statement fails for trailing empty cases, whose body label is never placed.", "quantifier": "all case lists, all values", "why_tests_cant": "All shapes of case lists, including the empty-body groupings.", "anchors": ["compiler/src/assembler.rs: Expr::Switch"]}
{"id": "C29", "title": "Calls pass arguments in order and fill omitted optionals", "statement": "A call emits exactly one argument group per declared parameter: given arguments in source order, short-circuit parameters preceded by a skip that lands right behind the argument, omitted optional ones as empty placeholders, then the end marker; surplus arguments are rejected.", "quantifier": "all parameter lists and argument lists", "why_tests_cant": "All arities and flag combinations.", "anchors": ["compiler/src/assembler.rs: assemble_call"]}
{"id": "C30", "title": "for-in visits every element once, in order", "statement": "The loop generated for for-in runs its body once for each element of the array as captured at loop start, in order, with break leaving the loop, and evaluates the array expression once.", "quantifier": "all arrays of any length, all bodies, all states", "why_tests_cant": "Any array length.", "anchors": ["compiler/src/sugar.rs: on_for_in"]}
{"id": "C31", "title": "Array literals and interpolated strings build the value written", "statement": "Evaluating a desugared array literal yields an array holding the element values in order; evaluating a desugared interpolated string yields the concatenation of the literal parts and the string forms of the interpolated values in order.", "quantifier": "all literals of any length and nesting", "why_tests_cant": "Any number of parts.", "anchors": ["compiler/src/sugar.rs: on_array_lit, on_interpolated_string"]}
{"id": "C32", "title": "Desugaring preserves evaluation", "statement": "Hoisting the set-up of literals before a statement does not change the behaviour of the program. The full statement fails for literals in loop conditions, in untaken conditional branches and in switch matchers; it holds for straight-line positions.", "quantifier": "all statements, all states", "why_tests_cant": "All programs.", "anchors": ["compiler/src/sugar.rs: Desugar, on_seq", "compiler/src/transform.rs: ExprTransformer"]}
{"id": "C33", "title": "A function accepted by the missing-return check always returns", "statement": "If the missing-return check does not warn about a function with a non-void result then every execution of its body that finishes reaches a return. The full statement fails for switches without default and for breaks before a return; it holds for bodies without switch.", "quantifier": "all bodies, all executions", "why_tests_cant": "All programs and all paths.", "anchors": ["compiler/src/diagnostics/missing_return.rs: does_always_return"]}
{"id": "C34", "title": "Diagnostics for fall-through and unused locals are exact", "statement": "The fall-through check reports exactly those non-last cases of any switch, however deeply nested, whose last statement is neither break nor return and whose body is non-empty; the unused-local check reports exactly the declared locals never mentioned afterwards.", "quantifier": "all bodies of any nesting", "why_tests_cant": "All programs.", "anchors": ["compiler/src/diagnostics/stmt_fallthrough.rs", "compiler/src/diagnostics/unused_local.rs"]}
{"id": "C35", "title": "Fatal diagnostics stop the build, others never do", "statement": "Compilation reports success exactly when no fatal diagnostic was produced; on failure the reported list consists of all fatal diagnostics in order; diagnostics are delivered with the non-fatal ones first, preserving their relative order.", "quantifier": "all diagnostic lists", "why_tests_cant": "All lists.", "anchors": ["compiler/src/unit.rs: compile_and_report, finish", "compiler/src/diagnostics.rs: is_fatal"]}
{"id": "C36", "title": "Method wrappers nest in declaration order", "statement": "When several mods wrap the same function, a call to it runs the last-declared wrapper, whose call to the wrapped method runs the previous wrapper, and so on down to the original body, which is run with its original code; other functions are unaffected.", "quantifier": "all sequences of wrapper declarations over any number of functions", "why_tests_cant": "Any number of wrappers and functions, interleaved.", "anchors": ["compiler/src/unit.rs: determine_function_location (wrapMethod), construct_proxy, finish"]}
{"id": "C37", "title": "Classes are stored after their base classes", "statement": "After compilation every class in the pool is stored at a higher index than its base class, for every acyclic hierarchy; the reordering is a permutation of class slots that leaves all other definitions in place and keeps the hierarchy the same up to renaming. Classes before the first one that is out of order keep their indexes.", "quantifier": "all pools with acyclic class hierarchies in any initial order", "why_tests_cant": "Any number of classes in any order.", "anchors": ["compiler/src/unit.rs: cleanup_pool"]}
{"id": "C38", "title": "Persistent fields never contain forbidden types", "statement": "A field marked persistent is accepted exactly when neither its type nor any type nested in its arguments is a string, variant or resource type.", "quantifier": "all type names of any depth", "why_tests_cant": "Unbounded nesting.", "anchors": ["compiler/src/unit.rs: define_field, can_be_persistent"]}
{"id": "C39", "title": "Printed expressions read back as the same expression", "statement": "Printing a decompiled operator expression and parsing the text by the language's precedence rules gives the same expression tree. The full statement fails for right-nested operators of equal precedence marked associative (e.g. subtraction) and for receivers that lose parentheses; it holds for the remaining expressions.", "quantifier": "all expressions of any depth", "why_tests_cant": "Unbounded depth.", "anchors": ["decompiler/src/print.rs: write_expr_nested, write_binop", "core/src/ast.rs: BinOp::does_associate", "compiler/src/parser.rs: expr"]}
{"id": "C40", "title": "String literals survive printing and parsing", "statement": "Printing a string constant in source form and parsing it back yields the same string, for every string, whichever characters it contains.", "quantifier": "all strings over all Unicode scalar values", "why_tests_cant": "Over a million characters and all their sequences.", "anchors": ["decompiler/src/print.rs: string constants", "compiler/src/parser.rs: escaped_char, string"]}
{"id": "C41", "title": "The original game bundle is never lost", "statement": "Across any sequence of compiler runs, game updates and crashes at any point of a run (with output in place), the unmodified game bundle stays available as the backup or as the bundle itself; a run never overwrites the backup with a bundle the tool produced itself.", "quantifier": "all histories of runs, updates and crash points", "why_tests_cant": "Crash points and interleavings with game updates are unbounded.", "anchors": ["scc/lib/src/lib.rs: try_compile_files", "scc/lib/src/timestamp.rs"]}
{"id": "C42", "title": "Scripts are always compiled against the original bundle", "statement": "Every successful run compiles against a bundle that does not carry the tool's own signature, and marks its output with the signature; running again without a game update in between compiles against the very same original bundle.", "quantifier": "all histories", "why_tests_cant": "All histories.", "anchors": ["scc/lib/src/lib.rs: try_compile_files, check_for_redscript_signature_def, add_redscript_signature_def"]}
{"id": "C43", "title": "Error text copied to the host stays inside its buffer", "statement": "Copying the error message into a caller-supplied buffer of non-zero size writes only inside the buffer, NUL-terminates it, and returns the number of message bytes copied, which are a prefix of the message; the whole message is copied when it fits. For a zero-sized buffer the statement fails.", "quantifier": "all messages and all buffer sizes", "why_tests_cant": "Every length combination; memory safety.", "anchors": ["scc/lib/src/api.rs: scc_copy_error"]}
{"id": "C44", "title": "User hints are matched deterministically", "statement": "The hint shown for an error is the first registered one for its error code whose file filter accepts the file and whose span prefix or line pattern matches; no hint is shown otherwise.", "quantifier": "all hint tables and errors", "why_tests_cant": "All tables.", "anchors": ["scc/lib/src/hints.rs: UserHints::get_by_error"]}
{"id": "C45", "title": "Command-line repair leaves well-formed arguments alone", "statement": "Argument lists without quote characters are passed through unchanged except that empty arguments are dropped; the repair never panics on any argument list and its result contains no quotes and no empty arguments. When a quoted path that ends in a backslash swallowed the words up to the next quoted path of several words, the repair gives back the arguments the user wrote; when that next path is a single word ending in a backslash it is glued to the argument after it.", "quantifier": "all argument lists", "why_tests_cant": "All lists.", "anchors": ["scc/cli/src/opts.rs: fix_args"]}
{"id": "C46", "title": "Decompiled local declarations keep their meaning", "statement": "Merging a local's declaration with its first assignment keeps the statements that follow in order and changes nothing else: every declared local is still declared exactly once and the sequence of assignments is unchanged. A local is declared before its first use provided the body does not read it before the opening assignment that first sets it (a body that does gets the declaration after the use).", "quantifier": "all bodies", "why_tests_cant": "All bodies.", "anchors": ["decompiler/src/lib.rs: merge_declarations"]}
{"id": "C47", "title": "Comments nest", "statement": "A block comment ends exactly at the closing marker that balances its opening marker, at any nesting depth; the text after it is parsed as if the comment were absent.", "quantifier": "all texts and nesting depths", "why_tests_cant": "Unbounded nesting.", "anchors": ["compiler/src/parser.rs: comment rules"]}
{"id": "C48", "title": "Number literals denote the number written", "statement": "An integer literal denotes the value of its digits in the type given by its suffix and is rejected when that value does not fit the type; printing an integer constant and parsing it back yields the same constant. The latter fails for unsigned 64-bit constants, whose suffix is not printed.", "quantifier": "all literals and all constants", "why_tests_cant": "2^64 values.", "anchors": ["compiler/src/parser.rs: number", "decompiler/src/print.rs: constants"]}
{"id": "C49", "title": "Type indexes are stable and unambiguous", "statement": "Asking for the pool index of a type twice returns the same index and adds nothing the second time; the type read back from the returned index is the type asked for, for every type built from references, weak references, script references and arrays over named types.", "quantifier": "all types of any nesting, all pools", "why_tests_cant": "Unbounded nesting and history.", "anchors": ["compiler/src/scope.rs: get_type_index, resolve_type_from_pool, TypeId::repr"]}
{"id": "C50", "title": "The compile timestamp file round-trips", "statement": "A timestamp written to the timestamp file is the one read back, whatever the file contained before, and an empty file reads as no timestamp.", "quantifier": "all timestamps, all previous file contents", "why_tests_cant": "2^128 values and all previous contents.", "anchors": ["scc/lib/src/timestamp.rs: CompileTimestamp::{read,write}"]}
{"id": "C51", "title": "Positions agree with the written bytes", "statement": "The position distance between an instruction and the next one equals the number of bytes the instruction occupies in the file plus four for every pool reference it carries (references widen from four to eight bytes when loaded by the game), and the size recorded for a body is consistent with its byte length in the same way.", "quantifier": "all instructions and bodies that can be written", "why_tests_cant": "104 instruction formats with independent hand-written size and encoding tables; every operand value.", "anchors": ["core/src/bytecode.rs: Instr::size, Encode for Instr<Offset>"]}
{"id": "C52", "title": "Temporaries are rejected exactly where a place is needed", "statement": "A diagnostic is reported for exactly those operands that must denote a lasting place (the owner of a struct field access, the array of an element access, and the array given to the intrinsics that read it in place) and do not: each offending occurrence once, in source order, and no other.", "quantifier": "all checked function bodies of any depth", "why_tests_cant": "Unbounded nesting; a missed position silently compiles to code on a temporary.", "anchors": ["compiler/src/diagnostics/invalid_temp_use.rs: InvalidUseOfTemporaryCheck", "compiler/src/typechecker.rs: TypedExprExt::is_prvalue", "compiler/src/transform.rs: visit_expr"]}
{"id": "C53", "title": "Calls mark the arguments that refer to temporaries", "statement": "The invocation instruction of a call marks an argument exactly when it is a script reference that was not taken from a lasting place. The full statement fails for calls with more than sixteen arguments, where the mark wraps around to another argument.", "quantifier": "all calls of functions, all argument lists", "why_tests_cant": "All argument lists; the mask has sixteen bits and the number of arguments is not bounded.", "anchors": ["compiler/src/assembler.rs: assemble_call, is_rvalue_ref"]}
{"id": "C54", "title": "Reading a literal does not crash the compiler", "statement": "Whatever text stands where a constant is expected, the parser either reads a constant, or rejects the text; it does not crash. The full statement fails for escape sequences such as \\u{d800} that are not the number of a character; it holds for all other texts.", "quantifier": "all texts", "why_tests_cant": "All texts; the crash needs one of the few thousand invalid numbers among sixteen million.", "anchors": ["compiler/src/parser.rs: escaped_char, string_contents, escaped_string, number, constant"]}
{"id": "C55", "title": "Literals are recognised as whole words", "statement": "Where a constant is read, a boolean is read only from the word true or false standing alone (not from the front of a longer identifier), and a string only from a text between two quotation marks, with the kind given by the letter before the first; the rest of the text begins right behind.", "quantifier": "all texts", "why_tests_cant": "All texts; the prefixes of identifiers are unbounded.", "anchors": ["compiler/src/parser.rs: keyword, escaped_string, literal_type, constant"]}
{"id": "C56", "title": "Accepted function bodies are well typed", "statement": "A function body that the compiler accepts without a fatal diagnostic is well typed: every local and parameter is used at its declared type, every argument, assigned value, initial value, returned value and condition has the type required there or a type that converts to it, every call reaches a function that takes that many arguments, every member belongs to the type of its owner, and types of results agree with the declarations. The full statement fails in two places: the labels of a switch need not have the type of the value switched on, and a null beside a weak reference in a conditional reaches the weak reference unconverted.", "quantifier": "all declarations, all function bodies of any depth", "why_tests_cant": "Unbounded nesting, all combinations of types and conversions.", "anchors": ["compiler/src/typechecker.rs: TypeChecker::{check, check_and_convert, check_call, validate_args, convert}", "compiler/src/unit.rs: compile_function"]}
{"id": "C57", "title": "Checking a body only resolves names and adds conversions", "statement": "In the checked form of an accepted body every statement, operand and argument stands where it stood in the source; each name is replaced by what it refers to (the innermost declaration in scope, or else the symbol with that name), each call by a function or method with the written name, numeric literals keep their value in the number type wanted, and the only additions are single conversions around expressions. Every declaration and loop variable has a local variable of its own, and the function's locals are exactly these.", "quantifier": "all declarations, all function bodies of any depth", "why_tests_cant": "Unbounded nesting and shadowing; a dropped or swapped operand in a rarely used form compiles silently to other behaviour.", "anchors": ["compiler/src/typechecker.rs: TypeChecker::{check, check_seq, check_call, insert_conversion}", "compiler/src/scope.rs: Scope::{push_local, resolve_reference}"]}
{"id": "C58", "title": "Permissive checking agrees with strict checking", "statement": "A function body that strict checking accepts is accepted by permissive checking with the same checked tree and the same warnings; a body for which permissive checking reports no error is accepted by strict checking with the same result. So tools that check permissively neither miss errors the compiler would stop at nor report errors in programs it accepts.", "quantifier": "all declarations, all function bodies", "why_tests_cant": "Unbounded bodies; the two modes differ in error paths nested inside overload resolution.", "anchors": ["compiler/src/typechecker.rs: TypeChecker::{new, check, resolve_overload}", "compiler/src/unit.rs: typecheck_files, compile_function"]}
{"id": "C59", "title": "Calls leave out optional parameters only", "statement": "In an accepted body every call of a function or method, however deeply nested, gives at most as many arguments as there are parameters and leaves out none that is required. The full statement fails for functions that declare an optional parameter before a required one: only the number of required parameters is compared.", "quantifier": "all declarations, all function bodies, all calls in them", "why_tests_cant": "Unbounded nesting and all orders of optional and required parameters.", "anchors": ["compiler/src/typechecker.rs: validate_call, resolve_overload"]}
{"id": "C60", "title": "Declarations only touch what they name", "statement": "Declaring the classes, functions, fields and enums of any set of source modules leaves every definition of the game's bundle as it was, except: a class that an enabled @addMethod, @wrapMethod or @addField names gets new members at the end of its lists; a function is replaced only if an enabled @replaceMethod names its class and declares its exact signature, or an enabled @replaceGlobal declares its name and signature. A replacement keeps the name, is not native, has the parameters written in the source and overrides what the old function overrode. This holds whether or not the declarations succeed, and no definition is ever renamed. Without those annotations nothing that existed changes.", "quantifier": "all bundles whose definitions have names, all sets of modules with any imports, conditions, annotations and number of declarations", "why_tests_cant": "Mods by different authors combine in any number; a test shows a few combinations, not that the rest of the bundle is untouched.", "anchors": ["compiler/src/unit.rs: CompilationUnit::{new, compile_modules, define_symbol, determine_function_location, define_function, define_class, define_global_let}", "compiler/src/symbol.rs: SymbolMap", "compiler/src/scope.rs: Scope"]}
{"id": "C61", "title": "Declarations without diagnostics reach the bundle as written", "statement": "When the declarations of a set of modules go through without a diagnostic, every declaration whose conditions hold is in the bundle: a class or struct under its module path with its modifiers, base, methods and fields in order; an enum with its members and values; a function with its signature, parameters in order with their types and qualifiers, result type, modifiers and body queued for compilation; a field in the class that @addField names. Functions with an annotation are at the place it asks for: a wrapper is a new method of the class and knows what it wraps, a replacement takes the place of the method with its signature, an added method is a new method of the class that overrides the method of the direct base with the same signature if there is one. Types are the ones written, up to the module of a class. No two declarations share a definition. The members of a class body have the visibility of the class (see the next property).", "quantifier": "all bundles read from a file whose listed methods exist and whose reference and array types have their usual names, all sets of modules", "why_tests_cant": "Any number of mods that extend and replace each other; an omission is silent, since nothing is reported.", "anchors": ["compiler/src/unit.rs: CompilationUnit::{compile_modules, define_symbol, determine_function_location, define_class, define_function, define_parameter, define_field, define_enum, define_global_let}", "compiler/src/scope.rs: Scope::{resolve_type, get_type_index}"]}
{"id": "C62", "title": "Members have the visibility they are declared with", "statement": "When declarations go through without a diagnostic, every function, method and field in the bundle has the visibility written at its declaration. The full statement fails for members in the body of a class: they get the visibility of the class, so the private members of a public class are public. It holds for functions, methods and fields declared outside class bodies, and for class members written with the visibility of their class.", "quantifier": "all bundles, all sets of modules", "why_tests_cant": "All combinations of visibilities; nothing at run time shows a wrong one until other code uses the member.", "anchors": ["compiler/src/unit.rs: CompilationUnit::{define_class, determine_function_location, define_function, define_field}"]}
{"id": "C63", "title": "Code sees the names of its module, its imports and the global names", "statement": "When the declarations of a set of modules go through without a diagnostic, the body of every function and method, and the default of every field, is compiled with exactly these names: those of the bundle and the sources without a module, those of its own module whatever their visibility, and the public ones that the imports whose conditions hold bring in; never the imports or private names of another module. Under every path is what the bundle or an enabled declaration puts there. A name with several meanings may miss some of them, except that all overloads of a function are known when it means only functions. The base of a class is the class its name means there, or IScriptable when none is written.", "quantifier": "all bundles as in C61, all sets of modules with any imports and conditions", "why_tests_cant": "Any number of modules importing each other in any order; a leak from one module into the next compiles silently.", "anchors": ["compiler/src/unit.rs: CompilationUnit::compile_modules, define_symbol, define_class", "compiler/src/symbol.rs: SymbolMap::{new, add_function, populate_import}", "compiler/src/scope.rs: Scope::add_symbol"]}
{"id": "C64", "title": "Printed statements read back as the same statements", "statement": "Printing the statements of a decompiled body and parsing the printed block by the rules of the language gives the same statements in the same order: declarations of variables with their types and values, conditionals with their branches, loops, switches with their cases and default, returns, breaks and expressions, nested in any way. Empty statements disappear. The full statement fails for jumps that were not resolved, which are printed as goto, and for sequences that are nested without a block.", "quantifier": "all lists of statements of any length and depth whose expressions are printed safely", "why_tests_cant": "Unbounded nesting; whether a block ends at the right brace and a case at the next label depends on all the text behind it.", "anchors": ["decompiler/src/print.rs: write_seq, write_expr_nested", "compiler/src/parser.rs: stmt, seq, switch, case, default, if_, else_, while_, let"]}
{"id": "C65", "title": "Printed definitions read back as the declarations they stand for", "statement": "Writing the classes, structs, enums and functions of a bundle as source text and parsing the text as a module gives the declarations the definitions stand for, in the same order: a class with its qualifiers, name, base, and members in order; a field with its qualifiers, annotations for its properties, name and type; a method or function with qualifiers, signature name, parameters with their out/opt marks, result type and body; an enum with its members and values. The full statement fails for inline fields, arrays of a fixed size, fields with defaults, derived structs and enum members that do not fit in 32 bits: each is printed as text that the compiler rejects.", "quantifier": "all bundles and all lists of definitions of any length whose names are words of the language", "why_tests_cant": "Unbounded number and nesting of members; whether one declaration ends where the next begins depends on everything that is printed behind it.", "anchors": ["decompiler/src/print.rs: write_definition, write_function, write_function_body, format_param, format_type", "compiler/src/parser.rs: class, function, field, enum_, source_entry, module", "cli/src/main.rs: decompile"]}
{"id": "C66", "title": "Decompiling to files puts every definition where it comes from", "statement": "Decompiling a bundle to many files writes one file for each source file that functions come from. It has the functions from there that are in no class, and the classes with functions from there, each once and in the order of their first lines. Enums, native functions and classes with only native functions are written to a file of their own. Two runs write the same files. The full statement, that every class, enum and function is written exactly once whatever the bundle, fails: a class with functions from two files is written to both, a function that is not native and has no source is lost, of two files with the same path only one is left, and the order of functions on the same line varies from run to run. It is proved exactly when a definition is written once, and that runs agree if paths and lines differ.", "quantifier": "all bundles with up to 2^32 definitions, all orders in which hash maps are visited", "why_tests_cant": "Hash maps are ordered differently in every run; the number of files, classes and functions is unbounded.", "anchors": ["decompiler/src/files.rs: FileIndex::{from_pool, iter, orphans}", "core/src/definition.rs: Definition::{source, first_line}", "cli/src/main.rs: decompile"]}
{"id": "C67", "title": "The code of a function does what its text says", "statement": "When the text of a function is read, checked, desugared and assembled without error, running its code ends in a state exactly when the checked body can end in that state: with the same result, the same effects and the same abort, for all states and all meanings of the operations; and it runs forever exactly when the body does. The checked body is the text that was read with its names resolved and conversions added, and is well typed. The full statement fails for the cases in which single phases fail: array literals where setting them up first changes the order of effects, certain switches, and code beyond 32 KB.", "quantifier": "all texts of functions of any length and nesting, all pools, environments, starting states and executions", "why_tests_cant": "Each phase relies on what the one before it puts out: that the parser gives only statements where the assembler expects them, that checking and desugaring keep the shape of switches and the number of operands. Tests see some bodies; an unexpected combination is assembled to something else without an error.", "anchors": ["compiler/src/parser.rs: function, function_body, seq, stmt, expr", "compiler/src/unit.rs: CompilationUnit::{compile_function, finish}", "compiler/src/typechecker.rs: TypeChecker::check_seq", "compiler/src/sugar.rs: Desugar", "compiler/src/assembler.rs: Assembler::from_body"]}
{"id": "C68", "title": "Reading a text always comes to an end", "statement": "Whatever the text, the parser comes to an end: it gives a module, rejects the text, or, only when the text has an escape sequence that is not the number of a character, crashes. It never repeats a rule that takes nothing from the text and never comes back to the same rule at the same place; the nesting of rules is at most four times the length of the text. What is left behind the module is the end of the text.", "quantifier": "all texts of any length and nesting, including texts that are no modules", "why_tests_cant": "All texts; an endless loop needs one place where a repeated rule can match nothing, or a rule that calls itself at the same place, and shows only on texts that reach it.", "anchors": ["compiler/src/parser.rs: module, source_entry, import, function, class, seq, stmt, switch, expr, type_, string_part, commasep, dotsep"]}
{"id": "C69", "title": "A file that can be read can be written back", "statement": "Whatever file the program accepts, whether it wrote it or the game did, it can write it again without a crash, and reading the new file gives the same four tables of strings with the same answers to every lookup, the same definitions at the same indexes, and the same version, flags, timestamp and chunk count. Only the flags that say which parts of a definition are present are derived anew. From the second time on, the file does not change by a single byte.", "quantifier": "all files of less than 2 GiB, of any content, and all files written from them of less than 4 GiB", "why_tests_cant": "All files; the writer relies on states of definitions that nothing but the reader provides (no label in a marker, no marker at the end of a body, no NUL in a name, sizes that do not overflow).", "anchors": ["core/src/bundle.rs: ScriptBundle::{load, save}, ConstantPool, Strings::decode_from", "core/src/definition.rs: Decode and Encode of all definitions", "core/src/bytecode.rs: Decode and Encode for Instr and Code", "core/src/decode.rs, core/src/encode.rs"]}
{"id": "C70", "title": "The default of a field is recorded as it is written", "statement": "When a program is compiled, every field that is declared with a default gets exactly one: under the name of the class that declares it, with the text of the constant, enum member or null that is written. Nothing else in the pool changes. Anything that is not one of these is rejected, and if no error is reported, the type of the value converts to the type of the field. The text tells the value: for a given type, different values are recorded with different texts. The full statement fails: the field of a class, named without an object, is accepted as a default; a variant can get a text and a number that are recorded alike; and a Float given to a Double is recorded like another Double. A negative number is no constant to the parser, so no field can have one as its default.", "quantifier": "all pools, all lists of fields with defaults, all values and types, all answers of the scope", "why_tests_cant": "The value is recorded as text before it is checked, by code that does not know the type; whether two values get the same text, or one is recorded that is not a constant, depends on all combinations of values, types and declared names.", "anchors": ["compiler/src/unit.rs: CompilationUnit::{compile_default, finish}", "compiler/src/typechecker.rs: TypeChecker::{check, check_and_convert}, type_of", "compiler/src/parser.rs: number, field"]}
{"id": "C71", "title": "Decompiling compiled code shows the program that was compiled", "statement": "When a function body is compiled and its code is decompiled, the result is a program that does the same: branches, loops, breaks and switches are recovered from the jumps, nothing is lost, nothing is done twice or in another order, and every name is the one that was compiled. Running the code ends in a state exactly when running the decompiled statements ends in that state, whatever the meaning of the operations, from every state. The full statement fails: what follows a loop whose body always leaves it is not shown, and the default of a switch is shown twice when its last case ends with a switch without default. It is proved for bodies in which loops can go on, nothing follows a return or break in the same block, and the end of each switch can be told from a break or from a default of one statement.", "quantifier": "all function bodies of any length and nesting within these conditions, all pools, states and executions", "why_tests_cant": "The decompiler knows only jumps and guesses what they were: whether a jump back ends a loop, whether a jump forward is an else, a break or the end of a case depends on the positions of all other instructions. Every nesting of statements puts jumps at other places.", "anchors": ["decompiler/src/lib.rs: Decompiler::{decompile, consume_path, consume_conditional_jump, consume_switch, consume_with}, resolve_jump, BlockContext", "compiler/src/assembler.rs: Assembler::{assemble, from_body}"]}
{"id": "C72", "title": "Clashing declarations are reported", "statement": "When declarations are put into a bundle, no two things end up under one name without a report. A field added to a class never has the name of a field the class or one of its bases has in the bundle, or of another field added to the class. Unless a conflict is reported, no two methods of a class of the bundle have the same signature unless they had it before. A class or struct declared under the path of another, in the sources or in the bundle, is reported unless redefinitions are permitted, and a redefinition is reported only if there is one. The full statement fails: a class may have two fields of one name, two global functions may have one signature, an enum may take the name of a class, and a field may be added to a class below which one of that name has been added, all without a report.", "quantifier": "all bundles with names, all lists of source modules with any declarations in any order, any depth of class hierarchies below the fuel of the model", "why_tests_cant": "Clashes arise between declarations of different authors in different files and modules; which check sees which declaration depends on the order of all declarations and on what earlier ones have added to the tables.", "anchors": ["compiler/src/unit.rs: CompilationUnit::{compile_modules, define_symbol, determine_function_location, define_global_let, define_class}", "compiler/src/scope.rs: Scope::resolve_field", "compiler/src/symbol.rs: SymbolMap"]}
{"id": "C73", "title": "Every wrapper in the sources wraps the method it names", "statement": "When sources are declared without a diagnostic, each function with @wrapMethod whose conditions hold becomes a method of the class that its annotation names, around a method of this class with the same signature, and its body waits to be compiled with wrappedMethod meaning what the wrapper is around. However the proxies are built, the bodies compiled and the originals moved afterwards, in any order of the hash maps, the guarantees of C36 hold of exactly these wrappers in the order of the sources: calls run the last one, each runs the one before, the first runs the original, and nothing else changes. This includes wrappers around methods that the same sources add or replace.", "quantifier": "all pools whose classes list functions, all lists of modules with any declarations between the wrappers, any number of wrappers of any methods, all defaults, bodies and orders of hash maps", "why_tests_cant": "C36 starts from a sequence of wrapper declarations with other work between them; that a whole program gives such a sequence, and that nothing else in it (added methods, replaced methods, new classes, fields, defaults) touches a reserved slot, depends on all declarations together.", "anchors": ["compiler/src/unit.rs: compile_modules, define_symbol, determine_function_location, define_function, construct_proxy, finish"]}
{"id": "C74", "title": "A compiled program has the code of each function at that function", "statement": "When sources are compiled without an error or conflict, every function that is declared with a body ends up in the bundle with the code that this very body is compiled to and with the locals of this body, and is otherwise as declared. If it is wrapped, its code is at the place where the original is kept, and runs alike with its locals renamed. The body was checked without an error with the names of its own module, of its parameters, of this and of wrappedMethod, in a pool that has all declarations. A function that has no body in the sources and is not wrapped is not changed. Apart from that only classes are renumbered, each behind its base, everywhere alike.", "quantifier": "all pools whose classes list functions, all lists of modules with any declarations, all answers of checker, desugaring and assembler that only add to the pool, all orders of hash maps", "why_tests_cant": "The bodies wait in one list while other things are declared, built and compiled; that each reaches its own function depends on the indexes of all declarations being distinct and on nothing in between moving or overwriting one, for every program.", "anchors": ["compiler/src/unit.rs: CompilationUnit::{compile, compile_modules, compile_function, compile_default, finish, construct_proxy, remap_locals, cleanup_pool}"]}
{"id": "C75", "title": "Compiling the same sources twice gives the same bundle", "statement": "Compiling the same sources with the same bundle gives the same diagnostics and the same bundle in every run. The compiler keeps wrapped functions, and the locals of a function that it moves, in hash maps whose order differs from run to run, so the full statement fails: when two functions are wrapped, the names of their proxies are put into the bundle in either order, and the locals of a wrapped function with two locals are listed in either order. It is proved for sources without wrappers and for sources whose wrappers are all around one function that has at most one local and is not replaced in the same sources.", "quantifier": "all sources and pools of C74 within these conditions, all orders of hash maps", "why_tests_cant": "The order of a hash map is fixed within a run and small tests usually see one order; that no other order changes the result is a statement about all orders and all programs.", "anchors": ["compiler/src/unit.rs: CompilationUnit::{compile_modules (wrappers.drain), finish (proxies), remap_locals}"]}
{"id": "C76", "title": "Every function in the sources records the file and line it is written at", "statement": "When sources are compiled without an error or conflict, every function that is declared in them and whose conditions hold (global functions, methods of new classes, added, replacing and wrapping ones) is found in the resulting bundle with a reference to the file and the line of its declaration. The file it refers to is a definition of the bundle with the path of that file, there is one such definition for each path, and they are numbered from 0. Neither the code that is compiled later, nor wrapping, nor the renumbering of classes changes this. Lines count from 0, as those of the source map do.", "quantifier": "all pools whose classes list functions, all lists of modules with any declarations and places of them, any number of files, all answers of checker, desugaring and assembler that only add to the pool, all orders of hash maps", "why_tests_cant": "The files are added to the bundle between other definitions while these are still being filled in; that none of them is overwritten, and that none is added twice, depends on the order of all declarations in all files.", "anchors": ["compiler/src/unit.rs: CompilationUnit::{define_source_ref, compile_modules, define_class, define_function}", "core/src/definition.rs: SourceReference, SourceFile"]}
{"id": "C77", "title": "The source text shown for a compiled function is that function", "statement": "Decompiling a function of a bundle to source text and reading the text with the compiler's parser gives back the program: a block in which every local of the function is declared once with its type, and whose statements are those of a program that ends in a state exactly when the code does, from every state and whatever the operations mean. The full statement fails. The compiler names locals like n$local$0 and synthetic$0 and the decompiler prints these names, which are no identifiers, so the text of no function with a local that this compiler compiled can be read again. Two locals of one name in a bundle are shown as one. It is proved for functions whose locals have different names that are identifiers, within the limits of C64 and C71.", "quantifier": "all bundles and functions in them whose code was compiled from a body of the shape of C71, any nesting of statements, any number of locals, all interpretations of the operations, both modes of printing", "why_tests_cant": "That the text means the same depends on the assembler, the recovery of branches from jumps, the merging of declarations, the printer and the parser together; each alone can be right while the chain is not, as the names of locals show.", "anchors": ["decompiler/src/lib.rs: Decompiler::decompiled, merge_declarations", "decompiler/src/print.rs: write_function_body, write_seq, write_expr", "compiler/src/typechecker.rs: TypeChecker::add_local", "compiler/src/sugar.rs: Desugar::fresh_local", "compiler/src/parser.rs: lang::{seq, stmt, let, ident}"]}
{"id": "C78", "title": "A diagnostic points at the text it is about", "statement": "The message for a diagnostic about a piece of the text of a source file names this file and the line and column (counted from one) where the piece begins, repeats this line without trailing space and with tabs as single spaces, and marks the piece in it: if the piece lies in one line and does not end with space, the carets stand exactly below its characters. An empty piece gets one caret, a piece that goes on in other lines three. Writing the message never crashes.", "quantifier": "all lists of files with any texts (up to 4 GiB together), all files in them, all pieces of their texts, all kinds of diagnostics and descriptions", "why_tests_cant": "Positions count bytes over all files, columns count characters, lines are found by binary search and then trimmed; that the marker lines up for every text with tabs, multi-byte characters and newlines is a statement about all texts.", "anchors": ["compiler/src/diagnostics.rs: Diagnostic::display", "compiler/src/source_map.rs: Files::{add, lookup, lookup_file}, File::{lookup, enclosing_line, source_slice}, FilePos"]}
{"id": "C79", "title": "The report of a failed build blames exactly the mods with errors", "statement": "When the scripts fail to compile, the report for the player lists each mod (file or directory right in the scripts directory, or the name of a file elsewhere) that contains an error exactly once and no other mod; mods with warnings only are not listed. It shows the first applicable hint registered for the code of each error, hints with the same id once. Full claim: this includes the codes SYNTAX_ERR and CTE_ERR for syntax errors and errors in conditions.", "quantifier": "all lists of files, paths and texts, all lists of diagnostics about pieces of them, all hint files, all orders of the hash tables involved", "why_tests_cant": "Which mods are listed depends on all diagnostics together, on their being warnings or not, on positions in concatenated files, and on the order of hash tables; tests see one order and few errors.", "anchors": ["scc/lib/src/lib.rs: ErrorReport::{from_error, fmt}", "compiler/src/unit.rs: CompilationUnit::compile_and_report", "compiler/src/diagnostics.rs: Diagnostic::{from_error, code, is_fatal}", "scc/lib/src/hints.rs: UserHints::get_by_error"]}
{"id": "C80", "title": "wrappedMethod calls what the wrapper is around", "statement": "In the body of a function with @wrapMethod, every call written wrappedMethod(...) is compiled to a call of what this wrapper is around: the original function for the first wrapper of it, the wrapper before for the others. Full claim: whatever else the sources and the game declare. This fails when the module of the wrapper sees a function with the name wrappedMethod that accepts the arguments: that function is called, without a diagnostic. It is proved for bodies that see no such function.", "quantifier": "all bundles, all sources that compile without errors and conflicts, all wrappers in them and all calls in their bodies, at any depth of nesting", "why_tests_cant": "Which function a call means depends on the overloads in scope and on the arguments; tests wrap with one body and never declare a function of this name.", "anchors": ["compiler/src/unit.rs: CompilationUnit::compile_function", "compiler/src/scope.rs: Scope::{add_symbol, resolve_function}", "compiler/src/typechecker.rs: TypeChecker::{check, resolve_overload}"]}
{"id": "C81", "title": "A host is told about every declaration of the sources", "statement": "When sources are compiled without an error or conflict, the references to declarations that a host program is given are those of the declarations in the sources whose conditions hold, in the order of the files and declarations, each once and no others; the members of a class come in their order before the class. For each of them the interface tells the right kind (class, field, function, enum), name, class it belongs to, whether it is native, and the file and the line at which it begins. Names of classes, enums and global functions are qualified by the module, names of members are not. The name told for a wrapper is not claimed to be its name in the sources (it is an internal one). Compiling bodies and defaults of fields, wrapping, and the renumbering of classes change nothing of this.", "quantifier": "all pools whose classes list functions, all lists of modules with any declarations, all answers of checker, desugaring and assembler that only add to the pool, all orders of hash maps", "why_tests_cant": "A reference is an index into a bundle that is extended, overwritten and at the end renumbered after the reference was stored; that it still leads to the same declaration depends on all the others.", "anchors": ["scc/lib/src/api.rs: scc_output_get_source_ref, scc_output_source_ref_count, scc_source_ref_{type, is_native, name, parent_name}", "compiler/src/unit.rs: CompilationUnit::{define_class, define_function, define_field, define_enum, define_global_let, cleanup_pool}"]}
{"id": "C82", "title": "Compiling changes nothing but what the sources ask to change", "statement": "When sources are compiled without an error or conflict, every definition that the bundle had before is in the result, at its old index (classes: at the index that the reordering by base classes gives them, which is the old one if in the bundle all classes come after their bases), with its references following that reordering and every name index standing for the same text. It is exactly as before, with three exceptions: a class named by an @addField, @addMethod or @wrapMethod, or containing a wrapped method, has new members behind its old ones; a function that a declaration with @replaceMethod or @replaceGlobal asks to replace is a function with the old name; a method that a @wrapMethod is for has other parameters and code, and the same name, class, type and flags unless it is to be replaced as well. Sources without such annotations leave every definition of the bundle as it was.", "quantifier": "all pools in which all definitions have names, whose classes list functions; all lists of modules with any declarations; all answers of checker, desugaring and assembler that only add to the pool; all orders of hash maps", "why_tests_cant": "Declaring, defaults of fields, proxies, bodies, swaps and renumbering all write into the bundle by index; that no index in any combination of declarations is one of another definition cannot be seen from examples.", "anchors": ["compiler/src/unit.rs: CompilationUnit::{compile_and_report, compile_files, compile_modules, construct_proxy, compile_function, finish, cleanup_pool}", "core/src/mapper.rs", "core/src/bundle.rs: ConstantPool::{put_definition, swap_definition, add_definition}"]}
{"id": "C83", "title": "The compile command replaces its output only by a complete result", "statement": "When the compile command says that the output was saved, the bundle it was given was read, the sources compiled without a fatal diagnostic, and the output file reads back (below 4 GiB) with the compiled string tables in the same order and the compiled definitions at the same indexes, up to the flags that tell which parts are present and the places of native functions; version, flags and timestamp are those of the bundle. Conversely a bundle that is read, sources that compile and an output that can be created and hold the result lead to a saved output. When the bundle or the sources cannot be read, or the build fails, no file is changed and nothing is said to be saved. No other file than the output is ever changed. The lint command changes no file and reports success exactly if the same sources compile with the same bundle. Full claim: the exit status tells whether the build succeeded, and the previous output is only ever replaced by a complete one. Both fail: a failed build exits with success, and sources that compile to a bundle with a string that the format cannot hold (a runtime property of 65536 bytes) stop the program after the output has been emptied.", "quantifier": "all bundles, all sources, all contents of the disk, all later phases of the compiler, all checksum functions", "why_tests_cant": "A saved file is right only if every compiled definition in every combination survives writing and reading, and that a failure leaves the disk alone must hold for every way to fail; tests compile a few sources successfully.", "anchors": ["cli/src/main.rs: main, run, compile, lint, load_bundle", "compiler/src/unit.rs: CompilationUnit::{new_with_defaults, compile_and_report, compile_files}", "core/src/bundle.rs: ScriptBundle::{load, save}", "core/src/encode.rs: encode_str_prefixed"]}
{"id": "C84", "title": "The scripts in the given directories are compiled, and nothing else", "statement": "The sources that are read for a list of given paths are, path by path in order: the file there, or all files at any depth of the directory there whose names end in .reds with something before the dot, except below or named by (without the ending) a name at the top of the directory that is to be left out; each exactly once, under its path and with its text. Reading fails exactly if one of these is not a readable text, or a directory has a name of this form. Full claim: it fails only when a script cannot be read, it fails when a given path does not exist, and no script is read twice. All three fail: a directory called mod.reds stops every build, a misspelt path counts as an empty directory, and a script in two of the given directories is read twice.", "quantifier": "all directory trees of any depth with any names, all lists of given paths, all sets of names to leave out", "why_tests_cant": "Directories nest without bound and names are arbitrary (several dots, hidden files, directories with endings); tests use one flat directory.", "anchors": ["compiler/src/source_map.rs: Files::{from_dirs, from_dir, from_files}, filtered_file_iter, SourceFilter::apply"]}
{"id": "C85", "title": "The launcher compiles the directories it is told to", "statement": "A launch with the options of the game's script compiler compiles the scripts directory and then the directories named by the lines of the file with script paths, in their order, whether a line ends in a line feed or in carriage return and line feed, and whether or not the last line is terminated. It uses the bundle that is given, or final.redscripts in the cache directory that is given, or the one in the game's cache, and saves to the output that is given, or over the bundle. Full claim: whatever the scripts directory is called, and a file with script paths that cannot be read is reported. Both fail: a scripts directory not called scripts is not compiled (scripts beside it is), and an unreadable or non-Unicode file with script paths counts as empty.", "quantifier": "all paths, all files with any number of lines of any length and mixed endings, all combinations of options", "why_tests_cant": "Files with paths are written by mod managers with either line ending and any content; tests of the options stop at parsing and never look at the directories compiled.", "anchors": ["scc/cli/src/main.rs: main, run, load_script_paths", "scc/lib/src/lib.rs: try_compile"]}
{"id": "C86", "title": "A new script cache starts from the original bundle", "statement": "Before a run the tool changes no file that exists and creates at most the bundle and its backup, as copies of the backup or bundle in the default cache. When the bundle that is to be used does not exist, and the default cache has the unmodified bundle of the game (as the backup, or as the bundle if there is no backup), the new bundle is the unmodified one and the first run compiles against it, with or without a separate output. Full claim: it is the bundle of the current version of the game. This fails after an update that leaves the backup: a new custom bundle is copied from the backup of the old version, and compiled against, where a run with the default cache would notice the update.", "quantifier": "all contents of the disk, all places of the bundle including the default one, all times of files, all arguments of the run", "why_tests_cant": "The copies depend on which of four files exist, which may coincide; tests do not touch the file system.", "anchors": ["scc/lib/src/lib.rs: try_compile, get_base_bundle_path, try_compile_files"]}
{"id": "C87", "title": "The bytecode listing tells where instructions are and where jumps lead", "statement": "With --mode bytecode the decompiler prints one line for each instruction of a function, in order, which begins with the place of the instruction in the code (the bytes of those before it, for code below 64 KiB). In the line of an instruction that leads somewhere (jumps, switches, conditionals, contexts, calls) of a function that the compiler assembled, each difference shown, added to the place at the beginning of the line, is the place at the beginning of the line the label of the source is at. Full claim: for functions of any size. This fails from 32 KiB: the difference no longer fits the operand.", "quantifier": "all functions, all sequences of instructions of any length, all labels and jumps forward and backward, all depths of indentation", "why_tests_cant": "Whether the numbers in a listing fit each other depends on the sizes of all the instructions between; tests of the decompiler compare source code, not listings.", "anchors": ["decompiler/src/print.rs: write_function_body", "core/src/bytecode.rs: CodeIter, Location::relative, Instr::resolve_labels", "compiler/src/assembler.rs: Assembler::into_code"]}
{"id": "C88", "title": "Hints in all hint files are used", "statement": "When a build fails, the hints considered are exactly those in the files of the hints directory whose names end in .toml with something before the dot: a hint is shown for an error exactly if one in these files is for the code of the error and applies to it, and what is shown is such a hint; without the directory none is shown. Full claim: a file that cannot be read or parsed only costs its own hints, and which hint is shown depends on the files alone. Both fail: one broken file takes away the hints of all others, and of two applicable hints in different files the one shown depends on the order in which the system lists the directory.", "quantifier": "all directories with any number of files of any names, in any order, all hints, all errors", "why_tests_cant": "The files come from different mods; tests never read a directory of hints.", "anchors": ["scc/lib/src/hints.rs: UserHints::{load, get_by_error}", "scc/lib/src/lib.rs: try_compile_files"]}
{"id": "C89", "title": "Runs with different script caches do not disturb each other", "statement": "Two runs whose script caches are in different directories (with their outputs there, or over the caches) change no file in common: neither bundle, backup, timestamp nor output; preparing one leaves all files of the other as they are. If the directory is not the game's own cache either, a launch with one cache changes neither the result of a launch with the other nor the files it leaves. Two caches have the same backup and timestamp exactly if they are in the same directory under names that differ at most behind the last dot. Full claim: different caches never share files. This fails for such names: mods.redscripts and mods.cache in one directory have one backup, a run with one replaces the only copy of the original bundle of the other, and the next run takes the other's compiled bundle for an original.", "quantifier": "all paths and names of caches and outputs, with any number of dots, all contents of the disk, all times", "why_tests_cant": "Backup and timestamp are named by replacing an extension; which names collide is a question about all names.", "anchors": ["scc/lib/src/lib.rs: try_compile, try_compile_files"]}
{"id": "C90", "title": "A custom script cache can be launched again and again", "statement": "The first launch with a custom script cache that does not exist compiles the scripts against the unmodified bundle of the game, saves the result to the output and keeps the unmodified bundle, as the cache if the output is another file and else as the backup of the cache. Every later launch over a cache that was compiled in place (and not changed since) compiles its scripts against the unmodified bundle again, whatever the scripts of earlier launches were, and leaves the files ready for the next one. No launch, successful or not, changes another file than the cache, its backup, its timestamp and the output.", "quantifier": "all contents of the disk, all paths of the cache and the output for which cache, backup, timestamp and output are different files (or the output is the cache), all scripts, all times", "why_tests_cant": "The launch goes through copies, renames and comparisons of times over five files; tests do not touch the file system.", "anchors": ["scc/lib/src/lib.rs: try_compile, try_compile_files, get_base_bundle_path", "scc/lib/src/timestamp.rs: CompileTimestamp::{read, write}"]}
{"id": "C91", "title": "What scripts do depends on the last launch only", "statement": "After any number of launches over one script cache, each of which either compiles its scripts and saves the result or reports that they do not compile, every launch ended as its own scripts make it end over the unmodified bundle of the game, whatever scripts the launches before it had; the output is exactly what the last successful launch makes of the unmodified bundle, so removing a script undoes it; a launch whose scripts do not compile leaves the output as it was; the unmodified bundle stays available, as the backup (output over the cache) or as the cache (output elsewhere). After the game has replaced the cache by a new bundle with another time, the next launch over it compiles against the new bundle, which becomes the backup.", "quantifier": "all sequences of launches of any length, all scripts that compile or do not, all contents of the disk and paths for which the files are different, all times of files, with the time of the cache being that of the last output when the output is the cache", "why_tests_cant": "It is an invariant over sequences of launches with files and times changing in between; tests do not touch the file system.", "anchors": ["scc/lib/src/lib.rs: try_compile, try_compile_files", "scc/lib/src/timestamp.rs: CompileTimestamp::{read, write}"]}
{"id": "C92", "title": "The C interface and the exit code of scc tell the truth", "statement": "Settings made over the C interface by any calls in any order are those asked for: the game directory, the custom cache and the output that were set last (or none), and all script paths in the order they were added; the strings only need to be in memory during the call, as UTF-8 with a zero byte after them. When scc was given options and exits with success, the scripts were compiled and the result is in the output file; with an unmodified cache and another output it exits with success if the scripts compile, and otherwise with failure, leaving the output.", "quantifier": "all sequences of calls of any length, all contents of memory, all texts without a zero character, all options, scripts, times and contents of the disk for which the files of the cache are different", "why_tests_cant": "Strings are found by searching memory for a zero byte and buffers may be reused between calls; the tests of the interface check layouts only, and no test runs the command line tool over files.", "anchors": ["scc/lib/src/api.rs: scc_settings_new, scc_settings_set_custom_cache_file, scc_settings_set_output_cache_file, scc_settings_add_script_path, scc_get_success", "scc/cli/src/main.rs: main, run, SccApi::compile"]}
