# Formal model of redscript

Lean 4 model of the redscript compiler, decompiler and `scc` launcher library
(source: `/repo`, Rust) with machine-checked proofs of the properties listed in
`properties.jsonl`.

## Layout

* `lean/Verif/<Area>/Model.lean` - definitions that follow the Rust code function by
  function; every definition cites file and lines.
* `lean/Verif/<Area>/Lemmas.lean` - helper lemmas.
* `lean/Verif/<Area>/Props.lean` - the property theorems, each stated with a small
  independent specification, each with a non-vacuity `example` beside it.
* `MANIFEST.json` - property -> theorem names and status.
* `AXIOMS.md` - the axioms each theorem depends on.
* `seeded/LOG.jsonl` - mutation-testing log.

## Trusted base

1. Lean 4.33.0's kernel, and the standard axioms `propext`, `Classical.choice`, `Quot.sound`. No axiom is
   added; there is no `sorry`, `admit`, `native_decide` or `bv_decide`. `AXIOMS.md` lists the axioms each
   theorem of the manifest depends on (the output of `#print axioms`).
2. That the definitions in `*Model.lean` say what the cited Rust code does. Each carries the file and lines
   and says what it leaves out.
3. The specifications the theorems are stated with. The small ones stand beside their theorems. The larger
   ones are:
   * `Vm/Machine.lean`, `Vm/Source.lean`, `Vm/Shape.lean`: what code and typed bodies mean (C26 - C29, C53). The
     game's virtual machine is not in the repository; the machine follows how the decompiler reads code. Single
     operations are parameters (`Interp`): they may do anything, including to abort.
   * `Desugar/Meaning.lean`, `Desugar/Positions.lean`, `DsWorld.Laws` in `Desugar/Cells.lean`: what array literals,
     interpolated strings and `for` loops mean, and what is assumed of the operations that desugaring emits
     (C30 - C32). `Desugar/Toy.lean` is a world that satisfies the laws.
   * `Typecheck/Rules.lean`: the typing rules (C56). `Elab` in `Typecheck/Elab.lean`: which typed tree stands for
     which source tree (C57). `TcEnv.Lawful` in `Typecheck/Sound.lean`: what is assumed of the pool that the checker
     asks; `TcToy` is a world that satisfies it.
   * `shownBody`, `readStmts` and `Expr.tidy` in `Decompiler/ShownSpec.lean` (C71).
   * `meaning` and `printsSafely` in `Decompiler/PrintProps.lean` (C39), `stmtMeaning` and `stmtSafe` in
     `Decompiler/PrintStmt.lean` (C64).
   * `Pipeline/Written.lean` (`isWritten`), `TcEnv.SmallStructs`, `BodyCompiled` and `EndsAlike` in `Pipeline`: what the
     phases pass to each other and how the ends of runs correspond (C67).
   * `Permitted` in `Scc/LaunchProps.lean`: the histories C41 and C42 are proved for.
   * `OtherWork` in `Unit/WrapModel.lean`: what may happen between the declarations of wrappers (C36);
     `WrapperFor` and `WrapFinish` in `Unit/WrapCompiled.lean`: the wrapper of a declaration, and the steps after the
     declarations (C73).
   * `Back.Laws`, `BodyNames`, `BodyDone`, `CleanCompile` and `CompileRun` in `Unit/CompileProps.lean` and
     `Unit/CompileTheorems.lean`: what is assumed of the passes, which names a body sees, and what a compilation does (C74).
   * `SameBut` and `OneSmallTarget` in `Unit/OrderProps.lean`: two runs of the compiler, and the sources for which they are
     shown to give the same (C75).

### Simplifications common to the models

* Rust panics are explicit error results. I/O errors of the host are not modelled unless stated; streams are
  byte lists with a position.
* `HashMap` is an association list or a function. Where the code iterates one, the theorems hold for every order.
* Reference counting, interning of `Str`, logging, spans and the texts of errors are erased.
* Arithmetic is that of the release profile (it wraps).
* Floats are bit patterns. Conversions between floats and numbers or text are opaque or left out.
* Functions of the Rust library (`escape_default`, `char::is_alphanumeric`, `binary_search_by`, `str::parse` of
  integers) are modelled from their documentation; `binary_search_by` is any function that meets its contract.
* Loops and recursions that do not obviously end take fuel. Running out of it is a result of its own; theorems
  say that it does not happen, or hold for every amount that suffices.

### What is modelled

| code | model | left out |
|------|-------|----------|
| core/src/encode.rs, decode.rs | Codec | - |
| core/src/bytecode.rs | Bytecode | `Display`/dump of code |
| core/src/definition.rs | Definition | - |
| core/src/bundle.rs, io.rs | Bundle | checksum function is a parameter |
| core/src/mapper.rs | Bundle/PoolModel | - |
| core/src/ast.rs | Ast, Names, SourceMap | `Span::merge` in trees |
| compiler/src/symbol.rs | Names, Scope | - |
| compiler/src/scope.rs | Scope, Types | - |
| compiler/src/cte.rs | Cte | - |
| compiler/src/source_map.rs | SourceMap (directories: DirModel), Report (paths of files) | names that are not Unicode, `display` of all files |
| compiler/src/parser.rs | Parser | positions of declarations |
| compiler/src/typechecker.rs | Types (conversions, bounds, overloads), Scope/BlockModel (names), Typecheck (all of `check`) | spans, texts of errors |
| compiler/src/sugar.rs, transform.rs | Desugar | names of the added locals |
| compiler/src/diagnostics.rs and below | Diagnostics, Unit/DiagModel, Report/Model (`display`) | texts that describe a problem (a parameter) |
| compiler/src/assembler.rs | Assembler | the pool is asked through `AsmEnv`; strings may fail to be added |
| compiler/src/unit.rs | Unit (declarations: DeclModel; diagnostics, wrappers, persistent fields, order of classes, defaults of fields: DefaultModel; the whole of `compile`: CompileModel, where the pool the passes leave is a parameter), Cte (conditions) | reading of files, where declarations are (a parameter of C76) |
| decompiler/src/lib.rs | Decompiler/Model, MergeModel | the pool is asked through `DecEnv` |
| decompiler/src/print.rs | Decompiler/PrintModel, Decompiler/DeclPrintModel, Decompiler/ListingModel (`--mode bytecode`) | the `--mode ast` output |
| decompiler/src/files.rs | Decompiler/FilesModel | creation of directories, writing of files |
| scc/lib | Scc (copies before a run: PrepModel), SourceMap/DirModel (directories), Report/Model (`ErrorReport`) | locks, creating directories, the parsing of TOML |
| scc/cli/src/main.rs | Scc/PrepModel (settings of a run), Scc/CApi (`main`) | how the library is loaded (whether it is: a parameter) |
| scc/cli/src/opts.rs | Scc/Model (`fix_args`) | the `clap`-like option parser |
| cli/src/main.rs | Scc/CliModel (`compile`, `lint`, `load_bundle`), Decompiler/FilesModel (`decompile`) | the option parser, logging other than the message of success, failing writes |

Not modelled: the parsing of options of the command line tools. Of the C interface of `scc`, freeing of results and the layout of structures are not modelled; references to declarations have the file and line the source map finds.

## What each property needs

| id | model | proof |
|----|-------|-------|
| C01 | byte-list encoder/decoder of `encode.rs`/`decode.rs` | round-trip law, induction on width/list |
| C02 | all 104 instructions with encode/decode | case analysis over the table |
| C03 | `Code::encode/decode`, `Instr::size` | induction on the list with the running offset |
| C04 | same decoder | prefix-freeness from round trip plus decoder monotonicity |
| C05 | `Location::relative`, `Offset::absolute` on 16-bit words | bit-vector arithmetic |
| C06 | `CodeCursor`, `CodeIter` incl. binary search | induction, sortedness invariant |
| C07 | `into_code`, `resolve_labels` | induction over the instruction list |
| C08 | all `definition.rs` codecs with flag words | round-trip composition |
| C09 | `ConstantPool::encode/decode` over a seekable writer | writer refines concatenation; then round trip |
| C10 | `Header`, `TableHeader`, abstract checksum | direct from the layout lemma |
| C11 | `Strings` with its map | invariant by induction over `add`/`decode_from` |
| C12 | `ConstantPool` mutators | list lemmas, invariant over histories |
| C13 | `PoolMapper` | extensionality |
| C14 | `TypeName::repr/from_repr` | induction on depth / split-join lemma |
| C15 | `FunctionSignature` | recoverability lemma, collision witness |
| C16 | `ModulePath` | split-join lemma |
| C17 | `SymbolMap`, `Scope::add_symbol` | refinement to sets of visible symbols |
| C18 | `Files::add`, `lookup_file` | sorted disjoint ranges, binary search |
| C19 | `File::lookup` | counting newlines |
| C20 | `cte::Context::eval` | refinement to boolean semantics |
| C21 | `find_conversion` | equivalence with an inductive relation |
| C22 | `lub` | longest common prefix of supertype chains |
| C23 | `resolve_overload` over abstract argument types | decision logic |
| C24 | `Scope` | refinement to environment stack |
| C25 | assembler + decompiler reader | structural induction |
| C26 | assembler + VM | simulation |
| C27 | assembler | part of the simulation |
| C28 | assembler switch lowering | simulation; negative witness |
| C29 | `assemble_call` | structural statement |
| C30 | `on_for_in` | loop invariant over the array |
| C31 | `on_array_lit`, `on_interpolated_string` | induction on parts |
| C32 | `Desugar` | simulation for hoistable positions; witnesses |
| C33 | `missing_return.rs` | soundness against path semantics; witnesses |
| C34 | `stmt_fallthrough.rs`, `unused_local.rs` | equivalence with specification |
| C35 | `compile_and_report`, `finish` ordering | decision logic |
| C36 | wrapper bookkeeping + `finish` swap | invariant over declaration histories |
| C37 | `cleanup_pool` | order + permutation theorem |
| C38 | `can_be_persistent` | equivalence with inductive predicate |
| C39 | `print.rs` operators + precedence parser | round trip for a fragment; witnesses |
| C40 | `escape_default` + `escaped_char` | round trip on characters |
| C41, C42 | file-system state machine of `try_compile_files` with crash points | invariant over histories |
| C43 | `scc_copy_error` on a byte buffer | direct |
| C44 | `get_by_error` | equivalence with first-match specification |
| C45 | `fix_args` | induction |
| C46 | `merge_declarations` | induction |
| C47 | comment rules as a recursive-descent parser | induction on nesting |
| C48 | `number` rule + constant printing | digit round trip; witness |
| C49 | `get_type_index`, `resolve_type_from_pool` | induction on type |
| C50 | `CompileTimestamp` over a seekable file | byte lemma |
| C51 | layout of code | sizes against written bytes |
| C52 | `invalid_temp_use.rs` | equivalence with a specification |
| C53 | invocation flags of calls | bit lemmas; witness beyond sixteen arguments |
| C54, C55 | lexical rules, for C54 all rules of the parser | inversion of the rules; witness |
| C56 | all of `TypeChecker::check` | soundness against inductive typing rules; witnesses |
| C57 | all of `TypeChecker::check` | simulation relation between source and checked trees |
| C58 | all of `TypeChecker::check` in both modes | relational induction over the checker |
| C59 | all of `TypeChecker::check` | from C56's rules; witness |
| C60 | both loops of `compile_modules` before bodies are compiled | invariant over the steps of a state monad |
| C61 | the same, from `CompilationUnit::new` on; `resolve_type`, `get_type_index` | two invariants (first loop: where things go; second loop: what has been put there), each a triple per step |
| C62 | the same | consequence of C61; counterexample for class members |
| C63 | the same, with `SymbolMap`, `Scope::add_symbol` and `populate_import` | invariant of the first loop (global scope and table agree), the table and module scopes as lists of additions |
| C64 | `print.rs` statements + statement parser | structural induction over statements, sequences and cases; the rest of the text as a parameter; witnesses |
| C65 | `print.rs` declarations + declaration parser + `dump` to one file | relation between definitions and declarations; every rule with the rest of the text as a parameter; witnesses |
| C66 | `files.rs`, `first_line`, `dump` to many files | the order of hash maps as a parameter that permutes; counting lemmas; witnesses |
| C67 | parser, checker, desugaring, assembler and machine together | shape lemmas of each phase (statements stay where the next phase expects them), then C57, C56, C32 and C26 composed |
| C68 | all rules of the parser | every rule with a bound on its steps (four for each character) and what it takes from the text; answers with more steps are the same (monotone in the steps) |
| C69 | `load` on arbitrary bytes, then `save` and `load` | every decoder returns only values the encoder accepts and in the states C08 asks for, by a rule for each combinator (`Dec.Sat`); then C09 |
| C70 | `compileDefaults` over the list of fields with defaults | one step changes one definition (`modifyValue_spec`), then induction; the checker inverted on the three forms of values; texts of integers are Lean's `toString`. How floats are printed is a parameter |
| C71 | `from_body` + `decompile` + the machine of C26 | `shownBody` rewrites a typed body into the one that is shown; the assembled code is placed in the final code with its labels (`PlacedAt`), then one induction over statements, blocks and cases for reading it, one for the meaning of the rewriting |
| C72 | both loops of `compile_modules` before bodies are compiled | invariant on the classes of the bundle (`Clean`), a triple per step; classes counted in the table of symbols; witnesses |
| C73 | both loops of `compile_modules`, the defaults, then C36 | an invariant through the first loop gives the sequence of wrapper declarations (`Wrapping`); the second loop and the defaults leave reserved slots, names and classes alone (`OtherWork`) |
| C74 | `CompilationUnit::compile` from the pool to the pool | the driver inverted step by step (`compile_run`): bodies have distinct indexes (invariant of the declarations), passes only append (`Grown`), bodies are installed one by one (`Installs`); then C73, C36 and C37. Bases of classes do not change in between (`BasesFrom`); the bound on the loops of `cleanup_pool` does not matter once they end (`Settled`) |
| C75 | hash maps of `CompilationUnit::compile` | maps with at most one entry have one order; the rest of the driver does not ask for orders. Two runs that differ are computed for the counterexamples |
| C76 | `define_source_ref` in both loops of `compile_modules`, then `compile` | invariant of the second loop: each listed file has its own definition, steps change definitions only where no file is (`Filing`); then C61 and C74 |
| C77 | `write_function_body` on `Decompiler::decompiled` of compiled code, then `seq` of the parser | composition of C71, C46 and C64: meanings of statements commute with taking out declarations; counterexamples: no block that is parsed declares a name with `$` (induction over the parser) |
| C78 | `Report/Model`: `Diagnostic::display` over files with paths | the place of a piece by C18/C19, the line by induction over the text before it; trimming keeps a piece that does not end with space |
| C79 | `Report/Model`: `ErrorReport::{from_error, fmt}` after `compile_and_report` | invariant of the loop over the errors (lists of mods and hints), for every order of the hash tables; counterexample: codes of syntax errors are lost before the report |
| C80 | `Unit/CompileModel`, `Typecheck/Model` | the calls of a body in order, before and after checking, by induction over the elaboration of C57; with C73 and C74; counterexample: a global function `wrappedMethod` is called instead, from sources that compile without diagnostics |
| C81 | `Unit/DeclModel`, `Unit/CompileModel`, `Unit/SourceRefs` | the second loop of `compile_modules` pushes one reference for each slot, in order, and keeps what can be seen at those pushed before; then field defaults, proxies, bodies, swaps and renumbering (C74, C36, C37) keep kind, name, parent and the native flag; the position goes with the reference |
| C82 | `Unit/DeclModel`, `Unit/CompileModel`, `Unit/CompileRest` | slots, waiting bodies and waiting defaults are for new indexes or for functions to be replaced (`Unit/DeclFrame`, `Unit/DeclLate`); proxies become methods only of the parent of the wrapped function; bodies, swaps and renumbering as in C74, C36, C37 |
| C83 | `Scc/CliModel`, `Scc/CliProps` | partial: a pool is `Writable` if flags and parts of its functions agree and no string has NUL; the pool without the places of native functions is written as the same bytes, so C09 applies. The exit status and the fate of the old output have counterexamples (`Scc/CliExample`), where one equation about a long string is closed by a term that only the kernel checks |
| C84 | `SourceMap/DirModel`, `SourceMap/DirProps` | partial: the walk lists exactly what is found by going down (mutual induction on trees); the extension is what follows the last dot. Directories with the name of a script, missing paths and overlapping paths have counterexamples |
| C85 | `Scc/PrepModel`, `Scc/PrepProps` | partial: reading lines inverts writing them with either ending (induction on the lines). Other names of the scripts directory and unreadable files have counterexamples |
| C86 | `Scc/PrepModel`, `Scc/PrepProps` | partial: files by path; the four paths may coincide. A backup left by an update has a counterexample |
| C87 | `Decompiler/ListingModel`, `Decompiler/ListingProps` | partial: lines are read back as in C85, places are those of C06, jumps land by C07; the texts of instructions without places among their operands are a parameter. Functions from 32 KiB have a counterexample |
| C88 | `Scc/HintsDir` | partial: the loop keeps exactly the files with the ending, then C44. Broken files and the order of the directory have counterexamples |
| C89 | `Scc/PrepSeparate`, `Scc/PathIndependent` | partial: the names are injective in directory and stem; `SccSettings.touches` lists the files a run may change (read off the code, the effects themselves are in `Scc/LaunchModel`). Caches in one directory have a counterexample |
| C90 | `Scc/PathLaunch`, `Scc/PathNames` | the preparation of C86, then the run of `Scc/LaunchModel` on the files at the paths of the cache, and the files put back; locks, failing reads and an interruption of the launch are left out (interruptions: C41) |
| C91 | `Scc/PathHistory`, `Scc/PathNames`, `Scc/PathFirst`, `Scc/PathUpdate` | sequences of the launches of C90; launches that cannot save the output or are interrupted are left out (counterexamples in C41), as are changes of files by others between launches |
| C92 | `Scc/CApi`, `Scc/PathNames` | strings are searched for in memory with fuel, any amount above their length; what is made of bytes that are not UTF-8 and `PathBuf::from` are parameters; the log of the library is left out |

Nothing on the list is considered inexpressible; where only part holds the theorem name ends
in `_partial` and a negation witness shows what fails.
