# Formal model of mutagenyx in Lean 4

## Layout

* `properties.jsonl`: the properties, written by `tools/mkprops.py`.
* `lean/Verif/Model/`: the model of the code, function by function. Every definition cites the lines in `/repo`
  that it models and says where it simplifies.
* `lean/Verif/Spec/`: vocabulary in which the properties are stated: positions in trees, histories of runs, grammars
  and readers of the target languages, command lines of compilers. It does not use the functions under test.
* `lean/Verif/Proofs/`: lemmas.
* `lean/Verif/Props/`: the property theorems. The name begins with the property (`C17_…`). Beside each theorem there is
  an `example` that meets its hypotheses.
* `MANIFEST.json`: property → theorems, written by `tools/mkmanifest.py` from the theorem names. A property is `proved`
  if it has no theorem whose name contains `partial` or `counterexample`.
* `AXIOMS.md`: the axioms each property theorem depends on, written by `tools/axioms.py`.
* `seeded/LOG.jsonl`: experiments with wrong programs.

## Trusted base

* The kernel of Lean 4.33.0. `decide +kernel` is used for concrete examples and counterexamples; it evaluates in the
  kernel and adds no axiom.
* The axioms `propext`, `Classical.choice` and `Quot.sound` of Lean, at most (`AXIOMS.md` says which for each theorem).
  No axioms are added; there is no `sorry`, `native_decide` or `bv_decide`.
* That the model says what the Rust code does. This was checked by reading only: nothing was built or run.
* That the specifications of other programs are right: the grammars of Solidity and Vyper expressions
  (`Spec/SolidityGrammar`, `Spec/VyperGrammar`, `Spec/Lex`), the tokens of Solidity statements, declarations,
  assembly and files (`Spec/SolidityProgram`, `Spec/Yul`, `Spec/SolidityFile`) and how they are read (`Spec/SolidityRead`), string literals (`Spec/SolidityLiteral`), comments (`Spec/CommentedOut`), brackets
  (`Spec/Brackets`), and the command lines of `solc` and `vyper` (`Spec/Solc`).

## Conventions

* A `serde_json::Value` is the inductive type `Json`. The crate is built without `preserve_order`, so an object is a
  map sorted by key: a list of fields, and insertion keeps it sorted. Integers are `Int`; floats are opaque text.
* `&mut T` becomes "return the new value". `Result` and `Option` stay data. `Outcome` has four cases: `ok`, `err`,
  `panic` (the code crashes), and `outOfFuel` (a loop without bound did not end within the fuel given).
  "Ends" means that some amount of fuel is enough, "never ends" that no amount is.
* The random generator is a class `Rand R`: a state with a function `below n` for a draw from `0 … n-1`. Nothing is
  assumed about the distribution. Theorems hold for every generator unless they say `Fair` (choosing algorithms offers
  every one again and again) or `FairSource` (draws yield every index again and again).
* The iteration order of hash maps, the file system, compilers, the clock and sha256 are parameters: `World` for
  mutation runs, where answers may depend on all events so far; `Sys` and `Machine` for recognition, compilation,
  printing and whole runs, with a state of their own; `MutEnv` for mutators.
* Where the code does not have a property, its negation is proved for a concrete case (`…_counterexample`), and what
  does hold is proved in general (`…_partial`, with "Missing" in the comment).

## What is modelled

| code | model | remarks |
|------|-------|---------|
| `json.rs`, JSON pointer of serde_json | `Model/Json` | |
| `ast.rs`, `visitor.rs`, `json_ast*.rs`, `id.rs`, `json_namer.rs` | `Model/Traverse`, `Model/Common` | `visit_mut` returns whether to stop and the new node |
| `permissions.rs`, `permit.rs`, `json_ast_permitter.rs` | `Model/Permissions` | |
| `mutation_visitor.rs` | `Model/MutationVisitor`, `Model/CountRng`, `Model/CountCrash` | counting once without and once with the generator handed through, proved equal; and once with the crashes of the tests (C70) |
| `mutation.rs`, `mutator_result.rs`, `language.rs`, `error.rs` | `Model/Common` | texts of errors are dropped |
| `operators.rs`, `vyper/operators.rs` | `Model/Operators`, `Model/VyperMutators` | |
| `solidity/mutators.rs`, `vyper/mutators.rs` | `Model/MutatorBase`, `Model/SolidityMutators`, `Model/VyperMutators` | texts that mutators print into comments and digests are a parameter (`MutEnv.pp`); sha256 is a function of the list of updates |
| `commenter.rs`, `json_comment_*.rs`, `node_finder.rs`, `json_finder_helpers.rs`, finders and commenters of both languages | `Model/Comments` | |
| `preferences.rs`, `config_file.rs` | `Model/Preferences`, `Model/Config` | the text of JSON is not modelled, a file is its JSON value |
| `mutation_generator.rs`, `generator_parameters.rs`, parts of `json_ast_language_interface.rs` | `Model/Driver` | labelled loops are flattened into one step function; messages are in `Model/Console` |
| `compiler_settings.rs`, `recognizer.rs`, `pretty_printing.rs`, parts of both `language_interface.rs` | `Model/System` | log messages are left out |
| `mutation_generator.rs` on a machine: compilers are called and files are written | `Model/Tool`, `Model/Languages` | `Model/Driver` has the same code with a world that only answers; `Proofs/Tool` (`generate_sim`) shows that both do the same |
| `mutations_info.rs`, table of descriptions of `mutation.rs` | `Model/AlgorithmsInfo` | the width of the terminal is a parameter |
| `main.rs`, messages of `mutation_generator.rs` and `pretty_printing.rs` | `Model/Console` | standard output is a list of lines and texts; the wording of messages is left out, a status 101 stands for every crash |
| `string.rs` | `Model/Strings` | |
| `pretty_printer.rs` | `Model/Printer`, `Model/PrinterOps` | |
| `node_printer.rs`, `node_printer_helpers.rs`, `pretty_print_visitor.rs` | `Model/NodePrinter` | |
| `vyper/pretty_printer.rs`, `solidity/pretty_printer.rs` | `Model/VyperPrinter`, `Model/SolidityPrinter` | all node printers |
| `std::path` | `Model/Path` | Unix; a path is its text |

Not modelled: the parsing of the command line (`clap`), `lib.rs`, `super_ast.rs` and the other wrapper modules, the parser and printer of JSON text, `env_logger`.

## Simplifications

* JSON: the range of integers is a predicate (`JNum.InRange`), used as a hypothesis where it matters. Rounding of large
  integers to floats is not modelled, only that they become floats. `FitsMemory` says that arrays have at most 2^64
  elements.
* Mutators: a node that `mutate` leaves behind together with an error is not modelled, since the caller throws the whole
  tree away. Where `is_mutable_node` of Vyper crashes the generic code sees the node as not mutable; the crash itself is in
  `C30_vyper_counterexample` and C70 says when it happens.
* Token printer: writing to the stream never fails. Text is characters with their byte lengths. The number of columns
  beyond which indentation stops is computed with floats in the code and exactly in the model; the two agree below
  2^52. Whether arithmetic is checked (debug builds) is the parameter `checks`.
* Node printers: the settings object is a record of flags. The text of a float is a parameter.
* System: output of programs is valid UTF-8; the reason why a file cannot be read is dropped; two different texts of
  paths are different files. The comparison of compiler versions (crate `versions`) is a parameter.

## Properties that the code does not have

Each line names what was proved instead of the full statement; the theorems with `counterexample` in their names show
the failure on a concrete case. The notes in `MANIFEST.json` have the details.

* **C07** mutants of inputs with the same file name overwrite one another; so can mutants and a printed original
  (`C07_collisions` says exactly when).
* **C12** a listed name inside a listed function ends the permission of the outer function; the identifier in a recursive
  call is such a name, so that what follows the call is not mutated (`C12_exact` says exactly what is).
* **C16** the comment on a mutated block of an `if` branch replaces the block (`solidity/commenter.rs:59`).
* **C17** the argument swap of Solidity depends on the order of a hash map.
* **C18, C19** the seed of a configuration file leaks into inputs that follow it.
* **C20, C51** seeds of 2^63 and above, integers above `i64::MAX` and keys with `/` or `~` do not survive a round trip.
* **C30** mutable nodes on which mutation crashes, fails, or never ends; every assignment to an `int128` or wider crashes
  (`C30_solidity_exact`, `C30_vyper_exact`: for most algorithms exactly the usable nodes are mutated).
* **C32, C37** the Vyper mutators do not look at types.
* **C36** the random integer may be the old one; some integers of Vyper are not changed.
* **C44** pieces with line breaks are not counted in the position.
* **C46** flowable text with a word wider than the page, or one byte shorter than the room, is never finished; and whenever running text is
  written to the end, no stretch of it without blanks is wider than the page (`C46_needs`).
* **C48** string literals: only printable ASCII without quotation mark and backslash is printed in a way that is read
  back; `hex` literals are printed as identifiers; strings in assembly are printed as they are.
* **C49** expressions: grouping that needs new parentheses is lost, which mutations can cause; `- -a` becomes `--a`; slices `a[i:j]` have no printer (their parts run together); in Vyper `(-5) ** b` becomes `-5 ** b`, `(a + b).c` becomes `a + b.c`, `f(k=a)` becomes `f(, k=a)` and `f((a, b))` becomes `f(a, b)`.
* **C50** `--stdout` stops after the first input that is printed.
* **C52** `remove_all` removes other text and leaves parts of occurrences.
* **C54** with two allowed paths the second is given as an input file; a configured stage is given twice on retry.
* **C55** operators and operands of Vyper that are not printed.
* **C56** pragmas, `override`, modifiers, `for`, `try` without results, free functions, constants outside of contracts,
  `using {f} for T`, `using L for *`, function types, names in mappings, long licenses, documentation that contains `*/`, and in assembly `let` without
  value and functions with several results are printed wrongly.
* **C58** beyond 36 levels Vyper statements lose their indentation.
* **C59** Vyper operations longer than the line are broken outside brackets.
* **C60** statements of several lines are only commented out in part when deleted.
* **C62** validation overwrites and removes an input in the directory for temporary files; printing to the directory of
  an input overwrites it.
* **C63** a Solidity mutant that only parses passes validation.
* **C68** as C16: the mutant that swaps lines in a branch is written without the branch.
* **C70** a Vyper file with an operator that is not in the tool's table (`<<`, `>>`, `//`) crashes the count when
  `SwapOperatorArguments` is among the algorithms.
* **C72** for Vyper, `UnaryOp` works on `not` and `-`, which its description does not show, and `BitshiftBinaryOp` on
  nothing.
* **C73** results of array and string types are not returned at all, tuples are returned as `None`s, and for `address`,
  `bytes32`, `decimal` and type names of less than three letters the mutator fails or crashes.
* **C74** relative imports lose their dots, and `transient` is lost.  Vyper nodes of kinds that `printer_for` does not know (`ImplementsDecl`,
  `FlagDef`, `IfExp`, `ExtCall`, `StaticCall`) are printed as the nodes below them, with nothing before, between and after them.
* **C75** a mutant of `~a * b` that should be `(~a) ** b` is written as `~a ** b`, which is `~(a ** b)`; when the only declaration of a module is deleted, a `pass` is written
  outside of functions, which Vyper does not accept.
* **C76** a mutant of `-~x` that should be `-(--x)` is written as `---x`, which is `--(-x)`; one of `-0` is written as `--1`.
* **C78** the comment for a statement that is the body of a branch or loop without braces comes with new braces.
* **C80** messages stand on standard output between the texts, and the elapsed time stands behind them.
* **C81** the status is 0 for commands that fail with an error and for inputs that could not be printed; only crashes give another.
* **C83** when Vyper runs in a container, the directory of the file is mounted at `/code` but the file is named by its path
  outside, where the compiler does not find it.

* **C85** swapping equal operands or statements gives the source again.
* **C89** `true` is never assigned to a `bool`, nor the largest number to a `uintN`; of several arguments of one type only the first two are
  swapped; an emptied Vyper function with a signed result returns -10, -6, 6 or 10.
* **C90** a mutant that should be `x - (x - x)` is written as `x - x - x`, which is read as its source; a function with two modifiers is
  not read at all; a call replaced by its argument loses the brackets of the call, so that `g(a + b) * c` becomes `a + b * c`
  (`C90_call_counterexample`), and in a `try` statement nothing that can be read is left (`C90_try_counterexample`).
* **C91** quotation marks, line breaks and backslashes in Vyper strings are printed as they are.
* **C92** several blanks in a row in a Vyper comment are printed as one; documentation that ends with a quotation mark is printed
  with four of them, which is not a program.
* **C93** a tree with a dictionary, a byte string or a call whose parts do not match brings the tool down, and a word in documentation that is
  wider than the page is printed forever.  The same happens to mutants of programs that are printed well: the comment beside a mutant quotes the
  mutated node as running text, so a statement with a literal wider than the page (contract code, pictures) cannot be deleted.
* **C95** the list of words to be kept lacks `pure`: in an interface, `def g() -> uint256: pure` becomes
  `def g() -> uint256: # pure, return 7`.
* **C96** Vyper integers of 2^63 and more are printed as floating point numbers: 2^63 and 2^63 + 1 give the same text.  (From 2^64 on, as in
  the largest `uint256`, the reader of JSON has already rounded them; that reader is not modelled.)  Adding one to them does nothing.
* **C97** the digest of a changed integer covers which of the three changes was made but not the number that was drawn, so of all random numbers
  put in one place only the first is written (both languages; `C97_run_counterexample` is a run of the loop).  The digest of a swap of arguments in
  Solidity covers the number of a group in the order of a hash map, which is another one at each call.
* **C98** the digest of two swapped lines covers their places in the order in which they were drawn, so the swap of lines 1 and 2 and the swap of
  lines 2 and 1 count as two mutations and the same mutant is written to two files (`C98_counterexample` is such a run).

## How the proofs go

* Selection and mutation loops (C01–C07, C13): invariants over the steps; a run is decomposed into a list of rounds
  (`Spec/History`), and the properties are read off it.
* Traversals (C08–C12, C14, C15): induction over trees; callbacks are recorded and the log is described by a grammar.
* Mutators (C28–C42): each is refined to a relation between the old and the new node (`Spec/MutatorSpec`).
* Printers (C43–C49, C55–C61): what a node printer does is a list of calls; the text is a function of the calls
  (`Proofs/Fits`), the tokens of the text are computed (`Spec/Lex`), and a reader written from the grammar reads the
  tree back.
* Vyper programs (C74): the calls of each printer are shown to write the layout of `Spec/VyperProgram`
  (`Proofs/VyperBlocks`); the layout is cut into logical lines with a scanner for brackets, strings and comments
  (`Proofs/Paint`, `Proofs/VyperText`, `Proofs/VyperRows`), and the reader for lines gives the program again
  (`Proofs/VyperRead`, `Proofs/VyperReadBack`).
* Vyper mutants (C75): a mutation of a node is a change of the part of the program it stands for (`Proofs/VyperMutants`),
  a change below carries over to the program (`Proofs/VyperChange`), and the comment only adds a comment
  (`Proofs/VyperComment`); with C68 and C74 this gives the text of the file.  A deleted statement is a comment that quotes it
  (`Stmt.quote`, `Decl.quote`), which is printed by printing the statement alone, with its lines joined to one (`onOneLine`), and is dropped when
  the text is read.
* Solidity mutants (C76): the same steps (`Proofs/SolidityMutants`, `Proofs/SolidityEdit`, `Proofs/SolidityChange`); a comment in a
  list of statements or around a statement is one more edit of the tree, and what a change of the program does to its tokens is read off
  the place of the change (`Proofs/SolidityTokens`); with C68 and C56 this gives the tokens of the file.
* Texts of Solidity mutants (C77, C78, C84): at places that are reached through statements, functions, modifiers and contracts (`SolText.levelAt`) the
  calls for the tree are calls that do not depend on what stands there, the calls for what stands there, and further calls that
  do not depend on it (`Proofs/SolidityPlace`, `Proofs/SolidityRows`); a printer that begins a line at another place of the page or after other
  text goes on in the same way (`Proofs/PrinterShift`, `Proofs/PrinterText`).  For C84 the level of indentation behind a statement is the one before
  it, as long as the tree is not nested deeper than the 36 levels of the printer.
* Texts of Vyper mutants (C86): the text of a program is a function of the program (`VyGrammar.textProgram`, C74), so a change at a place is followed
  outwards from the lines that it is in: each statement and declaration is a frame around them that begins and ends with whole lines.
* The whole command (C87, and C17, C19, C21, C62 with `command` in the name): the collected parameters and the runs are threaded through the states of
  the machine; what a run keeps of the files is `C62_run_partial`, applied to the files of the other inputs.
* Compiler runs (`C04_compiler`): a potential, the attempts that are left, goes down with every mutant that is tried.
* Mutants that are their source (C85): if the changed program is the program again, then the changed part is the same part again (`VyGrammar.idle`,
  by induction over the place of the change; for Solidity on tokens without braces, as a comment may bring new ones), and for each algorithm it is
  shown what that part is.  Equal operands are swapped without notice in both languages; the unchanged code therefore violates the property.
* Comments and documentation (C92): the lines of a text are read a second time with the lines that have only a comment (`readWhole`); the text of
  a program has the lines of its comments and documentation, and leaving them out gives the lines of C74.
* Printing that ends (C93): `Fine` says of a sequence of calls that it ends from every state of the printer with room for so many more levels of
  indentation; it is shown of the calls of every node printer for every JSON node, given the same of the parts (`Proofs/Sturdy`,
  `VyperSturdy`, `SoliditySturdy`).  `Json.nest` counts the indenting nodes on a way down.  Mutations and comments of Solidity keep trees of such
  nodes, with at most two more levels (`Proofs/SturdyMutants`); only calls need a look at their fields, the other checked nodes are not mutated.
  Mutations and comments of Vyper need no more levels (`Proofs/SturdyVyperMutants`); what the printer makes of statements kept in comments is
  left as a condition on the mutant (`QuotesShort`), as it depends on the printed text.
* Runs that end (C94): `Act.Ends` says of a computation that from every state it ends well or is cut off for a reason; each turn of the loop does,
  with less left to do (`Proofs/RunEnds`).  An attempt for an algorithm of the table finds its mutator and a candidate (C08), the mutant passes
  the check of the tree (C64), and the table is empty just if there is nothing to mutate.  The outcome is stated without the loop: well,
  `noMutableNode`, or cut off while drawing.  That an input is read, that files can be written, that mutators do not fail (C30) and that texts
  can be printed (C93) are hypotheses of `C94_run`; the last two are shown for sturdy trees in `C94_solidity_partial` and
  `C94_vyper_partial`.
* Interfaces (C95): the word is recognised by its printed text, so the printer of C74 is used for the statement; which nodes are taken is C69.
* Repetitions (C97): for each algorithm, two mutations of one node whose reports have the same digest are the same (`Proofs/Duplicates`); the report
  names the algorithm and the number of the candidate, so equal reports come from one node.  Hypothesis: different lists of choices have different
  digests (`digest` stands for sha256, here of the list of updates and not of the joined bytes); the examples use a digest of which this is shown.
  In the model the order of groups (`groupOrder`) is one function for a whole run, in the code it is another one at each call; so the
  swapping of arguments in Solidity is left out of the theorem.
* Mutants written twice (C98): the field that an algorithm sets tells what was put in, and that tells what the digest was made of
  (`Props/Repeats`).  This is about one node, before comments are added.
* Printing again (C88): the tree that is read from the printed text with comments is a tree of the same program, and the text of a tree is
  the text of its program (C74).
* Reading Solidity files (C90): a reader written from the grammar (`Spec/SolidityRead`) takes the tokens of a file apart; that it gives back the
  program whose tokens they are is shown by induction over statements, assembly and expressions (`Proofs/SolidityRead*`), with the conditions under
  which tokens tell programs apart (`Clear`); with C56 and C76 this is about texts and files.
* Results that can come up (C89): for each result the draws that lead to it are given, also for a whole run (`C89_run`); results that cannot come up are excluded for every
  generator of random numbers.
* Lists of algorithms (C71): what the printer does is computed symbolically for a terminal of any width that is large
  enough, by evaluation for the others.
* System (C50, C53, C54, C62, C63, C67, C82, C83): symbolic execution of the model over an arbitrary `Sys`; what compilers have to
  answer is a relation (`Spec/Compiling`).
* Syntax trees (C64): the mutation and its comment leave the fields of the root that the language looks at.
* Results of a run (C68): the run on the machine is the replay of the events of the run in a world (`Proofs/Tool`), whose
  history says which tree went to which file; files are different, so that later events leave earlier files alone.
  `Spec/Mutant` says what a mutant is.
* Runs on a machine (C62, C65, C66): the machine is instrumented to record what is done to it, which does not influence
  the run (`Proofs/Traced`); the record of every run follows a grammar (`Spec/Trace`, `ToolProps.run_trace`).
* Messages (C79–C81): the commands with messages (`Model/Console`) run like those without (`Mute`, `Tells` in `Proofs/Console`); the
  messages of each part are described together with what it did, and put together along the run.
