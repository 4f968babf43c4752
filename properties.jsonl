{"id": "C01", "title": "Number of scheduled mutants is exactly min(requested, available)", "statement": "When the algorithm-selection phase of `mutate` ends, the number of scheduled mutants equals the smaller of the number requested and the total number of (algorithm, node) pairs counted in the AST; it never exceeds either.", "quantifier": "for every count table, every requested number and every sequence of random choices for which selection ends", "why_tests_cant": "Depends on the interaction of random choices with per-algorithm limits; a test sees one random sequence and one table.", "anchors": ["mutagenyx/src/mutation_generator.rs:generate_mutations 394-450"]}
{"id": "C02", "title": "Selection respects per-algorithm node counts and requested algorithms", "statement": "Every scheduled algorithm has at least one mutable node in the AST, and no algorithm is scheduled more often than the number of nodes it can mutate.", "quantifier": "for every count table, requested number and random sequence", "why_tests_cant": "Needs an invariant over all random selections, not one run.", "anchors": ["mutagenyx/src/mutation_generator.rs:generate_mutations 365-450"]}
{"id": "C03", "title": "Algorithm selection terminates whenever the random source keeps offering usable algorithms", "statement": "If the random source offers every usable algorithm again and again, selection stops; once every algorithm is exhausted it stops on the very next choice.", "quantifier": "for every count table, requested number and every fair infinite random sequence", "why_tests_cant": "Termination over infinite random sequences is a liveness statement; no finite test establishes it.", "anchors": ["mutagenyx/src/mutation_generator.rs:generate_mutations 419-450"]}
{"id": "C04", "title": "Bounded effort: at most 50 attempts per scheduled mutant, and the generation loop always ends", "statement": "For every schedule the mutation loop ends, performs at most 50 attempts per scheduled mutant, and writes at most one mutant per scheduled entry; so the number of mutants written never exceeds min(requested, available).", "quantifier": "for every schedule, every random sequence, every behaviour of the mutators and of the compiler", "why_tests_cant": "Quantifies over all compiler verdicts and mutation outcomes.", "anchors": ["mutagenyx/src/mutation_generator.rs:generate_mutations 452-543", "mutagenyx/src/mutation_generator.rs:ATTEMPTS_TO_GENERATE_A_MUTANT"]}
{"id": "C05", "title": "Mutants written in one run are pairwise distinct mutations", "statement": "No two mutants written while processing one input file have the same algorithm, node index, mutated node id and random-behaviour hash.", "quantifier": "for every schedule, random sequence, mutator behaviour and compiler behaviour", "why_tests_cant": "An invariant over the whole history of attempts; collisions depend on random choices.", "anchors": ["mutagenyx/src/mutation_generator.rs:generate_mutations 454,481,528", "mutagenyx_lib/src/mutator_result.rs:MutatorResult"]}
{"id": "C06", "title": "Validated runs only emit mutants the compiler accepted", "statement": "With validation on, every mutant written was accepted by the compiler in the attempt that produced it, and rejected mutants are neither written nor remembered as seen; with validation off the compiler is never consulted.", "quantifier": "for every compiler behaviour and every random sequence", "why_tests_cant": "Compiler behaviour is unbounded; only an invariant over all attempts settles it.", "anchors": ["mutagenyx/src/mutation_generator.rs:generate_mutations 486-528", "mutagenyx_lib/src/json_ast_language_interface.rs:mutant_compiles"]}
{"id": "C07", "title": "Mutant output names are consecutive, distinct and never overwrite each other or the printed original", "statement": "The mutants written for one input file get the names base_0.ext, base_1.ext, ... without gaps or repeats, and none of them equals the name of the pretty-printed original. Mutants of two different input files never overwrite one another.", "quantifier": "for every input file name, output directory and run", "why_tests_cant": "Name collisions depend on arbitrary file names (dots, missing extensions, equal base names in different directories).", "anchors": ["mutagenyx/src/mutation_generator.rs:generate_mutations 503-530", "mutagenyx/src/pretty_printing.rs:pretty_print_ast"]}
{"id": "C08", "title": "Counting and mutating agree on the candidate list", "statement": "If counting reports n nodes for an algorithm, then for every index below n a mutation request hits exactly the index-th candidate node in document order and for every index at or above n it leaves the AST unchanged and reports no mutation.", "quantifier": "for every AST, permission set, algorithm and index", "why_tests_cant": "Two separate traversals with their own state must agree on every tree; tests only cover particular trees.", "anchors": ["mutagenyx_lib/src/mutation_visitor.rs:MutableNodesCounter", "mutagenyx_lib/src/mutation_visitor.rs:MutationMaker", "mutagenyx_lib/src/ast.rs:traverse,traverse_mut"]}
{"id": "C09", "title": "A mutation changes one subtree and nothing else", "statement": "The mutated AST equals the original except at the position of the chosen candidate, where it holds what the algorithm made of that node; in particular every node outside that subtree, and the number and order of siblings, is unchanged, and the input AST itself is not modified.", "quantifier": "for every AST, permission set, algorithm, index and random state", "why_tests_cant": "Frame condition over all trees and positions.", "anchors": ["mutagenyx_lib/src/mutation_visitor.rs:MutationMaker::visit_mut", "mutagenyx_lib/src/json_ast_language_interface.rs:mutate_ast"]}
{"id": "C10", "title": "Without a function list every node is a candidate", "statement": "When no functions are given, the candidates of an algorithm are exactly the nodes of the AST that the algorithm considers mutable, in document order.", "quantifier": "for every AST and algorithm", "why_tests_cant": "Ranges over all trees, including named and unnamed nodes and any nesting.", "anchors": ["mutagenyx/src/mutation_generator.rs:convert_function_names_to_permissions", "mutagenyx_lib/src/mutation_visitor.rs:has_permission_to_mutate"]}
{"id": "C11", "title": "Function restriction is sound", "statement": "When functions are listed, a mutated node either bears a listed name itself or lies inside a node that bears a listed name.", "quantifier": "for every AST, function list, algorithm and index", "why_tests_cant": "The permission flag is global traversal state; soundness has to hold for every nesting.", "anchors": ["mutagenyx/src/mutation_generator.rs:convert_function_names_to_permissions", "mutagenyx_lib/src/mutation_visitor.rs:MutationMaker::on_start_visit_children,on_end_visit_children"]}
{"id": "C12", "title": "Function restriction is complete", "statement": "When functions are listed, every mutable node inside a node that bears a listed name is a candidate.", "quantifier": "for every AST, function list and algorithm", "why_tests_cant": "Only fails for particular nestings of names, which a test author must guess.", "anchors": ["mutagenyx_lib/src/mutation_visitor.rs:MutableNodesCounter::on_end_visit_children", "mutagenyx_lib/src/mutation_visitor.rs:MutationMaker::on_end_visit_children"]}
{"id": "C13", "title": "Attempt indices are always in range", "statement": "Every mutation attempt of a run asks for an index below the node count of its algorithm, so every successful attempt really mutates a node.", "quantifier": "for every count table, schedule and random sequence", "why_tests_cant": "Needs the schedule invariant and counting/mutating agreement together.", "anchors": ["mutagenyx/src/mutation_generator.rs:generate_mutations 459-477"]}
{"id": "C14", "title": "Traversal visits every node once, in document order, with balanced callbacks", "statement": "A traversal whose visitor neither stops nor prunes visits each node of the tree exactly once in pre-order; enter/exit and start/end-children callbacks are properly nested; when a visit asks to stop, no further node is visited but every opened callback is closed.", "quantifier": "for every tree and every visitor", "why_tests_cant": "Quantifies over all trees and all visitor behaviours.", "anchors": ["mutagenyx_lib/src/ast.rs:traverse", "mutagenyx_lib/src/ast.rs:traverse_mut", "mutagenyx_lib/src/json_ast.rs:get_children"]}
{"id": "C15", "title": "Node paths are the ids of the ancestors", "statement": "In an AST whose node ids are pairwise different, the path recorded for an id is the list of ids of the identified ancestors of that node from the root down, ending with the id itself, and exactly the ids occurring in the AST have a path.", "quantifier": "for every AST with unique ids, any depth", "why_tests_cant": "Path bookkeeping is push/pop state over arbitrarily deep trees.", "anchors": ["mutagenyx_lib/src/mutation_visitor.rs:PathVisitor", "mutagenyx_lib/src/json_ast_language_interface.rs:calculate_node_paths"]}
{"id": "C16", "title": "Comment insertion only adds a comment", "statement": "Inserting the explanatory comment never alters or loses code: removing the inserted comment (and the block wrapped around a single-statement body) from the commented AST gives back the mutated AST.", "quantifier": "for every AST, mutated node id and path", "why_tests_cant": "Comment placement depends on the parent statement kinds along the path.", "anchors": ["mutagenyx_lib/src/json_comment_inserter.rs:insert_comment_by_path", "mutagenyx_lib/src/solidity/commenter.rs", "mutagenyx_lib/src/vyper/commenter.rs"]}
{"id": "C17", "title": "Runs are reproducible from their seed", "statement": "Two runs with the same input, parameters and seed produce the same mutants, whatever the iteration order of internal hash tables.", "quantifier": "for every input, seed and hash-table iteration order", "why_tests_cant": "Iteration order varies from process to process; tests observe one order.", "anchors": ["mutagenyx_lib/src/mutation_visitor.rs:MutableNodesCounter::visit", "mutagenyx/src/mutation_generator.rs:generate_mutations 365-372", "mutagenyx_lib/src/solidity/mutators.rs:SwapArgumentsFunctionMutator::mutate"]}
{"id": "C18", "title": "Saved configuration replays the run that produced it", "statement": "The configuration file saved for an input names the seed with which that input was actually mutated, so running it again reproduces the same mutants.", "quantifier": "for every list of inputs, in any order, some of them configuration files", "why_tests_cant": "Depends on the order and mix of inputs on the command line.", "anchors": ["mutagenyx/src/mutation_generator.rs:generate_mutants 116-234", "mutagenyx/src/mutation_generator.rs:generate_mutations 306-362"]}
{"id": "C19", "title": "Parameter precedence between command line and configuration file", "statement": "For a configuration-file input each parameter follows the documented precedence: count, validation and print-original come from the file; seed, algorithms, functions and output directory come from the file when it gives them and from the command line otherwise; for any other input all parameters come from the command line.", "quantifier": "for every command line and every configuration file content", "why_tests_cant": "Many combinations of present and absent settings.", "anchors": ["mutagenyx/src/mutation_generator.rs:generate_mutants 130-233"]}
{"id": "C20", "title": "Configuration files round-trip", "statement": "Writing configuration details to JSON and reading them back gives the same details.", "quantifier": "for every configuration record that the program can hold", "why_tests_cant": "Numeric and optional fields range over huge domains (seeds up to 2^64-1).", "anchors": ["mutagenyx_lib/src/config_file.rs:new_from_file", "mutagenyx_lib/src/config_file.rs:convert_to_json"]}
{"id": "C21", "title": "A failing input stops the run without undoing earlier output", "statement": "Inputs are processed in the order given (configuration entries in place); the run performs exactly the output of the inputs before the first failing one plus that input's own partial output, and nothing of the inputs after it; parameter errors are detected before anything is written.", "quantifier": "for every list of inputs and every pattern of failures", "why_tests_cant": "Ranges over all failure positions.", "anchors": ["mutagenyx/src/mutation_generator.rs:generate_mutants 237-241"]}
{"id": "C22", "title": "Permission lookup is exactly 'some granted rule covers the request'", "statement": "After any sequence of grants and revocations, a request is permitted iff some rule that was granted and not revoked covers it; granting never takes away permissions, order of grants is irrelevant to the answer, and revoking removes exactly one occurrence.", "quantifier": "for every history of grant/revoke operations and every request", "why_tests_cant": "Histories are unbounded.", "anchors": ["mutagenyx_lib/src/permissions.rs:Permissions"]}
{"id": "C23", "title": "Rule coverage is a preorder that never confuses allow with deny or visit with mutate", "statement": "Rule coverage is reflexive and transitive; a rule covers only requests with the same action and the same permission; a universal rule covers every scope; a named rule covers only that name.", "quantifier": "for all rules and requests", "why_tests_cant": "Names are unbounded; laws relate triples of rules.", "anchors": ["mutagenyx_lib/src/permissions.rs:matches"]}
{"id": "C24", "title": "JSON key access obeys get/set/take laws", "statement": "For ordinary keys (no '/' or '~'): after setting a key on an object, reading it returns what was set and every other key is unchanged; taking a key returns its value and leaves null in place; setting on an array with the decimal index of an element replaces that element; setting on anything else changes nothing; keys stay sorted and unique; an access for a string, boolean, number, array or object succeeds exactly if the value of the key has that type.", "quantifier": "for every JSON value, key and new value", "why_tests_cant": "All values and keys; the accessors go through JSON-pointer syntax which gives some keys a different meaning.", "anchors": ["mutagenyx_lib/src/json.rs:JSONMutate"]}
{"id": "C25", "title": "Finding a node by id returns the first node in document order with that id", "statement": "Looking a node up by id finds one iff one exists, returns the first in document order, and the mutable form changes that node only.", "quantifier": "for every JSON tree and id", "why_tests_cant": "All tree shapes, duplicates included.", "anchors": ["mutagenyx_lib/src/json.rs:get_node_with_id,get_node_with_id_mut"]}
{"id": "C26", "title": "Algorithm names round-trip and are unambiguous", "statement": "Every algorithm's printed name parses back to it, distinct algorithms have distinct names, the list of all algorithms contains each exactly once, and any string that is not a printed name is rejected; selecting algorithms by name keeps exactly the recognised ones in order.", "quantifier": "for every algorithm and every string", "why_tests_cant": "Every string must be classified.", "anchors": ["mutagenyx_lib/src/mutation.rs:MutationType", "mutagenyx/src/mutation_generator.rs:get_mutation_types_from_strings"]}
{"id": "C27", "title": "Language selection of algorithms", "statement": "Selecting algorithms for a language installs exactly one mutator per requested algorithm that the language supports and none other; Solidity-only algorithms are silently skipped for Vyper; each installed mutator reports the algorithm it was installed for.", "quantifier": "for every list of requested algorithms, duplicates included", "why_tests_cant": "All lists.", "anchors": ["mutagenyx_lib/src/json_ast_language_interface.rs:select_mutators_for_mutation_types", "mutagenyx_lib/src/solidity/mutators.rs:mutator_for", "mutagenyx_lib/src/vyper/mutators.rs:mutator_for"]}
{"id": "C28", "title": "Binary operator replacement stays in class and always changes the operator", "statement": "A binary-operator mutation replaces the operator by a different operator of the same class (arithmetic, logical, bitwise, shift, comparison), leaves operands and every other field unchanged, and keeps the node id.", "quantifier": "for every node considered mutable and every random sequence", "why_tests_cant": "Random re-picks; all nodes and all operators.", "anchors": ["mutagenyx_lib/src/solidity/mutators.rs:BinaryOpMutator", "mutagenyx_lib/src/vyper/mutators.rs:BinaryOpMutator", "mutagenyx_lib/src/operators.rs"]}
{"id": "C29", "title": "Unary operator mutation", "statement": "A unary-operator mutation replaces the operator by a different operator of its position class and leaves the operand untouched (Solidity), or removes the operator leaving exactly the operand (Vyper).", "quantifier": "for every node considered mutable and every random sequence", "why_tests_cant": "Random; prefix and postfix classes differ.", "anchors": ["mutagenyx_lib/src/solidity/mutators.rs:UnaryOpMutator", "mutagenyx_lib/src/vyper/mutators.rs:UnaryOpMutator"]}
{"id": "C30", "title": "Considered mutable implies a mutation succeeds", "statement": "Whenever an algorithm reports a node as mutable, mutating that node ends with a mutated node: it neither loops forever, nor crashes, nor reports an error that aborts the run.", "quantifier": "for every algorithm, node and random sequence", "why_tests_cant": "Crashes and endless loops only occur for special node shapes.", "anchors": ["mutagenyx_lib/src/solidity/mutators.rs:*", "mutagenyx_lib/src/vyper/mutators.rs:*"]}
{"id": "C31", "title": "Operand swap exchanges exactly the two operands of non-commutative operators", "statement": "Swapping operator arguments applies only to non-commutative operators, exchanges left and right and nothing else, and doing it twice restores the node.", "quantifier": "for every node considered mutable", "why_tests_cant": "All nodes.", "anchors": ["mutagenyx_lib/src/solidity/mutators.rs:SwapArgumentsOperatorMutator", "mutagenyx_lib/src/vyper/mutators.rs:SwapArgumentsOperatorMutator"]}
{"id": "C32", "title": "Argument swap permutes the arguments of a call", "statement": "Swapping function arguments yields a permutation of the argument list that exchanges two arguments of the same type and changes nothing else.", "quantifier": "for every call node considered mutable and every random sequence", "why_tests_cant": "Depends on random picks and grouping by type.", "anchors": ["mutagenyx_lib/src/solidity/mutators.rs:SwapArgumentsFunctionMutator", "mutagenyx_lib/src/vyper/mutators.rs:SwapArgumentsFunctionMutator"]}
{"id": "C33", "title": "Line swap exchanges two different statements and never moves a return", "statement": "Swapping lines yields a permutation of the statement list that exchanges exactly two different positions, neither of which holds a return statement.", "quantifier": "for every block considered mutable and every random sequence", "why_tests_cant": "Random positions; all blocks.", "anchors": ["mutagenyx_lib/src/solidity/mutators.rs:LinesSwapMutator", "mutagenyx_lib/src/vyper/mutators.rs:LinesSwapMutator"]}
{"id": "C34", "title": "Statement deletion removes one statement only", "statement": "Deleting a statement removes exactly one statement of the chosen block and keeps the order and content of all others.", "quantifier": "for every block considered mutable and every random sequence", "why_tests_cant": "All blocks and random picks.", "anchors": ["mutagenyx_lib/src/solidity/mutators.rs:DeleteStatementMutator", "mutagenyx_lib/src/vyper/mutators.rs:DeleteStatementMutator"]}
{"id": "C35", "title": "If-statement mutation only alters the condition", "statement": "An if-statement mutation replaces the condition by true, false or its negation, and keeps both branches.", "quantifier": "for every if node and every random sequence", "why_tests_cant": "All nodes.", "anchors": ["mutagenyx_lib/src/solidity/mutators.rs:IfStatementMutator", "mutagenyx_lib/src/vyper/mutators.rs:IfStatementMutator"]}
{"id": "C36", "title": "Integer mutation changes the literal by a bounded step", "statement": "An integer-literal mutation changes only the literal's value, the new value is one of the documented variations of the old one and differs from it.", "quantifier": "for every literal node and random sequence", "why_tests_cant": "Unbounded literals (hex, scientific notation, 256-bit).", "anchors": ["mutagenyx_lib/src/solidity/mutators.rs:IntegerMutator", "mutagenyx_lib/src/vyper/mutators.rs:IntegerMutator"]}
{"id": "C37", "title": "Assignment mutation keeps the target and stays within the type's range", "statement": "An assignment mutation changes only the right-hand side, and a generated literal is representable in the declared type.", "quantifier": "for every assignment node considered mutable and random sequence", "why_tests_cant": "All integer widths and random values.", "anchors": ["mutagenyx_lib/src/solidity/mutators.rs:AssignmentMutator", "mutagenyx_lib/src/vyper/mutators.rs:AssignmentMutator"]}
{"id": "C38", "title": "Function-call mutation replaces a call by one of its own arguments", "statement": "A function-call mutation replaces the call expression by one of its arguments, unchanged.", "quantifier": "for every call node considered mutable and random sequence", "why_tests_cant": "All argument lists.", "anchors": ["mutagenyx_lib/src/solidity/mutators.rs:FunctionCallMutator", "mutagenyx_lib/src/vyper/mutators.rs:FunctionCallMutator"]}
{"id": "C39", "title": "Require mutation negates exactly the condition", "statement": "A require mutation wraps the first argument of the require call in a logical negation and leaves the callee and all other arguments unchanged.", "quantifier": "for every require call considered mutable", "why_tests_cant": "All argument shapes.", "anchors": ["mutagenyx_lib/src/solidity/mutators.rs:RequireMutator"]}
{"id": "C40", "title": "Unchecked-block mutation wraps one statement", "statement": "An unchecked-block mutation wraps exactly one statement of the block (never a return, never an existing unchecked block) in an unchecked block and leaves all other statements and their order unchanged.", "quantifier": "for every block considered mutable and random sequence", "why_tests_cant": "All blocks and random picks.", "anchors": ["mutagenyx_lib/src/solidity/mutators.rs:UncheckedBlockMutator"]}
{"id": "C41", "title": "Delegate-call mutation turns delegatecall into call and nothing else", "statement": "A delegate-call mutation changes the member name delegatecall to call; all other fields are unchanged; nodes with other member names are not candidates.", "quantifier": "for every node", "why_tests_cant": "All nodes.", "anchors": ["mutagenyx_lib/src/solidity/mutators.rs:ElimDelegateCallMutator"]}
{"id": "C42", "title": "Counting never consumes randomness and never changes the AST", "statement": "The number and identity of candidates, and hence the random sequence used for mutating, do not depend on the random state at counting time.", "quantifier": "for every AST, algorithm and random state", "why_tests_cant": "All random states.", "anchors": ["mutagenyx_lib/src/solidity/mutators.rs:is_mutable_node", "mutagenyx_lib/src/vyper/mutators.rs:is_mutable_node", "mutagenyx_lib/src/mutation_visitor.rs:MutableNodesCounter::visit"]}
{"id": "C43", "title": "Indentation never exceeds the page and always balances", "statement": "The pretty-printer's indentation level never exceeds the maximum derived from page width and tab width and never goes below zero, and equal numbers of increases and decreases within the limit restore the level.", "quantifier": "for every sequence of printer operations, any page and tab width", "why_tests_cant": "Operation sequences are unbounded.", "anchors": ["mutagenyx_lib/src/pretty_printer.rs:increase_indent,decrease_indent,increase_indent_by,decrease_indent_by"]}
{"id": "C44", "title": "The printer's row and column describe the text written", "statement": "After any sequence of token, space, newline and indent operations the printer's recorded row and column are the row and column of the end of the text written so far.", "quantifier": "for every sequence of printer operations", "why_tests_cant": "Unbounded sequences.", "anchors": ["mutagenyx_lib/src/pretty_printer.rs:PrettyPrinter"]}
{"id": "C45", "title": "Tokens are never lost, split or reordered", "statement": "The text written, with layout characters (spaces and newlines) removed, is the concatenation of the tokens written, in order, each token contiguous.", "quantifier": "for every sequence of printer operations", "why_tests_cant": "Line breaking depends on arbitrary lengths.", "anchors": ["mutagenyx_lib/src/pretty_printer.rs:write_token,write_tokens,write_string"]}
{"id": "C46", "title": "Flowable text is wrapped within the page and loses no words", "statement": "Writing flowable text (comments) always ends, keeps all words in order and starts every continuation line with the prefix.", "quantifier": "for every text, prefix, page width and starting column", "why_tests_cant": "Word lengths and columns are unbounded; the failing cases are special.", "anchors": ["mutagenyx_lib/src/pretty_printer.rs:write_flowable_text"]}
{"id": "C47", "title": "List printing puts separators between elements only", "statement": "Printing a list of nodes prints each element once, in order, with exactly one separator between consecutive elements and none at either end.", "quantifier": "for every list of nodes, any length", "why_tests_cant": "All lengths.", "anchors": ["mutagenyx_lib/src/node_printer_helpers.rs:print_array_helper"]}
{"id": "C48", "title": "String literals survive pretty-printing", "statement": "The Solidity string literal printed for a string value denotes that value.", "quantifier": "for every string value", "why_tests_cant": "All strings, including quotes, backslashes and control characters.", "anchors": ["mutagenyx_lib/src/solidity/pretty_printer.rs:unencode_string", "mutagenyx_lib/src/solidity/pretty_printer.rs:LiteralPrinter"]}
{"id": "C49", "title": "Printed expressions keep their structure", "statement": "Two different operator expressions never print to the same text: the grouping of the printed expression is that of the AST.", "quantifier": "for every expression tree", "why_tests_cant": "All trees; mutation produces trees that no source parse would give.", "anchors": ["mutagenyx_lib/src/solidity/pretty_printer.rs:BinaryOperationPrinter", "mutagenyx_lib/src/vyper/pretty_printer.rs:BinOpPrinter"]}
{"id": "C50", "title": "Printing to standard output prints every requested file", "statement": "pretty-print with --stdout prints each readable input in the order given.", "quantifier": "for every list of input files", "why_tests_cant": "All lists and failure patterns.", "anchors": ["mutagenyx/src/pretty_printing.rs:pretty_print_files"]}
{"id": "C51", "title": "Preferences behave as a nested string map and round-trip through JSON", "statement": "Reading a preference key after setting it returns the value set and leaves other keys alone; converting preferences to JSON and back preserves them.", "quantifier": "for every history of sets and every value", "why_tests_cant": "All nested values and numbers.", "anchors": ["mutagenyx_lib/src/preferences.rs:Preferences"]}
{"id": "C52", "title": "Repeated pattern removal ends and removes every occurrence", "statement": "Removing a pattern from a string ends and the result contains no occurrence of the pattern; text outside occurrences is untouched.", "quantifier": "for every string and pattern", "why_tests_cant": "All strings.", "anchors": ["mutagenyx_lib/src/string.rs:remove_all"]}
{"id": "C53", "title": "File recognition is decided by a fixed precedence", "statement": "A file with the configuration extension holding JSON that names a supported language is a configuration file of that language; otherwise the input is source of the first language (Solidity, then Vyper) that accepts it, else an AST of the first language that accepts it; an input nobody accepts is an error; recognition does not depend on anything else.", "quantifier": "for every file and every answer of the language checks", "why_tests_cant": "All combinations of checks.", "anchors": ["mutagenyx_lib/src/recognizer.rs:recognize_file"]}
{"id": "C54", "title": "Compiler arguments carry every configured path once and in order", "statement": "The compiler command line built from the settings contains the base path, each include path, the allow paths, each remapping and the stop-after stage exactly as configured and in the configured order, followed by the file.", "quantifier": "for every settings record", "why_tests_cant": "All combinations and list lengths.", "anchors": ["mutagenyx_lib/src/solidity/language_interface.rs", "mutagenyx/src/compiler_settings.rs"]}
{"id": "C55", "title": "Vyper statement and operator printing keeps every operand and operator", "statement": "The text printed for a Vyper operator expression contains each operand once and the operator of the node between them.", "quantifier": "for every operator node", "why_tests_cant": "All operators and operand counts.", "anchors": ["mutagenyx_lib/src/vyper/pretty_printer.rs:BinOpPrinter,BoolOpPrinter,UnaryOpPrinter,AugAssignPrinter,CallPrinter"]}
{"id": "C56", "title": "Solidity printing of statements, declarations and files keeps keyword boundaries and separators", "statement": "In the printed statement, declaration or file adjacent keywords and names are separated by white space, and required separators are present exactly where the grammar demands them: a compiler that reads the text sees exactly the tokens of the program.", "quantifier": "for every statement, inline assembly, declaration, contract and source file", "why_tests_cant": "Combinations of optional parts, nested to any depth.", "anchors": ["mutagenyx_lib/src/solidity/pretty_printer.rs:PragmaDirectivePrinter,VariableDeclarationPrinter,ModifierDefinitionPrinter,ForStatementPrinter,FunctionDefinitionPrinter"]}
{"id": "C57", "title": "Printed lines stay within the page", "statement": "If every token written fits between the current indentation and the right margin, no line of the printed text is longer than the page is wide.", "quantifier": "for every sequence of printer operations, any page and tab width of at least two", "why_tests_cant": "All sequences; the position of line breaks depends on everything written before.", "anchors": ["mutagenyx_lib/src/pretty_printer.rs:write_token,write_space,write_indent"]}
{"id": "C58", "title": "Printing a node leaves the indentation as it was", "statement": "After a node has been printed, the indentation of what follows is the one in force before the node, and nothing inside the node is indented less than the node.", "quantifier": "for every AST node of either language, printed after anything", "why_tests_cant": "All trees and all depths of nesting.", "anchors": ["mutagenyx_lib/src/vyper/pretty_printer.rs:BodyPrinter", "mutagenyx_lib/src/solidity/pretty_printer.rs:BlockPrinter", "mutagenyx_lib/src/pretty_printer.rs:increase_indent,decrease_indent"]}
{"id": "C59", "title": "Line breaks put in to fit the page do not split Vyper statements", "statement": "A line break that the printer inserts into a Vyper statement to stay within the page is inside brackets, so that it does not end the statement.", "quantifier": "for every Vyper statement", "why_tests_cant": "All lengths of expressions.", "anchors": ["mutagenyx_lib/src/pretty_printer.rs:write_token", "mutagenyx_lib/src/vyper/pretty_printer.rs:BinOpPrinter"]}
{"id": "C60", "title": "A statement replaced by a comment is wholly inside the comment", "statement": "When a mutation replaces an expression by a comment holding its text, every line of that text in the printed mutant is inside a comment.", "quantifier": "for every expression", "why_tests_cant": "All shapes and lengths of expressions.", "anchors": ["mutagenyx_lib/src/solidity/mutators.rs:new_comment_node_from_node", "mutagenyx_lib/src/solidity/pretty_printer.rs:CommentPrinter", "mutagenyx_lib/src/vyper/pretty_printer.rs:CommentPrinter"]}
{"id": "C61", "title": "Printed default values stay with their parameters", "statement": "In the printed signature of a Vyper function every parameter appears once and in order, and each default value is attached to the parameter that had it.", "quantifier": "for every list of parameters and defaults", "why_tests_cant": "All lengths; the AST only stores the defaults of the last parameters.", "anchors": ["mutagenyx_lib/src/vyper/pretty_printer.rs:ArgumentsPrinter"]}
{"id": "C62", "title": "Running the tool leaves its input files as they are", "statement": "After a mutation or printing run every input file holds what it held before.", "quantifier": "for every input path, output directory and compiler behaviour", "why_tests_cant": "All paths and directories.", "anchors": ["mutagenyx_lib/src/json_ast_language_interface.rs:mutant_compiles", "mutagenyx/src/pretty_printing.rs:pretty_print_file", "mutagenyx/src/mutation_generator.rs"]}
{"id": "C63", "title": "A mutant passes validation only if the compiler accepts it", "statement": "With validation on, a mutant is accepted exactly if the compiler, run with the configured settings on a file holding the text of the mutant, accepts it.", "quantifier": "for every mutant and compiler behaviour", "why_tests_cant": "All mutants and compiler answers.", "anchors": ["mutagenyx_lib/src/solidity/language_interface.rs:file_compiles", "mutagenyx_lib/src/vyper/language_interface.rs:file_compiles"]}
{"id": "C64", "title": "Mutating a syntax tree yields a syntax tree of the same language", "statement": "After a mutation with its comment the root of the tree still is what the language recognizes as a syntax tree, so that the final check of a mutation never rejects a mutant.", "quantifier": "for every Solidity source unit and every Vyper compiler output whose root is not itself a node, every mutator, candidate and random source", "why_tests_cant": "All trees and all mutations.", "anchors": ["mutagenyx_lib/src/json_ast_language_interface.rs:mutate_ast", "mutagenyx_lib/src/solidity/language_interface.rs:json_is_language_ast_json", "mutagenyx_lib/src/vyper/language_interface.rs:json_is_language_ast_json"]}
{"id": "C65", "title": "With validation every mutant put out was accepted by the compiler just before", "statement": "In a run with validation, every mutant that is written to a file or to standard output has, immediately before and with exactly the same text, been written to the temporary file, accepted by the compiler with the configured settings, and the temporary file has been removed.", "quantifier": "for every input, machine state, compiler behaviour and random source", "why_tests_cant": "All runs, including those that fail half way; the compiler's answers may depend on everything done before.", "anchors": ["mutagenyx/src/mutation_generator.rs:generate_mutations", "mutagenyx_lib/src/json_ast_language_interface.rs:mutant_compiles"]}
{"id": "C66", "title": "A run touches no files but its outputs and its temporary files", "statement": "A mutation run writes and removes no files but the mutants, the printed original and the configuration, each under its announced name and only if asked for, and two files with the input's name in the directory for temporary files. With standard output as destination it only touches files in that directory.", "quantifier": "for every input, output directory, machine state, compiler behaviour and random source", "why_tests_cant": "All runs, including those that fail half way.", "anchors": ["mutagenyx/src/mutation_generator.rs:generate_mutants,generate_mutations", "mutagenyx_lib/src/json_ast_language_interface.rs:mutant_compiles", "mutagenyx_lib/src/vyper/language_interface.rs"]}
{"id": "C67", "title": "Mutants are made from the syntax tree that the compiler gives for the input", "statement": "The tree loaded for a program is the one in the file that the configured compiler made for it, asked with the configured settings; without the Vyper compiler it is the one Docker made. The tree loaded for a file with a tree is the one in it. Loading fails if the compilers refuse the program or the file holds no syntax tree of the language, and in no other case.", "quantifier": "for every file, settings, machine state and compiler behaviour", "why_tests_cant": "All answers of compilers, whose behaviour may depend on everything done before.", "anchors": ["mutagenyx_lib/src/json_ast_language_interface.rs:load_ast_from_file", "mutagenyx_lib/src/solidity/language_interface.rs:convert_source_file_to_ast", "mutagenyx_lib/src/vyper/language_interface.rs:convert_source_file_to_ast"]}
{"id": "C68", "title": "After a run every mutant file holds the input with one node mutated, and nothing else", "statement": "If a run on an input ends well, then there is a number n, at most the number asked for, such that the files number 0 to n-1 for the mutants of the input hold the texts printed for trees that differ from the tree of the input in one node, mutated by one of the chosen algorithms and inside a listed function if there is a list, and in the comment about it; no two of these mutants have the same report. The files for mutants with higher numbers are as they were before the run.", "quantifier": "for every input, choice of algorithms and functions, seed, machine, compiler behaviour and state of the files before the run", "why_tests_cant": "All trees, random draws, compiler answers and rejected mutants; a test sees a few runs on a few files.", "anchors": ["mutagenyx/src/mutation_generator.rs:generate_mutations", "mutagenyx_lib/src/json_ast_language_interface.rs:mutate_ast", "mutagenyx_lib/src/mutation_visitor.rs:visit_mut", "mutagenyx/src/pretty_printing.rs:pretty_print_ast"]}
{"id": "C69", "title": "Each algorithm considers exactly the nodes of its kind", "statement": "An algorithm counts, and may change, a node if and only if the node is of the kind the algorithm is about: for each algorithm a condition on the kind of the node, its operator, its type text, its literal text or the number and kinds of its statements or arguments. Without a function list the number reported for the algorithm is the number of such nodes in the file.", "quantifier": "for every node of every tree, for every algorithm of both languages", "why_tests_cant": "Boundary cases (one statement, two statements with a return, a fraction, a type text) multiply with the algorithms; a test covers a few nodes.", "anchors": ["mutagenyx_lib/src/solidity/mutators.rs:is_mutable_node", "mutagenyx_lib/src/vyper/mutators.rs:is_mutable_node", "mutagenyx_lib/src/mutation_visitor.rs:MutableNodesCounter::visit"]}
{"id": "C70", "title": "Asking whether a node can be mutated does not crash", "statement": "Counting the mutable nodes of a file ends with a table, whatever operators and types occur in the file.", "quantifier": "for every tree, choice of algorithms and, for Solidity, every set of permissions", "why_tests_cant": "Needs a file with an operator nobody thought of.", "anchors": ["mutagenyx_lib/src/solidity/mutators.rs:AssignmentMutator::is_mutable_node", "mutagenyx_lib/src/vyper/mutators.rs:SwapOperatorArgumentsMutator::is_mutable_node 1467-1481", "mutagenyx_lib/src/mutation_visitor.rs:MutableNodesCounter::visit"]}
{"id": "C71", "title": "The lists of algorithms name every algorithm with its description, readable on every terminal wide enough", "statement": "`mutagenyx algorithms --list` ends on every terminal of at least 40 columns, `--describe` on every terminal of 41 or at least 43 columns, and on no narrower ones. They write every algorithm exactly once, in the order of the names, with its name padded to a margin and, behind the margin, all words of its summary (for `--describe` also of the details, the operators and the examples, as far as there are any) in order, and no line is as wide as the terminal.", "quantifier": "for every width of the terminal and every iteration order of the table of descriptions", "why_tests_cant": "A test sees one width; the command hangs or crashes on some widths and not on others.", "anchors": ["mutagenyx/src/mutations_info.rs:display_simple_algorithm_list,display_algorithm_descriptions,write_lines", "mutagenyx_lib/src/mutation.rs:all_algorithm_descriptions", "mutagenyx_lib/src/pretty_printer.rs:write_flowable_text"]}
{"id": "C72", "title": "The operators in the description of an algorithm are those it works on", "statement": "If the description of an algorithm shows a list of operators, then the nodes that the algorithm considers are nodes with exactly these operators.", "quantifier": "for every algorithm with a list of operators, every node and both languages", "why_tests_cant": "Table of descriptions, tests of the mutators and table of Vyper operators are written separately; a test compares a few entries.", "anchors": ["mutagenyx_lib/src/mutation.rs:all_algorithm_descriptions", "mutagenyx_lib/src/solidity/mutators.rs:is_mutable_node", "mutagenyx_lib/src/vyper/mutators.rs:is_mutable_node", "mutagenyx_lib/src/vyper/operators.rs:get_python_operator_map"]}
{"id": "C73", "title": "A Vyper function whose only statement is deleted still returns a value of its result type", "statement": "When DeleteStatement removes the only statement of a Vyper function, the statement is kept as a comment and what takes its place fits the declared result: a pass statement if there is none, otherwise the return of a value of the declared type.", "quantifier": "for every function with one statement, every declared result and every random generator", "why_tests_cant": "All result types, and all draws of the generator.", "anchors": ["mutagenyx_lib/src/vyper/mutators.rs:DeleteStatementMutator"]}
{"id": "C74", "title": "A printed Vyper program is read as the program of the AST", "statement": "The text that is printed for the AST of a Vyper module follows the indentation and line rules of the language and is read back as the same declarations, signatures, statements and expressions, apart from comments and documentation; so two modules that differ are never printed as the same text.", "quantifier": "for every module: imports, variables, structs, events, enums, interfaces and functions with statements nested in any way", "why_tests_cant": "Programs are unbounded; what a line belongs to depends on the indentation, on open brackets and on quoted text before it.", "anchors": ["mutagenyx_lib/src/vyper/pretty_printer.rs:ModulePrinter", "mutagenyx_lib/src/vyper/pretty_printer.rs:FunctionDefPrinter", "mutagenyx_lib/src/vyper/pretty_printer.rs:ImportFromPrinter"]}
{"id": "C75", "title": "A written Vyper mutant is the program with one change of the chosen kind", "statement": "After a run that ends well for a Vyper program, each file for a mutant, read as Vyper source, is the program of the input with exactly one change, of the kind that one of the selected algorithms makes (another operator of the same class, swapped operands or arguments or lines, a call replaced by an argument, a statement turned into a comment, ...), at one place, and otherwise only a new comment.", "quantifier": "for every module, machine, seed, parameters and number of mutants", "why_tests_cant": "It joins the mutators, the place of the comment, the printers and the driver: an error in any of them can give a file that compiles but is not the intended mutant; programs and runs are unbounded.", "anchors": ["mutagenyx_lib/src/vyper/mutators.rs:BinaryOpMutator", "mutagenyx_lib/src/vyper/mutators.rs:SwapLinesMutator", "mutagenyx_lib/src/vyper/pretty_printer.rs:ModulePrinter", "mutagenyx/src/mutation_generator.rs:generate_mutations"]}
{"id": "C76", "title": "A written Solidity mutant is the source file with one change of the chosen kind", "statement": "After a run that ends well for a Solidity source file, each file for a mutant has the tokens of the source file with exactly one change, of the kind that one of the selected algorithms makes (another operator of the same class, swapped operands or arguments or lines, a negated condition, a call replaced by an argument, an unchecked block around a statement, ...), at one place, and otherwise only a new comment and perhaps braces around it and the statement it is for.", "quantifier": "for every source file, machine, seed, parameters and number of mutants", "why_tests_cant": "It joins the mutators, the place of the comment, the printers and the driver: an error in any of them can give a file that compiles but is not the intended mutant; source files and runs are unbounded.", "anchors": ["mutagenyx_lib/src/solidity/mutators.rs:BinaryOpMutator", "mutagenyx_lib/src/solidity/mutators.rs:UnaryOpMutator", "mutagenyx_lib/src/solidity/pretty_printer.rs:ContractDefinitionPrinter", "mutagenyx/src/mutation_generator.rs:generate_mutations"]}
{"id": "C77", "title": "A Solidity statement is deleted by commenting it out", "statement": "After a run that ends well for a Solidity source file, each file for a mutant of DeleteStatement is character for character the printed source file with the mark of a comment before one statement of a block, which is alone on its line, and perhaps with more lines that are comments or empty.", "quantifier": "for every syntax tree, machine, seed, parameters and number of mutants", "why_tests_cant": "Texts of mutants are compared by people and by tools for differences; that nothing but the one line changes depends on every printer on the way to the statement, on indentation and on the breaking of lines, for trees of any size and depth.", "anchors": ["mutagenyx_lib/src/solidity/mutators.rs:DeleteStatementMutator", "mutagenyx_lib/src/solidity/pretty_printer.rs:BlockPrinter", "mutagenyx_lib/src/solidity/pretty_printer.rs:CommentPrinter", "mutagenyx/src/mutation_generator.rs:generate_mutations"]}
{"id": "C78", "title": "The comment of a Solidity mutant adds only lines that are comments", "statement": "After a run that ends well for a Solidity source file, the text of each file for a mutant is that of the mutated tree with new lines in it that are comments or empty: the lines with code on them are the same.", "quantifier": "for every syntax tree, machine, seed, parameters, algorithm and number of mutants", "why_tests_cant": "The comment is put into the tree, and what follows it is printed by the same printer: comments of any length, which are broken to several lines, at any depth and in any list must leave the column, the indentation and all later text as they are.", "anchors": ["mutagenyx_lib/src/solidity/commenter.rs:insert_comment_into_statements_array", "mutagenyx_lib/src/solidity/pretty_printer.rs:CommentPrinter", "mutagenyx_lib/src/solidity/pretty_printer.rs:ContractDefinitionPrinter", "mutagenyx_lib/src/pretty_printer.rs:write_flowable_text"]}
{"id": "C79", "title": "What the tool reports about a run is true", "statement": "In a run to files that ends well, standard output names the original and the configuration if and only if they were asked for, and the files hold them; it names, in the order of the table, exactly the requested algorithms that have a place to change, and the number of all these places; it says by how much the number of requested mutants was lowered; and for each mutant, in the order of the numbers, it names an algorithm and a file such that the file holds the input with one node mutated by that algorithm. No algorithm is named for more mutants than it has places. The messages have no influence on what the command does.", "quantifier": "for every syntax tree, machine, seed, parameters, algorithms and number of mutants", "why_tests_cant": "Users log the messages and attribute mutants to algorithms by them; what they say depends on the count over the whole tree, the selection, validation that drops mutants, and the numbering of files, in every combination.", "anchors": ["mutagenyx/src/mutation_generator.rs:generate_mutations", "mutagenyx/src/main.rs:main"]}
{"id": "C80", "title": "With `--stdout` standard output holds only the texts", "statement": "In a run with `--stdout` that ends well, standard output holds the texts that would have been written to files and nothing else.", "quantifier": "for every syntax tree, machine, seed, parameters, algorithms and number of mutants", "why_tests_cant": "Messages and texts go through different calls to the same stream; which of them come, and in which order, depends on the parameters and on the whole run.", "anchors": ["mutagenyx/src/mutation_generator.rs:generate_mutations", "mutagenyx/src/main.rs:main"]}
{"id": "C81", "title": "The exit status tells whether a command did its work", "statement": "The status of the process is 0 if and only if the command did its work for every input; what failed is named on standard output.", "quantifier": "for every command line, machine and contents of files", "why_tests_cant": "Errors come up in the compiler, in files, in the syntax tree, in validation and in the selection; a script only sees the status, so that each path from each of them to the end of the process matters.", "anchors": ["mutagenyx/src/main.rs:main", "mutagenyx_lib/src/pretty_printing.rs:pretty_print_files", "mutagenyx/src/mutation_generator.rs:generate_mutations"]}
{"id": "C82", "title": "A saved configuration keeps the compiler and its settings", "statement": "Running a saved configuration uses the compiler, paths, remappings and stage that were in force in the run that saved it, whatever settings are given on the command line.", "quantifier": "for every settings record and command line", "why_tests_cant": "All combinations of settings, and the way through a file and back.", "anchors": ["mutagenyx/src/mutation_generator.rs:generate_mutations 306-335", "mutagenyx/src/mutation_generator.rs:generate_mutants 150-160", "mutagenyx_lib/src/config_file.rs", "mutagenyx_lib/src/preferences.rs"]}
{"id": "C83", "title": "The Vyper compiler in a container is given the program", "statement": "When docker is used to run the Vyper compiler, the compiler in the container is given the configured settings, and the path given to it leads to the file that is to be compiled.", "quantifier": "for every directory, file name and settings record", "why_tests_cant": "Needs docker and a file outside the image.", "anchors": ["mutagenyx_lib/src/vyper/language_interface.rs 365-391", "mutagenyx_lib/src/vyper/language_interface.rs 450-466"]}
{"id": "C84", "title": "A Solidity mutant differs from the source only in the lines of one statement and in comments", "statement": "The text of each file for a Solidity mutant is the printed text of the source file, except that the lines of one statement or declaration around the mutated node are replaced by the lines of the mutated statement or declaration, at the same level of indentation (for SwapLines: the lines of two statements change places), and that lines which are comments or empty are added.", "quantifier": "for every machine, run, Solidity tree, algorithm, mutated node and random choice", "why_tests_cant": "The layout of a line depends on the level of indentation and on how far the text before went; tests compare a few texts.", "anchors": ["mutagenyx_lib/src/solidity/pretty_printer.rs:ContractDefinitionPrinter 388-470", "mutagenyx_lib/src/solidity/pretty_printer.rs:BlockPrinter 815-890", "mutagenyx_lib/src/pretty_printer.rs 41-160", "mutagenyx_lib/src/solidity/mutators.rs:mutate", "mutagenyx/src/mutation_generator.rs:generate_mutations 306-335"]}
{"id": "C85", "title": "A mutant is another program than its source", "statement": "The program in each file for a mutant, comments aside, is not the source program.  If it is, then the algorithm found something that it cannot change: equal operands, arguments or statements that change places, a number, value or condition that is already the new one, or an only statement that is put in again; the operator algorithms, UnaryOp, FunctionCall, Require, UncheckedBlock and ElimDelegateCall never give the source program.", "quantifier": "for every machine, run, program, algorithm, mutated node and random choice", "why_tests_cant": "Whether a mutation changes anything depends on the program and on the random choice; a test sees one of each.", "anchors": ["mutagenyx_lib/src/solidity/mutators.rs:mutate", "mutagenyx_lib/src/vyper/mutators.rs:mutate", "mutagenyx/src/mutation_generator.rs:generate_mutations 306-335"]}
{"id": "C86", "title": "A Vyper mutant differs from the source only in the lines of one statement and in one comment", "statement": "The text of each file for a Vyper mutant is the printed text of the program, except that the lines of one statement, of the head of a loop, branch or function, or of a decorator are replaced by the changed ones at the same level of indentation (for SwapLines: the lines of two statements change places; for DeleteStatement: a comment with the statement, and perhaps pass or return), and that one comment is added on a line of its own.", "quantifier": "for every machine, run, Vyper program, algorithm, mutated node and random choice", "why_tests_cant": "Where line breaks and indentation are put depends on the nesting and on what was printed before; tests compare a few texts.", "anchors": ["mutagenyx_lib/src/vyper/pretty_printer.rs:FunctionDefPrinter", "mutagenyx_lib/src/vyper/pretty_printer.rs:IfPrinter", "mutagenyx_lib/src/pretty_printer.rs 41-160", "mutagenyx_lib/src/vyper/mutators.rs:mutate", "mutagenyx/src/mutation_generator.rs:generate_mutations 306-335"]}
{"id": "C87", "title": "The command `mutate` processes every input, and each input keeps its mutants", "statement": "If the command ends well, every input, and every file named in a configuration file, was processed with its parameters, on the files as they were at the start except for what earlier inputs are written to and for temporary files; and at the end the files of each input are as its run left them, except for those that a later input is written to: they hold mutants of that input, each with one node mutated.", "quantifier": "for every machine, command line, list of inputs and configuration files, and random choice", "why_tests_cant": "Inputs share the disk, the temporary directory and the output directory; tests run one input, or a few with fixed names.", "anchors": ["mutagenyx/src/mutation_generator.rs:generate_mutants 80-242", "mutagenyx/src/mutation_generator.rs:generate_mutations 252-543"]}
{"id": "C88", "title": "Printing a printed Vyper program again changes nothing", "statement": "If the printed text of a Vyper program is read and printed again, the text stays as it is; two syntax trees are printed alike if and only if they are trees of the same program.", "quantifier": "for every Vyper program and every syntax tree of it", "why_tests_cant": "Line breaks, indentation and parentheses are chosen while printing; that they do not drift, and that nothing besides the program has an effect on them, concerns all programs and all trees.", "anchors": ["mutagenyx_lib/src/pretty_printing.rs:pretty_print_files", "mutagenyx_lib/src/vyper/pretty_printer.rs:ModulePrinter", "mutagenyx_lib/src/pretty_printer.rs 41-160"]}
{"id": "C89", "title": "Every mutation that an algorithm is meant to make can come up", "statement": "For a node that an algorithm applies to, some random draws lead to each of its results: every other operator of the class, each of the three conditions of an `if`, the numbers next to a literal and every number of 64 bits, every value of the type of an assignment, every argument of a call, every pair of statements or of arguments of one type, every statement that may be deleted or wrapped.  And for every node of a program and every such result, some random draws make a run that is asked for one mutant write the text of the program with just that node mutated in just that way.", "quantifier": "for every node that the algorithm applies to and every result that the description of the algorithm names", "why_tests_cant": "A test sees the results of a few seeds; that no result is impossible (or that one is) concerns all sequences of draws.", "anchors": ["mutagenyx_lib/src/solidity/mutators.rs:BinaryOpMutator::mutate, AssignmentMutator::mutate, SwapFunctionArgumentsMutator::mutate, SwapLinesMutator::mutate", "mutagenyx_lib/src/vyper/mutators.rs:DeleteStatementMutator::mutate, AssignmentMutator::mutate", "README.md:Mutation algorithms"]}
{"id": "C90", "title": "The text of a Solidity file is read as the program that was printed", "statement": "A reader that follows the grammar of Solidity reads the printed text of a source file as that source file: the same pragmas, imports, contracts, members, functions, statements and assembly, nested in the same way and with every expression grouped in the same way.  Two trees with the same text are trees of the same program.  Each mutant that a run writes is read as the source file with one change of the kind that the algorithm makes, apart from braces around one statement.", "quantifier": "for every source file in any nesting, and every mutant of a run", "why_tests_cant": "Whether tokens can be grouped in another way depends on all that stands around them; a test compares a few texts.", "anchors": ["mutagenyx_lib/src/solidity/pretty_printer.rs:SourceUnitPrinter, ContractDefinitionPrinter, FunctionDefinitionPrinter, IfStatementPrinter, BinaryOperationPrinter, InlineAssemblyPrinter", "mutagenyx/src/mutation_generator.rs:generate_mutants"]}
{"id": "C91", "title": "A printed Vyper string or bytes literal denotes the value of its node", "statement": "The text printed for a string node or a bytes node of a Vyper tree is a literal that Python, and so Vyper, reads as the same characters and the same bytes.", "quantifier": "for every string and every sequence of bytes, of any length", "why_tests_cant": "Values are unbounded, and the literal is cut from the value two bytes at a time or copied as it is; only some characters show that nothing is escaped.", "anchors": ["mutagenyx_lib/src/vyper/pretty_printer.rs:BytesPrinter", "mutagenyx_lib/src/vyper/pretty_printer.rs:StrPrinter", "mutagenyx_lib/src/pretty_printer.rs:write_string"]}
{"id": "C92", "title": "Comments and documentation of a Vyper program are kept", "statement": "The text that is printed for a Vyper module, read together with its comments and documentation, has every comment and every documentation string of the module with its text and in its place; no comment is taken for a part of the program, and no part of the program for a comment.  So two modules are printed as the same text if and only if they have the same declarations, statements, comments and documentation.", "quantifier": "for every module, with comments at any place between declarations and statements nested in any way", "why_tests_cant": "What is a comment depends on quoted text, on brackets that are open and on line breaks that the printer puts in; programs are unbounded.", "anchors": ["mutagenyx_lib/src/vyper/pretty_printer.rs:CommentPrinter", "mutagenyx_lib/src/vyper/pretty_printer.rs:FunctionDefPrinter 495-512", "mutagenyx_lib/src/vyper/pretty_printer.rs:ModulePrinter 832-845", "mutagenyx_lib/src/pretty_printer.rs:write_flowable_text"]}
{"id": "C93", "title": "Printing a tree comes to an end", "statement": "Printing a syntax tree neither crashes nor runs forever: every JSON tree, whatever keys are missing or hold other values, is printed as a text, if keys and values of dictionaries, names and arguments of calls and default values and parameters match in number, byte strings have whole bytes, and no word of a comment or of documentation is too long for the page. The same holds for every mutant of such a tree, with the comment beside it.", "quantifier": "for every JSON tree, of any depth, every mutation of it, and every build of the tool", "why_tests_cant": "Trees are unbounded, and the calls that end badly depend on the column and the indentation that the calls before have led to.", "anchors": ["mutagenyx_lib/src/vyper/pretty_printer.rs:VyperNodePrinterFactory::printer_for, ArgumentsPrinter 545-569, BytesPrinter, DictPrinter", "mutagenyx_lib/src/solidity/pretty_printer.rs:SolidityNodePrinterFactory::printer_for, FunctionCallPrinter, FunctionCallOptionsPrinter", "mutagenyx_lib/src/pretty_printer.rs:write_flowable_text"]}
{"id": "C94", "title": "A run does its work unless something outside of it fails", "statement": "A run for an input that was read ends well whenever there is something to mutate, and otherwise says that there is nothing to mutate; it neither fails nor crashes, whatever the compiler says about the mutants. This is if files can be written, the mutators do not fail on the mutable nodes, and the texts of the input and of the mutants can be printed, which holds for usable nodes (C30) and sturdy trees (C93). The run comes to an end if the source of random numbers offers every algorithm again and again.", "quantifier": "for every input, list of algorithms and functions, number of mutants, source of random numbers and answers of the compiler", "why_tests_cant": "Tests see a few runs; that no combination of random numbers, duplicates, refused mutants and used up attempts ends a run early needs all of them.", "anchors": ["mutagenyx/src/mutation_generator.rs:252-543", "mutagenyx_lib/src/json_ast_language_interface.rs:132-183", "mutagenyx_lib/src/json_ast_language_interface.rs:249-280"]}
{"id": "C95", "title": "What a Vyper interface says about a function is kept", "statement": "A function of a Vyper interface has, instead of statements, the one word that says what a call may do. No mutation algorithm takes such a function for one with statements, and none takes the statement or the name that holds the word: the word is neither deleted, nor commented out, nor swapped. (As it is, this holds for view, nonpayable and payable, and fails for pure.)", "quantifier": "for every function of an interface, every algorithm and every state of the random numbers", "why_tests_cant": "The mutator recognises the word by printing the statement and looking the text up in a list; a test tries the words its author had in mind, and the one that is missing in the list is missing in the test.", "anchors": ["mutagenyx_lib/src/vyper/mutators.rs:632-680", "mutagenyx_lib/src/vyper/mutators.rs:196-211"]}
{"id": "C96", "title": "Integers of Vyper programs keep their values", "statement": "The text that is printed for an integer of a Vyper program is read as the same integer, and adding one to it or taking one away changes it. (As it is, this holds for integers of 64 bits with sign; larger ones are printed as floating point numbers, so that different integers are printed as the same text, and are left as they are by the mutator.)", "quantifier": "for every integer in a syntax tree and every way to write floating point numbers", "why_tests_cant": "Tests use small numbers; that no number is printed as another one is a statement about all of them, and the failures begin where numbers get too large to be written down in a test by accident.", "anchors": ["mutagenyx_lib/src/vyper/pretty_printer.rs:679-693", "mutagenyx_lib/src/vyper/mutators.rs:1366-1433", "mutagenyx_lib/src/json.rs:328-352"]}
{"id": "C97", "title": "Only the same mutant is passed over as a repetition", "statement": "While a file is processed, a mutant is passed over as a repetition only if the very same mutant has been written before. (As it is, this holds for all mutations except two kinds: random numbers put in place of integers, where the report does not say which number was put in, and swaps of function arguments in Solidity, where the report says which group of arguments was used but the groups are numbered in the order of a hash map.)", "quantifier": "for every tree, list of algorithms, list of functions, number of mutants, sequence of random numbers and behaviour of the outside world, if different choices have different digests", "why_tests_cant": "A test makes a few mutants and sees what is written; a mutant that is lost because it was taken for another one leaves no trace, and whether that can happen depends on all random choices of every algorithm.", "anchors": ["mutagenyx/src/mutation_generator.rs:456-540", "mutagenyx_lib/src/solidity/mutators.rs:1031-1115", "mutagenyx_lib/src/solidity/mutators.rs:1309-1378", "mutagenyx_lib/src/vyper/mutators.rs:1366-1433"]}
{"id": "C98", "title": "No mutant is written twice", "statement": "Mutations of a node that are counted as different are different. (As it is, this holds for the replacement of operators, the mutations of conditions, the exchange of operands, negated requirements and delegate calls; two swapped lines are counted as two mutations, one for each order in which they were drawn, so that a run can write the same mutant to two files.)", "quantifier": "for every node, both languages, every sequence of random numbers and every digest", "why_tests_cant": "A test that makes two mutants of a file and compares them sees two random mutants; whether two choices can lead to the same mutant is a question about all pairs of choices.", "anchors": ["mutagenyx/src/mutation_generator.rs:456-540", "mutagenyx_lib/src/solidity/mutators.rs:284-344", "mutagenyx_lib/src/solidity/mutators.rs:1158-1258", "mutagenyx_lib/src/solidity/mutators.rs:1537-1631", "mutagenyx_lib/src/vyper/mutators.rs:1618-1715"]}
