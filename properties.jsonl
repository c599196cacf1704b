{"id": "C01", "title": "Growable vectors behave as lists", "statement": "After any sequence of push/pop/npop/clear on a library vector, its size and every element readable through get/last are exactly those of the list obtained by applying the same operations; reads outside the live range give the declared default and never touch memory outside the allocation.", "quantifier": "every finite sequence of vector operations, every element type and default", "why_tests_cant": "capacity-doubling boundaries occur at unboundedly many sizes and interleavings", "anchors": ["lib/src/vector.h: DECLARE_VECTOR", "lib/src/vector.c: cp_vector_push, cp_vector_grow"]}
{"id": "C02", "title": "String accumulation is concatenation", "statement": "The text accumulated while parsing a token equals the concatenation of the appended pieces since the last reset, and no append ever writes outside the buffer.", "quantifier": "every sequence of reset/append operations with arbitrary byte strings", "why_tests_cant": "growth arithmetic must be right for every pair of current length and appended length", "anchors": ["lib/src/string_buffer.c: cp_sb_append", "lib/src/string_buffer.h"]}
{"id": "C03", "title": "instanceof is the declared subtype relation", "statement": "cypher_astnode_instanceof(n, T) holds exactly when T is n's type or is reachable from it by the documented parent types; in particular every comment node is an instance of CYPHER_AST_COMMENT.", "quantifier": "every pair of AST node types", "why_tests_cant": "needs the whole type table closed under transitivity; tests probe a few pairs", "anchors": ["lib/src/ast.c: cypher_astnode_vts, cypher_astnode_instanceof", "lib/src/astnode.h"]}
{"id": "C04", "title": "Ordinals number nodes uniquely in pre-order", "statement": "Within a segment the nodes are numbered consecutively from the segment's first ordinal in depth-first pre-order, no number is used twice, and nnodes equals the number of nodes.", "quantifier": "every forest of AST nodes and every starting ordinal", "why_tests_cant": "trees are unbounded in depth and width", "anchors": ["lib/src/segment.c: cypher_parse_segment", "lib/src/ast.c: cypher_ast_set_ordinals"]}
{"id": "C05", "title": "Annotation contexts behave as finite maps", "statement": "After any history of attach, remove, get and release/free operations, looking up a node in a context gives the value of the last attach that was not removed, and NULL otherwise; contexts do not interfere; the linked lists stay consistent.", "quantifier": "every finite history of operations over any number of nodes and contexts", "why_tests_cant": "pointer surgery on two intertwined doubly linked lists must be right in every reachable shape", "anchors": ["lib/src/annotation.c: cypher_astnode_attach_annotation, cypher_astnode_remove_annotation, cypher_astnode_get_annotation, cp_release_annotation"]}
{"id": "C06", "title": "Errors are reported at the furthest failure with all expectations", "statement": "When the parser reports an error, the reported position is the furthest position at which an expectation failed since the previous error, and the message names exactly the distinct expectations noted there, in first-noted order; earlier expectations never leak in.", "quantifier": "every sequence of noted expectations and reifications", "why_tests_cant": "which expectation is furthest depends on the whole backtracking history", "anchors": ["lib/src/errors.c: cp_et_note_potential_error, cp_et_reify_potentials"]}
{"id": "C07", "title": "Error messages are complete", "statement": "The error message is the full text 'Invalid input X: expected A, B or C' for every list of expectation labels and every offending byte: it is never truncated and never overruns the allocated size.", "quantifier": "every list of labels, every offending byte, every colorization", "why_tests_cant": "the length is precomputed by separate arithmetic that must agree with the writer for all inputs", "anchors": ["lib/src/errors.c: cp_et_reify_potentials, error_report"]}
{"id": "C08", "title": "Error context is the right line and the offset points at the error", "statement": "The context string attached to an error is (an excerpt of) the input line containing the error position, never longer than the limit, and the context offset designates the same input byte as the error position.", "quantifier": "every buffer, every error offset, every length limit", "why_tests_cant": "excerpting at both ends has many boundary combinations", "anchors": ["lib/src/util.c: line_context", "lib/src/parser.c: finished"]}
{"id": "C09", "title": "A parse result is the concatenation of its segments", "statement": "The roots, errors, directives and node count of a parse result are those of the segments in order, and eof is as documented.", "quantifier": "every sequence of segments", "why_tests_cant": "unbounded sequences", "anchors": ["lib/src/result.c: cp_result_merge_segment", "lib/src/parser.c: parse, parse_all_callback"]}
{"id": "C10", "title": "Retained segments live exactly as long as they are referenced", "statement": "A segment is freed when and only when the number of releases reaches one plus the number of retains, whatever the interleaving; no use after free and no leak.", "quantifier": "every history of retain/release", "why_tests_cant": "every interleaving of owners", "anchors": ["lib/src/segment.c: cypher_parse_segment_retain, cypher_parse_segment_release"]}
{"id": "C11", "title": "Indexed accessors are total and bounds-safe", "statement": "Every indexed accessor on segments, results and AST nodes returns the i-th item for i below the count and NULL otherwise, for every index.", "quantifier": "every object and every index", "why_tests_cant": "all indices, all objects", "anchors": ["lib/src/segment.c", "lib/src/result.c", "lib/src/ast.c: cypher_astnode_get_child"]}
{"id": "C12", "title": "Cloning preserves the tree", "statement": "cypher_ast_clone of any parsed AST terminates and yields a tree with the same types, ranges, texts and field-to-child structure.", "quantifier": "every AST the parser can build", "why_tests_cant": "per-node clone code is exercised on unboundedly many shapes, with optional fields present and absent", "anchors": ["lib/src/ast.c: cypher_ast_clone", "lib/src/astnode.h: child_index", "lib/src/ast_with.c: clone", "lib/src/ast_return.c: clone", "lib/src/ast_case.c: clone", "lib/src/ast_drop_rel_prop_constraint.c: clone"]}
{"id": "C13", "title": "Formatted strings are complete", "statement": "Detail strings built with automatic buffer growth contain the whole text for every text length and initial capacity.", "quantifier": "every text length and every initial buffer capacity", "why_tests_cant": "off-by-one at equality of length and capacity", "anchors": ["lib/src/util.c: snprintf_realloc", "lib/src/ast.c: cypher_astnode_detailstr_realloc"]}
{"id": "C14", "title": "Quick parsing never fails and always terminates", "statement": "cypher_quick_parse on any byte string terminates, returns 0 when callbacks return 0, and reaches the end of the input.", "quantifier": "every byte string and every flag setting", "why_tests_cant": "any byte string is legal input; a PEG can loop or fail on inputs never tried", "anchors": ["lib/src/quick_parser.leg", "lib/src/quick_parser.c: parse"]}
{"id": "C15", "title": "Quick segments tile the input", "statement": "The stretches of input consumed by consecutive quick-parse segments are contiguous, non-empty, and cover the whole input; each segment's text lies within its stretch; eof is reported exactly when the stretch ends by exhausting the input.", "quantifier": "every byte string", "why_tests_cant": "every byte string", "anchors": ["lib/src/quick_parser.c: parse, segment"]}
{"id": "C16", "title": "Quick statements end exactly at the first live semicolon", "statement": "In statements-only mode each segment ends at the first ';' that is outside quotes, comments and escapes as defined by a simple left-to-right lexer, or at end of input.", "quantifier": "every byte string", "why_tests_cant": "interaction of quotes, comments, escapes and backtracking over arbitrary text", "anchors": ["lib/src/quick_parser.leg: statement, statement-body"]}
{"id": "C17", "title": "Quick segment positions are correct", "statement": "Line, column and offset of start, end and next of every quick segment equal the values obtained by counting newlines in the input.", "quantifier": "every byte string", "why_tests_cant": "line bookkeeping happens inside backtracking lookahead", "anchors": ["lib/src/quick_parser.c: line_start, backtrack_lines, input_position"]}
{"id": "C18", "title": "Parsing does not depend on how input is chunked", "statement": "Feeding the same bytes in any chunk sizes (stream or buffer) yields identical segments.", "quantifier": "every byte string and every partition of it into source reads", "why_tests_cant": "exponentially many partitions", "anchors": ["lib/src/parser.c: source, source_from_stream", "lib/src/quick_parser.c"]}
{"id": "C19", "title": "Buffer parsing reads the whole buffer", "statement": "cypher_uparse and cypher_quick_uparse deliver to the parser exactly the n bytes of the given buffer, in order.", "quantifier": "every buffer content and length", "why_tests_cant": "only long inputs need several reads", "anchors": ["lib/src/parser.c: source_from_buffer", "lib/src/quick_parser.c: source_from_buffer"]}
{"id": "C20", "title": "Full parsing terminates on every input", "statement": "cypher_parse/cypher_parse_each terminate on every byte string (with terminating callbacks).", "quantifier": "every byte string", "why_tests_cant": "a recursive-descent PEG can recurse forever on untested inputs", "anchors": ["lib/src/parser.leg", "lib/src/parser.c: parse_each"]}
{"id": "C21", "title": "Full parsing always makes progress and never rejects", "statement": "For every input the parser produces a segment for the next stretch of input (recording errors instead of failing), consumes at least one byte unless at end of input, and the stretches tile the input up to the end.", "quantifier": "every byte string and flag setting", "why_tests_cant": "error recovery must work at every position of every input", "anchors": ["lib/src/parser.leg: directive, _directive, statement, _clauses, skip-to-directive", "lib/src/parser.c: parse_each, parse_one"]}
{"id": "C22", "title": "End of input is reported exactly once and correctly", "statement": "A segment is flagged eof exactly when it consumed all remaining input by matching end of input; no segment follows an eof segment.", "quantifier": "every byte string", "why_tests_cant": "eof is set by deferred actions that backtracking may discard", "anchors": ["lib/src/parser.leg: EOF", "lib/src/parser.c: parse_each"]}
{"id": "C23", "title": "Full-parser positions are correct", "statement": "The line, column and offset in every node range, error and segment equal those obtained by counting newlines in the input.", "quantifier": "every byte string", "why_tests_cant": "line bookkeeping is interleaved with backtracking", "anchors": ["lib/src/parser.c: line_start, backtrack_lines, input_position", "lib/src/parser.leg: EOL"]}
{"id": "C24", "title": "No input can trip an internal assertion or constructor failure", "statement": "For every input, executing the parse actions never violates an assertion (block nesting, block freshness, operator and precedence stacks) and never makes an AST constructor reject its arguments.", "quantifier": "every byte string", "why_tests_cant": "the sequence of deferred actions depends on the whole parse; one rare combination aborts the process", "anchors": ["lib/src/parser.c: parse_one, block_start_action, block_end_action, block_replace_action, block_merge_action, add_terminal", "lib/src/parser.leg"]}
{"id": "C25", "title": "AST nodes are well typed", "statement": "Every node in a parsed AST has the children and fields its type requires (e.g. a statement body is a query or schema command; a pattern path alternates node and relationship patterns).", "quantifier": "every byte string", "why_tests_cant": "unbounded trees", "anchors": ["lib/src/ast_*.c constructors", "lib/src/parser.c"]}
{"id": "C26", "title": "Node ranges nest", "statement": "Every node's range is well ordered and is contained in its parent's range, roots' ranges lie in the segment's range; siblings end in order, and each starts where the earlier ones end or later, unless it is a node without children made of a text that contains them.", "quantifier": "every byte string", "why_tests_cant": "unbounded trees and arbitrary whitespace/comments", "anchors": ["lib/src/parser.c: block_start_action, block_replace_action, block_merge_action"]}
{"id": "C27", "title": "Operator precedence and associativity", "statement": "In every parsed expression, operands of an operator node that are not parenthesised bind at least as tightly as the precedence table demands, with left/right associativity respected.", "quantifier": "every expression", "why_tests_cant": "all operator combinations of unbounded length", "anchors": ["lib/src/operators.c", "lib/src/parser.leg: _expression, _prec_expression, _atom", "lib/src/parser.c: _prec_push, PREC_CHK"]}
{"id": "C28", "title": "String literals round-trip", "statement": "For every byte string s, quoting s with the documented escapes and parsing it yields a string node whose value is s.", "quantifier": "every byte string", "why_tests_cant": "all byte strings, all escape interactions", "anchors": ["lib/src/parser.leg: single-quoted, double-quoted, escaped-char"]}
{"id": "C29", "title": "Backquoted names round-trip", "statement": "For every byte string s without a backquote, `s` parses as an identifier whose name is s.", "quantifier": "every byte string without backquote", "why_tests_cant": "all byte strings", "anchors": ["lib/src/parser.leg: escaped-symbolic-name, identifier"]}
{"id": "C30", "title": "Ordinals continue across segments", "statement": "Over a whole parse the ordinals of all nodes of all segments are distinct and consecutive from the configured initial ordinal.", "quantifier": "every parse, every number of segments", "why_tests_cant": "unbounded", "anchors": ["lib/src/parser.c: parse_each", "lib/src/segment.c"]}
{"id": "C31", "title": "Callback protocol", "statement": "parse_each calls the callback once per segment in input order; a positive return stops with success, a negative return is returned to the caller, the SINGLE flag stops after one segment, and nothing is called after stopping.", "quantifier": "every callback behaviour (history dependent) and input", "why_tests_cant": "callbacks may return anything at any time", "anchors": ["lib/src/parser.c: parse_each", "lib/src/quick_parser.c: parse"]}
{"id": "C32", "title": "Segment contents are consistent", "statement": "Each segment's directive is NULL or one of its roots, is a statement or a command, and a segment without directive and without eof has errors or is an empty statement.", "quantifier": "every byte string", "why_tests_cant": "every byte string", "anchors": ["lib/src/parser.leg: __directive", "lib/src/parser.c: parse_each"]}
{"id": "C33", "title": "Reported errors are ordered and located in the segment", "statement": "Error offsets within a segment are strictly increasing and lie within the segment's consumed stretch (inclusive of its end).", "quantifier": "every byte string", "why_tests_cant": "depends on full backtracking history", "anchors": ["lib/src/errors.c", "lib/src/parser.c: record_error, _err"]}
{"id": "C34", "title": "Initial position and ordinal only shift the results", "statement": "Parsing with a configured initial position/ordinal gives the same result as the default with positions and ordinals shifted accordingly.", "quantifier": "every input, every initial position and ordinal", "why_tests_cant": "every input", "anchors": ["lib/src/parser_config.c", "lib/src/parser.c: parse_each, input_position"]}
{"id": "C35", "title": "Parse time is bounded by a polynomial", "statement": "The number of rule applications needed to parse an input is polynomial in its length.", "quantifier": "every byte string", "why_tests_cant": "tests cannot show an asymptotic bound; nested parentheses trigger re-parsing", "anchors": ["lib/src/parser.leg: _expression, _atom, atom"]}
{"id": "C36", "title": "Precedence and operator stacks are balanced", "statement": "Whatever the success or failure of sub-parses, after parsing any expression the precedence stack is what it was before, and after executing the actions the operator stack is empty.", "quantifier": "every byte string", "why_tests_cant": "precedence pushes are not undone by backtracking, only by explicit pops on both paths", "anchors": ["lib/src/parser.leg: expression, _prec_expression", "lib/src/parser.c: parse_one"]}
{"id": "C37", "title": "AST printing lists every node once", "statement": "cypher_ast_fprint prints one line per node in ordinal order, with the ordinal, type and range of that node, for every tree.", "quantifier": "every AST and every width", "why_tests_cant": "unbounded trees, column widths depend on maxima", "anchors": ["lib/src/ast.c: cypher_ast_fprint, cypher_ast_fprintv"]}
{"id": "C38", "title": "Keywords are case-insensitive", "statement": "Changing the letter case of keyword letters never changes whether a keyword is recognised.", "quantifier": "every keyword and every case variation", "why_tests_cant": "2^n case variations per keyword", "anchors": ["lib/src/parser.leg: keyword rules"]}
{"id": "C39", "title": "Every node's text is what its source says", "statement": "In every tree of every parse, the text of a node (name, literal value, comment) is the one its source, the input between the ends of its range, denotes: names without backquotes, labels without the colon and blanks, parameters without `$`, braces and blanks, dotted names without blanks around dots, strings without quotes and escapes, numbers and comments verbatim, implicit aliases trimmed; nodes of other types have no text.", "quantifier": "every byte string, every node of every tree", "why_tests_cant": "the string buffer is filled by deferred actions that backtracking must have removed, and block texts are cut by positions kept on a stack; every combination of constructs shares that state", "anchors": ["lib/src/parser.leg: identifier, label, string-literal, escaped-char, projection, line-comment", "lib/src/parser.c: strbuf_*, block_start_action, block_end_action, _add_terminal"]}
{"id": "C40", "title": "Printed trees show the whole tree", "statement": "No detailstr function meets a missing node or a failing assertion on any tree a parse yields, and the text printed for a segment determines its tree: if the segments of two parses are printed alike then their nodes correspond one to one, with equal depths, ordinals, ranges, kinds, flags, operators, references to other nodes, and texts; every ordinal shown by a node is that of one of its children.", "quantifier": "all pairs of parses of all byte strings, all segments", "why_tests_cant": "about ninety detailstr functions with optional fields and arrays of any length; that no two different nodes ever give the same text is a statement about all pairs", "anchors": ["lib/src/ast_*.c: detailstr", "lib/src/ast.c: cypher_ast_set_ordinals, snprint_sequence, cypher_ast_fprintv", "lib/src/segment.c: cypher_parse_segment, cypher_parse_segment_fprint_ast"]}
{"id": "C41", "title": "Typed accessors return what the header documents", "statement": "Every cypher_ast_*_get_*, *_n*, *_is_*, *_has_* function, called with a node of a parsed tree of the type it requires and with any index, does not fail and returns what the header documents: a node of the documented type that is a child of the node, null exactly where documented (in particular for every index that is out of range), an operator, a flag, a text. Together they tell all: two nodes of one type that give the same answers to all of them hold the same fields, arrays, operators, flags and text.", "quantifier": "all byte strings and readers, all nodes of all segments, all 230 functions, all indices", "why_tests_cant": "the types of the children depend on the whole grammar; a test calls the functions on a few trees only, and each of the comments can be refuted only by the right tree", "anchors": ["lib/src/cypher-parser.h.in:500-5370", "lib/src/ast_*.c: cypher_ast_*_get_* etc."]}
{"id": "C42", "title": "Nodes refer to all they contain, in source order", "statement": "In every tree a parse yields, the children of a node other than comments and errors are exactly the nodes that its fields and arrays refer to, each once and in the order of the fields: the constructor never drops, repeats or reorders a child, and never refers to a node outside. Hence what is referred to first stands first in the source.", "quantifier": "all byte strings and readers, all nodes of all segments", "why_tests_cant": "the grammar passes children (collected in a block) and fields (passed in variables) on two separate ways through backtracking, merged and replaced blocks; that they agree for all inputs is an invariant of all 262 rules, and the assertion that should check it (REQUIRE_CONTAINS_ALL) tests nothing", "anchors": ["lib/src/parser.leg", "lib/src/parser.c: block_start_action, block_merge_action, block_replace_action, add_child, astnode sequences", "lib/src/astnode.h:85-103"]}
{"id": "C43", "title": "Trees own their memory: no node is lost, and releasing frees everything once", "statement": "Every node made while parsing ends up in exactly one place of the trees of exactly one segment. Hence releasing the segments of a parse, in any order and any selection, frees exactly what was allocated for them (node structures, child arrays, the second arrays of queries, calls and comparisons, root arrays, errors with their messages and contexts): nothing twice, nothing read after it was freed, no missing release function, and after all are released nothing is left. cypher_ast_free and cypher_astnode_free of any node of any tree free what they document.", "quantifier": "all byte strings and readers, all callbacks, all selections and orders of segments, all nodes", "why_tests_cant": "whether a node is shared or dropped depends on the path through merged and replaced blocks; a sanitizer only sees the inputs that are run", "anchors": ["lib/src/ast.c:450-535", "lib/src/ast.c:888-918", "lib/src/ast_query.c:66-77", "lib/src/ast_query.c:127-132", "lib/src/ast_call.c:79-108", "lib/src/ast_comparison.c:73-97", "lib/src/segment.c:24-109", "lib/src/errors.c:55-64", "lib/src/parser.c: add_child, block_*_action"]}
{"id": "C44", "title": "cypher-lint reports exactly the errors of its inputs, in every mode", "statement": "When main of cypher-lint returns, its standard error output is, for the operands in order up to the first that cannot be opened, the three lines for each error of each segment (name, line, column, message; context; mark under the offset), and its exit status is 0 exactly if all operands could be read and no segment has an error. This does not depend on --ast, --stream, the width or output colours. The standard output is empty without --ast and else holds the trees. It always ends, and other than by returning from main only at the known assertions of the parser or, with --ast, while printing a tree.", "quantifier": "all option lists, operands, inputs and file systems, terminals or not", "why_tests_cant": "two separate paths (callback per segment, merged result) must agree for every input; tests run one input in one mode", "anchors": ["linter/src/cypher-lint.c:77-85", "linter/src/cypher-lint.c:142-298", "linter/src/cypher-lint.c:311-418"]}
{"id": "C45", "title": "Every text of a grammar of statements is parsed without errors", "statement": "There is a grammar of texts, written as in a manual (ambiguous, with optional white space, keywords in any case, no order among alternatives, no precedences): expressions with all prefix, infix and postfix operators, property lookups, subscripts, calls (with DISTINCT, *, dotted names), CASE, list comprehensions, the predicates ALL, ANY, NONE and SINGLE, FILTER, EXTRACT, REDUCE, parentheses, lists, maps, numbers, strings, constants, names and parameters; patterns of named and unnamed paths with nodes, labels, properties, relationships with types, ranges and directions, shortestPath; MATCH, OPTIONAL MATCH, CREATE [UNIQUE], MERGE, SET, REMOVE, FOREACH, CALL, LOAD CSV, RETURN, WITH, UNWIND, [DETACH] DELETE, START and UNION clauses with hints, ON MATCH and ON CREATE, YIELD, FIELDTERMINATOR, DISTINCT, *, AS, ORDER BY, SKIP, LIMIT and WHERE; CREATE and DROP of indexes and constraints; EXPLAIN, PROFILE and USING PERIODIC COMMIT before them; statements ended by a semicolon or the end of the text, empty statements, white space at the end. Every text of it, if it has no comment marks and no back quotes, is divided by the parser into exactly the segments it consists of; none has an error, and exactly those holding a statement have a directive. cypher-lint exits with 0 for such inputs.", "quantifier": "all texts of the grammar (unbounded nesting, any white space and spelling), all readers, all configurations, with and without CYPHER_PARSE_ONLY_STATEMENTS", "why_tests_cant": "a PEG commits to the first alternative that matches: whether an earlier alternative swallows a prefix of a valid text (a keyword taken for a name, an operator for the beginning of another, a parenthesis for a node of a pattern) depends on unboundedly many contexts", "anchors": ["lib/src/parser.leg: directive, statement, cypher-statement, query, _clauses, clause, match, create, pattern, return, with, unwind, delete, union, expression and the rules they call", "lib/src/parser.c: parse_each, parse_one, precedence predicates"]}
{"id": "C46", "title": "White space between the parts of a pattern does not matter", "statement": "A clause with a pattern that is accepted is accepted with any other white space between its parts.", "quantifier": "all patterns, all white space", "why_tests_cant": "every place between two tokens of every pattern would have to be tried", "anchors": ["lib/src/parser.leg:706-710", "lib/src/parser.leg:712-791"]}
{"id": "C47", "title": "Giving up frees everything once", "statement": "When the parser gives up because an allocation fails, at whatever point of matching or of an action, everything that was allocated is freed, and nothing is freed twice or used after it was freed.", "quantifier": "all inputs, all sources, all statements parsed before, all points at which the grammar or an action may call abort_parse", "why_tests_cant": "the points are the allocations of every parse of every input, and each leaves another arrangement of blocks, sequences and children", "anchors": ["lib/src/parser.c:519-520", "lib/src/parser.c:583-698", "lib/src/parser.c:729-791", "lib/src/parser.c:890-1069", "lib/src/parser.c:3081-3110"]}
{"id": "C48", "title": "Constructors and copies fail cleanly", "statement": "A constructor, a clone function and cypher_ast_clone either return a new node, and all that they allocated and did not free belongs to it, or return NULL, and what is allocated is what was allocated before; no pointer is freed twice or used unassigned or after it was freed.", "quantifier": "all types of nodes, all trees made by the parser, all ways in which allocations may fail and checks may reject", "why_tests_cant": "each allocation of each node of each tree would have to be made to fail in turn", "anchors": ["lib/src/ast.c:450-571", "lib/src/ast.c:888-918", "lib/src/ast_*.c: cypher_ast_x, clone, release"]}
{"id": "C49", "title": "No memory is lost on the way from the parser to the result", "statement": "cypher_parse returns NULL exactly if an allocation failed, and then nothing it allocated is left; otherwise the result has the errors, trees and directives of all segments in order, and freeing it frees everything that is left. Nothing is freed twice, used after it was freed or written through NULL, whichever allocations of parse, parse_each, cypher_parse_segment and cp_result_merge_segment fail.", "quantifier": "all inputs, sources and configurations, all sets of failing allocations", "why_tests_cant": "each allocation of each segment of each input would have to be made to fail in turn, and ownership is split between parser, segment and result differently at each", "anchors": ["lib/src/parser.c:583-726", "lib/src/segment.c:24-109", "lib/src/result.c:89-187", "lib/src/errors.c:55-64", "lib/src/errors.c:305-315", "lib/src/vector.c:63-83"]}
{"id": "C50", "title": "Colors only decorate", "statement": "The colorization given to the parser and to the functions that print trees changes nothing but the marks around the parts of messages and lines: parsing with colors reports what parsing without colors reports, with each message painted; printed trees consist of the same parts; and leaving out the ANSI escape sequences gives back the text without colors.", "quantifier": "all inputs, sources, configurations, colorizations and callbacks; all trees and widths", "why_tests_cant": "the colors enter the computation of buffer sizes and columns, for every input, message and tree", "anchors": ["lib/src/errors.c:130-290", "lib/src/parser_config.c:20-55", "lib/src/ast.c:649-881"]}
{"id": "C51", "title": "The quick parser divides texts as the parser does", "statement": "On a text that cypher_parse accepts without errors, cypher_quick_parse finds the same segments: as many, ending at the same positions (line, column and offset), with text exactly in those for which the parser gives a directive, and of the same kind, statement or client command.", "quantifier": "all texts without back quotes and parameters of the option CYPHER whose trees have no error nodes, with client commands, strings and comments; all sources and portions, both settings of the statements-only flag", "why_tests_cant": "two grammars that share nothing are compared on infinitely many nested texts; strings may contain semicolons, quotes of the other kind and anything that looks like a comment", "anchors": ["lib/src/quick_parser.leg:16-60", "lib/src/quick_parser.c:120-260", "lib/src/parser.leg:17-60", "lib/src/parser.leg:799-830", "lib/src/parser.c:583-698"]}
{"id": "C52", "title": "Text that is skipped is reported", "statement": "If a segment given to the callback has an error node in one of its trees, that is, if the parser skipped text, the segment has at least one error.", "quantifier": "all inputs, sources, configurations, flags and callbacks; the first segment (false for later ones)", "why_tests_cant": "the error is made of what any of the alternatives tried before expected, at the position furthest into the text; that there is something, and that nothing noted earlier hides it, depends on all rules and all inputs", "anchors": ["lib/src/parser.leg:28-46", "lib/src/parser.leg:146-149", "lib/src/parser.leg:1066-1095", "lib/src/parser.leg:1128", "lib/src/errors.c:75-125", "lib/src/errors.h:61-64"]}
