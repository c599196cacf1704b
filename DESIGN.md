# Formal model of libcypher-parser (Lean 4)

Source of truth: `/repo` (C, read as text only; nothing was built or run).  Model and proofs:
`/verif/lean`.  Properties: `properties.jsonl`; which theorem stands for which: `MANIFEST.json`.

## Layout

| Lean module | models |
|---|---|
| `Data/Vector`, `Data/StringBuffer`, `Data/Util` | `vector.[ch]`, `string_buffer.[ch]`, `util.c` (`snprintf_realloc`, `line_context` is in `Data/Errors`) |
| `Data/Errors` | `errors.[ch]`: potential errors, reports, context lines |
| `Data/Annotation` | `annotation.c`: both linked lists over a heap |
| `Data/AstType`, `Data/Ast` | type table, `instanceof`, ordinals, generic tree functions of `ast.c` |
| `Data/Segment` | `segment.c`, `result.c`: reference counts, merging, accessors |
| `Peg/*` | what `leg` generates: rules, backtracking, thunks, predicates, input buffer |
| `Quick/Grammar`, `Quick/Parser` | `quick_parser.leg` (21 rules), `quick_parser.c` |
| `Cypher/Grammar` | `parser.leg`, all 262 rules, with every action and predicate |
| `Cypher/Host` | inline predicates of `parser.c` (errors, precedences, line starts) |
| `Cypher/Machine` | the deferred actions: blocks, builders, string buffer, constructors' checks |
| `Cypher/Parser` | `parse_each`, `parse_one` |
| `Data/Print` | `cypher_ast_fprint`, `cypher_ast_fprintv`: buffers, column widths, escaping, wrapping |
| `Cypher/Access` | the 230 functions that read nodes (`cypher_ast_*_get_*`, `_n*`, `_is_*`, `_has_*`), as a table of the type required and the kind of body, and the fields of each structure |
| `Cypher/Detail` | the `detailstr` functions of all nodes, `cypher_ast_set_ordinals`, `cypher_parse_segment_fprint_ast` |
| `Cypher/Clone` | `cypher_ast_clone`, `child_index`, the `clone` functions of all nodes |
| `Cypher/Memory` | what is allocated for nodes and segments; `cypher_ast_free`, `cypher_astnode_free`, the `release` functions, `cypher_parse_segment_release` of the last reference |
| `Cypher/Abort` | what is allocated for blocks and their children at each point at which the parser may give up, and what is freed then: `abort_parse`, the failure path of `parse_one`, `cleanup` of `parse_each`, `_sequence_add`, `block_merge_action`, `add_terminal` |
| `Cypher/Handover` | `parse`, `parse_each` around `parse_one`, `cypher_parse_segment`, `cp_result_merge_segment`, the release of segments and results: what each owns when allocations fail |
| `Cypher/AllocCmd`, `AllocTable`, `AllocChk`, `Alloc` | what the constructors and clone functions allocate and free when allocations may fail: a table of programs generated by `tools/gen_alloc.py`, and `cypher_ast_clone`, `cypher_ast_vclone`, `cypher_ast_free` over it |
| `Lint/Lint` | `linter/src/cypher-lint.c`: options, operands, both ways of parsing, all that is written |
| `Props/*` | the property theorems, one file per group, with independent specifications |

The grammars are generated from the `.leg` files by `tools/gen_quick.py`, `tools/gen_cypher.py`
(parser in `tools/leg.py`); the output is committed and each rule cites its lines. The tables
(`Cypher/Tables`, `Cypher/AbsTable`) are computed by `tools/*.lean.txt` and checked in the kernel,
so the tools need not be trusted.

## Trusted base

* Lean 4.33 kernel; the only axioms used are `propext`, `Classical.choice`, `Quot.sound`.
  `decide +kernel` is used on finite tables (kernel evaluation; no compiler is trusted).
* That the Lean definitions transcribe the cited C lines. Every definition cites file and lines.
* The semantics of `leg` output.  `leg` is not part of `/repo`; the model in `Verif/Peg`
  is written from knowledge of peg/leg 0.1.x: rule functions save/restore `__pos` and
  `__thunkpos`; ordered choice restores before each later alternative; `&e`/`!e` restore;
  `~{..}` binds to the element before it and runs inline at the failing position; `&{..}` runs
  inline; `{..}` is deferred and run by `yyDone` after success; `$$` is one global; variables live
  in frames pushed by `yyPush`; `yymatchString` leaves `__pos` advanced when input ends inside
  the literal (the caller restores it); `yyrefill` appends to the buffer when `__pos` reaches
  `__limit`.
* Memory allocation always succeeds (out-of-memory paths are not modelled unless said so, i.e. in `Abort`, `Alloc*`, `Handover`, `Vector`, `StringBuffer`);
  `unsigned int`/`size_t` arithmetic does not wrap (naturals), i.e. inputs < 2^31 bytes;
  C stack depth is unbounded.

Not modelled: `getopt_long` and the Windows parts of `cypher-lint`, file descriptors and `FILE` I/O (a stream is the
list of its bytes). Structures are not modelled byte by byte: a node keeps the arguments of its constructor
(`Node.args`, `Node.seq`).

## How the main results are proved

* **Running a grammar** (`Peg/Syntax`): `run` is a fuelled interpreter, `Eval` its big-step relation.
  `Peg/Analysis`: a rank on rules certifies absence of left recursion and unproductive loops, from
  which termination follows for every input. `Called` and `Keep` lift checks of single rules to whole
  runs; `Lines` gives an invariant on the stack of line starts under backtracking.
* **Cost** (`Peg/Cost`, `Peg/CostBound`, `Cypher/Cost`): `Cost` is `Eval` with the number of rules
  applied. The rank that shows termination also gives an exponential upper bound. The lower bound
  for nested parentheses follows from what each rule can match first (`Reach`, `may`).
* **Reading** (`Peg/Reader`): `Delivers S src w` says that a source hands over exactly `w`, in any
  portions. Everything about parsers is proved for every delivering source.
* **Quick parser**: compared with a one-pass scanner (`live`) that decides which bytes are code.
* **Main parser, matching** (`Cypher/Tables`, `Stack`, `Match`): matching terminates, the start
  rules never fail, each call makes progress or ends; precedence and operator stacks are balanced.
* **Main parser, actions** (`Typing`, `Abs*`): an abstract interpretation of the deferred actions,
  whose abstract states say which variables are set, with nodes of which type, what the open block
  holds and what the sequence consists of. Each rule has a summary (checked in the kernel); soundness
  against the machine is proved once. This excludes every crash but two (findings 24 and 39).
* **Ending, Nesting**: where blocks start and stop; ranges of children lie in those of parents, siblings follow each
  other (`Follows`; `siblings_overlap` shows why that is not disjointness).
* **Fields\***: a second abstract interpretation of the actions. It describes the nodes of each open block, comments and
  errors apart, as a list of variables (`Held`: `$$`, a variable, or "what is in the sequence"), so that a builder's
  arguments can be compared with the block it takes (`Hold.fits`). `holdT` says of each rule what it adds to the block it
  is called in; it is checked in the kernel, and `ftr_sound` is proved once by induction on matching.
* **Skeleton, Leaf, LeafRules, Leaves** (texts): `Sk` is matching without a reader and without results
  of predicates other than the precedence checks; each rule that makes a named or literal node is inverted
  (`*_inv`) to say which bytes it spans and what its actions leave in the string buffer; a flag analysis
  over the other rules shows that they keep buffer and block texts as needed. The specification
  (`TextSpec`) speaks of byte strings only.
* **Height, Op\*** (operators): `OpSpec` gives levels, associativity and spelling of operators and says when
  a node is the operator expression written between two positions (`Is`) and when its tree is the one
  precedence and associativity ask for (`Tree.Good`, which compares operators along the edges of operands,
  so prefix operators deep in a left operand count). The precedence stack is only a level passed down
  (`OpSim`: matching sees no more of it than its top); `OpStop` shows that where an operand of some level ends
  no operator of that level can go on; `OpStep`, `OpLoop`, `OpMain` follow `_expression` and its actions. A
  chain of comparisons is continued as long as it can be. `OpUnique`: tokens determine the good tree.
* **Step, Loop**: one call of `parse_one`, then the whole of `parse_each` as a `Session`.
* **Twin, Related, Pair**: a relational interpretation of two runs on related inputs; it gives chunk
  independence, translation invariance, case insensitivity and that colors only decorate (`Colors`).
* **Template, Shape, Fill, Pieces** (round trips): the parser is run on a text with a hole, of which only the
  first byte and the rule that reads it are known (`Tmpl.run`, `Tmpl.exec`; a run that needs to know more
  gives nothing). If a piece is read whole by that rule (`Piece.Ok`, `Piece.Runs`), the parse of the text with
  the piece in the hole gives the same tree, with the piece's text where the hole's was (`Tmpl.parse`).
  `Pieces` shows that every quoted string and backquoted name is such a piece. The texts around the hole
  are a finite table, run in the kernel; what is in the hole is arbitrary.
* **Clone**: a table says how the `clone` function of each node treats each of its fields. Given any correct
  `child_index` the copies are faithful but for certain nodes (`clone_faithful_partial`); with the actual one
  `clone_returns_iff` says exactly for which trees there is a copy.
* **Print**: a `detailstr` function is a list of buffer writes (`W`); running them with any capacity is compared
  with their text. `Line` says what a line must look like, column by column; `fprint_readable` that lines can be
  read back.
* **Detail\***: a table gives the steps of each `detailstr`. A detail is a list of items (`Item`: literal bytes, an
  ordinal, an optional ordinal, a sequence); `ok` is a decidable condition on item lists under which bytes determine
  what was filled in (`items_agree`), checked in the kernel for each kind of node; comparisons, operators, ranges and
  texts are treated separately (`DetailFind`). `Props/Detail` lifts this to trees and parses.
* **Access\***: `documented` is the header, function by function; `Doc.Meets` says what each kind of comment means. A
  finite check (`chk_all`) of every function against every constructor is lifted by `WellTyped`. `AccessAll` shows in the
  same way that no field is out of reach.
* **Memory**: an allocation is named by the constructor call (or segment) it was made for. `Grown` says that every action
  keeps all nodes that are in the machine and adds those it makes, so the trees contain every node made, once
  (`cypher_nodes_once`); given that, the recursive `free` takes each allocation once (`vFree_ok`). `Abort` adds the
  blocks and the points at which an allocation may fail; the arrays of the vectors and `strbuf`, which have one owner
  each and are freed in one place, are not modelled. `Handover` follows what is owned by the parser, a segment and the
  result (`Own`: what is allocated is a permutation of what is owned, without repetition), for all allocations that may
  fail between calls of `parse_one`.
* **Alloc**: each constructor and clone function is a list of commands; `chk` follows what is known of its pointers, and
  `chk_sound` says that a program that passes is tidy for all answers of the environment. The table is checked as a
  whole; `exec_same` compares the code with the repaired functions where they succeed.
* **Lint**: `Says` is what must be reported, from the segments of the inputs alone. The callback that prints
  (`callback`) is compared with one that records (`eachLoop_fold`), the merged result with the concatenation (C09).
* **Complete**: `ExprSpec`, `StmtSpec` are the grammar of texts. A place in a text is described by tiles (`Window`: a byte
  of a set, a run of such bytes, white space, something unknown but for its first byte, the end); `Win.run` matches a rule
  against tiles and facts about other rules, so one evaluation in the kernel speaks for all texts that fit
  (`Win.eats`, `Win.shuns`). `Hush` is matching without a report, so a text read this way has no errors. `ExprMatch` reads
  expressions by induction on their length, following the precedence stack; `ExprParts` reads operands made of
  several pieces (CASE, comprehensions, calls) from the assumption that the expressions in them are read; `StmtMatch`, `StmtUpdate`, `StmtSchema` and `StmtClauses` compose clauses (`Takes`: given that
  what follows begins with one of some words, the rule reads this list of pieces), `PatMatch` patterns (`Halts`: the same
  but for the white space at the end). `Script` goes from a quiet match of
  each segment to what `parse_each` delivers, and where (`Cut`). `Tame` follows the scan of the quick parser (`live`) over
  the same pieces, so `Agree` can compare the two parsers.
* **Clear**: the same comparison for texts that are not described by a grammar. `Pass` says that the scan of the quick parser
  goes from one place of the text to another; a check of rules (`chk`, in the presence of comments `look` in `Notes`) says
  that what a rule matches is passed over, except for a last semicolon, and is evaluated for each rule of the grammar. `offs`
  finds the rules after which no comment to the end of the line begins, and `edge` that no expression begins with a star, so
  that the slash of a division is not taken for a comment of either kind. `ClearLoop` shows that
  nodes are never lost, so if the trees have no error nodes, no rule that skips text has matched (`exec_sane`). `Front`
  compares the white space of the two grammars (`Same`), which decides whether a segment has text,
  and finds that no statement begins with a colon (`edge` again), so none is taken for a client command. `Commands` compares the
  client commands of the two grammars, piece by piece (`Goes`), and `CommandResult` shows that one is made the result.
  `Blame` shows the converse of `exec_sane` and that `_error_`, which precedes all skipping, finds something to report (C52).

## Findings

Places where the code does not do what its documentation or the property says. "Proved" names the
theorem with the witness.

1. `source_from_buffer` (parser.c:70-81, quick_parser.c:44-55) never advances its pointer: inputs over 1024
   bytes are misread. Proved: `buffer_repeats`, `buffer_loses_terminator`. Its `min` is on mixed types.
2. `cp_vector_push` tests the wrong pointer after `realloc`. Proved: `vector_push_oom_faults`, and for `cypher_parse`
   `parse_undefined`.
3. `child_index` (astnode.h:125-133) never increments its index, so it loops forever unless the node is the
   first child. Clone functions use it. Proved: `clone_stuck`, and in general `clone_returns_iff`,
   `clone_return_fails`.
4. `REQUIRE_CONTAINS_ALL` (astnode.h:96-103) starts at the end: containment is never checked (modelled
   in `childAll`).
5. The release handler of an annotation gets NULL for the node. Proved: `release_handler_node_is_null`.
6. `snprintf_realloc` and `detailstr` lose the last byte when the width equals the capacity. Proved:
   `snprintf_realloc_truncates`, `fprint_loses_byte`.
7. `cypher_ast_fprint` computes `log10(0)` for a column of zeros, e.g. for no trees at all, and converts the result
   to an integer. Proved: `fprint_undefined` (an exact condition, with `fprint_lines_partial`), and reachable from
   input: `comment_alone_undefined`. It does not escape backslashes (`print_ambiguous`), and the last part of a wrapped detail may be one byte too long.
8. `line_context` puts dots where nothing was cut and accepts offsets outside. Proved:
   `line_context_spurious_dots`, `line_context_offset_outside`.
9. `CYPHER_AST_COMMENT` is missing from the type table, so nothing is an instance of it. Proved:
   `instanceof_comment_always_false`.
10. `cp_et_clear_potentials` leaves `last_position`, so later expectations may be dropped. Proved:
    `clear_potentials_stale`, and reachable from input: `errors_lost`.
11. The clone functions of `ast_case.c` and `ast_map.c` read beyond their arrays. Proved: `clone_reads_beyond`.
12. Inverted NULL tests in clones: ast_none.c:102, ast_pattern_comprehension.c:95, ast_return.c:118,120,
    ast_start.c:101, ast_with.c:120,122. Proved: `clone_loses_fields`, and for every tree `clone_drops`.
13. The clone of `ast_drop_rel_prop_constraint.c` calls the constructor for nodes.
14. `ast_merge.c` detailstr copies eight of the ten bytes of `, actions=` (it prints `, action[@6]`). Shown by an
    example in `Props/Detail`.
15. Several `detailstr` differ in whether the terminating NUL is counted.
16. `cypher_ast_clone` never frees the array of the copies. Proved: `clone_tree_leaks`, `clone_then_free`. When an
    allocation fails, `cypher_ast_query`, `cypher_ast_call` and `cypher_ast_comparison` lose the array of children, and
    the clone functions of the first two another array. Proved: `constructor_leaks`, `clone_function_leaks`.
17. The failure path of `parse_one` frees the top block, which `parse_each` frees again. The start rules never fail
    (`cypher_never_rejects`), but every failed allocation takes this path (`abort_parse`). Proved: `abort_undefined`.
18. Clones of strings stop at a NUL byte. Proved: `clone_truncates`.
19. Newlines inside backquoted names are not counted. Proved: `newline_in_name`.
20. `_sequence_add` frees a node that cannot be added, but the node is still a child of a block; `block_merge_action`
    leaves the children already moved in both blocks if moving one fails. Proved: `sequence_abort_undefined`,
    `merge_abort_undefined`.
21. `yymatchString` at the end of input leaves the position advanced (harmless, callers restore).
22. `*last` is not set when nothing is consumed.
23. `%d` is used for `unsigned int`.
24. A comment inside a dotted name (`a./**/b`) fails the assertion in `add_terminal`
    (parser.c:3085). Proved: `comment_in_name_crashes`; with assertions disabled children are lost.
25. A comment inside a parameter, label or relationship type overlaps the node after it.
26. `_expression` parses its atom twice per level of nesting, so parsing takes exponential time.
    Proved: `nested_exponential`, `not_polynomial`.
27. The alias of an unnamed projection includes comments; the quick parser does not know backquotes.
28. `skip-to-directive` is followed by `_directive` without white space.
29. `cypher_parse_segment_get_root` is declared but `segment.c` defines another name.
30. An error may lie beyond its segment. Proved: `error_beyond_segment`.
31. A NUL byte is reported as the end of input.
32. The context line of an error ends where the buffer ends, so it depends on how the input arrived. Proved:
    `contexts_depend_on_chunks`.
33. `isspace` is called on negative `char`s.
34. `cypher_ast_with` does not check its predicate; `cypher_ast_case` checks half of its types.
35. The `i` of `REQUIRE_CONTAINS` hides the loop variable in ast_pattern_path.c:79 (modelled).
36. `INFIX-OP` accepts `NOT` as a binary operator. Proved: `not_between`.
37. The header says SKIP and LIMIT are integers; any expression is accepted.
38. The header documents 17 accessors wrongly (`accessors_misdocumented`): `query_get_clause` and `start_get_point`
    (said to return a query option), `using_index_get_label` and `using_scan_get_label` (an identifier),
    `remove_get_item` (an expression), `order_by_get_item` (a set item), `rel_pattern_get_reltype` (a label),
    `range_get_start` and `range_get_end` (a range), `with_get_skip`, `with_get_limit`, `return_get_skip` and
    `return_get_limit` (an integer; any expression is possible), `case_get_expression` (not null, but it may be), and
    `match_get_predicate`, `merge_get_action` and `foreach_get_clause` (types that do not exist).
39. The debug assertion of `cp_et_note_potential_error` (errors.c:97) fails: a newline in a backquoted name
    is not counted, unless the name is read as part of an unfinished comment. Proved:
    `comment_over_name_crashes`.
40. `cypher-lint -a` of an empty input, and `cypher-lint -a --stream` of an input that ends with a newline after its last
    statement, print no trees at all, which is undefined (finding 7). Proved: `lint_empty_undefined`,
    `lint_newline_undefined`. By finding 10 it may also return 0 for input that is wrong. The result of `process` for
    `-` is not tested for -1, unlike that for files (cypher-lint.c:228, 240).
41. `pattern` (parser.leg:706-710) accepts no white space before a comma: `MATCH (a) , (b)` is an error. Proved:
    `comma_rejected`.
42. The quick parser does not know names in back quotes and splits ``RETURN `a;b` ``, which is one statement. Proved:
    `quick_splits_quoted_name`. The text of a statement that ends with the input keeps the white space at its end, though
    before a semicolon it is left out (example in `Props/Agree`).
43. `cypher-param-val` (parser.leg:74) is anything up to white space, with semicolons and quotes, so the quick parser splits
    `CYPHER a=b;c RETURN 1`, which is one statement without errors. Proved: `quick_splits_option_value`. Where the parser
    skips text after an error it knows neither strings nor comments, the quick parser does: it joins `RETURN 'a; RETURN 1`
    and `foo /* a; */ RETURN 2`, of which the parser makes two segments. Proved: `quick_joins_open_string`,
    `quick_joins_skipped_comment`.
44. Text can be skipped without an error. `cp_et_clear_potentials` (errors.h:61-64) forgets what was expected but not
    where (`last_position`), so if a statement was tried as something that reaches further than its end, what is expected
    before that point in the next statements is ignored (errors.c:79-83), and `record_error` finds nothing to report. In
    `CYPHER a=/*b RETURN 1; foo` the value is tried as a comment first, and ` foo` is skipped: the second segment has an
    error node and no error, so `cypher_parse_result_nerrors` is 0. Proved: `skipped_unreported`. The first segment of a
    run has no such past: `skipped_reported_partial`.
