{
 "claims": [
  {
   "property": "C01",
   "status": "partial",
   "theorems": [
    "Verif.vector_refines_list",
    "Verif.vector_push_oom_faults"
   ],
   "note": "All operation histories refine lists when allocation succeeds; the out-of-memory path of push is shown to fault (the code tests the wrong variable)."
  },
  {
   "property": "C02",
   "status": "proved",
   "theorems": [
    "Verif.string_buffer_concat",
    "Verif.string_buffer_spare",
    "Verif.string_buffer_oom"
   ],
   "note": "All append histories, arbitrary capacities, including failed allocation."
  },
  {
   "property": "C03",
   "status": "partial",
   "theorems": [
    "Verif.instanceof_spec_partial",
    "Verif.instanceof_comment_always_false",
    "Verif.typestr_spec"
   ],
   "note": "True for all types but `comment`, which is missing from the type table; negation proved for it."
  },
  {
   "property": "C04",
   "status": "proved",
   "theorems": [
    "Verif.ordinals_preorder"
   ],
   "note": ""
  },
  {
   "property": "C05",
   "status": "partial",
   "theorems": [
    "Verif.annotations_refine_map",
    "Verif.annMap_attach_lookup",
    "Verif.release_handler_node_is_null"
   ],
   "note": "Refinement to a finite map for all histories; the release handler is passed NULL instead of the node (negation proved)."
  },
  {
   "property": "C06",
   "status": "partial",
   "theorems": [
    "Verif.error_furthest_partial",
    "Verif.error_furthest_no_clear",
    "Verif.clear_potentials_stale"
   ],
   "note": "Furthest failure and label set for all histories of notes; clear_potentials leaves the last position (negation proved)."
  },
  {
   "property": "C07",
   "status": "proved",
   "theorems": [
    "Verif.error_message_complete",
    "Verif.chardesc_eq"
   ],
   "note": ""
  },
  {
   "property": "C08",
   "status": "partial",
   "theorems": [
    "Verif.line_context_spec",
    "Verif.line_context_short",
    "Verif.line_context_spurious_dots",
    "Verif.line_context_offset_outside"
   ],
   "note": "Shape of the context for all inputs; two deviations from the documented shape proved."
  },
  {
   "property": "C09",
   "status": "proved",
   "theorems": [
    "Verif.result_is_concatenation"
   ],
   "note": ""
  },
  {
   "property": "C10",
   "status": "proved",
   "theorems": [
    "Verif.segment_lifetime",
    "Verif.merge_hands_over"
   ],
   "note": ""
  },
  {
   "property": "C11",
   "status": "proved",
   "theorems": [
    "Verif.accessors_total"
   ],
   "note": ""
  },
  {
   "property": "C12",
   "status": "partial",
   "theorems": [
    "Verif.clone_faithful_partial",
    "Verif.clone_returns_iff",
    "Verif.clone_return_fails",
    "Verif.clone_stuck",
    "Verif.clone_loses_fields",
    "Verif.clone_reads_beyond",
    "Verif.clone_truncates",
    "Verif.clone_drops",
    "Verif.keeps_optional"
   ],
   "note": "The code violates the property: child_index never advances, so a clone returns only for trees in which each looked-up field is the first child (clone_returns_iff, exact), and then some fields are lost. Witnesses are parses. clone_faithful_partial: with any correct child_index, copies are faithful except for the node kinds with inverted tests, dropped relationship constraints and texts with NUL."
  },
  {
   "property": "C13",
   "status": "partial",
   "theorems": [
    "Verif.snprintf_realloc_complete_partial",
    "Verif.snprintf_realloc_truncates"
   ],
   "note": "Complete unless the needed width equals the capacity, where the last byte is lost (negation proved)."
  },
  {
   "property": "C14",
   "status": "proved",
   "theorems": [
    "Verif.quick_never_fails",
    "Verif.quick_terminates"
   ],
   "note": "Every byte string, every source delivering it, every callback; the end is reached by C15 (Tiles)."
  },
  {
   "property": "C15",
   "status": "proved",
   "theorems": [
    "Verif.quick_tiles"
   ],
   "note": "Tiles is a small recursive specification on offsets and text."
  },
  {
   "property": "C16",
   "status": "proved",
   "theorems": [
    "Verif.quick_terminator"
   ],
   "note": "Compared with a byte-by-byte scanner `live`; surrounding white space and comments by `Blank`."
  },
  {
   "property": "C17",
   "status": "proved",
   "theorems": [
    "Verif.quick_positions"
   ],
   "note": "Positions equal those got by counting newlines from the start of the input."
  },
  {
   "property": "C18",
   "status": "partial",
   "theorems": [
    "Verif.quick_chunk_independent",
    "Verif.portions_delivers",
    "Verif.stream_delivers",
    "Verif.cypher_chunk_independent_partial",
    "Verif.contexts_depend_on_chunks"
   ],
   "note": "Quick parser: every source delivering the same bytes gives the same segments. Main parser: everything but the context lines of errors is proved independent of the chunks (cypher_chunk_independent_partial); the context lines do depend on them, with a witness (contexts_depend_on_chunks)."
  },
  {
   "property": "C19",
   "status": "partial",
   "theorems": [
    "Verif.buffer_delivers_partial",
    "Verif.buffer_repeats",
    "Verif.buffer_loses_terminator"
   ],
   "note": "Proved up to 1024 bytes; beyond that the code repeats the beginning of the buffer, which is proved with a witness."
  },
  {
   "property": "C20",
   "status": "proved",
   "theorems": [
    "Verif.cypher_terminates"
   ],
   "note": "Every input, callback, configuration, flag and delivering source."
  },
  {
   "property": "C21",
   "status": "partial",
   "theorems": [
    "Verif.cypher_tiles_partial",
    "Verif.cypher_never_rejects"
   ],
   "note": "Tiling up to the two assertions of C24; never rejecting is unconditional."
  },
  {
   "property": "C22",
   "status": "partial",
   "theorems": [
    "Verif.cypher_eof_partial"
   ],
   "note": "Up to the two assertions of C24."
  },
  {
   "property": "C23",
   "status": "partial",
   "theorems": [
    "Verif.cypher_positions_partial",
    "Verif.newline_in_name"
   ],
   "note": "Proved for inputs without backquotes; false with a newline in a backquoted name (witness)."
  },
  {
   "property": "C24",
   "status": "partial",
   "theorems": [
    "Verif.cypher_no_crash_partial",
    "Verif.cypher_plain_ok",
    "Verif.comment_in_name_crashes",
    "Verif.comment_over_name_crashes"
   ],
   "note": "False: a comment inside a dotted name trips an assertion, and a newline in a backquoted name after an unfinished comment trips another (witnesses). Nothing else can; without a backquote and a comment nothing does."
  },
  {
   "property": "C25",
   "status": "proved",
   "theorems": [
    "Verif.cypher_well_typed"
   ],
   "note": "Of every parse that yields segments."
  },
  {
   "property": "C26",
   "status": "proved",
   "theorems": [
    "Verif.cypher_ranges_nest",
    "Verif.siblings_overlap"
   ],
   "note": "Of every parse that yields segments. siblings_overlap: the exception for siblings does occur (a projection without AS)."
  },
  {
   "property": "C27",
   "status": "proved",
   "theorems": [
    "Verif.cypher_operators",
    "Verif.good_levels",
    "Verif.good_unique",
    "Verif.levels_alone_fail",
    "Verif.not_between"
   ],
   "note": "Every operator node of every tree of every parse that yields segments is the operator expression written at its range, grouped as precedence and associativity ask wherever there is a choice (OpSpec.lean), and that grouping is unique for what is written. Where there is no choice an operand may bind less tightly: `a*NOT b=c` (witness levels_alone_fail)."
  },
  {
   "property": "C28",
   "status": "proved",
   "theorems": [
    "Verif.cypher_strings_found",
    "Verif.cypher_strings_round_trip"
   ],
   "note": "For every byte string, both quotes, every delivering source, in each of the statements of stringContexts (a finite table of surrounding texts; the general lemma Found.tree takes any other). The value is the bytes the constructor is given; cypher_ast_string_get_value is a C string, so a reader sees it up to the first NUL."
  },
  {
   "property": "C29",
   "status": "proved",
   "theorems": [
    "Verif.cypher_names_round_trip"
   ],
   "note": "For every byte string without a backquote, as identifier, alias, label, relationship type, property name and parameter, in each of the statements of nameContexts (a finite table of surrounding texts). NUL bytes as for C28."
  },
  {
   "property": "C30",
   "status": "proved",
   "theorems": [
    "Verif.cypher_ordinals",
    "Verif.ordinals_across_segments"
   ],
   "note": "Of every parse that yields segments."
  },
  {
   "property": "C31",
   "status": "proved",
   "theorems": [
    "Verif.quick_callback_protocol",
    "Verif.cypher_callback_protocol"
   ],
   "note": "Both parsers."
  },
  {
   "property": "C32",
   "status": "partial",
   "theorems": [
    "Verif.cypher_directive_partial",
    "Verif.errors_lost"
   ],
   "note": "The directive part is proved; the rest is false (witness: a non-empty segment without directive and without error)."
  },
  {
   "property": "C33",
   "status": "partial",
   "theorems": [
    "Verif.cypher_errors_partial",
    "Verif.error_beyond_segment"
   ],
   "note": "Order and bounds by the input are proved; within the segment is false (witness)."
  },
  {
   "property": "C34",
   "status": "proved",
   "theorems": [
    "Verif.cypher_shift"
   ],
   "note": "The initial position, ordinal and chunking only translate what is reported."
  },
  {
   "property": "C35",
   "status": "partial",
   "theorems": [
    "Verif.cost_exponential_partial",
    "Verif.nested_exponential",
    "Verif.not_polynomial",
    "Verif.firstCost_exists",
    "Verif.firstCost_unique"
   ],
   "note": "The property is false: parsing RETURN ((..(1)..)); with k opening parentheses applies at least 2^k rules (nested_exponential), so no polynomial bounds the cost (not_polynomial). What holds for every input is an exponential bound (cost_exponential_partial). Counted: rule applications of the first call of the generated parser, including those undone by backtracking."
  },
  {
   "property": "C36",
   "status": "proved",
   "theorems": [
    "Verif.stacks_balanced"
   ],
   "note": ""
  },
  {
   "property": "C37",
   "status": "partial",
   "theorems": [
    "Verif.Print.fprint_lines_partial",
    "Verif.Print.fprint_readable",
    "Verif.Print.escape_eq",
    "Verif.Print.fprint_undefined",
    "Verif.Print.fprint_loses_byte"
   ],
   "note": "For every tree, width and colouring: one line per node, parents first, with depth, ordinal, range, type and detail in columns, and (without wrapping) trees printed alike have the same nodes. The code violates the rest: for exactly the trees in which a column is all zeros it computes log10(0) (fprint_undefined), and a detail as long as the buffer loses a byte (fprint_loses_byte)."
  },
  {
   "property": "C38",
   "status": "proved",
   "theorems": [
    "Verif.cypher_case_insensitive",
    "Verif.escape_case_matters"
   ],
   "note": "Up to the text the input itself contributes (and error context); holds for inputs whose letters outside quotes and escapes differ in case; escape_case_matters shows why case inside string escapes is excluded."
  },
  {
   "property": "C39",
   "status": "proved",
   "theorems": [
    "Verif.cypher_texts",
    "Verif.cypher_texts_by_type"
   ],
   "note": "Of every node of every tree of every parse that yields segments; TextSpec.lean says on byte strings only what the texts should be."
  },
  {
   "property": "C40",
   "status": "partial",
   "theorems": [
    "Verif.Cypher.cypher_print_determines_partial",
    "Verif.Cypher.cypher_print_lines",
    "Verif.Cypher.shown_children",
    "Verif.Cypher.print_ambiguous",
    "Verif.Cypher.comment_alone_undefined"
   ],
   "note": "For any two segments of any two parses: printed alike (no colours, no wrapping), they agree in every node's depth, ordinal, range offsets, constructor with its flags, operators, the ordinals of each argument and of each element of its arrays, and its text up to escapes; ordinals are consecutive and those shown are of children. Missing: texts are told apart only up to escapes (print_ambiguous: the code prints a line end and backslash-n alike), and the segments C37 excludes (comment_alone_undefined: a lone comment at offset 0 reaches log10(0))."
  },
  {
   "property": "C41",
   "status": "partial",
   "theorems": [
    "Verif.Cypher.accessors_documented_partial",
    "Verif.Cypher.accessors_corrected",
    "Verif.Cypher.accessors_complete",
    "Verif.Cypher.accessors_misdocumented"
   ],
   "note": "accessors_documented_partial: as the header says, for all but 17 of the 230 functions. Missing: those 17, for which the header is wrong: accessors_misdocumented has a tree for each. accessors_corrected: all 230 with a corrected comment. accessors_complete: nothing in a node is hidden from them."
  },
  {
   "property": "C42",
   "status": "proved",
   "theorems": [
    "Verif.cypher_fields",
    "Verif.cypher_children_referred",
    "Verif.cypher_fields_order"
   ],
   "note": "Of every parse that yields segments. The one node that refers to a child twice is the range of one number (*2), as written in the grammar; cypher_fields_order is cypher_fields with the ranges of C26."
  },
  {
   "property": "C43",
   "status": "proved",
   "theorems": [
    "Verif.cypher_nodes_once",
    "Verif.cypher_release",
    "Verif.cypher_release_all",
    "Verif.cypher_free"
   ],
   "note": "For every parse that returns (no hypothesis on the input). Allocations succeed; annotations and the parser's own scratch memory are not part of this model."
  },
  {
   "property": "C44",
   "status": "proved",
   "theorems": [
    "Verif.Lint.lint_says",
    "Verif.Lint.lint_status",
    "Verif.Lint.lint_same",
    "Verif.Lint.lint_lists",
    "Verif.Lint.lint_ends",
    "Verif.Lint.lint_empty_undefined",
    "Verif.Lint.lint_newline_undefined",
    "Verif.Lint.lint_options"
   ],
   "note": "getopt_long has split the command line; writing and allocating succeed. The last two theorems show that printing with --ast is in fact undefined for an empty input, and with --stream for a statement followed by a newline."
  },
  {
   "property": "C45",
   "status": "proved",
   "theorems": [
    "Verif.Stmts.text_accepted",
    "Verif.Stmts.lint_accepts",
    "Verif.Exprs.expression_reads"
   ],
   "note": "Proved for the grammar of StmtSpec.lean and ExprSpec.lean, which is part of the statement: patterns and pattern comprehensions as operands, map projections, slices, labels as an operator, the CYPHER option, client commands, comments and quoted names are not in it, nor as names the fifteen words that have a meaning of their own at the beginning of an operand, nor parentheses around a single name."
  },
  {
   "property": "C46",
   "status": "partial",
   "theorems": [
    "Verif.Stmts.comma_rejected",
    "Verif.Stmts.pattern_blanks_partial"
   ],
   "note": "The code violates it: white space before a comma between the parts of a pattern is an error (comma_rejected). Without it all other white space is free (pattern_blanks_partial, and the grammar of C45)."
  },
  {
   "property": "C47",
   "status": "partial",
   "theorems": [
    "Verif.abort_undefined",
    "Verif.abort_repaired_partial",
    "Verif.sequence_abort_undefined",
    "Verif.merge_abort_undefined"
   ],
   "note": "The code violates it: every time the parser gives up, parse_each frees the outermost block after parse_one did (abort_undefined). With that repaired, everything is freed once (abort_repaired_partial) except when a node cannot be added to a sequence, or a child other than the first cannot be moved to the enclosing block (sequence_abort_undefined, merge_abort_undefined)."
  },
  {
   "property": "C48",
   "status": "partial",
   "theorems": [
    "Verif.Alloc.constructor_tidy_partial",
    "Verif.Alloc.constructor_leaks",
    "Verif.Alloc.clone_tidy_partial",
    "Verif.Alloc.clone_function_leaks",
    "Verif.Alloc.clone_tree_leaks",
    "Verif.Alloc.clone_then_free",
    "Verif.Alloc.clone_tree_repaired"
   ],
   "note": "The code violates it: cypher_ast_query, cypher_ast_call and cypher_ast_comparison leave the array of children behind (constructor_leaks), the clone functions of a query and of CALL an array (clone_function_leaks), and cypher_ast_clone one array for each node with children (clone_tree_leaks, clone_then_free). All other constructors and clone functions satisfy it; with these repaired, copying any tree does (clone_tree_repaired)."
  },
  {
   "property": "C49",
   "status": "partial",
   "theorems": [
    "Verif.Handover.parse_tidy_partial",
    "Verif.Handover.parse_undefined",
    "Verif.Handover.parse_repaired"
   ],
   "note": "The code violates it in two places: if there is no memory for the first element of line_start_offsets or of blocks, cp_vector_push writes through NULL; parse_undefined gives the exact condition. In all other cases it holds (parse_tidy_partial), and with cp_vector_push repaired it holds always (parse_repaired). Allocations inside of parse_one are C47 and C48."
  },
  {
   "property": "C50",
   "status": "proved",
   "theorems": [
    "Verif.colors_decorate",
    "Verif.ansi_colors_strip",
    "Verif.printed_colors",
    "Verif.printed_ansi_strip"
   ],
   "note": "The last one for trees that print no ESC without colors: details are printed as they are, so an escape sequence in a string of the input is printed too."
  },
  {
   "property": "C51",
   "status": "partial",
   "theorems": [
    "Verif.Stmts.quick_agrees_partial",
    "Verif.Stmts.quick_agrees_mixed",
    "Verif.Stmts.quick_agrees_whole",
    "Verif.Stmts.quick_agrees_unquoted",
    "Verif.Stmts.quick_splits_quoted_name",
    "Verif.Stmts.quick_splits_option_value",
    "Verif.Stmts.quick_joins_open_string",
    "Verif.Stmts.quick_joins_skipped_comment"
   ],
   "note": "For all texts without back quotes, with the same statements-only flag of the two parsers: if no tree has an error node or a parameter of the option CYPHER, the segments end at the same positions, those without text are those without a directive, and the others are statements and client commands alike (quick_agrees_mixed; strings and comments included, and what looks like the start of a comment that has no end). If there is no client command among the trees, the flags may differ (quick_agrees_whole). The ends agree also with errors, for texts without quotes, backslashes, comments and the word CYPHER, with the statements-only flag of both parsers set (quick_agrees_unquoted). For texts of the grammar of C45 nothing is assumed of the trees (quick_agrees_partial). False for back quotes, for parameters of the option CYPHER, and for texts with errors and strings or comments (witnesses). Not covered: texts outside these classes for which it happens to hold. The hypothesis is about error nodes in the trees, not about the list of errors: skipped text may go unreported (C52)."
  },
  {
   "property": "C52",
   "status": "partial",
   "theorems": [
    "Verif.Stmts.skipped_reported_partial",
    "Verif.Stmts.skipped_reported_single",
    "Verif.Stmts.skipped_unreported"
   ],
   "note": "For the first segment of every run, and so for every run with CYPHER_PARSE_SINGLE. False for later segments (skipped_unreported). Missing: a description of the later segments for which it holds."
  }
 ]
}