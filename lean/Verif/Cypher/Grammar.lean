import Verif.Peg.Syntax
import Verif.Data.Errors
/-!
# The parser's grammar (`lib/src/parser.leg`)

Generated by `tools/gen_cypher.py` from the grammar file; each rule cites its lines.
-/
namespace Verif.Cypher
open Verif.Peg

/-- The operators (operators.c). -/
inductive Op where
  | or
  | xor
  | and
  | not
  | equal
  | nequal
  | lt
  | gt
  | lte
  | gte
  | plus
  | minus
  | mult
  | div
  | mod
  | pow
  | unaryPlus
  | unaryMinus
  | regex
  | in_
  | startsWith
  | endsWith
  | contains
  | isNull
  | isNotNull
  | mapProjection
  | subscript
  | property
  | label
  deriving DecidableEq, Repr

/-- `enum associativity` (operators.h:23-28). -/
inductive Assoc where | left | right | unary
  deriving DecidableEq, Repr

/-- `precedence` of each operator (operators.c, lines as cited). -/
def Op.prec : Op → Nat
  | .or => 1  -- 24
  | .xor => 2  -- 29
  | .and => 3  -- 34
  | .not => 4  -- 39
  | .equal => 5  -- 44
  | .nequal => 5  -- 48
  | .lt => 6  -- 53
  | .gt => 6  -- 57
  | .lte => 6  -- 61
  | .gte => 6  -- 65
  | .plus => 7  -- 70
  | .minus => 7  -- 74
  | .mult => 8  -- 79
  | .div => 8  -- 83
  | .mod => 8  -- 87
  | .pow => 9  -- 92
  | .unaryPlus => 10  -- 97
  | .unaryMinus => 10  -- 101
  | .regex => 11  -- 106
  | .in_ => 11  -- 110
  | .startsWith => 11  -- 114
  | .endsWith => 11  -- 118
  | .contains => 11  -- 122
  | .isNull => 11  -- 126
  | .isNotNull => 11  -- 130
  | .mapProjection => 12  -- 135
  | .subscript => 12  -- 139
  | .property => 13  -- 144
  | .label => 13  -- 148

/-- `associativity` of each operator (operators.c, same lines). -/
def Op.assoc : Op → Assoc
  | .or => .left
  | .xor => .left
  | .and => .left
  | .not => .unary
  | .equal => .left
  | .nequal => .left
  | .lt => .left
  | .gt => .left
  | .lte => .left
  | .gte => .left
  | .plus => .left
  | .minus => .left
  | .mult => .left
  | .div => .left
  | .mod => .left
  | .pow => .right
  | .unaryPlus => .unary
  | .unaryMinus => .unary
  | .regex => .left
  | .in_ => .left
  | .startsWith => .left
  | .endsWith => .left
  | .contains => .left
  | .isNull => .unary
  | .isNotNull => .unary
  | .mapProjection => .left
  | .subscript => .left
  | .property => .left
  | .label => .left

/-- `str` of each operator (operators.c, same lines). -/
def Op.str : Op → String
  | .or => "OR"
  | .xor => "XOR"
  | .and => "AND"
  | .not => "NOT"
  | .equal => "="
  | .nequal => "<>"
  | .lt => "<"
  | .gt => ">"
  | .lte => "<="
  | .gte => ">="
  | .plus => "+"
  | .minus => "-"
  | .mult => "*"
  | .div => "/"
  | .mod => "%"
  | .pow => "^"
  | .unaryPlus => "+"
  | .unaryMinus => "-"
  | .regex => "=~"
  | .in_ => "IN"
  | .startsWith => "STARTS WITH"
  | .endsWith => "ENDS WITH"
  | .contains => "CONTAINS"
  | .isNull => "IS NULL"
  | .isNotNull => "IS NOT NULL"
  | .mapProjection => "{"
  | .subscript => "["
  | .property => "."
  | .label => ":"

/-- `enum cypher_rel_direction` (cypher-parser.h.in). -/
inductive Dir where | inbound | outbound | bidirectional
  deriving DecidableEq, Repr

/-- The functions of parser.c:1102-3078 that create AST nodes, with their arguments other than
nodes. -/
inductive Ctor where
  | statement
  | cypherOption
  | cypherOptionParam
  | explainOption
  | profileOption
  | createIndex
  | dropIndex
  | createNodePropConstraint (unique : Bool)
  | dropNodePropConstraint (unique : Bool)
  | createRelPropConstraint (unique : Bool)
  | dropRelPropConstraint (unique : Bool)
  | query
  | usingPeriodicCommit
  | loadCsv (withHeaders : Bool)
  | startClause
  | nodeIndexLookup
  | nodeIndexQuery
  | nodeIdLookup
  | allNodesScan
  | relIndexLookup
  | relIndexQuery
  | relIdLookup
  | allRelsScan
  | matchClause (optional : Bool)
  | usingIndex
  | usingJoin
  | usingScan
  | mergeClause
  | onMatch
  | onCreate
  | createClause (unique : Bool)
  | setClause
  | setProperty
  | setAllProperties
  | mergeProperties
  | setLabels
  | delete (detach : Bool)
  | removeClause
  | removeProperty
  | removeLabels
  | foreachClause
  | withClause (distinct : Bool) (includeExisting : Bool)
  | unwindClause
  | callClause
  | returnClause (distinct : Bool) (includeExisting : Bool)
  | projection
  | orderBy
  | sortItem (ascending : Bool)
  | unionClause (all : Bool)
  | unaryOperator
  | binaryOperator
  | comparisonOperator
  | applyOperator (distinct : Bool)
  | applyAllOperator (distinct : Bool)
  | propertyOperator
  | subscriptOperator
  | sliceOperator
  | mapProjection
  | mapProjectionLiteral
  | mapProjectionProperty
  | mapProjectionIdentifier
  | mapProjectionAllProperties
  | labelsOperator
  | listComprehension
  | patternComprehension
  | caseExpression
  | filter
  | extract
  | reduce
  | allPredicate
  | anyPredicate
  | singlePredicate
  | nonePredicate
  | collectionLiteral
  | mapLiteral
  | strbufIdentifier
  | blockIdentifier
  | strbufParameter
  | strbufInteger
  | strbufFloat
  | trueLiteral
  | falseLiteral
  | nullLiteral
  | strbufLabel
  | strbufReltype
  | strbufPropName
  | strbufFunctionName
  | strbufIndexName
  | strbufProcName
  | pattern
  | namedPath
  | shortestPath (single : Bool)
  | patternPath
  | nodePattern
  | relPattern (direction : Dir)
  | range
  | command
  | blockString
  | strbufString
  | lineComment
  | blockComment
  | skip
  deriving DecidableEq, Repr

/-- Inline predicates: the block directives `<`, `>`, `_block_start_`, .. (which record a thunk with
the position), `&{1}`, `&{0}`, `line_start`, `record_error`, `ERR(label)` (the label by number, see
`labelText`), and the operator precedence macros (parser.c:154-180). -/
inductive Pred where
  | blockStart | blockEnd | blockReplace | blockMerge
  | yes | no | lineStart | recordError
  | err (label : Nat)
  | op (o : Op)
  | precPushTop | precPush | precPop | precChk
  deriving DecidableEq, Repr

/-- Where an action stores a created node: `$$ = ..`, `v = ..`, or nowhere. -/
inductive Dst where | self | var (i : Nat) | discard
  deriving DecidableEq, Repr

/-- Deferred actions. Variables are numbered by first occurrence in their rule. -/
inductive Act where
  /-- the thunks recorded by the block directives -/
  | blockStart | blockEnd | blockReplace | blockMerge
  /-- `yy->eof = true` -/
  | eof
  /-- `yy->result = NULL`, `yy->result = v` -/
  | result (v : Option Nat)
  /-- `finished(yy)` -/
  | finished
  /-- `sequence_add(v); ..` -/
  | seqAdd (vs : List Nat)
  /-- `$$ = v` -/
  | copy (v : Nat)
  /-- `$$ = NULL` -/
  | null
  /-- `dst = constructor(args)`; `none` is `NULL` -/
  | build (dst : Dst) (c : Ctor) (args : List (Option Nat))
  /-- `if (!cypher_astnode_instanceof(e, CYPHER_AST_IDENTIFIER)) { i = block_identifier(); }` -/
  | aliasUnless (e i : Nat)
  /-- `strbuf_reset()`, `strbuf_append(c, 1)`, `strbuf_append_block()` -/
  | sbReset | sbAppend (c : UInt8) | sbAppendBlock
  /-- `op_push(o)` -/
  | opPush (o : Op)
  deriving DecidableEq, Repr

/-- Rule names (`-` is `r_ws`, `--` is `r_hws`). -/
inductive Rule where
  | r___entry_points
  | r_directive
  | r__directive
  | r___directive
  | r_statement
  | r__statement
  | r___statement
  | r_cypher_statement
  | r_statement_option
  | r_cypher_option
  | r_cypher_version
  | r_cypher_param
  | r_cypher_param_name
  | r_cypher_param_val
  | r_profile_option
  | r_explain_option
  | r_schema_command
  | r_create_index
  | r_create_constraint
  | r_drop_index
  | r_drop_constraint
  | r_query
  | r_query_hints
  | r_clauses
  | r__clauses
  | r_periodic_commit
  | r_clause
  | r_loadcsv_clause
  | r_start_clause
  | r_start_point
  | r_node_ids
  | r_match_clause
  | r_hint
  | r_merge_clause
  | r_merge_action
  | r_merge_action_set
  | r_create_clause
  | r_set_clause
  | r_set_item
  | r_delete_clause
  | r_remove_clause
  | r_remove_item
  | r_foreach_clause
  | r_with_clause
  | r_additional_with_projections
  | r_with_projection
  | r_unwind_clause
  | r_call_clause
  | r_proc_projection
  | r_return_clause
  | r_additional_return_projections
  | r_return_projection
  | r_order_by
  | r_sort_item
  | r_skip
  | r_limit
  | r_union_clause
  | r_expression
  | r__prec_expression
  | r__expression
  | r__atom
  | r_map_projection_element
  | r_atom
  | r_property_expression
  | r_PREFIX_OP
  | r_POSTFIX_OP
  | r_INFIX_OP
  | r_COMPARISON_OP
  | r_list_comprehension
  | r_pattern_comprehension
  | r_case_expression
  | r_case_alternative
  | r_case_default
  | r_filter_expression
  | r_extract_expression
  | r_reduce_expression
  | r_all_predicate
  | r_any_predicate
  | r_single_predicate
  | r_none_predicate
  | r_function_application
  | r_collection_literal
  | r_map_literal
  | r_identifier
  | r_string_literal
  | r_float_literal
  | r_integer_literal
  | r_true_literal
  | r_false_literal
  | r_null_literal
  | r_parameter
  | r_label
  | r_rel_type
  | r_rel_type_name
  | r_prop_name
  | r_function_name
  | r_index_name
  | r_proc_name
  | r_pattern
  | r_pattern_part
  | r_anon_pattern_part
  | r_shortest_path_pattern
  | r_pattern_path
  | r_pattern_expression
  | r_pattern_expression_path
  | r_node_pattern
  | r_relationship_pattern
  | r_rel_types
  | r_rel_varlength
  | r_pattern_properties
  | r_client_command
  | r_client_command_name
  | r_client_command_arg
  | r_client_arg_string
  | r_unquoted
  | r_quoted
  | r_single_quoted
  | r_double_quoted
  | r_escaped_char
  | r_symbolic_name
  | r_unescaped_symbolic_name
  | r_escaped_symbolic_name
  | r_parameter_name
  | r_float_string
  | r_integer_string
  | r_sym_start
  | r_sym_part
  | r_ws
  | r_hws
  | r_line_end
  | r_comment
  | r_line_comment
  | r_block_comment
  | r_WS
  | r_HWS
  | r_EOL
  | r_EOF
  | r_CYPHER
  | r_PROFILE
  | r_EXPLAIN
  | r_OR
  | r_XOR
  | r_AND
  | r_NOT
  | r_EQUAL
  | r_NEQUAL
  | r_PLUSEQUAL
  | r_LT
  | r_GT
  | r_LTE
  | r_GTE
  | r_PLUS
  | r_MINUS
  | r_MULT
  | r_DIV
  | r_MOD
  | r_POW
  | r_IN
  | r_REGEX
  | r_STARTS_WITH
  | r_ENDS_WITH
  | r_CONTAINS
  | r_IS_NULL
  | r_IS_NOT_NULL
  | r_DOT
  | r_DOT_STAR
  | r_COLON
  | r_SEMICOLON
  | r_COMMA
  | r_STAR
  | r_PIPE
  | r_DASH
  | r_LEFT_PAREN
  | r_RIGHT_PAREN
  | r_LEFT_SQ_PAREN
  | r_RIGHT_SQ_PAREN
  | r_LEFT_CURLY
  | r_RIGHT_CURLY
  | r_ELLIPSIS
  | r_LEFT_ARROW_HEAD
  | r_RIGHT_ARROW_HEAD
  | r_CREATE_CONSTRAINT_ON
  | r_CREATE_INDEX_ON
  | r_DROP_CONSTRAINT_ON
  | r_DROP_INDEX_ON
  | r_ASSERT
  | r_IS_UNIQUE
  | r_DROP
  | r_USING_PERIODIC_COMMIT
  | r_LOADCSV
  | r_START
  | r_MATCH
  | r_OPTIONAL_MATCH
  | r_UNWIND
  | r_MERGE
  | r_CREATE
  | r_CREATE_UNIQUE
  | r_SET
  | r_DELETE
  | r_DETACH_DELETE
  | r_REMOVE
  | r_FOREACH
  | r_WITH
  | r_CALL
  | r_RETURN
  | r_UNION
  | r_node
  | r_relationship
  | r_rel
  | r_USING_INDEX
  | r_USING_JOIN_ON
  | r_USING_SCAN
  | r_ON_MATCH
  | r_ON_CREATE
  | r_WHERE
  | r_AS
  | r_DISTINCT
  | r_YIELD
  | r_ORDER_BY
  | r_ASCENDING
  | r_ASC
  | r_DESCENDING
  | r_DESC
  | r_SKIP
  | r_LIMIT
  | r_CASE
  | r_WHEN
  | r_THEN
  | r_ELSE
  | r_END
  | r_FILTER
  | r_EXTRACT
  | r_REDUCE
  | r_ALL
  | r_ANY
  | r_SINGLE
  | r_NONE
  | r_WITH_HEADERS
  | r_FROM
  | r_FIELDTERMINATOR
  | r_TRUE
  | r_FALSE
  | r_NULL
  | r_SHORTESTPATH
  | r_ALLSHORTESTPATHS
  | r_WB
  | r_skip_to_directive
  | r_resync_directive
  | r_skip_to_statement
  | r_resync_statement
  | r_skip_to_clause
  | r_resync_clause
  | r__block_start_
  | r__block_end_
  | r__block_replace_
  | r__block_merge_
  | r__empty_
  | r__none_
  | r__null_
  | r__cut_
  | r__line_start_
  | r__error_
  deriving DecidableEq, Repr

/-- All rules. -/
def Rule.all : List Rule :=
    [.r___entry_points, .r_directive, .r__directive, .r___directive, .r_statement,
    .r__statement, .r___statement, .r_cypher_statement, .r_statement_option, .r_cypher_option,
    .r_cypher_version, .r_cypher_param, .r_cypher_param_name, .r_cypher_param_val,
    .r_profile_option, .r_explain_option, .r_schema_command, .r_create_index,
    .r_create_constraint, .r_drop_index, .r_drop_constraint, .r_query, .r_query_hints,
    .r_clauses, .r__clauses, .r_periodic_commit, .r_clause, .r_loadcsv_clause, .r_start_clause,
    .r_start_point, .r_node_ids, .r_match_clause, .r_hint, .r_merge_clause, .r_merge_action,
    .r_merge_action_set, .r_create_clause, .r_set_clause, .r_set_item, .r_delete_clause,
    .r_remove_clause, .r_remove_item, .r_foreach_clause, .r_with_clause,
    .r_additional_with_projections, .r_with_projection, .r_unwind_clause, .r_call_clause,
    .r_proc_projection, .r_return_clause, .r_additional_return_projections,
    .r_return_projection, .r_order_by, .r_sort_item, .r_skip, .r_limit, .r_union_clause,
    .r_expression, .r__prec_expression, .r__expression, .r__atom, .r_map_projection_element,
    .r_atom, .r_property_expression, .r_PREFIX_OP, .r_POSTFIX_OP, .r_INFIX_OP, .r_COMPARISON_OP,
    .r_list_comprehension, .r_pattern_comprehension, .r_case_expression, .r_case_alternative,
    .r_case_default, .r_filter_expression, .r_extract_expression, .r_reduce_expression,
    .r_all_predicate, .r_any_predicate, .r_single_predicate, .r_none_predicate,
    .r_function_application, .r_collection_literal, .r_map_literal, .r_identifier,
    .r_string_literal, .r_float_literal, .r_integer_literal, .r_true_literal, .r_false_literal,
    .r_null_literal, .r_parameter, .r_label, .r_rel_type, .r_rel_type_name, .r_prop_name,
    .r_function_name, .r_index_name, .r_proc_name, .r_pattern, .r_pattern_part,
    .r_anon_pattern_part, .r_shortest_path_pattern, .r_pattern_path, .r_pattern_expression,
    .r_pattern_expression_path, .r_node_pattern, .r_relationship_pattern, .r_rel_types,
    .r_rel_varlength, .r_pattern_properties, .r_client_command, .r_client_command_name,
    .r_client_command_arg, .r_client_arg_string, .r_unquoted, .r_quoted, .r_single_quoted,
    .r_double_quoted, .r_escaped_char, .r_symbolic_name, .r_unescaped_symbolic_name,
    .r_escaped_symbolic_name, .r_parameter_name, .r_float_string, .r_integer_string,
    .r_sym_start, .r_sym_part, .r_ws, .r_hws, .r_line_end, .r_comment, .r_line_comment,
    .r_block_comment, .r_WS, .r_HWS, .r_EOL, .r_EOF, .r_CYPHER, .r_PROFILE, .r_EXPLAIN, .r_OR,
    .r_XOR, .r_AND, .r_NOT, .r_EQUAL, .r_NEQUAL, .r_PLUSEQUAL, .r_LT, .r_GT, .r_LTE, .r_GTE,
    .r_PLUS, .r_MINUS, .r_MULT, .r_DIV, .r_MOD, .r_POW, .r_IN, .r_REGEX, .r_STARTS_WITH,
    .r_ENDS_WITH, .r_CONTAINS, .r_IS_NULL, .r_IS_NOT_NULL, .r_DOT, .r_DOT_STAR, .r_COLON,
    .r_SEMICOLON, .r_COMMA, .r_STAR, .r_PIPE, .r_DASH, .r_LEFT_PAREN, .r_RIGHT_PAREN,
    .r_LEFT_SQ_PAREN, .r_RIGHT_SQ_PAREN, .r_LEFT_CURLY, .r_RIGHT_CURLY, .r_ELLIPSIS,
    .r_LEFT_ARROW_HEAD, .r_RIGHT_ARROW_HEAD, .r_CREATE_CONSTRAINT_ON, .r_CREATE_INDEX_ON,
    .r_DROP_CONSTRAINT_ON, .r_DROP_INDEX_ON, .r_ASSERT, .r_IS_UNIQUE, .r_DROP,
    .r_USING_PERIODIC_COMMIT, .r_LOADCSV, .r_START, .r_MATCH, .r_OPTIONAL_MATCH, .r_UNWIND,
    .r_MERGE, .r_CREATE, .r_CREATE_UNIQUE, .r_SET, .r_DELETE, .r_DETACH_DELETE, .r_REMOVE,
    .r_FOREACH, .r_WITH, .r_CALL, .r_RETURN, .r_UNION, .r_node, .r_relationship, .r_rel,
    .r_USING_INDEX, .r_USING_JOIN_ON, .r_USING_SCAN, .r_ON_MATCH, .r_ON_CREATE, .r_WHERE, .r_AS,
    .r_DISTINCT, .r_YIELD, .r_ORDER_BY, .r_ASCENDING, .r_ASC, .r_DESCENDING, .r_DESC, .r_SKIP,
    .r_LIMIT, .r_CASE, .r_WHEN, .r_THEN, .r_ELSE, .r_END, .r_FILTER, .r_EXTRACT, .r_REDUCE,
    .r_ALL, .r_ANY, .r_SINGLE, .r_NONE, .r_WITH_HEADERS, .r_FROM, .r_FIELDTERMINATOR, .r_TRUE,
    .r_FALSE, .r_NULL, .r_SHORTESTPATH, .r_ALLSHORTESTPATHS, .r_WB, .r_skip_to_directive,
    .r_resync_directive, .r_skip_to_statement, .r_resync_statement, .r_skip_to_clause,
    .r_resync_clause, .r__block_start_, .r__block_end_, .r__block_replace_, .r__block_merge_,
    .r__empty_, .r__none_, .r__null_, .r__cut_, .r__line_start_, .r__error_]

theorem Rule.mem_all (r : Rule) : r ∈ Rule.all := by cases r <;> decide +kernel

abbrev E := Expr Rule Pred Act

/-- The texts of `ERR(..)` in order of first occurrence. -/
def labelText : Nat → List UInt8
  | 0 => ascii "a statement option"
  | 1 => ascii "a version number"
  | 2 => ascii "a schema command"
  | 3 => ascii "a query hint"
  | 4 => ascii "a clause"
  | 5 => ascii "SET"
  | 6 => ascii "an identifier"
  | 7 => ascii "\"...string...\""
  | 8 => ascii "a float"
  | 9 => ascii "an integer"
  | 10 => ascii "a parameter"
  | 11 => ascii "a label"
  | 12 => ascii "a relationship type"
  | 13 => ascii "a relationship type name"
  | 14 => ascii "a property name"
  | 15 => ascii "a function name"
  | 16 => ascii "an index name"
  | 17 => ascii "a procedure name"
  | 18 => ascii "a command name"
  | 19 => ascii "'"
  | 20 => ascii "\""
  | 21 => ascii "`"
  | 22 => ascii "*/"
  | 23 => ascii "CYPHER"
  | 24 => ascii "PROFILE"
  | 25 => ascii "EXPLAIN"
  | 26 => ascii "OR"
  | 27 => ascii "XOR"
  | 28 => ascii "AND"
  | 29 => ascii "NOT"
  | 30 => ascii "'='"
  | 31 => ascii "'<>'"
  | 32 => ascii "'+='"
  | 33 => ascii "'<'"
  | 34 => ascii "'>'"
  | 35 => ascii "'<='"
  | 36 => ascii "'>='"
  | 37 => ascii "'+'"
  | 38 => ascii "'-'"
  | 39 => ascii "'*'"
  | 40 => ascii "'/'"
  | 41 => ascii "'%'"
  | 42 => ascii "'^'"
  | 43 => ascii "IN"
  | 44 => ascii "'=~'"
  | 45 => ascii "STARTS WITH"
  | 46 => ascii "ENDS WITH"
  | 47 => ascii "CONTAINS"
  | 48 => ascii "IS NULL"
  | 49 => ascii "IS NOT NULL"
  | 50 => ascii "'.'"
  | 51 => ascii "'.*'"
  | 52 => ascii "':'"
  | 53 => ascii "';'"
  | 54 => ascii "','"
  | 55 => ascii "'|'"
  | 56 => ascii "'('"
  | 57 => ascii "')'"
  | 58 => ascii "'['"
  | 59 => ascii "']'"
  | 60 => ascii "'{'"
  | 61 => ascii "'}'"
  | 62 => ascii "'..'"
  | 63 => ascii "CREATE CONSTRAINT ON"
  | 64 => ascii "CREATE INDEX ON"
  | 65 => ascii "DROP CONSTRAINT ON"
  | 66 => ascii "DROP INDEX ON"
  | 67 => ascii "ASSERT"
  | 68 => ascii "IS UNIQUE"
  | 69 => ascii "USING PERIODIC COMMIT"
  | 70 => ascii "LOAD CSV"
  | 71 => ascii "START"
  | 72 => ascii "MATCH"
  | 73 => ascii "OPTIONAL MATCH"
  | 74 => ascii "UNWIND"
  | 75 => ascii "MERGE"
  | 76 => ascii "CREATE"
  | 77 => ascii "CREATE UNIQUE"
  | 78 => ascii "DELETE"
  | 79 => ascii "DETACH DELETE"
  | 80 => ascii "REMOVE"
  | 81 => ascii "FOREACH"
  | 82 => ascii "WITH"
  | 83 => ascii "CALL"
  | 84 => ascii "RETURN"
  | 85 => ascii "UNION"
  | 86 => ascii "node"
  | 87 => ascii "relatioinship"
  | 88 => ascii "rel"
  | 89 => ascii "USING INDEX"
  | 90 => ascii "USING JOIN ON"
  | 91 => ascii "USING SCAN"
  | 92 => ascii "ON MATCH"
  | 93 => ascii "ON CREATE"
  | 94 => ascii "WHERE"
  | 95 => ascii "AS"
  | 96 => ascii "DISTINCT"
  | 97 => ascii "YIELD"
  | 98 => ascii "ORDER BY"
  | 99 => ascii "ASCENDING"
  | 100 => ascii "ASC"
  | 101 => ascii "DESCENDING"
  | 102 => ascii "DESC"
  | 103 => ascii "SKIP"
  | 104 => ascii "LIMIT"
  | 105 => ascii "CASE"
  | 106 => ascii "WHEN"
  | 107 => ascii "THEN"
  | 108 => ascii "ELSE"
  | 109 => ascii "END"
  | 110 => ascii "FILTER"
  | 111 => ascii "EXTRACT"
  | 112 => ascii "REDUCE"
  | 113 => ascii "ALL"
  | 114 => ascii "ANY"
  | 115 => ascii "SINGLE"
  | 116 => ascii "NONE"
  | 117 => ascii "WITH HEADERS"
  | 118 => ascii "FROM"
  | 119 => ascii "FIELDTERMINATOR"
  | 120 => ascii "TRUE"
  | 121 => ascii "FALSE"
  | 122 => ascii "NULL"
  | 123 => ascii "shortestPath"
  | 124 => ascii "allShortestPaths"
  | _ => []

/-- `__entry_points` (parser.leg:26). -/
def r___entry_points : E :=
    .alt (.nt .r_directive none) (.nt .r_statement none)

/-- `directive` (parser.leg:29). -/
def r_directive : E :=
    .seq (.nt .r_ws none) (.nt .r__directive none)

/-- `_directive` (parser.leg:30-33). -/
def r__directive : E :=
    .alt (.seq (.nt .r___directive none) (.act .finished)) (.seq (.nt .r__error_ none) (.seq
    (.alt (.nt .r_EOF none) (.nt .r_skip_to_directive none)) (.nt .r__directive none)))

/-- `__directive` (parser.leg:34-39). Variables: d = 0. -/
def r___directive : E :=
    .alt (.seq (.nt .r_EOF none) (.act (.result none))) (.alt (.seq (.nt .r_SEMICOLON none)
    (.act (.result none))) (.alt (.seq (.nt .r_client_command (some 0)) (.act (.result (some
    0)))) (.seq (.nt .r_cypher_statement (some 0)) (.act (.result (some 0))))))

/-- `statement` (parser.leg:41). -/
def r_statement : E :=
    .seq (.nt .r_ws none) (.nt .r__statement none)

/-- `_statement` (parser.leg:42-45). -/
def r__statement : E :=
    .alt (.seq (.nt .r___statement none) (.act .finished)) (.seq (.nt .r__error_ none) (.seq
    (.alt (.nt .r_EOF none) (.nt .r_skip_to_statement none)) (.nt .r__statement none)))

/-- `__statement` (parser.leg:46-50). Variables: d = 0. -/
def r___statement : E :=
    .alt (.seq (.nt .r_EOF none) (.act (.result none))) (.alt (.seq (.nt .r_SEMICOLON none)
    (.act (.result none))) (.seq (.nt .r_cypher_statement (some 0)) (.act (.result (some 0)))))

/-- `cypher-statement` (parser.leg:57-58). Variables: b = 0. -/
def r_cypher_statement : E :=
    .seq (.pred .blockStart) (.seq (.star (.nt .r_statement_option none)) (.seq (.nt .r_ws none)
    (.seq (.alt (.nt .r_query (some 0)) (.nt .r_schema_command (some 0))) (.seq (.pred
    .blockEnd) (.act (.build .self .statement [some 0]))))))

/-- `statement-option` (parser.leg:59-62). Variables: o = 0. -/
def r_statement_option : E :=
    .seq (.onfail (.alt (.nt .r_cypher_option (some 0)) (.alt (.nt .r_profile_option (some 0))
    (.nt .r_explain_option (some 0)))) (.err 0)) (.seq (.nt .r_ws none) (.act (.seqAdd [0])))

/-- `cypher-option` (parser.leg:64-67). Variables: v = 0, p = 1. -/
def r_cypher_option : E :=
    .seq (.pred .blockStart) (.seq (.nt .r_CYPHER none) (.seq (.nt .r_ws none) (.seq (.alt (.nt
    .r_cypher_version (some 0)) (.nt .r__null_ (some 0))) (.seq (.star (.seq (.nt .r_ws none)
    (.seq (.nt .r_cypher_param (some 1)) (.act (.seqAdd [1]))))) (.seq (.pred .blockEnd) (.act
    (.build .self .cypherOption [some 0])))))))

/-- `cypher-version` (parser.leg:68-70). -/
def r_cypher_version : E :=
    .seq (.pred .blockStart) (.seq (.onfail (.seq (.plus (.one ⟨0x3ff000000000000⟩)) (.seq (.nt
    .r_DOT none) (.plus (.one ⟨0x3ff000000000000⟩)))) (.err 1)) (.seq (.pred .blockEnd) (.act
    (.build .self .blockString []))))

/-- `cypher-param` (parser.leg:71-72). Variables: n = 0, v = 1. -/
def r_cypher_param : E :=
    .seq (.pred .blockStart) (.seq (.nt .r_cypher_param_name (some 0)) (.seq (.nt .r_ws none)
    (.seq (.nt .r_EQUAL none) (.seq (.nt .r_ws none) (.seq (.nt .r_cypher_param_val (some 1))
    (.seq (.pred .blockEnd) (.act (.build .self .cypherOptionParam [some 0, some 1]))))))))

/-- `cypher-param-name` (parser.leg:73). -/
def r_cypher_param_name : E :=
    .seq (.pred .blockStart) (.seq (.plus (.one ⟨0x7fffffe87fffffe03ff000000000000⟩)) (.seq
    (.pred .blockEnd) (.act (.build .self .blockString []))))

/-- `cypher-param-val` (parser.leg:74). -/
def r_cypher_param_val : E :=
    .seq (.pred .blockStart) (.seq (.plus (.seq (.npeek (.nt .r_WS none)) .dot)) (.seq (.pred
    .blockEnd) (.act (.build .self .blockString []))))

/-- `profile-option` (parser.leg:76). -/
def r_profile_option : E :=
    .seq (.pred .blockStart) (.seq (.nt .r_PROFILE none) (.seq (.pred .blockEnd) (.act (.build
    .self .profileOption []))))

/-- `explain-option` (parser.leg:77). -/
def r_explain_option : E :=
    .seq (.pred .blockStart) (.seq (.nt .r_EXPLAIN none) (.seq (.pred .blockEnd) (.act (.build
    .self .explainOption []))))

/-- `schema-command` (parser.leg:79-85). -/
def r_schema_command : E :=
    .seq (.onfail (.alt (.nt .r_create_index none) (.alt (.nt .r_create_constraint none) (.alt
    (.nt .r_drop_index none) (.nt .r_drop_constraint none)))) (.err 2)) (.alt (.nt .r_SEMICOLON
    none) (.nt .r_EOF none))

/-- `create-index` (parser.leg:87-94). Variables: l = 0, p = 1. -/
def r_create_index : E :=
    .seq (.pred .blockStart) (.seq (.nt .r_CREATE_INDEX_ON none) (.seq (.nt .r_label (some 0))
    (.seq (.nt .r_LEFT_PAREN none) (.seq (.nt .r_ws none) (.seq (.nt .r_prop_name (some 1))
    (.seq (.act (.seqAdd [1])) (.seq (.star (.seq (.nt .r_COMMA none) (.seq (.nt .r_ws none)
    (.seq (.nt .r_prop_name (some 1)) (.act (.seqAdd [1])))))) (.seq (.nt .r_RIGHT_PAREN none)
    (.seq (.pred .blockEnd) (.seq (.act (.build .self .createIndex [some 0])) (.nt .r_ws
    none)))))))))))

/-- `create-constraint` (parser.leg:96-109). Variables: i = 0, l = 1, e = 2, t = 3. -/
def r_create_constraint : E :=
    .seq (.pred .blockStart) (.seq (.nt .r_CREATE_CONSTRAINT_ON none) (.seq (.alt (.seq (.nt
    .r_LEFT_PAREN none) (.seq (.nt .r_ws none) (.seq (.nt .r_identifier (some 0)) (.seq (.nt
    .r_label (some 1)) (.seq (.nt .r_RIGHT_PAREN none) (.seq (.nt .r_ws none) (.seq (.nt
    .r_ASSERT none) (.alt (.seq (.nt .r_expression (some 2)) (.seq (.nt .r_IS_UNIQUE none) (.seq
    (.pred .blockEnd) (.act (.build .self (.createNodePropConstraint true) [some 0, some 1, some
    2]))))) (.seq (.nt .r_expression (some 2)) (.seq (.pred .blockEnd) (.act (.build .self
    (.createNodePropConstraint false) [some 0, some 1, some 2])))))))))))) (.seq (.nt
    .r_LEFT_PAREN none) (.seq (.nt .r_ws none) (.seq (.nt .r_RIGHT_PAREN none) (.seq (.nt .r_ws
    none) (.seq (.opt (.seq (.nt .r_LEFT_ARROW_HEAD none) (.nt .r_ws none))) (.seq (.nt .r_DASH
    none) (.seq (.nt .r_ws none) (.seq (.nt .r_LEFT_SQ_PAREN none) (.seq (.nt .r_ws none) (.seq
    (.nt .r_identifier (some 0)) (.seq (.nt .r_rel_type (some 3)) (.seq (.nt .r_RIGHT_SQ_PAREN
    none) (.seq (.nt .r_ws none) (.seq (.nt .r_DASH none) (.seq (.nt .r_ws none) (.seq (.opt
    (.seq (.nt .r_RIGHT_ARROW_HEAD none) (.nt .r_ws none))) (.seq (.nt .r_LEFT_PAREN none) (.seq
    (.nt .r_ws none) (.seq (.nt .r_RIGHT_PAREN none) (.seq (.nt .r_ws none) (.seq (.nt .r_ASSERT
    none) (.seq (.nt .r_expression (some 2)) (.seq (.pred .blockEnd) (.act (.build .self
    (.createRelPropConstraint false) [some 0, some 3, some 2])))))))))))))))))))))))))) (.nt
    .r_ws none)))

/-- `drop-index` (parser.leg:111-118). Variables: l = 0, p = 1. -/
def r_drop_index : E :=
    .seq (.pred .blockStart) (.seq (.nt .r_DROP_INDEX_ON none) (.seq (.nt .r_label (some 0))
    (.seq (.nt .r_LEFT_PAREN none) (.seq (.nt .r_ws none) (.seq (.nt .r_prop_name (some 1))
    (.seq (.act (.seqAdd [1])) (.seq (.star (.seq (.nt .r_COMMA none) (.seq (.nt .r_ws none)
    (.seq (.nt .r_prop_name (some 1)) (.act (.seqAdd [1])))))) (.seq (.nt .r_RIGHT_PAREN none)
    (.seq (.pred .blockEnd) (.seq (.act (.build .self .dropIndex [some 0])) (.nt .r_ws
    none)))))))))))

/-- `drop-constraint` (parser.leg:120-133). Variables: i = 0, l = 1, e = 2, t = 3. -/
def r_drop_constraint : E :=
    .seq (.pred .blockStart) (.seq (.nt .r_DROP_CONSTRAINT_ON none) (.seq (.alt (.seq (.nt
    .r_LEFT_PAREN none) (.seq (.nt .r_ws none) (.seq (.nt .r_identifier (some 0)) (.seq (.nt
    .r_label (some 1)) (.seq (.nt .r_RIGHT_PAREN none) (.seq (.nt .r_ws none) (.seq (.nt
    .r_ASSERT none) (.alt (.seq (.nt .r_expression (some 2)) (.seq (.nt .r_IS_UNIQUE none) (.seq
    (.pred .blockEnd) (.act (.build .self (.dropNodePropConstraint true) [some 0, some 1, some
    2]))))) (.seq (.nt .r_expression (some 2)) (.seq (.pred .blockEnd) (.act (.build .self
    (.dropNodePropConstraint false) [some 0, some 1, some 2])))))))))))) (.seq (.nt
    .r_LEFT_PAREN none) (.seq (.nt .r_ws none) (.seq (.nt .r_RIGHT_PAREN none) (.seq (.nt .r_ws
    none) (.seq (.opt (.seq (.nt .r_LEFT_ARROW_HEAD none) (.nt .r_ws none))) (.seq (.nt .r_DASH
    none) (.seq (.nt .r_ws none) (.seq (.nt .r_LEFT_SQ_PAREN none) (.seq (.nt .r_ws none) (.seq
    (.nt .r_identifier (some 0)) (.seq (.nt .r_rel_type (some 3)) (.seq (.nt .r_RIGHT_SQ_PAREN
    none) (.seq (.nt .r_ws none) (.seq (.nt .r_DASH none) (.seq (.nt .r_ws none) (.seq (.opt
    (.seq (.nt .r_RIGHT_ARROW_HEAD none) (.nt .r_ws none))) (.seq (.nt .r_LEFT_PAREN none) (.seq
    (.nt .r_ws none) (.seq (.nt .r_RIGHT_PAREN none) (.seq (.nt .r_ws none) (.seq (.nt .r_ASSERT
    none) (.seq (.nt .r_expression (some 2)) (.seq (.pred .blockEnd) (.act (.build .self
    (.dropRelPropConstraint false) [some 0, some 3, some 2])))))))))))))))))))))))))) (.nt .r_ws
    none)))

/-- `query` (parser.leg:136). -/
def r_query : E :=
    .seq (.pred .blockStart) (.seq (.star (.nt .r_query_hints none)) (.seq (.nt .r_clauses none)
    (.seq (.pred .blockEnd) (.act (.build .self .query [])))))

/-- `query-hints` (parser.leg:137-139). Variables: c = 0. -/
def r_query_hints : E :=
    .onfail (.seq (.nt .r_periodic_commit (some 0)) (.act (.seqAdd [0]))) (.err 3)

/-- `clauses` (parser.leg:140-142). Variables: c = 0. -/
def r_clauses : E :=
    .seq (.nt .r_clause (some 0)) (.seq (.act (.seqAdd [0])) (.nt .r__clauses none))

/-- `_clauses` (parser.leg:143-149). Variables: c = 0. -/
def r__clauses : E :=
    .alt (.nt .r_SEMICOLON none) (.alt (.nt .r_EOF none) (.alt (.seq (.nt .r_clause (some 0))
    (.seq (.act (.seqAdd [0])) (.seq (.nt .r__cut_ none) (.nt .r__clauses none)))) (.seq (.nt
    .r__error_ none) (.seq (.alt (.nt .r_EOF none) (.nt .r_skip_to_clause none)) (.seq (.nt
    .r_ws none) (.nt .r__clauses none))))))

/-- `periodic-commit` (parser.leg:151-152). Variables: l = 0. -/
def r_periodic_commit : E :=
    .seq (.pred .blockStart) (.seq (.nt .r_USING_PERIODIC_COMMIT none) (.seq (.alt (.nt
    .r_integer_literal (some 0)) (.nt .r__null_ (some 0))) (.seq (.pred .blockEnd) (.act (.build
    .self .usingPeriodicCommit [some 0])))))

/-- `clause` (parser.leg:154-169). -/
def r_clause : E :=
    .onfail (.alt (.nt .r_match_clause none) (.alt (.nt .r_return_clause none) (.alt (.nt
    .r_unwind_clause none) (.alt (.nt .r_merge_clause none) (.alt (.nt .r_create_clause none)
    (.alt (.nt .r_set_clause none) (.alt (.nt .r_delete_clause none) (.alt (.nt .r_remove_clause
    none) (.alt (.nt .r_with_clause none) (.alt (.nt .r_foreach_clause none) (.alt (.nt
    .r_call_clause none) (.alt (.nt .r_loadcsv_clause none) (.alt (.nt .r_start_clause none)
    (.nt .r_union_clause none)))))))))))))) (.err 4)

/-- `loadcsv-clause` (parser.leg:171-177). Variables: u = 0, i = 1, t = 2. -/
def r_loadcsv_clause : E :=
    .alt (.seq (.pred .blockStart) (.seq (.nt .r_LOADCSV none) (.seq (.nt .r_WITH_HEADERS none)
    (.seq (.nt .r_FROM none) (.seq (.nt .r_expression (some 0)) (.seq (.nt .r_AS none) (.seq
    (.nt .r_identifier (some 1)) (.seq (.alt (.seq (.nt .r_FIELDTERMINATOR none) (.nt
    .r_string_literal (some 2))) (.nt .r__null_ (some 2))) (.seq (.pred .blockEnd) (.act (.build
    .self (.loadCsv true) [some 0, some 1, some 2]))))))))))) (.seq (.pred .blockStart) (.seq
    (.nt .r_LOADCSV none) (.seq (.nt .r_FROM none) (.seq (.nt .r_expression (some 0)) (.seq (.nt
    .r_AS none) (.seq (.nt .r_identifier (some 1)) (.seq (.alt (.seq (.nt .r_FIELDTERMINATOR
    none) (.nt .r_string_literal (some 2))) (.nt .r__null_ (some 2))) (.seq (.pred .blockEnd)
    (.act (.build .self (.loadCsv false) [some 0, some 1, some 2]))))))))))

/-- `start-clause` (parser.leg:179-183). Variables: s = 0, c = 1. -/
def r_start_clause : E :=
    .seq (.pred .blockStart) (.seq (.nt .r_START none) (.seq (.nt .r_start_point (some 0)) (.seq
    (.nt .r_ws none) (.seq (.act (.seqAdd [0])) (.seq (.star (.seq (.nt .r_COMMA none) (.seq
    (.nt .r_ws none) (.seq (.nt .r_start_point (some 0)) (.seq (.nt .r_ws none) (.act (.seqAdd
    [0]))))))) (.seq (.alt (.seq (.nt .r_WHERE none) (.nt .r_expression (some 1))) (.nt
    .r__null_ (some 1))) (.seq (.pred .blockEnd) (.act (.build .self .startClause [some
    1])))))))))

/-- `start-point` (parser.leg:184-210). Variables: i = 0, x = 1, p = 2, l = 3. -/
def r_start_point : E :=
    .seq (.pred .blockStart) (.seq (.nt .r_identifier (some 0)) (.seq (.nt .r_EQUAL none) (.seq
    (.nt .r_ws none) (.alt (.seq (.nt .r_node none) (.alt (.seq (.nt .r_COLON none) (.seq (.nt
    .r_ws none) (.seq (.nt .r_index_name (some 1)) (.seq (.nt .r_LEFT_PAREN none) (.seq (.nt
    .r_ws none) (.alt (.seq (.nt .r_prop_name (some 2)) (.seq (.nt .r_EQUAL none) (.seq (.nt
    .r_ws none) (.seq (.alt (.nt .r_string_literal (some 3)) (.nt .r_parameter (some 3))) (.seq
    (.nt .r_RIGHT_PAREN none) (.seq (.pred .blockEnd) (.act (.build .self .nodeIndexLookup [some
    0, some 1, some 2, some 3])))))))) (.seq (.alt (.nt .r_string_literal (some 3)) (.nt
    .r_parameter (some 3))) (.seq (.nt .r_RIGHT_PAREN none) (.seq (.pred .blockEnd) (.act
    (.build .self .nodeIndexQuery [some 0, some 1, some 3]))))))))))) (.seq (.nt .r_LEFT_PAREN
    none) (.seq (.nt .r_ws none) (.alt (.seq (.nt .r_node_ids none) (.seq (.nt .r_RIGHT_PAREN
    none) (.seq (.pred .blockEnd) (.act (.build .self .nodeIdLookup [some 0]))))) (.seq (.nt
    .r_STAR none) (.seq (.nt .r_ws none) (.seq (.nt .r_RIGHT_PAREN none) (.seq (.pred .blockEnd)
    (.act (.build .self .allNodesScan [some 0]))))))))))) (.seq (.alt (.nt .r_relationship none)
    (.nt .r_rel none)) (.alt (.seq (.nt .r_COLON none) (.seq (.nt .r_ws none) (.seq (.nt
    .r_index_name (some 1)) (.seq (.nt .r_LEFT_PAREN none) (.seq (.nt .r_ws none) (.alt (.seq
    (.nt .r_prop_name (some 2)) (.seq (.nt .r_EQUAL none) (.seq (.nt .r_ws none) (.seq (.alt
    (.nt .r_string_literal (some 3)) (.nt .r_parameter (some 3))) (.seq (.nt .r_RIGHT_PAREN
    none) (.seq (.pred .blockEnd) (.act (.build .self .relIndexLookup [some 0, some 1, some 2,
    some 3])))))))) (.seq (.alt (.nt .r_string_literal (some 3)) (.nt .r_parameter (some 3)))
    (.seq (.nt .r_RIGHT_PAREN none) (.seq (.pred .blockEnd) (.act (.build .self .relIndexQuery
    [some 0, some 1, some 3]))))))))))) (.seq (.nt .r_LEFT_PAREN none) (.seq (.nt .r_ws none)
    (.alt (.seq (.nt .r_node_ids none) (.seq (.nt .r_RIGHT_PAREN none) (.seq (.pred .blockEnd)
    (.act (.build .self .relIdLookup [some 0]))))) (.seq (.nt .r_STAR none) (.seq (.nt .r_ws
    none) (.seq (.nt .r_RIGHT_PAREN none) (.seq (.pred .blockEnd) (.act (.build .self
    .allRelsScan [some 0])))))))))))))))

/-- `node-ids` (parser.leg:212-215). Variables: i = 0. -/
def r_node_ids : E :=
    .seq (.nt .r_integer_literal (some 0)) (.seq (.act (.seqAdd [0])) (.star (.seq (.nt .r_COMMA
    none) (.seq (.nt .r_ws none) (.seq (.nt .r_integer_literal (some 0)) (.act (.seqAdd
    [0])))))))

/-- `match-clause` (parser.leg:217-225). Variables: p = 0, h = 1, c = 2. -/
def r_match_clause : E :=
    .alt (.seq (.pred .blockStart) (.seq (.nt .r_OPTIONAL_MATCH none) (.seq (.nt .r_pattern
    (some 0)) (.seq (.star (.seq (.nt .r_hint (some 1)) (.act (.seqAdd [1])))) (.seq (.alt (.seq
    (.nt .r_WHERE none) (.nt .r_expression (some 2))) (.nt .r__null_ (some 2))) (.seq (.pred
    .blockEnd) (.act (.build .self (.matchClause true) [some 0, some 2])))))))) (.seq (.pred
    .blockStart) (.seq (.nt .r_MATCH none) (.seq (.nt .r_pattern (some 0)) (.seq (.star (.seq
    (.nt .r_hint (some 1)) (.act (.seqAdd [1])))) (.seq (.alt (.seq (.nt .r_WHERE none) (.nt
    .r_expression (some 2))) (.nt .r__null_ (some 2))) (.seq (.pred .blockEnd) (.act (.build
    .self (.matchClause false) [some 0, some 2]))))))))

/-- `hint` (parser.leg:227-235). Variables: i = 0, l = 1, p = 2. -/
def r_hint : E :=
    .alt (.seq (.pred .blockStart) (.seq (.nt .r_USING_INDEX none) (.seq (.nt .r_identifier
    (some 0)) (.seq (.nt .r_label (some 1)) (.seq (.nt .r_LEFT_PAREN none) (.seq (.nt .r_ws
    none) (.seq (.nt .r_prop_name (some 2)) (.seq (.nt .r_RIGHT_PAREN none) (.seq (.nt .r_ws
    none) (.seq (.pred .blockEnd) (.act (.build .self .usingIndex [some 0, some 1, some
    2])))))))))))) (.alt (.seq (.pred .blockStart) (.seq (.nt .r_USING_JOIN_ON none) (.seq (.nt
    .r_identifier (some 0)) (.seq (.act (.seqAdd [0])) (.seq (.star (.seq (.nt .r_COMMA none)
    (.seq (.nt .r_ws none) (.seq (.nt .r_identifier (some 0)) (.act (.seqAdd [0])))))) (.seq
    (.pred .blockEnd) (.act (.build .self .usingJoin [])))))))) (.seq (.pred .blockStart) (.seq
    (.nt .r_USING_SCAN none) (.seq (.nt .r_identifier (some 0)) (.seq (.nt .r_label (some 1))
    (.seq (.pred .blockEnd) (.act (.build .self .usingScan [some 0, some 1]))))))))

/-- `merge-clause` (parser.leg:237-241). Variables: p = 0, a = 1. -/
def r_merge_clause : E :=
    .seq (.pred .blockStart) (.seq (.nt .r_MERGE none) (.seq (.nt .r_pattern_part (some 0))
    (.seq (.nt .r_ws none) (.seq (.star (.seq (.nt .r_merge_action (some 1)) (.act (.seqAdd
    [1])))) (.seq (.pred .blockEnd) (.seq (.act (.build .self .mergeClause [some 0])) (.nt .r_ws
    none)))))))

/-- `merge-action` (parser.leg:243-245). -/
def r_merge_action : E :=
    .alt (.seq (.pred .blockStart) (.seq (.nt .r_ON_MATCH none) (.seq (.nt .r_merge_action_set
    none) (.seq (.pred .blockEnd) (.act (.build .self .onMatch [])))))) (.seq (.pred
    .blockStart) (.seq (.nt .r_ON_CREATE none) (.seq (.nt .r_merge_action_set none) (.seq (.pred
    .blockEnd) (.act (.build .self .onCreate []))))))

/-- `merge-action-set` (parser.leg:246-249). Variables: i = 0. -/
def r_merge_action_set : E :=
    .seq (.onfail (.nt .r_SET none) (.err 5)) (.seq (.nt .r_set_item (some 0)) (.seq (.act
    (.seqAdd [0])) (.star (.seq (.nt .r_COMMA none) (.seq (.nt .r_ws none) (.seq (.nt
    .r_set_item (some 0)) (.act (.seqAdd [0]))))))))

/-- `create-clause` (parser.leg:251-253). Variables: p = 0. -/
def r_create_clause : E :=
    .alt (.seq (.pred .blockStart) (.seq (.nt .r_CREATE_UNIQUE none) (.seq (.nt .r_pattern (some
    0)) (.seq (.pred .blockEnd) (.act (.build .self (.createClause true) [some 0])))))) (.seq
    (.pred .blockStart) (.seq (.nt .r_CREATE none) (.seq (.nt .r_pattern (some 0)) (.seq (.pred
    .blockEnd) (.act (.build .self (.createClause false) [some 0]))))))

/-- `set-clause` (parser.leg:255-258). Variables: i = 0. -/
def r_set_clause : E :=
    .seq (.pred .blockStart) (.seq (.nt .r_SET none) (.seq (.nt .r_set_item (some 0)) (.seq
    (.act (.seqAdd [0])) (.seq (.star (.seq (.nt .r_COMMA none) (.seq (.nt .r_ws none) (.seq
    (.nt .r_set_item (some 0)) (.act (.seqAdd [0])))))) (.seq (.pred .blockEnd) (.act (.build
    .self .setClause [])))))))

/-- `set-item` (parser.leg:260-268). Variables: p = 0, e = 1, i = 2, l = 3. -/
def r_set_item : E :=
    .alt (.seq (.pred .blockStart) (.seq (.nt .r_property_expression (some 0)) (.seq (.nt
    .r_EQUAL none) (.seq (.nt .r_ws none) (.seq (.nt .r_expression (some 1)) (.seq (.pred
    .blockEnd) (.act (.build .self .setProperty [some 0, some 1])))))))) (.alt (.seq (.pred
    .blockStart) (.seq (.nt .r_identifier (some 2)) (.seq (.nt .r_EQUAL none) (.seq (.nt .r_ws
    none) (.seq (.nt .r_expression (some 1)) (.seq (.pred .blockEnd) (.act (.build .self
    .setAllProperties [some 2, some 1])))))))) (.alt (.seq (.pred .blockStart) (.seq (.nt
    .r_identifier (some 2)) (.seq (.nt .r_PLUSEQUAL none) (.seq (.nt .r_ws none) (.seq (.nt
    .r_expression (some 1)) (.seq (.pred .blockEnd) (.act (.build .self .mergeProperties [some
    2, some 1])))))))) (.seq (.pred .blockStart) (.seq (.nt .r_identifier (some 2)) (.seq (.plus
    (.seq (.nt .r_label (some 3)) (.act (.seqAdd [3])))) (.seq (.pred .blockEnd) (.act (.build
    .self .setLabels [some 2]))))))))

/-- `delete-clause` (parser.leg:270-276). Variables: e = 0. -/
def r_delete_clause : E :=
    .alt (.seq (.pred .blockStart) (.seq (.nt .r_DETACH_DELETE none) (.seq (.nt .r_expression
    (some 0)) (.seq (.act (.seqAdd [0])) (.seq (.star (.seq (.nt .r_COMMA none) (.seq (.nt .r_ws
    none) (.seq (.nt .r_expression (some 0)) (.act (.seqAdd [0])))))) (.seq (.pred .blockEnd)
    (.act (.build .self (.delete true) [])))))))) (.seq (.pred .blockStart) (.seq (.nt .r_DELETE
    none) (.seq (.nt .r_expression (some 0)) (.seq (.act (.seqAdd [0])) (.seq (.star (.seq (.nt
    .r_COMMA none) (.seq (.nt .r_ws none) (.seq (.nt .r_expression (some 0)) (.act (.seqAdd
    [0])))))) (.seq (.pred .blockEnd) (.act (.build .self (.delete false) []))))))))

/-- `remove-clause` (parser.leg:278-281). Variables: i = 0. -/
def r_remove_clause : E :=
    .seq (.pred .blockStart) (.seq (.nt .r_REMOVE none) (.seq (.nt .r_remove_item (some 0))
    (.seq (.act (.seqAdd [0])) (.seq (.star (.seq (.nt .r_COMMA none) (.seq (.nt .r_ws none)
    (.seq (.nt .r_remove_item (some 0)) (.act (.seqAdd [0])))))) (.seq (.pred .blockEnd) (.act
    (.build .self .removeClause [])))))))

/-- `remove-item` (parser.leg:283-286). Variables: p = 0, i = 1, l = 2. -/
def r_remove_item : E :=
    .alt (.seq (.pred .blockStart) (.seq (.nt .r_property_expression (some 0)) (.seq (.pred
    .blockEnd) (.act (.build .self .removeProperty [some 0]))))) (.seq (.pred .blockStart) (.seq
    (.nt .r_identifier (some 1)) (.seq (.plus (.seq (.nt .r_label (some 2)) (.act (.seqAdd
    [2])))) (.seq (.pred .blockEnd) (.act (.build .self .removeLabels [some 1]))))))

/-- `foreach-clause` (parser.leg:288-292). Variables: i = 0, e = 1, c = 2. -/
def r_foreach_clause : E :=
    .seq (.pred .blockStart) (.seq (.nt .r_FOREACH none) (.seq (.nt .r_LEFT_PAREN none) (.seq
    (.nt .r_ws none) (.seq (.nt .r_identifier (some 0)) (.seq (.nt .r_IN none) (.seq (.nt .r_ws
    none) (.seq (.nt .r_expression (some 1)) (.seq (.nt .r_PIPE none) (.seq (.nt .r_ws none)
    (.seq (.plus (.seq (.nt .r_clause (some 2)) (.act (.seqAdd [2])))) (.seq (.nt .r_RIGHT_PAREN
    none) (.seq (.pred .blockEnd) (.seq (.act (.build .self .foreachClause [some 0, some 1]))
    (.nt .r_ws none))))))))))))))

/-- `with-clause` (parser.leg:294-316). Variables: o = 0, s = 1, l = 2, p = 3, i = 4. -/
def r_with_clause : E :=
    .seq (.pred .blockStart) (.seq (.nt .r_WITH none) (.alt (.seq (.nt .r_DISTINCT none) (.seq
    (.nt .r_STAR none) (.seq (.nt .r_ws none) (.seq (.nt .r_additional_with_projections none)
    (.seq (.alt (.nt .r_order_by (some 0)) (.nt .r__null_ (some 0))) (.seq (.alt (.nt .r_skip
    (some 1)) (.nt .r__null_ (some 1))) (.seq (.alt (.nt .r_limit (some 2)) (.nt .r__null_ (some
    2))) (.seq (.alt (.seq (.nt .r_WHERE none) (.nt .r_expression (some 3))) (.nt .r__null_
    (some 3))) (.seq (.pred .blockEnd) (.act (.build .self (.withClause true true) [some 0, some
    1, some 2, some 3]))))))))))) (.alt (.seq (.nt .r_DISTINCT none) (.seq (.nt
    .r_with_projection (some 4)) (.seq (.act (.seqAdd [4])) (.seq (.nt
    .r_additional_with_projections none) (.seq (.alt (.nt .r_order_by (some 0)) (.nt .r__null_
    (some 0))) (.seq (.alt (.nt .r_skip (some 1)) (.nt .r__null_ (some 1))) (.seq (.alt (.nt
    .r_limit (some 2)) (.nt .r__null_ (some 2))) (.seq (.alt (.seq (.nt .r_WHERE none) (.nt
    .r_expression (some 3))) (.nt .r__null_ (some 3))) (.seq (.pred .blockEnd) (.act (.build
    .self (.withClause true false) [some 0, some 1, some 2, some 3]))))))))))) (.alt (.seq (.nt
    .r_STAR none) (.seq (.nt .r_ws none) (.seq (.nt .r_additional_with_projections none) (.seq
    (.alt (.nt .r_order_by (some 0)) (.nt .r__null_ (some 0))) (.seq (.alt (.nt .r_skip (some
    1)) (.nt .r__null_ (some 1))) (.seq (.alt (.nt .r_limit (some 2)) (.nt .r__null_ (some 2)))
    (.seq (.alt (.seq (.nt .r_WHERE none) (.nt .r_expression (some 3))) (.nt .r__null_ (some
    3))) (.seq (.pred .blockEnd) (.act (.build .self (.withClause false true) [some 0, some 1,
    some 2, some 3])))))))))) (.seq (.nt .r_with_projection (some 4)) (.seq (.act (.seqAdd [4]))
    (.seq (.nt .r_additional_with_projections none) (.seq (.alt (.nt .r_order_by (some 0)) (.nt
    .r__null_ (some 0))) (.seq (.alt (.nt .r_skip (some 1)) (.nt .r__null_ (some 1))) (.seq
    (.alt (.nt .r_limit (some 2)) (.nt .r__null_ (some 2))) (.seq (.alt (.seq (.nt .r_WHERE
    none) (.nt .r_expression (some 3))) (.nt .r__null_ (some 3))) (.seq (.pred .blockEnd) (.act
    (.build .self (.withClause false false) [some 0, some 1, some 2, some 3]))))))))))))))

/-- `additional-with-projections` (parser.leg:317-319). Variables: i = 0. -/
def r_additional_with_projections : E :=
    .star (.seq (.nt .r_COMMA none) (.seq (.nt .r_ws none) (.seq (.nt .r_with_projection (some
    0)) (.act (.seqAdd [0])))))

/-- `with-projection` (parser.leg:321-325). Variables: e = 0, i = 1. -/
def r_with_projection : E :=
    .seq (.pred .blockStart) (.seq (.nt .r_expression (some 0)) (.alt (.seq (.nt .r_AS none)
    (.seq (.nt .r_identifier (some 1)) (.seq (.pred .blockEnd) (.act (.build .self .projection
    [some 0, some 1]))))) (.seq (.nt .r__empty_ none) (.seq (.pred .blockEnd) (.act (.build
    .self .projection [some 0, none]))))))

/-- `unwind-clause` (parser.leg:327-328). Variables: e = 0, i = 1. -/
def r_unwind_clause : E :=
    .seq (.pred .blockStart) (.seq (.nt .r_UNWIND none) (.seq (.nt .r_expression (some 0)) (.seq
    (.nt .r_AS none) (.seq (.nt .r_identifier (some 1)) (.seq (.pred .blockEnd) (.act (.build
    .self .unwindClause [some 0, some 1])))))))

/-- `call-clause` (parser.leg:334-351). Variables: p = 0, e = 1, r = 2, w = 3. -/
def r_call_clause : E :=
    .seq (.pred .blockStart) (.seq (.nt .r_CALL none) (.seq (.nt .r_proc_name (some 0)) (.seq
    (.opt (.seq (.nt .r_LEFT_PAREN none) (.seq (.nt .r_ws none) (.seq (.opt (.seq (.nt
    .r_expression (some 1)) (.seq (.act (.seqAdd [1])) (.star (.seq (.nt .r_COMMA none) (.seq
    (.nt .r_ws none) (.seq (.nt .r_expression (some 1)) (.act (.seqAdd [1]))))))))) (.seq (.nt
    .r_RIGHT_PAREN none) (.nt .r_ws none)))))) (.seq (.opt (.seq (.nt .r_YIELD none) (.seq (.alt
    (.seq (.nt .r_proc_projection (some 2)) (.seq (.act (.seqAdd [2])) (.star (.seq (.nt
    .r_COMMA none) (.seq (.nt .r_ws none) (.seq (.nt .r_proc_projection (some 2)) (.act (.seqAdd
    [2])))))))) (.chr 45)) (.nt .r_ws none)))) (.seq (.alt (.seq (.nt .r_WHERE none) (.nt
    .r_expression (some 3))) (.nt .r__null_ (some 3))) (.seq (.pred .blockEnd) (.act (.build
    .self .callClause [some 0, some 3]))))))))

/-- `proc-projection` (parser.leg:353-356). Variables: r = 0, i = 1. -/
def r_proc_projection : E :=
    .seq (.pred .blockStart) (.seq (.nt .r_identifier (some 0)) (.alt (.seq (.nt .r_AS none)
    (.seq (.nt .r_identifier (some 1)) (.seq (.pred .blockEnd) (.act (.build .self .projection
    [some 0, some 1]))))) (.seq (.nt .r__empty_ none) (.seq (.pred .blockEnd) (.act (.build
    .self .projection [some 0, none]))))))

/-- `return-clause` (parser.leg:358-375). Variables: o = 0, s = 1, l = 2, i = 3. -/
def r_return_clause : E :=
    .seq (.pred .blockStart) (.seq (.nt .r_RETURN none) (.alt (.seq (.nt .r_DISTINCT none) (.seq
    (.nt .r_STAR none) (.seq (.nt .r_ws none) (.seq (.nt .r_additional_return_projections none)
    (.seq (.alt (.nt .r_order_by (some 0)) (.nt .r__null_ (some 0))) (.seq (.alt (.nt .r_skip
    (some 1)) (.nt .r__null_ (some 1))) (.seq (.alt (.nt .r_limit (some 2)) (.nt .r__null_ (some
    2))) (.seq (.pred .blockEnd) (.act (.build .self (.returnClause true true) [some 0, some 1,
    some 2])))))))))) (.alt (.seq (.nt .r_DISTINCT none) (.seq (.nt .r_return_projection (some
    3)) (.seq (.act (.seqAdd [3])) (.seq (.nt .r_additional_return_projections none) (.seq (.alt
    (.nt .r_order_by (some 0)) (.nt .r__null_ (some 0))) (.seq (.alt (.nt .r_skip (some 1)) (.nt
    .r__null_ (some 1))) (.seq (.alt (.nt .r_limit (some 2)) (.nt .r__null_ (some 2))) (.seq
    (.pred .blockEnd) (.act (.build .self (.returnClause true false) [some 0, some 1, some
    2])))))))))) (.alt (.seq (.nt .r_STAR none) (.seq (.nt .r_ws none) (.seq (.nt
    .r_additional_return_projections none) (.seq (.alt (.nt .r_order_by (some 0)) (.nt .r__null_
    (some 0))) (.seq (.alt (.nt .r_skip (some 1)) (.nt .r__null_ (some 1))) (.seq (.alt (.nt
    .r_limit (some 2)) (.nt .r__null_ (some 2))) (.seq (.pred .blockEnd) (.act (.build .self
    (.returnClause false true) [some 0, some 1, some 2]))))))))) (.seq (.nt .r_return_projection
    (some 3)) (.seq (.act (.seqAdd [3])) (.seq (.nt .r_additional_return_projections none) (.seq
    (.alt (.nt .r_order_by (some 0)) (.nt .r__null_ (some 0))) (.seq (.alt (.nt .r_skip (some
    1)) (.nt .r__null_ (some 1))) (.seq (.alt (.nt .r_limit (some 2)) (.nt .r__null_ (some 2)))
    (.seq (.pred .blockEnd) (.act (.build .self (.returnClause false false) [some 0, some 1,
    some 2])))))))))))))

/-- `additional-return-projections` (parser.leg:376-378). Variables: i = 0. -/
def r_additional_return_projections : E :=
    .star (.seq (.nt .r_COMMA none) (.seq (.nt .r_ws none) (.seq (.nt .r_return_projection (some
    0)) (.act (.seqAdd [0])))))

/-- `return-projection` (parser.leg:380-389). Variables: e = 0, i = 1. -/
def r_return_projection : E :=
    .seq (.pred .blockStart) (.seq (.nt .r__block_start_ none) (.seq (.nt .r_expression (some
    0)) (.seq (.alt (.seq (.nt .r_AS none) (.seq (.nt .r_identifier (some 1)) (.nt
    .r__block_merge_ none))) (.seq (.nt .r__null_ (some 1)) (.seq (.nt .r__block_merge_ none)
    (.act (.aliasUnless 0 1))))) (.seq (.pred .blockEnd) (.act (.build .self .projection [some
    0, some 1]))))))

/-- `order-by` (parser.leg:391-393). Variables: s = 0. -/
def r_order_by : E :=
    .seq (.pred .blockStart) (.seq (.nt .r_ORDER_BY none) (.seq (.nt .r_sort_item (some 0))
    (.seq (.act (.seqAdd [0])) (.seq (.star (.seq (.nt .r_COMMA none) (.seq (.nt .r_ws none)
    (.seq (.nt .r_sort_item (some 0)) (.act (.seqAdd [0])))))) (.seq (.pred .blockEnd) (.act
    (.build .self .orderBy [])))))))

/-- `sort-item` (parser.leg:395-399). Variables: e = 0. -/
def r_sort_item : E :=
    .seq (.pred .blockStart) (.seq (.nt .r_expression (some 0)) (.alt (.seq (.alt (.nt
    .r_DESCENDING none) (.nt .r_DESC none)) (.seq (.pred .blockEnd) (.act (.build .self
    (.sortItem false) [some 0])))) (.seq (.opt (.alt (.nt .r_ASCENDING none) (.nt .r_ASC none)))
    (.seq (.pred .blockEnd) (.act (.build .self (.sortItem true) [some 0]))))))

/-- `skip` (parser.leg:401). Variables: e = 0. -/
def r_skip : E :=
    .seq (.nt .r_SKIP none) (.seq (.nt .r_expression (some 0)) (.act (.copy 0)))

/-- `limit` (parser.leg:402). Variables: e = 0. -/
def r_limit : E :=
    .seq (.nt .r_LIMIT none) (.seq (.nt .r_expression (some 0)) (.act (.copy 0)))

/-- `union-clause` (parser.leg:404-408). -/
def r_union_clause : E :=
    .seq (.pred .blockStart) (.seq (.nt .r_UNION none) (.alt (.seq (.nt .r_ALL none) (.seq
    (.pred .blockEnd) (.act (.build .self (.unionClause true) [])))) (.seq (.nt .r__empty_ none)
    (.seq (.pred .blockEnd) (.act (.build .self (.unionClause false) []))))))

/-- `expression` (parser.leg:416-417). Variables: e = 0. -/
def r_expression : E :=
    .seq (.pred .precPushTop) (.seq (.onfail (.nt .r__expression (some 0)) .precPop) (.seq
    (.pred .precPop) (.act (.copy 0))))

/-- `_prec_expression` (parser.leg:418-419). Variables: e = 0. -/
def r__prec_expression : E :=
    .seq (.pred .precPush) (.seq (.onfail (.nt .r__expression (some 0)) .precPop) (.seq (.pred
    .precPop) (.act (.copy 0))))

/-- `_expression` (parser.leg:420-450). Variables: l = 0, n = 1, r = 2, s = 3, e = 4, m = 5. -/
def r__expression : E :=
    .alt (.seq (.nt .r__block_start_ none) (.seq (.nt .r__atom (some 0)) (.seq (.plus (.alt
    (.seq (.nt .r_DOT none) (.seq (.pred (.op .property)) (.seq (.pred .precChk) (.seq (.nt
    .r_ws none) (.seq (.nt .r_prop_name (some 1)) (.seq (.nt .r__block_replace_ none) (.act
    (.build (.var 0) .propertyOperator [some 0, some 1])))))))) (.alt (.seq (.nt .r_INFIX_OP
    none) (.seq (.pred .precChk) (.seq (.nt .r_ws none) (.seq (.nt .r__prec_expression (some 2))
    (.seq (.nt .r__block_replace_ none) (.act (.build (.var 0) .binaryOperator [some 0, some
    2]))))))) (.alt (.seq (.act (.seqAdd [0])) (.seq (.plus (.seq (.nt .r_COMPARISON_OP none)
    (.seq (.pred .precChk) (.seq (.nt .r_ws none) (.seq (.nt .r__prec_expression (some 2)) (.act
    (.seqAdd [2]))))))) (.seq (.nt .r__block_replace_ none) (.act (.build (.var 0)
    .comparisonOperator []))))) (.alt (.seq (.nt .r_POSTFIX_OP none) (.seq (.pred .precChk)
    (.seq (.nt .r__block_replace_ none) (.act (.build (.var 0) .unaryOperator [some 0])))))
    (.alt (.seq (.nt .r_LEFT_SQ_PAREN none) (.seq (.pred (.op .subscript)) (.seq (.pred
    .precChk) (.seq (.nt .r_ws none) (.seq (.nt .r_expression (some 2)) (.seq (.nt
    .r_RIGHT_SQ_PAREN none) (.seq (.nt .r_ws none) (.seq (.nt .r__block_replace_ none) (.act
    (.build (.var 0) .subscriptOperator [some 0, some 2])))))))))) (.alt (.seq (.nt
    .r_LEFT_SQ_PAREN none) (.seq (.pred (.op .subscript)) (.seq (.pred .precChk) (.seq (.nt
    .r_ws none) (.seq (.alt (.nt .r_expression (some 3)) (.nt .r__null_ (some 3))) (.seq (.nt
    .r_ELLIPSIS none) (.seq (.nt .r_ws none) (.seq (.alt (.nt .r_expression (some 4)) (.nt
    .r__null_ (some 4))) (.seq (.nt .r_RIGHT_SQ_PAREN none) (.seq (.nt .r_ws none) (.seq (.nt
    .r__block_replace_ none) (.act (.build (.var 0) .sliceOperator [some 0, some 3, some
    4]))))))))))))) (.alt (.seq (.nt .r_LEFT_CURLY none) (.seq (.pred (.op .mapProjection))
    (.seq (.pred .precChk) (.seq (.nt .r_ws none) (.seq (.opt (.seq (.nt
    .r_map_projection_element (some 5)) (.seq (.act (.seqAdd [5])) (.star (.seq (.nt .r_COMMA
    none) (.seq (.nt .r_ws none) (.seq (.nt .r_map_projection_element (some 5)) (.act (.seqAdd
    [5]))))))))) (.seq (.nt .r_RIGHT_CURLY none) (.seq (.nt .r_ws none) (.seq (.nt
    .r__block_replace_ none) (.act (.build (.var 0) .mapProjection [some 0])))))))))) (.seq
    (.plus (.seq (.pred (.op .label)) (.seq (.pred .precChk) (.seq (.nt .r_label (some 1)) (.act
    (.seqAdd [1])))))) (.seq (.nt .r__block_replace_ none) (.act (.build (.var 0)
    .labelsOperator [some 0])))))))))))) (.seq (.nt .r__block_merge_ none) (.act (.copy 0))))))
    (.nt .r__atom none)

/-- `_atom` (parser.leg:451-454). Variables: r = 0. -/
def r__atom : E :=
    .alt (.seq (.nt .r__block_start_ none) (.seq (.nt .r_PREFIX_OP none) (.seq (.nt .r_ws none)
    (.seq (.nt .r__prec_expression (some 0)) (.seq (.nt .r__block_end_ none) (.act (.build .self
    .unaryOperator [some 0]))))))) (.nt .r_atom none)

/-- `map-projection-element` (parser.leg:456-461). Variables: p = 0, e = 1, i = 2. -/
def r_map_projection_element : E :=
    .alt (.seq (.pred .blockStart) (.seq (.nt .r_prop_name (some 0)) (.seq (.nt .r_COLON none)
    (.seq (.nt .r_ws none) (.seq (.nt .r_expression (some 1)) (.seq (.pred .blockEnd) (.act
    (.build .self .mapProjectionLiteral [some 0, some 1])))))))) (.alt (.seq (.pred .blockStart)
    (.seq (.nt .r_DOT none) (.seq (.nt .r_ws none) (.seq (.nt .r_prop_name (some 0)) (.seq
    (.pred .blockEnd) (.act (.build .self .mapProjectionProperty [some 0]))))))) (.alt (.seq
    (.pred .blockStart) (.seq (.nt .r_identifier (some 2)) (.seq (.pred .blockEnd) (.act (.build
    .self .mapProjectionIdentifier [some 2]))))) (.seq (.pred .blockStart) (.seq (.nt
    .r_DOT_STAR none) (.seq (.nt .r_ws none) (.seq (.pred .blockEnd) (.act (.build .self
    .mapProjectionAllProperties []))))))))

/-- `atom` (parser.leg:463-487). Variables: e = 0. -/
def r_atom : E :=
    .alt (.nt .r_true_literal none) (.alt (.nt .r_false_literal none) (.alt (.nt .r_null_literal
    none) (.alt (.nt .r_string_literal none) (.alt (.nt .r_float_literal none) (.alt (.nt
    .r_integer_literal none) (.alt (.nt .r_list_comprehension none) (.alt (.nt
    .r_pattern_comprehension none) (.alt (.nt .r_collection_literal none) (.alt (.nt
    .r_parameter none) (.alt (.nt .r_map_literal none) (.alt (.nt .r_case_expression none) (.alt
    (.nt .r_filter_expression none) (.alt (.nt .r_extract_expression none) (.alt (.nt
    .r_reduce_expression none) (.alt (.nt .r_all_predicate none) (.alt (.nt .r_any_predicate
    none) (.alt (.nt .r_none_predicate none) (.alt (.nt .r_single_predicate none) (.alt (.nt
    .r_pattern_expression none) (.alt (.seq (.nt .r_LEFT_PAREN none) (.seq (.nt .r_ws none)
    (.seq (.nt .r_expression (some 0)) (.seq (.nt .r_RIGHT_PAREN none) (.seq (.nt .r_ws none)
    (.act (.copy 0))))))) (.alt (.nt .r_function_application none) (.nt .r_identifier
    none))))))))))))))))))))))

/-- `property-expression` (parser.leg:489-492). Variables: p = 0, n = 1. -/
def r_property_expression : E :=
    .seq (.nt .r__block_start_ none) (.seq (.nt .r_atom (some 0)) (.seq (.plus (.seq (.nt .r_DOT
    none) (.seq (.nt .r_ws none) (.seq (.nt .r_prop_name (some 1)) (.seq (.nt .r__block_replace_
    none) (.act (.build (.var 0) .propertyOperator [some 0, some 1]))))))) (.seq (.nt
    .r__block_merge_ none) (.act (.copy 0)))))

/-- `PREFIX-OP` (parser.leg:497-501). -/
def r_PREFIX_OP : E :=
    .seq (.alt (.seq (.nt .r_NOT none) (.seq (.pred (.op .not)) (.act (.opPush .not)))) (.alt
    (.seq (.nt .r_PLUS none) (.seq (.pred (.op .unaryPlus)) (.act (.opPush .unaryPlus)))) (.seq
    (.nt .r_MINUS none) (.seq (.pred (.op .unaryMinus)) (.act (.opPush .unaryMinus)))))) (.nt
    .r_ws none)

/-- `POSTFIX-OP` (parser.leg:503-506). -/
def r_POSTFIX_OP : E :=
    .seq (.alt (.seq (.nt .r_IS_NULL none) (.seq (.pred (.op .isNull)) (.act (.opPush
    .isNull)))) (.seq (.nt .r_IS_NOT_NULL none) (.seq (.pred (.op .isNotNull)) (.act (.opPush
    .isNotNull))))) (.nt .r_ws none)

/-- `INFIX-OP` (parser.leg:508-526). -/
def r_INFIX_OP : E :=
    .seq (.alt (.seq (.nt .r_AND none) (.seq (.pred (.op .and)) (.act (.opPush .and)))) (.alt
    (.seq (.nt .r_OR none) (.seq (.pred (.op .or)) (.act (.opPush .or)))) (.alt (.seq (.nt
    .r_XOR none) (.seq (.pred (.op .xor)) (.act (.opPush .xor)))) (.alt (.seq (.nt .r_NOT none)
    (.seq (.pred (.op .not)) (.act (.opPush .not)))) (.alt (.seq (.nt .r_REGEX none) (.seq
    (.pred (.op .regex)) (.act (.opPush .regex)))) (.alt (.seq (.nt .r_EQUAL none) (.seq (.pred
    (.op .equal)) (.act (.opPush .equal)))) (.alt (.seq (.nt .r_NEQUAL none) (.seq (.pred (.op
    .nequal)) (.act (.opPush .nequal)))) (.alt (.seq (.nt .r_PLUS none) (.seq (.pred (.op
    .plus)) (.act (.opPush .plus)))) (.alt (.seq (.nt .r_MINUS none) (.seq (.pred (.op .minus))
    (.act (.opPush .minus)))) (.alt (.seq (.nt .r_MULT none) (.seq (.pred (.op .mult)) (.act
    (.opPush .mult)))) (.alt (.seq (.nt .r_DIV none) (.seq (.pred (.op .div)) (.act (.opPush
    .div)))) (.alt (.seq (.nt .r_MOD none) (.seq (.pred (.op .mod)) (.act (.opPush .mod))))
    (.alt (.seq (.nt .r_POW none) (.seq (.pred (.op .pow)) (.act (.opPush .pow)))) (.alt (.seq
    (.nt .r_IN none) (.seq (.pred (.op .in_)) (.act (.opPush .in_)))) (.alt (.seq (.nt
    .r_CONTAINS none) (.seq (.pred (.op .contains)) (.act (.opPush .contains)))) (.alt (.seq
    (.nt .r_STARTS_WITH none) (.seq (.pred (.op .startsWith)) (.act (.opPush .startsWith))))
    (.seq (.nt .r_ENDS_WITH none) (.seq (.pred (.op .endsWith)) (.act (.opPush
    .endsWith)))))))))))))))))))) (.nt .r_ws none)

/-- `COMPARISON-OP` (parser.leg:528-533). -/
def r_COMPARISON_OP : E :=
    .seq (.alt (.seq (.nt .r_LTE none) (.seq (.pred (.op .lte)) (.act (.opPush .lte)))) (.alt
    (.seq (.nt .r_GTE none) (.seq (.pred (.op .gte)) (.act (.opPush .gte)))) (.alt (.seq (.nt
    .r_LT none) (.seq (.pred (.op .lt)) (.act (.opPush .lt)))) (.seq (.nt .r_GT none) (.seq
    (.pred (.op .gt)) (.act (.opPush .gt))))))) (.nt .r_ws none)

/-- `list-comprehension` (parser.leg:535-540). Variables: i = 0, e = 1, p = 2, v = 3. -/
def r_list_comprehension : E :=
    .seq (.pred .blockStart) (.seq (.nt .r_LEFT_SQ_PAREN none) (.seq (.nt .r_ws none) (.seq (.nt
    .r_identifier (some 0)) (.seq (.nt .r_IN none) (.seq (.nt .r_ws none) (.seq (.nt
    .r_expression (some 1)) (.seq (.alt (.seq (.nt .r_WHERE none) (.nt .r_expression (some 2)))
    (.nt .r__null_ (some 2))) (.seq (.alt (.seq (.nt .r_PIPE none) (.seq (.nt .r_ws none) (.nt
    .r_expression (some 3)))) (.nt .r__null_ (some 3))) (.seq (.nt .r_RIGHT_SQ_PAREN none) (.seq
    (.pred .blockEnd) (.seq (.act (.build .self .listComprehension [some 0, some 1, some 2, some
    3])) (.nt .r_ws none))))))))))))

/-- `pattern-comprehension` (parser.leg:542-548). Variables: i = 0, r = 1, p = 2, v = 3. -/
def r_pattern_comprehension : E :=
    .seq (.pred .blockStart) (.seq (.nt .r_LEFT_SQ_PAREN none) (.seq (.nt .r_ws none) (.seq
    (.alt (.seq (.nt .r_identifier (some 0)) (.seq (.nt .r_EQUAL none) (.nt .r_ws none))) (.nt
    .r__null_ (some 0))) (.seq (.nt .r_pattern_expression_path (some 1)) (.seq (.nt .r_ws none)
    (.seq (.alt (.seq (.nt .r_WHERE none) (.nt .r_expression (some 2))) (.nt .r__null_ (some
    2))) (.seq (.nt .r_PIPE none) (.seq (.nt .r_ws none) (.seq (.nt .r_expression (some 3))
    (.seq (.nt .r_RIGHT_SQ_PAREN none) (.seq (.pred .blockEnd) (.seq (.act (.build .self
    .patternComprehension [some 0, some 1, some 2, some 3])) (.nt .r_ws none)))))))))))))

/-- `case-expression` (parser.leg:550-554). Variables: e = 0, d = 1. -/
def r_case_expression : E :=
    .seq (.pred .blockStart) (.seq (.nt .r_CASE none) (.seq (.alt (.seq (.nt .r__null_ (some 0))
    (.plus (.nt .r_case_alternative none))) (.seq (.nt .r_expression (some 0)) (.plus (.nt
    .r_case_alternative none)))) (.seq (.alt (.nt .r_case_default (some 1)) (.nt .r__null_ (some
    1))) (.seq (.nt .r_END none) (.seq (.pred .blockEnd) (.seq (.act (.build .self
    .caseExpression [some 0, some 1])) (.nt .r_ws none)))))))

/-- `case-alternative` (parser.leg:555-557). Variables: e = 0. -/
def r_case_alternative : E :=
    .seq (.nt .r_WHEN none) (.seq (.nt .r_expression (some 0)) (.seq (.act (.seqAdd [0])) (.seq
    (.nt .r_THEN none) (.seq (.nt .r_expression (some 0)) (.act (.seqAdd [0]))))))

/-- `case-default` (parser.leg:558). Variables: e = 0. -/
def r_case_default : E :=
    .seq (.nt .r_ELSE none) (.seq (.nt .r_expression (some 0)) (.act (.copy 0)))

/-- `filter-expression` (parser.leg:560-564). Variables: i = 0, e = 1, p = 2. -/
def r_filter_expression : E :=
    .seq (.pred .blockStart) (.seq (.nt .r_FILTER none) (.seq (.nt .r_LEFT_PAREN none) (.seq
    (.nt .r_ws none) (.seq (.nt .r_identifier (some 0)) (.seq (.nt .r_IN none) (.seq (.nt .r_ws
    none) (.seq (.nt .r_expression (some 1)) (.seq (.alt (.seq (.nt .r_WHERE none) (.nt
    .r_expression (some 2))) (.nt .r__null_ (some 2))) (.seq (.nt .r_RIGHT_PAREN none) (.seq
    (.pred .blockEnd) (.seq (.act (.build .self .filter [some 0, some 1, some 2])) (.nt .r_ws
    none))))))))))))

/-- `extract-expression` (parser.leg:565-569). Variables: i = 0, e = 1, v = 2. -/
def r_extract_expression : E :=
    .seq (.pred .blockStart) (.seq (.nt .r_EXTRACT none) (.seq (.nt .r_LEFT_PAREN none) (.seq
    (.nt .r_ws none) (.seq (.nt .r_identifier (some 0)) (.seq (.nt .r_IN none) (.seq (.nt .r_ws
    none) (.seq (.nt .r_expression (some 1)) (.seq (.alt (.seq (.nt .r_PIPE none) (.seq (.nt
    .r_ws none) (.nt .r_expression (some 2)))) (.nt .r__null_ (some 2))) (.seq (.nt
    .r_RIGHT_PAREN none) (.seq (.pred .blockEnd) (.seq (.act (.build .self .extract [some 0,
    some 1, some 2])) (.nt .r_ws none))))))))))))

/-- `reduce-expression` (parser.leg:570-575). Variables: a = 0, n = 1, i = 2, e = 3, v = 4. -/
def r_reduce_expression : E :=
    .seq (.pred .blockStart) (.seq (.nt .r_REDUCE none) (.seq (.nt .r_LEFT_PAREN none) (.seq
    (.nt .r_ws none) (.seq (.nt .r_identifier (some 0)) (.seq (.nt .r_EQUAL none) (.seq (.nt
    .r_ws none) (.seq (.nt .r_expression (some 1)) (.seq (.nt .r_COMMA none) (.seq (.nt .r_ws
    none) (.seq (.nt .r_identifier (some 2)) (.seq (.nt .r_IN none) (.seq (.nt .r_ws none) (.seq
    (.nt .r_expression (some 3)) (.seq (.alt (.seq (.nt .r_PIPE none) (.seq (.nt .r_ws none)
    (.nt .r_expression (some 4)))) (.nt .r__null_ (some 4))) (.seq (.nt .r_RIGHT_PAREN none)
    (.seq (.pred .blockEnd) (.seq (.act (.build .self .reduce [some 0, some 1, some 2, some 3,
    some 4])) (.nt .r_ws none))))))))))))))))))

/-- `all-predicate` (parser.leg:576-580). Variables: i = 0, e = 1, p = 2. -/
def r_all_predicate : E :=
    .seq (.pred .blockStart) (.seq (.nt .r_ALL none) (.seq (.nt .r_LEFT_PAREN none) (.seq (.nt
    .r_ws none) (.seq (.nt .r_identifier (some 0)) (.seq (.nt .r_IN none) (.seq (.nt .r_ws none)
    (.seq (.nt .r_expression (some 1)) (.seq (.alt (.seq (.nt .r_WHERE none) (.nt .r_expression
    (some 2))) (.nt .r__null_ (some 2))) (.seq (.nt .r_RIGHT_PAREN none) (.seq (.pred .blockEnd)
    (.seq (.act (.build .self .allPredicate [some 0, some 1, some 2])) (.nt .r_ws
    none))))))))))))

/-- `any-predicate` (parser.leg:581-585). Variables: i = 0, e = 1, p = 2. -/
def r_any_predicate : E :=
    .seq (.pred .blockStart) (.seq (.nt .r_ANY none) (.seq (.nt .r_LEFT_PAREN none) (.seq (.nt
    .r_ws none) (.seq (.nt .r_identifier (some 0)) (.seq (.nt .r_IN none) (.seq (.nt .r_ws none)
    (.seq (.nt .r_expression (some 1)) (.seq (.alt (.seq (.nt .r_WHERE none) (.nt .r_expression
    (some 2))) (.nt .r__null_ (some 2))) (.seq (.nt .r_RIGHT_PAREN none) (.seq (.pred .blockEnd)
    (.seq (.act (.build .self .anyPredicate [some 0, some 1, some 2])) (.nt .r_ws
    none))))))))))))

/-- `single-predicate` (parser.leg:586-590). Variables: i = 0, e = 1, p = 2. -/
def r_single_predicate : E :=
    .seq (.pred .blockStart) (.seq (.nt .r_SINGLE none) (.seq (.nt .r_LEFT_PAREN none) (.seq
    (.nt .r_ws none) (.seq (.nt .r_identifier (some 0)) (.seq (.nt .r_IN none) (.seq (.nt .r_ws
    none) (.seq (.nt .r_expression (some 1)) (.seq (.alt (.seq (.nt .r_WHERE none) (.nt
    .r_expression (some 2))) (.nt .r__null_ (some 2))) (.seq (.nt .r_RIGHT_PAREN none) (.seq
    (.pred .blockEnd) (.seq (.act (.build .self .singlePredicate [some 0, some 1, some 2])) (.nt
    .r_ws none))))))))))))

/-- `none-predicate` (parser.leg:591-595). Variables: i = 0, e = 1, p = 2. -/
def r_none_predicate : E :=
    .seq (.pred .blockStart) (.seq (.nt .r_NONE none) (.seq (.nt .r_LEFT_PAREN none) (.seq (.nt
    .r_ws none) (.seq (.nt .r_identifier (some 0)) (.seq (.nt .r_IN none) (.seq (.nt .r_ws none)
    (.seq (.nt .r_expression (some 1)) (.seq (.alt (.seq (.nt .r_WHERE none) (.nt .r_expression
    (some 2))) (.nt .r__null_ (some 2))) (.seq (.nt .r_RIGHT_PAREN none) (.seq (.pred .blockEnd)
    (.seq (.act (.build .self .nonePredicate [some 0, some 1, some 2])) (.nt .r_ws
    none))))))))))))

/-- `function-application` (parser.leg:597-612). Variables: n = 0, e = 1. -/
def r_function_application : E :=
    .seq (.alt (.seq (.pred .blockStart) (.seq (.nt .r_function_name (some 0)) (.seq (.nt
    .r_LEFT_PAREN none) (.seq (.nt .r_ws none) (.seq (.nt .r_DISTINCT none) (.seq (.nt .r_STAR
    none) (.seq (.nt .r_ws none) (.seq (.nt .r_RIGHT_PAREN none) (.seq (.pred .blockEnd) (.act
    (.build .self (.applyAllOperator true) [some 0]))))))))))) (.alt (.seq (.pred .blockStart)
    (.seq (.nt .r_function_name (some 0)) (.seq (.nt .r_LEFT_PAREN none) (.seq (.nt .r_ws none)
    (.seq (.nt .r_STAR none) (.seq (.nt .r_ws none) (.seq (.nt .r_RIGHT_PAREN none) (.seq (.pred
    .blockEnd) (.act (.build .self (.applyAllOperator false) [some 0])))))))))) (.alt (.seq
    (.pred .blockStart) (.seq (.nt .r_function_name (some 0)) (.seq (.nt .r_LEFT_PAREN none)
    (.seq (.nt .r_ws none) (.seq (.nt .r_DISTINCT none) (.seq (.opt (.seq (.nt .r_expression
    (some 1)) (.seq (.act (.seqAdd [1])) (.star (.seq (.nt .r_COMMA none) (.seq (.nt .r_ws none)
    (.seq (.nt .r_expression (some 1)) (.act (.seqAdd [1]))))))))) (.seq (.nt .r_RIGHT_PAREN
    none) (.seq (.pred .blockEnd) (.act (.build .self (.applyOperator true) [some 0]))))))))))
    (.seq (.pred .blockStart) (.seq (.nt .r_function_name (some 0)) (.seq (.nt .r_LEFT_PAREN
    none) (.seq (.nt .r_ws none) (.seq (.opt (.seq (.nt .r_expression (some 1)) (.seq (.act
    (.seqAdd [1])) (.star (.seq (.nt .r_COMMA none) (.seq (.nt .r_ws none) (.seq (.nt
    .r_expression (some 1)) (.act (.seqAdd [1]))))))))) (.seq (.nt .r_RIGHT_PAREN none) (.seq
    (.pred .blockEnd) (.act (.build .self (.applyOperator false) [some 0])))))))))))) (.nt .r_ws
    none)

/-- `collection-literal` (parser.leg:614-619). Variables: e = 0. -/
def r_collection_literal : E :=
    .seq (.pred .blockStart) (.seq (.nt .r_LEFT_SQ_PAREN none) (.seq (.nt .r_ws none) (.seq
    (.opt (.seq (.nt .r_expression (some 0)) (.seq (.act (.seqAdd [0])) (.star (.seq (.nt
    .r_COMMA none) (.seq (.nt .r_ws none) (.seq (.nt .r_expression (some 0)) (.act (.seqAdd
    [0]))))))))) (.seq (.nt .r_RIGHT_SQ_PAREN none) (.seq (.pred .blockEnd) (.seq (.act (.build
    .self .collectionLiteral [])) (.nt .r_ws none)))))))

/-- `map-literal` (parser.leg:621-628). Variables: n = 0, v = 1. -/
def r_map_literal : E :=
    .seq (.pred .blockStart) (.seq (.nt .r_LEFT_CURLY none) (.seq (.nt .r_ws none) (.seq (.opt
    (.seq (.nt .r_prop_name (some 0)) (.seq (.act (.seqAdd [0])) (.seq (.nt .r_COLON none) (.seq
    (.nt .r_ws none) (.seq (.nt .r_expression (some 1)) (.seq (.act (.seqAdd [1])) (.star (.seq
    (.nt .r_COMMA none) (.seq (.nt .r_ws none) (.seq (.nt .r_prop_name (some 0)) (.seq (.act
    (.seqAdd [0])) (.seq (.nt .r_COLON none) (.seq (.nt .r_ws none) (.seq (.nt .r_expression
    (some 1)) (.act (.seqAdd [1]))))))))))))))))) (.seq (.nt .r_RIGHT_CURLY none) (.seq (.pred
    .blockEnd) (.seq (.act (.build .self .mapLiteral [])) (.nt .r_ws none)))))))

/-- `identifier` (parser.leg:630-632). -/
def r_identifier : E :=
    .seq (.act .sbReset) (.onfail (.seq (.pred .blockStart) (.seq (.nt .r_symbolic_name none)
    (.seq (.pred .blockEnd) (.seq (.act (.build .self .strbufIdentifier [])) (.nt .r_ws
    none))))) (.err 6))

/-- `string-literal` (parser.leg:634-636). -/
def r_string_literal : E :=
    .seq (.act .sbReset) (.onfail (.seq (.pred .blockStart) (.seq (.nt .r_quoted none) (.seq
    (.pred .blockEnd) (.seq (.act (.build .self .strbufString [])) (.nt .r_ws none))))) (.err
    7))

/-- `float-literal` (parser.leg:638-640). -/
def r_float_literal : E :=
    .seq (.act .sbReset) (.onfail (.seq (.pred .blockStart) (.seq (.nt .r_float_string none)
    (.seq (.pred .blockEnd) (.seq (.act (.build .self .strbufFloat [])) (.nt .r_ws none)))))
    (.err 8))

/-- `integer-literal` (parser.leg:642-644). -/
def r_integer_literal : E :=
    .seq (.act .sbReset) (.onfail (.seq (.pred .blockStart) (.seq (.nt .r_integer_string none)
    (.seq (.pred .blockEnd) (.seq (.act (.build .self .strbufInteger [])) (.nt .r_ws none)))))
    (.err 9))

/-- `true-literal` (parser.leg:646-648). -/
def r_true_literal : E :=
    .seq (.pred .blockStart) (.seq (.nt .r_TRUE none) (.seq (.pred .blockEnd) (.seq (.act
    (.build .self .trueLiteral [])) (.nt .r_ws none))))

/-- `false-literal` (parser.leg:649-651). -/
def r_false_literal : E :=
    .seq (.pred .blockStart) (.seq (.nt .r_FALSE none) (.seq (.pred .blockEnd) (.seq (.act
    (.build .self .falseLiteral [])) (.nt .r_ws none))))

/-- `null-literal` (parser.leg:652-654). -/
def r_null_literal : E :=
    .seq (.pred .blockStart) (.seq (.nt .r_NULL none) (.seq (.pred .blockEnd) (.seq (.act
    (.build .self .nullLiteral [])) (.nt .r_ws none))))

/-- `parameter` (parser.leg:656-660). -/
def r_parameter : E :=
    .seq (.nt .r__block_start_ none) (.seq (.act .sbReset) (.seq (.alt (.onfail (.seq (.chr 36)
    (.seq (.nt .r_ws none) (.nt .r_parameter_name none))) (.err 10)) (.seq (.onfail (.seq (.chr
    123) (.seq (.nt .r_ws none) (.nt .r_parameter_name none))) (.err 10)) (.seq (.nt .r_ws none)
    (.nt .r_RIGHT_CURLY none)))) (.seq (.nt .r__block_merge_ none) (.seq (.act (.build .self
    .strbufParameter [])) (.nt .r_ws none)))))

/-- `label` (parser.leg:662-665). -/
def r_label : E :=
    .seq (.nt .r__block_start_ none) (.seq (.act .sbReset) (.seq (.onfail (.seq (.chr 58) (.seq
    (.nt .r_ws none) (.nt .r_symbolic_name none))) (.err 11)) (.seq (.nt .r__block_merge_ none)
    (.seq (.act (.build .self .strbufLabel [])) (.nt .r_ws none)))))

/-- `rel-type` (parser.leg:667-670). -/
def r_rel_type : E :=
    .seq (.nt .r__block_start_ none) (.seq (.act .sbReset) (.seq (.onfail (.seq (.chr 58) (.seq
    (.nt .r_ws none) (.nt .r_symbolic_name none))) (.err 12)) (.seq (.nt .r__block_merge_ none)
    (.seq (.act (.build .self .strbufReltype [])) (.nt .r_ws none)))))

/-- `rel-type-name` (parser.leg:672-675). -/
def r_rel_type_name : E :=
    .seq (.pred .blockStart) (.seq (.act .sbReset) (.seq (.onfail (.nt .r_symbolic_name none)
    (.err 13)) (.seq (.pred .blockEnd) (.seq (.act (.build .self .strbufReltype [])) (.nt .r_ws
    none)))))

/-- `prop-name` (parser.leg:677-680). -/
def r_prop_name : E :=
    .seq (.pred .blockStart) (.seq (.act .sbReset) (.seq (.onfail (.nt .r_symbolic_name none)
    (.err 14)) (.seq (.pred .blockEnd) (.seq (.act (.build .self .strbufPropName [])) (.nt .r_ws
    none)))))

/-- `function-name` (parser.leg:682-687). -/
def r_function_name : E :=
    .seq (.pred .blockStart) (.seq (.act .sbReset) (.seq (.onfail (.seq (.star (.seq (.nt
    .r_symbolic_name none) (.seq (.nt .r_ws none) (.seq (.nt .r_DOT none) (.seq (.nt .r_ws none)
    (.act (.sbAppend 46))))))) (.nt .r_symbolic_name none)) (.err 15)) (.seq (.pred .blockEnd)
    (.seq (.act (.build .self .strbufFunctionName [])) (.nt .r_ws none)))))

/-- `index-name` (parser.leg:689-692). -/
def r_index_name : E :=
    .seq (.pred .blockStart) (.seq (.act .sbReset) (.seq (.onfail (.nt .r_symbolic_name none)
    (.err 16)) (.seq (.pred .blockEnd) (.seq (.act (.build .self .strbufIndexName [])) (.nt
    .r_ws none)))))

/-- `proc-name` (parser.leg:694-699). -/
def r_proc_name : E :=
    .seq (.pred .blockStart) (.seq (.act .sbReset) (.seq (.onfail (.seq (.star (.seq (.nt
    .r_symbolic_name none) (.seq (.nt .r_ws none) (.seq (.nt .r_DOT none) (.seq (.nt .r_ws none)
    (.act (.sbAppend 46))))))) (.nt .r_symbolic_name none)) (.err 17)) (.seq (.pred .blockEnd)
    (.seq (.act (.build .self .strbufProcName [])) (.nt .r_ws none)))))

/-- `pattern` (parser.leg:706-710). Variables: p = 0. -/
def r_pattern : E :=
    .seq (.pred .blockStart) (.seq (.nt .r_pattern_part (some 0)) (.seq (.act (.seqAdd [0]))
    (.seq (.star (.seq (.nt .r_COMMA none) (.seq (.nt .r_ws none) (.seq (.nt .r_pattern_part
    (some 0)) (.act (.seqAdd [0])))))) (.seq (.pred .blockEnd) (.seq (.act (.build .self
    .pattern [])) (.nt .r_ws none))))))

/-- `pattern-part` (parser.leg:712-715). Variables: i = 0, p = 1. -/
def r_pattern_part : E :=
    .alt (.seq (.pred .blockStart) (.seq (.nt .r_identifier (some 0)) (.seq (.nt .r_EQUAL none)
    (.seq (.nt .r_ws none) (.seq (.nt .r_anon_pattern_part (some 1)) (.seq (.pred .blockEnd)
    (.act (.build .self .namedPath [some 0, some 1])))))))) (.seq (.nt .r_anon_pattern_part
    (some 1)) (.act (.copy 1)))

/-- `anon-pattern-part` (parser.leg:717-719). Variables: p = 0. -/
def r_anon_pattern_part : E :=
    .alt (.seq (.nt .r_shortest_path_pattern (some 0)) (.act (.copy 0))) (.seq (.nt
    .r_pattern_path (some 0)) (.act (.copy 0)))

/-- `shortest-path-pattern` (parser.leg:721-725). Variables: p = 0. -/
def r_shortest_path_pattern : E :=
    .alt (.seq (.pred .blockStart) (.seq (.nt .r_SHORTESTPATH none) (.seq (.nt .r_LEFT_PAREN
    none) (.seq (.nt .r_ws none) (.seq (.nt .r_pattern_path (some 0)) (.seq (.nt .r_ws none)
    (.seq (.nt .r_RIGHT_PAREN none) (.seq (.pred .blockEnd) (.act (.build .self (.shortestPath
    true) [some 0])))))))))) (.seq (.pred .blockStart) (.seq (.nt .r_ALLSHORTESTPATHS none)
    (.seq (.nt .r_LEFT_PAREN none) (.seq (.nt .r_ws none) (.seq (.nt .r_pattern_path (some 0))
    (.seq (.nt .r_ws none) (.seq (.nt .r_RIGHT_PAREN none) (.seq (.pred .blockEnd) (.act (.build
    .self (.shortestPath false) [some 0]))))))))))

/-- `pattern-path` (parser.leg:727-731). Variables: n = 0, r = 1. -/
def r_pattern_path : E :=
    .seq (.pred .blockStart) (.seq (.nt .r_node_pattern (some 0)) (.seq (.act (.seqAdd [0]))
    (.seq (.star (.seq (.nt .r_ws none) (.seq (.nt .r_relationship_pattern (some 1)) (.seq (.nt
    .r_ws none) (.seq (.nt .r_node_pattern (some 0)) (.act (.seqAdd [1, 0]))))))) (.seq (.pred
    .blockEnd) (.act (.build .self .patternPath []))))))

/-- `pattern-expression` (parser.leg:733-735). Variables: p = 0. -/
def r_pattern_expression : E :=
    .alt (.seq (.nt .r_shortest_path_pattern (some 0)) (.seq (.nt .r_ws none) (.act (.copy 0))))
    (.seq (.nt .r_pattern_expression_path (some 0)) (.seq (.nt .r_ws none) (.act (.copy 0))))

/-- `pattern-expression-path` (parser.leg:737-741). Variables: n = 0, r = 1. -/
def r_pattern_expression_path : E :=
    .seq (.pred .blockStart) (.seq (.nt .r_node_pattern (some 0)) (.seq (.act (.seqAdd [0]))
    (.seq (.plus (.seq (.nt .r_ws none) (.seq (.nt .r_relationship_pattern (some 1)) (.seq (.nt
    .r_ws none) (.seq (.nt .r_node_pattern (some 0)) (.act (.seqAdd [1, 0]))))))) (.seq (.pred
    .blockEnd) (.act (.build .self .patternPath []))))))

/-- `node-pattern` (parser.leg:743-747). Variables: i = 0, n = 1, p = 2. -/
def r_node_pattern : E :=
    .seq (.pred .blockStart) (.seq (.nt .r_LEFT_PAREN none) (.seq (.nt .r_ws none) (.seq (.alt
    (.nt .r_identifier (some 0)) (.nt .r__null_ (some 0))) (.seq (.star (.seq (.nt .r_label
    (some 1)) (.act (.seqAdd [1])))) (.seq (.alt (.nt .r_pattern_properties (some 2)) (.nt
    .r__null_ (some 2))) (.seq (.nt .r_RIGHT_PAREN none) (.seq (.pred .blockEnd) (.act (.build
    .self .nodePattern [some 0, some 2])))))))))

/-- `relationship-pattern` (parser.leg:749-774). Variables: i = 0, l = 1, p = 2. -/
def r_relationship_pattern : E :=
    .seq (.pred .blockStart) (.alt (.seq (.nt .r_LEFT_ARROW_HEAD none) (.seq (.nt .r_ws none)
    (.seq (.nt .r_DASH none) (.seq (.nt .r_ws none) (.alt (.seq (.nt .r_DASH none) (.alt (.seq
    (.nt .r_ws none) (.seq (.nt .r_RIGHT_ARROW_HEAD none) (.seq (.pred .blockEnd) (.act (.build
    .self (.relPattern .bidirectional) [none, none, none]))))) (.seq (.nt .r__empty_ none) (.seq
    (.pred .blockEnd) (.act (.build .self (.relPattern .inbound) [none, none, none])))))) (.seq
    (.nt .r_LEFT_SQ_PAREN none) (.seq (.nt .r_ws none) (.seq (.alt (.nt .r_identifier (some 0))
    (.nt .r__null_ (some 0))) (.seq (.opt (.nt .r_rel_types none)) (.seq (.alt (.nt
    .r_rel_varlength (some 1)) (.nt .r__null_ (some 1))) (.seq (.alt (.nt .r_pattern_properties
    (some 2)) (.nt .r__null_ (some 2))) (.seq (.nt .r_RIGHT_SQ_PAREN none) (.seq (.nt .r_ws
    none) (.seq (.nt .r_DASH none) (.alt (.seq (.nt .r_ws none) (.seq (.nt .r_RIGHT_ARROW_HEAD
    none) (.seq (.pred .blockEnd) (.act (.build .self (.relPattern .bidirectional) [some 0, some
    1, some 2]))))) (.seq (.nt .r__empty_ none) (.seq (.pred .blockEnd) (.act (.build .self
    (.relPattern .inbound) [some 0, some 1, some 2]))))))))))))))))))) (.seq (.nt .r_DASH none)
    (.seq (.nt .r_ws none) (.alt (.seq (.nt .r_DASH none) (.alt (.seq (.nt .r_ws none) (.seq
    (.nt .r_RIGHT_ARROW_HEAD none) (.seq (.pred .blockEnd) (.act (.build .self (.relPattern
    .outbound) [none, none, none]))))) (.seq (.nt .r__empty_ none) (.seq (.pred .blockEnd) (.act
    (.build .self (.relPattern .bidirectional) [none, none, none])))))) (.seq (.nt
    .r_LEFT_SQ_PAREN none) (.seq (.nt .r_ws none) (.seq (.alt (.nt .r_identifier (some 0)) (.nt
    .r__null_ (some 0))) (.seq (.opt (.nt .r_rel_types none)) (.seq (.alt (.nt .r_rel_varlength
    (some 1)) (.nt .r__null_ (some 1))) (.seq (.alt (.nt .r_pattern_properties (some 2)) (.nt
    .r__null_ (some 2))) (.seq (.nt .r_RIGHT_SQ_PAREN none) (.seq (.nt .r_ws none) (.seq (.nt
    .r_DASH none) (.alt (.seq (.nt .r_ws none) (.seq (.nt .r_RIGHT_ARROW_HEAD none) (.seq (.pred
    .blockEnd) (.act (.build .self (.relPattern .outbound) [some 0, some 1, some 2]))))) (.seq
    (.nt .r__empty_ none) (.seq (.pred .blockEnd) (.act (.build .self (.relPattern
    .bidirectional) [some 0, some 1, some 2]))))))))))))))))))

/-- `rel-types` (parser.leg:776-780). Variables: n = 0. -/
def r_rel_types : E :=
    .seq (.nt .r_rel_type (some 0)) (.seq (.act (.seqAdd [0])) (.star (.seq (.nt .r_PIPE none)
    (.seq (.nt .r_ws none) (.seq (.alt (.nt .r_rel_type (some 0)) (.nt .r_rel_type_name (some
    0))) (.act (.seqAdd [0])))))))

/-- `rel-varlength` (parser.leg:782-789). Variables: s = 0, e = 1. -/
def r_rel_varlength : E :=
    .alt (.seq (.pred .blockStart) (.seq (.nt .r_STAR none) (.seq (.nt .r_ws none) (.seq (.alt
    (.nt .r_integer_literal (some 0)) (.nt .r__null_ (some 0))) (.seq (.nt .r_ELLIPSIS none)
    (.seq (.nt .r_ws none) (.seq (.alt (.nt .r_integer_literal (some 1)) (.nt .r__null_ (some
    1))) (.seq (.pred .blockEnd) (.act (.build .self .range [some 0, some 1])))))))))) (.alt
    (.seq (.nt .r_STAR none) (.seq (.nt .r_ws none) (.seq (.pred .blockStart) (.seq (.alt (.nt
    .r_integer_literal (some 0)) (.nt .r__null_ (some 0))) (.seq (.pred .blockEnd) (.act (.build
    .self .range [some 0, some 0]))))))) (.seq (.pred .blockStart) (.seq (.nt .r_STAR none)
    (.seq (.nt .r_ws none) (.seq (.pred .blockEnd) (.act (.build .self .range [none,
    none])))))))

/-- `pattern-properties` (parser.leg:791). -/
def r_pattern_properties : E :=
    .alt (.nt .r_map_literal none) (.nt .r_parameter none)

/-- `client-command` (parser.leg:798-804). Variables: n = 0, a = 1. -/
def r_client_command : E :=
    .seq (.pred .blockStart) (.seq (.nt .r_COLON none) (.seq (.nt .r_hws none) (.seq (.nt
    .r_client_command_name (some 0)) (.seq (.star (.alt (.seq (.chr 92) (.seq (.nt .r_hws none)
    (.seq (.nt .r_line_end none) (.nt .r_hws none)))) (.seq (.nt .r_client_command_arg (some 1))
    (.act (.seqAdd [1]))))) (.seq (.pred .blockEnd) (.seq (.act (.build .self .command [some
    0])) (.alt (.nt .r_SEMICOLON none) (.nt .r_line_end none))))))))

/-- `client-command-name` (parser.leg:806-807). Variables: n = 0. -/
def r_client_command_name : E :=
    .seq (.onfail (.nt .r_client_command_arg (some 0)) (.err 18)) (.act (.copy 0))

/-- `client-command-arg` (parser.leg:808-809). Variables: s = 0. -/
def r_client_command_arg : E :=
    .seq (.nt .r_client_arg_string (some 0)) (.seq (.nt .r_hws none) (.act (.copy 0)))

/-- `client-arg-string` (parser.leg:811-812). -/
def r_client_arg_string : E :=
    .seq (.act .sbReset) (.seq (.pred .blockStart) (.seq (.plus (.alt (.nt .r_unquoted none)
    (.nt .r_quoted none))) (.seq (.pred .blockEnd) (.act (.build .self .strbufString [])))))

/-- `unquoted` (parser.leg:821-826). -/
def r_unquoted : E :=
    .plus (.alt (.nt .r_escaped_char none) (.alt (.seq (.str [92, 59]) (.act (.sbAppend 59)))
    (.seq (.pred .blockStart) (.seq (.plus (.seq (.npeek (.alt (.one ⟨0x8400000000⟩) (.alt (.nt
    .r_WS none) (.alt (.str [47, 47]) (.alt (.str [47, 42]) (.alt (.chr 92) (.alt (.nt
    .r_SEMICOLON none) (.nt .r_EOF none)))))))) .dot)) (.seq (.pred .blockEnd) (.act
    .sbAppendBlock))))))

/-- `quoted` (parser.leg:828). -/
def r_quoted : E :=
    .alt (.nt .r_single_quoted none) (.nt .r_double_quoted none)

/-- `single-quoted` (parser.leg:829-834). -/
def r_single_quoted : E :=
    .seq (.chr 39) (.seq (.star (.alt (.nt .r_escaped_char none) (.alt (.seq (.pred .blockStart)
    (.seq (.nt .r_EOL none) (.seq (.pred .blockEnd) (.act .sbAppendBlock)))) (.seq (.pred
    .blockStart) (.seq (.plus (.seq (.npeek (.alt (.chr 39) (.alt (.nt .r_escaped_char none)
    (.nt .r_EOL none)))) .dot)) (.seq (.pred .blockEnd) (.act .sbAppendBlock))))))) (.onfail
    (.chr 39) (.err 19)))

/-- `double-quoted` (parser.leg:835-840). -/
def r_double_quoted : E :=
    .seq (.chr 34) (.seq (.star (.alt (.nt .r_escaped_char none) (.alt (.seq (.pred .blockStart)
    (.seq (.nt .r_EOL none) (.seq (.pred .blockEnd) (.act .sbAppendBlock)))) (.seq (.pred
    .blockStart) (.seq (.plus (.seq (.npeek (.alt (.chr 34) (.alt (.nt .r_escaped_char none)
    (.nt .r_EOL none)))) .dot)) (.seq (.pred .blockEnd) (.act .sbAppendBlock))))))) (.onfail
    (.chr 34) (.err 20)))

/-- `escaped-char` (parser.leg:842-853). -/
def r_escaped_char : E :=
    .alt (.seq (.str [92, 97]) (.act (.sbAppend 7))) (.alt (.seq (.str [92, 98]) (.act
    (.sbAppend 8))) (.alt (.seq (.str [92, 102]) (.act (.sbAppend 12))) (.alt (.seq (.str [92,
    110]) (.act (.sbAppend 10))) (.alt (.seq (.str [92, 114]) (.act (.sbAppend 13))) (.alt (.seq
    (.str [92, 116]) (.act (.sbAppend 9))) (.alt (.seq (.str [92, 118]) (.act (.sbAppend 11)))
    (.alt (.seq (.str [92, 92]) (.act (.sbAppend 92))) (.alt (.seq (.str [92, 39]) (.act
    (.sbAppend 39))) (.alt (.seq (.str [92, 34]) (.act (.sbAppend 34))) (.seq (.str [92, 63])
    (.act (.sbAppend 63))))))))))))

/-- `symbolic-name` (parser.leg:855-857). -/
def r_symbolic_name : E :=
    .alt (.nt .r_unescaped_symbolic_name none) (.nt .r_escaped_symbolic_name none)

/-- `unescaped-symbolic-name` (parser.leg:858-859). -/
def r_unescaped_symbolic_name : E :=
    .seq (.pred .blockStart) (.seq (.nt .r_sym_start none) (.seq (.star (.nt .r_sym_part none))
    (.seq (.pred .blockEnd) (.act .sbAppendBlock))))

/-- `escaped-symbolic-name` (parser.leg:860-861). -/
def r_escaped_symbolic_name : E :=
    .seq (.chr 96) (.seq (.pred .blockStart) (.seq (.star (.seq (.npeek (.chr 96)) .dot)) (.seq
    (.pred .blockEnd) (.seq (.onfail (.chr 96) (.err 21)) (.act .sbAppendBlock)))))

/-- `parameter-name` (parser.leg:863-865). -/
def r_parameter_name : E :=
    .alt (.nt .r_symbolic_name none) (.seq (.pred .blockStart) (.seq (.one ⟨0x3fe000000000000⟩)
    (.seq (.star (.one ⟨0x3ff000000000000⟩)) (.seq (.pred .blockEnd) (.act .sbAppendBlock)))))

/-- `float-string` (parser.leg:869-872). -/
def r_float_string : E :=
    .alt (.seq (.pred .blockStart) (.seq (.plus (.one ⟨0x3ff000000000000⟩)) (.seq (.opt (.chr
    46)) (.seq (.star (.one ⟨0x3ff000000000000⟩)) (.seq (.one ⟨0x20000000200000000000000000⟩)
    (.seq (.opt (.one ⟨0x280000000000⟩)) (.seq (.one ⟨0x3ff000000000000⟩) (.seq (.star (.nt
    .r_sym_part none)) (.seq (.pred .blockEnd) (.act .sbAppendBlock)))))))))) (.seq (.pred
    .blockStart) (.seq (.star (.one ⟨0x3ff000000000000⟩)) (.seq (.chr 46) (.seq (.one
    ⟨0x3ff000000000000⟩) (.seq (.star (.nt .r_sym_part none)) (.seq (.pred .blockEnd) (.act
    .sbAppendBlock)))))))

/-- `integer-string` (parser.leg:879). -/
def r_integer_string : E :=
    .seq (.pred .blockStart) (.seq (.one ⟨0x3ff000000000000⟩) (.seq (.star (.nt .r_sym_part
    none)) (.seq (.pred .blockEnd) (.act .sbAppendBlock))))

/-- `sym-start` (parser.leg:881). -/
def r_sym_start : E :=
    .one ⟨0x7fffffe87fffffe0000000000000000⟩

/-- `sym-part` (parser.leg:882). -/
def r_sym_part : E :=
    .one ⟨0x7fffffe87fffffe03ff001000000000⟩

/-- `-` (parser.leg:889). -/
def r_ws : E :=
    .star (.alt (.nt .r_WS none) (.nt .r_comment none))

/-- `--` (parser.leg:890). -/
def r_hws : E :=
    .star (.alt (.nt .r_HWS none) (.nt .r_block_comment none))

/-- `line-end` (parser.leg:891). -/
def r_line_end : E :=
    .alt (.nt .r_line_comment none) (.alt (.nt .r_EOL none) (.nt .r_EOF none))

/-- `comment` (parser.leg:893). -/
def r_comment : E :=
    .alt (.nt .r_line_comment none) (.nt .r_block_comment none)

/-- `line-comment` (parser.leg:894-895). -/
def r_line_comment : E :=
    .seq (.str [47, 47]) (.seq (.pred .blockStart) (.seq (.star (.seq (.npeek (.nt .r_EOL none))
    .dot)) (.seq (.pred .blockEnd) (.seq (.act (.build .discard .lineComment [])) (.alt (.nt
    .r_EOL none) (.nt .r_EOF none))))))

/-- `block-comment` (parser.leg:896-898). -/
def r_block_comment : E :=
    .seq (.str [47, 42]) (.seq (.pred .blockStart) (.seq (.star (.alt (.nt .r_EOL none) (.seq
    (.npeek (.str [42, 47])) .dot))) (.seq (.pred .blockEnd) (.seq (.act (.build .discard
    .blockComment [])) (.onfail (.str [42, 47]) (.err 22))))))

/-- `WS` (parser.leg:900). -/
def r_WS : E :=
    .alt (.nt .r_HWS none) (.nt .r_EOL none)

/-- `HWS` (parser.leg:901). -/
def r_HWS : E :=
    .one ⟨0x100000200⟩

/-- `EOL` (parser.leg:902). -/
def r_EOL : E :=
    .seq (.alt (.chr 10) (.str [13, 10])) (.nt .r__line_start_ none)

/-- `EOF` (parser.leg:903). -/
def r_EOF : E :=
    .seq (.npeek .dot) (.act .eof)

/-- `CYPHER` (parser.leg:910). -/
def r_CYPHER : E :=
    .seq (.one ⟨0x8000000080000000000000000⟩) (.onfail (.seq (.one
    ⟨0x2000000020000000000000000000000⟩) (.seq (.one ⟨0x10000000100000000000000000000⟩) (.seq
    (.one ⟨0x100000001000000000000000000⟩) (.seq (.one ⟨0x20000000200000000000000000⟩) (.seq
    (.one ⟨0x40000000400000000000000000000⟩) (.nt .r_WB none)))))) (.err 23))

/-- `PROFILE` (parser.leg:911). -/
def r_PROFILE : E :=
    .seq (.one ⟨0x10000000100000000000000000000⟩) (.onfail (.seq (.one
    ⟨0x40000000400000000000000000000⟩) (.seq (.one ⟨0x8000000080000000000000000000⟩) (.seq (.one
    ⟨0x40000000400000000000000000⟩) (.seq (.one ⟨0x200000002000000000000000000⟩) (.seq (.one
    ⟨0x1000000010000000000000000000⟩) (.seq (.one ⟨0x20000000200000000000000000⟩) (.nt .r_WB
    none))))))) (.err 24))

/-- `EXPLAIN` (parser.leg:912). -/
def r_EXPLAIN : E :=
    .seq (.one ⟨0x20000000200000000000000000⟩) (.onfail (.seq (.one
    ⟨0x1000000010000000000000000000000⟩) (.seq (.one ⟨0x10000000100000000000000000000⟩) (.seq
    (.one ⟨0x1000000010000000000000000000⟩) (.seq (.one ⟨0x2000000020000000000000000⟩) (.seq
    (.one ⟨0x200000002000000000000000000⟩) (.seq (.one ⟨0x4000000040000000000000000000⟩) (.nt
    .r_WB none))))))) (.err 25))

/-- `OR` (parser.leg:914). -/
def r_OR : E :=
    .onfail (.seq (.one ⟨0x8000000080000000000000000000⟩) (.seq (.one
    ⟨0x40000000400000000000000000000⟩) (.nt .r_WB none))) (.err 26)

/-- `XOR` (parser.leg:915). -/
def r_XOR : E :=
    .onfail (.seq (.one ⟨0x1000000010000000000000000000000⟩) (.seq (.one
    ⟨0x8000000080000000000000000000⟩) (.seq (.one ⟨0x40000000400000000000000000000⟩) (.nt .r_WB
    none)))) (.err 27)

/-- `AND` (parser.leg:916). -/
def r_AND : E :=
    .onfail (.seq (.one ⟨0x2000000020000000000000000⟩) (.seq (.one
    ⟨0x4000000040000000000000000000⟩) (.seq (.one ⟨0x10000000100000000000000000⟩) (.nt .r_WB
    none)))) (.err 28)

/-- `NOT` (parser.leg:917). -/
def r_NOT : E :=
    .onfail (.seq (.one ⟨0x4000000040000000000000000000⟩) (.seq (.one
    ⟨0x8000000080000000000000000000⟩) (.seq (.one ⟨0x100000001000000000000000000000⟩) (.nt .r_WB
    none)))) (.err 29)

/-- `EQUAL` (parser.leg:918). -/
def r_EQUAL : E :=
    .onfail (.chr 61) (.err 30)

/-- `NEQUAL` (parser.leg:919). -/
def r_NEQUAL : E :=
    .onfail (.str [60, 62]) (.err 31)

/-- `PLUSEQUAL` (parser.leg:920). -/
def r_PLUSEQUAL : E :=
    .onfail (.str [43, 61]) (.err 32)

/-- `LT` (parser.leg:921). -/
def r_LT : E :=
    .onfail (.chr 60) (.err 33)

/-- `GT` (parser.leg:922). -/
def r_GT : E :=
    .onfail (.chr 62) (.err 34)

/-- `LTE` (parser.leg:923). -/
def r_LTE : E :=
    .onfail (.str [60, 61]) (.err 35)

/-- `GTE` (parser.leg:924). -/
def r_GTE : E :=
    .onfail (.str [62, 61]) (.err 36)

/-- `PLUS` (parser.leg:925). -/
def r_PLUS : E :=
    .onfail (.chr 43) (.err 37)

/-- `MINUS` (parser.leg:926). -/
def r_MINUS : E :=
    .onfail (.chr 45) (.err 38)

/-- `MULT` (parser.leg:927). -/
def r_MULT : E :=
    .onfail (.chr 42) (.err 39)

/-- `DIV` (parser.leg:928). -/
def r_DIV : E :=
    .onfail (.chr 47) (.err 40)

/-- `MOD` (parser.leg:929). -/
def r_MOD : E :=
    .onfail (.chr 37) (.err 41)

/-- `POW` (parser.leg:930). -/
def r_POW : E :=
    .onfail (.chr 94) (.err 42)

/-- `IN` (parser.leg:931). -/
def r_IN : E :=
    .onfail (.seq (.one ⟨0x200000002000000000000000000⟩) (.seq (.one
    ⟨0x4000000040000000000000000000⟩) (.nt .r_WB none))) (.err 43)

/-- `REGEX` (parser.leg:932). -/
def r_REGEX : E :=
    .onfail (.str [61, 126]) (.err 44)

/-- `STARTS-WITH` (parser.leg:933). -/
def r_STARTS_WITH : E :=
    .onfail (.seq (.one ⟨0x80000000800000000000000000000⟩) (.seq (.one
    ⟨0x100000001000000000000000000000⟩) (.seq (.one ⟨0x2000000020000000000000000⟩) (.seq (.one
    ⟨0x40000000400000000000000000000⟩) (.seq (.one ⟨0x100000001000000000000000000000⟩) (.seq
    (.one ⟨0x80000000800000000000000000000⟩) (.seq (.nt .r_WB none) (.seq (.nt .r_ws none) (.seq
    (.one ⟨0x800000008000000000000000000000⟩) (.seq (.one ⟨0x200000002000000000000000000⟩) (.seq
    (.one ⟨0x100000001000000000000000000000⟩) (.seq (.one ⟨0x100000001000000000000000000⟩) (.nt
    .r_WB none))))))))))))) (.err 45)

/-- `ENDS-WITH` (parser.leg:934). -/
def r_ENDS_WITH : E :=
    .onfail (.seq (.one ⟨0x20000000200000000000000000⟩) (.seq (.one
    ⟨0x4000000040000000000000000000⟩) (.seq (.one ⟨0x10000000100000000000000000⟩) (.seq (.one
    ⟨0x80000000800000000000000000000⟩) (.seq (.nt .r_WB none) (.seq (.nt .r_ws none) (.seq (.one
    ⟨0x800000008000000000000000000000⟩) (.seq (.one ⟨0x200000002000000000000000000⟩) (.seq (.one
    ⟨0x100000001000000000000000000000⟩) (.seq (.one ⟨0x100000001000000000000000000⟩) (.nt .r_WB
    none))))))))))) (.err 46)

/-- `CONTAINS` (parser.leg:935). -/
def r_CONTAINS : E :=
    .onfail (.seq (.one ⟨0x8000000080000000000000000⟩) (.seq (.one
    ⟨0x8000000080000000000000000000⟩) (.seq (.one ⟨0x4000000040000000000000000000⟩) (.seq (.one
    ⟨0x100000001000000000000000000000⟩) (.seq (.one ⟨0x2000000020000000000000000⟩) (.seq (.one
    ⟨0x200000002000000000000000000⟩) (.seq (.one ⟨0x4000000040000000000000000000⟩) (.seq (.one
    ⟨0x80000000800000000000000000000⟩) (.nt .r_WB none))))))))) (.err 47)

/-- `IS-NULL` (parser.leg:936). -/
def r_IS_NULL : E :=
    .onfail (.seq (.one ⟨0x200000002000000000000000000⟩) (.seq (.one
    ⟨0x80000000800000000000000000000⟩) (.seq (.nt .r_WB none) (.seq (.nt .r_ws none) (.seq (.one
    ⟨0x4000000040000000000000000000⟩) (.seq (.one ⟨0x200000002000000000000000000000⟩) (.seq
    (.one ⟨0x1000000010000000000000000000⟩) (.seq (.one ⟨0x1000000010000000000000000000⟩) (.nt
    .r_WB none))))))))) (.err 48)

/-- `IS-NOT-NULL` (parser.leg:937). -/
def r_IS_NOT_NULL : E :=
    .onfail (.seq (.one ⟨0x200000002000000000000000000⟩) (.seq (.one
    ⟨0x80000000800000000000000000000⟩) (.seq (.nt .r_WB none) (.seq (.nt .r_ws none) (.seq (.one
    ⟨0x4000000040000000000000000000⟩) (.seq (.one ⟨0x8000000080000000000000000000⟩) (.seq (.one
    ⟨0x100000001000000000000000000000⟩) (.seq (.nt .r_WB none) (.seq (.nt .r_ws none) (.seq
    (.one ⟨0x4000000040000000000000000000⟩) (.seq (.one ⟨0x200000002000000000000000000000⟩)
    (.seq (.one ⟨0x1000000010000000000000000000⟩) (.seq (.one ⟨0x1000000010000000000000000000⟩)
    (.nt .r_WB none)))))))))))))) (.err 49)

/-- `DOT` (parser.leg:938). -/
def r_DOT : E :=
    .onfail (.chr 46) (.err 50)

/-- `DOT-STAR` (parser.leg:939). -/
def r_DOT_STAR : E :=
    .onfail (.seq (.chr 46) (.seq (.nt .r_ws none) (.chr 42))) (.err 51)

/-- `COLON` (parser.leg:941). -/
def r_COLON : E :=
    .onfail (.chr 58) (.err 52)

/-- `SEMICOLON` (parser.leg:942). -/
def r_SEMICOLON : E :=
    .onfail (.chr 59) (.err 53)

/-- `COMMA` (parser.leg:943). -/
def r_COMMA : E :=
    .onfail (.chr 44) (.err 54)

/-- `STAR` (parser.leg:944). -/
def r_STAR : E :=
    .onfail (.chr 42) (.err 39)

/-- `PIPE` (parser.leg:945). -/
def r_PIPE : E :=
    .onfail (.chr 124) (.err 55)

/-- `DASH` (parser.leg:946). -/
def r_DASH : E :=
    .onfail (.chr 45) (.err 38)

/-- `LEFT-PAREN` (parser.leg:947). -/
def r_LEFT_PAREN : E :=
    .onfail (.chr 40) (.err 56)

/-- `RIGHT-PAREN` (parser.leg:948). -/
def r_RIGHT_PAREN : E :=
    .onfail (.chr 41) (.err 57)

/-- `LEFT-SQ-PAREN` (parser.leg:949). -/
def r_LEFT_SQ_PAREN : E :=
    .onfail (.chr 91) (.err 58)

/-- `RIGHT-SQ-PAREN` (parser.leg:950). -/
def r_RIGHT_SQ_PAREN : E :=
    .onfail (.chr 93) (.err 59)

/-- `LEFT-CURLY` (parser.leg:951). -/
def r_LEFT_CURLY : E :=
    .onfail (.chr 123) (.err 60)

/-- `RIGHT-CURLY` (parser.leg:952). -/
def r_RIGHT_CURLY : E :=
    .onfail (.chr 125) (.err 61)

/-- `ELLIPSIS` (parser.leg:953). -/
def r_ELLIPSIS : E :=
    .onfail (.str [46, 46]) (.err 62)

/-- `LEFT-ARROW-HEAD` (parser.leg:954). -/
def r_LEFT_ARROW_HEAD : E :=
    .onfail (.chr 60) (.err 33)

/-- `RIGHT-ARROW-HEAD` (parser.leg:955). -/
def r_RIGHT_ARROW_HEAD : E :=
    .onfail (.chr 62) (.err 34)

/-- `CREATE-CONSTRAINT-ON` (parser.leg:958-960). -/
def r_CREATE_CONSTRAINT_ON : E :=
    .seq (.one ⟨0x8000000080000000000000000⟩) (.onfail (.seq (.one
    ⟨0x40000000400000000000000000000⟩) (.seq (.one ⟨0x20000000200000000000000000⟩) (.seq (.one
    ⟨0x2000000020000000000000000⟩) (.seq (.one ⟨0x100000001000000000000000000000⟩) (.seq (.one
    ⟨0x20000000200000000000000000⟩) (.seq (.nt .r_WB none) (.seq (.nt .r_ws none) (.seq (.one
    ⟨0x8000000080000000000000000⟩) (.seq (.one ⟨0x8000000080000000000000000000⟩) (.seq (.one
    ⟨0x4000000040000000000000000000⟩) (.seq (.one ⟨0x80000000800000000000000000000⟩) (.seq (.one
    ⟨0x100000001000000000000000000000⟩) (.seq (.one ⟨0x40000000400000000000000000000⟩) (.seq
    (.one ⟨0x2000000020000000000000000⟩) (.seq (.one ⟨0x200000002000000000000000000⟩) (.seq
    (.one ⟨0x4000000040000000000000000000⟩) (.seq (.one ⟨0x100000001000000000000000000000⟩)
    (.seq (.nt .r_WB none) (.seq (.nt .r_ws none) (.seq (.one ⟨0x8000000080000000000000000000⟩)
    (.seq (.one ⟨0x4000000040000000000000000000⟩) (.seq (.nt .r_WB none) (.nt .r_ws
    none))))))))))))))))))))))) (.err 63))

/-- `CREATE-INDEX-ON` (parser.leg:961-963). -/
def r_CREATE_INDEX_ON : E :=
    .seq (.one ⟨0x8000000080000000000000000⟩) (.onfail (.seq (.one
    ⟨0x40000000400000000000000000000⟩) (.seq (.one ⟨0x20000000200000000000000000⟩) (.seq (.one
    ⟨0x2000000020000000000000000⟩) (.seq (.one ⟨0x100000001000000000000000000000⟩) (.seq (.one
    ⟨0x20000000200000000000000000⟩) (.seq (.nt .r_WB none) (.seq (.nt .r_ws none) (.seq (.one
    ⟨0x200000002000000000000000000⟩) (.seq (.one ⟨0x4000000040000000000000000000⟩) (.seq (.one
    ⟨0x10000000100000000000000000⟩) (.seq (.one ⟨0x20000000200000000000000000⟩) (.seq (.one
    ⟨0x1000000010000000000000000000000⟩) (.seq (.nt .r_WB none) (.seq (.nt .r_ws none) (.seq
    (.one ⟨0x8000000080000000000000000000⟩) (.seq (.one ⟨0x4000000040000000000000000000⟩) (.seq
    (.nt .r_WB none) (.nt .r_ws none)))))))))))))))))) (.err 64))

/-- `DROP-CONSTRAINT-ON` (parser.leg:964-966). -/
def r_DROP_CONSTRAINT_ON : E :=
    .seq (.one ⟨0x10000000100000000000000000⟩) (.onfail (.seq (.one
    ⟨0x40000000400000000000000000000⟩) (.seq (.one ⟨0x8000000080000000000000000000⟩) (.seq (.one
    ⟨0x10000000100000000000000000000⟩) (.seq (.nt .r_WB none) (.seq (.nt .r_ws none) (.seq (.one
    ⟨0x8000000080000000000000000⟩) (.seq (.one ⟨0x8000000080000000000000000000⟩) (.seq (.one
    ⟨0x4000000040000000000000000000⟩) (.seq (.one ⟨0x80000000800000000000000000000⟩) (.seq (.one
    ⟨0x100000001000000000000000000000⟩) (.seq (.one ⟨0x40000000400000000000000000000⟩) (.seq
    (.one ⟨0x2000000020000000000000000⟩) (.seq (.one ⟨0x200000002000000000000000000⟩) (.seq
    (.one ⟨0x4000000040000000000000000000⟩) (.seq (.one ⟨0x100000001000000000000000000000⟩)
    (.seq (.nt .r_WB none) (.seq (.nt .r_ws none) (.seq (.one ⟨0x8000000080000000000000000000⟩)
    (.seq (.one ⟨0x4000000040000000000000000000⟩) (.seq (.nt .r_WB none) (.nt .r_ws
    none))))))))))))))))))))) (.err 65))

/-- `DROP-INDEX-ON` (parser.leg:967-968). -/
def r_DROP_INDEX_ON : E :=
    .seq (.one ⟨0x10000000100000000000000000⟩) (.onfail (.seq (.one
    ⟨0x40000000400000000000000000000⟩) (.seq (.one ⟨0x8000000080000000000000000000⟩) (.seq (.one
    ⟨0x10000000100000000000000000000⟩) (.seq (.nt .r_WB none) (.seq (.nt .r_ws none) (.seq (.one
    ⟨0x200000002000000000000000000⟩) (.seq (.one ⟨0x4000000040000000000000000000⟩) (.seq (.one
    ⟨0x10000000100000000000000000⟩) (.seq (.one ⟨0x20000000200000000000000000⟩) (.seq (.one
    ⟨0x1000000010000000000000000000000⟩) (.seq (.nt .r_WB none) (.seq (.nt .r_ws none) (.seq
    (.one ⟨0x8000000080000000000000000000⟩) (.seq (.one ⟨0x4000000040000000000000000000⟩) (.seq
    (.nt .r_WB none) (.nt .r_ws none)))))))))))))))) (.err 66))

/-- `ASSERT` (parser.leg:970). -/
def r_ASSERT : E :=
    .onfail (.seq (.one ⟨0x2000000020000000000000000⟩) (.seq (.one
    ⟨0x80000000800000000000000000000⟩) (.seq (.one ⟨0x80000000800000000000000000000⟩) (.seq
    (.one ⟨0x20000000200000000000000000⟩) (.seq (.one ⟨0x40000000400000000000000000000⟩) (.seq
    (.one ⟨0x100000001000000000000000000000⟩) (.seq (.nt .r_WB none) (.nt .r_ws none))))))))
    (.err 67)

/-- `IS-UNIQUE` (parser.leg:971). -/
def r_IS_UNIQUE : E :=
    .onfail (.seq (.one ⟨0x200000002000000000000000000⟩) (.seq (.one
    ⟨0x80000000800000000000000000000⟩) (.seq (.nt .r_WB none) (.seq (.nt .r_ws none) (.seq (.one
    ⟨0x200000002000000000000000000000⟩) (.seq (.one ⟨0x4000000040000000000000000000⟩) (.seq
    (.one ⟨0x200000002000000000000000000⟩) (.seq (.one ⟨0x20000000200000000000000000000⟩) (.seq
    (.one ⟨0x200000002000000000000000000000⟩) (.seq (.one ⟨0x20000000200000000000000000⟩) (.seq
    (.nt .r_WB none) (.nt .r_ws none)))))))))))) (.err 68)

/-- `DROP` (parser.leg:972). -/
def r_DROP : E :=
    .seq (.one ⟨0x10000000100000000000000000⟩) (.seq (.one ⟨0x40000000400000000000000000000⟩)
    (.seq (.one ⟨0x8000000080000000000000000000⟩) (.seq (.one ⟨0x10000000100000000000000000000⟩)
    (.seq (.nt .r_WB none) (.nt .r_ws none)))))

/-- `USING-PERIODIC-COMMIT` (parser.leg:975-977). -/
def r_USING_PERIODIC_COMMIT : E :=
    .seq (.one ⟨0x200000002000000000000000000000⟩) (.onfail (.seq (.one
    ⟨0x80000000800000000000000000000⟩) (.seq (.one ⟨0x200000002000000000000000000⟩) (.seq (.one
    ⟨0x4000000040000000000000000000⟩) (.seq (.one ⟨0x80000000800000000000000000⟩) (.seq (.nt
    .r_WB none) (.seq (.nt .r_ws none) (.seq (.one ⟨0x10000000100000000000000000000⟩) (.seq
    (.one ⟨0x20000000200000000000000000⟩) (.seq (.one ⟨0x40000000400000000000000000000⟩) (.seq
    (.one ⟨0x200000002000000000000000000⟩) (.seq (.one ⟨0x8000000080000000000000000000⟩) (.seq
    (.one ⟨0x10000000100000000000000000⟩) (.seq (.one ⟨0x200000002000000000000000000⟩) (.seq
    (.one ⟨0x8000000080000000000000000⟩) (.seq (.nt .r_WB none) (.seq (.nt .r_ws none) (.seq
    (.one ⟨0x8000000080000000000000000⟩) (.seq (.one ⟨0x8000000080000000000000000000⟩) (.seq
    (.one ⟨0x2000000020000000000000000000⟩) (.seq (.one ⟨0x2000000020000000000000000000⟩) (.seq
    (.one ⟨0x200000002000000000000000000⟩) (.seq (.one ⟨0x100000001000000000000000000000⟩) (.seq
    (.nt .r_WB none) (.nt .r_ws none)))))))))))))))))))))))) (.err 69))

/-- `LOADCSV` (parser.leg:978). -/
def r_LOADCSV : E :=
    .seq (.one ⟨0x1000000010000000000000000000⟩) (.onfail (.seq (.one
    ⟨0x8000000080000000000000000000⟩) (.seq (.one ⟨0x2000000020000000000000000⟩) (.seq (.one
    ⟨0x10000000100000000000000000⟩) (.seq (.nt .r_WB none) (.seq (.nt .r_ws none) (.seq (.one
    ⟨0x8000000080000000000000000⟩) (.seq (.one ⟨0x80000000800000000000000000000⟩) (.seq (.one
    ⟨0x400000004000000000000000000000⟩) (.seq (.nt .r_WB none) (.nt .r_ws none)))))))))) (.err
    70))

/-- `START` (parser.leg:979). -/
def r_START : E :=
    .seq (.one ⟨0x80000000800000000000000000000⟩) (.onfail (.seq (.one
    ⟨0x100000001000000000000000000000⟩) (.seq (.one ⟨0x2000000020000000000000000⟩) (.seq (.one
    ⟨0x40000000400000000000000000000⟩) (.seq (.one ⟨0x100000001000000000000000000000⟩) (.seq
    (.nt .r_WB none) (.nt .r_ws none)))))) (.err 71))

/-- `MATCH` (parser.leg:980). -/
def r_MATCH : E :=
    .seq (.one ⟨0x2000000020000000000000000000⟩) (.onfail (.seq (.one
    ⟨0x2000000020000000000000000⟩) (.seq (.one ⟨0x100000001000000000000000000000⟩) (.seq (.one
    ⟨0x8000000080000000000000000⟩) (.seq (.one ⟨0x100000001000000000000000000⟩) (.seq (.nt .r_WB
    none) (.nt .r_ws none)))))) (.err 72))

/-- `OPTIONAL-MATCH` (parser.leg:981-982). -/
def r_OPTIONAL_MATCH : E :=
    .seq (.one ⟨0x8000000080000000000000000000⟩) (.onfail (.seq (.one
    ⟨0x10000000100000000000000000000⟩) (.seq (.one ⟨0x100000001000000000000000000000⟩) (.seq
    (.one ⟨0x200000002000000000000000000⟩) (.seq (.one ⟨0x8000000080000000000000000000⟩) (.seq
    (.one ⟨0x4000000040000000000000000000⟩) (.seq (.one ⟨0x2000000020000000000000000⟩) (.seq
    (.one ⟨0x1000000010000000000000000000⟩) (.seq (.nt .r_WB none) (.seq (.nt .r_ws none) (.nt
    .r_MATCH none)))))))))) (.err 73))

/-- `UNWIND` (parser.leg:983). -/
def r_UNWIND : E :=
    .seq (.one ⟨0x200000002000000000000000000000⟩) (.onfail (.seq (.one
    ⟨0x4000000040000000000000000000⟩) (.seq (.one ⟨0x800000008000000000000000000000⟩) (.seq
    (.one ⟨0x200000002000000000000000000⟩) (.seq (.one ⟨0x4000000040000000000000000000⟩) (.seq
    (.one ⟨0x10000000100000000000000000⟩) (.seq (.nt .r_WB none) (.nt .r_ws none))))))) (.err
    74))

/-- `MERGE` (parser.leg:984). -/
def r_MERGE : E :=
    .seq (.one ⟨0x2000000020000000000000000000⟩) (.onfail (.seq (.one
    ⟨0x20000000200000000000000000⟩) (.seq (.one ⟨0x40000000400000000000000000000⟩) (.seq (.one
    ⟨0x80000000800000000000000000⟩) (.seq (.one ⟨0x20000000200000000000000000⟩) (.seq (.nt .r_WB
    none) (.nt .r_ws none)))))) (.err 75))

/-- `CREATE` (parser.leg:985). -/
def r_CREATE : E :=
    .seq (.one ⟨0x8000000080000000000000000⟩) (.onfail (.seq (.one
    ⟨0x40000000400000000000000000000⟩) (.seq (.one ⟨0x20000000200000000000000000⟩) (.seq (.one
    ⟨0x2000000020000000000000000⟩) (.seq (.one ⟨0x100000001000000000000000000000⟩) (.seq (.one
    ⟨0x20000000200000000000000000⟩) (.seq (.nt .r_WB none) (.nt .r_ws none))))))) (.err 76))

/-- `CREATE-UNIQUE` (parser.leg:986-987). -/
def r_CREATE_UNIQUE : E :=
    .seq (.one ⟨0x8000000080000000000000000⟩) (.onfail (.seq (.one
    ⟨0x40000000400000000000000000000⟩) (.seq (.one ⟨0x20000000200000000000000000⟩) (.seq (.one
    ⟨0x2000000020000000000000000⟩) (.seq (.one ⟨0x100000001000000000000000000000⟩) (.seq (.one
    ⟨0x20000000200000000000000000⟩) (.seq (.nt .r_WB none) (.seq (.nt .r_ws none) (.seq (.one
    ⟨0x200000002000000000000000000000⟩) (.seq (.one ⟨0x4000000040000000000000000000⟩) (.seq
    (.one ⟨0x200000002000000000000000000⟩) (.seq (.one ⟨0x20000000200000000000000000000⟩) (.seq
    (.one ⟨0x200000002000000000000000000000⟩) (.seq (.one ⟨0x20000000200000000000000000⟩) (.seq
    (.nt .r_WB none) (.nt .r_ws none))))))))))))))) (.err 77))

/-- `SET` (parser.leg:988). -/
def r_SET : E :=
    .seq (.one ⟨0x80000000800000000000000000000⟩) (.onfail (.seq (.one
    ⟨0x20000000200000000000000000⟩) (.seq (.one ⟨0x100000001000000000000000000000⟩) (.seq (.nt
    .r_WB none) (.nt .r_ws none)))) (.err 5))

/-- `DELETE` (parser.leg:989). -/
def r_DELETE : E :=
    .seq (.one ⟨0x10000000100000000000000000⟩) (.onfail (.seq (.one
    ⟨0x20000000200000000000000000⟩) (.seq (.one ⟨0x1000000010000000000000000000⟩) (.seq (.one
    ⟨0x20000000200000000000000000⟩) (.seq (.one ⟨0x100000001000000000000000000000⟩) (.seq (.one
    ⟨0x20000000200000000000000000⟩) (.seq (.nt .r_WB none) (.nt .r_ws none))))))) (.err 78))

/-- `DETACH-DELETE` (parser.leg:990-991). -/
def r_DETACH_DELETE : E :=
    .seq (.one ⟨0x10000000100000000000000000⟩) (.onfail (.seq (.one
    ⟨0x20000000200000000000000000⟩) (.seq (.one ⟨0x100000001000000000000000000000⟩) (.seq (.one
    ⟨0x2000000020000000000000000⟩) (.seq (.one ⟨0x8000000080000000000000000⟩) (.seq (.one
    ⟨0x100000001000000000000000000⟩) (.seq (.nt .r_WB none) (.seq (.nt .r_ws none) (.seq (.one
    ⟨0x10000000100000000000000000⟩) (.seq (.one ⟨0x20000000200000000000000000⟩) (.seq (.one
    ⟨0x1000000010000000000000000000⟩) (.seq (.one ⟨0x20000000200000000000000000⟩) (.seq (.one
    ⟨0x100000001000000000000000000000⟩) (.seq (.one ⟨0x20000000200000000000000000⟩) (.seq (.nt
    .r_WB none) (.nt .r_ws none))))))))))))))) (.err 79))

/-- `REMOVE` (parser.leg:992). -/
def r_REMOVE : E :=
    .seq (.one ⟨0x40000000400000000000000000000⟩) (.onfail (.seq (.one
    ⟨0x20000000200000000000000000⟩) (.seq (.one ⟨0x2000000020000000000000000000⟩) (.seq (.one
    ⟨0x8000000080000000000000000000⟩) (.seq (.one ⟨0x400000004000000000000000000000⟩) (.seq
    (.one ⟨0x20000000200000000000000000⟩) (.seq (.nt .r_WB none) (.nt .r_ws none))))))) (.err
    80))

/-- `FOREACH` (parser.leg:993). -/
def r_FOREACH : E :=
    .seq (.one ⟨0x40000000400000000000000000⟩) (.onfail (.seq (.one
    ⟨0x8000000080000000000000000000⟩) (.seq (.one ⟨0x40000000400000000000000000000⟩) (.seq (.one
    ⟨0x20000000200000000000000000⟩) (.seq (.one ⟨0x2000000020000000000000000⟩) (.seq (.one
    ⟨0x8000000080000000000000000⟩) (.seq (.one ⟨0x100000001000000000000000000⟩) (.seq (.nt .r_WB
    none) (.nt .r_ws none)))))))) (.err 81))

/-- `WITH` (parser.leg:994). -/
def r_WITH : E :=
    .seq (.one ⟨0x800000008000000000000000000000⟩) (.onfail (.seq (.one
    ⟨0x200000002000000000000000000⟩) (.seq (.one ⟨0x100000001000000000000000000000⟩) (.seq (.one
    ⟨0x100000001000000000000000000⟩) (.seq (.nt .r_WB none) (.nt .r_ws none))))) (.err 82))

/-- `CALL` (parser.leg:995). -/
def r_CALL : E :=
    .seq (.one ⟨0x8000000080000000000000000⟩) (.onfail (.seq (.one
    ⟨0x2000000020000000000000000⟩) (.seq (.one ⟨0x1000000010000000000000000000⟩) (.seq (.one
    ⟨0x1000000010000000000000000000⟩) (.seq (.nt .r_WB none) (.nt .r_ws none))))) (.err 83))

/-- `RETURN` (parser.leg:996). -/
def r_RETURN : E :=
    .seq (.one ⟨0x40000000400000000000000000000⟩) (.onfail (.seq (.one
    ⟨0x20000000200000000000000000⟩) (.seq (.one ⟨0x100000001000000000000000000000⟩) (.seq (.one
    ⟨0x200000002000000000000000000000⟩) (.seq (.one ⟨0x40000000400000000000000000000⟩) (.seq
    (.one ⟨0x4000000040000000000000000000⟩) (.seq (.nt .r_WB none) (.nt .r_ws none))))))) (.err
    84))

/-- `UNION` (parser.leg:997). -/
def r_UNION : E :=
    .seq (.one ⟨0x200000002000000000000000000000⟩) (.onfail (.seq (.one
    ⟨0x4000000040000000000000000000⟩) (.seq (.one ⟨0x200000002000000000000000000⟩) (.seq (.one
    ⟨0x8000000080000000000000000000⟩) (.seq (.one ⟨0x4000000040000000000000000000⟩) (.seq (.nt
    .r_WB none) (.nt .r_ws none)))))) (.err 85))

/-- `node` (parser.leg:999). -/
def r_node : E :=
    .onfail (.seq (.one ⟨0x4000000040000000000000000000⟩) (.seq (.one
    ⟨0x8000000080000000000000000000⟩) (.seq (.one ⟨0x10000000100000000000000000⟩) (.seq (.one
    ⟨0x20000000200000000000000000⟩) (.seq (.nt .r_WB none) (.nt .r_ws none)))))) (.err 86)

/-- `relationship` (parser.leg:1000-1001). -/
def r_relationship : E :=
    .onfail (.seq (.one ⟨0x40000000400000000000000000000⟩) (.seq (.one
    ⟨0x20000000200000000000000000⟩) (.seq (.one ⟨0x1000000010000000000000000000⟩) (.seq (.one
    ⟨0x2000000020000000000000000⟩) (.seq (.one ⟨0x100000001000000000000000000000⟩) (.seq (.one
    ⟨0x200000002000000000000000000⟩) (.seq (.one ⟨0x8000000080000000000000000000⟩) (.seq (.one
    ⟨0x4000000040000000000000000000⟩) (.seq (.one ⟨0x80000000800000000000000000000⟩) (.seq (.one
    ⟨0x100000001000000000000000000⟩) (.seq (.one ⟨0x200000002000000000000000000⟩) (.seq (.one
    ⟨0x10000000100000000000000000000⟩) (.seq (.nt .r_WB none) (.nt .r_ws none))))))))))))))
    (.err 87)

/-- `rel` (parser.leg:1002). -/
def r_rel : E :=
    .onfail (.seq (.one ⟨0x40000000400000000000000000000⟩) (.seq (.one
    ⟨0x20000000200000000000000000⟩) (.seq (.one ⟨0x1000000010000000000000000000⟩) (.seq (.nt
    .r_WB none) (.nt .r_ws none))))) (.err 88)

/-- `USING-INDEX` (parser.leg:1004-1005). -/
def r_USING_INDEX : E :=
    .onfail (.seq (.one ⟨0x200000002000000000000000000000⟩) (.seq (.one
    ⟨0x80000000800000000000000000000⟩) (.seq (.one ⟨0x200000002000000000000000000⟩) (.seq (.one
    ⟨0x4000000040000000000000000000⟩) (.seq (.one ⟨0x80000000800000000000000000⟩) (.seq (.nt
    .r_WB none) (.seq (.nt .r_ws none) (.seq (.one ⟨0x200000002000000000000000000⟩) (.seq (.one
    ⟨0x4000000040000000000000000000⟩) (.seq (.one ⟨0x10000000100000000000000000⟩) (.seq (.one
    ⟨0x20000000200000000000000000⟩) (.seq (.one ⟨0x1000000010000000000000000000000⟩) (.seq (.nt
    .r_WB none) (.nt .r_ws none)))))))))))))) (.err 89)

/-- `USING-JOIN-ON` (parser.leg:1006-1007). -/
def r_USING_JOIN_ON : E :=
    .onfail (.seq (.one ⟨0x200000002000000000000000000000⟩) (.seq (.one
    ⟨0x80000000800000000000000000000⟩) (.seq (.one ⟨0x200000002000000000000000000⟩) (.seq (.one
    ⟨0x4000000040000000000000000000⟩) (.seq (.one ⟨0x80000000800000000000000000⟩) (.seq (.nt
    .r_WB none) (.seq (.nt .r_ws none) (.seq (.one ⟨0x400000004000000000000000000⟩) (.seq (.one
    ⟨0x8000000080000000000000000000⟩) (.seq (.one ⟨0x200000002000000000000000000⟩) (.seq (.one
    ⟨0x4000000040000000000000000000⟩) (.seq (.nt .r_WB none) (.seq (.nt .r_ws none) (.seq (.one
    ⟨0x8000000080000000000000000000⟩) (.seq (.one ⟨0x4000000040000000000000000000⟩) (.seq (.nt
    .r_WB none) (.nt .r_ws none))))))))))))))))) (.err 90)

/-- `USING-SCAN` (parser.leg:1008-1009). -/
def r_USING_SCAN : E :=
    .onfail (.seq (.one ⟨0x200000002000000000000000000000⟩) (.seq (.one
    ⟨0x80000000800000000000000000000⟩) (.seq (.one ⟨0x200000002000000000000000000⟩) (.seq (.one
    ⟨0x4000000040000000000000000000⟩) (.seq (.one ⟨0x80000000800000000000000000⟩) (.seq (.nt
    .r_WB none) (.seq (.nt .r_ws none) (.seq (.one ⟨0x80000000800000000000000000000⟩) (.seq
    (.one ⟨0x8000000080000000000000000⟩) (.seq (.one ⟨0x2000000020000000000000000⟩) (.seq (.one
    ⟨0x4000000040000000000000000000⟩) (.seq (.nt .r_WB none) (.nt .r_ws none))))))))))))) (.err
    91)

/-- `ON-MATCH` (parser.leg:1011). -/
def r_ON_MATCH : E :=
    .onfail (.seq (.one ⟨0x8000000080000000000000000000⟩) (.seq (.one
    ⟨0x4000000040000000000000000000⟩) (.seq (.nt .r_WB none) (.seq (.nt .r_ws none) (.seq (.one
    ⟨0x2000000020000000000000000000⟩) (.seq (.one ⟨0x2000000020000000000000000⟩) (.seq (.one
    ⟨0x100000001000000000000000000000⟩) (.seq (.one ⟨0x8000000080000000000000000⟩) (.seq (.one
    ⟨0x100000001000000000000000000⟩) (.seq (.nt .r_WB none) (.nt .r_ws none))))))))))) (.err 92)

/-- `ON-CREATE` (parser.leg:1012). -/
def r_ON_CREATE : E :=
    .onfail (.seq (.one ⟨0x8000000080000000000000000000⟩) (.seq (.one
    ⟨0x4000000040000000000000000000⟩) (.seq (.nt .r_WB none) (.seq (.nt .r_ws none) (.seq (.one
    ⟨0x8000000080000000000000000⟩) (.seq (.one ⟨0x40000000400000000000000000000⟩) (.seq (.one
    ⟨0x20000000200000000000000000⟩) (.seq (.one ⟨0x2000000020000000000000000⟩) (.seq (.one
    ⟨0x100000001000000000000000000000⟩) (.seq (.one ⟨0x20000000200000000000000000⟩) (.seq (.nt
    .r_WB none) (.nt .r_ws none)))))))))))) (.err 93)

/-- `WHERE` (parser.leg:1014). -/
def r_WHERE : E :=
    .onfail (.seq (.one ⟨0x800000008000000000000000000000⟩) (.seq (.one
    ⟨0x100000001000000000000000000⟩) (.seq (.one ⟨0x20000000200000000000000000⟩) (.seq (.one
    ⟨0x40000000400000000000000000000⟩) (.seq (.one ⟨0x20000000200000000000000000⟩) (.seq (.nt
    .r_WB none) (.nt .r_ws none))))))) (.err 94)

/-- `AS` (parser.leg:1016). -/
def r_AS : E :=
    .onfail (.seq (.one ⟨0x2000000020000000000000000⟩) (.seq (.one
    ⟨0x80000000800000000000000000000⟩) (.seq (.nt .r_WB none) (.nt .r_ws none)))) (.err 95)

/-- `DISTINCT` (parser.leg:1017). -/
def r_DISTINCT : E :=
    .onfail (.seq (.one ⟨0x10000000100000000000000000⟩) (.seq (.one
    ⟨0x200000002000000000000000000⟩) (.seq (.one ⟨0x80000000800000000000000000000⟩) (.seq (.one
    ⟨0x100000001000000000000000000000⟩) (.seq (.one ⟨0x200000002000000000000000000⟩) (.seq (.one
    ⟨0x4000000040000000000000000000⟩) (.seq (.one ⟨0x8000000080000000000000000⟩) (.seq (.one
    ⟨0x100000001000000000000000000000⟩) (.seq (.nt .r_WB none) (.nt .r_ws none)))))))))) (.err
    96)

/-- `YIELD` (parser.leg:1019). -/
def r_YIELD : E :=
    .onfail (.seq (.one ⟨0x2000000020000000000000000000000⟩) (.seq (.one
    ⟨0x200000002000000000000000000⟩) (.seq (.one ⟨0x20000000200000000000000000⟩) (.seq (.one
    ⟨0x1000000010000000000000000000⟩) (.seq (.one ⟨0x10000000100000000000000000⟩) (.seq (.nt
    .r_WB none) (.nt .r_ws none))))))) (.err 97)

/-- `ORDER-BY` (parser.leg:1021). -/
def r_ORDER_BY : E :=
    .onfail (.seq (.one ⟨0x8000000080000000000000000000⟩) (.seq (.one
    ⟨0x40000000400000000000000000000⟩) (.seq (.one ⟨0x10000000100000000000000000⟩) (.seq (.one
    ⟨0x20000000200000000000000000⟩) (.seq (.one ⟨0x40000000400000000000000000000⟩) (.seq (.nt
    .r_WB none) (.seq (.nt .r_ws none) (.seq (.one ⟨0x4000000040000000000000000⟩) (.seq (.one
    ⟨0x2000000020000000000000000000000⟩) (.seq (.nt .r_WB none) (.nt .r_ws none))))))))))) (.err
    98)

/-- `ASCENDING` (parser.leg:1022). -/
def r_ASCENDING : E :=
    .onfail (.seq (.one ⟨0x2000000020000000000000000⟩) (.seq (.one
    ⟨0x80000000800000000000000000000⟩) (.seq (.one ⟨0x8000000080000000000000000⟩) (.seq (.one
    ⟨0x20000000200000000000000000⟩) (.seq (.one ⟨0x4000000040000000000000000000⟩) (.seq (.one
    ⟨0x10000000100000000000000000⟩) (.seq (.one ⟨0x200000002000000000000000000⟩) (.seq (.one
    ⟨0x4000000040000000000000000000⟩) (.seq (.one ⟨0x80000000800000000000000000⟩) (.seq (.nt
    .r_WB none) (.nt .r_ws none))))))))))) (.err 99)

/-- `ASC` (parser.leg:1023). -/
def r_ASC : E :=
    .onfail (.seq (.one ⟨0x2000000020000000000000000⟩) (.seq (.one
    ⟨0x80000000800000000000000000000⟩) (.seq (.one ⟨0x8000000080000000000000000⟩) (.seq (.nt
    .r_WB none) (.nt .r_ws none))))) (.err 100)

/-- `DESCENDING` (parser.leg:1024). -/
def r_DESCENDING : E :=
    .onfail (.seq (.one ⟨0x10000000100000000000000000⟩) (.seq (.one
    ⟨0x20000000200000000000000000⟩) (.seq (.one ⟨0x80000000800000000000000000000⟩) (.seq (.one
    ⟨0x8000000080000000000000000⟩) (.seq (.one ⟨0x20000000200000000000000000⟩) (.seq (.one
    ⟨0x4000000040000000000000000000⟩) (.seq (.one ⟨0x10000000100000000000000000⟩) (.seq (.one
    ⟨0x200000002000000000000000000⟩) (.seq (.one ⟨0x4000000040000000000000000000⟩) (.seq (.one
    ⟨0x80000000800000000000000000⟩) (.seq (.nt .r_WB none) (.nt .r_ws none)))))))))))) (.err
    101)

/-- `DESC` (parser.leg:1025). -/
def r_DESC : E :=
    .onfail (.seq (.one ⟨0x10000000100000000000000000⟩) (.seq (.one
    ⟨0x20000000200000000000000000⟩) (.seq (.one ⟨0x80000000800000000000000000000⟩) (.seq (.one
    ⟨0x8000000080000000000000000⟩) (.seq (.nt .r_WB none) (.nt .r_ws none)))))) (.err 102)

/-- `SKIP` (parser.leg:1026). -/
def r_SKIP : E :=
    .onfail (.seq (.one ⟨0x80000000800000000000000000000⟩) (.seq (.one
    ⟨0x800000008000000000000000000⟩) (.seq (.one ⟨0x200000002000000000000000000⟩) (.seq (.one
    ⟨0x10000000100000000000000000000⟩) (.seq (.nt .r_WB none) (.nt .r_ws none)))))) (.err 103)

/-- `LIMIT` (parser.leg:1027). -/
def r_LIMIT : E :=
    .onfail (.seq (.one ⟨0x1000000010000000000000000000⟩) (.seq (.one
    ⟨0x200000002000000000000000000⟩) (.seq (.one ⟨0x2000000020000000000000000000⟩) (.seq (.one
    ⟨0x200000002000000000000000000⟩) (.seq (.one ⟨0x100000001000000000000000000000⟩) (.seq (.nt
    .r_WB none) (.nt .r_ws none))))))) (.err 104)

/-- `CASE` (parser.leg:1029). -/
def r_CASE : E :=
    .onfail (.seq (.one ⟨0x8000000080000000000000000⟩) (.seq (.one
    ⟨0x2000000020000000000000000⟩) (.seq (.one ⟨0x80000000800000000000000000000⟩) (.seq (.one
    ⟨0x20000000200000000000000000⟩) (.seq (.nt .r_WB none) (.nt .r_ws none)))))) (.err 105)

/-- `WHEN` (parser.leg:1030). -/
def r_WHEN : E :=
    .onfail (.seq (.one ⟨0x800000008000000000000000000000⟩) (.seq (.one
    ⟨0x100000001000000000000000000⟩) (.seq (.one ⟨0x20000000200000000000000000⟩) (.seq (.one
    ⟨0x4000000040000000000000000000⟩) (.seq (.nt .r_WB none) (.nt .r_ws none)))))) (.err 106)

/-- `THEN` (parser.leg:1031). -/
def r_THEN : E :=
    .onfail (.seq (.one ⟨0x100000001000000000000000000000⟩) (.seq (.one
    ⟨0x100000001000000000000000000⟩) (.seq (.one ⟨0x20000000200000000000000000⟩) (.seq (.one
    ⟨0x4000000040000000000000000000⟩) (.seq (.nt .r_WB none) (.nt .r_ws none)))))) (.err 107)

/-- `ELSE` (parser.leg:1032). -/
def r_ELSE : E :=
    .onfail (.seq (.one ⟨0x20000000200000000000000000⟩) (.seq (.one
    ⟨0x1000000010000000000000000000⟩) (.seq (.one ⟨0x80000000800000000000000000000⟩) (.seq (.one
    ⟨0x20000000200000000000000000⟩) (.seq (.nt .r_WB none) (.nt .r_ws none)))))) (.err 108)

/-- `END` (parser.leg:1033). -/
def r_END : E :=
    .onfail (.seq (.one ⟨0x20000000200000000000000000⟩) (.seq (.one
    ⟨0x4000000040000000000000000000⟩) (.seq (.one ⟨0x10000000100000000000000000⟩) (.nt .r_WB
    none)))) (.err 109)

/-- `FILTER` (parser.leg:1035). -/
def r_FILTER : E :=
    .onfail (.seq (.one ⟨0x40000000400000000000000000⟩) (.seq (.one
    ⟨0x200000002000000000000000000⟩) (.seq (.one ⟨0x1000000010000000000000000000⟩) (.seq (.one
    ⟨0x100000001000000000000000000000⟩) (.seq (.one ⟨0x20000000200000000000000000⟩) (.seq (.one
    ⟨0x40000000400000000000000000000⟩) (.seq (.nt .r_WB none) (.nt .r_ws none)))))))) (.err 110)

/-- `EXTRACT` (parser.leg:1036). -/
def r_EXTRACT : E :=
    .onfail (.seq (.one ⟨0x20000000200000000000000000⟩) (.seq (.one
    ⟨0x1000000010000000000000000000000⟩) (.seq (.one ⟨0x100000001000000000000000000000⟩) (.seq
    (.one ⟨0x40000000400000000000000000000⟩) (.seq (.one ⟨0x2000000020000000000000000⟩) (.seq
    (.one ⟨0x8000000080000000000000000⟩) (.seq (.one ⟨0x100000001000000000000000000000⟩) (.seq
    (.nt .r_WB none) (.nt .r_ws none))))))))) (.err 111)

/-- `REDUCE` (parser.leg:1037). -/
def r_REDUCE : E :=
    .onfail (.seq (.one ⟨0x40000000400000000000000000000⟩) (.seq (.one
    ⟨0x20000000200000000000000000⟩) (.seq (.one ⟨0x10000000100000000000000000⟩) (.seq (.one
    ⟨0x200000002000000000000000000000⟩) (.seq (.one ⟨0x8000000080000000000000000⟩) (.seq (.one
    ⟨0x20000000200000000000000000⟩) (.seq (.nt .r_WB none) (.nt .r_ws none)))))))) (.err 112)

/-- `ALL` (parser.leg:1038). -/
def r_ALL : E :=
    .onfail (.seq (.one ⟨0x2000000020000000000000000⟩) (.seq (.one
    ⟨0x1000000010000000000000000000⟩) (.seq (.one ⟨0x1000000010000000000000000000⟩) (.seq (.nt
    .r_WB none) (.nt .r_ws none))))) (.err 113)

/-- `ANY` (parser.leg:1039). -/
def r_ANY : E :=
    .onfail (.seq (.one ⟨0x2000000020000000000000000⟩) (.seq (.one
    ⟨0x4000000040000000000000000000⟩) (.seq (.one ⟨0x2000000020000000000000000000000⟩) (.seq
    (.nt .r_WB none) (.nt .r_ws none))))) (.err 114)

/-- `SINGLE` (parser.leg:1040). -/
def r_SINGLE : E :=
    .onfail (.seq (.one ⟨0x80000000800000000000000000000⟩) (.seq (.one
    ⟨0x200000002000000000000000000⟩) (.seq (.one ⟨0x4000000040000000000000000000⟩) (.seq (.one
    ⟨0x80000000800000000000000000⟩) (.seq (.one ⟨0x1000000010000000000000000000⟩) (.seq (.one
    ⟨0x20000000200000000000000000⟩) (.seq (.nt .r_WB none) (.nt .r_ws none)))))))) (.err 115)

/-- `NONE` (parser.leg:1041). -/
def r_NONE : E :=
    .onfail (.seq (.one ⟨0x4000000040000000000000000000⟩) (.seq (.one
    ⟨0x8000000080000000000000000000⟩) (.seq (.one ⟨0x4000000040000000000000000000⟩) (.seq (.one
    ⟨0x20000000200000000000000000⟩) (.seq (.nt .r_WB none) (.nt .r_ws none)))))) (.err 116)

/-- `WITH-HEADERS` (parser.leg:1043-1044). -/
def r_WITH_HEADERS : E :=
    .onfail (.seq (.nt .r_WITH none) (.seq (.one ⟨0x100000001000000000000000000⟩) (.seq (.one
    ⟨0x20000000200000000000000000⟩) (.seq (.one ⟨0x2000000020000000000000000⟩) (.seq (.one
    ⟨0x10000000100000000000000000⟩) (.seq (.one ⟨0x20000000200000000000000000⟩) (.seq (.one
    ⟨0x40000000400000000000000000000⟩) (.seq (.one ⟨0x80000000800000000000000000000⟩) (.seq (.nt
    .r_WB none) (.nt .r_ws none)))))))))) (.err 117)

/-- `FROM` (parser.leg:1045). -/
def r_FROM : E :=
    .onfail (.seq (.one ⟨0x40000000400000000000000000⟩) (.seq (.one
    ⟨0x40000000400000000000000000000⟩) (.seq (.one ⟨0x8000000080000000000000000000⟩) (.seq (.one
    ⟨0x2000000020000000000000000000⟩) (.seq (.nt .r_WB none) (.nt .r_ws none)))))) (.err 118)

/-- `FIELDTERMINATOR` (parser.leg:1046-1047). -/
def r_FIELDTERMINATOR : E :=
    .onfail (.seq (.one ⟨0x40000000400000000000000000⟩) (.seq (.one
    ⟨0x200000002000000000000000000⟩) (.seq (.one ⟨0x20000000200000000000000000⟩) (.seq (.one
    ⟨0x1000000010000000000000000000⟩) (.seq (.one ⟨0x10000000100000000000000000⟩) (.seq (.one
    ⟨0x100000001000000000000000000000⟩) (.seq (.one ⟨0x20000000200000000000000000⟩) (.seq (.one
    ⟨0x40000000400000000000000000000⟩) (.seq (.one ⟨0x2000000020000000000000000000⟩) (.seq (.one
    ⟨0x200000002000000000000000000⟩) (.seq (.one ⟨0x4000000040000000000000000000⟩) (.seq (.one
    ⟨0x2000000020000000000000000⟩) (.seq (.one ⟨0x100000001000000000000000000000⟩) (.seq (.one
    ⟨0x8000000080000000000000000000⟩) (.seq (.one ⟨0x40000000400000000000000000000⟩) (.seq (.nt
    .r_WB none) (.nt .r_ws none))))))))))))))))) (.err 119)

/-- `TRUE` (parser.leg:1049). -/
def r_TRUE : E :=
    .onfail (.seq (.one ⟨0x100000001000000000000000000000⟩) (.seq (.one
    ⟨0x40000000400000000000000000000⟩) (.seq (.one ⟨0x200000002000000000000000000000⟩) (.seq
    (.one ⟨0x20000000200000000000000000⟩) (.nt .r_WB none))))) (.err 120)

/-- `FALSE` (parser.leg:1050). -/
def r_FALSE : E :=
    .onfail (.seq (.one ⟨0x40000000400000000000000000⟩) (.seq (.one
    ⟨0x2000000020000000000000000⟩) (.seq (.one ⟨0x1000000010000000000000000000⟩) (.seq (.one
    ⟨0x80000000800000000000000000000⟩) (.seq (.one ⟨0x20000000200000000000000000⟩) (.nt .r_WB
    none)))))) (.err 121)

/-- `NULL` (parser.leg:1051). -/
def r_NULL : E :=
    .onfail (.seq (.one ⟨0x4000000040000000000000000000⟩) (.seq (.one
    ⟨0x200000002000000000000000000000⟩) (.seq (.one ⟨0x1000000010000000000000000000⟩) (.seq
    (.one ⟨0x1000000010000000000000000000⟩) (.nt .r_WB none))))) (.err 122)

/-- `SHORTESTPATH` (parser.leg:1053-1054). -/
def r_SHORTESTPATH : E :=
    .onfail (.seq (.one ⟨0x80000000800000000000000000000⟩) (.seq (.one
    ⟨0x100000001000000000000000000⟩) (.seq (.one ⟨0x8000000080000000000000000000⟩) (.seq (.one
    ⟨0x40000000400000000000000000000⟩) (.seq (.one ⟨0x100000001000000000000000000000⟩) (.seq
    (.one ⟨0x20000000200000000000000000⟩) (.seq (.one ⟨0x80000000800000000000000000000⟩) (.seq
    (.one ⟨0x100000001000000000000000000000⟩) (.seq (.one ⟨0x10000000100000000000000000000⟩)
    (.seq (.one ⟨0x2000000020000000000000000⟩) (.seq (.one ⟨0x100000001000000000000000000000⟩)
    (.seq (.one ⟨0x100000001000000000000000000⟩) (.seq (.nt .r_WB none) (.nt .r_ws
    none)))))))))))))) (.err 123)

/-- `ALLSHORTESTPATHS` (parser.leg:1055-1056). -/
def r_ALLSHORTESTPATHS : E :=
    .onfail (.seq (.one ⟨0x2000000020000000000000000⟩) (.seq (.one
    ⟨0x1000000010000000000000000000⟩) (.seq (.one ⟨0x1000000010000000000000000000⟩) (.seq (.one
    ⟨0x80000000800000000000000000000⟩) (.seq (.one ⟨0x100000001000000000000000000⟩) (.seq (.one
    ⟨0x8000000080000000000000000000⟩) (.seq (.one ⟨0x40000000400000000000000000000⟩) (.seq (.one
    ⟨0x100000001000000000000000000000⟩) (.seq (.one ⟨0x20000000200000000000000000⟩) (.seq (.one
    ⟨0x80000000800000000000000000000⟩) (.seq (.one ⟨0x100000001000000000000000000000⟩) (.seq
    (.one ⟨0x10000000100000000000000000000⟩) (.seq (.one ⟨0x2000000020000000000000000⟩) (.seq
    (.one ⟨0x100000001000000000000000000000⟩) (.seq (.one ⟨0x100000001000000000000000000⟩) (.seq
    (.one ⟨0x80000000800000000000000000000⟩) (.seq (.nt .r_WB none) (.nt .r_ws
    none)))))))))))))))))) (.err 124)

/-- `WB` (parser.leg:1058). -/
def r_WB : E :=
    .peek (.alt (.nt .r_EOF none) (.seq (.npeek (.nt .r_sym_part none)) .dot))

/-- `skip-to-directive` (parser.leg:1066-1070). -/
def r_skip_to_directive : E :=
    .seq (.pred .blockStart) (.seq .dot (.seq (.star (.seq (.npeek (.alt (.nt .r_EOF none) (.alt
    (.nt .r_SEMICOLON none) (.seq (.alt (.nt .r_WS none) (.nt .r_comment none)) (.nt
    .r_resync_directive none))))) .dot)) (.seq (.pred .blockEnd) (.act (.build .self .skip
    [])))))

/-- `resync-directive` (parser.leg:1071-1073). -/
def r_resync_directive : E :=
    .alt (.nt .r_resync_statement none) (.nt .r_COLON none)

/-- `skip-to-statement` (parser.leg:1075-1079). -/
def r_skip_to_statement : E :=
    .seq (.pred .blockStart) (.seq .dot (.seq (.star (.seq (.npeek (.alt (.nt .r_EOF none) (.alt
    (.nt .r_SEMICOLON none) (.seq (.alt (.nt .r_WS none) (.nt .r_comment none)) (.nt
    .r_resync_statement none))))) .dot)) (.seq (.pred .blockEnd) (.act (.build .self .skip
    [])))))

/-- `resync-statement` (parser.leg:1080-1084). -/
def r_resync_statement : E :=
    .alt (.nt .r_resync_clause none) (.alt (.nt .r_CYPHER none) (.alt (.nt .r_PROFILE none) (.nt
    .r_EXPLAIN none)))

/-- `skip-to-clause` (parser.leg:1086-1090). -/
def r_skip_to_clause : E :=
    .seq (.pred .blockStart) (.seq .dot (.seq (.star (.seq (.npeek (.alt (.nt .r_EOF none) (.alt
    (.nt .r_SEMICOLON none) (.seq (.alt (.nt .r_WS none) (.nt .r_comment none)) (.nt
    .r_resync_clause none))))) .dot)) (.seq (.pred .blockEnd) (.act (.build .self .skip [])))))

/-- `resync-clause` (parser.leg:1091-1105). -/
def r_resync_clause : E :=
    .alt (.nt .r_LOADCSV none) (.alt (.nt .r_START none) (.alt (.nt .r_MATCH none) (.alt (.nt
    .r_UNWIND none) (.alt (.nt .r_MERGE none) (.alt (.nt .r_CREATE none) (.alt (.nt .r_SET none)
    (.alt (.nt .r_DELETE none) (.alt (.nt .r_REMOVE none) (.alt (.nt .r_FOREACH none) (.alt (.nt
    .r_WITH none) (.alt (.nt .r_CALL none) (.alt (.nt .r_RETURN none) (.nt .r_DROP
    none)))))))))))))

/-- `_block_start_` (parser.leg:1113-1114). -/
def r__block_start_ : E :=
    .pred .blockStart

/-- `_block_end_` (parser.leg:1116-1117). -/
def r__block_end_ : E :=
    .pred .blockEnd

/-- `_block_replace_` (parser.leg:1118-1119). -/
def r__block_replace_ : E :=
    .pred .blockReplace

/-- `_block_merge_` (parser.leg:1120-1121). -/
def r__block_merge_ : E :=
    .pred .blockMerge

/-- `_empty_` (parser.leg:1123). -/
def r__empty_ : E :=
    .pred .yes

/-- `_none_` (parser.leg:1124). -/
def r__none_ : E :=
    .pred .no

/-- `_null_` (parser.leg:1125). -/
def r__null_ : E :=
    .seq (.nt .r__empty_ none) (.act .null)

/-- `_cut_` (parser.leg:1126). -/
def r__cut_ : E :=
    .nt .r__empty_ none

/-- `_line_start_` (parser.leg:1127). -/
def r__line_start_ : E :=
    .pred .lineStart

/-- `_error_` (parser.leg:1128). -/
def r__error_ : E :=
    .pred .recordError

/-- The grammar. -/
def grammar : Rule → RuleDef Rule Pred Act
  | .r___entry_points => ⟨0, r___entry_points⟩
  | .r_directive => ⟨0, r_directive⟩
  | .r__directive => ⟨0, r__directive⟩
  | .r___directive => ⟨1, r___directive⟩
  | .r_statement => ⟨0, r_statement⟩
  | .r__statement => ⟨0, r__statement⟩
  | .r___statement => ⟨1, r___statement⟩
  | .r_cypher_statement => ⟨1, r_cypher_statement⟩
  | .r_statement_option => ⟨1, r_statement_option⟩
  | .r_cypher_option => ⟨2, r_cypher_option⟩
  | .r_cypher_version => ⟨0, r_cypher_version⟩
  | .r_cypher_param => ⟨2, r_cypher_param⟩
  | .r_cypher_param_name => ⟨0, r_cypher_param_name⟩
  | .r_cypher_param_val => ⟨0, r_cypher_param_val⟩
  | .r_profile_option => ⟨0, r_profile_option⟩
  | .r_explain_option => ⟨0, r_explain_option⟩
  | .r_schema_command => ⟨0, r_schema_command⟩
  | .r_create_index => ⟨2, r_create_index⟩
  | .r_create_constraint => ⟨4, r_create_constraint⟩
  | .r_drop_index => ⟨2, r_drop_index⟩
  | .r_drop_constraint => ⟨4, r_drop_constraint⟩
  | .r_query => ⟨0, r_query⟩
  | .r_query_hints => ⟨1, r_query_hints⟩
  | .r_clauses => ⟨1, r_clauses⟩
  | .r__clauses => ⟨1, r__clauses⟩
  | .r_periodic_commit => ⟨1, r_periodic_commit⟩
  | .r_clause => ⟨0, r_clause⟩
  | .r_loadcsv_clause => ⟨3, r_loadcsv_clause⟩
  | .r_start_clause => ⟨2, r_start_clause⟩
  | .r_start_point => ⟨4, r_start_point⟩
  | .r_node_ids => ⟨1, r_node_ids⟩
  | .r_match_clause => ⟨3, r_match_clause⟩
  | .r_hint => ⟨3, r_hint⟩
  | .r_merge_clause => ⟨2, r_merge_clause⟩
  | .r_merge_action => ⟨0, r_merge_action⟩
  | .r_merge_action_set => ⟨1, r_merge_action_set⟩
  | .r_create_clause => ⟨1, r_create_clause⟩
  | .r_set_clause => ⟨1, r_set_clause⟩
  | .r_set_item => ⟨4, r_set_item⟩
  | .r_delete_clause => ⟨1, r_delete_clause⟩
  | .r_remove_clause => ⟨1, r_remove_clause⟩
  | .r_remove_item => ⟨3, r_remove_item⟩
  | .r_foreach_clause => ⟨3, r_foreach_clause⟩
  | .r_with_clause => ⟨5, r_with_clause⟩
  | .r_additional_with_projections => ⟨1, r_additional_with_projections⟩
  | .r_with_projection => ⟨2, r_with_projection⟩
  | .r_unwind_clause => ⟨2, r_unwind_clause⟩
  | .r_call_clause => ⟨4, r_call_clause⟩
  | .r_proc_projection => ⟨2, r_proc_projection⟩
  | .r_return_clause => ⟨4, r_return_clause⟩
  | .r_additional_return_projections => ⟨1, r_additional_return_projections⟩
  | .r_return_projection => ⟨2, r_return_projection⟩
  | .r_order_by => ⟨1, r_order_by⟩
  | .r_sort_item => ⟨1, r_sort_item⟩
  | .r_skip => ⟨1, r_skip⟩
  | .r_limit => ⟨1, r_limit⟩
  | .r_union_clause => ⟨0, r_union_clause⟩
  | .r_expression => ⟨1, r_expression⟩
  | .r__prec_expression => ⟨1, r__prec_expression⟩
  | .r__expression => ⟨6, r__expression⟩
  | .r__atom => ⟨1, r__atom⟩
  | .r_map_projection_element => ⟨3, r_map_projection_element⟩
  | .r_atom => ⟨1, r_atom⟩
  | .r_property_expression => ⟨2, r_property_expression⟩
  | .r_PREFIX_OP => ⟨0, r_PREFIX_OP⟩
  | .r_POSTFIX_OP => ⟨0, r_POSTFIX_OP⟩
  | .r_INFIX_OP => ⟨0, r_INFIX_OP⟩
  | .r_COMPARISON_OP => ⟨0, r_COMPARISON_OP⟩
  | .r_list_comprehension => ⟨4, r_list_comprehension⟩
  | .r_pattern_comprehension => ⟨4, r_pattern_comprehension⟩
  | .r_case_expression => ⟨2, r_case_expression⟩
  | .r_case_alternative => ⟨1, r_case_alternative⟩
  | .r_case_default => ⟨1, r_case_default⟩
  | .r_filter_expression => ⟨3, r_filter_expression⟩
  | .r_extract_expression => ⟨3, r_extract_expression⟩
  | .r_reduce_expression => ⟨5, r_reduce_expression⟩
  | .r_all_predicate => ⟨3, r_all_predicate⟩
  | .r_any_predicate => ⟨3, r_any_predicate⟩
  | .r_single_predicate => ⟨3, r_single_predicate⟩
  | .r_none_predicate => ⟨3, r_none_predicate⟩
  | .r_function_application => ⟨2, r_function_application⟩
  | .r_collection_literal => ⟨1, r_collection_literal⟩
  | .r_map_literal => ⟨2, r_map_literal⟩
  | .r_identifier => ⟨0, r_identifier⟩
  | .r_string_literal => ⟨0, r_string_literal⟩
  | .r_float_literal => ⟨0, r_float_literal⟩
  | .r_integer_literal => ⟨0, r_integer_literal⟩
  | .r_true_literal => ⟨0, r_true_literal⟩
  | .r_false_literal => ⟨0, r_false_literal⟩
  | .r_null_literal => ⟨0, r_null_literal⟩
  | .r_parameter => ⟨0, r_parameter⟩
  | .r_label => ⟨0, r_label⟩
  | .r_rel_type => ⟨0, r_rel_type⟩
  | .r_rel_type_name => ⟨0, r_rel_type_name⟩
  | .r_prop_name => ⟨0, r_prop_name⟩
  | .r_function_name => ⟨0, r_function_name⟩
  | .r_index_name => ⟨0, r_index_name⟩
  | .r_proc_name => ⟨0, r_proc_name⟩
  | .r_pattern => ⟨1, r_pattern⟩
  | .r_pattern_part => ⟨2, r_pattern_part⟩
  | .r_anon_pattern_part => ⟨1, r_anon_pattern_part⟩
  | .r_shortest_path_pattern => ⟨1, r_shortest_path_pattern⟩
  | .r_pattern_path => ⟨2, r_pattern_path⟩
  | .r_pattern_expression => ⟨1, r_pattern_expression⟩
  | .r_pattern_expression_path => ⟨2, r_pattern_expression_path⟩
  | .r_node_pattern => ⟨3, r_node_pattern⟩
  | .r_relationship_pattern => ⟨3, r_relationship_pattern⟩
  | .r_rel_types => ⟨1, r_rel_types⟩
  | .r_rel_varlength => ⟨2, r_rel_varlength⟩
  | .r_pattern_properties => ⟨0, r_pattern_properties⟩
  | .r_client_command => ⟨2, r_client_command⟩
  | .r_client_command_name => ⟨1, r_client_command_name⟩
  | .r_client_command_arg => ⟨1, r_client_command_arg⟩
  | .r_client_arg_string => ⟨0, r_client_arg_string⟩
  | .r_unquoted => ⟨0, r_unquoted⟩
  | .r_quoted => ⟨0, r_quoted⟩
  | .r_single_quoted => ⟨0, r_single_quoted⟩
  | .r_double_quoted => ⟨0, r_double_quoted⟩
  | .r_escaped_char => ⟨0, r_escaped_char⟩
  | .r_symbolic_name => ⟨0, r_symbolic_name⟩
  | .r_unescaped_symbolic_name => ⟨0, r_unescaped_symbolic_name⟩
  | .r_escaped_symbolic_name => ⟨0, r_escaped_symbolic_name⟩
  | .r_parameter_name => ⟨0, r_parameter_name⟩
  | .r_float_string => ⟨0, r_float_string⟩
  | .r_integer_string => ⟨0, r_integer_string⟩
  | .r_sym_start => ⟨0, r_sym_start⟩
  | .r_sym_part => ⟨0, r_sym_part⟩
  | .r_ws => ⟨0, r_ws⟩
  | .r_hws => ⟨0, r_hws⟩
  | .r_line_end => ⟨0, r_line_end⟩
  | .r_comment => ⟨0, r_comment⟩
  | .r_line_comment => ⟨0, r_line_comment⟩
  | .r_block_comment => ⟨0, r_block_comment⟩
  | .r_WS => ⟨0, r_WS⟩
  | .r_HWS => ⟨0, r_HWS⟩
  | .r_EOL => ⟨0, r_EOL⟩
  | .r_EOF => ⟨0, r_EOF⟩
  | .r_CYPHER => ⟨0, r_CYPHER⟩
  | .r_PROFILE => ⟨0, r_PROFILE⟩
  | .r_EXPLAIN => ⟨0, r_EXPLAIN⟩
  | .r_OR => ⟨0, r_OR⟩
  | .r_XOR => ⟨0, r_XOR⟩
  | .r_AND => ⟨0, r_AND⟩
  | .r_NOT => ⟨0, r_NOT⟩
  | .r_EQUAL => ⟨0, r_EQUAL⟩
  | .r_NEQUAL => ⟨0, r_NEQUAL⟩
  | .r_PLUSEQUAL => ⟨0, r_PLUSEQUAL⟩
  | .r_LT => ⟨0, r_LT⟩
  | .r_GT => ⟨0, r_GT⟩
  | .r_LTE => ⟨0, r_LTE⟩
  | .r_GTE => ⟨0, r_GTE⟩
  | .r_PLUS => ⟨0, r_PLUS⟩
  | .r_MINUS => ⟨0, r_MINUS⟩
  | .r_MULT => ⟨0, r_MULT⟩
  | .r_DIV => ⟨0, r_DIV⟩
  | .r_MOD => ⟨0, r_MOD⟩
  | .r_POW => ⟨0, r_POW⟩
  | .r_IN => ⟨0, r_IN⟩
  | .r_REGEX => ⟨0, r_REGEX⟩
  | .r_STARTS_WITH => ⟨0, r_STARTS_WITH⟩
  | .r_ENDS_WITH => ⟨0, r_ENDS_WITH⟩
  | .r_CONTAINS => ⟨0, r_CONTAINS⟩
  | .r_IS_NULL => ⟨0, r_IS_NULL⟩
  | .r_IS_NOT_NULL => ⟨0, r_IS_NOT_NULL⟩
  | .r_DOT => ⟨0, r_DOT⟩
  | .r_DOT_STAR => ⟨0, r_DOT_STAR⟩
  | .r_COLON => ⟨0, r_COLON⟩
  | .r_SEMICOLON => ⟨0, r_SEMICOLON⟩
  | .r_COMMA => ⟨0, r_COMMA⟩
  | .r_STAR => ⟨0, r_STAR⟩
  | .r_PIPE => ⟨0, r_PIPE⟩
  | .r_DASH => ⟨0, r_DASH⟩
  | .r_LEFT_PAREN => ⟨0, r_LEFT_PAREN⟩
  | .r_RIGHT_PAREN => ⟨0, r_RIGHT_PAREN⟩
  | .r_LEFT_SQ_PAREN => ⟨0, r_LEFT_SQ_PAREN⟩
  | .r_RIGHT_SQ_PAREN => ⟨0, r_RIGHT_SQ_PAREN⟩
  | .r_LEFT_CURLY => ⟨0, r_LEFT_CURLY⟩
  | .r_RIGHT_CURLY => ⟨0, r_RIGHT_CURLY⟩
  | .r_ELLIPSIS => ⟨0, r_ELLIPSIS⟩
  | .r_LEFT_ARROW_HEAD => ⟨0, r_LEFT_ARROW_HEAD⟩
  | .r_RIGHT_ARROW_HEAD => ⟨0, r_RIGHT_ARROW_HEAD⟩
  | .r_CREATE_CONSTRAINT_ON => ⟨0, r_CREATE_CONSTRAINT_ON⟩
  | .r_CREATE_INDEX_ON => ⟨0, r_CREATE_INDEX_ON⟩
  | .r_DROP_CONSTRAINT_ON => ⟨0, r_DROP_CONSTRAINT_ON⟩
  | .r_DROP_INDEX_ON => ⟨0, r_DROP_INDEX_ON⟩
  | .r_ASSERT => ⟨0, r_ASSERT⟩
  | .r_IS_UNIQUE => ⟨0, r_IS_UNIQUE⟩
  | .r_DROP => ⟨0, r_DROP⟩
  | .r_USING_PERIODIC_COMMIT => ⟨0, r_USING_PERIODIC_COMMIT⟩
  | .r_LOADCSV => ⟨0, r_LOADCSV⟩
  | .r_START => ⟨0, r_START⟩
  | .r_MATCH => ⟨0, r_MATCH⟩
  | .r_OPTIONAL_MATCH => ⟨0, r_OPTIONAL_MATCH⟩
  | .r_UNWIND => ⟨0, r_UNWIND⟩
  | .r_MERGE => ⟨0, r_MERGE⟩
  | .r_CREATE => ⟨0, r_CREATE⟩
  | .r_CREATE_UNIQUE => ⟨0, r_CREATE_UNIQUE⟩
  | .r_SET => ⟨0, r_SET⟩
  | .r_DELETE => ⟨0, r_DELETE⟩
  | .r_DETACH_DELETE => ⟨0, r_DETACH_DELETE⟩
  | .r_REMOVE => ⟨0, r_REMOVE⟩
  | .r_FOREACH => ⟨0, r_FOREACH⟩
  | .r_WITH => ⟨0, r_WITH⟩
  | .r_CALL => ⟨0, r_CALL⟩
  | .r_RETURN => ⟨0, r_RETURN⟩
  | .r_UNION => ⟨0, r_UNION⟩
  | .r_node => ⟨0, r_node⟩
  | .r_relationship => ⟨0, r_relationship⟩
  | .r_rel => ⟨0, r_rel⟩
  | .r_USING_INDEX => ⟨0, r_USING_INDEX⟩
  | .r_USING_JOIN_ON => ⟨0, r_USING_JOIN_ON⟩
  | .r_USING_SCAN => ⟨0, r_USING_SCAN⟩
  | .r_ON_MATCH => ⟨0, r_ON_MATCH⟩
  | .r_ON_CREATE => ⟨0, r_ON_CREATE⟩
  | .r_WHERE => ⟨0, r_WHERE⟩
  | .r_AS => ⟨0, r_AS⟩
  | .r_DISTINCT => ⟨0, r_DISTINCT⟩
  | .r_YIELD => ⟨0, r_YIELD⟩
  | .r_ORDER_BY => ⟨0, r_ORDER_BY⟩
  | .r_ASCENDING => ⟨0, r_ASCENDING⟩
  | .r_ASC => ⟨0, r_ASC⟩
  | .r_DESCENDING => ⟨0, r_DESCENDING⟩
  | .r_DESC => ⟨0, r_DESC⟩
  | .r_SKIP => ⟨0, r_SKIP⟩
  | .r_LIMIT => ⟨0, r_LIMIT⟩
  | .r_CASE => ⟨0, r_CASE⟩
  | .r_WHEN => ⟨0, r_WHEN⟩
  | .r_THEN => ⟨0, r_THEN⟩
  | .r_ELSE => ⟨0, r_ELSE⟩
  | .r_END => ⟨0, r_END⟩
  | .r_FILTER => ⟨0, r_FILTER⟩
  | .r_EXTRACT => ⟨0, r_EXTRACT⟩
  | .r_REDUCE => ⟨0, r_REDUCE⟩
  | .r_ALL => ⟨0, r_ALL⟩
  | .r_ANY => ⟨0, r_ANY⟩
  | .r_SINGLE => ⟨0, r_SINGLE⟩
  | .r_NONE => ⟨0, r_NONE⟩
  | .r_WITH_HEADERS => ⟨0, r_WITH_HEADERS⟩
  | .r_FROM => ⟨0, r_FROM⟩
  | .r_FIELDTERMINATOR => ⟨0, r_FIELDTERMINATOR⟩
  | .r_TRUE => ⟨0, r_TRUE⟩
  | .r_FALSE => ⟨0, r_FALSE⟩
  | .r_NULL => ⟨0, r_NULL⟩
  | .r_SHORTESTPATH => ⟨0, r_SHORTESTPATH⟩
  | .r_ALLSHORTESTPATHS => ⟨0, r_ALLSHORTESTPATHS⟩
  | .r_WB => ⟨0, r_WB⟩
  | .r_skip_to_directive => ⟨0, r_skip_to_directive⟩
  | .r_resync_directive => ⟨0, r_resync_directive⟩
  | .r_skip_to_statement => ⟨0, r_skip_to_statement⟩
  | .r_resync_statement => ⟨0, r_resync_statement⟩
  | .r_skip_to_clause => ⟨0, r_skip_to_clause⟩
  | .r_resync_clause => ⟨0, r_resync_clause⟩
  | .r__block_start_ => ⟨0, r__block_start_⟩
  | .r__block_end_ => ⟨0, r__block_end_⟩
  | .r__block_replace_ => ⟨0, r__block_replace_⟩
  | .r__block_merge_ => ⟨0, r__block_merge_⟩
  | .r__empty_ => ⟨0, r__empty_⟩
  | .r__none_ => ⟨0, r__none_⟩
  | .r__null_ => ⟨0, r__null_⟩
  | .r__cut_ => ⟨0, r__cut_⟩
  | .r__line_start_ => ⟨0, r__line_start_⟩
  | .r__error_ => ⟨0, r__error_⟩

end Verif.Cypher
