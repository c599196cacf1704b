import Verif.Cypher.Parser
import Verif.Peg.Lines
/-!
# Static facts about the parser's grammar

Tables computed by `tools/tables.lean.txt`; the theorems below check them against the grammar.
-/
namespace Verif.Cypher
open Verif.Peg

/-- Possible outcomes of each rule: at the end of input, before it. -/
def outT : Rule → Out2
  | .r___entry_points => ⟨⟨false, true, false⟩, ⟨false, false, true⟩⟩
  | .r_directive => ⟨⟨false, true, false⟩, ⟨false, false, true⟩⟩
  | .r__directive => ⟨⟨false, true, false⟩, ⟨false, false, true⟩⟩
  | .r___directive => ⟨⟨false, true, false⟩, ⟨true, false, true⟩⟩
  | .r_statement => ⟨⟨false, true, false⟩, ⟨false, false, true⟩⟩
  | .r__statement => ⟨⟨false, true, false⟩, ⟨false, false, true⟩⟩
  | .r___statement => ⟨⟨false, true, false⟩, ⟨true, false, true⟩⟩
  | .r_cypher_statement => ⟨⟨true, false, false⟩, ⟨true, false, true⟩⟩
  | .r_statement_option => ⟨⟨true, false, false⟩, ⟨true, false, true⟩⟩
  | .r_cypher_option => ⟨⟨true, false, false⟩, ⟨true, false, true⟩⟩
  | .r_cypher_version => ⟨⟨true, false, false⟩, ⟨true, false, true⟩⟩
  | .r_cypher_param => ⟨⟨true, false, false⟩, ⟨true, false, true⟩⟩
  | .r_cypher_param_name => ⟨⟨true, false, false⟩, ⟨true, false, true⟩⟩
  | .r_cypher_param_val => ⟨⟨true, false, false⟩, ⟨true, false, true⟩⟩
  | .r_profile_option => ⟨⟨true, false, false⟩, ⟨true, false, true⟩⟩
  | .r_explain_option => ⟨⟨true, false, false⟩, ⟨true, false, true⟩⟩
  | .r_schema_command => ⟨⟨true, false, false⟩, ⟨true, false, true⟩⟩
  | .r_create_index => ⟨⟨true, false, false⟩, ⟨true, false, true⟩⟩
  | .r_create_constraint => ⟨⟨true, false, false⟩, ⟨true, false, true⟩⟩
  | .r_drop_index => ⟨⟨true, false, false⟩, ⟨true, false, true⟩⟩
  | .r_drop_constraint => ⟨⟨true, false, false⟩, ⟨true, false, true⟩⟩
  | .r_query => ⟨⟨true, false, false⟩, ⟨true, false, true⟩⟩
  | .r_query_hints => ⟨⟨true, false, false⟩, ⟨true, false, true⟩⟩
  | .r_clauses => ⟨⟨true, false, false⟩, ⟨true, false, true⟩⟩
  | .r__clauses => ⟨⟨false, true, false⟩, ⟨false, false, true⟩⟩
  | .r_periodic_commit => ⟨⟨true, false, false⟩, ⟨true, false, true⟩⟩
  | .r_clause => ⟨⟨true, false, false⟩, ⟨true, false, true⟩⟩
  | .r_loadcsv_clause => ⟨⟨true, false, false⟩, ⟨true, false, true⟩⟩
  | .r_start_clause => ⟨⟨true, false, false⟩, ⟨true, false, true⟩⟩
  | .r_start_point => ⟨⟨true, false, false⟩, ⟨true, false, true⟩⟩
  | .r_node_ids => ⟨⟨true, false, false⟩, ⟨true, false, true⟩⟩
  | .r_match_clause => ⟨⟨true, false, false⟩, ⟨true, false, true⟩⟩
  | .r_hint => ⟨⟨true, false, false⟩, ⟨true, false, true⟩⟩
  | .r_merge_clause => ⟨⟨true, false, false⟩, ⟨true, false, true⟩⟩
  | .r_merge_action => ⟨⟨true, false, false⟩, ⟨true, false, true⟩⟩
  | .r_merge_action_set => ⟨⟨true, false, false⟩, ⟨true, false, true⟩⟩
  | .r_create_clause => ⟨⟨true, false, false⟩, ⟨true, false, true⟩⟩
  | .r_set_clause => ⟨⟨true, false, false⟩, ⟨true, false, true⟩⟩
  | .r_set_item => ⟨⟨true, false, false⟩, ⟨true, false, true⟩⟩
  | .r_delete_clause => ⟨⟨true, false, false⟩, ⟨true, false, true⟩⟩
  | .r_remove_clause => ⟨⟨true, false, false⟩, ⟨true, false, true⟩⟩
  | .r_remove_item => ⟨⟨true, false, false⟩, ⟨true, false, true⟩⟩
  | .r_foreach_clause => ⟨⟨true, false, false⟩, ⟨true, false, true⟩⟩
  | .r_with_clause => ⟨⟨true, false, false⟩, ⟨true, false, true⟩⟩
  | .r_additional_with_projections => ⟨⟨false, true, false⟩, ⟨false, true, true⟩⟩
  | .r_with_projection => ⟨⟨true, false, false⟩, ⟨true, false, true⟩⟩
  | .r_unwind_clause => ⟨⟨true, false, false⟩, ⟨true, false, true⟩⟩
  | .r_call_clause => ⟨⟨true, false, false⟩, ⟨true, false, true⟩⟩
  | .r_proc_projection => ⟨⟨true, false, false⟩, ⟨true, false, true⟩⟩
  | .r_return_clause => ⟨⟨true, false, false⟩, ⟨true, false, true⟩⟩
  | .r_additional_return_projections => ⟨⟨false, true, false⟩, ⟨false, true, true⟩⟩
  | .r_return_projection => ⟨⟨true, false, false⟩, ⟨true, false, true⟩⟩
  | .r_order_by => ⟨⟨true, false, false⟩, ⟨true, false, true⟩⟩
  | .r_sort_item => ⟨⟨true, false, false⟩, ⟨true, false, true⟩⟩
  | .r_skip => ⟨⟨true, false, false⟩, ⟨true, false, true⟩⟩
  | .r_limit => ⟨⟨true, false, false⟩, ⟨true, false, true⟩⟩
  | .r_union_clause => ⟨⟨true, false, false⟩, ⟨true, false, true⟩⟩
  | .r_expression => ⟨⟨true, false, false⟩, ⟨true, false, true⟩⟩
  | .r__prec_expression => ⟨⟨true, false, false⟩, ⟨true, false, true⟩⟩
  | .r__expression => ⟨⟨true, false, false⟩, ⟨true, false, true⟩⟩
  | .r__atom => ⟨⟨true, false, false⟩, ⟨true, false, true⟩⟩
  | .r_map_projection_element => ⟨⟨true, false, false⟩, ⟨true, false, true⟩⟩
  | .r_atom => ⟨⟨true, false, false⟩, ⟨true, false, true⟩⟩
  | .r_property_expression => ⟨⟨true, false, false⟩, ⟨true, false, true⟩⟩
  | .r_PREFIX_OP => ⟨⟨true, false, false⟩, ⟨true, false, true⟩⟩
  | .r_POSTFIX_OP => ⟨⟨true, false, false⟩, ⟨true, false, true⟩⟩
  | .r_INFIX_OP => ⟨⟨true, false, false⟩, ⟨true, false, true⟩⟩
  | .r_COMPARISON_OP => ⟨⟨true, false, false⟩, ⟨true, false, true⟩⟩
  | .r_list_comprehension => ⟨⟨true, false, false⟩, ⟨true, false, true⟩⟩
  | .r_pattern_comprehension => ⟨⟨true, false, false⟩, ⟨true, false, true⟩⟩
  | .r_case_expression => ⟨⟨true, false, false⟩, ⟨true, false, true⟩⟩
  | .r_case_alternative => ⟨⟨true, false, false⟩, ⟨true, false, true⟩⟩
  | .r_case_default => ⟨⟨true, false, false⟩, ⟨true, false, true⟩⟩
  | .r_filter_expression => ⟨⟨true, false, false⟩, ⟨true, false, true⟩⟩
  | .r_extract_expression => ⟨⟨true, false, false⟩, ⟨true, false, true⟩⟩
  | .r_reduce_expression => ⟨⟨true, false, false⟩, ⟨true, false, true⟩⟩
  | .r_all_predicate => ⟨⟨true, false, false⟩, ⟨true, false, true⟩⟩
  | .r_any_predicate => ⟨⟨true, false, false⟩, ⟨true, false, true⟩⟩
  | .r_single_predicate => ⟨⟨true, false, false⟩, ⟨true, false, true⟩⟩
  | .r_none_predicate => ⟨⟨true, false, false⟩, ⟨true, false, true⟩⟩
  | .r_function_application => ⟨⟨true, false, false⟩, ⟨true, false, true⟩⟩
  | .r_collection_literal => ⟨⟨true, false, false⟩, ⟨true, false, true⟩⟩
  | .r_map_literal => ⟨⟨true, false, false⟩, ⟨true, false, true⟩⟩
  | .r_identifier => ⟨⟨true, false, false⟩, ⟨true, false, true⟩⟩
  | .r_string_literal => ⟨⟨true, false, false⟩, ⟨true, false, true⟩⟩
  | .r_float_literal => ⟨⟨true, false, false⟩, ⟨true, false, true⟩⟩
  | .r_integer_literal => ⟨⟨true, false, false⟩, ⟨true, false, true⟩⟩
  | .r_true_literal => ⟨⟨true, false, false⟩, ⟨true, false, true⟩⟩
  | .r_false_literal => ⟨⟨true, false, false⟩, ⟨true, false, true⟩⟩
  | .r_null_literal => ⟨⟨true, false, false⟩, ⟨true, false, true⟩⟩
  | .r_parameter => ⟨⟨true, false, false⟩, ⟨true, false, true⟩⟩
  | .r_label => ⟨⟨true, false, false⟩, ⟨true, false, true⟩⟩
  | .r_rel_type => ⟨⟨true, false, false⟩, ⟨true, false, true⟩⟩
  | .r_rel_type_name => ⟨⟨true, false, false⟩, ⟨true, false, true⟩⟩
  | .r_prop_name => ⟨⟨true, false, false⟩, ⟨true, false, true⟩⟩
  | .r_function_name => ⟨⟨true, false, false⟩, ⟨true, false, true⟩⟩
  | .r_index_name => ⟨⟨true, false, false⟩, ⟨true, false, true⟩⟩
  | .r_proc_name => ⟨⟨true, false, false⟩, ⟨true, false, true⟩⟩
  | .r_pattern => ⟨⟨true, false, false⟩, ⟨true, false, true⟩⟩
  | .r_pattern_part => ⟨⟨true, false, false⟩, ⟨true, false, true⟩⟩
  | .r_anon_pattern_part => ⟨⟨true, false, false⟩, ⟨true, false, true⟩⟩
  | .r_shortest_path_pattern => ⟨⟨true, false, false⟩, ⟨true, false, true⟩⟩
  | .r_pattern_path => ⟨⟨true, false, false⟩, ⟨true, false, true⟩⟩
  | .r_pattern_expression => ⟨⟨true, false, false⟩, ⟨true, false, true⟩⟩
  | .r_pattern_expression_path => ⟨⟨true, false, false⟩, ⟨true, false, true⟩⟩
  | .r_node_pattern => ⟨⟨true, false, false⟩, ⟨true, false, true⟩⟩
  | .r_relationship_pattern => ⟨⟨true, false, false⟩, ⟨true, false, true⟩⟩
  | .r_rel_types => ⟨⟨true, false, false⟩, ⟨true, false, true⟩⟩
  | .r_rel_varlength => ⟨⟨true, false, false⟩, ⟨true, false, true⟩⟩
  | .r_pattern_properties => ⟨⟨true, false, false⟩, ⟨true, false, true⟩⟩
  | .r_client_command => ⟨⟨true, false, false⟩, ⟨true, false, true⟩⟩
  | .r_client_command_name => ⟨⟨true, false, false⟩, ⟨true, false, true⟩⟩
  | .r_client_command_arg => ⟨⟨true, false, false⟩, ⟨true, false, true⟩⟩
  | .r_client_arg_string => ⟨⟨true, false, false⟩, ⟨true, false, true⟩⟩
  | .r_unquoted => ⟨⟨true, false, false⟩, ⟨true, false, true⟩⟩
  | .r_quoted => ⟨⟨true, false, false⟩, ⟨true, false, true⟩⟩
  | .r_single_quoted => ⟨⟨true, false, false⟩, ⟨true, false, true⟩⟩
  | .r_double_quoted => ⟨⟨true, false, false⟩, ⟨true, false, true⟩⟩
  | .r_escaped_char => ⟨⟨true, false, false⟩, ⟨true, false, true⟩⟩
  | .r_symbolic_name => ⟨⟨true, false, false⟩, ⟨true, false, true⟩⟩
  | .r_unescaped_symbolic_name => ⟨⟨true, false, false⟩, ⟨true, false, true⟩⟩
  | .r_escaped_symbolic_name => ⟨⟨true, false, false⟩, ⟨true, false, true⟩⟩
  | .r_parameter_name => ⟨⟨true, false, false⟩, ⟨true, false, true⟩⟩
  | .r_float_string => ⟨⟨true, false, false⟩, ⟨true, false, true⟩⟩
  | .r_integer_string => ⟨⟨true, false, false⟩, ⟨true, false, true⟩⟩
  | .r_sym_start => ⟨⟨true, false, false⟩, ⟨true, false, true⟩⟩
  | .r_sym_part => ⟨⟨true, false, false⟩, ⟨true, false, true⟩⟩
  | .r_ws => ⟨⟨false, true, false⟩, ⟨false, true, true⟩⟩
  | .r_hws => ⟨⟨false, true, false⟩, ⟨false, true, true⟩⟩
  | .r_line_end => ⟨⟨false, true, false⟩, ⟨true, false, true⟩⟩
  | .r_comment => ⟨⟨true, false, false⟩, ⟨true, false, true⟩⟩
  | .r_line_comment => ⟨⟨true, false, false⟩, ⟨true, false, true⟩⟩
  | .r_block_comment => ⟨⟨true, false, false⟩, ⟨true, false, true⟩⟩
  | .r_WS => ⟨⟨true, false, false⟩, ⟨true, false, true⟩⟩
  | .r_HWS => ⟨⟨true, false, false⟩, ⟨true, false, true⟩⟩
  | .r_EOL => ⟨⟨true, false, false⟩, ⟨true, false, true⟩⟩
  | .r_EOF => ⟨⟨false, true, false⟩, ⟨true, false, false⟩⟩
  | .r_CYPHER => ⟨⟨true, false, false⟩, ⟨true, false, true⟩⟩
  | .r_PROFILE => ⟨⟨true, false, false⟩, ⟨true, false, true⟩⟩
  | .r_EXPLAIN => ⟨⟨true, false, false⟩, ⟨true, false, true⟩⟩
  | .r_OR => ⟨⟨true, false, false⟩, ⟨true, false, true⟩⟩
  | .r_XOR => ⟨⟨true, false, false⟩, ⟨true, false, true⟩⟩
  | .r_AND => ⟨⟨true, false, false⟩, ⟨true, false, true⟩⟩
  | .r_NOT => ⟨⟨true, false, false⟩, ⟨true, false, true⟩⟩
  | .r_EQUAL => ⟨⟨true, false, false⟩, ⟨true, false, true⟩⟩
  | .r_NEQUAL => ⟨⟨true, false, false⟩, ⟨true, false, true⟩⟩
  | .r_PLUSEQUAL => ⟨⟨true, false, false⟩, ⟨true, false, true⟩⟩
  | .r_LT => ⟨⟨true, false, false⟩, ⟨true, false, true⟩⟩
  | .r_GT => ⟨⟨true, false, false⟩, ⟨true, false, true⟩⟩
  | .r_LTE => ⟨⟨true, false, false⟩, ⟨true, false, true⟩⟩
  | .r_GTE => ⟨⟨true, false, false⟩, ⟨true, false, true⟩⟩
  | .r_PLUS => ⟨⟨true, false, false⟩, ⟨true, false, true⟩⟩
  | .r_MINUS => ⟨⟨true, false, false⟩, ⟨true, false, true⟩⟩
  | .r_MULT => ⟨⟨true, false, false⟩, ⟨true, false, true⟩⟩
  | .r_DIV => ⟨⟨true, false, false⟩, ⟨true, false, true⟩⟩
  | .r_MOD => ⟨⟨true, false, false⟩, ⟨true, false, true⟩⟩
  | .r_POW => ⟨⟨true, false, false⟩, ⟨true, false, true⟩⟩
  | .r_IN => ⟨⟨true, false, false⟩, ⟨true, false, true⟩⟩
  | .r_REGEX => ⟨⟨true, false, false⟩, ⟨true, false, true⟩⟩
  | .r_STARTS_WITH => ⟨⟨true, false, false⟩, ⟨true, false, true⟩⟩
  | .r_ENDS_WITH => ⟨⟨true, false, false⟩, ⟨true, false, true⟩⟩
  | .r_CONTAINS => ⟨⟨true, false, false⟩, ⟨true, false, true⟩⟩
  | .r_IS_NULL => ⟨⟨true, false, false⟩, ⟨true, false, true⟩⟩
  | .r_IS_NOT_NULL => ⟨⟨true, false, false⟩, ⟨true, false, true⟩⟩
  | .r_DOT => ⟨⟨true, false, false⟩, ⟨true, false, true⟩⟩
  | .r_DOT_STAR => ⟨⟨true, false, false⟩, ⟨true, false, true⟩⟩
  | .r_COLON => ⟨⟨true, false, false⟩, ⟨true, false, true⟩⟩
  | .r_SEMICOLON => ⟨⟨true, false, false⟩, ⟨true, false, true⟩⟩
  | .r_COMMA => ⟨⟨true, false, false⟩, ⟨true, false, true⟩⟩
  | .r_STAR => ⟨⟨true, false, false⟩, ⟨true, false, true⟩⟩
  | .r_PIPE => ⟨⟨true, false, false⟩, ⟨true, false, true⟩⟩
  | .r_DASH => ⟨⟨true, false, false⟩, ⟨true, false, true⟩⟩
  | .r_LEFT_PAREN => ⟨⟨true, false, false⟩, ⟨true, false, true⟩⟩
  | .r_RIGHT_PAREN => ⟨⟨true, false, false⟩, ⟨true, false, true⟩⟩
  | .r_LEFT_SQ_PAREN => ⟨⟨true, false, false⟩, ⟨true, false, true⟩⟩
  | .r_RIGHT_SQ_PAREN => ⟨⟨true, false, false⟩, ⟨true, false, true⟩⟩
  | .r_LEFT_CURLY => ⟨⟨true, false, false⟩, ⟨true, false, true⟩⟩
  | .r_RIGHT_CURLY => ⟨⟨true, false, false⟩, ⟨true, false, true⟩⟩
  | .r_ELLIPSIS => ⟨⟨true, false, false⟩, ⟨true, false, true⟩⟩
  | .r_LEFT_ARROW_HEAD => ⟨⟨true, false, false⟩, ⟨true, false, true⟩⟩
  | .r_RIGHT_ARROW_HEAD => ⟨⟨true, false, false⟩, ⟨true, false, true⟩⟩
  | .r_CREATE_CONSTRAINT_ON => ⟨⟨true, false, false⟩, ⟨true, false, true⟩⟩
  | .r_CREATE_INDEX_ON => ⟨⟨true, false, false⟩, ⟨true, false, true⟩⟩
  | .r_DROP_CONSTRAINT_ON => ⟨⟨true, false, false⟩, ⟨true, false, true⟩⟩
  | .r_DROP_INDEX_ON => ⟨⟨true, false, false⟩, ⟨true, false, true⟩⟩
  | .r_ASSERT => ⟨⟨true, false, false⟩, ⟨true, false, true⟩⟩
  | .r_IS_UNIQUE => ⟨⟨true, false, false⟩, ⟨true, false, true⟩⟩
  | .r_DROP => ⟨⟨true, false, false⟩, ⟨true, false, true⟩⟩
  | .r_USING_PERIODIC_COMMIT => ⟨⟨true, false, false⟩, ⟨true, false, true⟩⟩
  | .r_LOADCSV => ⟨⟨true, false, false⟩, ⟨true, false, true⟩⟩
  | .r_START => ⟨⟨true, false, false⟩, ⟨true, false, true⟩⟩
  | .r_MATCH => ⟨⟨true, false, false⟩, ⟨true, false, true⟩⟩
  | .r_OPTIONAL_MATCH => ⟨⟨true, false, false⟩, ⟨true, false, true⟩⟩
  | .r_UNWIND => ⟨⟨true, false, false⟩, ⟨true, false, true⟩⟩
  | .r_MERGE => ⟨⟨true, false, false⟩, ⟨true, false, true⟩⟩
  | .r_CREATE => ⟨⟨true, false, false⟩, ⟨true, false, true⟩⟩
  | .r_CREATE_UNIQUE => ⟨⟨true, false, false⟩, ⟨true, false, true⟩⟩
  | .r_SET => ⟨⟨true, false, false⟩, ⟨true, false, true⟩⟩
  | .r_DELETE => ⟨⟨true, false, false⟩, ⟨true, false, true⟩⟩
  | .r_DETACH_DELETE => ⟨⟨true, false, false⟩, ⟨true, false, true⟩⟩
  | .r_REMOVE => ⟨⟨true, false, false⟩, ⟨true, false, true⟩⟩
  | .r_FOREACH => ⟨⟨true, false, false⟩, ⟨true, false, true⟩⟩
  | .r_WITH => ⟨⟨true, false, false⟩, ⟨true, false, true⟩⟩
  | .r_CALL => ⟨⟨true, false, false⟩, ⟨true, false, true⟩⟩
  | .r_RETURN => ⟨⟨true, false, false⟩, ⟨true, false, true⟩⟩
  | .r_UNION => ⟨⟨true, false, false⟩, ⟨true, false, true⟩⟩
  | .r_node => ⟨⟨true, false, false⟩, ⟨true, false, true⟩⟩
  | .r_relationship => ⟨⟨true, false, false⟩, ⟨true, false, true⟩⟩
  | .r_rel => ⟨⟨true, false, false⟩, ⟨true, false, true⟩⟩
  | .r_USING_INDEX => ⟨⟨true, false, false⟩, ⟨true, false, true⟩⟩
  | .r_USING_JOIN_ON => ⟨⟨true, false, false⟩, ⟨true, false, true⟩⟩
  | .r_USING_SCAN => ⟨⟨true, false, false⟩, ⟨true, false, true⟩⟩
  | .r_ON_MATCH => ⟨⟨true, false, false⟩, ⟨true, false, true⟩⟩
  | .r_ON_CREATE => ⟨⟨true, false, false⟩, ⟨true, false, true⟩⟩
  | .r_WHERE => ⟨⟨true, false, false⟩, ⟨true, false, true⟩⟩
  | .r_AS => ⟨⟨true, false, false⟩, ⟨true, false, true⟩⟩
  | .r_DISTINCT => ⟨⟨true, false, false⟩, ⟨true, false, true⟩⟩
  | .r_YIELD => ⟨⟨true, false, false⟩, ⟨true, false, true⟩⟩
  | .r_ORDER_BY => ⟨⟨true, false, false⟩, ⟨true, false, true⟩⟩
  | .r_ASCENDING => ⟨⟨true, false, false⟩, ⟨true, false, true⟩⟩
  | .r_ASC => ⟨⟨true, false, false⟩, ⟨true, false, true⟩⟩
  | .r_DESCENDING => ⟨⟨true, false, false⟩, ⟨true, false, true⟩⟩
  | .r_DESC => ⟨⟨true, false, false⟩, ⟨true, false, true⟩⟩
  | .r_SKIP => ⟨⟨true, false, false⟩, ⟨true, false, true⟩⟩
  | .r_LIMIT => ⟨⟨true, false, false⟩, ⟨true, false, true⟩⟩
  | .r_CASE => ⟨⟨true, false, false⟩, ⟨true, false, true⟩⟩
  | .r_WHEN => ⟨⟨true, false, false⟩, ⟨true, false, true⟩⟩
  | .r_THEN => ⟨⟨true, false, false⟩, ⟨true, false, true⟩⟩
  | .r_ELSE => ⟨⟨true, false, false⟩, ⟨true, false, true⟩⟩
  | .r_END => ⟨⟨true, false, false⟩, ⟨true, false, true⟩⟩
  | .r_FILTER => ⟨⟨true, false, false⟩, ⟨true, false, true⟩⟩
  | .r_EXTRACT => ⟨⟨true, false, false⟩, ⟨true, false, true⟩⟩
  | .r_REDUCE => ⟨⟨true, false, false⟩, ⟨true, false, true⟩⟩
  | .r_ALL => ⟨⟨true, false, false⟩, ⟨true, false, true⟩⟩
  | .r_ANY => ⟨⟨true, false, false⟩, ⟨true, false, true⟩⟩
  | .r_SINGLE => ⟨⟨true, false, false⟩, ⟨true, false, true⟩⟩
  | .r_NONE => ⟨⟨true, false, false⟩, ⟨true, false, true⟩⟩
  | .r_WITH_HEADERS => ⟨⟨true, false, false⟩, ⟨true, false, true⟩⟩
  | .r_FROM => ⟨⟨true, false, false⟩, ⟨true, false, true⟩⟩
  | .r_FIELDTERMINATOR => ⟨⟨true, false, false⟩, ⟨true, false, true⟩⟩
  | .r_TRUE => ⟨⟨true, false, false⟩, ⟨true, false, true⟩⟩
  | .r_FALSE => ⟨⟨true, false, false⟩, ⟨true, false, true⟩⟩
  | .r_NULL => ⟨⟨true, false, false⟩, ⟨true, false, true⟩⟩
  | .r_SHORTESTPATH => ⟨⟨true, false, false⟩, ⟨true, false, true⟩⟩
  | .r_ALLSHORTESTPATHS => ⟨⟨true, false, false⟩, ⟨true, false, true⟩⟩
  | .r_WB => ⟨⟨false, true, false⟩, ⟨true, true, false⟩⟩
  | .r_skip_to_directive => ⟨⟨true, false, false⟩, ⟨false, false, true⟩⟩
  | .r_resync_directive => ⟨⟨true, false, false⟩, ⟨true, false, true⟩⟩
  | .r_skip_to_statement => ⟨⟨true, false, false⟩, ⟨false, false, true⟩⟩
  | .r_resync_statement => ⟨⟨true, false, false⟩, ⟨true, false, true⟩⟩
  | .r_skip_to_clause => ⟨⟨true, false, false⟩, ⟨false, false, true⟩⟩
  | .r_resync_clause => ⟨⟨true, false, false⟩, ⟨true, false, true⟩⟩
  | .r__block_start_ => ⟨⟨false, true, false⟩, ⟨false, true, false⟩⟩
  | .r__block_end_ => ⟨⟨false, true, false⟩, ⟨false, true, false⟩⟩
  | .r__block_replace_ => ⟨⟨false, true, false⟩, ⟨false, true, false⟩⟩
  | .r__block_merge_ => ⟨⟨false, true, false⟩, ⟨false, true, false⟩⟩
  | .r__empty_ => ⟨⟨false, true, false⟩, ⟨false, true, false⟩⟩
  | .r__none_ => ⟨⟨true, false, false⟩, ⟨true, false, false⟩⟩
  | .r__null_ => ⟨⟨false, true, false⟩, ⟨false, true, false⟩⟩
  | .r__cut_ => ⟨⟨false, true, false⟩, ⟨false, true, false⟩⟩
  | .r__line_start_ => ⟨⟨false, true, false⟩, ⟨false, true, false⟩⟩
  | .r__error_ => ⟨⟨false, true, false⟩, ⟨false, true, false⟩⟩

/-- Rank: decreases along calls made before consuming input. -/
def rankT : Rule → Nat
  | .r___entry_points => 9
  | .r_directive => 8
  | .r__directive => 7
  | .r___directive => 6
  | .r_statement => 8
  | .r__statement => 7
  | .r___statement => 6
  | .r_cypher_statement => 5
  | .r_statement_option => 2
  | .r_cypher_option => 1
  | .r_cypher_version => 0
  | .r_cypher_param => 1
  | .r_cypher_param_name => 0
  | .r_cypher_param_val => 2
  | .r_profile_option => 1
  | .r_explain_option => 1
  | .r_schema_command => 2
  | .r_create_index => 1
  | .r_create_constraint => 1
  | .r_drop_index => 1
  | .r_drop_constraint => 1
  | .r_query => 4
  | .r_query_hints => 2
  | .r_clauses => 3
  | .r__clauses => 3
  | .r_periodic_commit => 1
  | .r_clause => 2
  | .r_loadcsv_clause => 1
  | .r_start_clause => 1
  | .r_start_point => 4
  | .r_node_ids => 2
  | .r_match_clause => 1
  | .r_hint => 1
  | .r_merge_clause => 1
  | .r_merge_action => 1
  | .r_merge_action_set => 1
  | .r_create_clause => 1
  | .r_set_clause => 1
  | .r_set_item => 7
  | .r_delete_clause => 1
  | .r_remove_clause => 1
  | .r_remove_item => 7
  | .r_foreach_clause => 1
  | .r_with_clause => 1
  | .r_additional_with_projections => 1
  | .r_with_projection => 9
  | .r_unwind_clause => 1
  | .r_call_clause => 1
  | .r_proc_projection => 4
  | .r_return_clause => 1
  | .r_additional_return_projections => 1
  | .r_return_projection => 9
  | .r_order_by => 1
  | .r_sort_item => 9
  | .r_skip => 1
  | .r_limit => 1
  | .r_union_clause => 1
  | .r_expression => 8
  | .r__prec_expression => 8
  | .r__expression => 7
  | .r__atom => 6
  | .r_map_projection_element => 4
  | .r_atom => 5
  | .r_property_expression => 6
  | .r_PREFIX_OP => 1
  | .r_POSTFIX_OP => 1
  | .r_INFIX_OP => 1
  | .r_COMPARISON_OP => 1
  | .r_list_comprehension => 1
  | .r_pattern_comprehension => 1
  | .r_case_expression => 1
  | .r_case_alternative => 1
  | .r_case_default => 1
  | .r_filter_expression => 1
  | .r_extract_expression => 1
  | .r_reduce_expression => 1
  | .r_all_predicate => 1
  | .r_any_predicate => 1
  | .r_single_predicate => 1
  | .r_none_predicate => 1
  | .r_function_application => 4
  | .r_collection_literal => 1
  | .r_map_literal => 1
  | .r_identifier => 3
  | .r_string_literal => 2
  | .r_float_literal => 1
  | .r_integer_literal => 1
  | .r_true_literal => 1
  | .r_false_literal => 1
  | .r_null_literal => 1
  | .r_parameter => 1
  | .r_label => 1
  | .r_rel_type => 1
  | .r_rel_type_name => 3
  | .r_prop_name => 3
  | .r_function_name => 3
  | .r_index_name => 3
  | .r_proc_name => 3
  | .r_pattern => 5
  | .r_pattern_part => 4
  | .r_anon_pattern_part => 3
  | .r_shortest_path_pattern => 1
  | .r_pattern_path => 2
  | .r_pattern_expression => 3
  | .r_pattern_expression_path => 2
  | .r_node_pattern => 1
  | .r_relationship_pattern => 1
  | .r_rel_types => 2
  | .r_rel_varlength => 1
  | .r_pattern_properties => 2
  | .r_client_command => 1
  | .r_client_command_name => 5
  | .r_client_command_arg => 4
  | .r_client_arg_string => 3
  | .r_unquoted => 2
  | .r_quoted => 1
  | .r_single_quoted => 0
  | .r_double_quoted => 0
  | .r_escaped_char => 0
  | .r_symbolic_name => 2
  | .r_unescaped_symbolic_name => 1
  | .r_escaped_symbolic_name => 0
  | .r_parameter_name => 3
  | .r_float_string => 0
  | .r_integer_string => 0
  | .r_sym_start => 0
  | .r_sym_part => 0
  | .r_ws => 2
  | .r_hws => 1
  | .r_line_end => 1
  | .r_comment => 1
  | .r_line_comment => 0
  | .r_block_comment => 0
  | .r_WS => 1
  | .r_HWS => 0
  | .r_EOL => 0
  | .r_EOF => 0
  | .r_CYPHER => 0
  | .r_PROFILE => 0
  | .r_EXPLAIN => 0
  | .r_OR => 0
  | .r_XOR => 0
  | .r_AND => 0
  | .r_NOT => 0
  | .r_EQUAL => 0
  | .r_NEQUAL => 0
  | .r_PLUSEQUAL => 0
  | .r_LT => 0
  | .r_GT => 0
  | .r_LTE => 0
  | .r_GTE => 0
  | .r_PLUS => 0
  | .r_MINUS => 0
  | .r_MULT => 0
  | .r_DIV => 0
  | .r_MOD => 0
  | .r_POW => 0
  | .r_IN => 0
  | .r_REGEX => 0
  | .r_STARTS_WITH => 0
  | .r_ENDS_WITH => 0
  | .r_CONTAINS => 0
  | .r_IS_NULL => 0
  | .r_IS_NOT_NULL => 0
  | .r_DOT => 0
  | .r_DOT_STAR => 0
  | .r_COLON => 0
  | .r_SEMICOLON => 0
  | .r_COMMA => 0
  | .r_STAR => 0
  | .r_PIPE => 0
  | .r_DASH => 0
  | .r_LEFT_PAREN => 0
  | .r_RIGHT_PAREN => 0
  | .r_LEFT_SQ_PAREN => 0
  | .r_RIGHT_SQ_PAREN => 0
  | .r_LEFT_CURLY => 0
  | .r_RIGHT_CURLY => 0
  | .r_ELLIPSIS => 0
  | .r_LEFT_ARROW_HEAD => 0
  | .r_RIGHT_ARROW_HEAD => 0
  | .r_CREATE_CONSTRAINT_ON => 0
  | .r_CREATE_INDEX_ON => 0
  | .r_DROP_CONSTRAINT_ON => 0
  | .r_DROP_INDEX_ON => 0
  | .r_ASSERT => 0
  | .r_IS_UNIQUE => 0
  | .r_DROP => 0
  | .r_USING_PERIODIC_COMMIT => 0
  | .r_LOADCSV => 0
  | .r_START => 0
  | .r_MATCH => 0
  | .r_OPTIONAL_MATCH => 0
  | .r_UNWIND => 0
  | .r_MERGE => 0
  | .r_CREATE => 0
  | .r_CREATE_UNIQUE => 0
  | .r_SET => 0
  | .r_DELETE => 0
  | .r_DETACH_DELETE => 0
  | .r_REMOVE => 0
  | .r_FOREACH => 0
  | .r_WITH => 0
  | .r_CALL => 0
  | .r_RETURN => 0
  | .r_UNION => 0
  | .r_node => 0
  | .r_relationship => 0
  | .r_rel => 0
  | .r_USING_INDEX => 0
  | .r_USING_JOIN_ON => 0
  | .r_USING_SCAN => 0
  | .r_ON_MATCH => 0
  | .r_ON_CREATE => 0
  | .r_WHERE => 0
  | .r_AS => 0
  | .r_DISTINCT => 0
  | .r_YIELD => 0
  | .r_ORDER_BY => 0
  | .r_ASCENDING => 0
  | .r_ASC => 0
  | .r_DESCENDING => 0
  | .r_DESC => 0
  | .r_SKIP => 0
  | .r_LIMIT => 0
  | .r_CASE => 0
  | .r_WHEN => 0
  | .r_THEN => 0
  | .r_ELSE => 0
  | .r_END => 0
  | .r_FILTER => 0
  | .r_EXTRACT => 0
  | .r_REDUCE => 0
  | .r_ALL => 0
  | .r_ANY => 0
  | .r_SINGLE => 0
  | .r_NONE => 0
  | .r_WITH_HEADERS => 1
  | .r_FROM => 0
  | .r_FIELDTERMINATOR => 0
  | .r_TRUE => 0
  | .r_FALSE => 0
  | .r_NULL => 0
  | .r_SHORTESTPATH => 0
  | .r_ALLSHORTESTPATHS => 0
  | .r_WB => 1
  | .r_skip_to_directive => 0
  | .r_resync_directive => 3
  | .r_skip_to_statement => 0
  | .r_resync_statement => 2
  | .r_skip_to_clause => 0
  | .r_resync_clause => 1
  | .r__block_start_ => 0
  | .r__block_end_ => 0
  | .r__block_replace_ => 0
  | .r__block_merge_ => 0
  | .r__empty_ => 0
  | .r__none_ => 0
  | .r__null_ => 1
  | .r__cut_ => 1
  | .r__line_start_ => 0
  | .r__error_ => 0

/-- Rules that leave the line starts alone. -/
def quietT : Rule → Bool
  | .r_cypher_param_name => true
  | .r_escaped_char => true
  | .r_unescaped_symbolic_name => true
  | .r_float_string => true
  | .r_integer_string => true
  | .r_sym_start => true
  | .r_sym_part => true
  | .r_HWS => true
  | .r_EOF => true
  | .r_WB => true
  | .r__block_start_ => true
  | .r__block_end_ => true
  | .r__block_replace_ => true
  | .r__block_merge_ => true
  | .r__empty_ => true
  | .r__none_ => true
  | .r__null_ => true
  | .r__cut_ => true
  | .r__error_ => true
  | _ => false

/-- What each rule does to the line starts. -/
def lineT : Rule → LSum
  | .r___entry_points => ⟨0, some 2, some (0, 1), some 1⟩
  | .r_directive => ⟨0, some 2, some (0, 1), some 1⟩
  | .r__directive => ⟨0, some 2, some (0, 1), some 1⟩
  | .r___directive => ⟨0, some 2, some (0, 1), some 1⟩
  | .r_statement => ⟨0, some 2, some (0, 1), some 1⟩
  | .r__statement => ⟨0, some 2, some (0, 1), some 1⟩
  | .r___statement => ⟨0, some 2, some (0, 1), some 1⟩
  | .r_cypher_statement => ⟨0, none, some (0, 1), some 1⟩
  | .r_statement_option => ⟨0, none, some (2, 2), some 0⟩
  | .r_cypher_option => ⟨0, none, some (1, 2), some 0⟩
  | .r_cypher_version => ⟨0, none, some (0, 2), some 0⟩
  | .r_cypher_param => ⟨0, none, some (1, 2), some 0⟩
  | .r_cypher_param_name => ⟨0, none, some (0, 2), some 0⟩
  | .r_cypher_param_val => ⟨0, none, some (1, 2), some 1⟩
  | .r_profile_option => ⟨0, none, some (0, 2), some 0⟩
  | .r_explain_option => ⟨0, none, some (0, 2), some 0⟩
  | .r_schema_command => ⟨0, none, some (0, 2), some 0⟩
  | .r_create_index => ⟨0, none, some (2, 2), some 0⟩
  | .r_create_constraint => ⟨0, none, some (2, 2), some 0⟩
  | .r_drop_index => ⟨0, none, some (2, 2), some 0⟩
  | .r_drop_constraint => ⟨0, none, some (2, 2), some 0⟩
  | .r_query => ⟨0, none, some (0, 2), some 0⟩
  | .r_query_hints => ⟨0, none, some (2, 2), some 0⟩
  | .r_clauses => ⟨0, none, some (0, 2), some 0⟩
  | .r__clauses => ⟨2, some 2, some (0, 2), some 2⟩
  | .r_periodic_commit => ⟨0, none, some (2, 2), some 0⟩
  | .r_clause => ⟨0, none, some (2, 2), some 0⟩
  | .r_loadcsv_clause => ⟨0, none, some (2, 2), some 0⟩
  | .r_start_clause => ⟨0, none, some (2, 2), some 0⟩
  | .r_start_point => ⟨0, none, some (0, 2), some 0⟩
  | .r_node_ids => ⟨0, none, some (2, 2), some 0⟩
  | .r_match_clause => ⟨0, none, some (2, 2), some 0⟩
  | .r_hint => ⟨0, none, some (2, 2), some 0⟩
  | .r_merge_clause => ⟨0, none, some (2, 2), some 0⟩
  | .r_merge_action => ⟨0, none, some (2, 2), some 0⟩
  | .r_merge_action_set => ⟨0, none, some (2, 2), some 0⟩
  | .r_create_clause => ⟨0, none, some (2, 2), some 0⟩
  | .r_set_clause => ⟨0, none, some (2, 2), some 0⟩
  | .r_set_item => ⟨0, none, some (2, 2), some 0⟩
  | .r_delete_clause => ⟨0, none, some (2, 2), some 0⟩
  | .r_remove_clause => ⟨0, none, some (2, 2), some 0⟩
  | .r_remove_item => ⟨0, none, some (2, 2), some 0⟩
  | .r_foreach_clause => ⟨0, none, some (2, 2), some 0⟩
  | .r_with_clause => ⟨0, none, some (2, 2), some 0⟩
  | .r_additional_with_projections => ⟨0, some 0, some (2, 2), none⟩
  | .r_with_projection => ⟨0, none, some (2, 2), some 0⟩
  | .r_unwind_clause => ⟨0, none, some (2, 2), some 0⟩
  | .r_call_clause => ⟨0, none, some (2, 2), some 0⟩
  | .r_proc_projection => ⟨0, none, some (2, 2), some 0⟩
  | .r_return_clause => ⟨0, none, some (2, 2), some 0⟩
  | .r_additional_return_projections => ⟨0, some 0, some (2, 2), none⟩
  | .r_return_projection => ⟨0, none, some (2, 2), some 0⟩
  | .r_order_by => ⟨0, none, some (2, 2), some 0⟩
  | .r_sort_item => ⟨0, none, some (2, 2), some 0⟩
  | .r_skip => ⟨0, none, some (2, 2), some 0⟩
  | .r_limit => ⟨0, none, some (2, 2), some 0⟩
  | .r_union_clause => ⟨0, none, some (2, 2), some 0⟩
  | .r_expression => ⟨0, none, some (2, 2), some 0⟩
  | .r__prec_expression => ⟨0, none, some (2, 2), some 0⟩
  | .r__expression => ⟨0, none, some (2, 2), some 0⟩
  | .r__atom => ⟨0, none, some (2, 2), some 0⟩
  | .r_map_projection_element => ⟨0, none, some (2, 2), some 0⟩
  | .r_atom => ⟨0, none, some (2, 2), some 0⟩
  | .r_property_expression => ⟨0, none, some (2, 2), some 0⟩
  | .r_PREFIX_OP => ⟨0, none, some (2, 2), some 0⟩
  | .r_POSTFIX_OP => ⟨0, none, some (2, 2), some 0⟩
  | .r_INFIX_OP => ⟨0, none, some (2, 2), some 0⟩
  | .r_COMPARISON_OP => ⟨0, none, some (2, 2), some 0⟩
  | .r_list_comprehension => ⟨0, none, some (2, 2), some 0⟩
  | .r_pattern_comprehension => ⟨0, none, some (2, 2), some 0⟩
  | .r_case_expression => ⟨0, none, some (2, 2), some 0⟩
  | .r_case_alternative => ⟨0, none, some (2, 2), some 0⟩
  | .r_case_default => ⟨0, none, some (2, 2), some 0⟩
  | .r_filter_expression => ⟨0, none, some (2, 2), some 0⟩
  | .r_extract_expression => ⟨0, none, some (2, 2), some 0⟩
  | .r_reduce_expression => ⟨0, none, some (2, 2), some 0⟩
  | .r_all_predicate => ⟨0, none, some (2, 2), some 0⟩
  | .r_any_predicate => ⟨0, none, some (2, 2), some 0⟩
  | .r_single_predicate => ⟨0, none, some (2, 2), some 0⟩
  | .r_none_predicate => ⟨0, none, some (2, 2), some 0⟩
  | .r_function_application => ⟨0, none, some (2, 2), some 0⟩
  | .r_collection_literal => ⟨0, none, some (2, 2), some 0⟩
  | .r_map_literal => ⟨0, none, some (2, 2), some 0⟩
  | .r_identifier => ⟨0, none, some (2, 2), some 0⟩
  | .r_string_literal => ⟨0, none, some (2, 2), some 0⟩
  | .r_float_literal => ⟨0, none, some (2, 2), some 0⟩
  | .r_integer_literal => ⟨0, none, some (2, 2), some 0⟩
  | .r_true_literal => ⟨0, none, some (2, 2), some 0⟩
  | .r_false_literal => ⟨0, none, some (2, 2), some 0⟩
  | .r_null_literal => ⟨0, none, some (2, 2), some 0⟩
  | .r_parameter => ⟨0, none, some (2, 2), some 0⟩
  | .r_label => ⟨0, none, some (2, 2), some 0⟩
  | .r_rel_type => ⟨0, none, some (2, 2), some 0⟩
  | .r_rel_type_name => ⟨0, none, some (2, 2), some 0⟩
  | .r_prop_name => ⟨0, none, some (2, 2), some 0⟩
  | .r_function_name => ⟨0, none, some (2, 2), some 0⟩
  | .r_index_name => ⟨0, none, some (2, 2), some 0⟩
  | .r_proc_name => ⟨0, none, some (2, 2), some 0⟩
  | .r_pattern => ⟨0, none, some (2, 2), some 0⟩
  | .r_pattern_part => ⟨0, none, some (0, 2), some 0⟩
  | .r_anon_pattern_part => ⟨0, none, some (0, 2), some 0⟩
  | .r_shortest_path_pattern => ⟨0, none, some (0, 2), some 0⟩
  | .r_pattern_path => ⟨0, none, some (1, 2), some 0⟩
  | .r_pattern_expression => ⟨0, none, some (2, 2), some 0⟩
  | .r_pattern_expression_path => ⟨0, none, some (1, 2), some 0⟩
  | .r_node_pattern => ⟨0, none, some (0, 2), some 0⟩
  | .r_relationship_pattern => ⟨0, none, some (0, 2), some 0⟩
  | .r_rel_types => ⟨0, none, some (2, 2), some 0⟩
  | .r_rel_varlength => ⟨0, none, some (2, 2), some 0⟩
  | .r_pattern_properties => ⟨0, none, some (2, 2), some 0⟩
  | .r_client_command => ⟨0, none, some (0, 2), some 0⟩
  | .r_client_command_name => ⟨0, none, some (0, 2), some 0⟩
  | .r_client_command_arg => ⟨0, none, some (0, 2), some 0⟩
  | .r_client_arg_string => ⟨0, none, some (0, 2), some 0⟩
  | .r_unquoted => ⟨0, none, some (1, 2), some 1⟩
  | .r_quoted => ⟨0, none, some (0, 2), some 0⟩
  | .r_single_quoted => ⟨0, none, some (0, 2), some 0⟩
  | .r_double_quoted => ⟨0, none, some (0, 2), some 0⟩
  | .r_escaped_char => ⟨0, none, some (0, 2), some 0⟩
  | .r_symbolic_name => ⟨0, none, some (0, 2), some 0⟩
  | .r_unescaped_symbolic_name => ⟨0, none, some (0, 2), some 0⟩
  | .r_escaped_symbolic_name => ⟨0, none, none, some 0⟩
  | .r_parameter_name => ⟨0, none, some (0, 2), some 0⟩
  | .r_float_string => ⟨0, none, some (0, 2), some 0⟩
  | .r_integer_string => ⟨0, none, some (0, 2), some 0⟩
  | .r_sym_start => ⟨0, none, some (0, 2), some 0⟩
  | .r_sym_part => ⟨0, none, some (0, 2), some 0⟩
  | .r_ws => ⟨0, some 2, some (2, 1), none⟩
  | .r_hws => ⟨0, some 0, some (0, 2), none⟩
  | .r_line_end => ⟨0, some 2, some (0, 1), some 2⟩
  | .r_comment => ⟨0, none, some (0, 2), some 0⟩
  | .r_line_comment => ⟨0, none, some (0, 2), some 0⟩
  | .r_block_comment => ⟨0, none, some (0, 2), some 0⟩
  | .r_WS => ⟨0, none, some (0, 1), some 2⟩
  | .r_HWS => ⟨0, none, some (0, 2), some 0⟩
  | .r_EOL => ⟨0, none, some (0, 1), some 2⟩
  | .r_EOF => ⟨0, some 2, none, some 0⟩
  | .r_CYPHER => ⟨0, none, some (0, 2), some 0⟩
  | .r_PROFILE => ⟨0, none, some (0, 2), some 0⟩
  | .r_EXPLAIN => ⟨0, none, some (0, 2), some 0⟩
  | .r_OR => ⟨0, none, some (0, 2), some 0⟩
  | .r_XOR => ⟨0, none, some (0, 2), some 0⟩
  | .r_AND => ⟨0, none, some (0, 2), some 0⟩
  | .r_NOT => ⟨0, none, some (0, 2), some 0⟩
  | .r_EQUAL => ⟨0, none, some (0, 2), some 0⟩
  | .r_NEQUAL => ⟨0, none, some (0, 2), some 0⟩
  | .r_PLUSEQUAL => ⟨0, none, some (0, 2), some 0⟩
  | .r_LT => ⟨0, none, some (0, 2), some 0⟩
  | .r_GT => ⟨0, none, some (0, 2), some 0⟩
  | .r_LTE => ⟨0, none, some (0, 2), some 0⟩
  | .r_GTE => ⟨0, none, some (0, 2), some 0⟩
  | .r_PLUS => ⟨0, none, some (0, 2), some 0⟩
  | .r_MINUS => ⟨0, none, some (0, 2), some 0⟩
  | .r_MULT => ⟨0, none, some (0, 2), some 0⟩
  | .r_DIV => ⟨0, none, some (0, 2), some 0⟩
  | .r_MOD => ⟨0, none, some (0, 2), some 0⟩
  | .r_POW => ⟨0, none, some (0, 2), some 0⟩
  | .r_IN => ⟨0, none, some (0, 2), some 0⟩
  | .r_REGEX => ⟨0, none, some (0, 2), some 0⟩
  | .r_STARTS_WITH => ⟨0, none, some (0, 2), some 0⟩
  | .r_ENDS_WITH => ⟨0, none, some (0, 2), some 0⟩
  | .r_CONTAINS => ⟨0, none, some (0, 2), some 0⟩
  | .r_IS_NULL => ⟨0, none, some (0, 2), some 0⟩
  | .r_IS_NOT_NULL => ⟨0, none, some (0, 2), some 0⟩
  | .r_DOT => ⟨0, none, some (0, 2), some 0⟩
  | .r_DOT_STAR => ⟨0, none, some (0, 2), some 0⟩
  | .r_COLON => ⟨0, none, some (0, 2), some 0⟩
  | .r_SEMICOLON => ⟨0, none, some (0, 2), some 0⟩
  | .r_COMMA => ⟨0, none, some (0, 2), some 0⟩
  | .r_STAR => ⟨0, none, some (0, 2), some 0⟩
  | .r_PIPE => ⟨0, none, some (0, 2), some 0⟩
  | .r_DASH => ⟨0, none, some (0, 2), some 0⟩
  | .r_LEFT_PAREN => ⟨0, none, some (0, 2), some 0⟩
  | .r_RIGHT_PAREN => ⟨0, none, some (0, 2), some 0⟩
  | .r_LEFT_SQ_PAREN => ⟨0, none, some (0, 2), some 0⟩
  | .r_RIGHT_SQ_PAREN => ⟨0, none, some (0, 2), some 0⟩
  | .r_LEFT_CURLY => ⟨0, none, some (0, 2), some 0⟩
  | .r_RIGHT_CURLY => ⟨0, none, some (0, 2), some 0⟩
  | .r_ELLIPSIS => ⟨0, none, some (0, 2), some 0⟩
  | .r_LEFT_ARROW_HEAD => ⟨0, none, some (0, 2), some 0⟩
  | .r_RIGHT_ARROW_HEAD => ⟨0, none, some (0, 2), some 0⟩
  | .r_CREATE_CONSTRAINT_ON => ⟨0, none, some (2, 2), some 0⟩
  | .r_CREATE_INDEX_ON => ⟨0, none, some (2, 2), some 0⟩
  | .r_DROP_CONSTRAINT_ON => ⟨0, none, some (2, 2), some 0⟩
  | .r_DROP_INDEX_ON => ⟨0, none, some (2, 2), some 0⟩
  | .r_ASSERT => ⟨0, none, some (2, 2), some 0⟩
  | .r_IS_UNIQUE => ⟨0, none, some (2, 2), some 0⟩
  | .r_DROP => ⟨0, none, some (2, 2), some 0⟩
  | .r_USING_PERIODIC_COMMIT => ⟨0, none, some (2, 2), some 0⟩
  | .r_LOADCSV => ⟨0, none, some (2, 2), some 0⟩
  | .r_START => ⟨0, none, some (2, 2), some 0⟩
  | .r_MATCH => ⟨0, none, some (2, 2), some 0⟩
  | .r_OPTIONAL_MATCH => ⟨0, none, some (2, 2), some 0⟩
  | .r_UNWIND => ⟨0, none, some (2, 2), some 0⟩
  | .r_MERGE => ⟨0, none, some (2, 2), some 0⟩
  | .r_CREATE => ⟨0, none, some (2, 2), some 0⟩
  | .r_CREATE_UNIQUE => ⟨0, none, some (2, 2), some 0⟩
  | .r_SET => ⟨0, none, some (2, 2), some 0⟩
  | .r_DELETE => ⟨0, none, some (2, 2), some 0⟩
  | .r_DETACH_DELETE => ⟨0, none, some (2, 2), some 0⟩
  | .r_REMOVE => ⟨0, none, some (2, 2), some 0⟩
  | .r_FOREACH => ⟨0, none, some (2, 2), some 0⟩
  | .r_WITH => ⟨0, none, some (2, 2), some 0⟩
  | .r_CALL => ⟨0, none, some (2, 2), some 0⟩
  | .r_RETURN => ⟨0, none, some (2, 2), some 0⟩
  | .r_UNION => ⟨0, none, some (2, 2), some 0⟩
  | .r_node => ⟨0, none, some (2, 2), some 0⟩
  | .r_relationship => ⟨0, none, some (2, 2), some 0⟩
  | .r_rel => ⟨0, none, some (2, 2), some 0⟩
  | .r_USING_INDEX => ⟨0, none, some (2, 2), some 0⟩
  | .r_USING_JOIN_ON => ⟨0, none, some (2, 2), some 0⟩
  | .r_USING_SCAN => ⟨0, none, some (2, 2), some 0⟩
  | .r_ON_MATCH => ⟨0, none, some (2, 2), some 0⟩
  | .r_ON_CREATE => ⟨0, none, some (2, 2), some 0⟩
  | .r_WHERE => ⟨0, none, some (2, 2), some 0⟩
  | .r_AS => ⟨0, none, some (2, 2), some 0⟩
  | .r_DISTINCT => ⟨0, none, some (2, 2), some 0⟩
  | .r_YIELD => ⟨0, none, some (2, 2), some 0⟩
  | .r_ORDER_BY => ⟨0, none, some (2, 2), some 0⟩
  | .r_ASCENDING => ⟨0, none, some (2, 2), some 0⟩
  | .r_ASC => ⟨0, none, some (2, 2), some 0⟩
  | .r_DESCENDING => ⟨0, none, some (2, 2), some 0⟩
  | .r_DESC => ⟨0, none, some (2, 2), some 0⟩
  | .r_SKIP => ⟨0, none, some (2, 2), some 0⟩
  | .r_LIMIT => ⟨0, none, some (2, 2), some 0⟩
  | .r_CASE => ⟨0, none, some (2, 2), some 0⟩
  | .r_WHEN => ⟨0, none, some (2, 2), some 0⟩
  | .r_THEN => ⟨0, none, some (2, 2), some 0⟩
  | .r_ELSE => ⟨0, none, some (2, 2), some 0⟩
  | .r_END => ⟨0, none, some (0, 2), some 0⟩
  | .r_FILTER => ⟨0, none, some (2, 2), some 0⟩
  | .r_EXTRACT => ⟨0, none, some (2, 2), some 0⟩
  | .r_REDUCE => ⟨0, none, some (2, 2), some 0⟩
  | .r_ALL => ⟨0, none, some (2, 2), some 0⟩
  | .r_ANY => ⟨0, none, some (2, 2), some 0⟩
  | .r_SINGLE => ⟨0, none, some (2, 2), some 0⟩
  | .r_NONE => ⟨0, none, some (2, 2), some 0⟩
  | .r_WITH_HEADERS => ⟨0, none, some (2, 2), some 0⟩
  | .r_FROM => ⟨0, none, some (2, 2), some 0⟩
  | .r_FIELDTERMINATOR => ⟨0, none, some (2, 2), some 0⟩
  | .r_TRUE => ⟨0, none, some (0, 2), some 0⟩
  | .r_FALSE => ⟨0, none, some (0, 2), some 0⟩
  | .r_NULL => ⟨0, none, some (0, 2), some 0⟩
  | .r_SHORTESTPATH => ⟨0, none, some (2, 2), some 0⟩
  | .r_ALLSHORTESTPATHS => ⟨0, none, some (2, 2), some 0⟩
  | .r_WB => ⟨0, some 0, none, some 0⟩
  | .r_skip_to_directive => ⟨1, none, some (1, 1), some 2⟩
  | .r_resync_directive => ⟨0, none, some (0, 2), some 0⟩
  | .r_skip_to_statement => ⟨1, none, some (1, 1), some 2⟩
  | .r_resync_statement => ⟨0, none, some (0, 2), some 0⟩
  | .r_skip_to_clause => ⟨1, none, some (1, 1), some 2⟩
  | .r_resync_clause => ⟨0, none, some (2, 2), some 0⟩
  | .r__block_start_ => ⟨0, some 0, none, none⟩
  | .r__block_end_ => ⟨0, some 0, none, none⟩
  | .r__block_replace_ => ⟨0, some 0, none, none⟩
  | .r__block_merge_ => ⟨0, some 0, none, none⟩
  | .r__empty_ => ⟨0, some 0, none, none⟩
  | .r__none_ => ⟨0, some 0, none, some 0⟩
  | .r__null_ => ⟨0, some 0, none, none⟩
  | .r__cut_ => ⟨0, some 0, none, none⟩
  | .r__line_start_ => ⟨3, none, none, none⟩
  | .r__error_ => ⟨0, some 0, none, none⟩

/-- What predicates answer: yes, no. -/
def predT : Pred → Bool × Bool
  | .no => (false, true)
  | .precChk => (true, true)
  | _ => (true, false)

/-- What predicates do to the line starts. -/
def kindT : Pred → LKind
  | .lineStart => .start
  | .err _ => .back
  | _ => .keep

/-- Configuration of the line start analysis, for input without backquotes. -/
def lineCfg : LCfg Rule Pred :=
  ⟨lineT, quietT, fun r => decide (r = .r_EOL), kindT, ⟨2 ^ 96⟩, fun p => !(predT p).2⟩

theorem ruleOk_all (r : Rule) : ruleOk outT predT rankT grammar r = true := by
  have h : Rule.all.all (fun r => ruleOk outT predT rankT grammar r) = true := by decide +kernel
  exact List.all_eq_true.1 h r r.mem_all

theorem lineOk_all (r : Rule) : lineOk lineCfg .r__line_start_ grammar r = true := by
  have h : Rule.all.all (fun r => lineOk lineCfg .r__line_start_ grammar r) = true := by
    decide +kernel
  exact List.all_eq_true.1 h r r.mem_all

end Verif.Cypher
