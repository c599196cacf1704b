import Verif.Cypher.Abs
/-!
# What the rules do: the table

Computed by `tools/sums.lean.txt`; the theorems check it against the grammar.
-/
namespace Verif.Cypher
open Verif.Peg

/-- Nothing. -/
def Sum.leaf : Sum := ⟨.keep, ⟨true, 0, .empty, false⟩, .keep, some 0, 0, false⟩
/-- Adds nodes only (comments). -/
def Sum.space : Sum := ⟨.keep, ⟨false, 0, .empty, false⟩, .keep, some 0, 0, false⟩
/-- Adds a node and leaves it in `$$`. -/
def Sum.node (mask : Nat) (fst : Bool) (prev : APrev) : Sum :=
  ⟨.val ⟨false, mask, .at 0, fst⟩, ⟨false, 1, .empty, false⟩, prev, some 0, 0, false⟩

/-- For any input. -/
def sumT : Rule → Option Sum
  | .r___entry_points => some ⟨.unk, ⟨false, 0, .empty, false⟩, .keep, some 0, 5070602400912917605986812821505, true⟩
  | .r_directive => some ⟨.unk, ⟨false, 0, .empty, false⟩, .keep, some 0, 5070602400912917605986812821505, true⟩
  | .r__directive => some ⟨.unk, ⟨false, 0, .empty, false⟩, .keep, some 0, 5070602400912917605986812821505, true⟩
  | .r___directive => some ⟨.unk, ⟨false, 0, .empty, false⟩, .keep, some 0, 5070602400912917605986812821505, false⟩
  | .r_statement => some ⟨.unk, ⟨false, 0, .empty, false⟩, .keep, some 0, 1, true⟩
  | .r__statement => some ⟨.unk, ⟨false, 0, .empty, false⟩, .keep, some 0, 1, true⟩
  | .r___statement => some ⟨.unk, ⟨false, 0, .empty, false⟩, .keep, some 0, 1, false⟩
  | .r_cypher_statement => some (.node 1 true .no)
  | .r_statement_option => some ⟨.val ⟨false, 52, .at 0, true⟩, ⟨false, 0, ⟨52, 0, false, 52, 0, some true, 1⟩, false⟩, .no, some 0, 0, false⟩
  | .r_cypher_option => some (.node 4 true .no)
  | .r_cypher_version => some (.node 4835703278458516698824704 true .no)
  | .r_cypher_param => some (.node 8 true .no)
  | .r_cypher_param_name => some (.node 4835703278458516698824704 true .no)
  | .r_cypher_param_val => some (.node 4835703278458516698824704 true .no)
  | .r_profile_option => some (.node 32 true .no)
  | .r_explain_option => some (.node 16 true .no)
  | .r_schema_command => some (.node 8064 true .no)
  | .r_create_index => some (.node 128 true .no)
  | .r_create_constraint => some (.node 2560 true .no)
  | .r_drop_index => some (.node 256 true .no)
  | .r_drop_constraint => some (.node 5120 true .no)
  | .r_query => some (.node 8192 true .no)
  | .r_query_hints => some ⟨.val ⟨false, 32768, .at 0, true⟩, ⟨false, 0, ⟨32768, 0, false, 32768, 0, some true, 1⟩, false⟩, .no, some 0, 0, false⟩
  | .r_clauses => some ⟨.unk, ⟨false, 0, ⟨161619834365673472, 0, false, 161619834365673472, 161619834365673472, none, 1⟩, false⟩, .no, some 0, 0, false⟩
  | .r__clauses => some ⟨.unk, ⟨false, 0, ⟨161619834365673472, 0, false, 161619834365673472, 161619834365673472, none, 0⟩, false⟩, .keep, some 0, 0, false⟩
  | .r_periodic_commit => some (.node 32768 true .no)
  | .r_clause => some (.node 161619834365673472 true .no)
  | .r_loadcsv_clause => some (.node 131072 true .no)
  | .r_start_clause => some (.node 262144 true .no)
  | .r_start_point => some (.node 267386880 true .no)
  | .r_node_ids => some ⟨.val ⟨false, 9671406556917033397649408, .at 0, false⟩, ⟨false, 0, ⟨9671406556917033397649408, 0, false, 9671406556917033397649408, 9671406556917033397649408, none, 1⟩, false⟩, .no, some 0, 0, false⟩
  | .r_match_clause => some (.node 268435456 true .no)
  | .r_hint => some (.node 7516192768 true .no)
  | .r_merge_clause => some (.node 8589934592 true .no)
  | .r_merge_action => some (.node 103079215104 true .no)
  | .r_merge_action_set => some ⟨.val ⟨false, 16492674416640, .at 0, false⟩, ⟨false, 0, ⟨16492674416640, 0, false, 16492674416640, 16492674416640, none, 1⟩, false⟩, .no, some 0, 0, false⟩
  | .r_create_clause => some (.node 137438953472 true .no)
  | .r_set_clause => some (.node 274877906944 true .no)
  | .r_set_item => some (.node 16492674416640 true .no)
  | .r_delete_clause => some (.node 17592186044416 true .no)
  | .r_remove_clause => some (.node 35184372088832 true .no)
  | .r_remove_item => some (.node 422212465065984 true .no)
  | .r_foreach_clause => some (.node 562949953421312 true .no)
  | .r_with_clause => some (.node 1125899906842624 true .no)
  | .r_additional_with_projections => some ⟨.unk, ⟨false, 0, ⟨18014398509481984, 0, false, 18014398509481984, 18014398509481984, none, 0⟩, false⟩, .keep, some 0, 0, false⟩
  | .r_with_projection => some (.node 18014398509481984 true .no)
  | .r_unwind_clause => some (.node 2251799813685248 true .no)
  | .r_call_clause => some (.node 4503599627370496 true .no)
  | .r_proc_projection => some (.node 18014398509481984 true .no)
  | .r_return_clause => some (.node 9007199254740992 true .no)
  | .r_additional_return_projections => some ⟨.unk, ⟨false, 0, ⟨18014398509481984, 0, false, 18014398509481984, 18014398509481984, none, 0⟩, false⟩, .keep, some 0, 0, false⟩
  | .r_return_projection => some (.node 18014398509481984 true .no)
  | .r_order_by => some (.node 36028797018963968 true .no)
  | .r_sort_item => some (.node 72057594037927936 true .no)
  | .r_skip => some (.node 162735226088691787978390829531136 false .clean)
  | .r_limit => some (.node 162735226088691787978390829531136 false .clean)
  | .r_union_clause => some (.node 144115188075855872 true .no)
  | .r_expression => some (.node 162735226088691787978390829531136 false .clean)
  | .r__prec_expression => some (.node 162735226088691787978390829531136 false .clean)
  | .r__expression => some (.node 162735226088691787978390829531136 false .clean)
  | .r__atom => some (.node 162735226088691787978390829531136 false .clean)
  | .r_map_projection_element => some (.node 9735556609752801803494680617287680 true .no)
  | .r_atom => some (.node 162735226088691787978390829531136 false .clean)
  | .r_property_expression => some (.node 18446744073709551616 false .clean)
  | .r_PREFIX_OP => some ⟨.keep, ⟨false, 0, .empty, false⟩, .keep, some 1, 0, false⟩
  | .r_POSTFIX_OP => some ⟨.keep, ⟨false, 0, .empty, false⟩, .keep, some 1, 0, false⟩
  | .r_INFIX_OP => some ⟨.keep, ⟨false, 0, .empty, false⟩, .keep, some 1, 0, false⟩
  | .r_COMPARISON_OP => some ⟨.keep, ⟨false, 0, .empty, false⟩, .keep, some 1, 0, false⟩
  | .r_list_comprehension => some (.node 295147905179352825856 true .no)
  | .r_pattern_comprehension => some (.node 590295810358705651712 true .no)
  | .r_case_expression => some (.node 1180591620717411303424 true .no)
  | .r_case_alternative => some ⟨.val ⟨false, 162735226088691787978390829531136, .at 0, false⟩, ⟨false, 0, ⟨162735226088691787978390829531136, 0, false, 162735226088691787978390829531136, 162735226088691787978390829531136, some false, 2⟩, false⟩, .clean, some 0, 0, false⟩
  | .r_case_default => some (.node 162735226088691787978390829531136 false .clean)
  | .r_filter_expression => some (.node 2361183241434822606848 true .no)
  | .r_extract_expression => some (.node 4722366482869645213696 true .no)
  | .r_reduce_expression => some (.node 9444732965739290427392 true .no)
  | .r_all_predicate => some (.node 18889465931478580854784 true .no)
  | .r_any_predicate => some (.node 37778931862957161709568 true .no)
  | .r_single_predicate => some (.node 75557863725914323419136 true .no)
  | .r_none_predicate => some (.node 151115727451828646838272 true .no)
  | .r_function_application => some (.node 13835058055282163712 true .no)
  | .r_collection_literal => some (.node 302231454903657293676544 true .no)
  | .r_map_literal => some (.node 604462909807314587353088 true .no)
  | .r_identifier => some (.node 1208925819614629174706176 true .no)
  | .r_string_literal => some (.node 4835703278458516698824704 true .no)
  | .r_float_literal => some (.node 19342813113834066795298816 true .no)
  | .r_integer_literal => some (.node 9671406556917033397649408 true .no)
  | .r_true_literal => some (.node 77371252455336267181195264 true .no)
  | .r_false_literal => some (.node 154742504910672534362390528 true .no)
  | .r_null_literal => some (.node 309485009821345068724781056 true .no)
  | .r_parameter => some (.node 2417851639229258349412352 false .no)
  | .r_label => some (.node 618970019642690137449562112 false .no)
  | .r_rel_type => some (.node 1237940039285380274899124224 false .no)
  | .r_rel_type_name => some (.node 1237940039285380274899124224 true .no)
  | .r_prop_name => some (.node 2475880078570760549798248448 true .no)
  | .r_function_name => some (.node 4951760157141521099596496896 true .no)
  | .r_index_name => some (.node 9903520314283042199192993792 true .no)
  | .r_proc_name => some (.node 19807040628566084398385987584 true .no)
  | .r_pattern => some (.node 39614081257132168796771975168 true .no)
  | .r_pattern_part => some (.node 554597137599850363154807652352 true .no)
  | .r_anon_pattern_part => some (.node 475368975085586025561263702016 true .no)
  | .r_shortest_path_pattern => some (.node 158456325028528675187087900672 true .no)
  | .r_pattern_path => some (.node 316912650057057350374175801344 true .no)
  | .r_pattern_expression => some (.node 475368975085586025561263702016 true .no)
  | .r_pattern_expression_path => some (.node 316912650057057350374175801344 true .no)
  | .r_node_pattern => some (.node 633825300114114700748351602688 true .no)
  | .r_relationship_pattern => some (.node 1267650600228229401496703205376 true .no)
  | .r_rel_types => some ⟨.val ⟨false, 1237940039285380274899124224, .at 0, false⟩, ⟨false, 0, ⟨1237940039285380274899124224, 0, false, 1237940039285380274899124224, 1237940039285380274899124224, none, 1⟩, false⟩, .no, some 0, 0, false⟩
  | .r_rel_varlength => some (.node 2535301200456458802993406410752 false .no)
  | .r_pattern_properties => some (.node 3022314549036572936765440 false .no)
  | .r_client_command => some (.node 5070602400912917605986812821504 true .no)
  | .r_client_command_name => some (.node 4835703278458516698824704 true .no)
  | .r_client_command_arg => some (.node 4835703278458516698824704 true .no)
  | .r_client_arg_string => some (.node 4835703278458516698824704 true .no)
  | .r_unquoted => some ⟨.keep, ⟨true, 0, .empty, false⟩, .clean, some 0, 0, false⟩
  | .r_quoted => some ⟨.keep, ⟨true, 0, .empty, false⟩, .clean, some 0, 0, false⟩
  | .r_single_quoted => some ⟨.keep, ⟨true, 0, .empty, false⟩, .clean, some 0, 0, false⟩
  | .r_double_quoted => some ⟨.keep, ⟨true, 0, .empty, false⟩, .clean, some 0, 0, false⟩
  | .r_symbolic_name => some ⟨.keep, ⟨true, 0, .empty, false⟩, .clean, some 0, 0, false⟩
  | .r_unescaped_symbolic_name => some ⟨.keep, ⟨true, 0, .empty, false⟩, .clean, some 0, 0, false⟩
  | .r_escaped_symbolic_name => some ⟨.keep, ⟨true, 0, .empty, false⟩, .clean, some 0, 0, false⟩
  | .r_parameter_name => some ⟨.keep, ⟨true, 0, .empty, false⟩, .clean, some 0, 0, false⟩
  | .r_float_string => some ⟨.keep, ⟨true, 0, .empty, false⟩, .clean, some 0, 0, false⟩
  | .r_integer_string => some ⟨.keep, ⟨true, 0, .empty, false⟩, .clean, some 0, 0, false⟩
  | .r_ws => some .space
  | .r_hws => some .space
  | .r_line_end => some .space
  | .r_comment => some ⟨.keep, ⟨false, 1, .empty, false⟩, .no, some 0, 0, false⟩
  | .r_line_comment => some ⟨.keep, ⟨false, 1, .empty, false⟩, .no, some 0, 0, false⟩
  | .r_block_comment => some ⟨.keep, ⟨false, 1, .empty, false⟩, .no, some 0, 0, false⟩
  | .r_STARTS_WITH => some .space
  | .r_ENDS_WITH => some .space
  | .r_IS_NULL => some .space
  | .r_IS_NOT_NULL => some .space
  | .r_DOT_STAR => some .space
  | .r_CREATE_CONSTRAINT_ON => some .space
  | .r_CREATE_INDEX_ON => some .space
  | .r_DROP_CONSTRAINT_ON => some .space
  | .r_DROP_INDEX_ON => some .space
  | .r_ASSERT => some .space
  | .r_IS_UNIQUE => some .space
  | .r_DROP => some .space
  | .r_USING_PERIODIC_COMMIT => some .space
  | .r_LOADCSV => some .space
  | .r_START => some .space
  | .r_MATCH => some .space
  | .r_OPTIONAL_MATCH => some .space
  | .r_UNWIND => some .space
  | .r_MERGE => some .space
  | .r_CREATE => some .space
  | .r_CREATE_UNIQUE => some .space
  | .r_SET => some .space
  | .r_DELETE => some .space
  | .r_DETACH_DELETE => some .space
  | .r_REMOVE => some .space
  | .r_FOREACH => some .space
  | .r_WITH => some .space
  | .r_CALL => some .space
  | .r_RETURN => some .space
  | .r_UNION => some .space
  | .r_node => some .space
  | .r_relationship => some .space
  | .r_rel => some .space
  | .r_USING_INDEX => some .space
  | .r_USING_JOIN_ON => some .space
  | .r_USING_SCAN => some .space
  | .r_ON_MATCH => some .space
  | .r_ON_CREATE => some .space
  | .r_WHERE => some .space
  | .r_AS => some .space
  | .r_DISTINCT => some .space
  | .r_YIELD => some .space
  | .r_ORDER_BY => some .space
  | .r_ASCENDING => some .space
  | .r_ASC => some .space
  | .r_DESCENDING => some .space
  | .r_DESC => some .space
  | .r_SKIP => some .space
  | .r_LIMIT => some .space
  | .r_CASE => some .space
  | .r_WHEN => some .space
  | .r_THEN => some .space
  | .r_ELSE => some .space
  | .r_FILTER => some .space
  | .r_EXTRACT => some .space
  | .r_REDUCE => some .space
  | .r_ALL => some .space
  | .r_ANY => some .space
  | .r_SINGLE => some .space
  | .r_NONE => some .space
  | .r_WITH_HEADERS => some .space
  | .r_FROM => some .space
  | .r_FIELDTERMINATOR => some .space
  | .r_SHORTESTPATH => some .space
  | .r_ALLSHORTESTPATHS => some .space
  | .r_skip_to_directive => some (.node 81129638414606681695789005144064 true .no)
  | .r_resync_directive => some .space
  | .r_skip_to_statement => some (.node 81129638414606681695789005144064 true .no)
  | .r_resync_statement => some .space
  | .r_skip_to_clause => some (.node 81129638414606681695789005144064 true .no)
  | .r_resync_clause => some .space
  | .r__null_ => some ⟨.val ⟨true, 0, .unknown, false⟩, ⟨true, 0, .empty, false⟩, .keep, some 0, 0, false⟩
  | _ => some .leaf

/-- For input without comments. -/
def strictT : Rule → Option Sum
  | .r_comment | .r_line_comment | .r_block_comment => none
  | .r_ws => some .leaf
  | r => sumT r

theorem sumT_ok : ∀ r, sumOk lax sumT r = true := by
  have h : ∀ r ∈ Rule.all, sumOk lax sumT r = true := by decide +kernel
  exact fun r => h r (Rule.mem_all r)

theorem strictT_ok : ∀ r, sumOk strict strictT r = true := by
  have h : ∀ r ∈ Rule.all, sumOk strict strictT r = true := by decide +kernel
  exact fun r => h r (Rule.mem_all r)

end Verif.Cypher
