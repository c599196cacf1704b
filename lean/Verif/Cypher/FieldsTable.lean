import Verif.Cypher.FieldsEval
/-!
# Which nodes a block holds: every rule

What each rule adds to the block it is called in. A rule that returns a node adds that node and nothing else;
a rule for a list adds to the block what it adds to the sequence; the others add nothing.
-/
namespace Verif.Cypher
open Verif.Peg

/-- What the rule adds to the block that is open when it is called (`lib/src/parser.leg:26-1128`), comments and
errors apart. -/
def holdT : Rule → HSum
  | .r___entry_points | .r_directive | .r__directive | .r___directive | .r_statement | .r__statement
  | .r___statement =>
    ⟨none, false, false⟩
  | .r_cypher_statement | .r_cypher_option | .r_cypher_version | .r_cypher_param | .r_cypher_param_name
  | .r_cypher_param_val | .r_profile_option | .r_explain_option | .r_schema_command | .r_create_index
  | .r_create_constraint | .r_drop_index | .r_drop_constraint | .r_query | .r_periodic_commit
  | .r_clause | .r_loadcsv_clause | .r_start_clause | .r_start_point | .r_match_clause | .r_hint
  | .r_merge_clause | .r_merge_action | .r_create_clause | .r_set_clause | .r_set_item
  | .r_delete_clause | .r_remove_clause | .r_remove_item | .r_foreach_clause | .r_with_clause
  | .r_with_projection | .r_unwind_clause | .r_call_clause | .r_proc_projection | .r_return_clause
  | .r_return_projection | .r_order_by | .r_sort_item | .r_skip | .r_limit | .r_union_clause
  | .r_expression | .r__prec_expression | .r__expression | .r__atom | .r_map_projection_element
  | .r_atom | .r_property_expression | .r_list_comprehension | .r_pattern_comprehension
  | .r_case_expression | .r_case_default | .r_filter_expression | .r_extract_expression
  | .r_reduce_expression | .r_all_predicate | .r_any_predicate | .r_single_predicate | .r_none_predicate
  | .r_function_application | .r_collection_literal | .r_map_literal | .r_identifier | .r_string_literal
  | .r_float_literal | .r_integer_literal | .r_true_literal | .r_false_literal | .r_null_literal
  | .r_parameter | .r_label | .r_rel_type | .r_rel_type_name | .r_prop_name | .r_function_name
  | .r_index_name | .r_proc_name | .r_pattern | .r_pattern_part | .r_anon_pattern_part
  | .r_shortest_path_pattern | .r_pattern_path | .r_pattern_expression | .r_pattern_expression_path
  | .r_node_pattern | .r_relationship_pattern | .r_rel_varlength | .r_pattern_properties
  | .r_client_command | .r_client_command_name | .r_client_command_arg | .r_client_arg_string =>
    ⟨some [.self], false, false⟩
  | .r_statement_option | .r_query_hints | .r_clauses | .r__clauses | .r_node_ids | .r_merge_action_set
  | .r_additional_with_projections | .r_additional_return_projections | .r_case_alternative
  | .r_rel_types =>
    ⟨some [.seq], false, false⟩
  | .r_skip_to_directive | .r_skip_to_statement | .r_skip_to_clause =>
    ⟨some [], false, false⟩
  | .r__null_ =>
    ⟨some [.self], false, true⟩
  | _ => ⟨some [], true, false⟩

set_option maxRecDepth 100000 in
theorem holdT_all : ∀ r ∈ Rule.all, holdOk holdT r = true := by decide +kernel

theorem holdT_ok (r : Rule) : holdOk holdT r = true := holdT_all r (Rule.mem_all r)

/-- Every node that a rule makes refers to all the nodes it contains, comments and errors apart, in order. -/
theorem rule_exact {env : Env} {w : List UInt8} {r : Rule} {p p' : Nat} {q q' : QState}
    {ts : List (Peg.Thunk Act)} {m m' : Mach} (hr : inlined r = none)
    (h : Sk w (.nt r none) p q (.ok p' ts q')) {b : Block} {bs : List Block} (hb : m.blocks = b :: bs)
    (hn : Numbered m) (hm : AllExact m) (hx : Mach.exec env ts m = .ok m') : AllExact m' := by
  have h0 : Holds m ⟨[some []], none, true, false, [], 0⟩ m :=
    ⟨b, bs, hb, ⟨[], [], by simp [hb], has_nil _⟩, (fun is his => by cases his), fun _ => rfl,
      (fun e => by cases e), (fun i hi => by cases hi), .inl ⟨rfl, rfl⟩, hm, hn⟩
  have hc : ∀ s : HSum, ∃ A', Hold.call ⟨[some []], none, true, false, [], 0⟩ s = some A' := by
    intro s
    unfold Hold.call
    split <;> exact ⟨_, rfl⟩
  obtain ⟨A', hA⟩ := hc (holdT r)
  obtain ⟨_, _, h1⟩ := ftr_sound holdT_ok h _ _ _ rfl _ A' (by simp [ftr, hr, hA, Hold.setSelf]) env m m m' h0 hx
  exact h1.exact

end Verif.Cypher
