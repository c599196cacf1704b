import Verif.Cypher.Typing
/-!
# The functions that read AST nodes (`cypher_ast_*_get_*` and the like, `lib/src/ast_*.c`)

Each function checks the type of the node (`REQUIRE_TYPE`, util.h:35-38: an assertion), finds the structure it is
part of and returns a field of it, an element of an array, or the length of an array. The names are those of the
C functions without `cypher_ast_`, in the order of the header.

Simplifications: the structure is determined by the type of the node (each constructor allocates the structure
declared in its file); an index is a natural number; a pointer to another node is followed by looking for it among
the children.
-/
namespace Verif.Cypher
open Verif

/-- Fields that point to a node. -/
inductive Field where
  | accumulator | alias | arg | arg1 | arg2 | body | deflt | end_ | eval | expression | fieldTerminator
  | funcName | identifier | indexName | init | label | limit | lookup | name | orderBy | path | pattern
  | predicate | procName | propName | properties | property | query | reltype | skip | start | subscript
  | url | value | varlength | version
  deriving DecidableEq, Repr

/-- Arrays of nodes, each with its length. -/
inductive Arr where
  | actions | alternatives | args | clauses | elements | expressions | hints | identifiers | ids | items
  | labels | options | pairs | params | paths | points | projections | propNames | reltypes | selectors
  deriving DecidableEq, Repr

/-- Fields of type `bool`. -/
inductive Flag where
  | all_ | ascending | detach | distinct | includeExisting | optional | single | unique | withHeaders
  deriving DecidableEq, Repr

/-- The fields of the structure of each type: pointers to nodes, in the order in which `Node.args` has them, and arrays
(the lines are those of the constructor that fills them in; for relationship patterns see parser.c:2950-2971). -/
def _root_.Verif.AstType.fields : AstType → List Field × List Arr
  | .statement => ([.body], [.options]) -- ast_statement.c:43-76
  | .cypherOption => ([.version], [.params]) -- ast_cypher_option.c:50-83
  | .cypherOptionParam => ([.name, .value], []) -- ast_cypher_option_param.c:44-66
  | .createNodePropsIndex => ([.label], [.propNames]) -- ast_create_node_props_index.c:49-81
  | .dropNodePropsIndex => ([.label], [.propNames]) -- ast_drop_node_props_index.c:49-81
  | .createNodePropConstraint => ([.identifier, .label, .expression], []) -- ast_create_node_prop_constraint.c:50-76
  | .dropNodePropConstraint => ([.identifier, .label, .expression], []) -- ast_drop_node_prop_constraint.c:50-76
  | .createRelPropConstraint => ([.identifier, .reltype, .expression], []) -- ast_create_rel_prop_constraint.c:50-76
  | .dropRelPropConstraint => ([.identifier, .reltype, .expression], []) -- ast_drop_rel_prop_constraint.c:50-76
  | .query => ([], [.options, .clauses]) -- ast_query.c:46-87
  | .usingPeriodicCommit => ([.limit], []) -- ast_using_periodic_commit.c:48-68
  | .loadCsv => ([.url, .identifier, .fieldTerminator], []) -- ast_load_csv.c:50-76
  | .start => ([.predicate], [.points]) -- ast_start.c:49-82
  | .nodeIndexLookup => ([.identifier, .indexName, .propName, .lookup], []) -- ast_node_index_lookup.c:50-79
  | .nodeIndexQuery => ([.identifier, .indexName, .query], []) -- ast_node_index_query.c:49-75
  | .nodeIdLookup => ([.identifier], [.ids]) -- ast_node_id_lookup.c:49-80
  | .allNodesScan => ([.identifier], []) -- ast_all_nodes_scan.c:47-66
  | .relIndexLookup => ([.identifier, .indexName, .propName, .lookup], []) -- ast_rel_index_lookup.c:50-79
  | .relIndexQuery => ([.identifier, .indexName, .query], []) -- ast_rel_index_query.c:49-75
  | .relIdLookup => ([.identifier], [.ids]) -- ast_rel_id_lookup.c:49-80
  | .allRelsScan => ([.identifier], []) -- ast_all_rels_scan.c:47-66
  | .match_ => ([.pattern, .predicate], [.hints]) -- ast_match.c:51-87
  | .usingIndex => ([.identifier, .label, .propName], []) -- ast_using_index.c:50-74
  | .usingJoin => ([], [.identifiers]) -- ast_using_join.c:49-80
  | .usingScan => ([.identifier, .label], []) -- ast_using_scan.c:49-70
  | .merge => ([.path], [.actions]) -- ast_merge.c:49-80
  | .onMatch => ([], [.items]) -- ast_on_match.c:48-77
  | .onCreate => ([], [.items]) -- ast_on_create.c:48-77
  | .create => ([.pattern], []) -- ast_create.c:48-68
  | .set_ => ([], [.items]) -- ast_set.c:48-77
  | .setProperty => ([.property, .expression], []) -- ast_set_property.c:48-70
  | .setAllProperties => ([.identifier, .expression], []) -- ast_set_all_properties.c:48-71
  | .mergeProperties => ([.identifier, .expression], []) -- ast_merge_properties.c:48-70
  | .setLabels => ([.identifier], [.labels]) -- ast_set_labels.c:49-81
  | .deleteClause => ([], [.expressions]) -- ast_delete.c:49-81
  | .remove => ([], [.items]) -- ast_remove.c:48-77
  | .removeLabels => ([.identifier], [.labels]) -- ast_remove_labels.c:49-81
  | .removeProperty => ([.property], []) -- ast_remove_property.c:47-67
  | .foreach => ([.identifier, .expression], [.clauses]) -- ast_foreach.c:50-84
  | .with_ => ([.orderBy, .skip, .limit, .predicate], [.projections]) -- ast_with.c:54-99
  | .unwind => ([.expression, .alias], []) -- ast_unwind.c:49-70
  | .call => ([.procName, .predicate], [.args, .projections]) -- ast_call.c:53-100
  | .returnClause => ([.orderBy, .skip, .limit], [.projections]) -- ast_return.c:53-96
  | .projection => ([.expression, .alias], []) -- ast_projection.c:43-65
  | .orderBy => ([], [.items]) -- ast_order_by.c:43-72
  | .sortItem => ([.expression], []) -- ast_sort_item.c:43-63
  | .unaryOperator => ([.arg], []) -- ast_unary_operator.c:49-70
  | .binaryOperator => ([.arg1, .arg2], []) -- ast_binary_operator.c:50-74
  | .comparison => ([], [.args]) -- ast_comparison.c:51-89
  | .applyOperator => ([.funcName], [.args]) -- ast_apply_operator.c:51-85
  | .applyAllOperator => ([.funcName], []) -- ast_apply_all_operator.c:49-78
  | .propertyOperator => ([.expression, .propName], []) -- ast_property_operator.c:49-72
  | .subscriptOperator => ([.expression, .subscript], []) -- ast_subscript_operator.c:49-72
  | .sliceOperator => ([.expression, .start, .end_], []) -- ast_slice_operator.c:50-76
  | .labelsOperator => ([.expression], [.labels]) -- ast_labels_operator.c:50-82
  | .listComprehension => ([.identifier, .expression, .predicate, .eval], []) -- ast_list_comprehension.c:82-119
  | .patternComprehension => ([.identifier, .pattern, .predicate, .eval], []) -- ast_pattern_comprehension.c:50-82
  | .caseExpression => ([.expression, .deflt], [.alternatives]) -- ast_case.c:51-87
  | .filter_ => ([.identifier, .expression, .predicate], []) -- ast_filter.c:64-89
  | .extract => ([.identifier, .expression, .eval], []) -- ast_extract.c:64-89
  | .reduce => ([.accumulator, .init, .identifier, .expression, .eval], []) -- ast_reduce.c:52-81
  | .all_ => ([.identifier, .expression, .predicate], []) -- ast_all.c:64-89
  | .any_ => ([.identifier, .expression, .predicate], []) -- ast_any.c:64-89
  | .single => ([.identifier, .expression, .predicate], []) -- ast_single.c:64-89
  | .none_ => ([.identifier, .expression, .predicate], []) -- ast_none.c:64-88
  | .collection => ([], [.elements]) -- ast_collection.c:48-71
  | .map_ => ([], [.pairs]) -- ast_map.c:98-115
  | .pattern => ([], [.paths]) -- ast_pattern.c:43-72
  | .namedPath => ([.identifier, .path], []) -- ast_named_path.c:55-76
  | .shortestPath => ([.path], []) -- ast_shortest_path.c:55-75
  | .patternPath => ([], [.elements]) -- ast_pattern_path.c:71-105
  | .nodePattern => ([.identifier, .properties], [.labels]) -- ast_node_pattern.c:45-81
  | .relPattern => ([.identifier, .varlength, .properties], [.reltypes]) -- ast_rel_pattern.c:47-89
  | .range => ([.start, .end_], []) -- ast_range.c:44-65
  | .command => ([.name], [.args]) -- ast_command.c:44-75
  | .mapProjection => ([.expression], [.selectors]) -- ast_map_projection.c:50-74
  | .mapProjectionLiteral => ([.propName, .expression], []) -- ast_map_projection_literal.c:48-71
  | .mapProjectionProperty => ([.propName], []) -- ast_map_projection_property.c:47-68
  | .mapProjectionIdentifier => ([.identifier], []) -- ast_map_projection_identifier.c:47-68
  | _ => ([], [])

/-- What the body of a function is. -/
inductive Body where
  /-- `return node->x;` -/
  | get (x : Field)
  /-- `return node->nxs;` -/
  | count (xs : Arr)
  /-- `if (index >= node->nxs) { return NULL; } return node->xs[index];` -/
  | nth (xs : Arr)
  /-- `return node->nxs;` where the array has twice as many elements -/
  | pairCount (xs : Arr)
  /-- `if (index >= node->nxs) { return NULL; } return node->xs[index*2];` -/
  | fst (xs : Arr)
  /-- `if (index >= node->nxs) { return NULL; } return node->xs[index*2 + 1];` -/
  | snd (xs : Arr)
  /-- `return node->length;` -/
  | opCount
  /-- `if (pos >= node->length) { return NULL; } return node->ops[pos];` -/
  | nthOp
  /-- `if (pos > node->length) { return NULL; } return node->xs[pos];` -/
  | upto (xs : Arr)
  /-- `return node->x;`, a `bool` -/
  | flag (x : Flag)
  /-- `return node->op;` -/
  | op
  /-- `return node->direction;` -/
  | dir
  /-- `return node->p;` -/
  | text
  /-- `return lcnode->_vt->get_x(lcnode);` -/
  | vt (x : Field)
  /-- `return ppnode->_vt->nelements(ppnode);` -/
  | vtCount
  /-- `return ppnode->_vt->get_element(ppnode, index);` -/
  | vtNth
  deriving DecidableEq, Repr

/-- The functions. -/
inductive Fn where
  | statement_noptions | statement_get_option | statement_get_body | cypher_option_get_version
  | cypher_option_nparams | cypher_option_get_param | cypher_option_param_get_name
  | cypher_option_param_get_value | create_node_props_index_get_label | create_node_props_index_nprops
  | create_node_props_index_get_prop_name | drop_node_props_index_get_label | drop_node_props_index_nprops
  | drop_node_props_index_get_prop_name | create_node_prop_constraint_get_identifier
  | create_node_prop_constraint_get_label | create_node_prop_constraint_get_expression
  | create_node_prop_constraint_is_unique | drop_node_prop_constraint_get_identifier
  | drop_node_prop_constraint_get_label | drop_node_prop_constraint_get_expression
  | drop_node_prop_constraint_is_unique | create_rel_prop_constraint_get_identifier
  | create_rel_prop_constraint_get_reltype | create_rel_prop_constraint_get_expression
  | create_rel_prop_constraint_is_unique | drop_rel_prop_constraint_get_identifier
  | drop_rel_prop_constraint_get_reltype | drop_rel_prop_constraint_get_expression
  | drop_rel_prop_constraint_is_unique | query_noptions | query_get_option | query_nclauses
  | query_get_clause | using_periodic_commit_get_limit | load_csv_has_with_headers | load_csv_get_url
  | load_csv_get_identifier | load_csv_get_field_terminator | start_npoints | start_get_point
  | start_get_predicate | node_index_lookup_get_identifier | node_index_lookup_get_index_name
  | node_index_lookup_get_prop_name | node_index_lookup_get_lookup | node_index_query_get_identifier
  | node_index_query_get_index_name | node_index_query_get_query | node_id_lookup_get_identifier
  | node_id_lookup_nids | node_id_lookup_get_id | all_nodes_scan_get_identifier
  | rel_index_lookup_get_identifier | rel_index_lookup_get_index_name | rel_index_lookup_get_prop_name
  | rel_index_lookup_get_lookup | rel_index_query_get_identifier | rel_index_query_get_index_name
  | rel_index_query_get_query | rel_id_lookup_get_identifier | rel_id_lookup_nids | rel_id_lookup_get_id
  | all_rels_scan_get_identifier | match_is_optional | match_get_pattern | match_nhints | match_get_hint
  | match_get_predicate | using_index_get_identifier | using_index_get_label | using_index_get_prop_name
  | using_join_nidentifiers | using_join_get_identifier | using_scan_get_identifier | using_scan_get_label
  | merge_get_pattern_path | merge_nactions | merge_get_action | on_match_nitems | on_match_get_item
  | on_create_nitems | on_create_get_item | create_is_unique | create_get_pattern | set_nitems | set_get_item
  | set_property_get_property | set_property_get_expression | set_all_properties_get_identifier
  | set_all_properties_get_expression | merge_properties_get_identifier | merge_properties_get_expression
  | set_labels_get_identifier | set_labels_nlabels | set_labels_get_label | delete_has_detach
  | delete_nexpressions | delete_get_expression | remove_nitems | remove_get_item
  | remove_labels_get_identifier | remove_labels_nlabels | remove_labels_get_label
  | remove_property_get_property | foreach_get_identifier | foreach_get_expression | foreach_nclauses
  | foreach_get_clause | with_is_distinct | with_has_include_existing | with_nprojections
  | with_get_projection | with_get_order_by | with_get_skip | with_get_limit | with_get_predicate
  | unwind_get_expression | unwind_get_alias | call_get_proc_name | call_narguments | call_get_argument
  | call_nprojections | call_get_projection | call_get_predicate | return_is_distinct
  | return_has_include_existing | return_nprojections | return_get_projection | return_get_order_by
  | return_get_skip | return_get_limit | projection_get_expression | projection_get_alias | order_by_nitems
  | order_by_get_item | sort_item_get_expression | sort_item_is_ascending | union_has_all
  | unary_operator_get_operator | unary_operator_get_argument | binary_operator_get_operator
  | binary_operator_get_argument1 | binary_operator_get_argument2 | comparison_get_length
  | comparison_get_operator | comparison_get_argument | apply_operator_get_func_name
  | apply_operator_get_distinct | apply_operator_narguments | apply_operator_get_argument
  | apply_all_operator_get_func_name | apply_all_operator_get_distinct | property_operator_get_expression
  | property_operator_get_prop_name | subscript_operator_get_expression | subscript_operator_get_subscript
  | slice_operator_get_expression | slice_operator_get_start | slice_operator_get_end
  | map_projection_get_expression | map_projection_nselectors | map_projection_get_selector
  | map_projection_literal_get_prop_name | map_projection_literal_get_expression
  | map_projection_property_get_prop_name | map_projection_identifier_get_identifier
  | labels_operator_get_expression | labels_operator_nlabels | labels_operator_get_label
  | list_comprehension_get_identifier | list_comprehension_get_expression | list_comprehension_get_predicate
  | list_comprehension_get_eval | pattern_comprehension_get_identifier | pattern_comprehension_get_pattern
  | pattern_comprehension_get_predicate | pattern_comprehension_get_eval | reduce_get_accumulator
  | reduce_get_init | reduce_get_identifier | reduce_get_expression | reduce_get_eval | case_get_expression
  | case_nalternatives | case_get_predicate | case_get_value | case_get_default | collection_length
  | collection_get | map_nentries | map_get_key | map_get_value | identifier_get_name | parameter_get_name
  | string_get_value | integer_get_valuestr | float_get_valuestr | label_get_name | reltype_get_name
  | prop_name_get_value | function_name_get_value | index_name_get_value | proc_name_get_value
  | pattern_npaths | pattern_get_path | named_path_get_identifier | named_path_get_path
  | shortest_path_is_single | shortest_path_get_path | pattern_path_nelements | pattern_path_get_element
  | node_pattern_get_identifier | node_pattern_nlabels | node_pattern_get_label | node_pattern_get_properties
  | rel_pattern_get_direction | rel_pattern_get_identifier | rel_pattern_nreltypes | rel_pattern_get_reltype
  | rel_pattern_get_varlength | rel_pattern_get_properties | range_get_start | range_get_end
  | command_get_name | command_narguments | command_get_argument | line_comment_get_value
  | block_comment_get_value | error_get_value
  deriving DecidableEq, Repr

namespace Fn

def all : List Fn :=
  [.statement_noptions, .statement_get_option, .statement_get_body, .cypher_option_get_version,
   .cypher_option_nparams, .cypher_option_get_param, .cypher_option_param_get_name,
   .cypher_option_param_get_value, .create_node_props_index_get_label, .create_node_props_index_nprops,
   .create_node_props_index_get_prop_name, .drop_node_props_index_get_label, .drop_node_props_index_nprops,
   .drop_node_props_index_get_prop_name, .create_node_prop_constraint_get_identifier,
   .create_node_prop_constraint_get_label, .create_node_prop_constraint_get_expression,
   .create_node_prop_constraint_is_unique, .drop_node_prop_constraint_get_identifier,
   .drop_node_prop_constraint_get_label, .drop_node_prop_constraint_get_expression,
   .drop_node_prop_constraint_is_unique, .create_rel_prop_constraint_get_identifier,
   .create_rel_prop_constraint_get_reltype, .create_rel_prop_constraint_get_expression,
   .create_rel_prop_constraint_is_unique, .drop_rel_prop_constraint_get_identifier,
   .drop_rel_prop_constraint_get_reltype, .drop_rel_prop_constraint_get_expression,
   .drop_rel_prop_constraint_is_unique, .query_noptions, .query_get_option, .query_nclauses,
   .query_get_clause, .using_periodic_commit_get_limit, .load_csv_has_with_headers, .load_csv_get_url,
   .load_csv_get_identifier, .load_csv_get_field_terminator, .start_npoints, .start_get_point,
   .start_get_predicate, .node_index_lookup_get_identifier, .node_index_lookup_get_index_name,
   .node_index_lookup_get_prop_name, .node_index_lookup_get_lookup, .node_index_query_get_identifier,
   .node_index_query_get_index_name, .node_index_query_get_query, .node_id_lookup_get_identifier,
   .node_id_lookup_nids, .node_id_lookup_get_id, .all_nodes_scan_get_identifier,
   .rel_index_lookup_get_identifier, .rel_index_lookup_get_index_name, .rel_index_lookup_get_prop_name,
   .rel_index_lookup_get_lookup, .rel_index_query_get_identifier, .rel_index_query_get_index_name,
   .rel_index_query_get_query, .rel_id_lookup_get_identifier, .rel_id_lookup_nids, .rel_id_lookup_get_id,
   .all_rels_scan_get_identifier, .match_is_optional, .match_get_pattern, .match_nhints, .match_get_hint,
   .match_get_predicate, .using_index_get_identifier, .using_index_get_label, .using_index_get_prop_name,
   .using_join_nidentifiers, .using_join_get_identifier, .using_scan_get_identifier, .using_scan_get_label,
   .merge_get_pattern_path, .merge_nactions, .merge_get_action, .on_match_nitems, .on_match_get_item,
   .on_create_nitems, .on_create_get_item, .create_is_unique, .create_get_pattern, .set_nitems,
   .set_get_item, .set_property_get_property, .set_property_get_expression,
   .set_all_properties_get_identifier, .set_all_properties_get_expression, .merge_properties_get_identifier,
   .merge_properties_get_expression, .set_labels_get_identifier, .set_labels_nlabels, .set_labels_get_label,
   .delete_has_detach, .delete_nexpressions, .delete_get_expression, .remove_nitems, .remove_get_item,
   .remove_labels_get_identifier, .remove_labels_nlabels, .remove_labels_get_label,
   .remove_property_get_property, .foreach_get_identifier, .foreach_get_expression, .foreach_nclauses,
   .foreach_get_clause, .with_is_distinct, .with_has_include_existing, .with_nprojections,
   .with_get_projection, .with_get_order_by, .with_get_skip, .with_get_limit, .with_get_predicate,
   .unwind_get_expression, .unwind_get_alias, .call_get_proc_name, .call_narguments, .call_get_argument,
   .call_nprojections, .call_get_projection, .call_get_predicate, .return_is_distinct,
   .return_has_include_existing, .return_nprojections, .return_get_projection, .return_get_order_by,
   .return_get_skip, .return_get_limit, .projection_get_expression, .projection_get_alias, .order_by_nitems,
   .order_by_get_item, .sort_item_get_expression, .sort_item_is_ascending, .union_has_all,
   .unary_operator_get_operator, .unary_operator_get_argument, .binary_operator_get_operator,
   .binary_operator_get_argument1, .binary_operator_get_argument2, .comparison_get_length,
   .comparison_get_operator, .comparison_get_argument, .apply_operator_get_func_name,
   .apply_operator_get_distinct, .apply_operator_narguments, .apply_operator_get_argument,
   .apply_all_operator_get_func_name, .apply_all_operator_get_distinct, .property_operator_get_expression,
   .property_operator_get_prop_name, .subscript_operator_get_expression, .subscript_operator_get_subscript,
   .slice_operator_get_expression, .slice_operator_get_start, .slice_operator_get_end,
   .map_projection_get_expression, .map_projection_nselectors, .map_projection_get_selector,
   .map_projection_literal_get_prop_name, .map_projection_literal_get_expression,
   .map_projection_property_get_prop_name, .map_projection_identifier_get_identifier,
   .labels_operator_get_expression, .labels_operator_nlabels, .labels_operator_get_label,
   .list_comprehension_get_identifier, .list_comprehension_get_expression, .list_comprehension_get_predicate,
   .list_comprehension_get_eval, .pattern_comprehension_get_identifier, .pattern_comprehension_get_pattern,
   .pattern_comprehension_get_predicate, .pattern_comprehension_get_eval, .reduce_get_accumulator,
   .reduce_get_init, .reduce_get_identifier, .reduce_get_expression, .reduce_get_eval, .case_get_expression,
   .case_nalternatives, .case_get_predicate, .case_get_value, .case_get_default, .collection_length,
   .collection_get, .map_nentries, .map_get_key, .map_get_value, .identifier_get_name, .parameter_get_name,
   .string_get_value, .integer_get_valuestr, .float_get_valuestr, .label_get_name, .reltype_get_name,
   .prop_name_get_value, .function_name_get_value, .index_name_get_value, .proc_name_get_value,
   .pattern_npaths, .pattern_get_path, .named_path_get_identifier, .named_path_get_path,
   .shortest_path_is_single, .shortest_path_get_path, .pattern_path_nelements, .pattern_path_get_element,
   .node_pattern_get_identifier, .node_pattern_nlabels, .node_pattern_get_label,
   .node_pattern_get_properties, .rel_pattern_get_direction, .rel_pattern_get_identifier,
   .rel_pattern_nreltypes, .rel_pattern_get_reltype, .rel_pattern_get_varlength, .rel_pattern_get_properties,
   .range_get_start, .range_get_end, .command_get_name, .command_narguments, .command_get_argument,
   .line_comment_get_value, .block_comment_get_value, .error_get_value]

theorem mem_all (f : Fn) : f ∈ all := by cases f <;> decide +kernel

/-- The type each function requires, and its body. -/
def code : Fn → AstType × Body
  | .statement_noptions => (.statement, .count .options) -- ast_statement.c:106-111
  | .statement_get_option => (.statement, .nth .options) -- ast_statement.c:114-124
  | .statement_get_body => (.statement, .get .body) -- ast_statement.c:127-133
  | .cypher_option_get_version => (.cypherOption, .get .version) -- ast_cypher_option.c:115-122
  | .cypher_option_nparams => (.cypherOption, .count .params) -- ast_cypher_option.c:125-131
  | .cypher_option_get_param => (.cypherOption, .nth .params) -- ast_cypher_option.c:134-145
  | .cypher_option_param_get_name => (.cypherOptionParam, .get .name) -- ast_cypher_option_param.c:84-91
  | .cypher_option_param_get_value => (.cypherOptionParam, .get .value) -- ast_cypher_option_param.c:94-101
  | .create_node_props_index_get_label => (.createNodePropsIndex, .get .label) -- ast_create_node_props_index.c:113-120
  | .create_node_props_index_nprops => (.createNodePropsIndex, .count .propNames) -- ast_create_node_props_index.c:123-130
  | .create_node_props_index_get_prop_name => (.createNodePropsIndex, .nth .propNames) -- ast_create_node_props_index.c:133-144
  | .drop_node_props_index_get_label => (.dropNodePropsIndex, .get .label) -- ast_drop_node_props_index.c:112-119
  | .drop_node_props_index_nprops => (.dropNodePropsIndex, .count .propNames) -- ast_drop_node_props_index.c:122-129
  | .drop_node_props_index_get_prop_name => (.dropNodePropsIndex, .nth .propNames) -- ast_drop_node_props_index.c:132-143
  | .create_node_prop_constraint_get_identifier => (.createNodePropConstraint, .get .identifier) -- ast_create_node_prop_constraint.c:94-100
  | .create_node_prop_constraint_get_label => (.createNodePropConstraint, .get .label) -- ast_create_node_prop_constraint.c:103-109
  | .create_node_prop_constraint_get_expression => (.createNodePropConstraint, .get .expression) -- ast_create_node_prop_constraint.c:112-118
  | .create_node_prop_constraint_is_unique => (.createNodePropConstraint, .flag .unique) -- ast_create_node_prop_constraint.c:121-127
  | .drop_node_prop_constraint_get_identifier => (.dropNodePropConstraint, .get .identifier) -- ast_drop_node_prop_constraint.c:94-100
  | .drop_node_prop_constraint_get_label => (.dropNodePropConstraint, .get .label) -- ast_drop_node_prop_constraint.c:103-109
  | .drop_node_prop_constraint_get_expression => (.dropNodePropConstraint, .get .expression) -- ast_drop_node_prop_constraint.c:112-118
  | .drop_node_prop_constraint_is_unique => (.dropNodePropConstraint, .flag .unique) -- ast_drop_node_prop_constraint.c:121-127
  | .create_rel_prop_constraint_get_identifier => (.createRelPropConstraint, .get .identifier) -- ast_create_rel_prop_constraint.c:94-100
  | .create_rel_prop_constraint_get_reltype => (.createRelPropConstraint, .get .reltype) -- ast_create_rel_prop_constraint.c:103-109
  | .create_rel_prop_constraint_get_expression => (.createRelPropConstraint, .get .expression) -- ast_create_rel_prop_constraint.c:112-118
  | .create_rel_prop_constraint_is_unique => (.createRelPropConstraint, .flag .unique) -- ast_create_rel_prop_constraint.c:121-127
  | .drop_rel_prop_constraint_get_identifier => (.dropRelPropConstraint, .get .identifier) -- ast_drop_rel_prop_constraint.c:94-100
  | .drop_rel_prop_constraint_get_reltype => (.dropRelPropConstraint, .get .reltype) -- ast_drop_rel_prop_constraint.c:103-109
  | .drop_rel_prop_constraint_get_expression => (.dropRelPropConstraint, .get .expression) -- ast_drop_rel_prop_constraint.c:112-118
  | .drop_rel_prop_constraint_is_unique => (.dropRelPropConstraint, .flag .unique) -- ast_drop_rel_prop_constraint.c:121-127
  | .query_noptions => (.query, .count .options) -- ast_query.c:135-140
  | .query_get_option => (.query, .nth .options) -- ast_query.c:143-153
  | .query_nclauses => (.query, .count .clauses) -- ast_query.c:156-161
  | .query_get_clause => (.query, .nth .clauses) -- ast_query.c:164-174
  | .using_periodic_commit_get_limit => (.usingPeriodicCommit, .get .limit) -- ast_using_periodic_commit.c:86-93
  | .load_csv_has_with_headers => (.loadCsv, .flag .withHeaders) -- ast_load_csv.c:95-100
  | .load_csv_get_url => (.loadCsv, .get .url) -- ast_load_csv.c:103-109
  | .load_csv_get_identifier => (.loadCsv, .get .identifier) -- ast_load_csv.c:112-118
  | .load_csv_get_field_terminator => (.loadCsv, .get .fieldTerminator) -- ast_load_csv.c:121-127
  | .start_npoints => (.start, .count .points) -- ast_start.c:113-118
  | .start_get_point => (.start, .nth .points) -- ast_start.c:121-131
  | .start_get_predicate => (.start, .get .predicate) -- ast_start.c:134-140
  | .node_index_lookup_get_identifier => (.nodeIndexLookup, .get .identifier) -- ast_node_index_lookup.c:99-106
  | .node_index_lookup_get_index_name => (.nodeIndexLookup, .get .indexName) -- ast_node_index_lookup.c:109-116
  | .node_index_lookup_get_prop_name => (.nodeIndexLookup, .get .propName) -- ast_node_index_lookup.c:119-126
  | .node_index_lookup_get_lookup => (.nodeIndexLookup, .get .lookup) -- ast_node_index_lookup.c:129-136
  | .node_index_query_get_identifier => (.nodeIndexQuery, .get .identifier) -- ast_node_index_query.c:94-101
  | .node_index_query_get_index_name => (.nodeIndexQuery, .get .indexName) -- ast_node_index_query.c:104-111
  | .node_index_query_get_query => (.nodeIndexQuery, .get .query) -- ast_node_index_query.c:114-121
  | .node_id_lookup_get_identifier => (.nodeIdLookup, .get .identifier) -- ast_node_id_lookup.c:110-117
  | .node_id_lookup_nids => (.nodeIdLookup, .count .ids) -- ast_node_id_lookup.c:120-126
  | .node_id_lookup_get_id => (.nodeIdLookup, .nth .ids) -- ast_node_id_lookup.c:129-140
  | .all_nodes_scan_get_identifier => (.allNodesScan, .get .identifier) -- ast_all_nodes_scan.c:83-90
  | .rel_index_lookup_get_identifier => (.relIndexLookup, .get .identifier) -- ast_rel_index_lookup.c:99-106
  | .rel_index_lookup_get_index_name => (.relIndexLookup, .get .indexName) -- ast_rel_index_lookup.c:109-116
  | .rel_index_lookup_get_prop_name => (.relIndexLookup, .get .propName) -- ast_rel_index_lookup.c:119-126
  | .rel_index_lookup_get_lookup => (.relIndexLookup, .get .lookup) -- ast_rel_index_lookup.c:129-136
  | .rel_index_query_get_identifier => (.relIndexQuery, .get .identifier) -- ast_rel_index_query.c:94-101
  | .rel_index_query_get_index_name => (.relIndexQuery, .get .indexName) -- ast_rel_index_query.c:104-111
  | .rel_index_query_get_query => (.relIndexQuery, .get .query) -- ast_rel_index_query.c:114-121
  | .rel_id_lookup_get_identifier => (.relIdLookup, .get .identifier) -- ast_rel_id_lookup.c:110-117
  | .rel_id_lookup_nids => (.relIdLookup, .count .ids) -- ast_rel_id_lookup.c:120-126
  | .rel_id_lookup_get_id => (.relIdLookup, .nth .ids) -- ast_rel_id_lookup.c:129-140
  | .all_rels_scan_get_identifier => (.allRelsScan, .get .identifier) -- ast_all_rels_scan.c:83-90
  | .match_is_optional => (.match_, .flag .optional) -- ast_match.c:120-125
  | .match_get_pattern => (.match_, .get .pattern) -- ast_match.c:128-134
  | .match_nhints => (.match_, .count .hints) -- ast_match.c:137-142
  | .match_get_hint => (.match_, .nth .hints) -- ast_match.c:145-155
  | .match_get_predicate => (.match_, .get .predicate) -- ast_match.c:158-164
  | .using_index_get_identifier => (.usingIndex, .get .identifier) -- ast_using_index.c:93-100
  | .using_index_get_label => (.usingIndex, .get .label) -- ast_using_index.c:103-110
  | .using_index_get_prop_name => (.usingIndex, .get .propName) -- ast_using_index.c:113-120
  | .using_join_nidentifiers => (.usingJoin, .count .identifiers) -- ast_using_join.c:109-115
  | .using_join_get_identifier => (.usingJoin, .nth .identifiers) -- ast_using_join.c:118-129
  | .using_scan_get_identifier => (.usingScan, .get .identifier) -- ast_using_scan.c:88-95
  | .using_scan_get_label => (.usingScan, .get .label) -- ast_using_scan.c:98-105
  | .merge_get_pattern_path => (.merge, .get .path) -- ast_merge.c:110-116
  | .merge_nactions => (.merge, .count .actions) -- ast_merge.c:119-124
  | .merge_get_action => (.merge, .nth .actions) -- ast_merge.c:127-137
  | .on_match_nitems => (.onMatch, .count .items) -- ast_on_match.c:106-111
  | .on_match_get_item => (.onMatch, .nth .items) -- ast_on_match.c:114-124
  | .on_create_nitems => (.onCreate, .count .items) -- ast_on_create.c:106-111
  | .on_create_get_item => (.onCreate, .nth .items) -- ast_on_create.c:114-124
  | .create_is_unique => (.create, .flag .unique) -- ast_create.c:84-89
  | .create_get_pattern => (.create, .get .pattern) -- ast_create.c:92-98
  | .set_nitems => (.set_, .count .items) -- ast_set.c:105-110
  | .set_get_item => (.set_, .nth .items) -- ast_set.c:113-123
  | .set_property_get_property => (.setProperty, .get .property) -- ast_set_property.c:88-95
  | .set_property_get_expression => (.setProperty, .get .expression) -- ast_set_property.c:98-105
  | .set_all_properties_get_identifier => (.setAllProperties, .get .identifier) -- ast_set_all_properties.c:89-96
  | .set_all_properties_get_expression => (.setAllProperties, .get .expression) -- ast_set_all_properties.c:99-106
  | .merge_properties_get_identifier => (.mergeProperties, .get .identifier) -- ast_merge_properties.c:88-95
  | .merge_properties_get_expression => (.mergeProperties, .get .expression) -- ast_merge_properties.c:98-105
  | .set_labels_get_identifier => (.setLabels, .get .identifier) -- ast_set_labels.c:111-117
  | .set_labels_nlabels => (.setLabels, .count .labels) -- ast_set_labels.c:120-125
  | .set_labels_get_label => (.setLabels, .nth .labels) -- ast_set_labels.c:128-138
  | .delete_has_detach => (.deleteClause, .flag .detach) -- ast_delete.c:111-117
  | .delete_nexpressions => (.deleteClause, .count .expressions) -- ast_delete.c:120-126
  | .delete_get_expression => (.deleteClause, .nth .expressions) -- ast_delete.c:129-140
  | .remove_nitems => (.remove, .count .items) -- ast_remove.c:105-110
  | .remove_get_item => (.remove, .nth .items) -- ast_remove.c:113-123
  | .remove_labels_get_identifier => (.removeLabels, .get .identifier) -- ast_remove_labels.c:112-119
  | .remove_labels_nlabels => (.removeLabels, .count .labels) -- ast_remove_labels.c:122-128
  | .remove_labels_get_label => (.removeLabels, .nth .labels) -- ast_remove_labels.c:131-142
  | .remove_property_get_property => (.removeProperty, .get .property) -- ast_remove_property.c:84-91
  | .foreach_get_identifier => (.foreach, .get .identifier) -- ast_foreach.c:116-123
  | .foreach_get_expression => (.foreach, .get .expression) -- ast_foreach.c:126-133
  | .foreach_nclauses => (.foreach, .count .clauses) -- ast_foreach.c:136-142
  | .foreach_get_clause => (.foreach, .nth .clauses) -- ast_foreach.c:145-156
  | .with_is_distinct => (.with_, .flag .distinct) -- ast_with.c:138-144
  | .with_has_include_existing => (.with_, .flag .includeExisting) -- ast_with.c:147-153
  | .with_nprojections => (.with_, .count .projections) -- ast_with.c:156-162
  | .with_get_projection => (.with_, .nth .projections) -- ast_with.c:165-176
  | .with_get_order_by => (.with_, .get .orderBy) -- ast_with.c:179-186
  | .with_get_skip => (.with_, .get .skip) -- ast_with.c:189-196
  | .with_get_limit => (.with_, .get .limit) -- ast_with.c:199-206
  | .with_get_predicate => (.with_, .get .predicate) -- ast_with.c:209-216
  | .unwind_get_expression => (.unwind, .get .expression) -- ast_unwind.c:87-94
  | .unwind_get_alias => (.unwind, .get .alias) -- ast_unwind.c:97-104
  | .call_get_proc_name => (.call, .get .procName) -- ast_call.c:152-158
  | .call_narguments => (.call, .count .args) -- ast_call.c:161-166
  | .call_get_argument => (.call, .nth .args) -- ast_call.c:169-179
  | .call_nprojections => (.call, .count .projections) -- ast_call.c:182-187
  | .call_get_projection => (.call, .nth .projections) -- ast_call.c:190-200
  | .call_get_predicate => (.call, .get .predicate) -- ast_call.c:203-210
  | .return_is_distinct => (.returnClause, .flag .distinct) -- ast_return.c:133-139
  | .return_has_include_existing => (.returnClause, .flag .includeExisting) -- ast_return.c:142-148
  | .return_nprojections => (.returnClause, .count .projections) -- ast_return.c:151-157
  | .return_get_projection => (.returnClause, .nth .projections) -- ast_return.c:160-171
  | .return_get_order_by => (.returnClause, .get .orderBy) -- ast_return.c:174-181
  | .return_get_skip => (.returnClause, .get .skip) -- ast_return.c:184-191
  | .return_get_limit => (.returnClause, .get .limit) -- ast_return.c:194-201
  | .projection_get_expression => (.projection, .get .expression) -- ast_projection.c:83-89
  | .projection_get_alias => (.projection, .get .alias) -- ast_projection.c:92-98
  | .order_by_nitems => (.orderBy, .count .items) -- ast_order_by.c:101-106
  | .order_by_get_item => (.orderBy, .nth .items) -- ast_order_by.c:109-119
  | .sort_item_get_expression => (.sortItem, .get .expression) -- ast_sort_item.c:79-85
  | .sort_item_is_ascending => (.sortItem, .flag .ascending) -- ast_sort_item.c:88-93
  | .union_has_all => (.unionClause, .flag .all_) -- ast_union.c:77-83
  | .unary_operator_get_operator => (.unaryOperator, .op) -- ast_unary_operator.c:87-94
  | .unary_operator_get_argument => (.unaryOperator, .get .arg) -- ast_unary_operator.c:97-104
  | .binary_operator_get_operator => (.binaryOperator, .op) -- ast_binary_operator.c:92-99
  | .binary_operator_get_argument1 => (.binaryOperator, .get .arg1) -- ast_binary_operator.c:102-109
  | .binary_operator_get_argument2 => (.binaryOperator, .get .arg2) -- ast_binary_operator.c:112-119
  | .comparison_get_length => (.comparison, .opCount) -- ast_comparison.c:126-131
  | .comparison_get_operator => (.comparison, .nthOp) -- ast_comparison.c:134-144
  | .comparison_get_argument => (.comparison, .upto .args) -- ast_comparison.c:147-157
  | .apply_operator_get_func_name => (.applyOperator, .get .funcName) -- ast_apply_operator.c:116-123
  | .apply_operator_get_distinct => (.applyOperator, .flag .distinct) -- ast_apply_operator.c:126-132
  | .apply_operator_narguments => (.applyOperator, .count .args) -- ast_apply_operator.c:135-142
  | .apply_operator_get_argument => (.applyOperator, .nth .args) -- ast_apply_operator.c:145-157
  | .apply_all_operator_get_func_name => (.applyAllOperator, .get .funcName) -- ast_apply_all_operator.c:95-102
  | .apply_all_operator_get_distinct => (.applyAllOperator, .flag .distinct) -- ast_apply_all_operator.c:105-111
  | .property_operator_get_expression => (.propertyOperator, .get .expression) -- ast_property_operator.c:90-97
  | .property_operator_get_prop_name => (.propertyOperator, .get .propName) -- ast_property_operator.c:100-107
  | .subscript_operator_get_expression => (.subscriptOperator, .get .expression) -- ast_subscript_operator.c:90-97
  | .subscript_operator_get_subscript => (.subscriptOperator, .get .subscript) -- ast_subscript_operator.c:100-107
  | .slice_operator_get_expression => (.sliceOperator, .get .expression) -- ast_slice_operator.c:97-104
  | .slice_operator_get_start => (.sliceOperator, .get .start) -- ast_slice_operator.c:107-114
  | .slice_operator_get_end => (.sliceOperator, .get .end_) -- ast_slice_operator.c:117-124
  | .map_projection_get_expression => (.mapProjection, .get .expression) -- ast_map_projection.c:106-113
  | .map_projection_nselectors => (.mapProjection, .count .selectors) -- ast_map_projection.c:116-123
  | .map_projection_get_selector => (.mapProjection, .nth .selectors) -- ast_map_projection.c:126-137
  | .map_projection_literal_get_prop_name => (.mapProjectionLiteral, .get .propName) -- ast_map_projection_literal.c:89-96
  | .map_projection_literal_get_expression => (.mapProjectionLiteral, .get .expression) -- ast_map_projection_literal.c:99-106
  | .map_projection_property_get_prop_name => (.mapProjectionProperty, .get .propName) -- ast_map_projection_property.c:85-92
  | .map_projection_identifier_get_identifier => (.mapProjectionIdentifier, .get .identifier) -- ast_map_projection_identifier.c:85-92
  | .labels_operator_get_expression => (.labelsOperator, .get .expression) -- ast_labels_operator.c:113-120
  | .labels_operator_nlabels => (.labelsOperator, .count .labels) -- ast_labels_operator.c:123-129
  | .labels_operator_get_label => (.labelsOperator, .nth .labels) -- ast_labels_operator.c:132-143
  | .list_comprehension_get_identifier => (.listComprehension, .vt .identifier) -- ast_list_comprehension.c:143-152
  | .list_comprehension_get_expression => (.listComprehension, .vt .expression) -- ast_list_comprehension.c:155-163
  | .list_comprehension_get_predicate => (.listComprehension, .vt .predicate) -- ast_list_comprehension.c:166-174
  | .list_comprehension_get_eval => (.listComprehension, .vt .eval) -- ast_list_comprehension.c:177-185
  | .pattern_comprehension_get_identifier => (.patternComprehension, .get .identifier) -- ast_pattern_comprehension.c:104-111
  | .pattern_comprehension_get_pattern => (.patternComprehension, .get .pattern) -- ast_pattern_comprehension.c:114-121
  | .pattern_comprehension_get_predicate => (.patternComprehension, .get .predicate) -- ast_pattern_comprehension.c:124-131
  | .pattern_comprehension_get_eval => (.patternComprehension, .get .eval) -- ast_pattern_comprehension.c:134-141
  | .reduce_get_accumulator => (.reduce, .get .accumulator) -- ast_reduce.c:102-108
  | .reduce_get_init => (.reduce, .get .init) -- ast_reduce.c:111-117
  | .reduce_get_identifier => (.reduce, .get .identifier) -- ast_reduce.c:120-126
  | .reduce_get_expression => (.reduce, .get .expression) -- ast_reduce.c:129-135
  | .reduce_get_eval => (.reduce, .get .eval) -- ast_reduce.c:138-144
  | .case_get_expression => (.caseExpression, .get .expression) -- ast_case.c:121-128
  | .case_nalternatives => (.caseExpression, .pairCount .alternatives) -- ast_case.c:131-137
  | .case_get_predicate => (.caseExpression, .fst .alternatives) -- ast_case.c:140-151
  | .case_get_value => (.caseExpression, .snd .alternatives) -- ast_case.c:154-165
  | .case_get_default => (.caseExpression, .get .deflt) -- ast_case.c:168-175
  | .collection_length => (.collection, .count .elements) -- ast_collection.c:100-106
  | .collection_get => (.collection, .nth .elements) -- ast_collection.c:109-121
  | .map_nentries => (.map_, .pairCount .pairs) -- ast_map.c:144-149
  | .map_get_key => (.map_, .fst .pairs) -- ast_map.c:152-162
  | .map_get_value => (.map_, .snd .pairs) -- ast_map.c:165-175
  | .identifier_get_name => (.identifier, .text) -- ast_identifier.c:76-81
  | .parameter_get_name => (.parameter, .text) -- ast_parameter.c:76-81
  | .string_get_value => (.string, .text) -- ast_string.c:76-81
  | .integer_get_valuestr => (.integer, .text) -- ast_integer.c:76-81
  | .float_get_valuestr => (.floatLiteral, .text) -- ast_float.c:76-81
  | .label_get_name => (.label, .text) -- ast_label.c:71-76
  | .reltype_get_name => (.reltype, .text) -- ast_reltype.c:71-76
  | .prop_name_get_value => (.propName, .text) -- ast_prop_name.c:71-76
  | .function_name_get_value => (.functionName, .text) -- ast_function_name.c:72-78
  | .index_name_get_value => (.indexName, .text) -- ast_index_name.c:71-76
  | .proc_name_get_value => (.procName, .text) -- ast_proc_name.c:71-76
  | .pattern_npaths => (.pattern, .count .paths) -- ast_pattern.c:100-105
  | .pattern_get_path => (.pattern, .nth .paths) -- ast_pattern.c:108-118
  | .named_path_get_identifier => (.namedPath, .get .identifier) -- ast_named_path.c:96-105
  | .named_path_get_path => (.namedPath, .get .path) -- ast_named_path.c:108-117
  | .shortest_path_is_single => (.shortestPath, .flag .single) -- ast_shortest_path.c:94-102
  | .shortest_path_get_path => (.shortestPath, .get .path) -- ast_shortest_path.c:105-114
  | .pattern_path_nelements => (.patternPath, .vtCount) -- ast_pattern_path.c:137-144
  | .pattern_path_get_element => (.patternPath, .vtNth) -- ast_pattern_path.c:147-155
  | .node_pattern_get_identifier => (.nodePattern, .get .identifier) -- ast_node_pattern.c:115-122
  | .node_pattern_nlabels => (.nodePattern, .count .labels) -- ast_node_pattern.c:125-131
  | .node_pattern_get_label => (.nodePattern, .nth .labels) -- ast_node_pattern.c:134-145
  | .node_pattern_get_properties => (.nodePattern, .get .properties) -- ast_node_pattern.c:148-155
  | .rel_pattern_get_direction => (.relPattern, .dir) -- ast_rel_pattern.c:125-132
  | .rel_pattern_get_identifier => (.relPattern, .get .identifier) -- ast_rel_pattern.c:135-142
  | .rel_pattern_nreltypes => (.relPattern, .count .reltypes) -- ast_rel_pattern.c:145-151
  | .rel_pattern_get_reltype => (.relPattern, .nth .reltypes) -- ast_rel_pattern.c:154-165
  | .rel_pattern_get_varlength => (.relPattern, .get .varlength) -- ast_rel_pattern.c:168-175
  | .rel_pattern_get_properties => (.relPattern, .get .properties) -- ast_rel_pattern.c:178-185
  | .range_get_start => (.range, .get .start) -- ast_range.c:83-89
  | .range_get_end => (.range, .get .end_) -- ast_range.c:92-98
  | .command_get_name => (.command, .get .name) -- ast_command.c:104-110
  | .command_narguments => (.command, .count .args) -- ast_command.c:113-118
  | .command_get_argument => (.command, .nth .args) -- ast_command.c:121-131
  | .line_comment_get_value => (.lineComment, .text) -- ast_line_comment.c:76-81
  | .block_comment_get_value => (.blockComment, .text) -- ast_block_comment.c:76-81
  | .error_get_value => (.error, .text) -- ast_error.c:71-76

abbrev ty (f : Fn) : AstType := f.code.1
abbrev body (f : Fn) : Body := f.code.2

end Fn
/-! ## Running a function -/

/-- What a function returns. -/
inductive Got where
  | node (r : Option Ref)
  | num (n : Nat)
  | bool (b : Bool)
  | op (o : Option Op)
  | dir (d : Dir)
  | text (t : List UInt8)
  deriving DecidableEq, Repr

/-- The flags that each constructor stores. -/
def Ctor.flag : Ctor → Flag → Option Bool
  | .createNodePropConstraint b, .unique => some b -- ast_create_node_prop_constraint.c:74
  | .dropNodePropConstraint b, .unique => some b -- ast_drop_node_prop_constraint.c:74
  | .createRelPropConstraint b, .unique => some b -- ast_create_rel_prop_constraint.c:74
  | .dropRelPropConstraint b, .unique => some b -- ast_drop_rel_prop_constraint.c:74
  | .loadCsv b, .withHeaders => some b -- ast_load_csv.c:71
  | .matchClause b, .optional => some b -- ast_match.c:74
  | .createClause b, .unique => some b -- ast_create.c:65
  | .delete b, .detach => some b -- ast_delete.c:69
  | .withClause b _, .distinct => some b -- ast_with.c:82
  | .withClause _ b, .includeExisting => some b -- ast_with.c:83
  | .returnClause b _, .distinct => some b -- ast_return.c:80
  | .returnClause _ b, .includeExisting => some b -- ast_return.c:81
  | .sortItem b, .ascending => some b -- ast_sort_item.c:61
  | .unionClause b, .all_ => some b -- ast_union.c:61
  | .applyOperator b, .distinct => some b -- ast_apply_operator.c:72
  | .applyAllOperator b, .distinct => some b -- ast_apply_all_operator.c:68
  | .shortestPath b, .single => some b -- ast_shortest_path.c:72
  | _, _ => none

/-- The arrays of a node: a query has options and clauses (parser.c:1316-1345), a call arguments and projections
(parser.c:2006-2036). -/
def Node.parts (n : Node) : List (List Ref) :=
  match n.ctor with
  | .query => [n.seq.takeWhile (isA · .queryOption), n.seq.dropWhile (isA · .queryOption)]
  | .callClause => [n.seq.takeWhile (! isA · .projection), n.seq.dropWhile (! isA · .projection)]
  | _ => [n.seq]

/-- The value of a field; it is an error if the structure has no such field. -/
def Node.field (n : Node) (x : Field) : Except Fault (Option Ref) :=
  match n.ctor.ty.fields.1.findIdx? (· == x) with
  | none => .error .outOfBounds
  | some i =>
    match n.args[i]? with
    | none => .error .outOfBounds
    | some r => .ok r

def Node.array (n : Node) (xs : Arr) : Except Fault (List Ref) :=
  match n.ctor.ty.fields.2.findIdx? (· == xs) with
  | none => .error .outOfBounds
  | some k =>
    match n.parts[k]? with
    | none => .error .outOfBounds
    | some s => .ok s

/-- `xs[i]`, which must not be beyond the end. -/
def fetch (s : List Ref) (i : Nat) : Except Fault Got :=
  match s[i]? with
  | none => .error .outOfBounds
  | some r => .ok (.node (some r))

/-- The functions `get_*` of `struct cypher_list_comprehension_astnode_vt`: the field they return, if any. -/
def vtField : AstType → Field → Except Fault (Option Field)
  | .listComprehension, .identifier => .ok (some .identifier) -- ast_list_comprehension.c:188-193
  | .listComprehension, .expression => .ok (some .expression) -- ast_list_comprehension.c:196-201
  | .listComprehension, .predicate => .ok (some .predicate) -- ast_list_comprehension.c:204-209
  | .listComprehension, .eval => .ok (some .eval) -- ast_list_comprehension.c:212-217
  | .filter_, .identifier => .ok (some .identifier) -- ast_filter.c:111-116
  | .filter_, .expression => .ok (some .expression) -- ast_filter.c:119-124
  | .filter_, .predicate => .ok (some .predicate) -- ast_filter.c:127-132
  | .filter_, .eval => .ok none -- ast_filter.c:135-138
  | .extract, .identifier => .ok (some .identifier) -- ast_extract.c:111-116
  | .extract, .expression => .ok (some .expression) -- ast_extract.c:119-124
  | .extract, .predicate => .ok none -- ast_extract.c:127-130
  | .extract, .eval => .ok (some .eval) -- ast_extract.c:133-138
  | .all_, .identifier => .ok (some .identifier) -- ast_all.c:111-115
  | .all_, .expression => .ok (some .expression) -- ast_all.c:118-122
  | .all_, .predicate => .ok (some .predicate) -- ast_all.c:125-129
  | .all_, .eval => .ok none -- ast_all.c:132-135
  | .any_, .identifier => .ok (some .identifier) -- ast_any.c:111-115
  | .any_, .expression => .ok (some .expression) -- ast_any.c:118-122
  | .any_, .predicate => .ok (some .predicate) -- ast_any.c:125-129
  | .any_, .eval => .ok none -- ast_any.c:132-135
  | .single, .identifier => .ok (some .identifier) -- ast_single.c:111-116
  | .single, .expression => .ok (some .expression) -- ast_single.c:119-124
  | .single, .predicate => .ok (some .predicate) -- ast_single.c:127-132
  | .single, .eval => .ok none -- ast_single.c:135-138
  | .none_, .identifier => .ok (some .identifier) -- ast_none.c:110-114
  | .none_, .expression => .ok (some .expression) -- ast_none.c:117-121
  | .none_, .predicate => .ok (some .predicate) -- ast_none.c:124-128
  | .none_, .eval => .ok none -- ast_none.c:131-134
  | _, _ => .error .outOfBounds

mutual
/-- What `nelements` and `get_element` of `struct cypher_pattern_path_astnode_vt` are about: the elements of a path
(ast_pattern_path.c:158-176), or those of the path in it (ast_named_path.c:120-134, ast_shortest_path.c:117-131). -/
def Node.elements : Node → Except Fault (List Ref)
  | .mk _ .patternPath _ _ seq _ _ _ => .ok seq
  | .mk _ .namedPath _ args _ _ _ children => elementsIn children args[1]?.join
  | .mk _ (.shortestPath _) _ args _ _ _ children => elementsIn children args[0]?.join
  | _ => .error .assertion
/-- Those of the node pointed to. -/
def elementsIn : List Node → Option Ref → Except Fault (List Ref)
  | [], _ => .error .outOfBounds
  | c :: cs, r => if some c.ref = r then c.elements else elementsIn cs r
end

def Body.run (n : Node) (i : Nat) : Body → Except Fault Got
  | .get x => do .ok (.node (← n.field x))
  | .count xs => do .ok (.num (← n.array xs).length)
  | .nth xs => do
    let s ← n.array xs
    if i ≥ s.length then .ok (.node none) else fetch s i
  | .pairCount xs => do .ok (.num ((← n.array xs).length / 2))
  | .fst xs => do
    let s ← n.array xs
    if i ≥ s.length / 2 then .ok (.node none) else fetch s (i * 2)
  | .snd xs => do
    let s ← n.array xs
    if i ≥ s.length / 2 then .ok (.node none) else fetch s (i * 2 + 1)
  | .opCount => .ok (.num n.ops.length)
  | .nthOp => .ok (.op n.ops[i]?)
  | .upto xs => do
    let s ← n.array xs
    if i > n.ops.length then .ok (.node none) else fetch s i
  | .flag x =>
    match n.ctor.flag x with
    | none => .error .outOfBounds
    | some b => .ok (.bool b)
  | .op =>
    match n.ops with
    | [o] => .ok (.op (some o))
    | _ => .error .outOfBounds
  | .dir =>
    match n.ctor with
    | .relPattern d => .ok (.dir d)
    | _ => .error .outOfBounds
  | .text => .ok (.text (n.text.takeWhile (· ≠ 0)))
  | .vt x => do
    match ← vtField n.ctor.ty x with
    | none => .ok (.node none)
    | some y => .ok (.node (← n.field y))
  | .vtCount => do .ok (.num (← n.elements).length)
  | .vtNth => do
    let s ← n.elements
    if i ≥ s.length then .ok (.node none) else fetch s i

/-- Calling a function (with an index, for those that take one). -/
def Fn.call (f : Fn) (n : Node) (i : Nat) : Except Fault Got :=
  if isA n.ref f.ty then f.body.run n i else .error .assertion

end Verif.Cypher
