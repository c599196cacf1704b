import Verif.Cypher.AllocCmd
/-!
# What the constructors and the clone functions allocate and free

Generated by `tools/gen_alloc.py` from `lib/src/ast_*.c`.
-/
namespace Verif.Alloc
open Verif

/-- The constructors (`cypher_ast_x`). -/
def newProg : AstType → Option (List Cmd)
  | .statement => some [.check [], .alloc .node [], .init [.node], .ret] -- ast_statement.c:43-76
  | .cypherOption => some [.check [], .alloc .node [], .init [.node], .ret] -- ast_cypher_option.c:50-83
  | .cypherOptionParam => some [.check [], .alloc .node [], .init [.node], .ret] -- ast_cypher_option_param.c:44-66
  | .explainOption => some [.alloc .node [], .bare, .ret] -- ast_explain_option.c:47-61
  | .profileOption => some [.alloc .node [], .bare, .ret] -- ast_profile_option.c:47-61
  | .createNodePropsIndex => some [.check [], .alloc .node [], .init [.node], .ret] -- ast_create_node_props_index.c:49-81
  | .dropNodePropsIndex => some [.check [], .alloc .node [], .init [.node], .ret] -- ast_drop_node_props_index.c:49-81
  | .createNodePropConstraint => some [.check [], .alloc .node [], .init [.node], .ret] -- ast_create_node_prop_constraint.c:50-76
  | .dropNodePropConstraint => some [.check [], .alloc .node [], .init [.node], .ret] -- ast_drop_node_prop_constraint.c:50-76
  | .createRelPropConstraint => some [.check [], .alloc .node [], .init [.node], .ret] -- ast_create_rel_prop_constraint.c:50-76
  | .dropRelPropConstraint => some [.check [], .alloc .node [], .init [.node], .ret] -- ast_drop_rel_prop_constraint.c:50-76
  | .query => some [.check [], .alloc .node [], .init [.node], .part .extra [.node], .ret] -- ast_query.c:46-87
  | .usingPeriodicCommit => some [.check [], .alloc .node [], .init [.node], .ret] -- ast_using_periodic_commit.c:48-68
  | .loadCsv => some [.check [], .alloc .node [], .init [.node], .ret] -- ast_load_csv.c:50-76
  | .start => some [.check [], .alloc .node [], .init [.node], .ret] -- ast_start.c:49-82
  | .nodeIndexLookup => some [.check [], .alloc .node [], .init [.node], .ret] -- ast_node_index_lookup.c:50-79
  | .nodeIndexQuery => some [.check [], .alloc .node [], .init [.node], .ret] -- ast_node_index_query.c:49-75
  | .nodeIdLookup => some [.check [], .alloc .node [], .init [.node], .ret] -- ast_node_id_lookup.c:49-80
  | .allNodesScan => some [.check [], .alloc .node [], .init [.node], .ret] -- ast_all_nodes_scan.c:47-66
  | .relIndexLookup => some [.check [], .alloc .node [], .init [.node], .ret] -- ast_rel_index_lookup.c:50-79
  | .relIndexQuery => some [.check [], .alloc .node [], .init [.node], .ret] -- ast_rel_index_query.c:49-75
  | .relIdLookup => some [.check [], .alloc .node [], .init [.node], .ret] -- ast_rel_id_lookup.c:49-80
  | .allRelsScan => some [.check [], .alloc .node [], .init [.node], .ret] -- ast_all_rels_scan.c:47-66
  | .match_ => some [.check [], .alloc .node [], .init [.node], .ret] -- ast_match.c:51-87
  | .usingIndex => some [.check [], .alloc .node [], .init [.node], .ret] -- ast_using_index.c:50-74
  | .usingJoin => some [.check [], .alloc .node [], .init [.node], .ret] -- ast_using_join.c:49-80
  | .usingScan => some [.check [], .alloc .node [], .init [.node], .ret] -- ast_using_scan.c:49-70
  | .merge => some [.check [], .alloc .node [], .init [.node], .ret] -- ast_merge.c:49-80
  | .onMatch => some [.check [], .alloc .node [], .init [.node], .ret] -- ast_on_match.c:48-77
  | .onCreate => some [.check [], .alloc .node [], .init [.node], .ret] -- ast_on_create.c:48-77
  | .create => some [.check [], .alloc .node [], .init [.node], .ret] -- ast_create.c:48-68
  | .set_ => some [.check [], .alloc .node [], .init [.node], .ret] -- ast_set.c:48-77
  | .setProperty => some [.check [], .alloc .node [], .init [.node], .ret] -- ast_set_property.c:48-70
  | .setAllProperties => some [.check [], .alloc .node [], .init [.node], .ret] -- ast_set_all_properties.c:48-71
  | .mergeProperties => some [.check [], .alloc .node [], .init [.node], .ret] -- ast_merge_properties.c:48-70
  | .setLabels => some [.check [], .alloc .node [], .init [.node], .ret] -- ast_set_labels.c:49-81
  | .deleteClause => some [.check [], .alloc .node [], .init [.node], .ret] -- ast_delete.c:49-81
  | .remove => some [.check [], .alloc .node [], .init [.node], .ret] -- ast_remove.c:48-77
  | .removeLabels => some [.check [], .alloc .node [], .init [.node], .ret] -- ast_remove_labels.c:49-81
  | .removeProperty => some [.check [], .alloc .node [], .init [.node], .ret] -- ast_remove_property.c:47-67
  | .foreach => some [.check [], .alloc .node [], .init [.node], .ret] -- ast_foreach.c:50-84
  | .with_ => some [.check [], .alloc .node [], .init [.node], .ret] -- ast_with.c:54-99
  | .unwind => some [.check [], .alloc .node [], .init [.node], .ret] -- ast_unwind.c:49-70
  | .call => some [.check [], .alloc .node [], .init [.node], .part .extra [.node], .ret] -- ast_call.c:53-100
  | .returnClause => some [.check [], .alloc .node [], .init [.node], .ret] -- ast_return.c:53-96
  | .projection => some [.check [], .alloc .node [], .init [.node], .ret] -- ast_projection.c:43-65
  | .orderBy => some [.check [], .alloc .node [], .init [.node], .ret] -- ast_order_by.c:43-72
  | .sortItem => some [.check [], .alloc .node [], .init [.node], .ret] -- ast_sort_item.c:43-63
  | .unionClause => some [.alloc .node [], .init [.node], .ret] -- ast_union.c:47-63
  | .unaryOperator => some [.check [], .alloc .node [], .init [.node], .ret] -- ast_unary_operator.c:49-70
  | .binaryOperator => some [.check [], .alloc .node [], .init [.node], .ret] -- ast_binary_operator.c:50-74
  | .comparison => some [.check [], .alloc .node [], .init [.node], .alloc .extra [.extra, .node], .ret] -- ast_comparison.c:51-89
  | .applyOperator => some [.check [], .alloc .node [], .init [.node], .ret] -- ast_apply_operator.c:51-85
  | .applyAllOperator => some [.check [], .alloc .node [], .init [.node], .ret] -- ast_apply_all_operator.c:49-78
  | .propertyOperator => some [.check [], .alloc .node [], .init [.node], .ret] -- ast_property_operator.c:49-72
  | .subscriptOperator => some [.check [], .alloc .node [], .init [.node], .ret] -- ast_subscript_operator.c:49-72
  | .sliceOperator => some [.check [], .alloc .node [], .init [.node], .ret] -- ast_slice_operator.c:50-76
  | .labelsOperator => some [.check [], .alloc .node [], .init [.node], .ret] -- ast_labels_operator.c:50-82
  | .listComprehension => some [.check [], .alloc .node [], .init [.node], .ret] -- ast_list_comprehension.c:82-119
  | .patternComprehension => some [.check [], .alloc .node [], .init [.node], .ret] -- ast_pattern_comprehension.c:50-82
  | .caseExpression => some [.check [], .alloc .node [], .init [.node], .ret] -- ast_case.c:51-87
  | .filter_ => some [.check [], .alloc .node [], .init [.node], .ret] -- ast_filter.c:64-89
  | .extract => some [.check [], .alloc .node [], .init [.node], .ret] -- ast_extract.c:64-89
  | .reduce => some [.check [], .alloc .node [], .init [.node], .ret] -- ast_reduce.c:52-81
  | .all_ => some [.check [], .alloc .node [], .init [.node], .ret] -- ast_all.c:64-89
  | .any_ => some [.check [], .alloc .node [], .init [.node], .ret] -- ast_any.c:64-89
  | .single => some [.check [], .alloc .node [], .init [.node], .ret] -- ast_single.c:64-89
  | .none_ => some [.check [], .alloc .node [], .init [.node], .ret] -- ast_none.c:64-88
  | .collection => some [.check [], .alloc .node [], .init [.node], .ret] -- ast_collection.c:48-71
  | .map_ => some [.check [], .alloc .node [], .init [.node], .ret] -- ast_map.c:98-115
  | .identifier => some [.alloc .node [], .bare, .ret] -- ast_identifier.c:47-64
  | .parameter => some [.alloc .node [], .bare, .ret] -- ast_parameter.c:47-64
  | .string => some [.alloc .node [], .bare, .ret] -- ast_string.c:47-64
  | .integer => some [.alloc .node [], .bare, .ret] -- ast_integer.c:47-64
  | .floatLiteral => some [.alloc .node [], .bare, .ret] -- ast_float.c:47-64
  | .trueLiteral => some [.alloc .node [], .bare, .ret] -- ast_true.c:47-61
  | .falseLiteral => some [.alloc .node [], .bare, .ret] -- ast_false.c:47-61
  | .nullLiteral => some [.alloc .node [], .bare, .ret] -- ast_null.c:47-61
  | .label => some [.alloc .node [], .bare, .ret] -- ast_label.c:42-59
  | .reltype => some [.alloc .node [], .bare, .ret] -- ast_reltype.c:42-59
  | .propName => some [.alloc .node [], .bare, .ret] -- ast_prop_name.c:42-59
  | .functionName => some [.alloc .node [], .bare, .ret] -- ast_function_name.c:42-59
  | .indexName => some [.alloc .node [], .bare, .ret] -- ast_index_name.c:42-59
  | .procName => some [.alloc .node [], .bare, .ret] -- ast_proc_name.c:42-59
  | .pattern => some [.check [], .alloc .node [], .init [.node], .ret] -- ast_pattern.c:43-72
  | .namedPath => some [.check [], .alloc .node [], .init [.node], .ret] -- ast_named_path.c:55-76
  | .shortestPath => some [.check [], .alloc .node [], .init [.node], .ret] -- ast_shortest_path.c:55-75
  | .patternPath => some [.check [], .alloc .node [], .init [.node], .ret] -- ast_pattern_path.c:71-105
  | .nodePattern => some [.check [], .alloc .node [], .init [.node], .ret] -- ast_node_pattern.c:45-81
  | .relPattern => some [.check [], .alloc .node [], .init [.node], .ret] -- ast_rel_pattern.c:47-89
  | .range => some [.check [], .alloc .node [], .init [.node], .ret] -- ast_range.c:44-65
  | .command => some [.check [], .alloc .node [], .init [.node], .ret] -- ast_command.c:44-75
  | .lineComment => some [.alloc .node [], .bare, .ret] -- ast_line_comment.c:47-64
  | .blockComment => some [.alloc .node [], .bare, .ret] -- ast_block_comment.c:47-64
  | .error => some [.alloc .node [], .bare, .ret] -- ast_error.c:42-59
  | .mapProjection => some [.check [], .alloc .node [], .init [.node], .ret] -- ast_map_projection.c:50-74
  | .mapProjectionLiteral => some [.check [], .alloc .node [], .init [.node], .ret] -- ast_map_projection_literal.c:48-71
  | .mapProjectionProperty => some [.check [], .alloc .node [], .init [.node], .ret] -- ast_map_projection_property.c:47-68
  | .mapProjectionIdentifier => some [.check [], .alloc .node [], .init [.node], .ret] -- ast_map_projection_identifier.c:47-68
  | .mapProjectionAllProperties => some [.alloc .node [], .init [.node], .ret] -- ast_map_projection_all_properties.c:46-64
  | _ => none

/-- The clone functions (`clone` in each file). -/
def cloneProg : AstType → Option (List Cmd)
  | .statement => some [.check [], .alloc .first [], .build .statement, .drop .first] -- ast_statement.c:79-103
  | .cypherOption => some [.check [], .alloc .first [], .build .cypherOption, .drop .first] -- ast_cypher_option.c:86-112
  | .cypherOptionParam => some [.check [], .build .cypherOptionParam] -- ast_cypher_option_param.c:69-81
  | .explainOption => some [.check [], .build .explainOption] -- ast_explain_option.c:64-69
  | .profileOption => some [.check [], .build .profileOption] -- ast_profile_option.c:64-69
  | .createNodePropsIndex => some [.check [], .alloc .first [], .build .createNodePropsIndex, .drop .first] -- ast_create_node_props_index.c:84-110
  | .dropNodePropsIndex => some [.check [], .alloc .first [], .build .dropNodePropsIndex, .drop .first] -- ast_drop_node_props_index.c:84-109
  | .createNodePropConstraint => some [.check [], .build .createNodePropConstraint] -- ast_create_node_prop_constraint.c:79-91
  | .dropNodePropConstraint => some [.check [], .build .dropNodePropConstraint] -- ast_drop_node_prop_constraint.c:79-91
  | .createRelPropConstraint => some [.check [], .build .createRelPropConstraint] -- ast_create_rel_prop_constraint.c:79-91
  | .dropRelPropConstraint => some [.check [], .build .dropNodePropConstraint] -- ast_drop_rel_prop_constraint.c:79-91
  | .query => some [.check [], .alloc .first [], .alloc .second [], .build .query, .drop .first, .drop .second] -- ast_query.c:90-124
  | .usingPeriodicCommit => some [.check [], .build .usingPeriodicCommit] -- ast_using_periodic_commit.c:71-83
  | .loadCsv => some [.check [], .build .loadCsv] -- ast_load_csv.c:79-92
  | .start => some [.check [], .alloc .first [], .build .start, .drop .first] -- ast_start.c:85-110
  | .nodeIndexLookup => some [.check [], .build .nodeIndexLookup] -- ast_node_index_lookup.c:82-96
  | .nodeIndexQuery => some [.check [], .build .nodeIndexQuery] -- ast_node_index_query.c:78-91
  | .nodeIdLookup => some [.check [], .alloc .first [], .build .nodeIdLookup, .drop .first] -- ast_node_id_lookup.c:83-107
  | .allNodesScan => some [.check [], .build .allNodesScan] -- ast_all_nodes_scan.c:69-80
  | .relIndexLookup => some [.check [], .build .relIndexLookup] -- ast_rel_index_lookup.c:82-96
  | .relIndexQuery => some [.check [], .build .relIndexQuery] -- ast_rel_index_query.c:78-91
  | .relIdLookup => some [.check [], .alloc .first [], .build .relIdLookup, .drop .first] -- ast_rel_id_lookup.c:83-107
  | .allRelsScan => some [.check [], .build .allRelsScan] -- ast_all_rels_scan.c:69-80
  | .match_ => some [.check [], .alloc .first [], .build .match_, .drop .first] -- ast_match.c:90-117
  | .usingIndex => some [.check [], .build .usingIndex] -- ast_using_index.c:77-90
  | .usingJoin => some [.check [], .alloc .first [], .build .usingJoin, .drop .first] -- ast_using_join.c:83-106
  | .usingScan => some [.check [], .build .usingScan] -- ast_using_scan.c:73-85
  | .merge => some [.check [], .alloc .first [], .build .merge, .drop .first] -- ast_merge.c:83-107
  | .onMatch => some [.check [], .alloc .first [], .build .onMatch, .drop .first] -- ast_on_match.c:80-103
  | .onCreate => some [.check [], .alloc .first [], .build .onCreate, .drop .first] -- ast_on_create.c:80-103
  | .create => some [.check [], .build .create] -- ast_create.c:71-81
  | .set_ => some [.check [], .alloc .first [], .build .set_, .drop .first] -- ast_set.c:80-102
  | .setProperty => some [.check [], .build .setProperty] -- ast_set_property.c:73-85
  | .setAllProperties => some [.check [], .build .setAllProperties] -- ast_set_all_properties.c:74-86
  | .mergeProperties => some [.check [], .build .mergeProperties] -- ast_merge_properties.c:73-85
  | .setLabels => some [.check [], .alloc .first [], .build .setLabels, .drop .first] -- ast_set_labels.c:84-108
  | .deleteClause => some [.check [], .alloc .first [], .build .deleteClause, .drop .first] -- ast_delete.c:84-108
  | .remove => some [.check [], .alloc .first [], .build .remove, .drop .first] -- ast_remove.c:80-102
  | .removeLabels => some [.check [], .alloc .first [], .build .removeLabels, .drop .first] -- ast_remove_labels.c:84-109
  | .removeProperty => some [.check [], .build .removeProperty] -- ast_remove_property.c:70-81
  | .foreach => some [.check [], .alloc .first [], .build .foreach, .drop .first] -- ast_foreach.c:87-113
  | .with_ => some [.check [], .alloc .first [], .build .with_, .drop .first] -- ast_with.c:102-135
  | .unwind => some [.check [], .build .unwind] -- ast_unwind.c:73-84
  | .call => some [.check [], .alloc .first [], .alloc .second [], .build .call, .drop .first, .drop .second] -- ast_call.c:111-149
  | .returnClause => some [.check [], .alloc .first [], .build .returnClause, .drop .first] -- ast_return.c:99-130
  | .projection => some [.check [], .build .projection] -- ast_projection.c:68-80
  | .orderBy => some [.check [], .alloc .first [], .build .orderBy, .drop .first] -- ast_order_by.c:75-98
  | .sortItem => some [.check [], .build .sortItem] -- ast_sort_item.c:66-76
  | .unionClause => some [.check [], .build .unionClause] -- ast_union.c:66-74
  | .unaryOperator => some [.check [], .build .unaryOperator] -- ast_unary_operator.c:73-84
  | .binaryOperator => some [.check [], .build .binaryOperator] -- ast_binary_operator.c:77-89
  | .comparison => some [.check [], .alloc .first [], .build .comparison, .drop .first] -- ast_comparison.c:100-123
  | .applyOperator => some [.check [], .alloc .first [], .build .applyOperator, .drop .first] -- ast_apply_operator.c:88-113
  | .applyAllOperator => some [.check [], .build .applyAllOperator] -- ast_apply_all_operator.c:81-92
  | .propertyOperator => some [.check [], .build .propertyOperator] -- ast_property_operator.c:75-87
  | .subscriptOperator => some [.check [], .build .subscriptOperator] -- ast_subscript_operator.c:75-87
  | .sliceOperator => some [.check [], .build .sliceOperator] -- ast_slice_operator.c:79-94
  | .labelsOperator => some [.check [], .alloc .first [], .build .labelsOperator, .drop .first] -- ast_labels_operator.c:85-110
  | .listComprehension => some [.check [], .build .listComprehension] -- ast_list_comprehension.c:122-140
  | .patternComprehension => some [.check [], .build .patternComprehension] -- ast_pattern_comprehension.c:85-101
  | .caseExpression => some [.check [], .alloc .first [], .build .caseExpression, .drop .first] -- ast_case.c:90-118
  | .filter_ => some [.check [], .build .filter_] -- ast_filter.c:92-108
  | .extract => some [.check [], .build .extract] -- ast_extract.c:92-108
  | .reduce => some [.check [], .build .reduce] -- ast_reduce.c:84-99
  | .all_ => some [.check [], .build .all_] -- ast_all.c:92-108
  | .any_ => some [.check [], .build .any_] -- ast_any.c:92-108
  | .single => some [.check [], .build .single] -- ast_single.c:92-108
  | .none_ => some [.check [], .build .none_] -- ast_none.c:91-107
  | .collection => some [.check [], .alloc .first [], .build .collection, .drop .first] -- ast_collection.c:74-97
  | .map_ => some [.check [], .alloc .first [], .build .map_, .drop .first] -- ast_map.c:118-141
  | .identifier => some [.check [], .build .identifier] -- ast_identifier.c:67-73
  | .parameter => some [.check [], .build .parameter] -- ast_parameter.c:67-73
  | .string => some [.check [], .build .string] -- ast_string.c:67-73
  | .integer => some [.check [], .build .integer] -- ast_integer.c:67-73
  | .floatLiteral => some [.check [], .build .floatLiteral] -- ast_float.c:67-73
  | .trueLiteral => some [.check [], .build .trueLiteral] -- ast_true.c:64-69
  | .falseLiteral => some [.check [], .build .falseLiteral] -- ast_false.c:64-69
  | .nullLiteral => some [.check [], .build .nullLiteral] -- ast_null.c:64-69
  | .label => some [.check [], .build .label] -- ast_label.c:62-68
  | .reltype => some [.check [], .build .reltype] -- ast_reltype.c:62-68
  | .propName => some [.check [], .build .propName] -- ast_prop_name.c:62-68
  | .functionName => some [.check [], .build .functionName] -- ast_function_name.c:62-69
  | .indexName => some [.check [], .build .indexName] -- ast_index_name.c:62-68
  | .procName => some [.check [], .build .procName] -- ast_proc_name.c:62-68
  | .pattern => some [.check [], .alloc .first [], .build .pattern, .drop .first] -- ast_pattern.c:75-97
  | .namedPath => some [.check [], .build .namedPath] -- ast_named_path.c:79-93
  | .shortestPath => some [.check [], .build .shortestPath] -- ast_shortest_path.c:78-91
  | .patternPath => some [.check [], .alloc .first [], .build .patternPath, .drop .first] -- ast_pattern_path.c:108-134
  | .nodePattern => some [.check [], .alloc .first [], .build .nodePattern, .drop .first] -- ast_node_pattern.c:84-112
  | .relPattern => some [.check [], .alloc .first [], .build .relPattern, .drop .first] -- ast_rel_pattern.c:92-122
  | .range => some [.check [], .build .range] -- ast_range.c:68-80
  | .command => some [.check [], .alloc .first [], .build .command, .drop .first] -- ast_command.c:78-101
  | .lineComment => some [.check [], .build .lineComment] -- ast_line_comment.c:67-73
  | .blockComment => some [.check [], .build .blockComment] -- ast_block_comment.c:67-73
  | .error => some [.check [], .build .error] -- ast_error.c:62-68
  | .mapProjection => some [.check [], .alloc .first [], .build .mapProjection, .drop .first] -- ast_map_projection.c:77-103
  | .mapProjectionLiteral => some [.check [], .build .mapProjectionLiteral] -- ast_map_projection_literal.c:74-86
  | .mapProjectionProperty => some [.check [], .build .mapProjectionProperty] -- ast_map_projection_property.c:71-82
  | .mapProjectionIdentifier => some [.check [], .build .mapProjectionIdentifier] -- ast_map_projection_identifier.c:71-82
  | .mapProjectionAllProperties => some [.check [], .build .mapProjectionAllProperties] -- ast_map_projection_all_properties.c:67-73
  | _ => none

end Verif.Alloc
