/-!
# AST node types (`lib/src/ast.c`, `lib/src/ast_*.c`)

Generated by `tools/gen_asttypes.py` from `struct cypher_astnode_vts` (ast.c:25-139, the order of
the fields defines the type numbers, ast.c:259-372), its initialiser (ast.c:141-) and the
`cypher_*_astnode_vt` tables of the individual node types.
-/
namespace Verif

/-- The AST node types, in the order of `struct cypher_astnode_vts` (ast.c:25-139). -/
inductive AstType where
  | statement
  | statementOption
  | cypherOption
  | cypherOptionParam
  | explainOption
  | profileOption
  | schemaCommand
  | createNodePropsIndex
  | dropNodePropsIndex
  | createNodePropConstraint
  | dropNodePropConstraint
  | createRelPropConstraint
  | dropRelPropConstraint
  | query
  | queryOption
  | usingPeriodicCommit
  | queryClause
  | loadCsv
  | start
  | startPoint
  | nodeIndexLookup
  | nodeIndexQuery
  | nodeIdLookup
  | allNodesScan
  | relIndexLookup
  | relIndexQuery
  | relIdLookup
  | allRelsScan
  | match_
  | matchHint
  | usingIndex
  | usingJoin
  | usingScan
  | merge
  | mergeAction
  | onMatch
  | onCreate
  | create
  | set_
  | setItem
  | setProperty
  | setAllProperties
  | mergeProperties
  | setLabels
  | deleteClause
  | remove
  | removeItem
  | removeLabels
  | removeProperty
  | foreach
  | with_
  | unwind
  | call
  | returnClause
  | projection
  | orderBy
  | sortItem
  | unionClause
  | expression
  | unaryOperator
  | binaryOperator
  | comparison
  | applyOperator
  | applyAllOperator
  | propertyOperator
  | subscriptOperator
  | sliceOperator
  | labelsOperator
  | listComprehension
  | patternComprehension
  | caseExpression
  | filter_
  | extract
  | reduce
  | all_
  | any_
  | single
  | none_
  | collection
  | map_
  | identifier
  | parameter
  | string
  | integer
  | floatLiteral
  | booleanLiteral
  | trueLiteral
  | falseLiteral
  | nullLiteral
  | label
  | reltype
  | propName
  | functionName
  | indexName
  | procName
  | pattern
  | namedPath
  | shortestPath
  | patternPath
  | nodePattern
  | relPattern
  | range
  | command
  | comment
  | lineComment
  | blockComment
  | error
  | mapProjection
  | mapProjectionSelector
  | mapProjectionLiteral
  | mapProjectionProperty
  | mapProjectionIdentifier
  | mapProjectionAllProperties
  deriving DecidableEq, Repr

namespace AstType

/-- All node types in order (ast.c:25-139). -/
def all : List AstType :=
  [.statement, .statementOption, .cypherOption, .cypherOptionParam, .explainOption, .profileOption, .schemaCommand, .createNodePropsIndex, .dropNodePropsIndex, .createNodePropConstraint, .dropNodePropConstraint, .createRelPropConstraint, .dropRelPropConstraint, .query, .queryOption, .usingPeriodicCommit, .queryClause, .loadCsv, .start, .startPoint, .nodeIndexLookup, .nodeIndexQuery, .nodeIdLookup, .allNodesScan, .relIndexLookup, .relIndexQuery, .relIdLookup, .allRelsScan, .match_, .matchHint, .usingIndex, .usingJoin, .usingScan, .merge, .mergeAction, .onMatch, .onCreate, .create, .set_, .setItem, .setProperty, .setAllProperties, .mergeProperties, .setLabels, .deleteClause, .remove, .removeItem, .removeLabels, .removeProperty, .foreach, .with_, .unwind, .call, .returnClause, .projection, .orderBy, .sortItem, .unionClause, .expression, .unaryOperator, .binaryOperator, .comparison, .applyOperator, .applyAllOperator, .propertyOperator, .subscriptOperator, .sliceOperator, .labelsOperator, .listComprehension, .patternComprehension, .caseExpression, .filter_, .extract, .reduce, .all_, .any_, .single, .none_, .collection, .map_, .identifier, .parameter, .string, .integer, .floatLiteral, .booleanLiteral, .trueLiteral, .falseLiteral, .nullLiteral, .label, .reltype, .propName, .functionName, .indexName, .procName, .pattern, .namedPath, .shortestPath, .patternPath, .nodePattern, .relPattern, .range, .command, .comment, .lineComment, .blockComment, .error, .mapProjection, .mapProjectionSelector, .mapProjectionLiteral, .mapProjectionProperty, .mapProjectionIdentifier, .mapProjectionAllProperties]

/-- The type number, the offset in `struct cypher_astnode_vts` (`VT_OFFSET`, ast.c:259). -/
def num : AstType → Nat
  | .statement => 0
  | .statementOption => 1
  | .cypherOption => 2
  | .cypherOptionParam => 3
  | .explainOption => 4
  | .profileOption => 5
  | .schemaCommand => 6
  | .createNodePropsIndex => 7
  | .dropNodePropsIndex => 8
  | .createNodePropConstraint => 9
  | .dropNodePropConstraint => 10
  | .createRelPropConstraint => 11
  | .dropRelPropConstraint => 12
  | .query => 13
  | .queryOption => 14
  | .usingPeriodicCommit => 15
  | .queryClause => 16
  | .loadCsv => 17
  | .start => 18
  | .startPoint => 19
  | .nodeIndexLookup => 20
  | .nodeIndexQuery => 21
  | .nodeIdLookup => 22
  | .allNodesScan => 23
  | .relIndexLookup => 24
  | .relIndexQuery => 25
  | .relIdLookup => 26
  | .allRelsScan => 27
  | .match_ => 28
  | .matchHint => 29
  | .usingIndex => 30
  | .usingJoin => 31
  | .usingScan => 32
  | .merge => 33
  | .mergeAction => 34
  | .onMatch => 35
  | .onCreate => 36
  | .create => 37
  | .set_ => 38
  | .setItem => 39
  | .setProperty => 40
  | .setAllProperties => 41
  | .mergeProperties => 42
  | .setLabels => 43
  | .deleteClause => 44
  | .remove => 45
  | .removeItem => 46
  | .removeLabels => 47
  | .removeProperty => 48
  | .foreach => 49
  | .with_ => 50
  | .unwind => 51
  | .call => 52
  | .returnClause => 53
  | .projection => 54
  | .orderBy => 55
  | .sortItem => 56
  | .unionClause => 57
  | .expression => 58
  | .unaryOperator => 59
  | .binaryOperator => 60
  | .comparison => 61
  | .applyOperator => 62
  | .applyAllOperator => 63
  | .propertyOperator => 64
  | .subscriptOperator => 65
  | .sliceOperator => 66
  | .labelsOperator => 67
  | .listComprehension => 68
  | .patternComprehension => 69
  | .caseExpression => 70
  | .filter_ => 71
  | .extract => 72
  | .reduce => 73
  | .all_ => 74
  | .any_ => 75
  | .single => 76
  | .none_ => 77
  | .collection => 78
  | .map_ => 79
  | .identifier => 80
  | .parameter => 81
  | .string => 82
  | .integer => 83
  | .floatLiteral => 84
  | .booleanLiteral => 85
  | .trueLiteral => 86
  | .falseLiteral => 87
  | .nullLiteral => 88
  | .label => 89
  | .reltype => 90
  | .propName => 91
  | .functionName => 92
  | .indexName => 93
  | .procName => 94
  | .pattern => 95
  | .namedPath => 96
  | .shortestPath => 97
  | .patternPath => 98
  | .nodePattern => 99
  | .relPattern => 100
  | .range => 101
  | .command => 102
  | .comment => 103
  | .lineComment => 104
  | .blockComment => 105
  | .error => 106
  | .mapProjection => 107
  | .mapProjectionSelector => 108
  | .mapProjectionLiteral => 109
  | .mapProjectionProperty => 110
  | .mapProjectionIdentifier => 111
  | .mapProjectionAllProperties => 112

/-- The `.parents` of the node type (`.parents`/`.nparents` in each `cypher_*_astnode_vt`). -/
def parents : AstType → List AstType
  | .cypherOption => [.statementOption]  -- ast_cypher_option.c:41
  | .explainOption => [.statementOption]  -- ast_explain_option.c:38
  | .profileOption => [.statementOption]  -- ast_profile_option.c:38
  | .createNodePropsIndex => [.schemaCommand]  -- ast_create_node_props_index.c:40
  | .dropNodePropsIndex => [.schemaCommand]  -- ast_drop_node_props_index.c:40
  | .createNodePropConstraint => [.schemaCommand]  -- ast_create_node_prop_constraint.c:41
  | .dropNodePropConstraint => [.schemaCommand]  -- ast_drop_node_prop_constraint.c:41
  | .createRelPropConstraint => [.schemaCommand]  -- ast_create_rel_prop_constraint.c:41
  | .dropRelPropConstraint => [.schemaCommand]  -- ast_drop_rel_prop_constraint.c:41
  | .usingPeriodicCommit => [.queryOption]  -- ast_using_periodic_commit.c:39
  | .loadCsv => [.queryClause]  -- ast_load_csv.c:41
  | .start => [.queryClause]  -- ast_start.c:40
  | .nodeIndexLookup => [.startPoint]  -- ast_node_index_lookup.c:41
  | .nodeIndexQuery => [.startPoint]  -- ast_node_index_query.c:40
  | .nodeIdLookup => [.startPoint]  -- ast_node_id_lookup.c:40
  | .allNodesScan => [.startPoint]  -- ast_all_nodes_scan.c:38
  | .relIndexLookup => [.startPoint]  -- ast_rel_index_lookup.c:41
  | .relIndexQuery => [.startPoint]  -- ast_rel_index_query.c:40
  | .relIdLookup => [.startPoint]  -- ast_rel_id_lookup.c:40
  | .allRelsScan => [.startPoint]  -- ast_all_rels_scan.c:38
  | .match_ => [.queryClause]  -- ast_match.c:42
  | .usingIndex => [.matchHint]  -- ast_using_index.c:41
  | .usingJoin => [.matchHint]  -- ast_using_join.c:40
  | .usingScan => [.matchHint]  -- ast_using_scan.c:40
  | .merge => [.queryClause]  -- ast_merge.c:40
  | .onMatch => [.mergeAction]  -- ast_on_match.c:39
  | .onCreate => [.mergeAction]  -- ast_on_create.c:39
  | .create => [.queryClause]  -- ast_create.c:39
  | .set_ => [.queryClause]  -- ast_set.c:39
  | .setProperty => [.setItem]  -- ast_set_property.c:39
  | .setAllProperties => [.setItem]  -- ast_set_all_properties.c:39
  | .mergeProperties => [.setItem]  -- ast_merge_properties.c:39
  | .setLabels => [.setItem]  -- ast_set_labels.c:40
  | .deleteClause => [.queryClause]  -- ast_delete.c:40
  | .remove => [.queryClause]  -- ast_remove.c:39
  | .removeLabels => [.removeItem]  -- ast_remove_labels.c:40
  | .removeProperty => [.removeItem]  -- ast_remove_property.c:38
  | .foreach => [.queryClause]  -- ast_foreach.c:41
  | .with_ => [.queryClause]  -- ast_with.c:45
  | .unwind => [.queryClause]  -- ast_unwind.c:40
  | .call => [.queryClause]  -- ast_call.c:44
  | .returnClause => [.queryClause]  -- ast_return.c:44
  | .unionClause => [.queryClause]  -- ast_union.c:38
  | .unaryOperator => [.expression]  -- ast_unary_operator.c:40
  | .binaryOperator => [.expression]  -- ast_binary_operator.c:41
  | .comparison => [.expression]  -- ast_comparison.c:42
  | .applyOperator => [.expression]  -- ast_apply_operator.c:42
  | .applyAllOperator => [.expression]  -- ast_apply_all_operator.c:40
  | .propertyOperator => [.expression]  -- ast_property_operator.c:40
  | .subscriptOperator => [.expression]  -- ast_subscript_operator.c:40
  | .sliceOperator => [.expression]  -- ast_slice_operator.c:41
  | .labelsOperator => [.expression]  -- ast_labels_operator.c:41
  | .listComprehension => [.expression]  -- ast_list_comprehension.c:67
  | .patternComprehension => [.expression]  -- ast_pattern_comprehension.c:41
  | .caseExpression => [.expression]  -- ast_case.c:42
  | .filter_ => [.listComprehension]  -- ast_filter.c:49
  | .extract => [.listComprehension]  -- ast_extract.c:49
  | .reduce => [.expression]  -- ast_reduce.c:43
  | .all_ => [.listComprehension]  -- ast_all.c:49
  | .any_ => [.listComprehension]  -- ast_any.c:49
  | .single => [.listComprehension]  -- ast_single.c:49
  | .none_ => [.listComprehension]  -- ast_none.c:49
  | .collection => [.expression]  -- ast_collection.c:39
  | .map_ => [.expression]  -- ast_map.c:39
  | .identifier => [.expression]  -- ast_identifier.c:38
  | .parameter => [.expression]  -- ast_parameter.c:38
  | .string => [.expression]  -- ast_string.c:38
  | .integer => [.expression]  -- ast_integer.c:38
  | .floatLiteral => [.expression]  -- ast_float.c:38
  | .booleanLiteral => [.expression]  -- ast_boolean.c:24
  | .trueLiteral => [.booleanLiteral]  -- ast_true.c:38
  | .falseLiteral => [.booleanLiteral]  -- ast_false.c:38
  | .nullLiteral => [.expression]  -- ast_null.c:38
  | .namedPath => [.patternPath]  -- ast_named_path.c:42
  | .shortestPath => [.expression, .patternPath]  -- ast_shortest_path.c:42
  | .patternPath => [.expression]  -- ast_pattern_path.c:58
  | .lineComment => [.comment]  -- ast_line_comment.c:38
  | .blockComment => [.comment]  -- ast_block_comment.c:38
  | .mapProjection => [.expression]  -- ast_map_projection.c:41
  | .mapProjectionLiteral => [.mapProjectionSelector]  -- ast_map_projection_literal.c:39
  | .mapProjectionProperty => [.mapProjectionSelector]  -- ast_map_projection_property.c:38
  | .mapProjectionIdentifier => [.mapProjectionSelector]  -- ast_map_projection_identifier.c:38
  | .mapProjectionAllProperties => [.mapProjectionSelector]  -- ast_map_projection_all_properties.c:37
  | _ => []

/-- The `.name` of the node type (`none` when the table has no name: abstract types). -/
def name : AstType → Option String
  | .statement => some "statement"  -- ast_statement.c:36
  | .cypherOption => some "CYPHER"  -- ast_cypher_option.c:41
  | .cypherOptionParam => some "cypher parameter"  -- ast_cypher_option_param.c:37
  | .explainOption => some "EXPLAIN"  -- ast_explain_option.c:38
  | .profileOption => some "PROFILE"  -- ast_profile_option.c:38
  | .createNodePropsIndex => some "CREATE INDEX"  -- ast_create_node_props_index.c:40
  | .dropNodePropsIndex => some "DROP INDEX"  -- ast_drop_node_props_index.c:40
  | .createNodePropConstraint => some "create node prop constraint"  -- ast_create_node_prop_constraint.c:41
  | .dropNodePropConstraint => some "drop node prop constraint"  -- ast_drop_node_prop_constraint.c:41
  | .createRelPropConstraint => some "create rel prop constraint"  -- ast_create_rel_prop_constraint.c:41
  | .dropRelPropConstraint => some "drop rel prop constraint"  -- ast_drop_rel_prop_constraint.c:41
  | .query => some "query"  -- ast_query.c:39
  | .usingPeriodicCommit => some "USING PERIODIC_COMMIT"  -- ast_using_periodic_commit.c:39
  | .loadCsv => some "LOAD CSV"  -- ast_load_csv.c:41
  | .start => some "START"  -- ast_start.c:40
  | .nodeIndexLookup => some "node index lookup"  -- ast_node_index_lookup.c:41
  | .nodeIndexQuery => some "node index query"  -- ast_node_index_query.c:40
  | .nodeIdLookup => some "node id lookup"  -- ast_node_id_lookup.c:40
  | .allNodesScan => some "all nodes scan"  -- ast_all_nodes_scan.c:38
  | .relIndexLookup => some "rel index lookup"  -- ast_rel_index_lookup.c:41
  | .relIndexQuery => some "rel index query"  -- ast_rel_index_query.c:40
  | .relIdLookup => some "rel id lookup"  -- ast_rel_id_lookup.c:40
  | .allRelsScan => some "all rels scan"  -- ast_all_rels_scan.c:38
  | .match_ => some "MATCH"  -- ast_match.c:42
  | .usingIndex => some "USING INDEX"  -- ast_using_index.c:41
  | .usingJoin => some "USING JOIN"  -- ast_using_join.c:40
  | .usingScan => some "USING SCAN"  -- ast_using_scan.c:40
  | .merge => some "MERGE"  -- ast_merge.c:40
  | .onMatch => some "ON MATCH"  -- ast_on_match.c:39
  | .onCreate => some "ON CREATE"  -- ast_on_create.c:39
  | .create => some "CREATE"  -- ast_create.c:39
  | .set_ => some "SET"  -- ast_set.c:39
  | .setProperty => some "set property"  -- ast_set_property.c:39
  | .setAllProperties => some "set all properties"  -- ast_set_all_properties.c:39
  | .mergeProperties => some "merge properties"  -- ast_merge_properties.c:39
  | .setLabels => some "set labels"  -- ast_set_labels.c:40
  | .deleteClause => some "DELETE"  -- ast_delete.c:40
  | .remove => some "REMOVE"  -- ast_remove.c:39
  | .removeLabels => some "remove labels"  -- ast_remove_labels.c:40
  | .removeProperty => some "remove property"  -- ast_remove_property.c:38
  | .foreach => some "FOREACH"  -- ast_foreach.c:41
  | .with_ => some "WITH"  -- ast_with.c:45
  | .unwind => some "UNWIND"  -- ast_unwind.c:40
  | .call => some "CALL"  -- ast_call.c:44
  | .returnClause => some "RETURN"  -- ast_return.c:44
  | .projection => some "projection"  -- ast_projection.c:36
  | .orderBy => some "ORDER BY"  -- ast_order_by.c:36
  | .sortItem => some "sort item"  -- ast_sort_item.c:36
  | .unionClause => some "UNION"  -- ast_union.c:38
  | .unaryOperator => some "unary operator"  -- ast_unary_operator.c:40
  | .binaryOperator => some "binary operator"  -- ast_binary_operator.c:41
  | .comparison => some "comparison"  -- ast_comparison.c:42
  | .applyOperator => some "apply"  -- ast_apply_operator.c:42
  | .applyAllOperator => some "apply all"  -- ast_apply_all_operator.c:40
  | .propertyOperator => some "property"  -- ast_property_operator.c:40
  | .subscriptOperator => some "subscript"  -- ast_subscript_operator.c:40
  | .sliceOperator => some "slice"  -- ast_slice_operator.c:41
  | .labelsOperator => some "has labels"  -- ast_labels_operator.c:41
  | .listComprehension => some "list comprehension"  -- ast_list_comprehension.c:67
  | .patternComprehension => some "pattern comprehension"  -- ast_pattern_comprehension.c:41
  | .caseExpression => some "case"  -- ast_case.c:42
  | .filter_ => some "filter"  -- ast_filter.c:49
  | .extract => some "extract"  -- ast_extract.c:49
  | .reduce => some "reduce"  -- ast_reduce.c:43
  | .all_ => some "all"  -- ast_all.c:49
  | .any_ => some "any"  -- ast_any.c:49
  | .single => some "single"  -- ast_single.c:49
  | .none_ => some "none"  -- ast_none.c:49
  | .collection => some "collection"  -- ast_collection.c:39
  | .map_ => some "map"  -- ast_map.c:39
  | .identifier => some "identifier"  -- ast_identifier.c:38
  | .parameter => some "parameter"  -- ast_parameter.c:38
  | .string => some "string"  -- ast_string.c:38
  | .integer => some "integer"  -- ast_integer.c:38
  | .floatLiteral => some "float"  -- ast_float.c:38
  | .trueLiteral => some "TRUE"  -- ast_true.c:38
  | .falseLiteral => some "FALSE"  -- ast_false.c:38
  | .nullLiteral => some "NULL"  -- ast_null.c:38
  | .label => some "label"  -- ast_label.c:35
  | .reltype => some "rel type"  -- ast_reltype.c:35
  | .propName => some "prop name"  -- ast_prop_name.c:35
  | .functionName => some "function name"  -- ast_function_name.c:35
  | .indexName => some "index name"  -- ast_index_name.c:35
  | .procName => some "proc name"  -- ast_proc_name.c:35
  | .pattern => some "pattern"  -- ast_pattern.c:36
  | .namedPath => some "named path"  -- ast_named_path.c:42
  | .shortestPath => some "shortestPath"  -- ast_shortest_path.c:42
  | .patternPath => some "pattern path"  -- ast_pattern_path.c:58
  | .nodePattern => some "node pattern"  -- ast_node_pattern.c:38
  | .relPattern => some "rel pattern"  -- ast_rel_pattern.c:40
  | .range => some "range"  -- ast_range.c:37
  | .command => some "command"  -- ast_command.c:37
  | .lineComment => some "line_comment"  -- ast_line_comment.c:38
  | .blockComment => some "block_comment"  -- ast_block_comment.c:38
  | .error => some "error"  -- ast_error.c:35
  | .mapProjection => some "map projection"  -- ast_map_projection.c:41
  | .mapProjectionLiteral => some "literal projection"  -- ast_map_projection_literal.c:39
  | .mapProjectionProperty => some "property projection"  -- ast_map_projection_property.c:38
  | .mapProjectionIdentifier => some "identifier projection"  -- ast_map_projection_identifier.c:38
  | .mapProjectionAllProperties => some "all properties projection"  -- ast_map_projection_all_properties.c:37
  | _ => none

/-- `VT_PTR(type)` (ast.c): the table registered for a type in the initialiser (ast.c:141-);
`none` is NULL: the field is not initialised. -/
def vtPtr : AstType → Option AstType
  | .comment => none
  | t => some t

end AstType

end Verif
