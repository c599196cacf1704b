import Verif.Cypher.Access
import Verif.Props.Detail
/-!
# C41: the functions that read nodes return what the header documents
-/
namespace Verif.Cypher
open Verif.Peg List

/-! ## Specification -/

/-- What `cypher-parser.h` says of the value returned. -/
inductive Doc where
  /-- "An AST node of type .." (or of one of several types) -/
  | one (ts : List AstType)
  /-- ".., or null if .." -/
  | opt (ts : List AstType)
  /-- "A .. node, or null if the index is larger than the number of ..", where `f` says how many there are -/
  | nth (f : Fn) (ts : List AstType)
  /-- "The number of .." -/
  | count
  /-- "`true` if .. and `false` otherwise." -/
  | bool
  /-- "The operator." -/
  | op
  /-- "The operator at the specified position in the chain, or null if the position is greater than the chain
  length." (There is none at that position itself.) -/
  | nthOp
  /-- "A `CYPHER_AST_EXPRESSION` node at the specified position in the chain, or null if the position is greater
  than the chain length." -/
  | upto
  /-- "The direction of the relationship." -/
  | dir
  /-- "A null terminated string." -/
  | text
  /-- "Either a `CYPHER_AST_NODE_PATTERN` node or a `CYPHER_AST_REL_PATTERN` node, depending on whether the index is
  even or odd respectively, or null if the index is larger than the number of elements" -/
  | path
  deriving DecidableEq, Repr

/-- The node is of one of the types. -/
def Of (ts : List AstType) (r : Ref) : Prop := ∃ t ∈ ts, SubType r.ty t

def IsChild (n : Node) (r : Ref) : Prop := ∃ c ∈ n.children, c.ref = r

/-- The node pointed to is below the other. -/
inductive Below : Ref → Node → Prop
  | child {n c : Node} : c ∈ n.children → Below c.ref n
  | under {n c : Node} {r : Ref} : c ∈ n.children → Below r c → Below r n

/-- What is returned is as documented. -/
def Doc.Meets (n : Node) (i : Nat) : Doc → Got → Prop
  | .one ts, g => ∃ r, g = .node (some r) ∧ Of ts r ∧ IsChild n r
  | .opt ts, g => g = .node none ∨ ∃ r, g = .node (some r) ∧ Of ts r ∧ IsChild n r
  | .nth f ts, g => ∃ k, f.call n 0 = .ok (.num k) ∧
      (i < k → ∃ r, g = .node (some r) ∧ Of ts r ∧ IsChild n r) ∧ (k ≤ i → g = .node none)
  | .count, g => ∃ k, g = .num k
  | .bool, g => ∃ b, g = .bool b
  | .op, g => ∃ o, g = .op (some o)
  | .nthOp, g => ∃ k, Fn.comparison_get_length.call n 0 = .ok (.num k) ∧
      (i < k → ∃ o, g = .op (some o)) ∧ (k ≤ i → g = .op none)
  | .upto, g => ∃ k, Fn.comparison_get_length.call n 0 = .ok (.num k) ∧
      (i ≤ k → ∃ r, g = .node (some r) ∧ Of [.expression] r ∧ IsChild n r) ∧ (k < i → g = .node none)
  | .dir, g => ∃ d, g = .dir d
  | .text, g => ∃ t, g = .text t ∧ 0 ∉ t
  | .path, g => ∃ k, Fn.pattern_path_nelements.call n 0 = .ok (.num k) ∧ k % 2 = 1 ∧
      (i < k → ∃ r, g = .node (some r) ∧ Of [if i % 2 = 0 then .nodePattern else .relPattern] r ∧ Below r n) ∧
      (k ≤ i → g = .node none)

/-- The comments in `lib/src/cypher-parser.h.in` (the line on which each function is declared). Three name types that
do not exist (`CYPHER_AST_PREDICATE`, `CYPHER_AST_MERGE_HINT`, `CYPHER_AST_CLAUSE`): no type here. That of
`cypher_ast_collection_get` names none. -/
def documented : Fn → Doc
  | .statement_noptions => .count -- 536
  | .statement_get_option => .nth .statement_noptions [.statementOption] -- 549
  | .statement_get_body => .one [.query, .schemaCommand] -- 562
  | .cypher_option_get_version => .opt [.string] -- 597
  | .cypher_option_nparams => .count -- 610
  | .cypher_option_get_param => .nth .cypher_option_nparams [.cypherOptionParam] -- 624
  | .cypher_option_param_get_name => .one [.string] -- 653
  | .cypher_option_param_get_value => .one [.string] -- 666
  | .create_node_props_index_get_label => .one [.label] -- 723
  | .create_node_props_index_nprops => .count -- 736
  | .create_node_props_index_get_prop_name => .nth .create_node_props_index_nprops [.propName] -- 750
  | .drop_node_props_index_get_label => .one [.label] -- 782
  | .drop_node_props_index_nprops => .count -- 795
  | .drop_node_props_index_get_prop_name => .nth .drop_node_props_index_nprops [.propName] -- 809
  | .create_node_prop_constraint_get_identifier => .one [.identifier] -- 844
  | .create_node_prop_constraint_get_label => .one [.label] -- 857
  | .create_node_prop_constraint_get_expression => .one [.expression] -- 870
  | .create_node_prop_constraint_is_unique => .bool -- 882
  | .drop_node_prop_constraint_get_identifier => .one [.identifier] -- 917
  | .drop_node_prop_constraint_get_label => .one [.label] -- 930
  | .drop_node_prop_constraint_get_expression => .one [.expression] -- 943
  | .drop_node_prop_constraint_is_unique => .bool -- 955
  | .create_rel_prop_constraint_get_identifier => .one [.identifier] -- 990
  | .create_rel_prop_constraint_get_reltype => .one [.reltype] -- 1003
  | .create_rel_prop_constraint_get_expression => .one [.expression] -- 1016
  | .create_rel_prop_constraint_is_unique => .bool -- 1028
  | .drop_rel_prop_constraint_get_identifier => .one [.identifier] -- 1063
  | .drop_rel_prop_constraint_get_reltype => .one [.reltype] -- 1076
  | .drop_rel_prop_constraint_get_expression => .one [.expression] -- 1089
  | .drop_rel_prop_constraint_is_unique => .bool -- 1101
  | .query_noptions => .count -- 1135
  | .query_get_option => .nth .query_noptions [.queryOption] -- 1148
  | .query_nclauses => .count -- 1161
  | .query_get_clause => .nth .query_nclauses [.queryOption] -- 1174
  | .using_periodic_commit_get_limit => .opt [.integer] -- 1204
  | .load_csv_has_with_headers => .bool -- 1240
  | .load_csv_get_url => .one [.expression] -- 1252
  | .load_csv_get_identifier => .one [.identifier] -- 1265
  | .load_csv_get_field_terminator => .opt [.string] -- 1278
  | .start_npoints => .count -- 1312
  | .start_get_point => .nth .start_npoints [.queryOption] -- 1325
  | .start_get_predicate => .opt [.expression] -- 1338
  | .node_index_lookup_get_identifier => .one [.identifier] -- 1373
  | .node_index_lookup_get_index_name => .one [.indexName] -- 1386
  | .node_index_lookup_get_prop_name => .one [.propName] -- 1399
  | .node_index_lookup_get_lookup => .one [.string, .parameter] -- 1412
  | .node_index_query_get_identifier => .one [.identifier] -- 1445
  | .node_index_query_get_index_name => .one [.indexName] -- 1458
  | .node_index_query_get_query => .one [.string, .parameter] -- 1471
  | .node_id_lookup_get_identifier => .one [.identifier] -- 1504
  | .node_id_lookup_nids => .count -- 1517
  | .node_id_lookup_get_id => .nth .node_id_lookup_nids [.integer] -- 1530
  | .all_nodes_scan_get_identifier => .one [.identifier] -- 1560
  | .rel_index_lookup_get_identifier => .one [.identifier] -- 1596
  | .rel_index_lookup_get_index_name => .one [.indexName] -- 1609
  | .rel_index_lookup_get_prop_name => .one [.propName] -- 1622
  | .rel_index_lookup_get_lookup => .one [.string, .parameter] -- 1635
  | .rel_index_query_get_identifier => .one [.identifier] -- 1668
  | .rel_index_query_get_index_name => .one [.indexName] -- 1681
  | .rel_index_query_get_query => .one [.string, .parameter] -- 1694
  | .rel_id_lookup_get_identifier => .one [.identifier] -- 1728
  | .rel_id_lookup_nids => .count -- 1741
  | .rel_id_lookup_get_id => .nth .rel_id_lookup_nids [.integer] -- 1754
  | .all_rels_scan_get_identifier => .one [.identifier] -- 1784
  | .match_is_optional => .bool -- 1822
  | .match_get_pattern => .one [.pattern] -- 1834
  | .match_nhints => .count -- 1847
  | .match_get_hint => .nth .match_nhints [.matchHint] -- 1860
  | .match_get_predicate => .opt [] -- 1873
  | .using_index_get_identifier => .one [.identifier] -- 1906
  | .using_index_get_label => .one [.identifier] -- 1919
  | .using_index_get_prop_name => .one [.propName] -- 1932
  | .using_join_nidentifiers => .count -- 1965
  | .using_join_get_identifier => .nth .using_join_nidentifiers [.identifier] -- 1978
  | .using_scan_get_identifier => .one [.identifier] -- 2009
  | .using_scan_get_label => .one [.identifier] -- 2022
  | .merge_get_pattern_path => .one [.patternPath] -- 2055
  | .merge_nactions => .count -- 2068
  | .merge_get_action => .nth .merge_nactions [] -- 2081
  | .on_match_nitems => .count -- 2112
  | .on_match_get_item => .nth .on_match_nitems [.setItem] -- 2125
  | .on_create_nitems => .count -- 2156
  | .on_create_get_item => .nth .on_create_nitems [.setItem] -- 2169
  | .create_is_unique => .bool -- 2200
  | .create_get_pattern => .one [.pattern] -- 2212
  | .set_nitems => .count -- 2243
  | .set_get_item => .nth .set_nitems [.setItem] -- 2256
  | .set_property_get_property => .one [.propertyOperator] -- 2287
  | .set_property_get_expression => .one [.expression] -- 2300
  | .set_all_properties_get_identifier => .one [.identifier] -- 2332
  | .set_all_properties_get_expression => .one [.expression] -- 2345
  | .merge_properties_get_identifier => .one [.identifier] -- 2377
  | .merge_properties_get_expression => .one [.expression] -- 2390
  | .set_labels_get_identifier => .one [.identifier] -- 2424
  | .set_labels_nlabels => .count -- 2437
  | .set_labels_get_label => .nth .set_labels_nlabels [.label] -- 2450
  | .delete_has_detach => .bool -- 2484
  | .delete_nexpressions => .count -- 2496
  | .delete_get_expression => .nth .delete_nexpressions [.expression] -- 2509
  | .remove_nitems => .count -- 2540
  | .remove_get_item => .nth .remove_nitems [.expression] -- 2553
  | .remove_labels_get_identifier => .one [.identifier] -- 2586
  | .remove_labels_nlabels => .count -- 2599
  | .remove_labels_get_label => .nth .remove_labels_nlabels [.label] -- 2612
  | .remove_property_get_property => .one [.propertyOperator] -- 2642
  | .foreach_get_identifier => .one [.identifier] -- 2676
  | .foreach_get_expression => .one [.expression] -- 2689
  | .foreach_nclauses => .count -- 2702
  | .foreach_get_clause => .nth .foreach_nclauses [] -- 2715
  | .with_is_distinct => .bool -- 2757
  | .with_has_include_existing => .bool -- 2769
  | .with_nprojections => .count -- 2781
  | .with_get_projection => .nth .with_nprojections [.projection] -- 2794
  | .with_get_order_by => .opt [.orderBy] -- 2807
  | .with_get_skip => .opt [.integer] -- 2820
  | .with_get_limit => .opt [.integer] -- 2833
  | .with_get_predicate => .opt [.expression] -- 2846
  | .unwind_get_expression => .one [.expression] -- 2877
  | .unwind_get_alias => .one [.expression] -- 2890
  | .call_get_proc_name => .one [.procName] -- 2928
  | .call_narguments => .count -- 2941
  | .call_get_argument => .nth .call_narguments [.expression] -- 2954
  | .call_nprojections => .count -- 2967
  | .call_get_projection => .nth .call_nprojections [.projection] -- 2980
  | .call_get_predicate => .opt [.expression] -- 2994
  | .return_is_distinct => .bool -- 3034
  | .return_has_include_existing => .bool -- 3046
  | .return_nprojections => .count -- 3058
  | .return_get_projection => .nth .return_nprojections [.projection] -- 3071
  | .return_get_order_by => .opt [.orderBy] -- 3084
  | .return_get_skip => .opt [.integer] -- 3097
  | .return_get_limit => .opt [.integer] -- 3110
  | .projection_get_expression => .one [.expression] -- 3139
  | .projection_get_alias => .opt [.identifier] -- 3152
  | .order_by_nitems => .count -- 3181
  | .order_by_get_item => .nth .order_by_nitems [.setItem] -- 3194
  | .sort_item_get_expression => .one [.expression] -- 3223
  | .sort_item_is_ascending => .bool -- 3236
  | .union_has_all => .bool -- 3264
  | .unary_operator_get_operator => .op -- 3295
  | .unary_operator_get_argument => .one [.expression] -- 3308
  | .binary_operator_get_operator => .op -- 3343
  | .binary_operator_get_argument1 => .one [.expression] -- 3356
  | .binary_operator_get_argument2 => .one [.expression] -- 3369
  | .comparison_get_length => .count -- 3403
  | .comparison_get_operator => .nthOp -- 3417
  | .comparison_get_argument => .upto -- 3432
  | .apply_operator_get_func_name => .one [.functionName] -- 3466
  | .apply_operator_get_distinct => .bool -- 3479
  | .apply_operator_narguments => .count -- 3491
  | .apply_operator_get_argument => .nth .apply_operator_narguments [.expression] -- 3504
  | .apply_all_operator_get_func_name => .one [.functionName] -- 3536
  | .apply_all_operator_get_distinct => .bool -- 3549
  | .property_operator_get_expression => .one [.expression] -- 3580
  | .property_operator_get_prop_name => .one [.propName] -- 3593
  | .subscript_operator_get_expression => .one [.expression] -- 3625
  | .subscript_operator_get_subscript => .one [.expression] -- 3638
  | .slice_operator_get_expression => .one [.expression] -- 3671
  | .slice_operator_get_start => .opt [.expression] -- 3684
  | .slice_operator_get_end => .opt [.expression] -- 3697
  | .map_projection_get_expression => .one [.expression] -- 3732
  | .map_projection_nselectors => .count -- 3745
  | .map_projection_get_selector => .nth .map_projection_nselectors [.mapProjectionSelector] -- 3758
  | .map_projection_literal_get_prop_name => .one [.propName] -- 3790
  | .map_projection_literal_get_expression => .one [.expression] -- 3803
  | .map_projection_property_get_prop_name => .one [.propName] -- 3834
  | .map_projection_identifier_get_identifier => .one [.identifier] -- 3865
  | .labels_operator_get_expression => .one [.expression] -- 3914
  | .labels_operator_nlabels => .count -- 3927
  | .labels_operator_get_label => .nth .labels_operator_nlabels [.label] -- 3940
  | .list_comprehension_get_identifier => .one [.identifier] -- 3975
  | .list_comprehension_get_expression => .one [.expression] -- 3988
  | .list_comprehension_get_predicate => .opt [.expression] -- 4001
  | .list_comprehension_get_eval => .opt [.expression] -- 4014
  | .pattern_comprehension_get_identifier => .opt [.identifier] -- 4170
  | .pattern_comprehension_get_pattern => .one [.patternPath] -- 4183
  | .pattern_comprehension_get_predicate => .opt [.expression] -- 4196
  | .pattern_comprehension_get_eval => .one [.expression] -- 4209
  | .reduce_get_accumulator => .one [.identifier] -- 4245
  | .reduce_get_init => .one [.expression] -- 4258
  | .reduce_get_identifier => .one [.identifier] -- 4271
  | .reduce_get_expression => .one [.expression] -- 4284
  | .reduce_get_eval => .opt [.expression] -- 4297
  | .case_get_expression => .one [.expression] -- 4332
  | .case_nalternatives => .count -- 4345
  | .case_get_predicate => .nth .case_nalternatives [.expression] -- 4358
  | .case_get_value => .nth .case_nalternatives [.expression] -- 4372
  | .case_get_default => .opt [.expression] -- 4385
  | .collection_length => .count -- 4417
  | .collection_get => .nth .collection_length [.expression] -- 4431
  | .map_nentries => .count -- 4483
  | .map_get_key => .nth .map_nentries [.propName] -- 4496
  | .map_get_value => .nth .map_nentries [.expression] -- 4510
  | .identifier_get_name => .text -- 4538
  | .parameter_get_name => .text -- 4565
  | .string_get_value => .text -- 4592
  | .integer_get_valuestr => .text -- 4619
  | .float_get_valuestr => .text -- 4646
  | .label_get_name => .text -- 4707
  | .reltype_get_name => .text -- 4732
  | .prop_name_get_value => .text -- 4757
  | .function_name_get_value => .text -- 4782
  | .index_name_get_value => .text -- 4807
  | .proc_name_get_value => .text -- 4832
  | .pattern_npaths => .count -- 4861
  | .pattern_get_path => .nth .pattern_npaths [.patternPath] -- 4874
  | .named_path_get_identifier => .one [.identifier] -- 4905
  | .named_path_get_path => .one [.patternPath] -- 4918
  | .shortest_path_is_single => .bool -- 4950
  | .shortest_path_get_path => .one [.patternPath] -- 4962
  | .pattern_path_nelements => .count -- 4992
  | .pattern_path_get_element => .path -- 5008
  | .node_pattern_get_identifier => .opt [.identifier] -- 5042
  | .node_pattern_nlabels => .count -- 5055
  | .node_pattern_get_label => .nth .node_pattern_nlabels [.label] -- 5068
  | .node_pattern_get_properties => .opt [.map_, .parameter] -- 5081
  | .rel_pattern_get_direction => .dir -- 5119
  | .rel_pattern_get_identifier => .opt [.identifier] -- 5132
  | .rel_pattern_nreltypes => .count -- 5145
  | .rel_pattern_get_reltype => .nth .rel_pattern_nreltypes [.label] -- 5158
  | .rel_pattern_get_varlength => .opt [.range] -- 5171
  | .rel_pattern_get_properties => .opt [.map_, .parameter] -- 5184
  | .range_get_start => .opt [.range] -- 5213
  | .range_get_end => .opt [.range] -- 5226
  | .command_get_name => .one [.string] -- 5258
  | .command_narguments => .count -- 5271
  | .command_get_argument => .nth .command_narguments [.string] -- 5286
  | .line_comment_get_value => .text -- 5314
  | .block_comment_get_value => .text -- 5341
  | .error_get_value => .text -- 5366

/-- Functions of which the header says something that is not so. -/
def misdocumented : List Fn :=
  [.query_get_clause, .start_get_point, .match_get_predicate, .using_index_get_label, .using_scan_get_label,
   .merge_get_action, .remove_get_item, .foreach_get_clause, .with_get_skip, .with_get_limit, .return_get_skip,
   .return_get_limit, .order_by_get_item, .case_get_expression, .rel_pattern_get_reltype, .range_get_start,
   .range_get_end]

/-- What should be said of them. -/
def corrected : Fn → Doc
  | .query_get_clause => .nth .query_nclauses [.queryClause]
  | .start_get_point => .nth .start_npoints [.startPoint]
  | .match_get_predicate => .opt [.expression]
  | .using_index_get_label => .one [.label]
  | .using_scan_get_label => .one [.label]
  | .merge_get_action => .nth .merge_nactions [.mergeAction]
  | .remove_get_item => .nth .remove_nitems [.removeItem]
  | .foreach_get_clause => .nth .foreach_nclauses [.queryClause]
  | .with_get_skip => .opt [.expression]
  | .with_get_limit => .opt [.expression]
  | .return_get_skip => .opt [.expression]
  | .return_get_limit => .opt [.expression]
  | .order_by_get_item => .nth .order_by_nitems [.sortItem]
  | .case_get_expression => .opt [.expression]
  | .rel_pattern_get_reltype => .nth .rel_pattern_nreltypes [.reltype]
  | .range_get_start => .opt [.integer]
  | .range_get_end => .opt [.integer]
  | f => documented f

/-! ## Fields and arrays of well-typed nodes -/

theorem _root_.Verif.SubType.trans {t u v : AstType} (h : SubType t u) (h' : SubType u v) : SubType t v := by
  induction h with
  | refl => exact h'
  | step hp _ ih => exact .step hp (ih h')

/-- All nodes of type `t` are of one of the types. -/
def typeOk (ts : List AstType) (t : AstType) : Bool := ts.any fun u => isA ⟨0, t⟩ u

theorem typeOk_of {ts : List AstType} {t : AstType} (h : typeOk ts t = true) {r : Ref} (hr : SubType r.ty t) :
    Of ts r := by
  obtain ⟨u, hu, h⟩ := any_eq_true.1 h
  exact ⟨u, hu, hr.trans (isA_sub (r := ⟨0, t⟩) h)⟩

def wantOk (ts : List AstType) (null : Bool) : Want → Bool
  | .node t => typeOk ts t
  | .maybe t => null && typeOk ts t
  | .oneOf t u => typeOk ts t && typeOk ts u
  | .maybeOneOf t u => null && typeOk ts t && typeOk ts u

def fieldOk (c : Ctor) (x : Field) (ts : List AstType) (null : Bool) : Bool :=
  match c.ty.fields.1.findIdx? (· == x) with
  | none => false
  | some i => match c.wants.1[i]? with
    | none => false
    | some w => wantOk ts null w

theorem fits_at {ch : List Node} : ∀ {ws : List Want} {as : List (Option Ref)}, Fits ch ws as → ∀ {i : Nat} {w : Want},
    ws[i]? = some w → ∃ a, as[i]? = some a ∧ w.Holds ch a
  | [], [], _, i, w, h => by simp at h
  | w :: ws, a :: as, hf, 0, w', h => by
    simp only [getElem?_cons_zero, Option.some.injEq] at h
    subst h
    exact ⟨a, rfl, hf.1⟩
  | w :: ws, a :: as, hf, i + 1, w', h => by
    simp only [getElem?_cons_succ] at h ⊢
    exact fits_at hf.2 h
  | [], a :: as, h, _, _, _ => h.elim
  | w :: ws, [], h, _, _, _ => h.elim

theorem want_ok {ts : List AstType} {null : Bool} {w : Want} (h : wantOk ts null w = true) {n : Node} {a : Option Ref}
    (ha : w.Holds n.children a) : (a = none → null = true) ∧ ∀ r, a = some r → Of ts r ∧ IsChild n r := by
  cases w <;> cases a <;> simp only [wantOk, Bool.and_eq_true] at h <;> simp only [Want.Holds] at ha
  · exact ⟨by simp, fun r hr => by cases hr; exact ⟨typeOk_of h ha.1, ha.2⟩⟩
  · exact ⟨fun _ => h.1, by simp⟩
  · exact ⟨by simp, fun r hr => by cases hr; exact ⟨typeOk_of h.2 ha.1, ha.2⟩⟩
  · refine ⟨by simp, fun r hr => ?_⟩
    cases hr
    exact ⟨ha.1.elim (typeOk_of h.1) (typeOk_of h.2), ha.2⟩
  · exact ⟨fun _ => h.1.1, by simp⟩
  · refine ⟨by simp, fun r hr => ?_⟩
    cases hr
    exact ⟨ha.1.elim (typeOk_of h.1.2) (typeOk_of h.2), ha.2⟩

theorem field_ok {n : Node} (hw : WellTyped n) {x : Field} {ts : List AstType} {null : Bool}
    (h : fieldOk n.ctor x ts null = true) :
    ∃ a, n.field x = .ok a ∧ (a = none → null = true) ∧ ∀ r, a = some r → Of ts r ∧ IsChild n r := by
  unfold fieldOk at h
  unfold Node.field
  split at h
  · cases h
  · rename_i i hi
    split at h
    · cases h
    · rename_i w hx
      rw [hi]
      have hf : Fits n.children n.ctor.wants.1 n.args := by cases hw; assumption
      obtain ⟨a, h1, h2⟩ := fits_at hf hx
      simp only [h1]
      exact ⟨a, rfl, want_ok h h2⟩

/-- The number of arrays. -/
def Ctor.nparts : Ctor → Nat
  | .query | .callClause => 2
  | _ => 1

theorem parts_length (n : Node) : n.parts.length = n.ctor.nparts := by
  unfold Node.parts
  cases n.ctor <;> rfl

theorem parts_flatten (n : Node) : n.parts.flatten = n.seq := by
  unfold Node.parts
  split <;> simp [takeWhile_append_dropWhile]

def arrayOk (c : Ctor) (xs : Arr) : Bool :=
  match c.ty.fields.2.findIdx? (· == xs) with
  | none => false
  | some k => k < c.nparts

theorem array_ok {n : Node} {xs : Arr} (h : arrayOk n.ctor xs = true) : ∃ s, n.array xs = .ok s ∧
    ∃ k, n.ctor.ty.fields.2.findIdx? (· == xs) = some k ∧ n.parts[k]? = some s := by
  unfold arrayOk at h
  unfold Node.array
  split at h
  · cases h
  · rename_i k hk
    have hl : k < n.parts.length := by rw [parts_length]; simpa using h
    rw [hk]
    simp only [getElem?_eq_getElem hl]
    exact ⟨_, rfl, k, rfl, getElem?_eq_getElem hl⟩

theorem mem_parts {n : Node} {k : Nat} {s : List Ref} (h : n.parts[k]? = some s) {r : Ref} (hr : r ∈ s) :
    r ∈ n.seq := by
  rw [← parts_flatten]
  exact mem_flatten.2 ⟨s, mem_of_getElem? h, hr⟩

/-- Elements of an array: those at even places, and those at odd places, are of one of the types. -/
def elemOk (c : Ctor) (xs : Arr) (odd : Bool) (ts : List AstType) : Bool :=
  arrayOk c xs &&
  match c.ty.fields.2.findIdx? (· == xs), c.wants.2 with
  | some 0, .all t _ => typeOk ts t && c.nparts == 1
  | some 0, .query => typeOk ts .queryOption && c == .query
  | some 1, .query => typeOk ts .queryClause && c == .query
  | some 0, .call => typeOk ts .expression && c == .callClause
  | some 1, .call => typeOk ts .projection && c == .callClause
  | some 0, .cases => typeOk ts .expression && c.nparts == 1
  | some 0, .comparison => typeOk ts .expression && c.nparts == 1
  | some 0, .pairs => typeOk ts (if odd then .expression else .propName) && c.nparts == 1
  | some 0, .path => typeOk ts (if odd then .relPattern else .nodePattern) && c.nparts == 1
  | _, _ => false

theorem alternate_get : ∀ {s : List Ref} {t u : AstType}, Alternate t u s → ∀ {i : Nat} {r : Ref}, s[i]? = some r →
    SubType r.ty (if i % 2 = 1 then u else t)
  | [], _, _, _, _, _, h => by simp at h
  | r :: rs, t, u, h, 0, r', hi => by
    simp only [getElem?_cons_zero, Option.some.injEq] at hi
    subst hi
    exact h.1
  | r :: rs, t, u, h, i + 1, r', hi => by
    have := alternate_get h.2 (i := i) (by simpa using hi)
    by_cases hm : i % 2 = 1
    · rw [if_pos hm] at this
      rw [if_neg (by omega)]
      exact this
    · rw [if_neg hm] at this
      rw [if_pos (by omega)]
      exact this

theorem one_part {n : Node} (h : n.ctor.nparts = 1) : n.parts = [n.seq] := by
  unfold Node.parts
  split
  · rename_i hc; rw [hc] at h; cases h
  · rename_i hc; rw [hc] at h; cases h
  · rfl

theorem takeWhile_split {α : Type} {p : α → Bool} : ∀ {a b : List α}, (∀ x ∈ a, p x = true) → (∀ x ∈ b, p x = false) →
    (a ++ b).takeWhile p = a ∧ (a ++ b).dropWhile p = b
  | [], [], _, _ => ⟨rfl, rfl⟩
  | [], x :: b, _, hb => by simp [hb x mem_cons_self]
  | x :: a, b, ha, hb => by
    obtain ⟨h1, h2⟩ := takeWhile_split (fun y hy => ha y (mem_cons_of_mem _ hy)) hb
    simp [ha x mem_cons_self, h1, h2]

theorem not_projection {r : Ref} (h : SubType r.ty .expression) : isA r .projection = false := by
  have : ∀ t : AstType, isA ⟨0, t⟩ .expression = true → isA ⟨0, t⟩ .projection = false := by
    intro t; cases t <;> decide +kernel
  exact this r.ty (sub_isA (by decide) h)

theorem elem_ok {n : Node} (hw : WellTyped n) {xs : Arr} {odd : Bool} {ts : List AstType}
    (h : elemOk n.ctor xs odd ts = true) : ∃ s, n.array xs = .ok s ∧
      ∀ i r, s[i]? = some r → i % 2 = odd.toNat ∨ (n.ctor.wants.2 ≠ .pairs ∧ n.ctor.wants.2 ≠ .path) →
        Of ts r ∧ IsChild n r := by
  unfold elemOk at h
  rw [Bool.and_eq_true] at h
  obtain ⟨h0, h⟩ := h
  obtain ⟨s, h1, k, h2, h3⟩ := array_ok h0
  refine ⟨s, h1, fun i r hr hodd => ?_⟩
  have hs : n.ctor.wants.2.Holds n.children n.seq := by cases hw; assumption
  have hrs : r ∈ n.seq := mem_parts h3 (mem_of_getElem? hr)
  refine ⟨?_, hs.2 r hrs⟩
  rw [h2] at h
  have ht := hs.1
  split at h <;> rename_i e1 e2 <;> (try cases e1) <;> (try rw [Bool.and_eq_true] at h) <;>
    (try rw [e2] at ht hodd)
  · exact typeOk_of h.1 (ht.2 r hrs)
  · have hc : n.ctor = .query := by simpa using h.2
    obtain ⟨a, b, hab, ha, _, hb⟩ := ht
    have := takeWhile_split (p := (isA · .queryOption)) (a := a) (b := b) (fun x hx => sub_isA (by decide) (ha x hx))
      (fun x hx => query_seq (hb x hx))
    simp only [Node.parts, hc, hab, this.1, getElem?_cons_zero, Option.some.injEq] at h3
    subst h3
    exact typeOk_of h.1 (ha r (mem_of_getElem? hr))
  · have hc : n.ctor = .query := by simpa using h.2
    obtain ⟨a, b, hab, ha, _, hb⟩ := ht
    have := takeWhile_split (p := (isA · .queryOption)) (a := a) (b := b) (fun x hx => sub_isA (by decide) (ha x hx))
      (fun x hx => query_seq (hb x hx))
    simp only [Node.parts, hc, hab, this.2, getElem?_cons_zero, getElem?_cons_succ, Option.some.injEq] at h3
    subst h3
    exact typeOk_of h.1 (hb r (mem_of_getElem? hr))
  · have hc : n.ctor = .callClause := by simpa using h.2
    obtain ⟨a, b, hab, ha, hb⟩ := ht
    have := takeWhile_split (p := (! isA · .projection)) (a := a) (b := b)
      (fun x hx => by simp [not_projection (ha x hx)])
      (fun x hx => by simp [sub_isA (r := x) (by decide) (hb x hx)])
    simp only [Node.parts, hc, hab, this.1, getElem?_cons_zero, Option.some.injEq] at h3
    subst h3
    exact typeOk_of h.1 (ha r (mem_of_getElem? hr))
  · have hc : n.ctor = .callClause := by simpa using h.2
    obtain ⟨a, b, hab, ha, hb⟩ := ht
    have := takeWhile_split (p := (! isA · .projection)) (a := a) (b := b)
      (fun x hx => by simp [not_projection (ha x hx)])
      (fun x hx => by simp [sub_isA (r := x) (by decide) (hb x hx)])
    simp only [Node.parts, hc, hab, this.2, getElem?_cons_zero, getElem?_cons_succ, Option.some.injEq] at h3
    subst h3
    exact typeOk_of h.1 (hb r (mem_of_getElem? hr))
  · exact typeOk_of h.1 (ht.2.2 r hrs)
  · exact typeOk_of h.1 (ht.2 r hrs)
  · rw [one_part (by simpa using h.2)] at h3
    simp only [getElem?_cons_zero, Option.some.injEq] at h3
    subst h3
    have := alternate_get ht.2 hr
    simp only [ne_eq, not_true_eq_false, false_and, or_false] at hodd
    cases odd
    · rw [if_neg (by simp at hodd; omega)] at this; exact typeOk_of h.1 this
    · rw [if_pos (by simpa using hodd)] at this; exact typeOk_of h.1 this
  · rw [one_part (by simpa using h.2)] at h3
    simp only [getElem?_cons_zero, Option.some.injEq] at h3
    subst h3
    have := alternate_get ht.2 hr
    simp only [ne_eq, not_true_eq_false, and_false, or_false] at hodd
    cases odd
    · rw [if_neg (by simp at hodd; omega)] at this; exact typeOk_of h.1 this
    · rw [if_pos (by simpa using hodd)] at this; exact typeOk_of h.1 this
  · cases h

/-! ## Running -/

theorem run_get {n : Node} {x : Field} {a : Option Ref} (h : n.field x = .ok a) (i : Nat) :
    (Body.get x).run n i = .ok (.node a) := by
  simp only [Body.run, h]; rfl

theorem run_count {n : Node} {xs : Arr} {s : List Ref} (h : n.array xs = .ok s) (i : Nat) :
    (Body.count xs).run n i = .ok (.num s.length) := by
  simp only [Body.run, h]; rfl

theorem run_pairCount {n : Node} {xs : Arr} {s : List Ref} (h : n.array xs = .ok s) (i : Nat) :
    (Body.pairCount xs).run n i = .ok (.num (s.length / 2)) := by
  simp only [Body.run, h]; rfl

theorem fetch_get {s : List Ref} {i j : Nat} (h : i < s.length) : fetch s i = .ok (.node s[i]?) := by
  simp [fetch, h]

theorem run_nth {n : Node} {xs : Arr} {s : List Ref} (h : n.array xs = .ok s) (i : Nat) :
    (Body.nth xs).run n i = .ok (.node s[i]?) := by
  simp only [Body.run, h]
  show (if i ≥ s.length then _ else _) = _
  split
  · rename_i hi; rw [getElem?_eq_none hi]
  · rename_i hi; exact fetch_get (j := 0) (by omega)

theorem run_fst {n : Node} {xs : Arr} {s : List Ref} (h : n.array xs = .ok s) (hs : s.length % 2 = 0) (i : Nat) :
    (Body.fst xs).run n i = .ok (.node s[i * 2]?) := by
  simp only [Body.run, h]
  show (if i ≥ s.length / 2 then _ else _) = _
  split
  · rename_i hi; rw [getElem?_eq_none (by omega)]
  · rename_i hi; exact fetch_get (j := 0) (by omega)

theorem run_snd {n : Node} {xs : Arr} {s : List Ref} (h : n.array xs = .ok s) (hs : s.length % 2 = 0) (i : Nat) :
    (Body.snd xs).run n i = .ok (.node s[i * 2 + 1]?) := by
  simp only [Body.run, h]
  show (if i ≥ s.length / 2 then _ else _) = _
  split
  · rename_i hi; rw [getElem?_eq_none (by omega)]
  · rename_i hi; exact fetch_get (j := 0) (by omega)

theorem run_upto {n : Node} {xs : Arr} {s : List Ref} (h : n.array xs = .ok s) (hs : n.ops.length + 1 = s.length)
    (i : Nat) : (Body.upto xs).run n i = .ok (.node s[i]?) := by
  simp only [Body.run, h]
  show (if i > n.ops.length then _ else _) = _
  split
  · rename_i hi; rw [getElem?_eq_none (by omega)]
  · rename_i hi; exact fetch_get (j := 0) (by omega)

theorem run_vtNth {n : Node} {s : List Ref} (h : n.elements = .ok s) (i : Nat) :
    Body.vtNth.run n i = .ok (.node s[i]?) := by
  simp only [Body.run, h]
  show (if i ≥ s.length then _ else _) = _
  split
  · rename_i hi; rw [getElem?_eq_none hi]
  · rename_i hi; exact fetch_get (j := 0) (by omega)

theorem run_vtCount {n : Node} {s : List Ref} (h : n.elements = .ok s) (i : Nat) :
    Body.vtCount.run n i = .ok (.num s.length) := by
  simp only [Body.run, h]; rfl

theorem call_run {f : Fn} {n : Node} (h : isA n.ref f.ty = true) (i : Nat) : f.call n i = f.body.run n i := by
  simp [Fn.call, h]

/-! ## Elements of paths -/

theorem is_path {n : Node} (h : isA n.ref .patternPath = true) :
    n.ctor = .patternPath ∨ n.ctor = .namedPath ∨ ∃ b, n.ctor = .shortestPath b := by
  have : ∀ c : Ctor, isA ⟨n.id, c.ty⟩ .patternPath = true →
      c = .patternPath ∨ c = .namedPath ∨ ∃ b, c = .shortestPath b := by
    intro c h
    cases c <;> first
      | (left; rfl)
      | (right; left; rfl)
      | exact .inr (.inr ⟨_, rfl⟩)
      | (exfalso; revert h; simp only [isA_id _ 0, Ctor.ty]; decide +kernel)
  exact this n.ctor h

theorem elementsIn_ok {n : Node} {r : Ref} {P : Node → List Ref → Prop} : ∀ {cs : List Node},
    (∀ c ∈ cs, c.ref = r → ∃ s, c.elements = .ok s ∧ P c s) → (∃ c ∈ cs, c.ref = r) →
    ∃ s, elementsIn cs (some r) = .ok s ∧ ∃ c ∈ cs, c.ref = r ∧ P c s
  | [], _, h => by simp at h
  | c :: cs, h, ⟨d, hd, e⟩ => by
    rw [elementsIn]
    by_cases hc : c.ref = r
    · obtain ⟨s, h1, h2⟩ := h c mem_cons_self hc
      rw [if_pos (by rw [hc])]
      exact ⟨s, h1, c, mem_cons_self, hc, h2⟩
    · rw [if_neg (by simpa using hc)]
      have hd' : d ∈ cs := by
        rcases mem_cons.1 hd with rfl | hd
        · exact absurd e hc
        · exact hd
      obtain ⟨s, h1, c', h2, h3⟩ := elementsIn_ok (n := n) (fun c hm => h c (mem_cons_of_mem _ hm)) ⟨d, hd', e⟩
      exact ⟨s, h1, c', mem_cons_of_mem _ h2, h3⟩

/-- The elements of a path alternate, and are below it. -/
theorem elements_ok {n : Node} (hw : WellTyped n) (h : isA n.ref .patternPath = true) :
    ∃ s, n.elements = .ok s ∧ s.length % 2 = 1 ∧ Alternate .nodePattern .relPattern s ∧ ∀ r ∈ s, Below r n := by
  induction hw with
  | @mk id c ops args seq text range children h1 h2 h3 h4 h5 h6 ih =>
    have inner : ∀ r, SubType r.ty .patternPath → (∃ d ∈ children, d.ref = r) →
        ∃ s, elementsIn children (some r) = .ok s ∧ s.length % 2 = 1 ∧ Alternate .nodePattern .relPattern s ∧
          ∀ x ∈ s, Below x (.mk id c ops args seq text range children) := by
      intro r hr hd
      obtain ⟨s, e1, d, e2, e3, e4⟩ := elementsIn_ok (n := .mk id c ops args seq text range children) (r := r)
        (P := fun d s => s.length % 2 = 1 ∧ Alternate .nodePattern .relPattern s ∧ ∀ x ∈ s, Below x d)
        (cs := children) (fun d hd e => ih d hd (sub_isA (by decide) (by rw [e]; exact hr))) hd
      exact ⟨s, e1, e4.1, e4.2.1, fun x hx => .under e2 (e4.2.2 x hx)⟩
    rcases is_path h with hc | hc | ⟨b, hc⟩
    · change c = _ at hc
      subst hc
      refine ⟨seq, by rw [Node.elements], h2.1.1, h2.1.2, fun r hr => ?_⟩
      obtain ⟨d, hd, rfl⟩ := h2.2 r hr
      exact .child hd
    · change c = _ at hc
      subst hc
      obtain ⟨a, e1, e2⟩ := fits_at h1 (i := 1) (w := .node .patternPath) rfl
      cases a with
      | none => exact e2.elim
      | some r =>
        obtain ⟨s, e⟩ := inner r e2.1 e2.2
        refine ⟨s, ?_, e.2⟩
        rw [Node.elements, e1]
        exact e.1
    · change c = _ at hc
      subst hc
      obtain ⟨a, e1, e2⟩ := fits_at h1 (i := 0) (w := .node .patternPath) rfl
      cases a with
      | none => exact e2.elim
      | some r =>
        obtain ⟨s, e⟩ := inner r e2.1 e2.2
        refine ⟨s, ?_, e.2⟩
        rw [Node.elements, e1]
        exact e.1

/-! ## The table -/

/-- That what a function returns for nodes of a constructor is as said. -/
def chk (c : Ctor) (f : Fn) (d : Doc) : Bool :=
  match f.body, d with
  | .get x, .one ts => fieldOk c x ts false
  | .get x, .opt ts => fieldOk c x ts true
  | .vt x, .one ts => match vtField c.ty x with
    | .ok (some y) => fieldOk c y ts false
    | _ => false
  | .vt x, .opt ts => match vtField c.ty x with
    | .ok (some y) => fieldOk c y ts true
    | .ok none => true
    | .error _ => false
  | .count xs, .count => arrayOk c xs
  | .pairCount xs, .count => arrayOk c xs
  | .nth xs, .nth g ts => g.code == (f.ty, .count xs) && elemOk c xs false ts &&
      c.wants.2 != .pairs && c.wants.2 != .path
  | .fst xs, .nth g ts => g.code == (f.ty, .pairCount xs) && elemOk c xs false ts &&
      (c.wants.2 == .pairs || c.wants.2 == .cases) && c.nparts == 1
  | .snd xs, .nth g ts => g.code == (f.ty, .pairCount xs) && elemOk c xs true ts &&
      (c.wants.2 == .pairs || c.wants.2 == .cases) && c.nparts == 1
  | .opCount, .count => true
  | .nthOp, .nthOp => c == .comparisonOperator
  | .upto xs, .upto => c == .comparisonOperator && elemOk c xs false [.expression]
  | .flag x, .bool => (c.flag x).isSome
  | .op, .op => c == .unaryOperator || c == .binaryOperator
  | .dir, .dir => match c with | .relPattern _ => true | _ => false
  | .text, .text => true
  | .vtCount, .count => f.ty == .patternPath
  | .vtNth, .path => f.ty == .patternPath
  | _, _ => false

theorem chk_all (c : Ctor) : (Fn.all.all fun f => !isA ⟨0, c.ty⟩ f.ty || chk c f (corrected f)) = true := by
  cases c <;> first
    | decide +kernel
    | (rename_i a; cases a <;> decide +kernel)
    | (rename_i a b; cases a <;> cases b <;> decide +kernel)

theorem pairs_even {n : Node} (hw : WellTyped n) (h : n.ctor.wants.2 = .pairs ∨ n.ctor.wants.2 = .cases)
    (h1 : n.ctor.nparts = 1) {xs : Arr} {s : List Ref} (hs : n.array xs = .ok s) : s.length % 2 = 0 := by
  have hh : n.ctor.wants.2.Holds n.children n.seq := by cases hw; assumption
  have ht := hh.1
  have : s = n.seq := by
    unfold Node.array at hs
    split at hs
    · cases hs
    · split at hs
      · cases hs
      · rename_i s' hk
        cases hs
        rw [one_part h1] at hk
        exact mem_singleton.1 (mem_of_getElem? hk)
  rw [this]
  rcases h with h | h <;> rw [h] at ht
  · exact ht.1
  · exact ht.2.1

/-- What the check is worth. -/
theorem chk_sound {n : Node} (hw : WellTyped n) {f : Fn} {d : Doc} (hf : isA n.ref f.ty = true)
    (h : chk n.ctor f d = true) (i : Nat) : ∃ g, f.call n i = .ok g ∧ d.Meets n i g := by
  rw [call_run hf]
  unfold chk at h
  split at h
  · rename_i x ts hb
    obtain ⟨a, h1, h2, h3⟩ := field_ok hw h
    refine ⟨_, by rw [hb]; exact run_get h1 i, ?_⟩
    cases a with
    | none => exact absurd (h2 rfl) (by simp)
    | some r => exact ⟨r, rfl, h3 r rfl⟩
  · rename_i x ts hb
    obtain ⟨a, h1, h2, h3⟩ := field_ok hw h
    refine ⟨_, by rw [hb]; exact run_get h1 i, ?_⟩
    cases a with
    | none => exact .inl rfl
    | some r => exact .inr ⟨r, rfl, h3 r rfl⟩
  · rename_i x ts hb
    split at h
    · rename_i y hy
      obtain ⟨a, h1, h2, h3⟩ := field_ok hw h
      refine ⟨.node a, by rw [hb]; simp only [Body.run, hy]; show (do Except.ok (Got.node (← n.field y))) = _; rw [h1]; rfl, ?_⟩
      cases a with
      | none => exact absurd (h2 rfl) (by simp)
      | some r => exact ⟨r, rfl, h3 r rfl⟩
    · cases h
  · rename_i x ts hb
    split at h
    · rename_i y hy
      obtain ⟨a, h1, h2, h3⟩ := field_ok hw h
      refine ⟨.node a, by rw [hb]; simp only [Body.run, hy]; show (do Except.ok (Got.node (← n.field y))) = _; rw [h1]; rfl, ?_⟩
      cases a with
      | none => exact .inl rfl
      | some r => exact .inr ⟨r, rfl, h3 r rfl⟩
    · rename_i hy
      exact ⟨.node none, by rw [hb]; simp only [Body.run, hy]; rfl, .inl rfl⟩
    · cases h
  · rename_i xs hb
    obtain ⟨s, h1, -⟩ := array_ok h
    exact ⟨_, by rw [hb]; exact run_count h1 i, _, rfl⟩
  · rename_i xs hb
    obtain ⟨s, h1, -⟩ := array_ok h
    exact ⟨_, by rw [hb]; exact run_pairCount h1 i, _, rfl⟩
  · rename_i xs g ts hb
    simp only [Bool.and_eq_true, beq_iff_eq, bne_iff_ne, ne_eq] at h
    obtain ⟨⟨⟨hg, h⟩, hp⟩, hq⟩ := h
    obtain ⟨s, h1, h2⟩ := elem_ok hw h
    have hg1 : g.ty = f.ty := by rw [Fn.ty, hg]
    have hg2 : g.body = .count xs := by rw [Fn.body, hg]
    refine ⟨_, by rw [hb]; exact run_nth h1 i, s.length, ?_, fun hi => ?_, fun hi => ?_⟩
    · rw [call_run (by rw [hg1]; exact hf), hg2]; exact run_count h1 0
    · rw [getElem?_eq_getElem hi]
      exact ⟨_, rfl, h2 i _ (getElem?_eq_getElem hi) (.inr ⟨hp, hq⟩)⟩
    · rw [getElem?_eq_none hi]
  · rename_i xs g ts hb
    simp only [Bool.and_eq_true, beq_iff_eq, Bool.or_eq_true] at h
    obtain ⟨⟨⟨hg, h⟩, hp⟩, hq⟩ := h
    obtain ⟨s, h1, h2⟩ := elem_ok hw h
    have he := pairs_even hw hp hq h1
    have hg1 : g.ty = f.ty := by rw [Fn.ty, hg]
    have hg2 : g.body = .pairCount xs := by rw [Fn.body, hg]
    refine ⟨_, by rw [hb]; exact run_fst h1 he i, s.length / 2, ?_, fun hi => ?_, fun hi => ?_⟩
    · rw [call_run (by rw [hg1]; exact hf), hg2]; exact run_pairCount h1 0
    · have hl : i * 2 < s.length := by omega
      rw [getElem?_eq_getElem hl]
      exact ⟨_, rfl, h2 (i * 2) _ (getElem?_eq_getElem hl) (.inl (by simp))⟩
    · rw [getElem?_eq_none (by omega)]
  · rename_i xs g ts hb
    simp only [Bool.and_eq_true, beq_iff_eq, Bool.or_eq_true] at h
    obtain ⟨⟨⟨hg, h⟩, hp⟩, hq⟩ := h
    obtain ⟨s, h1, h2⟩ := elem_ok hw h
    have he := pairs_even hw hp hq h1
    have hg1 : g.ty = f.ty := by rw [Fn.ty, hg]
    have hg2 : g.body = .pairCount xs := by rw [Fn.body, hg]
    refine ⟨_, by rw [hb]; exact run_snd h1 he i, s.length / 2, ?_, fun hi => ?_, fun hi => ?_⟩
    · rw [call_run (by rw [hg1]; exact hf), hg2]; exact run_pairCount h1 0
    · have hl : i * 2 + 1 < s.length := by omega
      rw [getElem?_eq_getElem hl]
      exact ⟨_, rfl, h2 (i * 2 + 1) _ (getElem?_eq_getElem hl) (.inl (by simp))⟩
    · rw [getElem?_eq_none (by omega)]
  · rename_i hb
    exact ⟨_, by rw [hb]; rfl, _, rfl⟩
  · rename_i hb
    have hc : n.ctor = .comparisonOperator := by simpa using h
    refine ⟨_, by rw [hb]; rfl, n.ops.length, ?_, fun hi => ?_, fun hi => ?_⟩
    · rw [call_run (by rw [show n.ref = ⟨n.id, n.ctor.ty⟩ from rfl, hc, isA_id _ 0]; decide +kernel)]; rfl
    · rw [getElem?_eq_getElem hi]; exact ⟨_, rfl⟩
    · rw [getElem?_eq_none hi]
  · rename_i xs hb
    simp only [Bool.and_eq_true, beq_iff_eq] at h
    obtain ⟨s, h1, h2⟩ := elem_ok hw h.2
    have hl : n.ops.length + 1 = s.length := by
      have ho : n.ctor.OpsFit n.ops n.seq := by cases hw; assumption
      rw [h.1] at ho
      change n.ops.length + 1 = n.seq.length at ho
      obtain ⟨s', e1, k, -, e2⟩ := array_ok (n := n) (xs := xs) (by
        have := h.2; unfold elemOk at this; rw [Bool.and_eq_true] at this; exact this.1)
      rw [h1] at e1
      cases e1
      rw [one_part (by rw [h.1]; rfl)] at e2
      cases k with
      | zero => simp at e2; rw [← e2]; exact ho
      | succ k => simp at e2
    refine ⟨_, by rw [hb]; exact run_upto h1 hl i, n.ops.length, ?_, fun hi => ?_, fun hi => ?_⟩
    · rw [call_run (by rw [show n.ref = ⟨n.id, n.ctor.ty⟩ from rfl, h.1, isA_id _ 0]; decide +kernel)]; rfl
    · have hl : i < s.length := by omega
      rw [getElem?_eq_getElem hl]
      exact ⟨_, rfl, h2 i _ (getElem?_eq_getElem hl) (.inr (by rw [h.1]; decide))⟩
    · rw [getElem?_eq_none (by omega)]
  · rename_i x hb
    obtain ⟨b, hx⟩ := Option.isSome_iff_exists.1 h
    exact ⟨.bool b, by rw [hb]; simp only [Body.run, hx], b, rfl⟩
  · rename_i hb
    have ho : n.ctor.OpsFit n.ops n.seq := by cases hw; assumption
    simp only [Bool.or_eq_true, beq_iff_eq] at h
    have hl : n.ops.length = 1 := by rcases h with h | h <;> rw [h] at ho <;> exact ho
    obtain ⟨o, ho⟩ := length_eq_one_iff.1 hl
    exact ⟨.op (some o), by rw [hb]; simp only [Body.run, ho], o, rfl⟩
  · rename_i hb
    split at h
    · rename_i d hd
      exact ⟨.dir d, by rw [hb]; simp only [Body.run, hd], d, rfl⟩
    · cases h
  · rename_i hb
    refine ⟨_, by rw [hb]; rfl, _, rfl, fun h0 => ?_⟩
    have : ∀ l : List UInt8, (0 : UInt8) ∉ l.takeWhile (· ≠ 0) := by
      intro l hl
      induction l with
      | nil => cases hl
      | cons x xs ih =>
        rw [takeWhile_cons] at hl
        split at hl
        · rename_i hx
          rcases mem_cons.1 hl with rfl | hl
          · simp at hx
          · exact ih hl
        · cases hl
    exact this _ h0
  · rename_i hb
    have ht : f.ty = .patternPath := by simpa using h
    rw [ht] at hf
    obtain ⟨s, h1, -⟩ := elements_ok hw hf
    exact ⟨_, by rw [hb]; exact run_vtCount h1 i, _, rfl⟩
  · rename_i hb
    have ht : f.ty = .patternPath := by simpa using h
    rw [ht] at hf
    obtain ⟨s, h1, h2, h3, h4⟩ := elements_ok hw hf
    refine ⟨_, by rw [hb]; exact run_vtNth h1 i, s.length, ?_, h2, fun hi => ?_, fun hi => ?_⟩
    · rw [call_run hf]; exact run_vtCount h1 0
    · rw [getElem?_eq_getElem hi]
      refine ⟨_, rfl, ⟨_, mem_singleton.2 rfl, ?_⟩, h4 _ (getElem_mem hi)⟩
      have := alternate_get h3 (getElem?_eq_getElem hi)
      by_cases hm : i % 2 = 1
      · rw [if_pos hm] at this; rw [if_neg (by omega)]; exact this
      · rw [if_neg hm] at this; rw [if_pos (by omega)]; exact this
    · rw [getElem?_eq_none hi]
  · cases h

/-- What is documented is right, except for those listed. -/
theorem corrected_eq {f : Fn} (h : f ∉ misdocumented) : corrected f = documented f := by
  cases f <;> first | rfl | exact absurd (by decide) h

/-- Well-typed nodes. -/
theorem accessors_typed {n : Node} (hw : WellTyped n) {f : Fn} (hf : isA n.ref f.ty = true) (i : Nat) :
    ∃ g, f.call n i = .ok g ∧ (corrected f).Meets n i g := by
  have := all_eq_true.1 (chk_all n.ctor) f f.mem_all
  rw [Bool.or_eq_true] at this
  rcases this with h | h
  · exfalso
    rw [isA_id 0 n.id] at h
    change isA ⟨n.id, n.ctor.ty⟩ f.ty = true at hf
    rw [hf] at h
    cases h
  · exact chk_sound hw hf h i

/-- C41. Whatever the input: a function called with a node of a tree that the parser yields, of the type that the
function requires, and with any index, does not fail, and returns what should be documented: a child of one of the
types said, null where it may be. -/
theorem accessors_corrected {S : Source σ} {src : σ} {w : List UInt8} (h : Delivers S src w)
    (cfg : Config) (only : Bool) {L : List PSeg} (hL : YieldsP S src cfg only L) :
    ∀ s ∈ L, ∀ x ∈ walkAll 0 s.roots, ∀ f : Fn, SubType x.2.ctor.ty f.ty →
      ∀ i : Nat, ∃ g, f.call x.2 i = .ok g ∧ (corrected f).Meets x.2 i g := by
  intro s hs x hx f hf i
  exact accessors_typed (walkAll_typed s.roots (cypher_well_typed h cfg only hL s hs) x hx)
    (sub_isA (r := x.2.ref) (by cases f <;> decide) hf) i

/-- C41 (partial). The same with what is documented. *Missing:* the functions in `misdocumented`, for which it is not so
(`accessors_misdocumented`). -/
theorem accessors_documented_partial {S : Source σ} {src : σ} {w : List UInt8} (h : Delivers S src w)
    (cfg : Config) (only : Bool) {L : List PSeg} (hL : YieldsP S src cfg only L) :
    ∀ s ∈ L, ∀ x ∈ walkAll 0 s.roots, ∀ f : Fn, f ∉ misdocumented → SubType x.2.ctor.ty f.ty →
      ∀ i : Nat, ∃ g, f.call x.2 i = .ok g ∧ (documented f).Meets x.2 i g := by
  intro s hs x hx f hm hf i
  rw [← corrected_eq hm]
  exact accessors_corrected h cfg only hL s hs x hx f hf i

/-- That a node is not as documented. -/
def strays (n : Node) (f : Fn) : Bool :=
  isA n.ref f.ty &&
  match documented f, f.call n 0 with
  | .one ts, .ok (.node (some r)) => ts.all fun t => t != .comment && !isA r t
  | .one _, .ok (.node none) => true
  | .opt ts, .ok (.node (some r)) => ts.all fun t => t != .comment && !isA r t
  | .nth g ts, .ok (.node (some r)) => (match g.call n 0 with | .ok (.num (_ + 1)) => true | _ => false) &&
      ts.all fun t => t != .comment && !isA r t
  | _, _ => false

theorem not_of {ts : List AstType} {r : Ref} (h : (ts.all fun t => t != .comment && !isA r t) = true) : ¬ Of ts r := by
  rintro ⟨t, ht, hr⟩
  have := all_eq_true.1 h t ht
  simp only [Bool.and_eq_true, bne_iff_ne, ne_eq, Bool.not_eq_true'] at this
  rw [sub_isA this.1 hr] at this
  cases this.2

theorem strays_spec {n : Node} {f : Fn} (h : strays n f = true) :
    SubType n.ctor.ty f.ty ∧ ∃ g, f.call n 0 = .ok g ∧ ¬ (documented f).Meets n 0 g := by
  unfold strays at h
  rw [Bool.and_eq_true] at h
  refine ⟨isA_sub (r := n.ref) h.1, ?_⟩
  replace h := h.2
  split at h
  · rename_i ts r hd hc
    refine ⟨_, hc, ?_⟩
    rw [hd]
    rintro ⟨r', e, hr, -⟩
    cases e
    exact not_of h hr
  · rename_i ts hd hc
    refine ⟨_, hc, ?_⟩
    rw [hd]
    rintro ⟨r', e, -⟩
    cases e
  · rename_i ts r hd hc
    refine ⟨_, hc, ?_⟩
    rw [hd]
    rintro (e | ⟨r', e, hr, -⟩)
    · cases e
    · cases e; exact not_of h hr
  · rename_i g ts r hd hc
    rw [Bool.and_eq_true] at h
    refine ⟨_, hc, ?_⟩
    rw [hd]
    rintro ⟨k, hk, h1, -⟩
    have h0 := h.1
    rw [hk] at h0
    cases k with
    | zero => cases h0
    | succ k =>
      obtain ⟨r', e, hr, -⟩ := h1 (Nat.succ_pos _)
      cases e
      exact not_of h.2 hr
  · cases h

/-- C41 is false as documented: for each of the functions listed, there is a node for which it returns something else. -/
theorem accessors_misdocumented : ∃ w : List UInt8, ∃ L, YieldsP streamSource w plainCfg false L ∧
    ∀ f ∈ misdocumented, ∃ s ∈ L, ∃ x ∈ walkAll 0 s.roots, SubType x.2.ctor.ty f.ty ∧
      ∃ g, f.call x.2 0 = .ok g ∧ ¬ (documented f).Meets x.2 0 g := by
  obtain ⟨L, h1, h2⟩ := yields_of_test (S := streamSource)
    (src := ascii ("START a=node(1) MATCH ()-[:T*1..2]->() USING INDEX b:L(p) USING SCAN b:L WHERE a REMOVE a.p " ++
      "WITH a ORDER BY a SKIP a LIMIT a MERGE (c) ON CREATE SET c.x=1 FOREACH (x IN a|CREATE ()) " ++
      "RETURN CASE WHEN 1 THEN 2 END SKIP a LIMIT a;")) (cfg := plainCfg) (only := false) (fuel := 2000)
    (fun L => misdocumented.all fun f => L.any fun s => (walkAll 0 s.roots).any fun x => strays x.2 f)
    (by decide +kernel)
  refine ⟨_, L, h1, fun f hf => ?_⟩
  have := all_eq_true.1 h2 f hf
  simp only [any_eq_true] at this
  obtain ⟨s, hs, x, hx, h⟩ := this
  exact ⟨s, hs, x, hx, strays_spec h⟩

end Verif.Cypher
