import Verif.Cypher.Machine
/-!
# Copying trees (`cypher_ast_clone`, lib/src/ast.c:538-571)

The clone functions of `lib/src/ast_*.c` find the copy of each field with `child_index`
(astnode.h:125-133), whose loop does not advance: it ends only if the field is the first child. What
they do is modelled for any way of finding a child, so that one can say what is due to `child_index`
and what to the clone functions themselves.

Simplifications: allocation succeeds, also of no bytes (`calloc(0, ..)` returning NULL would make the
clone fail); annotations and ordinals are not copied by the code and not modelled. A loop without end
or effect, which C11 (6.8.5) lets compilers assume to end, is `stuck`.
-/
namespace Verif.Cypher

/-- Why there is no copy. -/
inductive CopyStop where
  /-- the loop of `child_index` does not end -/
  | stuck
  /-- the assertion of `child_index` -/
  | assertion
  /-- a constructor reads outside an array -/
  | bounds
  /-- NULL is returned, with `errno` set to EINVAL -/
  | null
  deriving DecidableEq, Repr

/-- A way of finding the position of a child; the argument may be NULL. -/
abbrev Find := List Node → Option Ref → Except CopyStop Nat

/-- `child_index` (astnode.h:125-133): `i` stays 0. -/
def childIndex : Find
  | [], _ => .error .assertion
  | c :: _, r => if some c.ref = r then .ok 0 else .error .stuck

/-- How a field is copied. -/
inductive Keep where
  /-- `children[child_index(self, node->x)]` -/
  | plain
  /-- `(node->x == NULL) ? NULL : children[child_index(self, node->x)]` -/
  | opt
  /-- `(node->x != NULL) ? NULL : children[child_index(self, node->x)]` -/
  | inverted
  deriving DecidableEq, Repr

/-- The fields copied by the `clone` function of each node, in the order of the arguments of the builder
(parser.c). -/
def Ctor.keeps : Ctor → List Keep
  | .statement => [.plain] -- ast_statement.c:93-95
  | .cypherOption => [.opt] -- ast_cypher_option.c:93-103
  | .cypherOptionParam => [.plain, .plain] -- ast_cypher_option_param.c:76-77
  | .createIndex => [.plain] -- ast_create_node_props_index.c:91-100
  | .dropIndex => [.plain] -- ast_drop_node_props_index.c:91-100
  | .createNodePropConstraint _ => [.plain, .plain, .plain] -- ast_create_node_prop_constraint.c:85-87
  | .dropNodePropConstraint _ => [.plain, .plain, .plain] -- ast_drop_node_prop_constraint.c:85-87
  | .createRelPropConstraint _ => [.plain, .plain, .plain] -- ast_create_rel_prop_constraint.c:85-87
  | .dropRelPropConstraint _ => [.plain, .plain, .plain] -- ast_drop_rel_prop_constraint.c:85-87
  | .usingPeriodicCommit => [.opt] -- ast_using_periodic_commit.c:78-79
  | .loadCsv _ => [.plain, .plain, .opt] -- ast_load_csv.c:85-88
  | .startClause => [.inverted] -- ast_start.c:99-102
  | .nodeIndexLookup => [.plain, .plain, .plain, .plain] -- ast_node_index_lookup.c:89-92
  | .nodeIndexQuery => [.plain, .plain, .plain] -- ast_node_index_query.c:85-87
  | .nodeIdLookup => [.plain] -- ast_node_id_lookup.c:90-98
  | .allNodesScan => [.plain] -- ast_all_nodes_scan.c:76-76
  | .relIndexLookup => [.plain, .plain, .plain, .plain] -- ast_rel_index_lookup.c:89-92
  | .relIndexQuery => [.plain, .plain, .plain] -- ast_rel_index_query.c:85-87
  | .relIdLookup => [.plain] -- ast_rel_id_lookup.c:90-98
  | .allRelsScan => [.plain] -- ast_all_rels_scan.c:76-76
  | .matchClause _ => [.plain, .opt] -- ast_match.c:96-108
  | .usingIndex => [.plain, .plain, .plain] -- ast_using_index.c:84-86
  | .usingScan => [.plain, .plain] -- ast_using_scan.c:80-81
  | .mergeClause => [.plain] -- ast_merge.c:89-98
  | .createClause _ => [.plain] -- ast_create.c:77-77
  | .setProperty => [.plain, .plain] -- ast_set_property.c:80-81
  | .setAllProperties => [.plain, .plain] -- ast_set_all_properties.c:81-82
  | .mergeProperties => [.plain, .plain] -- ast_merge_properties.c:80-81
  | .setLabels => [.plain] -- ast_set_labels.c:90-99
  | .removeProperty => [.plain] -- ast_remove_property.c:77-77
  | .removeLabels => [.plain] -- ast_remove_labels.c:91-100
  | .foreachClause => [.plain, .plain] -- ast_foreach.c:94-104
  | .withClause _ _ => [.opt, .inverted, .inverted, .opt] -- ast_with.c:116-125
  | .unwindClause => [.plain, .plain] -- ast_unwind.c:79-80
  | .callClause => [.plain, .opt] -- ast_call.c:117-139
  | .returnClause _ _ => [.opt, .inverted, .inverted] -- ast_return.c:114-121
  | .projection => [.plain, .opt] -- ast_projection.c:74-76
  | .sortItem _ => [.plain] -- ast_sort_item.c:72-72
  | .unaryOperator => [.plain] -- ast_unary_operator.c:80-80
  | .binaryOperator => [.plain, .plain] -- ast_binary_operator.c:84-85
  | .applyOperator _ => [.plain] -- ast_apply_operator.c:95-103
  | .applyAllOperator _ => [.plain] -- ast_apply_all_operator.c:88-88
  | .propertyOperator => [.plain, .plain] -- ast_property_operator.c:82-83
  | .subscriptOperator => [.plain, .plain] -- ast_subscript_operator.c:82-83
  | .sliceOperator => [.plain, .opt, .opt] -- ast_slice_operator.c:86-90
  | .mapProjection => [.plain] -- ast_map_projection.c:84-93
  | .mapProjectionLiteral => [.plain, .plain] -- ast_map_projection_literal.c:81-82
  | .mapProjectionProperty => [.plain] -- ast_map_projection_property.c:78-78
  | .mapProjectionIdentifier => [.plain] -- ast_map_projection_identifier.c:78-78
  | .labelsOperator => [.plain] -- ast_labels_operator.c:92-101
  | .listComprehension => [.plain, .plain, .opt, .opt] -- ast_list_comprehension.c:131-136
  | .patternComprehension => [.opt, .plain, .inverted, .plain] -- ast_pattern_comprehension.c:92-97
  | .caseExpression => [.opt, .opt] -- ast_case.c:97-110
  | .filter => [.plain, .plain, .opt] -- ast_filter.c:101-104
  | .extract => [.plain, .plain, .opt] -- ast_extract.c:101-104
  | .reduce => [.plain, .plain, .plain, .plain, .opt] -- ast_reduce.c:90-95
  | .allPredicate => [.plain, .plain, .opt] -- ast_all.c:101-104
  | .anyPredicate => [.plain, .plain, .opt] -- ast_any.c:101-104
  | .singlePredicate => [.plain, .plain, .opt] -- ast_single.c:101-104
  | .nonePredicate => [.plain, .plain, .inverted] -- ast_none.c:100-103
  | .namedPath => [.plain, .plain] -- ast_named_path.c:88-89
  | .shortestPath _ => [.plain] -- ast_shortest_path.c:87-87
  | .nodePattern => [.opt, .opt] -- ast_node_pattern.c:91-104
  | .relPattern _ => [.opt, .opt, .opt] -- ast_rel_pattern.c:98-113
  | .range => [.opt, .opt] -- ast_range.c:74-77
  | .command => [.plain] -- ast_command.c:84-92
  | _ => []

/-- The constructor that the `clone` function calls: its own, but for ast_drop_rel_prop_constraint.c:89. -/
def Ctor.cloned : Ctor → Ctor
  | .dropRelPropConstraint b => .dropNodePropConstraint b
  | c => c

/-- The arrays of `struct map` (ast_map.c:124-136) and `struct case_expression` (ast_case.c:99-113) hold
pairs, and the `clone` functions copy as many pointers as there are pairs. -/
def Ctor.halved : Ctor → Bool
  | .mapLiteral | .caseExpression => true
  | _ => false

section
variable (find : Find)

/-- `children[child_index(self, x)]` -/
def fieldOf (old new : List Node) (x : Option Ref) : Except CopyStop (Option Ref) := do
  let i ← find old x
  match new[i]? with
  | some n => .ok (some n.ref)
  | none => .error .bounds

def Keep.copy (old new : List Node) : Keep → Option Ref → Except CopyStop (Option Ref)
  | .plain, x => fieldOf find old new x
  | .opt, none => .ok none
  | .opt, some r => fieldOf find old new (some r)
  | .inverted, some _ => .ok none
  | .inverted, none => fieldOf find old new none

def copyArgs (old new : List Node) : List Keep → List (Option Ref) → Except CopyStop (List (Option Ref))
  | k :: ks, x :: xs => do
    let y ← k.copy find old new x
    let ys ← copyArgs old new ks xs
    .ok (y :: ys)
  | _, _ => .ok []

def copySeq (old new : List Node) : List Ref → Except CopyStop (List Ref)
  | [] => .ok []
  | r :: rs => do
    let y ← fieldOf find old new (some r)
    let ys ← copySeq old new rs
    match y with
    | some y => .ok (y :: ys)
    | none => .error .null

/-- What a constructor makes of its arguments (the checks are those of `Ctor.checks`). -/
def construct (id : Nat) (c : Ctor) (ops : List Op) (args : List (Option Ref)) (seq : List Ref)
    (range : Range) (children : List Node) : Except CopyStop Node :=
  if c.checks.1.length = args.length ∧ (c.checks.1.zip args).all (fun (q, a) => q.check children a) then
    match c.checks.2.check children seq with
    | .bounds => .error .bounds
    | .reject => .error .null
    | .pass => .ok (.mk id c ops args seq [] range children)
  else .error .null

/-- The `clone` function of a node, given the copies of its children. Nodes with a text copy it up to the
first NUL (`strlen(node->p)`); nodes without children are made anew. The halved arrays are read by the
constructors to twice their length (ast_map.c:102-114, ast_case.c:75-76). -/
def rebuild (id : Nat) (n : Node) (new : List Node) : Except CopyStop Node :=
  if n.ctor.terminal.isSome then
    .ok (.mk id n.ctor n.ops n.args n.seq (n.text.takeWhile (· ≠ 0)) n.range [])
  else do
    let args ← copyArgs find n.children new n.ctor.keeps n.args
    if n.ctor.halved then
      let half ← copySeq find n.children new (n.seq.take (n.seq.length / 2))
      if half ≠ [] then .error .bounds
      else construct id n.ctor.cloned n.ops args [] n.range new
    else
      let seq ← copySeq find n.children new n.seq
      construct id n.ctor.cloned n.ops args seq n.range new

mutual
/-- `cypher_ast_clone` (ast.c:538-571), with the number of the next node. -/
def cloneWith : Node → Nat → Except CopyStop (Node × Nat)
  | .mk id c ops args seq text range children, next =>
    match cloneAll children next with
    | .error e => .error e
    | .ok (new, next) =>
      match rebuild find next (.mk id c ops args seq text range children) new with
      | .error e => .error e
      | .ok n => .ok (n, next + 1)
/-- `cypher_ast_vclone` (ast.c:459-489). -/
def cloneAll : List Node → Nat → Except CopyStop (List Node × Nat)
  | [], next => .ok ([], next)
  | x :: xs, next =>
    match cloneWith x next with
    | .error e => .error e
    | .ok (y, next) =>
      match cloneAll xs next with
      | .error e => .error e
      | .ok (ys, next) => .ok (y :: ys, next)
end

end

/-- `cypher_ast_clone`. -/
def clone (n : Node) : Except CopyStop Node :=
  match cloneWith childIndex n 0 with
  | .error e => .error e
  | .ok (n', _) => .ok n'

end Verif.Cypher
