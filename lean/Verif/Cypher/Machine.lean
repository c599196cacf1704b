import Verif.Cypher.Grammar
import Verif.Data.Ast
import Verif.Peg.Position
/-!
# The deferred actions of the parser (`lib/src/parser.c`, constructors in `lib/src/ast_*.c`)

After a successful match the generated parser runs the recorded thunks in order. They work on a
stack of *blocks* (each with the nodes created inside it and a sequence accumulator), a string
buffer, an operator stack, and the semantic values of the grammar. Every assertion and every use of
something absent is a `Crash`.

Simplifications: allocation succeeds; a pointer to a node is the node's creation number and its
type (`Ref`), so identity of nodes is identity of numbers; `sequence_add(NULL)`, which C would only
notice later, is a crash at once; so is freeing a block that still owns nodes in
`block_start_action` (in C the nodes would be lost, leaving dangling pointers).
-/
namespace Verif.Cypher
open Verif.Peg

/-- A pointer to a node. -/
structure Ref where
  id : Nat
  ty : AstType
  deriving DecidableEq, Repr

/-- A node as constructed: creation number, constructor, operators, the nodes passed individually
(in the order of the builder's arguments), the nodes passed as an array, the text, the range, and
the children. -/
inductive Node where
  | mk (id : Nat) (ctor : Ctor) (ops : List Op) (args : List (Option Ref)) (seq : List Ref)
      (text : List UInt8) (range : Range) (children : List Node)

namespace Node
def id : Node → Nat | .mk i _ _ _ _ _ _ _ => i
def ctor : Node → Ctor | .mk _ c _ _ _ _ _ _ => c
def ops : Node → List Op | .mk _ _ o _ _ _ _ _ => o
def args : Node → List (Option Ref) | .mk _ _ _ a _ _ _ _ => a
def seq : Node → List Ref | .mk _ _ _ _ s _ _ _ => s
def text : Node → List UInt8 | .mk _ _ _ _ _ t _ _ => t
def range : Node → Range | .mk _ _ _ _ _ _ r _ => r
def children : Node → List Node | .mk _ _ _ _ _ _ _ c => c
end Node

/-- The type given to the node by each constructor (the `cypher_astnode_init` calls of
`lib/src/ast_*.c`). -/
def Ctor.ty : Ctor → AstType
  | .statement => .statement
  | .cypherOption => .cypherOption
  | .cypherOptionParam => .cypherOptionParam
  | .explainOption => .explainOption
  | .profileOption => .profileOption
  | .createIndex => .createNodePropsIndex
  | .dropIndex => .dropNodePropsIndex
  | .createNodePropConstraint _ => .createNodePropConstraint
  | .dropNodePropConstraint _ => .dropNodePropConstraint
  | .createRelPropConstraint _ => .createRelPropConstraint
  | .dropRelPropConstraint _ => .dropRelPropConstraint
  | .query => .query
  | .usingPeriodicCommit => .usingPeriodicCommit
  | .loadCsv _ => .loadCsv
  | .startClause => .start
  | .nodeIndexLookup => .nodeIndexLookup
  | .nodeIndexQuery => .nodeIndexQuery
  | .nodeIdLookup => .nodeIdLookup
  | .allNodesScan => .allNodesScan
  | .relIndexLookup => .relIndexLookup
  | .relIndexQuery => .relIndexQuery
  | .relIdLookup => .relIdLookup
  | .allRelsScan => .allRelsScan
  | .matchClause _ => .match_
  | .usingIndex => .usingIndex
  | .usingJoin => .usingJoin
  | .usingScan => .usingScan
  | .mergeClause => .merge
  | .onMatch => .onMatch
  | .onCreate => .onCreate
  | .createClause _ => .create
  | .setClause => .set_
  | .setProperty => .setProperty
  | .setAllProperties => .setAllProperties
  | .mergeProperties => .mergeProperties
  | .setLabels => .setLabels
  | .delete _ => .deleteClause
  | .removeClause => .remove
  | .removeProperty => .removeProperty
  | .removeLabels => .removeLabels
  | .foreachClause => .foreach
  | .withClause _ _ => .with_
  | .unwindClause => .unwind
  | .callClause => .call
  | .returnClause _ _ => .returnClause
  | .projection => .projection
  | .orderBy => .orderBy
  | .sortItem _ => .sortItem
  | .unionClause _ => .unionClause
  | .unaryOperator => .unaryOperator
  | .binaryOperator => .binaryOperator
  | .comparisonOperator => .comparison
  | .applyOperator _ => .applyOperator
  | .applyAllOperator _ => .applyAllOperator
  | .propertyOperator => .propertyOperator
  | .subscriptOperator => .subscriptOperator
  | .sliceOperator => .sliceOperator
  | .mapProjection => .mapProjection
  | .mapProjectionLiteral => .mapProjectionLiteral
  | .mapProjectionProperty => .mapProjectionProperty
  | .mapProjectionIdentifier => .mapProjectionIdentifier
  | .mapProjectionAllProperties => .mapProjectionAllProperties
  | .labelsOperator => .labelsOperator
  | .listComprehension => .listComprehension
  | .patternComprehension => .patternComprehension
  | .caseExpression => .caseExpression
  | .filter => .filter_
  | .extract => .extract
  | .reduce => .reduce
  | .allPredicate => .all_
  | .anyPredicate => .any_
  | .singlePredicate => .single
  | .nonePredicate => .none_
  | .collectionLiteral => .collection
  | .mapLiteral => .map_
  | .strbufIdentifier => .identifier
  | .blockIdentifier => .identifier
  | .strbufParameter => .parameter
  | .strbufInteger => .integer
  | .strbufFloat => .floatLiteral
  | .trueLiteral => .trueLiteral
  | .falseLiteral => .falseLiteral
  | .nullLiteral => .nullLiteral
  | .strbufLabel => .label
  | .strbufReltype => .reltype
  | .strbufPropName => .propName
  | .strbufFunctionName => .functionName
  | .strbufIndexName => .indexName
  | .strbufProcName => .procName
  | .pattern => .pattern
  | .namedPath => .namedPath
  | .shortestPath _ => .shortestPath
  | .patternPath => .patternPath
  | .nodePattern => .nodePattern
  | .relPattern _ => .relPattern
  | .range => .range
  | .command => .command
  | .blockString => .string
  | .strbufString => .string
  | .lineComment => .lineComment
  | .blockComment => .blockComment
  | .skip => .error

def Node.ty (n : Node) : AstType := n.ctor.ty
def Node.ref (n : Node) : Ref := ⟨n.id, n.ty⟩

/-- The result of running a check written with the `REQUIRE` macros: passes, returns NULL, or reads
outside an array. -/
inductive Chk where | pass | reject | bounds
  deriving DecidableEq, Repr

/-- `cypher_astnode_instanceof` as used in checks. -/
def isA (r : Ref) (t : AstType) : Bool :=
  match instanceof r.ty t with
  | .ok b => b
  | .error _ => false

/-- How a constructor checks one node argument. -/
inductive ArgReq where
  /-- `REQUIRE_CHILD(.., t)` -/
  | child (t : AstType)
  /-- `REQUIRE_CHILD_OPTIONAL(.., t)` -/
  | opt (t : AstType)
  /-- instance of one of two types, and `REQUIRE_CONTAINS` -/
  | either (t u : AstType)
  /-- NULL, or as `either` -/
  | optEither (t u : AstType)
  /-- no check -/
  | any
  deriving DecidableEq, Repr

/-- How a constructor checks the array of nodes. -/
inductive SeqReq where
  /-- no array -/
  | none
  /-- an unchecked array -/
  | any
  /-- `REQUIRE(n > 0)` if `min` is 1, and `REQUIRE_CHILD_ALL(.., t)` -/
  | all (t : AstType) (min : Nat)
  /-- `_query` (parser.c) and ast_query.c -/
  | query
  /-- `_call_clause` (parser.c) and ast_call.c -/
  | call
  /-- `_case_expression` (parser.c) and ast_case.c: only the first half is checked -/
  | cases
  /-- `_map_literal` (parser.c) and ast_map.c -/
  | pairs
  /-- ast_pattern_path.c -/
  | path
  /-- `_comparison_operator` (parser.c) and ast_comparison.c -/
  | comparison
  deriving DecidableEq, Repr

/-- `REQUIRE_CONTAINS` (astnode.h:80-87). -/
def contains (children : List Node) (r : Ref) : Bool := children.any fun n => n.id == r.id

def ArgReq.check (children : List Node) : ArgReq → Option Ref → Bool
  | .any, _ => true
  | .child t, some r => isA r t && contains children r
  | .child _, .none => false
  | .opt t, some r => isA r t && contains children r
  | .opt _, .none => true
  | .either t u, some r => (isA r t || isA r u) && contains children r
  | .either _ _, .none => false
  | .optEither t u, some r => (isA r t || isA r u) && contains children r
  | .optEither _ _, .none => true

/-- `REQUIRE_CHILD_ALL` (astnode.h:118-122): the types are checked, but the loop of
`REQUIRE_CONTAINS_ALL` (astnode.h:96-103) starts at its end, so of containment only the sizes are. -/
def childAll (children : List Node) (vals : List Ref) (t : AstType) : Bool :=
  vals.all (isA · t) && decide (vals.length ≤ children.length)

/-- `REQUIRE_CONTAINS(children, nchildren, elements[i], ..)` in ast_pattern_path.c:79: the macro's own
`i` hides the loop variable, so what is looked for is an index at which both arrays agree. -/
def agreeSomewhere : List Node → List Ref → Chk
  | [], _ => .reject
  | _ :: _, [] => .bounds
  | n :: ns, r :: rs => if n.id = r.id then .pass else agreeSomewhere ns rs

/-- Elements at even and odd positions. -/
def alternating (s t : AstType) : List Ref → Bool
  | [] => true
  | [a] => isA a s
  | a :: b :: rest => isA a s && isA b t && alternating s t rest

def ofBool (b : Bool) : Chk := if b then .pass else .reject

def SeqReq.check (children : List Node) (seq : List Ref) : SeqReq → Chk
  | .none => .pass
  | .any => .pass
  | .all t min => ofBool (decide (min ≤ seq.length) && childAll children seq t)
  | .query =>
    let options := seq.takeWhile (isA · .queryOption)
    let clauses := seq.dropWhile (isA · .queryOption)
    ofBool (childAll children options .queryOption && decide (0 < clauses.length) &&
      childAll children clauses .queryClause)
  | .call =>
    let args := seq.takeWhile (! isA · .projection)
    let projections := seq.dropWhile (! isA · .projection)
    ofBool (childAll children args .expression && childAll children projections .projection)
  | .cases => ofBool (childAll children (seq.take (seq.length / 2)) .expression)
  | .pairs => ofBool (decide (seq.length % 2 = 0) && alternating .propName .expression seq)
  | .path =>
    if seq.length % 2 = 1 then
      if ((seq.head?.map (isA · .nodePattern)).getD false) then
        match agreeSomewhere children seq with
        | .pass => ofBool (alternating .nodePattern .relPattern seq)
        | c => c
      else .reject
    else .reject
  | .comparison => ofBool (childAll children seq .expression)

/-- The checks of each constructor, in the order of the builder's node arguments; lines are those of
the constructor in its file `lib/src/ast_*.c`. -/
def Ctor.checks : Ctor → List ArgReq × SeqReq
  | .statement => ([.either .query .schemaCommand], .all .statementOption 0) -- ast_statement.c:48-52
  | .cypherOption => ([.opt .string], .all .cypherOptionParam 0) -- ast_cypher_option.c:55-58
  | .cypherOptionParam => ([.child .string, .child .string], .none) -- ast_cypher_option_param.c:48-49
  | .explainOption => ([], .none)
  | .profileOption => ([], .none)
  | .createIndex => ([.child .label], .all .propName 1) -- ast_create_node_props_index.c:54-57
  | .dropIndex => ([.child .label], .all .propName 1) -- ast_drop_node_props_index.c:54-57
  | .createNodePropConstraint _ =>
    ([.child .identifier, .child .label, .child .expression], .none) -- ast_create_node_prop_constraint.c:56-58
  | .dropNodePropConstraint _ =>
    ([.child .identifier, .child .label, .child .expression], .none) -- ast_drop_node_prop_constraint.c:56-58
  | .createRelPropConstraint _ =>
    ([.child .identifier, .child .reltype, .child .expression], .none) -- ast_create_rel_prop_constraint.c:56-58
  | .dropRelPropConstraint _ =>
    ([.child .identifier, .child .reltype, .child .expression], .none) -- ast_drop_rel_prop_constraint.c:56-58
  | .query => ([], .query) -- ast_query.c:51-55
  | .usingPeriodicCommit => ([.opt .integer], .none) -- ast_using_periodic_commit.c:52
  | .loadCsv _ => ([.child .expression, .child .identifier, .opt .string], .none) -- ast_load_csv.c:55-58
  | .startClause => ([.opt .expression], .all .startPoint 1) -- ast_start.c:54-58
  | .nodeIndexLookup =>
    ([.child .identifier, .child .indexName, .child .propName, .either .string .parameter], .none) -- ast_node_index_lookup.c:56-61
  | .nodeIndexQuery =>
    ([.child .identifier, .child .indexName, .either .string .parameter], .none) -- ast_node_index_query.c:54-58
  | .nodeIdLookup => ([.child .identifier], .all .integer 1) -- ast_node_id_lookup.c:54-57
  | .allNodesScan => ([.child .identifier], .none) -- ast_all_nodes_scan.c:51
  | .relIndexLookup =>
    ([.child .identifier, .child .indexName, .child .propName, .either .string .parameter], .none) -- ast_rel_index_lookup.c:56-61
  | .relIndexQuery =>
    ([.child .identifier, .child .indexName, .either .string .parameter], .none) -- ast_rel_index_query.c:54-58
  | .relIdLookup => ([.child .identifier], .all .integer 1) -- ast_rel_id_lookup.c:54-57
  | .allRelsScan => ([.child .identifier], .none) -- ast_all_rels_scan.c:51
  | .matchClause _ => ([.child .pattern, .opt .expression], .all .matchHint 0) -- ast_match.c:57-61
  | .usingIndex => ([.child .identifier, .child .label, .child .propName], .none) -- ast_using_index.c:55-57
  | .usingJoin => ([], .all .identifier 1) -- ast_using_join.c:54-56
  | .usingScan => ([.child .identifier, .child .label], .none) -- ast_using_scan.c:53-54
  | .mergeClause => ([.child .patternPath], .all .mergeAction 0) -- ast_merge.c:54-56
  | .onMatch => ([], .all .setItem 1) -- ast_on_match.c:52-54
  | .onCreate => ([], .all .setItem 1) -- ast_on_create.c:52-54
  | .createClause _ => ([.child .pattern], .none) -- ast_create.c:52
  | .setClause => ([], .all .setItem 1) -- ast_set.c:52-54
  | .setProperty => ([.child .propertyOperator, .child .expression], .none) -- ast_set_property.c:52-54
  | .setAllProperties => ([.child .identifier, .child .expression], .none) -- ast_set_all_properties.c:53-54
  | .mergeProperties => ([.child .identifier, .child .expression], .none) -- ast_merge_properties.c:53-54
  | .setLabels => ([.child .identifier], .all .label 1) -- ast_set_labels.c:54-57
  | .delete _ => ([], .all .expression 1) -- ast_delete.c:54-56
  | .removeClause => ([], .all .removeItem 1) -- ast_remove.c:52-54
  | .removeProperty => ([.child .propertyOperator], .none) -- ast_remove_property.c:51
  | .removeLabels => ([.child .identifier], .all .label 1) -- ast_remove_labels.c:54-57
  | .foreachClause => ([.child .identifier, .child .expression], .all .queryClause 1) -- ast_foreach.c:55-59
  | .withClause _ e =>
    ([.opt .orderBy, .opt .expression, .opt .expression, .any], .all .projection (bif e then 0 else 1)) -- ast_with.c:61-69
  | .unwindClause => ([.child .expression, .child .identifier], .none) -- ast_unwind.c:53-54
  | .callClause => ([.child .procName, .opt .expression], .call) -- ast_call.c:59-65
  | .returnClause _ e =>
    ([.opt .orderBy, .opt .expression, .opt .expression], .all .projection (bif e then 0 else 1)) -- ast_return.c:59-67
  | .projection => ([.child .expression, .opt .identifier], .none) -- ast_projection.c:47-48
  | .orderBy => ([], .all .sortItem 1) -- ast_order_by.c:47-49
  | .sortItem _ => ([.child .expression], .none) -- ast_sort_item.c:47
  | .unionClause _ => ([], .none)
  | .unaryOperator => ([.child .expression], .none) -- ast_unary_operator.c:54
  | .binaryOperator => ([.child .expression, .child .expression], .none) -- ast_binary_operator.c:56-57
  | .comparisonOperator => ([], .comparison) -- ast_comparison.c:56-59
  | .applyOperator _ => ([.child .functionName], .all .expression 0) -- ast_apply_operator.c:56-59
  | .applyAllOperator _ => ([.child .functionName], .none) -- ast_apply_all_operator.c:54
  | .propertyOperator => ([.child .expression, .child .propName], .none) -- ast_property_operator.c:54-55
  | .subscriptOperator => ([.child .expression, .child .expression], .none) -- ast_subscript_operator.c:54-55
  | .sliceOperator => ([.child .expression, .opt .expression, .opt .expression], .none) -- ast_slice_operator.c:55-59
  | .mapProjection => ([.child .expression], .any) -- ast_map_projection.c:56
  | .mapProjectionLiteral => ([.child .propName, .child .expression], .none) -- ast_map_projection_literal.c:53-54
  | .mapProjectionProperty => ([.child .propName], .none) -- ast_map_projection_property.c:52
  | .mapProjectionIdentifier => ([.child .identifier], .none) -- ast_map_projection_identifier.c:52
  | .mapProjectionAllProperties => ([], .none)
  | .labelsOperator => ([.child .expression], .all .label 1) -- ast_labels_operator.c:55-58
  | .listComprehension =>
    ([.child .identifier, .child .expression, .opt .expression, .opt .expression], .none) -- ast_list_comprehension.c:88-93
  | .patternComprehension =>
    ([.opt .identifier, .child .patternPath, .opt .expression, .child .expression], .none) -- ast_pattern_comprehension.c:56-61
  | .caseExpression => ([.opt .expression, .opt .expression], .cases) -- ast_case.c:56-61
  | .filter => ([.child .identifier, .child .expression, .opt .expression], .none) -- ast_filter.c:69-72
  | .extract => ([.child .identifier, .child .expression, .opt .expression], .none) -- ast_extract.c:69-72
  | .reduce =>
    ([.child .identifier, .child .expression, .child .identifier, .child .expression, .opt .expression], .none) -- ast_reduce.c:58-63
  | .allPredicate => ([.child .identifier, .child .expression, .opt .expression], .none) -- ast_all.c:69-72
  | .anyPredicate => ([.child .identifier, .child .expression, .opt .expression], .none) -- ast_any.c:69-72
  | .singlePredicate => ([.child .identifier, .child .expression, .opt .expression], .none) -- ast_single.c:69-72
  | .nonePredicate => ([.child .identifier, .child .expression, .opt .expression], .none) -- ast_none.c:69-72
  | .collectionLiteral => ([], .all .expression 0) -- ast_collection.c:53-54
  | .mapLiteral => ([], .pairs) -- ast_map.c:98-115
  | .strbufIdentifier => ([], .none)
  | .blockIdentifier => ([], .none)
  | .strbufParameter => ([], .none)
  | .strbufInteger => ([], .none)
  | .strbufFloat => ([], .none)
  | .trueLiteral => ([], .none)
  | .falseLiteral => ([], .none)
  | .nullLiteral => ([], .none)
  | .strbufLabel => ([], .none)
  | .strbufReltype => ([], .none)
  | .strbufPropName => ([], .none)
  | .strbufFunctionName => ([], .none)
  | .strbufIndexName => ([], .none)
  | .strbufProcName => ([], .none)
  | .pattern => ([], .all .patternPath 1) -- ast_pattern.c:47-49
  | .namedPath => ([.child .identifier, .child .patternPath], .none) -- ast_named_path.c:59-60
  | .shortestPath _ => ([.child .patternPath], .none) -- ast_shortest_path.c:59
  | .patternPath => ([], .path) -- ast_pattern_path.c:75-82
  | .nodePattern => ([.opt .identifier, .optEither .map_ .parameter], .all .label 0) -- ast_node_pattern.c:50-56
  | .relPattern _ =>
    ([.opt .identifier, .opt .range, .optEither .map_ .parameter], .all .reltype 0) -- ast_rel_pattern.c:53-62
  | .range => ([.opt .integer, .opt .integer], .none) -- ast_range.c:48-49
  | .command => ([.child .string], .all .string 0) -- ast_command.c:49-51
  | .blockString => ([], .none)
  | .strbufString => ([], .none)
  | .lineComment => ([], .none)
  | .blockComment => ([], .none)
  | .skip => ([], .none)

/-- What a builder uses as the node's text, if it is a terminal (`add_terminal`, parser.c:3081-3091). -/
inductive Terminal where
  /-- no text -/
  | plain
  /-- the string buffer -/
  | strbuf
  /-- the text of the block -/
  | block
  /-- the text of the block without surrounding white space (parser.c:2706-2718) -/
  | trimmed
  deriving DecidableEq, Repr

/-- Which builders go through `add_terminal`. -/
def Ctor.terminal : Ctor → Option Terminal
  | .explainOption | .profileOption | .trueLiteral | .falseLiteral | .nullLiteral => some .plain
  | .strbufIdentifier | .strbufParameter | .strbufInteger | .strbufFloat | .strbufLabel
  | .strbufReltype | .strbufPropName | .strbufFunctionName | .strbufIndexName | .strbufProcName
  | .strbufString => some .strbuf
  | .blockString | .lineComment | .blockComment | .skip => some .block
  | .blockIdentifier => some .trimmed
  | _ => none

/-- `struct block` (parser.c:36-44). -/
structure Block where
  start : Nat
  stop : Nat
  rstart : Pos
  rstop : Pos
  seq : List Ref
  children : List Node

/-- Why the run of the actions stopped. -/
inductive Crash where
  /-- an assertion of `input_position` -/
  | position (f : Fault)
  /-- no open block, besides the one of `parse_each` -/
  | noBlock
  /-- `block_end`: `buffer_start <= buffer_end`, `range.start.offset <= range.end.offset` -/
  | blockOrder
  /-- the previous block, about to be freed by `>`, still owns nodes (asserted in C) -/
  | prevNotEmpty
  /-- the previous block, about to be freed by `<`, still owns nodes -/
  | dropped
  /-- no block was closed just before -/
  | noPrev
  /-- `add_terminal`: the closed block owns nodes -/
  | terminalChildren
  /-- the constructor returned NULL: `abort_parse` -/
  | rejected
  /-- a constructor read outside an array -/
  | bounds
  /-- `sequence_add(NULL)` -/
  | nullSeq
  /-- a variable was read before it was set -/
  | unset
  /-- a variable outside the frame -/
  | noFrame
  /-- the assertions of `_comparison_operator` -/
  | operators
  /-- text outside the buffer -/
  | text
  /-- `line_context` failed -/
  | context
  deriving DecidableEq, Repr

/-- The part of `yycontext` that actions use: the open blocks (innermost first), the closed block,
the string buffer, the operators (last first), `yy->__` (`$$`), the frames of variables (`none` is
not set), result, eof, consumed, the recorded errors, and the number of the next node. -/
structure Mach where
  blocks : List Block
  prev : Option Block
  strbuf : List UInt8
  ops : List Op
  self : Option Ref
  frames : List (List (Option (Option Ref)))
  result : Option Ref
  eof : Bool
  consumed : Nat
  errs : List PErr
  next : Nat

/-- What does not change while actions run: `position_offset`, `line_start_offsets`, the buffer and
`__pos`. -/
structure Env where
  off : Pos
  lines : List Nat
  buf : List UInt8
  pos : Nat

abbrev Act.Thunk := Peg.Thunk Act

namespace Mach

def position (env : Env) (p : Nat) : Except Crash Pos :=
  match inputPosition env.off env.lines p with
  | .ok x => .ok x
  | .error f => .error (.position f)

/-- `block_start_action` (parser.c:890-900), `block_start` (903-923). -/
def blockStart (env : Env) (p : Nat) (m : Mach) : Except Crash Mach := do
  let pos ← position env p
  match m.prev with
  | some b => if b.children ≠ [] then throw .dropped
  | none => pure ()
  .ok { m with blocks := ⟨p, p, pos, pos, [], []⟩ :: m.blocks, prev := none }

/-- `block_end` (parser.c:984-995), followed by the assertion on the previous block
(933, 946, 963). Closing the block opened by `parse_each`, which C notices at the end of `parse_one`
(parser.c:742-745), is a crash at once. -/
def blockPop (env : Env) (p : Nat) (m : Mach) : Except Crash (Block × List Block) := do
  let pos ← position env p
  match m.blocks with
  | [] | [_] => throw .noBlock
  | b :: bs =>
    if ¬ (b.start ≤ p ∧ b.rstart.offset ≤ pos.offset) then throw .blockOrder
    match m.prev with
    | some q => if q.children ≠ [] then throw .prevNotEmpty
    | none => pure ()
    .ok ({ b with stop := p, rstop := pos }, bs)

/-- `block_end_action` (parser.c:927-936). -/
def blockEnd (env : Env) (p : Nat) (m : Mach) : Except Crash Mach := do
  let (b, bs) ← blockPop env p m
  .ok { m with blocks := bs, prev := some b }

/-- `block_replace_action` (parser.c:940-953). -/
def blockReplace (env : Env) (p : Nat) (m : Mach) : Except Crash Mach := do
  let (b, bs) ← blockPop env p m
  .ok { m with blocks := ⟨p, p, b.rstart, b.rstart, [], []⟩ :: bs, prev := some b }

/-- `block_merge_action` (parser.c:957-981). -/
def blockMerge (env : Env) (p : Nat) (m : Mach) : Except Crash Mach := do
  let (b, bs) ← blockPop env p m
  if b.children = [] then .ok { m with blocks := bs, prev := some b }
  else match bs with
    | [] => throw .noBlock
    | q :: qs => .ok { m with
        blocks := { q with children := q.children ++ b.children } :: qs
        prev := some { b with children := [] } }

/-- Reading variable `i` of the current rule (`yy->__val[..]`). -/
def getVar (m : Mach) (i : Nat) : Except Crash (Option Ref) :=
  match m.frames with
  | [] => .error .noFrame
  | fr :: _ => match fr[i]? with
    | none => .error .noFrame
    | some none => .error .unset
    | some (some v) => .ok v

/-- Assigning variable `i`. -/
def setVar (m : Mach) (i : Nat) (v : Option Ref) : Except Crash Mach :=
  match m.frames with
  | [] => .error .noFrame
  | fr :: frs =>
    if i < fr.length then .ok { m with frames := fr.set i (some v) :: frs } else .error .noFrame

/-- Assigning where an action says. -/
def assign (m : Mach) (d : Dst) (v : Option Ref) : Except Crash Mach :=
  match d with
  | .self => .ok { m with self := v }
  | .var i => m.setVar i v
  | .discard => .ok m

/-- The arguments of a builder. -/
def getArgs (m : Mach) : List (Option Nat) → Except Crash (List (Option Ref))
  | [] => .ok []
  | none :: as => do .ok (none :: (← getArgs m as))
  | some i :: as => do
    let v ← m.getVar i
    .ok (v :: (← getArgs m as))

/-- `add_child` (parser.c:3094-3110). -/
def addChild (m : Mach) (n : Node) : Except Crash Mach :=
  match m.blocks with
  | [] => .error .noBlock
  | b :: bs => .ok { m with blocks := { b with children := b.children ++ [n] } :: bs
                            next := m.next + 1 }

/-- The bytes of the closed block: `__buf + buffer_start`, `buffer_end - buffer_start` bytes. -/
def blockText (env : Env) (b : Block) : Except Crash (List UInt8) :=
  if b.start ≤ b.stop ∧ b.stop ≤ env.buf.length then .ok (env.buf.extract b.start b.stop)
  else .error .text

/-- `isspace` in the C locale. -/
def isSpace (c : UInt8) : Bool := decide (9 ≤ c ∧ c ≤ 13) || c == 32

/-- The two loops of `_block_identifier` (parser.c:2713-2716). -/
def trim (t : List UInt8) : List UInt8 :=
  ((t.dropWhile isSpace).reverse.dropWhile isSpace).reverse

/-- The text of a terminal. -/
def terminalText (env : Env) (k : Terminal) (m : Mach) (b : Block) : Except Crash (List UInt8) :=
  match k with
  | .plain => .ok []
  | .strbuf => .ok m.strbuf
  | .block => blockText env b
  | .trimmed => match blockText env b with
    | .ok t => .ok (trim t)
    | .error c => .error c

/-- A builder that ends in `add_terminal` (parser.c:3081-3091). -/
def terminal (env : Env) (c : Ctor) (k : Terminal) (m : Mach) : Except Crash (Mach × Ref) := do
  match m.prev with
  | none => throw .noPrev
  | some b =>
    let text ← terminalText env k m b
    if b.children ≠ [] then throw .terminalChildren
    let m' ← addChild { m with prev := none } (.mk m.next c [] [] [] text ⟨b.rstart, b.rstop⟩ [])
    .ok (m', ⟨m.next, c.ty⟩)

/-- The operators a builder takes off the stack: `op_pop()` in the grammar for unary and binary
operators (NULL when the stack is empty, which the constructor rejects), and as many as there are
arguments less one in `_comparison_operator` (parser.c:2184-2213), in the order pushed. -/
def takeOps (c : Ctor) (b : Block) (ops : List Op) : Except Crash (List Op × List Op) :=
  match c with
  | .unaryOperator | .binaryOperator =>
    match ops with
    | [] => .error .rejected
    | o :: os => .ok ([o], os)
  | .comparisonOperator =>
    if b.seq.length > 1 ∧ b.seq.length - 1 ≤ ops.length then
      .ok ((ops.take (b.seq.length - 1)).reverse, ops.drop (b.seq.length - 1))
    else .error .operators
  | _ => .ok ([], ops)

/-- The other builders (parser.c:1102-3078): check, construct, clear the closed block, and add the
node to the enclosing one. `_command` asserts the type of its argument before anything else; the
constructor checks it again. -/
def branch (c : Ctor) (args : List (Option Ref)) (m : Mach) : Except Crash (Mach × Ref) :=
  match m.prev with
  | none => .error .noPrev
  | some b => do
    let (os, rest) ← takeOps c b m.ops
    let (areqs, sreq) := c.checks
    if ¬ (areqs.length = args.length ∧ (areqs.zip args).all (fun (q, a) => q.check b.children a)) then
      throw .rejected
    match sreq.check b.children b.seq with
    | .bounds => throw .bounds
    | .reject => throw .rejected
    | .pass =>
      let m' ← addChild { m with prev := none, ops := rest }
        (.mk m.next c os args (if sreq = .none then [] else b.seq) [] ⟨b.rstart, b.rstop⟩ b.children)
      .ok (m', ⟨m.next, c.ty⟩)

/-- A builder. -/
def build (env : Env) (c : Ctor) (args : List (Option Ref)) (m : Mach) : Except Crash (Mach × Ref) :=
  match c.terminal with
  | some k => terminal env c k m
  | none => branch c args m

/-- `_sequence_add` (parser.c:1058-1069). -/
def seqAdd (m : Mach) (v : Option Ref) : Except Crash Mach :=
  match m.blocks with
  | [] => .error .noBlock
  | b :: bs =>
    match v with
    | none => .error .nullSeq
    | some r => .ok { m with blocks := { b with seq := b.seq ++ [r] } :: bs }

/-- `sequence_add(v); ..` -/
def seqAdds (m : Mach) : List Nat → Except Crash Mach
  | [] => .ok m
  | i :: is => do
    let v ← m.getVar i
    let m ← m.seqAdd v
    seqAdds m is

/-- The loop of `finished` (parser.c:820-836) over the errors, last first: those without a context
get one, up to the first that has one. The offset is relative to the buffer; were it negative,
`line_context` would be given a huge number and fail. -/
def contexts (env : Env) : List PErr → Except Crash (List PErr)
  | [] => .ok []
  | e :: es =>
    if e.context.isSome then .ok (e :: es)
    else if e.position.offset < env.off.offset then .error .context
    else match lineContext env.buf (e.position.offset - env.off.offset) 80 with
      | .ok (some c) => do .ok ({ e with context := some c } :: (← contexts env es))
      | _ => .error .context

/-- One action. -/
def act (env : Env) (a : Act) (p : Nat) (m : Mach) : Except Crash Mach :=
  match a with
  | .blockStart => blockStart env p m
  | .blockEnd => blockEnd env p m
  | .blockReplace => blockReplace env p m
  | .blockMerge => blockMerge env p m
  | .eof => .ok { m with eof := true }
  | .result none => .ok { m with result := none }
  | .result (some i) => do
    let v ← m.getVar i
    .ok { m with result := v }
  | .finished => do
    let es ← contexts env m.errs.reverse
    .ok { m with consumed := env.pos, errs := es.reverse }
  | .seqAdd vs => m.seqAdds vs
  | .copy i => do
    let v ← m.getVar i
    .ok { m with self := v }
  | .null => .ok { m with self := none }
  | .build d c args => do
    let vs ← m.getArgs args
    let (m, r) ← build env c vs m
    m.assign d (some r)
  | .aliasUnless e i => do
    match ← m.getVar e with
    | some r =>
      if isA r .identifier then .ok m
      else
        let (m, r) ← build env .blockIdentifier [] m
        m.setVar i (some r)
    | none =>
      let (m, r) ← build env .blockIdentifier [] m
      m.setVar i (some r)
  | .sbReset => .ok { m with strbuf := [] }
  | .sbAppend c => .ok { m with strbuf := m.strbuf ++ [c] }
  | .sbAppendBlock =>
    match m.prev with
    | none => .error .noPrev
    | some b => do
      let t ← blockText env b
      .ok { m with strbuf := m.strbuf ++ t }
  | .opPush o => .ok { m with ops := o :: m.ops }

/-- One thunk (`yyPush`, `yyPop`, `yySet` of the generated code, or an action). -/
def step (env : Env) (t : Peg.Thunk Act) (m : Mach) : Except Crash Mach :=
  match t with
  | .push n => .ok { m with frames := List.replicate n none :: m.frames }
  | .pop _ => match m.frames with
    | [] => .error .noFrame
    | _ :: frs => .ok { m with frames := frs }
  | .set i => m.setVar i m.self
  | .act a p => act env a p m

/-- `yyDone`: the thunks in order (the list is latest first). -/
def exec (env : Env) : List (Peg.Thunk Act) → Mach → Except Crash Mach
  | [], m => .ok m
  | t :: ts, m => do
    let m ← exec env ts m
    step env t m

end Mach
end Verif.Cypher
