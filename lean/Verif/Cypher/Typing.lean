import Verif.Cypher.Machine
import Verif.Props.Ast
/-!
# What each kind of node requires

The signatures of the AST constructors as documented in `lib/src/cypher-parser.h.in` (the lines of
the declarations are given), written independently of the checks the constructors make: those are
weaker in places (`ast_with.c` does not check the predicate, `ast_case.c` checks half of the
alternatives, `ast_map_projection.c` does not check the selectors, and no array is checked to consist
of children).

Where the documentation disagrees with the grammar the grammar's type is used: `SKIP` and `LIMIT`
take any expression (documented as integers), a pattern comprehension has a pattern path (documented
as a pattern), a relationship constraint has a relationship type (documented as a label).
-/
namespace Verif.Cypher

/-- What one node argument has to be. -/
inductive Want where
  | node (t : AstType)
  | maybe (t : AstType)
  | oneOf (t u : AstType)
  | maybeOneOf (t u : AstType)
  deriving DecidableEq, Repr

/-- What an array of nodes has to be. -/
inductive Wants where
  /-- there is no array -/
  | none
  /-- at least `min` nodes, all of the type -/
  | all (t : AstType) (min : Nat)
  /-- options and at least one clause -/
  | query
  /-- argument expressions, then projections -/
  | call
  /-- at least one pair of expressions -/
  | cases
  /-- pairs of a property name and an expression -/
  | pairs
  /-- node patterns with relationship patterns between them -/
  | path
  /-- at least two expressions -/
  | comparison
  deriving DecidableEq, Repr

/-- The documented signature of each constructor. -/
def Ctor.wants : Ctor → List Want × Wants
  | .statement => ([.oneOf .query .schemaCommand], .all .statementOption 0) -- 521
  | .cypherOption => ([.maybe .string], .all .cypherOptionParam 0) -- 582
  | .cypherOptionParam => ([.node .string, .node .string], .none) -- 639
  | .createIndex => ([.node .label], .all .propName 1) -- 708
  | .dropIndex => ([.node .label], .all .propName 1) -- 767
  | .createNodePropConstraint _ => ([.node .identifier, .node .label, .node .expression], .none) -- 828
  | .dropNodePropConstraint _ => ([.node .identifier, .node .label, .node .expression], .none) -- 901
  | .createRelPropConstraint _ => ([.node .identifier, .node .reltype, .node .expression], .none) -- 974
  | .dropRelPropConstraint _ => ([.node .identifier, .node .reltype, .node .expression], .none) -- 1047
  | .query => ([], .query) -- 1120
  | .usingPeriodicCommit => ([.maybe .integer], .none) -- 1190
  | .loadCsv _ => ([.node .expression, .node .identifier, .maybe .string], .none) -- 1224
  | .startClause => ([.maybe .expression], .all .startPoint 1) -- 1297
  | .nodeIndexLookup =>
    ([.node .identifier, .node .indexName, .node .propName, .oneOf .string .parameter], .none) -- 1357
  | .nodeIndexQuery => ([.node .identifier, .node .indexName, .oneOf .string .parameter], .none) -- 1430
  | .nodeIdLookup => ([.node .identifier], .all .integer 1) -- 1489
  | .allNodesScan => ([.node .identifier], .none) -- 1546
  | .relIndexLookup =>
    ([.node .identifier, .node .indexName, .node .propName, .oneOf .string .parameter], .none) -- 1579
  | .relIndexQuery => ([.node .identifier, .node .indexName, .oneOf .string .parameter], .none) -- 1653
  | .relIdLookup => ([.node .identifier], .all .integer 1) -- 1712
  | .allRelsScan => ([.node .identifier], .none) -- 1770
  | .matchClause _ => ([.node .pattern, .maybe .expression], .all .matchHint 0) -- 1805
  | .usingIndex => ([.node .identifier, .node .label, .node .propName], .none) -- 1891
  | .usingJoin => ([], .all .identifier 1) -- 1950
  | .usingScan => ([.node .identifier, .node .label], .none) -- 1995
  | .mergeClause => ([.node .patternPath], .all .mergeAction 0) -- 2040
  | .onMatch => ([], .all .setItem 1) -- 2098
  | .onCreate => ([], .all .setItem 1) -- 2142
  | .createClause _ => ([.node .pattern], .none) -- 2186
  | .setClause => ([], .all .setItem 1) -- 2229
  | .setProperty => ([.node .propertyOperator, .node .expression], .none) -- 2273
  | .setAllProperties => ([.node .identifier, .node .expression], .none) -- 2317
  | .mergeProperties => ([.node .identifier, .node .expression], .none) -- 2362
  | .setLabels => ([.node .identifier], .all .label 1) -- 2409
  | .delete _ => ([], .all .expression 1) -- 2469
  | .removeClause => ([], .all .removeItem 1) -- 2526
  | .removeLabels => ([.node .identifier], .all .label 1) -- 2571
  | .removeProperty => ([.node .propertyOperator], .none) -- 2628
  | .foreachClause => ([.node .identifier, .node .expression], .all .queryClause 1) -- 2661
  | .withClause _ existing =>
    ([.maybe .orderBy, .maybe .expression, .maybe .expression, .maybe .expression],
      .all .projection (bif existing then 0 else 1)) -- 2740
  | .unwindClause => ([.node .expression, .node .identifier], .none) -- 2863
  | .callClause => ([.node .procName, .maybe .expression], .call) -- 2912
  | .returnClause _ existing =>
    ([.maybe .orderBy, .maybe .expression, .maybe .expression],
      .all .projection (bif existing then 0 else 1)) -- 3018
  | .projection => ([.node .expression, .maybe .identifier], .none) -- 3125
  | .orderBy => ([], .all .sortItem 1) -- 3167
  | .sortItem _ => ([.node .expression], .none) -- 3209
  | .unaryOperator => ([.node .expression], .none) -- 3281
  | .binaryOperator => ([.node .expression, .node .expression], .none) -- 3328
  | .comparisonOperator => ([], .comparison) -- 3389
  | .applyOperator _ => ([.node .functionName], .all .expression 0) -- 3451
  | .applyAllOperator _ => ([.node .functionName], .none) -- 3521
  | .propertyOperator => ([.node .expression, .node .propName], .none) -- 3565
  | .subscriptOperator => ([.node .expression, .node .expression], .none) -- 3610
  | .sliceOperator => ([.node .expression, .maybe .expression, .maybe .expression], .none) -- 3656
  | .mapProjection => ([.node .expression], .all .mapProjectionSelector 0) -- 3716
  | .mapProjectionLiteral => ([.node .propName, .node .expression], .none) -- 3775
  | .mapProjectionProperty => ([.node .propName], .none) -- 3819
  | .mapProjectionIdentifier => ([.node .identifier], .none) -- 3850
  | .labelsOperator => ([.node .expression], .all .label 1) -- 3899
  | .listComprehension =>
    ([.node .identifier, .node .expression, .maybe .expression, .maybe .expression], .none) -- 3959
  | .filter => ([.node .identifier, .node .expression, .maybe .expression], .none) -- 4032
  | .extract => ([.node .identifier, .node .expression, .maybe .expression], .none) -- 4052
  | .allPredicate => ([.node .identifier, .node .expression, .maybe .expression], .none) -- 4072
  | .anyPredicate => ([.node .identifier, .node .expression, .maybe .expression], .none) -- 4092
  | .singlePredicate => ([.node .identifier, .node .expression, .maybe .expression], .none) -- 4112
  | .nonePredicate => ([.node .identifier, .node .expression, .maybe .expression], .none) -- 4132
  | .patternComprehension =>
    ([.maybe .identifier, .node .patternPath, .maybe .expression, .node .expression], .none) -- 4153
  | .reduce =>
    ([.node .identifier, .node .expression, .node .identifier, .node .expression, .maybe .expression],
      .none) -- 4229
  | .caseExpression => ([.maybe .expression, .maybe .expression], .cases) -- 4317
  | .collectionLiteral => ([], .all .expression 0) -- 4426
  | .mapLiteral => ([], .pairs) -- 4469
  | .pattern => ([], .all .patternPath 1) -- 4847
  | .namedPath => ([.node .identifier, .node .patternPath], .none) -- 4891
  | .shortestPath _ => ([.node .patternPath], .none) -- 4936
  | .patternPath => ([], .path) -- 4978
  | .nodePattern => ([.maybe .identifier, .maybeOneOf .map_ .parameter], .all .label 0) -- 5027
  | .relPattern _ =>
    ([.maybe .identifier, .maybe .range, .maybeOneOf .map_ .parameter], .all .reltype 0) -- 5102
  | .range => ([.maybe .integer, .maybe .integer], .none) -- 5199
  | .command => ([.node .string], .all .string 0) -- 5242
  | .explainOption | .profileOption | .unionClause _ | .mapProjectionAllProperties
  | .strbufIdentifier | .blockIdentifier | .strbufParameter | .strbufInteger | .strbufFloat
  | .trueLiteral | .falseLiteral | .nullLiteral | .strbufLabel | .strbufReltype | .strbufPropName
  | .strbufFunctionName | .strbufIndexName | .strbufProcName | .blockString | .strbufString
  | .lineComment | .blockComment | .skip => ([], .none)

/-- One argument is as wanted, and if there is a node it is a child. -/
def Want.Holds (children : List Node) : Want → Option Ref → Prop
  | .node t, some r => SubType r.ty t ∧ ∃ n ∈ children, n.ref = r
  | .node _, .none => False
  | .maybe t, some r => SubType r.ty t ∧ ∃ n ∈ children, n.ref = r
  | .maybe _, .none => True
  | .oneOf t u, some r => (SubType r.ty t ∨ SubType r.ty u) ∧ ∃ n ∈ children, n.ref = r
  | .oneOf _ _, .none => False
  | .maybeOneOf t u, some r => (SubType r.ty t ∨ SubType r.ty u) ∧ ∃ n ∈ children, n.ref = r
  | .maybeOneOf _ _, .none => True

/-- The arguments are as wanted, one by one. -/
def Fits (children : List Node) : List Want → List (Option Ref) → Prop
  | [], [] => True
  | w :: ws, a :: as => w.Holds children a ∧ Fits children ws as
  | _, _ => False

/-- `[a, b, a, b, ..]` -/
def Alternate (t u : AstType) : List Ref → Prop
  | [] => True
  | r :: rs => SubType r.ty t ∧ Alternate u t rs

/-- The types in an array are as wanted. -/
def Wants.Typed : Wants → List Ref → Prop
  | .none, s => s = []
  | .all t min, s => min ≤ s.length ∧ ∀ r ∈ s, SubType r.ty t
  | .query, s => ∃ a b, s = a ++ b ∧ (∀ r ∈ a, SubType r.ty .queryOption) ∧ b ≠ [] ∧
      ∀ r ∈ b, SubType r.ty .queryClause
  | .call, s => ∃ a b, s = a ++ b ∧ (∀ r ∈ a, SubType r.ty .expression) ∧
      ∀ r ∈ b, SubType r.ty .projection
  | .cases, s => 2 ≤ s.length ∧ s.length % 2 = 0 ∧ ∀ r ∈ s, SubType r.ty .expression
  | .pairs, s => s.length % 2 = 0 ∧ Alternate .propName .expression s
  | .path, s => s.length % 2 = 1 ∧ Alternate .nodePattern .relPattern s
  | .comparison, s => 2 ≤ s.length ∧ ∀ r ∈ s, SubType r.ty .expression

/-- The array is as wanted and consists of children. -/
def Wants.Holds (children : List Node) (w : Wants) (s : List Ref) : Prop :=
  w.Typed s ∧ ∀ r ∈ s, ∃ n ∈ children, n.ref = r

/-- How many operators a node holds. -/
def Ctor.OpsFit (c : Ctor) (ops : List Op) (s : List Ref) : Prop :=
  match c with
  | .unaryOperator | .binaryOperator => ops.length = 1
  | .comparisonOperator => ops.length + 1 = s.length
  | _ => ops = []

/-- A node, with everything below it, is well typed. The last condition on the node itself is that its
constructor accepts the array; it adds that no more nodes are passed than there are children. -/
inductive WellTyped : Node → Prop
  | mk {id c ops args seq text range children} :
      Fits children c.wants.1 args →
      c.wants.2.Holds children seq →
      c.OpsFit ops seq →
      (c.terminal.isSome → children = []) →
      c.checks.2.check children seq = .pass →
      (∀ n ∈ children, WellTyped n) →
      WellTyped (.mk id c ops args seq text range children)

end Verif.Cypher
