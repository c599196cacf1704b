import Verif.Cypher.Machine
import Verif.Data.Print
/-!
# The details printed for each kind of node (`detailstr` of `lib/src/ast_*.c`)

Each function is a straight sequence of steps with some conditions and loops; the table `Ctor.steps` gives the steps,
`details` runs them. Simplifications: `%d`, used for some ordinals, is taken as `%u`; `snprintf` succeeds.
-/
namespace Verif.Cypher
open Verif Verif.Print

/-- What is written: an ordinal as `@%u`, or a byte. -/
inductive Tok where
  | ord (n : Nat)
  | ch (c : UInt8)
  deriving DecidableEq, Repr

def Tok.bytes : Tok → List UInt8
  | .ord n => 64 :: decimal n
  | .ch c => [c]

def bytesOf (ts : List Tok) : List UInt8 := ts.flatMap Tok.bytes

def lits (t : List UInt8) : List Tok := t.map .ch

/-- A step as in `W`, with ordinals kept apart from other bytes. -/
inductive D where
  | fmt (ts : List Tok)
  | put (c : UInt8)
  | close (c : UInt8) (nul : Nul)
  | copy (t : List UInt8) (k : Nat)
  | copyAnd (t : List UInt8) (k : Nat)
  deriving DecidableEq, Repr

def D.toW : D → W
  | .fmt ts => .fmt (bytesOf ts)
  | .put c => .put c
  | .close c nul => .close c nul
  | .copy t k => .copy t k
  | .copyAnd t k => .copyAnd t k

/-- A part of a format. -/
inductive Pc where
  | s (t : String)
  /-- `@%u`, the ordinal of an argument -/
  | a (i : Nat)
  /-- `%s`, the text if the flag is set and nothing otherwise -/
  | flag (k : Nat) (t : String)
  /-- one of several texts -/
  | pick (k : Nat) (ts : List String)
  /-- `%s`, the text if there is such an argument -/
  | having (i : Nat) (t : String)
  /-- `%s` with `op->str` -/
  | op
  /-- `%s` with `node->p` -/
  | text
  deriving DecidableEq, Repr

inductive Prim where
  | fmt (ps : List Pc)
  /-- `if (node->x != NULL) snprintf(.., "pre@%u post", ..)` -/
  | ifArg (i : Nat) (pre post : String)
  | put (c : String)
  | close (c : String) (nul : Nul)
  | copy (t : String) (k : Nat)
  | copyAnd (t : String) (k : Nat)
  /-- the elements of `snprint_sequence` (ast.c:956-981), and loops like it: `@%u`, with `,` and ` ` between -/
  | elems (k : Nat)
  /-- a loop over `snprintf(.., "%s@%u", (i > 0)? next : first, ..)` -/
  | each (k : Nat) (first next : String)
  /-- a loop over `snprintf(.., "%s<l>@%u:@%u<r>", (i > 0)? ", " : "", ..)` -/
  | pairs (k : Nat) (l r : String)
  /-- the loop of ast_pattern_path.c:187-206 -/
  | path (k : Nat)
  /-- the loop of ast_comparison.c:167-183 and what follows -/
  | comparison
  deriving DecidableEq, Repr

inductive Step where
  | prim (p : Prim)
  /-- `if (node->nxs > 0) { .. }` -/
  | ifSeq (k : Nat) (ps : List Prim)
  /-- `if (node->x) { strncpy(..) }` -/
  | ifFlag (k : Nat) (t : String) (n : Nat)
  /-- `if (node->x == NULL && node->y == NULL) { return n; }` -/
  | unlessNone (i j : Nat)
  deriving DecidableEq, Repr

/-- The conditions used by `detailstr`, as numbers. -/
def Ctor.flags : Ctor → List Nat
  | .createNodePropConstraint u | .dropNodePropConstraint u | .createRelPropConstraint u
  | .dropRelPropConstraint u | .loadCsv u | .matchClause u | .createClause u | .delete u | .sortItem u
  | .unionClause u | .applyOperator u | .applyAllOperator u | .shortestPath u => [u.toNat]
  | .withClause d e | .returnClause d e => [d.toNat + 2 * e.toNat]
  | .relPattern .inbound => [1, 0]
  | .relPattern .outbound => [0, 1]
  | .relPattern .bidirectional => [0, 0]
  | _ => []

/-- The arrays a node keeps: a query options and clauses (parser.c:1316-1345), of which only the clauses are
printed, and a call arguments and projections (parser.c:2006-2036). -/
def Node.arrays (n : Node) : List (List Ref) :=
  match n.ctor with
  | .query => [n.seq.dropWhile (isA · .queryOption)]
  | .callClause => [n.seq.takeWhile (! isA · .projection), n.seq.dropWhile (! isA · .projection)]
  | _ => [n.seq]

private abbrev sequence (k : Nat) : List Prim := [.put "[", .elems k, .put "]"]
private abbrev fmt (ps : List Pc) : Step := .prim (.fmt ps)
private abbrev ifArg (i : Nat) (pre post : String) : Step := .prim (.ifArg i pre post)

/-- The beginning of ast_with.c:225-229 and ast_return.c:210-214 (`%s%s%s%sprojections=`). -/
private abbrev projections : Pc := .pick 0
  ["projections=", "DISTINCT, projections=", "*, projections=", "DISTINCT, *, projections="]

/-- The steps of each `detailstr`. -/
def Ctor.steps : Ctor → List Step
  | .statement => -- ast_statement.c:136-178
    [.ifSeq 0 ([.copy "options=" 8] ++ sequence 0 ++ [.copy ", " 2]), fmt [.s "body=", .a 0]]
  | .cypherOption => -- ast_cypher_option.c:148-186
    [ifArg 0 "version=" "", .ifSeq 0 (.fmt [.having 0 ", ", .s "params="] :: sequence 0)]
  | .cypherOptionParam => [fmt [.a 0, .s " = ", .a 1]] -- ast_cypher_option_param.c:104-111
  | .createIndex -- ast_create_node_props_index.c:147-190
  | .dropIndex => -- ast_drop_node_props_index.c:146-188
    [fmt [.s "ON=:", .a 0, .s "("], .prim (.elems 0), .prim (.put ")")]
  | .createNodePropConstraint _ -- ast_create_node_prop_constraint.c:130-138
  | .dropNodePropConstraint _ -- ast_drop_node_prop_constraint.c:130-138
  | .createRelPropConstraint _ -- ast_create_rel_prop_constraint.c:130-138
  | .dropRelPropConstraint _ => -- ast_drop_rel_prop_constraint.c:130-138
    [fmt [.s "ON=(", .a 0, .s ":", .a 1, .s "), expression=", .a 2, .flag 0 ", IS UNIQUE"]]
  | .explainOption | .profileOption => [] -- ast_explain_option.c:72-76, ast_profile_option.c:72-76
  | .query => .prim (.copyAnd "clauses=" 8) :: (sequence 0).map .prim -- ast_query.c:177-196
  | .usingPeriodicCommit => [ifArg 0 "limit=" ""] -- ast_using_periodic_commit.c:96-106
  | .loadCsv _ => -- ast_load_csv.c:130-156
    [fmt [.flag 0 "WITH HEADERS, ", .s "url=", .a 0, .s ", identifier=", .a 1], ifArg 2 ", field_terminator=" ""]
  | .startClause => -- ast_start.c:143-176
    .prim (.copy "points=" 7) :: (sequence 0).map .prim ++ [ifArg 0 ", WHERE=" ""]
  | .nodeIndexLookup => -- ast_node_index_lookup.c:139-147
    [fmt [.a 0, .s " = node:", .a 1, .s "(", .a 2, .s " = ", .a 3, .s ")"]]
  | .nodeIndexQuery => [fmt [.a 0, .s " = node:", .a 1, .s "(", .a 2, .s ")"]] -- ast_node_index_query.c:124-132
  | .nodeIdLookup => -- ast_node_id_lookup.c:143-175
    [fmt [.a 0, .s " = node("], .prim (.each 0 "" ", "), .prim (.close ")" .last)]
  | .allNodesScan | .allRelsScan => -- ast_all_nodes_scan.c:93-99, ast_all_rels_scan.c:93-99
    [fmt [.s "identifier=", .a 0]]
  | .relIndexLookup => -- ast_rel_index_lookup.c:139-147
    [fmt [.a 0, .s " = rel:", .a 1, .s "(", .a 2, .s " = ", .a 3, .s ")"]]
  | .relIndexQuery => [fmt [.a 0, .s " = rel:", .a 1, .s "(", .a 2, .s ")"]] -- ast_rel_index_query.c:124-132
  | .relIdLookup => -- ast_rel_id_lookup.c:143-175
    [fmt [.a 0, .s " = rel("], .prim (.each 0 "" ", "), .prim (.close ")" .last)]
  | .matchClause _ => -- ast_match.c:167-213
    [fmt [.flag 0 "OPTIONAL, ", .s "pattern=", .a 0], .ifSeq 0 (.copyAnd ", hints=" 8 :: sequence 0),
      ifArg 1 ", where=" ""]
  | .usingIndex => [fmt [.a 0, .s ":", .a 1, .s "(", .a 2, .s ")"]] -- ast_using_index.c:123-129
  | .usingJoin => .prim (.copyAnd "on=" 3) :: (sequence 0).map .prim -- ast_using_join.c:132-151
  | .usingScan => [fmt [.a 0, .s ":", .a 1]] -- ast_using_scan.c:108-114
  | .mergeClause => -- ast_merge.c:140-174: `, actions=` has ten bytes
    [fmt [.s "path=", .a 0], .ifSeq 0 (.copyAnd ", actions=" 8 :: sequence 0)]
  | .onMatch | .onCreate -- ast_on_match.c:127-147, ast_on_create.c:127-147
  | .setClause | .removeClause | .orderBy => -- ast_set.c:126-146, ast_remove.c:126-146, ast_order_by.c:122-142
    .prim (.copyAnd "items=" 6) :: (sequence 0).map .prim
  | .createClause _ => [fmt [.flag 0 "UNIQUE, ", .s "pattern=", .a 0]] -- ast_create.c:101-107
  | .setProperty | .setAllProperties => -- ast_set_property.c:108-116, ast_set_all_properties.c:109-117
    [fmt [.a 0, .s " = ", .a 1]]
  | .mergeProperties => [fmt [.a 0, .s " += ", .a 1]] -- ast_merge_properties.c:108-116
  | .setLabels | .removeLabels -- ast_set_labels.c:141-165, ast_remove_labels.c:145-170
  | .labelsOperator => [fmt [.a 0], .prim (.each 0 ":" ":")] -- ast_labels_operator.c:146-171
  | .delete _ => -- ast_delete.c:143-163
    fmt [.flag 0 "DETACH, ", .s "expressions="] :: (sequence 0).map .prim
  | .removeProperty => [fmt [.s "prop=", .a 0]] -- ast_remove_property.c:94-100
  | .foreachClause => -- ast_foreach.c:159-192
    [fmt [.s "[", .a 0, .s " IN ", .a 1, .s " | "], .prim (.each 0 "" ", "), .prim (.close "]" .next)]
  | .withClause _ _ => -- ast_with.c:219-288
    fmt [projections] :: (sequence 0).map .prim ++
      [ifArg 0 ", ORDER BY=" "", ifArg 1 ", SKIP=" "", ifArg 2 ", LIMIT=" "", ifArg 3 ", WHERE=" ""]
  | .unwindClause => [fmt [.s "expression=", .a 0, .s ", alias=", .a 1]] -- ast_unwind.c:107-114
  | .callClause => -- ast_call.c:213-274
    [fmt [.s "name=", .a 0], .ifSeq 0 (.copy ", args=" 7 :: sequence 0),
      .ifSeq 1 (.copy ", YIELD=" 8 :: sequence 1), ifArg 1 ", WHERE=" ""]
  | .returnClause _ _ => -- ast_return.c:204-262
    fmt [projections] :: (sequence 0).map .prim ++
      [ifArg 0 ", ORDER BY=" "", ifArg 1 ", SKIP=" "", ifArg 2 ", LIMIT=" ""]
  | .projection => [fmt [.s "expression=", .a 0], ifArg 1 ", alias=" ""] -- ast_projection.c:101-124
  | .sortItem _ => -- ast_sort_item.c:96-102
    [fmt [.s "expression=", .a 0, .s ", ", .pick 0 ["DESCENDING", "ASCENDING"]]]
  | .unionClause _ => [.ifFlag 0 "ALL" 3] -- ast_union.c:86-101
  | .unaryOperator => [fmt [.op, .s " ", .a 0]] -- ast_unary_operator.c:107-113
  | .binaryOperator => [fmt [.a 0, .s " ", .op, .s " ", .a 1]] -- ast_binary_operator.c:122-129
  | .comparisonOperator => [.prim .comparison] -- ast_comparison.c:160-186
  | .applyOperator _ => -- ast_apply_operator.c:160-204
    [fmt [.a 0, .s "(", .flag 0 "DISTINCT "], .prim (.elems 0), .prim (.close ")" .no)]
  | .applyAllOperator _ => [fmt [.a 0, .s "(", .flag 0 "DISTINCT ", .s "*)"]] -- ast_apply_all_operator.c:114-122
  | .propertyOperator => [fmt [.a 0, .s ".", .a 1]] -- ast_property_operator.c:110-117
  | .subscriptOperator => [fmt [.a 0, .s "[", .a 1, .s "]"]] -- ast_subscript_operator.c:110-117
  | .sliceOperator => -- ast_slice_operator.c:127-185
    [fmt [.a 0, .s "["], ifArg 1 "" "", .prim (.close "." .next), .prim (.close "." .next), ifArg 2 "" "",
      .prim (.close "]" .next)]
  | .mapProjection => -- ast_map_projection.c:140-186
    [fmt [.a 0, .s "{"], .prim (.elems 0), .prim (.close "}" .next)]
  | .mapProjectionLiteral => [fmt [.a 0, .s ": ", .a 1]] -- ast_map_projection_literal.c:109-116
  | .mapProjectionProperty => [fmt [.s ".", .a 0]] -- ast_map_projection_property.c:95-101
  | .mapProjectionIdentifier => [fmt [.a 0]] -- ast_map_projection_identifier.c:95-101
  | .mapProjectionAllProperties => [fmt [.s ".*"]] -- ast_map_projection_all_properties.c:76-80
  | .listComprehension => -- ast_list_comprehension.c:220-266
    [fmt [.s "[", .a 0, .s " IN ", .a 1], ifArg 2 " WHERE " "", ifArg 3 " | " "", .prim (.put "]")]
  | .patternComprehension => -- ast_pattern_comprehension.c:144-195
    [.prim (.put "["), ifArg 0 "" " = ", fmt [.a 1, .s " "], ifArg 2 "WHERE " " ", fmt [.s "| ", .a 3, .s "]"]]
  | .caseExpression => -- ast_case.c:178-237
    [ifArg 0 "expression=" ", ", fmt [.s "alternatives="], .prim (.put "["), .prim (.pairs 0 "(" ")"),
      .prim (.put "]"), ifArg 1 ", default=" ""]
  | .filter | .allPredicate -- ast_filter.c:141-177, ast_all.c:138-174
  | .anyPredicate | .singlePredicate | .nonePredicate => -- ast_any.c:138-174, ast_single.c:141-177, ast_none.c:137-173
    [fmt [.s "[", .a 0, .s " IN ", .a 1], ifArg 2 " WHERE " "", .prim (.close "]" .next)]
  | .extract => -- ast_extract.c:141-177
    [fmt [.s "[", .a 0, .s " IN ", .a 1], ifArg 2 " | " "", .prim (.close "]" .next)]
  | .reduce => -- ast_reduce.c:147-182
    [fmt [.s "[", .a 0, .s "=", .a 1, .s ", ", .a 2, .s " IN ", .a 3], ifArg 4 " | " "", .prim (.close "]" .next)]
  | .collectionLiteral => (sequence 0).map .prim -- ast_collection.c:124-130
  | .mapLiteral => [.prim (.put "{"), .prim (.pairs 0 "" ""), .prim (.put "}")] -- ast_map.c:178-206
  | .strbufIdentifier | .blockIdentifier -- ast_identifier.c:84-89
  | .strbufPropName | .strbufFunctionName -- ast_prop_name.c:79-84, ast_function_name.c:81-87
  | .strbufIndexName | .strbufProcName => -- ast_index_name.c:79-84, ast_proc_name.c:79-84
    [fmt [.s "`", .text, .s "`"]]
  | .strbufParameter => [fmt [.s "$`", .text, .s "`"]] -- ast_parameter.c:84-89
  | .strbufInteger | .strbufFloat => [fmt [.text]] -- ast_integer.c:84-89, ast_float.c:84-89
  | .trueLiteral | .falseLiteral | .nullLiteral => [fmt []] -- ast_true.c:72-80, ast_false.c:72-80, ast_null.c:72-80
  | .strbufLabel | .strbufReltype => [fmt [.s ":`", .text, .s "`"]] -- ast_label.c:79-84, ast_reltype.c:79-84
  | .pattern => .prim (.copyAnd "paths=" 6) :: (sequence 0).map .prim -- ast_pattern.c:121-140
  | .namedPath => [fmt [.a 0, .s " = ", .a 1]] -- ast_named_path.c:137-146
  | .shortestPath _ => -- ast_shortest_path.c:134-144
    [fmt [.s "single=", .pick 0 ["false", "true"], .s ", path=", .a 0]]
  | .patternPath => [.prim (.path 0)] -- ast_pattern_path.c:179-209
  | .nodePattern => -- ast_node_pattern.c:158-212
    [.prim (.put "("), ifArg 0 "" "", .prim (.each 0 ":" ":"), ifArg 1 " {" "}", .prim (.put ")")]
  | .relPattern _ => -- ast_rel_pattern.c:188-255
    [fmt [.flag 0 "<", .s "-["], ifArg 0 "" "", .prim (.each 0 ":" "|:"), ifArg 1 "*" "", ifArg 2 " {" "}",
      fmt [.s "]-", .flag 1 ">"]]
  | .range => -- ast_range.c:101-152
    [.prim (.put "*"), .unlessNone 0 1, ifArg 0 "" "", .prim (.put "."), .prim (.put "."), ifArg 1 "" ""]
  | .command => fmt [.s "name=", .a 0, .s ", args="] :: (sequence 0).map .prim -- ast_command.c:134-152
  | .blockString | .strbufString => [fmt [.s "\"", .text, .s "\""]] -- ast_string.c:84-89
  | .lineComment => [fmt [.s "//", .text]] -- ast_line_comment.c:84-89
  | .blockComment => [fmt [.s "/*", .text, .s "*/"]] -- ast_block_comment.c:84-89
  | .skip => [fmt [.s ">>", .text, .s "<<"]] -- ast_error.c:79-84

/-- What the steps use: the ordinals of arguments and arrays, the flags, the operators and the text. -/
structure Given where
  args : List (Option Nat)
  arrays : List (List Nat)
  flags : List Nat
  ops : List (List UInt8)
  text : List UInt8
  deriving DecidableEq, Repr

namespace Given
variable (g : Given)

def arg (i : Nat) : Option Nat := g.args[i]?.join
def array (k : Nat) : List Nat := g.arrays[k]?.getD []
def flag (k : Nat) : Nat := g.flags[k]?.getD 0

end Given

/-- A pointer that must not be NULL. -/
def need {α : Type} : Option α → Except Fault α
  | some a => .ok a
  | none => .error .outOfBounds

def Pc.toks (g : Given) : Pc → Except Fault (List Tok)
  | .s t => .ok (lits (ascii t))
  | .a i => do .ok [.ord (← need (g.arg i))]
  | .flag k t => .ok (if g.flag k = 0 then [] else lits (ascii t))
  | .pick k ts => do .ok (lits (ascii (← need ts[g.flag k]?)))
  | .having i t => .ok (if g.arg i = none then [] else lits (ascii t))
  | .op => do .ok (lits (← need g.ops.head?))
  | .text => .ok (lits (g.text.takeWhile (· ≠ 0)))

def fmtToks (g : Given) : List Pc → Except Fault (List Tok)
  | [] => .ok []
  | p :: ps => do
    let x ← p.toks g
    let y ← fmtToks g ps
    .ok (x ++ y)

/-- The loop of `snprint_sequence` (ast.c:956-981). -/
def elemsD : List Nat → List D
  | [] => []
  | [x] => [.fmt [.ord x]]
  | x :: xs => .fmt [.ord x] :: .put 44 :: .put 32 :: elemsD xs

def eachD (first next : List UInt8) : List Nat → List D
  | [] => []
  | x :: xs => .fmt (lits first ++ [.ord x]) :: xs.map fun y => .fmt (lits next ++ [.ord y])

def pairsD (l r : List UInt8) : List UInt8 → List Nat → List D
  | sep, x :: y :: xs =>
    .fmt (lits sep ++ lits l ++ [.ord x] ++ lits (ascii ":") ++ [.ord y] ++ lits r) :: pairsD l r (ascii ", ") xs
  | _, _ => []

def pathD : List Nat → List D
  | [] => []
  | [x] => [.fmt (lits (ascii "(") ++ [.ord x] ++ lits (ascii ")"))]
  | x :: y :: xs => .fmt (lits (ascii "(") ++ [.ord x] ++ lits (ascii ")")) ::
    .fmt (lits (ascii "-[") ++ [.ord y] ++ lits (ascii "]-")) :: pathD xs

def comparisonD : List (List UInt8) → List Nat → Except Fault (List D)
  | [], x :: _ => .ok [.fmt [.ord x]]
  | o :: os, x :: xs => do
    let ds ← comparisonD os xs
    .ok (.fmt ([.ord x] ++ lits (ascii " ") ++ lits o ++ lits (ascii " ")) :: ds)
  | _, [] => .error .outOfBounds

/-- The first byte of a string. -/
def byte (c : String) : UInt8 := (ascii c).headD 0

def Prim.run (g : Given) : Prim → Except Fault (List D)
  | .fmt ps => do .ok [.fmt (← fmtToks g ps)]
  | .ifArg i pre post =>
    .ok (match g.arg i with
      | none => []
      | some o => [.fmt (lits (ascii pre) ++ [.ord o] ++ lits (ascii post))])
  | .put c => .ok [.put (byte c)]
  | .close c nul => .ok [.close (byte c) nul]
  | .copy t k => .ok [.copy (ascii t) k]
  | .copyAnd t k => .ok [.copyAnd (ascii t) k]
  | .elems k => .ok (elemsD (g.array k))
  | .each k first next => .ok (eachD (ascii first) (ascii next) (g.array k))
  | .pairs k l r => .ok (pairsD (ascii l) (ascii r) [] (g.array k))
  | .path k => if (g.array k).length % 2 = 1 then .ok (pathD (g.array k)) else .error .assertion
  | .comparison => comparisonD g.ops (g.array 0)

def runPrims (g : Given) : List Prim → Except Fault (List D)
  | [] => .ok []
  | p :: ps => do
    let x ← p.run g
    let y ← runPrims g ps
    .ok (x ++ y)

def runSteps (g : Given) : List Step → Except Fault (List D)
  | [] => .ok []
  | .prim p :: ss => do
    let x ← p.run g
    let y ← runSteps g ss
    .ok (x ++ y)
  | .ifSeq k ps :: ss => do
    let x ← if g.array k = [] then .ok [] else runPrims g ps
    let y ← runSteps g ss
    .ok (x ++ y)
  | .ifFlag k t n :: ss => do
    let y ← runSteps g ss
    .ok ((if g.flag k = 0 then [] else [.copy (ascii t) n]) ++ y)
  | .unlessNone i j :: ss => if g.arg i = none ∧ g.arg j = none then .ok [] else runSteps g ss

/-- What `detailstr` is given, when nodes have the ordinals `ord`. -/
def Node.given (ord : Nat → Nat) (n : Node) : Given where
  args := n.args.map fun x => x.map fun r => ord r.id
  arrays := n.arrays.map fun s => s.map fun r => ord r.id
  flags := n.ctor.flags
  ops := n.ops.map fun o => ascii o.str
  text := n.text

/-- `detailstr`. -/
def details (ord : Nat → Nat) (n : Node) : Except Fault (List D) := runSteps (n.given ord) n.ctor.steps

mutual
/-- The tree as printed. -/
def Node.tree (ord : Nat → Nat) : Node → Except Fault Tree
  | .mk id c ops args seq text range children => do
    let ds ← details ord (.mk id c ops args seq text range children)
    let cs ← treeAll ord children
    .ok (.node c.ty range (ord id) (ds.map D.toW) cs)
def treeAll (ord : Nat → Nat) : List Node → Except Fault (List Tree)
  | [] => .ok []
  | n :: ns => do
    let t ← n.tree ord
    let ts ← treeAll ord ns
    .ok (t :: ts)
end

mutual
/-- `cypher_ast_set_ordinals` (ast.c:585-597), where the memory holds the ordinal of each node. -/
def Node.number : Node → Nat → (Nat → Nat) → Nat × (Nat → Nat)
  | .mk id _ _ _ _ _ _ children, n, ord => numberAll children (n + 1) fun i => if i = id then n else ord i
def numberAll : List Node → Nat → (Nat → Nat) → Nat × (Nat → Nat)
  | [], n, ord => (n, ord)
  | x :: xs, n, ord =>
    let (n, ord) := x.number n ord
    numberAll xs n ord
end

/-- `cypher_parse_segment_fprint_ast` (segment.c:172-179) for a segment whose nodes are numbered from `first` (segment.c:59-63). -/
def printRoots (junk : Nat → List UInt8) (colours : Colours) (render first : Nat) (roots : List Node) :
    Except Stop (List UInt8) :=
  let (_, ord) := numberAll roots first fun _ => 0
  match treeAll ord roots with
  | .ok ts => fprintv junk colours render ts
  | .error e => .error (.fault e)

end Verif.Cypher
