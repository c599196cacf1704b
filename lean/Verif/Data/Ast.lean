import Verif.Data.AstType
import Verif.Data.Errors
/-!
# AST nodes: `instanceof`, ordinals (`lib/src/ast.c`)
-/
namespace Verif

/-- `cypher_astnode_vt_instanceof` (ast.c:386-401).  The recursion follows parent pointers; the fuel
makes it total (running out answers `false`; never reached, see `instanceof_spec`). -/
def vtInstanceof (target : Option AstType) : Nat → AstType → Bool
  | 0, _ => false
  | fuel + 1, vt =>
    if some vt = target then true else vt.parents.any (vtInstanceof target fuel)

/-- `cypher_astnode_instanceof` (ast.c:404-416) on the type of a non-NULL node.  A node whose own
table pointer is NULL cannot exist (no constructor creates a node of type `comment`); such a call
would dereference NULL, modelled as a fault. -/
def instanceof (ty target : AstType) : Except Fault Bool :=
  match ty.vtPtr with
  | none => .error .outOfBounds
  | some vt => .ok (vtInstanceof target.vtPtr AstType.all.length vt)

/-- `cypher_astnode_typestr` (ast.c:419-424). -/
def typestr (ty : AstType) : Except Fault (Option String) :=
  match ty.vtPtr with
  | none => .error .outOfBounds
  | some vt => .ok vt.name

/-- `struct cypher_input_range` (cypher-parser.h.in). -/
structure Range where
  start : Pos
  stop : Pos
  deriving DecidableEq, Repr, Inhabited

/-- An AST node (`struct cypher_astnode`, astnode.h:44-54, and the type specific part).
The type specific pointers to children are left out here (see the constructor model for them);
`text` is the name/value string.  Trees: every node has one parent, as the
constructors only ever receive nodes not yet owned by another node (parser.c block handling). -/
inductive Ast where
  | node (ty : AstType) (range : Range) (ordinal : Nat) (text : List UInt8)
      (children : List Ast)

namespace Ast

def ty : Ast → AstType | .node t _ _ _ _ => t
def range : Ast → Range | .node _ r _ _ _ => r
def ordinal : Ast → Nat | .node _ _ o _ _ => o
def text : Ast → List UInt8 | .node _ _ _ t _ => t
def children : Ast → List Ast | .node _ _ _ _ c => c

mutual
/-- `cypher_ast_set_ordinals` (ast.c:585-597). -/
def setOrdinals : Ast → Nat → Ast × Nat
  | .node t r _ x cs, n =>
    let (cs', n') := setOrdinalsList cs (n + 1)
    (.node t r n x cs', n')
/-- The loop over the children (ast.c:592-595), and over the roots of a segment
(segment.c:54-58). -/
def setOrdinalsList : List Ast → Nat → List Ast × Nat
  | [], n => ([], n)
  | c :: cs, n =>
    let (c', n1) := setOrdinals c n
    let (cs', n2) := setOrdinalsList cs n1
    (c' :: cs', n2)
end

end Ast
end Verif
