import Verif.Cypher.Machine
import Verif.Quick.Facts
/-!
# Operators: what the tree of an expression should be

How tightly operators bind, how they are written, and what it means that a node of the tree is the
operator expression that stands in the source between two positions. Of the grammar only the names of
the operators are used.
-/
namespace Verif.Ops
open Verif.Cypher
open Verif.Quick (Blank)

/-! ## Binding -/

/-- The operators, from the loosest to the tightest. -/
def groups : List (List Op) :=
  [[.or], [.xor], [.and], [.not], [.equal, .nequal], [.lt, .gt, .lte, .gte], [.plus, .minus],
    [.mult, .div, .mod], [.pow], [.unaryPlus, .unaryMinus],
    [.regex, .in_, .startsWith, .endsWith, .contains, .isNull, .isNotNull],
    [.mapProjection, .subscript], [.property, .label]]

/-- How tightly an operator binds. -/
def level (o : Op) : Nat := groups.findIdx fun g => g.contains o

/-- Operators whose right operand may be headed by an operator of the same level: `^`, which groups to
the right, and those with one operand. -/
def rightwards : List Op := [.pow, .not, .unaryPlus, .unaryMinus, .isNull, .isNotNull]

/-- In `a x b y c` the operator `y` belongs to the right operand of `x`. -/
def Takes (x y : Op) : Prop := level x < level y ∨ (level x = level y ∧ x ∈ rightwards)

/-! ## Trees -/

/-- An expression as written. `suf` stands for what follows an operand directly: `.name`, `[..]`,
`{..}` and `:label`. A chain of comparisons `a < b <= c` is `more (cmp a < b) <= c`. -/
inductive Tree where
  | atom
  | paren (t : Tree)
  | pre (o : Op) (r : Tree)
  | post (o : Op) (l : Tree)
  | bin (o : Op) (l r : Tree)
  | cmp (o : Op) (l r : Tree)
  | more (o : Op) (c r : Tree)
  | suf (o : Op) (l : Tree)

namespace Tree

/-- The operators one meets going down the left edge: those that could have taken their left operand
from further left, had it been written without parentheses. -/
def lefts : Tree → List Op
  | .atom | .paren _ | .pre _ _ => []
  | .post o l | .bin o l _ | .cmp o l _ | .more o l _ | .suf o l => o :: l.lefts

/-- The operators one meets going down the right edge. -/
def rights : Tree → List Op
  | .atom | .paren _ | .post _ _ | .suf _ _ => []
  | .pre o r | .bin o _ r | .cmp o _ r | .more o _ r => o :: r.rights

/-- A comparison, not in parentheses. -/
def isChain : Tree → Bool
  | .cmp _ _ _ | .more _ _ _ => true
  | _ => false

/-- The tree is the one that precedence and associativity ask for: an operator is never further up than
one at the right edge of its left operand would allow, and what is at the left edge of its right operand
belongs there. A comparison after a comparison continues it. -/
def Good : Tree → Prop
  | .atom => True
  | .paren t => t.Good
  | .pre o r => r.Good ∧ ∀ y ∈ r.lefts, Takes o y
  | .post o l | .suf o l => l.Good ∧ ∀ x ∈ l.rights, ¬ Takes x o
  | .bin o l r => l.Good ∧ r.Good ∧ (∀ x ∈ l.rights, ¬ Takes x o) ∧ ∀ y ∈ r.lefts, Takes o y
  | .cmp o l r => l.isChain = false ∧
    l.Good ∧ r.Good ∧ (∀ x ∈ l.rights, ¬ Takes x o) ∧ ∀ y ∈ r.lefts, Takes o y
  | .more o l r => l.isChain = true ∧
    l.Good ∧ r.Good ∧ (∀ x ∈ l.rights, ¬ Takes x o) ∧ ∀ y ∈ r.lefts, Takes o y

end Tree

/-! ## Spelling -/

def upper (c : UInt8) : UInt8 := if 97 ≤ c ∧ c ≤ 122 then c - 32 else c

/-- The words of an operator, in capitals. -/
def words : Op → List String
  | .or => ["OR"] | .xor => ["XOR"] | .and => ["AND"] | .not => ["NOT"]
  | .equal => ["="] | .nequal => ["<>"] | .lt => ["<"] | .gt => [">"] | .lte => ["<="] | .gte => [">="]
  | .plus => ["+"] | .minus => ["-"] | .mult => ["*"] | .div => ["/"] | .mod => ["%"] | .pow => ["^"]
  | .unaryPlus => ["+"] | .unaryMinus => ["-"]
  | .regex => ["=~"] | .in_ => ["IN"] | .startsWith => ["STARTS", "WITH"] | .endsWith => ["ENDS", "WITH"]
  | .contains => ["CONTAINS"] | .isNull => ["IS", "NULL"] | .isNotNull => ["IS", "NOT", "NULL"]
  | .mapProjection => ["{"] | .subscript => ["["] | .property => ["."] | .label => [":"]

def bytes (s : String) : List UInt8 := s.toList.map fun c => c.toNat.toUInt8

/-- The words, in any case, with blanks between them. -/
inductive Worded : List (List UInt8) → List UInt8 → Prop
  | last {x s} : s.map upper = x → Worded [x] s
  | more {x y xs s b s'} : s.map upper = x → Blank b → Worded (y :: xs) s' →
      Worded (x :: y :: xs) (s ++ (b ++ s'))

def Symbol (o : Op) (s : List UInt8) : Prop := Worded ((words o).map bytes) s

/-! ## Nodes -/

/-- The builders of operator nodes. -/
def isOperator : Ctor → Bool
  | .unaryOperator | .binaryOperator | .comparisonOperator | .propertyOperator | .subscriptOperator
  | .sliceOperator | .mapProjection | .labelsOperator => true
  | _ => false

/-- What may be written directly after an operand, and what is built of it. -/
def Suffix : Op → Ctor → Prop
  | .property, c => c = .propertyOperator
  | .subscript, c => c = .subscriptOperator ∨ c = .sliceOperator
  | .mapProjection, c => c = .mapProjection
  | .label, c => c = .labelsOperator
  | _, _ => False

/-- The node covers the source from `i` to `j`; `off` is the offset of the source. -/
def Covers (off : Nat) (n : Node) (i j : Nat) : Prop :=
  n.range.start.offset = off + i ∧ n.range.stop.offset = off + j

mutual
/-- The node is the expression `t` that stands in `w` from `i` to `j` (blanks that follow included). -/
inductive Is (w : List UInt8) (off : Nat) : Node → Tree → Nat → Nat → Prop
  | atom {n i k j} : isOperator n.ctor = false → Covers off n i k → i ≤ k → k ≤ j → Is w off n .atom i j
  | paren {n t i a b j} : w[i]? = some 40 → Blank (w.extract (i + 1) a) → i < a → Is w off n t a b →
      w[b]? = some 41 → Blank (w.extract (b + 1) j) → b < j → Is w off n (.paren t) i j
  | pre {n o r i a b j c} : Symbol o (w.extract i a) → Blank (w.extract a b) → i ≤ a → a ≤ b →
      Is w off c r b j → c ∈ n.children →
      n.ctor = .unaryOperator → n.ops = [o] → n.args = [some c.ref] → Covers off n i j →
      Is w off n (.pre o r) i j
  | post {n o l i a b j c} : Is w off c l i a → c ∈ n.children →
      Symbol o (w.extract a b) → Blank (w.extract b j) → a ≤ b → b ≤ j →
      n.ctor = .unaryOperator → n.ops = [o] → n.args = [some c.ref] → Covers off n i j →
      Is w off n (.post o l) i j
  | bin {n o l r i a b d j c c'} : Is w off c l i a → c ∈ n.children →
      Symbol o (w.extract a b) → Blank (w.extract b d) → a ≤ b → b ≤ d →
      Is w off c' r d j → c' ∈ n.children →
      n.ctor = .binaryOperator → n.ops = [o] → n.args = [some c.ref, some c'.ref] → Covers off n i j →
      Is w off n (.bin o l r) i j
  | chain {n t i j cs} : Chain w off cs n.ops t i j → (∀ c ∈ cs, c ∈ n.children) →
      n.ctor = .comparisonOperator → n.seq = cs.map Node.ref → Covers off n i j → Is w off n t i j
  | suf {n o l i a j c} : Is w off c l i a → c ∈ n.children → Symbol o (w.extract a (a + 1)) → a < j →
      Suffix o n.ctor → n.args.head? = some (some c.ref) → Covers off n i j → Is w off n (.suf o l) i j
/-- The nodes `cs` are the operands of the chain of comparisons `t`, and `os` its operators. -/
inductive Chain (w : List UInt8) (off : Nat) : List Node → List Op → Tree → Nat → Nat → Prop
  | cmp {o l r i a b d j c c'} : Is w off c l i a → Symbol o (w.extract a b) → Blank (w.extract b d) →
      a ≤ b → b ≤ d → Is w off c' r d j → Chain w off [c, c'] [o] (.cmp o l r) i j
  | more {cs os o t r i a b d j c'} : Chain w off cs os t i a → Symbol o (w.extract a b) →
      Blank (w.extract b d) → a ≤ b → b ≤ d → Is w off c' r d j →
      Chain w off (cs ++ [c']) (os ++ [o]) (.more o t r) i j
end

/-- If the node is an operator, it is a well-formed operator expression. -/
def OperatorOk (w : List UInt8) (off : Nat) (n : Node) : Prop :=
  isOperator n.ctor = true → ∃ t i j, Is w off n t i j ∧ t.Good

end Verif.Ops
