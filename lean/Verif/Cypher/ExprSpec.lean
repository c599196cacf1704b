import Verif.Cypher.OpSpec
/-!
# Expressions as texts

A grammar of expressions, as one would write it down in a manual: it is ambiguous, knows nothing of precedences and
nothing of the order in which a parser tries alternatives. C45 says that the parser accepts every text of it.
-/
namespace Verif.Exprs
open Verif.Cypher (Op)
open Verif.Ops (words bytes upper)

/-! ## Bytes -/

def digit (c : UInt8) : Bool := 48 ≤ c && c ≤ 57
def letter (c : UInt8) : Bool := (65 ≤ c && c ≤ 90) || (97 ≤ c && c ≤ 122)
/-- What words consist of. -/
def sym (c : UInt8) : Bool := letter c || digit c || c == 95 || c == 36

/-- White space: spaces, tabs, newlines. -/
inductive Gap : List UInt8 → Prop
  | nil : Gap []
  | char {c b} : c = 32 ∨ c = 9 ∨ c = 10 → Gap b → Gap (c :: b)
  | crlf {b} : Gap b → Gap (13 :: 10 :: b)

/-! ## Pieces -/

inductive Kind where
  | operand
  | pre (o : Op)
  | inf (o : Op)
  | post (o : Op)
  deriving DecidableEq, Repr

/-- An operand or an operator, and the white space after it. -/
structure Piece where
  kind : Kind
  text : List UInt8
  blank : List UInt8
  deriving DecidableEq, Repr

def render (E : List Piece) : List UInt8 := E.flatMap fun x => x.text ++ x.blank

/-- Two pieces must not run into each other: there is white space between two words, and between a number and a dot. -/
def Apart (x y : Piece) : Prop :=
  x.blank = [] → ¬ (x.text.getLast?.any sym = true ∧ y.text.head?.any sym = true) ∧
    ¬ (x.text.head?.any digit = true ∧ y.text.head? = some 46)

/-- The words of an operator, in any case, with white space between them. -/
inductive Spelled : List (List UInt8) → List UInt8 → Prop
  | last {x s} : s.map upper = x → Spelled [x] s
  | more {x y xs s b s'} : s.map upper = x → Gap b → b ≠ [] → Spelled (y :: xs) s' →
      Spelled (x :: y :: xs) (s ++ (b ++ s'))

def Writes (o : Op) (s : List UInt8) : Prop := Spelled ((words o).map bytes) s

def prefixes : List Op := [.not, .unaryPlus, .unaryMinus]
def infixes : List Op :=
  [.or, .xor, .and, .regex, .equal, .nequal, .plus, .minus, .mult, .div, .mod, .pow, .in_, .contains, .startsWith,
    .endsWith, .lt, .gt, .lte, .gte]
def postfixes : List Op := [.isNull, .isNotNull]

/-- A symbolic name that is not quoted. -/
inductive Symbolic : List UInt8 → Prop
  | mk {c s} : letter c = true ∨ c = 95 → (∀ d ∈ s, sym d = true) → Symbolic (c :: s)

/-- The words that have a meaning of their own at the beginning of an operand. -/
def reserved : List (List UInt8) :=
  ["ALL", "ALLSHORTESTPATHS", "ANY", "CASE", "DISTINCT", "EXTRACT", "FALSE", "FILTER", "NONE", "NOT", "NULL", "REDUCE",
    "SHORTESTPATH", "SINGLE", "TRUE"].map bytes

/-- A name that is none of them, in any case. -/
inductive Name : List UInt8 → Prop
  | mk {s} : Symbolic s → s.map upper ∉ reserved → Name s

end Verif.Exprs

/-! ## Lists of pieces -/

namespace Verif.Stmts
open Verif.Exprs
open Verif.Ops (bytes upper)

/-- A keyword in any case, or a sign, and the white space after it. -/
inductive Key (x : String) : Piece → Prop
  | mk {s b} : s.map upper = bytes x → Gap b → Key x ⟨.operand, s, b⟩
/-- A name. Keywords are not reserved. -/
inductive Ident : Piece → Prop
  | mk {s b} : Symbolic s → Gap b → Ident ⟨.operand, s, b⟩
/-- A name where an operand may stand. -/
inductive Var : Piece → Prop
  | mk {s b} : Name s → Gap b → Var ⟨.operand, s, b⟩
/-- `, X` any number of times -/
inductive More (P : List Piece → Prop) : List Piece → Prop
  | nil : More P []
  | cons {k X Y} : Key "," k → P X → More P Y → More P (k :: (X ++ Y))
/-- `X, …, X` -/
inductive Sep (P : List Piece → Prop) : List Piece → Prop
  | mk {X Y} : P X → More P Y → Sep P (X ++ Y)
inductive Opt (P : List Piece → Prop) : List Piece → Prop
  | none : Opt P []
  | some {X} : P X → Opt P X
/-- `X` any number of times -/
inductive Many (P : List Piece → Prop) : List Piece → Prop
  | nil : Many P []
  | cons {X Y} : P X → Many P Y → Many P (X ++ Y)
inductive Sign (x : String) : List Piece → Prop
  | mk {k} : Key x k → Sign x [k]
/-- A keyword or a sign, and what follows it. -/
inductive After (P : List Piece → Prop) (x : String) : List Piece → Prop
  | mk {k E} : Key x k → P E → After P x (k :: E)
/-- Names and dots. -/
inductive ProcName : List Piece → Prop
  | one {x} : Ident x → ProcName [x]
  | more {x k X} : Ident x → Key "." k → ProcName X → ProcName (x :: k :: X)
/-- The same where an operand may stand. -/
inductive FnName : List Piece → Prop
  | one {x} : Var x → FnName [x]
  | more {x k X} : Var x → Key "." k → ProcName X → FnName (x :: k :: X)

end Verif.Stmts

/-! ## Expressions -/

namespace Verif.Exprs
open Verif.Cypher (Op)
open Verif.Ops (words bytes upper)
open Verif.Stmts

/-- The word CASE, white space, and a byte. -/
def CaseThen (s : List UInt8) (c : UInt8) : Prop :=
  ∃ k b r, s = k ++ (b ++ c :: r) ∧ k.map upper = bytes "CASE" ∧ Gap b ∧ (b = [] → sym c = false)

/-- What between parentheses could be a node of a pattern: a word, a parameter, a word and a parameter, or what begins with
a map, perhaps after a word. -/
def NodeLike (E : List Piece) : Prop :=
  (∃ s b, E = [⟨.operand, s, b⟩] ∧ (∀ c ∈ s, sym c = true) ∧ s.head?.any digit = false) ∨
  (∃ x s b, E = [x, ⟨.operand, s, b⟩] ∧ x.kind = .pre .not ∧ s.head? = some 36) ∨
  (∃ x X, E = x :: X ∧ x.text.head? = some 123) ∨
  (∃ x y X, E = x :: y :: X ∧ x.kind = .pre .not ∧ y.text.head? = some 123) ∨
  ∃ x X c, E = x :: X ∧ CaseThen x.text c ∧ (c = 36 ∨ c = 123)

/-- What between brackets could be the beginning of a comprehension: a parenthesis, NOT, or an operand before `=`, IN or
IS. -/
def Compr (E : List Piece) : Prop :=
  (∃ x X, E = x :: X ∧ (x.kind = .pre .not ∨ x.text.head? = some 40)) ∨
  (∃ x y X c, E = x :: y :: X ∧ x.kind = .operand ∧ y.text.head? = some c ∧ (c = 61 ∨ upper c = 73)) ∨
  ∃ x X c, E = x :: X ∧ CaseThen x.text c ∧ upper c = 73

/-- No two neighbours run into each other. -/
def Spaced : List Piece → Prop
  | x :: y :: E => Apart x y ∧ Spaced (y :: E)
  | _ => True

/-- The text begins with a word. -/
def Leads (x : String) (t : List UInt8) : Prop := ∃ s r, t = s ++ r ∧ s.map upper = bytes x ∧ r.head?.any sym = false

/-- `WHEN E THEN F` -/
inductive When (P : List Piece → Prop) : List Piece → Prop
  | mk {k E k' F} : Key "WHEN" k → P E → Key "THEN" k' → P F → When P (k :: (E ++ k' :: F))
/-- Operands that consist of several pieces, with expressions among them. -/
inductive Compound (P : List Piece → Prop) : List Piece → Prop
  | call {N k D A c} : FnName N → Key "(" k → Opt (Sign "DISTINCT") D → Opt (Sep P) A → Key ")" c →
      Compound P (N ++ k :: (D ++ (A ++ [c])))
  | callAll {N k D s c} : FnName N → Key "(" k → Opt (Sign "DISTINCT") D → Key "*" s → Key ")" c →
      Compound P (N ++ k :: (D ++ [s, c]))
  | cases {k A B D c} : Key "CASE" k → When P A → Many (When P) B → Opt (After P "ELSE") D → Key "END" c →
      Compound P (k :: (A ++ (B ++ (D ++ [c]))))
  | caseOf {k E A B D c} : Key "CASE" k → P E → ¬ Leads "WHEN" (render E) → When P A → Many (When P) B →
      Opt (After P "ELSE") D → Key "END" c → Compound P (k :: (E ++ (A ++ (B ++ (D ++ [c])))))
  | each {x k o i n E F c} : x ∈ ["ALL", "ANY", "NONE", "SINGLE", "FILTER"] → Key x k → Key "(" o → Ident i → Key "IN" n →
      P E → Opt (After P "WHERE") F → Key ")" c → Compound P (k :: o :: i :: n :: (E ++ (F ++ [c])))
  | extract {k o i n E V c} : Key "EXTRACT" k → Key "(" o → Ident i → Key "IN" n → P E → Opt (After P "|") V →
      Key ")" c → Compound P (k :: o :: i :: n :: (E ++ (V ++ [c])))
  | reduce {k o a q E m i n F V c} : Key "REDUCE" k → Key "(" o → Ident a → Key "=" q → P E → Key "," m → Ident i →
      Key "IN" n → P F → Opt (After P "|") V → Key ")" c →
      Compound P (k :: o :: a :: q :: (E ++ m :: i :: n :: (F ++ (V ++ [c]))))
  | list {o i n E F V c} : Key "[" o → Ident i → Key "IN" n → P E → Opt (After P "WHERE") F → Opt (After P "|") V →
      Key "]" c → Compound P (o :: i :: n :: (E ++ (F ++ (V ++ [c]))))

mutual
/-- Operands. -/
inductive Prim : List UInt8 → Prop
  | number {s} : s ≠ [] → (∀ c ∈ s, digit c = true) → Prim s
  | decimal {s t} : s ≠ [] → (∀ c ∈ s, digit c = true) → t ≠ [] → (∀ c ∈ t, digit c = true) → Prim (s ++ 46 :: t)
  | quoted {q body} : q = 34 ∨ q = 39 → (∀ c ∈ body, c ≠ q ∧ c ≠ 92 ∧ c ≠ 10 ∧ c ≠ 13) → Prim (q :: (body ++ [q]))
  | const {s} : s.map upper ∈ ["TRUE", "FALSE", "NULL"].map bytes → Prim s
  | name {s} : Name s → Prim s
  | param {s} : Symbolic s → Prim (36 :: s)
  | paren {b E} : Gap b → Exprn E → Spaced E → ¬ NodeLike E → Prim (40 :: (b ++ (render E ++ [41])))
  | empty {b} : Gap b → Prim (91 :: (b ++ [93]))
  | one {b E} : Gap b → Exprn E → Spaced E → ¬ Compr E → Prim (91 :: (b ++ (render E ++ [93])))
  | more {b E b' t} : Gap b → Exprn E → Spaced E → ¬ Compr E → Gap b' → Args1 t →
      Prim (91 :: (b ++ (render E ++ 44 :: (b' ++ (t ++ [93])))))
  | map {s} : Map s → Prim s
  | compound {X} : Compound Exprn X → Spaced X → X.getLast?.any (·.blank.isEmpty) = true → Prim (render X)
/-- Maps. -/
inductive Map : List UInt8 → Prop
  | empty {b} : Gap b → Map (123 :: (b ++ [125]))
  | some {b t} : Gap b → Entries t → Map (123 :: (b ++ (t ++ [125])))
/-- `name: expression`, separated by commas. -/
inductive Entries : List UInt8 → Prop
  | one {s b b' E} : Symbolic s → Gap b → Gap b' → Exprn E → Spaced E → Entries (s ++ (b ++ 58 :: (b' ++ render E)))
  | more {s b b' E b'' t} : Symbolic s → Gap b → Gap b' → Exprn E → Spaced E → Gap b'' → Entries t →
      Entries (s ++ (b ++ 58 :: (b' ++ (render E ++ 44 :: (b'' ++ t)))))
/-- Elements of lists, separated by commas. -/
inductive Args1 : List UInt8 → Prop
  | one {E} : Exprn E → Spaced E → Args1 (render E)
  | more {E b t} : Exprn E → Spaced E → Gap b → Args1 t → Args1 (render E ++ 44 :: (b ++ t))
/-- Expressions. -/
inductive Exprn : List Piece → Prop
  | operand {s b} : Prim s → Gap b → Exprn [⟨.operand, s, b⟩]
  | pre {o s b E} : o ∈ prefixes → Writes o s → Gap b → Exprn E → Exprn (⟨.pre o, s, b⟩ :: E)
  | post {o s b E} : o ∈ postfixes → Writes o s → Gap b → Exprn E → Exprn (E ++ [⟨.post o, s, b⟩])
  | inf {o s b E F} : o ∈ infixes → Writes o s → Gap b → Exprn E → Exprn F → Exprn (E ++ ⟨.inf o, s, b⟩ :: F)
  | property {s b b' E} : Exprn E → Gap b' → Symbolic s → Gap b →
      Exprn (E ++ [⟨.post .property, 46 :: (b' ++ s), b⟩])
  | subscript {b b' E F} : Exprn E → Gap b' → Exprn F → Spaced F → Gap b →
      Exprn (E ++ [⟨.post .subscript, 91 :: (b' ++ (render F ++ [93])), b⟩])
end

end Verif.Exprs
