import Verif.Cypher.ExprSpec
/-!
# Statements as texts

A grammar of statements over that of expressions (`ExprSpec`). A statement is a list of pieces, no two of which run into
each other.
-/
namespace Verif.Stmts
open Verif.Exprs
open Verif.Ops (bytes upper)

/-- `E` or `E AS name` -/
inductive Proj : List Piece → Prop
  | plain {E} : Exprn E → Proj E
  | named {E k x} : Exprn E → Key "AS" k → Ident x → Proj (E ++ [k, x])
inductive SortItem : List Piece → Prop
  | plain {E} : Exprn E → SortItem E
  | asc {E k} : Exprn E → Key "ASC" k → SortItem (E ++ [k])
  | ascending {E k} : Exprn E → Key "ASCENDING" k → SortItem (E ++ [k])
  | desc {E k} : Exprn E → Key "DESC" k → SortItem (E ++ [k])
  | descending {E k} : Exprn E → Key "DESCENDING" k → SortItem (E ++ [k])
inductive OrderBy : List Piece → Prop
  | mk {k k' X} : Key "ORDER" k → Key "BY" k' → Sep SortItem X → OrderBy (k :: k' :: X)
/-- A keyword and an expression. -/
abbrev KeyExpr (x : String) : List Piece → Prop := After Exprn x
inductive Items : List Piece → Prop
  | star {k Y} : Key "*" k → More Proj Y → Items (k :: Y)
  | some {X} : Sep Proj X → Items X
inductive Distinct : List Piece → Prop
  | none : Distinct []
  | some {k} : Key "DISTINCT" k → Distinct [k]
/-- What follows RETURN or WITH. -/
inductive Body : List Piece → Prop
  | mk {D X O S L} : Distinct D → Items X → Opt OrderBy O → Opt (KeyExpr "SKIP") S → Opt (KeyExpr "LIMIT") L →
      Body (D ++ (X ++ (O ++ (S ++ L))))

/-! ## Patterns -/

inductive Word : List Piece → Prop
  | mk {x} : Ident x → Word [x]
/-- `:name` -/
inductive Label : List Piece → Prop
  | mk {k x} : Key ":" k → Ident x → Label [k, x]
/-- A map or a parameter. -/
inductive Props : List Piece → Prop
  | map {s b} : Map s → Gap b → Props [⟨.operand, s, b⟩]
  | param {s b} : Symbolic s → Gap b → Props [⟨.operand, 36 :: s, b⟩]
inductive Node : List Piece → Prop
  | mk {k I L P k'} : Key "(" k → Opt Word I → Many Label L → Opt Props P → Key ")" k' →
      Node (k :: (I ++ (L ++ (P ++ [k']))))
/-- `|:name` or `|name` -/
inductive OrType : List Piece → Prop
  | label {k X} : Key "|" k → Label X → OrType (k :: X)
  | word {k X} : Key "|" k → Word X → OrType (k :: X)
inductive Types : List Piece → Prop
  | mk {X Y} : Label X → Many OrType Y → Types (X ++ Y)
inductive Digits : List UInt8 → Prop
  | mk {s} : s ≠ [] → (∀ c ∈ s, digit c = true) → Digits s
/-- `*`, `*n`, `*..`, `*n..`, `*..m`, `*n..m` -/
inductive Range : List UInt8 → Prop
  | any : Range [42]
  | exact {b n} : Gap b → Digits n → Range (42 :: (b ++ n))
  | all {b} : Gap b → Range (42 :: (b ++ [46, 46]))
  | least {b n b'} : Gap b → Digits n → Gap b' → Range (42 :: (b ++ (n ++ (b' ++ [46, 46]))))
  | most {b b' m} : Gap b → Gap b' → Digits m → Range (42 :: (b ++ (46 :: 46 :: (b' ++ m))))
  | between {b n b' b'' m} : Gap b → Digits n → Gap b' → Gap b'' → Digits m →
      Range (42 :: (b ++ (n ++ (b' ++ (46 :: 46 :: (b'' ++ m))))))
inductive Length : List Piece → Prop
  | mk {s b} : Range s → Gap b → Length [⟨.operand, s, b⟩]
inductive Detail : List Piece → Prop
  | none : Detail []
  | some {k I T L P k'} : Key "[" k → Opt Word I → Opt Types T → Opt Length L → Opt Props P → Key "]" k' →
      Detail (k :: (I ++ (T ++ (L ++ (P ++ [k'])))))
/-- `--`, `-[…]-`, either end with an arrow head -/
inductive Rel : List Piece → Prop
  | mk {A k D k' B} : Opt (Sign "<") A → Key "-" k → Detail D → Key "-" k' → Opt (Sign ">") B →
      Rel (A ++ (k :: (D ++ (k' :: B))))
/-- A relationship and a node, any number of times. -/
inductive Steps : List Piece → Prop
  | nil : Steps []
  | cons {R N Y} : Rel R → Node N → Steps Y → Steps (R ++ (N ++ Y))
inductive Path : List Piece → Prop
  | mk {N Y} : Node N → Steps Y → Path (N ++ Y)
inductive AnonPart : List Piece → Prop
  | path {X} : Path X → AnonPart X
  | shortest {k k' X k''} : Key "SHORTESTPATH" k → Key "(" k' → Path X → Key ")" k'' → AnonPart (k :: k' :: (X ++ [k'']))
  | allShortest {k k' X k''} : Key "ALLSHORTESTPATHS" k → Key "(" k' → Path X → Key ")" k'' →
      AnonPart (k :: k' :: (X ++ [k'']))
inductive Part : List Piece → Prop
  | anon {X} : AnonPart X → Part X
  | named {x k X} : Ident x → Key "=" k → AnonPart X → Part (x :: k :: X)
/-- Parts and commas. There is no white space before a comma: the parser does not accept it (C46). -/
inductive Pattern : List Piece → Prop
  | one {X} : Part X → Pattern X
  | more {X k Y} : Part X → X.getLast?.any (·.blank.isEmpty) = true → Key "," k → Pattern Y → Pattern (X ++ k :: Y)

/-! ## Hints -/

/-- `X X …`, words -/
inductive Keys : List String → List Piece → Prop
  | nil : Keys [] []
  | cons {x xs k K} : Key x k → Keys xs K → Keys (x :: xs) (k :: K)
inductive Hint : List Piece → Prop
  | index {K x L k y k'} : Keys ["USING", "INDEX"] K → Ident x → Label L → Key "(" k → Ident y → Key ")" k' →
      Hint (K ++ (x :: (L ++ [k, y, k'])))
  | join {K X} : Keys ["USING", "JOIN", "ON"] K → Sep Word X → Hint (K ++ X)
  | scan {K x L} : Keys ["USING", "SCAN"] K → Ident x → Label L → Hint (K ++ (x :: L))

/-! ## Changes -/

/-- `.name`, at least once -/
inductive Dots : List Piece → Prop
  | one {b' s b} : Gap b' → Symbolic s → Gap b → Dots [⟨.post .property, 46 :: (b' ++ s), b⟩]
  | more {b' s b X} : Gap b' → Symbolic s → Gap b → Dots X → Dots (⟨.post .property, 46 :: (b' ++ s), b⟩ :: X)
/-- A property of an operand. -/
inductive Target : List Piece → Prop
  | mk {s b X} : Prim s → Gap b → Dots X → Target (⟨.operand, s, b⟩ :: X)
/-- `:name`, at least once -/
inductive Labels : List Piece → Prop
  | mk {X Y} : Label X → Many Label Y → Labels (X ++ Y)
inductive SetItem : List Piece → Prop
  | property {X k E} : Target X → Key "=" k → Exprn E → SetItem (X ++ k :: E)
  | all {x k E} : Var x → Key "=" k → Exprn E → SetItem (x :: k :: E)
  | merge {x k E} : Var x → Key "+=" k → Exprn E → SetItem (x :: k :: E)
  | labels {x L} : Var x → Labels L → SetItem (x :: L)
inductive RemoveItem : List Piece → Prop
  | property {X} : Target X → RemoveItem X
  | labels {x L} : Var x → Labels L → RemoveItem (x :: L)
inductive MergeAction : List Piece → Prop
  | onMatch {K k X} : Keys ["ON", "MATCH"] K → Key "SET" k → Sep SetItem X → MergeAction (K ++ k :: X)
  | onCreate {K k X} : Keys ["ON", "CREATE"] K → Key "SET" k → Sep SetItem X → MergeAction (K ++ k :: X)

/-! ## Calls and data from files -/

inductive CallArgs : List Piece → Prop
  | mk {k X k'} : Key "(" k → Opt (Sep Exprn) X → Key ")" k' → CallArgs (k :: (X ++ [k']))
/-- `name` or `name AS name` -/
inductive ProcProj : List Piece → Prop
  | plain {x} : Ident x → ProcProj [x]
  | named {x k y} : Ident x → Key "AS" k → Ident y → ProcProj [x, k, y]
inductive Yield : List Piece → Prop
  | some {k X} : Key "YIELD" k → Sep ProcProj X → Yield (k :: X)
  | none {k k'} : Key "YIELD" k → Key "-" k' → Yield [k, k']
/-- A string. -/
inductive Quoted : List Piece → Prop
  | mk {q body b} : q = 34 ∨ q = 39 → (∀ c ∈ body, c ≠ q ∧ c ≠ 92 ∧ c ≠ 10 ∧ c ≠ 13) → Gap b →
      Quoted [⟨.operand, q :: (body ++ [q]), b⟩]
inductive Terminator : List Piece → Prop
  | mk {k X} : Key "FIELDTERMINATOR" k → Quoted X → Terminator (k :: X)

/-! ## Starting points -/

inductive Num : List Piece → Prop
  | mk {s b} : Digits s → Gap b → Num [⟨.operand, s, b⟩]
/-- A string or a parameter. -/
inductive Lookup : List Piece → Prop
  | quoted {X} : Quoted X → Lookup X
  | param {s b} : Symbolic s → Gap b → Lookup [⟨.operand, 36 :: s, b⟩]
/-- `(1, 2)`, `(*)`, `:index(name = "x")` or `:index("x")` -/
inductive PointOf : List Piece → Prop
  | ids {o X c} : Key "(" o → Sep Num X → Key ")" c → PointOf (o :: (X ++ [c]))
  | all {o s c} : Key "(" o → Key "*" s → Key ")" c → PointOf [o, s, c]
  | lookup {d x o y q L c} : Key ":" d → Ident x → Key "(" o → Ident y → Key "=" q → Lookup L → Key ")" c →
      PointOf (d :: x :: o :: y :: q :: (L ++ [c]))
  | query {d x o L c} : Key ":" d → Ident x → Key "(" o → Lookup L → Key ")" c → PointOf (d :: x :: o :: (L ++ [c]))
inductive Point : List Piece → Prop
  | mk {x q y k S} : Ident x → Key "=" q → y ∈ ["NODE", "RELATIONSHIP", "REL"] → Key y k → PointOf S → Point (x :: q :: k :: S)

/-! ## Clauses -/

mutual
inductive Clause : List Piece → Prop
  | match_ {k P H W} : Key "MATCH" k → Pattern P → Many Hint H → Opt (KeyExpr "WHERE") W → Clause (k :: (P ++ (H ++ W)))
  | optional {k k' P H W} : Key "OPTIONAL" k → Key "MATCH" k' → Pattern P → Many Hint H → Opt (KeyExpr "WHERE") W →
      Clause (k :: k' :: (P ++ (H ++ W)))
  | create {k P} : Key "CREATE" k → Pattern P → Clause (k :: P)
  | createUnique {k k' P} : Key "CREATE" k → Key "UNIQUE" k' → Pattern P → Clause (k :: k' :: P)
  | merge {k P A} : Key "MERGE" k → Part P → Many MergeAction A → Clause (k :: (P ++ A))
  | set {k X} : Key "SET" k → Sep SetItem X → Clause (k :: X)
  | remove {k X} : Key "REMOVE" k → Sep RemoveItem X → Clause (k :: X)
  | foreach {k k1 x k2 E k3 C k4} : Key "FOREACH" k → Key "(" k1 → Ident x → Key "IN" k2 → Exprn E → Key "|" k3 → Clauses C →
      Key ")" k4 → Clause (k :: k1 :: x :: k2 :: (E ++ k3 :: (C ++ [k4])))
  | call {k N A Y W} : Key "CALL" k → ProcName N → Opt CallArgs A → Opt Yield Y → Opt (KeyExpr "WHERE") W →
      Clause (k :: (N ++ (A ++ (Y ++ W))))
  | load {K k E k' x T} : Keys ["LOAD", "CSV"] K → Key "FROM" k → Exprn E → Key "AS" k' → Ident x → Opt Terminator T →
      Clause (K ++ k :: (E ++ k' :: x :: T))
  | loadHeaders {K H k E k' x T} : Keys ["LOAD", "CSV"] K → Keys ["WITH", "HEADERS"] H → Key "FROM" k → Exprn E → Key "AS" k' →
      Ident x → Opt Terminator T → Clause (K ++ (H ++ k :: (E ++ k' :: x :: T)))
  | start {k X W} : Key "START" k → Sep Point X → Opt (KeyExpr "WHERE") W → Clause (k :: (X ++ W))
  | ret {k X} : Key "RETURN" k → Body X → Clause (k :: X)
  | with_ {k X W} : Key "WITH" k → Body X → Opt (KeyExpr "WHERE") W → Clause (k :: (X ++ W))
  | unwind {k E k' x} : Key "UNWIND" k → Exprn E → Key "AS" k' → Ident x → Clause (k :: (E ++ [k', x]))
  | delete {k X} : Key "DELETE" k → Sep Exprn X → Clause (k :: X)
  | detach {k k' X} : Key "DETACH" k → Key "DELETE" k' → Sep Exprn X → Clause (k :: k' :: X)
  | union {k} : Key "UNION" k → Clause [k]
  | unionAll {k k'} : Key "UNION" k → Key "ALL" k' → Clause [k, k']
/-- Clauses, at least one. -/
inductive Clauses : List Piece → Prop
  | one {X} : Clause X → Clauses X
  | more {X Y} : Clause X → Clauses Y → Clauses (X ++ Y)
end

/-! ## Indexes and constraints -/

inductive Schema : List Piece → Prop
  | index {x K L k X k'} : x ∈ ["CREATE", "DROP"] → Keys [x, "INDEX", "ON"] K → Label L → Key "(" k → Sep Word X → Key ")" k' →
      Schema (K ++ (L ++ k :: (X ++ [k'])))
  | node {x K o i L c a E U} : x ∈ ["CREATE", "DROP"] → Keys [x, "CONSTRAINT", "ON"] K → Key "(" o → Ident i → Label L → Key ")" c →
      Key "ASSERT" a → Exprn E → Opt (Keys ["IS", "UNIQUE"]) U → Schema (K ++ o :: i :: (L ++ c :: a :: (E ++ U)))
  | rel {x K o c A d q i L q' d' B o' c' a E} : x ∈ ["CREATE", "DROP"] → Keys [x, "CONSTRAINT", "ON"] K → Key "(" o → Key ")" c →
      Opt (Sign "<") A → Key "-" d → Key "[" q → Ident i → Label L → Key "]" q' → Key "-" d' → Opt (Sign ">") B → Key "(" o' →
      Key ")" c' → Key "ASSERT" a → Exprn E →
      Schema (K ++ o :: c :: (A ++ d :: q :: i :: (L ++ q' :: d' :: (B ++ o' :: c' :: a :: E))))

/-! ## Statements -/

/-- What may stand before a statement. -/
inductive Choice : List Piece → Prop
  | explain {k} : Key "EXPLAIN" k → Choice [k]
  | profile {k} : Key "PROFILE" k → Choice [k]
/-- `USING PERIODIC COMMIT 100` -/
inductive Commit : List Piece → Prop
  | mk {K N} : Keys ["USING", "PERIODIC", "COMMIT"] K → Opt Num N → Commit (K ++ N)

/-- How a statement ends. -/
inductive Ending where
  | semicolon | endOfText
inductive End : Ending → List Piece → Prop
  | semicolon : End .semicolon [⟨.operand, [59], []⟩]
  | endOfText : End .endOfText []
/-- Any number of clauses, then a semicolon or nothing. -/
inductive Rest : Ending → List Piece → Prop
  | done {e X} : End e X → Rest e X
  | more {e X Y} : Clause X → Rest e Y → Rest e (X ++ Y)
/-- Clauses, at least one, or a change of the schema, and the end. -/
inductive Order : Ending → List Piece → Prop
  | query {e H X Y} : Many Commit H → Clause X → Rest e Y → Order e (H ++ (X ++ Y))
  | schema {e X Y} : Schema X → End e Y → Order e (X ++ Y)
inductive Stmt : Ending → List Piece → Prop
  | mk {e O X} : Many Choice O → Order e X → Stmt e (O ++ X)

/-- A text as a sequence of segments, for each of which is said whether it holds a statement. Semicolons may follow each
other; the last semicolon may be left out; white space at the end is a segment of its own. -/
inductive Text : List Bool → List UInt8 → Prop
  | nil : Text [] []
  | blank {b} : Gap b → b ≠ [] → Text [false] b
  | empty {b ks w} : Gap b → Text ks w → Text (false :: ks) (b ++ 59 :: w)
  | stmt {b X ks w} : Gap b → Stmt .semicolon X → Spaced X → Text ks w → Text (true :: ks) (b ++ (render X ++ w))
  | last {b X} : Gap b → Stmt .endOfText X → Spaced X → Text [true] (b ++ render X)

end Verif.Stmts
