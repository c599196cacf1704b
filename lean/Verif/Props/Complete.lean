import Verif.Cypher.StmtClauses
import Verif.Props.Lint
/-!
# C45: every text of a grammar of statements is parsed without errors

The specification is `ExprSpec` and `StmtSpec`: an ambiguous grammar of texts that knows nothing of the rules of
`parser.leg`, of the order in which they try alternatives, of precedences or of how keywords are told from names. What
is left of the language: patterns, labels, slices and projections of maps as operands, the option CYPHER, comments, quoted
names, and the fifteen words that have a meaning of their own at the beginning of an operand.
-/
namespace Verif.Stmts
open Verif Verif.Peg Verif.Cypher Verif.Exprs
open Verif.Ops (bytes upper)

variable {σ : Type}

/-- C45. A text of the grammar is divided into the segments it consists of. None has an error, and those that hold a
statement have a directive. -/
theorem text_accepted {S : Source σ} {src : σ} {w : List UInt8} {ks : List Bool} (h : Text ks w) (hd : Delivers S src w)
    (h1 : 96 ∉ w) (h2 : ¬ Commented w) (cfg : Config) (only : Bool) :
    ∃ L, YieldsP S src cfg only L ∧ L.map (fun seg => seg.directive.isSome) = ks ∧ ∀ seg ∈ L, seg.errors = [] := by
  obtain ⟨L, g1, g2, g3, -⟩ := (h.script only).yields hd h1 h2 cfg
  exact ⟨L, g1, g2, g3⟩

/-- C45. `cypher-lint` finds no fault with texts of the grammar. -/
theorem lint_accepts {w : Lint.World} {tty : Bool × Bool} {os : List Lint.Opt} {as : List (List UInt8)} {c : Lint.Conf}
    {fuel status : Nat} {o : Lint.Out}
    (hc : Lint.options { colorOut := tty.1, colorErr := tty.2 } os = .go c) (h1 : c.single = false)
    (h : Lint.main w tty os as fuel = some (.ok (status, o)))
    (ht : ∀ i a, (Lint.operands as)[i]? = some a → ∃ t ks, Lint.input w i a = .ok t ∧ Text ks t ∧ 96 ∉ t ∧ ¬ Commented t) :
    status = 0 := by
  refine (Lint.lint_status hc h).2.2 fun i a ha => ?_
  obtain ⟨t, ks, e1, e2, e3, e4⟩ := ht i a ha
  obtain ⟨L, ⟨last, g1⟩, -, g2⟩ := text_accepted e2 (stream_delivers t) e3 e4 c.config c.only
  exact ⟨t, L, e1, ⟨last, by rw [h1]; exact g1⟩, g2⟩

/-! ## Examples -/

theorem gap_of {b : List UInt8} (h : ∀ c ∈ b, c = 32 ∨ c = 9 ∨ c = 10) : Gap b := by
  induction b with
  | nil => exact .nil
  | cons c b ih => exact .char (h c (by simp)) (ih fun d hd => h d (by simp [hd]))

theorem not_caseThen {s : List UInt8} {c : UInt8} (h : s.head?.map upper ≠ some 67) : ¬ CaseThen s c := by
  rintro ⟨k, b, r, rfl, h1, -⟩
  rcases k with _ | ⟨d, k⟩
  · exact absurd h1 (by decide)
  · have : upper d = 67 := by
      have h2 : bytes "CASE" = [67, 65, 83, 69] := by decide +kernel
      rw [h2] at h1
      exact (List.cons.inj h1).1
    exact h (by simp [this])

def ex : List UInt8 := bytes "UNWIND $xs AS return\nWITH * WHERE -x[0].y=not 1 RETURN (1+notes)*2 as c ORDER BY c DESC;;\n"

/-- A statement of three clauses with a keyword for a name, an empty one, and a newline. -/
example : Text [true, false, false] ex := by
  have g : ∀ b, b = [] ∨ b = [32] ∨ b = [10] → Gap b := by
    rintro b (rfl | rfl | rfl) <;> exact gap_of (by decide)
  have key : ∀ (x : String) (s b : List UInt8), s.map upper = bytes x → (b = [] ∨ b = [32] ∨ b = [10]) →
      Key x ⟨.operand, s, b⟩ := fun x s b h h' => .mk h (g b h')
  have c1 : Clause _ := .unwind (key "UNWIND" (bytes "UNWIND") [32] (by decide) (by decide))
    (.operand (s := bytes "$xs") (b := [32]) (.param (.mk (by decide) (by decide))) (g _ (by decide)))
    (key "AS" (bytes "AS") [32] (by decide) (by decide))
    (.mk (s := bytes "return") (b := [10]) (.mk (by decide) (by decide)) (g _ (by decide)))
  have c2 : Clause _ := .with_ (key "WITH" (bytes "WITH") [32] (by decide) (by decide))
    (.mk .none (.star (key "*" (bytes "*") [32] (by decide) (by decide)) .nil) .none .none .none)
    (.some (.mk (key "WHERE" (bytes "WHERE") [32] (by decide) (by decide))
      (.inf (o := .equal) (s := bytes "=") (b := []) (by decide) (.last (by decide)) (g _ (by decide))
        (.pre (o := .unaryMinus) (s := bytes "-") (b := []) (by decide) (.last (by decide)) (g _ (by decide))
          (.property (s := bytes "y") (b := []) (b' := [])
            (.subscript (b := []) (b' := []) (.operand (s := bytes "x") (b := []) (.name (.mk (.mk (by decide) (by decide)) (by decide +kernel))) (g _ (by decide)))
              (g _ (by decide)) (.operand (s := bytes "0") (b := []) (.number (by decide) (by decide)) (g _ (by decide))) trivial
              (g _ (by decide))) (g _ (by decide)) (.mk (by decide) (by decide)) (g _ (by decide))))
        (.pre (o := .not) (s := bytes "not") (b := [32]) (by decide) (.last (by decide)) (g _ (by decide))
          (.operand (s := bytes "1") (b := [32]) (.number (by decide) (by decide)) (g _ (by decide)))))))
  have p1 : Prim _ := .paren (b := []) (g _ (by decide))
    (.inf (o := .plus) (s := bytes "+") (b := []) (by decide) (.last (by decide)) (g _ (by decide))
      (.operand (s := bytes "1") (b := []) (.number (by decide) (by decide)) (g _ (by decide)))
      (.operand (s := bytes "notes") (b := []) (.name (.mk (.mk (by decide) (by decide)) (by decide +kernel))) (g _ (by decide))))
    (by simp [Spaced, Apart]; decide)
    (by simp [NodeLike]; exact ⟨by decide, fun c h => absurd h (not_caseThen (by decide +kernel))⟩)
  have c3 : Clause _ := .ret (key "RETURN" (bytes "RETURN") [32] (by decide) (by decide))
    (.mk .none (.some (.mk (.named
      (.inf (o := .mult) (s := bytes "*") (b := []) (by decide) (.last (by decide)) (g _ (by decide))
        (.operand (b := []) p1 (g _ (by decide)))
        (.operand (s := bytes "2") (b := [32]) (.number (by decide) (by decide)) (g _ (by decide))))
      (key "AS" (bytes "as") [32] (by decide) (by decide))
      (.mk (s := bytes "c") (b := [32]) (.mk (by decide) (by decide)) (g _ (by decide)))) .nil))
      (.some (.mk (key "ORDER" (bytes "ORDER") [32] (by decide) (by decide)) (key "BY" (bytes "BY") [32] (by decide) (by decide))
        (.mk (.desc (.operand (s := bytes "c") (b := [32]) (.name (.mk (.mk (by decide) (by decide)) (by decide +kernel))) (g _ (by decide)))
          (key "DESC" (bytes "DESC") [] (by decide) (by decide))) .nil))) .none .none)
  have h := Text.stmt (b := []) (g _ (by decide)) (.mk .nil (.query .nil c1 (.more c2 (.more c3 (.done .semicolon))))) (by simp [Spaced, Apart]; decide)
    (.empty (b := []) (g _ (by decide)) (.blank (g [10] (by decide)) (by decide)))
  have conv : ∀ {u ks}, Text ks u → u = ex → Text ks ex := fun h e => e ▸ h
  exact conv h (by decide +kernel)

instance (x y : Piece) : Decidable (Apart x y) := inferInstanceAs (Decidable (_ → _))
instance spaced_dec : (X : List Piece) → Decidable (Spaced X)
  | [] => .isTrue trivial
  | [_] => .isTrue trivial
  | x :: y :: X => @instDecidableAnd _ _ _ (spaced_dec (y :: X))

def ex2 : List UInt8 := bytes "MATCH p=(a:A {k:[1,2]})<-[ *1 ..2]-(), (b) WHERE a.x CREATE (a)-[:R|S $q]->(b)"

/-- Patterns, with a list in a map, up to the end of the text. -/
example : Text [true] ex2 := by
  have g : ∀ b, b = [] ∨ b = [32] → Gap b := by
    rintro b (rfl | rfl) <;> exact gap_of (by decide)
  have key : ∀ (x : String) (s b : List UInt8), s.map upper = bytes x → (b = [] ∨ b = [32]) →
      Key x ⟨.operand, s, b⟩ := fun x s b h h' => .mk h (g b h')
  have word : ∀ (c : UInt8) (b : List UInt8), letter c = true → (b = [] ∨ b = [32]) → Ident ⟨.operand, [c], b⟩ :=
    fun c b h h' => .mk (.mk (.inl h) (by simp)) (g b h')
  have num : ∀ (c : UInt8), digit c = true → Exprn [⟨.operand, [c], []⟩] := fun c h =>
    .operand (.number (by simp) (by simpa using h)) (g _ (by decide))
  have l1 : Prim _ := .more (b := []) (b' := []) (g _ (by decide)) (num 49 (by decide)) trivial
    (by simp [Compr]; exact fun c h => absurd h (not_caseThen (by decide +kernel))) (g _ (by decide))
    (.one (num 50 (by decide)) trivial)
  have m1 : Map _ := .some (b := []) (g _ (by decide)) (.one (s := bytes "k") (b := []) (b' := []) (.mk (by decide) (by decide)) (g _ (by decide))
    (g _ (by decide)) (.operand (b := []) l1 (g _ (by decide))) trivial)
  have n1 : Node _ := .mk (key "(" [40] [] (by decide) (by decide)) (.some (.mk (word 97 [] (by decide) (by decide))))
    (.cons (.mk (key ":" [58] [] (by decide) (by decide)) (word 65 [32] (by decide) (by decide))) .nil)
    (.some (.map (b := []) m1 (g _ (by decide)))) (key ")" [41] [] (by decide) (by decide))
  have n2 : Node _ := .mk (key "(" [40] [] (by decide) (by decide)) .none .nil .none (key ")" [41] [] (by decide) (by decide))
  have n3 : ∀ (c : UInt8) (b : List UInt8), letter c = true → (b = [] ∨ b = [32]) → Node _ := fun c b h h' => .mk (key "(" [40] [] (by decide) (by decide))
    (.some (.mk (word c [] h (by decide)))) .nil .none (key ")" [41] b (by decide) h')
  have r1 : Rel _ := .mk (.some (.mk (key "<" [60] [] (by decide) (by decide)))) (key "-" [45] [] (by decide) (by decide))
    (.some (key "[" [91] [32] (by decide) (by decide)) .none .none
      (.some (.mk (b := []) (.between (b := []) (n := [49]) (b' := [32]) (b'' := []) (m := [50]) (g _ (by decide)) (.mk (by decide) (by decide))
        (g _ (by decide)) (g _ (by decide)) (.mk (by decide) (by decide))) (g _ (by decide)))) .none
      (key "]" [93] [] (by decide) (by decide))) (key "-" [45] [] (by decide) (by decide)) .none
  have r2 : Rel _ := .mk .none (key "-" [45] [] (by decide) (by decide))
    (.some (key "[" [91] [] (by decide) (by decide)) .none
      (.some (.mk (.mk (key ":" [58] [] (by decide) (by decide)) (word 82 [] (by decide) (by decide)))
        (.cons (.word (key "|" [124] [] (by decide) (by decide)) (.mk (word 83 [32] (by decide) (by decide)))) .nil))) .none
      (.some (.param (s := bytes "q") (b := []) (.mk (by decide) (by decide)) (g _ (by decide))))
      (key "]" [93] [] (by decide) (by decide))) (key "-" [45] [] (by decide) (by decide))
      (.some (.mk (key ">" [62] [] (by decide) (by decide))))
  have c1 : Clause _ := .match_ (key "MATCH" (bytes "MATCH") [32] (by decide) (by decide))
    (.more (.named (word 112 [] (by decide) (by decide)) (key "=" [61] [] (by decide) (by decide)) (.path (.mk n1 (.cons r1 n2 .nil))))
      (by decide) (key "," [44] [32] (by decide) (by decide)) (.one (.anon (.path (.mk (n3 98 [32] (by decide) (by decide)) .nil)))))
    .nil (.some (.mk (key "WHERE" (bytes "WHERE") [32] (by decide) (by decide))
      (.property (s := bytes "x") (b' := []) (b := [32]) (.operand (s := bytes "a") (b := []) (.name (.mk (.mk (by decide) (by decide)) (by decide +kernel))) (g _ (by decide)))
        (g _ (by decide)) (.mk (by decide) (by decide)) (g _ (by decide)))))
  have c2 : Clause _ := .create (key "CREATE" (bytes "CREATE") [32] (by decide) (by decide))
    (.one (.anon (.path (.mk (n3 97 [] (by decide) (by decide)) (.cons r2 (n3 98 [] (by decide) (by decide)) .nil)))))
  have h := Text.last (b := []) (g _ (by decide)) (.mk .nil (.query .nil c1 (.more c2 (.done .endOfText)))) (by decide +kernel)
  have conv : ∀ {u ks}, Text ks u → u = ex2 → Text ks ex2 := fun h e => e ▸ h
  exact conv h (by decide +kernel)

def ex3 : List UInt8 := bytes
  "MATCH (n) USING SCAN n:L MERGE (n) ON CREATE SET n.k=1, n:B REMOVE n.x FOREACH(i IN $xs|SET i+=$m) CALL a.b(1) YIELD c AS d LOAD CSV FROM $u AS r FIELDTERMINATOR ';'"

/-- Changes, a loop, a call and a file. -/
theorem ex3_text : Text [true] ex3 := by
  have g : ∀ b, b = [] ∨ b = [32] → Gap b := by
    rintro b (rfl | rfl) <;> exact gap_of (by decide)
  have key : ∀ (x : String) (s b : List UInt8), s.map upper = bytes x → (b = [] ∨ b = [32]) →
      Key x ⟨.operand, s, b⟩ := fun x s b h h' => .mk h (g b h')
  have kw : ∀ (x : String), (bytes x).map upper = bytes x → Key x ⟨.operand, bytes x, [32]⟩ := fun x h => .mk h (g _ (by decide))
  have word : ∀ (c : UInt8) (b : List UInt8), letter c = true → (b = [] ∨ b = [32]) → Ident ⟨.operand, [c], b⟩ :=
    fun c b h h' => .mk (.mk (.inl h) (by simp)) (g b h')
  have var : ∀ (c : UInt8) (b : List UInt8), letter c = true → [c].map upper ∉ reserved → (b = [] ∨ b = [32]) → Var ⟨.operand, [c], b⟩ :=
    fun c b h h' h'' => .mk (.mk (.mk (.inl h) (by simp)) h') (g b h'')
  have num : ∀ (c : UInt8), digit c = true → Exprn [⟨.operand, [c], []⟩] := fun c h =>
    .operand (.number (by simp) (by simpa using h)) (g _ (by decide))
  have param : ∀ (c : UInt8) (b : List UInt8), letter c = true → (b = [] ∨ b = [32]) → Exprn [⟨.operand, [36, c], b⟩] := fun c b h h' =>
    .operand (.param (.mk (.inl h) (by simp))) (g b h')
  have n1 : Node _ := .mk (key "(" [40] [] (by decide) (by decide)) (.some (.mk (word 110 [] (by decide) (by decide)))) .nil .none
    (key ")" [41] [32] (by decide) (by decide))
  have lab : ∀ (c : UInt8) (b : List UInt8), letter c = true → (b = [] ∨ b = [32]) → Label _ := fun c b h h' =>
    .mk (key ":" [58] [] (by decide) (by decide)) (word c b h h')
  have tgt : ∀ (c : UInt8) (b : List UInt8), letter c = true → (b = [] ∨ b = [32]) → Target _ := fun c b h h' =>
    .mk (s := [110]) (b := []) (.name (.mk (.mk (by decide) (by decide)) (by decide +kernel))) (g _ (by decide))
      (.one (b' := []) (s := [c]) (b := b) (g _ (by decide)) (.mk (.inl h) (by simp)) (g b h'))
  have c1 : Clause _ := .match_ (kw "MATCH" (by decide +kernel)) (.one (.anon (.path (.mk n1 .nil))))
    (.cons (.scan (.cons (kw "USING" (by decide +kernel)) (.cons (kw "SCAN" (by decide +kernel)) .nil)) (word 110 [] (by decide) (by decide))
      (lab 76 [32] (by decide) (by decide))) .nil) .none
  have c2 : Clause _ := .merge (kw "MERGE" (by decide +kernel)) (.anon (.path (.mk n1 .nil)))
    (.cons (.onCreate (.cons (kw "ON" (by decide +kernel)) (.cons (kw "CREATE" (by decide +kernel)) .nil)) (kw "SET" (by decide +kernel))
      (.mk (.property (tgt 107 [] (by decide) (by decide)) (key "=" [61] [] (by decide) (by decide)) (num 49 (by decide)))
        (.cons (key "," [44] [32] (by decide) (by decide)) (.labels (var 110 [] (by decide) (by decide +kernel) (by decide))
          (.mk (lab 66 [32] (by decide) (by decide)) .nil)) .nil))) .nil)
  have c3 : Clause _ := .remove (kw "REMOVE" (by decide +kernel)) (.mk (.property (tgt 120 [32] (by decide) (by decide))) .nil)
  have c4 : Clause _ := .foreach (key "FOREACH" (bytes "FOREACH") [] (by decide) (by decide)) (key "(" [40] [] (by decide) (by decide))
    (word 105 [32] (by decide) (by decide)) (kw "IN" (by decide +kernel))
    (.operand (s := bytes "$xs") (b := []) (.param (.mk (by decide) (by decide))) (g _ (by decide))) (key "|" [124] [] (by decide) (by decide))
    (.one (.set (kw "SET" (by decide +kernel)) (.mk (.merge (var 105 [] (by decide) (by decide +kernel) (by decide))
      (key "+=" [43, 61] [] (by decide) (by decide)) (param 109 [] (by decide) (by decide))) .nil))) (key ")" [41] [32] (by decide) (by decide))
  have c5 : Clause _ := .call (kw "CALL" (by decide +kernel))
    (.more (word 97 [] (by decide) (by decide)) (key "." [46] [] (by decide) (by decide)) (.one (word 98 [] (by decide) (by decide))))
    (.some (.mk (key "(" [40] [] (by decide) (by decide)) (.some (.mk (num 49 (by decide)) .nil)) (key ")" [41] [32] (by decide) (by decide))))
    (.some (.some (kw "YIELD" (by decide +kernel)) (.mk (.named (word 99 [32] (by decide) (by decide)) (kw "AS" (by decide +kernel))
      (word 100 [32] (by decide) (by decide))) .nil))) .none
  have c6 : Clause _ := .load (.cons (kw "LOAD" (by decide +kernel)) (.cons (kw "CSV" (by decide +kernel)) .nil)) (kw "FROM" (by decide +kernel))
    (param 117 [32] (by decide) (by decide)) (kw "AS" (by decide +kernel)) (word 114 [32] (by decide) (by decide))
    (.some (.mk (kw "FIELDTERMINATOR" (by decide +kernel)) (.mk (q := 39) (body := [59]) (b := []) (by decide) (by decide) (g _ (by decide)))))
  have h := Text.last (b := []) (g _ (by decide)) (.mk .nil (.query .nil c1 (.more c2 (.more c3 (.more c4 (.more c5 (.more c6 (.done .endOfText)))))))) (by decide +kernel)
  have conv : ∀ {u ks}, Text ks u → u = ex3 → Text ks ex3 := fun h e => e ▸ h
  exact conv h (by decide +kernel)

def ex4 : List UInt8 := bytes
  "RETURN CASE x WHEN 1 THEN [i IN l WHERE i|i] ELSE a.f(DISTINCT 2, 3)END+count( * ), all(i IN l), reduce(s=0, i IN l|s);"

/-- Operands that consist of several pieces. -/
example : Text [true] ex4 := by
  have g : ∀ b, b = [] ∨ b = [32] → Gap b := by
    rintro b (rfl | rfl) <;> exact gap_of (by decide)
  have key : ∀ (x : String) (s b : List UInt8), s.map upper = bytes x → (b = [] ∨ b = [32]) →
      Key x ⟨.operand, s, b⟩ := fun x s b h h' => .mk h (g b h')
  have kw : ∀ (x : String), (bytes x).map upper = bytes x → Key x ⟨.operand, bytes x, [32]⟩ := fun x h => .mk h (g _ (by decide))
  have word : ∀ (c : UInt8) (b : List UInt8), letter c = true → (b = [] ∨ b = [32]) → Ident ⟨.operand, [c], b⟩ :=
    fun c b h h' => .mk (.mk (.inl h) (by simp)) (g b h')
  have var : ∀ (s b : List UInt8), Symbolic s → s.map upper ∉ reserved → (b = [] ∨ b = [32]) → Var ⟨.operand, s, b⟩ :=
    fun s b h h' h'' => .mk (.mk h h') (g b h'')
  have num : ∀ (c : UInt8) (b : List UInt8), digit c = true → (b = [] ∨ b = [32]) → Exprn [⟨.operand, [c], b⟩] := fun c b h h' =>
    .operand (.number (by simp) (by simpa using h)) (g b h')
  have name : ∀ (c : UInt8) (b : List UInt8), letter c = true → [c].map upper ∉ reserved → (b = [] ∨ b = [32]) →
      Exprn [⟨.operand, [c], b⟩] := fun c b h h' h'' => .operand (.name (.mk (.mk (.inl h) (by simp)) h')) (g b h'')
  have l1 : Compound Exprn _ := .list (key "[" [91] [] (by decide) (by decide)) (word 105 [32] (by decide) (by decide)) (kw "IN" (by decide +kernel))
    (name 108 [32] (by decide) (by decide +kernel) (by decide))
    (.some (.mk (kw "WHERE" (by decide +kernel)) (name 105 [] (by decide) (by decide +kernel) (by decide))))
    (.some (.mk (key "|" [124] [] (by decide) (by decide)) (name 105 [] (by decide) (by decide +kernel) (by decide))))
    (key "]" [93] [] (by decide) (by decide))
  have f1 : Compound Exprn _ := .call
    (.more (var [97] [] (.mk (by decide) (by decide)) (by decide +kernel) (by decide)) (key "." [46] [] (by decide) (by decide))
      (.one (word 102 [] (by decide) (by decide)))) (key "(" [40] [] (by decide) (by decide)) (.some (.mk (kw "DISTINCT" (by decide +kernel))))
    (.some (.mk (num 50 [] (by decide) (by decide)) (.cons (key "," [44] [32] (by decide) (by decide)) (num 51 [] (by decide) (by decide)) .nil)))
    (key ")" [41] [] (by decide) (by decide))
  have c1 : Compound Exprn _ := .caseOf (kw "CASE" (by decide +kernel)) (name 120 [32] (by decide) (by decide +kernel) (by decide))
    (by
      rintro ⟨s, r, h1, h2, -⟩
      have h3 : bytes "WHEN" = [87, 72, 69, 78] := by decide +kernel
      rw [h3] at h2
      rcases s with _ | ⟨c, s⟩
      · cases h2
      · have h4 : (120 : UInt8) = c := (List.cons.inj h1).1
        subst h4
        exact absurd (List.cons.inj h2).1 (by decide))
    (.mk (kw "WHEN" (by decide +kernel)) (num 49 [32] (by decide) (by decide)) (kw "THEN" (by decide +kernel))
      (.operand (b := [32]) (.compound l1 (by decide +kernel) (by decide)) (g _ (by decide)))) .nil
    (.some (.mk (kw "ELSE" (by decide +kernel)) (.operand (b := []) (.compound f1 (by decide +kernel) (by decide)) (g _ (by decide)))))
    (key "END" (bytes "END") [] (by decide) (by decide))
  have f2 : Compound Exprn _ := .callAll (.one (var (bytes "count") [] (.mk (by decide) (by decide)) (by decide +kernel) (by decide)))
    (key "(" [40] [32] (by decide) (by decide)) .none (key "*" [42] [32] (by decide) (by decide)) (key ")" [41] [] (by decide) (by decide))
  have a1 : Compound Exprn _ := .each (x := "ALL") (by decide) (key "ALL" (bytes "all") [] (by decide) (by decide))
    (key "(" [40] [] (by decide) (by decide)) (word 105 [32] (by decide) (by decide)) (kw "IN" (by decide +kernel))
    (name 108 [] (by decide) (by decide +kernel) (by decide)) .none (key ")" [41] [] (by decide) (by decide))
  have r1 : Compound Exprn _ := .reduce (key "REDUCE" (bytes "reduce") [] (by decide) (by decide)) (key "(" [40] [] (by decide) (by decide))
    (word 115 [] (by decide) (by decide)) (key "=" [61] [] (by decide) (by decide)) (num 48 [] (by decide) (by decide))
    (key "," [44] [32] (by decide) (by decide)) (word 105 [32] (by decide) (by decide)) (kw "IN" (by decide +kernel))
    (name 108 [] (by decide) (by decide +kernel) (by decide))
    (.some (.mk (key "|" [124] [] (by decide) (by decide)) (name 115 [] (by decide) (by decide +kernel) (by decide))))
    (key ")" [41] [] (by decide) (by decide))
  have c2 : Clause _ := .ret (kw "RETURN" (by decide +kernel)) (.mk .none (.some (.mk
    (.plain (.inf (o := .plus) (s := bytes "+") (b := []) (by decide) (.last (by decide)) (g _ (by decide))
      (.operand (b := []) (.compound c1 (by decide +kernel) (by decide)) (g _ (by decide)))
      (.operand (b := []) (.compound f2 (by decide +kernel) (by decide)) (g _ (by decide)))))
    (.cons (key "," [44] [32] (by decide) (by decide)) (.plain (.operand (b := []) (.compound a1 (by decide +kernel) (by decide)) (g _ (by decide))))
    (.cons (key "," [44] [32] (by decide) (by decide)) (.plain (.operand (b := []) (.compound r1 (by decide +kernel) (by decide)) (g _ (by decide))))
    .nil)))) .none .none .none)
  have h := Text.stmt (b := []) (g _ (by decide)) (.mk .nil (.query .nil c2 (.done .semicolon))) (by decide +kernel) .nil
  have conv : ∀ {u ks}, Text ks u → u = ex4 → Text ks ex4 := fun h e => e ▸ h
  exact conv h (by decide +kernel)

def ex5 : List UInt8 := bytes
  "EXPLAIN USING PERIODIC COMMIT 9 START n=node:i(k='v'), r=rel(1, 2) RETURN n; DROP CONSTRAINT ON (a:B) ASSERT a.c IS UNIQUE"

/-- Starting points, and a constraint. -/
example : Text [true, true] ex5 := by
  have g : ∀ b, b = [] ∨ b = [32] → Gap b := by
    rintro b (rfl | rfl) <;> exact gap_of (by decide)
  have key : ∀ (x : String) (s b : List UInt8), s.map upper = bytes x → (b = [] ∨ b = [32]) →
      Key x ⟨.operand, s, b⟩ := fun x s b h h' => .mk h (g b h')
  have kw : ∀ (x : String), (bytes x).map upper = bytes x → Key x ⟨.operand, bytes x, [32]⟩ := fun x h => .mk h (g _ (by decide))
  have word : ∀ (c : UInt8) (b : List UInt8), letter c = true → (b = [] ∨ b = [32]) → Ident ⟨.operand, [c], b⟩ :=
    fun c b h h' => .mk (.mk (.inl h) (by simp)) (g b h')
  have num : ∀ (c : UInt8) (b : List UInt8), digit c = true → (b = [] ∨ b = [32]) → Num [⟨.operand, [c], b⟩] := fun c b h h' =>
    .mk (.mk (by simp) (by simpa using h)) (g b h')
  have name : ∀ (c : UInt8) (b : List UInt8), letter c = true → [c].map upper ∉ reserved → (b = [] ∨ b = [32]) →
      Exprn [⟨.operand, [c], b⟩] := fun c b h h' h'' => .operand (.name (.mk (.mk (.inl h) (by simp)) h')) (g b h'')
  have p1 : Point _ := .mk (word 110 [] (by decide) (by decide)) (key "=" [61] [] (by decide) (by decide)) (y := "NODE") (by decide)
    (key "NODE" (bytes "node") [] (by decide) (by decide)) (.lookup (key ":" [58] [] (by decide) (by decide)) (word 105 [] (by decide) (by decide))
      (key "(" [40] [] (by decide) (by decide)) (word 107 [] (by decide) (by decide)) (key "=" [61] [] (by decide) (by decide))
      (.quoted (.mk (q := 39) (body := bytes "v") (b := []) (by decide) (by decide) (g _ (by decide)))) (key ")" [41] [] (by decide) (by decide)))
  have p2 : Point _ := .mk (word 114 [] (by decide) (by decide)) (key "=" [61] [] (by decide) (by decide)) (y := "REL") (by decide)
    (key "REL" (bytes "rel") [] (by decide) (by decide)) (.ids (key "(" [40] [] (by decide) (by decide))
      (.mk (num 49 [] (by decide) (by decide)) (.cons (key "," [44] [32] (by decide) (by decide)) (num 50 [] (by decide) (by decide)) .nil))
      (key ")" [41] [32] (by decide) (by decide)))
  have c1 : Clause _ := .start (kw "START" (by decide +kernel)) (.mk p1 (.cons (key "," [44] [32] (by decide) (by decide)) p2 .nil)) .none
  have c2 : Clause _ := .ret (kw "RETURN" (by decide +kernel)) (.mk .none (.some (.mk (.plain (name 110 [] (by decide) (by decide +kernel) (by decide)))
    .nil)) .none .none .none)
  have o1 : Commit _ := .mk (.cons (kw "USING" (by decide +kernel)) (.cons (kw "PERIODIC" (by decide +kernel)) (.cons (kw "COMMIT" (by decide +kernel)) .nil)))
    (.some (num 57 [32] (by decide) (by decide)))
  have s1 : Schema _ := .node (x := "DROP") (by decide) (.cons (kw "DROP" (by decide +kernel)) (.cons (kw "CONSTRAINT" (by decide +kernel))
    (.cons (kw "ON" (by decide +kernel)) .nil))) (key "(" [40] [] (by decide) (by decide)) (word 97 [] (by decide) (by decide))
    (.mk (key ":" [58] [] (by decide) (by decide)) (word 66 [] (by decide) (by decide))) (key ")" [41] [32] (by decide) (by decide))
    (kw "ASSERT" (by decide +kernel)) (.property (s := bytes "c") (b' := []) (b := [32]) (name 97 [] (by decide) (by decide +kernel) (by decide))
      (g _ (by decide)) (.mk (by decide) (by decide)) (g _ (by decide)))
    (.some (.cons (kw "IS" (by decide +kernel)) (.cons (key "UNIQUE" (bytes "UNIQUE") [] (by decide) (by decide)) .nil)))
  have h := Text.stmt (b := []) (g _ (by decide)) (.mk (.cons (.explain (kw "EXPLAIN" (by decide +kernel))) .nil)
    (.query (.cons o1 .nil) c1 (.more c2 (.done .semicolon)))) (by decide +kernel)
    (.last (b := [32]) (g _ (by decide)) (.mk .nil (.schema s1 .endOfText)) (by decide +kernel))
  have conv : ∀ {u ks}, Text ks u → u = ex5 → Text ks ex5 := fun h e => e ▸ h
  exact conv h (by decide +kernel)

/-! ## C46: white space before a comma in a pattern -/

/-- C46 fails. `pattern` (parser.leg:706-710) has white space after a comma and at its end, but none before a comma. -/
theorem comma_rejected : (∃ L, YieldsP streamSource (bytes "MATCH (a), (b) RETURN a;") plainCfg false L ∧ ∀ s ∈ L, s.errors = []) ∧
    ∃ L, YieldsP streamSource (bytes "MATCH (a) , (b) RETURN a;") plainCfg false L ∧ ∃ s ∈ L, s.errors ≠ [] := by
  constructor
  · obtain ⟨L, h1, h2⟩ := yields_of_test (S := streamSource)
      (src := bytes "MATCH (a), (b) RETURN a;") (cfg := plainCfg) (only := false) (fuel := 150)
      (fun L => L.all fun s => s.errors.isEmpty) (by decide +kernel)
    exact ⟨L, h1, by simpa using h2⟩
  · obtain ⟨L, h1, h2⟩ := yields_of_test (S := streamSource)
      (src := bytes "MATCH (a) , (b) RETURN a;") (cfg := plainCfg) (only := false) (fuel := 150)
      (fun L => L.any fun s => !s.errors.isEmpty) (by decide +kernel)
    exact ⟨L, h1, by simpa using h2⟩

/-- C46, what is left of it: with nothing before the commas, any white space may stand between the other parts of the
pattern of a clause. The full statement, without that condition of `Pattern.more`, is refuted by `comma_rejected`. -/
theorem pattern_blanks_partial {S : Source σ} {src : σ} {P : List Piece} {b b' : List UInt8} (hb : Gap b) (hb0 : b ≠ []) (hb' : Gap b')
    (hP : Pattern P) (hs : Spaced (⟨.operand, bytes "MATCH", b⟩ :: (P ++ [⟨.operand, bytes "RETURN", b⟩, ⟨.operand, bytes "*", b'⟩, ⟨.operand, [59], []⟩])))
    {w : List UInt8} (hw : w = bytes "MATCH" ++ b ++ render P ++ bytes "RETURN" ++ b ++ bytes "*" ++ b' ++ [59])
    (hd : Delivers S src w) (h1 : 96 ∉ w) (h2 : ¬ Commented w) (cfg : Config) (only : Bool) :
    ∃ seg, YieldsP S src cfg only [seg] ∧ seg.directive.isSome = true ∧ seg.errors = [] := by
  have c1 : Clause _ := .match_ (.mk (s := bytes "MATCH") (b := b) (by decide +kernel) hb) hP .nil .none
  have c2 : Clause _ := .ret (.mk (s := bytes "RETURN") (b := b) (by decide +kernel) hb)
    (.mk .none (.star (.mk (s := bytes "*") (b := b') (by decide +kernel) hb') .nil) .none .none .none)
  have h : Text [true] w := by
    have := Text.stmt (b := []) .nil (.mk .nil (.query .nil c1 (.more c2 (.done .semicolon)))) (by simpa using hs) .nil
    simpa [hw, render, render_append] using this
  obtain ⟨L, g1, g2, g3⟩ := text_accepted h hd h1 h2 cfg only
  obtain ⟨seg, rfl⟩ := List.length_eq_one_iff.1 (by simpa using congrArg List.length g2)
  exact ⟨seg, g1, by simpa using g2, g3 seg (by simp)⟩

end Verif.Stmts
