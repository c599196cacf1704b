import Verif.Cypher.Pieces
/-!
# Properties C28 and C29 of the main parser

Every string written between quotes and every name written between backquotes is found again in the
tree.
-/
namespace Verif
open Verif.Peg Verif.Cypher Verif.Text List

variable {σ : Type}

mutual
/-- The types of the nodes of a tree, parents first. -/
def _root_.Verif.Cypher.Node.types : Node → List AstType
  | .mk _ c _ _ _ _ _ l => c.ty :: Node.typess l
def _root_.Verif.Cypher.Node.typess : List Node → List AstType
  | [] => []
  | n :: l => n.types ++ Node.typess l
end

mutual
/-- The texts of the nodes of a type, parents first. -/
def _root_.Verif.Cypher.Node.textsOf (ty : AstType) : Node → List (List UInt8)
  | .mk _ c _ _ _ t _ l => (bif c.ty == ty then [t] else []) ++ Node.textssOf ty l
def _root_.Verif.Cypher.Node.textssOf (ty : AstType) : List Node → List (List UInt8)
  | [] => []
  | n :: l => n.textsOf ty ++ Node.textssOf ty l
end

mutual
/-- The texts of the nodes of a type come from the string buffer. -/
def fromBuffer (ty : AstType) : Node → Bool
  | .mk _ c _ _ _ _ _ l => (c.ty != ty || c.terminal == some .strbuf) && fromBuffers ty l
def fromBuffers (ty : AstType) : List Node → Bool
  | [] => true
  | n :: l => fromBuffer ty n && fromBuffers ty l
end

mutual
theorem nodeSh_types {K : Look} : ∀ {n n' : Node}, NodeSh K n n' → n'.types = n.types
  | .mk .., .mk .., .mk _ _ _ h => by
    simp only [Node.types, nodeShs_types h]
theorem nodeShs_types {K : Look} : ∀ {l l' : List Node}, Forall₂ (NodeSh K) l l' →
    Node.typess l' = Node.typess l
  | [], [], .nil => rfl
  | n :: l, n' :: l', .cons h hs => by
    simp only [Node.typess, nodeSh_types h, nodeShs_types hs]
end

mutual
theorem nodeSh_texts {K : Look} {ty : AstType} : ∀ {n n' : Node}, NodeSh K n n' → fromBuffer ty n = true →
    n'.textsOf ty = (n.textsOf ty).map K.fill
  | .mk _ c _ _ _ t _ l, .mk .., .mk ht _ _ h, hb => by
    simp only [fromBuffer, Bool.and_eq_true, Bool.or_eq_true] at hb
    simp only [Node.textsOf, nodeShs_texts h hb.2, List.map_append]
    cases hc : c.ty == ty with
    | false => rfl
    | true =>
      have : c.terminal = some .strbuf := by
        rcases hb.1 with h1 | h1
        · simp only [bne, hc] at h1; cases h1
        · exact beq_iff_eq.1 h1
      simp only [cond, ht this, List.map_cons, List.map_nil]
theorem nodeShs_texts {K : Look} {ty : AstType} : ∀ {l l' : List Node}, Forall₂ (NodeSh K) l l' →
    fromBuffers ty l = true → Node.textssOf ty l' = (Node.textssOf ty l).map K.fill
  | [], [], .nil, _ => rfl
  | n :: l, n' :: l', .cons h hs, hb => by
    simp only [fromBuffers, Bool.and_eq_true] at hb
    simp only [Node.textssOf, nodeSh_texts h hb.1, nodeShs_texts hs hb.2, List.map_append]
end

/-- The template, run, has one tree with nodes of the types `tys`, and one text from the hole among the
texts of type `ty`, with `a` before and `b` after. -/
def Found (T : Tmpl) (only : Bool) (fuel : Nat) (ty : AstType) (tys : List AstType)
    (a b : List (List UInt8)) : Bool :=
  match T.tree only fuel with
  | some (ns, res, _) => Node.typess ns == tys && Node.textssOf ty ns == a ++ Tmpl.mark :: b &&
      !a.contains Tmpl.mark && !b.contains Tmpl.mark && fromBuffers ty ns && res.isSome
  | none => false

theorem fill_others {K : Look} (hk : K.mark = Tmpl.mark) {a : List (List UInt8)}
    (h : (!a.contains Tmpl.mark) = true) : a.map K.fill = a := by
  induction a with
  | nil => rfl
  | cons x a ih =>
    simp only [List.contains_cons, Bool.not_or, Bool.and_eq_true] at h
    rw [List.map_cons, ih h.2]
    have : x ≠ Tmpl.mark := fun e => by simp [e] at h
    simp [Look.fill, hk, this]

/-- A statement that is one segment without errors, with the types of the nodes and the texts of one
type. -/
def OneTree (S : Source σ) (src : σ) (cfg : Config) (only : Bool) (tys : List AstType) (ty : AstType)
    (texts : List (List UInt8)) : Prop :=
  ∃ seg, YieldsP S src cfg only [seg] ∧ seg.errors = [] ∧ seg.directive.isSome = true ∧
    Node.typess seg.roots = tys ∧ Node.textssOf ty seg.roots = texts

theorem Found.tree {T : Tmpl} {only : Bool} {fuel : Nat} {ty : AstType} {tys : List AstType}
    {a b : List (List UInt8)} (h : Found T only fuel ty tys a b = true) {F : Piece} {S : Source σ}
    {s : List UInt8} (hF : ∀ D, Feeds S D → F.Ok T S D) (hs : F.Runs T s) {src : σ}
    (hd : Delivers S src (F.whole T)) (cfg : Config) :
    OneTree S src cfg only tys ty (a ++ s :: b) := by
  unfold Found at h
  split at h
  case h_2 => cases h
  rename_i ns res eof ht
  simp only [Bool.and_eq_true, beq_iff_eq] at h
  obtain ⟨⟨⟨⟨⟨h1, h2⟩, h3⟩, h4⟩, h5⟩, h6⟩ := h
  obtain ⟨seg, g1, g2, g3, g4, hp, g5⟩ := Tmpl.parse ht hF hs hd cfg
  refine ⟨seg, g1, g2, by rw [g3]; exact h6, by rw [nodeShs_types g5, h1], ?_⟩
  rw [nodeShs_texts g5 h5, h2, List.map_append, List.map_cons, fill_others rfl h3, fill_others rfl h4]
  simp [Look.fill, Piece.look]

/-! ## C28 -/

/-- Statements with a string left out, and the types of their nodes. -/
def stringContexts : List (List UInt8 × List UInt8 × List AstType) :=
  [(ascii "RETURN ", [], [.statement, .query, .returnClause, .projection, .string, .identifier]),
   (ascii "RETURN ", ascii ";", [.statement, .query, .returnClause, .projection, .string, .identifier]),
   (ascii "MATCH (n:Person {name: ", ascii "}) RETURN n;", [.statement, .query, .match_, .pattern,
     .patternPath, .nodePattern, .identifier, .label, .map_, .propName, .string, .returnClause, .projection,
     .identifier]),
   (ascii "MATCH (n) WHERE n.name = ", ascii " RETURN n;", [.statement, .query, .match_, .pattern,
     .patternPath, .nodePattern, .identifier, .binaryOperator, .propertyOperator, .identifier, .propName,
     .string, .returnClause, .projection, .identifier]),
   (ascii "LOAD CSV FROM ", ascii " AS x RETURN x;", [.statement, .query, .loadCsv, .string, .identifier,
     .returnClause, .projection, .identifier]),
   (ascii "RETURN f(1, ", ascii ", [2, 3]) AS x;", [.statement, .query, .returnClause, .projection,
     .applyOperator, .functionName, .integer, .string, .collection, .integer, .integer, .identifier])]

theorem string_contexts_found : ∀ c ∈ stringContexts, ∀ q ∈ [39, 34], ∀ only : Bool,
    Found ⟨c.1, q, c.2.1, .r_quoted⟩ only 400 .string c.2.2 [] [] = true := by
  decide +kernel

theorem string_contexts_lines : ∀ c ∈ stringContexts, 10 ∉ c.1 := by decide +kernel

/-- C28. Whatever stands between the quotes (bytes as they are, escapes, newlines, backslashes that escape
nothing), the tree has one string node and its value is the string written. -/
theorem cypher_strings_found {c : List UInt8 × List UInt8 × List AstType} (hc : c ∈ stringContexts)
    {q : UInt8} (hq : q = 39 ∨ q = 34) {t s : List UInt8} (ht : Quoted q t s) {S : Source σ} {src : σ}
    (h : Delivers S src (c.1 ++ (q :: (t ++ [q])) ++ c.2.1)) (cfg : Config) (only : Bool) :
    OneTree S src cfg only c.2.2 .string [s] := by
  obtain ⟨F, h1, h2, h3⟩ := Pc.str_piece (T := ⟨c.1, q, c.2.1, .r_quoted⟩) S rfl hq rfl
    (string_contexts_lines c hc) ht
  refine Found.tree (string_contexts_found c hc q (by rcases hq with rfl | rfl <;> decide) only) h2 h3 ?_ cfg
  unfold Piece.whole
  rw [h1]
  exact h

/-- C28. Every byte string can be written between quotes, and is found again. -/
theorem cypher_strings_round_trip {c : List UInt8 × List UInt8 × List AstType} (hc : c ∈ stringContexts)
    {q : UInt8} (hq : q = 39 ∨ q = 34) (s : List UInt8) {S : Source σ} {src : σ}
    (h : Delivers S src (c.1 ++ (q :: (quote q s ++ [q])) ++ c.2.1)) (cfg : Config) (only : Bool) :
    OneTree S src cfg only c.2.2 .string [s] :=
  cypher_strings_found hc hq (quote_quoted hq s) h cfg only

/-! ## C29 -/

/-- Statements with a name left out, the types of their nodes, the type of the name, and other texts of
that type, before and after. -/
def nameContexts : List ((List UInt8 × List UInt8 × List AstType) × AstType × List (List UInt8) ×
    List (List UInt8)) :=
  [((ascii "RETURN ", [], [.statement, .query, .returnClause, .projection, .identifier]), .identifier, [], []),
   ((ascii "RETURN ", ascii ";", [.statement, .query, .returnClause, .projection, .identifier]),
     .identifier, [], []),
   ((ascii "MATCH (n) RETURN n AS ", ascii ";", [.statement, .query, .match_, .pattern, .patternPath,
     .nodePattern, .identifier, .returnClause, .projection, .identifier, .identifier]), .identifier,
     [ascii "n", ascii "n"], []),
   ((ascii "MATCH (", ascii ") RETURN n;", [.statement, .query, .match_, .pattern, .patternPath,
     .nodePattern, .identifier, .returnClause, .projection, .identifier]), .identifier, [], [ascii "n"]),
   ((ascii "MATCH (n:", ascii ") RETURN n;", [.statement, .query, .match_, .pattern, .patternPath,
     .nodePattern, .identifier, .label, .returnClause, .projection, .identifier]), .label, [], []),
   ((ascii "MATCH (n)-[:", ascii "]->() RETURN n;", [.statement, .query, .match_, .pattern, .patternPath,
     .nodePattern, .identifier, .relPattern, .reltype, .nodePattern, .returnClause, .projection,
     .identifier]), .reltype, [], []),
   ((ascii "RETURN n.", ascii ";", [.statement, .query, .returnClause, .projection, .propertyOperator,
     .identifier, .propName, .identifier]), .propName, [], []),
   ((ascii "RETURN $", ascii ";", [.statement, .query, .returnClause, .projection, .parameter,
     .identifier]), .parameter, [], [])]

theorem name_contexts_found : ∀ c ∈ nameContexts, ∀ only : Bool,
    Found ⟨c.1.1, 96, c.1.2.1, .r_escaped_symbolic_name⟩ only 400 c.2.1 c.1.2.2 c.2.2.1 c.2.2.2 = true := by
  decide +kernel

/-- C29. Whatever stands between the backquotes (newlines, quotes and comments among it), the tree has a
node with that name. -/
theorem cypher_names_round_trip {c : (List UInt8 × List UInt8 × List AstType) × AstType × List (List UInt8) ×
      List (List UInt8)} (hc : c ∈ nameContexts) {s : List UInt8} (hs : 96 ∉ s) {S : Source σ} {src : σ}
    (h : Delivers S src (c.1.1 ++ (96 :: (s ++ [96])) ++ c.1.2.1)) (cfg : Config) (only : Bool) :
    OneTree S src cfg only c.1.2.2 c.2.1 (c.2.2.1 ++ s :: c.2.2.2) := by
  refine Found.tree (F := Pc.backPiece c.1.1.length s) (name_contexts_found c hc only)
    (Pc.back_ok (T := ⟨c.1.1, 96, c.1.2.1, .r_escaped_symbolic_name⟩) rfl rfl hs) Pc.back_runs ?_ cfg
  exact h

/-! ## Examples -/

/-- A string with a quote, a backslash, a newline, a comment and a backquote in it. -/
example : OneTree streamSource (ascii "RETURN 'it\\'s \\\\ \n /* ` // '") plainCfg false
    [.statement, .query, .returnClause, .projection, .string, .identifier] .string
    [ascii "it's \\ \n /* ` // "] :=
  cypher_strings_round_trip (c := (ascii "RETURN ", [], _)) (by decide) (.inl rfl) (ascii "it's \\ \n /* ` // ")
    (stream_delivers _) plainCfg false

/-- A string of any length. -/
example (n : Nat) : OneTree streamSource (ascii "RETURN " ++ (34 :: (quote 34 (replicate n 92) ++ [34])) ++ ascii ";")
    plainCfg true [.statement, .query, .returnClause, .projection, .string, .identifier] .string
    [replicate n 92] :=
  cypher_strings_round_trip (c := (ascii "RETURN ", ascii ";", _)) (by decide) (.inr rfl) (replicate n 92)
    (stream_delivers _) plainCfg true

/-- A backslash that escapes nothing. -/
example : Quoted 39 (ascii "a\\z\\t") (ascii "a\\z\t") :=
  .char (by decide) (by decide) (.lone (by decide) (.char (by decide) (by decide) (.escape rfl .nil)))

/-- A label with a newline, quotes and a comment in it. -/
example : OneTree streamSource (ascii "MATCH (n:`a\n'b' /*`) RETURN n;") plainCfg false
    [.statement, .query, .match_, .pattern, .patternPath, .nodePattern, .identifier, .label,
      .returnClause, .projection, .identifier] .label [ascii "a\n'b' /*"] :=
  cypher_names_round_trip (c := ((ascii "MATCH (n:", ascii ") RETURN n;", _), .label, [], []))
    (by decide) (s := ascii "a\n'b' /*") (by decide) (stream_delivers _) plainCfg false

end Verif
