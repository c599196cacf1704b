import Verif.Data.Ast
/-!
# C03 (`instanceof`) and C04 (ordinals)
-/
namespace Verif

/-! ## C03 -/

/-- Specification: `t` is a (reflexive, transitive) subtype of `u` by the declared parents. -/
inductive SubType : AstType → AstType → Prop
  | refl (t) : SubType t t
  | step {t p u} : p ∈ t.parents → SubType p u → SubType t u

/-- Height of a type in the hierarchy. -/
def typeRank : AstType → Nat
  | t => if t.parents = [] then 0
    else if t.parents.all (fun p => p.parents = []) then 1
    else if t.parents.all (fun p => p.parents.all (fun q => q.parents = [])) then 2 else 3

theorem all_complete (t : AstType) : t ∈ AstType.all := by cases t <;> decide

theorem forall_types {P : AstType → Prop} [DecidablePred P] (h : ∀ t ∈ AstType.all, P t) (t : AstType) :
    P t := h t (all_complete t)

theorem typeRank_lt : ∀ t : AstType, ∀ p ∈ t.parents, typeRank p < typeRank t :=
  forall_types (by decide +kernel)

theorem typeRank_le : ∀ t : AstType, typeRank t ≤ 3 := forall_types (by decide +kernel)

theorem vtInstanceof_sound {u : AstType} {target : Option AstType} :
    ∀ (fuel : Nat) (t : AstType), target = some u → vtInstanceof target fuel t = true → SubType t u := by
  intro fuel
  induction fuel with
  | zero => intro t _ h; simp [vtInstanceof] at h
  | succ fuel ih =>
    intro t ht h
    unfold vtInstanceof at h
    split at h
    · rename_i he
      rw [ht] at he
      cases he
      exact .refl _
    · obtain ⟨p, hp, hp'⟩ := List.any_eq_true.1 h
      exact .step hp (ih p ht hp')

theorem vtInstanceof_complete {t u : AstType} (h : SubType t u) :
    ∀ fuel, typeRank t < fuel → vtInstanceof (some u) fuel t = true := by
  induction h with
  | refl t => intro fuel hf; cases fuel with
    | zero => omega
    | succ fuel => simp [vtInstanceof]
  | step hp _ ih =>
    intro fuel hf
    cases fuel with
    | zero => omega
    | succ fuel =>
      unfold vtInstanceof
      split
      · rfl
      · exact List.any_eq_true.2 ⟨_, hp, ih fuel (by have := typeRank_lt _ _ hp; omega)⟩

/-- **C03 (partial).** For every node type other than the abstract `comment` (no node has that type)
and every target type other than `comment`, `instanceof` answers exactly the declared subtype
relation.  *Missing:* the target `comment`, for which the answer is wrong
(`instanceof_comment_always_false`). -/
theorem instanceof_spec_partial (t u : AstType) (ht : t ≠ .comment) (hu : u ≠ .comment) :
    ∃ b, instanceof t u = .ok b ∧ (b = true ↔ SubType t u) := by
  have h1 : t.vtPtr = some t := by revert ht; cases t <;> simp [AstType.vtPtr]
  have h2 : u.vtPtr = some u := by revert hu; cases u <;> simp [AstType.vtPtr]
  refine ⟨_, by simp only [instanceof, h1]; rfl, ?_⟩
  rw [h2]
  constructor
  · exact vtInstanceof_sound _ _ rfl
  · intro h
    apply vtInstanceof_complete h
    have := typeRank_le t
    have : AstType.all.length = 113 := by decide
    omega

example : instanceof .shortestPath .expression = .ok true := by decide
example : ∃ b, instanceof .filter_ .expression = .ok b ∧ (b = true ↔ SubType .filter_ .expression) :=
  instanceof_spec_partial _ _ (by decide) (by decide)

/-- **C03 (negation).** No node is ever reported as an instance of `CYPHER_AST_COMMENT`, although line
and block comments are declared as its subtypes. -/
theorem instanceof_comment_always_false :
    (∀ t, t ≠ AstType.comment → instanceof t .comment = .ok false) ∧
    SubType .lineComment .comment ∧ SubType .blockComment .comment := by
  refine ⟨?_, .step (p := .comment) (by decide) (.refl _), .step (p := .comment) (by decide) (.refl _)⟩
  intro t ht
  exact forall_types (P := fun t => t ≠ AstType.comment → instanceof t .comment = .ok false)
    (by decide +kernel) t ht

/-- **C03 (names).** `typestr` has a name for every type that a node can have, and dereferences NULL
for `comment`. -/
theorem typestr_spec : typestr .comment = .error .outOfBounds ∧
    ∀ t : AstType, t ≠ .comment → ∃ s, typestr t = .ok s :=
  ⟨rfl, fun t ht => by
    have h1 : t.vtPtr = some t := by revert ht; cases t <;> simp [AstType.vtPtr]
    exact ⟨_, by simp only [typestr, h1]; rfl⟩⟩

/-! ## C04 -/

mutual
/-- Specification: ordinals of a tree in depth-first pre-order. -/
def Ast.preorder : Ast → List Nat
  | .node _ _ o _ cs => o :: preorderList cs
def preorderList : List Ast → List Nat
  | [] => []
  | c :: cs => c.preorder ++ preorderList cs
end

mutual
/-- Specification: number of nodes. -/
def Ast.size : Ast → Nat
  | .node _ _ _ _ cs => 1 + sizeList cs
def sizeList : List Ast → Nat
  | [] => 0
  | c :: cs => c.size + sizeList cs
end

mutual
/-- Specification: the tree without ordinals. -/
def Ast.erase : Ast → Ast
  | .node t r _ x cs => .node t r 0 x (eraseList cs)
def eraseList : List Ast → List Ast
  | [] => []
  | c :: cs => c.erase :: eraseList cs
end

mutual
theorem setOrdinals_spec : ∀ (t : Ast) (n : Nat),
    (t.setOrdinals n).2 = n + t.size ∧
    (t.setOrdinals n).1.preorder = List.range' n t.size ∧
    (t.setOrdinals n).1.erase = t.erase
  | .node ty r o x cs, n => by
    obtain ⟨h1, h2, h3⟩ := setOrdinalsList_spec cs (n + 1)
    simp only [Ast.setOrdinals, Ast.size, Ast.preorder, Ast.erase, h1, h2, h3]
    refine ⟨by omega, ?_, trivial⟩
    rw [Nat.add_comm 1, List.range'_succ]
theorem setOrdinalsList_spec : ∀ (ts : List Ast) (n : Nat),
    (Ast.setOrdinalsList ts n).2 = n + sizeList ts ∧
    preorderList (Ast.setOrdinalsList ts n).1 = List.range' n (sizeList ts) ∧
    eraseList (Ast.setOrdinalsList ts n).1 = eraseList ts
  | [], n => by simp [Ast.setOrdinalsList, sizeList, preorderList, eraseList]
  | c :: cs, n => by
    obtain ⟨h1, h2, h3⟩ := setOrdinals_spec c n
    obtain ⟨g1, g2, g3⟩ := setOrdinalsList_spec cs (c.setOrdinals n).2
    simp only [Ast.setOrdinalsList, sizeList, preorderList, eraseList, g1, g2, g3, h2, h3]
    rw [h1]
    refine ⟨by omega, ?_, trivial⟩
    rw [List.range'_append_1]
end

/-- **C04.** Numbering the roots of a segment from `n` gives the nodes the ordinals
`n, n+1, …` in depth-first pre-order, each exactly once; the returned next ordinal minus `n` is the
number of nodes; nothing but ordinals changes. -/
theorem ordinals_preorder (roots : List Ast) (n : Nat) :
    preorderList (Ast.setOrdinalsList roots n).1 = List.range' n (sizeList roots) ∧
    (preorderList (Ast.setOrdinalsList roots n).1).Nodup ∧
    (Ast.setOrdinalsList roots n).2 - n = sizeList roots ∧
    eraseList (Ast.setOrdinalsList roots n).1 = eraseList roots := by
  obtain ⟨h1, h2, h3⟩ := setOrdinalsList_spec roots n
  exact ⟨h2, by rw [h2]; exact List.nodup_range', by omega, h3⟩

example : preorderList (Ast.setOrdinalsList
    [.node .statement default 0 [] [.node .query default 0 [] [], .node .query default 0 [] []],
     .node .command default 0 [] []] 7).1 = [7, 8, 9, 10] := by
  rw [(ordinals_preorder _ 7).1]; decide

end Verif
