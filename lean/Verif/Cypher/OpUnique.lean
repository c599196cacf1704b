import Verif.Cypher.OpSpec
/-!
# Operators: there is only one good tree

What is written of a tree determines it, if the tree is good. The proof reads the tokens from left to
right, as precedence climbing does, and shows that it arrives at every good tree from what is written
of it.
-/
namespace Verif.Ops
open Verif.Cypher

/-- What is written of an expression, blanks and the texts of operands aside. -/
inductive Tok where
  | leaf | opening | closing
  | pre (o : Op) | post (o : Op) | suf (o : Op) | inf (o : Op) | cmp (o : Op)

namespace Tree

/-- The tokens of a tree, in order. -/
def flat : Tree → List Tok
  | .atom => [.leaf]
  | .paren t => .opening :: (t.flat ++ [.closing])
  | .pre o r => .pre o :: r.flat
  | .post o l => l.flat ++ [.post o]
  | .suf o l => l.flat ++ [.suf o]
  | .bin o l r => l.flat ++ .inf o :: r.flat
  | .cmp o l r | .more o l r => l.flat ++ .cmp o :: r.flat

end Tree

instance (x y : Op) : Decidable (Takes x y) := by unfold Takes; infer_instance

/-- The operand after `k` goes on with `y`. -/
def goesOn : Option Op → Op → Bool
  | none, _ => true
  | some x, y => decide (Takes x y)

mutual
/-- An operand without what follows it. -/
def climbPrim : Nat → List Tok → Option (Tree × List Tok)
  | _ + 1, .leaf :: u => some (.atom, u)
  | n + 1, .opening :: u =>
    match climb n none u with
    | some (t, .closing :: v) => some (.paren t, v)
    | _ => none
  | n + 1, .pre o :: u =>
    match climb n (some o) u with
    | some (r, v) => some (.pre o r, v)
    | none => none
  | _, _ => none
/-- The operand after `k`. -/
def climb : Nat → Option Op → List Tok → Option (Tree × List Tok)
  | n + 1, k, u =>
    match climbPrim n u with
    | some (t, v) => climbLoop n k t v
    | none => none
  | 0, _, _ => none
/-- What follows an operand. -/
def climbLoop : Nat → Option Op → Tree → List Tok → Option (Tree × List Tok)
  | n + 1, k, c, .post o :: v => if goesOn k o then climbLoop n k (.post o c) v else some (c, .post o :: v)
  | n + 1, k, c, .suf o :: v => if goesOn k o then climbLoop n k (.suf o c) v else some (c, .suf o :: v)
  | n + 1, k, c, .inf o :: v =>
    if goesOn k o then
      match climb n (some o) v with
      | some (r, v') => climbLoop n k (.bin o c r) v'
      | none => none
    else some (c, .inf o :: v)
  | n + 1, k, c, .cmp o :: v =>
    if goesOn k o then
      match climb n (some o) v with
      | some (r, v') => climbLoop n k (if c.isChain then .more o c r else .cmp o c r) v'
      | none => none
    else some (c, .cmp o :: v)
  | _ + 1, _, c, u => some (c, u)
  | 0, _, _, _ => none
end

/-- The operator that would go on. -/
def following : List Tok → Option Op
  | .post o :: _ | .suf o :: _ | .inf o :: _ | .cmp o :: _ => some o
  | _ => none

/-- With enough fuel the outcome is `r`. -/
def Ends (f : Nat → Option (Tree × List Tok)) (r : Tree × List Tok) : Prop := ∃ n, ∀ m, n ≤ m → f m = some r

theorem Ends.unique {f : Nat → Option (Tree × List Tok)} {r r' : Tree × List Tok} (h : Ends f r) (h' : Ends f r') :
    r = r' := by
  obtain ⟨n, h⟩ := h
  obtain ⟨n', h'⟩ := h'
  have h1 := h (max n n') (by omega)
  rw [h' (max n n') (by omega)] at h1
  exact (Option.some.inj h1).symm

theorem Ends.of {f : Nat → Option (Tree × List Tok)} {r : Tree × List Tok} (n : Nat)
    (h : ∀ m, n ≤ m → f (m + 1) = some r) : Ends f r := by
  refine ⟨n + 1, fun m hm => ?_⟩
  obtain ⟨m, rfl⟩ : ∃ m', m = m' + 1 := ⟨m - 1, by omega⟩
  exact h m (by omega)

theorem loop_stop {k : Option Op} {c : Tree} {u : List Tok} (h : ∀ y, following u = some y → goesOn k y = false) :
    Ends (fun n => climbLoop n k c u) (c, u) := by
  refine Ends.of 0 fun m _ => ?_
  cases u with
  | nil => simp [climbLoop]
  | cons a u => cases a <;> simp_all [climbLoop, following]

/-- Reading what is written of a good tree arrives at the tree. -/
theorem arrives {t : Tree} (hg : t.Good) : ∀ {k : Option Op} {u : List Tok} {r : Tree × List Tok},
    (∀ y ∈ t.lefts, goesOn k y = true) →
    (∀ y, following u = some y → ∀ x ∈ t.rights, ¬ Takes x y) →
    Ends (fun n => climbLoop n k t u) r → Ends (fun n => climb n k (t.flat ++ u)) r := by
  -- a right operand is read in full
  have full : ∀ {o : Op} {r : Tree} {u : List Tok},
      (∀ {k : Option Op} {u : List Tok} {r' : Tree × List Tok},
        (∀ y ∈ r.lefts, goesOn k y = true) →
        (∀ y, following u = some y → ∀ x ∈ r.rights, ¬ Takes x y) →
        Ends (fun n => climbLoop n k r u) r' → Ends (fun n => climb n k (r.flat ++ u)) r') →
      (∀ y ∈ r.lefts, Takes o y) → (∀ y, following u = some y → ∀ x ∈ o :: r.rights, ¬ Takes x y) →
      Ends (fun n => climb n (some o) (r.flat ++ u)) (r, u) := by
    intro o r u ih h1 h2
    refine ih (fun y hy => decide_eq_true (h1 y hy)) (fun y hy x hx => h2 y hy x (List.mem_cons_of_mem _ hx)) ?_
    exact loop_stop fun y hy => decide_eq_false (h2 y hy o (List.mem_cons_self ..))
  induction t with
  | atom =>
    intro k u r _ _ ⟨n, h⟩
    refine Ends.of (n + 1) fun m hm => ?_
    obtain ⟨m, rfl⟩ : ∃ m', m = m' + 1 := ⟨m - 1, by omega⟩
    simp only [Tree.flat, List.cons_append, List.nil_append, climb, climbPrim]
    exact h _ (by omega)
  | paren t ih =>
    intro k u r _ _ ⟨n, h⟩
    obtain ⟨n', h'⟩ := ih hg (k := none) (u := .closing :: u) (fun _ _ => rfl) (fun y hy => by cases hy)
      (loop_stop fun y hy => by cases hy)
    refine Ends.of (n + n' + 1) fun m hm => ?_
    obtain ⟨m, rfl⟩ : ∃ m', m = m' + 1 := ⟨m - 1, by omega⟩
    have h1 := h' m (by omega)
    simp only [Tree.flat, List.cons_append, List.append_assoc, List.nil_append, climb, climbPrim] at h1 ⊢
    rw [h1]
    exact h _ (by omega)
  | pre o t ih =>
    intro k u r _ hr ⟨n, h⟩
    obtain ⟨n', h'⟩ := full (o := o) (u := u) (ih hg.1) hg.2 hr
    refine Ends.of (n + n' + 1) fun m hm => ?_
    obtain ⟨m, rfl⟩ : ∃ m', m = m' + 1 := ⟨m - 1, by omega⟩
    have h1 := h' m (by omega)
    simp only [Tree.flat, List.cons_append, climb, climbPrim] at h1 ⊢
    rw [h1]
    exact h _ (by omega)
  | post o l ih =>
    intro k u r hl hr ⟨n, h⟩
    simp only [Tree.flat, List.append_assoc, List.cons_append, List.nil_append]
    refine ih hg.1 (fun y hy => hl y (List.mem_cons_of_mem _ hy)) (fun y hy => ?_) ?_
    · cases hy
      exact hg.2
    · refine Ends.of n fun m hm => ?_
      simp only [climbLoop, hl o (List.mem_cons_self ..), if_true]
      exact h m hm
  | suf o l ih =>
    intro k u r hl hr ⟨n, h⟩
    simp only [Tree.flat, List.append_assoc, List.cons_append, List.nil_append]
    refine ih hg.1 (fun y hy => hl y (List.mem_cons_of_mem _ hy)) (fun y hy => ?_) ?_
    · cases hy
      exact hg.2
    · refine Ends.of n fun m hm => ?_
      simp only [climbLoop, hl o (List.mem_cons_self ..), if_true]
      exact h m hm
  | bin o l t ih1 ih2 =>
    intro k u r hl hr ⟨n, h⟩
    obtain ⟨g1, g2, g3, g4⟩ := hg
    obtain ⟨n', h'⟩ := full (o := o) (u := u) (ih2 g2) g4 hr
    simp only [Tree.flat, List.append_assoc, List.cons_append]
    refine ih1 g1 (fun y hy => hl y (List.mem_cons_of_mem _ hy)) (fun y hy => ?_) ?_
    · cases hy
      exact g3
    · refine Ends.of (n + n') fun m hm => ?_
      have h1 := h' m (by omega)
      simp only at h1
      simp only [climbLoop, hl o (List.mem_cons_self ..), if_true, h1]
      exact h m (by omega)
  | cmp o l t ih1 ih2 =>
    intro k u r hl hr ⟨n, h⟩
    obtain ⟨g0, g1, g2, g3, g4⟩ := hg
    obtain ⟨n', h'⟩ := full (o := o) (u := u) (ih2 g2) g4 hr
    simp only [Tree.flat, List.append_assoc, List.cons_append]
    refine ih1 g1 (fun y hy => hl y (List.mem_cons_of_mem _ hy)) (fun y hy => ?_) ?_
    · cases hy
      exact g3
    · refine Ends.of (n + n') fun m hm => ?_
      have h1 := h' m (by omega)
      simp only at h1
      simp only [climbLoop, hl o (List.mem_cons_self ..), if_true, h1, g0, Bool.false_eq_true, if_false]
      exact h m (by omega)
  | more o l t ih1 ih2 =>
    intro k u r hl hr ⟨n, h⟩
    obtain ⟨g0, g1, g2, g3, g4⟩ := hg
    obtain ⟨n', h'⟩ := full (o := o) (u := u) (ih2 g2) g4 hr
    simp only [Tree.flat, List.append_assoc, List.cons_append]
    refine ih1 g1 (fun y hy => hl y (List.mem_cons_of_mem _ hy)) (fun y hy => ?_) ?_
    · cases hy
      exact g3
    · refine Ends.of (n + n') fun m hm => ?_
      have h1 := h' m (by omega)
      simp only at h1
      simp only [climbLoop, hl o (List.mem_cons_self ..), if_true, h1, g0]
      exact h m (by omega)

/-- There is one good tree for what is written. -/
theorem Tree.Good.unique {t t' : Tree} (h : t.Good) (h' : t'.Good) (hf : t.flat = t'.flat) : t = t' := by
  have h1 := arrives h (k := none) (u := []) (fun _ _ => rfl) (fun y hy => by cases hy)
    (loop_stop fun y hy => by cases hy)
  have h2 := arrives h' (k := none) (u := []) (fun _ _ => rfl) (fun y hy => by cases hy)
    (loop_stop fun y hy => by cases hy)
  rw [hf] at h1
  exact congrArg Prod.fst (h1.unique h2)

end Verif.Ops
