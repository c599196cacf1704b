import Verif.Props.Cypher
import Verif.Cypher.OpUnique
/-!
# Property C27 of the main parser

The operators of the tree: what `OpSpec.lean` says, of every operator node of every tree.
-/
namespace Verif
open Verif.Peg Verif.Cypher Verif.Ops List
open Verif.Quick (Blank)

variable {σ : Type}

/-! ## From the text of a segment to the whole text -/

theorem extract_drop {W : List UInt8} (m i j : Nat) : (W.drop m).extract i j = W.extract (m + i) (m + j) := by
  simp only [List.extract_eq_take_drop, List.drop_drop]
  congr 1
  omega

theorem covers_drop {o m i j : Nat} {n : Node} (h : Covers (o + m) n i j) : Covers o n (m + i) (m + j) :=
  ⟨by rw [h.1]; omega, by rw [h.2]; omega⟩

mutual
theorem is_drop {W : List UInt8} {o m : Nat} {n : Node} {t : Tree} {i j : Nat} (h : Is (W.drop m) (o + m) n t i j) :
    Is W o n t (m + i) (m + j) := by
  match h with
  | .atom h1 h2 h3 h4 => exact .atom h1 (covers_drop h2) (by omega) (by omega)
  | .paren h1 h2 h3 h4 h5 h6 h7 =>
    rw [List.getElem?_drop] at h1 h5
    rw [extract_drop] at h2 h6
    exact .paren h1 h2 (by omega) (is_drop h4) h5 h6 (by omega)
  | .pre h1 h2 h3 h4 h5 h6 h7 h8 h9 h10 =>
    rw [extract_drop] at h1 h2
    exact .pre h1 h2 (by omega) (by omega) (is_drop h5) h6 h7 h8 h9 (covers_drop h10)
  | .post h1 h2 h3 h4 h5 h6 h7 h8 h9 h10 =>
    rw [extract_drop] at h3 h4
    exact .post (is_drop h1) h2 h3 h4 (by omega) (by omega) h7 h8 h9 (covers_drop h10)
  | .bin h1 h2 h3 h4 h5 h6 h7 h8 h9 h10 h11 h12 =>
    rw [extract_drop] at h3 h4
    exact .bin (is_drop h1) h2 h3 h4 (by omega) (by omega) (is_drop h7) h8 h9 h10 h11 (covers_drop h12)
  | .chain h1 h2 h3 h4 h5 => exact .chain (chain_drop h1) h2 h3 h4 (covers_drop h5)
  | .suf h1 h2 h3 h4 h5 h6 h7 =>
    rw [extract_drop] at h3
    exact .suf (is_drop h1) h2 h3 (by omega) h5 h6 (covers_drop h7)
theorem chain_drop {W : List UInt8} {o m : Nat} {cs : List Node} {os : List Op} {t : Tree} {i j : Nat}
    (h : Chain (W.drop m) (o + m) cs os t i j) : Chain W o cs os t (m + i) (m + j) := by
  match h with
  | .cmp h1 h2 h3 h4 h5 h6 =>
    rw [extract_drop] at h2 h3
    exact .cmp (is_drop h1) h2 h3 (by omega) (by omega) (is_drop h6)
  | .more h1 h2 h3 h4 h5 h6 =>
    rw [extract_drop] at h2 h3
    exact .more (chain_drop h1) h2 h3 (by omega) (by omega) (is_drop h6)
end

theorem Segments.operators {only : Bool} {color : Colorization} {w : List UInt8} {off : Pos} {ordinal : Nat}
    {L : List PSeg} {rest : List UInt8} (h : Segments only color w off ordinal L rest)
    {W : List UInt8} {o m : Nat} (hw : w = W.drop m) (ho : off.offset = o + m) :
    ∀ s ∈ L, ∀ x ∈ s.roots, Everywhere (OperatorOk W o) x := by
  induction h generalizing m with
  | nil => simp
  | @cons w off ordinal n seg L rest h1 _ _ _ ih =>
    intro s hs x hx
    rcases List.mem_cons.1 hs with rfl | hs
    · refine (h1.operators x hx).imp fun y hy hc => ?_
      obtain ⟨t, i, j, h2, h3⟩ := hy hc
      rw [hw, ho] at h2
      exact ⟨t, _, _, is_drop h2, h3⟩
    · refine ih (m := m + n) ?_ ?_ s hs x hx
      · rw [hw, List.drop_drop]
      · have := h1.stop; omega

/-! ## C27 -/

/-- C27. Every operator node in every tree is the operator expression that stands in the source at its
range: its operators are the ones written there, in order, its operands are the nodes for the texts
around them, and the tree is the one that precedence and associativity ask for. -/
theorem cypher_operators {S : Source σ} {src : σ} {w : List UInt8} (h : Delivers S src w)
    (cfg : Config) (only : Bool) {L : List PSeg} (hL : YieldsP S src cfg only L) :
    ∀ s ∈ L, ∀ x ∈ s.roots, Everywhere (fun n => isOperator n.ctor = true →
      ∃ t i j, Is w cfg.position.offset n t i j ∧ t.Good) x := by
  obtain ⟨last, hL⟩ := hL
  rcases h.segments cfg only with ⟨e, h1, -⟩ | ⟨L', ⟨last', h1⟩, h2⟩
  · cases hL.unique h1
  · cases hL.unique h1
    exact h2.operators (m := 0) rfl rfl

/-- The operator between the operands at the top of a tree. -/
def _root_.Verif.Ops.Tree.between : Tree → Option Op
  | .bin o _ _ | .cmp o _ _ | .more o _ _ => some o
  | _ => none

/-- What a good tree means for two operators between operands, one of which is an operand of the other
without parentheses: the inner one binds tighter, or as tight if it is on the side where operators of the
level group. -/
theorem good_levels {o x : Op} {l r : Tree} (h : (Tree.bin o l r).Good ∨ (Tree.cmp o l r).Good) :
    (l.between = some x → level o < level x ∨ (level o = level x ∧ x ∉ rightwards)) ∧
    (r.between = some x → level o < level x ∨ (level o = level x ∧ o ∈ rightwards)) := by
  have h : l.Good ∧ r.Good ∧ (∀ x ∈ l.rights, ¬ Takes x o) ∧ ∀ y ∈ r.lefts, Takes o y := by
    rcases h with h | h
    · exact h
    · exact h.2
  obtain ⟨-, -, h1, h2⟩ := h
  constructor
  · intro hx
    have : x ∈ l.rights := by
      cases l <;> simp only [Tree.between, Option.some.injEq, reduceCtorEq] at hx <;> subst hx <;> simp [Tree.rights]
    have := h1 x this
    unfold Takes at this
    rcases Nat.lt_trichotomy (level o) (level x) with h | h | h
    · exact .inl h
    · exact .inr ⟨h, fun hr => this (.inr ⟨h.symm, hr⟩)⟩
    · exact absurd (.inl h) this
  · intro hx
    have : x ∈ r.lefts := by
      cases r <;> simp only [Tree.between, Option.some.injEq, reduceCtorEq] at hx <;> subst hx <;> simp [Tree.lefts]
    exact h2 x this

/-- What is written of an expression determines its good tree: `cypher_operators` leaves the parser no
choice of how to group operands. -/
theorem good_unique {t t' : Tree} (h : t.Good) (h' : t'.Good) (hf : t.flat = t'.flat) : t = t' :=
  h.unique h' hf

/-- `a-b-c*d` read as `(a-b)-(c*d)` is good; read as `a-(b-(c*d))` it is not. -/
example : let t := Tree.bin .minus (.bin .minus .atom .atom) (.bin .mult .atom .atom)
    let t' := Tree.bin .minus .atom (.bin .minus .atom (.bin .mult .atom .atom))
    t.flat = t'.flat ∧ t.Good ∧ ¬ t'.Good := by
  refine ⟨rfl, ?_, ?_⟩
  · refine ⟨⟨trivial, trivial, ?_, ?_⟩, ⟨trivial, trivial, ?_, ?_⟩, ?_, ?_⟩ <;>
      simp only [Tree.lefts, Tree.rights] <;> decide +kernel
  · intro h
    exact absurd (h.2.2.2 .minus (by simp [Tree.lefts])) (by decide +kernel)

/-- The operators of a tree, outermost first, with the ranges of their nodes. -/
def _root_.Verif.Cypher.Node.operators : Nat → Node → List (List Op × Nat × Nat)
  | 0, _ => []
  | n + 1, x =>
    (if isOperator x.ctor then [(x.ops, x.range.start.offset, x.range.stop.offset)] else []) ++
    x.children.flatMap (Node.operators n)

/-- `^` groups to the right, `-` to the left, `*` binds tighter, comparisons form a chain, and `NOT`
takes what is tighter. -/
example : ∃ L, YieldsP streamSource (ascii "RETURN a-b-c*d^e^f, NOT a<b<=c=d;") plainCfg false L ∧
    (L.flatMap fun s => s.roots.flatMap (Node.operators 20)) =
      [([.minus], 7, 18), ([.minus], 7, 10), ([.mult], 11, 18), ([.pow], 13, 18), ([.pow], 15, 18),
       ([.not], 20, 32), ([.equal], 24, 32), ([.lt, .lte], 24, 30)] := by
  obtain ⟨L, h1, h2⟩ := yields_of_test (S := streamSource)
    (src := ascii "RETURN a-b-c*d^e^f, NOT a<b<=c=d;") (cfg := plainCfg) (only := false) (fuel := 200)
    (fun L => decide ((L.flatMap fun s => s.roots.flatMap (Node.operators 20)) =
      [([.minus], 7, 18), ([.minus], 7, 10), ([.mult], 11, 18), ([.pow], 13, 18), ([.pow], 15, 18),
       ([.not], 20, 32), ([.equal], 24, 32), ([.lt, .lte], 24, 30)]))
    (by decide +kernel)
  exact ⟨L, h1, of_decide_eq_true h2⟩

/-! ### Where comparing levels is not enough -/

/-- An operator in the tree has an operator for an operand that binds less tightly. -/
def _root_.Verif.Cypher.Node.loose : Nat → Node → Bool
  | 0, _ => false
  | n + 1, x => (x.ops.any fun o => x.children.any fun c => c.ops.any fun o' => decide (level o' < level o)) ||
    x.children.any (Node.loose n)

theorem loose_fails {n : Nat} {x : Node} (h : Node.loose n x = true) :
    ¬ Everywhere (fun n => ∀ o ∈ n.ops, ∀ c ∈ n.children, ∀ o' ∈ c.ops, level o ≤ level o') x := by
  induction n generalizing x with
  | zero => cases h
  | succ n ih =>
    intro he
    cases he with
    | mk h1 h2 =>
      simp only [Node.loose, Bool.or_eq_true, List.any_eq_true, decide_eq_true_eq] at h
      rcases h with ⟨o, ho, c, hc, o', ho', hlt⟩ | ⟨c, hc, h⟩
      · have := h1 o ho c hc o' ho'
        omega
      · exact ih h (h2 c hc)

/-- An operand may bind less tightly than its operator, without parentheses: in `a*NOT b=c` the prefix
operator takes everything that it may, and there is no other way to read the text. So C27 is not a
comparison of levels, and `Tree.Good` asks for it only where there is a choice. -/
theorem levels_alone_fail : ∃ L, YieldsP streamSource (ascii "RETURN a*NOT b=c;") plainCfg false L ∧
    ∃ s ∈ L, ∃ x ∈ s.roots,
      ¬ Everywhere (fun n => ∀ o ∈ n.ops, ∀ c ∈ n.children, ∀ o' ∈ c.ops, level o ≤ level o') x := by
  obtain ⟨L, h1, h2⟩ := yields_of_test (S := streamSource)
    (src := ascii "RETURN a*NOT b=c;") (cfg := plainCfg) (only := false) (fuel := 150)
    (fun L => L.any fun s => s.roots.any (Node.loose 20)) (by decide +kernel)
  simp only [List.any_eq_true] at h2
  obtain ⟨s, hs, x, hx, h⟩ := h2
  exact ⟨L, h1, s, hs, x, hx, loose_fails h⟩

/-- `NOT` is accepted between operands: `a NOT b` is a binary operator (parser.leg:512). -/
theorem not_between : ∃ L, YieldsP streamSource (ascii "RETURN a NOT b;") plainCfg false L ∧
    (L.flatMap fun s => s.roots.flatMap (Node.operators 20)) = [([.not], 7, 14)] ∧ ∀ s ∈ L, s.errors = [] := by
  obtain ⟨L, h1, h2⟩ := yields_of_test (S := streamSource)
    (src := ascii "RETURN a NOT b;") (cfg := plainCfg) (only := false) (fuel := 150)
    (fun L => decide ((L.flatMap fun s => s.roots.flatMap (Node.operators 20)) = [([.not], 7, 14)] ∧
      ∀ s ∈ L, s.errors = [])) (by decide +kernel)
  exact ⟨L, h1, of_decide_eq_true h2⟩

end Verif
