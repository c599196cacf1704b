import Verif.Props.Cypher
/-!
# Property C42 of the main parser

A node refers to the nodes that it contains: what its fields and arrays name are its children, in the order in
which they were written, and apart from comments and errors it has no other children.
-/
namespace Verif
open Verif.Peg Verif.Cypher

variable {σ : Type}

/-- C42. In every tree, the children of a node that are neither comments nor errors are the nodes it refers to,
each once: first the fields that stand before the array, then the array, then the other fields. Only a range of
one number refers to that number twice. -/
theorem cypher_fields {S : Source σ} {src : σ} {w : List UInt8} (h : Delivers S src w)
    (cfg : Config) (only : Bool) {L : List PSeg} (hL : YieldsP S src cfg only L) :
    ∀ s ∈ L, ∀ x ∈ s.roots, Everywhere (fun n =>
      let real := n.children.filter fun c => !c.ty.aside
      let refers := (n.args.take n.ctor.ahead).flatMap Option.toList ++ n.seq ++
        (n.args.drop n.ctor.ahead).flatMap Option.toList
      real.map Node.ref = refers ∨
        n.ctor = .range ∧ ∃ r, refers = [r, r] ∧ real.map Node.ref = [r]) x := by
  obtain ⟨last, hL⟩ := hL
  rcases h.segments cfg only with ⟨e, h1, -⟩ | ⟨L', ⟨last', h1⟩, h2⟩
  · cases hL.unique h1
  · cases hL.unique h1
    exact h2.all fun _ _ _ _ hs => hs.fields

/-- Nothing that was parsed is lost: a node refers to each of its children that is neither a comment nor an
error. -/
theorem cypher_children_referred {S : Source σ} {src : σ} {w : List UInt8} (h : Delivers S src w)
    (cfg : Config) (only : Bool) {L : List PSeg} (hL : YieldsP S src cfg only L) :
    ∀ s ∈ L, ∀ x ∈ s.roots, Everywhere (fun n => ∀ c ∈ n.children, c.ty.aside = false →
      some c.ref ∈ n.args ∨ c.ref ∈ n.seq) x := by
  intro s hs x hx
  refine (cypher_fields h cfg only hL s hs x hx).imp fun n hn c hc ha => ?_
  have hk : c.ref ∈ (n.children.filter fun c => !c.ty.aside).map Node.ref :=
    List.mem_map_of_mem (List.mem_filter.2 ⟨hc, by simp [ha]⟩)
  have hr : c.ref ∈ (n.args.take n.ctor.ahead).flatMap Option.toList ++ n.seq ++
      (n.args.drop n.ctor.ahead).flatMap Option.toList := by
    rcases hn with hn | ⟨-, r, h1, h2⟩
    · rw [← hn]; exact hk
    · rw [h2] at hk; rw [h1]; simpa using hk
  simp only [List.mem_append, List.mem_flatMap, Option.mem_toList] at hr
  rcases hr with (⟨a, h1, h2⟩ | hr) | ⟨a, h1, h2⟩
  · exact .inl (by rw [← Option.mem_def.1 h2]; exact List.mem_of_mem_take h1)
  · exact .inr hr
  · exact .inl (by rw [← Option.mem_def.1 h2]; exact List.mem_of_mem_drop h1)

theorem Cypher.Within.order {lo hi : Nat} {n : Node} (h : Within lo hi n) : Everywhere (fun n => InOrder n.children) n := by
  induction h with
  | mk _ _ _ h1 _ ih => exact .mk h1 ih

theorem Cypher.Everywhere.both {P Q : Node → Prop} {n : Node} (h : Everywhere P n) (h' : Everywhere Q n) :
    Everywhere (fun x => P x ∧ Q x) n := by
  induction h with
  | mk h1 _ ih =>
    cases h' with
    | mk h2 h3 => exact .mk ⟨h1, h2⟩ fun c hc => ih c hc (h3 c hc)

/-- What a node refers to stands in the source in the order of its fields: of two of them, the second starts
where the first ends or later, unless it has no children and was made of a text with the first in it (as the
name of a projection without `AS`, which is its expression's text). -/
theorem cypher_fields_order {S : Source σ} {src : σ} {w : List UInt8} (h : Delivers S src w)
    (cfg : Config) (only : Bool) {L : List PSeg} (hL : YieldsP S src cfg only L) :
    ∀ s ∈ L, ∀ x ∈ s.roots, Everywhere (fun n => n.ctor ≠ .range →
      ∀ (i j : Nat) (r r' : Ref), i < j → n.fields[i]? = some r → n.fields[j]? = some r' →
      ∃ c ∈ n.children, ∃ c' ∈ n.children, c.ref = r ∧ c'.ref = r' ∧
        (c.range.stop.offset ≤ c'.range.start.offset ∨
          c'.range.start.offset ≤ c.range.start.offset ∧ c.range.stop.offset ≤ c'.range.stop.offset ∧
            c'.children = [])) x := by
  intro s hs x hx
  refine (((cypher_ranges_nest h cfg only hL s hs).2 x hx).order.both (cypher_fields h cfg only hL s hs x hx)).imp ?_
  rintro n ⟨hn, hf⟩ hr i j r r' hij h1 h2
  have hf : (n.children.filter fun c => !c.ty.aside).map Node.ref = n.fields := by
    rcases hf with hf | ⟨e, -⟩
    · exact hf
    · exact absurd e hr
  rw [← hf, List.getElem?_map, Option.map_eq_some_iff] at h1 h2
  obtain ⟨c, h1, rfl⟩ := h1
  obtain ⟨c', h2, rfl⟩ := h2
  have hp : (n.children.filter fun c => !c.ty.aside).Pairwise Follows := List.Pairwise.filter _ hn
  obtain ⟨l1, e1⟩ := List.getElem?_eq_some_iff.1 h1
  obtain ⟨l2, e2⟩ := List.getElem?_eq_some_iff.1 h2
  obtain ⟨g1, g2⟩ := List.pairwise_iff_getElem.1 hp i j l1 l2 hij
  rw [e1, e2] at g1 g2
  refine ⟨c, (List.mem_filter.1 (List.mem_of_getElem? h1)).1, c', (List.mem_filter.1 (List.mem_of_getElem? h2)).1,
    rfl, rfl, ?_⟩
  rcases g2 with g2 | ⟨g2, g3⟩
  · exact .inl g2
  · exact .inr ⟨g2, g1, g3⟩

/-- The types of what nodes refer to and of what they contain, outermost first. -/
def _root_.Verif.Cypher.Node.contents : Nat → Node → List (AstType × List AstType × List AstType)
  | 0, _ => []
  | n + 1, x => (x.ty, x.fields.map Ref.ty, x.children.map Node.ty) :: x.children.flatMap (Node.contents n)

/-- The same of all trees of a parse. -/
def contentsOf (L : List PSeg) : List (AstType × List AstType × List AstType) :=
  L.flatMap fun s => s.roots.flatMap (Node.contents 20)

/-- `MATCH`: the pattern, then the hints, then the predicate; the comment is a child that is not referred to. -/
example : ∃ L, YieldsP streamSource (ascii "MATCH (n:L) /*c*/ USING SCAN n:L WHERE n DELETE n;") plainCfg false L ∧
    (.match_, [.pattern, .usingScan, .identifier], [.pattern, .blockComment, .usingScan, .identifier]) ∈ contentsOf L := by
  obtain ⟨L, h1, h2⟩ := yields_of_test (S := streamSource)
    (src := ascii "MATCH (n:L) /*c*/ USING SCAN n:L WHERE n DELETE n;") (cfg := plainCfg) (only := false) (fuel := 300)
    (fun (L : List PSeg) => decide ((AstType.match_, [.pattern, .usingScan, .identifier], [.pattern, .blockComment, .usingScan, .identifier]) ∈ contentsOf L))
    (by decide +kernel)
  exact ⟨L, h1, of_decide_eq_true h2⟩

/-- The range of one number: two fields, one child. -/
example : ∃ L, YieldsP streamSource (ascii "MATCH ()-[*2]->() DELETE n;") plainCfg false L ∧
    (.range, [.integer, .integer], [.integer]) ∈ contentsOf L := by
  obtain ⟨L, h1, h2⟩ := yields_of_test (S := streamSource)
    (src := ascii "MATCH ()-[*2]->() DELETE n;") (cfg := plainCfg) (only := false) (fuel := 300)
    (fun (L : List PSeg) => decide ((AstType.range, [.integer, .integer], [.integer]) ∈ contentsOf L))
    (by decide +kernel)
  exact ⟨L, h1, of_decide_eq_true h2⟩

/-- Some node in the tree has two children with the same range, which is not empty. -/
def _root_.Verif.Cypher.Node.twice : Nat → Node → Bool
  | 0, _ => false
  | n + 1, x => (x.children.any fun a => x.children.any fun b =>
      decide (a.id ≠ b.id ∧ a.range = b.range ∧ a.range.start.offset < a.range.stop.offset)) ||
    x.children.any (Node.twice n)

theorem twice_fails {n : Nat} {x : Node} (h : Node.twice n x = true) :
    ¬ Everywhere (fun n => ∀ a ∈ n.children, ∀ b ∈ n.children, a.id ≠ b.id → a.range = b.range →
      a.range.stop.offset ≤ a.range.start.offset) x := by
  induction n generalizing x with
  | zero => cases h
  | succ n ih =>
    intro he
    cases he with
    | mk h1 h2 =>
      simp only [Node.twice, Bool.or_eq_true, List.any_eq_true, decide_eq_true_eq] at h
      rcases h with ⟨a, ha, b, hb, g1, g2, g3⟩ | ⟨c, hc, h⟩
      · have := h1 a ha b hb g1 g2
        omega
      · exact ih h (h2 c hc)

/-- Siblings may overlap: the name of `a+1` in `RETURN a+1` has the range of the expression. -/
theorem siblings_overlap : ∃ L, YieldsP streamSource (ascii "RETURN a+1;") plainCfg false L ∧
    ∃ s ∈ L, ∃ x ∈ s.roots, ¬ Everywhere (fun n => ∀ a ∈ n.children, ∀ b ∈ n.children, a.id ≠ b.id →
      a.range = b.range → a.range.stop.offset ≤ a.range.start.offset) x := by
  obtain ⟨L, h1, h2⟩ := yields_of_test (S := streamSource)
    (src := ascii "RETURN a+1;") (cfg := plainCfg) (only := false) (fuel := 200)
    (fun (L : List PSeg) => L.any fun s => s.roots.any (Node.twice 20)) (by decide +kernel)
  simp only [List.any_eq_true] at h2
  obtain ⟨s, hs, x, hx, h⟩ := h2
  exact ⟨L, h1, s, hs, x, hx, twice_fails h⟩

end Verif
