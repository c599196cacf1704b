import Verif.Props.Cypher
/-!
# Property C39 of the main parser

The texts of the tree: what `TextSpec.lean` says, of every node of every tree.
-/
namespace Verif
open Verif.Peg Verif.Cypher Verif.Text List

variable {σ : Type}

/-! ## C39 -/

/-- What the text of a node of a type may be, given the source between the ends of its range: names
without backquotes, numbers and comments as they stand, strings without quotes and escapes; the name of a
projection without an alias is its source; the options of a statement are strings as they stand. -/
def TextFor (ty : AstType) (s t : List UInt8) : Prop :=
  match ty with
  | .identifier => Name s t ∨ Trimmed s t
  | .propName | .indexName => Name s t
  | .label => Colon s t
  | .reltype => Name s t ∨ Colon s t
  | .parameter => Param s t
  | .functionName | .procName => Dotted s t
  | .integer => s = t ∧ IntText t
  | .floatLiteral => s = t ∧ FloatText t
  | .string => t = unquote none s ∨ t = s
  | .lineComment => s = t ∧ 10 ∉ t
  | .blockComment => s = t ∧ NoEnd t
  | .error => s = t
  | _ => t = []

theorem _root_.Verif.Cypher.Within.ends {lo hi : Nat} {x : Node} (h : Within lo hi x) :
    Everywhere (fun n => lo ≤ n.range.start.offset ∧ n.range.start.offset ≤ n.range.stop.offset) x := by
  induction h with
  | mk h1 h2 h3 _ _ ih =>
    exact .mk ⟨h1, h2⟩ fun c hc => (ih c hc).imp fun n hn => ⟨Nat.le_trans h1 hn.1, hn.2⟩

theorem _root_.Verif.Cypher.Everywhere.and {P Q : Node → Prop} {x : Node} (h : Everywhere P x) (h' : Everywhere Q x) :
    Everywhere (fun n => P n ∧ Q n) x := by
  induction h with
  | mk h1 _ ih =>
    cases h' with
    | mk g1 g2 => exact .mk ⟨h1, g1⟩ fun c hc => ih c hc (g2 c hc)

theorem Segments.texts {only : Bool} {color : Colorization} {w : List UInt8} {off : Pos} {ordinal : Nat}
    {L : List PSeg} {rest : List UInt8} (h : Segments only color w off ordinal L rest)
    {W : List UInt8} {o m : Nat} (hw : w = W.drop m) (ho : off.offset = o + m) :
    ∀ s ∈ L, ∀ x ∈ s.roots, Everywhere (Written W o) x := by
  induction h generalizing m with
  | nil => simp
  | @cons w off ordinal n seg L rest h1 _ _ _ ih =>
    intro s hs x hx
    rcases List.mem_cons.1 hs with rfl | hs
    · refine ((h1.texts x hx).and (h1.within x hx).ends).imp ?_
      rintro y ⟨hy, hl, hle⟩
      have e : w.extract (y.range.start.offset - off.offset) (y.range.stop.offset - off.offset) =
          W.extract (y.range.start.offset - o) (y.range.stop.offset - o) := by
        rw [hw]
        simp only [List.extract_eq_take_drop, List.drop_drop]
        congr 1
        · omega
        · congr 1; omega
      unfold Written at hy ⊢
      rw [e] at hy
      exact hy
    · refine ih (m := m + n) ?_ ?_ s hs x hx
      · rw [hw, List.drop_drop]
      · have := h1.stop; omega

/-- C39. Every node in every tree has the text that the builder it was made by should give it, from the
source between the ends of its range; no other node has a text. -/
theorem cypher_texts {S : Source σ} {src : σ} {w : List UInt8} (h : Delivers S src w)
    (cfg : Config) (only : Bool) {L : List PSeg} (hL : YieldsP S src cfg only L) :
    ∀ s ∈ L, ∀ x ∈ s.roots, Everywhere (fun n => match n.ctor.terminal with
      | none | some .plain => n.text = []
      | _ => Leaf n.ctor (w.extract (n.range.start.offset - cfg.position.offset)
          (n.range.stop.offset - cfg.position.offset)) n.text) x := by
  obtain ⟨last, hL⟩ := hL
  rcases h.segments cfg only with ⟨e, h1, -⟩ | ⟨L', ⟨last', h1⟩, h2⟩
  · cases hL.unique h1
  · cases hL.unique h1
    exact h2.texts (m := 0) rfl rfl

theorem _root_.Verif.Cypher.Leaf.textFor {c : Ctor} {s t : List UInt8} (hc : c.terminal ≠ none) (hp : c.terminal ≠ some .plain)
    (h : Leaf c s t) : TextFor c.ty s t := by
  cases c <;> first
    | exact absurd rfl hc
    | exact absurd rfl hp
    | exact h
    | exact Or.inl h
    | exact Or.inr h
    | exact Or.inr (Eq.symm h)

theorem bare_textFor {c : Ctor} (h : c.terminal = none ∨ c.terminal = some .plain) (s : List UInt8) :
    TextFor c.ty s [] := by
  rcases h with h | h <;> cases c <;> first | exact rfl | (exact absurd h (by decide))

/-- C39, by the types of nodes. -/
theorem cypher_texts_by_type {S : Source σ} {src : σ} {w : List UInt8} (h : Delivers S src w)
    (cfg : Config) (only : Bool) {L : List PSeg} (hL : YieldsP S src cfg only L) :
    ∀ s ∈ L, ∀ x ∈ s.roots, Everywhere (fun n => TextFor n.ref.ty
      (w.extract (n.range.start.offset - cfg.position.offset)
        (n.range.stop.offset - cfg.position.offset)) n.text) x := by
  intro s hs x hx
  refine (cypher_texts h cfg only hL s hs x hx).imp fun n hn => ?_
  have e : n.ref.ty = n.ctor.ty := by cases n; rfl
  rw [e]
  split at hn
  · rename_i hc; rw [hn]; exact bare_textFor (.inl hc) _
  · rename_i hc; rw [hn]; exact bare_textFor (.inr hc) _
  · rename_i h1 h2
    exact hn.textFor h1 h2

/-- The texts of a tree with the types of their nodes. -/
def _root_.Verif.Cypher.Node.wording : Nat → Node → List (AstType × List UInt8)
  | 0, _ => []
  | n + 1, x => (if x.text = [] then [] else [(x.ref.ty, x.text)]) ++ x.children.flatMap (Node.wording n)

/-- The texts of a statement with a literal of every kind. -/
example : ∃ L, YieldsP streamSource
      (ascii "RETURN '\\t\\z' /*c*/+`a b`. x, $ p,1.5e3 , f . g( 0x1F);") plainCfg false L ∧
    (L.flatMap fun s => s.roots.flatMap (Node.wording 20)) =
      [(.string, ascii "\t\\z"), (.blockComment, ascii "c"), (.identifier, ascii "a b"),
       (.propName, ascii "x"), (.identifier, ascii "'\\t\\z' /*c*/+`a b`. x"),
       (.parameter, ascii "p"), (.identifier, ascii "$ p"), (.floatLiteral, ascii "1.5e3"),
       (.identifier, ascii "1.5e3"), (.functionName, ascii "f.g"), (.integer, ascii "0x1F"),
       (.identifier, ascii "f . g( 0x1F)")] := by
  obtain ⟨L, h1, h2⟩ := yields_of_test (S := streamSource)
    (src := ascii "RETURN '\\t\\z' /*c*/+`a b`. x, $ p,1.5e3 , f . g( 0x1F);") (cfg := plainCfg)
    (only := false) (fuel := 150)
    (fun L => decide ((L.flatMap fun s => s.roots.flatMap (Node.wording 20)) =
      [(.string, ascii "\t\\z"), (.blockComment, ascii "c"), (.identifier, ascii "a b"),
       (.propName, ascii "x"), (.identifier, ascii "'\\t\\z' /*c*/+`a b`. x"),
       (.parameter, ascii "p"), (.identifier, ascii "$ p"), (.floatLiteral, ascii "1.5e3"),
       (.identifier, ascii "1.5e3"), (.functionName, ascii "f.g"), (.integer, ascii "0x1F"),
       (.identifier, ascii "f . g( 0x1F)")]))
    (by decide +kernel)
  exact ⟨L, h1, of_decide_eq_true h2⟩

end Verif
