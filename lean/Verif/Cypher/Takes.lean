import Verif.Cypher.ExprStop
/-!
# Rules that read pieces

`Takes w e X t`: the expression `e` of the grammar reads the pieces `X` wherever the text `t` follows them. `Refuses`: it
does not match at `t`. How such statements are put together along the expressions of the grammar.
-/
namespace Verif.Cypher
open Verif.Peg Verif.Exprs Verif.Cypher.Win
open Verif.Ops (words bytes upper)

variable {w : List UInt8}

/-! ## Matches -/

theorem Eats.seq {a b : E} {p p1 p2 : Nat} (h : Eats w a p p1) (h' : Eats w b p1 p2) : Eats w (.seq a b) p p2 := by
  intro op ps
  obtain ⟨op1, ts, h⟩ := h op ps
  obtain ⟨op2, us, h'⟩ := h' op1 ps
  exact ⟨_, _, .seq_ok h h'⟩
theorem Eats.altL {a b : E} {p p1 : Nat} (h : Eats w a p p1) : Eats w (.alt a b) p p1 := by
  intro op ps
  obtain ⟨op1, ts, h⟩ := h op ps
  exact ⟨_, _, .alt_ok h⟩
theorem Eats.altR {a b : E} {p p1 : Nat} (h : Shuns w a p) (h' : Eats w b p p1) : Eats w (.alt a b) p p1 := by
  intro op ps
  obtain ⟨op1, h⟩ := h op ps
  obtain ⟨op2, us, h'⟩ := h' op1 ps
  exact ⟨_, _, .alt_no h h'⟩
theorem Eats.nt {r : Rule} {v : Option Nat} {p p1 : Nat} (h : Eats w (grammar r).body p p1) : Eats w (.nt r v) p p1 := by
  intro op ps
  obtain ⟨op1, ts, h⟩ := h op ps
  exact ⟨_, _, .nt_ok h⟩
theorem Eats.onfail {a : E} {x : Pred} {p p1 : Nat} (h : Eats w a p p1) : Eats w (.onfail a x) p p1 := by
  intro op ps
  obtain ⟨op1, ts, h⟩ := h op ps
  exact ⟨_, _, .onfail_ok h⟩
theorem Shuns.seq1 {a b : E} {p : Nat} (h : Shuns w a p) : Shuns w (.seq a b) p := by
  intro op ps
  obtain ⟨op1, h⟩ := h op ps
  exact ⟨_, .seq_no h⟩
theorem Shuns.seq2 {a b : E} {p p1 : Nat} (h : Eats w a p p1) (h' : Shuns w b p1) : Shuns w (.seq a b) p := by
  intro op ps
  obtain ⟨op1, ts, h⟩ := h op ps
  obtain ⟨op2, h'⟩ := h' op1 ps
  exact ⟨_, .seq_no2 h h'⟩
theorem Shuns.alt {a b : E} {p : Nat} (h : Shuns w a p) (h' : Shuns w b p) : Shuns w (.alt a b) p := by
  intro op ps
  obtain ⟨op1, h⟩ := h op ps
  obtain ⟨op2, h'⟩ := h' op1 ps
  exact ⟨_, .alt_no h h'⟩
theorem Shuns.nt {r : Rule} {v : Option Nat} {p : Nat} (h : Shuns w (grammar r).body p) : Shuns w (.nt r v) p := by
  intro op ps
  obtain ⟨op1, h⟩ := h op ps
  exact ⟨_, .nt_no h⟩

/-! ## Expressions that take nothing -/

def Lull (w : List UInt8) (e : E) : Prop := ∀ p, Eats w e p p

theorem Lull.act {a : Act} : Lull w (.act a) := fun _ _ _ => ⟨_, _, .act⟩
theorem Lull.eps : Lull w .eps := fun _ _ _ => ⟨_, _, .eps⟩
theorem Lull.blockStart : Lull w (.pred .blockStart) := fun _ _ _ => ⟨_, _, .pred_ok rfl⟩
theorem Lull.blockEnd : Lull w (.pred .blockEnd) := fun _ _ _ => ⟨_, _, .pred_ok rfl⟩
theorem Lull.yes : Lull w (.pred .yes) := fun _ _ _ => ⟨_, _, .pred_ok rfl⟩
theorem Lull.nt {r : Rule} {v : Option Nat} (h : Lull w (grammar r).body) : Lull w (.nt r v) := fun p => .nt (h p)
theorem Lull.seq {a b : E} (h : Lull w a) (h' : Lull w b) : Lull w (.seq a b) := fun p => .seq (h p) (h' p)
theorem Lull.start {v : Option Nat} : Lull w (.nt .r__block_start_ v) := fun _ _ _ => ⟨_, _, .nt_ok (.pred_ok rfl)⟩
theorem Lull.merge {v : Option Nat} : Lull w (.nt .r__block_merge_ v) := fun _ _ _ => ⟨_, _, .nt_ok (.pred_ok rfl)⟩
theorem Lull.replace {v : Option Nat} : Lull w (.nt .r__block_replace_ v) := fun _ _ _ => ⟨_, _, .nt_ok (.pred_ok rfl)⟩
theorem Lull.empty {v : Option Nat} : Lull w (.nt .r__empty_ v) := .nt .yes
theorem Lull.null {v : Option Nat} : Lull w (.nt .r__null_ v) := .nt (.seq .empty .act)
theorem Lull.cut {v : Option Nat} : Lull w (.nt .r__cut_ v) := .nt .empty
theorem Lull.fin {a : Act} : Lull w (.seq (.pred .blockEnd) (.act a)) := .seq .blockEnd .act

/-! ## Pieces -/

structure Takes (w : List UInt8) (e : E) (X : List Piece) (t : List UInt8) : Prop where
  texts : ∀ x ∈ X, x.text ≠ []
  eats : ∀ p, Here w p (render X ++ t) → Spaced (X ++ [endPiece t]) → Eats w e p (p + (render X).length)

def Refuses (w : List UInt8) (e : E) (t : List UInt8) : Prop := ∀ p, Here w p t → Shuns w e p

theorem Spaced.left : ∀ {X Y : List Piece}, Spaced (X ++ Y) → Spaced X
  | [], _, _ => trivial
  | [_], _, _ => trivial
  | _ :: y :: X, _, h => ⟨h.1, Spaced.left (X := y :: X) h.2⟩

/-- What follows, as one piece. -/
theorem Spaced.cut {X Y : List Piece} {t : List UInt8} (h : Spaced (X ++ (Y ++ [endPiece t])))
    (hY : ∀ y ∈ Y, y.text ≠ []) : Spaced (X ++ [endPiece (render Y ++ t)]) := by
  cases Y with
  | nil => exact h
  | cons y Y =>
    have hy := hY y (List.mem_cons_self ..)
    induction X with
    | nil => trivial
    | cons x X ih =>
      cases X with
      | nil =>
        refine ⟨fun hb => ?_, trivial⟩
        have := h.1 hb
        rw [render_cons]
        obtain ⟨c, r, e⟩ : ∃ c r, y.text = c :: r := by
          cases hy' : y.text with
          | nil => exact absurd hy' hy
          | cons c r => exact ⟨c, r, rfl⟩
        rw [e] at this ⊢
        exact this
      | cons x' X => exact ⟨h.1, ih h.2⟩

namespace Takes
variable {e a b : E} {X Y : List Piece} {t : List UInt8} {r : Rule} {v : Option Nat}

theorem idle (h : Lull w e) : Takes w e [] t := ⟨by simp, fun p _ _ => h p⟩

theorem nt (h : Takes w (grammar r).body X t) : Takes w (.nt r v) X t := ⟨h.texts, fun p h1 h2 => .nt (h.eats p h1 h2)⟩
theorem onfail {x : Pred} (h : Takes w a X t) : Takes w (.onfail a x) X t :=
  ⟨h.texts, fun p h1 h2 => .onfail (h.eats p h1 h2)⟩

theorem seq (h : Spaced (Y ++ [endPiece t]) → Takes w a X (render Y ++ t)) (h' : Takes w b Y t) (hx : ∀ x ∈ X, x.text ≠ []) :
    Takes w (.seq a b) (X ++ Y) t := by
  refine ⟨fun x hx' => ?_, fun p h1 h2 => ?_⟩
  · rcases List.mem_append.1 hx' with hx' | hx'
    · exact hx x hx'
    · exact h'.texts x hx'
  · rw [render_append, List.append_assoc] at h1
    rw [List.append_assoc] at h2
    have h3 := (h h2.right).eats p h1 (Spaced.cut h2 h'.texts)
    have h4 := h'.eats _ h1.right h2.right
    rw [render_append, List.length_append, ← Nat.add_assoc]
    exact h3.seq h4

theorem skip (h : Lull w a) (h' : Takes w b X t) : Takes w (.seq a b) X t :=
  ⟨h'.texts, fun p h1 h2 => (h p).seq (h'.eats p h1 h2)⟩
theorem seqIdle (h : Takes w a X t) (h' : Lull w b) : Takes w (.seq a b) X t :=
  ⟨h.texts, fun p h1 h2 => (h.eats p h1 h2).seq (h' _)⟩
theorem altL (h : Takes w a X t) : Takes w (.alt a b) X t := ⟨h.texts, fun p h1 h2 => .altL (h.eats p h1 h2)⟩
theorem altR (h : Spaced (X ++ [endPiece t]) → Refuses w a (render X ++ t)) (h' : Takes w b X t) : Takes w (.alt a b) X t :=
  ⟨h'.texts, fun p h1 h2 => .altR (h h2 p h1) (h'.eats p h1 h2)⟩
theorem starEnd (h : Refuses w e t) : Takes w (.star e) [] t := ⟨by simp, fun p h1 _ => .star_end (h p h1)⟩
theorem starMore (h : Spaced (Y ++ [endPiece t]) → Takes w e X (render Y ++ t)) (h' : Takes w (.star e) Y t)
    (hx : ∀ x ∈ X, x.text ≠ []) : Takes w (.star e) (X ++ Y) t := by
  have h1 := Takes.seq (b := .star e) h h' hx
  refine ⟨h1.texts, fun p h2 h3 op ps => ?_⟩
  obtain ⟨op', ts, h4⟩ := h1.eats p h2 h3 op ps
  cases h4 with
  | seq_ok h5 h6 => exact ⟨_, _, .star_more h5 h6⟩
/-- The hypotheses may use that the pieces are kept apart. -/
theorem given (hx : ∀ x ∈ X, x.text ≠ []) (h : Spaced (X ++ [endPiece t]) → Takes w e X t) : Takes w e X t :=
  ⟨hx, fun p h1 h2 => (h h2).eats p h1 h2⟩

end Takes

namespace Refuses
variable {e a b : E} {X Y : List Piece} {t : List UInt8} {r : Rule} {v : Option Nat}

theorem nt (h : Refuses w (grammar r).body t) : Refuses w (.nt r v) t := fun p h1 => .nt (h p h1)
theorem seq1 (h : Refuses w a t) : Refuses w (.seq a b) t := fun p h1 => .seq1 (h p h1)
theorem seq2 (h : Takes w a X t) (hs : Spaced (X ++ [endPiece t])) (h' : Refuses w b t) : Refuses w (.seq a b) (render X ++ t) :=
  fun p h1 => .seq2 (h.eats p h1 hs) (h' _ h1.right)
theorem skip (h : Lull w a) (h' : Refuses w b t) : Refuses w (.seq a b) t := fun p h1 => .seq2 (h p) (h' p h1)
theorem alt (h : Refuses w a t) (h' : Refuses w b t) : Refuses w (.alt a b) t := fun p h1 => .alt (h p h1) (h' p h1)

end Refuses

end Verif.Cypher
