import Verif.Cypher.StmtLists
/-!
# Operands of several pieces

Along the rules of parser.leg:535-612, for expressions of which it is known that they are read.
-/
namespace Verif.Stmts
open Verif.Peg Verif.Exprs Verif.Cypher Verif.Cypher.Win
open Verif.Ops (words bytes upper)

variable {w : List UInt8} {t : List UInt8} {X Y : List Piece} {k x : Piece} {v v' : Option Nat} {a b e : E}

/-! ## Names with dots -/

def kUndot : CharSet := ⟨2 ^ 256 - 1 - (CharSet.single 46).mask⟩
def kOutUndot : CharSet := ⟨kOutside.mask &&& kUndot.mask⟩
/-- What follows the name of a procedure. -/
def procStops : List (List Tile) := [[.ws true, .hole kUndot], [.ws false, .hole kOutUndot], [.ws false, .fin]]
def procStep : E := .seq (.nt .r_symbolic_name none) (.seq (.nt .r_ws none) (.seq (.nt .r_DOT none) (.seq (.nt .r_ws none) (.act (.sbAppend 46)))))
theorem proc_stop : ∀ B ∈ procStops, noAt (run 100 (.mk2 nameA B [] [] [] none) procStep 0 .same []) = true := by decide +kernel
theorem proc_name : ∀ B ∈ procStops, okAt (nameA.length + 0) (run 100 (.mk2 nameA B [] [] [] none) (.nt .r_symbolic_name none) 0 .same []) = true := by
  decide +kernel
def procA : List Tile := nameA ++ [.ws false, .byte (.single 46)]
theorem proc_step : okAt (procA.length + 1) (run 100 (.mk2 procA [.ws false, .hole kStart] [] [] [] none) procStep 0 .same []) = true := by
  decide +kernel

theorem undot_lay {b t : List UInt8} (hb : Gap b) (ht : Solid t) (ha : b = [] → t.head?.any sym = false) (hd : t.head? ≠ some 46)
    {p : Nat} (h : Here w p (b ++ t)) (p' : Nat) : ∃ B ∈ procStops, Lay w B p [p + b.length, p'] := by
  rcases id ht with rfl | ⟨c, r, rfl, -⟩
  · exact ⟨_, by simp [procStops], fin_lay hb h p'⟩
  have hc : c ≠ 46 := by simpa using hd
  have h1 : (c == 46 || kUndot.mem c) = true := every_byte (P := fun c => c == 46 || kUndot.mem c) (by decide +kernel) c
  have h2 : (c == 46 || sym c || kOutUndot.mem c) = true := every_byte (P := fun c => c == 46 || sym c || kOutUndot.mem c) (by decide +kernel) c
  by_cases hb0 : b = []
  · have h3 : sym c = false := by simpa using ha hb0
    exact ⟨[.ws false, .hole kOutUndot], by simp [procStops], gap_lay hb ht rfl (by simpa [hc, h3] using h2) (by simp) h p'⟩
  · exact ⟨[.ws true, .hole kUndot], by simp [procStops], gap_lay hb ht rfl (by simpa [hc] using h1) (fun _ => hb0) h p'⟩

theorem ProcName.texts (h : ProcName X) : ∀ x ∈ X, x.text ≠ [] := by
  induction h with
  | one h => exact texts_one h.text
  | more h1 h2 _ ih => exact texts_cons h1.text (texts_cons (h2.text (by decide +kernel)) ih)
theorem ProcName.solid (h : ProcName X) : Solid (render X ++ t) := by
  cases h with
  | one h | more h => exact h.solid
theorem ProcName.start (h : ProcName X) : ∃ c r, render X ++ t = c :: r ∧ kStart.mem c = true := by
  cases h with
  | one h | more h =>
    obtain ⟨h, -⟩ := h
    obtain ⟨c, r, rfl, h, -⟩ := h.start
    exact ⟨c, _, by rw [render_cons]; rfl, start_mem h⟩

theorem ProcName.eats (h : ProcName X) (ht : Solid t) (hd : t.head? ≠ some 46) : ∀ p, Here w p (render X ++ t) → Spaced (X ++ [endPiece t]) →
    ∃ p1 p2, Eats w (.star procStep) p p1 ∧ Eats w (.nt .r_symbolic_name none) p1 p2 ∧ Eats w (.nt .r_ws none) p2 (p + (render X).length) := by
  induction h with
  | one h =>
    intro p h1 h2
    obtain ⟨h3, h4⟩ := h
    rename_i s b
    have h6 : Here w p (s ++ (b ++ t)) := by simpa [render] using h1
    obtain ⟨B, hB, h7⟩ := undot_lay h4 ht (ends_apart (x := ⟨.operand, s, b⟩) h3.ends h2) hd h6.right (p + s.length + b.length)
    refine ⟨p, p + s.length, .star_end (Win.shuns (proc_stop B hB) (h3.span h6) h7 (by simp) (by simp) (by simp)),
      Win.eats (proc_name B hB) (h3.span h6) h7 (by simp) (by simp) (by simp), (ws_eats h4 ht h6.right).to (by simp [render]; omega)⟩
  | @more x k X h h' hX ih =>
    intro p h1 h2
    obtain ⟨h3, h4⟩ := h
    obtain ⟨h5, h6⟩ := h'
    rename_i s b s' b'
    have hs' : s' = [46] := by
      have : bytes "." = [46] := by decide +kernel
      rw [this] at h5
      cases s' with
      | nil => cases h5
      | cons d s' =>
        simp only [List.map_cons, List.cons.injEq, List.map_eq_nil_iff] at h5
        have := imp_byte (P := fun d => upper d == 46) (Q := fun d => d == 46) (by decide +kernel) (c := d) (by simpa using h5.1)
        simp only [beq_iff_eq] at this
        rw [h5.2, this]
    subst hs'
    have g1 : Here w p (s ++ (b ++ (46 :: (b' ++ (render X ++ t))))) := by simpa [render] using h1
    have g2 := g1.right
    have g3 := g2.right
    have g4 := g3.tail
    obtain ⟨c, r, e, hc⟩ := hX.start (t := t)
    obtain ⟨p1, p2, k1, k2, k3⟩ := ih _ g4.right h2.tail.tail
    have hsp : Span w procA p (p + s.length + b.length + 1) :=
      (h3.span g1).append (.cons (.of_gap h4 (solid_cons (by decide)) g2 (by simp)) (.cons (.of_byte g3 (by decide)) .nil))
    have k0 := Win.eats proc_step hsp (gap_lay h6 hX.solid e hc (by simp) g4 0) (by simp) (by simp) (by simp)
    refine ⟨p1, p2, .star_more (k0.to (by simp [Mark])) k1, k2, k3.to ?_⟩
    simp [render]; omega

theorem ProcName.takes (h : ProcName X) (ht : Solid t) (hd : t.head? ≠ some 46) : Takes w (.nt .r_proc_name v) X t := by
  refine ⟨h.texts, fun p h1 h2 => ?_⟩
  obtain ⟨p1, p2, k1, k2, k3⟩ := h.eats ht hd p h1 h2
  exact .nt ((Lull.blockStart _).seq ((Lull.act _).seq (.seq (.onfail (k1.seq k2)) ((Lull.blockEnd _).seq ((Lull.act _).seq k3)))))


theorem FnName.proc (h : FnName X) : ProcName X := by
  cases h with
  | one h => exact .one h.ident
  | more h1 h2 h3 => exact .more h1.ident h2 h3
theorem FnName.takes (h : FnName X) (ht : Solid t) (hd : t.head? ≠ some 46) : Takes w (.nt .r_function_name v) X t := by
  refine ⟨h.proc.texts, fun p h1 h2 => ?_⟩
  obtain ⟨p1, p2, k1, k2, k3⟩ := h.proc.eats ht hd p h1 h2
  exact .nt ((Lull.blockStart _).seq ((Lull.act _).seq (.seq (.onfail (k1.seq k2)) ((Lull.blockEnd _).seq ((Lull.act _).seq k3)))))

/-! ## Short expressions -/

def Short (N : Nat) (P : List Piece → Prop) (E : List Piece) : Prop := P E ∧ (render E).length < N

theorem rlen_append : (render (X ++ Y)).length = (render X).length + (render Y).length := by simp [render_append]
theorem rlen_cons : (render (x :: X)).length = x.text.length + x.blank.length + (render X).length := by simp [render]; omega
theorem rlen_nil : (render []).length = 0 := rfl

theorem Key.len {y : String} (h : Key y k) (hy : bytes y ≠ []) : 0 < k.text.length := List.length_pos_iff.2 (h.text hy)

section
variable {P Q : List Piece → Prop} {N : Nat}

theorem More.short (h : More P X) (hQ : ∀ Y, P Y → (render Y).length < N → Q Y) (hl : (render X).length ≤ N) : More Q X := by
  induction h with
  | nil => exact .nil
  | cons hk hX hY ih =>
    have := hk.len (by decide +kernel)
    simp only [rlen_append, rlen_cons] at hl
    exact .cons hk (hQ _ hX (by omega)) (ih (by omega))
theorem Sep.short (h : Sep P X) (hQ : ∀ Y, P Y → (render Y).length < N → Q Y) (hl : (render X).length < N) : Sep Q X := by
  obtain ⟨h1, h2⟩ := h
  simp only [rlen_append] at hl
  exact .mk (hQ _ h1 (by omega)) (h2.short hQ (by omega))
theorem Many.short (h : Many P X) (hQ : ∀ Y, P Y → (render Y).length < N → Q Y) (hl : (render X).length < N) : Many Q X := by
  induction h with
  | nil => exact .nil
  | cons hX hY ih =>
    simp only [rlen_append] at hl
    exact .cons (hQ _ hX (by omega)) (ih (by omega))
theorem Opt.map (h : Opt P X) (hQ : P X → Q X) : Opt Q X := by
  cases h with
  | none => exact .none
  | some h => exact .some (hQ h)
theorem After.short {y : String} (h : After P y X) (hl : (render X).length < N) : After (Short N P) y X := by
  obtain ⟨h1, h2⟩ := h
  simp only [rlen_cons] at hl
  exact .mk h1 ⟨h2, by omega⟩
theorem _root_.Verif.Exprs.When.short (h : When P X) (hl : (render X).length < N) : When (Short N P) X := by
  obtain ⟨h1, h2, h3, h4⟩ := h
  simp only [rlen_append, rlen_cons] at hl
  exact .mk h1 ⟨h2, by omega⟩ h3 ⟨h4, by omega⟩

theorem _root_.Verif.Exprs.Compound.short (h : Compound P X) (hl : (render X).length ≤ N) : Compound (Short N P) X := by
  cases h with
  | call h1 h2 h3 h4 h5 =>
    have := h5.len (by decide +kernel)
    simp only [rlen_append, rlen_cons, rlen_nil] at hl
    exact .call h1 h2 h3 (h4.map fun h => h.short (fun _ h g => ⟨h, g⟩) (by omega)) h5
  | callAll h1 h2 h3 h4 h5 => exact .callAll h1 h2 h3 h4 h5
  | cases h1 h2 h3 h4 h5 =>
    have := h5.len (by decide +kernel)
    simp only [rlen_append, rlen_cons, rlen_nil] at hl
    exact .cases h1 (h2.short (by omega)) (h3.short (fun _ h g => h.short g) (by omega)) (h4.map fun h => h.short (by omega)) h5
  | caseOf h1 h2 h2' h2'' h3 h4 h5 =>
    have := h5.len (by decide +kernel)
    simp only [rlen_append, rlen_cons, rlen_nil] at hl
    exact .caseOf h1 ⟨h2, by omega⟩ h2' (h2''.short (by omega)) (h3.short (fun _ h g => h.short g) (by omega)) (h4.map fun h => h.short (by omega)) h5
  | each h0 h1 h2 h3 h4 h5 h6 h7 =>
    have := h7.len (by decide +kernel)
    simp only [rlen_append, rlen_cons, rlen_nil] at hl
    exact .each h0 h1 h2 h3 h4 ⟨h5, by omega⟩ (h6.map fun h => h.short (by omega)) h7
  | extract h1 h2 h3 h4 h5 h6 h7 =>
    have := h7.len (by decide +kernel)
    simp only [rlen_append, rlen_cons, rlen_nil] at hl
    exact .extract h1 h2 h3 h4 ⟨h5, by omega⟩ (h6.map fun h => h.short (by omega)) h7
  | reduce h1 h2 h3 h4 h5 h6 h7 h8 h9 h10 h11 =>
    have := h11.len (by decide +kernel)
    simp only [rlen_append, rlen_cons, rlen_nil] at hl
    exact .reduce h1 h2 h3 h4 ⟨h5, by omega⟩ h6 h7 h8 ⟨h9, by omega⟩ (h10.map fun h => h.short (by omega)) h11
  | list h2 h3 h4 h5 h6 h6' h7 =>
    have := h7.len (by decide +kernel)
    simp only [rlen_append, rlen_cons, rlen_nil] at hl
    exact .list h2 h3 h4 ⟨h5, by omega⟩ (h6.map fun h => h.short (by omega)) (h6'.map fun h => h.short (by omega)) h7

theorem not_digit {s x : List UInt8} (h : s.map upper = x) (hx : x.head?.any digit = false) : s.head?.any digit = false := by
  subst h
  cases s with
  | nil => rfl
  | cons c s =>
    have := imp_byte (P := fun c => !digit (upper c)) (Q := fun c => !digit c) (by decide +kernel) (c := c) (by simpa using hx)
    simpa using this

/-- The white space at the end may be changed. -/
theorem _root_.Verif.Exprs.Compound.last (h : Compound P X) : ∃ X0 s b0, X = X0 ++ [⟨.operand, s, b0⟩] ∧ s.head?.any digit = false ∧
    ∀ b, Gap b → Compound P (X0 ++ [⟨.operand, s, b⟩]) := by
  cases h with
  | @call N k D A c h1 h2 h3 h4 h5 =>
    obtain ⟨e, -⟩ := h5
    exact ⟨N ++ k :: (D ++ A), _, _, by simp; rfl, not_digit e (by decide +kernel), fun b hb => by simpa using Compound.call h1 h2 h3 h4 (.mk e hb)⟩
  | @callAll N k D s c h1 h2 h3 h4 h5 =>
    obtain ⟨e, -⟩ := h5
    exact ⟨N ++ k :: (D ++ [s]), _, _, by simp; rfl, not_digit e (by decide +kernel), fun b hb => by simpa using Compound.callAll (P := P) h1 h2 h3 h4 (.mk e hb)⟩
  | @cases k A B D c h1 h2 h3 h4 h5 =>
    obtain ⟨e, -⟩ := h5
    exact ⟨k :: (A ++ (B ++ D)), _, _, by simp; rfl, not_digit e (by decide +kernel), fun b hb => by simpa using Compound.cases h1 h2 h3 h4 (.mk e hb)⟩
  | @caseOf k E A B D c h1 h2 h2' h2'' h3 h4 h5 =>
    obtain ⟨e, -⟩ := h5
    exact ⟨k :: (E ++ (A ++ (B ++ D))), _, _, by simp; rfl, not_digit e (by decide +kernel), fun b hb => by simpa using Compound.caseOf h1 h2 h2' h2'' h3 h4 (.mk e hb)⟩
  | @each x k o i n E F c h0 h1 h2 h3 h4 h5 h6 h7 =>
    obtain ⟨e, -⟩ := h7
    exact ⟨k :: o :: i :: n :: (E ++ F), _, _, by simp; rfl, not_digit e (by decide +kernel), fun b hb => by simpa using Compound.each h0 h1 h2 h3 h4 h5 h6 (.mk e hb)⟩
  | @extract k o i n E V c h1 h2 h3 h4 h5 h6 h7 =>
    obtain ⟨e, -⟩ := h7
    exact ⟨k :: o :: i :: n :: (E ++ V), _, _, by simp; rfl, not_digit e (by decide +kernel), fun b hb => by simpa using Compound.extract h1 h2 h3 h4 h5 h6 (.mk e hb)⟩
  | @reduce k o a q E m i n F V c h1 h2 h3 h4 h5 h6 h7 h8 h9 h10 h11 =>
    obtain ⟨e, -⟩ := h11
    exact ⟨k :: o :: a :: q :: (E ++ m :: i :: n :: (F ++ V)), _, _, by simp; rfl, not_digit e (by decide +kernel),
      fun b hb => by simpa using Compound.reduce h1 h2 h3 h4 h5 h6 h7 h8 h9 h10 (.mk e hb)⟩
  | @list o i n E F V c h2 h3 h4 h5 h6 h6' h7 =>
    obtain ⟨e, -⟩ := h7
    exact ⟨o :: i :: n :: (E ++ (F ++ V)), _, _, by simp; rfl, not_digit e (by decide +kernel), fun b hb => by simpa using Compound.list h2 h3 h4 h5 h6 h6' (.mk e hb)⟩

end

section
open Verif.Exprs
theorem _root_.Verif.Exprs.compound_texts (h : Compound Exprn X) : ∀ x ∈ X, x.text ≠ [] := by
  have key : ∀ {y : String} {k : Piece}, Key y k → bytes y ≠ [] → k.text ≠ [] := fun h hy => h.text hy
  have after : ∀ {y : String} {F : List Piece}, bytes y ≠ [] → Opt (After Exprn y) F → ∀ x ∈ F, x.text ≠ [] := by
    intro y F hy h
    exact h.texts fun h => by obtain ⟨h1, h2⟩ := h; exact texts_cons (h1.text hy) h2.texts
  have whn : ∀ {F : List Piece}, When Exprn F → ∀ x ∈ F, x.text ≠ [] := by
    intro F h
    obtain ⟨h1, h2, h3, h4⟩ := h
    exact texts_cons (h1.text (by decide +kernel)) (Halts.texts_append h2.texts (texts_cons (h3.text (by decide +kernel)) h4.texts))
  have dis : ∀ {F : List Piece}, Opt (Sign "DISTINCT") F → ∀ x ∈ F, x.text ≠ [] := by
    intro F h
    exact h.texts fun h => by obtain ⟨h1⟩ := h; exact texts_one (h1.text (by decide +kernel))
  cases h with
  | call h1 h2 h3 h4 h5 =>
    exact Halts.texts_append h1.proc.texts (texts_cons (key h2 (by decide +kernel)) (Halts.texts_append (dis h3) (Halts.texts_append
      (h4.texts fun h => h.texts fun _ h => h.texts) (texts_one (key h5 (by decide +kernel))))))
  | callAll h1 h2 h3 h4 h5 =>
    exact Halts.texts_append h1.proc.texts (texts_cons (key h2 (by decide +kernel)) (Halts.texts_append (dis h3) (texts_cons (key h4 (by decide +kernel))
      (texts_one (key h5 (by decide +kernel))))))
  | cases h1 h2 h3 h4 h5 =>
    exact texts_cons (key h1 (by decide +kernel)) (Halts.texts_append (whn h2) (Halts.texts_append (h3.texts fun _ h => whn h)
      (Halts.texts_append (after (by decide +kernel) h4) (texts_one (key h5 (by decide +kernel))))))
  | caseOf h1 h2 _ h2'' h3 h4 h5 =>
    exact texts_cons (key h1 (by decide +kernel)) (Halts.texts_append h2.texts (Halts.texts_append (whn h2'') (Halts.texts_append (h3.texts fun _ h => whn h)
      (Halts.texts_append (after (by decide +kernel) h4) (texts_one (key h5 (by decide +kernel)))))))
  | each h0 h1 h2 h3 h4 h5 h6 h7 =>
    have h0' : bytes _ ≠ [] := (by decide +kernel : ∀ x ∈ ["ALL", "ANY", "NONE", "SINGLE", "FILTER"], bytes x ≠ []) _ h0
    exact texts_cons (key h1 h0') (texts_cons (key h2 (by decide +kernel)) (texts_cons h3.text (texts_cons (key h4 (by decide +kernel))
      (Halts.texts_append h5.texts (Halts.texts_append (after (by decide +kernel) h6) (texts_one (key h7 (by decide +kernel))))))))
  | extract h1 h2 h3 h4 h5 h6 h7 =>
    exact texts_cons (key h1 (by decide +kernel)) (texts_cons (key h2 (by decide +kernel)) (texts_cons h3.text (texts_cons (key h4 (by decide +kernel))
      (Halts.texts_append h5.texts (Halts.texts_append (after (by decide +kernel) h6) (texts_one (key h7 (by decide +kernel))))))))
  | reduce h1 h2 h3 h4 h5 h6 h7 h8 h9 h10 h11 =>
    exact texts_cons (key h1 (by decide +kernel)) (texts_cons (key h2 (by decide +kernel)) (texts_cons h3.text (texts_cons (key h4 (by decide +kernel))
      (Halts.texts_append h5.texts (texts_cons (key h6 (by decide +kernel)) (texts_cons h7.text (texts_cons (key h8 (by decide +kernel))
      (Halts.texts_append h9.texts (Halts.texts_append (after (by decide +kernel) h10) (texts_one (key h11 (by decide +kernel))))))))))))
  | list h2 h3 h4 h5 h6 h6' h7 =>
    exact texts_cons (key h2 (by decide +kernel)) (texts_cons h3.text (texts_cons (key h4 (by decide +kernel))
      (Halts.texts_append h5.texts (Halts.texts_append (after (by decide +kernel) h6) (Halts.texts_append (after (by decide +kernel) h6')
        (texts_one (key h7 (by decide +kernel))))))))
end

/-! ## The rules -/

/-- Expressions of which it is known that they are read. -/
structure Read (w : List UInt8) (P : List Piece → Prop) : Prop where
  expr : ∀ {E : List Piece}, P E → Exprn E
  takes : ∀ {E : List Piece} {t : List UInt8} {xs : List String} {v : Option Nat}, P E → Begins xs t → (∀ x ∈ xs, x ∈ enders) →
    Takes w (.nt .r_expression v) E t

theorem Halts.word {y : String} {r : Rule} (h : Key y k)
    (hr : ((wins y).all fun AB => okAt (AB.1.length + 0) (run 100 (.mk2 AB.1 AB.2 [] [] [] none) (.nt r none) 0 .same [])) = true)
    (hw : (wordy y && !(bytes y).isEmpty) = true) : Halts w (.nt r v) [k] t := by
  simp only [Bool.and_eq_true, Bool.not_eq_true', List.isEmpty_eq_false_iff] at hw
  refine ⟨by simp, ?_, texts_one (h.text hw.2), fun p h1 h2 => ?_⟩
  · obtain ⟨-, h⟩ := h; exact h
  have he := h.ends hw.1 hw.2
  obtain ⟨h3, h4⟩ := h
  rename_i s b
  rw [List.all_eq_true] at hr
  have hout := word_next (k := ⟨.operand, s, b⟩) (Y := []) h4 he (by simp) h2
  rw [render_cons] at h1
  simp only at h1 hout
  have hsp := Span.word h3 h1
  have he : (bytes y).isEmpty = false := by simpa using hw.2
  refine Eats.var (v := none) ?_
  rcases hout with e0 | ⟨c, r', e0, h6⟩
  · have h7 := h1.right
    rw [e0] at h7
    exact (Win.eats (hr (wordCells (bytes y), [.fin]) (by unfold wins; rw [he, hw.1]; simp)) hsp (qs := [p]) (.cons (.of_fin h7) .nil)
      (by simp) (by simp) (by simp)).to (by simp [Mark, core])
  · have h7 := h1.right
    rw [e0] at h7
    exact (Win.eats (hr (wordCells (bytes y), [.hole kOutside]) (by unfold wins; rw [he, hw.1]; simp)) hsp (qs := [p])
      (.cons (.of_hole h7 (outside_mem h6)) .nil) (by simp) (by simp) (by simp)).to (by simp [Mark, core])

theorem sign_refuses {y : String} {r : Rule} (h : Key y k) (hr : signs y (.nt r none) = true) (hs : Solid (render Y ++ t))
    (h' : Refuses w e (render Y ++ t)) : Refuses w (.seq (.nt r none) (.seq (.nt .r_ws none) e)) (render (k :: Y) ++ t) := by
  intro p h1
  obtain ⟨h3, h4⟩ := h
  rw [render_cons] at h1
  have h5 := Win.eats hr (Span.word h3 h1) (qs := []) .nil (by simp) (by simp) (by simp)
  exact .seq2 h5 (.seq2 (ws_eats (v := none) h4 hs h1.right) (h' _ h1.right.right))

section
variable {P : List Piece → Prop}

theorem After.texts {y : String} (hP : Read w P) (h : After P y X) (hy : bytes y ≠ []) : ∀ x ∈ X, x.text ≠ [] := by
  obtain ⟨h1, h2⟩ := h
  exact texts_cons (h1.text hy) (hP.expr h2).texts

/-- `WHERE E`, or nothing -/
theorem where_read (hP : Read w P) (h : Opt (After P "WHERE") X) {xs : List String} (ht : Begins xs t) (hx : ∀ x ∈ xs, x ∈ enders)
    (ha : avoids xs (.nt .r_WHERE none) = true) :
    Takes w (.alt (.seq (.nt .r_WHERE none) (.nt .r_expression v)) (.nt .r__null_ v')) X t ∧
      (Spaced (X ++ [endPiece t]) → Begins ("WHERE" :: xs) (render X ++ t)) := by
  cases h with
  | none => exact ⟨.altR (fun _ => .seq1 (ht.refuses ha)) (.idle .null), fun _ => ht.mono (by simp +contextual)⟩
  | some h =>
    obtain ⟨h1, h2⟩ := h
    exact ⟨.altL (.seq (X := [_]) (fun _ => h1.takes (by decide +kernel) (by decide +kernel) (hP.expr h2).solid) (hP.takes h2 ht hx)
      (texts_one (h1.text (by decide +kernel)))),
      fun hs => (h1.begins (by decide +kernel) (hP.expr h2).texts hs).mono (by simp)⟩
/-- `| E`, or nothing -/
theorem pipe_read (hP : Read w P) (h : Opt (After P "|") X) {xs : List String} (ht : Begins xs t) (hx : ∀ x ∈ xs, x ∈ enders)
    (ha : avoids xs (.nt .r_PIPE none) = true) :
    Takes w (.alt (.seq (.nt .r_PIPE none) (.seq (.nt .r_ws none) (.nt .r_expression v))) (.nt .r__null_ v')) X t ∧
      Begins ("|" :: xs) (render X ++ t) := by
  cases h with
  | none => exact ⟨.altR (fun _ => .seq1 (ht.refuses ha)) (.idle .null), ht.mono (by simp +contextual)⟩
  | some h =>
    obtain ⟨h1, h2⟩ := h
    exact ⟨.altL (.sign h1 (by decide +kernel) (by decide +kernel) (hP.expr h2).solid (hP.takes h2 ht hx)),
      (sign_begins h1 (by decide +kernel) (by decide +kernel)).mono (by simp)⟩

/-! ### CASE -/

theorem _root_.Verif.Exprs.When.texts (hP : Read w P) (h : When P X) : ∀ x ∈ X, x.text ≠ [] := by
  obtain ⟨h1, h2, h3, h4⟩ := h
  exact texts_cons (h1.text (by decide +kernel)) (Halts.texts_append (hP.expr h2).texts (texts_cons (h3.text (by decide +kernel)) (hP.expr h4).texts))
theorem _root_.Verif.Exprs.When.solid (h : When P X) : Solid (render X ++ t) := by
  obtain ⟨h1, -⟩ := h
  exact h1.solid (by decide +kernel)
theorem _root_.Verif.Exprs.When.begins (hP : Read w P) (h : When P X) (hY : ∀ x ∈ Y, x.text ≠ []) (hs : Spaced (X ++ Y ++ [endPiece t])) :
    Begins ["WHEN"] (render (X ++ Y) ++ t) := by
  have tx := h.texts hP
  obtain ⟨h1, h2, h3, h4⟩ := h
  exact h1.begins (by decide +kernel) (Halts.texts_append (fun x hx => tx x (List.mem_cons_of_mem _ hx)) hY) hs
theorem _root_.Verif.Exprs.When.takes (hP : Read w P) (h : When P X) (ht : Begins ["WHEN", "ELSE", "END"] t) : Takes w (.nt .r_case_alternative v) X t := by
  obtain ⟨h1, h2, h3, h4⟩ := h
  exact .nt (.seq (X := [_]) (fun _ => h1.takes (by decide +kernel) (by decide +kernel) (by
      change Solid (render (_ ++ _) ++ t)
      rw [render_append, List.append_assoc]; exact (hP.expr h2).solid))
    (.seq (fun hs => hP.takes h2 (h3.begins (by decide +kernel) (hP.expr h4).texts hs) (by decide +kernel))
      (.skip .act (.seq (X := [_]) (fun _ => h3.takes (by decide +kernel) (by decide +kernel) (hP.expr h4).solid)
        (.seqIdle (hP.takes h4 ht (by decide +kernel)) .act) (texts_one (h3.text (by decide +kernel))))) (hP.expr h2).texts)
    (texts_one (h1.text (by decide +kernel))))
theorem whens_takes (hP : Read w P) (h : Many (When P) X) (ht : Begins ["ELSE", "END"] t) :
    Takes w (.star (.nt .r_case_alternative none)) X t ∧
      (Spaced (X ++ [endPiece t]) → Begins ["WHEN", "ELSE", "END"] (render X ++ t)) := by
  induction h with
  | nil => exact ⟨.starEnd (ht.refuses (by decide +kernel)), fun _ => ht.mono (by decide +kernel)⟩
  | @cons X Y hX hY ih =>
    exact ⟨.starMore (fun hs => hX.takes hP (ih.2 hs)) ih.1 (hX.texts hP),
      fun hs => (hX.begins hP (hY.texts fun _ h => h.texts hP) hs).mono (by decide +kernel)⟩

/-- `ELSE E END` -/
theorem else_takes {ac : Act} {c : Piece} (hP : Read w P) (h : Opt (After P "ELSE") X) (hc : Key "END" c) (ht : Solid t) :
    Takes w (.seq (.alt (.nt .r_case_default v) (.nt .r__null_ v')) (.seq (.nt .r_END none) (.seq (.pred .blockEnd) (.seq (.act ac)
      (.nt .r_ws none))))) (X ++ [c]) t ∧ (Spaced (X ++ [c] ++ [endPiece t]) → Begins ["ELSE", "END"] (render (X ++ [c]) ++ t)) := by
  have tc := texts_one (hc.text (by decide +kernel))
  have hb : Spaced ([c] ++ [endPiece t]) → Begins ["END"] (render [c] ++ t) := fun hs => hc.begins (by decide +kernel) (Y := []) (by simp) hs
  refine ⟨.seq (fun hs => ?_) (Halts.close (.word hc (by decide +kernel) (by decide +kernel)) ht) ?_, fun hs => ?_⟩
  · refine opt_takes h (fun h => ?_) ((hb hs).refuses (by decide +kernel))
    obtain ⟨h1, h2⟩ := h
    exact .nt (.seq (X := [_]) (fun _ => h1.takes (by decide +kernel) (by decide +kernel) (hP.expr h2).solid)
      (.seqIdle (hP.takes h2 (hb hs) (by decide +kernel)) .act) (texts_one (h1.text (by decide +kernel))))
  · exact h.texts fun h => h.texts hP (by decide +kernel)
  · cases h with
    | none => exact (hb hs).mono (by decide +kernel)
    | some h =>
      have tx := h.texts hP (by decide +kernel)
      obtain ⟨h1, h2⟩ := h
      exact (h1.begins (by decide +kernel) (Halts.texts_append (fun x hx => tx x (List.mem_cons_of_mem _ hx)) tc) hs).mono (by decide +kernel)

theorem _root_.Verif.Exprs.Leads.tail {E : List Piece} (hE : Exprn E) (hg : ∀ x ∈ E, Gap x.blank) (hs : Spaced (E ++ [endPiece t])) {x : String}
    (hx : wordy x = true) (h : Leads x (render E ++ t)) : Leads x (render E) := by
  obtain ⟨s, r, e, h1, h2⟩ := h
  rcases List.append_eq_append_iff.1 e with ⟨a, e1, e2⟩ | ⟨a, e1, e2⟩
  · -- the word is longer than the expression
    cases a with
    | nil => exact ⟨s, [], by simpa using e1.symm, h1, rfl⟩
    | cons d a =>
      exfalso
      have hall : ∀ c ∈ s, sym c = true := by
        intro c hc
        have h3 : letter (upper c) = true := by
          unfold wordy at hx
          rw [← h1, List.all_eq_true] at hx
          exact hx _ (List.mem_map_of_mem hc)
        exact imp_byte (P := fun c => letter (upper c)) (by decide +kernel) h3
      rcases List.eq_nil_or_concat E with rfl | ⟨E0, y, rfl⟩
      · exact absurd (Exprn.chain le_rfl hE) (by rintro ⟨⟩)
      have hy : y.text ≠ [] := hE.texts y (by simp)
      have hb : y.blank = [] := by
        cases hb : y.blank with
        | nil => rfl
        | cons z b =>
          have h4 := hg y (by simp)
          rw [hb] at h4
          have h5 := hall z (by rw [e1]; simp [render, hb])
          cases h4 with
          | char hc _ => rcases hc with rfl | rfl | rfl <;> exact absurd h5 (by decide)
          | crlf _ => exact absurd h5 (by decide)
      have h6 : Spaced [y, endPiece t] := by
        have : Spaced (E0 ++ [y, endPiece t]) := by simpa using hs
        exact this.right
      refine (h6.1 hb).1 ⟨?_, ?_⟩
      · rw [List.getLast?_eq_some_getLast hy]
        exact hall _ (by rw [e1]; simp [render, List.getLast_mem hy])
      · rw [show (endPiece t).text = t from rfl, e2]
        exact hall d (by rw [e1]; simp)
  · refine ⟨s, a, e1, h1, ?_⟩
    cases a with
    | nil => rfl
    | cons d a => rw [e2] at h2; exact h2

/-- The ways to miss a word. -/
def misses : List UInt8 → List (List Tile)
  | [] => [[.byte symPart]]
  | c :: x => [.fin] :: [.byte (unlike c)] :: (misses x).map (.byte (kAny c) :: ·)

theorem misses_span : ∀ {x : List UInt8}, (∀ c ∈ x, c ∈ capitals) → ∀ {u : List UInt8} {p : Nat}, Here w p u →
    (∃ s r, u = s ++ r ∧ s.map upper = x ∧ r.head?.any sym = false) ∨ ∃ A ∈ misses x, ∃ p1, Span w A p p1
  | [], _, u, p, hh => by
    cases h : u.head?.any sym with
    | false => exact .inl ⟨[], u, rfl, rfl, h⟩
    | true =>
      cases u with
      | nil => cases h
      | cons c u => exact .inr ⟨_, by simp [misses], _, .cons (.of_byte hh (sym_mem (by simpa using h))) .nil⟩
  | d :: x, hx, u, p, hh => by
    cases u with
    | nil => exact .inr ⟨[.fin], by simp [misses], p, .cons (.of_fin hh) .nil⟩
    | cons c u =>
      by_cases hc : upper c = d
      · rcases misses_span (x := x) (fun e he => hx e (by simp [he])) hh.tail with ⟨s, r, rfl, h1, h2⟩ | ⟨A, hA, p1, h1⟩
        · exact .inl ⟨c :: s, r, rfl, by simp [hc, h1], h2⟩
        · exact .inr ⟨.byte (kAny d) :: A, by simp [misses, hA], p1, .cons (.of_byte hh (hc ▸ any_mem c)) h1⟩
      · exact .inr ⟨[.byte (unlike d)], by simp [misses], _, .cons (.of_byte hh (unlike_mem hc (hx d (by simp)))) .nil⟩

theorem when_no : ∀ A ∈ misses (bytes "WHEN"), noAt (run 100 (.mk2 A [] [] [] [] none) (.nt .r_WHEN none) 0 .same []) = true := by
  decide +kernel

theorem when_refuses (h : ¬ Leads "WHEN" t) : Refuses w (.nt .r_WHEN none) t := by
  intro p hh
  rcases misses_span (x := bytes "WHEN") (by decide +kernel) hh with h1 | ⟨A, hA, p1, h1⟩
  · exact absurd h1 h
  · exact Win.shuns (when_no A hA) h1 (qs := []) .nil (by simp) (by simp) (by simp)

theorem _root_.Verif.Exprs.Chain.gaps {u : Bool} (h : Chain u X) : ∀ x ∈ X, Gap x.blank := by
  induction h with
  | done => simp
  | operand _ h _ ih | pre _ _ h _ ih | post _ _ h _ ih | inf _ _ h _ ih | property _ _ h _ ih | subscript _ _ _ h _ ih =>
    intro y hy
    rcases List.mem_cons.1 hy with rfl | hy
    · exact h
    · exact ih y hy

theorem plus_takes {B : List Piece} (hP : Read w P) (h : When P X) (h' : Many (When P) B) (ht : Begins ["ELSE", "END"] t) :
    Takes w (.plus (.nt .r_case_alternative none)) (X ++ B) t :=
  .seq (fun hs => h.takes hP ((whens_takes hP h' ht).2 hs)) (whens_takes hP h' ht).1 (h.texts hP)

theorem cases_takes {A B D : List Piece} {c : Piece} (hP : Read w P) (hk : Key "CASE" k) (hA : When P A) (hB : Many (When P) B)
    (hD : Opt (After P "ELSE") D) (hc : Key "END" c) (ht : Solid t) :
    Takes w (.nt .r_case_expression v) (k :: (A ++ (B ++ (D ++ [c])))) t := by
  have hE := else_takes (v := some 1) (v' := some 1) (ac := .build .self .caseExpression [some 0, some 1]) hP hD hc ht
  refine .nt (.skip .blockStart (.seq (X := [k]) (fun _ => hk.takes (by decide +kernel) (by decide +kernel) ?_) ?_
    (texts_one (hk.text (by decide +kernel)))))
  · change Solid (render (A ++ _) ++ t)
    rw [render_append, List.append_assoc]; exact hA.solid
  · change Takes w _ (A ++ (B ++ (D ++ [c]))) t
    rw [← List.append_assoc A B]
    exact .seq (fun hs => .altL (.skip .null (plus_takes hP hA hB (hE.2 hs)))) hE.1
      (Halts.texts_append (hA.texts hP) (hB.texts fun _ h => h.texts hP))

theorem caseOf_takes {E A B D : List Piece} {c : Piece} (hP : Read w P) (hk : Key "CASE" k) (hE : P E) (hn : ¬ Leads "WHEN" (render E))
    (hA : When P A) (hB : Many (When P) B) (hD : Opt (After P "ELSE") D) (hc : Key "END" c) (ht : Solid t) :
    Takes w (.nt .r_case_expression v) (k :: (E ++ (A ++ (B ++ (D ++ [c]))))) t := by
  have hL := else_takes (v := some 1) (v' := some 1) (ac := .build .self .caseExpression [some 0, some 1]) hP hD hc ht
  have hX := hP.expr hE
  have tB := hB.texts fun _ h => h.texts hP
  refine .nt (.skip .blockStart (.seq (X := [k]) (fun _ => hk.takes (by decide +kernel) (by decide +kernel) ?_) ?_
    (texts_one (hk.text (by decide +kernel)))))
  · change Solid (render (E ++ _) ++ t)
    rw [render_append, List.append_assoc]; exact hX.solid
  · change Takes w _ (E ++ (A ++ (B ++ (D ++ [c])))) t
    rw [← List.append_assoc A B, ← List.append_assoc E]
    refine .seq (fun hs => .altR (fun hs' => ?_) (.seq (fun hs' => ?_) (plus_takes hP hA hB (hL.2 hs)) hX.texts)) hL.1
      (Halts.texts_append hX.texts (Halts.texts_append (hA.texts hP) tB))
    · refine .skip .null (.seq1 (.nt (.seq1 (when_refuses fun h => hn ?_))))
      rw [render_append, List.append_assoc] at h
      rw [List.append_assoc] at hs'
      exact h.tail hX (Exprn.chain le_rfl hX).gaps (Spaced.cut hs' (Halts.texts_append (hA.texts hP) tB)) (by decide +kernel)
    · exact hP.takes hE (hA.begins hP tB hs') (by decide +kernel)

/-! ### Comprehensions and predicates -/

/-- `i IN E`, and the rest -/
theorem in_takes {E : List Piece} {i n : Piece} {xs : List String} (hP : Read w P) (hi : Ident i) (hn : Key "IN" n) (hE : P E)
    (h : Takes w e Y t) (hb : Spaced (Y ++ [endPiece t]) → Begins xs (render Y ++ t)) (hx : ∀ x ∈ xs, x ∈ enders) :
    Takes w (.seq (.nt .r_identifier v) (.seq (.nt .r_IN none) (.seq (.nt .r_ws none) (.seq (.nt .r_expression v') e))))
      (i :: n :: (E ++ Y)) t := by
  refine .seq (X := [i]) (fun _ => hi.takes (hn.solid (by decide +kernel))) (.word hn (by decide +kernel) (by decide +kernel) ?_
    (.seq (fun hs => hP.takes hE (hb hs) hx) h (hP.expr hE).texts)) (texts_one hi.text)
  rw [render_append, List.append_assoc]; exact (hP.expr hE).solid

/-- `WHERE F )` -/
theorem where_close {F : List Piece} {c : Piece} {ac : Act} (hP : Read w P) (hF : Opt (After P "WHERE") F) (hc : Key ")" c)
    (ht : Solid t) :
    Takes w (.seq (.alt (.seq (.nt .r_WHERE none) (.nt .r_expression v)) (.nt .r__null_ v')) (.seq (.nt .r_RIGHT_PAREN none)
      (.seq (.pred .blockEnd) (.seq (.act ac) (.nt .r_ws none))))) (F ++ [c]) t ∧
    (Spaced (F ++ [c] ++ [endPiece t]) → Begins ["WHERE", ")"] (render (F ++ [c]) ++ t)) := by
  have tc := texts_one (hc.text (by decide +kernel))
  have hw := where_read (v := v) (v' := v') hP hF (t := render [c] ++ t) (sign_begins hc (by decide +kernel) (by decide +kernel)) (by decide +kernel)
    (by decide +kernel)
  refine ⟨.seq (fun _ => hw.1) (Halts.close (.sign hc (by decide +kernel) (by decide +kernel)) ht) (hF.texts fun h => h.texts hP (by decide +kernel)),
    fun hs => ?_⟩
  rw [List.append_assoc] at hs
  rw [render_append, List.append_assoc]
  exact hw.2 (Spaced.cut hs tc)
/-- `| V )` -/
theorem pipe_close {V : List Piece} {c : Piece} {ac : Act} {r : Rule} {y : String} (hP : Read w P) (hV : Opt (After P "|") V) (hc : Key y c)
    (hy : y ∈ enders) (hy' : wordy y = false) (hn : bytes y ≠ []) (ha : avoids [y] (.nt .r_PIPE none) = true) (hr : signs y (.nt r none) = true)
    (ht : Solid t) :
    Takes w (.seq (.alt (.seq (.nt .r_PIPE none) (.seq (.nt .r_ws none) (.nt .r_expression v))) (.nt .r__null_ v')) (.seq (.nt r none)
      (.seq (.pred .blockEnd) (.seq (.act ac) (.nt .r_ws none))))) (V ++ [c]) t ∧ Begins ["|", y] (render (V ++ [c]) ++ t) := by
  have hw := pipe_read (v := v) (v' := v') hP hV (t := render [c] ++ t) (sign_begins hc hy' hn) (by simpa using hy) ha
  refine ⟨.seq (fun _ => hw.1) (Halts.close (.sign hc hr hn) ht) (hV.texts fun h => h.texts hP (by decide +kernel)), ?_⟩
  rw [render_append, List.append_assoc]
  exact hw.2

theorem each_takes {E F : List Piece} {o i n c : Piece} {y : String} {rk : Rule} {ac : Act} (hP : Read w P) (hk : Key y k)
    (hr : reads [y] (.nt rk none) = true) (hy : (wordy y && !(bytes y).isEmpty) = true) (ho : Key "(" o) (hi : Ident i) (hn : Key "IN" n)
    (hE : P E) (hF : Opt (After P "WHERE") F) (hc : Key ")" c) (ht : Solid t) :
    Takes w (.seq (.pred .blockStart) (.seq (.nt rk none) (.seq (.nt .r_LEFT_PAREN none) (.seq (.nt .r_ws none) (.seq (.nt .r_identifier (some 0))
      (.seq (.nt .r_IN none) (.seq (.nt .r_ws none) (.seq (.nt .r_expression (some 1)) (.seq (.alt (.seq (.nt .r_WHERE none) (.nt .r_expression (some 2)))
      (.nt .r__null_ (some 2))) (.seq (.nt .r_RIGHT_PAREN none) (.seq (.pred .blockEnd) (.seq (.act ac) (.nt .r_ws none)))))))))))))
      (k :: o :: i :: n :: (E ++ (F ++ [c]))) t := by
  have hF' := where_close (ac := ac) (v := some 2) (v' := some 2) hP hF hc ht
  have hy' : bytes y ≠ [] := by
    simp only [Bool.and_eq_true, Bool.not_eq_true', List.isEmpty_eq_false_iff] at hy
    exact hy.2
  exact .skip .blockStart (.seq (X := [k]) (fun _ => hk.takes hr hy (ho.solid (by decide +kernel)))
    (.sign ho (by decide +kernel) (by decide +kernel) hi.solid (in_takes hP hi hn hE hF'.1 hF'.2 (by decide +kernel))) (texts_one (hk.text hy')))

theorem extract_takes {E V : List Piece} {o i n c : Piece} (hP : Read w P) (hk : Key "EXTRACT" k) (ho : Key "(" o) (hi : Ident i)
    (hn : Key "IN" n) (hE : P E) (hV : Opt (After P "|") V) (hc : Key ")" c) (ht : Solid t) :
    Takes w (.nt .r_extract_expression v) (k :: o :: i :: n :: (E ++ (V ++ [c]))) t := by
  have hV' := pipe_close (ac := .build .self .extract [some 0, some 1, some 2]) (v := some 2) (v' := some 2) (r := .r_RIGHT_PAREN) hP hV hc
    (by decide +kernel) (by decide +kernel) (by decide +kernel) (by decide +kernel) (by decide +kernel) ht
  exact .nt (.skip .blockStart (.seq (X := [k]) (fun _ => hk.takes (by decide +kernel) (by decide +kernel) (ho.solid (by decide +kernel)))
    (.sign ho (by decide +kernel) (by decide +kernel) hi.solid (in_takes hP hi hn hE hV'.1 (fun _ => hV'.2) (by decide +kernel)))
    (texts_one (hk.text (by decide +kernel)))))

theorem reduce_takes {E F V : List Piece} {o a q m i n c : Piece} (hP : Read w P) (hk : Key "REDUCE" k) (ho : Key "(" o) (ha : Ident a)
    (hq : Key "=" q) (hE : P E) (hm : Key "," m) (hi : Ident i) (hn : Key "IN" n) (hF : P F) (hV : Opt (After P "|") V) (hc : Key ")" c)
    (ht : Solid t) : Takes w (.nt .r_reduce_expression v) (k :: o :: a :: q :: (E ++ m :: i :: n :: (F ++ (V ++ [c])))) t := by
  have hV' := pipe_close (ac := .build .self .reduce [some 0, some 1, some 2, some 3, some 4]) (v := some 4) (v' := some 4) (r := .r_RIGHT_PAREN) hP hV hc
    (by decide +kernel) (by decide +kernel) (by decide +kernel) (by decide +kernel) (by decide +kernel) ht
  have h1 := in_takes (v := some 2) (v' := some 3) hP hi hn hF hV'.1 (fun _ => hV'.2) (by decide +kernel)
  have h2 := Takes.sign (r := .r_COMMA) hm (by decide +kernel) (by decide +kernel) hi.solid h1
  refine .nt (.skip .blockStart (.seq (X := [k]) (fun _ => hk.takes (by decide +kernel) (by decide +kernel) (ho.solid (by decide +kernel)))
    (.sign ho (by decide +kernel) (by decide +kernel) ha.solid (.seq (X := [a]) (fun _ => ha.takes (hq.solid (by decide +kernel)))
      (.sign hq (by decide +kernel) (by decide +kernel) ?_ (.seq (fun _ => hP.takes hE
        (sign_begins hm (by decide +kernel) (by decide +kernel)) (by decide +kernel)) h2 (hP.expr hE).texts)) (texts_one ha.text)))
    (texts_one (hk.text (by decide +kernel)))))
  rw [render_append, List.append_assoc]; exact (hP.expr hE).solid

theorem list_takes {E F V : List Piece} {o i n c : Piece} (hP : Read w P) (ho : Key "[" o) (hi : Ident i)
    (hn : Key "IN" n) (hE : P E) (hF : Opt (After P "WHERE") F) (hV : Opt (After P "|") V) (hc : Key "]" c) (ht : Solid t) :
    Takes w (.nt .r_list_comprehension v) (o :: i :: n :: (E ++ (F ++ (V ++ [c])))) t := by
  have hV' := pipe_close (ac := .build .self .listComprehension [some 0, some 1, some 2, some 3]) (v := some 3) (v' := some 3) (r := .r_RIGHT_SQ_PAREN) hP hV hc
    (by decide +kernel) (by decide +kernel) (by decide +kernel) (by decide +kernel) (by decide +kernel) ht
  have hF' := where_read (v := some 2) (v' := some 2) hP hF hV'.2 (by decide +kernel) (by decide +kernel)
  refine .nt (.skip .blockStart (.sign ho (by decide +kernel) (by decide +kernel) hi.solid (in_takes hP hi hn hE (.seq (fun _ => hF'.1) hV'.1
    (hF.texts fun h => h.texts hP (by decide +kernel))) (fun hs => ?_) (xs := ["WHERE", "|", "]"]) (by decide +kernel))))
  rw [List.append_assoc] at hs
  rw [render_append, List.append_assoc]
  exact hF'.2 (Spaced.cut hs hV'.1.texts)

/-! ### Functions -/

theorem open_halts {N : List Piece} (hN : FnName N) (hk : Key "(" k) (hs : Solid (render Y ++ t)) (h : Halts w e Y t) :
    Halts w (.seq (.pred .blockStart) (.seq (.nt .r_function_name v) (.seq (.nt .r_LEFT_PAREN none) (.seq (.nt .r_ws none) e))))
      (N ++ k :: Y) t :=
  .skip .blockStart (.seq (fun _ => hN.takes (hk.solid (by decide +kernel)) (by
      rw [render_cons, key_sign hk (d := 40) (by decide +kernel) (by decide)]; simp))
    (Halts.ws' (X := [k]) (fun _ => .sign hk (by decide +kernel) (by decide +kernel)) (fun _ => hs) (texts_one (hk.text (by decide +kernel))) h)
    hN.proc.texts)

theorem open_refuses {N : List Piece} (hN : FnName N) (hk : Key "(" k) (hs : Solid (render Y ++ t)) (hY : ∀ y ∈ Y, y.text ≠ [])
    (hsp : Spaced (N ++ k :: Y ++ [endPiece t])) (h : Refuses w e (render Y ++ t)) :
    Refuses w (.seq (.pred .blockStart) (.seq (.nt .r_function_name v) (.seq (.nt .r_LEFT_PAREN none) (.seq (.nt .r_ws none) e))))
      (render (N ++ k :: Y) ++ t) :=
  .skip .blockStart (.seqCons (hN.takes (hk.solid (by decide +kernel)) (by
      rw [render_cons, key_sign hk (d := 40) (by decide +kernel) (by decide)]; simp))
    (texts_cons (hk.text (by decide +kernel)) hY) hsp (sign_refuses hk (by decide +kernel) hs h))

/-- The arguments and the parenthesis after them. -/
def CallEnd (P : List Piece → Prop) (Y : List Piece) : Prop := ∃ A c, Y = A ++ [c] ∧ Opt (Sep P) A ∧ Key ")" c

theorem CallEnd.texts (hP : Read w P) (h : CallEnd P Y) : ∀ x ∈ Y, x.text ≠ [] := by
  obtain ⟨A, c, rfl, hA, hc⟩ := h
  exact Halts.texts_append (hA.texts fun h => h.texts fun _ h => (hP.expr h).texts) (texts_one (hc.text (by decide +kernel)))
theorem CallEnd.solid (hP : Read w P) (h : CallEnd P Y) : Solid (render Y ++ t) := by
  obtain ⟨A, c, rfl, hA, hc⟩ := h
  rw [render_append, List.append_assoc]
  cases hA with
  | none => exact hc.solid (by decide +kernel)
  | some h => exact h.solid fun _ _ h => (hP.expr h).solid
theorem CallEnd.star (hP : Read w P) (h : CallEnd P Y) : Refuses w (.nt .r_STAR none) (render Y ++ t) := by
  obtain ⟨A, c, rfl, hA, hc⟩ := h
  rw [render_append, List.append_assoc]
  cases hA with
  | none => exact (sign_begins hc (by decide +kernel) (by decide +kernel)).refuses (by decide +kernel)
  | some h =>
    obtain ⟨h1, h2⟩ := h
    rw [render_append, List.append_assoc]
    exact (hP.expr h1).head.refuses (by decide +kernel)
theorem CallEnd.distinct (hP : Read w P) (h : CallEnd P Y) (hs : Spaced (Y ++ [endPiece t])) : Refuses w (.nt .r_DISTINCT none) (render Y ++ t) := by
  obtain ⟨A, c, rfl, hA, hc⟩ := h
  have tc := texts_one (hc.text (by decide +kernel))
  cases hA with
  | none => exact (sign_begins hc (by decide +kernel) (by decide +kernel)).refuses (by decide +kernel)
  | some h =>
    obtain ⟨h1, h2⟩ := h
    intro p hh
    rw [List.append_assoc, render_append, List.append_assoc] at hh
    rw [List.append_assoc, List.append_assoc] at hs
    refine (hP.expr h1).distinct (Spaced.cut (by simpa using hs) ?_) hh
    exact Halts.texts_append (h2.texts fun _ h => (hP.expr h).texts) tc
theorem CallEnd.halts {ac ac' ac'' : Act} {v1 v2 : Option Nat} (hP : Read w P) (h : CallEnd P Y) :
    Halts w (.seq (.opt (.seq (.nt .r_expression v1) (.seq (.act ac) (.star (.seq (.nt .r_COMMA none) (.seq (.nt .r_ws none)
      (.seq (.nt .r_expression v2) (.act ac')))))))) (.seq (.nt .r_RIGHT_PAREN none) (.seq (.pred .blockEnd) (.act ac'')))) Y t := by
  obtain ⟨A, c, rfl, hA, hc⟩ := h
  have hb : Begins [")"] (render [c] ++ t) := sign_begins hc (by decide +kernel) (by decide +kernel)
  refine .seq (fun _ => ?_) (.seqIdle (.sign hc (by decide +kernel) (by decide +kernel)) .fin)
    (hA.texts fun h => h.texts fun _ h => (hP.expr h).texts)
  cases hA with
  | none => exact .altR (fun _ => .seq1 fun p h => (hb.refuses (e := .nt .r_expression none) (by decide +kernel) p h).var) (.idle .eps)
  | some h =>
    exact .altL (sep_takes (fun X t v h hb => hP.takes h hb (by decide +kernel)) (fun _ _ h => (hP.expr h).solid) (fun _ h => (hP.expr h).texts)
      (by decide +kernel) h hb)

theorem star_halts {s c : Piece} {ac : Act} (hs : Key "*" s) (hc : Key ")" c) :
    Halts w (.seq (.nt .r_STAR none) (.seq (.nt .r_ws none) (.seq (.nt .r_RIGHT_PAREN none) (.seq (.pred .blockEnd) (.act ac))))) [s, c] t :=
  Halts.ws' (X := [s]) (Y := [c]) (fun _ => .sign hs (by decide +kernel) (by decide +kernel)) (fun _ => hc.solid (by decide +kernel))
    (texts_one (hs.text (by decide +kernel))) (.seqIdle (.sign hc (by decide +kernel) (by decide +kernel)) .fin)

theorem distinct_halts {d : Piece} (hd : Key "DISTINCT" d) (hs : Solid (render Y ++ t)) (h : Halts w e Y t) :
    Halts w (.seq (.nt .r_DISTINCT none) e) (d :: Y) t :=
  .seq (X := [d]) (fun _ => hd.takes (by decide +kernel) (by decide +kernel) hs) h (texts_one (hd.text (by decide +kernel)))

theorem call_takes' {N D : List Piece} (hP : Read w P) (hN : FnName N) (hk : Key "(" k) (hD : Opt (Sign "DISTINCT") D) (hY : CallEnd P Y)
    (ht : Solid t) : Takes w (.nt .r_function_application v) (N ++ k :: (D ++ Y)) t := by
  have ty := hY.texts hP
  refine .nt (Halts.wsEnd ?_ ht)
  cases hD with
  | none =>
    have sp : Spaced (N ++ k :: Y ++ [endPiece t]) → Spaced (Y ++ [endPiece t]) := fun hs =>
      Spaced.right (X := N ++ [k]) (by simpa using hs)
    exact .altR (fun hs => open_refuses hN hk (hY.solid hP) ty hs (.seq1 (hY.distinct hP (sp hs))))
      (.altR (fun hs => open_refuses hN hk (hY.solid hP) ty hs (.seq1 (hY.star hP)))
      (.altR (fun hs => open_refuses hN hk (hY.solid hP) ty hs (.seq1 (hY.distinct hP (sp hs))))
        (open_halts hN hk (hY.solid hP) (hY.halts hP))))
  | some h =>
    obtain ⟨hd⟩ := h
    rename_i d
    have td := texts_cons (hd.text (by decide +kernel)) ty
    have sd : Solid (render (d :: Y) ++ t) := hd.solid (by decide +kernel)
    have sp : Spaced (N ++ k :: d :: Y ++ [endPiece t]) → Spaced (d :: (Y ++ [endPiece t])) := fun hs =>
      Spaced.right (X := N ++ [k]) (by simpa using hs)
    exact .altR (fun hs => open_refuses hN hk sd td hs (.seqCons (X := [d]) (hd.takes (by decide +kernel) (by decide +kernel) (hY.solid hP)) ty
        (sp hs) (.seq1 (hY.star hP))))
      (.altR (fun hs => open_refuses hN hk sd td hs (.seq1 ((hd.begins (by decide +kernel) ty (sp hs)).refuses (by decide +kernel))))
      (.altL (open_halts hN hk sd (distinct_halts hd (hY.solid hP) (hY.halts hP)))))

theorem callAll_takes {N D : List Piece} {s c : Piece} (hN : FnName N) (hk : Key "(" k) (hD : Opt (Sign "DISTINCT") D) (hs : Key "*" s)
    (hc : Key ")" c) (ht : Solid t) : Takes w (.nt .r_function_application v) (N ++ k :: (D ++ [s, c])) t := by
  have ts : ∀ x ∈ [s, c], x.text ≠ [] := texts_cons (hs.text (by decide +kernel)) (texts_one (hc.text (by decide +kernel)))
  have ss : Solid (render [s, c] ++ t) := hs.solid (by decide +kernel)
  refine .nt (Halts.wsEnd ?_ ht)
  cases hD with
  | none =>
    exact .altR (fun hs' => open_refuses hN hk ss ts hs' (.seq1 ((sign_begins hs (by decide +kernel) (by decide +kernel)).refuses (by decide +kernel))))
      (.altL (open_halts hN hk ss (star_halts hs hc)))
  | some h =>
    obtain ⟨hd⟩ := h
    exact .altL (open_halts hN hk (hd.solid (by decide +kernel)) (distinct_halts hd ss (star_halts hs hc)))

/-! ### Operands -/

/-- The rule that reads an operand, the rules before it that do not match, and its first byte. -/
structure Route where
  rule : Rule
  shun : List Rule
  first : CharSet

/-- The words, and the rules of the operands that begin with them. -/
def roads : List (String × Rule × Rule) :=
  [("CASE", .r_CASE, .r_case_expression), ("FILTER", .r_FILTER, .r_filter_expression), ("EXTRACT", .r_EXTRACT, .r_extract_expression),
    ("REDUCE", .r_REDUCE, .r_reduce_expression), ("ALL", .r_ALL, .r_all_predicate), ("ANY", .r_ANY, .r_any_predicate),
    ("NONE", .r_NONE, .r_none_predicate), ("SINGLE", .r_SINGLE, .r_single_predicate)]
def routes : List Route :=
  ⟨.r_function_application, wordRule, kStart⟩ :: ⟨.r_list_comprehension, [], .single 91⟩ ::
    roads.map fun y => ⟨y.2.2, wordRule.erase y.2.1, kStart⟩

theorem route_run : ∀ y ∈ routes, ∀ e ∈ atomEs,
    okAt (0 + 1) (run 100 (.mk2 [] [.hole y.first] y.shun [⟨0, y.rule, none, some 1, false⟩] [] none) e 0 .same []) = true := by
  decide +kernel
theorem road_words : ∀ y ∈ roads, ∀ r ∈ wordRule.erase y.2.1, avoids [y.1] (.nt r none) = true := by decide +kernel
theorem road_start : ∀ y ∈ roads, (bytes y.1 ≠ [] ∧ (bytes y.1).head?.any letter = true) := by decide +kernel

theorem reach {y : Route} (hy : y ∈ routes) (h : Takes w (.nt y.rule none) X t) (hK : ∃ c r, render X ++ t = c :: r ∧ y.first.mem c = true)
    (hsh : Spaced (X ++ [endPiece t]) → ∀ r ∈ y.shun, Refuses w (.nt r none) (render X ++ t)) : ∀ ea ∈ atomEs, Takes w ea X t := by
  intro ea hea
  refine ⟨h.texts, fun p h1 h2 => ?_⟩
  obtain ⟨c, r, e, hc⟩ := hK
  have h3 := h1
  rw [e] at h3
  refine Win.eats (route_run y hy ea hea) .nil (qs := [p + (render X).length]) (.cons (.of_hole h3 hc) .nil) (fun r hr => hsh h2 r hr p h1) ?_ (by simp)
  intro f hf
  simp only [List.mem_singleton] at hf
  subst hf
  exact FactOk.eats (h.eats p h1 h2)

theorem road {y : String × Rule × Rule} (hy : y ∈ roads) (hk : Key y.1 k) (h : Takes w (.nt y.2.2 none) (k :: Y) t) :
    ∀ ea ∈ atomEs, Takes w ea (k :: Y) t := by
  obtain ⟨h1, h2⟩ := road_start y hy
  refine reach (y := ⟨y.2.2, wordRule.erase y.2.1, kStart⟩) (by unfold routes; simp only [List.mem_cons, List.mem_map]; exact .inr (.inr ⟨y, hy, rfl⟩))
    h ?_ (fun hs r hr => (hk.begins h1 (fun x hx => h.texts x (List.mem_cons_of_mem _ hx)) hs).refuses (road_words y hy r hr))
  cases hx : bytes y.1 with
  | nil => exact absurd hx h1
  | cons d ds =>
    obtain ⟨c, s, e, hc⟩ := key_first hk hx
    refine ⟨c, _, by rw [render_cons, e]; rfl, ?_⟩
    rw [hx] at h2
    exact imp_byte (P := fun c => letter (upper c)) (Q := fun c => kStart.mem c) (by decide +kernel) (by simpa [hc] using h2)

theorem call_route {N : List Piece} (hN : FnName N) (hk : Key "(" k) (h : Takes w (.nt .r_function_application none) (N ++ k :: Y) t) :
    ∀ ea ∈ atomEs, Takes w ea (N ++ k :: Y) t := by
  obtain ⟨s, b, c, r, e, h1, h2, h3⟩ := hN.first (Y := Y) hk
  refine reach (y := ⟨.r_function_application, wordRule, kStart⟩) (by simp [routes]) h ?_ (fun _ r hr p hh => ?_)
  · rw [e]
    obtain ⟨d, r', rfl, h4, -⟩ := h1.symbolic.start
    exact ⟨d, _, by simp; rfl, start_mem h4⟩
  · rw [e, List.append_assoc, List.append_assoc] at hh
    refine h1.words hh (gap_head h2 fun _ => ?_) r hr
    rcases h3 with rfl | rfl <;> rfl

theorem _root_.Verif.Exprs.Compound.atom (hP : Read w P) (h : Compound P X) (ht : Solid t) : ∀ ea ∈ atomEs, Takes w ea X t := by
  cases h with
  | call h1 h2 h3 h4 h5 => exact call_route h1 h2 (call_takes' hP h1 h2 h3 ⟨_, _, rfl, h4, h5⟩ ht)
  | callAll h1 h2 h3 h4 h5 => exact call_route h1 h2 (callAll_takes h1 h2 h3 h4 h5 ht)
  | cases h1 h2 h3 h4 h5 =>
    exact road (y := ("CASE", .r_CASE, .r_case_expression)) (by decide) h1 (cases_takes hP h1 h2 h3 h4 h5 ht)
  | caseOf h1 h2 h2' h2'' h3 h4 h5 =>
    exact road (y := ("CASE", .r_CASE, .r_case_expression)) (by decide) h1 (caseOf_takes hP h1 h2 h2' h2'' h3 h4 h5 ht)
  | each h0 h1 h2 h3 h4 h5 h6 h7 =>
    simp only [List.mem_cons, List.not_mem_nil, or_false] at h0
    rcases h0 with rfl | rfl | rfl | rfl | rfl
    · exact road (y := ("ALL", .r_ALL, .r_all_predicate)) (by decide) h1
        (.nt (each_takes hP h1 (by decide +kernel) (by decide +kernel) h2 h3 h4 h5 h6 h7 ht))
    · exact road (y := ("ANY", .r_ANY, .r_any_predicate)) (by decide) h1
        (.nt (each_takes hP h1 (by decide +kernel) (by decide +kernel) h2 h3 h4 h5 h6 h7 ht))
    · exact road (y := ("NONE", .r_NONE, .r_none_predicate)) (by decide) h1
        (.nt (each_takes hP h1 (by decide +kernel) (by decide +kernel) h2 h3 h4 h5 h6 h7 ht))
    · exact road (y := ("SINGLE", .r_SINGLE, .r_single_predicate)) (by decide) h1
        (.nt (each_takes hP h1 (by decide +kernel) (by decide +kernel) h2 h3 h4 h5 h6 h7 ht))
    · exact road (y := ("FILTER", .r_FILTER, .r_filter_expression)) (by decide) h1
        (.nt (each_takes hP h1 (by decide +kernel) (by decide +kernel) h2 h3 h4 h5 h6 h7 ht))
  | extract h1 h2 h3 h4 h5 h6 h7 =>
    exact road (y := ("EXTRACT", .r_EXTRACT, .r_extract_expression)) (by decide) h1 (extract_takes hP h1 h2 h3 h4 h5 h6 h7 ht)
  | reduce h1 h2 h3 h4 h5 h6 h7 h8 h9 h10 h11 =>
    exact road (y := ("REDUCE", .r_REDUCE, .r_reduce_expression)) (by decide) h1 (reduce_takes hP h1 h2 h3 h4 h5 h6 h7 h8 h9 h10 h11 ht)
  | list h2 h3 h4 h5 h6 h6' h7 =>
    refine reach (y := ⟨.r_list_comprehension, [], .single 91⟩) (by simp [routes]) (list_takes hP h2 h3 h4 h5 h6 h6' h7 ht) ?_ (by simp)
    exact ⟨91, _, by rw [render_cons, key_sign h2 (d := 91) (by decide +kernel) (by decide)]; rfl, by decide⟩

end

end Verif.Stmts
