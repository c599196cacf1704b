import Verif.Cypher.StmtKeys
/-!
# Signs, names and lists of pieces

The parts that the rules of clauses and of patterns share.
-/
namespace Verif.Stmts
open Verif.Peg Verif.Exprs Verif.Cypher Verif.Cypher.Win
open Verif.Ops (words bytes upper)

variable {w : List UInt8} {t : List UInt8} {X Y : List Piece} {k x : Piece} {v v' : Option Nat} {a b e : E}

/-! ## Signs, names, lists -/

theorem _root_.Verif.Cypher.Takes.seqNil (h : Takes w a X t) (h' : Takes w b [] t) : Takes w (.seq a b) X t := by
  simpa using Takes.seq (Y := []) (fun _ => h) h' h.texts
theorem _root_.Verif.Cypher.Takes.nilSeq (h : Takes w a [] (render X ++ t)) (h' : Takes w b X t) : Takes w (.seq a b) X t :=
  Takes.seq (X := []) (fun _ => h) h' (by simp)

theorem _root_.Verif.Cypher.Takes.seqIdleR {c : E} (h : Takes w (.seq a b) X t) (h' : Lull w c) : Takes w (.seq a (.seq b c)) X t := by
  refine ⟨h.texts, fun p h1 h2 op ps => ?_⟩
  obtain ⟨op1, ts, h3⟩ := h.eats p h1 h2 op ps
  cases h3 with
  | seq_ok h4 h5 =>
    rename_i q
    obtain ⟨op2, us, h6⟩ := h' (p + (render X).length) op1 ps
    exact ⟨_, _, .seq_ok h4 (.seq_ok h5 h6)⟩

def signs (x : String) (e : E) : Bool :=
  okAt ((wordCells (bytes x)).length + 0) (run 100 (.mk2 (wordCells (bytes x)) [] [] [] [] none) e 0 .same [])

theorem ws_eats {b : List UInt8} (hb : Gap b) (ht : Solid t) {p : Nat} (h : Here w p (b ++ t)) :
    Eats w (.nt .r_ws v) p (p + b.length) := by
  intro op ps
  obtain ⟨ts, h⟩ := gap_ws hb ht h v (op, ps)
  exact ⟨_, _, h⟩

/-- A sign and the white space after it. -/
theorem _root_.Verif.Cypher.Takes.sign {x : String} {r : Rule} (h : Key x k) (hr : signs x (.nt r none) = true) (hx : bytes x ≠ [])
    (hs : Solid (render Y ++ t)) (h' : Takes w e Y t) :
    Takes w (.seq (.nt r none) (.seq (.nt .r_ws none) e)) (k :: Y) t := by
  refine ⟨?_, fun p h1 h2 => ?_⟩
  · intro y hy
    rcases List.mem_cons.1 hy with rfl | hy
    · exact h.text hx
    · exact h'.texts y hy
  obtain ⟨h3, h4⟩ := h
  rename_i s b
  rw [render_cons] at h1
  simp only at h1
  have h5 := Win.eats hr (Span.word h3 h1) (qs := []) .nil (by simp) (by simp) (by simp)
  have h6 := ws_eats (v := none) h4 hs h1.right
  have h7 := h'.eats _ h1.right.right h2.tail
  refine (h5.seq (h6.seq h7)).to ?_
  simp [render]; omega

theorem ident_run : ∀ B ∈ wordEnds, okAt (nameA.length + 1) (run 100 (.mk2 nameA B [] [] [] none) (.nt .r_identifier none) 0 .same []) = true := by
  decide +kernel

theorem Ident.text (h : Ident x) : x.text ≠ [] := by
  obtain ⟨h, -⟩ := h
  obtain ⟨c, r, rfl, -⟩ := h.start
  simp

theorem Ident.takes (h : Ident x) (ht : Solid t) : Takes w (.nt .r_identifier v) [x] t := by
  refine ⟨by simpa using h.text, fun p h1 h2 => ?_⟩
  obtain ⟨h3, h4⟩ := h
  rename_i s b
  have h5 : b = [] → t.head?.any sym = false := by
    intro hb
    have := (h2.1 hb).1
    cases h : t.head?.any sym with
    | false => rfl
    | true => exact absurd ⟨h3.ends, h⟩ this
  have h6 : Here w p (s ++ (b ++ t)) := by simpa [render] using h1
  obtain ⟨B, hB, h7⟩ := ends_lay h4 ht h5 h6.right (p + s.length + b.length)
  refine ((Win.eats (ident_run B hB) (h3.span h6) h7 (by simp) (by simp) (by simp)).to ?_).var
  simp [Mark, render]; omega

theorem Ident.solid (h : Ident x) : Solid (render (x :: X) ++ t) := by
  obtain ⟨h, -⟩ := h
  rw [render_cons]
  exact h.solid

theorem More.texts {P : List Piece → Prop} (hP : ∀ X, P X → ∀ x ∈ X, x.text ≠ []) (h : More P Y) : ∀ y ∈ Y, y.text ≠ [] := by
  induction h with
  | nil => simp
  | cons hk hX _ ih =>
    intro y hy
    rcases List.mem_cons.1 hy with rfl | hy
    · exact hk.text (by decide +kernel)
    · rcases List.mem_append.1 hy with hy | hy
      · exact hP _ hX y hy
      · exact ih y hy

theorem More.begins {P : List Piece → Prop} (h : More P Y) {xs : List String} (ht : Begins xs t) :
    Begins ("," :: xs) (render Y ++ t) := by
  cases h with
  | nil => exact ht.mono (by simp +contextual)
  | cons hk _ _ =>
    obtain ⟨h1, -⟩ := hk
    exact .inr ⟨",", by simp, by decide +kernel, _, _, render_cons, h1, fun h => absurd h (by decide +kernel)⟩

theorem More.takes {P : List Piece → Prop} {r : Rule} {ac : Act} {xs : List String}
    (hP : ∀ X t, P X → Begins ("," :: xs) t → Takes w (.nt r v) X t) (hS : ∀ X t, P X → Solid (render X ++ t))
    (hT : ∀ X, P X → ∀ x ∈ X, x.text ≠ []) (ha : avoids xs (.nt .r_COMMA none) = true) (h : More P Y) (ht : Begins xs t) :
    Takes w (.star (.seq (.nt .r_COMMA none) (.seq (.nt .r_ws none) (.seq (.nt r v) (.act ac))))) Y t := by
  induction h with
  | nil => exact .starEnd (.seq1 (ht.refuses ha))
  | @cons k X Y hk hX hm ih =>
    rw [← List.cons_append]
    refine .starMore (fun hs => .sign hk (by decide +kernel) (by decide +kernel) (hS _ _ hX)
      (.seqIdle (hP _ _ hX (hm.begins ht)) .act)) ih ?_
    intro y hy
    rcases List.mem_cons.1 hy with rfl | hy
    · exact hk.text (by decide +kernel)
    · exact hT _ hX y hy

theorem Opt.texts {P : List Piece → Prop} (hP : P X → ∀ x ∈ X, x.text ≠ []) (h : Opt P X) : ∀ x ∈ X, x.text ≠ [] := by
  cases h with
  | none => simp
  | some h => exact hP h

theorem opt_takes {P : List Piece → Prop} {r : Rule} (h : Opt P X) (hP : P X → Takes w (.nt r v) X t)
    (hN : Refuses w (.nt r none) t) : Takes w (.alt (.nt r v) (.nt .r__null_ v')) X t := by
  cases h with
  | none => exact .altR (fun _ p h => (hN p h).var) (.idle .null)
  | some h => exact .altL (hP h)

theorem _root_.Verif.Exprs.HeadText.refuses (h : HeadText t) (hn : noAt (run 100 (.mk2 [] [.hole kHead] [] [] [] none) e 0 .same []) = true) :
    Refuses w e t := fun p h1 =>
  Win.shuns hn .nil (qs := [p]) (.cons (h.hole h1 p) .nil) (by simp) (by simp) (by simp)

theorem _root_.Verif.Exprs.Exprn.texts (h : Exprn X) : ∀ x ∈ X, x.text ≠ [] := (Exprn.chain le_rfl h).texts
theorem _root_.Verif.Exprs.Exprn.solid (h : Exprn X) : Solid (render X ++ t) := (Exprn.head h).solid

/-! ## Without the white space at the end -/

def core : List Piece → List UInt8
  | [] => []
  | [k] => k.text
  | k :: x :: X => k.text ++ (k.blank ++ core (x :: X))
def trail : List Piece → List UInt8
  | [] => []
  | [k] => k.blank
  | _ :: x :: X => trail (x :: X)

theorem core_trail : ∀ X : List Piece, render X = core X ++ trail X
  | [] => rfl
  | [k] => by simp [core, trail, render]
  | k :: x :: X => by
    have := core_trail (x :: X)
    simp only [core, trail, List.append_assoc, ← this]
    simp [render]
theorem core_append (hY : Y ≠ []) : ∀ X : List Piece, core (X ++ Y) = render X ++ core Y
  | [] => rfl
  | [k] => by
    cases Y with
    | nil => exact absurd rfl hY
    | cons y Y => simp [core, render]
  | k :: x :: X => by
    have := core_append hY (x :: X)
    simp only [List.cons_append] at this ⊢
    simp only [core, this]
    simp [render]
theorem trail_append (hY : Y ≠ []) : ∀ X : List Piece, trail (X ++ Y) = trail Y
  | [] => rfl
  | [k] => by
    cases Y with
    | nil => exact absurd rfl hY
    | cons y Y => simp [trail]
  | k :: x :: X => by
    have := trail_append hY (x :: X)
    simpa only [List.cons_append, trail] using this

/-- The rule reads the pieces but not the white space at the end. -/
structure Halts (w : List UInt8) (e : E) (X : List Piece) (t : List UInt8) : Prop where
  ne : X ≠ []
  gap : Gap (trail X)
  texts : ∀ x ∈ X, x.text ≠ []
  eats : ∀ p, Here w p (render X ++ t) → Spaced (X ++ [endPiece t]) → Eats w e p (p + (core X).length)

namespace Halts

theorem nt {r : Rule} (h : Halts w (grammar r).body X t) : Halts w (.nt r v) X t :=
  ⟨h.ne, h.gap, h.texts, fun p h1 h2 => .nt (h.eats p h1 h2)⟩
theorem altL (h : Halts w a X t) : Halts w (.alt a b) X t := ⟨h.ne, h.gap, h.texts, fun p h1 h2 => .altL (h.eats p h1 h2)⟩
theorem altR (h : Spaced (X ++ [endPiece t]) → Refuses w a (render X ++ t)) (h' : Halts w b X t) : Halts w (.alt a b) X t :=
  ⟨h'.ne, h'.gap, h'.texts, fun p h1 h2 => .altR (h h2 p h1) (h'.eats p h1 h2)⟩
theorem skip (h : Lull w a) (h' : Halts w b X t) : Halts w (.seq a b) X t :=
  ⟨h'.ne, h'.gap, h'.texts, fun p h1 h2 => (h p).seq (h'.eats p h1 h2)⟩
theorem seqIdle (h : Halts w a X t) (h' : Lull w b) : Halts w (.seq a b) X t :=
  ⟨h.ne, h.gap, h.texts, fun p h1 h2 => (h.eats p h1 h2).seq (h' _)⟩
theorem given (hn : X ≠ []) (hg : Gap (trail X)) (hx : ∀ x ∈ X, x.text ≠ []) (h : Spaced (X ++ [endPiece t]) → Halts w e X t) :
    Halts w e X t := ⟨hn, hg, hx, fun p h1 h2 => (h h2).eats p h1 h2⟩

theorem texts_append (hx : ∀ x ∈ X, x.text ≠ []) (hy : ∀ x ∈ Y, x.text ≠ []) : ∀ x ∈ X ++ Y, x.text ≠ [] := fun x h =>
  (List.mem_append.1 h).elim (hx x) (hy x)

theorem seq (h : Spaced (Y ++ [endPiece t]) → Takes w a X (render Y ++ t)) (h' : Halts w b Y t) (hx : ∀ x ∈ X, x.text ≠ []) :
    Halts w (.seq a b) (X ++ Y) t := by
  refine ⟨by simp [h'.ne], by rw [trail_append h'.ne]; exact h'.gap, texts_append hx h'.texts, fun p h1 h2 => ?_⟩
  rw [render_append, List.append_assoc] at h1
  rw [List.append_assoc] at h2
  have h3 := (h h2.right).eats p h1 (Spaced.cut h2 h'.texts)
  have h4 := h'.eats _ h1.right h2.right
  rw [core_append h'.ne, List.length_append, ← Nat.add_assoc]
  exact h3.seq h4

theorem here {p : Nat} (h : Here w p (render X ++ t)) : Here w (p + (core X).length) (trail X ++ t) := by
  rw [core_trail, List.append_assoc] at h
  exact h.right

/-- White space follows. -/
theorem ws {c : E} (h : Spaced (Y ++ [endPiece t]) → Halts w a X (render Y ++ t)) (hs : Spaced (Y ++ [endPiece t]) → Solid (render Y ++ t))
    (hx : ∀ x ∈ X, x.text ≠ []) (h' : Takes w c Y t) : Takes w (.seq a (.seq (.nt .r_ws v) c)) (X ++ Y) t := by
  refine ⟨texts_append hx h'.texts, fun p h1 h2 => ?_⟩
  rw [render_append, List.append_assoc] at h1
  rw [List.append_assoc] at h2
  have h0 := h h2.right
  have h3 := h0.eats p h1 (Spaced.cut h2 h'.texts)
  have h4 := ws_eats (v := v) h0.gap (hs h2.right) (Halts.here h1)
  have e : p + (core X).length + (trail X).length = p + (render X).length := by
    rw [core_trail X, List.length_append]; omega
  rw [e] at h4
  have h5 := h'.eats _ h1.right h2.right
  rw [render_append, List.length_append, ← Nat.add_assoc]
  exact h3.seq (h4.seq h5)
theorem wsEnd (h : Halts w a X t) (hs : Solid t) : Takes w (.seq a (.nt .r_ws v)) X t := by
  refine ⟨h.texts, fun p h1 h2 => (h.eats p h1 h2).seq ((ws_eats h.gap hs (Halts.here h1)).to ?_)⟩
  rw [core_trail X, List.length_append]; omega
theorem ws' {c : E} (h : Spaced (Y ++ [endPiece t]) → Halts w a X (render Y ++ t)) (hs : Spaced (Y ++ [endPiece t]) → Solid (render Y ++ t))
    (hx : ∀ x ∈ X, x.text ≠ []) (h' : Halts w c Y t) : Halts w (.seq a (.seq (.nt .r_ws v) c)) (X ++ Y) t := by
  refine ⟨by simp [h'.ne], by rw [trail_append h'.ne]; exact h'.gap, texts_append hx h'.texts, fun p h1 h2 => ?_⟩
  rw [render_append, List.append_assoc] at h1
  rw [List.append_assoc] at h2
  have h0 := h h2.right
  have h3 := h0.eats p h1 (Spaced.cut h2 h'.texts)
  have h4 := ws_eats (v := v) h0.gap (hs h2.right) (Halts.here h1)
  have e : p + (core X).length + (trail X).length = p + (render X).length := by
    rw [core_trail X, List.length_append]; omega
  rw [e] at h4
  have h5 := h'.eats _ h1.right h2.right
  rw [core_append h'.ne, List.length_append, ← Nat.add_assoc]
  exact h3.seq (h4.seq h5)
/-- There is no white space. -/
theorem tight (h : Halts w e X t) (hb : trail X = []) : Takes w e X t :=
  ⟨h.texts, fun p h1 h2 => (h.eats p h1 h2).to (by rw [core_trail X, hb]; simp)⟩

theorem sign {x : String} {r : Rule} (h : Key x k) (hr : signs x (.nt r none) = true) (hx : bytes x ≠ []) :
    Halts w (.nt r v) [k] t := by
  refine ⟨by simp, ?_, by simpa using h.text hx, fun p h1 h2 => ?_⟩
  · obtain ⟨-, h⟩ := h; exact h
  · clear h2
    obtain ⟨h3, h4⟩ := h
    rename_i s b
    have h1 : Here w p (s ++ (b ++ t)) := by simpa [render] using h1
    exact ((Win.eats hr (Span.word h3 h1) (qs := []) .nil (by simp) (by simp) (by simp)).var).to (by simp [Mark, core])

end Halts

/-! ## Beginnings -/

theorem sign_begins {x : String} (hk : Key x k) (hw : wordy x = false) (hx : bytes x ≠ []) : Begins [x] (render (k :: X) ++ t) := by
  obtain ⟨h1, -⟩ := hk
  exact .inr ⟨x, by simp, hx, _, _, render_cons, h1, fun h => absurd h (by simp [hw])⟩
theorem byte_begins {x : String} {c : UInt8} (hx : bytes x = [c]) (hw : wordy x = false) (hc : upper c = c) : Begins [x] (c :: t) :=
  .inr ⟨x, by simp, by simp [hx], [c], t, rfl, by simp [hx, hc], fun h => absurd h (by simp [hw])⟩

theorem Begins.solid {xs : List String} (h : Begins xs t) (hx : ∀ x ∈ xs, x = "" ∨ firm x = true) : Solid t := by
  rcases h with ⟨-, rfl⟩ | ⟨x, hx', hn, s, r, rfl, h1, -⟩
  · exact .inl rfl
  · rcases hx x hx' with rfl | h
    · exact absurd (by decide +kernel) hn
    · exact firm_solid h1 h

theorem Many.texts {P : List Piece → Prop} (hP : ∀ X, P X → ∀ x ∈ X, x.text ≠ []) (h : Many P X) : ∀ x ∈ X, x.text ≠ [] := by
  induction h with
  | nil => simp
  | cons h _ ih => exact Halts.texts_append (hP _ h) ih
theorem Many.begins {P : List Piece → Prop} {x : String} {xs : List String} (hP : ∀ X t, P X → Begins [x] (render X ++ t))
    (h : Many P X) (ht : Begins xs t) : Begins (x :: xs) (render X ++ t) := by
  cases h with
  | nil => exact ht.mono (by simp +contextual)
  | cons h _ =>
    rw [render_append, List.append_assoc]
    exact (hP _ _ h).mono (by simp)
theorem Many.takes {P : List Piece → Prop} {x : String} {xs : List String} (hP : ∀ X t, P X → Begins [x] (render X ++ t))
    (hx : ∀ X, P X → ∀ x ∈ X, x.text ≠ []) (he : ∀ X t, P X → Begins (x :: xs) t → Takes w e X t) (ha : avoids xs e = true)
    (h : Many P X) (ht : Begins xs t) : Takes w (.star e) X t := by
  induction h with
  | nil => exact .starEnd (ht.refuses ha)
  | cons h hm ih => exact .starMore (fun _ => he _ _ h (hm.begins hP ht)) ih (hx _ h)

theorem ends_apart {x : Piece} (he : EndsSym x.text) (h : Spaced (x :: [endPiece t])) : x.blank = [] → t.head?.any sym = false := by
  intro hb
  have := (h.1 hb).1
  cases h' : t.head?.any sym with
  | false => rfl
  | true => exact absurd ⟨he, h'⟩ this

theorem solid_cons {c : UInt8} (h : c ≠ 32 ∧ c ≠ 9 ∧ c ≠ 10 ∧ c ≠ 13 ∧ c ≠ 47) : Solid (c :: t) :=
  .inr ⟨c, t, rfl, h.1, h.2.1, h.2.2.1, h.2.2.2.1, fun e => absurd e h.2.2.2.2⟩

theorem trail_tight : ∀ {X : List Piece}, X.getLast?.any (·.blank.isEmpty) = true → trail X = []
  | [], h => rfl
  | [k], h => by simpa [trail] using h
  | _ :: x :: X, h => trail_tight (X := x :: X) (by simpa using h)

theorem texts_cons (hk : k.text ≠ []) (hX : ∀ x ∈ X, x.text ≠ []) : ∀ x ∈ k :: X, x.text ≠ [] := by
  intro y hy
  rcases List.mem_cons.1 hy with rfl | hy
  · exact hk
  · exact hX y hy
theorem texts_one (hk : k.text ≠ []) : ∀ x ∈ [k], x.text ≠ [] := by simpa using hk

/-! ## More ways to put rules together -/

theorem _root_.Verif.Cypher.Refuses.seqCons {c : E} (h : Takes w a X (render Y ++ t)) (hY : ∀ y ∈ Y, y.text ≠ [])
    (hs : Spaced (X ++ Y ++ [endPiece t])) (h' : Refuses w c (render Y ++ t)) : Refuses w (.seq a c) (render (X ++ Y) ++ t) := by
  rw [render_append, List.append_assoc]
  rw [List.append_assoc] at hs
  exact .seq2 h (Spaced.cut hs hY) h'

theorem ws_takes (ht : Solid t) : Takes w (.nt .r_ws v) [] t :=
  ⟨by simp, fun p h1 _ => by simpa [render] using ws_eats (b := []) .nil ht h1⟩

/-- A word that is read without the white space after it. -/
theorem _root_.Verif.Cypher.Takes.word {x : String} {r : Rule} (h : Key x k)
    (hr : ((wins x).all fun AB => okAt (AB.1.length + 0) (run 100 (.mk2 AB.1 AB.2 [] [] [] none) (.nt r none) 0 .same [])) = true)
    (hw : (wordy x && !(bytes x).isEmpty) = true)
    (hs : Solid (render Y ++ t)) (h' : Takes w e Y t) :
    Takes w (.seq (.nt r none) (.seq (.nt .r_ws none) e)) (k :: Y) t := by
  simp only [Bool.and_eq_true, Bool.not_eq_true', List.isEmpty_eq_false_iff] at hw
  refine ⟨texts_cons (h.text hw.2) h'.texts, fun p h1 h2 => ?_⟩
  have he := h.ends hw.1 hw.2
  obtain ⟨h3, h4⟩ := h
  rename_i s b
  rw [List.all_eq_true] at hr
  have hout := word_next (k := ⟨.operand, s, b⟩) h4 he h'.texts h2
  rw [render_cons] at h1
  simp only at h1 hout
  have h5 : Eats w (.nt r none) p (p + s.length) := by
    have hsp := Span.word h3 h1
    have he : (bytes x).isEmpty = false := by simpa using hw.2
    rcases hout with e0 | ⟨c, r', e0, h6⟩
    · have h7 := h1.right
      rw [e0] at h7
      exact Win.eats (hr (wordCells (bytes x), [.fin]) (by unfold wins; rw [he, hw.1]; simp)) hsp (qs := [p]) (.cons (.of_fin h7) .nil)
        (by simp) (by simp) (by simp)
    · have h7 := h1.right
      rw [e0] at h7
      exact Win.eats (hr (wordCells (bytes x), [.hole kOutside]) (by unfold wins; rw [he, hw.1]; simp)) hsp (qs := [p])
        (.cons (.of_hole h7 (outside_mem h6)) .nil) (by simp) (by simp) (by simp)
  have h6 := ws_eats (v := none) h4 hs h1.right
  have h7 := h'.eats _ h1.right.right h2.tail
  refine (h5.seq (h6.seq h7)).to ?_
  simp [render]; omega

theorem Halts.signE {x : String} (h : Key x k) (hr : signs x e = true) (hx : bytes x ≠ []) : Halts w e [k] t := by
  refine ⟨by simp, ?_, by simpa using h.text hx, fun p h1 h2 => ?_⟩
  · obtain ⟨-, h⟩ := h; exact h
  · clear h2
    obtain ⟨h3, h4⟩ := h
    rename_i s b
    have h1 : Here w p (s ++ (b ++ t)) := by simpa [render] using h1
    exact (Win.eats hr (Span.word h3 h1) (qs := []) .nil (by simp) (by simp) (by simp)).to (by simp [Mark, core])

/-- The node is built before the white space is read. -/
theorem Halts.close {ac : Act} (h : Halts w a X t) (hs : Solid t) :
    Takes w (.seq a (.seq (.pred .blockEnd) (.seq (.act ac) (.nt .r_ws v)))) X t := by
  refine ⟨h.texts, fun p h1 h2 => (h.eats p h1 h2).seq ((Lull.blockEnd _).seq ((Lull.act _).seq ((ws_eats h.gap hs (Halts.here h1)).to ?_)))⟩
  rw [core_trail X, List.length_append]; omega

theorem sep_takes {P : List Piece → Prop} {r : Rule} {ac ac' : Act} {xs : List String}
    (hP : ∀ X t v, P X → Begins ("," :: xs) t → Takes w (.nt r v) X t) (hS : ∀ X t, P X → Solid (render X ++ t))
    (hT : ∀ X, P X → ∀ x ∈ X, x.text ≠ []) (ha : avoids xs (.nt .r_COMMA none) = true) (h : Sep P X) (ht : Begins xs t) :
    Takes w (.seq (.nt r v) (.seq (.act ac) (.star (.seq (.nt .r_COMMA none) (.seq (.nt .r_ws none) (.seq (.nt r v') (.act ac'))))))) X t := by
  obtain ⟨h1, h2⟩ := h
  exact .seq (fun _ => hP _ _ _ h1 (h2.begins ht)) (.skip .act (h2.takes (fun X t => hP X t v') hS hT ha ht)) (hT _ h1)
theorem sep_takes' {P : List Piece → Prop} {r : Rule} {ac ac' : Act} {xs : List String}
    (hP : ∀ X t v, P X → Begins ("," :: xs) t → Takes w (.nt r v) X t) (hS : ∀ X t, P X → Solid (render X ++ t))
    (hT : ∀ X, P X → ∀ x ∈ X, x.text ≠ []) (ha : avoids xs (.nt .r_COMMA none) = true) (h : Sep P X) (ht : Begins xs t) (he : Lull w e) :
    Takes w (.seq (.nt r v) (.seq (.act ac) (.seq (.star (.seq (.nt .r_COMMA none) (.seq (.nt .r_ws none) (.seq (.nt r v') (.act ac'))))) e))) X t := by
  obtain ⟨h1, h2⟩ := h
  exact .seq (fun _ => hP _ _ _ h1 (h2.begins ht)) (.skip .act (.seqIdle (h2.takes (fun X t => hP X t v') hS hT ha ht) he)) (hT _ h1)
theorem Sep.texts {P : List Piece → Prop} (hT : ∀ X, P X → ∀ x ∈ X, x.text ≠ []) (h : Sep P X) : ∀ x ∈ X, x.text ≠ [] := by
  obtain ⟨h1, h2⟩ := h
  exact Halts.texts_append (hT _ h1) (h2.texts hT)
theorem Sep.solid {P : List Piece → Prop} (hS : ∀ X t, P X → Solid (render X ++ t)) (h : Sep P X) : Solid (render X ++ t) := by
  obtain ⟨h1, h2⟩ := h
  rw [render_append, List.append_assoc]; exact hS _ _ h1

theorem Var.ident (h : Var x) : Ident x := by
  obtain ⟨h1, h2⟩ := h
  exact ⟨h1.symbolic, h2⟩

/-! ## What follows -/

def nexts : List String :=
  ["", ";", ")", "MATCH", "OPTIONAL", "RETURN", "UNWIND", "MERGE", "CREATE", "SET", "DELETE", "DETACH", "REMOVE", "WITH", "FOREACH",
    "CALL", "LOAD", "START", "UNION"]
def projEnds : List String := "," :: "ORDER" :: "SKIP" :: "LIMIT" :: "WHERE" :: nexts

theorem projEnds_enders : ∀ x ∈ projEnds, x ∈ enders := by decide +kernel

end Verif.Stmts
