import Verif.Cypher.PatMatch
/-!
# The parser reads clauses

Along the rules of parser.leg:218-226 and 247-406, but for those of `StmtUpdate`.
-/
namespace Verif.Stmts
open Verif.Peg Verif.Exprs Verif.Cypher Verif.Cypher.Win
open Verif.Ops (words bytes upper)

variable {w : List UInt8} {t : List UInt8} {X Y : List Piece} {k x : Piece} {v v' : Option Nat} {a b e : E}

/-! ## Projections -/

theorem Proj.texts (h : Proj X) : ∀ x ∈ X, x.text ≠ [] := by
  cases h with
  | plain h => exact h.texts
  | named h hk hx =>
    intro y hy
    rcases List.mem_append.1 hy with hy | hy
    · exact h.texts y hy
    · simp only [List.mem_cons, List.not_mem_nil, or_false] at hy
      rcases hy with rfl | rfl
      · exact hk.text (by decide +kernel)
      · exact hx.text
theorem Proj.head (h : Proj X) : HeadText (render X ++ t) := by
  cases h with
  | plain h => exact Exprn.head h
  | named h _ _ => rw [render_append, List.append_assoc]; exact Exprn.head h
theorem Proj.solid (h : Proj X) : Solid (render X ++ t) := h.head.solid

theorem Proj.distinct (h : Proj X) (hY : ∀ y ∈ Y, y.text ≠ []) (hs : Spaced (X ++ Y ++ [endPiece t])) :
    Refuses w (.nt .r_DISTINCT none) (render (X ++ Y) ++ t) := by
  rw [List.append_assoc] at hs
  intro p hp
  cases h with
  | plain h =>
    rw [render_append, List.append_assoc] at hp
    exact Exprn.distinct h (Spaced.cut hs hY) hp
  | @named X k x h hk hx =>
    rw [List.append_assoc] at hs hp
    rw [render_append, List.append_assoc] at hp
    rw [← List.append_assoc ([k, x] : List Piece)] at hs
    refine Exprn.distinct h (Spaced.cut (Y := [k, x] ++ Y) hs fun y hy => ?_) hp
    simp only [List.cons_append, List.nil_append, List.mem_cons] at hy
    rcases hy with rfl | rfl | hy
    · exact hk.text (by decide +kernel)
    · exact hx.text
    · exact hY y hy

theorem Proj.takes_return (h : Proj X) (ht : Begins projEnds t) : Takes w (.nt .r_return_projection v) X t := by
  refine .nt (.skip .blockStart (.skip .start ?_))
  cases h with
  | plain h =>
    refine .seqNil (Exprn.takes h ht projEnds_enders) (.seqIdle (.altR (fun _ => .seq1 (ht.refuses (by decide +kernel)))
      (.idle (.seq .null (.seq .merge .act)))) .fin)
  | named h hk hx =>
    refine .seq (fun hs => Exprn.takes h (hk.begins (by decide +kernel) (by simpa using hx.text) hs) (by decide +kernel))
      (.seqIdle (.altL (.seq (X := [_]) (Y := [_]) (fun _ => hk.takes (by decide +kernel) (by decide +kernel) hx.solid)
        (.seqIdle (hx.takes (ht.tail projEnds_enders).1) .merge) (by simpa using hk.text (by decide +kernel)))) .fin) h.texts

theorem Proj.takes_with (h : Proj X) (ht : Begins projEnds t) : Takes w (.nt .r_with_projection v) X t := by
  refine .nt (.skip .blockStart ?_)
  cases h with
  | plain h =>
    refine .seqNil (Exprn.takes h ht projEnds_enders) (.altR (fun _ => .seq1 (ht.refuses (by decide +kernel)))
      (.idle (.seq .empty .fin)))
  | named h hk hx =>
    refine .seq (fun hs => Exprn.takes h (hk.begins (by decide +kernel) (by simpa using hx.text) hs) (by decide +kernel))
      (.altL (.seq (X := [_]) (Y := [_]) (fun _ => hk.takes (by decide +kernel) (by decide +kernel) hx.solid)
        (.seqIdle (hx.takes (ht.tail projEnds_enders).1) .fin) (by simpa using hk.text (by decide +kernel)))) h.texts

/-! ## Sorting -/

theorem SortItem.texts (h : SortItem X) : ∀ x ∈ X, x.text ≠ [] := by
  cases h with
  | plain h => exact h.texts
  | asc h hk | ascending h hk | desc h hk | descending h hk =>
    intro y hy
    rcases List.mem_append.1 hy with hy | hy
    · exact h.texts y hy
    · simp only [List.mem_cons, List.not_mem_nil, or_false] at hy
      subst hy
      exact hk.text (by decide +kernel)
theorem SortItem.solid (h : SortItem X) : Solid (render X ++ t) := by
  cases h with
  | plain h => exact h.solid
  | asc h hk | ascending h hk | desc h hk | descending h hk =>
    rw [render_append, List.append_assoc]; exact h.solid

theorem SortItem.takes (h : SortItem X) (ht : Begins projEnds t) : Takes w (.nt .r_sort_item v) X t := by
  have hsol := (ht.tail projEnds_enders).1
  refine .nt (.skip .blockStart ?_)
  cases h with
  | plain h =>
    exact .seqNil (Exprn.takes h ht projEnds_enders) (.altR (fun _ => .seq1 (ht.refuses (by decide +kernel)))
      (.seqIdle (.altR (fun _ => ht.refuses (by decide +kernel)) (.idle .eps)) .fin))
  | asc h hk =>
    have hb := fun hs => hk.begins (t := t) (by decide +kernel) (Y := []) (by simp) hs
    exact .seq (fun hs => Exprn.takes h (hb hs) (by decide +kernel)) (.altR (fun hs => .seq1 ((hb hs).refuses (by decide +kernel)))
      (.seqIdle (.altL (.altR (fun hs => (hb hs).refuses (by decide +kernel))
        (hk.takes (by decide +kernel) (by decide +kernel) hsol))) .fin)) h.texts
  | ascending h hk =>
    have hb := fun hs => hk.begins (t := t) (by decide +kernel) (Y := []) (by simp) hs
    exact .seq (fun hs => Exprn.takes h (hb hs) (by decide +kernel)) (.altR (fun hs => .seq1 ((hb hs).refuses (by decide +kernel)))
      (.seqIdle (.altL (.altL (hk.takes (by decide +kernel) (by decide +kernel) hsol))) .fin)) h.texts
  | desc h hk =>
    have hb := fun hs => hk.begins (t := t) (by decide +kernel) (Y := []) (by simp) hs
    exact .seq (fun hs => Exprn.takes h (hb hs) (by decide +kernel)) (.altL
      (.seqIdle (.altR (fun hs => (hb hs).refuses (by decide +kernel))
        (hk.takes (by decide +kernel) (by decide +kernel) hsol)) .fin)) h.texts
  | descending h hk =>
    have hb := fun hs => hk.begins (t := t) (by decide +kernel) (Y := []) (by simp) hs
    exact .seq (fun hs => Exprn.takes h (hb hs) (by decide +kernel)) (.altL
      (.seqIdle (.altL (hk.takes (by decide +kernel) (by decide +kernel) hsol)) .fin)) h.texts

theorem comma_projEnds {xs : List String} (h : Begins ("," :: xs) t) (hx : ∀ x ∈ xs, x ∈ projEnds) : Begins projEnds t :=
  h.mono (fun x hx' => (List.mem_cons.1 hx').elim (fun e => e ▸ by simp [projEnds]) (hx x))

def orderEnds : List String := "SKIP" :: "LIMIT" :: "WHERE" :: nexts

theorem OrderBy.texts (h : OrderBy X) : ∀ x ∈ X, x.text ≠ [] := by
  obtain ⟨h1, h2, h3⟩ := h
  obtain ⟨h3, h4⟩ := h3
  intro y hy
  simp only [List.mem_cons, List.mem_append] at hy
  rcases hy with rfl | rfl | hy | hy
  · exact h1.text (by decide +kernel)
  · exact h2.text (by decide +kernel)
  · exact h3.texts y hy
  · exact h4.texts (fun _ => SortItem.texts) y hy

theorem OrderBy.takes (h : OrderBy X) (ht : Begins orderEnds t) : Takes w (.nt .r_order_by v) X t := by
  obtain ⟨h1, h2, h3⟩ := h
  obtain ⟨h3, h4⟩ := h3
  rename_i k k' X Y
  have hst : Solid (render (X ++ Y) ++ t) := by rw [render_append, List.append_assoc]; exact h3.solid
  refine .nt (.skip .blockStart (.seq (X := [k, k']) (fun _ => h1.takes2 h2 (by decide +kernel) (by decide +kernel) hst)
    (.seq (fun hs => h3.takes (comma_projEnds (h4.begins ht) (by decide +kernel))) (.skip .act
      (.seqIdle (h4.takes (fun X t hX hb => hX.takes (comma_projEnds hb (by decide +kernel))) (fun _ _ => SortItem.solid)
        (fun _ => SortItem.texts) (by decide +kernel) ht) .fin)) h3.texts) ?_))
  simpa using ⟨h1.text (by decide +kernel), h2.text (by decide +kernel)⟩

/-! ## SKIP, LIMIT, WHERE -/

theorem KeyExpr.texts {x : String} (h : KeyExpr x X) (hx : bytes x ≠ []) : ∀ x ∈ X, x.text ≠ [] := by
  obtain ⟨h1, h2⟩ := h
  intro y hy
  rcases List.mem_cons.1 hy with rfl | hy
  · exact h1.text hx
  · exact h2.texts y hy

theorem KeyExpr.takes {x : String} {r : Rule} {xs : List String} (h : KeyExpr x X) (hr : reads [x] (.nt r none) = true)
    (hw : (wordy x && !(bytes x).isEmpty) = true) (ht : Begins xs t) (hx : ∀ x ∈ xs, x ∈ enders) :
    Takes w (.seq (.nt r none) (.nt .r_expression v)) X t := by
  have hw' := hw
  simp only [Bool.and_eq_true, Bool.not_eq_true', List.isEmpty_eq_false_iff] at hw'
  obtain ⟨h1, h2⟩ := h
  exact .seq (X := [_]) (fun _ => h1.takes hr hw h2.solid) (Exprn.takes h2 ht hx) (by simpa using h1.text hw'.2)

theorem optKey_begins {x : String} {xs : List String} (h : Opt (KeyExpr x) X) (hx : bytes x ≠ [])
    (hs : Spaced (X ++ [endPiece t])) (ht : Begins xs t) (hx' : ∀ x ∈ xs, x ∈ enders) : Begins (x :: xs) (render X ++ t) := by
  cases h with
  | none => exact ht.mono (by simp +contextual)
  | some h =>
    obtain ⟨h1, h2⟩ := h
    exact (h1.begins hx h2.texts hs).mono (by simp)

theorem optOrder_begins {xs : List String} (h : Opt OrderBy X)
    (hs : Spaced (X ++ [endPiece t])) (ht : Begins xs t) (hx' : ∀ x ∈ xs, x ∈ enders) : Begins ("ORDER" :: xs) (render X ++ t) := by
  cases h with
  | none => exact ht.mono (by simp +contextual)
  | some h =>
    have := h.texts
    obtain ⟨h1, h2, h3⟩ := h
    exact (h1.begins (by decide +kernel) (fun y hy => this y (List.mem_cons_of_mem _ hy)) hs).mono (by simp)

/-! ## What follows RETURN and WITH -/

/-- ORDER BY, SKIP, LIMIT (and WHERE). -/
theorem tail_takes {O S L F : List Piece} {v1 v2 v3 v1' v2' v3' : Option Nat} (hO : Opt OrderBy O) (hS : Opt (KeyExpr "SKIP") S)
    (hL : Opt (KeyExpr "LIMIT") L) (hF : Takes w e F t)
    (hb : Spaced (F ++ [endPiece t]) → Begins ("WHERE" :: nexts) (render F ++ t)) :
    Takes w (.seq (.alt (.nt .r_order_by v1) (.nt .r__null_ v1')) (.seq (.alt (.nt .r_skip v2) (.nt .r__null_ v2'))
      (.seq (.alt (.nt .r_limit v3) (.nt .r__null_ v3')) e))) (O ++ (S ++ (L ++ F))) t ∧
    (Spaced ((O ++ (S ++ (L ++ F))) ++ [endPiece t]) → Begins ("ORDER" :: orderEnds) (render (O ++ (S ++ (L ++ F))) ++ t)) := by
  have tO := hO.texts OrderBy.texts
  have tS := hS.texts (fun h => h.texts (by decide +kernel))
  have tL := hL.texts (fun h => h.texts (by decide +kernel))
  have b1 : Spaced ((L ++ F) ++ [endPiece t]) → Begins ("LIMIT" :: "WHERE" :: nexts) (render (L ++ F) ++ t) := by
    intro hs
    rw [List.append_assoc] at hs
    rw [render_append, List.append_assoc]
    exact optKey_begins hL (by decide +kernel) (Spaced.cut hs hF.texts) (hb hs.right) (by decide +kernel)
  have k1 : Takes w (.seq (.alt (.nt .r_limit v3) (.nt .r__null_ v3')) e) (L ++ F) t :=
    .seq (fun hs => opt_takes hL (fun h => .nt (.seqIdleR (h.takes (by decide +kernel) (by decide +kernel) (hb hs) (by decide +kernel)) .act))
      ((hb hs).refuses (by decide +kernel))) hF tL
  have b2 : Spaced ((S ++ (L ++ F)) ++ [endPiece t]) → Begins orderEnds (render (S ++ (L ++ F)) ++ t) := by
    intro hs
    rw [List.append_assoc] at hs
    rw [render_append, List.append_assoc]
    exact optKey_begins hS (by decide +kernel) (Spaced.cut hs k1.texts) (b1 hs.right) (by decide +kernel)
  have k2 : Takes w (.seq (.alt (.nt .r_skip v2) (.nt .r__null_ v2')) (.seq (.alt (.nt .r_limit v3) (.nt .r__null_ v3')) e))
      (S ++ (L ++ F)) t :=
    .seq (fun hs => opt_takes hS (fun h => .nt (.seqIdleR (h.takes (by decide +kernel) (by decide +kernel) (b1 hs) (by decide +kernel)) .act))
      ((b1 hs).refuses (by decide +kernel))) k1 tS
  refine ⟨.seq (fun hs => opt_takes hO (fun h => h.takes (b2 hs)) ((b2 hs).refuses (by decide +kernel))) k2 tO, ?_⟩
  intro hs
  rw [List.append_assoc] at hs
  rw [render_append, List.append_assoc]
  exact optOrder_begins hO (Spaced.cut hs k2.texts) (b2 hs.right) (by decide +kernel)

theorem proj_tail (h : Spaced (X ++ [endPiece t]) → Begins ("ORDER" :: orderEnds) (render X ++ t)) :
    Spaced (X ++ [endPiece t]) → Begins projEnds (render X ++ t) := fun hs => (h hs).mono (by decide +kernel)

/-- The projections and what follows them. -/
theorem items_takes {r radd : Rule} {ac : Act} (hr : ∀ X t v, Proj X → Begins projEnds t → Takes w (.nt r v) X t)
    (hadd : (grammar radd).body = .star (.seq (.nt .r_COMMA none) (.seq (.nt .r_ws none) (.seq (.nt r v') (.act ac)))))
    (hY : More Proj Y) (h : Takes w e X t) (hb : Spaced (X ++ [endPiece t]) → Begins ("ORDER" :: orderEnds) (render X ++ t)) :
    Takes w (.seq (.nt radd none) e) (Y ++ X) t ∧
    (Spaced ((Y ++ X) ++ [endPiece t]) → Begins projEnds (render (Y ++ X) ++ t)) := by
  refine ⟨.seq (fun hs => .nt ?_) h (hY.texts fun _ => Proj.texts), fun hs => ?_⟩
  · rw [hadd]
    exact hY.takes (fun X t hX hb => hr _ _ _ hX (comma_projEnds hb (by decide +kernel))) (fun _ _ => Proj.solid)
      (fun _ => Proj.texts) (by decide +kernel) (hb hs)
  · rw [List.append_assoc] at hs
    rw [render_append, List.append_assoc]
    exact comma_projEnds (hY.begins (hb hs.right)) (by decide +kernel)

/-- Everything after RETURN or WITH. -/
theorem body_takes {r radd : Rule} {ac ac' : Act} {v0 v1 v2 v3 v1' v2' v3' : Option Nat} {F : List Piece} {e1 e2 e3 e4 : E}
    (hr : ∀ X t v, Proj X → Begins projEnds t → Takes w (.nt r v) X t)
    (hadd : (grammar radd).body = .star (.seq (.nt .r_COMMA none) (.seq (.nt .r_ws none) (.seq (.nt r v') (.act ac)))))
    (h : Body X) (hF1 : Takes w e1 F t) (hF2 : Takes w e2 F t) (hF3 : Takes w e3 F t) (hF4 : Takes w e4 F t)
    (hb : Spaced (F ++ [endPiece t]) → Begins ("WHERE" :: nexts) (render F ++ t)) :
    Takes w (.alt (.seq (.nt .r_DISTINCT none) (.seq (.nt .r_STAR none) (.seq (.nt .r_ws none) (.seq (.nt radd none)
        (.seq (.alt (.nt .r_order_by v1) (.nt .r__null_ v1')) (.seq (.alt (.nt .r_skip v2) (.nt .r__null_ v2'))
          (.seq (.alt (.nt .r_limit v3) (.nt .r__null_ v3')) e1)))))))
      (.alt (.seq (.nt .r_DISTINCT none) (.seq (.nt r v0) (.seq (.act ac') (.seq (.nt radd none)
        (.seq (.alt (.nt .r_order_by v1) (.nt .r__null_ v1')) (.seq (.alt (.nt .r_skip v2) (.nt .r__null_ v2'))
          (.seq (.alt (.nt .r_limit v3) (.nt .r__null_ v3')) e2)))))))
      (.alt (.seq (.nt .r_STAR none) (.seq (.nt .r_ws none) (.seq (.nt radd none)
        (.seq (.alt (.nt .r_order_by v1) (.nt .r__null_ v1')) (.seq (.alt (.nt .r_skip v2) (.nt .r__null_ v2'))
          (.seq (.alt (.nt .r_limit v3) (.nt .r__null_ v3')) e3))))))
      (.seq (.nt r v0) (.seq (.act ac') (.seq (.nt radd none)
        (.seq (.alt (.nt .r_order_by v1) (.nt .r__null_ v1')) (.seq (.alt (.nt .r_skip v2) (.nt .r__null_ v2'))
          (.seq (.alt (.nt .r_limit v3) (.nt .r__null_ v3')) e4))))))))) (X ++ F) t ∧ Solid (render (X ++ F) ++ t) := by
  obtain ⟨hD, hX, hO, hS, hL⟩ := h
  rename_i D X O S L
  have hass : D ++ (X ++ (O ++ (S ++ L))) ++ F = D ++ (X ++ (O ++ (S ++ (L ++ F)))) := by simp
  rw [hass]
  have key : ∀ e, Takes w e F t → _ := fun e he => tail_takes (v1 := v1) (v2 := v2) (v3 := v3) (v1' := v1') (v2' := v2') (v3' := v3') hO hS hL he hb
  generalize O ++ (S ++ (L ++ F)) = Z at key ⊢
  cases hX with
  | @star k Y hk hY =>
    have items : ∀ e, Takes w e F t → _ := fun e he => items_takes hr hadd hY (key e he).1 (key e he).2
    have tx := (items _ hF1).1.texts
    have hkt := hk.text (by decide +kernel)
    have hstar : Begins ["*"] (render (k :: (Y ++ Z)) ++ t) := by
      obtain ⟨h1, -⟩ := hk
      exact .inr ⟨"*", by simp, by decide +kernel, _, _, render_cons, h1, fun h => absurd h (by decide +kernel)⟩
    have hsol : Spaced ((Y ++ Z) ++ [endPiece t]) → Solid (render (Y ++ Z) ++ t) := fun hs =>
      (((items _ hF1).2 hs).tail projEnds_enders).1
    have hsolk : Solid (render (k :: (Y ++ Z)) ++ t) := hk.solid (by decide +kernel)
    have sg : ∀ e, Takes w e F t → Takes w _ (k :: (Y ++ Z)) t := fun e he =>
      .given (X := k :: (Y ++ Z)) (by
        intro y hy
        rcases List.mem_cons.1 hy with rfl | hy
        · exact hkt
        · exact tx y hy) (fun hs => .sign hk (r := .r_STAR) (by decide +kernel) (by decide +kernel) (hsol hs.tail) (items e he).1)
    cases hD with
    | none =>
      refine ⟨.altR (fun _ => .seq1 (hstar.refuses (by decide +kernel))) (.altR (fun _ => .seq1 (hstar.refuses (by decide +kernel)))
        (.altL (sg e3 hF3))), hsolk⟩
    | @some d hd =>
      refine ⟨.altL (.seq (X := [d]) (Y := k :: (Y ++ Z)) (fun _ => hd.takes (by decide +kernel) (by decide +kernel) hsolk) (sg e1 hF1)
        (by simpa using hd.text (by decide +kernel))), ?_⟩
      exact hd.solid (by decide +kernel)
  | some hX =>
    obtain ⟨hX, hY⟩ := hX
    rename_i X Y
    rw [List.append_assoc]
    have items : ∀ e, Takes w e F t → _ := fun e he => items_takes hr hadd hY (key e he).1 (key e he).2
    have head : HeadText (render (X ++ (Y ++ Z)) ++ t) := by
      rw [render_append, List.append_assoc]; exact hX.head
    have pj : ∀ e, Takes w e F t → Takes w _ (X ++ (Y ++ Z)) t := fun e he =>
      .seq (a := .nt r v0) (fun hs => hr _ _ _ hX ((items e he).2 hs)) (.skip (a := .act ac') .act (items e he).1) hX.texts
    cases hD with
    | none =>
      have hYZ : ∀ y ∈ Y ++ Z, y.text ≠ [] := fun y hy => (pj e4 hF4).texts y (List.mem_append_right _ hy)
      refine ⟨.altR (fun hs => .seq1 (hX.distinct hYZ hs)) (.altR (fun hs => .seq1 (hX.distinct hYZ hs))
        (.altR (fun _ => .seq1 (head.refuses (by decide +kernel))) (pj e4 hF4))), head.solid⟩
    | @some d hd =>
      have hdt : Takes w (.nt .r_DISTINCT none) [d] (render (X ++ (Y ++ Z)) ++ t) :=
        hd.takes (by decide +kernel) (by decide +kernel) head.solid
      refine ⟨.altR (fun hs => ?_) (.altL (.seq (X := [d]) (fun _ => hdt) (pj e2 hF2) (by simpa using hd.text (by decide +kernel)))), ?_⟩
      · have := Refuses.seq2 (b := .seq (.nt .r_STAR none) (.seq (.nt .r_ws none) (.seq (.nt radd none)
          (.seq (.alt (.nt .r_order_by v1) (.nt .r__null_ v1')) (.seq (.alt (.nt .r_skip v2) (.nt .r__null_ v2'))
          (.seq (.alt (.nt .r_limit v3) (.nt .r__null_ v3')) e1)))))) hdt (Spaced.cut (X := [d]) hs (pj e2 hF2).texts)
          (.seq1 (head.refuses (by decide +kernel)))
        simpa [render] using this
      · exact hd.solid (by decide +kernel)

/-! ## Clauses -/

theorem ret_takes (hk : Key "RETURN" k) (h : Body X) (ht : Begins nexts t) : Takes w (.nt .r_return_clause v) (k :: X) t := by
  obtain ⟨h1, h2⟩ := body_takes (F := []) (t := t) (v' := some 0) (w := w) (r := .r_return_projection) (radd := .r_additional_return_projections)
    (fun X t v h hb => h.takes_return hb) rfl h (.idle .fin) (.idle .fin) (.idle .fin) (.idle .fin)
    (fun _ => ht.mono (by decide +kernel))
  rw [List.append_nil] at h1 h2
  exact .nt (.skip .blockStart (.seq (X := [k]) (fun _ => hk.takes (by decide +kernel) (by decide +kernel) h2) h1
    (by simpa using hk.text (by decide +kernel))))

theorem where_takes {W : List Piece} (h : Opt (KeyExpr "WHERE") W) (ht : Begins nexts t) :
    Takes w (.alt (.seq (.nt .r_WHERE none) (.nt .r_expression v)) (.nt .r__null_ v')) W t := by
  cases h with
  | none => exact .altR (fun _ => .seq1 (ht.refuses (by decide +kernel))) (.idle .null)
  | some h => exact .altL (h.takes (by decide +kernel) (by decide +kernel) ht (by decide +kernel))

theorem with_takes {W : List Piece} (hk : Key "WITH" k) (h : Body X) (hW : Opt (KeyExpr "WHERE") W) (ht : Begins nexts t) :
    Takes w (.nt .r_with_clause v) (k :: (X ++ W)) t := by
  have hF : ∀ a, Takes w (.seq (.alt (.seq (.nt .r_WHERE none) (.nt .r_expression (some 3))) (.nt .r__null_ (some 3)))
      (.seq (.pred .blockEnd) (.act a))) W t := fun a => .seqIdle (where_takes hW ht) .fin
  obtain ⟨h1, h2⟩ := body_takes (F := W) (t := t) (v' := some 0) (w := w) (r := .r_with_projection)
    (radd := .r_additional_with_projections)
    (fun X t v h hb => h.takes_with hb) rfl h (hF _) (hF _) (hF _) (hF _)
    (fun hs => optKey_begins hW (by decide +kernel) hs ht (by decide +kernel))
  exact .nt (.skip .blockStart (.seq (X := [k]) (fun _ => hk.takes (by decide +kernel) (by decide +kernel) h2) h1
    (by simpa using hk.text (by decide +kernel))))

theorem unwind_takes {k' : Piece} (hk : Key "UNWIND" k) (h : Exprn X) (hk' : Key "AS" k') (hx : Ident x) (ht : Begins nexts t) :
    Takes w (.nt .r_unwind_clause v) (k :: (X ++ [k', x])) t := by
  have hsol : Solid (render (X ++ [k', x]) ++ t) := by rw [render_append, List.append_assoc]; exact h.solid
  refine .nt (.skip .blockStart (.seq (X := [k]) (fun _ => hk.takes (by decide +kernel) (by decide +kernel) hsol)
    (.seq (fun hs => Exprn.takes h (hk'.begins (by decide +kernel) (by simpa using hx.text) hs) (by decide +kernel))
      (.seq (X := [k']) (Y := [x]) (fun _ => hk'.takes (by decide +kernel) (by decide +kernel) hx.solid)
        (.seqIdle (hx.takes (ht.tail (by decide +kernel)).1) .fin) (by simpa using hk'.text (by decide +kernel))) h.texts)
    (by simpa using hk.text (by decide +kernel))))

def exprEnds : List String := "," :: nexts

theorem exprs_takes {ac : Act} {e : E} (h : Sep Exprn X) (ht : Begins nexts t) (he : Lull w e) :
    Takes w (.seq (.nt .r_expression v) (.seq (.act ac) (.seq (.star (.seq (.nt .r_COMMA none) (.seq (.nt .r_ws none)
      (.seq (.nt .r_expression v') (.act ac))))) e))) X t ∧ Solid (render X ++ t) := by
  obtain ⟨h1, h2⟩ := h
  refine ⟨.seq (fun hs => Exprn.takes h1 (h2.begins ht) (by decide +kernel)) (.skip .act (.seqIdle
    (h2.takes (fun X t hX hb => Exprn.takes hX hb (by decide +kernel)) (fun _ _ h => h.solid) (fun _ h => h.texts) (by decide +kernel) ht) he))
    h1.texts, ?_⟩
  rw [render_append, List.append_assoc]; exact h1.solid

theorem delete_takes (hk : Key "DELETE" k) (h : Sep Exprn X) (ht : Begins nexts t) :
    Takes w (.nt .r_delete_clause v) (k :: X) t := by
  have tx : ∀ ac e, Lull w e → _ := fun ac e he => exprs_takes (w := w) (v := some 0) (v' := some 0) (ac := ac) (e := e) h ht he
  have hX : ∀ y ∈ X, y.text ≠ [] := (tx (.seqAdd [0]) _ .eps).1.texts
  refine .nt (.altR (fun hs => .skip .blockStart (.seq1 ((hk.begins (by decide +kernel) hX hs).refuses (by decide +kernel))))
    (.skip .blockStart (.seq (X := [k]) (fun _ => hk.takes (by decide +kernel) (by decide +kernel) (tx (.seqAdd [0]) _ .eps).2)
      (tx _ _ .fin).1 (by simpa using hk.text (by decide +kernel)))))

theorem detach_takes {k' : Piece} (hk : Key "DETACH" k) (hk' : Key "DELETE" k') (h : Sep Exprn X) (ht : Begins nexts t) :
    Takes w (.nt .r_delete_clause v) (k :: k' :: X) t := by
  have tx : ∀ ac e, Lull w e → _ := fun ac e he => exprs_takes (w := w) (v := some 0) (v' := some 0) (ac := ac) (e := e) h ht he
  exact .nt (.altL (.skip .blockStart (.seq (X := [k, k']) (fun _ => hk.takes2 hk' (by decide +kernel) (by decide +kernel)
    (tx (.seqAdd [0]) _ .eps).2) (tx _ _ .fin).1 (by simpa using ⟨hk.text (by decide +kernel), hk'.text (by decide +kernel)⟩))))

theorem union_takes (hk : Key "UNION" k) (ht : Begins nexts t) : Takes w (.nt .r_union_clause v) [k] t :=
  .nt (.skip .blockStart (.seqNil (hk.takes (by decide +kernel) (by decide +kernel) (ht.tail (by decide +kernel)).1)
    (.altR (fun _ => .seq1 (ht.refuses (by decide +kernel))) (.idle (.seq .empty .fin)))))

theorem unionAll_takes {k' : Piece} (hk : Key "UNION" k) (hk' : Key "ALL" k') (ht : Begins nexts t) :
    Takes w (.nt .r_union_clause v) [k, k'] t :=
  .nt (.skip .blockStart (.seq (X := [k]) (Y := [k']) (fun _ => hk.takes (by decide +kernel) (by decide +kernel) (hk'.solid (by decide +kernel)))
    (.altL (.seqIdle (hk'.takes (by decide +kernel) (by decide +kernel) (ht.tail (by decide +kernel)).1) .fin))
    (by simpa using hk.text (by decide +kernel))))

theorem pattern_solid {W : List Piece} (hP : Pattern X) (hW : ∀ x ∈ W, x.text ≠ []) (hs : Spaced (X ++ W ++ [endPiece t])) :
    Solid (render (X ++ W) ++ t) := by
  rw [render_append, List.append_assoc]
  rw [List.append_assoc] at hs
  exact hP.solid (Spaced.cut hs hW)

/-- A text that does not begin with a word differs from it somewhere. -/
theorem differs : ∀ (W u : List UInt8), (∃ c ∈ u, ∀ d ∈ W, upper c ≠ d) →
    (∃ i s c r, i < W.length ∧ u = s ++ c :: r ∧ s.map upper = W.take i ∧ W[i]? ≠ some (upper c)) ∨ ∃ s r, u = s ++ r ∧ s.map upper = W
  | [], u, _ => .inr ⟨[], u, rfl, rfl⟩
  | d :: W, [], h => by obtain ⟨c, h, -⟩ := h; cases h
  | d :: W, a :: u, h => by
    by_cases ha : upper a = d
    · have h' : ∃ c ∈ u, ∀ d ∈ W, upper c ≠ d := by
        obtain ⟨c, h1, h2⟩ := h
        rcases List.mem_cons.1 h1 with rfl | h1
        · exact absurd ha (h2 d (by simp))
        · exact ⟨c, h1, fun e he => h2 e (by simp [he])⟩
      rcases differs W u h' with ⟨i, s, c, r, h1, rfl, h2, h3⟩ | ⟨s, r, rfl, h2⟩
      · exact .inl ⟨i + 1, a :: s, c, r, by simpa using h1, rfl, by simp [ha, h2], by simpa using h3⟩
      · exact .inr ⟨a :: s, r, rfl, by simp [ha, h2]⟩
    · exact .inl ⟨0, [], a, u, by simp, rfl, rfl, by simpa using fun h => ha h.symm⟩

def createA : List Tile := wordCells (bytes "CREATE") ++ [.ws true]
theorem create_part : ∀ i < 6, noAt (run 100 (.mk2 (createA ++ wordCells ((bytes "UNIQUE").take i)) [.hole (unlike ((bytes "UNIQUE").getD i 0))]
    [] [] [] none) (.nt .r_CREATE_UNIQUE none) 0 .same []) = true := by decide +kernel
theorem create_word : noAt (run 100 (.mk2 (createA ++ wordCells (bytes "UNIQUE")) [.byte symPart]
    [] [] [] none) (.nt .r_CREATE_UNIQUE none) 0 .same []) = true := by decide +kernel

theorem create_open : ∀ K ∈ [[.ws false, .hole (.single 40)], [.ws true, .hole (unlike 85)]],
    noAt (run 100 (.mk2 (wordCells (bytes "CREATE")) K [] [] [] none) (.nt .r_CREATE_UNIQUE none) 0 .same []) = true := by decide +kernel

theorem key_head {x : String} {c : UInt8} {cs : List UInt8} (h : Key x k) (hx : bytes x = c :: cs) : ∃ d s, k.text = d :: s ∧ upper d = c := by
  obtain ⟨h, -⟩ := h
  rename_i s b
  rw [hx] at h
  cases s with
  | nil => cases h
  | cons d s => exact ⟨d, s, rfl, by simpa using (List.cons.inj h).1⟩

theorem Pattern.first (h : Pattern X) : (∀ t, Begins ["("] (render X ++ t)) ∨
    (∃ k X', X = k :: X' ∧ (Key "SHORTESTPATH" k ∨ Key "ALLSHORTESTPATHS" k)) ∨ ∃ x k X', X = x :: k :: X' ∧ Ident x ∧ Key "=" k := by
  have part : ∀ {X}, Part X → (∀ t, Begins ["("] (render X ++ t)) ∨
    (∃ k X', X = k :: X' ∧ (Key "SHORTESTPATH" k ∨ Key "ALLSHORTESTPATHS" k)) ∨ ∃ x k X', X = x :: k :: X' ∧ Ident x ∧ Key "=" k := by
    intro X h
    cases h with
    | anon h =>
      cases h with
      | path h => exact .inl fun _ => h.begins
      | shortest h => exact .inr (.inl ⟨_, _, rfl, .inl h⟩)
      | allShortest h => exact .inr (.inl ⟨_, _, rfl, .inr h⟩)
    | named h1 h2 => exact .inr (.inr ⟨_, _, _, rfl, h1, h2⟩)
  cases h with
  | one h => exact part h
  | more h =>
    rcases part h with h | ⟨_, _, rfl, h0⟩ | ⟨_, _, _, rfl, h0⟩
    · exact .inl fun t => by rw [render_append, List.append_assoc]; exact h _
    · exact .inr (.inl ⟨_, _, rfl, h0⟩)
    · exact .inr (.inr ⟨_, _, _, rfl, h0⟩)

theorem unlike_word {K : List Tile} {s u : List UInt8} {p p1 : Nat} (hs : Symbolic s) (hu : u.head?.any sym = false) (hne : u ≠ [])
    (hK : Span w K p p1) (hh : Here w p1 (s ++ u)) (hn : s.map upper ≠ bytes "UNIQUE")
    (h1 : ∀ i < 6, noAt (run 100 (.mk2 (K ++ wordCells ((bytes "UNIQUE").take i)) [.hole (unlike ((bytes "UNIQUE").getD i 0))]
      [] [] [] none) e 0 .same []) = true)
    (h2 : noAt (run 100 (.mk2 (K ++ wordCells (bytes "UNIQUE")) [.byte symPart] [] [] [] none) e 0 .same []) = true) : Shuns w e p := by
  have hlen : (bytes "UNIQUE").length = 6 := by decide +kernel
  have hd : ∃ c ∈ s ++ u, ∀ d ∈ bytes "UNIQUE", upper c ≠ d := by
    cases u with
    | nil => exact absurd rfl hne
    | cons c u =>
      refine ⟨c, by simp, fun d hd e => ?_⟩
      have h0 : ∀ d ∈ bytes "UNIQUE", letter d = true := by decide +kernel
      have := imp_byte (P := fun c => letter (upper c)) (Q := sym) (by decide +kernel) (c := c) (e ▸ h0 d hd)
      simp [this] at hu
  rcases differs _ _ hd with ⟨i, s1, c, r, g1, g2, g3, g4⟩ | ⟨s1, r, g1, g2⟩
  · rw [hlen] at g1
    rw [g2] at hh
    refine Win.shuns (h1 i g1) (hK.append (Span.word g3 hh)) (qs := [p1]) (.cons (.of_hole hh.right (unlike_mem ?_ ?_)) .nil) (by simp) (by simp) (by simp)
    · intro e
      apply g4
      rw [e, List.getD_eq_getElem?_getD, List.getElem?_eq_getElem (by omega)]
      rfl
    · rw [List.getD_eq_getElem?_getD, List.getElem?_eq_getElem (by omega)]
      exact (by decide +kernel : ∀ d ∈ bytes "UNIQUE", d ∈ capitals) _ (List.getElem_mem _)
  · have hl : ∀ d ∈ s1, sym d = true := by
      intro d hd
      have h0 : ∀ d ∈ bytes "UNIQUE", letter d = true := by decide +kernel
      exact imp_byte (P := fun c => letter (upper c)) (Q := sym) (by decide +kernel) (h0 _ (g2 ▸ List.mem_map_of_mem hd))
    rcases List.append_eq_append_iff.1 g1 with ⟨a, rfl, rfl⟩ | ⟨a, rfl, rfl⟩
    · cases a with
      | nil => simp at g2; exact absurd g2 hn
      | cons d a =>
        have := hl d (by simp)
        simp [this] at hu
    · cases a with
      | nil => simp at hn; exact absurd g2 hn
      | cons d a =>
        have hd : sym d = true := hs.all _ (by simp)
        have hh' : Here w p1 (s1 ++ d :: (a ++ u)) := by simpa using hh
        exact Win.shuns h2 (hK.append (Span.word g2 hh')) (qs := [p1 + s1.length + 1]) (.cons (.of_byte hh'.right (sym_mem hd)) .nil) (by simp) (by simp) (by simp)

theorem create_refuses {f : E} (hk : Key "CREATE" k) (hP : Pattern X) (hs : Spaced (k :: X ++ [endPiece t])) :
    Refuses w (.seq (.nt .r_CREATE_UNIQUE none) (.seq (.nt .r_pattern v) f)) (render (k :: X) ++ t) := by
  intro p hp
  have he := hk.ends (by decide +kernel) (by decide +kernel)
  have hk0 := hk
  obtain ⟨g1, g2⟩ := hk0
  rename_i s b
  rw [render_cons] at hp
  have hp1 := hp.right
  have sol := hP.solid (t := t) hs.tail
  rcases hP.first with h | ⟨y, X', rfl, h⟩ | ⟨x, y, X', rfl, h, h'⟩
  · have h := h t
    rcases h with ⟨h, -⟩ | ⟨z, hz, -, s1, r, e, h1, -⟩
    · exact absurd h (by decide)
    · simp only [List.mem_singleton] at hz
      subst hz
      cases s1 with
      | nil => exact absurd h1 (by decide +kernel)
      | cons d s1 =>
        have : d = 40 := by
          have := (List.cons.inj (h1.trans (show bytes "(" = [40] by decide +kernel))).1
          have := imp_byte (P := fun d => upper d == 40) (Q := fun d => d == 40) (by decide +kernel) (c := d) (by simpa using this)
          simpa using this
        subst this
        refine .seq1 (Win.shuns (create_open _ (List.mem_cons_self ..)) (Span.word g1 hp) (gap_lay g2 sol e (by decide) (by simp) hp1 0) (by simp) (by simp) (by simp))
  · have hd : ∃ d s1, y.text = d :: s1 ∧ (upper d = 83 ∨ upper d = 65) := by
      rcases h with h | h
      · obtain ⟨d, s1, e1, e2⟩ := key_head h (show bytes "SHORTESTPATH" = 83 :: bytes "HORTESTPATH" by decide +kernel)
        exact ⟨d, s1, e1, .inl e2⟩
      · obtain ⟨d, s1, e1, e2⟩ := key_head h (show bytes "ALLSHORTESTPATHS" = 65 :: bytes "LLSHORTESTPATHS" by decide +kernel)
        exact ⟨d, s1, e1, .inr e2⟩
    obtain ⟨d, s1, e1, e2⟩ := hd
    have hb : b ≠ [] := by
      intro hb
      refine (hs.1 hb).1 ⟨he, ?_⟩
      have : sym d = true := imp_byte (P := fun d => upper d == 83 || upper d == 65) (by decide +kernel) (by simpa using e2)
      simp [e1, this]
    refine .seq1 (Win.shuns (create_open _ (List.mem_cons_of_mem _ (List.mem_cons_self ..))) (Span.word g1 hp)
      (gap_lay g2 sol (c := d) (r := s1 ++ (y.blank ++ (render X' ++ t))) ?_ ?_ (fun _ => hb) hp1 0) (by simp) (by simp) (by simp))
    · rw [render_cons, e1]; rfl
    · exact imp_byte (P := fun d => upper d == 83 || upper d == 65) (by decide +kernel) (by simpa using e2)
  · have hx := h
    obtain ⟨h1, h2⟩ := h
    rename_i s1 b1
    have hb : b ≠ [] := by
      intro hb
      obtain ⟨c, r, rfl, g, -⟩ := h1.start
      refine (hs.1 hb).1 ⟨he, ?_⟩
      simpa using start_sym g
    obtain ⟨d, s2, e1, e2⟩ := key_head h' (show bytes "=" = 61 :: [] by decide +kernel)
    have hd : sym d = false := by
      have := imp_byte (P := fun d => upper d == 61) (Q := fun d => !sym d) (by decide +kernel) (c := d) (by simpa using e2)
      simpa using this
    by_cases hn : s1.map upper = bytes "UNIQUE"
    · have hk2 : Key "UNIQUE" ⟨.operand, s1, b1⟩ := ⟨hn, h2⟩
      have tX : ∀ z ∈ y :: X', z.text ≠ [] := fun z hz => hP.texts z (List.mem_cons_of_mem _ hz)
      have k1 := (hk.takes2 (w := w) (e := .nt .r_CREATE_UNIQUE none) hk2 (by decide +kernel) (by decide +kernel)
        (h'.solid (by decide +kernel) (Y := X') (t := t))).eats p (by rw [render_cons, render_cons] at *; simpa [render] using hp)
        (Spaced.cut (X := [_, _]) hs tX)
      refine .seq2 k1 (.seq1 (Shuns.var ((sign_begins h' (by decide +kernel) (by decide +kernel) (X := X') (t := t)).refuses
        (e := .nt .r_pattern none) (by decide +kernel) _ ?_)))
      have h5 : Here w (p + (render [⟨.operand, s, b⟩, ⟨.operand, s1, b1⟩]).length) (render (y :: X') ++ t) := by
        refine Here.right (s := render [⟨.operand, s, b⟩, ⟨.operand, s1, b1⟩]) ?_
        simpa [render] using hp
      exact h5
    · rw [render_cons] at hp1 sol
      refine .seq1 (unlike_word (K := createA) (u := b1 ++ (render (y :: X') ++ t)) h1 (gap_head h2 (by rw [render_cons, e1]; simp [hd])) (by rw [render_cons, e1]; simp)
        ((Span.word g1 hp).append (.cons (.of_gap g2 sol hp1 (fun _ => hb)) .nil)) hp1.right hn create_part create_word)

theorem create_takes (hk : Key "CREATE" k) (hP : Pattern X) (ht : Begins nexts t) : Takes w (.nt .r_create_clause v) (k :: X) t :=
  .nt (.altR (fun hs => .skip .blockStart (create_refuses hk hP hs)) (.skip .blockStart (.seq (X := [k])
    (fun hs => hk.takes (by decide +kernel) (by decide +kernel) (hP.solid hs)) (.seqIdle (hP.takes (ht.mono (by decide +kernel))) .fin)
    (by simpa using hk.text (by decide +kernel)))))

theorem createUnique_takes {k' : Piece} (hk : Key "CREATE" k) (hk' : Key "UNIQUE" k') (hP : Pattern X) (ht : Begins nexts t) :
    Takes w (.nt .r_create_clause v) (k :: k' :: X) t :=
  .nt (.altL (.skip .blockStart (.seq (X := [k, k']) (fun hs => hk.takes2 hk' (by decide +kernel) (by decide +kernel) (hP.solid hs))
    (.seqIdle (hP.takes (ht.mono (by decide +kernel))) .fin) (by simpa using ⟨hk.text (by decide +kernel), hk'.text (by decide +kernel)⟩))))

end Verif.Stmts
