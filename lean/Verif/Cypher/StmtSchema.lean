import Verif.Cypher.StmtUpdate
/-!
# The parser reads starting points, indexes, constraints and what stands before a statement

Along the rules of parser.leg:59-133, 151-152 and 179-215.
-/
namespace Verif.Stmts
open Verif.Peg Verif.Exprs Verif.Cypher Verif.Cypher.Win
open Verif.Ops (words bytes upper)

variable {w : List UInt8} {t : List UInt8} {X Y : List Piece} {k x : Piece} {v v' : Option Nat} {a b e : E}

/-! ## Numbers, strings, parameters -/

theorem num_run : ∀ B ∈ wordEnds, okAt (([.byte kDigit, .run kDigit] : List Tile).length + 1)
    (run 100 (.mk2 [.byte kDigit, .run kDigit] B [] [] [] none) (.nt .r_integer_literal none) 0 .same []) = true := by
  decide +kernel

theorem Num.texts (h : Num X) : ∀ x ∈ X, x.text ≠ [] := by
  obtain ⟨h, -⟩ := h
  obtain ⟨h, -⟩ := h
  simpa using h
theorem Num.solid (h : Num X) : Solid (render X ++ t) := by
  obtain ⟨h, -⟩ := h
  rw [render_cons]; exact h.solid
theorem Num.takes (h : Num X) (ht : Solid t) : Takes w (.nt .r_integer_literal v) X t := by
  refine ⟨h.texts, fun p h1 h2 => ?_⟩
  obtain ⟨h3, h4⟩ := h
  rename_i s b
  have h6 : Here w p (s ++ (b ++ t)) := by simpa [render] using h1
  obtain ⟨B, hB, h7⟩ := ends_lay h4 ht (ends_apart (x := ⟨.operand, s, b⟩) h3.ends h2) h6.right (p + s.length + b.length)
  refine ((Win.eats (num_run B hB) (h3.span h6) h7 (by simp) (by simp) (by simp)).to ?_).var
  simp [Mark, render]; omega

def paramA : List Tile := ([.byte (.single 36)] : List Tile) ++ nameA
theorem param_run : ∀ B ∈ wordEnds,
    okAt (paramA.length + 1) (run 100 (.mk2 paramA B [] [] [] none) (.nt .r_parameter none) 0 .same []) = true := by
  decide +kernel

theorem Lookup.texts (h : Lookup X) : ∀ x ∈ X, x.text ≠ [] := by
  cases h with
  | quoted h => exact h.texts
  | param => simp
theorem Lookup.begins (h : Lookup X) : Begins ["\"", "'", "$"] (render X ++ t) := by
  cases h with
  | quoted h =>
    obtain ⟨h, -, -⟩ := h
    rw [render_cons]
    rcases h with rfl | rfl
    · exact (byte_begins (x := "\"") (by decide +kernel) (by decide +kernel) (by decide)).mono (by simp)
    · exact (byte_begins (x := "'") (by decide +kernel) (by decide +kernel) (by decide)).mono (by simp)
  | param =>
    rw [render_cons]
    exact (byte_begins (x := "$") (by decide +kernel) (by decide +kernel) (by decide)).mono (by simp)
theorem Lookup.takes (h : Lookup X) (ht : Begins [")"] t) :
    Takes w (.alt (.nt .r_string_literal v) (.nt .r_parameter v')) X t := by
  cases h with
  | quoted h => exact .altL (h.takes (ht.tail (by decide +kernel)))
  | @param s b h hb =>
    refine .altR (fun _ p hp => ?_) ⟨by simp, fun p h1 h2 => ?_⟩
    · rw [render_cons] at hp
      exact (Begins.refuses (xs := ["$"]) (e := .nt .r_string_literal none) (byte_begins (by decide +kernel) (by decide +kernel) (by decide))
        (by decide +kernel) p hp).var
    · have h3 : Here w p (36 :: (s ++ (b ++ t))) := by simpa [render] using h1
      have h4 := h3.tail
      obtain ⟨B, hB, h7⟩ := ends_lay hb (ht.solid (by decide +kernel)) (ends_apart (x := ⟨.operand, 36 :: s, b⟩)
        (EndsSym.append (s := [36]) h.ends) h2) h4.right (p + 1 + s.length + b.length)
      refine ((Win.eats (param_run B hB) (.cons (.of_byte h3 (by decide)) (h.span h4)) h7 (by simp) (by simp) (by simp)).to ?_).var
      simp [Mark, render]; omega

/-! ## START -/

/-- What follows `node` or `rel` in a starting point, parser.leg:187-197 and 199-209. -/
def pointE (a1 a2 a3 a4 : Act) : E :=
  .alt (.seq (.nt .r_COLON none) (.seq (.nt .r_ws none) (.seq (.nt .r_index_name (some 1)) (.seq (.nt .r_LEFT_PAREN none) (.seq (.nt
    .r_ws none) (.alt (.seq (.nt .r_prop_name (some 2)) (.seq (.nt .r_EQUAL none) (.seq (.nt
    .r_ws none) (.seq (.alt (.nt .r_string_literal (some 3)) (.nt .r_parameter (some 3))) (.seq
    (.nt .r_RIGHT_PAREN none) (.seq (.pred .blockEnd) (.act a1))))))) (.seq (.alt (.nt .r_string_literal (some 3)) (.nt
    .r_parameter (some 3))) (.seq (.nt .r_RIGHT_PAREN none) (.seq (.pred .blockEnd) (.act a2)))))))))) (.seq (.nt .r_LEFT_PAREN
    none) (.seq (.nt .r_ws none) (.alt (.seq (.nt .r_node_ids none) (.seq (.nt .r_RIGHT_PAREN
    none) (.seq (.pred .blockEnd) (.act a3)))) (.seq (.nt
    .r_STAR none) (.seq (.nt .r_ws none) (.seq (.nt .r_RIGHT_PAREN none) (.seq (.pred .blockEnd)
    (.act a4))))))))

theorem PointOf.texts (h : PointOf X) : ∀ x ∈ X, x.text ≠ [] := by
  cases h with
  | ids h1 h2 h3 => exact texts_cons (h1.text (by decide +kernel)) (Halts.texts_append (h2.texts fun _ => Num.texts) (texts_one (h3.text (by decide +kernel))))
  | all h1 h2 h3 => exact texts_cons (h1.text (by decide +kernel)) (texts_cons (h2.text (by decide +kernel)) (texts_one (h3.text (by decide +kernel))))
  | lookup h1 h2 h3 h4 h5 h6 h7 =>
    exact texts_cons (h1.text (by decide +kernel)) (texts_cons h2.text (texts_cons (h3.text (by decide +kernel)) (texts_cons h4.text
      (texts_cons (h5.text (by decide +kernel)) (Halts.texts_append h6.texts (texts_one (h7.text (by decide +kernel))))))))
  | query h1 h2 h3 h6 h7 =>
    exact texts_cons (h1.text (by decide +kernel)) (texts_cons h2.text (texts_cons (h3.text (by decide +kernel))
      (Halts.texts_append h6.texts (texts_one (h7.text (by decide +kernel))))))
theorem PointOf.begins (h : PointOf X) : Begins ["(", ":"] (render X ++ t) := by
  cases h with
  | ids h1 | all h1 | lookup h1 | query h1 => exact (sign_begins h1 (by decide +kernel) (by decide +kernel)).mono (by simp)

theorem PointOf.halts {a1 a2 a3 a4 : Act} (h : PointOf X) : Halts w (pointE a1 a2 a3 a4) X t := by
  have close : ∀ {c : Piece} {ac : Act}, Key ")" c → Halts w (.seq (.nt .r_RIGHT_PAREN none) (.seq (.pred .blockEnd) (.act ac))) [c] t :=
    fun h => .seqIdle (.sign h (by decide +kernel) (by decide +kernel)) .fin
  have bc : ∀ {c : Piece}, Key ")" c → Begins [")"] (render [c] ++ t) := fun h => sign_begins h (by decide +kernel) (by decide +kernel)
  have sL : ∀ {L Z : List Piece}, Lookup L → Solid (render (L ++ Z) ++ t) := fun h => by
    rw [render_append, List.append_assoc]; exact (h.begins).solid (by decide +kernel)
  cases h with
  | @ids o X c h1 h2 h3 =>
    have sX : Solid (render (X ++ [c]) ++ t) := by rw [render_append, List.append_assoc]; exact h2.solid fun _ _ => Num.solid
    refine .altR (fun _ => .seq1 ((sign_begins h1 (by decide +kernel) (by decide +kernel)).refuses (by decide +kernel)))
      (.ws' (X := [o]) (fun _ => .sign h1 (by decide +kernel) (by decide +kernel)) (fun _ => sX) (texts_one (h1.text (by decide +kernel)))
        (.altL (.seq (fun _ => .nt ?_) (close h3) (h2.texts fun _ => Num.texts))))
    exact sep_takes (xs := [")"]) (fun X t v hX hb => hX.takes (hb.solid (by decide +kernel))) (fun _ _ => Num.solid) (fun _ => Num.texts)
      (by decide +kernel) h2 (bc h3)
  | @all o s c h1 h2 h3 =>
    have b2 : Begins ["*"] (render [s, c] ++ t) := sign_begins h2 (by decide +kernel) (by decide +kernel)
    exact .altR (fun _ => .seq1 ((sign_begins h1 (by decide +kernel) (by decide +kernel)).refuses (by decide +kernel)))
      (.ws' (X := [o]) (fun _ => .sign h1 (by decide +kernel) (by decide +kernel)) (fun _ => b2.solid (by decide +kernel))
        (texts_one (h1.text (by decide +kernel))) (.altR (fun _ => .seq1 (b2.refuses (by decide +kernel)))
          (.ws' (X := [s]) (fun _ => .sign h2 (by decide +kernel) (by decide +kernel)) (fun _ => (bc h3).solid (by decide +kernel))
            (texts_one (h2.text (by decide +kernel))) (close h3))))
  | @lookup d x o y q L c h1 h2 h3 h4 h5 h6 h7 =>
    exact .altL (.ws' (X := [d]) (fun _ => .sign h1 (by decide +kernel) (by decide +kernel)) (fun _ => h2.solid) (texts_one (h1.text (by decide +kernel)))
      (.seq (X := [x]) (fun _ => typeName_takes (by simp) h2 (h3.solid (by decide +kernel))) (.ws' (X := [o])
        (fun _ => .sign h3 (by decide +kernel) (by decide +kernel)) (fun _ => h4.solid) (texts_one (h3.text (by decide +kernel)))
        (.altL (.seq (X := [y]) (fun _ => typeName_takes (by simp) h4 (h5.solid (by decide +kernel))) (.ws' (X := [q])
          (fun _ => .sign h5 (by decide +kernel) (by decide +kernel)) (fun _ => sL h6) (texts_one (h5.text (by decide +kernel)))
          (.seq (fun _ => h6.takes (bc h7)) (close h7) h6.texts)) (texts_one h4.text)))) (texts_one h2.text)))
  | @query d x o L c h1 h2 h3 h6 h7 =>
    have bL : Begins ["\"", "'", "$"] (render (L ++ [c]) ++ t) := by rw [render_append, List.append_assoc]; exact h6.begins
    exact .altL (.ws' (X := [d]) (fun _ => .sign h1 (by decide +kernel) (by decide +kernel)) (fun _ => h2.solid) (texts_one (h1.text (by decide +kernel)))
      (.seq (X := [x]) (fun _ => typeName_takes (by simp) h2 (h3.solid (by decide +kernel))) (.ws' (X := [o])
        (fun _ => .sign h3 (by decide +kernel) (by decide +kernel)) (fun _ => sL h6) (texts_one (h3.text (by decide +kernel)))
        (.altR (fun _ => .seq1 fun p hp => (bL.refuses (e := .nt .r_prop_name none) (by decide +kernel) p hp).var)
          (.seq (fun _ => h6.takes (bc h7)) (close h7) h6.texts))) (texts_one h2.text)))

theorem Point.texts (h : Point X) : ∀ x ∈ X, x.text ≠ [] := by
  obtain ⟨h1, h2, h3, h4, h5⟩ := h
  refine texts_cons h1.text (texts_cons (h2.text (by decide +kernel)) (texts_cons (h4.text ?_) h5.texts))
  simp only [List.mem_cons, List.not_mem_nil, or_false] at h3
  rcases h3 with rfl | rfl | rfl <;> decide +kernel
theorem Point.solid (h : Point X) : Solid (render X ++ t) := by
  obtain ⟨h1, -⟩ := h
  exact h1.solid
theorem Point.halts (h : Point X) : Halts w (.nt .r_start_point v) X t := by
  have tx := h.texts
  obtain ⟨h1, h2, h3, h4, h5⟩ := h
  rename_i x q y k S
  have sk : Solid (render (k :: S) ++ t) := by
    simp only [List.mem_cons, List.not_mem_nil, or_false] at h3
    rcases h3 with rfl | rfl | rfl <;> exact h4.solid (by decide +kernel)
  have tS : ∀ x ∈ S, x.text ≠ [] := h5.texts
  have sS := (h5.begins (t := t)).solid (by decide +kernel)
  have pS : ∀ a1 a2 a3 a4, Halts w (pointE a1 a2 a3 a4) S t := fun _ _ _ _ => h5.halts
  have hgap : Gap (trail (k :: S)) := by
    have h0 := pS (.seqAdd []) (.seqAdd []) (.seqAdd []) (.seqAdd [])
    rw [show k :: S = [k] ++ S from rfl, trail_append h0.ne]
    exact h0.gap
  refine .nt (.skip .blockStart (.seq (X := [x]) (fun _ => h1.takes (h2.solid (by decide +kernel))) (.ws' (X := [q])
    (fun _ => .sign h2 (by decide +kernel) (by decide +kernel)) (fun _ => sk) (texts_one (h2.text (by decide +kernel))) ?_) (texts_one h1.text)))
  simp only [List.mem_cons, List.not_mem_nil, or_false] at h3
  rcases h3 with rfl | rfl | rfl
  · exact .altL (.seq (X := [k]) (fun _ => h4.takes (by decide +kernel) (by decide +kernel) sS) (pS _ _ _ _) (texts_one (h4.text (by decide +kernel))))
  · exact .altR (fun hs => .seq1 ((h4.begins (by decide +kernel) tS hs).refuses (by decide +kernel)))
      (.seq (X := [k]) (fun _ => .altL (h4.takes (by decide +kernel) (by decide +kernel) sS)) (pS _ _ _ _) (texts_one (h4.text (by decide +kernel))))
  · exact .altR (fun hs => .seq1 ((h4.begins (by decide +kernel) tS hs).refuses (by decide +kernel)))
      (.given (by simp) hgap (texts_cons (h4.text (by decide +kernel)) tS) fun hs =>
      .seq (X := [k]) (fun _ => .altR (fun _ => by
        have := (h4.begins (by decide +kernel) tS hs).refuses (w := w) (e := .nt .r_relationship none) (by decide +kernel)
        simpa [render] using this) (h4.takes (by decide +kernel) (by decide +kernel) sS)) (pS _ _ _ _) (texts_one (h4.text (by decide +kernel))))

def pointsE (v : Option Nat) (ac : Act) : E := .star (.seq (.nt .r_COMMA none) (.seq (.nt .r_ws none) (.seq (.nt .r_start_point v)
  (.seq (.nt .r_ws none) (.act ac)))))

theorem points_take {ac : Act} (h : More Point Y) (ht : Begins ("WHERE" :: nexts) t) : Takes w (pointsE v ac) Y t := by
  induction h with
  | nil => exact .starEnd (.seq1 (ht.refuses (by decide +kernel)))
  | @cons k X Y hk hX hm ih =>
    rw [← List.cons_append]
    refine .starMore (fun hs => .sign hk (by decide +kernel) (by decide +kernel) hX.solid ?_) ih
      (texts_cons (hk.text (by decide +kernel)) hX.texts)
    have hb : Solid (render Y ++ t) := (hm.begins ht).solid (by decide +kernel)
    have h0 : Takes w (.seq (.nt .r_start_point v) (.seq (.nt .r_ws none) (.act ac))) (X ++ []) (render Y ++ t) :=
      Halts.ws (Y := []) (fun _ => hX.halts) (fun _ => hb) hX.texts (.idle .act)
    rwa [List.append_nil] at h0

theorem start_takes {W : List Piece} (hk : Key "START" k) (h : Sep Point X) (hW : Opt (KeyExpr "WHERE") W) (ht : Begins nexts t) :
    Takes w (.nt .r_start_clause v) (k :: (X ++ W)) t := by
  obtain ⟨h1, h2⟩ := h
  rename_i P M
  have bW := fun hs => optKey_begins (x := "WHERE") hW (by decide +kernel) hs ht (by decide +kernel)
  have sP : Solid (render (P ++ M ++ W) ++ t) := by
    rw [List.append_assoc, render_append, List.append_assoc]; exact h1.solid
  have t1 : Takes w (.seq (.alt (.seq (.nt .r_WHERE none) (.nt .r_expression (some 1))) (.nt .r__null_ (some 1))) (.seq (.pred .blockEnd)
    (.act (.build .self .startClause [some 1])))) W t := .seqIdle (where_takes hW ht) .fin
  refine .nt (.skip .blockStart (.seq (X := [k]) (fun _ => hk.takes (by decide +kernel) (by decide +kernel) sP) ?_
    (texts_one (hk.text (by decide +kernel)))))
  show Takes w _ (P ++ M ++ W) t
  rw [List.append_assoc]
  refine Halts.ws (fun _ => h1.halts) (fun hs => ?_) h1.texts (.skip .act (.seq (fun hs => points_take h2 (bW hs)) t1 (h2.texts fun _ => Point.texts)))
  rw [List.append_assoc] at hs
  rw [render_append, List.append_assoc]
  exact (h2.begins (bW hs.right)).solid (by decide +kernel)

/-! ## Indexes -/

def schemaEnds : List String := ["", ";"]

theorem index_body {L : List Piece} {k' : Piece} {v1 v2 : Option Nat} {a1 a2 a3 : Act} (hL : Label L) (hk : Key "(" k) (hX : Sep Word X)
    (hk' : Key ")" k') (ht : Solid t) :
    Takes w (.seq (.nt .r_label v) (.seq (.nt .r_LEFT_PAREN none) (.seq (.nt .r_ws none) (.seq (.nt .r_prop_name v1)
      (.seq (.act a1) (.seq (.star (.seq (.nt .r_COMMA none) (.seq (.nt .r_ws none) (.seq (.nt .r_prop_name v2) (.act a2)))))
      (.seq (.nt .r_RIGHT_PAREN none) (.seq (.pred .blockEnd) (.seq (.act a3) (.nt .r_ws none)))))))))) (L ++ k :: (X ++ [k'])) t := by
  obtain ⟨h1, h2⟩ := hX
  rename_i X Y
  have b1 : Begins [")"] (render [k'] ++ t) := sign_begins hk' (by decide +kernel) (by decide +kernel)
  have tk : ∀ X t v, Word X → Begins [",", ")"] t → Takes w (.nt .r_prop_name v) X t := by
    intro X t v hX hb
    obtain ⟨hX⟩ := hX
    exact typeName_takes (by simp) hX (hb.solid (by decide +kernel))
  have b2 : Begins [",", ")"] (render (Y ++ [k']) ++ t) := by rw [render_append, List.append_assoc]; exact h2.begins b1
  have sX : Solid (render (X ++ Y ++ [k']) ++ t) := by rw [List.append_assoc, render_append, List.append_assoc]; exact h1.solid
  refine .seq (fun _ => hL.takes (by simp) (hk.solid (by decide +kernel))) (.sign hk (by decide +kernel) (by decide +kernel) sX ?_) hL.texts
  rw [List.append_assoc]
  exact .seq (fun _ => tk _ _ _ h1 b2) (.skip .act (.seq (fun _ => h2.takes (fun X t => tk X t v2) (fun _ _ => Word.solid) (fun _ => Word.texts)
    (by decide +kernel) b1) (Halts.close (.sign hk' (by decide +kernel) (by decide +kernel)) ht) (h2.texts fun _ => Word.texts))) h1.texts

/-! ## Constraints -/

theorem Exprn.takesTo {E : List Piece} (h : Exprn E) (ht : ∀ p, Here w p t → StopAt w p t) : Takes w (.nt .r_expression v) E t :=
  ⟨h.texts, fun _ h1 h2 => (expression_reads h h2 (ht _ h1.right) h1).var⟩

def uniqueA : List Tile := opCells (["IS", "UNIQUE"].map bytes)
theorem unique_loop : ((List.range 15).all fun M => noAt (run 100 (.mk2 uniqueA [] [] [] [] (some M)) loop 0 .same [])) = true := by
  decide +kernel
theorem unique_cmp : ((List.range 15).all fun M => noAt (run 100 (.mk2 uniqueA [] [] [] [] (some M)) cmpStep 0 .same [])) = true := by
  decide +kernel

theorem unique_stop (h : Keys ["IS", "UNIQUE"] X) (hs : Spaced (X ++ [endPiece t])) {p : Nat} (hh : Here w p (render X ++ t)) :
    StopAt w p (render X ++ t) := by
  obtain ⟨s, b, e0, g1, -, -, c, r, e1, g2, -⟩ := h.spelled (by simp) (by decide +kernel) hs
  have hc := imp_byte (P := fun c => letter (upper c)) (Q := fun c => kTail.mem c && c != 46 && c != 47) (by decide +kernel) g2
  simp only [Bool.and_eq_true, bne_iff_ne] at hc
  have e2 : render X ++ t = c :: (r ++ (b ++ t)) := by rw [e0, e1]; simp
  have hh' : Here w p (s ++ (b ++ t)) := by rw [e0, List.append_assoc] at hh; exact hh
  have hsp : Span w uniqueA p (p + s.length) := Span.spelled g1 (allWordy_tail (by decide +kernel)) hh'
  have u1 := unique_loop
  have u2 := unique_cmp
  simp only [List.all_eq_true, List.mem_range] at u1 u2
  refine ⟨hh, ?_, ?_, fun M hM => Win.shunsAt (u1 M hM) hsp (qs := []) .nil (by simp) (by simp) (by simp),
    fun M hM => Win.shunsAt (u2 M hM) hsp (qs := []) .nil (by simp) (by simp) (by simp)⟩
  · rw [e2]; exact .of hc.1.1 (fun h => absurd h hc.2)
  · rw [e2]; simpa using hc.1.2

theorem assert_takes {E U : List Piece} {a1 a2 : Act} (hE : Exprn E) (hU : Opt (Keys ["IS", "UNIQUE"]) U) (ht : Begins schemaEnds t) :
    Takes w (.alt (.seq (.nt .r_expression v) (.seq (.nt .r_IS_UNIQUE none) (.seq (.pred .blockEnd) (.act a1))))
      (.seq (.nt .r_expression v') (.seq (.pred .blockEnd) (.act a2)))) (E ++ U) t := by
  cases hU with
  | none =>
    rw [List.append_nil]
    have tE : ∀ v, Takes w (.nt .r_expression v) E t := fun v => Exprn.takes hE ht (by decide +kernel)
    exact .altR (fun hs => .seq2 (tE _) hs (.seq1 (ht.refuses (by decide +kernel)))) (.seqIdle (tE _) .fin)
  | some hU =>
    exact .altL (.seq (fun hs => Exprn.takesTo hE fun p hp => unique_stop hU hs hp)
      (.seqIdle (hU.takes (by simp) (by decide +kernel) (by decide +kernel) (ht.solid (by decide +kernel))) .fin) hE.texts)

theorem optSign_takes {x : String} {r : Rule} (hX : Opt (Sign x) X) (hr : signs x (.nt r none) = true) (hx : bytes x ≠ [])
    (hY : Takes w e Y t) (hn : Refuses w (.nt r none) (render Y ++ t)) (hs : Solid (render Y ++ t)) :
    Takes w (.seq (.opt (.seq (.nt r none) (.nt .r_ws none))) e) (X ++ Y) t := by
  cases hX with
  | none => exact .nilSeq (.altR (fun _ => .seq1 hn) (.idle .eps)) hY
  | some h =>
    obtain ⟨h⟩ := h
    exact .seq (fun _ => .altL (Halts.wsEnd (.sign h hr hx) hs)) hY (texts_one (h.text hx))

/-- What follows ON in a constraint, parser.leg:98-108 and 122-132. -/
def constraintE (a1 a2 a3 : Act) : E :=
  .seq (.alt (.seq (.nt .r_LEFT_PAREN none) (.seq (.nt .r_ws none) (.seq (.nt .r_identifier (some 0)) (.seq (.nt
    .r_label (some 1)) (.seq (.nt .r_RIGHT_PAREN none) (.seq (.nt .r_ws none) (.seq (.nt
    .r_ASSERT none) (.alt (.seq (.nt .r_expression (some 2)) (.seq (.nt .r_IS_UNIQUE none) (.seq
    (.pred .blockEnd) (.act a1)))) (.seq (.nt .r_expression (some 2)) (.seq (.pred .blockEnd) (.act a2))))))))))) (.seq (.nt
    .r_LEFT_PAREN none) (.seq (.nt .r_ws none) (.seq (.nt .r_RIGHT_PAREN none) (.seq (.nt .r_ws
    none) (.seq (.opt (.seq (.nt .r_LEFT_ARROW_HEAD none) (.nt .r_ws none))) (.seq (.nt .r_DASH
    none) (.seq (.nt .r_ws none) (.seq (.nt .r_LEFT_SQ_PAREN none) (.seq (.nt .r_ws none) (.seq
    (.nt .r_identifier (some 0)) (.seq (.nt .r_rel_type (some 3)) (.seq (.nt .r_RIGHT_SQ_PAREN
    none) (.seq (.nt .r_ws none) (.seq (.nt .r_DASH none) (.seq (.nt .r_ws none) (.seq (.opt
    (.seq (.nt .r_RIGHT_ARROW_HEAD none) (.nt .r_ws none))) (.seq (.nt .r_LEFT_PAREN none) (.seq
    (.nt .r_ws none) (.seq (.nt .r_RIGHT_PAREN none) (.seq (.nt .r_ws none) (.seq (.nt .r_ASSERT
    none) (.seq (.nt .r_expression (some 2)) (.seq (.pred .blockEnd) (.act a3))))))))))))))))))))))))) (.nt .r_ws none)

theorem node_constraint {a1 a2 a3 : Act} {o i c y : Piece} {L E U : List Piece} (h1 : Key "(" o) (h2 : Ident i) (h3 : Label L) (h4 : Key ")" c)
    (h5 : Key "ASSERT" y) (h6 : Exprn E) (h7 : Opt (Keys ["IS", "UNIQUE"]) U) (ht : Begins schemaEnds t) :
    Takes w (constraintE a1 a2 a3) (o :: i :: (L ++ c :: y :: (E ++ U))) t := by
  have sL : ∀ {Z : List Piece}, Solid (render (L ++ Z) ++ t) := by
    intro Z; rw [render_append, List.append_assoc]; exact h3.begins.solid (by decide +kernel)
  have sE : Solid (render (E ++ U) ++ t) := by rw [render_append, List.append_assoc]; exact h6.solid
  exact .seqNil (.altL (.sign h1 (by decide +kernel) (by decide +kernel) h2.solid (.seq (X := [i]) (fun _ => h2.takes sL)
    (.seq (fun _ => h3.takes (by simp) (h4.solid (by decide +kernel))) (.sign h4 (by decide +kernel) (by decide +kernel) (h5.solid (by decide +kernel))
      (.seq (X := [y]) (fun _ => h5.takes (by decide +kernel) (by decide +kernel) sE) (assert_takes h6 h7 ht) (texts_one (h5.text (by decide +kernel)))))
      h3.texts) (texts_one h2.text)))) (ws_takes (ht.solid (by decide +kernel)))

theorem rel_constraint {a1 a2 a3 : Act} {o c d q i q' d' o' c' y : Piece} {A L B E : List Piece} (h1 : Key "(" o) (h2 : Key ")" c)
    (h3 : Opt (Sign "<") A) (h4 : Key "-" d) (h5 : Key "[" q) (h6 : Ident i) (h7 : Label L) (h8 : Key "]" q') (h9 : Key "-" d')
    (h10 : Opt (Sign ">") B) (h11 : Key "(" o') (h12 : Key ")" c') (h13 : Key "ASSERT" y) (h14 : Exprn E) (ht : Begins schemaEnds t) :
    Takes w (constraintE a1 a2 a3) (o :: c :: (A ++ d :: q :: i :: (L ++ q' :: d' :: (B ++ o' :: c' :: y :: E)))) t := by
  have sL : ∀ {Z : List Piece}, Solid (render (L ++ Z) ++ t) := by
    intro Z; rw [render_append, List.append_assoc]; exact h7.begins.solid (by decide +kernel)
  have optB : ∀ {x : String} {A Y : List Piece} {z : String}, Opt (Sign x) A → firm x = true → Begins [z] (render Y ++ t) → firm z = true →
      Solid (render (A ++ Y) ++ t) := by
    intro x A Y z hA hx hb hz
    rw [render_append, List.append_assoc]
    cases hA with
    | none => exact hb.solid (by simpa using .inr hz)
    | some h =>
      obtain ⟨h⟩ := h
      exact h.solid hx
  have b1 : Begins ["("] (render (o' :: c' :: y :: E) ++ t) := sign_begins h11 (by decide +kernel) (by decide +kernel)
  have b2 : Begins ["-"] (render (d :: q :: i :: (L ++ q' :: d' :: (B ++ o' :: c' :: y :: E))) ++ t) :=
    sign_begins h4 (by decide +kernel) (by decide +kernel)
  have b3 : Begins [")"] (render (c :: (A ++ d :: q :: i :: (L ++ q' :: d' :: (B ++ o' :: c' :: y :: E)))) ++ t) :=
    sign_begins h2 (by decide +kernel) (by decide +kernel)
  have t1 : Takes w (.seq (.nt .r_LEFT_PAREN none) (.seq (.nt .r_ws none) (.seq (.nt .r_RIGHT_PAREN none) (.seq (.nt .r_ws none)
      (.seq (.nt .r_ASSERT none) (.seq (.nt .r_expression (some 2)) (.seq (.pred .blockEnd) (.act a3)))))))) (o' :: c' :: y :: E) t :=
    .sign h11 (by decide +kernel) (by decide +kernel) (h12.solid (by decide +kernel)) (.sign h12 (by decide +kernel) (by decide +kernel)
      (h13.solid (by decide +kernel)) (.seq (X := [y]) (fun _ => h13.takes (by decide +kernel) (by decide +kernel) h14.solid)
        (.seqIdle (Exprn.takes h14 ht (by decide +kernel)) .fin) (texts_one (h13.text (by decide +kernel)))))
  have t2 := optSign_takes (r := .r_RIGHT_ARROW_HEAD) h10 (by decide +kernel) (by decide +kernel) t1 (b1.refuses (by decide +kernel))
    (b1.solid (by decide +kernel))
  have sB := optB h10 (by decide +kernel) b1 (by decide +kernel)
  have t3 : Takes w _ (d :: q :: i :: (L ++ q' :: d' :: (B ++ o' :: c' :: y :: E))) t :=
    .sign (r := .r_DASH) h4 (by decide +kernel) (by decide +kernel) (h5.solid (by decide +kernel)) (.sign (r := .r_LEFT_SQ_PAREN) h5 (by decide +kernel) (by decide +kernel)
      h6.solid (.seq (a := .nt .r_identifier (some 0)) (X := [i]) (fun _ => h6.takes sL) (.seq (a := .nt .r_rel_type (some 3)) (fun _ => h7.takes (by simp) (h8.solid (by decide +kernel)))
        (.sign (r := .r_RIGHT_SQ_PAREN) h8 (by decide +kernel) (by decide +kernel) (h9.solid (by decide +kernel)) (.sign (r := .r_DASH) h9 (by decide +kernel)
          (by decide +kernel) sB t2)) h7.texts) (texts_one h6.text)))
  have t4 := optSign_takes (r := .r_LEFT_ARROW_HEAD) h3 (by decide +kernel) (by decide +kernel) t3 (b2.refuses (by decide +kernel))
    (b2.solid (by decide +kernel))
  have sA := optB h3 (by decide +kernel) b2 (by decide +kernel)
  have t5 : Takes w _ (c :: (A ++ d :: q :: i :: (L ++ q' :: d' :: (B ++ o' :: c' :: y :: E)))) t :=
    .sign (r := .r_RIGHT_PAREN) h2 (by decide +kernel) (by decide +kernel) sA t4
  have tx := texts_cons (h1.text (by decide +kernel)) t5.texts
  refine .seqNil (.altR (fun hs p hp => ?_) (.sign h1 (by decide +kernel) (by decide +kernel) (b3.solid (by decide +kernel)) t5))
    (ws_takes (ht.solid (by decide +kernel)))
  have hk : Halts w (.nt .r_LEFT_PAREN none) [o] (render (c :: (A ++ d :: q :: i :: (L ++ q' :: d' :: (B ++ o' :: c' :: y :: E)))) ++ t) :=
    .sign h1 (by decide +kernel) (by decide +kernel)
  have hp' : Here w p (render [o] ++ (render (c :: (A ++ d :: q :: i :: (L ++ q' :: d' :: (B ++ o' :: c' :: y :: E)))) ++ t)) := by
    simpa [render] using hp
  have e1 := hk.eats p hp' (Spaced.cut (X := [o]) hs t5.texts)
  have e2 := ws_eats (v := none) hk.gap (b3.solid (by decide +kernel)) (Halts.here hp')
  have e : p + (core [o]).length + (trail [o]).length = p + (render [o]).length := by
    rw [core_trail [o], List.length_append]; omega
  rw [e] at e2
  exact .seq2 e1 (.seq2 e2 (.seq1 (Shuns.var (b3.refuses (e := .nt .r_identifier none) (by decide +kernel) _ hp'.right))))

/-! ## Schema commands -/

theorem Schema.texts (h : Schema X) : ∀ x ∈ X, x.text ≠ [] := by
  have hK : ∀ {x : String} {K : List Piece} {xs : List String}, x ∈ ["CREATE", "DROP"] → allWordy xs = true → Keys (x :: xs) K →
      ∀ x ∈ K, x.text ≠ [] := by
    intro x K xs hx hw h
    simp only [List.mem_cons, List.not_mem_nil, or_false] at hx
    refine h.texts ?_
    rcases hx with rfl | rfl <;> (simp only [allWordy, List.all_cons, Bool.and_eq_true] at hw ⊢; exact ⟨by decide +kernel, hw⟩)
  cases h with
  | index hx h1 h2 h3 h4 h5 =>
    exact Halts.texts_append (hK hx (by decide +kernel) h1) (Halts.texts_append h2.texts (texts_cons (h3.text (by decide +kernel))
      (Halts.texts_append (h4.texts fun _ => Word.texts) (texts_one (h5.text (by decide +kernel))))))
  | node hx h1 h2 h3 h4 h5 h6 h7 h8 =>
    exact Halts.texts_append (hK hx (by decide +kernel) h1) (texts_cons (h2.text (by decide +kernel)) (texts_cons h3.text
      (Halts.texts_append h4.texts (texts_cons (h5.text (by decide +kernel)) (texts_cons (h6.text (by decide +kernel))
        (Halts.texts_append h7.texts (h8.texts fun h => h.texts (by decide +kernel))))))))
  | rel hx h1 h2 h3 h4 h5 h6 h7 h8 h9 h10 h11 h12 h13 h14 h15 =>
    have s : ∀ {x : String} {A : List Piece}, bytes x ≠ [] → Opt (Sign x) A → ∀ y ∈ A, y.text ≠ [] := fun hx h => h.texts fun h' => by
      obtain ⟨h'⟩ := h'
      exact texts_one (h'.text hx)
    exact Halts.texts_append (hK hx (by decide +kernel) h1) (texts_cons (h2.text (by decide +kernel)) (texts_cons (h3.text (by decide +kernel))
      (Halts.texts_append (s (by decide +kernel) h4) (texts_cons (h5.text (by decide +kernel)) (texts_cons (h6.text (by decide +kernel)) (texts_cons h7.text
        (Halts.texts_append h8.texts (texts_cons (h9.text (by decide +kernel)) (texts_cons (h10.text (by decide +kernel))
          (Halts.texts_append (s (by decide +kernel) h11) (texts_cons (h12.text (by decide +kernel)) (texts_cons (h13.text (by decide +kernel))
            (texts_cons (h14.text (by decide +kernel)) h15.texts)))))))))))))

def schemaE : E := .onfail (.alt (.nt .r_create_index none) (.alt (.nt .r_create_constraint none) (.alt
    (.nt .r_drop_index none) (.nt .r_drop_constraint none)))) (.err 2)

/-- A command of three words; what follows them is read by each of the rules. -/
theorem Schema.takes (h : Schema X) (ht : Begins schemaEnds t) : Takes w schemaE X t ∧
    (Spaced (X ++ [endPiece t]) → Refuses w (.nt .r_query none) (render X ++ t)) := by
  have hsol := ht.solid (by decide +kernel)
  have tx := h.texts
  cases h with
  | @index x K L k X k' hx h1 h2 h3 h4 h5 =>
    have tB := fun a3 => index_body (w := w) (v := some 0) (v1 := some 1) (v2 := some 1) (a1 := .seqAdd [1]) (a2 := .seqAdd [1]) (a3 := a3) h2 h3 h4 h5 hsol
    have tY := (tB (.seqAdd [])).texts
    have sB : Solid (render (L ++ k :: (X ++ [k'])) ++ t) := by rw [render_append, List.append_assoc]; exact h2.begins.solid (by decide +kernel)
    simp only [List.mem_cons, List.not_mem_nil, or_false] at hx
    rcases hx with rfl | rfl
    · exact ⟨.onfail (.altL (.nt (.skip .blockStart (.seq (fun _ => h1.takes (by simp) (by decide +kernel) (by decide +kernel) sB) (tB _)
        (h1.texts (by decide +kernel)))))), fun hs => h1.refuses (by simp) (by decide +kernel) (by decide +kernel) tY hs⟩
    · exact ⟨.onfail (.altR (fun hs => h1.refuses (by simp) (by decide +kernel) (by decide +kernel) tY hs)
        (.altR (fun hs => h1.refuses (by simp) (by decide +kernel) (by decide +kernel) tY hs)
        (.altL (.nt (.skip .blockStart (.seq (fun _ => h1.takes (by simp) (by decide +kernel) (by decide +kernel) sB) (tB _)
        (h1.texts (by decide +kernel)))))))), fun hs => h1.refuses (by simp) (by decide +kernel) (by decide +kernel) tY hs⟩
  | @node x K o i L c y E U hx h1 h2 h3 h4 h5 h6 h7 h8 =>
    have tB := fun a1 a2 a3 => node_constraint (w := w) (a1 := a1) (a2 := a2) (a3 := a3) h2 h3 h4 h5 h6 h7 h8 ht
    have tY := (tB (.seqAdd []) (.seqAdd []) (.seqAdd [])).texts
    have sB : Solid (render (o :: i :: (L ++ c :: y :: (E ++ U))) ++ t) := h2.solid (by decide +kernel)
    simp only [List.mem_cons, List.not_mem_nil, or_false] at hx
    rcases hx with rfl | rfl
    · exact ⟨.onfail (.altR (fun hs => h1.refuses (by simp) (by decide +kernel) (by decide +kernel) tY hs) (.altL (.nt (.skip .blockStart
        (.seq (fun _ => h1.takes (by simp) (by decide +kernel) (by decide +kernel) sB) (tB _ _ _)
        (h1.texts (by decide +kernel))))))), fun hs => h1.refuses (by simp) (by decide +kernel) (by decide +kernel) tY hs⟩
    · exact ⟨.onfail (.altR (fun hs => h1.refuses (by simp) (by decide +kernel) (by decide +kernel) tY hs)
        (.altR (fun hs => h1.refuses (by simp) (by decide +kernel) (by decide +kernel) tY hs)
        (.altR (fun hs => h1.refuses (by simp) (by decide +kernel) (by decide +kernel) tY hs)
        (.nt (.skip .blockStart (.seq (fun _ => h1.takes (by simp) (by decide +kernel) (by decide +kernel) sB) (tB _ _ _)
        (h1.texts (by decide +kernel)))))))), fun hs => h1.refuses (by simp) (by decide +kernel) (by decide +kernel) tY hs⟩
  | @rel x K o c A d q i L q' d' B o' c' y E hx h1 h2 h3 h4 h5 h6 h7 h8 h9 h10 h11 h12 h13 h14 h15 =>
    have tB := fun a1 a2 a3 => rel_constraint (w := w) (a1 := a1) (a2 := a2) (a3 := a3) h2 h3 h4 h5 h6 h7 h8 h9 h10 h11 h12 h13 h14 h15 ht
    have tY := (tB (.seqAdd []) (.seqAdd []) (.seqAdd [])).texts
    have sB : Solid (render (o :: c :: (A ++ d :: q :: i :: (L ++ q' :: d' :: (B ++ o' :: c' :: y :: E)))) ++ t) := h2.solid (by decide +kernel)
    simp only [List.mem_cons, List.not_mem_nil, or_false] at hx
    rcases hx with rfl | rfl
    · exact ⟨.onfail (.altR (fun hs => h1.refuses (by simp) (by decide +kernel) (by decide +kernel) tY hs) (.altL (.nt (.skip .blockStart
        (.seq (fun _ => h1.takes (by simp) (by decide +kernel) (by decide +kernel) sB) (tB _ _ _)
        (h1.texts (by decide +kernel))))))), fun hs => h1.refuses (by simp) (by decide +kernel) (by decide +kernel) tY hs⟩
    · exact ⟨.onfail (.altR (fun hs => h1.refuses (by simp) (by decide +kernel) (by decide +kernel) tY hs)
        (.altR (fun hs => h1.refuses (by simp) (by decide +kernel) (by decide +kernel) tY hs)
        (.altR (fun hs => h1.refuses (by simp) (by decide +kernel) (by decide +kernel) tY hs)
        (.nt (.skip .blockStart (.seq (fun _ => h1.takes (by simp) (by decide +kernel) (by decide +kernel) sB) (tB _ _ _)
        (h1.texts (by decide +kernel)))))))), fun hs => h1.refuses (by simp) (by decide +kernel) (by decide +kernel) tY hs⟩

/-! ## The end of a statement -/

theorem semicolon_begins : Begins [";"] (59 :: t) := byte_begins (by decide +kernel) (by decide +kernel) (by decide)

theorem End.begins {en : Ending} (h : End en X) (ht : en = .endOfText → t = []) : Begins schemaEnds (render X ++ t) := by
  cases h with
  | semicolon => exact semicolon_begins.mono (by decide +kernel)
  | endOfText => exact .inl ⟨by decide +kernel, ht rfl⟩
theorem End.texts {en : Ending} (h : End en X) : ∀ x ∈ X, x.text ≠ [] := by
  cases h <;> simp
theorem End.takes {en : Ending} (h : End en X) (ht : en = .endOfText → t = []) :
    Takes w (.alt (.nt .r_SEMICOLON none) (.nt .r_EOF none)) X t := by
  cases h with
  | semicolon =>
    refine ⟨by simp, fun p h1 _ => ?_⟩
    have h2 : Here w p ([59] ++ t) := h1
    refine (Win.eats (A := wordCells (bytes ";")) (B := []) (qs := []) (j := 0) (n := 100) (shun := []) (facts := []) (stars := [])
      (by decide +kernel) (Span.word (by decide +kernel) h2) .nil (by simp) (by simp) (by simp)).to ?_
    simp [Mark, render]
  | endOfText =>
    cases ht rfl
    refine ⟨by simp, fun p h1 _ => ?_⟩
    have h2 : Here w p [] := h1
    exact (Win.eats (A := []) (B := [.fin]) (qs := [p]) (j := 0) (n := 100) (shun := []) (facts := [])
      (stars := []) (by decide +kernel) .nil (.cons (.of_fin h2) .nil) (by simp) (by simp) (by simp)).to (by simp [Mark, render])

/-! ## What stands before a statement -/

theorem Halts.onfail {x : Pred} (h : Halts w a X t) : Halts w (.onfail a x) X t :=
  ⟨h.ne, h.gap, h.texts, fun p h1 h2 => .onfail (h.eats p h1 h2)⟩

theorem Many.front {P : List Piece → Prop} {xs ys : List String} (hB : ∀ X t, P X → Spaced (X ++ [endPiece t]) → Begins ys (render X ++ t))
    (hx : ∀ X, P X → ∀ x ∈ X, x.text ≠ []) (he : ∀ X t, P X → Begins (ys ++ xs) t → Takes w e X t) (ha : avoids xs e = true)
    (h : Many P X) (ht : Begins xs t) :
    Takes w (.star e) X t ∧ (Spaced (X ++ [endPiece t]) → Begins (ys ++ xs) (render X ++ t)) := by
  induction h with
  | nil => exact ⟨.starEnd (ht.refuses ha), fun _ => ht.mono (by simp +contextual)⟩
  | @cons X Y h hm ih =>
    refine ⟨.starMore (fun hs => he _ _ h (ih.2 hs)) ih.1 (hx _ h), fun hs => ?_⟩
    rw [List.append_assoc] at hs
    rw [render_append, List.append_assoc]
    exact (hB _ _ h (Spaced.cut hs ih.1.texts)).mono (by simp +contextual)

def optionWords : List String := ["EXPLAIN", "PROFILE"]

theorem Choice.texts (h : Choice X) : ∀ x ∈ X, x.text ≠ [] := by
  cases h with
  | explain h | profile h => exact texts_one (h.text (by decide +kernel))
theorem Choice.begins (h : Choice X) (hs : Spaced (X ++ [endPiece t])) : Begins optionWords (render X ++ t) := by
  cases h with
  | explain h | profile h => exact (h.begins (by decide +kernel) (by simp) hs).mono (by simp [optionWords])
theorem Choice.takes (h : Choice X) (ht : Solid t) : Takes w (.nt .r_statement_option none) X t := by
  have tx := h.texts
  have key : ∀ {k : Piece}, (∀ x ∈ [k], x.text ≠ []) → (Spaced ([k] ++ [endPiece t]) → Halts w (.alt (.nt .r_cypher_option (some 0))
      (.alt (.nt .r_profile_option (some 0)) (.nt .r_explain_option (some 0)))) [k] t) → Takes w (.nt .r_statement_option none) [k] t := by
    intro k hk h
    refine .given hk fun hs => .nt ?_
    have h0 : Takes w (.seq (.onfail (.alt (.nt .r_cypher_option (some 0)) (.alt (.nt .r_profile_option (some 0))
      (.nt .r_explain_option (some 0)))) (.err 0)) (.seq (.nt .r_ws none) (.act (.seqAdd [0])))) ([k] ++ []) t :=
      Halts.ws (Y := []) (fun _ => (h hs).onfail) (fun _ => ht) hk (.idle .act)
    exact h0
  cases h with
  | @explain k h =>
    refine key tx fun hs => ?_
    have hb := h.begins (by decide +kernel) (by simp) hs
    exact .altR (fun _ p hp => (hb.refuses (e := .nt .r_cypher_option none) (by decide +kernel) p hp).var)
      (.altR (fun _ p hp => (hb.refuses (e := .nt .r_profile_option none) (by decide +kernel) p hp).var)
        (.nt (.skip .blockStart (.seqIdle (.word h (by decide +kernel) (by decide +kernel)) .fin))))
  | @profile k h =>
    refine key tx fun hs => ?_
    have hb := h.begins (by decide +kernel) (by simp) hs
    exact .altR (fun _ p hp => (hb.refuses (e := .nt .r_cypher_option none) (by decide +kernel) p hp).var)
      (.altL (.nt (.skip .blockStart (.seqIdle (.word h (by decide +kernel) (by decide +kernel)) .fin))))

theorem Commit.texts (h : Commit X) : ∀ x ∈ X, x.text ≠ [] := by
  obtain ⟨h1, h2⟩ := h
  exact Halts.texts_append (h1.texts (by decide +kernel)) (h2.texts fun h => h.texts)
theorem Commit.begins (h : Commit X) (hs : Spaced (X ++ [endPiece t])) : Begins ["USING"] (render X ++ t) := by
  obtain ⟨h1, h2⟩ := h
  exact h1.begins (by decide +kernel) (h2.texts fun h => h.texts) hs
theorem Commit.takes {xs : List String} (h : Commit X) (ht : Begins xs t) (hf : ∀ x ∈ xs, x = "" ∨ firm x = true)
    (ha : avoids xs (.nt .r_integer_literal none) = true) : Takes w (.nt .r_query_hints none) X t := by
  obtain ⟨h1, h2⟩ := h
  rename_i K N
  have hs := ht.solid hf
  refine .nt (.onfail (.seqIdle (.nt (.skip .blockStart (.seq (fun _ => h1.takes (by simp) (by decide +kernel) (by decide +kernel) ?_)
    (.seqIdle (opt_takes h2 (fun h => h.takes hs) (ht.refuses ha)) .fin) (h1.texts (by decide +kernel))))) .act))
  cases h2 with
  | none => exact hs
  | some h => exact h.solid

end Verif.Stmts
