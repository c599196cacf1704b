import Verif.Cypher.StmtSchema
import Verif.Cypher.Script
import Verif.Cypher.Tame
/-!
# The parser reads every statement

Clauses, statements and texts, along the rules of parser.leg:28-58, 135-160 and 287-292.
-/
namespace Verif.Stmts
open Verif.Peg Verif.Exprs Verif.Cypher Verif.Cypher.Win
open Verif.Ops (words bytes upper)

variable {w : List UInt8} {t : List UInt8} {X Y : List Piece} {k x : Piece} {v v' : Option Nat} {a b e : E}

/-! ## Clauses -/

/-- The words with which clauses begin. -/
def heads : List String := ["MATCH", "OPTIONAL", "CREATE", "MERGE", "SET", "REMOVE", "FOREACH", "CALL", "LOAD", "RETURN",
  "WITH", "UNWIND", "DELETE", "DETACH", "UNION", "START"]

/-- A clause as one of the alternatives. -/
theorem clause_alt {x : String} (hk : Key x k) (hx : bytes x ≠ []) {r : Rule} (h : Takes w (.nt r none) (k :: X) t)
    (ha : ∃ pre : List Rule, (pre.all fun r => avoids [x] (.nt r none)) = true ∧
      ∃ post, (grammar .r_clause).body = .onfail (pre.foldr (fun r e => .alt (.nt r none) e) post) (.err 4) ∧
        (post = .nt r none ∨ ∃ e, post = .alt (.nt r none) e)) :
    Takes w (.nt .r_clause v) (k :: X) t := by
  obtain ⟨pre, h1, post, h2, h3⟩ := ha
  refine .nt ?_
  rw [h2]
  refine .onfail (.given h.texts fun hs => ?_)
  have hb := hk.begins hx (fun y hy => h.texts y (List.mem_cons_of_mem _ hy)) hs
  clear h2
  induction pre with
  | nil =>
    rcases h3 with rfl | ⟨e, rfl⟩
    · exact h
    · exact .altL h
  | cons r' pre ih =>
    simp only [List.all_cons, Bool.and_eq_true] at h1
    exact .altR (fun _ => hb.refuses h1.1) (ih h1.2)

theorem heads_nexts : heads ⊆ nexts := by decide +kernel

theorem clause_ne (h : Clause X) : X ≠ [] := by
  cases h with
  | load hK | loadHeaders hK => cases hK; simp
  | _ => simp

/-- What it means that a clause is read. -/
def Reads1 (w : List UInt8) (X : List Piece) : Prop := ∀ v t, Begins nexts t → Takes w (.nt .r_clause v) X t ∧
    (Spaced (X ++ [endPiece t]) → Begins heads (render X ++ t))
def clauseStep : E := .seq (.nt .r_clause (some 2)) (.act (.seqAdd [2]))
/-- Clauses up to a parenthesis. -/
def ReadsMany (w : List UInt8) (X : List Piece) (t : List UInt8) : Prop :=
  Takes w (.star clauseStep) X t ∧ Takes w (.seq clauseStep (.star clauseStep)) X t ∧
    (Spaced (X ++ [endPiece t]) → Begins heads (render X ++ t))

theorem foreach_takes {k1 k2 k3 k4 : Piece} {E C : List Piece} (hk : Key "FOREACH" k) (hk1 : Key "(" k1) (hx : Ident x) (hk2 : Key "IN" k2)
    (hE : Exprn E) (hk3 : Key "|" k3) (hC : ∀ t, Begins [")"] t → ReadsMany w C t) (hk4 : Key ")" k4) (ht : Begins nexts t) :
    Takes w (.nt .r_foreach_clause v) (k :: k1 :: x :: k2 :: (E ++ k3 :: (C ++ [k4]))) t := by
  have b4 : Begins [")"] (render [k4] ++ t) := sign_begins hk4 (by decide +kernel) (by decide +kernel)
  have hc := hC _ b4
  have sE : Solid (render (E ++ k3 :: (C ++ [k4])) ++ t) := by rw [render_append, List.append_assoc]; exact hE.solid
  have sC : Spaced (C ++ [k4] ++ [endPiece t]) → Solid (render (C ++ [k4]) ++ t) := fun hs => by
    rw [render_append, List.append_assoc]
    rw [List.append_assoc] at hs
    exact (hc.2.2 (Spaced.cut hs (texts_one (hk4.text (by decide +kernel))))).solid (by decide +kernel)
  have t4 : Takes w (.seq (.nt .r_RIGHT_PAREN none) (.seq (.pred .blockEnd) (.seq (.act (.build .self .foreachClause [some 0, some 1]))
    (.nt .r_ws none)))) [k4] t := Halts.close (.sign hk4 (by decide +kernel) (by decide +kernel)) (ht.solid (by decide +kernel))
  have tC : Takes w (.seq (.plus clauseStep) (.seq (.nt .r_RIGHT_PAREN none) (.seq (.pred .blockEnd) (.seq (.act (.build .self .foreachClause [some 0, some 1]))
    (.nt .r_ws none))))) (C ++ [k4]) t := .seq (fun _ => hc.2.1) t4 hc.1.texts
  have t3 : Takes w _ (k3 :: (C ++ [k4])) t := .given (texts_cons (hk3.text (by decide +kernel)) tC.texts)
    fun hs => .sign hk3 (r := .r_PIPE) (by decide +kernel) (by decide +kernel) (sC hs.tail) tC
  exact .nt (.skip .blockStart (.seq (X := [k]) (fun _ => hk.takes (by decide +kernel) (by decide +kernel) (hk1.solid (by decide +kernel)))
    (.sign hk1 (by decide +kernel) (by decide +kernel) hx.solid (.seq (X := [x]) (fun _ => hx.takes (hk2.solid (by decide +kernel)))
      (.word hk2 (by decide +kernel) (by decide +kernel) sE (.seq (fun _ => Exprn.takes (xs := ["|"]) hE
        (sign_begins hk3 (by decide +kernel) (by decide +kernel)) (by decide +kernel)) t3 hE.texts)) (texts_one hx.text)))
    (texts_one (hk.text (by decide +kernel)))))

theorem clauses_take (w : List UInt8) (n : Nat) : (∀ X, X.length ≤ n → Clause X → Reads1 w X) ∧
    (∀ C, C.length ≤ n → Clauses C → ∀ {t}, Begins [")"] t → ReadsMany w C t) := by
  induction n using Nat.strong_induction_on with
  | _ n ih =>
  have hP : ∀ X, X.length ≤ n → Clause X → Reads1 w X := by
    intro X hn h v t ht
    have hQ : ∀ C, C.length < n → Clauses C → ∀ {t}, Begins [")"] t → ReadsMany w C t := fun C hc => (ih C.length hc).2 C le_rfl
    have beg : ∀ {x : String} {k : Piece} {X : List Piece}, Key x k → bytes x ≠ [] → x ∈ heads →
        Takes w (.nt .r_clause v) (k :: X) t → Takes w (.nt .r_clause v) (k :: X) t ∧
      (Spaced (k :: X ++ [endPiece t]) → Begins heads (render (k :: X) ++ t)) := by
      intro x k X hk hx hn h
      exact ⟨h, fun hs => (hk.begins hx (fun y hy => h.texts y (List.mem_cons_of_mem _ hy)) hs).mono (by simpa using hn)⟩
    cases h with
    | match_ hk h hH hW =>
      refine beg hk (by decide +kernel) (by decide +kernel) (clause_alt hk (by decide +kernel) (match_takes hk h hH hW ht)
        ⟨[], by decide +kernel, _, rfl, .inr ⟨_, rfl⟩⟩)
    | optional hk hk' h hH hW =>
      refine beg hk (by decide +kernel) (by decide +kernel) (clause_alt hk (by decide +kernel) (optional_takes hk hk' h hH hW ht)
        ⟨[], by decide +kernel, _, rfl, .inr ⟨_, rfl⟩⟩)
    | create hk h =>
      refine beg hk (by decide +kernel) (by decide +kernel) (clause_alt hk (by decide +kernel) (create_takes hk h ht)
        ⟨[.r_match_clause, .r_return_clause, .r_unwind_clause, .r_merge_clause], by decide +kernel, _, rfl, .inr ⟨_, rfl⟩⟩)
    | createUnique hk hk' h =>
      refine beg hk (by decide +kernel) (by decide +kernel) (clause_alt hk (by decide +kernel) (createUnique_takes hk hk' h ht)
        ⟨[.r_match_clause, .r_return_clause, .r_unwind_clause, .r_merge_clause], by decide +kernel, _, rfl, .inr ⟨_, rfl⟩⟩)
    | ret hk h =>
      refine beg hk (by decide +kernel) (by decide +kernel) (clause_alt hk (by decide +kernel) (ret_takes hk h ht)
        ⟨[.r_match_clause], by decide +kernel, _, rfl, .inr ⟨_, rfl⟩⟩)
    | unwind hk h hk' hx =>
      refine beg hk (by decide +kernel) (by decide +kernel) (clause_alt hk (by decide +kernel) (unwind_takes hk h hk' hx ht)
        ⟨[.r_match_clause, .r_return_clause], by decide +kernel, _, rfl, .inr ⟨_, rfl⟩⟩)
    | delete hk h =>
      refine beg hk (by decide +kernel) (by decide +kernel) (clause_alt hk (by decide +kernel) (delete_takes hk h ht)
        ⟨[.r_match_clause, .r_return_clause, .r_unwind_clause, .r_merge_clause, .r_create_clause, .r_set_clause], by decide +kernel, _, rfl,
          .inr ⟨_, rfl⟩⟩)
    | detach hk hk' h =>
      refine beg hk (by decide +kernel) (by decide +kernel) (clause_alt hk (by decide +kernel) (detach_takes hk hk' h ht)
        ⟨[.r_match_clause, .r_return_clause, .r_unwind_clause, .r_merge_clause, .r_create_clause, .r_set_clause], by decide +kernel, _, rfl,
          .inr ⟨_, rfl⟩⟩)
    | with_ hk h hW =>
      refine beg hk (by decide +kernel) (by decide +kernel) (clause_alt hk (by decide +kernel) (with_takes hk h hW ht)
        ⟨[.r_match_clause, .r_return_clause, .r_unwind_clause, .r_merge_clause, .r_create_clause, .r_set_clause, .r_delete_clause,
          .r_remove_clause], by decide +kernel, _, rfl, .inr ⟨_, rfl⟩⟩)
    | union hk =>
      refine beg hk (by decide +kernel) (by decide +kernel) (clause_alt hk (by decide +kernel) (union_takes hk ht)
        ⟨[.r_match_clause, .r_return_clause, .r_unwind_clause, .r_merge_clause, .r_create_clause, .r_set_clause, .r_delete_clause,
          .r_remove_clause, .r_with_clause, .r_foreach_clause, .r_call_clause, .r_loadcsv_clause, .r_start_clause], by decide +kernel, _, rfl, .inl rfl⟩)
    | unionAll hk hk' =>
      refine beg hk (by decide +kernel) (by decide +kernel) (clause_alt hk (by decide +kernel) (unionAll_takes hk hk' ht)
        ⟨[.r_match_clause, .r_return_clause, .r_unwind_clause, .r_merge_clause, .r_create_clause, .r_set_clause, .r_delete_clause,
          .r_remove_clause, .r_with_clause, .r_foreach_clause, .r_call_clause, .r_loadcsv_clause, .r_start_clause], by decide +kernel, _, rfl, .inl rfl⟩)
    | merge hk h hA =>
      refine beg hk (by decide +kernel) (by decide +kernel) (clause_alt hk (by decide +kernel) (merge_takes hk h hA ht)
        ⟨[.r_match_clause, .r_return_clause, .r_unwind_clause],
          by decide +kernel, _, rfl, .inr ⟨_, rfl⟩⟩)
    | set hk h =>
      refine beg hk (by decide +kernel) (by decide +kernel) (clause_alt hk (by decide +kernel) (set_takes hk h ht)
        ⟨[.r_match_clause, .r_return_clause, .r_unwind_clause, .r_merge_clause, .r_create_clause],
          by decide +kernel, _, rfl, .inr ⟨_, rfl⟩⟩)
    | remove hk h =>
      refine beg hk (by decide +kernel) (by decide +kernel) (clause_alt hk (by decide +kernel) (remove_takes hk h ht)
        ⟨[.r_match_clause, .r_return_clause, .r_unwind_clause, .r_merge_clause, .r_create_clause, .r_set_clause, .r_delete_clause],
          by decide +kernel, _, rfl, .inr ⟨_, rfl⟩⟩)
    | foreach hk hk1 hx hk2 hE hk3 hC hk4 =>
      refine beg hk (by decide +kernel) (by decide +kernel) (clause_alt hk (by decide +kernel) (foreach_takes hk hk1 hx hk2 hE hk3 (fun _ hb => hQ _ (by simp only [List.length_cons, List.length_append] at hn; omega) hC hb) hk4 ht)
        ⟨[.r_match_clause, .r_return_clause, .r_unwind_clause, .r_merge_clause, .r_create_clause, .r_set_clause, .r_delete_clause, .r_remove_clause, .r_with_clause],
          by decide +kernel, _, rfl, .inr ⟨_, rfl⟩⟩)
    | call hk h hA hY hW =>
      refine beg hk (by decide +kernel) (by decide +kernel) (clause_alt hk (by decide +kernel) (call_takes hk h hA hY hW ht)
        ⟨[.r_match_clause, .r_return_clause, .r_unwind_clause, .r_merge_clause, .r_create_clause, .r_set_clause, .r_delete_clause, .r_remove_clause, .r_with_clause, .r_foreach_clause],
          by decide +kernel, _, rfl, .inr ⟨_, rfl⟩⟩)
    | load hK hk' hE hk'' hx hT =>
      have hK' := hK
      cases hK with
      | cons hk _ =>
        refine beg hk (by decide +kernel) (by decide +kernel) (clause_alt hk (by decide +kernel) (load_takes hK' hk' hE hk'' hx hT ht)
          ⟨[.r_match_clause, .r_return_clause, .r_unwind_clause, .r_merge_clause, .r_create_clause, .r_set_clause, .r_delete_clause, .r_remove_clause, .r_with_clause, .r_foreach_clause, .r_call_clause],
            by decide +kernel, _, rfl, .inr ⟨_, rfl⟩⟩)
    | loadHeaders hK hH hk' hE hk'' hx hT =>
      have hK' := hK
      cases hK with
      | cons hk _ =>
        refine beg hk (by decide +kernel) (by decide +kernel) (clause_alt hk (by decide +kernel) (loadHeaders_takes hK' hH hk' hE hk'' hx hT ht)
          ⟨[.r_match_clause, .r_return_clause, .r_unwind_clause, .r_merge_clause, .r_create_clause, .r_set_clause, .r_delete_clause, .r_remove_clause, .r_with_clause, .r_foreach_clause, .r_call_clause],
            by decide +kernel, _, rfl, .inr ⟨_, rfl⟩⟩)
    | start hk h hW =>
      refine beg hk (by decide +kernel) (by decide +kernel) (clause_alt hk (by decide +kernel) (start_takes hk h hW ht)
        ⟨[.r_match_clause, .r_return_clause, .r_unwind_clause, .r_merge_clause, .r_create_clause, .r_set_clause, .r_delete_clause, .r_remove_clause, .r_with_clause, .r_foreach_clause, .r_call_clause, .r_loadcsv_clause],
          by decide +kernel, _, rfl, .inr ⟨_, rfl⟩⟩)
  refine ⟨hP, fun C hn hC t ht => ?_⟩
  have hend : Refuses w clauseStep t := ht.refuses (by decide +kernel)
  have step : ∀ {X t}, Reads1 w X → Begins nexts t → Takes w clauseStep X t := fun h hb => .seqIdle (h _ _ hb).1 .act
  cases hC with
  | one h =>
    have hX := hP _ hn h
    have hb : Begins nexts t := ht.mono (by decide +kernel)
    refine ⟨by simpa using Takes.starMore (Y := []) (fun _ => step hX hb) (.starEnd hend) (hX none _ hb).1.texts,
      .seqNil (step hX hb) (.starEnd hend), (hX none _ hb).2⟩
  | @more X Y h hY =>
    have hl : X.length ≠ 0 := by
      intro h0
      have := List.length_eq_zero_iff.1 h0
      subst this
      exact clause_ne h rfl
    simp only [List.length_append] at hn
    have hX := hP X (by omega) h
    obtain ⟨y1, y2, y3⟩ := (ih Y.length (by omega)).2 Y le_rfl hY ht
    have hb : Spaced (Y ++ [endPiece t]) → Begins nexts (render Y ++ t) := fun hs => (y3 hs).mono heads_nexts
    have tX : ∀ x ∈ X, x.text ≠ [] := (hX none _ ((semicolon_begins (t := [])).mono (by decide +kernel))).1.texts
    refine ⟨.starMore (fun hs => step hX (hb hs)) y1 tX, .seq (fun hs => step hX (hb hs)) y1 tX, fun hs => ?_⟩
    rw [List.append_assoc] at hs
    rw [render_append, List.append_assoc]
    exact (hX none _ (hb hs.right)).2 (Spaced.cut hs y1.texts)

theorem Clause.takes (h : Clause X) (ht : Begins nexts t) : Takes w (.nt .r_clause v) X t ∧
    (Spaced (X ++ [endPiece t]) → Begins heads (render X ++ t)) :=
  (clauses_take w X.length).1 X le_rfl h _ _ ht

/-! ## Statements -/

theorem Clause.texts (h : Clause X) : ∀ x ∈ X, x.text ≠ [] :=
  (h.takes (w := []) (v := none) ((semicolon_begins (t := [])).mono (by decide +kernel))).1.texts

theorem Rest.takes {en : Ending} (h : Rest en X) (ht : en = .endOfText → t = []) :
    Takes w (.nt .r__clauses v) X t ∧ (Spaced (X ++ [endPiece t]) → Begins nexts (render X ++ t)) := by
  induction h generalizing v with
  | done h =>
    refine ⟨.nt ?_, fun _ => (h.begins ht).mono (by decide +kernel)⟩
    have h0 := h.takes (w := w) ht
    refine ⟨h0.texts, fun p h1 h2 => ?_⟩
    cases h with
    | semicolon =>
      have h3 : Here w p ([59] ++ t) := h1
      refine .altL ((Win.eats (A := wordCells (bytes ";")) (B := []) (qs := []) (j := 0) (n := 100) (shun := []) (facts := []) (stars := [])
        (by decide +kernel) (Span.word (by decide +kernel) h3) .nil (by simp) (by simp) (by simp)).to ?_)
      simp [Mark, render]
    | endOfText =>
      cases ht rfl
      have h3 : Here w p [] := h1
      exact .altR (Begins.refuses (xs := [""]) (.inl ⟨by simp, rfl⟩) (by decide +kernel) p h3)
        (.altL ((Win.eats (A := []) (B := [.fin]) (qs := [p]) (j := 0) (n := 100) (shun := []) (facts := [])
          (stars := []) (by decide +kernel) .nil (.cons (.of_fin h3) .nil) (by simp) (by simp) (by simp)).to (by simp [Mark, render])))
  | @more X Y hX hY ih =>
    have hbeg : Spaced (X ++ Y ++ [endPiece t]) → Begins heads (render (X ++ Y) ++ t) := by
      intro hs
      rw [List.append_assoc] at hs
      rw [render_append, List.append_assoc]
      exact (hX.takes (w := w) (v := none) ((ih (v := none)).2 hs.right)).2 (Spaced.cut hs (ih (v := none)).1.texts)
    refine ⟨?_, fun hs => (hbeg hs).mono heads_nexts⟩
    exact .nt (.altR (fun hs => (hbeg hs).refuses (by decide +kernel)) (.altR (fun hs => (hbeg hs).refuses (by decide +kernel))
      (.altL (.seq (fun hs => (hX.takes ((ih (v := none)).2 hs)).1) (.skip .act (.skip .cut ih.1)) hX.texts))))

/-- The words with which orders begin. -/
def orders : List String := "USING" :: "DROP" :: heads

theorem Schema.begins (h : Schema X) (hs : Spaced (X ++ [endPiece t])) : Begins ["CREATE", "DROP"] (render X ++ t) := by
  have tx := h.texts
  have key : ∀ {x : String} {k : Piece} {Z : List Piece}, x ∈ ["CREATE", "DROP"] → Key x k → (∀ y ∈ k :: Z, y.text ≠ []) →
      Spaced (k :: Z ++ [endPiece t]) → Begins ["CREATE", "DROP"] (render (k :: Z) ++ t) := by
    intro x k Z hx hk ht hs
    refine (hk.begins ?_ (fun y hy => ht y (List.mem_cons_of_mem _ hy)) hs).mono (by simpa using hx)
    simp only [List.mem_cons, List.not_mem_nil, or_false] at hx
    rcases hx with rfl | rfl <;> decide +kernel
  cases h with
  | index hx hK | node hx hK | rel hx hK =>
    cases hK with
    | cons hk _ => exact key hx hk tx hs

theorem Order.takes {en : Ending} (h : Order en X) (ht : en = .endOfText → t = []) :
    Takes w (.alt (.nt .r_query v) (.nt .r_schema_command v')) X t ∧ (Spaced (X ++ [endPiece t]) → Begins orders (render X ++ t)) := by
  cases h with
  | @query H X Y hH hX hY =>
    have hY : ∀ {v}, _ := fun {v} => Rest.takes (w := w) (v := v) hY ht
    have hbeg : Spaced (X ++ Y ++ [endPiece t]) → Begins heads (render (X ++ Y) ++ t) := by
      intro hs
      rw [List.append_assoc] at hs
      rw [render_append, List.append_assoc]
      exact (hX.takes (w := w) (v := none) ((hY (v := none)).2 hs.right)).2 (Spaced.cut hs (hY (v := none)).1.texts)
    have hfr := fun hs => Many.front (w := w) (e := .nt .r_query_hints none) (ys := ["USING"]) (fun _ _ h => h.begins) (fun _ => Commit.texts)
      (fun _ _ h hb => h.takes hb (by decide +kernel) (by decide +kernel)) (by decide +kernel) hH (hbeg hs)
    have tX := Halts.texts_append hX.texts (hY (v := none)).1.texts
    have tH := hH.texts fun _ => Commit.texts
    refine ⟨.altL (.nt (.skip .blockStart (.seq (fun hs => (hfr hs).1) (.seqIdle (.nt (.seq (fun hs => (hX.takes ((hY (v := none)).2 hs)).1)
      (.skip .act hY.1) hX.texts)) .fin) tH))), fun hs => ?_⟩
    rw [List.append_assoc] at hs
    rw [render_append, List.append_assoc]
    exact ((hfr hs.right).2 (Spaced.cut hs tX)).mono (by decide +kernel)
  | @schema X Y hX hY =>
    have hS := hX.takes (w := w) (hY.begins ht)
    refine ⟨.altR (fun hs p hp => ?_) (.nt (.seq (fun _ => hS.1) (hY.takes ht) hX.texts)), fun hs => ?_⟩
    · rw [List.append_assoc] at hs
      rw [render_append, List.append_assoc] at hp
      exact (hS.2 (Spaced.cut hs hY.texts) p hp).var
    · rw [List.append_assoc] at hs
      rw [render_append, List.append_assoc]
      exact (hX.begins (Spaced.cut hs hY.texts)).mono (by decide +kernel)

/-- The words with which statements begin. -/
def starts : List String := optionWords ++ orders

theorem Stmt.takes {en : Ending} (h : Stmt en X) (ht : en = .endOfText → t = []) :
    Takes w (.nt .r_cypher_statement v) X t ∧ (Spaced (X ++ [endPiece t]) → Begins starts (render X ++ t)) := by
  cases h with
  | @mk O X hO hX =>
  have hX : ∀ {v v'}, _ := fun {v v'} => Order.takes (w := w) (v := v) (v' := v') hX ht
  have hfr := fun hs => Many.front (w := w) (e := .nt .r_statement_option none) (ys := optionWords) (fun _ _ h => h.begins) (fun _ => Choice.texts)
      (fun _ _ h hb => h.takes (hb.solid (by decide +kernel))) (by decide +kernel) hO ((hX (v := none) (v' := none)).2 hs)
  have tX := (hX (v := none) (v' := none)).1.texts
  refine ⟨.nt (.skip .blockStart (.seq (fun hs => (hfr hs).1) (.given tX fun hs => .nilSeq
    (ws_takes (((hX (v := none) (v' := none)).2 hs).solid (by decide +kernel))) (.seqIdle hX.1 .fin)) (hO.texts fun _ => Choice.texts))), fun hs => ?_⟩
  rw [List.append_assoc] at hs
  rw [render_append, List.append_assoc]
  exact (hfr hs.right).2 (Spaced.cut hs tX)

/-! ## Texts -/

/-- A statement that is read ends with an action that builds it. -/
theorem statement_built {p p' : Nat} {q q' : QState} {ts : List (Peg.Thunk Act)}
    (h : Hush w (.nt .r_cypher_statement (some 0)) p q (.ok p' ts q')) :
    ∃ n p3 args rest, ts = .set 0 :: .pop n :: .act (.build .self .statement args) p3 :: rest := by
  cases h with
  | nt_ok h =>
    cases h with
    | seq_ok _ h => cases h with
    | seq_ok _ h => cases h with
    | seq_ok _ h => cases h with
    | seq_ok _ h => cases h with
    | seq_ok _ h => cases h with
    | act => exact ⟨1, _, _, _, rfl⟩

theorem stmt_gives {b : List UInt8} {en : Ending} (hb : Gap b) (h : Stmt en X) (hs : Spaced (X ++ [endPiece t]))
    (ht : en = .endOfText → t = []) (only : Bool) :
    Gives only (b ++ (render X ++ t)) (b ++ render X).length true := by
  have hh := Here.start (b ++ (render X ++ t))
  have hbeg := (h.takes (w := []) (v := none) ht).2 hs
  have h1 := ws_eats (v := none) hb (hbeg.solid (by decide +kernel)) hh
  have h2 := hh.right
  have h3 := (h.takes (w := b ++ (render X ++ t)) (v := some 0) ht).1.eats _ h2 hs
  have e0 : (b ++ render X).length = 0 + b.length + (render X).length := by simp
  rw [e0]
  have r1 := hbeg.refuses (e := .seq (.nt .r_EOF none) (.act (.result none))) (by decide +kernel) _ h2
  have r2 := hbeg.refuses (e := .seq (.nt .r_SEMICOLON none) (.act (.result none))) (by decide +kernel) _ h2
  have r3 := hbeg.refuses (e := .seq (.nt .r_client_command (some 0)) (.act (.result (some 0)))) (by decide +kernel) _ h2
  intro op ps
  obtain ⟨op1, ts1, g1⟩ := h1 op ps
  obtain ⟨op2, g2⟩ := r1 op1 ps
  obtain ⟨op3, g3⟩ := r2 op2 ps
  cases only with
  | false =>
    obtain ⟨op4, g4⟩ := r3 op3 ps
    obtain ⟨op5, ts5, g5⟩ := h3 op4 ps
    obtain ⟨n, p3, args, rest, rfl⟩ := statement_built g5
    exact ⟨_, _, .nt_ok (.seq_ok g1 (.nt_ok (.alt_ok (.seq_ok (.nt_ok (.alt_no g2 (.alt_no g3 (.alt_no g4 (.seq_ok g5 .act))))) .act)))),
      fun _ => ⟨_, _, _, _, _, _, _, rfl⟩, by simp⟩
  | true =>
    obtain ⟨op5, ts5, g5⟩ := h3 op3 ps
    obtain ⟨n, p3, args, rest, rfl⟩ := statement_built g5
    exact ⟨_, _, .nt_ok (.seq_ok g1 (.nt_ok (.alt_ok (.seq_ok (.nt_ok (.alt_no g2 (.alt_no g3 (.seq_ok g5 .act)))) .act)))),
      fun _ => ⟨_, _, _, _, _, _, _, rfl⟩, by simp⟩

/-- The rules for white space, the end of the input and the semicolon. -/
def lexT : Rule → Bool
  | .r_ws | .r_WS | .r_HWS | .r_EOL | .r__line_start_ | .r_comment | .r_line_comment | .r_block_comment | .r_EOF
  | .r_SEMICOLON | .r__empty_ => true
  | _ => false

theorem lexT_ok : ∀ r, lexT r = true → mute lexT (grammar r).body = true := by
  intro r; cases r <;> first | (intro h; cases h; done) | (intro _; decide +kernel)

theorem lex_gives {b : List UInt8} (hb : Gap b) (ht : t = [] ∨ ∃ r, t = 59 :: r) (only : Bool) :
    Gives only (b ++ t) (b.length + (t.take 1).length) false := by
  have hh := Here.start (b ++ t)
  have hsol : Solid t := by
    rcases ht with rfl | ⟨r, rfl⟩
    · exact .inl rfl
    · exact .inr ⟨_, _, rfl, by simp⟩
  have h1 := ws_eats (v := none) hb hsol hh
  have h2 := hh.right
  rw [Nat.zero_add] at h1 h2
  intro op ps
  obtain ⟨op1, ts1, g1⟩ := h1 op ps
  have s1 := Sk.mute lexT_ok g1.sk rfl _ _ _ rfl
  have done : ∀ {us : List (Peg.Thunk Act)} {n p : Nat}, Still us → Still ([Peg.Thunk.act Act.finished p] ++ (Cypher.leaveT n ++ (us ++ Cypher.enterT n)) ++ ts1) := by
    intro us n p hu i q hm
    simp only [List.mem_append, List.mem_singleton] at hm
    rcases hm with (hm | hm | hm | hm) | hm
    · cases hm
    · unfold Cypher.leaveT at hm; split at hm <;> simp at hm
    · exact hu i q hm
    · unfold Cypher.enterT at hm; split at hm <;> simp at hm
    · exact s1 i q hm
  rcases ht with rfl | ⟨r, rfl⟩
  · have h3 : Eats (b ++ []) (.seq (.nt .r_EOF none) (.act (.result none))) b.length (b.length + 0) :=
      Win.eats (A := []) (B := [.fin]) (qs := [b.length]) (j := 0) (n := 100) (shun := []) (facts := [])
        (stars := []) (by decide +kernel) .nil (.cons (.of_fin h2) .nil) (by simp) (by simp) (by simp)
    obtain ⟨op2, ts2, g2⟩ := h3 op1 ps
    have s2 := Sk.mute lexT_ok g2.sk rfl _ _ _ rfl
    cases only with
    | false => exact ⟨_, _, .nt_ok (.seq_ok g1 (.nt_ok (.alt_ok (.seq_ok (.nt_ok (.alt_ok g2)) .act)))), by simp, fun _ => by
      simpa [setT, Cypher.leaveT, Cypher.enterT, grammar, startRule] using done (n := 1) (p := _) s2⟩
    | true => exact ⟨_, _, .nt_ok (.seq_ok g1 (.nt_ok (.alt_ok (.seq_ok (.nt_ok (.alt_ok g2)) .act)))), by simp, fun _ => by
      simpa [setT, Cypher.leaveT, Cypher.enterT, grammar, startRule] using done (n := 1) (p := _) s2⟩
  · have h4 : Here (b ++ 59 :: r) b.length ([59] ++ r) := h2
    have h3 : Eats (b ++ 59 :: r) (.seq (.nt .r_SEMICOLON none) (.act (.result none))) b.length (b.length + 1) :=
      (Win.eats (A := wordCells (bytes ";")) (B := []) (qs := []) (j := 0) (n := 100) (shun := []) (facts := []) (stars := [])
        (by decide +kernel) (Span.word (by decide +kernel) h4) .nil (by simp) (by simp) (by simp)).to (by simp [Mark])
    have h5 : Shuns (b ++ 59 :: r) (.seq (.nt .r_EOF none) (.act (.result none))) b.length :=
      (Begins.refuses (xs := [";"]) (.inr ⟨";", by simp, by decide +kernel, [59], r, rfl, by decide +kernel,
        fun h => absurd h (by decide +kernel)⟩) (by decide +kernel)) _ h2
    obtain ⟨op2, g2⟩ := h5 op1 ps
    obtain ⟨op3, ts3, g3⟩ := h3 op2 ps
    have s3 := Sk.mute lexT_ok g3.sk rfl _ _ _ rfl
    cases only with
    | false => exact ⟨_, _, .nt_ok (.seq_ok g1 (.nt_ok (.alt_ok (.seq_ok (.nt_ok (.alt_no g2 (.alt_ok g3))) .act)))), by simp, fun _ => by
      simpa [setT, Cypher.leaveT, Cypher.enterT, grammar, startRule] using done (n := 1) (p := _) s3⟩
    | true => exact ⟨_, _, .nt_ok (.seq_ok g1 (.nt_ok (.alt_ok (.seq_ok (.nt_ok (.alt_no g2 (.alt_ok g3))) .act)))), by simp, fun _ => by
      simpa [setT, Cypher.leaveT, Cypher.enterT, grammar, startRule] using done (n := 1) (p := _) s3⟩

theorem End.last {en : Ending} (h : End en X) (he : en = .semicolon) : X.getLast? = some ⟨.operand, [59], []⟩ := by
  cases h with
  | semicolon => rfl
  | endOfText => cases he
theorem Rest.last {en : Ending} (h : Rest en X) (he : en = .semicolon) : X.getLast? = some ⟨.operand, [59], []⟩ := by
  induction h with
  | done h => exact h.last he
  | more _ _ ih => simp [List.getLast?_append, ih]
theorem Stmt.last {en : Ending} (h : Stmt en X) (he : en = .semicolon) : X.getLast? = some ⟨.operand, [59], []⟩ := by
  obtain ⟨-, h⟩ := h
  cases h with
  | query _ _ h => simp [List.getLast?_append, h.last he]
  | schema _ h => simp [List.getLast?_append, h.last he]

theorem semi_spaced {y : Piece} : ∀ {X : List Piece}, X.getLast? = some ⟨.operand, [59], []⟩ → Spaced X →
    Spaced (X ++ [y])
  | [], _, _ => trivial
  | [x], h, _ => by
    simp only [List.getLast?_singleton, Option.some.injEq] at h
    subst h
    exact ⟨fun _ => ⟨by rintro ⟨h, -⟩; exact absurd h (by decide +kernel), by rintro ⟨h, -⟩; exact absurd h (by decide +kernel)⟩, trivial⟩
  | _ :: y :: E, h, hs => ⟨hs.1, semi_spaced (X := y :: E) (by simpa using h) hs.2⟩

theorem starts_letter {u v : List UInt8} (h : Begins starts (u ++ v)) (hu : u ≠ []) : u.head?.any letter = true := by
  rcases h with h | ⟨x, hx, hx', s, r, h, hs, -⟩
  · exact absurd h.1 (by decide +kernel)
  · have h1 := (by decide +kernel : ∀ x ∈ starts, (bytes x).head?.any letter = true) x hx
    cases u with
    | nil => exact absurd rfl hu
    | cons c u =>
      cases s with
      | nil => exact absurd hs.symm hx'
      | cons d s =>
        obtain rfl : c = d := (List.cons.inj h).1
        rw [← hs] at h1
        exact imp_byte (P := fun c => letter (upper c)) (Q := letter) (by decide +kernel) (by simpa using h1)

theorem Text.script {ks : List Bool} {u : List UInt8} (h : Text ks u) (only : Bool) : Script Ends only ks u := by
  induction h with
  | nil => exact .nil
  | @blank b hb hn =>
    have hq : Ends false b [] := ⟨⟨b, [], by simp, hb, nofun, fun _ => .inl rfl⟩, fun hc => .inr ⟨rfl, live_end (tame_gap hb) hc⟩⟩
    simpa using Script.cons (w := []) hn hq (by simpa using lex_gives (t := []) hb (.inl rfl) only) .nil
  | @empty b ks u hb _ ih =>
    rw [show b ++ 59 :: u = (b ++ [59]) ++ u by simp]
    have hq : Ends false (b ++ [59]) u :=
      ⟨⟨b, [59], rfl, hb, nofun, fun _ => .inr rfl⟩, fun hc => .inl ⟨b, rfl, live_semi (tame_gap hb) hc⟩⟩
    refine .cons (by simp) hq ?_ ih
    simpa using lex_gives (t := 59 :: u) hb (.inr ⟨_, rfl⟩) only
  | @stmt b X ks u hb hX hs _ ih =>
    have hl : X.getLast? = some ⟨.operand, [59], []⟩ := hX.last rfl
    have g := stmt_gives hb hX (semi_spaced (y := endPiece u) hl hs) (by simp) only
    have hbeg := (hX.takes (w := []) (v := none) (t := u) (by simp)).2 (semi_spaced (y := endPiece u) hl hs)
    have hr : render X ≠ [] := by
      obtain ⟨Z, rfl⟩ := List.getLast?_eq_some_iff.1 hl
      simp [render]
    have hq : Ends true (b ++ render X) u := by
      refine ⟨⟨b, _, rfl, hb, fun _ => starts_letter hbeg hr, nofun⟩, fun hc => .inl ?_⟩
      obtain ⟨Z, hZ, rfl⟩ := hX.calm
      have e : b ++ render (Z ++ ending .semicolon) = b ++ render Z ++ [59] := by simp [render, ending]
      rw [e] at hc ⊢
      exact ⟨_, rfl, live_semi ((tame_gap hb).append hZ.tame) hc⟩
    rw [← List.append_assoc] at g ⊢
    exact .cons (by simp [hr]) hq g ih
  | @last b X hb hX hs =>
    have g := stmt_gives (t := []) hb hX (hs.end_ (by simp) (by simp)) (fun _ => rfl) only
    have hbeg := (hX.takes (w := []) (v := none) (t := []) (fun _ => rfl)).2 (hs.end_ (by simp) (by simp))
    have hr : render X ≠ [] := by
      rcases hbeg with h | ⟨x, -, hx, s, r, h, hs, -⟩
      · exact absurd h.1 (by decide +kernel)
      · intro this
        rw [this] at h
        cases s with
        | nil => exact hx hs.symm
        | cons => simp at h
    have hq : Ends true (b ++ render X) [] := by
      refine ⟨⟨b, _, rfl, hb, fun _ => starts_letter hbeg hr, nofun⟩, fun hc => .inr ⟨rfl, ?_⟩⟩
      obtain ⟨Z, hZ, rfl⟩ := hX.calm
      have e : render (Z ++ ending .endOfText) = render Z := by simp [ending]
      rw [e] at hc ⊢
      exact live_end ((tame_gap hb).append hZ.tame) hc
    rw [← List.append_assoc] at g
    simpa using Script.cons (by simp [hr]) hq g .nil

end Verif.Stmts
