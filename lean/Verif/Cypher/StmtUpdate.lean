import Verif.Cypher.StmtMatch
/-!
# The parser reads what is set, removed, called and loaded

Along the rules of parser.leg:170-178, 227-268, 278-286, 334-356, 489-492 and 694-699.
-/
namespace Verif.Stmts
open Verif.Peg Verif.Exprs Verif.Cypher Verif.Cypher.Win
open Verif.Ops (words bytes upper)

variable {w : List UInt8} {t : List UInt8} {X Y : List Piece} {k x : Piece} {v v' : Option Nat} {a b e : E}

/-! ## Several words -/

def allWordy (xs : List String) : Bool := xs.all fun x => wordy x && !(bytes x).isEmpty

theorem Keys.texts {xs : List String} (h : Keys xs X) (hw : allWordy xs = true) : ∀ x ∈ X, x.text ≠ [] := by
  induction h with
  | nil => simp
  | cons hk _ ih =>
    simp only [allWordy, List.all_cons, Bool.and_eq_true, Bool.not_eq_true', List.isEmpty_eq_false_iff] at hw
    exact texts_cons (hk.text hw.1.2) (ih hw.2)

theorem wordy_head {x : String} {s : List UInt8} (h : s.map upper = bytes x) (hw : wordy x = true) (hn : bytes x ≠ []) :
    ∃ c r, s = c :: r ∧ letter (upper c) = true ∧ sym c = true := by
  cases s with
  | nil => exact absurd h.symm hn
  | cons c s =>
    unfold wordy at hw
    rw [← h] at hw
    simp only [List.map_cons, List.all_cons, Bool.and_eq_true] at hw
    exact ⟨c, s, rfl, hw.1, imp_byte (P := fun c => letter (upper c)) (Q := sym) (by decide +kernel) hw.1⟩

/-- The words as they are written. -/
theorem Keys.spelled {xs : List String} (h : Keys xs X) (hn : xs ≠ []) (hw : allWordy xs = true) (hs : Spaced (X ++ [endPiece t])) :
    ∃ s b, render X = s ++ b ∧ Spelled (xs.map bytes) s ∧ Gap b ∧ (b = [] → t.head?.any sym = false) ∧
      ∃ c r, s = c :: r ∧ letter (upper c) = true ∧ sym c = true := by
  induction h with
  | nil => exact absurd rfl hn
  | @cons x xs k K hk hK ih =>
    simp only [allWordy, List.all_cons, Bool.and_eq_true, Bool.not_eq_true', List.isEmpty_eq_false_iff] at hw
    have he := hk.ends hw.1.1 hw.1.2
    obtain ⟨h1, h2⟩ := hk
    rename_i s b
    have hh := wordy_head h1 hw.1.1 hw.1.2
    cases hK with
    | nil =>
      exact ⟨s, b, by simp [render], .last h1, h2, ends_apart (x := ⟨.operand, s, b⟩) he hs, hh⟩
    | @cons x' xs' k' K' hk' hK' =>
      obtain ⟨s', b', e, g1, g2, g3, c, r, g4, g5, g6⟩ := ih (by simp) hw.2 hs.tail
      have hb : b ≠ [] := by
        intro hb
        have h0 : (k'.text).head?.any sym = true := by
          simp only [List.all_cons, Bool.and_eq_true, Bool.not_eq_true', List.isEmpty_eq_false_iff] at hw
          obtain ⟨h3, -⟩ := hk'
          obtain ⟨c, r, rfl, -, h⟩ := wordy_head h3 hw.2.1.1 hw.2.1.2
          simpa using h
        exact (hs.1 hb).1 ⟨he, h0⟩
      obtain ⟨c0, r0, e0, e1⟩ := hh
      refine ⟨s ++ (b ++ s'), b', ?_, .more h1 h2 hb g1, g2, g3, c0, r0 ++ (b ++ s'), by simp [e0], e1⟩
      rw [show render (⟨.operand, s, b⟩ :: k' :: K') = s ++ (b ++ render (k' :: K')) by simp [render], e]
      simp

theorem allWordy_tail {xs : List String} (hw : allWordy xs = true) : (xs.map bytes).tail.all (fun x => x.head?.any letter) = true := by
  rw [List.all_eq_true]
  intro y hy
  obtain ⟨x, hx, rfl⟩ := List.mem_map.1 (List.mem_of_mem_tail hy)
  unfold allWordy at hw
  rw [List.all_eq_true] at hw
  have := hw x hx
  simp only [wordy, Bool.and_eq_true, Bool.not_eq_true', List.isEmpty_eq_false_iff] at this
  cases h : bytes x with
  | nil => exact absurd h this.2
  | cons c r => rw [h] at this; simpa using (List.all_eq_true.1 this.1 c (by simp))

theorem Keys.takes {xs : List String} (h : Keys xs X) (hn : xs ≠ []) (hw : allWordy xs = true) (hr : reads xs e = true) (ht : Solid t) :
    Takes w e X t := by
  refine ⟨h.texts hw, fun p h1 h2 => ?_⟩
  obtain ⟨s, b, e0, g1, g2, g3, -⟩ := h.spelled hn hw h2
  rw [e0, List.append_assoc] at h1
  obtain ⟨B, hB, h7⟩ := ends_lay g2 ht g3 h1.right (p + s.length + b.length)
  unfold reads at hr
  rw [List.all_eq_true] at hr
  refine (Win.eats (hr B hB) (Span.spelled g1 (allWordy_tail hw) h1) h7 (by simp) (by simp) (by simp)).to ?_
  simp [Mark, e0]; omega

/-- No match at the words. -/
def shunned (xs : List String) (e : E) : Bool := noAt (run 100 (.mk2 (opCells (xs.map bytes)) [] [] [] [] none) e 0 .same [])

theorem Keys.refuses {xs : List String} (h : Keys xs X) (hn : xs ≠ []) (hw : allWordy xs = true) (hr : shunned xs e = true)
    (hY : ∀ y ∈ Y, y.text ≠ []) (hs : Spaced (X ++ Y ++ [endPiece t])) : Refuses w e (render (X ++ Y) ++ t) := by
  intro p hp
  rw [List.append_assoc] at hs
  obtain ⟨s, b, e0, g1, -⟩ := h.spelled hn hw (Spaced.cut hs hY)
  rw [render_append, e0, List.append_assoc, List.append_assoc] at hp
  exact Win.shuns hr (Span.spelled g1 (allWordy_tail hw) hp) (qs := []) .nil (by simp) (by simp) (by simp)

theorem Keys.begins {x : String} {xs : List String} (h : Keys (x :: xs) X) (hw : allWordy (x :: xs) = true) (hY : ∀ y ∈ Y, y.text ≠ [])
    (hs : Spaced (X ++ Y ++ [endPiece t])) : Begins [x] (render (X ++ Y) ++ t) := by
  have tx := h.texts hw
  cases h with
  | cons hk hK =>
    simp only [allWordy, List.all_cons, Bool.and_eq_true, Bool.not_eq_true', List.isEmpty_eq_false_iff] at hw
    exact hk.begins hw.1.2 (Halts.texts_append (fun y hy => tx y (List.mem_cons_of_mem _ hy)) hY) hs

theorem Keys.solid {x : String} {xs : List String} (h : Keys (x :: xs) X) (hx : firm x = true) : Solid (render (X ++ Y) ++ t) := by
  cases h with
  | cons hk _ => exact hk.solid hx

/-! ## Properties of operands -/

def propStep : E := .seq (.nt .r_DOT none) (.seq (.nt .r_ws none) (.seq (.nt .r_prop_name (some 1)) (.seq (.nt .r__block_replace_ none)
  (.act (.build (.var 0) .propertyOperator [some 0, some 1])))))
theorem prop_run : ∀ B ∈ wordEnds, okAt (dotA.length + 1) (run 100 (.mk2 dotA B [] [] [] none) propStep 0 .same []) = true := by
  decide +kernel

theorem dot_takes {b' s b : List UInt8} (h1 : Gap b') (h2 : Symbolic s) (h3 : Gap b) (ht : Solid t) :
    Takes w propStep [⟨.post .property, 46 :: (b' ++ s), b⟩] t := by
  refine ⟨by simp, fun p g1 g2 => ?_⟩
  have hh : Here w p (46 :: (b' ++ (s ++ (b ++ t)))) := by simpa [render] using g1
  have he : EndsSym (46 :: (b' ++ s)) := EndsSym.append (s := 46 :: b') h2.ends
  have h6 := hh.tail.right
  obtain ⟨B, hB, h7⟩ := ends_lay h3 ht (ends_apart (x := ⟨.post .property, 46 :: (b' ++ s), b⟩) he g2) h6.right
    (p + 1 + b'.length + s.length + b.length)
  refine (Win.eats (prop_run B hB) (.cons (.of_byte hh (by decide)) (.cons (.of_gap h1 h2.solid hh.tail (by simp)) (h2.span h6))) h7
    (by simp) (by simp) (by simp)).to ?_
  simp [Mark, render]; omega

theorem Dots.texts (h : Dots X) : ∀ x ∈ X, x.text ≠ [] := by
  induction h with
  | one => simp
  | more _ _ _ _ ih => exact texts_cons (by simp) ih
theorem Dots.solid (h : Dots X) : Solid (render X ++ t) := by
  cases h <;> rw [render_cons] <;> exact solid_cons (by decide)
theorem Dots.chain (h : Dots X) : Chain false X := by
  induction h with
  | one h1 h2 h3 => exact .property h1 h2 h3 .done
  | more h1 h2 h3 _ ih => exact .property h1 h2 h3 ih

theorem Dots.takes (h : Dots X) (ht : Solid t) (hd : Refuses w (.nt .r_DOT none) t) :
    Takes w (.star propStep) X t ∧ Takes w (.seq propStep (.star propStep)) X t := by
  induction h with
  | one h1 h2 h3 =>
    exact ⟨by simpa using Takes.starMore (Y := []) (fun _ => dot_takes h1 h2 h3 ht) (.starEnd (.seq1 hd)) (by simp),
      .seqNil (dot_takes h1 h2 h3 ht) (.starEnd (.seq1 hd))⟩
  | more h1 h2 h3 h4 ih =>
    exact ⟨.starMore (X := [_]) (fun _ => dot_takes h1 h2 h3 h4.solid) ih.1 (by simp),
      .seq (X := [_]) (fun _ => dot_takes h1 h2 h3 h4.solid) ih.1 (by simp)⟩

theorem Target.texts (h : Target X) : ∀ x ∈ X, x.text ≠ [] := by
  obtain ⟨h1, h2, h3⟩ := h
  exact texts_cons ((Exprn.operand h1 h2).texts _ (by simp)) h3.texts
theorem Target.solid (h : Target X) : Solid (render X ++ t) := by
  obtain ⟨h1, h2, h3⟩ := h
  rename_i s b X
  rw [show (⟨.operand, s, b⟩ :: X : List Piece) = [⟨.operand, s, b⟩] ++ X from rfl, render_append, List.append_assoc]
  exact (Exprn.operand h1 h2).solid

theorem Target.takes (h : Target X) (ht : TailText t) (hd : t.head? ≠ some 46) (hr : Refuses w (.nt .r_DOT none) t) :
    Takes w (.nt .r_property_expression v) X t := by
  have tx := h.texts
  obtain ⟨h1, h2, h3⟩ := h
  rename_i s b X
  have hA : Spaced (⟨.operand, s, b⟩ :: X ++ [endPiece t]) → Takes w (.nt .r_atom (some 0)) [⟨.operand, s, b⟩] (render X ++ t) := fun hs =>
    ⟨fun x hx => tx x (by simp at hx; simp [hx]), fun p g1 g2 =>
      ((prim_atom (good _) h1 le_rfl h2 (h3.chain.undot rfl ht hd hs.tail) (fun hb => Spaced.apart hs h3.texts hb)
        (by simpa [render] using g1) (.nt .r_atom none) (by simp [atomEs])).to (by simp [render]; omega)).var⟩
  exact .nt (.skip .start (.given tx fun hs => .seq (X := [_]) (fun _ => hA hs) (.seqIdle (h3.takes ht.1 hr).2 (.seq .merge .act))
    (fun x hx => tx x (by simp at hx; simp [hx]))))

/-! ## Names -/

/-- A name alone has no property. -/
theorem bare_run : noAt (run 100 (.mk2 nameA [.ws false, .hole (set ":=+")] wordRule [] [] none) (.nt .r_property_expression none) 0 .same [])
    = true := by decide +kernel

theorem Var.refuses (h : Var x) {c : UInt8} {r : List UInt8} (hc : render Y ++ t = c :: r) (hm : (set ":=+").mem c = true) :
    Refuses w (.nt .r_property_expression v) (render (x :: Y) ++ t) := by
  intro p hp
  obtain ⟨h1, h2⟩ := h
  rw [render_cons] at hp
  have hsol : Solid (render Y ++ t) := by
    rw [hc]
    refine solid_cons ?_
    have := imp_byte (P := fun c => (set ":=+").mem c) (Q := fun c => c != 32 && c != 9 && c != 10 && c != 13 && c != 47) (by decide +kernel) hm
    simpa [and_assoc] using this
  have hns : (render Y ++ t).head?.any sym = false := by
    rw [hc]
    have := imp_byte (P := fun c => (set ":=+").mem c) (Q := fun c => !sym c) (by decide +kernel) hm
    simpa using this
  exact (Win.shuns bare_run (h1.symbolic.span hp) (gap_lay h2 hsol hc hm (by simp) hp.right 0) (h1.words hp (gap_head h2 fun _ => hns))
    (by simp) (by simp)).var

theorem sign_cons {y : String} {c : UInt8} {cs : List UInt8} (h : Key y k) (hy : bytes y = c :: cs) (hc : (set ":=+").mem c = true) :
    ∃ d r, render (k :: Y) ++ t = d :: r ∧ (set ":=+").mem d = true ∧ d = c := by
  obtain ⟨d, s, e1, e2⟩ := key_head h hy
  have h3 := imp_byte (P := fun d => (set ":=+").mem (upper d)) (Q := fun d => (set ":=+").mem d && d == upper d) (by decide +kernel)
    (c := d) (by rw [e2]; exact hc)
  simp only [Bool.and_eq_true, beq_iff_eq] at h3
  exact ⟨d, s ++ (k.blank ++ (render Y ++ t)), by rw [render_cons, e1]; rfl, h3.1, h3.2.trans e2⟩

theorem equal_tail (h : Key "=" k) : TailText (render (k :: Y) ++ t) ∧ (render (k :: Y) ++ t).head? ≠ some 46 := by
  obtain ⟨d, r, e, -, rfl⟩ := sign_cons (Y := Y) (t := t) h (show bytes "=" = 61 :: [] by decide +kernel) (by decide +kernel)
  rw [e]
  exact ⟨.of (by decide +kernel) (fun h => absurd h (by decide)), by simp⟩

/-! ## SET and REMOVE -/

def setEnds : List String := "," :: "ON" :: nexts
theorem setEnds_enders : ∀ x ∈ setEnds, x ∈ enders := by decide +kernel

theorem Labels.texts (h : Labels X) : ∀ x ∈ X, x.text ≠ [] := by
  obtain ⟨h1, h2⟩ := h
  exact Halts.texts_append h1.texts (h2.texts fun _ => Label.texts)
theorem Labels.begins (h : Labels X) : Begins [":"] (render X ++ t) := by
  obtain ⟨h1, h2⟩ := h
  rw [render_append, List.append_assoc]; exact h1.begins
theorem Labels.first (h : Labels X) : ∃ r, render X ++ t = 58 :: r := by
  obtain ⟨h1, h2⟩ := h
  obtain ⟨h1, -⟩ := h1
  obtain ⟨d, r, e, -, rfl⟩ := sign_cons h1 (show bytes ":" = 58 :: [] by decide +kernel) (by decide +kernel)
  exact ⟨r, e⟩

theorem Labels.takes {ac : Act} (h : Labels X) (ha : avoids setEnds (.seq (.nt .r_label v) (.act ac)) = true) (ht : Begins setEnds t) :
    Takes w (.plus (.seq (.nt .r_label v) (.act ac))) X t := by
  obtain ⟨h1, h2⟩ := h
  exact .seq (fun _ => .seqIdle (h1.takes (by simp) ((h2.begins (fun _ _ => Label.begins) ht).solid (by decide +kernel))) .act)
    (h2.takes (fun _ _ => Label.begins) (fun _ => Label.texts)
      (fun X t hX hb => .seqIdle (hX.takes (by simp) (hb.solid (by decide +kernel))) .act) ha ht) h1.texts

theorem SetItem.texts (h : SetItem X) : ∀ x ∈ X, x.text ≠ [] := by
  cases h with
  | property h1 h2 h3 => exact Halts.texts_append h1.texts (texts_cons (h2.text (by decide +kernel)) h3.texts)
  | all h1 h2 h3 | merge h1 h2 h3 => exact texts_cons h1.ident.text (texts_cons (h2.text (by decide +kernel)) h3.texts)
  | labels h1 h2 => exact texts_cons h1.ident.text h2.texts
theorem SetItem.solid (h : SetItem X) : Solid (render X ++ t) := by
  cases h with
  | property h1 => rw [render_append, List.append_assoc]; exact h1.solid
  | all h1 | merge h1 | labels h1 => exact h1.ident.solid

theorem SetItem.takes (h : SetItem X) (ht : Begins setEnds t) : Takes w (.nt .r_set_item v) X t := by
  have tx := h.texts
  cases h with
  | property h1 h2 h3 =>
    exact .nt (.altL (.skip .blockStart (.seq (fun _ => h1.takes (equal_tail h2).1 (equal_tail h2).2
        ((sign_begins h2 (by decide +kernel) (by decide +kernel)).refuses (by decide +kernel)))
      (.sign h2 (by decide +kernel) (by decide +kernel) h3.solid (.seqIdle (Exprn.takes h3 ht setEnds_enders) .fin)) h1.texts)))
  | all h1 h2 h3 =>
    refine .nt (.altR (fun _ => .skip .blockStart (.seq1 ?_)) (.altL (.skip .blockStart (.seq (X := [_])
      (fun _ => h1.ident.takes (h2.solid (by decide +kernel)))
      (.sign h2 (by decide +kernel) (by decide +kernel) h3.solid (.seqIdle (Exprn.takes h3 ht setEnds_enders) .fin)) (texts_one h1.ident.text)))))
    obtain ⟨d, r, e, hd, -⟩ := sign_cons h2 (show bytes "=" = 61 :: [] by decide +kernel) (by decide +kernel)
    exact h1.refuses e hd
  | @merge x k E h1 h2 h3 =>
    refine .nt (.altR (fun _ => .skip .blockStart (.seq1 ?_)) (.altR (fun hs => .skip .blockStart (Refuses.seqCons (X := [x]) (Y := k :: E)
        (h1.ident.takes (h2.solid (by decide +kernel))) (fun y hy => tx y (List.mem_cons_of_mem _ hy)) hs
        (.seq1 ((sign_begins h2 (by decide +kernel) (by decide +kernel)).refuses (by decide +kernel)))))
      (.altL (.skip .blockStart (.seq (X := [_])
      (fun _ => h1.ident.takes (h2.solid (by decide +kernel)))
      (.sign h2 (by decide +kernel) (by decide +kernel) h3.solid (.seqIdle (Exprn.takes h3 ht setEnds_enders) .fin)) (texts_one h1.ident.text))))))
    obtain ⟨d, r, e, hd, -⟩ := sign_cons h2 (show bytes "+=" = 43 :: [61] by decide +kernel) (by decide +kernel)
    exact h1.refuses e hd
  | @labels x L h1 h2 =>
    have tk : ∀ v, Takes w (.nt .r_identifier v) [x] (render L ++ t) := fun v => h1.ident.takes (h2.begins.solid (by decide +kernel))
    refine .nt (.altR (fun _ => .skip .blockStart (.seq1 ?_)) (.altR (fun hs => .skip .blockStart (Refuses.seqCons (X := [x])
        (tk _) h2.texts hs (.seq1 (h2.begins.refuses (by decide +kernel)))))
      (.altR (fun hs => .skip .blockStart (Refuses.seqCons (X := [x]) (tk _) h2.texts hs (.seq1 (h2.begins.refuses (by decide +kernel)))))
      (.skip .blockStart (.seq (X := [x]) (fun _ => tk _) (.seqIdle (h2.takes (by decide +kernel) ht) .fin) (texts_one h1.ident.text))))))
    obtain ⟨r, e⟩ := h2.first (t := t)
    exact h1.refuses e (by decide +kernel)

theorem RemoveItem.texts (h : RemoveItem X) : ∀ x ∈ X, x.text ≠ [] := by
  cases h with
  | property h => exact h.texts
  | labels h1 h2 => exact texts_cons h1.ident.text h2.texts
theorem RemoveItem.solid (h : RemoveItem X) : Solid (render X ++ t) := by
  cases h with
  | property h => exact h.solid
  | labels h1 => exact h1.ident.solid

theorem RemoveItem.takes (h : RemoveItem X) (ht : Begins setEnds t) : Takes w (.nt .r_remove_item v) X t := by
  cases h with
  | property h =>
    refine .nt (.altL (.skip .blockStart (.seqIdle (h.takes (ht.tail setEnds_enders) ?_ (ht.refuses (by decide +kernel))) .fin)))
    rcases ht.head setEnds_enders with rfl | ⟨c, r, rfl, -, h2, -⟩
    · simp
    · simpa using h2
  | @labels x L h1 h2 =>
    have tk : ∀ v, Takes w (.nt .r_identifier v) [x] (render L ++ t) := fun v => h1.ident.takes (h2.begins.solid (by decide +kernel))
    refine .nt (.altR (fun _ => .skip .blockStart (.seq1 ?_))
      (.skip .blockStart (.seq (X := [x]) (fun _ => tk _) (.seqIdle (h2.takes (by decide +kernel) ht) .fin) (texts_one h1.ident.text))))
    obtain ⟨r, e⟩ := h2.first (t := t)
    exact h1.refuses e (by decide +kernel)

theorem set_takes (hk : Key "SET" k) (h : Sep SetItem X) (ht : Begins nexts t) : Takes w (.nt .r_set_clause v) (k :: X) t :=
  .nt (.skip .blockStart (.seq (X := [k]) (fun _ => hk.takes (by decide +kernel) (by decide +kernel) (h.solid fun _ _ => SetItem.solid))
    (sep_takes' (fun X t v hX hb => hX.takes (hb.mono (by decide +kernel))) (fun _ _ => SetItem.solid) (fun _ => SetItem.texts)
      (by decide +kernel) h ht .fin) (texts_one (hk.text (by decide +kernel)))))
theorem remove_takes (hk : Key "REMOVE" k) (h : Sep RemoveItem X) (ht : Begins nexts t) : Takes w (.nt .r_remove_clause v) (k :: X) t :=
  .nt (.skip .blockStart (.seq (X := [k]) (fun _ => hk.takes (by decide +kernel) (by decide +kernel) (h.solid fun _ _ => RemoveItem.solid))
    (sep_takes' (fun X t v hX hb => hX.takes (hb.mono (by decide +kernel))) (fun _ _ => RemoveItem.solid) (fun _ => RemoveItem.texts)
      (by decide +kernel) h ht .fin) (texts_one (hk.text (by decide +kernel)))))

/-! ## MERGE -/

def actEnds : List String := "ON" :: nexts

theorem MergeAction.texts (h : MergeAction X) : ∀ x ∈ X, x.text ≠ [] := by
  cases h with
  | onMatch h1 h2 h3 | onCreate h1 h2 h3 =>
    exact Halts.texts_append (h1.texts (by decide +kernel)) (texts_cons (h2.text (by decide +kernel)) (h3.texts fun _ => SetItem.texts))
theorem MergeAction.begins (h : MergeAction X) (hY : ∀ y ∈ Y, y.text ≠ []) (hs : Spaced (X ++ Y ++ [endPiece t])) :
    Begins ["ON"] (render (X ++ Y) ++ t) := by
  have tx := h.texts
  cases h with
  | onMatch h1 h2 h3 | onCreate h1 h2 h3 =>
    rw [List.append_assoc, List.append_assoc] at hs
    rw [List.append_assoc]
    rw [← List.append_assoc _ Y, ← List.append_assoc] at hs
    exact h1.begins (by decide +kernel) (Halts.texts_append (fun y hy => tx y (List.mem_append_right _ hy)) hY) hs

theorem actionSet_takes (h2 : Key "SET" k) (h3 : Sep SetItem X) (ht : Begins actEnds t) : Takes w (.nt .r_merge_action_set v) (k :: X) t :=
  .nt (.seq (X := [k]) (fun _ => .onfail (h2.takes (by decide +kernel) (by decide +kernel) (h3.solid fun _ _ => SetItem.solid)))
    (sep_takes (fun X t v hX hb => hX.takes (hb.mono (by decide +kernel))) (fun _ _ => SetItem.solid) (fun _ => SetItem.texts)
      (by decide +kernel) h3 ht) (texts_one (h2.text (by decide +kernel))))

theorem MergeAction.takes (h : MergeAction X) (ht : Begins actEnds t) : Takes w (.nt .r_merge_action v) X t := by
  cases h with
  | onMatch h1 h2 h3 =>
    exact .nt (.altL (.skip .blockStart (.seq (fun _ => h1.takes (by simp) (by decide +kernel) (by decide +kernel) (h2.solid (by decide +kernel)))
      (.seqIdle (actionSet_takes h2 h3 ht) .fin) (h1.texts (by decide +kernel)))))
  | onCreate h1 h2 h3 =>
    exact .nt (.altR (fun hs => .skip .blockStart (.seq1 (h1.refuses (by simp) (by decide +kernel) (by decide +kernel)
        (texts_cons (h2.text (by decide +kernel)) (h3.texts fun _ => SetItem.texts)) hs)))
      (.skip .blockStart (.seq (fun _ => h1.takes (by simp) (by decide +kernel) (by decide +kernel) (h2.solid (by decide +kernel)))
      (.seqIdle (actionSet_takes h2 h3 ht) .fin) (h1.texts (by decide +kernel)))))

theorem actions_takes {ac : Act} (h : Many MergeAction X) (ht : Begins nexts t) :
    Takes w (.star (.seq (.nt .r_merge_action v) (.act ac))) X t ∧ (Spaced (X ++ [endPiece t]) → Begins actEnds (render X ++ t)) := by
  induction h with
  | nil =>
    refine ⟨.starEnd (.seq1 fun p hp => (ht.refuses (e := .nt .r_merge_action none) (by decide +kernel) p hp).var), fun _ => ht.mono (by decide +kernel)⟩
  | @cons X Y hX hY ih =>
    exact ⟨.starMore (fun hs => .seqIdle (hX.takes (ih.2 hs)) .act) ih.1 hX.texts,
      fun hs => (hX.begins (hY.texts fun _ => MergeAction.texts) hs).mono (by decide +kernel)⟩

theorem merge_takes {A : List Piece} (hk : Key "MERGE" k) (hP : Part X) (hA : Many MergeAction A) (ht : Begins nexts t) :
    Takes w (.nt .r_merge_clause v) (k :: (X ++ A)) t := by
  have hsol := (ht.tail (by decide +kernel)).1
  have tA := hA.texts fun _ => MergeAction.texts
  have act := fun ac => actions_takes (w := w) (ac := ac) (v := some 1) hA ht
  have bA : Spaced (A ++ [endPiece t]) → Begins actEnds (render A ++ t) := (act (.seqAdd [1])).2
  refine .nt (.skip .blockStart (.seq (X := [k]) (fun hs => hk.takes (by decide +kernel) (by decide +kernel) ?_)
    (Halts.ws (fun hs => hP.halts ((bA hs).mono (by decide +kernel))) (fun hs => (bA hs).solid (by decide +kernel)) hP.texts
      (.seqNil (act _).1 (.skip .blockEnd (.skip .act (ws_takes hsol))))) (texts_one (hk.text (by decide +kernel)))))
  have hs' : Spaced (X ++ (A ++ [endPiece t])) := by rw [← List.append_assoc]; exact hs
  change Solid (render (X ++ A) ++ t)
  rw [render_append, List.append_assoc]
  exact hP.solid (Spaced.cut hs' tA)

/-! ## Hints -/

def hintEnds : List String := "USING" :: "WHERE" :: nexts

theorem Word.texts (h : Word X) : ∀ x ∈ X, x.text ≠ [] := by
  obtain ⟨h⟩ := h
  exact texts_one h.text
theorem Word.solid (h : Word X) : Solid (render X ++ t) := by
  obtain ⟨h⟩ := h
  exact h.solid
theorem Hint.texts (h : Hint X) : ∀ x ∈ X, x.text ≠ [] := by
  cases h with
  | index h1 h2 h3 h4 h5 h6 =>
    exact Halts.texts_append (h1.texts (by decide +kernel)) (texts_cons h2.text (Halts.texts_append h3.texts
      (texts_cons (h4.text (by decide +kernel)) (texts_cons h5.text (texts_one (h6.text (by decide +kernel)))))))
  | join h1 h2 => exact Halts.texts_append (h1.texts (by decide +kernel)) (h2.texts fun _ => Word.texts)
  | scan h1 h2 h3 => exact Halts.texts_append (h1.texts (by decide +kernel)) (texts_cons h2.text h3.texts)
theorem Hint.begins (h : Hint X) (hY : ∀ y ∈ Y, y.text ≠ []) (hs : Spaced (X ++ Y ++ [endPiece t])) :
    Begins ["USING"] (render (X ++ Y) ++ t) := by
  have tx := h.texts
  cases h with
  | index h1 | join h1 | scan h1 =>
    rw [List.append_assoc, List.append_assoc] at hs
    rw [List.append_assoc]
    rw [← List.append_assoc _ Y, ← List.append_assoc] at hs
    exact h1.begins (by decide +kernel) (Halts.texts_append (fun y hy => tx y (List.mem_append_right _ hy)) hY) hs

theorem Hint.takes (h : Hint X) (ht : Begins hintEnds t) : Takes w (.nt .r_hint v) X t := by
  have hsol := ht.solid (by decide +kernel)
  have tx := h.texts
  cases h with
  | index h1 h2 h3 h4 h5 h6 =>
    have s1 : ∀ {L M : List Piece}, Label L → Solid (render (L ++ M) ++ t) := fun h => by
      rw [render_append, List.append_assoc]; exact h.begins.solid (by decide +kernel)
    exact .nt (.altL (.skip .blockStart (.seq (fun _ => h1.takes (by simp) (by decide +kernel) (by decide +kernel) h2.solid)
      (.seq (X := [_]) (fun _ => h2.takes (s1 h3)) (.seq (fun _ => h3.takes (by simp) (h4.solid (by decide +kernel)))
        (.sign h4 (by decide +kernel) (by decide +kernel) h5.solid (.seq (X := [_]) (fun _ => typeName_takes (by simp) h5 (h6.solid (by decide +kernel)))
          (.sign h6 (by decide +kernel) (by decide +kernel) hsol (.idle .fin)) (texts_one h5.text))) h3.texts) (texts_one h2.text))
      (h1.texts (by decide +kernel)))))
  | join h1 h2 =>
    exact .nt (.altR (fun hs => .skip .blockStart (.seq1 (h1.refuses (by simp) (by decide +kernel) (by decide +kernel) (h2.texts fun _ => Word.texts) hs)))
      (.altL (.skip .blockStart (.seq (fun _ => h1.takes (by simp) (by decide +kernel) (by decide +kernel) (h2.solid fun _ _ => Word.solid))
        (sep_takes' (fun X t v hX hb => by
          obtain ⟨hX⟩ := hX
          exact hX.takes (hb.solid (by decide +kernel))) (fun _ _ => Word.solid) (fun _ => Word.texts) (by decide +kernel) h2 ht .fin)
        (h1.texts (by decide +kernel))))))
  | scan h1 h2 h3 =>
    exact .nt (.altR (fun hs => .skip .blockStart (.seq1 (h1.refuses (by simp) (by decide +kernel) (by decide +kernel) (texts_cons h2.text h3.texts) hs)))
      (.altR (fun hs => .skip .blockStart (.seq1 (h1.refuses (by simp) (by decide +kernel) (by decide +kernel) (texts_cons h2.text h3.texts) hs)))
      (.skip .blockStart (.seq (fun _ => h1.takes (by simp) (by decide +kernel) (by decide +kernel) h2.solid)
        (.seq (X := [_]) (fun _ => h2.takes (h3.begins.solid (by decide +kernel))) (.seqIdle (h3.takes (by simp) hsol) .fin) (texts_one h2.text))
        (h1.texts (by decide +kernel))))))

theorem hints_takes {ac : Act} (h : Many Hint X) (hY : Takes w e Y t) (ht : Spaced (Y ++ [endPiece t]) → Begins ("WHERE" :: nexts) (render Y ++ t)) :
    Takes w (.seq (.star (.seq (.nt .r_hint v) (.act ac))) e) (X ++ Y) t ∧
      (Spaced (X ++ Y ++ [endPiece t]) → Begins hintEnds (render (X ++ Y) ++ t)) := by
  have key : ∀ {t}, Begins ("WHERE" :: nexts) t → Takes w (.star (.seq (.nt .r_hint v) (.act ac))) X t ∧
      (Spaced (X ++ [endPiece t]) → Begins hintEnds (render X ++ t)) := by
    intro t ht
    clear hY
    induction h with
    | nil => exact ⟨.starEnd (.seq1 fun p hp => (ht.refuses (e := .nt .r_hint none) (by decide +kernel) p hp).var), fun _ => ht.mono (by decide +kernel)⟩
    | @cons X Y hX hY ih =>
      exact ⟨.starMore (fun hs => .seqIdle (hX.takes (ih.2 hs)) .act) ih.1 hX.texts,
        fun hs => (hX.begins (hY.texts fun _ => Hint.texts) hs).mono (by decide +kernel)⟩
  refine ⟨.seq (fun hs => (key (ht hs)).1) hY (h.texts fun _ => Hint.texts), fun hs => ?_⟩
  rw [List.append_assoc] at hs
  rw [render_append, List.append_assoc]
  exact (key (ht hs.right)).2 (Spaced.cut hs hY.texts)

/-! ## CALL -/

def callEnds : List String := "WHERE" :: nexts

theorem CallArgs.texts (h : CallArgs X) : ∀ x ∈ X, x.text ≠ [] := by
  obtain ⟨h1, h2, h3⟩ := h
  exact texts_cons (h1.text (by decide +kernel)) (Halts.texts_append (h2.texts fun h => h.texts fun _ h => h.texts) (texts_one (h3.text (by decide +kernel))))
theorem CallArgs.begins (h : CallArgs X) : Begins ["("] (render X ++ t) := by
  obtain ⟨h1, -⟩ := h
  exact sign_begins h1 (by decide +kernel) (by decide +kernel)

theorem CallArgs.takes {ac ac' : Act} {v1 v2 : Option Nat} (h : CallArgs X) (ht : Solid t) :
    Takes w (.seq (.nt .r_LEFT_PAREN none) (.seq (.nt .r_ws none) (.seq (.opt (.seq (.nt .r_expression v1) (.seq (.act ac)
      (.star (.seq (.nt .r_COMMA none) (.seq (.nt .r_ws none) (.seq (.nt .r_expression v2) (.act ac')))))))) (.seq (.nt .r_RIGHT_PAREN none)
      (.nt .r_ws none))))) X t := by
  obtain ⟨h1, h2, h3⟩ := h
  rename_i k X k'
  have b1 : Begins [")"] (render [k'] ++ t) := sign_begins h3 (by decide +kernel) (by decide +kernel)
  have hl : Takes w (.seq (.nt .r_RIGHT_PAREN none) (.nt .r_ws none)) [k'] t :=
    Halts.wsEnd (.sign h3 (by decide +kernel) (by decide +kernel)) ht
  have hs : Solid (render (X ++ [k']) ++ t) := by
    rw [render_append, List.append_assoc]
    cases h2 with
    | none => exact b1.solid (by decide +kernel)
    | some h => exact h.solid fun _ _ h => h.solid
  refine .sign h1 (by decide +kernel) (by decide +kernel) hs (.seq (fun _ => ?_) hl (h2.texts fun h => h.texts fun _ h => h.texts))
  cases h2 with
  | none => exact .altR (fun _ => .seq1 fun p hp => (b1.refuses (e := .nt .r_expression none) (by decide +kernel) p hp).var) (.idle .eps)
  | some h =>
    exact .altL (sep_takes (xs := [")"]) (fun X t v hX hb => Exprn.takes hX hb (by decide +kernel)) (fun _ _ h => h.solid) (fun _ h => h.texts)
      (by decide +kernel) h b1)

theorem ProcProj.texts (h : ProcProj X) : ∀ x ∈ X, x.text ≠ [] := by
  cases h with
  | plain h => exact texts_one h.text
  | named h1 h2 h3 => exact texts_cons h1.text (texts_cons (h2.text (by decide +kernel)) (texts_one h3.text))
theorem ProcProj.solid (h : ProcProj X) : Solid (render X ++ t) := by
  cases h with
  | plain h | named h => exact h.solid
theorem ProcProj.takes (h : ProcProj X) (ht : Begins ("," :: callEnds) t) : Takes w (.nt .r_proc_projection v) X t := by
  have hsol := ht.solid (by decide +kernel)
  cases h with
  | plain h =>
    exact .nt (.skip .blockStart (.seqNil (h.takes hsol) (.altR (fun _ => .seq1 (ht.refuses (by decide +kernel))) (.idle (.seq .empty .fin)))))
  | named h1 h2 h3 =>
    exact .nt (.skip .blockStart (.seq (X := [_]) (fun _ => h1.takes (h2.solid (by decide +kernel))) (.altL (.seq (X := [_]) (Y := [_])
      (fun _ => h2.takes (by decide +kernel) (by decide +kernel) h3.solid) (.seqIdle (h3.takes hsol) .fin) (texts_one (h2.text (by decide +kernel)))))
      (texts_one h1.text)))

theorem Yield.texts (h : Yield X) : ∀ x ∈ X, x.text ≠ [] := by
  cases h with
  | some h1 h2 => exact texts_cons (h1.text (by decide +kernel)) (h2.texts fun _ => ProcProj.texts)
  | none h1 h2 => exact texts_cons (h1.text (by decide +kernel)) (texts_one (h2.text (by decide +kernel)))
theorem Yield.begins (h : Yield X) (hs : Spaced (X ++ [endPiece t])) : Begins ["YIELD"] (render X ++ t) := by
  have tx := h.texts
  cases h with
  | some h1 | none h1 => exact h1.begins (by decide +kernel) (fun y hy => tx y (List.mem_cons_of_mem _ hy)) hs

theorem Yield.takes {ac ac' : Act} {v1 v2 : Option Nat} (h : Yield X) (ht : Begins callEnds t) :
    Takes w (.seq (.nt .r_YIELD Option.none) (.seq (.alt (.seq (.nt .r_proc_projection v1) (.seq (.act ac) (.star (.seq (.nt .r_COMMA Option.none)
      (.seq (.nt .r_ws Option.none) (.seq (.nt .r_proc_projection v2) (.act ac'))))))) (.chr 45)) (.nt .r_ws Option.none))) X t := by
  have hsol := ht.solid (by decide +kernel)
  cases h with
  | some h1 h2 =>
    exact .seq (X := [_]) (fun _ => h1.takes (by decide +kernel) (by decide +kernel) (h2.solid fun _ _ => ProcProj.solid))
      (.seqNil (.altL (sep_takes (fun X t v hX hb => hX.takes hb) (fun _ _ => ProcProj.solid) (fun _ => ProcProj.texts) (by decide +kernel) h2 ht))
        (ws_takes hsol)) (texts_one (h1.text (by decide +kernel)))
  | none h1 h2 =>
    have b1 := sign_begins (X := []) (t := t) h2 (by decide +kernel) (by decide +kernel)
    exact .seq (X := [_]) (Y := [_]) (fun _ => h1.takes (by decide +kernel) (by decide +kernel) (h2.solid (by decide +kernel)))
      (Halts.wsEnd (.altR (fun _ => .seq1 fun p hp => (b1.refuses (e := .nt .r_proc_projection Option.none) (by decide +kernel) p hp).var)
        (.signE h2 (by decide +kernel) (by decide +kernel))) hsol) (texts_one (h1.text (by decide +kernel)))

/-! ## LOAD CSV -/

theorem string_run : ∀ A ∈ quoteds, ∀ B ∈ tails .other,
    okAt (A.length + 1) (run 100 (.mk2 A B [] [] [] none) (.nt .r_string_literal none) 0 .same []) = true := by decide +kernel

theorem Quoted.texts (h : Quoted X) : ∀ x ∈ X, x.text ≠ [] := by
  obtain ⟨-, -, -⟩ := h
  simp
theorem Quoted.solid (h : Quoted X) : Solid (render X ++ t) := by
  obtain ⟨h, -, -⟩ := h
  rw [render_cons]
  rcases h with rfl | rfl <;> exact solid_cons (by decide)
theorem Quoted.takes (h : Quoted X) (ht : TailText t) : Takes w (.nt .r_string_literal v) X t := by
  refine ⟨h.texts, fun p h1 h0 => ?_⟩
  clear h0
  obtain ⟨h2, h3, h4⟩ := h
  rename_i q body b
  have hh : Here w p (q :: (body ++ [q]) ++ (b ++ t)) := by simpa [render] using h1
  obtain ⟨A, hA, hsp⟩ := quoted_span h2 h3 hh
  obtain ⟨B, hB, hl⟩ := tail_other h4 ht hh.right 0
  refine ((Win.eats (string_run A hA B hB) hsp hl (by simp) (by simp) (by simp)).to ?_).var
  simp [Mark, render]; omega

theorem Terminator.texts (h : Terminator X) : ∀ x ∈ X, x.text ≠ [] := by
  obtain ⟨h1, h2⟩ := h
  exact texts_cons (h1.text (by decide +kernel)) h2.texts
theorem terminator_takes (h : Opt Terminator X) (ht : Begins nexts t) :
    Takes w (.alt (.seq (.nt .r_FIELDTERMINATOR none) (.nt .r_string_literal v)) (.nt .r__null_ v')) X t := by
  cases h with
  | none => exact .altR (fun _ => .seq1 (ht.refuses (by decide +kernel))) (.idle .null)
  | some h =>
    obtain ⟨h1, h2⟩ := h
    exact .altL (.seq (X := [_]) (fun _ => h1.takes (by decide +kernel) (by decide +kernel) h2.solid) (h2.takes (ht.tail (by decide +kernel)))
      (texts_one (h1.text (by decide +kernel))))

theorem load_body {k' : Piece} {E T : List Piece} {ac : Act} {v1 v2 v3 v4 : Option Nat} (hk : Key "FROM" k) (hE : Exprn E) (hk' : Key "AS" k')
    (hx : Ident x) (hT : Opt Terminator T) (ht : Begins nexts t) :
    Takes w (.seq (.nt .r_FROM none) (.seq (.nt .r_expression v1) (.seq (.nt .r_AS none) (.seq (.nt .r_identifier v2) (.seq
      (.alt (.seq (.nt .r_FIELDTERMINATOR none) (.nt .r_string_literal v3)) (.nt .r__null_ v4)) (.seq (.pred .blockEnd) (.act ac)))))))
      (k :: (E ++ k' :: x :: T)) t := by
  have tT := hT.texts fun h => h.texts
  have sT : Solid (render T ++ t) := by
    cases hT with
    | none => exact ht.solid (by decide +kernel)
    | some h =>
      obtain ⟨h1, h2⟩ := h
      exact h1.solid (by decide +kernel)
  have t1 : ∀ y ∈ x :: T, y.text ≠ [] := texts_cons hx.text tT
  refine .seq (X := [k]) (fun _ => hk.takes (by decide +kernel) (by decide +kernel) ?_) (.seq
    (fun hs => Exprn.takes hE (hk'.begins (by decide +kernel) t1 hs) (by decide +kernel))
    (.seq (X := [k']) (fun _ => hk'.takes (by decide +kernel) (by decide +kernel) hx.solid) (.seq (X := [x]) (fun _ => hx.takes sT)
      (.seqIdle (terminator_takes hT ht) .fin) (texts_one hx.text)) (texts_one (hk'.text (by decide +kernel)))) hE.texts)
    (texts_one (hk.text (by decide +kernel)))
  change Solid (render (E ++ _) ++ t)
  rw [render_append, List.append_assoc]; exact hE.solid

theorem load_takes {k' : Piece} {E T : List Piece} (hX : Keys ["LOAD", "CSV"] X) (hk : Key "FROM" k) (hE : Exprn E) (hk' : Key "AS" k')
    (hx : Ident x) (hT : Opt Terminator T) (ht : Begins nexts t) :
    Takes w (.nt .r_loadcsv_clause v) (X ++ k :: (E ++ k' :: x :: T)) t := by
  have hL := fun ac => load_body (w := w) (ac := ac) (v1 := some 0) (v2 := some 1) (v3 := some 2) (v4 := some 2) hk hE hk' hx hT ht
  have tx := (hL (.seqAdd [1])).texts
  have kT : Takes w (.nt .r_LOADCSV none) X (render (k :: (E ++ k' :: x :: T)) ++ t) :=
    hX.takes (by simp) (by decide +kernel) (by decide +kernel) (hk.solid (by decide +kernel))
  exact .nt (.altR (fun hs => .skip .blockStart (Refuses.seqCons kT tx hs (.seq1 ((hk.begins (by decide +kernel)
      (fun y hy => tx y (List.mem_cons_of_mem _ hy)) (by rw [List.append_assoc] at hs; exact hs.right)).refuses (by decide +kernel)))))
    (.skip .blockStart (.seq (fun _ => kT) (hL _) (hX.texts (by decide +kernel)))))

theorem loadHeaders_takes {k' : Piece} {H E T : List Piece} (hX : Keys ["LOAD", "CSV"] X) (hH : Keys ["WITH", "HEADERS"] H) (hk : Key "FROM" k)
    (hE : Exprn E) (hk' : Key "AS" k') (hx : Ident x) (hT : Opt Terminator T) (ht : Begins nexts t) :
    Takes w (.nt .r_loadcsv_clause v) (X ++ (H ++ k :: (E ++ k' :: x :: T))) t :=
  .nt (.altL (.skip .blockStart (.seq (fun _ => hX.takes (by simp) (by decide +kernel) (by decide +kernel) (hH.solid (by decide +kernel)))
    (.seq (fun _ => hH.takes (by simp) (by decide +kernel) (by decide +kernel) (hk.solid (by decide +kernel))) (load_body hk hE hk' hx hT ht)
      (hH.texts (by decide +kernel))) (hX.texts (by decide +kernel)))))

/-! ## CALL, the whole -/

theorem Begins.undot {xs : List String} (h : Begins xs t) (hx : (xs.all fun x => (bytes x).head? != some 46) = true) : t.head? ≠ some 46 := by
  rcases h with ⟨-, rfl⟩ | ⟨x, hx', hn, s, r, rfl, h1, -⟩
  · simp
  have := List.all_eq_true.1 hx x hx'
  rw [← h1] at this hn
  cases s with
  | nil => exact absurd rfl hn
  | cons c s =>
    intro h
    simp only [List.cons_append, List.head?_cons, Option.some.injEq] at h
    subst h
    exact absurd this (by simp; decide)

theorem yield_opt {ac ac' : Act} {v1 v2 : Option Nat} {W : List Piece} (h : Opt Yield X) (hW : Takes w e W t)
    (bW : Spaced (W ++ [endPiece t]) → Begins callEnds (render W ++ t)) :
    Takes w (.seq (.opt (.seq (.nt .r_YIELD none) (.seq (.alt (.seq (.nt .r_proc_projection v1) (.seq (.act ac) (.star (.seq (.nt .r_COMMA none)
      (.seq (.nt .r_ws none) (.seq (.nt .r_proc_projection v2) (.act ac'))))))) (.chr 45)) (.nt .r_ws none)))) e) (X ++ W) t ∧
    (Spaced (X ++ W ++ [endPiece t]) → Begins ("YIELD" :: callEnds) (render (X ++ W) ++ t)) := by
  cases h with
  | none =>
    exact ⟨.given hW.texts fun hs => .nilSeq (.altR (fun _ => .seq1 ((bW hs).refuses (by decide +kernel))) (.idle .eps)) hW,
      fun hs => (bW hs).mono (by decide +kernel)⟩
  | some h =>
    refine ⟨.seq (fun hs => .altL (h.takes (bW hs))) hW h.texts, fun hs => ?_⟩
    rw [List.append_assoc] at hs
    rw [render_append, List.append_assoc]
    exact (h.begins (Spaced.cut hs hW.texts)).mono (by decide +kernel)

theorem args_opt {ac ac' : Act} {v1 v2 : Option Nat} {W : List Piece} (h : Opt CallArgs X) (hW : Takes w e W t)
    (bW : Spaced (W ++ [endPiece t]) → Begins ("YIELD" :: callEnds) (render W ++ t)) :
    Takes w (.seq (.opt (.seq (.nt .r_LEFT_PAREN none) (.seq (.nt .r_ws none) (.seq (.opt (.seq (.nt .r_expression v1) (.seq (.act ac)
      (.star (.seq (.nt .r_COMMA none) (.seq (.nt .r_ws none) (.seq (.nt .r_expression v2) (.act ac')))))))) (.seq (.nt .r_RIGHT_PAREN none)
      (.nt .r_ws none)))))) e) (X ++ W) t ∧
    (Spaced (X ++ W ++ [endPiece t]) → Begins ("(" :: "YIELD" :: callEnds) (render (X ++ W) ++ t)) := by
  cases h with
  | none =>
    exact ⟨.given hW.texts fun hs => .nilSeq (.altR (fun _ => .seq1 ((bW hs).refuses (by decide +kernel))) (.idle .eps)) hW,
      fun hs => (bW hs).mono (by decide +kernel)⟩
  | some h =>
    refine ⟨.seq (fun hs => .altL (h.takes ((bW hs).solid (by decide +kernel)))) hW h.texts, fun hs => ?_⟩
    rw [render_append, List.append_assoc]
    exact h.begins.mono (by decide +kernel)

theorem call_takes {A Y W : List Piece} (hk : Key "CALL" k) (hN : ProcName X) (hA : Opt CallArgs A) (hY : Opt Yield Y)
    (hW : Opt (KeyExpr "WHERE") W) (ht : Begins nexts t) : Takes w (.nt .r_call_clause v) (k :: (X ++ (A ++ (Y ++ W)))) t := by
  have bW := fun hs => optKey_begins (x := "WHERE") hW (by decide +kernel) hs ht (by decide +kernel)
  refine .nt (.skip .blockStart (.seq (X := [k]) (fun _ => hk.takes (by decide +kernel) (by decide +kernel) ?_) ?_
    (texts_one (hk.text (by decide +kernel)))))
  · change Solid (render (X ++ _) ++ t)
    rw [render_append, List.append_assoc]; exact hN.solid
  have t1 : Takes w (.seq (.alt (.seq (.nt .r_WHERE none) (.nt .r_expression (some 3))) (.nt .r__null_ (some 3))) (.seq (.pred .blockEnd)
    (.act (.build .self .callClause [some 0, some 3])))) W t := .seqIdle (where_takes hW ht) .fin
  have t2 := yield_opt (ac := .seqAdd [2]) (ac' := .seqAdd [2]) (v1 := some 2) (v2 := some 2) hY t1 bW
  have t3 := args_opt (ac := .seqAdd [1]) (ac' := .seqAdd [1]) (v1 := some 1) (v2 := some 1) hA t2.1 t2.2
  exact .seq (fun hs => hN.takes ((t3.2 hs).solid (by decide +kernel)) ((t3.2 hs).undot (by decide +kernel))) t3.1 hN.texts

/-! ## MATCH -/

theorem match_body {ac ac' : Act} {H W : List Piece} {vp vh : Option Nat} (hP : Pattern X) (hH : Many Hint H) (hW : Opt (KeyExpr "WHERE") W)
    (ht : Begins nexts t) :
    Takes w (.seq (.nt .r_pattern vp) (.seq (.star (.seq (.nt .r_hint vh) (.act ac))) (.seq (.alt (.seq (.nt .r_WHERE none)
      (.nt .r_expression v)) (.nt .r__null_ v')) (.seq (.pred .blockEnd) (.act ac'))))) (X ++ (H ++ W)) t := by
  have hb := fun hs => optKey_begins (x := "WHERE") hW (by decide +kernel) hs ht (by decide +kernel)
  have hT : Takes w (.seq (.alt (.seq (.nt .r_WHERE none) (.nt .r_expression v)) (.nt .r__null_ v')) (.seq (.pred .blockEnd) (.act ac'))) W t :=
    .seqIdle (where_takes hW ht) .fin
  have hh := hints_takes (v := vh) (ac := ac) hH hT hb
  exact .seq (fun hs => hP.takes ((hh.2 hs).mono (by decide +kernel))) hh.1 hP.texts

theorem match_takes {H W : List Piece} (hk : Key "MATCH" k) (hP : Pattern X) (hH : Many Hint H) (hW : Opt (KeyExpr "WHERE") W)
    (ht : Begins nexts t) : Takes w (.nt .r_match_clause v) (k :: (X ++ (H ++ W))) t := by
  have hT : ∀ ac ac', Takes w _ (X ++ (H ++ W)) t := fun ac ac' =>
    match_body (ac := ac) (ac' := ac') (v := some 2) (v' := some 2) (vp := some 0) (vh := some 1) hP hH hW ht
  have tx := (hT (.seqAdd [1]) (.seqAdd [1])).texts
  exact .nt (.altR (fun hs => .skip .blockStart (.seq1 ((hk.begins (by decide +kernel) tx hs).refuses (by decide +kernel))))
    (.skip .blockStart (.seq (X := [k]) (fun hs => hk.takes (by decide +kernel) (by decide +kernel)
      (pattern_solid hP (fun x hx => tx x (List.mem_append_right _ hx)) hs))
      (hT _ _) (texts_one (hk.text (by decide +kernel))))))

theorem optional_takes {k' : Piece} {H W : List Piece} (hk : Key "OPTIONAL" k) (hk' : Key "MATCH" k') (hP : Pattern X) (hH : Many Hint H)
    (hW : Opt (KeyExpr "WHERE") W) (ht : Begins nexts t) : Takes w (.nt .r_match_clause v) (k :: k' :: (X ++ (H ++ W))) t := by
  have hT : ∀ ac ac', Takes w _ (X ++ (H ++ W)) t := fun ac ac' =>
    match_body (ac := ac) (ac' := ac') (v := some 2) (v' := some 2) (vp := some 0) (vh := some 1) hP hH hW ht
  have tx := (hT (.seqAdd [1]) (.seqAdd [1])).texts
  exact .nt (.altL (.skip .blockStart (.seq (X := [k, k']) (fun hs => hk.takes2 hk' (by decide +kernel) (by decide +kernel)
    (pattern_solid hP (fun x hx => tx x (List.mem_append_right _ hx)) hs)) (hT _ _)
    (texts_cons (hk.text (by decide +kernel)) (texts_one (hk'.text (by decide +kernel)))))))

end Verif.Stmts
