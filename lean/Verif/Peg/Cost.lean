import Verif.Peg.Syntax
/-!
# How many rules a parser applies

`Cost` is `Eval` with the number of calls of rule functions made on the way, those that fail included.
-/
namespace Verif.Peg

variable {R P A γ : Type}

/-- Evaluating an expression, as `Eval`, calls rules so many times. -/
inductive Cost (G : R → RuleDef R P A) (H : Host P A γ) : Expr R P A → St A γ → Res A γ → Nat → Prop
  | eps {s} : Cost G H .eps s (.ok s) 0
  | one_end {m s g'} : H.peek s.pos s.g = (none, g') →
      Cost G H (.one m) s (.fail { s with g := g' }) 0
  | one_ok {m s c g'} : H.peek s.pos s.g = (some c, g') → m.mem c = true →
      Cost G H (.one m) s (.ok { s with pos := s.pos + 1, g := g' }) 0
  | one_no {m s c g'} : H.peek s.pos s.g = (some c, g') → m.mem c = false →
      Cost G H (.one m) s (.fail { s with g := g' }) 0
  | str_ok {l s p g'} : matchStr H s.pos l s.pos s.g = (true, p, g') →
      Cost G H (.str l) s (.ok { s with pos := p, g := g' }) 0
  | str_no {l s p g'} : matchStr H s.pos l s.pos s.g = (false, p, g') →
      Cost G H (.str l) s (.fail { s with pos := p, g := g' }) 0
  | nt_ok {r var s s1 n1} : Cost G H (G r).body (s.enter (G r).nvars) (.ok s1) n1 →
      Cost G H (.nt r var) s (.ok (s1.leave (G r).nvars var)) (n1 + 1)
  | nt_no {r var s s1 n1} : Cost G H (G r).body (s.enter (G r).nvars) (.fail s1) n1 →
      Cost G H (.nt r var) s (.fail (s.restore s1)) (n1 + 1)
  | nt_fault {r var s f n1} : Cost G H (G r).body (s.enter (G r).nvars) (.fault f) n1 →
      Cost G H (.nt r var) s (.fault f) (n1 + 1)
  | seq_ok {a b s s1 r n1 n2} : Cost G H a s (.ok s1) n1 → Cost G H b s1 r n2 → Cost G H (.seq a b) s r (n1 + n2)
  | seq_no {a b s s1 n1} : Cost G H a s (.fail s1) n1 → Cost G H (.seq a b) s (.fail s1) n1
  | seq_fault {a b s f n1} : Cost G H a s (.fault f) n1 → Cost G H (.seq a b) s (.fault f) n1
  | alt_ok {a b s s1 n1} : Cost G H a s (.ok s1) n1 → Cost G H (.alt a b) s (.ok s1) n1
  | alt_no {a b s s1 r n1 n2} : Cost G H a s (.fail s1) n1 → Cost G H b (s.restore s1) r n2 →
      Cost G H (.alt a b) s r (n1 + n2)
  | alt_fault {a b s f n1} : Cost G H a s (.fault f) n1 → Cost G H (.alt a b) s (.fault f) n1
  | star_more {a s s1 r n1 n2} : Cost G H a s (.ok s1) n1 → Cost G H (.star a) s1 r n2 →
      Cost G H (.star a) s r (n1 + n2)
  | star_end {a s s1 n1} : Cost G H a s (.fail s1) n1 → Cost G H (.star a) s (.ok (s.restore s1)) n1
  | star_fault {a s f n1} : Cost G H a s (.fault f) n1 → Cost G H (.star a) s (.fault f) n1
  | peek_ok {a s s1 n1} : Cost G H a s (.ok s1) n1 → Cost G H (.peek a) s (.ok (s.restore s1)) n1
  | peek_no {a s s1 n1} : Cost G H a s (.fail s1) n1 → Cost G H (.peek a) s (.fail s1) n1
  | peek_fault {a s f n1} : Cost G H a s (.fault f) n1 → Cost G H (.peek a) s (.fault f) n1
  | npeek_ok {a s s1 n1} : Cost G H a s (.ok s1) n1 → Cost G H (.npeek a) s (.fail s1) n1
  | npeek_no {a s s1 n1} : Cost G H a s (.fail s1) n1 → Cost G H (.npeek a) s (.ok (s.restore s1)) n1
  | npeek_fault {a s f n1} : Cost G H a s (.fault f) n1 → Cost G H (.npeek a) s (.fault f) n1
  | pred_ok {p s g' ts} : H.pred p s.pos s.g = .ok (true, g', ts) →
      Cost G H (.pred p) s (.ok { s with thunks := ts ++ s.thunks, g := g' }) 0
  | pred_no {p s g' ts} : H.pred p s.pos s.g = .ok (false, g', ts) →
      Cost G H (.pred p) s (.fail { s with thunks := ts ++ s.thunks, g := g' }) 0
  | pred_fault {p s f} : H.pred p s.pos s.g = .error f → Cost G H (.pred p) s (.fault f) 0
  | act {a s} : Cost G H (.act a) s (.ok { s with thunks := .act a s.pos :: s.thunks }) 0
  | onfail_ok {a p s s1 n1} : Cost G H a s (.ok s1) n1 → Cost G H (.onfail a p) s (.ok s1) n1
  | onfail_no {a p s s1 b g' ts n1} : Cost G H a s (.fail s1) n1 →
      H.pred p s1.pos s1.g = .ok (b, g', ts) →
      Cost G H (.onfail a p) s (.fail { s1 with thunks := ts ++ s1.thunks, g := g' }) n1
  | onfail_no_fault {a p s s1 f n1} : Cost G H a s (.fail s1) n1 → H.pred p s1.pos s1.g = .error f →
      Cost G H (.onfail a p) s (.fault f) n1
  | onfail_fault {a p s f n1} : Cost G H a s (.fault f) n1 → Cost G H (.onfail a p) s (.fault f) n1

theorem Cost.eval {G : R → RuleDef R P A} {H : Host P A γ} {e : Expr R P A} {s : St A γ} {r : Res A γ} {n : Nat}
    (h : Cost G H e s r n) : Eval G H e s r := by
  induction h with
  | eps => exact .eps
  | one_end h0 => exact .one_end h0
  | one_ok h0 h1 => exact .one_ok h0 h1
  | one_no h0 h1 => exact .one_no h0 h1
  | str_ok h0 => exact .str_ok h0
  | str_no h0 => exact .str_no h0
  | nt_ok _ ih1 => exact .nt_ok ih1
  | nt_no _ ih1 => exact .nt_no ih1
  | nt_fault _ ih1 => exact .nt_fault ih1
  | seq_ok _ _ ih1 ih2 => exact .seq_ok ih1 ih2
  | seq_no _ ih1 => exact .seq_no ih1
  | seq_fault _ ih1 => exact .seq_fault ih1
  | alt_ok _ ih1 => exact .alt_ok ih1
  | alt_no _ _ ih1 ih2 => exact .alt_no ih1 ih2
  | alt_fault _ ih1 => exact .alt_fault ih1
  | star_more _ _ ih1 ih2 => exact .star_more ih1 ih2
  | star_end _ ih1 => exact .star_end ih1
  | star_fault _ ih1 => exact .star_fault ih1
  | peek_ok _ ih1 => exact .peek_ok ih1
  | peek_no _ ih1 => exact .peek_no ih1
  | peek_fault _ ih1 => exact .peek_fault ih1
  | npeek_ok _ ih1 => exact .npeek_ok ih1
  | npeek_no _ ih1 => exact .npeek_no ih1
  | npeek_fault _ ih1 => exact .npeek_fault ih1
  | pred_ok h0 => exact .pred_ok h0
  | pred_no h0 => exact .pred_no h0
  | pred_fault h0 => exact .pred_fault h0
  | act => exact .act
  | onfail_ok _ ih1 => exact .onfail_ok ih1
  | onfail_no _ h0 ih1 => exact .onfail_no ih1 h0
  | onfail_no_fault _ h0 ih1 => exact .onfail_no_fault ih1 h0
  | onfail_fault _ ih1 => exact .onfail_fault ih1

/-- Every evaluation has a cost. -/
theorem Eval.cost {G : R → RuleDef R P A} {H : Host P A γ} {e : Expr R P A} {s : St A γ} {r : Res A γ}
    (h : Eval G H e s r) : ∃ n, Cost G H e s r n := by
  induction h with
  | eps => exact ⟨_, .eps⟩
  | one_end h0 => exact ⟨_, .one_end h0⟩
  | one_ok h0 h1 => exact ⟨_, .one_ok h0 h1⟩
  | one_no h0 h1 => exact ⟨_, .one_no h0 h1⟩
  | str_ok h0 => exact ⟨_, .str_ok h0⟩
  | str_no h0 => exact ⟨_, .str_no h0⟩
  | nt_ok _ ih1 => exact ⟨_, .nt_ok ih1.choose_spec⟩
  | nt_no _ ih1 => exact ⟨_, .nt_no ih1.choose_spec⟩
  | nt_fault _ ih1 => exact ⟨_, .nt_fault ih1.choose_spec⟩
  | seq_ok _ _ ih1 ih2 => exact ⟨_, .seq_ok ih1.choose_spec ih2.choose_spec⟩
  | seq_no _ ih1 => exact ⟨_, .seq_no ih1.choose_spec⟩
  | seq_fault _ ih1 => exact ⟨_, .seq_fault ih1.choose_spec⟩
  | alt_ok _ ih1 => exact ⟨_, .alt_ok ih1.choose_spec⟩
  | alt_no _ _ ih1 ih2 => exact ⟨_, .alt_no ih1.choose_spec ih2.choose_spec⟩
  | alt_fault _ ih1 => exact ⟨_, .alt_fault ih1.choose_spec⟩
  | star_more _ _ ih1 ih2 => exact ⟨_, .star_more ih1.choose_spec ih2.choose_spec⟩
  | star_end _ ih1 => exact ⟨_, .star_end ih1.choose_spec⟩
  | star_fault _ ih1 => exact ⟨_, .star_fault ih1.choose_spec⟩
  | peek_ok _ ih1 => exact ⟨_, .peek_ok ih1.choose_spec⟩
  | peek_no _ ih1 => exact ⟨_, .peek_no ih1.choose_spec⟩
  | peek_fault _ ih1 => exact ⟨_, .peek_fault ih1.choose_spec⟩
  | npeek_ok _ ih1 => exact ⟨_, .npeek_ok ih1.choose_spec⟩
  | npeek_no _ ih1 => exact ⟨_, .npeek_no ih1.choose_spec⟩
  | npeek_fault _ ih1 => exact ⟨_, .npeek_fault ih1.choose_spec⟩
  | pred_ok h0 => exact ⟨_, .pred_ok h0⟩
  | pred_no h0 => exact ⟨_, .pred_no h0⟩
  | pred_fault h0 => exact ⟨_, .pred_fault h0⟩
  | act => exact ⟨_, .act⟩
  | onfail_ok _ ih1 => exact ⟨_, .onfail_ok ih1.choose_spec⟩
  | onfail_no _ h0 ih1 => exact ⟨_, .onfail_no ih1.choose_spec h0⟩
  | onfail_no_fault _ h0 ih1 => exact ⟨_, .onfail_no_fault ih1.choose_spec h0⟩
  | onfail_fault _ ih1 => exact ⟨_, .onfail_fault ih1.choose_spec⟩

/-- It has only one. -/
theorem Cost.unique {G : R → RuleDef R P A} {H : Host P A γ} {e : Expr R P A} {s : St A γ} {r : Res A γ} {n : Nat}
    (h : Cost G H e s r n) : ∀ r' n', Cost G H e s r' n' → r = r' ∧ n = n' := by
  induction h with
  | eps => intro r' n' h; cases h; exact ⟨rfl, rfl⟩
  | one_end h0 => intro r' n' h; cases h <;> simp_all
  | one_ok h0 h0' => intro r' n' h; cases h <;> simp_all
  | one_no h0 h0' => intro r' n' h; cases h <;> simp_all
  | str_ok h0 => intro r' n' h; cases h <;> simp_all
  | str_no h0 => intro r' n' h; cases h <;> simp_all
  | nt_ok _ ih1 =>
    intro r' n' h
    cases h with
    | nt_ok h1 =>
      obtain ⟨e, rfl⟩ := ih1 _ _ h1; cases e
      exact ⟨rfl, rfl⟩
    | nt_no h1 =>
      cases (ih1 _ _ h1).1
    | nt_fault h1 =>
      cases (ih1 _ _ h1).1
  | nt_no _ ih1 =>
    intro r' n' h
    cases h with
    | nt_ok h1 =>
      cases (ih1 _ _ h1).1
    | nt_no h1 =>
      obtain ⟨e, rfl⟩ := ih1 _ _ h1; cases e
      exact ⟨rfl, rfl⟩
    | nt_fault h1 =>
      cases (ih1 _ _ h1).1
  | nt_fault _ ih1 =>
    intro r' n' h
    cases h with
    | nt_ok h1 =>
      cases (ih1 _ _ h1).1
    | nt_no h1 =>
      cases (ih1 _ _ h1).1
    | nt_fault h1 =>
      obtain ⟨e, rfl⟩ := ih1 _ _ h1; cases e
      exact ⟨rfl, rfl⟩
  | seq_ok _ _ ih1 ih2 =>
    intro r' n' h
    cases h with
    | seq_ok h1 h2 =>
      obtain ⟨e, rfl⟩ := ih1 _ _ h1; cases e
      obtain ⟨rfl, rfl⟩ := ih2 _ _ h2; exact ⟨rfl, rfl⟩
    | seq_no h1 =>
      cases (ih1 _ _ h1).1
    | seq_fault h1 =>
      cases (ih1 _ _ h1).1
  | seq_no _ ih1 =>
    intro r' n' h
    cases h with
    | seq_ok h1 h2 =>
      cases (ih1 _ _ h1).1
    | seq_no h1 =>
      obtain ⟨e, rfl⟩ := ih1 _ _ h1; cases e
      exact ⟨rfl, rfl⟩
    | seq_fault h1 =>
      cases (ih1 _ _ h1).1
  | seq_fault _ ih1 =>
    intro r' n' h
    cases h with
    | seq_ok h1 h2 =>
      cases (ih1 _ _ h1).1
    | seq_no h1 =>
      cases (ih1 _ _ h1).1
    | seq_fault h1 =>
      obtain ⟨e, rfl⟩ := ih1 _ _ h1; cases e
      exact ⟨rfl, rfl⟩
  | alt_ok _ ih1 =>
    intro r' n' h
    cases h with
    | alt_ok h1 =>
      obtain ⟨e, rfl⟩ := ih1 _ _ h1; cases e
      exact ⟨rfl, rfl⟩
    | alt_no h1 h2 =>
      cases (ih1 _ _ h1).1
    | alt_fault h1 =>
      cases (ih1 _ _ h1).1
  | alt_no _ _ ih1 ih2 =>
    intro r' n' h
    cases h with
    | alt_ok h1 =>
      cases (ih1 _ _ h1).1
    | alt_no h1 h2 =>
      obtain ⟨e, rfl⟩ := ih1 _ _ h1; cases e
      obtain ⟨rfl, rfl⟩ := ih2 _ _ h2; exact ⟨rfl, rfl⟩
    | alt_fault h1 =>
      cases (ih1 _ _ h1).1
  | alt_fault _ ih1 =>
    intro r' n' h
    cases h with
    | alt_ok h1 =>
      cases (ih1 _ _ h1).1
    | alt_no h1 h2 =>
      cases (ih1 _ _ h1).1
    | alt_fault h1 =>
      obtain ⟨e, rfl⟩ := ih1 _ _ h1; cases e
      exact ⟨rfl, rfl⟩
  | star_more _ _ ih1 ih2 =>
    intro r' n' h
    cases h with
    | star_more h1 h2 =>
      obtain ⟨e, rfl⟩ := ih1 _ _ h1; cases e
      obtain ⟨rfl, rfl⟩ := ih2 _ _ h2; exact ⟨rfl, rfl⟩
    | star_end h1 =>
      cases (ih1 _ _ h1).1
    | star_fault h1 =>
      cases (ih1 _ _ h1).1
  | star_end _ ih1 =>
    intro r' n' h
    cases h with
    | star_more h1 h2 =>
      cases (ih1 _ _ h1).1
    | star_end h1 =>
      obtain ⟨e, rfl⟩ := ih1 _ _ h1; cases e
      exact ⟨rfl, rfl⟩
    | star_fault h1 =>
      cases (ih1 _ _ h1).1
  | star_fault _ ih1 =>
    intro r' n' h
    cases h with
    | star_more h1 h2 =>
      cases (ih1 _ _ h1).1
    | star_end h1 =>
      cases (ih1 _ _ h1).1
    | star_fault h1 =>
      obtain ⟨e, rfl⟩ := ih1 _ _ h1; cases e
      exact ⟨rfl, rfl⟩
  | peek_ok _ ih1 =>
    intro r' n' h
    cases h with
    | peek_ok h1 =>
      obtain ⟨e, rfl⟩ := ih1 _ _ h1; cases e
      exact ⟨rfl, rfl⟩
    | peek_no h1 =>
      cases (ih1 _ _ h1).1
    | peek_fault h1 =>
      cases (ih1 _ _ h1).1
  | peek_no _ ih1 =>
    intro r' n' h
    cases h with
    | peek_ok h1 =>
      cases (ih1 _ _ h1).1
    | peek_no h1 =>
      obtain ⟨e, rfl⟩ := ih1 _ _ h1; cases e
      exact ⟨rfl, rfl⟩
    | peek_fault h1 =>
      cases (ih1 _ _ h1).1
  | peek_fault _ ih1 =>
    intro r' n' h
    cases h with
    | peek_ok h1 =>
      cases (ih1 _ _ h1).1
    | peek_no h1 =>
      cases (ih1 _ _ h1).1
    | peek_fault h1 =>
      obtain ⟨e, rfl⟩ := ih1 _ _ h1; cases e
      exact ⟨rfl, rfl⟩
  | npeek_ok _ ih1 =>
    intro r' n' h
    cases h with
    | npeek_ok h1 =>
      obtain ⟨e, rfl⟩ := ih1 _ _ h1; cases e
      exact ⟨rfl, rfl⟩
    | npeek_no h1 =>
      cases (ih1 _ _ h1).1
    | npeek_fault h1 =>
      cases (ih1 _ _ h1).1
  | npeek_no _ ih1 =>
    intro r' n' h
    cases h with
    | npeek_ok h1 =>
      cases (ih1 _ _ h1).1
    | npeek_no h1 =>
      obtain ⟨e, rfl⟩ := ih1 _ _ h1; cases e
      exact ⟨rfl, rfl⟩
    | npeek_fault h1 =>
      cases (ih1 _ _ h1).1
  | npeek_fault _ ih1 =>
    intro r' n' h
    cases h with
    | npeek_ok h1 =>
      cases (ih1 _ _ h1).1
    | npeek_no h1 =>
      cases (ih1 _ _ h1).1
    | npeek_fault h1 =>
      obtain ⟨e, rfl⟩ := ih1 _ _ h1; cases e
      exact ⟨rfl, rfl⟩
  | pred_ok h0 => intro r' n' h; cases h <;> simp_all
  | pred_no h0 => intro r' n' h; cases h <;> simp_all
  | pred_fault h0 => intro r' n' h; cases h <;> simp_all
  | act => intro r' n' h; cases h; exact ⟨rfl, rfl⟩
  | onfail_ok _ ih1 =>
    intro r' n' h
    cases h with
    | onfail_ok h1 =>
      obtain ⟨e, rfl⟩ := ih1 _ _ h1; cases e
      exact ⟨rfl, rfl⟩
    | onfail_no h1 h2 =>
      cases (ih1 _ _ h1).1
    | onfail_no_fault h1 h2 =>
      cases (ih1 _ _ h1).1
    | onfail_fault h1 =>
      cases (ih1 _ _ h1).1
  | onfail_no _ h0 ih1 =>
    intro r' n' h
    cases h with
    | onfail_ok h1 =>
      cases (ih1 _ _ h1).1
    | onfail_no h1 h2 =>
      obtain ⟨e, rfl⟩ := ih1 _ _ h1; cases e
      simp_all
    | onfail_no_fault h1 h2 =>
      obtain ⟨e, rfl⟩ := ih1 _ _ h1; cases e; simp_all
    | onfail_fault h1 =>
      cases (ih1 _ _ h1).1
  | onfail_no_fault _ h0 ih1 =>
    intro r' n' h
    cases h with
    | onfail_ok h1 =>
      cases (ih1 _ _ h1).1
    | onfail_no h1 h2 =>
      obtain ⟨e, rfl⟩ := ih1 _ _ h1; cases e; simp_all
    | onfail_no_fault h1 h2 =>
      obtain ⟨e, rfl⟩ := ih1 _ _ h1; cases e
      simp_all
    | onfail_fault h1 =>
      cases (ih1 _ _ h1).1
  | onfail_fault _ ih1 =>
    intro r' n' h
    cases h with
    | onfail_ok h1 =>
      cases (ih1 _ _ h1).1
    | onfail_no h1 h2 =>
      cases (ih1 _ _ h1).1
    | onfail_no_fault h1 h2 =>
      cases (ih1 _ _ h1).1
    | onfail_fault h1 =>
      obtain ⟨e, rfl⟩ := ih1 _ _ h1; cases e
      exact ⟨rfl, rfl⟩

end Verif.Peg
