import Verif.Peg.Lines
/-!
# Generated parsers: the predicates evaluated during a run

`Called G H e s x p g`: while `e` is evaluated from `s`, predicate `x` is evaluated at position `p` in
state `g`. Facts about every such call are what rules out faults.
-/
namespace Verif.Peg
variable {R P A γ : Type}

inductive Called (G : R → RuleDef R P A) (H : Host P A γ) :
    Expr R P A → St A γ → P → Nat → γ → Prop
  | pred {x s} : Called G H (.pred x) s x s.pos s.g
  | nt {r v s x p g} : Called G H (G r).body (s.enter (G r).nvars) x p g →
      Called G H (.nt r v) s x p g
  | seq_l {a b s x p g} : Called G H a s x p g → Called G H (.seq a b) s x p g
  | seq_r {a b s s1 x p g} : Eval G H a s (.ok s1) → Called G H b s1 x p g →
      Called G H (.seq a b) s x p g
  | alt_l {a b s x p g} : Called G H a s x p g → Called G H (.alt a b) s x p g
  | alt_r {a b s s1 x p g} : Eval G H a s (.fail s1) → Called G H b (s.restore s1) x p g →
      Called G H (.alt a b) s x p g
  | star_l {a s x p g} : Called G H a s x p g → Called G H (.star a) s x p g
  | star_r {a s s1 x p g} : Eval G H a s (.ok s1) → Called G H (.star a) s1 x p g →
      Called G H (.star a) s x p g
  | peek {a s x p g} : Called G H a s x p g → Called G H (.peek a) s x p g
  | npeek {a s x p g} : Called G H a s x p g → Called G H (.npeek a) s x p g
  | onfail_l {a y s x p g} : Called G H a s x p g → Called G H (.onfail a y) s x p g
  | onfail_r {a y s s1} : Eval G H a s (.fail s1) → Called G H (.onfail a y) s y s1.pos s1.g

/-- A fault comes from a predicate. -/
theorem Eval.fault_called {G : R → RuleDef R P A} {H : Host P A γ} {e : Expr R P A} {s : St A γ}
    {r : Res A γ} (h : Eval G H e s r) : ∀ f, r = .fault f →
    ∃ x p g, Called G H e s x p g ∧ H.pred x p g = .error f := by
  induction h with
  | nt_fault _ ih => intro f hf; obtain ⟨x, p, g, h1, h2⟩ := ih f hf; exact ⟨x, p, g, .nt h1, h2⟩
  | seq_ok h0 _ _ ih =>
    intro f hf; obtain ⟨x, p, g, h1, h2⟩ := ih f hf; exact ⟨x, p, g, .seq_r h0 h1, h2⟩
  | seq_fault _ ih => intro f hf; obtain ⟨x, p, g, h1, h2⟩ := ih f hf; exact ⟨x, p, g, .seq_l h1, h2⟩
  | alt_no h0 _ _ ih =>
    intro f hf; obtain ⟨x, p, g, h1, h2⟩ := ih f hf; exact ⟨x, p, g, .alt_r h0 h1, h2⟩
  | alt_fault _ ih => intro f hf; obtain ⟨x, p, g, h1, h2⟩ := ih f hf; exact ⟨x, p, g, .alt_l h1, h2⟩
  | star_more h0 _ _ ih =>
    intro f hf; obtain ⟨x, p, g, h1, h2⟩ := ih f hf; exact ⟨x, p, g, .star_r h0 h1, h2⟩
  | star_fault _ ih => intro f hf; obtain ⟨x, p, g, h1, h2⟩ := ih f hf; exact ⟨x, p, g, .star_l h1, h2⟩
  | peek_fault _ ih => intro f hf; obtain ⟨x, p, g, h1, h2⟩ := ih f hf; exact ⟨x, p, g, .peek h1, h2⟩
  | npeek_fault _ ih => intro f hf; obtain ⟨x, p, g, h1, h2⟩ := ih f hf; exact ⟨x, p, g, .npeek h1, h2⟩
  | pred_fault h => intro f hf; cases hf; exact ⟨_, _, _, .pred, h⟩
  | onfail_no_fault h0 h => intro f hf; cases hf; exact ⟨_, _, _, .onfail_r h0, h⟩
  | onfail_fault _ ih =>
    intro f hf; obtain ⟨x, p, g, h1, h2⟩ := ih f hf; exact ⟨x, p, g, .onfail_l h1, h2⟩
  | _ => intro f hf; cases hf

/-! ## Invariants of the host's state -/

theorem matchStr_pres {H : Host P A γ} {Q : γ → Prop} (hpk : ∀ p g, Q g → Q (H.peek p g).2)
    {start : Nat} : ∀ (l : List UInt8) (p : Nat) (g : γ), Q g → Q (matchStr H start l p g).2.2 := by
  intro l
  induction l with
  | nil => intro p g h; exact h
  | cons c cs ih =>
    intro p g h
    have h1 := hpk p g h
    simp only [matchStr]
    split
    · rename_i heq; rw [heq] at h1; exact h1
    · rename_i heq
      rw [heq] at h1
      split
      · exact ih _ _ h1
      · exact h1

/-- What reading and all predicates evaluated preserve is preserved. -/
theorem Eval.pres {G : R → RuleDef R P A} {H : Host P A γ} {Q : γ → Prop}
    (hpk : ∀ p g, Q g → Q (H.peek p g).2) {e : Expr R P A} {s : St A γ} {r : Res A γ}
    (h : Eval G H e s r) (hc : ∀ x p g, Called G H e s x p g → Q g →
      ∀ b g' ts, H.pred x p g = .ok (b, g', ts) → Q g') (hq : Q s.g) : ∀ g ∈ r.g?, Q g := by
  induction h with
  | eps => rintro g ⟨⟩; exact hq
  | @one_end m s g' hp => rintro g ⟨⟩; have := hpk s.pos _ hq; rwa [hp] at this
  | @one_no m s c g' hp _ => rintro g ⟨⟩; have := hpk s.pos _ hq; rwa [hp] at this
  | @one_ok m s c g' hp _ => rintro g ⟨⟩; have := hpk s.pos _ hq; rwa [hp] at this
  | @str_ok l s p g' hm =>
    rintro g ⟨⟩; have := matchStr_pres hpk (start := s.pos) l s.pos s.g hq; rwa [hm] at this
  | @str_no l s p g' hm =>
    rintro g ⟨⟩; have := matchStr_pres hpk (start := s.pos) l s.pos s.g hq; rwa [hm] at this
  | nt_ok _ ih =>
    rintro g ⟨⟩; rw [St.leave_g]
    exact ih (fun x p g hx => hc x p g (.nt hx)) (by simpa using hq) _ rfl
  | nt_no _ ih =>
    rintro g ⟨⟩; exact ih (fun x p g hx => hc x p g (.nt hx)) (by simpa using hq) _ rfl
  | nt_fault => rintro g ⟨⟩
  | seq_ok h0 _ ih1 ih2 =>
    exact ih2 (fun x p g hx => hc x p g (.seq_r h0 hx))
      (ih1 (fun x p g hx => hc x p g (.seq_l hx)) hq _ rfl)
  | seq_no _ ih => exact ih (fun x p g hx => hc x p g (.seq_l hx)) hq
  | seq_fault => rintro g ⟨⟩
  | alt_ok _ ih => exact ih (fun x p g hx => hc x p g (.alt_l hx)) hq
  | alt_no h0 _ ih1 ih2 =>
    exact ih2 (fun x p g hx => hc x p g (.alt_r h0 hx))
      (ih1 (fun x p g hx => hc x p g (.alt_l hx)) hq _ rfl)
  | alt_fault => rintro g ⟨⟩
  | star_more h0 _ ih1 ih2 =>
    exact ih2 (fun x p g hx => hc x p g (.star_r h0 hx))
      (ih1 (fun x p g hx => hc x p g (.star_l hx)) hq _ rfl)
  | star_end _ ih => rintro g ⟨⟩; exact ih (fun x p g hx => hc x p g (.star_l hx)) hq _ rfl
  | star_fault => rintro g ⟨⟩
  | peek_ok _ ih => rintro g ⟨⟩; exact ih (fun x p g hx => hc x p g (.peek hx)) hq _ rfl
  | peek_no _ ih => exact ih (fun x p g hx => hc x p g (.peek hx)) hq
  | peek_fault => rintro g ⟨⟩
  | npeek_ok _ ih => rintro g ⟨⟩; exact ih (fun x p g hx => hc x p g (.npeek hx)) hq _ rfl
  | npeek_no _ ih => rintro g ⟨⟩; exact ih (fun x p g hx => hc x p g (.npeek hx)) hq _ rfl
  | npeek_fault => rintro g ⟨⟩
  | pred_ok h => rintro g ⟨⟩; exact hc _ _ _ .pred hq _ _ _ h
  | pred_no h => rintro g ⟨⟩; exact hc _ _ _ .pred hq _ _ _ h
  | pred_fault => rintro g ⟨⟩
  | act => rintro g ⟨⟩; exact hq
  | onfail_ok _ ih => exact ih (fun x p g hx => hc x p g (.onfail_l hx)) hq
  | onfail_no h0 h ih =>
    rintro g ⟨⟩
    exact hc _ _ _ (.onfail_r h0) (ih (fun x p g hx => hc x p g (.onfail_l hx)) hq _ rfl) _ _ _ h
  | onfail_no_fault => rintro g ⟨⟩
  | onfail_fault => rintro g ⟨⟩

/-- The invariant holds at every call. -/
theorem Called.pres {G : R → RuleDef R P A} {H : Host P A γ} {Q : γ → Prop}
    (hpk : ∀ p g, Q g → Q (H.peek p g).2) {e : Expr R P A} {s : St A γ} {x : P} {p : Nat} {g : γ}
    (h : Called G H e s x p g) (hc : ∀ x p g, Called G H e s x p g → Q g →
      ∀ b g' ts, H.pred x p g = .ok (b, g', ts) → Q g') (hq : Q s.g) : Q g := by
  induction h with
  | pred => exact hq
  | nt _ ih => exact ih (fun x p g hx => hc x p g (.nt hx)) (by simpa using hq)
  | seq_l _ ih => exact ih (fun x p g hx => hc x p g (.seq_l hx)) hq
  | seq_r h0 _ ih =>
    exact ih (fun x p g hx => hc x p g (.seq_r h0 hx))
      (h0.pres hpk (fun x p g hx => hc x p g (.seq_l hx)) hq _ rfl)
  | alt_l _ ih => exact ih (fun x p g hx => hc x p g (.alt_l hx)) hq
  | alt_r h0 _ ih =>
    exact ih (fun x p g hx => hc x p g (.alt_r h0 hx))
      (h0.pres hpk (fun x p g hx => hc x p g (.alt_l hx)) hq _ rfl)
  | star_l _ ih => exact ih (fun x p g hx => hc x p g (.star_l hx)) hq
  | star_r h0 _ ih =>
    exact ih (fun x p g hx => hc x p g (.star_r h0 hx))
      (h0.pres hpk (fun x p g hx => hc x p g (.star_l hx)) hq _ rfl)
  | peek _ ih => exact ih (fun x p g hx => hc x p g (.peek hx)) hq
  | npeek _ ih => exact ih (fun x p g hx => hc x p g (.npeek hx)) hq
  | onfail_l _ ih => exact ih (fun x p g hx => hc x p g (.onfail_l hx)) hq
  | onfail_r h0 => exact h0.pres hpk (fun x p g hx => hc x p g (.onfail_l hx)) hq _ rfl

/-- Calls happen at or after the starting position. -/
theorem Called.good {G : R → RuleDef R P A} {H : Host P A γ} {w : List UInt8} {I : Nat → γ → Prop}
    (hr : ReadsAs H w I) {e : Expr R P A} {s : St A γ} {x : P} {p : Nat} {g : γ}
    (h : Called G H e s x p g) (hi : I s.pos s.g) : s.pos ≤ p ∧ I p g := by
  induction h with
  | pred => exact ⟨Nat.le_refl _, hi⟩
  | nt _ ih => have := ih (by simpa using hi); simpa using this
  | seq_l _ ih => exact ih hi
  | seq_r h0 _ ih =>
    have hg := h0.good hr hi
    have := ih hg.2
    exact ⟨Nat.le_trans hg.1 this.1, this.2⟩
  | alt_l _ ih => exact ih hi
  | alt_r h0 _ ih =>
    have hg := h0.good hr hi
    exact ih (hr.down hg.2 hg.1)
  | star_l _ ih => exact ih hi
  | star_r h0 _ ih =>
    have hg := h0.good hr hi
    have := ih hg.2
    exact ⟨Nat.le_trans hg.1 this.1, this.2⟩
  | peek _ ih => exact ih hi
  | npeek _ ih => exact ih hi
  | onfail_l _ ih => exact ih hi
  | onfail_r h0 => have hg := h0.good hr hi; exact hg

/-! ## Line starts at calls -/

theorem Called.quiet {G : R → RuleDef R P A} {H : Host P A γ} {c : LCfg R P}
    (hq : ∀ r, c.quiet r = true → quietE c (G r).body = true)
    {e : Expr R P A} {s : St A γ} {x : P} {p : Nat} {g : γ} (h : Called G H e s x p g)
    (he : quietE c e = true) : c.kind x = .keep := by
  induction h with
  | pred => simpa [quietE] using he
  | nt _ ih => exact ih (hq _ he)
  | seq_l _ ih => simp only [quietE, Bool.and_eq_true] at he; exact ih he.1
  | seq_r _ _ ih => simp only [quietE, Bool.and_eq_true] at he; exact ih he.2
  | alt_l _ ih => simp only [quietE, Bool.and_eq_true] at he; exact ih he.1
  | alt_r _ _ ih => simp only [quietE, Bool.and_eq_true] at he; exact ih he.2
  | star_l _ ih => exact ih he
  | star_r _ _ ih => exact ih he
  | peek _ ih => exact ih he
  | npeek _ ih => exact ih he
  | onfail_l _ ih => simp only [quietE, Bool.and_eq_true] at he; exact ih he.1
  | onfail_r _ => simp only [quietE, Bool.and_eq_true, beq_iff_eq] at he; exact he.2

/-- Whenever `backtrack_lines` is called, the line starts are right for the position. -/
theorem Called.lines {G : R → RuleDef R P A} {H : Host P A γ} {w : List UInt8}
    [DecidableEq R] [DecidableEq P] [DecidableEq A]
    {I : Nat → γ → Prop} (hr : ReadsAs H w I) {lines : γ → List Nat} {c : LCfg R P}
    (hl : LineHost H lines c.kind) {ls : R} (hG : ∀ r, lineOk c ls G r = true)
    (hls : c.eol ls = false)
    (hdead : ∀ x ∈ w, c.dead.mem x = false)
    (hsure : ∀ x p g b g' ts, c.sure x = true → H.pred x p g = .ok (b, g', ts) → b = true)
    {e : Expr R P A} {s : St A γ} {x : P} {p : Nat} {g : γ} (h : Called G H e s x p g)
    (hx : c.kind x = .back)
    (hi : I s.pos s.g) (hinv : LInv w s.pos (lines s.g)) :
    ∀ f ≤ 2, LFact w f s.pos (lines s.g) → ((lineTr c e).get f).safe = true →
      LInv w p (lines g) := by
  have hq : ∀ r, c.quiet r = true → quietE c (G r).body = true := by
    intro r h
    have := hG r
    simp only [lineOk, h, cond_true, Bool.and_eq_true] at this
    exact this.1
  have hlsb : ∀ x', Called G H (G ls).body s x' p g → c.kind x' ≠ .back := by
    intro x' h
    have h1 := hG ls
    simp only [lineOk, hls, cond_false, decide_true, cond_true, Bool.and_eq_true] at h1
    have h2 := h1.2.2
    split at h2
    · rename_i q hb
      rw [hb] at h
      cases h
      simp only [beq_iff_eq] at h2
      rw [h2]; simp
    · simp at h2
  clear hlsb
  induction h with
  | pred => intro f hf hfact hs; exact hinv
  | @nt r v s x p g hcl ih =>
    intro f hf hfact hs
    have h1 := hG r
    cases he : c.eol r with
    | true =>
      exfalso
      simp only [lineOk, he, cond_true, Bool.and_eq_true, isEolBody, decide_eq_true_eq] at h1
      rw [h1.2] at hcl
      cases hcl with
      | seq_l h2 =>
        cases h2 with
        | alt_l h3 => cases h3
        | alt_r _ h3 => cases h3
      | seq_r _ h2 =>
        cases h2 with
        | nt h3 =>
          have h4 := hG ls
          simp only [lineOk, hls, cond_false, decide_true, cond_true, Bool.and_eq_true] at h4
          have h5 := h4.2.2
          split at h5
          · rename_i q hb
            rw [hb] at h3
            cases h3
            simp only [beq_iff_eq] at h5
            rw [h5] at hx; simp at hx
          · simp at h5
    | false =>
      rw [lineTr, LRes3.get_mk' _ hf, he] at hs
      simp only [cond_false, decide_eq_true_eq] at hs
      simp only [lineOk, he, cond_false, Bool.and_eq_true] at h1
      by_cases hrl : r = ls
      · subst hrl
        simp only [decide_true, cond_true, Bool.and_eq_true, beq_iff_eq] at h1
        omega
      · rw [decide_eq_false hrl] at h1
        simp only [cond_false, Bool.and_eq_true, LRes.meets] at h1
        refine ih hx (by simpa using hi) (by simpa using hinv) (c.sum r).pre ?_
          (by simpa using hfact.mono hs) h1.2.1.1.1.1.1
        simpa using h1.2.2
  | seq_l _ ih =>
    intro f hf hfact hs
    rw [lineTr, LRes3.get_mk' _ hf] at hs
    simp only [LRes.seq, Bool.and_eq_true] at hs
    exact ih hx hi hinv f hf hfact hs.1.1
  | @seq_r a b s s1 x p g h0 _ ih =>
    intro f hf hfact hs
    rw [lineTr, LRes3.get_mk' _ hf] at hs
    simp only [LRes.seq, Bool.and_eq_true] at hs
    have hgd := h0.good hr hi
    obtain ⟨j1, j2, j3⟩ := h0.lines hr hl hG hls hdead hsure hi hinv f hf hfact hs.1.1
    have clamp : ∀ e, ((lineTr c b).get e).safe = true → LFact w e s1.pos (lines s1.g) →
        LInv w p (lines g) := by
      intro e h1 h2
      by_cases he : e ≤ 2
      · exact ih hx hgd.2 j1 e he h2 h1
      · have h3 : (lineTr c b).get e = (lineTr c b).get 2 := by
          rcases e with _ | _ | _ | e
          · omega
          · omega
          · omega
          · rfl
        rw [h3] at h1
        exact ih hx hgd.2 j1 2 (Nat.le_refl _) (h2.mono (by omega)) h1
    rcases Nat.lt_or_eq_of_le hgd.1 with hlt | heq
    · obtain ⟨e, st, k1, k2, k3⟩ := j3 hlt
      have h2 := hs.2
      rw [k1] at h2
      exact clamp e h2 k2
    · obtain ⟨e, k1, k2⟩ := j2 heq.symm
      have h2 := hs.1.2
      rw [k1] at h2
      rw [heq] at k2
      exact clamp e h2 k2
  | @alt_l a b s x p g _ ih =>
    intro f hf hfact hs
    rw [lineTr, LRes3.get_mk' _ hf] at hs
    refine ih hx hi hinv f hf hfact ?_
    simp only [LRes.alt] at hs
    split at hs
    · exact hs
    · simp only [Bool.and_eq_true] at hs; exact hs.1
  | @alt_r a b s s1 x p g h0 _ ih =>
    intro f hf hfact hs
    rw [lineTr, LRes3.get_mk' _ hf] at hs
    have hgd := h0.good hr hi
    have hsa : ((lineTr c a).get f).safe = true := by
      simp only [LRes.alt] at hs
      split at hs
      · exact hs
      · simp only [Bool.and_eq_true] at hs; exact hs.1
    obtain ⟨l1, f', b', l2, l3, -⟩ := h0.lines hr hl hG hls hdead hsure hi hinv f hf hfact hsa
    simp only [LRes.alt, l2, Bool.and_eq_true] at hs
    have hi' : I (s.restore s1).pos (s.restore s1).g := hr.down hgd.2 hgd.1
    by_cases he : f' ≤ 2
    · exact ih hx hi' l1 f' he l3 hs.2
    · have h3 : (lineTr c b).get f' = (lineTr c b).get 2 := by
        rcases f' with _ | _ | _ | e
        · omega
        · omega
        · omega
        · rfl
      rw [h3] at hs
      exact ih hx hi' l1 2 (Nat.le_refl _) (l3.mono (by omega)) hs.2
  | @star_l a s x p g _ ih =>
    intro f hf hfact hs
    rw [lineTr, LRes3.get_mk' _ hf] at hs
    refine ih hx hi hinv f hf hfact ?_
    cases hc : ((lineTr c a).get f).iter && (lineTr c a).iters ((lineTr c a).lim f) with
    | true =>
      rw [Bool.and_eq_true] at hc
      have := hc.1
      simp only [LRes.iter, Bool.and_eq_true] at this
      exact this.2
    | false => simp [LRes3.star, hc, LRes.bad] at hs
  | @star_r a s s1 x p g h0 _ ih =>
    intro f hf hfact hs
    have hgd := h0.good hr hi
    rw [lineTr, LRes3.get_mk' _ hf] at hs
    generalize hy : lineTr c a = y at *
    have hcond : ((y.get f).iter && y.iters (y.lim f)) = true := by
      cases hc : (y.get f).iter && y.iters (y.lim f) with
      | true => rfl
      | false => simp [LRes3.star, hc, LRes.bad] at hs
    rw [Bool.and_eq_true] at hcond
    have hit : (y.get f).ok0.isNone = true ∧ (y.get f).safe = true := by
      simpa [LRes.iter] using hcond.1
    have := h0.lines hr hl hG hls hdead hsure hi hinv f hf hfact (by rw [hy]; exact hit.2)
    rw [hy] at this
    obtain ⟨j1, j2, j3⟩ := this
    rcases Nat.lt_or_eq_of_le hgd.1 with hlt | heq
    · obtain ⟨e, st, k1, k2, k3⟩ := j3 hlt
      obtain ⟨hge, hcl⟩ := y.lim_ok f
      have hle := y.lim_le f
      have hlim := y.lim_ge _ hle hcl
      have hhe : y.lim f ≤ e := by rw [k1] at hge; simpa [geE] using hge
      have hi1 := y.iters_get (Nat.le_refl _) hle hcond.2
      have hi2 := y.iters_get hlim (y.lim_le _) hcond.2
      refine ih hx hgd.2 j1 (y.lim f) hle (k2.mono hhe) ?_
      rw [lineTr, LRes3.get_mk' _ hle, hy]
      simp only [LRes3.star, hi1.1, hi2.2, Bool.and_self, cond_true]
    · obtain ⟨e, k1, -⟩ := j2 heq.symm
      rw [k1] at hit; simp at hit
  | @peek a s x p g h0 ih =>
    intro f hf hfact hs
    rw [lineTr, LRes3.get_mk' _ hf] at hs
    cases hqa : quietE c a with
    | true => have := h0.quiet hq hqa; rw [this] at hx; simp at hx
    | false =>
      rw [hqa] at hs
      simp only [cond_false] at hs
      exact ih hx hi hinv f hf hfact hs
  | @npeek a s x p g h0 ih =>
    intro f hf hfact hs
    rw [lineTr, LRes3.get_mk' _ hf] at hs
    cases hqa : quietE c a with
    | true => have := h0.quiet hq hqa; rw [this] at hx; simp at hx
    | false =>
      rw [hqa] at hs
      simp only [cond_false] at hs
      exact ih hx hi hinv f hf hfact hs
  | @onfail_l a y s x p g h0 ih =>
    intro f hf hfact hs
    rw [lineTr, LRes3.get_mk' _ hf] at hs
    refine ih hx hi hinv f hf hfact ?_
    cases hk : c.kind y with
    | keep => rw [hk] at hs; exact hs
    | back => rw [hk] at hs; simp only [Bool.and_eq_true] at hs; exact hs.1
    | start => rw [hk] at hs; simp [LRes.bad] at hs
  | @onfail_r a y s s1 h0 =>
    intro f hf hfact hs
    rw [lineTr, LRes3.get_mk' _ hf, hx] at hs
    simp only [Bool.and_eq_true] at hs
    obtain ⟨l1, f', b', l2, l3, l4⟩ := h0.lines hr hl hG hls hdead hsure hi hinv f hf hfact hs.1
    rw [l2] at hs
    exact l4 hs.2

/-! ## Positions that have been read -/

/-- What is known about the starting position having been read: after a failure, after a success
without consuming; and about the final position after a failure. -/
structure Pk where
  fs : Bool
  os : Bool
  fp : Bool
  deriving DecidableEq, Repr

def pkOf (tbl : R → Bool × Bool) (sure : P → Bool) : Expr R P A → Pk
  | .eps | .act _ => ⟨true, false, true⟩
  | .one _ => ⟨true, true, true⟩
  | .str l => ⟨true, !l.isEmpty, true⟩
  | .nt r _ => ⟨(tbl r).1, (tbl r).2, (tbl r).1⟩
  | .seq a b =>
    let x := pkOf tbl sure a
    let y := pkOf tbl sure b
    ⟨x.fs && (x.os || y.fs), x.os || y.os, x.fp && y.fp⟩
  | .alt a b =>
    let x := pkOf tbl sure a
    let y := pkOf tbl sure b
    ⟨x.fs || y.fs, x.os && (x.fs || y.os), y.fp⟩
  | .star a => ⟨true, (pkOf tbl sure a).fs, true⟩
  | .peek a => pkOf tbl sure a
  | .npeek a =>
    let x := pkOf tbl sure a
    ⟨x.os, x.fs, false⟩
  | .pred p => ⟨sure p, false, sure p⟩
  | .onfail a _ => pkOf tbl sure a

/-- Every predicate of the given kind is evaluated only when a failure is reported, and then at a
position that has been read. -/
def pkOk (tbl : R → Bool × Bool) (sure : P → Bool) (isErr : P → Bool) : Expr R P A → Bool
  | .seq a b | .alt a b => pkOk tbl sure isErr a && pkOk tbl sure isErr b
  | .star a | .peek a | .npeek a => pkOk tbl sure isErr a
  | .pred p => !isErr p
  | .onfail a p => pkOk tbl sure isErr a && (!isErr p || (pkOf tbl sure a).fp)
  | _ => true

/-- `K p g`: position `p` has been read. -/
structure ReadHost (H : Host P A γ) (w : List UInt8) (I K : Nat → γ → Prop) : Prop where
  now : ∀ {p g}, I p g → K p (H.peek p g).2
  peek : ∀ {p q g}, I q g → K p g → K p (H.peek q g).2
  pred : ∀ {x p q g b g' ts}, K p g → H.pred x q g = .ok (b, g', ts) → K p g'

def Res.Read (K : Nat → γ → Prop) (p : Nat) (k : Pk) : Res A γ → Prop
  | .ok s => (p < s.pos → K p s.g) ∧ (k.os = true → K p s.g)
  | .fail s => (k.fs = true → K p s.g) ∧ (k.fp = true → K s.pos s.g)
  | .fault _ => True

theorem matchStr_read {H : Host P A γ} {w : List UInt8} {I K : Nat → γ → Prop}
    (hr : ReadsAs H w I) (hk : ReadHost H w I K) {start : Nat} : ∀ (l : List UInt8) (p : Nat) (g : γ),
    start ≤ p → I p g → (l = [] ∨ start = p ∨ K start g) → ∀ {b q g'}, matchStr H start l p g = (b, q, g') →
      (l ≠ [] ∨ K start g → K start g') ∧ (b = false → K q g') ∧
      (∀ x, K x g → K x g') := by
  intro l
  induction l with
  | nil =>
    intro p g hs hi h0 b q g' h
    simp only [matchStr, Prod.mk.injEq] at h
    obtain ⟨rfl, rfl, rfl⟩ := h
    exact ⟨fun h => by simpa using h, fun h => by simp at h, fun x h => h⟩
  | cons c cs ih =>
    intro p g hs hi h0 b q g' h
    have hst : K start (H.peek p g).2 := by
      rcases h0 with h0 | h0 | h0
      · simp at h0
      · subst h0; exact hk.now hi
      · exact hk.peek hi h0
    have hp := hk.now hi
    have hall : ∀ x, K x g → K x (H.peek p g).2 := fun x h => hk.peek hi h
    simp only [matchStr] at h
    split at h
    · rename_i g1 heq
      simp only [Prod.mk.injEq] at h
      obtain ⟨rfl, rfl, rfl⟩ := h
      rw [heq] at hst hp hall
      exact ⟨fun _ => hst, fun _ => hp, hall⟩
    · rename_i d g1 heq
      have hv := hr.val hi
      rw [heq] at hv
      have hlt : p < w.length := by
        by_contra hlt
        simp only at hv
        rw [List.getElem?_eq_none (by omega)] at hv
        simp at hv
      have hn := hr.next hi hlt
      rw [heq] at hst hp hall hn
      split at h
      · obtain ⟨i1, i2, i3⟩ := ih (p + 1) g1 (by omega) hn (Or.inr (Or.inr hst)) h
        exact ⟨fun _ => i1 (Or.inr hst), i2, fun x hx => i3 x (hall x hx)⟩
      · simp only [Prod.mk.injEq] at h
        obtain ⟨rfl, rfl, rfl⟩ := h
        exact ⟨fun _ => hst, fun _ => hst, hall⟩

/-- What has been read stays read. -/
theorem Eval.read_keep {G : R → RuleDef R P A} {H : Host P A γ} {w : List UInt8}
    {I K : Nat → γ → Prop} (hr : ReadsAs H w I) (hk : ReadHost H w I K)
    {e : Expr R P A} {s : St A γ} {r : Res A γ} (h : Eval G H e s r) (hi : I s.pos s.g) :
    ∀ x, K x s.g → ∀ g ∈ r.g?, K x g := by
  induction h with
  | eps => rintro x hx g ⟨⟩; exact hx
  | @one_end m s g' hp => rintro x hx g ⟨⟩; have := hk.peek hi hx; rwa [hp] at this
  | @one_no m s c g' hp _ => rintro x hx g ⟨⟩; have := hk.peek hi hx; rwa [hp] at this
  | @one_ok m s c g' hp _ => rintro x hx g ⟨⟩; have := hk.peek hi hx; rwa [hp] at this
  | @str_ok l s p g' hm =>
    rintro x hx g ⟨⟩; exact (matchStr_read hr hk l s.pos s.g (Nat.le_refl _) hi (Or.inr (Or.inl rfl)) hm).2.2 x hx
  | @str_no l s p g' hm =>
    rintro x hx g ⟨⟩; exact (matchStr_read hr hk l s.pos s.g (Nat.le_refl _) hi (Or.inr (Or.inl rfl)) hm).2.2 x hx
  | nt_ok _ ih => rintro x hx g ⟨⟩; rw [St.leave_g]; exact ih (by simpa using hi) x (by simpa using hx) _ rfl
  | nt_no _ ih => rintro x hx g ⟨⟩; exact ih (by simpa using hi) x (by simpa using hx) _ rfl
  | nt_fault => rintro x hx g ⟨⟩
  | seq_ok h0 _ ih1 ih2 => intro x hx; exact ih2 (h0.good hr hi).2 x (ih1 hi x hx _ rfl)
  | seq_no _ ih => exact ih hi
  | seq_fault => rintro x hx g ⟨⟩
  | alt_ok _ ih => exact ih hi
  | alt_no h0 _ ih1 ih2 =>
    intro x hx
    have hg := h0.good hr hi
    exact ih2 (hr.down hg.2 hg.1) x (ih1 hi x hx _ rfl)
  | alt_fault => rintro x hx g ⟨⟩
  | star_more h0 _ ih1 ih2 => intro x hx; exact ih2 (h0.good hr hi).2 x (ih1 hi x hx _ rfl)
  | star_end _ ih => rintro x hx g ⟨⟩; exact ih hi x hx _ rfl
  | star_fault => rintro x hx g ⟨⟩
  | peek_ok _ ih => rintro x hx g ⟨⟩; exact ih hi x hx _ rfl
  | peek_no _ ih => exact ih hi
  | peek_fault => rintro x hx g ⟨⟩
  | npeek_ok _ ih => rintro x hx g ⟨⟩; exact ih hi x hx _ rfl
  | npeek_no _ ih => rintro x hx g ⟨⟩; exact ih hi x hx _ rfl
  | npeek_fault => rintro x hx g ⟨⟩
  | pred_ok h => rintro x hx g ⟨⟩; exact hk.pred hx h
  | pred_no h => rintro x hx g ⟨⟩; exact hk.pred hx h
  | pred_fault => rintro x hx g ⟨⟩
  | act => rintro x hx g ⟨⟩; exact hx
  | onfail_ok _ ih => exact ih hi
  | onfail_no _ h ih => rintro x hx g ⟨⟩; exact hk.pred (ih hi x hx _ rfl) h
  | onfail_no_fault => rintro x hx g ⟨⟩
  | onfail_fault => rintro x hx g ⟨⟩

theorem Eval.read {G : R → RuleDef R P A} {H : Host P A γ} {w : List UInt8}
    {I K : Nat → γ → Prop} (hr : ReadsAs H w I) (hk : ReadHost H w I K)
    {tbl : R → Bool × Bool} {sure : P → Bool}
    (hsure : ∀ x p g b g' ts, sure x = true → H.pred x p g = .ok (b, g', ts) → b = true)
    (htbl : ∀ r, ((tbl r).1 = true → (pkOf tbl sure (G r).body).fs = true) ∧
      ((tbl r).2 = true → (pkOf tbl sure (G r).body).os = true))
    {e : Expr R P A} {s : St A γ} {r : Res A γ} (h : Eval G H e s r) (hi : I s.pos s.g) :
    r.Read K s.pos (pkOf tbl sure e) := by
  induction h with
  | eps => exact ⟨fun h => absurd h (Nat.lt_irrefl _), fun h => by simp [pkOf] at h⟩
  | @one_end m s g' hp => have := hk.now hi; rw [hp] at this; exact ⟨fun _ => this, fun _ => this⟩
  | @one_no m s c g' hp _ => have := hk.now hi; rw [hp] at this; exact ⟨fun _ => this, fun _ => this⟩
  | @one_ok m s c g' hp _ => have := hk.now hi; rw [hp] at this; exact ⟨fun _ => this, fun _ => this⟩
  | @str_ok l s p g' hm =>
    have h1 := matchStr_read hr hk l s.pos s.g (Nat.le_refl _) hi (Or.inr (Or.inl rfl)) hm
    refine ⟨fun hlt => h1.1 (Or.inl ?_), fun h => h1.1 (Or.inl ?_)⟩
    · rintro rfl
      simp only [matchStr, Prod.mk.injEq] at hm
      simp only at hlt
      omega
    · rintro rfl; simp [pkOf] at h
  | @str_no l s p g' hm =>
    have h1 := matchStr_read hr hk l s.pos s.g (Nat.le_refl _) hi (Or.inr (Or.inl rfl)) hm
    refine ⟨fun _ => h1.1 (Or.inl ?_), fun _ => h1.2.1 rfl⟩
    rintro rfl
    simp [matchStr] at hm
  | @nt_ok r v s s1 _ ih =>
    have := ih (by simpa using hi)
    simp only [St.enter_pos] at this
    exact ⟨fun h => by simpa using this.1 (by simpa using h),
      fun h => by simpa using this.2 ((htbl r).2 h)⟩
  | @nt_no r v s s1 _ ih =>
    have := ih (by simpa using hi)
    simp only [St.enter_pos] at this
    exact ⟨fun h => this.1 ((htbl r).1 h), fun h => this.1 ((htbl r).1 h)⟩
  | nt_fault => trivial
  | @seq_ok a b s s1 r h0 h1 ih1 ih2 =>
    have hg := h0.good hr hi
    have i1 := ih1 hi
    have i2 := ih2 hg.2
    have hkeep := h1.read_keep hr hk hg.2
    cases r with
    | fault f => trivial
    | ok s2 =>
      have hg2 := h1.good hr hg.2
      refine ⟨fun hlt => ?_, fun ho => ?_⟩
      · rcases Nat.lt_or_eq_of_le hg.1 with h3 | h3
        · exact hkeep _ (i1.1 h3) _ rfl
        · rw [h3]; exact i2.1 (by omega)
      · rcases Nat.lt_or_eq_of_le hg.1 with h3 | h3
        · exact hkeep _ (i1.1 h3) _ rfl
        · simp only [pkOf, Bool.or_eq_true] at ho
          rcases ho with ho | ho
          · exact hkeep _ (i1.2 ho) _ rfl
          · rw [h3]; exact i2.2 ho
    | fail s2 =>
      refine ⟨fun ho => ?_, fun ho => ?_⟩
      · rcases Nat.lt_or_eq_of_le hg.1 with h3 | h3
        · exact hkeep _ (i1.1 h3) _ rfl
        · simp only [pkOf, Bool.and_eq_true, Bool.or_eq_true] at ho
          rcases ho.2 with ho | ho
          · exact hkeep _ (i1.2 ho) _ rfl
          · rw [h3]; exact i2.1 ho
      · simp only [pkOf, Bool.and_eq_true] at ho
        exact i2.2 ho.2
  | seq_no _ ih =>
    have := ih hi
    exact ⟨fun h => this.1 (by simp only [pkOf, Bool.and_eq_true] at h; exact h.1),
      fun h => this.2 (by simp only [pkOf, Bool.and_eq_true] at h; exact h.1)⟩
  | seq_fault => trivial
  | alt_ok _ ih =>
    have := ih hi
    exact ⟨this.1, fun h => this.2 (by simp only [pkOf, Bool.and_eq_true] at h; exact h.1)⟩
  | @alt_no a b s s1 r h0 h1 ih1 ih2 =>
    have hg := h0.good hr hi
    have hi' : I (s.restore s1).pos (s.restore s1).g := hr.down hg.2 hg.1
    have i1 := ih1 hi
    have i2 := ih2 hi'
    have hkeep := h1.read_keep hr hk hi'
    cases r with
    | fault f => trivial
    | ok s2 =>
      refine ⟨i2.1, fun h => ?_⟩
      simp only [pkOf, Bool.and_eq_true, Bool.or_eq_true] at h
      rcases h.2 with h | h
      · exact hkeep _ (i1.1 h) _ rfl
      · exact i2.2 h
    | fail s2 =>
      refine ⟨fun h => ?_, i2.2⟩
      simp only [pkOf, Bool.or_eq_true] at h
      rcases h with h | h
      · exact hkeep _ (i1.1 h) _ rfl
      · exact i2.1 h
  | alt_fault => trivial
  | @star_more a s s1 r h0 h1 ih1 ih2 =>
    have hg := h0.good hr hi
    have i1 := ih1 hi
    have i2 := ih2 hg.2
    have hkeep := h1.read_keep hr hk hg.2
    cases r with
    | fault f => trivial
    | ok s2 =>
      have hg2 := h1.good hr hg.2
      refine ⟨fun hlt => ?_, fun ho => ?_⟩
      · rcases Nat.lt_or_eq_of_le hg.1 with h3 | h3
        · exact hkeep _ (i1.1 h3) _ rfl
        · rw [h3]; exact i2.1 (by omega)
      · rcases Nat.lt_or_eq_of_le hg.1 with h3 | h3
        · exact hkeep _ (i1.1 h3) _ rfl
        · rw [h3]; exact i2.2 ho
    | fail s2 =>
      refine ⟨fun ho => ?_, i2.2⟩
      rcases Nat.lt_or_eq_of_le hg.1 with h3 | h3
      · exact hkeep _ (i1.1 h3) _ rfl
      · rw [h3]; exact i2.1 ho
  | star_end _ ih =>
    have := ih hi
    exact ⟨fun h => absurd h (Nat.lt_irrefl _), fun h => this.1 h⟩
  | star_fault => trivial
  | peek_ok h0 ih =>
    have := ih hi
    exact ⟨fun h => absurd h (Nat.lt_irrefl _), this.2⟩
  | peek_no _ ih => exact ih hi
  | peek_fault => trivial
  | npeek_ok _ ih =>
    have := ih hi
    exact ⟨this.2, fun h => by simp [pkOf] at h⟩
  | npeek_no _ ih =>
    have := ih hi
    exact ⟨fun h => absurd h (Nat.lt_irrefl _), this.1⟩
  | npeek_fault => trivial
  | pred_ok h => exact ⟨fun h => absurd h (Nat.lt_irrefl _), fun h => by simp [pkOf] at h⟩
  | pred_no h =>
    exact ⟨fun hs => absurd (hsure _ _ _ _ _ _ hs h) (by simp),
      fun hs => absurd (hsure _ _ _ _ _ _ hs h) (by simp)⟩
  | pred_fault => trivial
  | act => exact ⟨fun h => absurd h (Nat.lt_irrefl _), fun h => by simp [pkOf] at h⟩
  | onfail_ok _ ih => exact ih hi
  | onfail_no _ h ih =>
    have := ih hi
    exact ⟨fun hs => hk.pred (this.1 hs) h, fun hs => hk.pred (this.2 hs) h⟩
  | onfail_no_fault => trivial
  | onfail_fault => trivial

/-- Errors are reported at positions that have been read. -/
theorem Called.read {G : R → RuleDef R P A} {H : Host P A γ} {w : List UInt8}
    {I K : Nat → γ → Prop} (hr : ReadsAs H w I) (hk : ReadHost H w I K)
    {tbl : R → Bool × Bool} {sure : P → Bool} {isErr : P → Bool}
    (hsure : ∀ x p g b g' ts, sure x = true → H.pred x p g = .ok (b, g', ts) → b = true)
    (htbl : ∀ r, ((tbl r).1 = true → (pkOf tbl sure (G r).body).fs = true) ∧
      ((tbl r).2 = true → (pkOf tbl sure (G r).body).os = true))
    (hok : ∀ r, pkOk tbl sure isErr (G r).body = true)
    {e : Expr R P A} {s : St A γ} {x : P} {p : Nat} {g : γ} (h : Called G H e s x p g)
    (he : pkOk tbl sure isErr e = true) (hx : isErr x = true) (hi : I s.pos s.g) : K p g := by
  induction h with
  | pred => simp [pkOk, hx] at he
  | nt _ ih => exact ih (hok _) hx (by simpa using hi)
  | seq_l _ ih => simp only [pkOk, Bool.and_eq_true] at he; exact ih he.1 hx hi
  | seq_r h0 _ ih =>
    simp only [pkOk, Bool.and_eq_true] at he; exact ih he.2 hx (h0.good hr hi).2
  | alt_l _ ih => simp only [pkOk, Bool.and_eq_true] at he; exact ih he.1 hx hi
  | alt_r h0 _ ih =>
    have hg := h0.good hr hi
    simp only [pkOk, Bool.and_eq_true] at he; exact ih he.2 hx (hr.down hg.2 hg.1)
  | star_l _ ih => exact ih he hx hi
  | star_r h0 _ ih => exact ih he hx (h0.good hr hi).2
  | peek _ ih => exact ih he hx hi
  | npeek _ ih => exact ih he hx hi
  | onfail_l _ ih => simp only [pkOk, Bool.and_eq_true] at he; exact ih he.1 hx hi
  | onfail_r h0 =>
    simp only [pkOk, hx, Bool.and_eq_true, Bool.not_true, Bool.false_or] at he
    exact (h0.read hr hk hsure htbl hi).2 he.2

end Verif.Peg
