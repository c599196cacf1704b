import Verif.Peg.Analysis
/-!
# Generated parsers: simulation between hosts, recorded thunks, denotation of pure grammars
-/
namespace Verif.Peg
variable {R P A γ γ₁ γ₂ : Type}

/-! ## Simulation -/

/-- Two hosts that cannot be told apart by the generated code: related states read the same bytes,
and predicates give the same answers and thunks (or the same fault). -/
structure Simulates (H₁ : Host P A γ₁) (H₂ : Host P A γ₂) (Rel : Nat → γ₁ → γ₂ → Prop) : Prop where
  peek : ∀ {p g₁ g₂}, Rel p g₁ g₂ → (H₁.peek p g₁).1 = (H₂.peek p g₂).1 ∧
    Rel p (H₁.peek p g₁).2 (H₂.peek p g₂).2 ∧
    ((H₁.peek p g₁).1 ≠ none → Rel (p + 1) (H₁.peek p g₁).2 (H₂.peek p g₂).2)
  down : ∀ {p q g₁ g₂}, Rel p g₁ g₂ → q ≤ p → Rel q g₁ g₂
  pred : ∀ {x p g₁ g₂}, Rel p g₁ g₂ →
    match H₁.pred x p g₁, H₂.pred x p g₂ with
    | .ok (b₁, g₁', t₁), .ok (b₂, g₂', t₂) => b₁ = b₂ ∧ t₁ = t₂ ∧ Rel p g₁' g₂'
    | .error f₁, .error f₂ => f₁ = f₂
    | _, _ => False

/-- Related outcomes: same kind, same position, same thunks added. -/
inductive ResRel (Rel : Nat → γ₁ → γ₂ → Prop) (p : Nat) (b₁ b₂ : List (Thunk A)) :
    Res A γ₁ → Res A γ₂ → Prop
  | ok {q t g₁ g₂} : p ≤ q → Rel q g₁ g₂ →
      ResRel Rel p b₁ b₂ (.ok ⟨q, t ++ b₁, g₁⟩) (.ok ⟨q, t ++ b₂, g₂⟩)
  | fail {q t g₁ g₂} : p ≤ q → Rel q g₁ g₂ →
      ResRel Rel p b₁ b₂ (.fail ⟨q, t ++ b₁, g₁⟩) (.fail ⟨q, t ++ b₂, g₂⟩)
  | fault {f} : ResRel Rel p b₁ b₂ (.fault f) (.fault f)

theorem matchStr_sim {H₁ : Host P A γ₁} {H₂ : Host P A γ₂} {Rel : Nat → γ₁ → γ₂ → Prop}
    (hs : Simulates H₁ H₂ Rel) {start : Nat} : ∀ (l : List UInt8) (p : Nat) (g₁ : γ₁) (g₂ : γ₂),
    start ≤ p → Rel p g₁ g₂ → ∀ {b q g₁'}, matchStr H₁ start l p g₁ = (b, q, g₁') →
    ∃ g₂', matchStr H₂ start l p g₂ = (b, q, g₂') ∧ Rel q g₁' g₂' ∧ start ≤ q := by
  intro l
  induction l with
  | nil =>
    intro p g₁ g₂ hp hr b q g₁' h
    simp only [matchStr, Prod.mk.injEq] at h
    obtain ⟨rfl, rfl, rfl⟩ := h
    exact ⟨g₂, rfl, hr, hp⟩
  | cons c cs ih =>
    intro p g₁ g₂ hp hr b q g₁' h
    obtain ⟨h1, h2, h3⟩ := hs.peek hr
    simp only [matchStr] at h ⊢
    rcases hp1 : H₁.peek p g₁ with ⟨o, g1'⟩
    rcases hp2 : H₂.peek p g₂ with ⟨o2, g2'⟩
    rw [hp1, hp2] at h1 h2 h3
    simp only at h1 h2 h3
    subst h1
    rw [hp1] at h
    cases o with
    | none =>
      simp only [Prod.mk.injEq] at h ⊢
      obtain ⟨rfl, rfl, rfl⟩ := h
      exact ⟨g2', ⟨rfl, rfl, rfl⟩, h2, hp⟩
    | some d =>
      simp only at h ⊢
      split at h
      · rename_i hd
        rw [if_pos hd]
        exact ih (p + 1) g1' g2' (by omega) (h3 (by simp)) h
      · rename_i hd
        rw [if_neg hd]
        simp only [Prod.mk.injEq] at h ⊢
        obtain ⟨rfl, rfl, rfl⟩ := h
        exact ⟨g2', ⟨rfl, rfl, rfl⟩, hs.down h2 hp, Nat.le_refl _⟩

/-- The thunk made on entering a rule. -/
def enterT (n : Nat) : List (Thunk A) := if n = 0 then [] else [.push n]

/-- The thunks made on leaving a rule. -/
def leaveT (n : Nat) (v : Option Nat) : List (Thunk A) :=
  (match v with | none => [] | some i => [.set i]) ++ (if n = 0 then [] else [.pop n])

theorem St.enter_eq (n : Nat) (p : Nat) (t : List (Thunk A)) (g : γ) :
    St.enter n ⟨p, t, g⟩ = ⟨p, enterT n ++ t, g⟩ := by
  unfold St.enter enterT; split <;> simp

theorem St.leave_eq (n : Nat) (v : Option Nat) (p : Nat) (t : List (Thunk A)) (g : γ) :
    St.leave n v ⟨p, t, g⟩ = ⟨p, leaveT n v ++ t, g⟩ := by
  unfold St.leave leaveT; cases v <;> simp only <;> split <;> simp

theorem no_act_enterT {n : Nat} {a : A} {p : Nat} : .act a p ∉ enterT (A := A) n := by
  unfold enterT; split <;> simp

theorem no_act_leaveT {n : Nat} {v : Option Nat} {a : A} {p : Nat} :
    .act a p ∉ leaveT (A := A) n v := by
  unfold leaveT; cases v <;> simp only <;> split <;> simp

/-- Related states evaluate alike. -/
theorem Eval.sim {G : R → RuleDef R P A} {H₁ : Host P A γ₁} {H₂ : Host P A γ₂}
    {Rel : Nat → γ₁ → γ₂ → Prop} (hs : Simulates H₁ H₂ Rel) {e : Expr R P A} {s₁ : St A γ₁}
    {r₁ : Res A γ₁} (h : Eval G H₁ e s₁ r₁) :
    ∀ {s₂ : St A γ₂}, s₁.pos = s₂.pos → Rel s₁.pos s₁.g s₂.g →
    ∃ r₂, Eval G H₂ e s₂ r₂ ∧ ResRel Rel s₁.pos s₁.thunks s₂.thunks r₁ r₂ := by
  induction h with
  | @eps s =>
    rintro ⟨p, t, g⟩ rfl hr
    exact ⟨_, .eps, ResRel.ok (t := []) (Nat.le_refl _) hr⟩
  | @one_end m s g' hp =>
    rintro ⟨p, t, g⟩ rfl hr
    obtain ⟨h1, h2, h3⟩ := hs.peek hr
    rcases hp2 : H₂.peek s.pos g with ⟨o, g2⟩
    rw [hp, hp2] at h1 h2
    simp only at h1 h2
    subst h1
    exact ⟨_, .one_end hp2, ResRel.fail (t := []) (Nat.le_refl _) h2⟩
  | @one_no m s c g' hp hm =>
    rintro ⟨p, t, g⟩ rfl hr
    obtain ⟨h1, h2, h3⟩ := hs.peek hr
    rcases hp2 : H₂.peek s.pos g with ⟨o, g2⟩
    rw [hp, hp2] at h1 h2
    simp only at h1 h2
    subst h1
    exact ⟨_, .one_no hp2 hm, ResRel.fail (t := []) (Nat.le_refl _) h2⟩
  | @one_ok m s c g' hp hm =>
    rintro ⟨p, t, g⟩ rfl hr
    obtain ⟨h1, h2, h3⟩ := hs.peek hr
    rcases hp2 : H₂.peek s.pos g with ⟨o, g2⟩
    rw [hp, hp2] at h1 h3
    simp only at h1 h3
    subst h1
    exact ⟨_, .one_ok hp2 hm, ResRel.ok (t := []) (Nat.le_succ _) (h3 (by simp))⟩
  | @str_ok l s p g' h =>
    rintro ⟨p2, t, g⟩ rfl hr
    obtain ⟨g2, h1, h2, h3⟩ := matchStr_sim hs l _ _ g (Nat.le_refl _) hr h
    exact ⟨_, .str_ok h1, ResRel.ok (t := []) h3 h2⟩
  | @str_no l s p g' h =>
    rintro ⟨p2, t, g⟩ rfl hr
    obtain ⟨g2, h1, h2, h3⟩ := matchStr_sim hs l _ _ g (Nat.le_refl _) hr h
    exact ⟨_, .str_no h1, ResRel.fail (t := []) h3 h2⟩
  | @nt_ok r var s s1 _ ih =>
    obtain ⟨sp, st, sg⟩ := s
    rintro ⟨p, t, g⟩ rfl hr
    simp only [St.enter_eq] at ih
    obtain ⟨r2, e2, hrr⟩ := ih (s₂ := ⟨sp, _ ++ t, g⟩) rfl hr
    cases hrr with
    | @ok q tt g1 g2 hq hrel =>
      refine ⟨_, .nt_ok (by rw [St.enter_eq]; exact e2), ?_⟩
      rw [St.leave_eq, St.leave_eq]
      simp only [← List.append_assoc]
      exact ResRel.ok hq hrel
  | @nt_no r var s s1 _ ih =>
    obtain ⟨sp, st, sg⟩ := s
    rintro ⟨p, t, g⟩ rfl hr
    simp only [St.enter_eq] at ih
    obtain ⟨r2, e2, hrr⟩ := ih (s₂ := ⟨sp, _ ++ t, g⟩) rfl hr
    cases hrr with
    | @fail q tt g1 g2 hq hrel =>
      refine ⟨_, .nt_no (by rw [St.enter_eq]; exact e2), ?_⟩
      exact ResRel.fail (t := []) (Nat.le_refl _) (hs.down hrel hq)
  | @nt_fault r var s f _ ih =>
    obtain ⟨sp, st, sg⟩ := s
    rintro ⟨p, t, g⟩ rfl hr
    simp only [St.enter_eq] at ih
    obtain ⟨r2, e2, hrr⟩ := ih (s₂ := ⟨sp, _ ++ t, g⟩) rfl hr
    cases hrr with
    | fault => exact ⟨_, .nt_fault (by rw [St.enter_eq]; exact e2), .fault⟩
  | @seq_ok a b s s1 r _ _ ih1 ih2 =>
    intro s2 hp hr
    obtain ⟨r2, e2, hrr⟩ := ih1 hp hr
    cases hrr with
    | @ok q tt g1 g2 hq hrel =>
      obtain ⟨r3, e3, hrr3⟩ := ih2 (s₂ := ⟨q, tt ++ s2.thunks, g2⟩) rfl hrel
      refine ⟨r3, .seq_ok e2 e3, ?_⟩
      cases hrr3 with
      | ok hq2 hrel2 =>
        simp only [← List.append_assoc]; exact .ok (Nat.le_trans hq hq2) hrel2
      | fail hq2 hrel2 =>
        simp only [← List.append_assoc]; exact .fail (Nat.le_trans hq hq2) hrel2
      | fault => exact .fault
  | seq_no _ ih =>
    intro s2 hp hr
    obtain ⟨r2, e2, hrr⟩ := ih hp hr
    cases hrr with
    | fail hq hrel => exact ⟨_, .seq_no e2, .fail hq hrel⟩
  | seq_fault _ ih =>
    intro s2 hp hr
    obtain ⟨r2, e2, hrr⟩ := ih hp hr
    cases hrr with
    | fault => exact ⟨_, .seq_fault e2, .fault⟩
  | alt_ok _ ih =>
    intro s2 hp hr
    obtain ⟨r2, e2, hrr⟩ := ih hp hr
    cases hrr with
    | ok hq hrel => exact ⟨_, .alt_ok e2, .ok hq hrel⟩
  | @alt_no a b s s1 r _ _ ih1 ih2 =>
    intro s2 hp hr
    obtain ⟨r2, e2, hrr⟩ := ih1 hp hr
    cases hrr with
    | @fail q tt g1 g2 hq hrel =>
      obtain ⟨r3, e3, hrr3⟩ := ih2 (s₂ := ⟨s2.pos, s2.thunks, g2⟩) hp
        (hs.down hrel hq)
      exact ⟨r3, .alt_no e2 e3, hrr3⟩
  | alt_fault _ ih =>
    intro s2 hp hr
    obtain ⟨r2, e2, hrr⟩ := ih hp hr
    cases hrr with
    | fault => exact ⟨_, .alt_fault e2, .fault⟩
  | @star_more a s s1 r _ _ ih1 ih2 =>
    intro s2 hp hr
    obtain ⟨r2, e2, hrr⟩ := ih1 hp hr
    cases hrr with
    | @ok q tt g1 g2 hq hrel =>
      obtain ⟨r3, e3, hrr3⟩ := ih2 (s₂ := ⟨q, tt ++ s2.thunks, g2⟩) rfl hrel
      refine ⟨r3, .star_more e2 e3, ?_⟩
      cases hrr3 with
      | ok hq2 hrel2 =>
        simp only [← List.append_assoc]; exact .ok (Nat.le_trans hq hq2) hrel2
      | fail hq2 hrel2 =>
        simp only [← List.append_assoc]; exact .fail (Nat.le_trans hq hq2) hrel2
      | fault => exact .fault
  | @star_end a s s1 _ ih =>
    intro s2 hp hr
    obtain ⟨r2, e2, hrr⟩ := ih hp hr
    cases hrr with
    | fail hq hrel =>
      refine ⟨_, .star_end e2, ?_⟩
      rw [St.restore, St.restore, ← hp]
      exact ResRel.ok (t := []) (Nat.le_refl _) (hs.down hrel hq)
  | star_fault _ ih =>
    intro s2 hp hr
    obtain ⟨r2, e2, hrr⟩ := ih hp hr
    cases hrr with
    | fault => exact ⟨_, .star_fault e2, .fault⟩
  | @peek_ok a s s1 _ ih =>
    intro s2 hp hr
    obtain ⟨r2, e2, hrr⟩ := ih hp hr
    cases hrr with
    | ok hq hrel =>
      refine ⟨_, .peek_ok e2, ?_⟩
      rw [St.restore, St.restore, ← hp]
      exact ResRel.ok (t := []) (Nat.le_refl _) (hs.down hrel hq)
  | peek_no _ ih =>
    intro s2 hp hr
    obtain ⟨r2, e2, hrr⟩ := ih hp hr
    cases hrr with
    | fail hq hrel => exact ⟨_, .peek_no e2, .fail hq hrel⟩
  | peek_fault _ ih =>
    intro s2 hp hr
    obtain ⟨r2, e2, hrr⟩ := ih hp hr
    cases hrr with
    | fault => exact ⟨_, .peek_fault e2, .fault⟩
  | npeek_ok _ ih =>
    intro s2 hp hr
    obtain ⟨r2, e2, hrr⟩ := ih hp hr
    cases hrr with
    | ok hq hrel => exact ⟨_, .npeek_ok e2, .fail hq hrel⟩
  | @npeek_no a s s1 _ ih =>
    intro s2 hp hr
    obtain ⟨r2, e2, hrr⟩ := ih hp hr
    cases hrr with
    | fail hq hrel =>
      refine ⟨_, .npeek_no e2, ?_⟩
      rw [St.restore, St.restore, ← hp]
      exact ResRel.ok (t := []) (Nat.le_refl _) (hs.down hrel hq)
  | npeek_fault _ ih =>
    intro s2 hp hr
    obtain ⟨r2, e2, hrr⟩ := ih hp hr
    cases hrr with
    | fault => exact ⟨_, .npeek_fault e2, .fault⟩
  | @pred_ok p s g' ts h =>
    rintro ⟨p2, t, g⟩ rfl hr
    have := hs.pred (x := p) hr
    rw [h] at this
    rcases h2 : H₂.pred p s.pos g with f | ⟨b, g2, t2⟩ <;> rw [h2] at this
    · exact this.elim
    · obtain ⟨rfl, rfl, h3⟩ := this
      exact ⟨_, .pred_ok h2, .ok (Nat.le_refl _) h3⟩
  | @pred_no p s g' ts h =>
    rintro ⟨p2, t, g⟩ rfl hr
    have := hs.pred (x := p) hr
    rw [h] at this
    rcases h2 : H₂.pred p s.pos g with f | ⟨b, g2, t2⟩ <;> rw [h2] at this
    · exact this.elim
    · obtain ⟨rfl, rfl, h3⟩ := this
      exact ⟨_, .pred_no h2, .fail (Nat.le_refl _) h3⟩
  | @pred_fault p s f h =>
    rintro ⟨p2, t, g⟩ rfl hr
    have := hs.pred (x := p) hr
    rw [h] at this
    rcases h2 : H₂.pred p s.pos g with f | ⟨b, g2, t2⟩ <;> rw [h2] at this
    · cases this; exact ⟨_, .pred_fault h2, .fault⟩
    · exact this.elim
  | @act a s =>
    rintro ⟨p2, t, g⟩ rfl hr
    exact ⟨_, .act, ResRel.ok (t := [.act a s.pos]) (Nat.le_refl _) hr⟩
  | onfail_ok _ ih =>
    intro s2 hp hr
    obtain ⟨r2, e2, hrr⟩ := ih hp hr
    cases hrr with
    | ok hq hrel => exact ⟨_, .onfail_ok e2, .ok hq hrel⟩
  | @onfail_no a p s s1 b g' ts _ h ih =>
    intro s2 hp hr
    obtain ⟨r2, e2, hrr⟩ := ih hp hr
    cases hrr with
    | @fail q tt g1 g2 hq hrel =>
      have := hs.pred (x := p) hrel
      rw [h] at this
      rcases h2 : H₂.pred p q g2 with f | ⟨b, g3, t2⟩ <;> rw [h2] at this
      · exact this.elim
      · obtain ⟨rfl, rfl, h3⟩ := this
        refine ⟨_, .onfail_no e2 h2, ?_⟩
        simp only [← List.append_assoc]
        exact .fail hq h3
  | @onfail_no_fault a p s s1 f _ h ih =>
    intro s2 hp hr
    obtain ⟨r2, e2, hrr⟩ := ih hp hr
    cases hrr with
    | @fail q tt g1 g2 hq hrel =>
      have := hs.pred (x := p) hrel
      rw [h] at this
      rcases h2 : H₂.pred p q g2 with f | ⟨b, g3, t2⟩ <;> rw [h2] at this
      · cases this; exact ⟨_, .onfail_no_fault e2 h2, .fault⟩
      · exact this.elim
  | onfail_fault _ ih =>
    intro s2 hp hr
    obtain ⟨r2, e2, hrr⟩ := ih hp hr
    cases hrr with
    | fault => exact ⟨_, .onfail_fault e2, .fault⟩

end Verif.Peg
