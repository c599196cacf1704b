import Verif.Cypher.Window
/-!
# Matches that record no errors
-/
namespace Verif.Cypher
open Verif.Peg

variable {σ : Type} {w : List UInt8}

theorem qquiet_qpred {x : Pred} {q : QState} {r : Bool × QState} (h : qquiet x q = some r) : qpred x q = some r := by
  cases x <;> first | exact h | cases h

theorem Hush.sk {e : E} {p : Nat} {q : QState} {r : SkRes} (h : Hush w e p q r) : Sk w e p q r := by
  induction h with
  | eps => exact .eps
  | one_ok h1 h2 => exact .one_ok h1 h2
  | one_no h => exact .one_no h
  | str_ok h => exact .str_ok h
  | str_no h => exact .str_no h
  | nt_ok _ ih => exact .nt_ok ih
  | nt_no _ ih => exact .nt_no ih
  | seq_ok _ _ h1 h2 => exact .seq_ok h1 h2
  | seq_no _ h1 => exact .seq_no h1
  | seq_no2 _ _ h1 h2 => exact .seq_no2 h1 h2
  | alt_ok _ h1 => exact .alt_ok h1
  | alt_no _ _ h1 h2 => exact .alt_no h1 h2
  | star_more _ _ h1 h2 => exact .star_more h1 h2
  | star_end _ h => exact .star_end h
  | peek_ok _ h => exact .peek_ok h
  | peek_no _ h => exact .peek_no h
  | npeek_ok _ h => exact .npeek_ok h
  | npeek_no _ h => exact .npeek_no h
  | pred_ok h => exact .pred_ok (qquiet_qpred h)
  | pred_no h => exact .pred_no (qquiet_qpred h)
  | act => exact .act
  | onfail_ok _ h => exact .onfail_ok h
  | onfail_no _ h1 h2 => exact .onfail_no h2 (qquiet_qpred h1)

theorem note_errors {et et' : ErrTrack} {p : Pos} {c : UInt8} {l : List UInt8} (h : et.note p c l = .ok et') :
    et'.errors = et.errors := by
  unfold ErrTrack.note at h
  split at h
  · cases h; rfl
  · by_cases h0 : et.labels.length = 0 ∨ p.offset > et.lastPosition.offset
    · simp only [if_pos h0] at h
      split at h
      · cases h
      · split at h <;> cases h <;> rfl
    · simp only [if_neg h0] at h
      split at h
      · cases h
      · split at h <;> cases h <;> rfl

/-- Only `recordError` adds errors. -/
theorem chost_errors {S : Source σ} {x : Pred} {p : Nat} {g g' : Reader σ × CState} {b : Bool}
    {ts : List (Peg.Thunk Act)} (h : (chost S).pred x p g = .ok (b, g', ts)) (hx : x ≠ .recordError) :
    g'.2.errs.errors = g.2.errs.errors := by
  obtain ⟨r, c⟩ := g
  simp only [chost, mkHost] at h
  cases hc : cpred x p r c with
  | error f => rw [hc] at h; simp at h
  | ok y =>
    obtain ⟨b', c', ts'⟩ := y
    rw [hc] at h
    simp only [Except.ok.injEq, Prod.mk.injEq] at h
    obtain ⟨rfl, rfl, rfl⟩ := h
    cases x <;> simp only [cpred] at hc
    case recordError => exact absurd rfl hx
    case err l =>
      split at hc
      · cases hc
      · split at hc
        · rename_i e he
          cases hc
          exact note_errors he
        · cases hc
    case precPush =>
      split at hc
      · cases hc
      · cases hc; rfl
    case precChk =>
      split at hc
      · cases hc
      · cases hc; rfl
    all_goals (cases hc; rfl)

theorem qquiet_ne {x : Pred} {q : QState} {r : Bool × QState} (h : qquiet x q = some r) : x ≠ .recordError := by
  rintro rfl; cases h

/-- The errors recorded so far. -/
def errorsAre (es : List PErr) : Res Act (Reader σ × CState) → Prop
  | .ok s => s.g.2.errs.errors = es
  | .fail s => s.g.2.errs.errors = es
  | .fault _ => True

/-- What is matched quietly leaves the errors as they are. -/
theorem Hush.errors {S : Source σ} {I : Nat → Reader σ × CState → Prop} (hr : ReadsAs (chost S) w I) {e : E}
    {s : St Act (Reader σ × CState)} {res : Res Act (Reader σ × CState)} (h : Eval grammar (chost S) e s res) :
    I s.pos s.g → ∀ r, Hush w e s.pos s.g.2.q r → errorsAre s.g.2.errs.errors res := by
  induction h with
  | eps => intro _ _ _; rfl
  | @one_end m s g' hp => intro _ _ _; show g'.2.errs.errors = _; rw [chost_peek hp]
  | @one_ok m s c g' hp hm => intro _ _ _; show g'.2.errs.errors = _; rw [chost_peek hp]
  | @one_no m s c g' hp hm => intro _ _ _; show g'.2.errs.errors = _; rw [chost_peek hp]
  | @str_ok l s p g' hm => intro _ _ _; show g'.2.errs.errors = _; rw [matchStr_q _ _ _ hm]
  | @str_no l s p g' hm => intro _ _ _; show g'.2.errs.errors = _; rw [matchStr_q _ _ _ hm]
  | @nt_ok r var s s1 _ ih =>
    intro hi r' hh
    have : ∃ r', Hush w (grammar r).body s.pos s.g.2.q r' := by cases hh <;> exact ⟨_, by assumption⟩
    obtain ⟨r', hh⟩ := this
    have := ih (by simpa using hi) r' (by simpa using hh)
    simpa [errorsAre] using this
  | @nt_no r var s s1 _ ih =>
    intro hi r' hh
    have : ∃ r', Hush w (grammar r).body s.pos s.g.2.q r' := by cases hh <;> exact ⟨_, by assumption⟩
    obtain ⟨r', hh⟩ := this
    have := ih (by simpa using hi) r' (by simpa using hh)
    rw [St.enter_g] at this
    exact this
  | nt_fault => intro _ _ _; trivial
  | @seq_ok a b s s1 r h0 _ ih1 ih2 =>
    intro hi r' hh
    have hg := h0.good hr hi
    obtain ⟨ts, -, hs⟩ := Sk.of_eval hr h0 hi
    cases hh with
    | seq_ok ha hb =>
      have h1 := ih1 hi _ ha
      cases hs.det ha.sk
      have h2 := ih2 hg.2 _ hb
      rwa [show s1.g.2.errs.errors = s.g.2.errs.errors from h1] at h2
    | seq_no ha => cases hs.det ha.sk
    | seq_no2 ha hb =>
      have h1 := ih1 hi _ ha
      cases hs.det ha.sk
      have h2 := ih2 hg.2 _ hb
      rwa [show s1.g.2.errs.errors = s.g.2.errs.errors from h1] at h2
  | seq_no h0 ih =>
    intro hi r' hh
    cases hh with
    | seq_ok ha _ => exact ih hi _ ha
    | seq_no ha => exact ih hi _ ha
    | seq_no2 ha _ => exact ih hi _ ha
  | seq_fault => intro _ _ _; trivial
  | @alt_ok a b s s1 _ ih =>
    intro hi r' hh
    cases hh with
    | alt_ok ha => exact ih hi _ ha
    | alt_no ha _ => exact ih hi _ ha
  | @alt_no a b s s1 r h0 _ ih1 ih2 =>
    intro hi r' hh
    have hg := h0.good hr hi
    have hs := Sk.of_eval hr h0 hi
    cases hh with
    | alt_ok ha => cases Sk.det hs ha.sk
    | alt_no ha hb =>
      have h1 := ih1 hi _ ha
      cases Sk.det hs ha.sk
      have h2 := ih2 (hr.down hg.2 hg.1) _ hb
      rwa [show (s.restore s1).g.2.errs.errors = s.g.2.errs.errors from h1] at h2
  | alt_fault => intro _ _ _; trivial
  | @star_more a s s1 r h0 h0' ih1 ih2 =>
    intro hi r' hh
    have hg := h0.good hr hi
    obtain ⟨ts, -, hs⟩ := Sk.of_eval hr h0 hi
    cases hh with
    | star_more ha hb =>
      have h1 := ih1 hi _ ha
      cases hs.det ha.sk
      have h2 := ih2 hg.2 _ hb
      rwa [show s1.g.2.errs.errors = s.g.2.errs.errors from h1] at h2
    | star_end ha => cases hs.det ha.sk
  | star_end h0 ih =>
    intro hi r' hh
    cases hh with
    | star_more ha _ => exact ih hi _ ha
    | star_end ha => exact ih hi _ ha
  | star_fault => intro _ _ _; trivial
  | peek_ok _ ih =>
    intro hi r' hh
    cases hh with
    | peek_ok ha => exact ih hi _ ha
    | peek_no ha => exact ih hi _ ha
  | peek_no _ ih =>
    intro hi r' hh
    cases hh with
    | peek_ok ha => exact ih hi _ ha
    | peek_no ha => exact ih hi _ ha
  | peek_fault => intro _ _ _; trivial
  | npeek_ok _ ih =>
    intro hi r' hh
    cases hh with
    | npeek_ok ha => exact ih hi _ ha
    | npeek_no ha => exact ih hi _ ha
  | npeek_no _ ih =>
    intro hi r' hh
    cases hh with
    | npeek_ok ha => exact ih hi _ ha
    | npeek_no ha => exact ih hi _ ha
  | npeek_fault => intro _ _ _; trivial
  | @pred_ok x s g' ts hp =>
    intro _ r' hh
    cases hh with
    | pred_ok h => exact chost_errors hp (qquiet_ne h)
    | pred_no h => exact chost_errors hp (qquiet_ne h)
  | @pred_no x s g' ts hp =>
    intro _ r' hh
    cases hh with
    | pred_ok h => exact chost_errors hp (qquiet_ne h)
    | pred_no h => exact chost_errors hp (qquiet_ne h)
  | pred_fault => intro _ _ _; trivial
  | act => intro _ _ _; rfl
  | onfail_ok _ ih =>
    intro hi r' hh
    cases hh with
    | onfail_ok ha => exact ih hi _ ha
    | onfail_no ha _ => exact ih hi _ ha
  | @onfail_no a x s s1 b g' ts h0 hp ih =>
    intro hi r' hh
    have hs := Sk.of_eval hr h0 hi
    cases hh with
    | onfail_ok ha => cases Sk.det hs ha.sk
    | onfail_no ha hx =>
      have h1 := ih hi _ ha
      exact (chost_errors hp (qquiet_ne hx)).trans h1
  | onfail_no_fault => intro _ _ _; trivial
  | onfail_fault => intro _ _ _; trivial

end Verif.Cypher
