import Verif.Cypher.Ending
/-!
# Matching, without the reader

What a match does depends on the bytes of the input and on the operator and precedence stacks, not on
how the input is read, nor on errors and line starts. `Sk` is the parser with only that.
-/
namespace Verif.Cypher
open Verif.Peg

variable {σ : Type}

/-- The part of `CState` that decides matches. -/
abbrev QState := Option Op × List Nat

def CState.q (c : CState) : QState := (c.op, c.precs)

/-- What the inline predicates do to that part. -/
def qpred : Pred → QState → Option (Bool × QState)
  | .op o, q => some (true, (some o, q.2))
  | .precPushTop, q => some (true, (q.1, 0 :: q.2))
  | .precPush, q => match q.1 with
    | none => none
    | some o => some (true, (q.1, o.next :: q.2))
  | .precPop, q => some (true, (q.1, q.2.tail))
  | .precChk, q => match q.1 with
    | none => none
    | some o => some (decide (lastPrec q.2 ≤ o.prec), q)
  | .no, q => some (false, q)
  | _, q => some (true, q)

/-- The thunks that predicates record. -/
def recT : Pred → Nat → List (Peg.Thunk Act)
  | .blockStart, p => [.act .blockStart p]
  | .blockEnd, p => [.act .blockEnd p]
  | .blockReplace, p => [.act .blockReplace p]
  | .blockMerge, p => [.act .blockMerge p]
  | _, _ => []

inductive SkRes where
  | ok (p : Nat) (ts : List (Peg.Thunk Act)) (q : QState)
  | no (q : QState)

/-- Matching `e` at a position of `w`: where the match ends, what was recorded (latest first), and the
state left. -/
inductive Sk (w : List UInt8) : E → Nat → QState → SkRes → Prop
  | eps {p q} : Sk w .eps p q (.ok p [] q)
  | one_ok {m p q c} : w[p]? = some c → m.mem c = true → Sk w (.one m) p q (.ok (p + 1) [] q)
  | one_no {m p q} : (∀ c, w[p]? = some c → m.mem c = false) → Sk w (.one m) p q (.no q)
  | str_ok {l p q} : w.extract p (p + l.length) = l → Sk w (.str l) p q (.ok (p + l.length) [] q)
  | str_no {l p q} : w.extract p (p + l.length) ≠ l → Sk w (.str l) p q (.no q)
  | nt_ok {r v p q p' ts q'} : Sk w (grammar r).body p q (.ok p' ts q') →
      Sk w (.nt r v) p q (.ok p' (setT v ++ (leaveT (grammar r).nvars ++
        (ts ++ enterT (grammar r).nvars))) q')
  | nt_no {r v p q q'} : Sk w (grammar r).body p q (.no q') → Sk w (.nt r v) p q (.no q')
  | seq_ok {a b p q p1 ts q1 p2 us q2} : Sk w a p q (.ok p1 ts q1) → Sk w b p1 q1 (.ok p2 us q2) →
      Sk w (.seq a b) p q (.ok p2 (us ++ ts) q2)
  | seq_no {a b p q q1} : Sk w a p q (.no q1) → Sk w (.seq a b) p q (.no q1)
  | seq_no2 {a b p q p1 ts q1 q2} : Sk w a p q (.ok p1 ts q1) → Sk w b p1 q1 (.no q2) →
      Sk w (.seq a b) p q (.no q2)
  | alt_ok {a b p q p1 ts q1} : Sk w a p q (.ok p1 ts q1) → Sk w (.alt a b) p q (.ok p1 ts q1)
  | alt_no {a b p q q1 res} : Sk w a p q (.no q1) → Sk w b p q1 res → Sk w (.alt a b) p q res
  | star_more {a p q p1 ts q1 p2 us q2} : Sk w a p q (.ok p1 ts q1) →
      Sk w (.star a) p1 q1 (.ok p2 us q2) → Sk w (.star a) p q (.ok p2 (us ++ ts) q2)
  | star_end {a p q q1} : Sk w a p q (.no q1) → Sk w (.star a) p q (.ok p [] q1)
  | peek_ok {a p q p1 ts q1} : Sk w a p q (.ok p1 ts q1) → Sk w (.peek a) p q (.ok p [] q1)
  | peek_no {a p q q1} : Sk w a p q (.no q1) → Sk w (.peek a) p q (.no q1)
  | npeek_ok {a p q p1 ts q1} : Sk w a p q (.ok p1 ts q1) → Sk w (.npeek a) p q (.no q1)
  | npeek_no {a p q q1} : Sk w a p q (.no q1) → Sk w (.npeek a) p q (.ok p [] q1)
  | pred_ok {x p q q'} : qpred x q = some (true, q') → Sk w (.pred x) p q (.ok p (recT x p) q')
  | pred_no {x p q q'} : qpred x q = some (false, q') → Sk w (.pred x) p q (.no q')
  | act {a p q} : Sk w (.act a) p q (.ok p [.act a p] q)
  | onfail_ok {a x p q p1 ts q1} : Sk w a p q (.ok p1 ts q1) → Sk w (.onfail a x) p q (.ok p1 ts q1)
  | onfail_no {a x p q q1 b q2} : Sk w a p q (.no q1) → qpred x q1 = some (b, q2) →
      Sk w (.onfail a x) p q (.no q2)

/-- What a result of the parser is without the reader. -/
def SkOf (ts0 : List (Peg.Thunk Act)) (Q : SkRes → Prop) : Res Act (Reader σ × CState) → Prop
  | .ok s => ∃ ts, s.thunks = ts ++ ts0 ∧ Q (.ok s.pos ts s.g.2.q)
  | .fail s => Q (.no s.g.2.q)
  | .fault _ => True

theorem chost_qpred {S : Source σ} {x : Pred} {p : Nat} {g : Reader σ × CState} {b : Bool}
    {g' : Reader σ × CState} {ts : List (Peg.Thunk Act)} (h : (chost S).pred x p g = .ok (b, g', ts)) :
    qpred x g.2.q = some (b, g'.2.q) ∧ ts = recT x p := by
  obtain ⟨r, c⟩ := g
  simp only [chost, mkHost] at h
  cases hc : cpred x p r c with
  | error f => rw [hc] at h; simp at h
  | ok y =>
    obtain ⟨b', c', ts'⟩ := y
    rw [hc] at h
    simp only [Except.ok.injEq, Prod.mk.injEq] at h
    obtain ⟨rfl, rfl, rfl⟩ := h
    cases x <;> simp only [cpred] at hc
    case recordError =>
      split at hc
      · cases hc; exact ⟨rfl, rfl⟩
      · cases hc
    case err l =>
      split at hc
      · cases hc
      · split at hc
        · cases hc; exact ⟨rfl, rfl⟩
        · cases hc
    case precPush =>
      split at hc
      · cases hc
      · rename_i o ho
        cases hc
        exact ⟨by simp [qpred, CState.q, ho], rfl⟩
    case precChk =>
      split at hc
      · cases hc
      · rename_i o ho
        cases hc
        exact ⟨by simp [qpred, CState.q, ho], rfl⟩
    all_goals (cases hc; exact ⟨rfl, rfl⟩)

theorem chost_peek {S : Source σ} {p : Nat} {g : Reader σ × CState} {o : Option UInt8}
    {g' : Reader σ × CState} (h : (chost S).peek p g = (o, g')) : g'.2 = g.2 := by
  obtain ⟨r, c⟩ := g
  simp only [chost, mkHost, Prod.mk.injEq] at h
  rw [← h.2]

theorem matchStr_q {S : Source σ} {start : Nat} : ∀ (l : List UInt8) (p : Nat) (g : Reader σ × CState)
    {b q g'}, matchStr (chost S) start l p g = (b, q, g') → g'.2 = g.2 := by
  intro l
  induction l with
  | nil => intro p g b q g' h; cases h; rfl
  | cons c cs ih =>
    intro p g b q g' h
    simp only [matchStr] at h
    rcases hp : (chost S).peek p g with ⟨o, g1⟩
    have hg := chost_peek hp
    rw [hp] at h
    cases o with
    | none => cases h; exact hg
    | some d =>
      simp only at h
      split at h
      · rw [ih _ _ h, hg]
      · cases h; exact hg

/-- A repetition does not fail. -/
theorem star_not_fail {S : Source σ} {e : E} {s : St Act (Reader σ × CState)}
    {res : Res Act (Reader σ × CState)} (h : Eval grammar (chost S) e s res) :
    ∀ a s', e = .star a → res ≠ .fail s' := by
  induction h with
  | star_more _ _ _ ih => rintro a s' ⟨⟩; exact ih _ _ rfl
  | star_end => rintro a s' ⟨⟩ h; cases h
  | star_fault => rintro a s' ⟨⟩ h; cases h
  | _ => rintro a s' h; cases h

/-- Every match is one of `Sk`. -/
theorem Sk.of_eval {S : Source σ} {w : List UInt8} {I : Nat → Reader σ × CState → Prop}
    (hr : ReadsAs (chost S) w I) {e : E} {s : St Act (Reader σ × CState)}
    {res : Res Act (Reader σ × CState)} (h : Eval grammar (chost S) e s res) :
    I s.pos s.g → SkOf s.thunks (Sk w e s.pos s.g.2.q) res := by
  induction h with
  | eps => intro _; exact ⟨[], rfl, .eps⟩
  | @one_end m s g' hp =>
    intro hi
    have hv := hr.val hi
    rw [hp] at hv
    show Sk w _ _ _ (.no g'.2.q)
    rw [chost_peek hp]
    exact .one_no fun c hc => by rw [hc] at hv; cases hv
  | @one_ok m s c g' hp hm =>
    intro hi
    have hv := hr.val hi
    rw [hp] at hv
    refine ⟨[], rfl, ?_⟩
    show Sk w _ _ _ (.ok _ _ g'.2.q)
    rw [chost_peek hp]
    exact .one_ok hv.symm hm
  | @one_no m s c g' hp hm =>
    intro hi
    have hv := hr.val hi
    rw [hp] at hv
    show Sk w _ _ _ (.no g'.2.q)
    rw [chost_peek hp]
    refine .one_no fun d hd => ?_
    rw [hd] at hv
    cases hv; exact hm
  | @str_ok l s p g' hm =>
    intro hi
    obtain ⟨-, h2, -⟩ := matchStr_inv hr l s.pos s.g (Nat.le_refl _) hi hm
    refine ⟨[], rfl, ?_⟩
    show Sk w _ _ _ (.ok p _ g'.2.q)
    rw [matchStr_q _ _ _ hm, (h2 rfl).1]
    exact .str_ok (h2 rfl).2
  | @str_no l s p g' hm =>
    intro hi
    obtain ⟨-, -, h3⟩ := matchStr_inv hr l s.pos s.g (Nat.le_refl _) hi hm
    show Sk w _ _ _ (.no g'.2.q)
    rw [matchStr_q _ _ _ hm]
    exact .str_no (h3 rfl).2.2
  | @nt_ok r var s s1 _ ih =>
    intro hi
    obtain ⟨ts, h1, h2⟩ := ih (by simpa using hi)
    rw [enter_thunks] at h1
    rw [St.enter_pos, St.enter_g] at h2
    refine ⟨_, ?_, by rw [St.leave_pos, St.leave_g]; exact .nt_ok h2⟩
    rw [leave_thunks, h1]; simp
  | @nt_no r var s s1 _ ih =>
    intro hi
    have := ih (by simpa using hi)
    simp only [SkOf, St.enter_pos, St.enter_g] at this
    exact .nt_no this
  | nt_fault => intro _; trivial
  | @seq_ok a b s s1 r h0 _ ih1 ih2 =>
    intro hi
    have hg := h0.good hr hi
    obtain ⟨ts, h1, h2⟩ := ih1 hi
    have h3 := ih2 hg.2
    cases r with
    | ok s2 =>
      obtain ⟨us, h4, h5⟩ := h3
      exact ⟨us ++ ts, by rw [h4, h1, List.append_assoc], .seq_ok h2 h5⟩
    | fail s2 => exact .seq_no2 h2 h3
    | fault f => trivial
  | seq_no _ ih => intro hi; exact .seq_no (ih hi)
  | seq_fault => intro _; trivial
  | @alt_ok a b s s1 _ ih =>
    intro hi
    obtain ⟨ts, h1, h2⟩ := ih hi
    exact ⟨ts, h1, .alt_ok h2⟩
  | @alt_no a b s s1 r h0 _ ih1 ih2 =>
    intro hi
    have hg := h0.good hr hi
    have h1 := ih1 hi
    have h2 := ih2 (hr.down hg.2 hg.1)
    cases r with
    | ok s2 =>
      obtain ⟨us, h4, h5⟩ := h2
      exact ⟨us, h4, .alt_no h1 h5⟩
    | fail s2 => exact .alt_no h1 h2
    | fault f => trivial
  | alt_fault => intro _; trivial
  | @star_more a s s1 r h0 h0' ih1 ih2 =>
    intro hi
    have hg := h0.good hr hi
    obtain ⟨ts, h1, h2⟩ := ih1 hi
    have h3 := ih2 hg.2
    cases r with
    | ok s2 =>
      obtain ⟨us, h4, h5⟩ := h3
      exact ⟨us ++ ts, by rw [h4, h1, List.append_assoc], .star_more h2 h5⟩
    | fail s2 => exact (star_not_fail h0' _ _ rfl rfl).elim
    | fault f => trivial
  | star_end _ ih => intro hi; exact ⟨[], rfl, .star_end (ih hi)⟩
  | star_fault => intro _; trivial
  | peek_ok _ ih =>
    intro hi
    obtain ⟨ts, h1, h2⟩ := ih hi
    exact ⟨[], rfl, .peek_ok h2⟩
  | peek_no _ ih => intro hi; exact .peek_no (ih hi)
  | peek_fault => intro _; trivial
  | npeek_ok _ ih =>
    intro hi
    obtain ⟨ts, h1, h2⟩ := ih hi
    exact .npeek_ok h2
  | npeek_no _ ih => intro hi; exact ⟨[], rfl, .npeek_no (ih hi)⟩
  | npeek_fault => intro _; trivial
  | @pred_ok x s g' ts hp =>
    intro _
    obtain ⟨h1, h2⟩ := chost_qpred hp
    exact ⟨ts, rfl, h2 ▸ .pred_ok h1⟩
  | @pred_no x s g' ts hp =>
    intro _
    exact .pred_no (chost_qpred hp).1
  | pred_fault => intro _; trivial
  | @act a s => intro _; exact ⟨[.act a s.pos], rfl, .act⟩
  | onfail_ok _ ih =>
    intro hi
    obtain ⟨ts, h1, h2⟩ := ih hi
    exact ⟨ts, h1, .onfail_ok h2⟩
  | @onfail_no a x s s1 b g' ts _ hp ih =>
    intro hi
    exact .onfail_no (ih hi) (chost_qpred hp).1
  | onfail_no_fault => intro _; trivial
  | onfail_fault => intro _; trivial

/-! ## Positions and determinism -/

theorem Sk.le {w : List UInt8} {e : E} {p : Nat} {q : QState} {res : SkRes} (h : Sk w e p q res) :
    ∀ p' ts q', res = .ok p' ts q' → p ≤ p' := by
  induction h with
  | seq_ok _ _ ih1 ih2 => rintro p' ts q' ⟨⟩; exact Nat.le_trans (ih1 _ _ _ rfl) (ih2 _ _ _ rfl)
  | star_more _ _ ih1 ih2 => rintro p' ts q' ⟨⟩; exact Nat.le_trans (ih1 _ _ _ rfl) (ih2 _ _ _ rfl)
  | nt_ok _ ih => rintro p' ts q' ⟨⟩; exact ih _ _ _ rfl
  | alt_ok _ ih => rintro p' ts q' ⟨⟩; exact ih _ _ _ rfl
  | alt_no _ _ _ ih => exact ih
  | onfail_ok _ ih => rintro p' ts q' ⟨⟩; exact ih _ _ _ rfl
  | one_ok => rintro p' ts q' ⟨⟩; omega
  | str_ok => rintro p' ts q' ⟨⟩; omega
  | _ => rintro p' ts q' h; cases h <;> exact Nat.le_refl _

theorem Sk.det {w : List UInt8} {e : E} {p : Nat} {q : QState} {r₁ r₂ : SkRes} (h : Sk w e p q r₁) :
    Sk w e p q r₂ → r₁ = r₂ := by
  induction h generalizing r₂ with
  | eps => rintro ⟨⟩; rfl
  | one_ok h1 h2 =>
    intro h
    cases h with
    | one_ok => rfl
    | one_no h => rw [h _ h1] at h2; cases h2
  | one_no h0 =>
    intro h
    cases h with
    | one_ok h1 h2 => rw [h0 _ h1] at h2; cases h2
    | one_no => rfl
  | str_ok h0 =>
    intro h
    cases h with
    | str_ok => rfl
    | str_no h => exact (h h0).elim
  | str_no h0 =>
    intro h
    cases h with
    | str_ok h => exact (h0 h).elim
    | str_no => rfl
  | nt_ok _ ih =>
    intro h
    cases h with
    | nt_ok h => cases ih h; rfl
    | nt_no h => cases ih h
  | nt_no _ ih =>
    intro h
    cases h with
    | nt_ok h => cases ih h
    | nt_no h => cases ih h; rfl
  | seq_ok _ _ ih1 ih2 =>
    intro h
    cases h with
    | seq_ok h h' => cases ih1 h; cases ih2 h'; rfl
    | seq_no h => cases ih1 h
    | seq_no2 h h' => cases ih1 h; cases ih2 h'
  | seq_no _ ih1 =>
    intro h
    cases h with
    | seq_ok h h' => cases ih1 h
    | seq_no h => cases ih1 h; rfl
    | seq_no2 h h' => cases ih1 h
  | seq_no2 _ _ ih1 ih2 =>
    intro h
    cases h with
    | seq_ok h h' => cases ih1 h; cases ih2 h'
    | seq_no h => cases ih1 h
    | seq_no2 h h' => cases ih1 h; cases ih2 h'; rfl
  | alt_ok _ ih1 =>
    intro h
    cases h with
    | alt_ok h => cases ih1 h; rfl
    | alt_no h h' => cases ih1 h
  | alt_no _ _ ih1 ih2 =>
    intro h
    cases h with
    | alt_ok h => cases ih1 h
    | alt_no h h' => cases ih1 h; exact ih2 h'
  | star_more _ _ ih1 ih2 =>
    intro h
    cases h with
    | star_more h h' => cases ih1 h; cases ih2 h'; rfl
    | star_end h => cases ih1 h
  | star_end _ ih1 =>
    intro h
    cases h with
    | star_more h h' => cases ih1 h
    | star_end h => cases ih1 h; rfl
  | peek_ok _ ih1 =>
    intro h
    cases h with
    | peek_ok h => cases ih1 h; rfl
    | peek_no h => cases ih1 h
  | peek_no _ ih1 =>
    intro h
    cases h with
    | peek_ok h => cases ih1 h
    | peek_no h => cases ih1 h; rfl
  | npeek_ok _ ih1 =>
    intro h
    cases h with
    | npeek_ok h => cases ih1 h; rfl
    | npeek_no h => cases ih1 h
  | npeek_no _ ih1 =>
    intro h
    cases h with
    | npeek_ok h => cases ih1 h
    | npeek_no h => cases ih1 h; rfl
  | pred_ok h0 =>
    intro h
    cases h with
    | pred_ok h => rw [h0] at h; cases h; rfl
    | pred_no h => rw [h0] at h; cases h
  | pred_no h0 =>
    intro h
    cases h with
    | pred_ok h => rw [h0] at h; cases h
    | pred_no h => rw [h0] at h; cases h; rfl
  | act => rintro ⟨⟩; rfl
  | onfail_ok _ ih1 =>
    intro h
    cases h with
    | onfail_ok h => cases ih1 h; rfl
    | onfail_no h h' => cases ih1 h
  | onfail_no _ h0 ih1 =>
    intro h
    cases h with
    | onfail_ok h => cases ih1 h
    | onfail_no h h' => cases ih1 h; rw [h0] at h'; cases h'; rfl

/-! ## Inversion, whatever the operators -/

/-- `e` matches `w` from `p` to `p'`, recording `ts`. -/
def Mt (w : List UInt8) (e : E) (p p' : Nat) (ts : List (Peg.Thunk Act)) : Prop :=
  ∃ q q', Sk w e p q (.ok p' ts q')

/-- `e` does not match `w` at `p`. -/
def Fl (w : List UInt8) (e : E) (p : Nat) : Prop := ∃ q q', Sk w e p q (.no q')

section inv
variable {w : List UInt8} {a b : E} {p p' : Nat} {ts : List (Peg.Thunk Act)}

theorem Mt.le {e : E} (h : Mt w e p p' ts) : p ≤ p' := by
  obtain ⟨q, q', h⟩ := h; exact h.le _ _ _ rfl
theorem Mt.eps (h : Mt w .eps p p' ts) : p' = p ∧ ts = [] := by
  obtain ⟨q, q', h⟩ := h; cases h; exact ⟨rfl, rfl⟩
theorem Mt.one {m : CharSet} (h : Mt w (.one m) p p' ts) :
    p' = p + 1 ∧ ts = [] ∧ ∃ c, w[p]? = some c ∧ m.mem c = true := by
  obtain ⟨q, q', h⟩ := h
  cases h with
  | one_ok h1 h2 => exact ⟨rfl, rfl, _, h1, h2⟩
theorem Mt.str {l : List UInt8} (h : Mt w (.str l) p p' ts) :
    p' = p + l.length ∧ ts = [] ∧ w.extract p (p + l.length) = l := by
  obtain ⟨q, q', h⟩ := h
  cases h with
  | str_ok h => exact ⟨rfl, rfl, h⟩
theorem Mt.nt {r : Rule} {v : Option Nat} (h : Mt w (.nt r v) p p' ts) :
    ∃ us, Mt w (grammar r).body p p' us ∧
      ts = setT v ++ (leaveT (grammar r).nvars ++ (us ++ enterT (grammar r).nvars)) := by
  obtain ⟨q, q', h⟩ := h
  cases h with
  | nt_ok h => exact ⟨_, ⟨_, _, h⟩, rfl⟩
/-- A rule without variables, called for no value. -/
theorem Mt.nt0 {r : Rule} (hn : (grammar r).nvars = 0) (h : Mt w (.nt r none) p p' ts) :
    Mt w (grammar r).body p p' ts := by
  obtain ⟨us, h1, rfl⟩ := h.nt
  simpa [setT, leaveT, enterT, hn] using h1
theorem Mt.seq (h : Mt w (.seq a b) p p' ts) :
    ∃ p1 us vs, Mt w a p p1 us ∧ Mt w b p1 p' vs ∧ ts = vs ++ us := by
  obtain ⟨q, q', h⟩ := h
  cases h with
  | seq_ok h1 h2 => exact ⟨_, _, _, ⟨_, _, h1⟩, ⟨_, _, h2⟩, rfl⟩
theorem Mt.alt (h : Mt w (.alt a b) p p' ts) : Mt w a p p' ts ∨ (Fl w a p ∧ Mt w b p p' ts) := by
  obtain ⟨q, q', h⟩ := h
  cases h with
  | alt_ok h => exact .inl ⟨_, _, h⟩
  | alt_no h1 h2 => exact .inr ⟨⟨_, _, h1⟩, ⟨_, _, h2⟩⟩
theorem Mt.npeek (h : Mt w (.npeek a) p p' ts) : p' = p ∧ ts = [] ∧ Fl w a p := by
  obtain ⟨q, q', h⟩ := h
  cases h with
  | npeek_no h => exact ⟨rfl, rfl, _, _, h⟩
theorem Mt.peek (h : Mt w (.peek a) p p' ts) : p' = p ∧ ts = [] ∧ ∃ p1 us, Mt w a p p1 us := by
  obtain ⟨q, q', h⟩ := h
  cases h with
  | peek_ok h => exact ⟨rfl, rfl, _, _, _, _, h⟩
theorem Mt.pred {x : Pred} (h : Mt w (.pred x) p p' ts) : p' = p ∧ ts = recT x p := by
  obtain ⟨q, q', h⟩ := h
  cases h with
  | pred_ok h => exact ⟨rfl, rfl⟩
theorem Mt.act {x : Act} (h : Mt w (.act x) p p' ts) : p' = p ∧ ts = [.act x p] := by
  obtain ⟨q, q', h⟩ := h
  cases h; exact ⟨rfl, rfl⟩
theorem Mt.onfail {x : Pred} (h : Mt w (.onfail a x) p p' ts) : Mt w a p p' ts := by
  obtain ⟨q, q', h⟩ := h
  cases h with
  | onfail_ok h => exact ⟨_, _, h⟩

/-- Repetition: some iterations, then none. -/
theorem Mt.star {P : Nat → Nat → List (Peg.Thunk Act) → Prop}
    (more : ∀ {p p1 p2 us vs}, Mt w a p p1 us → P p1 p2 vs → P p p2 (vs ++ us))
    (fin : ∀ {p}, Fl w a p → P p p []) (h : Mt w (.star a) p p' ts) : P p p' ts := by
  obtain ⟨q, q', h⟩ := h
  suffices H : ∀ e p q res, Sk w e p q res → ∀ p' ts q', e = .star a → res = .ok p' ts q' → P p p' ts by
    exact H _ _ _ _ h _ _ _ rfl rfl
  intro e p q res h
  induction h with
  | star_more h1 h2 _ ih => rintro p' ts q' ⟨⟩ ⟨⟩; exact more ⟨_, _, h1⟩ (ih _ _ _ rfl rfl)
  | star_end h => rintro p' ts q' ⟨⟩ ⟨⟩; exact fin ⟨_, _, h⟩
  | _ => rintro p' ts q' h; cases h

theorem Fl.one {m : CharSet} (h : Fl w (.one m) p) : ∀ c, w[p]? = some c → m.mem c = false := by
  obtain ⟨q, q', h⟩ := h
  cases h with
  | one_no h => exact h
theorem Fl.str {l : List UInt8} (h : Fl w (.str l) p) : w.extract p (p + l.length) ≠ l := by
  obtain ⟨q, q', h⟩ := h
  cases h with
  | str_no h => exact h
theorem Fl.nt {r : Rule} {v : Option Nat} (h : Fl w (.nt r v) p) : Fl w (grammar r).body p := by
  obtain ⟨q, q', h⟩ := h
  cases h with
  | nt_no h => exact ⟨_, _, h⟩
theorem Fl.seq (h : Fl w (.seq a b) p) : Fl w a p ∨ ∃ p1 us, Mt w a p p1 us ∧ Fl w b p1 := by
  obtain ⟨q, q', h⟩ := h
  cases h with
  | seq_no h => exact .inl ⟨_, _, h⟩
  | seq_no2 h1 h2 => exact .inr ⟨_, _, ⟨_, _, h1⟩, ⟨_, _, h2⟩⟩
theorem Fl.alt (h : Fl w (.alt a b) p) : Fl w a p ∧ Fl w b p := by
  obtain ⟨q, q', h⟩ := h
  cases h with
  | alt_no h1 h2 => exact ⟨⟨_, _, h1⟩, ⟨_, _, h2⟩⟩
theorem Fl.npeek (h : Fl w (.npeek a) p) : ∃ p1 us, Mt w a p p1 us := by
  obtain ⟨q, q', h⟩ := h
  cases h with
  | npeek_ok h => exact ⟨_, _, _, _, h⟩
theorem Fl.peek (h : Fl w (.peek a) p) : Fl w a p := by
  obtain ⟨q, q', h⟩ := h
  cases h with
  | peek_no h => exact ⟨_, _, h⟩
theorem Fl.onfail {x : Pred} (h : Fl w (.onfail a x) p) : Fl w a p := by
  obtain ⟨q, q', h⟩ := h
  cases h with
  | onfail_no h _ => exact ⟨_, _, h⟩
theorem Fl.eps : ¬ Fl w .eps p := by rintro ⟨q, q', h⟩; cases h
theorem Fl.act {x : Act} : ¬ Fl w (.act x) p := by rintro ⟨q, q', h⟩; cases h
theorem Fl.star : ¬ Fl w (.star a) p := by rintro ⟨q, q', h⟩; cases h
theorem Fl.pred {x : Pred} (h : Fl w (.pred x) p) : x = .no ∨ x = .precChk := by
  obtain ⟨q, q', h⟩ := h
  cases h with
  | pred_no h =>
    cases x <;> simp [qpred] at h ⊢
    split at h <;> cases h
end inv

end Verif.Cypher
