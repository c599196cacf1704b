import Verif.Peg.Cost
import Verif.Cypher.Skeleton
/-!
# Nested parentheses are expensive

`_expression` (parser.leg:420-450) first looks for an atom with operators after it, then, if there are none, for the
atom again. In nested parentheses each level doubles the work.
-/
namespace Verif.Cypher
open Verif.Peg

variable {σ : Type}

/-- `Sk` with the number of rules applied. -/
inductive SkC (w : List UInt8) : E → Nat → QState → SkRes → Nat → Prop
  | eps {p q} : SkC w .eps p q (.ok p [] q) 0
  | one_ok {m p q c} : w[p]? = some c → m.mem c = true → SkC w (.one m) p q (.ok (p + 1) [] q) 0
  | one_no {m p q} : (∀ c, w[p]? = some c → m.mem c = false) → SkC w (.one m) p q (.no q) 0
  | str_ok {l p q} : w.extract p (p + l.length) = l → SkC w (.str l) p q (.ok (p + l.length) [] q) 0
  | str_no {l p q} : w.extract p (p + l.length) ≠ l → SkC w (.str l) p q (.no q) 0
  | nt_ok {r v p q p' ts q' n1} : SkC w (grammar r).body p q (.ok p' ts q') n1 →
      SkC w (.nt r v) p q (.ok p' (setT v ++ (leaveT (grammar r).nvars ++
        (ts ++ enterT (grammar r).nvars))) q') (n1 + 1)
  | nt_no {r v p q q' n1} : SkC w (grammar r).body p q (.no q') n1 → SkC w (.nt r v) p q (.no q') (n1 + 1)
  | seq_ok {a b p q p1 ts q1 p2 us q2 n1 n2} : SkC w a p q (.ok p1 ts q1) n1 → SkC w b p1 q1 (.ok p2 us q2) n2 →
      SkC w (.seq a b) p q (.ok p2 (us ++ ts) q2) (n1 + n2)
  | seq_no {a b p q q1 n1} : SkC w a p q (.no q1) n1 → SkC w (.seq a b) p q (.no q1) n1
  | seq_no2 {a b p q p1 ts q1 q2 n1 n2} : SkC w a p q (.ok p1 ts q1) n1 → SkC w b p1 q1 (.no q2) n2 →
      SkC w (.seq a b) p q (.no q2) (n1 + n2)
  | alt_ok {a b p q p1 ts q1 n1} : SkC w a p q (.ok p1 ts q1) n1 → SkC w (.alt a b) p q (.ok p1 ts q1) n1
  | alt_no {a b p q q1 res n1 n2} : SkC w a p q (.no q1) n1 → SkC w b p q1 res n2 → SkC w (.alt a b) p q res (n1 + n2)
  | star_more {a p q p1 ts q1 p2 us q2 n1 n2} : SkC w a p q (.ok p1 ts q1) n1 →
      SkC w (.star a) p1 q1 (.ok p2 us q2) n2 → SkC w (.star a) p q (.ok p2 (us ++ ts) q2) (n1 + n2)
  | star_end {a p q q1 n1} : SkC w a p q (.no q1) n1 → SkC w (.star a) p q (.ok p [] q1) n1
  | peek_ok {a p q p1 ts q1 n1} : SkC w a p q (.ok p1 ts q1) n1 → SkC w (.peek a) p q (.ok p [] q1) n1
  | peek_no {a p q q1 n1} : SkC w a p q (.no q1) n1 → SkC w (.peek a) p q (.no q1) n1
  | npeek_ok {a p q p1 ts q1 n1} : SkC w a p q (.ok p1 ts q1) n1 → SkC w (.npeek a) p q (.no q1) n1
  | npeek_no {a p q q1 n1} : SkC w a p q (.no q1) n1 → SkC w (.npeek a) p q (.ok p [] q1) n1
  | pred_ok {x p q q'} : qpred x q = some (true, q') → SkC w (.pred x) p q (.ok p (recT x p) q') 0
  | pred_no {x p q q'} : qpred x q = some (false, q') → SkC w (.pred x) p q (.no q') 0
  | act {a p q} : SkC w (.act a) p q (.ok p [.act a p] q) 0
  | onfail_ok {a x p q p1 ts q1 n1} : SkC w a p q (.ok p1 ts q1) n1 → SkC w (.onfail a x) p q (.ok p1 ts q1) n1
  | onfail_no {a x p q q1 b q2 n1} : SkC w a p q (.no q1) n1 → qpred x q1 = some (b, q2) →
      SkC w (.onfail a x) p q (.no q2) n1

theorem SkC.sk {w : List UInt8} {e : E} {p : Nat} {q : QState} {res : SkRes} {n : Nat} (h : SkC w e p q res n) :
    Sk w e p q res := by
  induction h with
  | eps => exact .eps
  | one_ok h0 h1 => exact .one_ok h0 h1
  | one_no h0 => exact .one_no h0
  | str_ok h0 => exact .str_ok h0
  | str_no h0 => exact .str_no h0
  | nt_ok _ ih1 => exact .nt_ok ih1
  | nt_no _ ih1 => exact .nt_no ih1
  | seq_ok _ _ ih1 ih2 => exact .seq_ok ih1 ih2
  | seq_no _ ih1 => exact .seq_no ih1
  | seq_no2 _ _ ih1 ih2 => exact .seq_no2 ih1 ih2
  | alt_ok _ ih1 => exact .alt_ok ih1
  | alt_no _ _ ih1 ih2 => exact .alt_no ih1 ih2
  | star_more _ _ ih1 ih2 => exact .star_more ih1 ih2
  | star_end _ ih1 => exact .star_end ih1
  | peek_ok _ ih1 => exact .peek_ok ih1
  | peek_no _ ih1 => exact .peek_no ih1
  | npeek_ok _ ih1 => exact .npeek_ok ih1
  | npeek_no _ ih1 => exact .npeek_no ih1
  | pred_ok h0 => exact .pred_ok h0
  | pred_no h0 => exact .pred_no h0
  | act => exact .act
  | onfail_ok _ ih1 => exact .onfail_ok ih1
  | onfail_no _ h0 ih1 => exact .onfail_no ih1 h0

/-- Every match is one of `SkC`. -/
theorem SkC.of_cost {S : Source σ} {w : List UInt8} {I : Nat → Reader σ × CState → Prop}
    (hr : ReadsAs (chost S) w I) {e : E} {s : St Act (Reader σ × CState)}
    {res : Res Act (Reader σ × CState)} {n : Nat} (h : Cost grammar (chost S) e s res n) :
    I s.pos s.g → SkOf s.thunks (fun x => SkC w e s.pos s.g.2.q x n) res := by
  induction h with
  | eps => intro _; exact ⟨[], rfl, .eps⟩
  | @one_end m s g' hp =>
    intro hi
    have hv := hr.val hi
    rw [hp] at hv
    show SkC w _ _ _ (.no g'.2.q) _
    rw [chost_peek hp]
    exact .one_no fun c hc => by rw [hc] at hv; cases hv
  | @one_ok m s c g' hp hm =>
    intro hi
    have hv := hr.val hi
    rw [hp] at hv
    refine ⟨[], rfl, ?_⟩
    show SkC w _ _ _ (.ok _ _ g'.2.q) _
    rw [chost_peek hp]
    exact .one_ok hv.symm hm
  | @one_no m s c g' hp hm =>
    intro hi
    have hv := hr.val hi
    rw [hp] at hv
    show SkC w _ _ _ (.no g'.2.q) _
    rw [chost_peek hp]
    refine .one_no fun d hd => ?_
    rw [hd] at hv
    cases hv; exact hm
  | @str_ok l s p g' hm =>
    intro hi
    obtain ⟨-, h2, -⟩ := matchStr_inv hr l s.pos s.g (Nat.le_refl _) hi hm
    refine ⟨[], rfl, ?_⟩
    show SkC w _ _ _ (.ok p _ g'.2.q) _
    rw [matchStr_q _ _ _ hm, (h2 rfl).1]
    exact .str_ok (h2 rfl).2
  | @str_no l s p g' hm =>
    intro hi
    obtain ⟨-, -, h3⟩ := matchStr_inv hr l s.pos s.g (Nat.le_refl _) hi hm
    show SkC w _ _ _ (.no g'.2.q) _
    rw [matchStr_q _ _ _ hm]
    exact .str_no (h3 rfl).2.2
  | @nt_ok r var s s1 n1 _ ih =>
    intro hi
    obtain ⟨ts, h1, h2⟩ := ih (by simpa using hi)
    rw [enter_thunks] at h1
    rw [St.enter_pos, St.enter_g] at h2
    refine ⟨_, ?_, by rw [St.leave_pos, St.leave_g]; exact .nt_ok h2⟩
    rw [leave_thunks, h1]; simp
  | @nt_no r var s s1 n1 _ ih =>
    intro hi
    have := ih (by simpa using hi)
    simp only [SkOf, St.enter_pos, St.enter_g] at this
    exact .nt_no this
  | nt_fault => intro _; trivial
  | @seq_ok a b s s1 r n1 n2 h0 _ ih1 ih2 =>
    intro hi
    have hg := h0.eval.good hr hi
    obtain ⟨ts, h1, h2⟩ := ih1 hi
    have h3 := ih2 hg.2
    cases r with
    | ok s2 =>
      obtain ⟨us, h4, h5⟩ := h3
      exact ⟨us ++ ts, by rw [h4, h1, List.append_assoc], .seq_ok h2 h5⟩
    | fail s2 => exact .seq_no2 h2 h3
    | fault f => trivial
  | seq_no _ ih => intro hi; exact .seq_no (ih hi)
  | seq_fault => intro _; trivial
  | @alt_ok a b s s1 n1 _ ih =>
    intro hi
    obtain ⟨ts, h1, h2⟩ := ih hi
    exact ⟨ts, h1, .alt_ok h2⟩
  | @alt_no a b s s1 r n1 n2 h0 _ ih1 ih2 =>
    intro hi
    have hg := h0.eval.good hr hi
    have h1 := ih1 hi
    have h2 := ih2 (hr.down hg.2 hg.1)
    cases r with
    | ok s2 =>
      obtain ⟨us, h4, h5⟩ := h2
      exact ⟨us, h4, .alt_no h1 h5⟩
    | fail s2 => exact .alt_no h1 h2
    | fault f => trivial
  | alt_fault => intro _; trivial
  | @star_more a s s1 r n1 n2 h0 h0' ih1 ih2 =>
    intro hi
    have hg := h0.eval.good hr hi
    obtain ⟨ts, h1, h2⟩ := ih1 hi
    have h3 := ih2 hg.2
    cases r with
    | ok s2 =>
      obtain ⟨us, h4, h5⟩ := h3
      exact ⟨us ++ ts, by rw [h4, h1, List.append_assoc], .star_more h2 h5⟩
    | fail s2 => exact (star_not_fail h0'.eval _ _ rfl rfl).elim
    | fault f => trivial
  | star_end _ ih => intro hi; exact ⟨[], rfl, .star_end (ih hi)⟩
  | star_fault => intro _; trivial
  | peek_ok _ ih =>
    intro hi
    obtain ⟨ts, h1, h2⟩ := ih hi
    exact ⟨[], rfl, .peek_ok h2⟩
  | peek_no _ ih => intro hi; exact .peek_no (ih hi)
  | peek_fault => intro _; trivial
  | npeek_ok _ ih =>
    intro hi
    obtain ⟨ts, h1, h2⟩ := ih hi
    exact .npeek_ok h2
  | npeek_no _ ih => intro hi; exact ⟨[], rfl, .npeek_no (ih hi)⟩
  | npeek_fault => intro _; trivial
  | @pred_ok x s g' ts hp =>
    intro _
    obtain ⟨h1, h2⟩ := chost_qpred hp
    exact ⟨ts, rfl, h2 ▸ .pred_ok h1⟩
  | @pred_no x s g' ts hp =>
    intro _
    exact .pred_no (chost_qpred hp).1
  | pred_fault => intro _; trivial
  | @act a s => intro _; exact ⟨[.act a s.pos], rfl, .act⟩
  | onfail_ok _ ih =>
    intro hi
    obtain ⟨ts, h1, h2⟩ := ih hi
    exact ⟨ts, h1, .onfail_ok h2⟩
  | @onfail_no a x s s1 b g' ts n1 _ hp ih =>
    intro hi
    exact .onfail_no (ih hi) (chost_qpred hp).1
  | onfail_no_fault => intro _; trivial
  | onfail_fault => intro _; trivial


/-! ## Which rule is called next

With only a few bytes of the input known. -/

/-- What is known about a match. -/
inductive Reach where
  | ok (p : Nat)
  | no
  /-- the rule sought is called -/
  | hit
  | unknown
  deriving DecidableEq

/-- What is known about an inline predicate. -/
def Reach.pred (p : Nat) : Pred → Reach
  | .no => .no
  | .precChk => .unknown
  | _ => .ok p

/-- Matching a literal in `known`. -/
def reachStr (known : List UInt8) : List UInt8 → Nat → Reach
  | [], p => .ok p
  | c :: l, p => match known[p]? with
    | none => .unknown
    | some d => bif d == c then reachStr known l (p + 1) else .no

/-- Matching where the input goes on with `known`, until rule `r` is called at place `t`. -/
def reach (known : List UInt8) (r : Rule) (t : Nat) : Nat → E → Nat → Reach
  | 0, _, _ => .unknown
  | n + 1, e, p =>
    match e with
    | .eps => .ok p
    | .one m => match known[p]? with
      | none => .unknown
      | some c => bif m.mem c then .ok (p + 1) else .no
    | .str l => reachStr known l p
    | .nt x _ => bif decide (x = r) && p == t then .hit else reach known r t n (grammar x).body p
    | .seq a b => match reach known r t n a p with
      | .ok p1 => reach known r t n b p1
      | x => x
    | .alt a b => match reach known r t n a p with
      | .no => reach known r t n b p
      | x => x
    | .star a => match reach known r t n a p with
      | .ok p1 => reach known r t n (.star a) p1
      | .no => .ok p
      | x => x
    | .peek a => match reach known r t n a p with
      | .ok _ => .ok p
      | x => x
    | .npeek a => match reach known r t n a p with
      | .ok _ => .no
      | .no => .ok p
      | x => x
    | .pred x => Reach.pred p x
    | .act _ => .ok p
    | .onfail a _ => reach known r t n a p

/-- What it means. -/
def Reach.Holds (w : List UInt8) (base : Nat) (r : Rule) (t : Nat) (res : SkRes) (n : Nat) : Reach → Prop
  | .ok p => ∃ ts q, res = .ok (base + p) ts q
  | .no => ∃ q, res = .no q
  | .hit => ∃ v q res' n', SkC w (.nt r v) (base + t) q res' n' ∧ n' ≤ n
  | .unknown => True

theorem Reach.Holds.hit_mono {w : List UInt8} {base : Nat} {r : Rule} {t : Nat} {res res' : SkRes} {n n' : Nat}
    (h : Reach.Holds w base r t res n .hit) (hn : n ≤ n') : Reach.Holds w base r t res' n' .hit := by
  obtain ⟨v, q, x, m, h1, h2⟩ := h
  exact ⟨v, q, x, m, h1, Nat.le_trans h2 hn⟩

theorem reachStr_spec {w known : List UInt8} {base : Nat} (hk : ∀ i c, known[i]? = some c → w[base + i]? = some c) :
    ∀ (l : List UInt8) (p : Nat), match reachStr known l p with
      | .ok p' => w.extract (base + p) (base + p + l.length) = l ∧ p' = p + l.length
      | .no => w.extract (base + p) (base + p + l.length) ≠ l
      | .hit => False
      | .unknown => True := by
  intro l
  induction l with
  | nil => intro p; simp [reachStr]
  | cons c l ih =>
    intro p
    simp only [reachStr]
    cases hp : known[p]? with
    | none => trivial
    | some d =>
      have hw := hk _ _ hp
      have hlt : base + p < w.length := (List.getElem?_eq_some_iff.1 hw).1
      have hd : w.drop (base + p) = d :: w.drop (base + (p + 1)) := by
        rw [List.drop_eq_getElem_cons hlt, (List.getElem?_eq_some_iff.1 hw).2]; rfl
      have hx : w.extract (base + p) (base + p + (c :: l).length) =
          d :: w.extract (base + (p + 1)) (base + (p + 1) + l.length) := by
        simp only [List.extract_eq_take_drop, hd, List.length_cons]
        rw [show base + p + (l.length + 1) - (base + p) = l.length + 1 by omega, List.take_succ_cons,
          show base + (p + 1) + l.length - (base + (p + 1)) = l.length by omega]
      by_cases hc : d = c
      · have := ih (p + 1)
        simp only [hc, beq_self_eq_true, cond_true]
        cases hr : reachStr known l (p + 1) with
        | ok p' =>
          rw [hr] at this
          refine ⟨by rw [hx, this.1, hc], by rw [this.2]; simp; omega⟩
        | no =>
          rw [hr] at this
          intro h
          rw [hx, hc] at h
          exact this (List.cons.inj h).2
        | hit => rw [hr] at this; exact this
        | unknown => trivial
      · have : (d == c) = false := by simpa using hc
        simp only [this, cond_false]
        intro h
        rw [hx] at h
        exact hc (List.cons.inj h).1

theorem reach_spec {w known : List UInt8} {base : Nat} (hk : ∀ i c, known[i]? = some c → w[base + i]? = some c)
    (r : Rule) (t : Nat) : ∀ (k : Nat) (e : E) (p : Nat) {q : QState} {res : SkRes} {n : Nat},
    SkC w e (base + p) q res n → Reach.Holds w base r t res n (reach known r t k e p) := by
  intro k
  induction k with
  | zero => intro e p q res n _; trivial
  | succ k ih =>
    intro e p q res n h
    cases e with
    | eps => cases h; exact ⟨_, _, rfl⟩
    | one m =>
      simp only [reach]
      cases hp : known[p]? with
      | none => trivial
      | some c =>
        have hw := hk _ _ hp
        cases h with
        | one_ok h1 h2 =>
          rw [hw] at h1; cases h1
          simp only [h2, cond_true]; exact ⟨_, _, rfl⟩
        | one_no h1 => simp only [h1 _ hw, cond_false]; exact ⟨_, rfl⟩
    | str l =>
      simp only [reach]
      have := reachStr_spec hk l p
      cases hr : reachStr known l p with
      | ok p' =>
        rw [hr] at this
        cases h with
        | str_ok h1 => exact ⟨_, _, by rw [this.2, Nat.add_assoc]⟩
        | str_no h1 => exact absurd this.1 h1
      | no =>
        rw [hr] at this
        cases h with
        | str_ok h1 => exact absurd h1 this
        | str_no h1 => exact ⟨_, rfl⟩
      | hit => rw [hr] at this; exact this.elim
      | unknown => trivial
    | nt x v =>
      simp only [reach]
      cases hx : decide (x = r) && p == t with
      | true =>
        simp only [Bool.and_eq_true, decide_eq_true_eq, beq_iff_eq] at hx
        obtain ⟨rfl, rfl⟩ := hx
        exact ⟨_, _, _, _, h, Nat.le_refl _⟩
      | false =>
        simp only [cond_false]
        cases h with
        | nt_ok h1 =>
          have := ih _ p h1
          cases hr : reach known r t k (grammar x).body p with
          | ok p' => rw [hr] at this; obtain ⟨ts, q, h⟩ := this; cases h; exact ⟨_, _, rfl⟩
          | no => rw [hr] at this; obtain ⟨q, h⟩ := this; cases h
          | hit => rw [hr] at this; exact this.hit_mono (Nat.le_succ _)
          | unknown => trivial
        | nt_no h1 =>
          have := ih _ p h1
          cases hr : reach known r t k (grammar x).body p with
          | ok p' => rw [hr] at this; obtain ⟨ts, q, h⟩ := this; cases h
          | no => exact ⟨_, rfl⟩
          | hit => rw [hr] at this; exact this.hit_mono (Nat.le_succ _)
          | unknown => trivial
    | seq a b =>
      simp only [reach]
      cases h with
      | seq_ok h1 h2 =>
        have := ih _ p h1
        cases hr : reach known r t k a p with
        | ok p1 =>
          rw [hr] at this
          obtain ⟨ts, q, h⟩ := this
          cases h
          have := ih _ p1 h2
          simp only
          cases hr' : reach known r t k b p1 with
          | ok p' => rw [hr'] at this; obtain ⟨ts, q, h⟩ := this; cases h; exact ⟨_, _, rfl⟩
          | no => rw [hr'] at this; obtain ⟨q, h⟩ := this; cases h
          | hit => rw [hr'] at this; exact this.hit_mono (Nat.le_add_left _ _)
          | unknown => trivial
        | no => rw [hr] at this; obtain ⟨q, h⟩ := this; cases h
        | hit => rw [hr] at this; exact this.hit_mono (Nat.le_add_right _ _)
        | unknown => trivial
      | seq_no h1 =>
        have := ih _ p h1
        cases hr : reach known r t k a p with
        | ok p1 => rw [hr] at this; obtain ⟨ts, q, h⟩ := this; cases h
        | no => exact ⟨_, rfl⟩
        | hit => rw [hr] at this; exact this
        | unknown => trivial
      | seq_no2 h1 h2 =>
        have := ih _ p h1
        cases hr : reach known r t k a p with
        | ok p1 =>
          rw [hr] at this
          obtain ⟨ts, q, h⟩ := this
          cases h
          have := ih _ p1 h2
          simp only
          cases hr' : reach known r t k b p1 with
          | ok p' => rw [hr'] at this; obtain ⟨ts, q, h⟩ := this; cases h
          | no => exact ⟨_, rfl⟩
          | hit => rw [hr'] at this; exact this.hit_mono (Nat.le_add_left _ _)
          | unknown => trivial
        | no => rw [hr] at this; obtain ⟨q, h⟩ := this; cases h
        | hit => rw [hr] at this; exact this.hit_mono (Nat.le_add_right _ _)
        | unknown => trivial
    | alt a b =>
      simp only [reach]
      cases h with
      | alt_ok h1 =>
        have := ih _ p h1
        cases hr : reach known r t k a p with
        | ok p1 => rw [hr] at this; exact this
        | no => rw [hr] at this; obtain ⟨q, h⟩ := this; cases h
        | hit => rw [hr] at this; exact this
        | unknown => trivial
      | alt_no h1 h2 =>
        have := ih _ p h1
        cases hr : reach known r t k a p with
        | ok p1 => rw [hr] at this; obtain ⟨ts, q, h⟩ := this; cases h
        | no =>
          have := ih _ p h2
          simp only
          cases hr' : reach known r t k b p with
          | ok p' => rw [hr'] at this; exact this
          | no => rw [hr'] at this; exact this
          | hit => rw [hr'] at this; exact this.hit_mono (Nat.le_add_left _ _)
          | unknown => trivial
        | hit => rw [hr] at this; exact this.hit_mono (Nat.le_add_right _ _)
        | unknown => trivial
    | star a =>
      simp only [reach]
      cases h with
      | star_more h1 h2 =>
        have := ih _ p h1
        cases hr : reach known r t k a p with
        | ok p1 =>
          rw [hr] at this
          obtain ⟨ts, q, h⟩ := this
          cases h
          have := ih _ p1 h2
          simp only
          cases hr' : reach known r t k (.star a) p1 with
          | ok p' => rw [hr'] at this; obtain ⟨ts, q, h⟩ := this; cases h; exact ⟨_, _, rfl⟩
          | no => rw [hr'] at this; obtain ⟨q, h⟩ := this; cases h
          | hit => rw [hr'] at this; exact this.hit_mono (Nat.le_add_left _ _)
          | unknown => trivial
        | no => rw [hr] at this; obtain ⟨q, h⟩ := this; cases h
        | hit => rw [hr] at this; exact this.hit_mono (Nat.le_add_right _ _)
        | unknown => trivial
      | star_end h1 =>
        have := ih _ p h1
        cases hr : reach known r t k a p with
        | ok p1 => rw [hr] at this; obtain ⟨ts, q, h⟩ := this; cases h
        | no => exact ⟨_, _, rfl⟩
        | hit => rw [hr] at this; exact this.hit_mono (Nat.le_refl _)
        | unknown => trivial
    | peek a =>
      simp only [reach]
      cases h with
      | peek_ok h1 =>
        have := ih _ p h1
        cases hr : reach known r t k a p with
        | ok p1 => exact ⟨_, _, rfl⟩
        | no => rw [hr] at this; obtain ⟨q, h⟩ := this; cases h
        | hit => rw [hr] at this; exact this.hit_mono (Nat.le_refl _)
        | unknown => trivial
      | peek_no h1 =>
        have := ih _ p h1
        cases hr : reach known r t k a p with
        | ok p1 => rw [hr] at this; obtain ⟨ts, q, h⟩ := this; cases h
        | no => exact ⟨_, rfl⟩
        | hit => rw [hr] at this; exact this
        | unknown => trivial
    | npeek a =>
      simp only [reach]
      cases h with
      | npeek_ok h1 =>
        have := ih _ p h1
        cases hr : reach known r t k a p with
        | ok p1 => exact ⟨_, rfl⟩
        | no => rw [hr] at this; obtain ⟨q, h⟩ := this; cases h
        | hit => rw [hr] at this; exact this.hit_mono (Nat.le_refl _)
        | unknown => trivial
      | npeek_no h1 =>
        have := ih _ p h1
        cases hr : reach known r t k a p with
        | ok p1 => rw [hr] at this; obtain ⟨ts, q, h⟩ := this; cases h
        | no => exact ⟨_, _, rfl⟩
        | hit => rw [hr] at this; exact this.hit_mono (Nat.le_refl _)
        | unknown => trivial
    | pred x =>
      simp only [reach]
      cases h with
      | pred_ok h1 =>
        cases x <;> first | trivial | exact ⟨_, _, rfl⟩ | (simp [qpred] at h1; done)
      | pred_no h1 =>
        cases x <;> first | trivial | exact ⟨_, rfl⟩ | (simp [qpred] at h1; done) |
          (simp only [qpred] at h1; split at h1 <;> simp at h1; done)
    | act a => cases h; exact ⟨_, _, rfl⟩
    | onfail a x =>
      simp only [reach]
      cases h with
      | onfail_ok h1 =>
        have := ih _ p h1
        cases hr : reach known r t k a p <;> rw [hr] at this <;> exact this
      | onfail_no h1 h2 =>
        have := ih _ p h1
        cases hr : reach known r t k a p with
        | ok p1 => rw [hr] at this; obtain ⟨ts, q, h⟩ := this; cases h
        | no => exact ⟨_, rfl⟩
        | hit => rw [hr] at this; exact this.hit_mono (Nat.le_refl _)
        | unknown => trivial

/-! ## What can match among certain bytes -/

/-- Whether an expression may match where only bytes of `A` follow, if rules match as `T` says. -/
def may (A : List UInt8) (T : Rule → Bool) : E → Bool
  | .one m => A.any m.mem
  | .str l => l.all A.contains
  | .nt r _ => T r
  | .seq a b => may A T a && may A T b
  | .alt a b => may A T a || may A T b
  | .peek a => may A T a
  | .onfail a _ => may A T a
  | _ => true

theorem may_spec {w A : List UInt8} {m : Nat} (hw : ∀ i, m ≤ i → ∀ c, w[i]? = some c → c ∈ A) {T : Rule → Bool}
    (hT : ∀ r, may A T (grammar r).body = true → T r = true) {e : E} {p : Nat} {q : QState} {res : SkRes}
    (h : Sk w e p q res) : m ≤ p → ∀ p' ts q', res = .ok p' ts q' → may A T e = true := by
  induction h with
  | one_ok h1 h2 =>
    intro hp _ _ _ _
    simp only [may, List.any_eq_true]
    exact ⟨_, hw _ hp _ h1, h2⟩
  | @str_ok l p q h1 =>
    intro hp _ _ _ _
    simp only [may, List.all_eq_true, List.contains_iff_mem]
    intro c hc
    rw [← h1, List.extract_eq_take_drop] at hc
    obtain ⟨i, hi⟩ := List.getElem?_of_mem (List.mem_of_mem_take hc)
    rw [List.getElem?_drop] at hi
    exact hw _ (by omega) _ hi
  | nt_ok _ ih => intro hp _ _ _ _; exact hT _ (ih hp _ _ _ rfl)
  | seq_ok h1 _ ih1 ih2 =>
    intro hp _ _ _ _
    have := h1.le _ _ _ rfl
    simp only [may, Bool.and_eq_true]
    exact ⟨ih1 hp _ _ _ rfl, ih2 (by omega) _ _ _ rfl⟩
  | alt_ok _ ih => intro hp _ _ _ _; simp only [may, ih hp _ _ _ rfl, Bool.true_or]
  | alt_no _ _ _ ih => intro hp _ _ _ h; simp only [may, ih hp _ _ _ h, Bool.or_true]
  | peek_ok _ ih => intro hp _ _ _ _; exact ih hp _ _ _ rfl
  | onfail_ok _ ih => intro hp _ _ _ h; exact ih hp _ _ _ h
  | one_no => intro _ _ _ _ h; cases h
  | str_no => intro _ _ _ _ h; cases h
  | nt_no => intro _ _ _ _ h; cases h
  | seq_no => intro _ _ _ _ h; cases h
  | seq_no2 => intro _ _ _ _ h; cases h
  | peek_no => intro _ _ _ _ h; cases h
  | onfail_no => intro _ _ _ _ h; cases h
  | _ => intro _ _ _ _ _; rfl

/-! ## Nested parentheses -/

/-- The rules that may match where only `(`, `1`, `)` and `;` follow. -/
def mayT : Rule → Bool
  | .r___entry_points | .r_directive | .r__directive | .r___directive | .r_statement | .r__statement
  | .r___statement | .r_cypher_param_name | .r_cypher_param_val | .r__clauses | .r_node_ids
  | .r_additional_with_projections | .r_with_projection | .r_additional_return_projections
  | .r_return_projection | .r_sort_item | .r_expression | .r__prec_expression | .r__expression | .r__atom
  | .r_atom | .r_integer_literal | .r_pattern | .r_pattern_part | .r_anon_pattern_part | .r_pattern_path
  | .r_node_pattern | .r_client_command_name | .r_client_command_arg | .r_client_arg_string | .r_unquoted
  | .r_parameter_name | .r_integer_string | .r_sym_part | .r_ws | .r_hws | .r_line_end | .r_EOF
  | .r_SEMICOLON | .r_LEFT_PAREN | .r_RIGHT_PAREN | .r_WB | .r_skip_to_directive | .r_skip_to_statement
  | .r_skip_to_clause | .r__block_start_ | .r__block_end_ | .r__block_replace_ | .r__block_merge_
  | .r__empty_ | .r__none_ | .r__null_ | .r__cut_ | .r__line_start_ | .r__error_ => true
  | _ => false

theorem mayT_ok : ∀ r, may [40, 49, 41, 59] mayT (grammar r).body = true → mayT r = true := by
  have h : ∀ r ∈ Rule.all, may [40, 49, 41, 59] mayT (grammar r).body = true → mayT r = true := by decide +kernel
  exact fun r => h r (Rule.mem_all r)

/-- `RETURN ((..(1)..));` -/
def nested (k : Nat) : List UInt8 :=
  [82, 69, 84, 85, 82, 78, 32] ++ (List.replicate k 40 ++ (49 :: (List.replicate k 41 ++ [59])))

theorem nested_open {k i : Nat} (h : i < k) : (nested k)[7 + i]? = some 40 := by
  unfold nested
  rw [List.getElem?_append_right (by simp), List.getElem?_append_left (by simpa using h)]
  simp [h]

theorem nested_one (k : Nat) : (nested k)[7 + k]? = some 49 := by
  unfold nested
  rw [List.getElem?_append_right (by simp), List.getElem?_append_right (by simp)]
  simp

theorem nested_bytes {k i : Nat} (hi : 7 ≤ i) {c : UInt8} (h : (nested k)[i]? = some c) : c ∈ [40, 49, 41, 59] := by
  unfold nested at h
  rw [List.getElem?_append_right (by simpa using hi)] at h
  have := List.mem_of_getElem? h
  simp only [List.mem_append, List.mem_replicate, List.mem_cons, List.not_mem_nil, or_false] at this ⊢
  rcases this with ⟨-, h⟩ | h | ⟨-, h⟩ | h <;> simp [h]

theorem expression_twice {w : List UInt8} (hw : ∀ i, 7 ≤ i → ∀ c, w[i]? = some c → c ∈ [40, 49, 41, 59]) {p : Nat}
    (hp : 7 ≤ p) {v : Option Nat} {q : QState} {res : SkRes} {n : Nat} (h : SkC w (.nt .r__expression v) p q res n) :
    ∃ v₁ q₁ r₁ n₁ v₂ q₂ r₂ n₂, SkC w (.nt .r__atom v₁) p q₁ r₁ n₁ ∧ SkC w (.nt .r__atom v₂) p q₂ r₂ n₂ ∧
      n₁ + n₂ < n := by
  have key : ∀ {res : SkRes} {n : Nat}, SkC w (grammar .r__expression).body p q res n →
      ∃ v₁ q₁ r₁ n₁ v₂ q₂ r₂ n₂, SkC w (.nt .r__atom v₁) p q₁ r₁ n₁ ∧ SkC w (.nt .r__atom v₂) p q₂ r₂ n₂ ∧
        n₁ + n₂ ≤ n := by
    intro res n h
    have hop : ∀ {a b : E}, (grammar .r__expression).body = .alt a b → may [40, 49, 41, 59] mayT a = false := by
      intro a b h; injection h with h; subst h; decide +kernel
    revert h hop
    simp only [grammar, r__expression]
    intro h hop
    cases h with
    | alt_ok h1 =>
      have h3 := may_spec hw mayT_ok h1.sk hp _ _ _ rfl
      rw [hop rfl] at h3
      cases h3
    | alt_no h1 h2 =>
      have start : ∀ {q : QState} {res : SkRes} {n : Nat}, SkC w (.nt .r__block_start_ none) p q res n →
          ∃ ts q', res = .ok p ts q' := by
        intro q res n h
        have := reach_spec (w := w) (known := []) (base := p) (fun i c hi => by simp at hi) .r_ws 0 10 _ 0 h
        exact this
      cases h1 with
      | seq_no h3 => obtain ⟨_, _, e⟩ := start h3; cases e
      | seq_no2 h3 h4 =>
        obtain ⟨_, _, e⟩ := start h3
        cases e
        cases h4 with
        | seq_no h5 => exact ⟨_, _, _, _, _, _, _, _, h5, h2, by omega⟩
        | seq_no2 h5 _ => exact ⟨_, _, _, _, _, _, _, _, h5, h2, by omega⟩
  cases h with
  | nt_ok h =>
    obtain ⟨v₁, q₁, r₁, n₁, v₂, q₂, r₂, n₂, h1, h2, h3⟩ := key h
    exact ⟨v₁, q₁, r₁, n₁, v₂, q₂, r₂, n₂, h1, h2, by omega⟩
  | nt_no h =>
    obtain ⟨v₁, q₁, r₁, n₁, v₂, q₂, r₂, n₂, h1, h2, h3⟩ := key h
    exact ⟨v₁, q₁, r₁, n₁, v₂, q₂, r₂, n₂, h1, h2, by omega⟩

theorem atom_reach {w : List UInt8} {p : Nat} (h0 : w[p]? = some 40) (h1 : w[p + 1]? = some 40 ∨ w[p + 1]? = some 49)
    {v : Option Nat} {q : QState} {res : SkRes} {n : Nat} (h : SkC w (.nt .r__atom v) p q res n) :
    ∃ v' q' res' n', SkC w (.nt .r__expression v') (p + 1) q' res' n' ∧ n' ≤ n := by
  have key : ∀ b : UInt8, w[p + 1]? = some b →
      (∀ v, reach [40, b] .r__expression 1 100 (.nt .r__atom v) 0 = reach [40, b] .r__expression 1 100 (.nt .r__atom none) 0) →
      reach [40, b] .r__expression 1 100 (.nt .r__atom none) 0 = .hit →
      ∃ v' q' res' n', SkC w (.nt .r__expression v') (p + 1) q' res' n' ∧ n' ≤ n := by
    intro b hb hv hr
    have := reach_spec (w := w) (known := [40, b]) (base := p) (fun i c hi => by
      rcases i with _ | _ | i
      · simp at hi; rw [← hi]; exact h0
      · simp at hi; rw [← hi]; exact hb
      · simp at hi) .r__expression 1 100 _ 0 h
    rw [hv, hr] at this
    exact this
  rcases h1 with h1 | h1
  · exact key _ h1 (fun _ => rfl) (by decide +kernel)
  · exact key _ h1 (fun _ => rfl) (by decide +kernel)

theorem expression_cost {k : Nat} : ∀ (j : Nat), j ≤ k → ∀ {v : Option Nat} {q : QState} {res : SkRes} {n : Nat},
    SkC (nested k) (.nt .r__expression v) (7 + (k - j)) q res n → 2 ^ j ≤ n := by
  intro j
  induction j with
  | zero =>
    intro _ v q res n h
    cases h <;> simp
  | succ j ih =>
    intro hj v q res n h
    obtain ⟨v₁, q₁, r₁, n₁, v₂, q₂, r₂, n₂, h1, h2, h3⟩ :=
      expression_twice (fun i hi c hc => nested_bytes hi hc) (by omega) h
    have e : 7 + (k - (j + 1)) + 1 = 7 + (k - j) := by omega
    have g0 : (nested k)[7 + (k - (j + 1))]? = some 40 := nested_open (by omega)
    have g1 : (nested k)[7 + (k - (j + 1)) + 1]? = some 40 ∨ (nested k)[7 + (k - (j + 1)) + 1]? = some 49 := by
      rw [e]
      by_cases hj0 : j = 0
      · subst hj0; exact .inr (nested_one k)
      · exact .inl (nested_open (by omega))
    obtain ⟨_, _, _, m₁, a1, a2⟩ := atom_reach g0 g1 h1
    obtain ⟨_, _, _, m₂, b1, b2⟩ := atom_reach g0 g1 h2
    rw [e] at a1 b1
    have := ih (by omega) a1
    have := ih (by omega) b1
    rw [Nat.pow_succ]
    omega

/-- Matching either start rule on nested parentheses. -/
theorem start_cost {k : Nat} (hk : k ≠ 0) {only : Bool} {q : QState} {res : SkRes} {n : Nat}
    (h : SkC (nested k) (.nt (bif only then .r_statement else .r_directive) none) 0 q res n) : 2 ^ k ≤ n := by
  have hkn : ∀ i c, ([82, 69, 84, 85, 82, 78, 32, 40] : List UInt8)[i]? = some c → (nested k)[0 + i]? = some c := by
    intro i c hi
    obtain ⟨k, rfl⟩ := Nat.exists_eq_succ_of_ne_zero hk
    rw [Nat.zero_add]
    have : nested (k + 1) = [82, 69, 84, 85, 82, 78, 32, 40] ++ (List.replicate k 40 ++ (49 :: (List.replicate (k + 1) 41 ++ [59]))) := by
      simp [nested, List.replicate_succ]
    rw [this, List.getElem?_append_left (List.getElem?_eq_some_iff.1 hi).1, hi]
  have := reach_spec hkn .r__expression 7 150 _ 0 h
  have hr : reach [82, 69, 84, 85, 82, 78, 32, 40] .r__expression 7 150
      (.nt (bif only then .r_statement else .r_directive) none) 0 = .hit := by
    cases only <;> decide +kernel
  rw [hr] at this
  obtain ⟨v, q', res', n', h1, h2⟩ := this
  have := expression_cost k (Nat.le_refl k) (by simpa using h1)
  omega

end Verif.Cypher
