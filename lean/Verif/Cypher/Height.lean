import Verif.Cypher.Skeleton
/-!
# Matching, with the height of the derivation

`SkN` is `Sk` with a bound on the height of the derivation, for inductions that take rules apart.
-/
namespace Verif.Cypher
open Verif.Peg

inductive SkN (w : List UInt8) : Nat → E → Nat → QState → SkRes → Prop
  | eps {n p q} : SkN w (n + 1) .eps p q (.ok p [] q)
  | one_ok {n m p q c} : w[p]? = some c → m.mem c = true → SkN w (n + 1) (.one m) p q (.ok (p + 1) [] q)
  | one_no {n m p q} : (∀ c, w[p]? = some c → m.mem c = false) → SkN w (n + 1) (.one m) p q (.no q)
  | str_ok {n l p q} : w.extract p (p + l.length) = l →
      SkN w (n + 1) (.str l) p q (.ok (p + l.length) [] q)
  | str_no {n l p q} : w.extract p (p + l.length) ≠ l → SkN w (n + 1) (.str l) p q (.no q)
  | nt_ok {n r v p q p' ts q'} : SkN w n (grammar r).body p q (.ok p' ts q') →
      SkN w (n + 1) (.nt r v) p q (.ok p' (setT v ++ (leaveT (grammar r).nvars ++
        (ts ++ enterT (grammar r).nvars))) q')
  | nt_no {n r v p q q'} : SkN w n (grammar r).body p q (.no q') → SkN w (n + 1) (.nt r v) p q (.no q')
  | seq_ok {n a b p q p1 ts q1 p2 us q2} : SkN w n a p q (.ok p1 ts q1) →
      SkN w n b p1 q1 (.ok p2 us q2) → SkN w (n + 1) (.seq a b) p q (.ok p2 (us ++ ts) q2)
  | seq_no {n a b p q q1} : SkN w n a p q (.no q1) → SkN w (n + 1) (.seq a b) p q (.no q1)
  | seq_no2 {n a b p q p1 ts q1 q2} : SkN w n a p q (.ok p1 ts q1) → SkN w n b p1 q1 (.no q2) →
      SkN w (n + 1) (.seq a b) p q (.no q2)
  | alt_ok {n a b p q p1 ts q1} : SkN w n a p q (.ok p1 ts q1) →
      SkN w (n + 1) (.alt a b) p q (.ok p1 ts q1)
  | alt_no {n a b p q q1 res} : SkN w n a p q (.no q1) → SkN w n b p q1 res →
      SkN w (n + 1) (.alt a b) p q res
  | star_more {n a p q p1 ts q1 p2 us q2} : SkN w n a p q (.ok p1 ts q1) →
      SkN w n (.star a) p1 q1 (.ok p2 us q2) → SkN w (n + 1) (.star a) p q (.ok p2 (us ++ ts) q2)
  | star_end {n a p q q1} : SkN w n a p q (.no q1) → SkN w (n + 1) (.star a) p q (.ok p [] q1)
  | peek_ok {n a p q p1 ts q1} : SkN w n a p q (.ok p1 ts q1) → SkN w (n + 1) (.peek a) p q (.ok p [] q1)
  | peek_no {n a p q q1} : SkN w n a p q (.no q1) → SkN w (n + 1) (.peek a) p q (.no q1)
  | npeek_ok {n a p q p1 ts q1} : SkN w n a p q (.ok p1 ts q1) → SkN w (n + 1) (.npeek a) p q (.no q1)
  | npeek_no {n a p q q1} : SkN w n a p q (.no q1) → SkN w (n + 1) (.npeek a) p q (.ok p [] q1)
  | pred_ok {n x p q q'} : qpred x q = some (true, q') → SkN w (n + 1) (.pred x) p q (.ok p (recT x p) q')
  | pred_no {n x p q q'} : qpred x q = some (false, q') → SkN w (n + 1) (.pred x) p q (.no q')
  | act {n a p q} : SkN w (n + 1) (.act a) p q (.ok p [.act a p] q)
  | onfail_ok {n a x p q p1 ts q1} : SkN w n a p q (.ok p1 ts q1) →
      SkN w (n + 1) (.onfail a x) p q (.ok p1 ts q1)
  | onfail_no {n a x p q q1 b q2} : SkN w n a p q (.no q1) → qpred x q1 = some (b, q2) →
      SkN w (n + 1) (.onfail a x) p q (.no q2)

section
variable {w : List UInt8} {n : Nat} {e a b : E} {p p' : Nat} {q q' : QState} {res : SkRes}
  {ts : List (Peg.Thunk Act)}

theorem SkN.toSk (h : SkN w n e p q res) : Sk w e p q res := by
  induction h with
  | eps => exact .eps
  | one_ok h1 h2 => exact .one_ok h1 h2
  | one_no h => exact .one_no h
  | str_ok h => exact .str_ok h
  | str_no h => exact .str_no h
  | nt_ok _ ih => exact .nt_ok ih
  | nt_no _ ih => exact .nt_no ih
  | seq_ok _ _ ih1 ih2 => exact .seq_ok ih1 ih2
  | seq_no _ ih => exact .seq_no ih
  | seq_no2 _ _ ih1 ih2 => exact .seq_no2 ih1 ih2
  | alt_ok _ ih => exact .alt_ok ih
  | alt_no _ _ ih1 ih2 => exact .alt_no ih1 ih2
  | star_more _ _ ih1 ih2 => exact .star_more ih1 ih2
  | star_end _ ih => exact .star_end ih
  | peek_ok _ ih => exact .peek_ok ih
  | peek_no _ ih => exact .peek_no ih
  | npeek_ok _ ih => exact .npeek_ok ih
  | npeek_no _ ih => exact .npeek_no ih
  | pred_ok h => exact .pred_ok h
  | pred_no h => exact .pred_no h
  | act => exact .act
  | onfail_ok _ ih => exact .onfail_ok ih
  | onfail_no _ h ih => exact .onfail_no ih h

theorem SkN.succ (h : SkN w n e p q res) : SkN w (n + 1) e p q res := by
  induction h with
  | eps => exact .eps
  | one_ok h1 h2 => exact .one_ok h1 h2
  | one_no h => exact .one_no h
  | str_ok h => exact .str_ok h
  | str_no h => exact .str_no h
  | nt_ok _ ih => exact .nt_ok ih
  | nt_no _ ih => exact .nt_no ih
  | seq_ok _ _ ih1 ih2 => exact .seq_ok ih1 ih2
  | seq_no _ ih => exact .seq_no ih
  | seq_no2 _ _ ih1 ih2 => exact .seq_no2 ih1 ih2
  | alt_ok _ ih => exact .alt_ok ih
  | alt_no _ _ ih1 ih2 => exact .alt_no ih1 ih2
  | star_more _ _ ih1 ih2 => exact .star_more ih1 ih2
  | star_end _ ih => exact .star_end ih
  | peek_ok _ ih => exact .peek_ok ih
  | peek_no _ ih => exact .peek_no ih
  | npeek_ok _ ih => exact .npeek_ok ih
  | npeek_no _ ih => exact .npeek_no ih
  | pred_ok h => exact .pred_ok h
  | pred_no h => exact .pred_no h
  | act => exact .act
  | onfail_ok _ ih => exact .onfail_ok ih
  | onfail_no _ h ih => exact .onfail_no ih h

theorem SkN.mono (h : SkN w n e p q res) {k : Nat} (hk : n ≤ k) : SkN w k e p q res := by
  induction hk with
  | refl => exact h
  | step _ ih => exact ih.succ

theorem Sk.height (h : Sk w e p q res) : ∃ n, SkN w n e p q res := by
  have two : ∀ {x y : Nat} {e f : E} {p p' : Nat} {q q' : QState} {r r' : SkRes},
      SkN w x e p q r → SkN w y f p' q' r' →
      SkN w (max x y) e p q r ∧ SkN w (max x y) f p' q' r' :=
    fun h1 h2 => ⟨h1.mono (Nat.le_max_left _ _), h2.mono (Nat.le_max_right _ _)⟩
  induction h with
  | eps => exact ⟨1, .eps⟩
  | one_ok h1 h2 => exact ⟨1, .one_ok h1 h2⟩
  | one_no h => exact ⟨1, .one_no h⟩
  | str_ok h => exact ⟨1, .str_ok h⟩
  | str_no h => exact ⟨1, .str_no h⟩
  | nt_ok _ ih => obtain ⟨n, h⟩ := ih; exact ⟨n + 1, .nt_ok h⟩
  | nt_no _ ih => obtain ⟨n, h⟩ := ih; exact ⟨n + 1, .nt_no h⟩
  | seq_ok _ _ ih1 ih2 =>
    obtain ⟨x, h1⟩ := ih1; obtain ⟨y, h2⟩ := ih2
    exact ⟨_, .seq_ok (two h1 h2).1 (two h1 h2).2⟩
  | seq_no _ ih => obtain ⟨n, h⟩ := ih; exact ⟨n + 1, .seq_no h⟩
  | seq_no2 _ _ ih1 ih2 =>
    obtain ⟨x, h1⟩ := ih1; obtain ⟨y, h2⟩ := ih2
    exact ⟨_, .seq_no2 (two h1 h2).1 (two h1 h2).2⟩
  | alt_ok _ ih => obtain ⟨n, h⟩ := ih; exact ⟨n + 1, .alt_ok h⟩
  | alt_no _ _ ih1 ih2 =>
    obtain ⟨x, h1⟩ := ih1; obtain ⟨y, h2⟩ := ih2
    exact ⟨_, .alt_no (two h1 h2).1 (two h1 h2).2⟩
  | star_more _ _ ih1 ih2 =>
    obtain ⟨x, h1⟩ := ih1; obtain ⟨y, h2⟩ := ih2
    exact ⟨_, .star_more (two h1 h2).1 (two h1 h2).2⟩
  | star_end _ ih => obtain ⟨n, h⟩ := ih; exact ⟨n + 1, .star_end h⟩
  | peek_ok _ ih => obtain ⟨n, h⟩ := ih; exact ⟨n + 1, .peek_ok h⟩
  | peek_no _ ih => obtain ⟨n, h⟩ := ih; exact ⟨n + 1, .peek_no h⟩
  | npeek_ok _ ih => obtain ⟨n, h⟩ := ih; exact ⟨n + 1, .npeek_ok h⟩
  | npeek_no _ ih => obtain ⟨n, h⟩ := ih; exact ⟨n + 1, .npeek_no h⟩
  | pred_ok h => exact ⟨1, .pred_ok h⟩
  | pred_no h => exact ⟨1, .pred_no h⟩
  | act => exact ⟨1, .act⟩
  | onfail_ok _ ih => obtain ⟨n, h⟩ := ih; exact ⟨n + 1, .onfail_ok h⟩
  | onfail_no _ h0 ih => obtain ⟨n, h⟩ := ih; exact ⟨n + 1, .onfail_no h h0⟩

theorem SkN.le (h : SkN w n e p q (.ok p' ts q')) : p ≤ p' := h.toSk.le _ _ _ rfl

/-! ### Taking expressions apart; only rules make the height smaller -/

theorem SkN.seq (h : SkN w n (.seq a b) p q (.ok p' ts q')) : ∃ p1 us q1 vs,
    SkN w n a p q (.ok p1 us q1) ∧ SkN w n b p1 q1 (.ok p' vs q') ∧ ts = vs ++ us := by
  cases h with
  | seq_ok h1 h2 => exact ⟨_, _, _, _, h1.succ, h2.succ, rfl⟩

theorem SkN.alt (h : SkN w n (.alt a b) p q (.ok p' ts q')) : SkN w n a p q (.ok p' ts q') ∨
    ∃ q1, SkN w n a p q (.no q1) ∧ SkN w n b p q1 (.ok p' ts q') := by
  cases h with
  | alt_ok h => exact .inl h.succ
  | alt_no h1 h2 => exact .inr ⟨_, h1.succ, h2.succ⟩

theorem SkN.nt {r : Rule} {v : Option Nat} (h : SkN w n (.nt r v) p q (.ok p' ts q')) :
    ∃ k us, k < n ∧ SkN w k (grammar r).body p q (.ok p' us q') ∧
      ts = setT v ++ (leaveT (grammar r).nvars ++ (us ++ enterT (grammar r).nvars)) := by
  cases h with
  | nt_ok h => exact ⟨_, _, Nat.lt_succ_self _, h, rfl⟩

theorem SkN.pred {x : Pred} (h : SkN w n (.pred x) p q (.ok p' ts q')) :
    p' = p ∧ ts = recT x p ∧ qpred x q = some (true, q') := by
  cases h with
  | pred_ok h => exact ⟨rfl, rfl, h⟩

theorem SkN.act' {x : Act} (h : SkN w n (.act x) p q (.ok p' ts q')) :
    p' = p ∧ ts = [.act x p] ∧ q' = q := by
  cases h; exact ⟨rfl, rfl, rfl⟩

theorem SkN.onfail {x : Pred} (h : SkN w n (.onfail a x) p q (.ok p' ts q')) :
    SkN w n a p q (.ok p' ts q') := by
  cases h with
  | onfail_ok h => exact h.succ

/-- Called for its value, a rule records one thunk more. -/
theorem SkN.nt_set {r : Rule} {v : Option Nat} (h : SkN w n (.nt r v) p q (.ok p' ts q')) :
    ∃ us, ts = setT v ++ us ∧ SkN w n (.nt r none) p q (.ok p' us q') := by
  cases h with
  | nt_ok h => exact ⟨_, rfl, by simpa [setT] using SkN.nt_ok (v := none) h⟩

/-- Repetition: some iterations, then none. -/
theorem SkN.star {P : Nat → QState → Nat → List (Peg.Thunk Act) → QState → Prop}
    (more : ∀ {p q p1 us q1 p2 vs q2}, SkN w n a p q (.ok p1 us q1) → P p1 q1 p2 vs q2 →
      P p q p2 (vs ++ us) q2)
    (fin : ∀ {p q q1}, SkN w n a p q (.no q1) → P p q p [] q1)
    (h : SkN w n (.star a) p q (.ok p' ts q')) : P p q p' ts q' := by
  suffices H : ∀ k e p q res, SkN w k e p q res → k ≤ n → ∀ p' ts q', e = .star a →
      res = .ok p' ts q' → P p q p' ts q' by
    exact H _ _ _ _ _ h (Nat.le_refl _) _ _ _ rfl rfl
  intro k e p q res h
  induction h with
  | star_more h1 h2 _ ih =>
    rintro hk p' ts q' ⟨⟩ ⟨⟩
    exact more (h1.mono (by omega)) (ih (by omega) _ _ _ rfl rfl)
  | star_end h => rintro hk p' ts q' ⟨⟩ ⟨⟩; exact fin (h.mono (by omega))
  | _ => rintro hk p' ts q' h; cases h

end
end Verif.Cypher
