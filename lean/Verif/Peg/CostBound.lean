import Verif.Peg.Cost
import Verif.Peg.Analysis
/-!
# An upper bound for the number of rules applied

The check that shows that parsing terminates (`ruleOk`) also bounds its cost, by an exponential in the number of bytes
that are left.
-/
namespace Verif.Peg
variable {R P A γ : Type}

/-- How many calls an expression can make, when repetitions are bounded by geometric series. -/
def weight : Expr R P A → Nat
  | .nt _ _ => 1
  | .seq a b | .alt a b => weight a + weight b
  | .star a => 3 * weight a
  | .peek a | .npeek a | .onfail a _ => weight a
  | _ => 0

theorem Cost.bound_aux {G : R → RuleDef R P A} {H : Host P A γ} {w : List UInt8}
    {I : Nat → γ → Prop} (hr : ReadsAs H w I) {tbl : R → Out2} {pt : P → Bool × Bool}
    (hpt : PredsAs H pt) {rank : R → Nat}
    (htbl : ∀ r, (outOf tbl pt (G r).body).le (tbl r) = true) {p0 n : Nat} {V : Nat → Nat}
    (hV : ∀ p, p0 ≤ p → p ≤ w.length → V p ≤ V p0)
    (hV2 : ∀ p p', p0 < p → p < p' → p' ≤ w.length → 2 * V p' ≤ V p)
    (h1 : ∀ r v (s : St A γ) res k, p0 < s.pos → I s.pos s.g → Cost G H (.nt r v) s res k → k ≤ V s.pos)
    (h2 : ∀ r v (s : St A γ) res k, rank r < n → s.pos = p0 → I s.pos s.g → Cost G H (.nt r v) s res k → k ≤ V p0) :
    ∀ (e : Expr R P A) (s : St A γ) (res : Res A γ) (k : Nat), p0 ≤ s.pos → I s.pos s.g →
      starsOk tbl pt e = true → (s.pos = p0 → ranked tbl pt rank n (decide (p0 = w.length)) e = true) →
      Cost G H e s res k → k ≤ weight e * V s.pos := by
  have mono : ∀ p p', p0 ≤ p → p ≤ p' → p' ≤ w.length → V p' ≤ V p := by
    intro p p' h3 h4 h5
    rcases Nat.lt_or_eq_of_le h3 with h | h
    · rcases Nat.lt_or_eq_of_le h4 with h' | h'
      · have := hV2 p p' h h' h5; omega
      · rw [h']; exact Nat.le_refl _
    · subst h; exact hV p' h4 h5
  intro e
  induction e with
  | eps => intro s res k _ _ _ _ h; cases h; exact Nat.zero_le _
  | one m => intro s res k _ _ _ _ h; cases h <;> exact Nat.zero_le _
  | str l => intro s res k _ _ _ _ h; cases h <;> exact Nat.zero_le _
  | pred p => intro s res k _ _ _ _ h; cases h <;> exact Nat.zero_le _
  | act a => intro s res k _ _ _ _ h; cases h; exact Nat.zero_le _
  | nt r v =>
    intro s res k hp hi _ hrk h
    rw [weight, Nat.one_mul]
    rcases Nat.lt_or_eq_of_le hp with hlt | heq
    · exact h1 r v s res k hlt hi h
    · rw [← heq]; exact h2 r v s res k (by simpa [ranked] using hrk heq.symm) heq.symm hi h
  | seq a b iha ihb =>
    intro s res k hp hi hs hrk h
    simp only [starsOk, Bool.and_eq_true] at hs
    have hrka : s.pos = p0 → ranked tbl pt rank n (decide (p0 = w.length)) a = true := fun h => by
      have := hrk h
      simp only [ranked, Bool.and_eq_true] at this
      exact this.1
    rw [weight, Nat.add_mul]
    cases h with
    | seq_no c1 => exact Nat.le_trans (iha _ _ _ hp hi hs.1 hrka c1) (Nat.le_add_right _ _)
    | seq_fault c1 => exact Nat.le_trans (iha _ _ _ hp hi hs.1 hrka c1) (Nat.le_add_right _ _)
    | @seq_ok _ _ _ s1 _ n1 n2 c1 c2 =>
      have e1 := c1.eval
      have hg := e1.good hr hi
      have hw := e1.within hr hpt htbl hi
      have g1 := iha _ _ _ hp hi hs.1 hrka c1
      have g2 := ihb s1 _ _ (Nat.le_trans hp hg.1) hg.2 hs.2 (fun h => by
        have hs0 : s.pos = p0 := by have := hg.1; omega
        have := hrk hs0
        simp only [ranked, Bool.and_eq_true, Bool.or_eq_true, Bool.not_eq_true'] at this
        rcases this.2 with hz | hz
        · have := hw.1 (by omega)
          rw [hs0, hz] at this; simp at this
        · exact hz) c2
      have g3 : weight b * V s1.pos ≤ weight b * V s.pos :=
        Nat.mul_le_mul_left _ (mono _ _ hp hg.1 (hr.bound hg.2))
      omega
  | alt a b iha ihb =>
    intro s res k hp hi hs hrk h
    simp only [starsOk, Bool.and_eq_true] at hs
    simp only [ranked, Bool.and_eq_true, Bool.or_eq_true, Bool.not_eq_true'] at hrk
    rw [weight, Nat.add_mul]
    cases h with
    | alt_ok c1 => exact Nat.le_trans (iha _ _ _ hp hi hs.1 (fun h => (hrk h).1) c1) (Nat.le_add_right _ _)
    | alt_fault c1 => exact Nat.le_trans (iha _ _ _ hp hi hs.1 (fun h => (hrk h).1) c1) (Nat.le_add_right _ _)
    | @alt_no _ _ _ s1 _ n1 n2 c1 c2 =>
      have e1 := c1.eval
      have hg := e1.good hr hi
      have hw := e1.within hr hpt htbl hi
      have g1 := iha _ _ _ hp hi hs.1 (fun h => (hrk h).1) c1
      have g2 := ihb (s.restore s1) _ _ hp (hr.down hg.2 hg.1) hs.2 (fun h => by
        rcases (hrk h).2 with hz | hz
        · rw [show s.pos = p0 from h] at hw
          simp only [Res.Within, hz] at hw; simp at hw
        · exact hz) c2
      exact Nat.add_le_add g1 g2
  | star a iha =>
    intro s res k hp hi hs hrk h
    simp only [starsOk, Bool.and_eq_true, Bool.not_eq_true'] at hs
    simp only [ranked] at hrk
    have step : ∀ {s s1 : St A γ} {n1 : Nat}, I s.pos s.g → Cost G H a s (.ok s1) n1 →
        s.pos < s1.pos ∧ I s1.pos s1.g := by
      intro s s1 n1 hi c1
      have hg := c1.eval.good hr hi
      have hw := c1.eval.within hr hpt htbl hi
      rcases Nat.lt_or_eq_of_le hg.1 with hlt | heq
      · exact ⟨hlt, hg.2⟩
      · have := Out2.anyS0_of (hw.1 heq.symm)
        rw [hs.1] at this; simp at this
    have key : ∀ (d : Nat) (s : St A γ) (res : Res A γ) (k : Nat), w.length - s.pos ≤ d → p0 < s.pos → I s.pos s.g →
        Cost G H (.star a) s res k → k ≤ 2 * (weight a * V s.pos) := by
      intro d
      induction d with
      | zero =>
        intro s res k hd hp hi h
        cases h with
        | star_end c1 => have := iha _ _ _ (by omega) hi hs.2 (fun h => by omega) c1; omega
        | star_fault c1 => have := iha _ _ _ (by omega) hi hs.2 (fun h => by omega) c1; omega
        | star_more c1 c2 =>
          obtain ⟨hlt, hi'⟩ := step hi c1
          have := hr.bound hi'
          omega
      | succ d ihd =>
        intro s res k hd hp hi h
        cases h with
        | star_end c1 => have := iha _ _ _ (by omega) hi hs.2 (fun h => by omega) c1; omega
        | star_fault c1 => have := iha _ _ _ (by omega) hi hs.2 (fun h => by omega) c1; omega
        | @star_more _ _ s1 _ n1 n2 c1 c2 =>
          obtain ⟨hlt, hi'⟩ := step hi c1
          have hb := hr.bound hi'
          have g1 := iha _ _ _ (by omega) hi hs.2 (fun h => by omega) c1
          have g2 := ihd s1 _ _ (by omega) (by omega) hi' c2
          have g3 : weight a * (2 * V s1.pos) ≤ weight a * V s.pos := Nat.mul_le_mul_left _ (hV2 _ _ hp hlt hb)
          rw [Nat.mul_left_comm] at g3
          omega
    rw [weight, Nat.mul_assoc]
    cases h with
    | star_end c1 => have := iha _ _ _ hp hi hs.2 hrk c1; omega
    | star_fault c1 => have := iha _ _ _ hp hi hs.2 hrk c1; omega
    | @star_more _ _ s1 _ n1 n2 c1 c2 =>
      obtain ⟨hlt, hi'⟩ := step hi c1
      have hb := hr.bound hi'
      have g1 := iha _ _ _ hp hi hs.2 hrk c1
      have g2 := key _ s1 _ _ (Nat.le_refl _) (by omega) hi' c2
      have g3 : weight a * V s1.pos ≤ weight a * V s.pos := Nat.mul_le_mul_left _ (mono _ _ hp (by omega) hb)
      omega
  | peek a iha =>
    intro s res k hp hi hs hrk h
    cases h <;> rename_i c1 <;> exact iha _ _ _ hp hi hs hrk c1
  | npeek a iha =>
    intro s res k hp hi hs hrk h
    cases h <;> rename_i c1 <;> exact iha _ _ _ hp hi hs hrk c1
  | onfail a p iha =>
    intro s res k hp hi hs hrk h
    cases h with
    | onfail_ok c1 => exact iha _ _ _ hp hi hs hrk c1
    | onfail_no c1 _ => exact iha _ _ _ hp hi hs hrk c1
    | onfail_no_fault c1 _ => exact iha _ _ _ hp hi hs hrk c1
    | onfail_fault c1 => exact iha _ _ _ hp hi hs hrk c1

/-- A grammar that passes the check makes at most so many calls. -/
theorem Cost.bound {G : R → RuleDef R P A} {H : Host P A γ} {w : List UInt8}
    {I : Nat → γ → Prop} (hr : ReadsAs H w I) {tbl : R → Out2} {pt : P → Bool × Bool}
    (hpt : PredsAs H pt) {rank : R → Nat} (hok : ∀ r, ruleOk tbl pt rank G r = true) {M C : Nat}
    (hM : ∀ r, rank r ≤ M) (hC : ∀ r, weight (G r).body + 1 ≤ C) (hC2 : 2 ≤ C)
    (r : R) (v : Option Nat) (s : St A γ) (hi : I s.pos s.g) {res : Res A γ} {k : Nat}
    (h : Cost G H (.nt r v) s res k) : k ≤ C ^ ((w.length - s.pos) * (M + 1) + rank r + 1) := by
  have hok' : ∀ r, (outOf tbl pt (G r).body).le (tbl r) = true ∧
      starsOk tbl pt (G r).body = true ∧
      ∀ fin, ranked tbl pt rank (rank r) fin (G r).body = true := by
    intro r
    have := hok r
    simp only [ruleOk, Bool.and_eq_true] at this
    exact ⟨this.1.1, this.1.2, fun fin => by cases fin; exacts [this.2.2, this.2.1]⟩
  have key : ∀ (d n : Nat) (r : R) (v : Option Nat) (s : St A γ) (res : Res A γ) (k : Nat), w.length - s.pos = d →
      rank r = n → I s.pos s.g → Cost G H (.nt r v) s res k → k ≤ C ^ (d * (M + 1) + n + 1) := by
    intro d
    induction d using Nat.strongRecOn with
    | ind d ihd =>
      intro n
      induction n using Nat.strongRecOn with
      | ind n ihn =>
        intro r v s res k hd hn hi h
        have hb := hr.bound hi
        have body : ∀ {res : Res A γ} {k : Nat}, Cost G H (G r).body (s.enter (G r).nvars) res k →
            k + 1 ≤ C ^ (d * (M + 1) + n + 1) := by
          intro res k h
          have := Cost.bound_aux (n := n) (p0 := s.pos) hr hpt (rank := rank) (fun r => (hok' r).1)
            (V := fun p => if p = s.pos then C ^ (d * (M + 1) + n) else C ^ ((w.length - p + 1) * (M + 1)))
            (fun p h1 h2 => by
              simp only [if_true]
              split
              · exact Nat.le_refl _
              · refine Nat.pow_le_pow_right (by omega) ?_
                have : (w.length - p + 1) * (M + 1) ≤ d * (M + 1) := Nat.mul_le_mul_right _ (by omega)
                omega)
            (fun p p' h1 h2 h3 => by
              rw [if_neg (by omega), if_neg (by omega)]
              have e : (w.length - p' + 1) * (M + 1) + 1 ≤ (w.length - p + 1) * (M + 1) := by
                have : (w.length - p' + 1 + 1) * (M + 1) ≤ (w.length - p + 1) * (M + 1) :=
                  Nat.mul_le_mul_right _ (by omega)
                rw [Nat.add_mul] at this
                omega
              calc 2 * C ^ ((w.length - p' + 1) * (M + 1)) ≤ C ^ ((w.length - p' + 1) * (M + 1)) * C := by
                    rw [Nat.mul_comm]; exact Nat.mul_le_mul_left _ hC2
                _ = C ^ ((w.length - p' + 1) * (M + 1) + 1) := (Nat.pow_succ _ _).symm
                _ ≤ _ := Nat.pow_le_pow_right (by omega) e)
            (fun r v s' res k hlt hi' h => by
              have hb' := hr.bound hi'
              have := ihd (w.length - s'.pos) (by omega) _ r v s' res k rfl rfl hi' h
              rw [if_neg (by omega)]
              refine Nat.le_trans this (Nat.pow_le_pow_right (by omega) ?_)
              have := hM r
              rw [Nat.add_mul]
              omega)
            (fun r v s' res k hlt heq hi' h => by
              have := ihn (rank r) hlt r v s' res k (by rw [heq]; exact hd) rfl hi' h
              simp only [if_true]
              exact Nat.le_trans this (Nat.pow_le_pow_right (by omega) (by omega)))
            (G r).body (s.enter (G r).nvars) res k (by simp) (by simpa using hi) (hok' r).2.1
            (fun _ => by have := (hok' r).2.2 (decide (s.pos = w.length)); rwa [hn] at this) h
          simp only [St.enter_pos, if_true] at this
          have h3 : weight (G r).body * C ^ (d * (M + 1) + n) + C ^ (d * (M + 1) + n) ≤ C ^ (d * (M + 1) + n + 1) := by
            rw [Nat.pow_succ, Nat.mul_comm (C ^ _) C]
            calc _ = (weight (G r).body + 1) * C ^ (d * (M + 1) + n) := by rw [Nat.add_mul, Nat.one_mul]
              _ ≤ _ := Nat.mul_le_mul_right _ (hC r)
          have h4 : 0 < C ^ (d * (M + 1) + n) := Nat.pow_pos (by omega)
          omega
        cases h with
        | nt_ok c1 => exact body c1
        | nt_no c1 => exact body c1
        | nt_fault c1 => exact body c1
  exact key _ _ r v s res k rfl rfl hi h

end Verif.Peg
