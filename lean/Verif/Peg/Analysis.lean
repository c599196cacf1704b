import Verif.Peg.Syntax
import Mathlib.Tactic.ByContra
/-!
# Generated parsers: monotonicity, outcome analysis, termination

Everything here is about the runtime of `Verif.Peg.Syntax` for an arbitrary grammar.
-/
namespace Verif.Peg
variable {R P A γ : Type}

/-- The host reads the byte string `w`: whenever the invariant `I pos g` holds, reading at `pos`
yields `w[pos]?`. -/
structure ReadsAs (H : Host P A γ) (w : List UInt8) (I : Nat → γ → Prop) : Prop where
  val : ∀ {p g}, I p g → (H.peek p g).1 = w[p]?
  keep : ∀ {p g}, I p g → I p (H.peek p g).2
  next : ∀ {p g}, I p g → p < w.length → I (p + 1) (H.peek p g).2
  down : ∀ {p q g}, I p g → q ≤ p → I q g
  bound : ∀ {p g}, I p g → p ≤ w.length
  pred : ∀ {x p g b g' ts}, I p g → H.pred x p g = .ok (b, g', ts) → I p g'

theorem matchStr_inv {H : Host P A γ} {w : List UInt8} {I : Nat → γ → Prop} (hr : ReadsAs H w I)
    {start : Nat} : ∀ (l : List UInt8) (p : Nat) (g : γ), start ≤ p → I p g →
    ∀ {b q g'}, matchStr H start l p g = (b, q, g') →
      I q g' ∧ (b = true → q = p + l.length ∧ w.extract p (p + l.length) = l) ∧
      (b = false → start ≤ q ∧ l ≠ [] ∧ ¬ (w.extract p (p + l.length) = l)) := by
  intro l
  induction l with
  | nil =>
    intro p g hs hi b q g' h
    simp only [matchStr, Prod.mk.injEq] at h
    obtain ⟨rfl, rfl, rfl⟩ := h
    exact ⟨hi, fun _ => ⟨rfl, by simp⟩, fun h => by simp at h⟩
  | cons c cs ih =>
    intro p g hs hi b q g' h
    simp only [matchStr] at h
    have hv := hr.val hi
    split at h
    · rename_i g1 hp
      simp only [Prod.mk.injEq] at h
      obtain ⟨rfl, rfl, rfl⟩ := h
      rw [hp] at hv
      have hk := hr.keep hi
      rw [hp] at hk
      refine ⟨hk, fun h => by simp at h, fun _ => ⟨hs, by simp, ?_⟩⟩
      intro he
      have hl : w.length ≤ p := by
        by_contra hlt
        simp only at hv
        rw [List.getElem?_eq_getElem (by omega)] at hv
        simp at hv
      have := congrArg List.length he
      simp [List.extract_eq_take_drop] at this
      omega
    · rename_i d g1 hp
      rw [hp] at hv
      simp only at hv
      have hlt : p < w.length := by
        by_contra hlt
        rw [List.getElem?_eq_none (by omega)] at hv
        simp at hv
      rw [List.getElem?_eq_getElem hlt, Option.some.injEq] at hv
      have hext : w.extract p (p + (c :: cs).length) =
          w[p] :: w.extract (p + 1) (p + 1 + cs.length) := by
        simp only [List.extract_eq_take_drop, List.length_cons]
        rw [List.drop_eq_getElem_cons hlt]
        have h1 : p + (cs.length + 1) - p = cs.length + 1 := by omega
        have h2 : p + 1 + cs.length - (p + 1) = cs.length := by omega
        rw [h1, h2, List.take_succ_cons]
      split at h
      · rename_i hdc
        have hn := hr.next hi hlt
        rw [hp] at hn
        obtain ⟨i1, i2, i3⟩ := ih (p + 1) g1 (by omega) hn h
        refine ⟨i1, fun hb => ⟨by rw [(i2 hb).1]; simp; omega, ?_⟩, fun hb => ⟨(i3 hb).1, by simp, ?_⟩⟩
        · rw [hext, (i2 hb).2, ← hv, hdc]
        · rw [hext]
          intro he
          exact (i3 hb).2.2 (List.cons.inj he).2
      · rename_i hdc
        simp only [Prod.mk.injEq] at h
        obtain ⟨rfl, rfl, rfl⟩ := h
        have hk := hr.keep hi
        rw [hp] at hk
        refine ⟨hr.down hk hs, fun h => by simp at h, fun _ => ⟨Nat.le_refl _, by simp, ?_⟩⟩
        rw [hext]
        intro he
        exact hdc (hv.trans (List.cons.inj he).1)

/-- Positions only grow (also in the unrestored state of a failure) and the reading invariant is
kept. -/
def Res.Good (I : Nat → γ → Prop) (p : Nat) : Res A γ → Prop
  | .ok s => p ≤ s.pos ∧ I s.pos s.g
  | .fail s => p ≤ s.pos ∧ I s.pos s.g
  | .fault _ => True

theorem Eval.good {G : R → RuleDef R P A} {H : Host P A γ} {w : List UInt8} {I : Nat → γ → Prop}
    (hr : ReadsAs H w I) {e : Expr R P A} {s : St A γ} {r : Res A γ} (h : Eval G H e s r)
    (hi : I s.pos s.g) : r.Good I s.pos := by
  induction h with
  | eps => exact ⟨Nat.le_refl _, hi⟩
  | @one_end m s g' hp =>
    have := hr.keep hi; rw [hp] at this
    exact ⟨Nat.le_refl _, this⟩
  | @one_no m s c g' hp hm =>
    have := hr.keep hi; rw [hp] at this
    exact ⟨Nat.le_refl _, this⟩
  | @one_ok m s c g' hp hm =>
    have hv := hr.val hi
    rw [hp] at hv
    have hlt : s.pos < w.length := by
      by_contra hlt
      rw [List.getElem?_eq_none (by omega)] at hv
      simp at hv
    have := hr.next hi hlt
    rw [hp] at this
    exact ⟨by simp, this⟩
  | @str_ok l s p g' h =>
    obtain ⟨h1, h2, -⟩ := matchStr_inv hr l s.pos s.g (Nat.le_refl _) hi h
    exact ⟨by have := (h2 rfl).1; simp only; omega, h1⟩
  | @str_no l s p g' h =>
    obtain ⟨h1, -, h2⟩ := matchStr_inv hr l s.pos s.g (Nat.le_refl _) hi h
    exact ⟨(h2 rfl).1, h1⟩
  | nt_ok _ ih =>
    have := ih (by simpa using hi)
    simp only [St.enter_pos] at this
    exact ⟨by simpa using this.1, by simpa using this.2⟩
  | nt_no _ ih =>
    have := ih (by simpa using hi)
    simp only [St.enter_pos] at this
    exact ⟨Nat.le_refl _, hr.down this.2 this.1⟩
  | nt_fault => trivial
  | @seq_ok a b s s1 r _ _ ih1 ih2 =>
    have h1 := ih1 hi
    have h2 := ih2 h1.2
    cases r with
    | ok s2 => exact ⟨Nat.le_trans h1.1 h2.1, h2.2⟩
    | fail s2 => exact ⟨Nat.le_trans h1.1 h2.1, h2.2⟩
    | fault f => trivial
  | seq_no _ ih => exact ih hi
  | seq_fault => trivial
  | alt_ok _ ih => exact ih hi
  | alt_no _ _ ih1 ih2 =>
    have h1 := ih1 hi
    exact ih2 (hr.down h1.2 h1.1)
  | alt_fault => trivial
  | @star_more a s s1 r _ _ ih1 ih2 =>
    have h1 := ih1 hi
    have h2 := ih2 h1.2
    cases r with
    | ok s2 => exact ⟨Nat.le_trans h1.1 h2.1, h2.2⟩
    | fail s2 => exact ⟨Nat.le_trans h1.1 h2.1, h2.2⟩
    | fault f => trivial
  | star_end _ ih => have h1 := ih hi; exact ⟨Nat.le_refl _, hr.down h1.2 h1.1⟩
  | star_fault => trivial
  | peek_ok _ ih => have h1 := ih hi; exact ⟨Nat.le_refl _, hr.down h1.2 h1.1⟩
  | peek_no _ ih => exact ih hi
  | peek_fault => trivial
  | npeek_ok _ ih => exact ih hi
  | npeek_no _ ih => have h1 := ih hi; exact ⟨Nat.le_refl _, hr.down h1.2 h1.1⟩
  | npeek_fault => trivial
  | pred_ok h => exact ⟨Nat.le_refl _, hr.pred hi h⟩
  | pred_no h => exact ⟨Nat.le_refl _, hr.pred hi h⟩
  | pred_fault => trivial
  | act => exact ⟨Nat.le_refl _, hi⟩
  | onfail_ok _ ih => exact ih hi
  | onfail_no _ h ih => have h1 := ih hi; exact ⟨h1.1, hr.pred h1.2 h⟩
  | onfail_no_fault => trivial
  | onfail_fault => trivial

/-! ## Outcome analysis -/

/-- Which outcomes are possible: failure, success without and with consuming input. -/
structure Out where
  fail : Bool
  s0 : Bool
  sp : Bool
  deriving DecidableEq, Repr

def Out.le (a b : Out) : Bool := (!a.fail || b.fail) && (!a.s0 || b.s0) && (!a.sp || b.sp)

/-- Outcomes at the end of the input and before it. -/
structure Out2 where
  fin : Out
  mid : Out
  deriving DecidableEq, Repr

namespace Out2
def at_ (o : Out2) (atEnd : Bool) : Out := bif atEnd then o.fin else o.mid
def le (a b : Out2) : Bool := a.fin.le b.fin && a.mid.le b.mid
def anyFail (o : Out2) : Bool := o.fin.fail || o.mid.fail
def anyOk (o : Out2) : Bool := o.fin.s0 || o.fin.sp || o.mid.s0 || o.mid.sp
def anyS0 (o : Out2) : Bool := o.fin.s0 || o.mid.s0
end Out2

def Out.seq (a : Out) (b : Out) (b2 : Out2) : Out :=
  ⟨a.fail || (a.s0 && b.fail) || (a.sp && b2.anyFail), a.s0 && b.s0,
    (a.s0 && b.sp) || (a.sp && b2.anyOk)⟩
def Out2.seq (a b : Out2) : Out2 := ⟨a.fin.seq b.fin b, a.mid.seq b.mid b⟩
def Out.alt (a b : Out) : Out := ⟨a.fail && b.fail, a.s0 || (a.fail && b.s0), a.sp || (a.fail && b.sp)⟩
def Out2.alt (a b : Out2) : Out2 := ⟨a.fin.alt b.fin, a.mid.alt b.mid⟩
def Out.star (a : Out) : Out := ⟨false, a.fail, a.sp⟩
def Out2.star (a : Out2) : Out2 := ⟨a.fin.star, a.mid.star⟩
def Out.peek (a : Out) : Out := ⟨a.fail, a.s0 || a.sp, false⟩
def Out2.peek (a : Out2) : Out2 := ⟨a.fin.peek, a.mid.peek⟩
def Out.npeek (a : Out) : Out := ⟨a.s0 || a.sp, a.fail, false⟩
def Out2.npeek (a : Out2) : Out2 := ⟨a.fin.npeek, a.mid.npeek⟩

/-- Possible outcomes of an expression, given those of the rules and whether each predicate may
answer yes or no. -/
def outOf (tbl : R → Out2) (pt : P → Bool × Bool) : Expr R P A → Out2
  | .eps => ⟨⟨false, true, false⟩, ⟨false, true, false⟩⟩
  | .one m => ⟨⟨true, false, false⟩, ⟨m.mask != CharSet.any.mask, false, true⟩⟩
  | .str l => match l with
    | [] => ⟨⟨false, true, false⟩, ⟨false, true, false⟩⟩
    | _ :: _ => ⟨⟨true, false, false⟩, ⟨true, false, true⟩⟩
  | .nt r _ => tbl r
  | .seq a b => (outOf tbl pt a).seq (outOf tbl pt b)
  | .alt a b => (outOf tbl pt a).alt (outOf tbl pt b)
  | .star a => (outOf tbl pt a).star
  | .peek a => (outOf tbl pt a).peek
  | .npeek a => (outOf tbl pt a).npeek
  | .pred p => ⟨⟨(pt p).2, (pt p).1, false⟩, ⟨(pt p).2, (pt p).1, false⟩⟩
  | .act _ => ⟨⟨false, true, false⟩, ⟨false, true, false⟩⟩
  | .onfail a _ => outOf tbl pt a

/-- The predicates answer as declared. -/
def PredsAs (H : Host P A γ) (pt : P → Bool × Bool) : Prop :=
  ∀ p pos g b g' ts, H.pred p pos g = .ok (b, g', ts) →
    (b = true → (pt p).1 = true) ∧ (b = false → (pt p).2 = true)

/-- An outcome is among the declared ones. -/
def Res.Within (p : Nat) (o : Out) : Res A γ → Prop
  | .ok s => (s.pos = p → o.s0 = true) ∧ (p < s.pos → o.sp = true)
  | .fail _ => o.fail = true
  | .fault _ => True

theorem any_mem (c : UInt8) : CharSet.any.mem c = true := by
  have h : ∀ n < 256, Nat.testBit (2 ^ 256 - 1) n = true := by decide +kernel
  exact h c.toNat (by exact c.toNat_lt)

theorem Out.within_le {a b : Out} {p : Nat} {r : Res A γ} (h : a.le b = true) (hw : r.Within p a) :
    r.Within p b := by
  simp only [Out.le, Bool.and_eq_true, Bool.or_eq_true, Bool.not_eq_true'] at h
  obtain ⟨⟨h1, h2⟩, h3⟩ := h
  cases r with
  | ok s =>
    refine ⟨fun e => ?_, fun e => ?_⟩
    · have := hw.1 e; simp_all
    · have := hw.2 e; simp_all
  | fail s => simp only [Res.Within] at *; simp_all
  | fault f => trivial

theorem Out2.at_le {a b : Out2} (h : a.le b = true) (k : Bool) : (a.at_ k).le (b.at_ k) = true := by
  simp only [Out2.le, Bool.and_eq_true] at h
  cases k
  · exact h.2
  · exact h.1

theorem Out2.at_seq (a b : Out2) (k : Bool) : (a.seq b).at_ k = (a.at_ k).seq (b.at_ k) b := by
  cases k <;> rfl
theorem Out2.at_alt (a b : Out2) (k : Bool) : (a.alt b).at_ k = (a.at_ k).alt (b.at_ k) := by
  cases k <;> rfl
theorem Out2.at_star (a : Out2) (k : Bool) : a.star.at_ k = (a.at_ k).star := by cases k <;> rfl
theorem Out2.at_peek (a : Out2) (k : Bool) : a.peek.at_ k = (a.at_ k).peek := by cases k <;> rfl
theorem Out2.at_npeek (a : Out2) (k : Bool) : a.npeek.at_ k = (a.at_ k).npeek := by cases k <;> rfl
theorem Out2.anyFail_of {b : Out2} {k : Bool} (h : (b.at_ k).fail = true) : b.anyFail = true := by
  cases k <;> simp_all [Out2.at_, Out2.anyFail]
theorem Out2.anyOk_of_s0 {b : Out2} {k : Bool} (h : (b.at_ k).s0 = true) : b.anyOk = true := by
  cases k <;> simp_all [Out2.at_, Out2.anyOk]
theorem Out2.anyOk_of_sp {b : Out2} {k : Bool} (h : (b.at_ k).sp = true) : b.anyOk = true := by
  cases k <;> simp_all [Out2.at_, Out2.anyOk]
theorem Out2.anyS0_of {b : Out2} {k : Bool} (h : (b.at_ k).s0 = true) : b.anyS0 = true := by
  cases k <;> simp_all [Out2.at_, Out2.anyS0]

/-- Soundness of the outcome analysis. -/
theorem Eval.within {G : R → RuleDef R P A} {H : Host P A γ} {w : List UInt8}
    {I : Nat → γ → Prop} (hr : ReadsAs H w I) {tbl : R → Out2} {pt : P → Bool × Bool}
    (hpt : PredsAs H pt) (htbl : ∀ r, (outOf tbl pt (G r).body).le (tbl r) = true)
    {e : Expr R P A} {s : St A γ} {r : Res A γ} (h : Eval G H e s r)
    (hi : I s.pos s.g) : r.Within s.pos ((outOf tbl pt e).at_ (decide (s.pos = w.length))) := by
  induction h with
  | @eps s => cases decide (s.pos = w.length) <;> exact ⟨fun _ => rfl, fun h => absurd h (Nat.lt_irrefl _)⟩
  | @one_end m s g' hp =>
    have hv := hr.val hi
    rw [hp] at hv
    have : s.pos = w.length := by
      have := hr.bound hi
      by_contra hne
      rw [List.getElem?_eq_getElem (by omega)] at hv
      simp at hv
    simp [this, Res.Within, outOf, Out2.at_]
  | @one_no m s c g' hp hm =>
    simp only [Res.Within, outOf, Out2.at_]
    cases decide (s.pos = w.length)
    · simp only [cond_false, bne_iff_ne, ne_eq]
      intro he
      have : m.mem c = CharSet.any.mem c := by simp [CharSet.mem, he]
      rw [any_mem, hm] at this
      simp at this
    · rfl
  | @one_ok m s c g' hp hm =>
    have hv := hr.val hi
    rw [hp] at hv
    have hlt : s.pos < w.length := by
      by_contra hlt
      rw [List.getElem?_eq_none (by omega)] at hv
      simp at hv
    have : decide (s.pos = w.length) = false := by simp; omega
    rw [this]
    exact ⟨fun h => by simp at h, fun _ => rfl⟩
  | @str_ok l s p g' h =>
    obtain ⟨h1, h2, -⟩ := matchStr_inv hr l s.pos s.g (Nat.le_refl _) hi h
    obtain ⟨rfl, -⟩ := h2 rfl
    have := hr.bound h1
    cases l with
    | nil => cases decide (s.pos = w.length) <;>
        exact ⟨fun _ => rfl, fun h => absurd h (by simp)⟩
    | cons c cs =>
      have : decide (s.pos = w.length) = false := by simp at this ⊢; omega
      rw [this]
      exact ⟨fun h => by simp at h, fun _ => rfl⟩
  | @str_no l s p g' h =>
    obtain ⟨-, -, h2⟩ := matchStr_inv hr l s.pos s.g (Nat.le_refl _) hi h
    cases l with
    | nil => exact absurd rfl (h2 rfl).2.1
    | cons c cs => cases decide (s.pos = w.length) <;> rfl
  | @nt_ok r var s s1 _ ih =>
    have := ih (by simpa using hi)
    simp only [St.enter_pos] at this
    have := Out.within_le (Out2.at_le (htbl r) _) this
    exact ⟨by simpa [outOf] using this.1, by simpa [outOf] using this.2⟩
  | @nt_no r var s s1 _ ih =>
    have := ih (by simpa using hi)
    simp only [St.enter_pos] at this
    exact Out.within_le (Out2.at_le (htbl r) _) this
  | nt_fault => trivial
  | @seq_ok a b s s1 r hev1 hev2 ih1 ih2 =>
    have h1 := ih1 hi
    have hg := hev1.good hr hi
    have h2 := ih2 hg.2
    have hg2 := hev2.good hr hg.2
    have hle := hg.1
    simp only [outOf, Out2.at_seq]
    rcases Nat.lt_or_eq_of_le hle with hlt | heq
    · have hsp := h1.2 hlt
      cases r with
      | ok s2 =>
        refine ⟨fun h => ?_, fun _ => ?_⟩
        · have := hg2.1; omega
        · have hany : (outOf tbl pt b).anyOk = true := by
            rcases Nat.lt_or_eq_of_le hg2.1 with hlt2 | heq2
            · exact Out2.anyOk_of_sp (h2.2 hlt2)
            · exact Out2.anyOk_of_s0 (h2.1 heq2.symm)
          simp [Out.seq, hsp, hany]
      | fail s2 => simp [Res.Within, Out.seq, hsp, Out2.anyFail_of h2]
      | fault f => trivial
    · have hs0 := h1.1 heq.symm
      rw [← heq] at h2
      cases r with
      | ok s2 =>
        refine ⟨fun h => ?_, fun h => ?_⟩
        · simp [Out.seq, hs0, h2.1 h]
        · simp [Out.seq, hs0, h2.2 h]
      | fail s2 =>
        simp only [Res.Within] at h2
        simp [Res.Within, Out.seq, hs0, h2]
      | fault f => trivial
  | seq_no _ ih =>
    have h1 := ih hi
    simp only [Res.Within] at h1
    simp [outOf, Out2.at_seq, Res.Within, Out.seq, h1]
  | seq_fault => trivial
  | alt_ok _ ih =>
    have h1 := ih hi
    refine ⟨fun h => ?_, fun h => ?_⟩
    · simp [outOf, Out2.at_alt, Out.alt, h1.1 h]
    · simp [outOf, Out2.at_alt, Out.alt, h1.2 h]
  | @alt_no a b s s1 r hev1 _ ih1 ih2 =>
    have h1 := ih1 hi
    have hg := hev1.good hr hi
    have h2 := ih2 (hr.down hg.2 hg.1)
    simp only [Res.Within] at h1
    simp only [St.restore] at h2
    cases r with
    | ok s2 =>
      refine ⟨fun h => ?_, fun h => ?_⟩
      · have := h2.1 h
        simp only [outOf, Out2.at_alt, Out.alt, h1, Bool.true_and, Bool.or_eq_true]
        exact Or.inr this
      · have := h2.2 h
        simp only [outOf, Out2.at_alt, Out.alt, h1, Bool.true_and, Bool.or_eq_true]
        exact Or.inr this
    | fail s2 =>
      simp only [Res.Within] at h2
      simp only [outOf, Out2.at_alt, Out.alt, Res.Within, h1, Bool.true_and]
      exact h2
    | fault f => trivial
  | alt_fault => trivial
  | @star_more a s s1 r hev1 hev2 ih1 ih2 =>
    have h1 := ih1 hi
    have hg := hev1.good hr hi
    have h2 := ih2 hg.2
    have hg2 := hev2.good hr hg.2
    rcases Nat.lt_or_eq_of_le hg.1 with hlt | heq
    · have hsp := h1.2 hlt
      cases r with
      | ok s2 =>
        refine ⟨fun h => ?_, fun _ => ?_⟩
        · have := hg2.1; omega
        · simp [outOf, Out2.at_star, Out.star, hsp]
      | fail s2 => simp [Res.Within, outOf, Out2.at_star, Out.star] at h2
      | fault f => trivial
    · rw [← heq] at h2
      exact h2
  | star_end _ ih =>
    have h1 := ih hi
    simp only [Res.Within] at h1
    refine ⟨fun _ => ?_, fun h => absurd h (Nat.lt_irrefl _)⟩
    simp [outOf, Out2.at_star, Out.star, h1]
  | star_fault => trivial
  | peek_ok hev ih =>
    have h1 := ih hi
    have hg := hev.good hr hi
    refine ⟨fun _ => ?_, fun h => absurd h (Nat.lt_irrefl _)⟩
    rcases Nat.lt_or_eq_of_le hg.1 with hlt | heq
    · simp [outOf, Out2.at_peek, Out.peek, h1.2 hlt]
    · simp [outOf, Out2.at_peek, Out.peek, h1.1 heq.symm]
  | peek_no _ ih =>
    have h1 := ih hi
    simp only [Res.Within] at h1
    simp [outOf, Out2.at_peek, Out.peek, Res.Within, h1]
  | peek_fault => trivial
  | npeek_ok hev ih =>
    have h1 := ih hi
    have hg := hev.good hr hi
    rcases Nat.lt_or_eq_of_le hg.1 with hlt | heq
    · simp [outOf, Out2.at_npeek, Out.npeek, Res.Within, h1.2 hlt]
    · simp [outOf, Out2.at_npeek, Out.npeek, Res.Within, h1.1 heq.symm]
  | npeek_no _ ih =>
    have h1 := ih hi
    simp only [Res.Within] at h1
    refine ⟨fun _ => ?_, fun h => absurd h (Nat.lt_irrefl _)⟩
    simp [outOf, Out2.at_npeek, Out.npeek, h1]
  | npeek_fault => trivial
  | @pred_ok p s g' ts h =>
    have := (hpt _ _ _ _ _ _ h).1 rfl
    refine ⟨fun _ => ?_, fun h => absurd h (Nat.lt_irrefl _)⟩
    cases decide (s.pos = w.length) <;> simp [outOf, Out2.at_, this]
  | @pred_no p s g' ts h =>
    have := (hpt _ _ _ _ _ _ h).2 rfl
    cases decide (s.pos = w.length) <;> simp [outOf, Out2.at_, Res.Within, this]
  | pred_fault => trivial
  | @act a s => cases decide (s.pos = w.length) <;> exact ⟨fun _ => rfl, fun h => absurd h (Nat.lt_irrefl _)⟩
  | onfail_ok _ ih => exact ih hi
  | onfail_no _ _ ih => exact ih hi
  | onfail_no_fault => trivial
  | onfail_fault => trivial

/-! ## Termination -/

/-- Every repetition's body consumes input when it succeeds. -/
def starsOk (tbl : R → Out2) (pt : P → Bool × Bool) : Expr R P A → Bool
  | .seq a b | .alt a b => starsOk tbl pt a && starsOk tbl pt b
  | .star a => !(outOf tbl pt a).anyS0 && starsOk tbl pt a
  | .peek a | .npeek a | .onfail a _ => starsOk tbl pt a
  | _ => true

/-- Rules that may be called before any input is consumed have a rank below `n`; `fin` says whether
the input is at its end. -/
def ranked (tbl : R → Out2) (pt : P → Bool × Bool) (rank : R → Nat) (n : Nat) (fin : Bool) :
    Expr R P A → Bool
  | .nt r _ => rank r < n
  | .seq a b => ranked tbl pt rank n fin a &&
      (!((outOf tbl pt a).at_ fin).s0 || ranked tbl pt rank n fin b)
  | .alt a b => ranked tbl pt rank n fin a &&
      (!((outOf tbl pt a).at_ fin).fail || ranked tbl pt rank n fin b)
  | .star a | .peek a | .npeek a | .onfail a _ => ranked tbl pt rank n fin a
  | _ => true

/-- The whole check for one rule. -/
def ruleOk (tbl : R → Out2) (pt : P → Bool × Bool) (rank : R → Nat) (G : R → RuleDef R P A)
    (r : R) : Bool :=
  (outOf tbl pt (G r).body).le (tbl r) && starsOk tbl pt (G r).body &&
    (ranked tbl pt rank (rank r) true (G r).body && ranked tbl pt rank (rank r) false (G r).body)

theorem Eval.total_aux {G : R → RuleDef R P A} {H : Host P A γ} {w : List UInt8}
    {I : Nat → γ → Prop} (hr : ReadsAs H w I) {tbl : R → Out2} {pt : P → Bool × Bool}
    (hpt : PredsAs H pt) {rank : R → Nat}
    (htbl : ∀ r, (outOf tbl pt (G r).body).le (tbl r) = true)
    {p0 n : Nat}
    (h1 : ∀ r v (s : St A γ), p0 < s.pos → I s.pos s.g → ∃ res, Eval G H (.nt r v) s res)
    (h2 : ∀ r v (s : St A γ), rank r < n → s.pos = p0 → I s.pos s.g →
      ∃ res, Eval G H (.nt r v) s res) :
    ∀ (e : Expr R P A) (s : St A γ), p0 ≤ s.pos → I s.pos s.g →
      starsOk tbl pt e = true → (s.pos = p0 → ranked tbl pt rank n (decide (p0 = w.length)) e = true) →
      ∃ res, Eval G H e s res := by
  intro e
  induction e with
  | eps => intro s _ _ _ _; exact ⟨_, .eps⟩
  | one m =>
    intro s _ _ _ _
    rcases hp : H.peek s.pos s.g with ⟨_ | c, g'⟩
    · exact ⟨_, .one_end hp⟩
    · cases hm : m.mem c
      · exact ⟨_, .one_no hp hm⟩
      · exact ⟨_, .one_ok hp hm⟩
  | str l =>
    intro s _ _ _ _
    rcases hp : matchStr H s.pos l s.pos s.g with ⟨_ | _, p, g'⟩
    · exact ⟨_, .str_no hp⟩
    · exact ⟨_, .str_ok hp⟩
  | nt r v =>
    intro s hp hi _ hrk
    rcases Nat.lt_or_eq_of_le hp with hlt | heq
    · exact h1 r v s hlt hi
    · exact h2 r v s (by simpa [ranked] using hrk heq.symm) heq.symm hi
  | seq a b iha ihb =>
    intro s hp hi hs hrk
    simp only [starsOk, Bool.and_eq_true] at hs
    have hrka : s.pos = p0 → ranked tbl pt rank n (decide (p0 = w.length)) a = true := fun h => by
      have := hrk h
      simp only [ranked, Bool.and_eq_true] at this
      exact this.1
    obtain ⟨r1, e1⟩ := iha s hp hi hs.1 hrka
    cases r1 with
    | fail s1 => exact ⟨_, .seq_no e1⟩
    | fault f => exact ⟨_, .seq_fault e1⟩
    | ok s1 =>
      have hg := e1.good hr hi
      have hw := e1.within hr hpt htbl hi
      obtain ⟨r2, e2⟩ := ihb s1 (Nat.le_trans hp hg.1) hg.2 hs.2 (fun h => by
        have hs0 : s.pos = p0 := by have := hg.1; omega
        have := hrk hs0
        simp only [ranked, Bool.and_eq_true, Bool.or_eq_true, Bool.not_eq_true'] at this
        rcases this.2 with hz | hz
        · have := hw.1 (by omega)
          rw [hs0, hz] at this; simp at this
        · exact hz)
      exact ⟨_, .seq_ok e1 e2⟩
  | alt a b iha ihb =>
    intro s hp hi hs hrk
    simp only [starsOk, Bool.and_eq_true] at hs
    simp only [ranked, Bool.and_eq_true, Bool.or_eq_true, Bool.not_eq_true'] at hrk
    obtain ⟨r1, e1⟩ := iha s hp hi hs.1 (fun h => (hrk h).1)
    cases r1 with
    | ok s1 => exact ⟨_, .alt_ok e1⟩
    | fault f => exact ⟨_, .alt_fault e1⟩
    | fail s1 =>
      have hg := e1.good hr hi
      have hw := e1.within hr hpt htbl hi
      obtain ⟨r2, e2⟩ := ihb (s.restore s1) hp (hr.down hg.2 hg.1) hs.2 (fun h => by
        rcases (hrk h).2 with hz | hz
        · rw [show s.pos = p0 from h] at hw
          simp only [Res.Within, hz] at hw; simp at hw
        · exact hz)
      exact ⟨_, .alt_no e1 e2⟩
  | star a iha =>
    intro s hp hi hs hrk
    simp only [starsOk, Bool.and_eq_true, Bool.not_eq_true'] at hs
    simp only [ranked] at hrk
    have key : ∀ (d : Nat) (s : St A γ), w.length - s.pos ≤ d → p0 ≤ s.pos → I s.pos s.g →
        (s.pos = p0 → ranked tbl pt rank n (decide (p0 = w.length)) a = true) → ∃ res, Eval G H (.star a) s res := by
      intro d
      induction d with
      | zero =>
        intro s hd hp hi hrk
        obtain ⟨r1, e1⟩ := iha s hp hi hs.2 hrk
        cases r1 with
        | fail s1 => exact ⟨_, .star_end e1⟩
        | fault f => exact ⟨_, .star_fault e1⟩
        | ok s1 =>
          have hg := e1.good hr hi
          have hw := e1.within hr hpt htbl hi
          have h0 := hr.bound hi
          have h3 := hr.bound hg.2
          have := Out2.anyS0_of (hw.1 (by have := hg.1; omega))
          rw [hs.1] at this; simp at this
      | succ d ihd =>
        intro s hd hp hi hrk
        obtain ⟨r1, e1⟩ := iha s hp hi hs.2 hrk
        cases r1 with
        | fail s1 => exact ⟨_, .star_end e1⟩
        | fault f => exact ⟨_, .star_fault e1⟩
        | ok s1 =>
          have hg := e1.good hr hi
          have hw := e1.within hr hpt htbl hi
          have hlt : s.pos < s1.pos := by
            rcases Nat.lt_or_eq_of_le hg.1 with hlt | heq
            · exact hlt
            · have := Out2.anyS0_of (hw.1 heq.symm)
              rw [hs.1] at this; simp at this
          have hb := hr.bound hg.2
          obtain ⟨r2, e2⟩ := ihd s1 (by omega) (by omega) hg.2 (fun h => by omega)
          exact ⟨_, .star_more e1 e2⟩
    exact key _ s (Nat.le_refl _) hp hi hrk
  | peek a iha =>
    intro s hp hi hs hrk
    obtain ⟨r1, e1⟩ := iha s hp hi hs hrk
    cases r1 with
    | ok s1 => exact ⟨_, .peek_ok e1⟩
    | fail s1 => exact ⟨_, .peek_no e1⟩
    | fault f => exact ⟨_, .peek_fault e1⟩
  | npeek a iha =>
    intro s hp hi hs hrk
    obtain ⟨r1, e1⟩ := iha s hp hi hs hrk
    cases r1 with
    | ok s1 => exact ⟨_, .npeek_ok e1⟩
    | fail s1 => exact ⟨_, .npeek_no e1⟩
    | fault f => exact ⟨_, .npeek_fault e1⟩
  | pred p =>
    intro s _ _ _ _
    rcases hp : H.pred p s.pos s.g with f | ⟨b, g', ts⟩
    · exact ⟨_, .pred_fault hp⟩
    · cases b
      · exact ⟨_, .pred_no hp⟩
      · exact ⟨_, .pred_ok hp⟩
  | act a => intro s _ _ _ _; exact ⟨_, .act⟩
  | onfail a p iha =>
    intro s hp hi hs hrk
    obtain ⟨r1, e1⟩ := iha s hp hi hs hrk
    cases r1 with
    | ok s1 => exact ⟨_, .onfail_ok e1⟩
    | fault f => exact ⟨_, .onfail_fault e1⟩
    | fail s1 =>
      rcases hq : H.pred p s1.pos s1.g with f | ⟨b, g', ts⟩
      · exact ⟨_, .onfail_no_fault e1 hq⟩
      · exact ⟨_, .onfail_no e1 hq⟩

/-- A grammar that passes the check terminates on every input, from every state. -/
theorem Eval.total {G : R → RuleDef R P A} {H : Host P A γ} {w : List UInt8}
    {I : Nat → γ → Prop} (hr : ReadsAs H w I) {tbl : R → Out2} {pt : P → Bool × Bool}
    (hpt : PredsAs H pt) {rank : R → Nat} (hok : ∀ r, ruleOk tbl pt rank G r = true)
    (r : R) (v : Option Nat) (s : St A γ) (hi : I s.pos s.g) :
    ∃ res, Eval G H (.nt r v) s res := by
  have hok' : ∀ r, (outOf tbl pt (G r).body).le (tbl r) = true ∧
      starsOk tbl pt (G r).body = true ∧
      ∀ fin, ranked tbl pt rank (rank r) fin (G r).body = true := by
    intro r
    have := hok r
    simp only [ruleOk, Bool.and_eq_true] at this
    exact ⟨this.1.1, this.1.2, fun fin => by cases fin; exacts [this.2.2, this.2.1]⟩
  have key : ∀ (d n : Nat) (r : R) (v : Option Nat) (s : St A γ), w.length - s.pos = d →
      rank r = n → I s.pos s.g → ∃ res, Eval G H (.nt r v) s res := by
    intro d
    induction d using Nat.strongRecOn with
    | ind d ihd =>
      intro n
      induction n using Nat.strongRecOn with
      | ind n ihn =>
        intro r v s hd hn hi
        have hb := hr.bound hi
        obtain ⟨r1, e1⟩ := Eval.total_aux (n := n) (p0 := s.pos) hr hpt (rank := rank)
          (fun r => (hok' r).1)
          (fun r v s' hlt hi' => by
            have hb' := hr.bound hi'
            exact ihd (w.length - s'.pos) (by omega) _ r v s' rfl rfl hi')
          (fun r v s' hlt heq hi' => ihn (rank r) hlt r v s' (by rw [heq]; exact hd) rfl hi')
          (G r).body
          (s.enter (G r).nvars) (by simp) (by simpa using hi)
          (hok' r).2.1 (fun _ => by have := (hok' r).2.2 (decide (s.pos = w.length)); rwa [hn] at this)
        cases r1 with
        | ok s1 => exact ⟨_, .nt_ok e1⟩
        | fail s1 => exact ⟨_, .nt_no e1⟩
        | fault f => exact ⟨_, .nt_fault e1⟩
  exact key _ _ r v s rfl rfl hi

end Verif.Peg
