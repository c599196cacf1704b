import Verif.Cypher.Height
import Mathlib.Tactic.ByContra
/-!
# What a match sees of the operator stack

Two states of which a match sees the same part give the same match. `vis` computes how much of the stack
of precedences a match looks at, and whether it looks at the last operator.
-/
namespace Verif.Cypher
open Verif.Peg

/-- The rules that, when they match, leave an operator. -/
def isTok : Rule → Bool
  | .r_PREFIX_OP | .r_POSTFIX_OP | .r_INFIX_OP | .r_COMPARISON_OP => true
  | _ => false

def joinN : Option Nat → Option Nat → Option (Option Nat)
  | none, f => some f
  | f, none => some f
  | some x, some y => if x = y then some (some x) else none

def joinO : Option (Bool × Nat) → Option (Bool × Nat) → Option (Option (Bool × Nat))
  | none, o => some o
  | o, none => some o
  | some (b, x), some (c, y) => if x = y then some (some (b && c, x)) else none

/-- Everything is left as it was. -/
def stays (b : Bool) (n : Nat) (o : Option (Bool × Nat)) (f : Option Nat) : Bool :=
  (match o with
    | none => true
    | some (b1, n1) => n1 == n && (!b || b1)) &&
  (match f with
    | none => true
    | some nf => nf == n)

/-- `dep` entries of the stack may be looked at besides the `n` pushed since; `b`: the last operator may
be looked at. How the match leaves these, and how a failure does. -/
def vis (dep : Nat) : E → Bool → Nat → Option (Option (Bool × Nat) × Option Nat)
  | .eps, b, n => some (some (b, n), none)
  | .one _, b, n => some (some (b, n), some n)
  | .str _, b, n => some (some (b, n), some n)
  | .nt r _, b, n =>
    if (r = .r__expression ∧ dep + n = 0) ∨ (r = .r__prec_expression ∧ b = false) then none
    else some (some (b || isTok r, n), some n)
  | .seq a c, b, n => match vis dep a b n with
    | none => none
    | some (none, f) => some (none, f)
    | some (some (b1, n1), f) =>
      if b = true ∧ b1 = false then none else match vis dep c b1 n1 with
        | none => none
        | some (o, f') => (joinN f f').map fun f => (o, f)
  | .alt a c, b, n => match vis dep a b n with
    | none => none
    | some (o, none) => some (o, none)
    | some (o, some nf) => if nf ≠ n then none else match vis dep c b n with
      | none => none
      | some (o', f') => (joinO o o').map fun o => (o, f')
  | .star a, b, n => match vis dep a b n with
    | none => none
    | some (o, f) =>
      if stays b n o f then some (some (b, n), none) else none
  | .peek a, b, n => match vis dep a b n with
    | none => none
    | some (o, f) => some (o, f)
  | .npeek a, b, n => match vis dep a b n with
    | none => none
    | some (o, f) =>
      if stays b n o f then some (some (b, n), some n) else none
  | .pred x, b, n => match x with
    | .op _ => some (some (true, n), none)
    | .precPushTop => some (some (b, n + 1), none)
    | .precPush => if b then some (some (b, n + 1), none) else none
    | .precPop => match n with
      | 0 => none
      | k + 1 => some (some (b, k), none)
    | .precChk => if b = true ∧ 0 < dep + n then some (some (b, n), some n) else none
    | .no => some (none, some n)
    | _ => some (some (b, n), none)
  | .act _, b, n => some (some (b, n), none)
  | .onfail a x, b, n => match vis dep a b n with
    | none => none
    | some (o, none) => some (o, none)
    | some (o, some nf) => match x with
      | .precPop => match nf with
        | 0 => none
        | k + 1 => some (o, some k)
      | .err _ | .recordError => some (o, some nf)
      | _ => none

/-- The rule can be called wherever `vis` allows it to be. -/
def visOk (r : Rule) : Bool :=
  let dep := if r = .r__expression then 1 else 0
  let ok (b : Bool) := match vis dep (grammar r).body b 0 with
    | none => false
    | some (o, f) => stays (b || isTok r) 0 o f
  (r == .r__prec_expression || ok false) && ok true

theorem visOk_all : ∀ r, visOk r = true := by
  have : ∀ r ∈ Rule.all, visOk r = true := by decide +kernel
  exact fun r => this r (Rule.mem_all r)

/-- The two stacks agree on what may be looked at. -/
structure Rel (d ys₁ ys₂ : List Nat) (b : Bool) (n : Nat) (q₁ q₂ : QState) : Prop where
  stk : ∃ zs : List Nat, zs.length = n ∧ q₁.2 = zs ++ (d ++ ys₁) ∧ q₂.2 = zs ++ (d ++ ys₂)
  op : b = true → q₁.1 = q₂.1

section
variable {w : List UInt8} {e : E} {p : Nat} {q q₁ q₂ : QState} {res : SkRes} {d ys₁ ys₂ : List Nat}
  {b b' : Bool} {n : Nat}

theorem Rel.weaken (h : Rel d ys₁ ys₂ b n q₁ q₂) (hb : b' = true → b = true) :
    Rel d ys₁ ys₂ b' n q₁ q₂ := ⟨h.stk, fun h' => h.op (hb h')⟩

theorem Rel.last (h : Rel d ys₁ ys₂ b n q₁ q₂) (hn : 0 < d.length + n) : lastPrec q₁.2 = lastPrec q₂.2 := by
  obtain ⟨zs, h1, h2, h3⟩ := h.stk
  rw [h2, h3]
  cases zs with
  | nil =>
    cases d with
    | nil => simp at h1; subst h1; simp at hn
    | cons x d => rfl
  | cons z zs => rfl

/-- How the matches from the two states are related. -/
def Alike (w : List UInt8) (e : E) (p : Nat) (q₂ : QState) (d ys₁ ys₂ : List Nat) (b : Bool)
    (o : Option (Bool × Nat)) (f : Option Nat) : SkRes → Prop
  | .ok p' ts q₁' => ∃ q₂', Sk w e p q₂ (.ok p' ts q₂') ∧ ∃ b' n', o = some (b', n') ∧
      Rel d ys₁ ys₂ b' n' q₁' q₂'
  | .no q₁' => ∃ q₂', Sk w e p q₂ (.no q₂') ∧ ∃ n', f = some n' ∧ Rel d ys₁ ys₂ b n' q₁' q₂'

theorem joinN_left {f f' g : Option Nat} {x : Nat} (h : joinN f f' = some g) (hf : f = some x) :
    g = some x := by
  subst hf
  cases f' with
  | none => cases h; rfl
  | some y =>
    simp only [joinN] at h
    split at h
    · cases h; rfl
    · cases h

theorem joinN_right {f f' g : Option Nat} {x : Nat} (h : joinN f f' = some g) (hf : f' = some x) :
    g = some x := by
  subst hf
  cases f with
  | none => cases h; rfl
  | some y =>
    simp only [joinN] at h
    split at h
    · rename_i e; cases h; rw [e]
    · cases h

theorem joinO_left {o o' g : Option (Bool × Nat)} {x : Nat} (h : joinO o o' = some g)
    (ho : o = some (b, x)) : ∃ b', g = some (b', x) ∧ (b' = true → b = true) := by
  subst ho
  cases o' with
  | none => cases h; exact ⟨b, rfl, id⟩
  | some y =>
    obtain ⟨c, y⟩ := y
    simp only [joinO] at h
    split at h
    · cases h; exact ⟨_, rfl, by simp +contextual⟩
    · cases h

theorem joinO_right {o o' g : Option (Bool × Nat)} {x : Nat} (h : joinO o o' = some g)
    (ho : o' = some (b, x)) : ∃ b', g = some (b', x) ∧ (b' = true → b = true) := by
  subst ho
  cases o with
  | none => cases h; exact ⟨b, rfl, id⟩
  | some y =>
    obtain ⟨c, y⟩ := y
    simp only [joinO] at h
    split at h
    · rename_i e; cases h; exact ⟨_, by rw [e], by simp +contextual⟩
    · cases h

theorem stay_ok {o : Option (Bool × Nat)} {f : Option Nat} {n1 : Nat} {b1 : Bool}
    (h : stays b n o f = true) (ho : o = some (b1, n1)) : n1 = n ∧ (b = true → b1 = true) := by
  subst ho
  simp only [stays, Bool.and_eq_true, beq_iff_eq, Bool.or_eq_true, Bool.not_eq_true'] at h
  refine ⟨h.1.1, fun hb => ?_⟩
  rcases h.1.2 with h | h
  · rw [h] at hb; cases hb
  · exact h

theorem stay_no {o : Option (Bool × Nat)} {f : Option Nat} {n1 : Nat}
    (h : stays b n o f = true) (hf : f = some n1) : n1 = n := by
  subst hf
  simp only [stays, Bool.and_eq_true, beq_iff_eq] at h
  exact h.2

theorem vis_call {r : Rule} (hc : ¬ ((r = .r__expression ∧ d.length + n = 0) ∨
    (r = .r__prec_expression ∧ b = false))) (hr : Rel d ys₁ ys₂ b n q₁ q₂) : ∃ o f d' xs₁ xs₂,
    vis (List.length d') (grammar r).body b 0 = some (o, f) ∧ Rel d' xs₁ xs₂ b 0 q₁ q₂ ∧
      stays (b || isTok r) 0 o f = true ∧
      (∀ b' q q₂, Rel d' xs₁ xs₂ b' 0 q q₂ → Rel d ys₁ ys₂ b' n q q₂) := by
  have hok := visOk_all r
  simp only [visOk, Bool.and_eq_true, Bool.or_eq_true, beq_iff_eq] at hok
  obtain ⟨zs, z1, z2, z3⟩ := hr.stk
  have hb : (match vis (if r = .r__expression then 1 else 0) (grammar r).body b 0 with
      | none => false
      | some (o, f) => stays (b || isTok r) 0 o f) = true := by
    cases b with
    | true => exact hok.2
    | false =>
      rcases hok.1 with hx | hx
      · exact (hc (.inr ⟨hx, rfl⟩)).elim
      · exact hx
  split at hb
  · cases hb
  rename_i o f k1
  by_cases hx : r = .r__expression
  · rw [if_pos hx] at k1
    have hne : 0 < d.length + n := by
      by_contra hlt
      exact hc (.inl ⟨hx, by omega⟩)
    obtain ⟨z, zt, hz⟩ : ∃ z zt, zs ++ d = z :: zt := by
      cases hzd : zs ++ d with
      | nil =>
        have := congrArg List.length hzd
        simp [z1] at this
        simp [this] at hne
      | cons z zt => exact ⟨z, zt, rfl⟩
    have zz : ∀ ys, zs ++ (d ++ ys) = [] ++ ([z] ++ (zt ++ ys)) := by
      intro ys
      rw [← List.append_assoc, hz]; rfl
    refine ⟨o, f, [z], zt ++ ys₁, zt ++ ys₂, k1, ⟨⟨[], rfl, by rw [z2, zz], by rw [z3, zz]⟩, hr.op⟩, hb, ?_⟩
    rintro b' q q₂ ⟨⟨l, l1, l2, l3⟩, l4⟩
    have : l = [] := List.length_eq_zero_iff.1 l1
    subst this
    exact ⟨⟨zs, z1, by rw [l2, zz], by rw [l3, zz]⟩, l4⟩
  · rw [if_neg hx] at k1
    refine ⟨o, f, [], zs ++ (d ++ ys₁), zs ++ (d ++ ys₂), k1,
      ⟨⟨[], rfl, by rw [z2]; rfl, by rw [z3]; rfl⟩, hr.op⟩, hb, ?_⟩
    rintro b' q q₂ ⟨⟨l, l1, l2, l3⟩, l4⟩
    have : l = [] := List.length_eq_zero_iff.1 l1
    subst this
    exact ⟨⟨zs, z1, l2, l3⟩, l4⟩

theorem sim (h : Sk w e p q₁ res) : ∀ {d ys₁ ys₂ : List Nat} {b : Bool} {n : Nat} {q₂ : QState}
    {o : Option (Bool × Nat)} {f : Option Nat}, vis d.length e b n = some (o, f) →
    Rel d ys₁ ys₂ b n q₁ q₂ → Alike w e p q₂ d ys₁ ys₂ b o f res := by
  induction h with
  | eps =>
    intro d ys₁ ys₂ b n q₂ o f hv hr
    cases hv
    exact ⟨_, .eps, _, _, rfl, hr⟩
  | one_ok h1 h2 =>
    intro d ys₁ ys₂ b n q₂ o f hv hr
    cases hv
    exact ⟨_, .one_ok h1 h2, _, _, rfl, hr⟩
  | one_no h1 =>
    intro d ys₁ ys₂ b n q₂ o f hv hr
    cases hv
    exact ⟨_, .one_no h1, _, rfl, hr⟩
  | str_ok h1 =>
    intro d ys₁ ys₂ b n q₂ o f hv hr
    cases hv
    exact ⟨_, .str_ok h1, _, _, rfl, hr⟩
  | str_no h1 =>
    intro d ys₁ ys₂ b n q₂ o f hv hr
    cases hv
    exact ⟨_, .str_no h1, _, rfl, hr⟩
  | @nt_ok r v p q p' ts q' h ih =>
    intro d ys₁ ys₂ b n q₂ o f hv hr
    simp only [vis] at hv
    split at hv
    · cases hv
    rename_i hc
    cases hv
    obtain ⟨o, f, d', xs₁, xs₂, hv, hr', ho, hback⟩ := vis_call hc hr
    obtain ⟨q₂', g1, b', n', g2, g3⟩ := ih hv hr'
    obtain ⟨rfl, g4⟩ := stay_ok ho g2
    exact ⟨q₂', .nt_ok g1, _, _, rfl, (hback _ _ _ g3).weaken g4⟩
  | @nt_no r v p q q' h ih =>
    intro d ys₁ ys₂ b n q₂ o f hv hr
    simp only [vis] at hv
    split at hv
    · cases hv
    rename_i hc
    cases hv
    obtain ⟨o, f, d', xs₁, xs₂, hv, hr', ho, hback⟩ := vis_call hc hr
    obtain ⟨q₂', g1, n', g2, g3⟩ := ih hv hr'
    have := stay_no ho g2
    subst this
    exact ⟨q₂', .nt_no g1, _, rfl, hback _ _ _ g3⟩
  | @seq_ok a c p q p1 ts q1 p2 us q2 _ _ ih1 ih2 =>
    intro d ys₁ ys₂ b n q₂ o f hv hr
    simp only [vis] at hv
    split at hv
    · cases hv
    · rename_i f0 ha
      obtain ⟨_, _, _, _, g, _⟩ := ih1 ha hr
      cases g
    · rename_i b1 n1 f0 ha
      split at hv
      · cases hv
      split at hv
      · cases hv
      rename_i o' f' hc
      simp only [Option.map_eq_some_iff, Prod.mk.injEq] at hv
      obtain ⟨f'', hj, rfl, rfl⟩ := hv
      obtain ⟨q', g1, _, _, g2, g3⟩ := ih1 ha hr
      cases g2
      obtain ⟨q'', k1, b2, n2, k2, k3⟩ := ih2 hc g3
      exact ⟨q'', .seq_ok g1 k1, b2, n2, k2, k3⟩
  | @seq_no a c p q q1 _ ih1 =>
    intro d ys₁ ys₂ b n q₂ o f hv hr
    simp only [vis] at hv
    split at hv
    · cases hv
    · rename_i f0 ha
      cases hv
      obtain ⟨q', g1, n', g2, g3⟩ := ih1 ha hr
      exact ⟨q', .seq_no g1, n', g2, g3⟩
    · rename_i b1 n1 f0 ha
      split at hv
      · cases hv
      split at hv
      · cases hv
      rename_i o' f' hc
      simp only [Option.map_eq_some_iff, Prod.mk.injEq] at hv
      obtain ⟨f'', hj, rfl, rfl⟩ := hv
      obtain ⟨q', g1, n', g2, g3⟩ := ih1 ha hr
      exact ⟨q', .seq_no g1, n', joinN_left hj g2, g3⟩
  | @seq_no2 a c p q p1 ts q1 q2 _ _ ih1 ih2 =>
    intro d ys₁ ys₂ b n q₂ o f hv hr
    simp only [vis] at hv
    split at hv
    · cases hv
    · rename_i f0 ha
      obtain ⟨_, _, _, _, g, _⟩ := ih1 ha hr
      cases g
    · rename_i b1 n1 f0 ha
      split at hv
      · cases hv
      rename_i hmono
      split at hv
      · cases hv
      rename_i o' f' hc
      simp only [Option.map_eq_some_iff, Prod.mk.injEq] at hv
      obtain ⟨f'', hj, rfl, rfl⟩ := hv
      obtain ⟨q', g1, _, _, g2, g3⟩ := ih1 ha hr
      cases g2
      obtain ⟨q'', k1, n2, k2, k3⟩ := ih2 hc g3
      refine ⟨q'', .seq_no2 g1 k1, n2, joinN_right hj k2, k3.weaken fun hb => ?_⟩
      cases b1 with
      | true => rfl
      | false => exact (hmono ⟨hb, rfl⟩).elim
  | @alt_ok a c p q p1 ts q1 _ ih1 =>
    intro d ys₁ ys₂ b n q₂ o f hv hr
    simp only [vis] at hv
    split at hv
    · cases hv
    · rename_i o0 ha
      cases hv
      obtain ⟨q', g1, b', n', g2, g3⟩ := ih1 ha hr
      exact ⟨q', .alt_ok g1, b', n', g2, g3⟩
    · rename_i o0 nf ha
      split at hv
      · cases hv
      split at hv
      · cases hv
      rename_i o' f' hc
      simp only [Option.map_eq_some_iff, Prod.mk.injEq] at hv
      obtain ⟨o'', hj, rfl, rfl⟩ := hv
      obtain ⟨q', g1, b', n', g2, g3⟩ := ih1 ha hr
      obtain ⟨b'', g4, g5⟩ := joinO_left hj g2
      exact ⟨q', .alt_ok g1, b'', n', g4, g3.weaken g5⟩
  | @alt_no a c p q q1 res _ _ ih1 ih2 =>
    intro d ys₁ ys₂ b n q₂ o f hv hr
    simp only [vis] at hv
    split at hv
    · cases hv
    · rename_i o0 ha
      obtain ⟨_, _, _, g, _⟩ := ih1 ha hr
      cases g
    · rename_i o0 nf ha
      split at hv
      · cases hv
      rename_i hn
      split at hv
      · cases hv
      rename_i o' f' hc
      simp only [Option.map_eq_some_iff, Prod.mk.injEq] at hv
      obtain ⟨o'', hj, rfl, rfl⟩ := hv
      obtain ⟨q', g1, n', g2, g3⟩ := ih1 ha hr
      cases g2
      have hn : nf = n := by simpa using hn
      subst hn
      have := ih2 hc g3
      revert this
      cases res with
      | ok p' ts q' =>
        rintro ⟨q'', k1, b', n', k2, k3⟩
        obtain ⟨b'', g4, g5⟩ := joinO_right hj k2
        exact ⟨q'', .alt_no g1 k1, b'', n', g4, k3.weaken g5⟩
      | no q' =>
        rintro ⟨q'', k1, n', k2, k3⟩
        exact ⟨q'', .alt_no g1 k1, n', k2, k3⟩
  | @star_more a p q p1 ts q1 p2 us q2 _ _ ih1 ih2 =>
    intro d ys₁ ys₂ b n q₂ o f hv hr
    have hv0 := hv
    simp only [vis] at hv
    split at hv
    · cases hv
    rename_i o' f' ha
    split at hv
    · rename_i hst
      cases hv
      obtain ⟨q', g1, b', n', g2, g3⟩ := ih1 ha hr
      obtain ⟨rfl, hb⟩ := stay_ok hst g2
      obtain ⟨q'', k1, b'', n'', k2, k3⟩ := ih2 hv0 (g3.weaken hb)
      exact ⟨q'', .star_more g1 k1, b'', n'', k2, k3⟩
    · cases hv
  | @star_end a p q q1 _ ih1 =>
    intro d ys₁ ys₂ b n q₂ o f hv hr
    simp only [vis] at hv
    split at hv
    · cases hv
    rename_i o' f' ha
    split at hv
    · rename_i hst
      cases hv
      obtain ⟨q', g1, n', g2, g3⟩ := ih1 ha hr
      have := stay_no hst g2
      subst this
      exact ⟨q', .star_end g1, b, n', rfl, g3⟩
    · cases hv
  | @peek_ok a p q p1 ts q1 _ ih1 =>
    intro d ys₁ ys₂ b n q₂ o f hv hr
    simp only [vis] at hv
    split at hv
    · cases hv
    rename_i o' f' ha
    cases hv
    obtain ⟨q', g1, b', n', g2, g3⟩ := ih1 ha hr
    exact ⟨q', .peek_ok g1, b', n', g2, g3⟩
  | @peek_no a p q q1 _ ih1 =>
    intro d ys₁ ys₂ b n q₂ o f hv hr
    simp only [vis] at hv
    split at hv
    · cases hv
    rename_i o' f' ha
    cases hv
    obtain ⟨q', g1, n', g2, g3⟩ := ih1 ha hr
    exact ⟨q', .peek_no g1, n', g2, g3⟩
  | @npeek_ok a p q p1 ts q1 _ ih1 =>
    intro d ys₁ ys₂ b n q₂ o f hv hr
    simp only [vis] at hv
    split at hv
    · cases hv
    rename_i o' f' ha
    split at hv
    · rename_i hst
      cases hv
      obtain ⟨q', g1, b', n', g2, g3⟩ := ih1 ha hr
      obtain ⟨rfl, hb⟩ := stay_ok hst g2
      exact ⟨q', .npeek_ok g1, n', rfl, g3.weaken hb⟩
    · cases hv
  | @npeek_no a p q q1 _ ih1 =>
    intro d ys₁ ys₂ b n q₂ o f hv hr
    simp only [vis] at hv
    split at hv
    · cases hv
    rename_i o' f' ha
    split at hv
    · rename_i hst
      cases hv
      obtain ⟨q', g1, n', g2, g3⟩ := ih1 ha hr
      have := stay_no hst g2
      subst this
      exact ⟨q', .npeek_no g1, b, n', rfl, g3⟩
    · cases hv
  | @pred_ok x p q q' hx =>
    intro d ys₁ ys₂ b n q₂ o f hv hr
    obtain ⟨zs, z1, z2, z3⟩ := hr.stk
    simp only [vis] at hv
    split at hv
    · cases hv; cases hx
      exact ⟨_, .pred_ok rfl, _, _, rfl, ⟨hr.stk, fun _ => rfl⟩⟩
    · cases hv; cases hx
      exact ⟨_, .pred_ok rfl, _, _, rfl, ⟨⟨0 :: zs, by simp [z1], by simp [z2], by simp [z3]⟩, hr.op⟩⟩
    · split at hv
      · rename_i hb
        cases hv
        have ho := hr.op hb
        simp only [qpred] at hx
        split at hx
        · cases hx
        · rename_i o ho1
          cases hx
          refine ⟨(q₂.1, o.next :: q₂.2), .pred_ok (by simp only [qpred]; rw [← ho, ho1]), _, _, rfl,
            ⟨⟨o.next :: zs, by simp [z1], by simp [z2], by simp [z3]⟩, fun _ => ho⟩⟩
      · cases hv
    · split at hv
      · cases hv
      · cases hv; cases hx
        cases zs with
        | nil => simp at z1
        | cons z zs =>
          refine ⟨_, .pred_ok rfl, _, _, rfl, ⟨⟨zs, by simpa using z1, by simp [z2], by simp [z3]⟩, hr.op⟩⟩
    · split at hv
      · rename_i hb
        cases hv
        have ho := hr.op hb.1
        have hl := hr.last hb.2
        simp only [qpred] at hx
        split at hx
        · cases hx
        · rename_i o ho1
          simp only [Option.some.injEq, Prod.mk.injEq] at hx
          obtain ⟨hx, rfl⟩ := hx
          refine ⟨_, .pred_ok (x := .precChk) (q := q₂) (q' := q₂) ?_, _, _, rfl, hr⟩
          simp only [qpred]
          rw [← ho, ho1, ← hl]
          simp only [hx]
      · cases hv
    · cases hv; cases hx
    · rename_i h1 h2 h3 h4 h5 h6
      cases hv
      have hq : qpred x q₂ = some (true, q₂) ∧ q' = q := by
        cases x <;> first
          | exact (h1 _ rfl).elim
          | exact (h2 rfl).elim
          | exact (h3 rfl).elim
          | exact (h4 rfl).elim
          | exact (h5 rfl).elim
          | exact (h6 rfl).elim
          | (cases hx; exact ⟨rfl, rfl⟩)
      obtain ⟨hq, rfl⟩ := hq
      exact ⟨_, .pred_ok hq, _, _, rfl, hr⟩
  | @pred_no x p q q' hx =>
    intro d ys₁ ys₂ b n q₂ o f hv hr
    simp only [vis] at hv
    split at hv
    · cases hx
    · cases hx
    · simp only [qpred] at hx
      split at hx <;> cases hx
    · cases hx
    · split at hv
      · rename_i hb
        cases hv
        have ho := hr.op hb.1
        have hl := hr.last hb.2
        simp only [qpred] at hx
        split at hx
        · cases hx
        · rename_i o ho1
          simp only [Option.some.injEq, Prod.mk.injEq] at hx
          obtain ⟨hx, rfl⟩ := hx
          refine ⟨_, .pred_no (x := .precChk) (q := q₂) (q' := q₂) ?_, _, rfl, hr⟩
          simp only [qpred]
          rw [← ho, ho1, ← hl]
          simp only [hx]
      · cases hv
    · cases hv; cases hx
      exact ⟨_, .pred_no rfl, _, rfl, hr⟩
    · rename_i h1 h2 h3 h4 h5 h6
      exfalso
      cases x <;> first
          | exact (h1 _ rfl).elim
          | exact (h2 rfl).elim
          | exact (h3 rfl).elim
          | exact (h4 rfl).elim
          | exact (h5 rfl).elim
          | exact (h6 rfl).elim
          | cases hx
  | act =>
    intro d ys₁ ys₂ b n q₂ o f hv hr
    cases hv
    exact ⟨_, .act, _, _, rfl, hr⟩
  | @onfail_ok a x p q p1 ts q1 _ ih1 =>
    intro d ys₁ ys₂ b n q₂ o f hv hr
    simp only [vis] at hv
    split at hv
    · cases hv
    · rename_i o0 ha
      cases hv
      obtain ⟨q', g1, b', n', g2, g3⟩ := ih1 ha hr
      exact ⟨q', .onfail_ok g1, b', n', g2, g3⟩
    · rename_i o0 nf ha
      obtain ⟨q', g1, b', n', g2, g3⟩ := ih1 ha hr
      refine ⟨q', .onfail_ok g1, b', n', ?_, g3⟩
      split at hv
      · split at hv
        · cases hv
        · cases hv; exact g2
      · cases hv; exact g2
      · cases hv; exact g2
      · cases hv
  | @onfail_no a x p q q1 c q2 _ hx ih1 =>
    intro d ys₁ ys₂ b n q₂ o f hv hr
    simp only [vis] at hv
    split at hv
    · cases hv
    · rename_i o0 ha
      obtain ⟨_, _, _, g, _⟩ := ih1 ha hr
      cases g
    · rename_i o0 nf ha
      obtain ⟨q', g1, n', g2, g3⟩ := ih1 ha hr
      cases g2
      split at hv
      · split at hv
        · cases hv
        · cases hv
          cases hx
          obtain ⟨zs, z1, z2, z3⟩ := g3.stk
          cases zs with
          | nil => simp at z1
          | cons z zs =>
            exact ⟨_, .onfail_no g1 rfl, _, rfl, ⟨⟨zs, by simpa using z1, by simp [z2], by simp [z3]⟩, g3.op⟩⟩
      · cases hv; cases hx
        exact ⟨_, .onfail_no g1 rfl, _, rfl, g3⟩
      · cases hv; cases hx
        exact ⟨_, .onfail_no g1 rfl, _, rfl, g3⟩
      · cases hv

end
end Verif.Cypher
