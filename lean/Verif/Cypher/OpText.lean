import Verif.Cypher.OpSim
import Verif.Cypher.OpSpec
import Verif.Cypher.LeafRules
/-!
# How operators are written

What the rules for operators match: the words of the operator, then blanks.
-/
namespace Verif.Cypher
open Verif.Peg Verif.Ops
open Verif.Quick (Blank)

/-! ## Rules that leave the operator and precedence stacks alone -/

/-- Rules for blanks and ends of words. -/
def still : List Rule :=
  [.r_ws, .r_WS, .r_comment, .r_line_comment, .r_block_comment, .r_EOL, .r_EOF, .r__line_start_, .r_WB,
    .r_sym_part, .r_HWS]

def stillE : E → Bool
  | .eps | .one _ | .str _ | .act _ => true
  | .nt r _ => still.contains r
  | .seq a b | .alt a b => stillE a && stillE b
  | .star a | .peek a | .npeek a => stillE a
  | .pred x => match x with
    | .op _ | .precPushTop | .precPush | .precPop => false
    | _ => true
  | .onfail a x => stillE a && (match x with
    | .op _ | .precPushTop | .precPush | .precPop => false
    | _ => true)

theorem still_ok : ∀ r ∈ still, stillE (grammar r).body = true := by decide +kernel

def SkRes.q : SkRes → QState
  | .ok _ _ q => q
  | .no q => q

section
variable {w : List UInt8} {n : Nat} {e a b : E} {p p' : Nat} {q q' : QState} {res : SkRes}
  {ts : List (Peg.Thunk Act)}

theorem qpred_still {x : Pred} {c : Bool} (hx : (match x with
    | .op _ | .precPushTop | .precPush | .precPop => false
    | _ => true) = true) (h : qpred x q = some (c, q')) : q' = q := by
  cases x <;> first
    | (cases hx; done)
    | (cases h; rfl)
    | (simp only [qpred] at h; split at h <;> cases h; rfl)

theorem Sk.still (h : Sk w e p q res) : stillE e = true → res.q = q := by
  induction h with
  | nt_ok _ ih =>
    intro hs
    exact ih (still_ok _ (by simpa [stillE] using hs))
  | nt_no _ ih =>
    intro hs
    exact ih (still_ok _ (by simpa [stillE] using hs))
  | seq_ok _ _ ih1 ih2 =>
    intro hs
    simp only [stillE, Bool.and_eq_true] at hs
    exact (ih2 hs.2).trans (ih1 hs.1)
  | seq_no _ ih =>
    intro hs
    simp only [stillE, Bool.and_eq_true] at hs
    exact ih hs.1
  | seq_no2 _ _ ih1 ih2 =>
    intro hs
    simp only [stillE, Bool.and_eq_true] at hs
    exact (ih2 hs.2).trans (ih1 hs.1)
  | alt_ok _ ih =>
    intro hs
    simp only [stillE, Bool.and_eq_true] at hs
    exact ih hs.1
  | alt_no _ _ ih1 ih2 =>
    intro hs
    simp only [stillE, Bool.and_eq_true] at hs
    exact (ih2 hs.2).trans (ih1 hs.1)
  | star_more _ _ ih1 ih2 => intro hs; exact (ih2 hs).trans (ih1 hs)
  | star_end _ ih => intro hs; exact ih hs
  | peek_ok _ ih => intro hs; exact ih hs
  | peek_no _ ih => intro hs; exact ih hs
  | npeek_ok _ ih => intro hs; exact ih hs
  | npeek_no _ ih => intro hs; exact ih hs
  | pred_ok h => intro hs; exact qpred_still hs h
  | pred_no h => intro hs; exact qpred_still hs h
  | onfail_ok _ ih =>
    intro hs
    simp only [stillE, Bool.and_eq_true] at hs
    exact ih hs.1
  | onfail_no _ h ih =>
    intro hs
    simp only [stillE, Bool.and_eq_true] at hs
    exact (qpred_still hs.2 h).trans (ih hs.1)
  | _ => intro _; rfl

/-! ## Balance -/

/-- A rule leaves the stack of precedences as it was. -/
theorem nt_balanced {r : Rule} {v : Option Nat} (h : Sk w (.nt r v) p q res) (hq : q.2 ≠ []) :
    res.q.2 = q.2 := by
  obtain ⟨o, L | ⟨l, ps⟩⟩ := q
  · exact (hq rfl).elim
  have := sim h (d := [l]) (ys₁ := ps) (ys₂ := ps) (b := true) (n := 0) (q₂ := (o, l :: ps))
    (by simp only [vis]; rw [if_neg (by simp)]) ⟨⟨[], rfl, rfl, rfl⟩, fun _ => rfl⟩
  cases res with
  | ok p' ts q' =>
    obtain ⟨q2, h1, b', n', h2, ⟨zs, h3, h4, h5⟩, -⟩ := this
    cases h2
    have : zs = [] := List.length_eq_zero_iff.1 h3
    subst this
    exact h4
  | no q' =>
    obtain ⟨q2, h1, n', h2, ⟨zs, h3, h4, h5⟩, -⟩ := this
    cases h2
    have : zs = [] := List.length_eq_zero_iff.1 h3
    subst this
    exact h4

/-! ## Words -/

/-- What is left of the words after a match. -/
def eats : E → List (List UInt8) → Option (List (List UInt8))
  | .one m, (c :: cs) :: xs =>
    if (List.range 256).all fun k => !m.mem k.toUInt8 || upper k.toUInt8 == c then some (cs :: xs) else none
  | .str l, x :: xs => if (l.map upper).isPrefixOf x then some (x.drop l.length :: xs) else none
  | .nt .r_WB none, xs => some xs
  | .nt .r_ws none, [] :: x :: xs => some (x :: xs)
  | .seq a b, xs => (eats a xs).bind (eats b)
  | .onfail a _, xs => eats a xs
  | _, _ => none

/-- The rules of operators of one word or more. -/
def ops (e : E) : List (Rule × Op) :=
  match e with
  | .alt a b => ops a ++ ops b
  | .seq (.nt r none) (.seq (.pred (.op o)) (.act (.opPush o'))) => if o = o' then [(r, o)] else []
  | _ => []

def opsOk : E → Bool
  | .alt a b => opsOk a && opsOk b
  | .seq (.nt r none) (.seq (.pred (.op o)) (.act (.opPush o'))) =>
    (grammar r).nvars == 0 && stillE (grammar r).body && o == o' &&
      eats (grammar r).body ((words o).map bytes) == some [[]]
  | _ => false

def tokOk (r : Rule) : Bool :=
  (grammar r).nvars == 0 && (match (grammar r).body with
    | .seq a (.nt .r_ws none) => opsOk a
    | _ => false)

theorem tok_ok : ∀ r, isTok r = true → tokOk r = true := by
  have : ∀ r ∈ Rule.all, isTok r = true → tokOk r = true := by decide +kernel
  exact fun r => this r (Rule.mem_all r)

theorem range_bytes {P : UInt8 → Bool} (h : ((List.range 256).all fun k => P k.toUInt8) = true) (c : UInt8) :
    P c = true := by
  have := List.all_eq_true.1 h c.toNat (by simpa using c.toNat_lt)
  simpa using this

theorem ws_blank (h : Sk w (.nt .r_ws none) p q (.ok p' ts q')) : Blank (w.extract p p') :=
  (ws_inv (env := ⟨⟨0, 0, 0⟩, [], w, 0⟩) ⟨[], by simp⟩ ⟨_, _, h⟩).2

theorem eats_ok (h : Sk w e p q res) : ∀ p' ts q', res = .ok p' ts q' → ∀ xs ys, eats e xs = some ys →
    ∀ t, Worded ys t → Worded xs (w.extract p p' ++ t) := by
  induction h with
  | @one_ok m p q c h1 h2 =>
    rintro p' ts q' ⟨⟩ xs ys he t ht
    rcases xs with _ | ⟨_ | ⟨x, cs⟩, xs⟩ <;> simp only [eats] at he <;> try (cases he; done)
    split at he
    · rename_i hall
      cases he
      have hu := range_bytes (P := fun k => !m.mem k || upper k == x) hall c
      simp only [h2, Bool.not_true, Bool.false_or, beq_iff_eq] at hu
      rw [ext_cons h1 (Nat.lt_succ_self _), ext_nil (Nat.le_refl _)]
      cases ht with
      | last hm => exact .last (by simp [hm, hu])
      | @more _ _ _ s0 _ _ hm hb hw =>
        have hw' := Worded.more (x := x :: cs) (s := c :: s0) (by simp [hm, hu]) hb hw
        exact hw'
    · cases he
  | @str_ok l p q h1 =>
    rintro p' ts q' ⟨⟩ xs ys he t ht
    rcases xs with _ | ⟨x, xs⟩ <;> simp only [eats] at he <;> try (cases he; done)
    split at he
    · rename_i hp
      cases he
      rw [h1]
      have hx : x = l.map upper ++ x.drop l.length := by
        obtain ⟨r, hr⟩ := List.isPrefixOf_iff_prefix.1 hp
        rw [← hr]; simp
      generalize x.drop l.length = x' at hx ht
      subst hx
      cases ht with
      | last hm => exact .last (by simp [hm])
      | more hm hb hw =>
        rw [← List.append_assoc]
        exact .more (by simp [hm]) hb hw
    · cases he
  | @nt_ok r v p q p' ts q' h ih =>
    rintro p' ts q' ⟨⟩ xs ys he t ht
    by_cases hr : r = .r_WB
    · subst hr
      cases v with
      | some i => simp [eats] at he
      | none =>
        simp only [eats] at he
        cases he
        cases h with
        | peek_ok => rw [ext_nil (Nat.le_refl _)]; exact ht
    · by_cases hr' : r = .r_ws
      · subst hr'
        cases v with
        | some i => simp [eats] at he
        | none =>
          rcases xs with _ | ⟨_ | ⟨c, cs⟩, _ | ⟨x, xs⟩⟩ <;> simp only [eats] at he <;> try (cases he; done)
          cases he
          have := ws_blank (.nt_ok (v := none) h)
          have hw : Worded ([] :: x :: xs) ([] ++ (w.extract p p' ++ t)) := .more rfl this ht
          exact hw
      · unfold eats at he
        split at he <;> simp_all
  | @seq_ok a c p q p1 ts q1 p2 us q2 h1 h2 ih1 ih2 =>
    rintro p' ts q' ⟨⟩ xs ys he t ht
    simp only [eats, Option.bind_eq_some_iff] at he
    obtain ⟨zs, he1, he2⟩ := he
    rw [ext_app (h1.le _ _ _ rfl) (h2.le _ _ _ rfl), List.append_assoc]
    exact ih1 _ _ _ rfl _ _ he1 _ (ih2 _ _ _ rfl _ _ he2 _ ht)
  | onfail_ok _ ih =>
    rintro p' ts q' ⟨⟩ xs ys he t ht
    exact ih _ _ _ rfl _ _ he _ ht
  | _ =>
    intro _ _ _ h xs ys he
    first
    | (cases h; done)
    | (unfold eats at he; cases he; done)
    | (unfold eats at he; split at he <;> simp_all)

/-- The alternatives of a rule for operators. -/
theorem ops_inv (hok : opsOk e = true) : ∀ {q : QState}, SkN w n e p q (.ok p' ts q') →
    ∃ r o q1 vs, SkN w n (.nt r none) p q1 (.ok p' vs q1) ∧ (r, o) ∈ ops e ∧
      Symbol o (w.extract p p') ∧ q'.1 = some o ∧ ts = [.act (.opPush o) p'] ++ vs := by
  induction e with
  | alt a b iha ihb =>
    intro q h
    simp only [opsOk, Bool.and_eq_true] at hok
    rcases h.alt with h | ⟨q1, -, h⟩
    · obtain ⟨r, o, q1, vs, h1, h2, h3⟩ := iha hok.1 h
      exact ⟨r, o, q1, vs, h1, by simp only [ops, List.mem_append]; exact .inl h2, h3⟩
    · obtain ⟨r, o, q1, vs, h1, h2, h3⟩ := ihb hok.2 h
      exact ⟨r, o, q1, vs, h1, by simp only [ops, List.mem_append]; exact .inr h2, h3⟩
  | seq a b =>
    intro q h
    unfold opsOk at hok
    split at hok
    · rename_i heq; cases heq
    · rename_i r o o' heq
      cases heq
      simp only [Bool.and_eq_true, beq_iff_eq] at hok
      obtain ⟨⟨⟨hn, hs⟩, rfl⟩, he⟩ := hok
      obtain ⟨p1, us, q1, vs, h1, h2, rfl⟩ := h.seq
      obtain ⟨p2, us2, q2, vs2, h2', h3, rfl⟩ := h2.seq
      obtain ⟨rfl, rfl, hq⟩ := h2'.pred
      obtain ⟨rfl, rfl, rfl⟩ := h3.act'
      cases hq
      obtain ⟨k, us', hk, h4, -⟩ := h1.nt
      have hq : q1 = q := h4.toSk.still hs
      subst hq
      refine ⟨r, o, q1, us, h1, by simp [ops], ?_, rfl, by simp [recT]⟩
      have := eats_ok h4.toSk _ _ _ rfl _ _ he [] (.last rfl)
      rwa [List.append_nil] at this
    · cases hok
  | _ => cases hok

/-- A rule for operators: the operator, and blanks. -/
theorem tok_inv {r : Rule} (hr : isTok r = true) (h : SkN w n (.nt r none) p q (.ok p' ts q')) :
    ∃ a b o k q1 vs q2 us, (grammar r).body = .seq b (.nt .r_ws none) ∧ (k, o) ∈ ops b ∧ p ≤ a ∧ a ≤ p' ∧
      Symbol o (w.extract p a) ∧ Blank (w.extract a p') ∧ q'.1 = some o ∧
      SkN w n (.nt k none) p q1 (.ok a vs q1) ∧ SkN w n (.nt .r_ws none) a q2 (.ok p' us q2) ∧
      ts = us ++ ([.act (.opPush o) a] ++ vs) := by
  have hok := tok_ok r hr
  simp only [tokOk, Bool.and_eq_true, beq_iff_eq] at hok
  obtain ⟨hn, hok⟩ := hok
  split at hok
  · rename_i b hb
    obtain ⟨k, ts', hk, h1, rfl⟩ := h.nt
    rw [hb] at h1
    obtain ⟨a, us, q1, vs, h2, h3, rfl⟩ := h1.seq
    obtain ⟨r', o, q2, vs', h4, h5, h6, h7, rfl⟩ := ops_inv hok h2
    have hq : q' = q1 := h3.toSk.still rfl
    subst hq
    refine ⟨a, b, o, r', q2, vs', q', vs, hb, h5, h2.le, h3.le, h6, ws_blank h3.toSk, h7,
      h4.mono (by omega), h3.mono (by omega), ?_⟩
    simp [setT, leaveT, enterT, hn]
  · cases hok

end
end Verif.Cypher
