import Verif.Peg.Lines
/-!
# Generated parsers: what an evaluation leaves alone

If the predicates that an expression can reach keep some relation, so does its evaluation; likewise
for the actions it can record.
-/
namespace Verif.Peg
variable {R P A γ : Type}

/-- Only the given predicates, actions and rules occur. -/
def onlyE (okP : P → Bool) (okA : A → Bool) (okR : R → Bool) : Expr R P A → Bool
  | .nt r _ => okR r
  | .seq a b | .alt a b => onlyE okP okA okR a && onlyE okP okA okR b
  | .star a | .peek a | .npeek a => onlyE okP okA okR a
  | .pred p => okP p
  | .act a => okA a
  | .onfail a p => onlyE okP okA okR a && okP p
  | _ => true

/-- Every action recorded is among the given. -/
def ActsIn (okA : A → Bool) (ts : List (Thunk A)) : Prop := ∀ a p, .act a p ∈ ts → okA a = true

theorem ActsIn.append {okA : A → Bool} {ts us : List (Thunk A)} (h1 : ActsIn okA ts)
    (h2 : ActsIn okA us) : ActsIn okA (ts ++ us) := by
  intro a p hm
  rcases List.mem_append.1 hm with hm | hm
  · exact h1 a p hm
  · exact h2 a p hm

/-- What is kept: the relation between the states, and the actions added. -/
def Res.Keeps (K : γ → γ → Prop) (okA : A → Bool) (s : St A γ) : Res A γ → Prop
  | .ok s' => K s.g s'.g ∧ ∃ ts, s'.thunks = ts ++ s.thunks ∧ ActsIn okA ts
  | .fail s' => K s.g s'.g ∧ ∃ ts, s'.thunks = ts ++ s.thunks ∧ ActsIn okA ts
  | .fault _ => True

theorem matchStr_keeps {H : Host P A γ} {K : γ → γ → Prop} (hrefl : ∀ g, K g g)
    (htrans : ∀ a b c, K a b → K b c → K a c) (hpeek : ∀ p g, K g (H.peek p g).2) {start : Nat} :
    ∀ (l : List UInt8) (p : Nat) (g : γ), K g (matchStr H start l p g).2.2 := by
  intro l
  induction l with
  | nil => intro p g; exact hrefl g
  | cons c cs ih =>
    intro p g
    have h1 := hpeek p g
    simp only [matchStr]
    rcases hp : H.peek p g with ⟨_ | d, g'⟩ <;> rw [hp] at h1
    · exact h1
    · simp only
      split
      · exact htrans _ _ _ h1 (ih _ _)
      · exact h1

theorem Eval.keeps {G : R → RuleDef R P A} {H : Host P A γ} {K : γ → γ → Prop}
    (hrefl : ∀ g, K g g) (htrans : ∀ a b c, K a b → K b c → K a c)
    (hpeek : ∀ p g, K g (H.peek p g).2) {okP : P → Bool} {okA : A → Bool} {okR : R → Bool}
    (hpred : ∀ x, okP x = true → ∀ p g b g' ts, H.pred x p g = .ok (b, g', ts) →
      K g g' ∧ ActsIn okA ts)
    (hG : ∀ r, okR r = true → onlyE okP okA okR (G r).body = true)
    {e : Expr R P A} {s : St A γ} {r : Res A γ} (h : Eval G H e s r)
    (he : onlyE okP okA okR e = true) : r.Keeps K okA s := by
  have hnil : ActsIn okA [] := by intro a p h; simp at h
  have hadd : ∀ (s s1 s2 : St A γ) (P1 : ∃ ts, s1.thunks = ts ++ s.thunks ∧ ActsIn okA ts)
      (P2 : ∃ ts, s2.thunks = ts ++ s1.thunks ∧ ActsIn okA ts),
      ∃ ts, s2.thunks = ts ++ s.thunks ∧ ActsIn okA ts := by
    rintro s s1 s2 ⟨t1, h1, h2⟩ ⟨t2, h3, h4⟩
    exact ⟨t2 ++ t1, by rw [h3, h1, List.append_assoc], h4.append h2⟩
  have henter : ∀ (n : Nat) (s : St A γ), ∃ ts, (s.enter n).thunks = ts ++ s.thunks ∧ ActsIn okA ts := by
    intro n s
    unfold St.enter
    split
    · exact ⟨[], rfl, hnil⟩
    · exact ⟨[.push n], rfl, by intro a p h; simp at h⟩
  have hleave : ∀ (n : Nat) (v : Option Nat) (s : St A γ),
      ∃ ts, (s.leave n v).thunks = ts ++ s.thunks ∧ ActsIn okA ts := by
    intro n v s
    unfold St.leave
    cases v with
    | none =>
      simp only
      split
      · exact ⟨[], rfl, hnil⟩
      · exact ⟨[.pop n], rfl, by intro a p h; simp at h⟩
    | some i =>
      simp only
      split
      · exact ⟨[.set i], rfl, by intro a p h; simp at h⟩
      · exact ⟨[.set i, .pop n], rfl, by intro a p h; simp at h⟩
  induction h with
  | eps => exact ⟨hrefl _, [], rfl, hnil⟩
  | @one_end m s g' hp => have := hpeek s.pos s.g; rw [hp] at this; exact ⟨this, [], rfl, hnil⟩
  | @one_ok m s c g' hp _ => have := hpeek s.pos s.g; rw [hp] at this; exact ⟨this, [], rfl, hnil⟩
  | @one_no m s c g' hp _ => have := hpeek s.pos s.g; rw [hp] at this; exact ⟨this, [], rfl, hnil⟩
  | @str_ok l s p g' h =>
    have := matchStr_keeps hrefl htrans hpeek (start := s.pos) l s.pos s.g
    rw [h] at this; exact ⟨this, [], rfl, hnil⟩
  | @str_no l s p g' h =>
    have := matchStr_keeps hrefl htrans hpeek (start := s.pos) l s.pos s.g
    rw [h] at this; exact ⟨this, [], rfl, hnil⟩
  | @nt_ok r var s s1 _ ih =>
    obtain ⟨h1, h2⟩ := ih (hG r he)
    exact ⟨by simpa using h1, hadd _ _ _ (hadd _ _ _ (henter _ _) h2) (hleave _ _ _)⟩
  | @nt_no r var s s1 _ ih =>
    obtain ⟨h1, -⟩ := ih (hG r he)
    exact ⟨by simpa [St.restore] using h1, [], rfl, hnil⟩
  | nt_fault => trivial
  | @seq_ok a b s s1 r _ _ ih1 ih2 =>
    simp only [onlyE, Bool.and_eq_true] at he
    obtain ⟨h1, h2⟩ := ih1 he.1
    have h3 := ih2 he.2
    cases r with
    | ok s2 => exact ⟨htrans _ _ _ h1 h3.1, hadd _ _ _ h2 h3.2⟩
    | fail s2 => exact ⟨htrans _ _ _ h1 h3.1, hadd _ _ _ h2 h3.2⟩
    | fault => trivial
  | seq_no _ ih => simp only [onlyE, Bool.and_eq_true] at he; exact ih he.1
  | seq_fault => trivial
  | alt_ok _ ih => simp only [onlyE, Bool.and_eq_true] at he; exact ih he.1
  | @alt_no a b s s1 r _ _ ih1 ih2 =>
    simp only [onlyE, Bool.and_eq_true] at he
    obtain ⟨h1, -⟩ := ih1 he.1
    have h3 := ih2 he.2
    cases r with
    | ok s2 => exact ⟨htrans _ _ _ h1 h3.1, h3.2⟩
    | fail s2 => exact ⟨htrans _ _ _ h1 h3.1, h3.2⟩
    | fault => trivial
  | alt_fault => trivial
  | @star_more a s s1 r _ _ ih1 ih2 =>
    obtain ⟨h1, h2⟩ := ih1 he
    have h3 := ih2 he
    cases r with
    | ok s2 => exact ⟨htrans _ _ _ h1 h3.1, hadd _ _ _ h2 h3.2⟩
    | fail s2 => exact ⟨htrans _ _ _ h1 h3.1, hadd _ _ _ h2 h3.2⟩
    | fault => trivial
  | star_end _ ih => exact ⟨(ih he).1, [], rfl, hnil⟩
  | star_fault => trivial
  | peek_ok _ ih => exact ⟨(ih he).1, [], rfl, hnil⟩
  | peek_no _ ih => exact ih he
  | peek_fault => trivial
  | npeek_ok _ ih => exact ih he
  | npeek_no _ ih => exact ⟨(ih he).1, [], rfl, hnil⟩
  | npeek_fault => trivial
  | pred_ok h => exact ⟨(hpred _ he _ _ _ _ _ h).1, _, rfl, (hpred _ he _ _ _ _ _ h).2⟩
  | pred_no h => exact ⟨(hpred _ he _ _ _ _ _ h).1, _, rfl, (hpred _ he _ _ _ _ _ h).2⟩
  | pred_fault => trivial
  | @act a s =>
    refine ⟨hrefl _, [_], rfl, ?_⟩
    intro b p hm
    simp only [List.mem_singleton, Thunk.act.injEq] at hm
    rw [hm.1]; exact he
  | onfail_ok _ ih => simp only [onlyE, Bool.and_eq_true] at he; exact ih he.1
  | @onfail_no a p s s1 b g' ts _ h ih =>
    simp only [onlyE, Bool.and_eq_true] at he
    obtain ⟨h1, h2⟩ := ih he.1
    have h3 := hpred _ he.2 _ _ _ _ _ h
    exact ⟨htrans _ _ _ h1 h3.1, hadd s s1 _ h2 ⟨ts, rfl, h3.2⟩⟩
  | onfail_no_fault => trivial
  | onfail_fault => trivial

end Verif.Peg
