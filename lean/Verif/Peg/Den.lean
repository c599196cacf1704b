import Verif.Peg.Sim
/-!
# Generated parsers: denotation of grammars whose predicates always succeed, and recorded thunks
-/
namespace Verif.Peg
variable {R P A γ : Type}

/-- Repeat a matcher as long as it consumes something. -/
def starD (f : List UInt8 → Option Nat) (l : List UInt8) : Nat :=
  match f l with
  | some (n + 1) => if l = [] then 0 else n + 1 + starD f (l.drop (n + 1))
  | _ => 0
termination_by l.length
decreasing_by
  cases l with
  | nil => contradiction
  | cons c cs => simp; omega

/-- The number of bytes an expression matches at the head of a byte string, if it matches. -/
def den (env : R → List UInt8 → Option Nat) : Expr R P A → List UInt8 → Option Nat
  | .eps, _ => some 0
  | .one m, l => match l with
    | [] => none
    | c :: _ => if m.mem c then some 1 else none
  | .str t, l => if t.isPrefixOf l then some t.length else none
  | .nt r _, l => env r l
  | .seq a b, l => match den env a l with
    | none => none
    | some n => match den env b (l.drop n) with
      | none => none
      | some m => some (n + m)
  | .alt a b, l => match den env a l with
    | some n => some n
    | none => den env b l
  | .star a, l => some (starD (den env a) l)
  | .peek a, l => match den env a l with
    | none => none
    | some _ => some 0
  | .npeek a, l => match den env a l with
    | none => some 0
    | some _ => none
  | .pred _, _ => some 0
  | .act _, _ => some 0
  | .onfail a _, l => den env a l

/-- The predicates always succeed. -/
def AlwaysYes (H : Host P A γ) : Prop :=
  ∀ x p g, ∃ g' ts, H.pred x p g = .ok (true, g', ts)

def Res.Denotes (p : Nat) (o : Option Nat) : Res A γ → Prop
  | .ok s => ∃ n, o = some n ∧ s.pos = p + n
  | .fail _ => o = none
  | .fault _ => False

theorem drop_cons_of {w : List UInt8} {p : Nat} {c : UInt8} (h : w[p]? = some c) :
    w.drop p = c :: w.drop (p + 1) := by
  have hlt : p < w.length := by
    by_contra hlt
    rw [List.getElem?_eq_none (by omega)] at h
    simp at h
  rw [List.getElem?_eq_getElem hlt, Option.some.injEq] at h
  rw [List.drop_eq_getElem_cons hlt, h]

theorem extract_prefix {w t : List UInt8} {p : Nat} :
    w.extract p (p + t.length) = t ↔ t.isPrefixOf (w.drop p) = true := by
  rw [List.isPrefixOf_iff_prefix, List.extract_eq_take_drop, List.prefix_iff_eq_take]
  have : p + t.length - p = t.length := by omega
  rw [this]
  exact eq_comm

/-- In a host whose predicates always succeed, an expression matches what it denotes. -/
theorem Eval.den {G : R → RuleDef R P A} {H : Host P A γ} {w : List UInt8} {I : Nat → γ → Prop}
    (hr : ReadsAs H w I) (hy : AlwaysYes H) {env : R → List UInt8 → Option Nat}
    (henv : ∀ r l, env r l = den env (G r).body l)
    {e : Expr R P A} {s : St A γ} {r : Res A γ} (h : Eval G H e s r)
    (hi : I s.pos s.g) : r.Denotes s.pos (den env e (w.drop s.pos)) := by
  induction h with
  | eps => exact ⟨0, rfl, rfl⟩
  | @one_end m s g' hp =>
    have hv := hr.val hi
    rw [hp] at hv
    simp only at hv
    have : w.drop s.pos = [] := by
      rw [List.drop_eq_nil_iff]
      by_contra hlt
      rw [List.getElem?_eq_getElem (by omega)] at hv
      simp at hv
    simp [this, Res.Denotes, Peg.den]
  | @one_no m s c g' hp hm =>
    have hv := hr.val hi
    rw [hp] at hv
    rw [drop_cons_of hv.symm]
    simp [Res.Denotes, Peg.den, hm]
  | @one_ok m s c g' hp hm =>
    have hv := hr.val hi
    rw [hp] at hv
    rw [drop_cons_of hv.symm]
    exact ⟨1, by simp [Peg.den, hm], rfl⟩
  | @str_ok l s p g' h =>
    obtain ⟨-, h2, -⟩ := matchStr_inv hr l s.pos s.g (Nat.le_refl _) hi h
    obtain ⟨rfl, h3⟩ := h2 rfl
    exact ⟨l.length, by simp only [Peg.den]; rw [if_pos (extract_prefix.1 h3)], rfl⟩
  | @str_no l s p g' h =>
    obtain ⟨-, -, h2⟩ := matchStr_inv hr l s.pos s.g (Nat.le_refl _) hi h
    have h3 := (h2 rfl).2.2
    simp only [Res.Denotes, Peg.den]
    rw [if_neg (fun h => h3 (extract_prefix.2 h))]
  | @nt_ok r var s s1 _ ih =>
    obtain ⟨n, h1, h2⟩ := ih (by simpa using hi)
    simp only [St.enter_pos] at h1 h2
    exact ⟨n, by simp only [Peg.den]; rw [henv]; exact h1, by simpa using h2⟩
  | @nt_no r var s s1 _ ih =>
    have h1 := ih (by simpa using hi)
    simp only [St.enter_pos, Res.Denotes] at h1
    simp only [Res.Denotes, Peg.den]; rw [henv]; exact h1
  | nt_fault _ ih => exact ih (by simpa using hi)
  | @seq_ok a b s s1 r hev1 hev2 ih1 ih2 =>
    obtain ⟨n, h1, h2⟩ := ih1 hi
    have hg := hev1.good hr hi
    have h3 := ih2 hg.2
    have hd : w.drop s1.pos = (w.drop s.pos).drop n := by rw [List.drop_drop, h2]
    rw [hd] at h3
    cases r with
    | ok s2 =>
      obtain ⟨m, h4, h5⟩ := h3
      exact ⟨n + m, by simp only [Peg.den, h1, h4], by omega⟩
    | fail s2 =>
      simp only [Res.Denotes] at h3 ⊢
      simp only [Peg.den, h1, h3]
    | fault f => exact h3
  | seq_no _ ih =>
    have h1 := ih hi
    simp only [Res.Denotes] at h1 ⊢
    simp only [Peg.den, h1]
  | seq_fault _ ih => exact ih hi
  | alt_ok _ ih =>
    obtain ⟨n, h1, h2⟩ := ih hi
    exact ⟨n, by simp only [Peg.den, h1], h2⟩
  | @alt_no a b s s1 r hev1 _ ih1 ih2 =>
    have h1 := ih1 hi
    simp only [Res.Denotes] at h1
    have hg := hev1.good hr hi
    have h2 := ih2 (hr.down hg.2 hg.1)
    simp only [St.restore] at h2
    have : Peg.den env (.alt a b) (w.drop s.pos) = Peg.den env b (w.drop s.pos) := by
      simp only [Peg.den, h1]
    rw [this]
    exact h2
  | alt_fault _ ih => exact (ih hi).elim
  | @star_more a s s1 r hev1 hev2 ih1 ih2 =>
    obtain ⟨n, h1, h2⟩ := ih1 hi
    have hg := hev1.good hr hi
    have h3 := ih2 hg.2
    have hd : w.drop s1.pos = (w.drop s.pos).drop n := by rw [List.drop_drop, h2]
    rw [hd] at h3
    have hb := hr.bound hg.2
    have hs : starD (Peg.den env a) (w.drop s.pos) =
        n + starD (Peg.den env a) ((w.drop s.pos).drop n) := by
      cases n with
      | zero =>
        simp
      | succ n =>
        rw [starD, h1]
        simp only
        rw [if_neg]
        intro he
        rw [List.drop_eq_nil_iff] at he
        omega
    cases r with
    | ok s2 =>
      obtain ⟨m, h4, h5⟩ := h3
      simp only [Peg.den, Option.some.injEq] at h4
      exact ⟨n + m, by simp only [Peg.den]; rw [hs, h4], by omega⟩
    | fail s2 => simp [Res.Denotes, Peg.den] at h3
    | fault f => exact h3
  | star_end _ ih =>
    have h1 := ih hi
    simp only [Res.Denotes] at h1
    exact ⟨0, by simp only [Peg.den]; rw [starD, h1], rfl⟩
  | star_fault _ ih => exact (ih hi).elim
  | peek_ok _ ih =>
    obtain ⟨n, h1, h2⟩ := ih hi
    exact ⟨0, by simp only [Peg.den, h1], rfl⟩
  | peek_no _ ih =>
    have h1 := ih hi
    simp only [Res.Denotes] at h1 ⊢
    simp only [Peg.den, h1]
  | peek_fault _ ih => exact (ih hi).elim
  | npeek_ok _ ih =>
    obtain ⟨n, h1, h2⟩ := ih hi
    simp only [Res.Denotes, Peg.den, h1]
  | npeek_no _ ih =>
    have h1 := ih hi
    simp only [Res.Denotes] at h1
    exact ⟨0, by simp only [Peg.den, h1], rfl⟩
  | npeek_fault _ ih => exact (ih hi).elim
  | pred_ok h => exact ⟨0, rfl, rfl⟩
  | @pred_no p s g' ts h =>
    obtain ⟨g2, t2, h2⟩ := hy p s.pos s.g
    rw [h] at h2; simp at h2
  | @pred_fault p s f h =>
    obtain ⟨g2, t2, h2⟩ := hy p s.pos s.g
    rw [h] at h2; simp at h2
  | act => exact ⟨0, rfl, rfl⟩
  | onfail_ok _ ih => exact ih hi
  | onfail_no _ _ ih => exact ih hi
  | @onfail_no_fault a p s s1 f _ h ih =>
    obtain ⟨g2, t2, h2⟩ := hy p s1.pos s1.g
    rw [h] at h2; simp at h2
  | onfail_fault _ ih => exact ih hi

/-! ## Recorded thunks -/

/-- Thunk positions lie between `p` and `q`, latest first. -/
def ThunksIn (p : Nat) : Nat → List (Thunk A) → Prop
  | _, [] => True
  | q, .act _ x :: ts => p ≤ x ∧ x ≤ q ∧ ThunksIn p x ts
  | q, _ :: ts => ThunksIn p q ts

theorem ThunksIn.mono {p q q' : Nat} {ts : List (Thunk A)} (h : ThunksIn p q ts) (hq : q ≤ q') :
    ThunksIn p q' ts := by
  induction ts with
  | nil => trivial
  | cons t ts ih =>
    cases t with
    | act a x => exact ⟨h.1, by have := h.2.1; omega, h.2.2⟩
    | push => exact ih h
    | pop => exact ih h
    | set => exact ih h

theorem ThunksIn.append {p q r : Nat} {ts us : List (Thunk A)} (h1 : ThunksIn q r ts)
    (h2 : ThunksIn p q us) (hpq : p ≤ q) (hqr : q ≤ r) : ThunksIn p r (ts ++ us) := by
  induction ts generalizing r with
  | nil => exact h2.mono hqr
  | cons t ts ih =>
    cases t with
    | act a x => exact ⟨by have := h1.1; omega, h1.2.1, ih h1.2.2 h1.1⟩
    | push => exact ih h1 hqr
    | pop => exact ih h1 hqr
    | set => exact ih h1 hqr

theorem ThunksIn.of_no_act {p q : Nat} {ts : List (Thunk A)} (h : ∀ a x, .act a x ∉ ts) :
    ThunksIn p q ts := by
  induction ts with
  | nil => trivial
  | cons t ts ih =>
    have ih' := ih (fun a x hm => h a x (by simp [hm]))
    cases t with
    | act a x => exact absurd (by simp) (h a x)
    | push => exact ih'
    | pop => exact ih'
    | set => exact ih'

/-- Thunks made by predicates carry the current position. -/
def PredThunks (H : Host P A γ) : Prop :=
  ∀ x p g b g' ts, H.pred x p g = .ok (b, g', ts) → ∀ t ∈ ts, ∃ a, t = .act a p

theorem thunksIn_of_pred {p : Nat} {ts : List (Thunk A)} (h : ∀ t ∈ ts, ∃ a, t = .act a p) :
    ThunksIn p p ts := by
  induction ts with
  | nil => trivial
  | cons t ts ih =>
    obtain ⟨a, rfl⟩ := h t (by simp)
    exact ⟨Nat.le_refl _, Nat.le_refl _, ih (fun t ht => h t (by simp [ht]))⟩

/-- What evaluation adds to the thunks. -/
def Res.Adds (Q : Nat → Nat → List (Thunk A) → Prop) (s : St A γ) : Res A γ → Prop
  | .ok s' => ∃ ts, s'.thunks = ts ++ s.thunks ∧ Q s.pos s'.pos ts
  | .fail s' => ∃ ts, s'.thunks = ts ++ s.thunks ∧ Q s.pos s'.pos ts
  | .fault _ => True

theorem Eval.thunksIn {G : R → RuleDef R P A} {H : Host P A γ} {w : List UInt8}
    {I : Nat → γ → Prop} (hr : ReadsAs H w I) (hpt : PredThunks H)
    {e : Expr R P A} {s : St A γ} {r : Res A γ} (h : Eval G H e s r)
    (hi : I s.pos s.g) : r.Adds ThunksIn s := by
  have hnil : ∀ {p q : Nat}, ThunksIn (A := A) p q [] := trivial
  induction h with
  | eps => exact ⟨[], rfl, hnil⟩
  | one_end => exact ⟨[], rfl, hnil⟩
  | one_no => exact ⟨[], rfl, hnil⟩
  | one_ok => exact ⟨[], rfl, hnil⟩
  | str_ok => exact ⟨[], rfl, hnil⟩
  | str_no => exact ⟨[], rfl, hnil⟩
  | @nt_ok r var s s1 hev ih =>
    obtain ⟨ts, h1, h2⟩ := ih (by simpa using hi)
    have hg := hev.good hr (by simpa using hi)
    obtain ⟨p, t, g⟩ := s
    obtain ⟨p1, t1, g1⟩ := s1
    simp only [St.enter_eq] at h1 h2 hg
    subst h1
    rw [St.leave_eq]
    refine ⟨leaveT (G r).nvars var ++ (ts ++ enterT (G r).nvars), by simp, ?_⟩
    exact (ThunksIn.of_no_act fun _ _ => no_act_leaveT).append
      (h2.append (ThunksIn.of_no_act fun _ _ => no_act_enterT) (Nat.le_refl _) hg.1) hg.1
      (Nat.le_refl _)
  | @nt_no r var s s1 _ ih => exact ⟨[], rfl, hnil⟩
  | nt_fault => trivial
  | @seq_ok a b s s1 r hev1 hev2 ih1 ih2 =>
    obtain ⟨ts, h1, h2⟩ := ih1 hi
    have hg := hev1.good hr hi
    have h3 := ih2 hg.2
    have hg2 := hev2.good hr hg.2
    cases r with
    | ok s2 =>
      obtain ⟨us, h4, h5⟩ := h3
      exact ⟨us ++ ts, by rw [h4, h1]; simp, h5.append h2 hg.1 hg2.1⟩
    | fail s2 =>
      obtain ⟨us, h4, h5⟩ := h3
      exact ⟨us ++ ts, by rw [h4, h1]; simp, h5.append h2 hg.1 hg2.1⟩
    | fault f => trivial
  | seq_no _ ih => exact ih hi
  | seq_fault => trivial
  | alt_ok _ ih => exact ih hi
  | @alt_no a b s s1 r hev1 _ ih1 ih2 =>
    have hg := hev1.good hr hi
    exact ih2 (hr.down hg.2 hg.1)
  | alt_fault => trivial
  | @star_more a s s1 r hev1 hev2 ih1 ih2 =>
    obtain ⟨ts, h1, h2⟩ := ih1 hi
    have hg := hev1.good hr hi
    have h3 := ih2 hg.2
    have hg2 := hev2.good hr hg.2
    cases r with
    | ok s2 =>
      obtain ⟨us, h4, h5⟩ := h3
      exact ⟨us ++ ts, by rw [h4, h1]; simp, h5.append h2 hg.1 hg2.1⟩
    | fail s2 =>
      obtain ⟨us, h4, h5⟩ := h3
      exact ⟨us ++ ts, by rw [h4, h1]; simp, h5.append h2 hg.1 hg2.1⟩
    | fault f => trivial
  | star_end => exact ⟨[], rfl, hnil⟩
  | star_fault => trivial
  | peek_ok => exact ⟨[], rfl, hnil⟩
  | peek_no _ ih => exact ih hi
  | peek_fault => trivial
  | npeek_ok _ ih => exact ih hi
  | npeek_no => exact ⟨[], rfl, hnil⟩
  | npeek_fault => trivial
  | pred_ok h => exact ⟨_, rfl, thunksIn_of_pred (hpt _ _ _ _ _ _ h)⟩
  | pred_no h => exact ⟨_, rfl, thunksIn_of_pred (hpt _ _ _ _ _ _ h)⟩
  | pred_fault => trivial
  | act => exact ⟨[_], rfl, Nat.le_refl _, Nat.le_refl _, trivial⟩
  | onfail_ok _ ih => exact ih hi
  | onfail_no hev h ih =>
    obtain ⟨ts, h1, h2⟩ := ih hi
    have hg := hev.good hr hi
    exact ⟨_ ++ ts, by simp only; rw [h1, List.append_assoc],
      (thunksIn_of_pred (hpt _ _ _ _ _ _ h)).append h2 hg.1 (Nat.le_refl _)⟩
  | onfail_no_fault => trivial
  | onfail_fault => trivial

/-- Actions satisfying `isEof` occur only as `!. {..}`. -/
def eofGuarded [DecidableEq R] [DecidableEq P] [DecidableEq A] (isEof : A → Bool) :
    Expr R P A → Bool
  | .act a => !isEof a
  | .seq a b => (decide (a = .npeek .dot) && match b with | .act _ => true | _ => false) ||
      (eofGuarded isEof a && eofGuarded isEof b)
  | .alt a b => eofGuarded isEof a && eofGuarded isEof b
  | .star a | .peek a | .npeek a | .onfail a _ => eofGuarded isEof a
  | _ => true

/-- Every `isEof` action recorded is recorded at position `n`. -/
def EofAt (isEof : A → Bool) (n : Nat) (ts : List (Thunk A)) : Prop :=
  ∀ a p, .act a p ∈ ts → isEof a = true → p = n

theorem EofAt.append {isEof : A → Bool} {n : Nat} {ts us : List (Thunk A)}
    (h1 : EofAt isEof n ts) (h2 : EofAt isEof n us) : EofAt isEof n (ts ++ us) := by
  intro a p hm ha
  rcases List.mem_append.1 hm with hm | hm
  · exact h1 a p hm ha
  · exact h2 a p hm ha

theorem Eval.eofAt [DecidableEq R] [DecidableEq P] [DecidableEq A]
    {G : R → RuleDef R P A} {H : Host P A γ} {w : List UInt8}
    {I : Nat → γ → Prop} (hr : ReadsAs H w I) {isEof : A → Bool}
    (hpt : ∀ x p g b g' ts, H.pred x p g = .ok (b, g', ts) → EofAt isEof w.length ts)
    (hG : ∀ r, eofGuarded isEof (G r).body = true)
    {e : Expr R P A} {s : St A γ} {r : Res A γ} (h : Eval G H e s r)
    (he : eofGuarded isEof e = true ∨ ∃ a, e = .act a ∧ s.pos = w.length)
    (hi : I s.pos s.g) : r.Adds (fun _ _ => EofAt isEof w.length) s := by
  have hnil : EofAt isEof w.length [] := by intro a p h; simp at h
  induction h with
  | eps => exact ⟨[], rfl, hnil⟩
  | one_end => exact ⟨[], rfl, hnil⟩
  | one_no => exact ⟨[], rfl, hnil⟩
  | one_ok => exact ⟨[], rfl, hnil⟩
  | str_ok => exact ⟨[], rfl, hnil⟩
  | str_no => exact ⟨[], rfl, hnil⟩
  | @nt_ok r var s s1 _ ih =>
    obtain ⟨ts, h1, h2⟩ := ih (Or.inl (hG r)) (by simpa using hi)
    obtain ⟨p, t, g⟩ := s
    obtain ⟨p1, t1, g1⟩ := s1
    simp only [St.enter_eq] at h1 h2
    subst h1
    rw [St.leave_eq]
    refine ⟨leaveT (G r).nvars var ++ (ts ++ enterT (G r).nvars), by simp, ?_⟩
    exact EofAt.append (fun _ _ h => absurd h no_act_leaveT)
      (EofAt.append h2 (fun _ _ h => absurd h no_act_enterT))
  | @nt_no r var s s1 _ ih => exact ⟨[], rfl, hnil⟩
  | nt_fault => trivial
  | @seq_ok a b s s1 r hev1 hev2 ih1 ih2 =>
    have hg := hev1.good hr hi
    rcases he with he | ⟨x, he, -⟩
    · simp only [eofGuarded, Bool.or_eq_true, Bool.and_eq_true, decide_eq_true_eq] at he
      rcases he with ⟨rfl, he⟩ | ⟨he1, he2⟩
      · -- `!. {..}`
        have hend : s1.pos = w.length ∧ s1.thunks = s.thunks := by
          cases hev1 with
          | @npeek_no _ _ s2 hd =>
            cases hd with
            | one_end hp =>
              have hv := hr.val hi
              rw [hp] at hv
              have hb := hr.bound hi
              simp only at hv
              refine ⟨?_, rfl⟩
              simp only [St.restore]
              by_contra hne
              rw [List.getElem?_eq_getElem (by omega)] at hv
              simp at hv
            | one_no hp hm => rw [any_mem] at hm; simp at hm
        cases b with
        | act x =>
          have h3 := ih2 (Or.inr ⟨x, rfl, hend.1⟩) hg.2
          cases r with
          | ok s2 => obtain ⟨us, h4, h5⟩ := h3; exact ⟨us, by rw [h4, hend.2], h5⟩
          | fail s2 => obtain ⟨us, h4, h5⟩ := h3; exact ⟨us, by rw [h4, hend.2], h5⟩
          | fault f => trivial
        | _ => simp at he
      · obtain ⟨ts, h1, h2⟩ := ih1 (Or.inl he1) hi
        have h3 := ih2 (Or.inl he2) hg.2
        cases r with
        | ok s2 =>
          obtain ⟨us, h4, h5⟩ := h3
          exact ⟨us ++ ts, by rw [h4, h1]; simp, h5.append h2⟩
        | fail s2 =>
          obtain ⟨us, h4, h5⟩ := h3
          exact ⟨us ++ ts, by rw [h4, h1]; simp, h5.append h2⟩
        | fault f => trivial
    · simp at he
  | @seq_no a b s s1 hev ih =>
    rcases he with he | ⟨x, he, -⟩
    · simp only [eofGuarded, Bool.or_eq_true, Bool.and_eq_true, decide_eq_true_eq] at he
      rcases he with ⟨rfl, he⟩ | ⟨he1, he2⟩
      · exact ih (Or.inl rfl) hi
      · exact ih (Or.inl he1) hi
    · simp at he
  | seq_fault => trivial
  | alt_ok _ ih =>
    rcases he with he | ⟨x, he, -⟩
    · simp only [eofGuarded, Bool.and_eq_true] at he
      exact ih (Or.inl he.1) hi
    · simp at he
  | @alt_no a b s s1 r hev1 _ ih1 ih2 =>
    have hg := hev1.good hr hi
    rcases he with he | ⟨x, he, -⟩
    · simp only [eofGuarded, Bool.and_eq_true] at he
      exact ih2 (Or.inl he.2) (hr.down hg.2 hg.1)
    · simp at he
  | alt_fault => trivial
  | @star_more a s s1 r hev1 hev2 ih1 ih2 =>
    have hg := hev1.good hr hi
    rcases he with he | ⟨x, he, -⟩
    · have he' := he
      simp only [eofGuarded] at he'
      obtain ⟨ts, h1, h2⟩ := ih1 (Or.inl he') hi
      have h3 := ih2 (Or.inl he) hg.2
      cases r with
      | ok s2 =>
        obtain ⟨us, h4, h5⟩ := h3
        exact ⟨us ++ ts, by rw [h4, h1]; simp, h5.append h2⟩
      | fail s2 =>
        obtain ⟨us, h4, h5⟩ := h3
        exact ⟨us ++ ts, by rw [h4, h1]; simp, h5.append h2⟩
      | fault f => trivial
    · simp at he
  | star_end => exact ⟨[], rfl, hnil⟩
  | star_fault => trivial
  | peek_ok => exact ⟨[], rfl, hnil⟩
  | peek_no _ ih =>
    rcases he with he | ⟨x, he, -⟩
    · exact ih (Or.inl he) hi
    · simp at he
  | peek_fault => trivial
  | npeek_ok _ ih =>
    rcases he with he | ⟨x, he, -⟩
    · exact ih (Or.inl he) hi
    · simp at he
  | npeek_no => exact ⟨[], rfl, hnil⟩
  | npeek_fault => trivial
  | pred_ok h => exact ⟨_, rfl, hpt _ _ _ _ _ _ h⟩
  | pred_no h => exact ⟨_, rfl, hpt _ _ _ _ _ _ h⟩
  | pred_fault => trivial
  | @act a s =>
    refine ⟨[.act a s.pos], rfl, ?_⟩
    intro b p hm hb
    simp only [List.mem_singleton, Thunk.act.injEq] at hm
    obtain ⟨rfl, rfl⟩ := hm
    rcases he with he | ⟨x, he, hp⟩
    · simp [eofGuarded, hb] at he
    · exact hp
  | onfail_ok _ ih =>
    rcases he with he | ⟨x, he, -⟩
    · exact ih (Or.inl he) hi
    · simp at he
  | onfail_no hev h ih =>
    rcases he with he | ⟨x, he, -⟩
    · obtain ⟨ts, h1, h2⟩ := ih (Or.inl he) hi
      exact ⟨_ ++ ts, by simp only; rw [h1, List.append_assoc], (hpt _ _ _ _ _ _ h).append h2⟩
    · simp at he
  | onfail_no_fault => trivial
  | onfail_fault => trivial

end Verif.Peg
