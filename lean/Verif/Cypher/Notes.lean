import Verif.Cypher.Clear
/-!
# The same with comments

In a text with comments a slash may begin one for the quick parser where it is an operator for the parser. It never is:
everything that an operator may follow ends with white space and comments, so none to the end of the line begins there; and
no expression begins with a star, so none with an end does, closed or not.
-/
namespace Verif.Cypher.Scan
open Verif.Peg
open Verif.Quick (live isEsc)
open Verif.Stmts (dull)

variable {w : List UInt8}

/-- No comment begins here. -/
def Off (w : List UInt8) (p : Nat) : Prop := ¬ (w[p]? = some 47 ∧ (w[p + 1]? = some 47 ∨ w[p + 1]? = some 42))
/-- No comment to the end of the line does. -/
def Unlined (w : List UInt8) (p : Nat) : Prop := ¬ (w[p]? = some 47 ∧ w[p + 1]? = some 47)
theorem Off.unlined {p : Nat} (h : Off w p) : Unlined w p := fun e => h ⟨e.1, .inl e.2⟩

theorem Off.byte {p : Nat} {c : UInt8} (h : w[p]? = some c) (hd : dull c = true) (ho : Off w p) : Plain w p (p + 1) := by
  simp only [dull, Bool.and_eq_true, bne_iff_ne, ne_eq] at hd
  obtain ⟨⟨⟨d1, d2⟩, d3⟩, d4⟩ := hd
  refine ⟨⟨by omega, ?_⟩, fun _ _ e => ?_⟩
  · rw [drop_get h, Nat.add_sub_cancel_left]
    refine ⟨?_, by simp⟩
    have h1 : ∀ x, ¬ (c = 47 ∧ (w.drop (p + 1)).head? = some x ∧ (x = 47 ∨ x = 42)) := by
      rintro x ⟨rfl, e, hx⟩
      rw [List.head?_drop] at e
      refine ho ⟨h, ?_⟩
      rcases hx with rfl | rfl
      · exact .inl e
      · exact .inr e
    rw [live, if_neg d1, if_neg (fun e => h1 47 ⟨e.1, e.2, .inl rfl⟩), if_neg (fun e => h1 42 ⟨e.1, e.2, .inr rfl⟩),
      if_neg (fun e => d4 e.1), if_neg (by rintro (e | e); exacts [d2 e, d3 e])]
    rfl
  · rw [Nat.add_sub_cancel, h] at e
    cases e; exact d1 rfl

theorem off_of_ne {p : Nat} {c : UInt8} (h : w[p]? = some c) (hc : c ≠ 47) : Off w p := by
  rintro ⟨e, -⟩
  rw [h] at e
  cases e; exact hc rfl

theorem Off.bytes {p : Nat} : ∀ {l : List UInt8}, w.extract p (p + l.length) = l → l.all (fun c => dull c && c != 47) = true →
    Plain w p (p + l.length) := by
  intro l
  induction l generalizing p with
  | nil => intro _ _; exact .refl
  | cons c l ih =>
    intro h hl
    simp only [List.all_cons, Bool.and_eq_true, bne_iff_ne] at hl
    have h0 : (w.extract p (p + (l.length + 1)))[0]? = some c := by
      rw [show p + (l.length + 1) = p + (c :: l).length from rfl, h]; rfl
    have hp : w[p]? = some c := (ext_get h0).1
    have h1 : w.extract (p + 1) (p + 1 + l.length) = l := by
      have := ext_cons (w := w) (j := p + (l.length + 1)) hp (by omega)
      rw [show p + (l.length + 1) = p + (c :: l).length from rfl, h] at this
      have := (List.cons.inj this).2
      rw [show p + (c :: l).length = p + 1 + l.length by simp; omega] at this
      exact this.symm
    have := (Off.byte hp hl.1.1 (off_of_ne hp hl.1.2)).trans (ih h1 (by simpa using hl.2))
    rwa [show p + 1 + l.length = p + (c :: l).length by simp; omega] at this

/-! ## Comments -/

section comments
variable {p p' : Nat} {ts : List (Peg.Thunk Act)}

theorem line_byte {c : UInt8} (h : w[p]? = some c) : Pass w .line (if c = 10 then .normal else .line) p (p + 1) := by
  refine ⟨by omega, ?_⟩
  rw [drop_get h, Nat.add_sub_cancel_left]
  refine ⟨?_, by simp⟩
  rw [live]
  split <;> rfl
theorem line_run (hp : p ≤ p') (h : ∀ k, p ≤ k → k < p' → ∃ c, w[k]? = some c ∧ c ≠ 10) : Pass w .line .line p p' := by
  induction hn : p' - p generalizing p with
  | zero =>
    obtain rfl : p = p' := by omega
    exact .refl
  | succ n ih =>
    obtain ⟨c, h1, h2⟩ := h p (Nat.le_refl _) (by omega)
    have := line_byte h1
    rw [if_neg h2] at this
    exact this.trans (ih (by omega) (fun k h4 h5 => h k (by omega) h5) (by omega))

theorem line_comment_pass (h : Mt w r_line_comment p p' ts) : Plain w p p' := by
  obtain ⟨p1, us, vs, h1, h2, rfl⟩ := h.seq
  obtain ⟨p2, us2, vs2, g2, h3, rfl⟩ := h2.seq
  obtain ⟨p3, us3, vs3, g3, h4, rfl⟩ := h3.seq
  obtain ⟨p4, us4, vs4, g4, h5, rfl⟩ := h4.seq
  obtain ⟨p5, us5, vs5, g5, h6, rfl⟩ := h5.seq
  clear h2 h3 h4 h5
  obtain ⟨rfl, rfl, e1⟩ := h1.str
  obtain ⟨rfl, rfl⟩ := g2.pred
  obtain ⟨rfl, rfl⟩ := g4.pred
  obtain ⟨rfl, rfl⟩ := g5.act
  obtain ⟨rfl, e2, e3, -⟩ := star_run (Q := fun k => ∃ c, w[k]? = some c ∧ c ≠ 10) (fun p p1 us hm => by
    obtain ⟨q, xs, ys, g1, g2, rfl⟩ := hm.seq
    obtain ⟨rfl, rfl, g3⟩ := g1.npeek
    obtain ⟨rfl, rfl, c, g4⟩ := g2.dot
    exact ⟨rfl, rfl, c, g4, fun e => g3.eol.1 (e ▸ g4)⟩) g3
  obtain ⟨ea, eb⟩ := ext_two.1 e1
  simp only [List.length_cons, List.length_nil, Nat.zero_add, Nat.reduceAdd] at e2 e3
  have s1 : Pass w .normal .line p (p + 2) := by
    refine ⟨by omega, ?_⟩
    rw [drop_get ea, drop_get eb, Nat.add_sub_cancel_left]
    exact ⟨by simp [live]; omega, by simp⟩
  have s2 := s1.trans (line_run e2 e3)
  rcases h6.alt with h6 | ⟨-, h6⟩
  · obtain ⟨rfl, h9⟩ := h6.eol
    rcases h9 with ⟨h7, rfl⟩ | ⟨h7, h8, rfl⟩
    · refine ⟨s2.trans (line_byte h7), fun _ _ e => ?_⟩
      rw [Nat.add_sub_cancel, h7] at e; cases e
    · refine ⟨(s2.trans (line_byte h7)).trans (line_byte h8), fun _ _ e => ?_⟩
      rw [show p5 + 2 - 1 = p5 + 1 by omega, h8] at e; cases e
  · obtain ⟨rfl, rfl, h9⟩ := h6.eof
    have hl : w.length ≤ p' := by
      rcases Nat.lt_or_ge p' w.length with hl | hl
      · rw [List.getElem?_eq_getElem hl] at h9; cases h9
      · exact hl
    refine ⟨⟨s2.1, ?_, s2.2.2⟩, fun _ h => by omega⟩
    have s3 := s2.2.1
    have hd : w.drop p' = [] := List.drop_eq_nil_of_le hl
    have hp : p ≤ p' := by omega
    rw [List.drop_drop, show p + (p' - p) = p' by omega, hd] at s3 ⊢
    rw [s3]; simp [live]

/-- What a block comment has passed over. -/
theorem block_run (h : Mt w (.star (.alt (.nt .r_EOL none) (.seq (.npeek (.str [42, 47])) .dot))) p p' ts) :
    ts = [] ∧ p ≤ p' ∧ (∀ k, p ≤ k → k < p' → (∃ c, w[k]? = some c) ∧ ¬ (w[k]? = some 42 ∧ w[k + 1]? = some 47)) := by
  refine Mt.star (P := fun p p' ts => ts = [] ∧ p ≤ p' ∧ ∀ k, p ≤ k → k < p' →
    (∃ c, w[k]? = some c) ∧ ¬ (w[k]? = some 42 ∧ w[k + 1]? = some 47)) ?_ ?_ h
  · rintro p p1 p2 us vs hm ⟨rfl, g1, g2⟩
    rcases hm.alt with hm | ⟨-, hm⟩
    · obtain ⟨rfl, ⟨a1, rfl⟩ | ⟨a1, a2, rfl⟩⟩ := hm.eol
      · refine ⟨rfl, by omega, fun k h1 h2 => ?_⟩
        rcases Nat.eq_or_lt_of_le h1 with rfl | h1
        · rw [a1]; simp
        · exact g2 k h1 h2
      · refine ⟨rfl, by omega, fun k h1 h2 => ?_⟩
        rcases Nat.eq_or_lt_of_le h1 with rfl | h1
        · rw [a1]; simp
        · rcases Nat.eq_or_lt_of_le h1 with rfl | h1
          · rw [a2]; simp
          · exact g2 k h1 h2
    · obtain ⟨q, xs, ys, a1, a2, rfl⟩ := hm.seq
      obtain ⟨rfl, rfl, a3⟩ := a1.npeek
      obtain ⟨rfl, rfl, c, a4⟩ := a2.dot
      refine ⟨rfl, by omega, fun k h1 h2 => ?_⟩
      rcases Nat.eq_or_lt_of_le h1 with rfl | h1
      · exact ⟨⟨c, a4⟩, fun h => a3.str (ext_two.2 h)⟩
      · exact g2 k h1 h2
  · intro p _
    exact ⟨rfl, Nat.le_refl _, fun k h1 h2 => by omega⟩

theorem block_pass (hp : p ≤ p') (h : ∀ k, p ≤ k → k < p' → (∃ c, w[k]? = some c) ∧ ¬ (w[k]? = some 42 ∧ w[k + 1]? = some 47)) :
    Pass w .block .block p p' := by
  induction hn : p' - p generalizing p with
  | zero =>
    obtain rfl : p = p' := by omega
    exact .refl
  | succ n ih =>
    obtain ⟨⟨c, h1⟩, h2⟩ := h p (Nat.le_refl _) (by omega)
    refine Pass.trans (m' := .block) (k := p + 1) ⟨by omega, ?_⟩ (ih (by omega) (fun k h4 h5 => h k (by omega) h5) (by omega))
    rw [drop_get h1, Nat.add_sub_cancel_left]
    refine ⟨?_, by simp⟩
    rw [live, if_neg]
    · rfl
    · rintro ⟨rfl, e⟩
      rw [List.head?_drop] at e
      exact h2 ⟨h1, e⟩

theorem block_comment_pass (h : Mt w r_block_comment p p' ts) : Plain w p p' := by
  obtain ⟨p1, us, vs, h1, h2, rfl⟩ := h.seq
  obtain ⟨p2, us2, vs2, g2, h3, rfl⟩ := h2.seq
  obtain ⟨p3, us3, vs3, g3, h4, rfl⟩ := h3.seq
  obtain ⟨p4, us4, vs4, g4, h5, rfl⟩ := h4.seq
  obtain ⟨p5, us5, vs5, g5, h6, rfl⟩ := h5.seq
  clear h2 h3 h4 h5
  obtain ⟨rfl, rfl, e1⟩ := h1.str
  obtain ⟨rfl, rfl⟩ := g2.pred
  obtain ⟨rfl, rfl⟩ := g4.pred
  obtain ⟨rfl, rfl⟩ := g5.act
  obtain ⟨rfl, rfl, e6⟩ := h6.onfail.str
  obtain ⟨-, e2, e3⟩ := block_run g3
  obtain ⟨ea, eb⟩ := ext_two.1 e1
  obtain ⟨ec, ed⟩ := ext_two.1 e6
  simp only [List.length_cons, List.length_nil, Nat.zero_add, Nat.reduceAdd] at e2 e3 ⊢
  refine ⟨?_, fun _ _ e => ?_⟩
  · refine Pass.trans (m' := .block) (k := p + 2) ⟨by omega, ?_⟩ ((block_pass e2 e3).trans ⟨by omega, ?_⟩)
    · rw [drop_get ea, drop_get eb, Nat.add_sub_cancel_left]
      exact ⟨by simp [live]; omega, by simp⟩
    · rw [drop_get ec, drop_get ed, Nat.add_sub_cancel_left]
      exact ⟨by simp [live]; omega, by simp⟩
  · rw [show p5 + 2 - 1 = p5 + 1 by omega, ed] at e; cases e

/-! ## Where no comment begins -/

theorem line_comment_fails (h : Fl w r_line_comment p) : ¬ (w[p]? = some 47 ∧ w[p + 1]? = some 47) := by
  intro hc
  rcases h.seq with h | ⟨p1, us, h1, k1⟩
  · exact h.str (ext_two.2 hc)
  rcases k1.seq with h | ⟨p2, us2, h2, k2⟩
  · rcases h.pred with h | h <;> cases h
  rcases k2.seq with h | ⟨p3, us3, h3, k3⟩
  · exact h.star
  rcases k3.seq with h | ⟨p4, us4, h4, k4⟩
  · rcases h.pred with h | h <;> cases h
  rcases k4.seq with h | ⟨p5, us5, h5, k5⟩
  · exact h.act
  obtain ⟨rfl, -⟩ := h4.pred
  obtain ⟨rfl, -⟩ := h5.act
  obtain ⟨f1, f2⟩ := k5.alt
  obtain ⟨-, -, -, f3⟩ := star_run (Q := fun _ => True) (fun p p1 us hm => by
    obtain ⟨q, xs, ys, g1, g2, rfl⟩ := hm.seq
    obtain ⟨rfl, rfl, g3⟩ := g1.npeek
    obtain ⟨rfl, rfl, c, g4⟩ := g2.dot
    exact ⟨rfl, rfl, trivial⟩) h3
  rcases f3.seq with f4 | ⟨p6, us6, h6, f5⟩
  · obtain ⟨p7, us7, h7⟩ := f4.npeek
    obtain ⟨e1, e2⟩ := f1.eol
    rcases h7.eol.2 with ⟨h7, -⟩ | ⟨h7, h8, -⟩
    · exact e1 h7
    · exact e2 ⟨h7, h8⟩
  · obtain ⟨rfl, -, -⟩ := h6.npeek
    rcases (f2.nt : Fl w r_EOF _).seq with f2 | ⟨p7, us7, h7, f2⟩
    · obtain ⟨p8, us8, h8⟩ := f2.npeek
      obtain ⟨-, -, c, h8⟩ := h8.dot
      rw [f5.dot] at h8; cases h8
    · exact f2.act

theorem ws_off (h : Mt w r_ws p p' ts) : Unlined w p' := by
  refine Mt.star (P := fun p p' ts => Unlined w p') (fun _ h => h) (fun {p} hf => ?_) h
  obtain ⟨-, hf⟩ := hf.alt
  obtain ⟨f1, -⟩ := (hf.nt : Fl w r_comment p).alt
  exact line_comment_fails f1.nt

end comments

/-- These match no bytes. -/
def idleT : Rule → Bool
  | .r__block_start_ | .r__block_end_ | .r__block_replace_ | .r__block_merge_ | .r__empty_ | .r__none_ => true
  | _ => false
/-- These end where no comment to the end of the line begins. -/
def offT : Rule → Bool
  | .r_ws | .r_expression | .r__prec_expression | .r__expression | .r__atom | .r_atom | .r_POSTFIX_OP | .r_list_comprehension
  | .r_pattern_comprehension | .r_case_expression | .r_filter_expression | .r_extract_expression | .r_reduce_expression
  | .r_all_predicate | .r_any_predicate | .r_single_predicate | .r_none_predicate | .r_function_application
  | .r_collection_literal | .r_map_literal | .r_identifier | .r_string_literal | .r_float_literal | .r_integer_literal
  | .r_true_literal | .r_false_literal | .r_null_literal | .r_parameter | .r_label | .r_prop_name | .r_pattern_expression
  | .r_node | .r_SHORTESTPATH | .r_ALLSHORTESTPATHS => true
  | _ => false
/-- The same of expressions; `nc`: no such comment begins where `e` starts. -/
def offs : Bool → E → Bool
  | _, .one _ | _, .str _ => false
  | nc, .nt r _ => offT r || (nc && idleT r)
  | nc, .seq a b => offs (offs nc a) b
  | nc, .alt a b => offs nc a && offs nc b
  | nc, .star a => nc && offs true a
  | nc, .onfail a _ => offs nc a
  | nc, _ => nc

theorem idleT_ok : ∀ r, idleT r = true → idle (grammar r).body = true := by
  intro r; cases r <;> first | (intro h; cases h; done) | (intro _; decide +kernel)
theorem offT_ok : ∀ r, offT r = true → r = .r_ws ∨ offs false (grammar r).body = true := by
  intro r; cases r <;> first | (intro h; cases h; done) | (intro _; exact .inl rfl) | (intro _; right; decide +kernel)

theorem offs_sound {e : E} {p : Nat} {q : QState} {r : SkRes} (h : Sk w e p q r) :
    ∀ nc, offs nc e = true → (nc = true → Unlined w p) → ∀ p' ts q', r = .ok p' ts q' → Unlined w p' := by
  induction h with
  | eps => rintro nc hk hn _ _ _ ⟨⟩; exact hn hk
  | one_ok => rintro nc hk; cases hk
  | str_ok => rintro nc hk; cases hk
  | @nt_ok r v p q p' ts q' h ih =>
    rintro nc hk hn _ _ _ ⟨⟩
    simp only [offs, Bool.or_eq_true, Bool.and_eq_true] at hk
    rcases hk with hk | ⟨k1, k2⟩
    · rcases offT_ok r hk with rfl | hb
      · exact ws_off ⟨_, _, h⟩
      · exact ih _ hb nofun _ _ _ rfl
    · rw [idle_sound h (idleT_ok r k2) _ _ _ rfl]
      exact hn k1
  | seq_ok _ _ ih1 ih2 =>
    rintro nc hk hn _ _ _ ⟨⟩
    exact ih2 _ hk (fun h => ih1 _ h hn _ _ _ rfl) _ _ _ rfl
  | alt_ok _ ih =>
    intro nc hk
    simp only [offs, Bool.and_eq_true] at hk
    exact ih _ hk.1
  | alt_no _ _ _ ih =>
    intro nc hk
    simp only [offs, Bool.and_eq_true] at hk
    exact ih _ hk.2
  | star_more _ _ ih1 ih2 =>
    rintro nc hk hn _ _ _ ⟨⟩
    have hk' := hk
    simp only [offs, Bool.and_eq_true] at hk'
    refine ih2 true ?_ (fun _ => ih1 true hk'.2 (fun _ => hn hk'.1) _ _ _ rfl) _ _ _ rfl
    simpa only [offs, Bool.true_and] using hk'.2
  | star_end =>
    rintro nc hk hn _ _ _ ⟨⟩
    simp only [offs, Bool.and_eq_true] at hk
    exact hn hk.1
  | peek_ok => rintro nc hk hn _ _ _ ⟨⟩; exact hn hk
  | npeek_no => rintro nc hk hn _ _ _ ⟨⟩; exact hn hk
  | pred_ok => rintro nc hk hn _ _ _ ⟨⟩; exact hn hk
  | act => rintro nc hk hn _ _ _ ⟨⟩; exact hn hk
  | onfail_ok _ ih => intro nc hk; exact ih _ hk
  | one_no => rintro nc - - _ _ _ ⟨⟩
  | str_no => rintro nc - - _ _ _ ⟨⟩
  | nt_no => rintro nc - - _ _ _ ⟨⟩
  | seq_no => rintro nc - - _ _ _ ⟨⟩
  | seq_no2 => rintro nc - - _ _ _ ⟨⟩
  | peek_no => rintro nc - - _ _ _ ⟨⟩
  | npeek_ok => rintro nc - - _ _ _ ⟨⟩
  | pred_no => rintro nc - - _ _ _ ⟨⟩
  | onfail_no => rintro nc - - _ _ _ ⟨⟩

/-! ## What follows an operator -/

/-- What a rule does where there is a byte: it does not match; if it matches, it matches nothing. -/
def edge (x : UInt8) (T : Rule → Bool × Bool) : E → Bool × Bool
  | .one m => (!m.mem x, !m.mem x)
  | .str l => (l.head?.any (· != x), l.head?.any (· != x))
  | .nt r _ => T r
  | .seq a b => ((edge x T a).1 || ((edge x T a).2 && (edge x T b).1), (edge x T a).1 || ((edge x T a).2 && (edge x T b).2))
  | .alt a b => ((edge x T a).1 && (edge x T b).1, (edge x T a).2 && (edge x T b).2)
  | .star a => (false, (edge x T a).1)
  | .onfail a _ => edge x T a
  | _ => (false, true)
/-- The same for rules, looking into rules up to this depth. -/
def edgeN (x : UInt8) : Nat → Rule → Bool × Bool
  | 0, _ => (false, false)
  | n + 1, r => edge x (edgeN x n) (grammar r).body

theorem edge_sound {e : E} {p : Nat} {q : QState} {r : SkRes} (h : Sk w e p q r) :
    ∀ x, w[p]? = some x → ∀ n p' ts q', r = .ok p' ts q' →
    (edge x (edgeN x n) e).1 = false ∧ ((edge x (edgeN x n) e).2 = true → p' = p) := by
  induction h with
  | eps => rintro x - n _ _ _ ⟨⟩; exact ⟨rfl, fun _ => rfl⟩
  | one_ok h1 h2 =>
    rintro x hc n _ _ _ ⟨⟩
    rw [hc] at h1; cases h1
    simp [edge, h2]
  | @str_ok l p q h1 =>
    rintro x hc n _ _ _ ⟨⟩
    cases l with
    | nil => exact ⟨rfl, fun _ => rfl⟩
    | cons a l =>
      have h2 := congrArg List.head? h1
      rw [List.extract_eq_take_drop, drop_get hc, show p + (a :: l).length - p = l.length + 1 by simp] at h2
      simp only [List.take_succ_cons, List.head?_cons, Option.some.injEq] at h2
      subst h2
      simp [edge]
  | @nt_ok r v p q p' ts q' _ ih =>
    rintro x hc n _ _ _ ⟨⟩
    cases n with
    | zero => exact ⟨rfl, nofun⟩
    | succ n => exact ih x hc n _ _ _ rfl
  | @seq_ok a b p q p1 ts q1 p2 us q2 _ _ ih1 ih2 =>
    rintro x hc n _ _ _ ⟨⟩
    obtain ⟨a1, a2⟩ := ih1 x hc n _ _ _ rfl
    simp only [edge, a1, Bool.false_or, Bool.and_eq_true, Bool.and_eq_false_iff]
    constructor
    · by_cases h : (edge x (edgeN x n) a).2 = true
      · obtain rfl := a2 h
        exact .inr (ih2 x hc n _ _ _ rfl).1
      · exact .inl (by simpa using h)
    · rintro ⟨h, h'⟩
      obtain rfl := a2 h
      exact (ih2 x hc n _ _ _ rfl).2 h'
  | alt_ok _ ih =>
    rintro x hc n _ _ _ ⟨⟩
    obtain ⟨a1, a2⟩ := ih x hc n _ _ _ rfl
    simp only [edge, a1, Bool.false_and, Bool.and_eq_true, true_and]
    exact fun h => a2 h.1
  | alt_no _ _ _ ih =>
    rintro x hc n _ _ _ ⟨⟩
    obtain ⟨a1, a2⟩ := ih x hc n _ _ _ rfl
    simp only [edge, a1, Bool.and_false, Bool.and_eq_true, true_and]
    exact fun h => a2 h.2
  | star_more _ _ ih1 _ =>
    rintro x hc n _ _ _ ⟨⟩
    simp [edge, (ih1 x hc n _ _ _ rfl).1]
  | star_end => rintro x - n _ _ _ ⟨⟩; exact ⟨rfl, fun _ => rfl⟩
  | peek_ok => rintro x - n _ _ _ ⟨⟩; exact ⟨rfl, fun _ => rfl⟩
  | npeek_no => rintro x - n _ _ _ ⟨⟩; exact ⟨rfl, fun _ => rfl⟩
  | pred_ok => rintro x - n _ _ _ ⟨⟩; exact ⟨rfl, fun _ => rfl⟩
  | act => rintro x - n _ _ _ ⟨⟩; exact ⟨rfl, fun _ => rfl⟩
  | onfail_ok _ ih => exact ih
  | one_no => rintro x - n _ _ _ ⟨⟩
  | str_no => rintro x - n _ _ _ ⟨⟩
  | nt_no => rintro x - n _ _ _ ⟨⟩
  | seq_no => rintro x - n _ _ _ ⟨⟩
  | seq_no2 => rintro x - n _ _ _ ⟨⟩
  | peek_no => rintro x - n _ _ _ ⟨⟩
  | npeek_ok => rintro x - n _ _ _ ⟨⟩
  | pred_no => rintro x - n _ _ _ ⟨⟩
  | onfail_no => rintro x - n _ _ _ ⟨⟩

theorem edge_mt {e : E} {p p' : Nat} {ts : List (Peg.Thunk Act)} (h : Mt w e p p' ts) {x : UInt8} (hx : w[p]? = some x) (n : Nat) :
    (edge x (edgeN x n) e).1 = false ∧ ((edge x (edgeN x n) e).2 = true → p' = p) := by
  obtain ⟨_, _, h⟩ := h
  exact edge_sound h x hx n _ _ _ rfl

/-- An infix operator and what follows it in an expression (parser.leg:424). -/
def shape : E → E → Bool
  | .nt .r_INFIX_OP _, .seq (.pred .precChk) (.seq (.nt .r_ws _) (.seq (.nt .r__prec_expression _) _)) => true
  | _, _ => false

/-- A slash that is an operator is not followed by a star, as no expression begins with one. -/
theorem shape_off {a b : E} (hs : shape a b = true) {p p1 p2 : Nat} {ts us : List (Peg.Thunk Act)} (h1 : Mt w a p p1 ts)
    (h2 : Mt w b p1 p2 us) (hn : Unlined w p) : Off w p := by
  unfold shape at hs
  split at hs
  · rintro ⟨e, e1 | e1⟩
    · exact hn ⟨e, e1⟩
    obtain ⟨vs, h1, -⟩ := h1.nt
    obtain ⟨k, xs, ys, hA, hws, -⟩ := (h1 : Mt w r_INFIX_OP p p1 vs).seq
    have not47 : ∀ {e : E} {p' : Nat} {ts : List (Peg.Thunk Act)}, (edge 47 (edgeN 47 6) e).1 = true → ¬ Mt w e p p' ts := by
      intro e' p' ts he h
      rw [(edge_mt h e 6).1] at he; cases he
    have hk : k = p + 1 := by
      iterate 10
        replace hA := hA.alt
        rcases hA with h | ⟨-, hA⟩
        · exact (not47 (by decide +kernel) h).elim
      rcases hA.alt with h | ⟨-, hA⟩
      · obtain ⟨k1, xs1, ys1, h3, h4, -⟩ := h.seq
        obtain ⟨k2, xs2, ys2, h5, h6, -⟩ := h4.seq
        obtain ⟨e3, -⟩ := (h3.nt0 rfl : Mt w r_DIV p k1 xs1).onfail.chr
        obtain ⟨e5, -⟩ := h5.pred
        obtain ⟨e6, -⟩ := h6.act
        omega
      · exact (not47 (by decide +kernel) hA).elim
    subst hk
    have stay : ∀ {v : Option Nat} {p' : Nat} {ts : List (Peg.Thunk Act)}, Mt w (.nt .r_ws v) (p + 1) p' ts → p' = p + 1 :=
      fun {v p' ts} h => (edge_mt h e1 6).2 (show (edge 42 (edgeN 42 6) (.nt .r_ws none)).2 = true by decide +kernel)
    have := stay hws
    subst this
    obtain ⟨k1, xs1, ys1, h3, h4, -⟩ := h2.seq
    obtain ⟨k2, xs2, ys2, h5, h6, -⟩ := h4.seq
    obtain ⟨k3, xs3, ys3, h7, -, -⟩ := h6.seq
    obtain ⟨e3, -⟩ := h3.pred
    rw [e3] at h5
    have := stay h5
    rw [this] at h7
    have := (edge_mt h7 e1 12).1
    exact absurd this (by
      show ¬ (edge 42 (edgeN 42 12) (.nt .r__prec_expression none)).1 = false
      decide +kernel)
  · cases hs

/-! ## A check of rules -/

inductive Kind where
  /-- not followed -/
  | other
  /-- matches what the scan passes over -/
  | plain
  /-- the same, where no comment begins -/
  | slash
  /-- may end with a semicolon -/
  | final
  /-- makes a node that there is none of -/
  | absent
  deriving DecidableEq

def kind : Rule → Kind
  | .r_statement | .r__statement | .r___statement | .r_cypher_statement | .r_query | .r_clauses | .r__clauses | .r_schema_command
  | .r_directive | .r__directive | .r___directive | .r_SEMICOLON => .final
  | .r_skip_to_directive | .r_skip_to_statement | .r_skip_to_clause | .r_cypher_param | .r_client_command => .absent
  | .r_DIV | .r_INFIX_OP => .slash
  | .r___entry_points | .r_client_command_name
  | .r_client_command_arg | .r_client_arg_string | .r_cypher_param_val | .r_single_quoted
  | .r_double_quoted | .r_escaped_char | .r_unquoted => .other
  | _ => .plain

/-- No byte that the scan takes notice of, nor a slash. -/
def calmSet (m : CharSet) : Bool := m.mask &&& (2 ^ 59 + 2 ^ 39 + 2 ^ 34 + 2 ^ 92 + 2 ^ 47) == 0

theorem calmSet_sound {m : CharSet} {c : UInt8} (h : calmSet m = true) (hc : m.mem c = true) : dull c = true ∧ c ≠ 47 := by
  simp only [calmSet, beq_iff_eq] at h
  have h1 : (m.mask &&& (2 ^ 59 + 2 ^ 39 + 2 ^ 34 + 2 ^ 92 + 2 ^ 47)).testBit c.toNat = false := by rw [h]; simp
  rw [Nat.testBit_and, show m.mask.testBit c.toNat = true from hc, Bool.true_and] at h1
  exact all_bytes (P := fun c => Nat.testBit (2 ^ 59 + 2 ^ 39 + 2 ^ 34 + 2 ^ 92 + 2 ^ 47) c.toNat = false → dull c = true ∧ c ≠ 47)
    (by decide +kernel) c h1

/-- Matches nothing in texts without back quotes. -/
def void : E → Bool
  | .one m => m == .single 96
  | _ => false

/-- `sl`: no comment begins where `e` starts; `nc`: none to the end of the line; `fin`: `e` may end with a semicolon. -/
def look : Bool → Bool → Bool → E → Bool
  | sl, _, fin, .one m => void (.one m) || calmSet m || (sl && m == .single 47) || (fin && m == .single 59)
  | _, _, _, .str l => l.all fun c => dull c && c != 47
  | sl, _, fin, .nt r _ => kind r == .plain || kind r == .absent || (sl && kind r == .slash) || (fin && kind r == .final)
  | sl, nc, fin, .seq a b => void a || (look (sl || (nc && shape a b)) nc false a && look false (offs nc a) fin b) ||
      (look sl nc fin a && idle b)
  | sl, nc, fin, .alt a b => look sl nc fin a && look sl nc fin b
  | _, nc, _, .star a => look false (nc && offs true a) false a
  | sl, nc, fin, .onfail a _ => look sl nc fin a
  | _, _, _, _ => true

theorem kind_plain : ∀ r, kind r = .plain → (r = .r_quoted ∨ r = .r_line_comment ∨ r = .r_block_comment) ∨
    look false false false (grammar r).body = true := by
  intro r; cases r <;> first | (intro h; cases h; done) | (intro _; left; simp; done) | (intro _; right; decide +kernel)
theorem kind_slash : ∀ r, kind r = .slash → look true true false (grammar r).body = true := by
  intro r; cases r <;> first | (intro h; cases h; done) | (intro _; decide +kernel)
theorem kind_final : ∀ r, kind r = .final → look false false true (grammar r).body = true := by
  intro r; cases r <;> first | (intro h; cases h; done) | (intro _; decide +kernel)

/-- Builders of nodes that are to be absent. -/
def spoils (c : Ctor) : Prop := c = .skip ∨ c = .cypherOptionParam ∨ c = .command
/-- None of them was recorded. -/
def Unspoilt (ts : List (Peg.Thunk Act)) : Prop := ∀ d c args p, spoils c → .act (.build d c args) p ∉ ts

theorem Unspoilt.left {a b : List (Peg.Thunk Act)} (h : Unspoilt (a ++ b)) : Unspoilt a :=
  fun d c args p hs hm => h d c args p hs (by simp [hm])
theorem Unspoilt.right {a b : List (Peg.Thunk Act)} (h : Unspoilt (a ++ b)) : Unspoilt b :=
  fun d c args p hs hm => h d c args p hs (by simp [hm])

theorem kind_absent {r : Rule} (hr : kind r = .absent) {p p' : Nat} {ts : List (Peg.Thunk Act)} (h : Mt w (grammar r).body p p' ts) :
    ¬ Unspoilt ts := by
  have act : ∀ {d c args p p' ts}, spoils c → Mt w (.act (.build d c args)) p p' ts → ¬ Unspoilt ts := by
    intro d c args p p' ts hs h hn
    obtain ⟨rfl, rfl⟩ := h.act
    exact hn d c args _ hs (List.mem_singleton.2 rfl)
  have seq : ∀ {a b : E} {p p' ts}, (∀ {p p' ts}, Mt w b p p' ts → ¬ Unspoilt ts) → Mt w (.seq a b) p p' ts → ¬ Unspoilt ts := by
    intro a b p p' ts hb h hn
    obtain ⟨p1, us, vs, -, h1, rfl⟩ := h.seq
    exact hb h1 hn.left
  have left : ∀ {a b : E} {p p' ts}, (∀ {p p' ts}, Mt w a p p' ts → ¬ Unspoilt ts) → Mt w (.seq a b) p p' ts → ¬ Unspoilt ts := by
    intro a b p p' ts ha h hn
    obtain ⟨p1, us, vs, h1, -, rfl⟩ := h.seq
    exact ha h1 hn.right
  cases r <;> first
    | (cases hr; done)
    | exact seq (seq (seq (seq (act (.inl rfl))))) h
    | exact seq (seq (seq (seq (seq (seq (seq (act (.inr (.inl rfl))))))))) h
    | exact seq (seq (seq (seq (seq (seq (left (act (.inr (.inr rfl))))))))) h

theorem void_sound (hq : 96 ∉ w) {e : E} {p p' : Nat} {q q' : QState} {ts : List (Peg.Thunk Act)}
    (h : Sk w e p q (.ok p' ts q')) : void e = false := by
  cases hn : void e with
  | false => rfl
  | true =>
    exfalso
    cases h with
    | one_ok h1 h2 =>
      simp only [void, beq_iff_eq] at hn
      subst hn
      rw [single_mem] at h2
      simp only [decide_eq_true_eq] at h2
      subst h2
      exact hq (List.mem_of_getElem? h1)
    | _ => cases hn

theorem look_sound (hq : 96 ∉ w) {e : E} {p : Nat} {q : QState} {r : SkRes}
    (h : Sk w e p q r) : ∀ sl nc fin, look sl nc fin e = true → (sl = true → Off w p) → (nc = true → Unlined w p) →
    ∀ p' ts q', r = .ok p' ts q' → Unspoilt ts → Clear w fin p p' := by
  induction h with
  | eps => rintro sl nc fin - - - _ _ _ ⟨⟩ -; exact .inl .refl
  | @one_ok m p q c h1 h2 =>
    rintro sl nc fin hk hsl hnc _ _ _ ⟨⟩ -
    simp only [look, void_sound hq (.one_ok h1 h2 : Sk w (.one m) p q _), Bool.false_or, Bool.or_eq_true, Bool.and_eq_true,
      beq_iff_eq] at hk
    rcases hk with (hk | ⟨rfl, rfl⟩) | ⟨rfl, rfl⟩
    · obtain ⟨d1, d2⟩ := calmSet_sound hk h2
      exact .inl (Off.byte h1 d1 (off_of_ne h1 d2))
    · rw [single_mem] at h2
      simp only [decide_eq_true_eq] at h2
      subst h2
      exact .inl (Off.byte h1 (by decide) (hsl rfl))
    · rw [single_mem] at h2
      simp only [decide_eq_true_eq] at h2
      subst h2
      exact .inr ⟨rfl, by omega, by rw [Nat.add_sub_cancel]; exact .refl, by rw [Nat.add_sub_cancel]; exact h1⟩
  | str_ok h1 =>
    rintro sl nc fin hk - - _ _ _ ⟨⟩ -
    exact .inl (Off.bytes h1 hk)
  | @nt_ok r v p q p' ts q' h ih =>
    rintro sl nc fin hk hsl hnc _ _ _ ⟨⟩ hn
    simp only [look, Bool.or_eq_true, Bool.and_eq_true, beq_iff_eq] at hk
    have hn' : Unspoilt ts := hn.right.right.left
    rcases hk with ((hk | hk) | ⟨rfl, hk⟩) | ⟨rfl, hk⟩
    · rcases kind_plain r hk with (rfl | rfl | rfl) | hb
      · exact .inl (quoted_pass ⟨_, _, h⟩)
      · exact .inl (line_comment_pass ⟨_, _, h⟩)
      · exact .inl (block_comment_pass ⟨_, _, h⟩)
      · exact .inl (ih _ _ _ hb nofun nofun _ _ _ rfl hn').pass
    · exact absurd hn' (kind_absent hk ⟨_, _, h⟩)
    · exact .inl (ih _ _ _ (kind_slash r hk) hsl (fun _ => (hsl rfl).unlined) _ _ _ rfl hn').pass
    · exact ih _ _ _ (kind_final r hk) nofun nofun _ _ _ rfl hn'
  | @seq_ok a b p q p1 ts q1 p2 us q2 h1 h2 ih1 ih2 =>
    rintro sl nc fin hk hsl hnc _ _ _ ⟨⟩ hn
    simp only [look, void_sound hq h1, Bool.false_or, Bool.or_eq_true, Bool.and_eq_true] at hk
    rcases hk with ⟨k1, k2⟩ | ⟨k1, k2⟩
    · refine .after (ih1 _ _ _ k1 (fun h => ?_) hnc _ _ _ rfl hn.right).pass
        (ih2 _ _ _ k2 nofun (fun h => offs_sound h1 _ h hnc _ _ _ rfl) _ _ _ rfl hn.left)
      rw [Bool.or_eq_true, Bool.and_eq_true] at h
      rcases h with h | ⟨h, h'⟩
      · exact hsl h
      · exact shape_off h' ⟨_, _, h1⟩ ⟨_, _, h2⟩ (hnc h)
    · rw [idle_sound h2 k2 _ _ _ rfl]
      exact ih1 _ _ _ k1 hsl hnc _ _ _ rfl hn.right
  | alt_ok _ ih =>
    intro sl nc fin hk
    simp only [look, Bool.and_eq_true] at hk
    exact ih _ _ _ hk.1
  | alt_no h1 _ _ ih =>
    intro sl nc fin hk
    simp only [look, Bool.and_eq_true] at hk
    exact ih _ _ _ hk.2
  | @star_more a p q p1 ts q1 p2 us q2 h1 _ ih1 ih2 =>
    rintro sl nc fin hk hsl hnc _ _ _ ⟨⟩ hn
    have hk : look false (nc && offs true a) false a = true := hk
    have ho : (nc && offs true a) = true → Unlined w p := fun h => hnc (Bool.and_eq_true _ _ ▸ h).1
    refine .after (ih1 _ _ _ hk nofun ho _ _ _ rfl hn.right).pass (.inl (ih2 false (nc && offs true a) false ?_ nofun (fun h => ?_) _ _ _ rfl hn.left).pass)
    · show look false ((nc && offs true a) && offs true a) false a = true
      rw [Bool.and_assoc, Bool.and_self]; exact hk
    · have h := Bool.and_eq_true _ _ ▸ h
      exact offs_sound h1 true h.2 (fun _ => hnc h.1) _ _ _ rfl
  | star_end => rintro sl nc fin - - - _ _ _ ⟨⟩ -; exact .inl .refl
  | peek_ok => rintro sl nc fin - - - _ _ _ ⟨⟩ -; exact .inl .refl
  | npeek_no => rintro sl nc fin - - - _ _ _ ⟨⟩ -; exact .inl .refl
  | pred_ok => rintro sl nc fin - - - _ _ _ ⟨⟩ -; exact .inl .refl
  | act => rintro sl nc fin - - - _ _ _ ⟨⟩ -; exact .inl .refl
  | onfail_ok _ ih => intro sl nc fin hk; exact ih _ _ _ hk
  | one_no => rintro sl nc fin - - - _ _ _ ⟨⟩
  | str_no => rintro sl nc fin - - - _ _ _ ⟨⟩
  | nt_no => rintro sl nc fin - - - _ _ _ ⟨⟩
  | seq_no => rintro sl nc fin - - - _ _ _ ⟨⟩
  | seq_no2 => rintro sl nc fin - - - _ _ _ ⟨⟩
  | peek_no => rintro sl nc fin - - - _ _ _ ⟨⟩
  | npeek_ok => rintro sl nc fin - - - _ _ _ ⟨⟩
  | pred_no => rintro sl nc fin - - - _ _ _ ⟨⟩
  | onfail_no => rintro sl nc fin - - - _ _ _ ⟨⟩

end Verif.Cypher.Scan
