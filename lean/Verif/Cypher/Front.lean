import Verif.Cypher.Notes
/-!
# What a segment begins with

The two grammars have the same white space and comments, so both parsers find the same first byte that is neither; it decides
whether there is a statement, for both.
-/
namespace Verif.Cypher.Scan
open Verif.Peg
open Verif.Quick (live)

variable {w : List UInt8}

/-! ## Rules of both grammars -/

/-- A rule of the parser matches what `f` says of the rest of the text. -/
structure Same (w : List UInt8) (e : E) (f : List UInt8 → Option Nat) : Prop where
  mt : ∀ {p p1 ts}, Mt w e p p1 ts → p ≤ p1 ∧ f (w.drop p) = some (p1 - p)
  fl : ∀ {p}, Fl w e p → f (w.drop p) = none

namespace Same
variable {a b : E} {a' b' : Quick.E}

theorem seq (ha : Same w a (Peg.den Quick.env a')) (hb : Same w b (Peg.den Quick.env b')) : Same w (.seq a b) (Peg.den Quick.env (.seq a' b')) := by
  refine ⟨fun h => ?_, fun h => ?_⟩
  · obtain ⟨p1, us, vs, h1, h2, rfl⟩ := h.seq
    obtain ⟨l1, e1⟩ := ha.mt h1
    obtain ⟨l2, e2⟩ := hb.mt h2
    refine ⟨by omega, Quick.den_seq_some.2 ⟨_, _, e1, Eq.trans ?_ e2, ?_⟩⟩
    · rw [List.drop_drop, Nat.add_sub_cancel' l1]
    · omega
  · rcases h.seq with h | ⟨p1, us, h1, h⟩
    · exact Quick.den_seq_none.2 (.inl (ha.fl h))
    · obtain ⟨l1, e1⟩ := ha.mt h1
      refine Quick.den_seq_none.2 (.inr ⟨_, e1, ?_⟩)
      rw [List.drop_drop, Nat.add_sub_cancel' l1]
      exact hb.fl h

theorem alt (ha : Same w a (Peg.den Quick.env a')) (hb : Same w b (Peg.den Quick.env b')) : Same w (.alt a b) (Peg.den Quick.env (.alt a' b')) := by
  refine ⟨fun h => ?_, fun h => Quick.den_alt_none.2 ⟨ha.fl h.alt.1, hb.fl h.alt.2⟩⟩
  rcases h.alt with h | ⟨hf, h⟩
  · exact ⟨(ha.mt h).1, Quick.den_alt_some.2 (.inl (ha.mt h).2)⟩
  · exact ⟨(hb.mt h).1, Quick.den_alt_some.2 (.inr ⟨ha.fl hf, (hb.mt h).2⟩)⟩

theorem npeek (ha : Same w a (Peg.den Quick.env a')) : Same w (.npeek a) (Peg.den Quick.env (.npeek a')) := by
  refine ⟨fun h => ?_, fun h => ?_⟩
  · obtain ⟨rfl, -, h⟩ := h.npeek
    exact ⟨Nat.le_refl _, Quick.den_npeek_some.2 ⟨ha.fl h, by omega⟩⟩
  · obtain ⟨p1, us, h⟩ := h.npeek
    exact Quick.den_npeek_none.2 ⟨_, (ha.mt h).2⟩

/-- Something that matches nothing comes first. -/
theorem skip {x : E} {f : List UInt8 → Option Nat} (hx : ∀ {p p1 ts}, Mt w x p p1 ts → p1 = p) (hf : ∀ {p}, ¬ Fl w x p) (hb : Same w b f) :
    Same w (.seq x b) f := by
  refine ⟨fun h => ?_, fun h => ?_⟩
  · obtain ⟨p1, us, vs, h1, h2, rfl⟩ := h.seq
    obtain rfl := hx h1
    exact hb.mt h2
  · rcases h.seq with h | ⟨p1, us, h1, h2⟩
    · exact absurd h hf
    · obtain rfl := hx h1
      exact hb.fl h2
theorem act {x : Act} {f : List UInt8 → Option Nat} (hb : Same w b f) : Same w (.seq (.act x) b) f :=
  skip (fun h => h.act.1) Fl.act hb
theorem pred {x : Pred} {f : List UInt8 → Option Nat} (h1 : x ≠ .no) (h2 : x ≠ .precChk) (hb : Same w b f) : Same w (.seq (.pred x) b) f :=
  skip (fun h => h.pred.1) (fun h => by rcases h.pred with h | h; exacts [h1 h, h2 h]) hb

theorem nt {r : Rule} {v : Option Nat} {f : List UInt8 → Option Nat} (h : Same w (grammar r).body f) : Same w (.nt r v) f :=
  ⟨fun hm => by obtain ⟨us, hm, -⟩ := hm.nt; exact h.mt hm, fun hf => h.fl hf.nt⟩
theorem onfail {x : Pred} {f : List UInt8 → Option Nat} (h : Same w a f) : Same w (.onfail a x) f :=
  ⟨fun hm => h.mt hm.onfail, fun hf => h.fl hf.onfail⟩

theorem dot : Same w .dot (Peg.den Quick.env (.dot : Quick.E)) := by
  refine ⟨fun {p p1 ts} h => ?_, fun {p} h => ?_⟩
  · obtain ⟨rfl, -, c, h⟩ := h.dot
    exact ⟨by omega, Quick.den_dot_some.2 ⟨c, _, drop_get h, by omega⟩⟩
  · refine Quick.den_dot_none.2 (List.drop_eq_nil_of_le ?_)
    exact List.getElem?_eq_none_iff.1 h.dot

theorem two {c d : UInt8} : Same w (.str [c, d]) (Peg.den Quick.env (.str [c, d] : Quick.E)) := by
  refine ⟨fun {p p1 ts} h => ?_, fun {p} h => ?_⟩
  · obtain ⟨rfl, -, h⟩ := h.str
    obtain ⟨h1, h2⟩ := ext_two.1 h
    refine ⟨by omega, Quick.den_str2_some.2 ⟨w.drop (p + 1 + 1), ?_, ?_⟩⟩
    · rw [drop_get h1, drop_get h2]
    · simp
  · refine Quick.den_str2_none.2 ?_
    rintro ⟨t, e⟩
    have e1 := congrArg (·[0]?) e
    have e2 := congrArg (·[1]?) e
    simp only [List.getElem?_drop, List.getElem?_cons_zero, List.getElem?_cons_succ, Nat.add_zero] at e1 e2
    exact h.str (ext_two.2 ⟨e1, e2⟩)

theorem one {m : CharSet} : Same w (.one m) (Peg.den Quick.env (.one m : Quick.E)) := by
  refine ⟨fun {p p1 ts} h => ?_, fun {p} h => ?_⟩
  · obtain ⟨rfl, -, c, h1, h2⟩ := h.one
    refine ⟨by omega, ?_⟩
    rw [drop_get h1]
    simp [Peg.den, h2]
  · have := h.one
    cases hc : w[p]? with
    | none => rw [List.drop_eq_nil_of_le (List.getElem?_eq_none_iff.1 hc)]; rfl
    | some c => rw [drop_get hc]; simp [Peg.den, this c hc]

theorem star (ha : Same w a (Peg.den Quick.env a')) (hp : ∀ {p p1 ts}, Mt w a p p1 ts → p < p1 ∧ p < w.length) :
    Same w (.star a) (Peg.den Quick.env (.star a')) ∧ ∀ {p p1 ts}, Mt w (.star a) p p1 ts → Peg.den Quick.env a' (w.drop p1) = none := by
  have key : ∀ {p p1 ts}, Mt w (.star a) p p1 ts → p ≤ p1 ∧ p1 - p = starD (Peg.den Quick.env a') (w.drop p) ∧
      Peg.den Quick.env a' (w.drop p1) = none := by
    intro p p1 ts h
    refine Mt.star (P := fun p p1 _ => p ≤ p1 ∧ p1 - p = starD (Peg.den Quick.env a') (w.drop p) ∧ Peg.den Quick.env a' (w.drop p1) = none)
      (fun {p p1 p2 us vs} h1 h2 => ?_) (fun {p} hf => ?_) h
    · obtain ⟨g1, g2, g3⟩ := h2
      obtain ⟨l1, e1⟩ := ha.mt h1
      obtain ⟨l2, l3⟩ := hp h1
      refine ⟨by omega, ?_, g3⟩
      obtain ⟨n, hn⟩ : ∃ n, p1 - p = n + 1 := ⟨p1 - p - 1, by omega⟩
      rw [starD, e1, hn]
      simp only
      rw [if_neg (by intro h; have := congrArg List.length h; simp at this; omega), List.drop_drop,
        show p + (n + 1) = p1 by omega, ← g2]
      omega
    · refine ⟨Nat.le_refl _, ?_, ha.fl hf⟩
      rw [starD, ha.fl hf]
      simp
  exact ⟨⟨fun h => ⟨(key h).1, Quick.den_star.2 (key h).2.1⟩, fun h => absurd h Fl.star⟩, fun h => (key h).2.2⟩

end Same

theorem quick_nt {r : Quick.Rule} {v : Option Nat} : (Peg.den Quick.env (.nt r v : Quick.E)) = Peg.den Quick.env (Quick.grammar r).body := by
  funext l
  rw [Quick.den_nt, Quick.env_eq]

theorem same_eol : Same w (.nt .r_EOL none) (Peg.den Quick.env (.nt .r_EOL none : Quick.E)) := by
  refine ⟨fun {p p1 ts} h => ?_, fun {p} h => ?_⟩
  · rcases h.eol.2 with ⟨h1, rfl⟩ | ⟨h1, h2, rfl⟩
    · refine ⟨by omega, ?_⟩
      rw [drop_get h1, Quick.den_nt, Quick.d_EOL_10, Nat.add_sub_cancel_left]
    · refine ⟨by omega, ?_⟩
      rw [drop_get h1, drop_get h2, Quick.den_nt, Quick.d_EOL_13, Nat.add_sub_cancel_left]
  · obtain ⟨h1, h2⟩ := h.eol
    cases hd : Peg.den Quick.env (.nt .r_EOL none : Quick.E) (w.drop p) with
    | none => rfl
    | some n =>
      exfalso
      rw [Quick.den_nt] at hd
      rcases Quick.d_EOL_some hd with ⟨t, e, -⟩ | ⟨t, e, -⟩
      · have e1 := congrArg (·[0]?) e
        simp only [List.getElem?_drop, List.getElem?_cons_zero, Nat.add_zero] at e1
        exact h1 e1
      · have e1 := congrArg (·[0]?) e
        have e2 := congrArg (·[1]?) e
        simp only [List.getElem?_drop, List.getElem?_cons_zero, List.getElem?_cons_succ, Nat.add_zero] at e1 e2
        exact h2 ⟨e1, e2⟩

theorem same_eof : Same w (.nt .r_EOF none) (Peg.den Quick.env (.nt .r_EOF none : Quick.E)) := by
  refine ⟨fun {p p1 ts} h => ?_, fun {p} h => ?_⟩
  · obtain ⟨rfl, -, h⟩ := h.eof
    refine ⟨Nat.le_refl _, ?_⟩
    rw [Quick.den_nt]
    exact Quick.d_EOF_some.2 ⟨List.drop_eq_nil_of_le (List.getElem?_eq_none_iff.1 h), by omega⟩
  · rw [Quick.den_nt]
    refine Quick.d_EOF_none.2 fun e => ?_
    rcases (h.nt : Fl w r_EOF p).seq with h | ⟨p1, us, -, h⟩
    · obtain ⟨p1, us, h⟩ := h.npeek
      obtain ⟨-, -, c, h⟩ := h.dot
      rw [drop_get h] at e; cases e
    · exact h.act

theorem same_line : Same w r_line_comment (Peg.den Quick.env (.nt .r_line_comment none : Quick.E)) := by
  rw [quick_nt]
  refine Same.seq .two (.pred nofun nofun (Same.seq (Same.star (Same.seq same_eol.npeek .dot) fun h => ?_).1
    (.pred nofun nofun (.act (Same.alt same_eol same_eof)))))
  obtain ⟨q, xs, ys, g1, g2, rfl⟩ := h.seq
  obtain ⟨rfl, -, -⟩ := g1.npeek
  obtain ⟨rfl, -, c, g4⟩ := g2.dot
  exact ⟨by omega, (List.getElem?_eq_some_iff.1 g4).1⟩

theorem same_block : Same w r_block_comment (Peg.den Quick.env (.nt .r_block_comment none : Quick.E)) := by
  rw [quick_nt]
  refine Same.seq .two (.pred nofun nofun (Same.seq (Same.star (Same.alt same_eol (Same.seq (Same.npeek .two) .dot)) fun h => ?_).1
    (.pred nofun nofun (.act (.onfail .two)))))
  rcases h.alt with h | ⟨-, h⟩
  · rcases h.eol.2 with ⟨g4, rfl⟩ | ⟨g4, -, rfl⟩
    · exact ⟨by omega, (List.getElem?_eq_some_iff.1 g4).1⟩
    · exact ⟨by omega, (List.getElem?_eq_some_iff.1 g4).1⟩
  · obtain ⟨q, xs, ys, g1, g2, rfl⟩ := h.seq
    obtain ⟨rfl, -, -⟩ := g1.npeek
    obtain ⟨rfl, -, c, g4⟩ := g2.dot
    exact ⟨by omega, (List.getElem?_eq_some_iff.1 g4).1⟩

theorem same_white : Same w (.nt .r_WS none) (Peg.den Quick.env (.nt .r_WS none : Quick.E)) := by
  rw [quick_nt]
  refine Same.nt (Same.alt (b := .nt .r_EOL none) (b' := .nt .r_EOL none) (Same.nt ?_) same_eol)
  rw [quick_nt]
  exact Same.one
theorem same_comment : Same w (.nt .r_comment none) (Peg.den Quick.env (.nt .r_comment none : Quick.E)) := by
  rw [quick_nt]
  exact Same.nt (Same.alt (Same.nt same_line) (Same.nt same_block))

/-- `-` of the parser and `-` of the quick parser match the same, and as much as possible. -/
theorem ws_same {p p' : Nat} {ts : List (Peg.Thunk Act)} (h : Mt w r_ws p p' ts) :
    p ≤ p' ∧ Quick.ws (w.drop p) = p' - p ∧ Quick.ws (w.drop p') = 0 := by
  obtain ⟨s1, s2⟩ := Same.star (w := w) (Same.alt same_white same_comment) (fun {p p1 ts} h => by
    rcases h.alt with h | ⟨-, h⟩
    · obtain ⟨us, h, -⟩ := h.nt
      rcases (h : Mt w r_WS p p1 us).alt with h | ⟨-, h⟩
      · obtain ⟨us, h, -⟩ := h.nt
        obtain ⟨rfl, -, c, g4, -⟩ := (h : Mt w r_HWS p p1 us).one
        exact ⟨by omega, (List.getElem?_eq_some_iff.1 g4).1⟩
      · rcases h.eol.2 with ⟨g4, rfl⟩ | ⟨g4, -, rfl⟩
        · exact ⟨by omega, (List.getElem?_eq_some_iff.1 g4).1⟩
        · exact ⟨by omega, (List.getElem?_eq_some_iff.1 g4).1⟩
    · obtain ⟨us, h, -⟩ := h.nt
      have key : 2 ≤ p1 - p ∧ p1 - p ≤ (w.drop p).length := by
        rcases (h : Mt w r_comment p p1 us).alt with h | ⟨-, h⟩
        · obtain ⟨us, h, -⟩ := h.nt
          have h := (same_line.mt h).2
          rw [Quick.den_nt] at h
          exact ⟨(Quick.lc_some h).1, (Quick.lc_some h).2.2⟩
        · obtain ⟨us, h, -⟩ := h.nt
          have h := (same_block.mt h).2
          rw [Quick.den_nt] at h
          exact ⟨(Quick.bc_some h).1, (Quick.bc_some h).2.2⟩
      rw [List.length_drop] at key
      exact ⟨by omega, by omega⟩)
  refine ⟨(s1.mt h).1, (Quick.den_star.1 (s1.mt h).2).symm, ?_⟩
  unfold Quick.ws
  rw [starD, s2 h]

/-! ## A statement or none -/

/-- The rules of white space. -/
def blankT : Rule → Bool
  | .r_ws | .r_WS | .r_HWS | .r_EOL | .r_EOF | .r__line_start_ | .r_comment | .r_line_comment | .r_block_comment => true
  | _ => false
theorem blankT_ok : ∀ r, blankT r = true → mute blankT (grammar r).body = true := by
  intro r; cases r <;> first | (intro h; cases h; done) | (intro _; decide +kernel)
theorem mute_still {e : E} {p p' : Nat} {ts : List (Peg.Thunk Act)} (he : mute blankT e = true) (h : Mt w e p p' ts) : Still ts := by
  obtain ⟨q, q', h⟩ := h
  exact h.mute blankT_ok he _ _ _ rfl

theorem fl_eof {p : Nat} (h : Fl w (.nt .r_EOF none) p) : ∃ c, w[p]? = some c := by
  rcases (h.nt : Fl w r_EOF p).seq with h | ⟨p1, us, -, h⟩
  · obtain ⟨p1, us, h⟩ := h.npeek
    exact h.dot.2.2
  · exact absurd h Fl.act
theorem fl_seq_act {a : E} {x : Act} {p : Nat} (h : Fl w (.seq a (.act x)) p) : Fl w a p := by
  rcases h.seq with h | ⟨p1, us, -, h⟩
  · exact h
  · exact absurd h Fl.act

theorem still_append {a b : List (Peg.Thunk Act)} (ha : Still a) (hb : Still b) : Still (a ++ b) := by
  intro i p hm
  rcases List.mem_append.1 hm with hm | hm
  · exact ha i p hm
  · exact hb i p hm

/-- The rules that end with a semicolon or at the end of the text. -/
def endT : Rule → Bool
  | .r_SEMICOLON | .r_EOF | .r_cypher_statement | .r_query | .r_clauses | .r__clauses | .r_schema_command => true
  | _ => false
def ends : E → Bool
  | .one m => m == .single 59
  | .npeek (.one m) => m == .any
  | .nt r _ => endT r
  | .seq a b => ends b || (ends a && idle b)
  | .alt a b => ends a && ends b
  | .onfail a _ => ends a
  | _ => false
theorem endT_ok : ∀ r, endT r = true → ends (grammar r).body = true := by
  intro r; cases r <;> first | (intro h; cases h; done) | (intro _; decide +kernel)

/-- Before a position there is a semicolon, or it is the end. -/
def Closes (w : List UInt8) (p : Nat) : Prop := w[p]? = none ∨ (0 < p ∧ w[p - 1]? = some 59)

theorem ends_sound {e : E} {p : Nat} {q : QState} {r : SkRes} (h : Sk w e p q r) : ends e = true → ∀ p' ts q', r = .ok p' ts q' →
    Closes w p' := by
  induction h with
  | @one_ok m p q c h1 h2 =>
    rintro he _ _ _ ⟨⟩
    simp only [ends, beq_iff_eq] at he
    subst he
    rw [single_mem] at h2
    simp only [decide_eq_true_eq] at h2
    subst h2
    exact .inr ⟨by omega, by rw [Nat.add_sub_cancel]; exact h1⟩
  | nt_ok _ ih => rintro he _ _ _ ⟨⟩; exact ih (endT_ok _ he) _ _ _ rfl
  | seq_ok _ h2 ih1 ih2 =>
    rintro he _ _ _ ⟨⟩
    simp only [ends, Bool.or_eq_true, Bool.and_eq_true] at he
    rcases he with he | ⟨he, hi⟩
    · exact ih2 he _ _ _ rfl
    · rw [idle_sound h2 hi _ _ _ rfl]
      exact ih1 he _ _ _ rfl
  | alt_ok _ ih =>
    intro he
    simp only [ends, Bool.and_eq_true] at he
    exact ih he.1
  | alt_no _ _ _ ih =>
    intro he
    simp only [ends, Bool.and_eq_true] at he
    exact ih he.2
  | @npeek_no a p q q1 h _ =>
    rintro he _ _ _ ⟨⟩
    cases h with
    | @one_no m _ _ h =>
      simp only [ends, beq_iff_eq] at he
      subst he
      left
      cases hc : w[p]? with
      | none => rfl
      | some c =>
        have := h c hc
        rw [any_mem] at this
        cases this
    | _ => cases he
  | onfail_ok _ ih => exact ih
  | eps => rintro ⟨⟩
  | str_ok => rintro ⟨⟩
  | star_more => rintro ⟨⟩
  | star_end => rintro ⟨⟩
  | peek_ok => rintro ⟨⟩
  | pred_ok => rintro ⟨⟩
  | act => rintro ⟨⟩
  | one_no => rintro - _ _ _ ⟨⟩
  | str_no => rintro - _ _ _ ⟨⟩
  | nt_no => rintro - _ _ _ ⟨⟩
  | seq_no => rintro - _ _ _ ⟨⟩
  | seq_no2 => rintro - _ _ _ ⟨⟩
  | peek_no => rintro - _ _ _ ⟨⟩
  | npeek_ok => rintro - _ _ _ ⟨⟩
  | pred_no => rintro - _ _ _ ⟨⟩
  | onfail_no => rintro - _ _ _ ⟨⟩

/-- The last alternative of `__statement` and `__directive`. -/
def given : E := .seq (.nt .r_cypher_statement (some 0)) (.act (.result (some 0)))
/-- What it records. -/
def Made (ts : List (Peg.Thunk Act)) : Prop :=
  ∃ p2 p3 n2 args rest, ts = .act (.result (some 0)) p2 :: .set 0 :: .pop n2 :: .act (.build .self .statement args) p3 :: rest

theorem given_made {p p' : Nat} {ts : List (Peg.Thunk Act)} (h : Mt w given p p' ts) : Made ts ∧ w[p]? ≠ some 58 ∧ Closes w p' := by
  obtain ⟨p4, us4, vs4, h9, h10, rfl⟩ := (h : Mt w (.seq _ _) p p' ts).seq
  obtain ⟨rfl, rfl⟩ := h10.act
  refine ⟨?_, fun hc => ?_, ?_⟩
  · obtain ⟨us5, h11, rfl⟩ := h9.nt
    obtain ⟨p5, us6, vs6, -, h12, rfl⟩ := (h11 : Mt w r_cypher_statement p p' us5).seq
    obtain ⟨p6, us7, vs7, -, h13, rfl⟩ := h12.seq
    obtain ⟨p7, us8, vs8, -, h14, rfl⟩ := h13.seq
    obtain ⟨p8, us9, vs9, -, h15, rfl⟩ := h14.seq
    obtain ⟨p9, us10, vs10, -, h16, rfl⟩ := h15.seq
    obtain ⟨rfl, rfl⟩ := h16.act
    exact ⟨_, _, _, _, _, rfl⟩
  · obtain ⟨q, q', h9⟩ := h9
    have := (edge_sound h9 _ hc 12 _ _ _ rfl).1
    rw [show (edge 58 (edgeN 58 12) (.nt .r_cypher_statement (some 0))).1 = true by decide +kernel] at this
    cases this
  · obtain ⟨q, q', h9⟩ := h9
    exact ends_sound h9 rfl _ _ _ rfl

/-- After white space there is a statement, which is made the result, or a semicolon or the end. -/
structure Fronts (w : List UInt8) (p p1 p' : Nat) (P Q : Prop) : Prop where
  le : p ≤ p1
  ws : Quick.ws (w.drop p) = p1 - p
  more : Quick.ws (w.drop p1) = 0
  colon : w[p1]? ≠ some 58
  closes : Closes w p'
  text : (P ∧ (w[p1]? = none ∨ w[p1]? = some 59)) ∨ (Q ∧ ∃ c, w[p1]? = some c ∧ c ≠ 59)

theorem front_inner {X : E} (hX : ∀ {p p' ts}, Mt w X p p' ts → Unspoilt ts → Mt w given p p' ts) {p p' : Nat}
    {ts : List (Peg.Thunk Act)} (h : Mt w (.alt (.seq (.nt .r_EOF none) (.act (.result none))) (.alt (.seq (.nt .r_SEMICOLON none)
      (.act (.result none))) X)) p p' ts) (hn : Unspoilt ts) :
    w[p]? ≠ some 58 ∧ Closes w p' ∧ ((Still ts ∧ (w[p]? = none ∨ w[p]? = some 59)) ∨ (Made ts ∧ ∃ c, w[p]? = some c ∧ c ≠ 59)) := by
  rcases h.alt with h7 | ⟨f7, h7⟩
  · obtain ⟨p4, us4, vs4, h8, h9, rfl⟩ := h7.seq
    obtain ⟨rfl, rfl⟩ := h9.act
    obtain ⟨rfl, rfl, h10⟩ := h8.eof
    refine ⟨by rw [h10]; nofun, .inl h10, .inl ⟨?_, .inl h10⟩⟩
    intro i p hm
    simp [leaveT, enterT, grammar] at hm
  rcases h7.alt with h8 | ⟨f8, h8⟩
  · obtain ⟨p4, us4, vs4, h9, h10, rfl⟩ := h8.seq
    obtain ⟨rfl, rfl⟩ := h10.act
    obtain ⟨rfl, rfl, h11⟩ := (h9.nt0 rfl : Mt w r_SEMICOLON p p' us4).onfail.chr
    refine ⟨by rw [h11]; decide, .inr ⟨by omega, by rw [Nat.add_sub_cancel]; exact h11⟩, .inl ⟨?_, .inr h11⟩⟩
    intro i p hm
    simp [setT, leaveT, enterT, grammar] at hm
  · obtain ⟨c, hc⟩ := fl_eof (fl_seq_act f7)
    obtain ⟨g1, g2, g3⟩ := given_made (hX h8 hn)
    exact ⟨g2, g3, .inr ⟨g1, c, hc, fun e => ((fl_seq_act f8).nt : Fl w r_SEMICOLON p).onfail.chr (e ▸ hc)⟩⟩

theorem front_outer {X : Rule} (hv : (grammar X).nvars = 1) (hX : ∀ {p p' ts}, Mt w (grammar X).body p p' ts → Unspoilt ts →
      w[p]? ≠ some 58 ∧ Closes w p' ∧ ((Still ts ∧ (w[p]? = none ∨ w[p]? = some 59)) ∨ (Made ts ∧ ∃ c, w[p]? = some c ∧ c ≠ 59)))
    (hE : ∀ {p}, Fl w (grammar X).body p → ∃ c, w[p]? = some c) {skip self : Rule} (hk : kind skip = .absent) {p p' : Nat}
    {ts us : List (Peg.Thunk Act)} (h : Mt w (.alt (.seq (.nt X none) (.act .finished)) (.seq (.nt .r__error_ none) (.seq
      (.alt (.nt .r_EOF none) (.nt skip none)) (.nt self none)))) p p' ts) (hn : Unspoilt ts) (hs : Still us) :
    w[p]? ≠ some 58 ∧ Closes w p' ∧
      ((Still (ts ++ us) ∧ (w[p]? = none ∨ w[p]? = some 59)) ∨ (Sets (ts ++ us) ∧ ∃ c, w[p]? = some c ∧ c ≠ 59)) := by
  rcases h.alt with h3 | ⟨f3, h3⟩
  · obtain ⟨p2, us2, vs2, h4, h5, rfl⟩ := h3.seq
    obtain ⟨rfl, rfl⟩ := h5.act
    obtain ⟨us3, h6, rfl⟩ := h4.nt
    obtain ⟨g1, g2, g3⟩ := hX h6 hn.right.right.right.left
    refine ⟨g1, g2, ?_⟩
    rcases g3 with ⟨g3, g4⟩ | ⟨⟨q2, q3, n2, args, rest, rfl⟩, g4⟩
    · refine .inl ⟨still_append (still_append ?_ (still_append ?_ (still_append ?_ (still_append g3 ?_)))) hs, g4⟩
      · intro i p hm; simp at hm
      · intro i p hm; simp [setT] at hm
      · intro i p hm; unfold leaveT at hm; split at hm <;> simp at hm
      · intro i p hm; unfold enterT at hm; split at hm <;> simp at hm
    · rw [hv]
      exact .inr ⟨⟨_, _, _, _, _, _, _, rfl⟩, g4⟩
  · exfalso
    obtain ⟨c, hc⟩ := hE ((fl_seq_act f3).nt : Fl w (grammar X).body p)
    obtain ⟨p2, us2, vs2, h4, h5, rfl⟩ := h3.seq
    obtain ⟨rfl, -⟩ := (h4.nt0 rfl : Mt w r__error_ p p2 us2).pred
    obtain ⟨p3, us3, vs3, h6, h7, rfl⟩ := h5.seq
    rcases h6.alt with h6 | ⟨-, h6⟩
    · rw [h6.eof.2.2] at hc; cases hc
    · obtain ⟨us4, h8, rfl⟩ := h6.nt
      exact kind_absent hk h8 (hn.left.right.right.right.left)

theorem front {only : Bool} {p p' : Nat} {ts : List (Peg.Thunk Act)} (h : Mt w (.nt (startRule only) none) p p' ts)
    (hn : Unspoilt ts) : ∃ p1, Fronts w p p1 p' (Still ts) (Sets ts) := by
  cases only with
  | true =>
    obtain ⟨p1, us, vs, h1, h2, rfl⟩ := (h.nt0 rfl : Mt w r_statement p p' ts).seq
    have hs := mute_still (by decide +kernel) h1
    obtain ⟨k1, k2, k3⟩ := ws_same (h1.nt0 rfl : Mt w r_ws p p1 us)
    obtain ⟨g1, g2, g3⟩ := front_outer (X := .r___statement) rfl (fun h hn => front_inner (fun h _ => h) h hn)
      (fun h => fl_eof (fl_seq_act h.alt.1)) (skip := .r_skip_to_statement) rfl (h2.nt0 rfl : Mt w r__statement p1 p' vs) hn.left hs
    exact ⟨p1, k1, k2, k3, g1, g2, g3⟩
  | false =>
    obtain ⟨p1, us, vs, h1, h2, rfl⟩ := (h.nt0 rfl : Mt w r_directive p p' ts).seq
    have hs := mute_still (by decide +kernel) h1
    obtain ⟨k1, k2, k3⟩ := ws_same (h1.nt0 rfl : Mt w r_ws p p1 us)
    obtain ⟨g1, g2, g3⟩ := front_outer (X := .r___directive) rfl (fun h hn => front_inner (fun h hn => by
        rcases h.alt with h | ⟨-, h⟩
        · exfalso
          obtain ⟨p4, us4, vs4, h9, h10, rfl⟩ := h.seq
          obtain ⟨us5, h11, rfl⟩ := h9.nt
          exact kind_absent (r := .r_client_command) rfl h11 hn.right.right.right.left
        · exact h) h hn)
      (fun h => fl_eof (fl_seq_act h.alt.1)) (skip := .r_skip_to_directive) rfl (h2.nt0 rfl : Mt w r__directive p1 p' vs) hn.left hs
    exact ⟨p1, k1, k2, k3, g1, g2, g3⟩

/-- There is text where there is a statement. -/
theorem front_text {l : List UInt8} {n : Nat} (h1 : Quick.ws l = n) (h2 : Quick.ws (l.drop n) = 0) :
    ((l[n]? = none ∨ l[n]? = some 59) → ¬ Quick.stBegin l < Quick.stEnd l) ∧
    ((∃ c, l[n]? = some c ∧ c ≠ 59) → Quick.stBegin l < Quick.stEnd l) := by
  obtain ⟨l1, l2⟩ := Quick.stTerm_live l
  obtain ⟨e1, e2, e3⟩ := Quick.stEnd_le l
  have hb : Quick.stBegin l = n := h1
  constructor
  · intro hc
    have := (Quick.ws_step l).1
    rw [h1] at this
    have h0 : live .normal 0 (l.drop n) = 0 := by
      rcases hc with hc | hc
      · rw [List.drop_eq_nil_of_le (List.getElem?_eq_none_iff.1 hc)]; simp [live]
      · rw [drop_get hc]; simp [live]
    rw [h0] at this
    omega
  · rintro ⟨c, hc, hne⟩
    by_contra hn
    have he : Quick.stEnd l = n := by omega
    have ht : Quick.stTerm l = n := by unfold Quick.stTerm; rw [he, h2, Nat.add_zero]
    have hlt := (List.getElem?_eq_some_iff.1 hc).1
    rw [ht] at l2
    rcases l2 with l2 | l2
    · rw [hc] at l2; cases l2; exact hne rfl
    · omega

end Verif.Cypher.Scan
