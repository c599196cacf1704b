import Verif.Cypher.Front
/-!
# Client commands in the two grammars

What the parser matches as a client command, the quick parser matches as one.
-/
namespace Verif.Cypher.Scan
open Verif.Peg
open Verif.Quick (isEsc qLoop)

variable {w : List UInt8}

/-! ## Repetition -/

/-- Repeating `f` goes from one place to another. -/
def Goes (w : List UInt8) (f : List UInt8 → Option Nat) (p p' : Nat) : Prop :=
  p ≤ p' ∧ starD f (w.drop p) = (p' - p) + starD f (w.drop p')

theorem Goes.refl {f : List UInt8 → Option Nat} {p : Nat} : Goes w f p p := ⟨Nat.le_refl _, by omega⟩
theorem Goes.trans {f : List UInt8 → Option Nat} {p k p' : Nat} (h1 : Goes w f p k) (h2 : Goes w f k p') : Goes w f p p' := by
  obtain ⟨a1, a2⟩ := h1
  obtain ⟨b1, b2⟩ := h2
  exact ⟨by omega, by omega⟩
theorem Goes.step {f : List UInt8 → Option Nat} {p p' : Nat} (hl : p < p') (hp : p < w.length) (h : f (w.drop p) = some (p' - p)) :
    Goes w f p p' := by
  refine ⟨by omega, ?_⟩
  obtain ⟨n, hn⟩ : ∃ n, p' - p = n + 1 := ⟨p' - p - 1, by omega⟩
  rw [starD, h, hn]
  simp only
  rw [if_neg (by intro h; have := congrArg List.length h; simp at this; omega), List.drop_drop, show p + (n + 1) = p' by omega]
theorem stop {f : List UInt8 → Option Nat} {l : List UInt8} (h : f l = none) : starD f l = 0 := by rw [starD, h]

/-! ## The body of a command -/

/-- What is repeated in `command-body` (quick_parser.leg:21-29). -/
def item : Quick.E :=
  .alt (.nt .r_escaped_char none) (.alt (.str [92, 59]) (.alt (.seq (.chr 92) (.seq (.nt .r_hws none) (.nt .r_line_end none)))
    (.alt (.nt .r_block_comment none) (.alt (.nt .r_unclosed_block_comment none) (.alt (.nt .r_quoted none) (.seq (.npeek
    (.alt (.chr 59) (.seq (.nt .r_hws none) (.nt .r_line_end none)))) .dot))))))
/-- `hws line-end`. -/
def eol : Quick.E := .seq (.nt .r_hws none) (.nt .r_line_end none)
abbrev qd : Quick.E → List UInt8 → Option Nat := Peg.den Quick.env

theorem no_esc {l : List UInt8} (h : l.head? ≠ some 92) : Quick.env .r_escaped_char l = none := by
  rw [Quick.d_esc]
  match l with
  | [] => rfl
  | [_] => rfl
  | c :: d :: t =>
    have : c ≠ 92 := fun e => h (by rw [e]; rfl)
    simp [this]
theorem no_chr {c : UInt8} {l : List UInt8} (h : l.head? ≠ some c) : qd (.chr c) l = none :=
  Quick.den_chr_none.2 fun ⟨t, e⟩ => h (by rw [e]; rfl)
theorem no_two {c d : UInt8} {l : List UInt8} (h : l.head? ≠ some c) : qd (.str [c, d]) l = none :=
  Quick.den_str2_none.2 fun ⟨t, e⟩ => h (by rw [e]; rfl)
theorem no_slash {e : Quick.E} {l : List UInt8} (h : l.head? ≠ some 92) : qd (.seq (.chr 92) e) l = none :=
  Quick.den_seq_none.2 (.inl (no_chr h))
theorem no_block {l : List UInt8} (h : ¬ ∃ t, l = 47 :: 42 :: t) : Quick.env .r_block_comment l = none := by
  rw [Quick.env_eq]
  exact Quick.den_seq_none.2 (.inl (Quick.den_str2_none.2 h))
theorem no_open {l : List UInt8} (h : ¬ ∃ t, l = 47 :: 42 :: t) : Quick.env .r_unclosed_block_comment l = none := by
  rw [Quick.env_eq]
  exact Quick.den_seq_none.2 (.inl (Quick.den_str2_none.2 h))
theorem no_single {l : List UInt8} (h : l.head? ≠ some 39) : Quick.env .r_single_quoted l = none := by
  rw [Quick.env_eq]
  exact Quick.den_seq_none.2 (.inl (no_chr h))
theorem no_double {l : List UInt8} (h : l.head? ≠ some 34) : Quick.env .r_double_quoted l = none := by
  rw [Quick.env_eq]
  exact Quick.den_seq_none.2 (.inl (no_chr h))
theorem no_quoted {l : List UInt8} (h1 : l.head? ≠ some 39) (h2 : l.head? ≠ some 34) : Quick.env .r_quoted l = none := by
  rw [Quick.env_eq]
  exact Quick.den_alt_none.2 ⟨no_single h1, no_double h2⟩

theorem head_not {l : List UInt8} {c d : UInt8} (h : l.head? ≠ some c) : ¬ ∃ t, l = c :: d :: t := fun ⟨t, e⟩ => h (by rw [e]; rfl)

theorem item_esc {l : List UInt8} {n : Nat} (h : Quick.env .r_escaped_char l = some n) : qd item l = some n :=
  Quick.den_alt_some.2 (.inl h)
theorem item_semi {t : List UInt8} : qd item (92 :: 59 :: t) = some 2 := by
  refine Quick.den_alt_some.2 (.inr ⟨?_, Quick.den_alt_some.2 (.inl (Quick.den_str2_some.2 ⟨t, rfl, rfl⟩))⟩)
  rw [Quick.den_nt, Quick.d_esc]
  simp [isEsc]
theorem item_more {t : List UInt8} {n : Nat} (h1 : Quick.env .r_escaped_char (92 :: t) = none) (h2 : t.head? ≠ some 59)
    (h3 : qd eol t = some n) : qd item (92 :: t) = some (1 + n) := by
  refine Quick.den_alt_some.2 (.inr ⟨h1, Quick.den_alt_some.2 (.inr ⟨Quick.den_str2_none.2 ?_, Quick.den_alt_some.2 (.inl
    (Quick.den_seq_some.2 ⟨1, n, Quick.den_chr_some.2 ⟨t, rfl, rfl⟩, h3, rfl⟩))⟩)⟩)
  rintro ⟨u, e⟩
  rw [(List.cons.inj e).2] at h2
  exact h2 rfl
theorem item_block {l : List UInt8} {n : Nat} (h : Quick.env .r_block_comment l = some n) (h1 : l.head? ≠ some 92) : qd item l = some n :=
  Quick.den_alt_some.2 (.inr ⟨no_esc h1, Quick.den_alt_some.2 (.inr ⟨no_two h1, Quick.den_alt_some.2 (.inr ⟨no_slash h1,
    Quick.den_alt_some.2 (.inl h)⟩)⟩)⟩)
/-- The last three alternatives. -/
theorem item_tail {l : List UInt8} (h1 : l.head? ≠ some 92) (h2 : ¬ ∃ t, l = 47 :: 42 :: t) :
    qd item l = qd (.alt (.nt .r_quoted none) (.seq (.npeek (.alt (.chr 59) eol)) .dot)) l := by
  show Peg.den _ _ _ = _
  unfold item eol
  rw [Peg.den, show Peg.den Quick.env (.nt .r_escaped_char none : Quick.E) l = none from no_esc h1]
  simp only
  rw [Peg.den, show Peg.den Quick.env (.str [92, 59] : Quick.E) l = none from no_two h1]
  simp only
  rw [Peg.den, show Peg.den Quick.env (.seq (.chr 92) (.seq (.nt .r_hws none) (.nt .r_line_end none)) : Quick.E) l = none from no_slash h1]
  simp only
  rw [Peg.den, show Peg.den Quick.env (.nt .r_block_comment none : Quick.E) l = none from no_block h2]
  simp only
  rw [Peg.den, show Peg.den Quick.env (.nt .r_unclosed_block_comment none : Quick.E) l = none from no_open h2]
theorem item_quoted {l : List UInt8} {n : Nat} (h : Quick.env .r_quoted l = some n) (h1 : l.head? ≠ some 92) (h2 : l.head? ≠ some 47) :
    qd item l = some n := by
  rw [item_tail h1 (head_not h2)]
  exact Quick.den_alt_some.2 (.inl h)
theorem item_byte {c : UInt8} {t : List UInt8} (h1 : c ≠ 92) (h2 : ¬ ∃ u, c :: t = 47 :: 42 :: u) (h3 : c ≠ 39) (h4 : c ≠ 34) (h5 : c ≠ 59)
    (h6 : qd eol (c :: t) = none) : qd item (c :: t) = some 1 := by
  rw [item_tail (by simpa using h1) h2]
  refine Quick.den_alt_some.2 (.inr ⟨no_quoted (by simpa using h3) (by simpa using h4), Quick.den_seq_some.2 ⟨0, 1,
    Quick.den_npeek_some.2 ⟨Quick.den_alt_none.2 ⟨no_chr (by simpa using h5), h6⟩, rfl⟩, ?_, rfl⟩⟩)
  exact Quick.den_dot_some.2 ⟨c, t, rfl, rfl⟩
theorem item_none {l : List UInt8} (h1 : l.head? ≠ some 92) (h2 : ¬ ∃ t, l = 47 :: 42 :: t) (h3 : l.head? ≠ some 39) (h4 : l.head? ≠ some 34)
    (h5 : l.head? = some 59 ∨ ∃ k, qd eol l = some k) : qd item l = none := by
  rw [item_tail h1 h2]
  refine Quick.den_alt_none.2 ⟨no_quoted h3 h4, Quick.den_seq_none.2 (.inl (Quick.den_npeek_none.2 ?_))⟩
  rcases h5 with h5 | ⟨k, h5⟩
  · cases l with
    | nil => cases h5
    | cons c t =>
      cases h5
      exact ⟨1, Quick.den_alt_some.2 (.inl (Quick.den_chr_some.2 ⟨t, rfl, rfl⟩))⟩
  · by_cases h : l.head? = some 59
    · cases l with
      | nil => cases h
      | cons c t =>
        cases h
        exact ⟨1, Quick.den_alt_some.2 (.inl (Quick.den_chr_some.2 ⟨t, rfl, rfl⟩))⟩
    · exact ⟨k, Quick.den_alt_some.2 (.inr ⟨no_chr h, h5⟩)⟩

/-! ## The ends of lines -/

theorem same_line_end {v : Option Nat} : Same w (.nt .r_line_end v) (Quick.env .r_line_end) := by
  have : (Quick.env .r_line_end) = Peg.den Quick.env (Quick.grammar .r_line_end).body := by funext l; rw [Quick.env_eq]
  rw [this]
  exact Same.nt (Same.alt (Same.nt same_line) (Same.alt same_eol same_eof))

theorem line_end_some {l : List UInt8} {k : Nat} (h : Quick.env .r_line_end l = some k) :
    l = [] ∨ (∃ t, l = 47 :: 47 :: t) ∨ (∃ t, l = 10 :: t) ∨ ∃ t, l = 13 :: t := by
  rw [Quick.env_eq] at h
  rcases Quick.den_alt_some.1 h with h | ⟨-, h⟩
  · rw [Quick.den_nt, Quick.env_eq] at h
    obtain ⟨i, j, h1, -, -⟩ := Quick.den_seq_some.1 h
    obtain ⟨t, e, -⟩ := Quick.den_str2_some.1 h1
    exact .inr (.inl ⟨t, e⟩)
  rcases Quick.den_alt_some.1 h with h | ⟨-, h⟩
  · rcases Quick.d_EOL_some h with ⟨t, e, -⟩ | ⟨t, e, -⟩
    · exact .inr (.inr (.inl ⟨t, e⟩))
    · exact .inr (.inr (.inr ⟨_, e⟩))
  · exact .inl (Quick.d_EOF_some.1 h).1
theorem line_end_none {l : List UInt8} {c : UInt8} (hc : l.head? = some c) (h1 : c ≠ 47) (h2 : c ≠ 10) (h3 : c ≠ 13) :
    Quick.env .r_line_end l = none := by
  cases h : Quick.env .r_line_end l with
  | none => rfl
  | some k =>
    rcases line_end_some h with rfl | ⟨t, rfl⟩ | ⟨t, rfl⟩ | ⟨t, rfl⟩
    · cases hc
    · cases hc; exact absurd rfl h1
    · cases hc; exact absurd rfl h2
    · cases hc; exact absurd rfl h3

/-- What `--` repeats. -/
def gap : Quick.E := .alt (.nt .r_HWS none) (.nt .r_block_comment none)
theorem env_hws (l : List UInt8) : Quick.env .r_hws l = some (starD (qd gap) l) := by rw [Quick.env_eq]; rfl
theorem eol_some {l : List UInt8} {k : Nat} (h : Quick.env .r_line_end (l.drop (starD (qd gap) l)) = some k) : ∃ k, qd eol l = some k :=
  ⟨_, Quick.den_seq_some.2 ⟨_, _, env_hws l, h, rfl⟩⟩
theorem eol_none {l : List UInt8} (h : Quick.env .r_line_end (l.drop (starD (qd gap) l)) = none) : qd eol l = none :=
  Quick.den_seq_none.2 (.inr ⟨_, env_hws l, h⟩)

/-- Where there is no white space. -/
theorem gap_none {l : List UInt8} (h1 : l.head? ≠ some 32) (h2 : l.head? ≠ some 9) (h3 : ¬ ∃ t, l = 47 :: 42 :: t) : qd gap l = none := by
  refine Quick.den_alt_none.2 ⟨?_, no_block h3⟩
  rw [Quick.den_nt, Quick.env_eq]
  cases l with
  | nil => rfl
  | cons c t =>
    show Peg.den _ (.one _) _ = _
    simp only [Peg.den]
    rw [show (⟨0x100000200⟩ : CharSet).mem c = false by
      rw [Quick.hws_mem]; simp at h1 h2 ⊢; exact ⟨h1, h2⟩]
    rfl

theorem same_hws : Same w (.nt .r_HWS none) (Peg.den Quick.env (.nt .r_HWS none : Quick.E)) := by
  rw [quick_nt]
  exact Same.nt Same.one
theorem same_block_nt : Same w (.nt .r_block_comment none) (Peg.den Quick.env (.nt .r_block_comment none : Quick.E)) := Same.nt same_block

/-- White space within a line: all of it belongs to the body if something follows, and of it that before the end of the line
which follows a comment. -/
theorem hws_run {p p' : Nat} {ts : List (Peg.Thunk Act)} (h : Mt w r_hws p p' ts) : p ≤ p' ∧ starD (qd gap) (w.drop p) = p' - p ∧
    starD (qd gap) (w.drop p') = 0 ∧ (Quick.env .r_line_end (w.drop p') = none → Goes w (qd item) p p') ∧
    ∀ k, Quick.env .r_line_end (w.drop p') = some k → ∃ m, m ≤ p' ∧ Goes w (qd item) p m ∧ qd item (w.drop m) = none ∧
      starD (qd gap) (w.drop m) = p' - m := by
  refine Mt.star (P := fun p p' _ => p ≤ p' ∧ starD (qd gap) (w.drop p) = p' - p ∧ starD (qd gap) (w.drop p') = 0 ∧
    (Quick.env .r_line_end (w.drop p') = none → Goes w (qd item) p p') ∧
    ∀ k, Quick.env .r_line_end (w.drop p') = some k → ∃ m, m ≤ p' ∧ Goes w (qd item) p m ∧ qd item (w.drop m) = none ∧
      starD (qd gap) (w.drop m) = p' - m) (fun {p p1 p2 us vs} h1 h2 => ?_) (fun {p} hf => ?_) h
  · obtain ⟨l2, s2, z2, g2, e2⟩ := h2
    have hg := (Same.alt same_hws same_block_nt).mt h1
    rcases h1.alt with h1 | ⟨-, h1⟩
    · obtain ⟨us1, h1, -⟩ := h1.nt
      obtain ⟨rfl, -, c, hc, hm⟩ := (h1 : Mt w r_HWS p p1 us1).one
      have hlt := (List.getElem?_eq_some_iff.1 hc).1
      have hgo : Goes w (qd gap) p (p + 1) := Goes.step (by omega) hlt hg.2
      have hs : starD (qd gap) (w.drop p) = p2 - p := by rw [hgo.2, s2]; omega
      have hd := drop_get hc
      rw [show (⟨0x100000200⟩ : CharSet).mem c = _ from Quick.hws_mem c] at hm
      simp only [decide_eq_true_eq] at hm
      have hdd : (w.drop p).drop (starD (qd gap) (w.drop p)) = w.drop p2 := by
        rw [hs, List.drop_drop]; congr 1; omega
      refine ⟨by omega, hs, z2, fun hn => ?_, fun k hk => ⟨p, by omega, .refl, ?_, hs⟩⟩
      · refine Goes.trans (Goes.step (by omega) hlt ?_) (g2 hn)
        have h6 : qd eol (w.drop p) = none := eol_none (by rw [hdd]; exact hn)
        rw [hd] at h6 ⊢
        rw [Nat.add_sub_cancel_left]
        rcases hm with rfl | rfl <;> exact item_byte (by decide) (by simp) (by decide) (by decide) (by decide) h6
      · have h6 := eol_some (l := w.drop p) (k := k) (by rw [hdd]; exact hk)
        rw [hd] at h6 ⊢
        rcases hm with rfl | rfl <;> exact item_none (by simp) (by simp) (by simp) (by simp) (.inr h6)
    · have hb := (same_block_nt.mt h1).2
      rw [Quick.den_nt] at hb
      obtain ⟨b1, -, b2⟩ := Quick.bc_some hb
      rw [List.length_drop] at b2
      have hgo : Goes w (qd gap) p p1 := Goes.step (by omega) (by omega) hg.2
      have hh : (w.drop p).head? ≠ some 92 := by
        intro e
        rw [no_block (by rintro ⟨t, et⟩; rw [et] at e; cases e)] at hb
        cases hb
      have hit : Goes w (qd item) p p1 := Goes.step (by omega) (by omega) (item_block hb hh)
      refine ⟨by omega, by rw [hgo.2, s2]; omega, z2, fun hn => hit.trans (g2 hn), fun k hk => ?_⟩
      obtain ⟨m, m1, m2, m3, m4⟩ := e2 k hk
      exact ⟨m, m1, hit.trans m2, m3, m4⟩
  · have hz : starD (qd gap) (w.drop p) = 0 := stop ((Same.alt same_hws same_block_nt).fl hf)
    refine ⟨Nat.le_refl _, by rw [hz]; omega, hz, fun _ => .refl, fun k hk => ⟨p, Nat.le_refl _, .refl, ?_, by rw [hz]; omega⟩⟩
    have h6 := eol_some (l := w.drop p) (k := k) (by rw [hz]; exact hk)
    have h7 := line_end_some hk
    generalize w.drop p = l at *
    rcases h7 with rfl | ⟨t, rfl⟩ | ⟨t, rfl⟩ | ⟨t, rfl⟩ <;> exact item_none (by simp) (by simp) (by simp) (by simp) (.inr h6)

/-! ## Quoted text -/

theorem loop_quoted {q : UInt8} (hq : q = 39 ∨ q = 34) {p p' : Nat} {ts : List (Peg.Thunk Act)} (h : Mt w (quotedBody q) p p' ts) :
    Goes w (qd (qLoop q)) p p' := by
  refine Mt.star (P := fun p p' _ => Goes w (qd (qLoop q)) p p') (fun {p p1 p2 us vs} h hx => .trans ?_ hx) (fun _ => .refl) h
  rcases h.alt with h | ⟨-, h⟩
  · obtain ⟨d, v, h1, h2, h3, rfl, rfl⟩ := escaped_char_inv h
    refine Goes.step (by omega) (List.getElem?_eq_some_iff.1 h2).1 (Quick.den_alt_some.2 (.inl ?_))
    rw [Quick.den_nt, Quick.d_esc, drop_get h2, drop_get h3]
    simp [escape_isEsc h1]
  rcases h.alt with h | ⟨-, h⟩
  · obtain ⟨k1, us1, vs1, a1, b1, rfl⟩ := h.seq
    obtain ⟨k2, us2, vs2, a2, b2, rfl⟩ := b1.seq
    obtain ⟨k3, us3, vs3, a3, b3, rfl⟩ := b2.seq
    clear b1 b2
    obtain ⟨e, -⟩ := a1.pred
    rw [e] at a2
    obtain ⟨e, -⟩ := b3.act
    rw [← e] at a3
    obtain ⟨e, -⟩ := a3.pred
    rw [← e] at a2
    have hs := same_eol.mt a2
    have key : ∀ c, w[p]? = some c → c ≠ 92 → p < p1 → Goes w (qd (qLoop q)) p p1 := fun c hc hne hl => by
      refine Goes.step hl (List.getElem?_eq_some_iff.1 hc).1 (Quick.den_alt_some.2 (.inr ⟨no_esc ?_, Quick.den_alt_some.2 (.inl hs.2)⟩))
      rw [drop_get hc]; simpa using hne
    rcases a2.eol.2 with ⟨e1, e2⟩ | ⟨e1, -, e2⟩
    · exact key _ e1 (by decide) (by omega)
    · exact key _ e1 (by decide) (by omega)
  · obtain ⟨k1, us1, vs1, a1, b1, rfl⟩ := h.seq
    obtain ⟨k2, us2, vs2, a2, b2, rfl⟩ := b1.seq
    obtain ⟨k3, us3, vs3, a3, b3, rfl⟩ := b2.seq
    clear b1 b2
    obtain ⟨e, -⟩ := a1.pred
    rw [e] at a2
    obtain ⟨e, -⟩ := b3.act
    rw [← e] at a3
    obtain ⟨e, -⟩ := a3.pred
    rw [← e] at a2
    obtain ⟨-, e1, e2, -⟩ := plus_run (Q := fun k => k < w.length ∧ qd (qLoop q) (w.drop k) = some 1) (fun p p1 us hm => by
        obtain ⟨r, xs, ys, g1, g2, rfl⟩ := hm.seq
        obtain ⟨e, rfl, g3⟩ := g1.npeek
        replace e := e.symm
        subst e
        obtain ⟨rfl, rfl, c, g4⟩ := g2.dot
        obtain ⟨f1, f2⟩ := g3.alt
        obtain ⟨f2, f3⟩ := f2.alt
        refine ⟨rfl, rfl, (List.getElem?_eq_some_iff.1 g4).1, Quick.den_alt_some.2 (.inr ⟨?_, Quick.den_alt_some.2 (.inr
          ⟨same_eol.fl f3, Quick.den_seq_some.2 ⟨0, 1, Quick.den_npeek_some.2 ⟨no_chr ?_, rfl⟩, Quick.den_dot_some.2
            ⟨c, _, by rw [List.drop_zero]; exact drop_get g4, rfl⟩, rfl⟩⟩)⟩)⟩
        · rw [Quick.den_nt]
          cases hx : Quick.env .r_escaped_char (w.drop p) with
          | none => rfl
          | some n =>
            exfalso
            obtain ⟨d, t, e, hd, -⟩ := Quick.esc_some hx
            have k1 : w[p]? = some 92 := by have := congrArg (·[0]?) e; simpa using this
            have k2 : w[p + 1]? = some d := by have := congrArg (·[1]?) e; simpa using this
            obtain ⟨v, hv⟩ := isEsc_escape hd
            refine absurd hv (no_escaped_char f2 k1 (p + 2) d v ?_)
            rw [ext_cons k2 (by omega)]; rfl
        · rw [drop_get g4]
          intro e
          simp only [List.head?_cons, Option.some.injEq] at e
          exact f1.chr (e ▸ g4)) a2
    have run : ∀ n k, k + n = p1 → p ≤ k → Goes w (qd (qLoop q)) k p1 := by
      intro n
      induction n with
      | zero => rintro k rfl -; exact .refl
      | succ n ih =>
        intro k hk hle
        obtain ⟨k1, k2⟩ := e2 k hle (by omega)
        exact (Goes.step (p' := k + 1) (by omega) k1 (by rw [Nat.add_sub_cancel_left]; exact k2)).trans (ih (k + 1) (by omega) (by omega))
    exact run (p1 - p) p (by omega) (Nat.le_refl _)

theorem quote_same {q : UInt8} {n : Nat} (hq : q = 39 ∨ q = 34) {p p' : Nat} {ts : List (Peg.Thunk Act)}
    (h : Mt w (.seq (.chr q) (.seq (quotedBody q) (.onfail (.chr q) (.err n)))) p p' ts) : p < p' ∧ w[p]? = some q ∧
    qd (.seq (.chr q) (.seq (.star (qLoop q)) (.alt (.chr q) (.nt .r_EOF none)))) (w.drop p) = some (p' - p) := by
  obtain ⟨p1, us1, vs1, a1, b1, rfl⟩ := h.seq
  obtain ⟨p2, us2, vs2, a2, b2, rfl⟩ := b1.seq
  obtain ⟨rfl, rfl, e1⟩ := a1.chr
  obtain ⟨rfl, rfl, e2⟩ := b2.onfail.chr
  obtain ⟨l1, g1⟩ := loop_quoted hq a2
  have hz : qd (qLoop q) (w.drop p2) = none := by
    have hd := drop_get e2
    refine Quick.den_alt_none.2 ⟨no_esc ?_, Quick.den_alt_none.2 ⟨?_, Quick.den_seq_none.2 (.inl (Quick.den_npeek_none.2 ⟨1,
      Quick.den_chr_some.2 ⟨_, hd, rfl⟩⟩))⟩⟩
    · rw [hd]; rcases hq with rfl | rfl <;> simp
    · cases hx : Peg.den Quick.env (.nt .r_EOL none : Quick.E) (w.drop p2) with
      | none => rfl
      | some k =>
        rcases Quick.d_EOL_some hx with ⟨t, e, -⟩ | ⟨t, e, -⟩ <;>
        · rw [hd] at e
          rcases hq with rfl | rfl <;> cases (List.cons.inj e).1
  rw [stop hz] at g1
  refine ⟨by omega, e1, Quick.den_seq_some.2 ⟨1, p2 - (p + 1) + 1, Quick.den_chr_some.2 ⟨_, drop_get e1, rfl⟩,
    Quick.den_seq_some.2 ⟨p2 - (p + 1), 1, Quick.den_star.2 ?_, Quick.den_alt_some.2 (.inl ?_), rfl⟩, by omega⟩⟩
  · rw [List.drop_drop, g1]; omega
  · rw [List.drop_drop, List.drop_drop, show p + (1 + (p2 - (p + 1))) = p2 by omega]
    exact Quick.den_chr_some.2 ⟨_, drop_get e2, rfl⟩

theorem quoted_same {p p' : Nat} {ts : List (Peg.Thunk Act)} (h : Mt w r_quoted p p' ts) :
    p < p' ∧ ((w[p]? = some 39) ∨ w[p]? = some 34) ∧ Quick.env .r_quoted (w.drop p) = some (p' - p) := by
  rw [Quick.env_eq]
  rcases h.alt with h | ⟨-, h⟩
  · obtain ⟨h1, h2, h3⟩ := quote_same (.inl rfl) (h.nt0 rfl : Mt w r_single_quoted p p' ts)
    refine ⟨h1, .inl h2, Quick.den_alt_some.2 (.inl ?_)⟩
    rw [Quick.den_nt, Quick.env_eq]; exact h3
  · obtain ⟨h1, h2, h3⟩ := quote_same (.inr rfl) (h.nt0 rfl : Mt w r_double_quoted p p' ts)
    refine ⟨h1, .inr h2, Quick.den_alt_some.2 (.inr ⟨no_single ?_, ?_⟩)⟩
    · rw [drop_get h2]; simp
    · rw [Quick.den_nt, Quick.env_eq]; exact h3

/-! ## Arguments -/

/-- A part of the body that is not at the end of a line. -/
def Part (w : List UInt8) (p p' : Nat) : Prop := Goes w (qd item) p p' ∧ Quick.env .r_line_end (w.drop p) = none

theorem parts {a : E} (ha : ∀ {p p' ts}, Mt w a p p' ts → Part w p p') {p p' : Nat} {ts : List (Peg.Thunk Act)} (h : Mt w (.plus a) p p' ts) :
    Part w p p' := by
  obtain ⟨p1, us, vs, h1, h2, rfl⟩ := Mt.seq h
  obtain ⟨g1, g2⟩ := ha h1
  exact ⟨g1.trans (Mt.star (P := fun p p' _ => Goes w (qd item) p p') (fun h hx => (ha h).1.trans hx) (fun _ => .refl) h2), g2⟩

theorem quoted_part {p p' : Nat} {ts : List (Peg.Thunk Act)} (h : Mt w r_quoted p p' ts) : Part w p p' := by
  obtain ⟨h1, h2, h3⟩ := quoted_same h
  have key : ∀ c, w[p]? = some c → c ≠ 92 → c ≠ 47 → c ≠ 10 → c ≠ 13 → Part w p p' := by
    intro c hc c1 c2 c3 c4
    have hd : (w.drop p).head? = some c := by rw [drop_get hc]; rfl
    exact ⟨Goes.step h1 (List.getElem?_eq_some_iff.1 hc).1 (item_quoted h3 (by rw [hd]; simpa using c1) (by rw [hd]; simpa using c2)),
      line_end_none hd c2 c3 c4⟩
  rcases h2 with h2 | h2 <;> exact key _ h2 (by decide) (by decide) (by decide) (by decide)

theorem unquoted_part {p p' : Nat} {ts : List (Peg.Thunk Act)} (h : Mt w r_unquoted p p' ts) : Part w p p' := by
  refine parts (fun {p p' ts} h => ?_) h
  rcases h.alt with h | ⟨-, h⟩
  · obtain ⟨d, v, h1, h2, h3, rfl, rfl⟩ := escaped_char_inv h
    refine ⟨Goes.step (by omega) (List.getElem?_eq_some_iff.1 h2).1 (item_esc ?_), line_end_none (c := 92) (by rw [drop_get h2]; rfl)
      (by decide) (by decide) (by decide)⟩
    rw [Quick.d_esc, drop_get h2, drop_get h3]
    simp [escape_isEsc h1]
  rcases h.alt with h | ⟨-, h⟩
  · obtain ⟨p1, us1, vs1, a1, b1, rfl⟩ := h.seq
    obtain ⟨rfl, rfl⟩ := b1.act
    obtain ⟨rfl, rfl, e⟩ := a1.str
    obtain ⟨e1, e2⟩ := ext_two.1 e
    refine ⟨Goes.step (by simp) (List.getElem?_eq_some_iff.1 e1).1 ?_, line_end_none (c := 92) (by rw [drop_get e1]; rfl)
      (by decide) (by decide) (by decide)⟩
    rw [drop_get e1, drop_get e2, item_semi]
    simp
  · obtain ⟨p1, us1, vs1, a1, b1, rfl⟩ := h.seq
    obtain ⟨p2, us2, vs2, a2, b2, rfl⟩ := b1.seq
    obtain ⟨p3, us3, vs3, a3, b3, rfl⟩ := b2.seq
    clear b1 b2
    obtain ⟨rfl, rfl⟩ := a1.pred
    obtain ⟨rfl, rfl⟩ := a3.pred
    obtain ⟨rfl, rfl⟩ := b3.act
    refine parts (fun {p p' ts} h => ?_) a2
    obtain ⟨r, xs, ys, g1, g2, rfl⟩ := h.seq
    obtain ⟨e, rfl, g3⟩ := g1.npeek
    replace e := e.symm
    subst e
    obtain ⟨rfl, rfl, c, hc⟩ := g2.dot
    obtain ⟨f1, g3⟩ := g3.alt
    obtain ⟨f2, g3⟩ := g3.alt
    obtain ⟨f3, g3⟩ := g3.alt
    obtain ⟨f4, g3⟩ := g3.alt
    obtain ⟨f5, g3⟩ := g3.alt
    obtain ⟨f6, -⟩ := g3.alt
    have hq : c ≠ 34 ∧ c ≠ 39 := by
      have := f1.one c hc
      exact all_bytes (P := fun c => (CharSet.mk 0x8400000000).mem c = false → c ≠ 34 ∧ c ≠ 39) (by decide +kernel) c this
    have h92 : c ≠ 92 := fun e => f5.chr (e ▸ hc)
    have h59 : c ≠ 59 := fun e => (f6.nt : Fl w r_SEMICOLON p).onfail.chr (e ▸ hc)
    have hws : Fl w (.nt .r_HWS none) p ∧ Fl w (.nt .r_EOL none) p := (f2.nt : Fl w r_WS p).alt
    have hb : ¬ ∃ t, w.drop p = 47 :: 42 :: t := Quick.den_str2_none.1 (Same.two.fl f4)
    have hl : ¬ ∃ t, w.drop p = 47 :: 47 :: t := Quick.den_str2_none.1 (Same.two.fl f3)
    have hgap : qd gap (w.drop p) = none := Quick.den_alt_none.2 ⟨same_hws.fl hws.1, no_block hb⟩
    have hle : Quick.env .r_line_end (w.drop p) = none := by
      rw [Quick.env_eq]
      refine Quick.den_alt_none.2 ⟨?_, Quick.den_alt_none.2 ⟨same_eol.fl hws.2, ?_⟩⟩
      · rw [Quick.den_nt, Quick.env_eq]
        exact Quick.den_seq_none.2 (.inl (Quick.den_str2_none.2 hl))
      · exact Quick.d_EOF_none.2 (by rw [drop_get hc]; nofun)
    refine ⟨Goes.step (by omega) (List.getElem?_eq_some_iff.1 hc).1 ?_, hle⟩
    have he : qd eol (w.drop p) = none := eol_none (by rw [stop hgap]; exact hle)
    rw [Nat.add_sub_cancel_left]
    rw [drop_get hc] at he hb ⊢
    exact item_byte h92 hb hq.2 hq.1 h59 he

theorem arg_part {v : Option Nat} {p p' : Nat} {ts : List (Peg.Thunk Act)} (h : Mt w (.nt .r_client_command_arg v) p p' ts) :
    ∃ m us, Part w p m ∧ Mt w r_hws m p' us := by
  obtain ⟨us, h, -⟩ := h.nt
  obtain ⟨m, us1, vs1, a1, b1, rfl⟩ := (h : Mt w r_client_command_arg p p' us).seq
  obtain ⟨p2, us2, vs2, a2, b2, rfl⟩ := b1.seq
  obtain ⟨rfl, rfl⟩ := b2.act
  obtain ⟨us3, a1, -⟩ := a1.nt
  obtain ⟨p3, us4, vs4, a3, b3, rfl⟩ := (a1 : Mt w r_client_arg_string p m us3).seq
  obtain ⟨p4, us5, vs5, a4, b4, rfl⟩ := b3.seq
  obtain ⟨p5, us6, vs6, a5, b5, rfl⟩ := b4.seq
  obtain ⟨p6, us7, vs7, a6, b6, rfl⟩ := b5.seq
  obtain ⟨rfl, -⟩ := a3.act
  obtain ⟨rfl, -⟩ := a4.pred
  obtain ⟨rfl, -⟩ := a6.pred
  obtain ⟨rfl, -⟩ := b6.act
  refine ⟨_, _, parts (fun {p p' ts} h => ?_) a5, a2.nt0 rfl⟩
  rcases h.alt with h | ⟨-, h⟩
  · exact unquoted_part (h.nt0 rfl)
  · exact quoted_part (h.nt0 rfl)

/-! ## Commands -/

/-- What the parser matches as a client command is one to the quick parser. -/
theorem command_same {p p' : Nat} {ts : List (Peg.Thunk Act)} (h : Mt w r_client_command p p' ts) {p0 : Nat} (hle : p0 ≤ p)
    (hw : Quick.ws (w.drop p0) = p - p0) : p < p' ∧ Quick.env .r_client_command (w.drop p0) = some (p' - p0) := by
  obtain ⟨q1, us1, vs1, a1, b1, rfl⟩ := h.seq
  obtain ⟨q2, us2, vs2, a2, b2, rfl⟩ := b1.seq
  obtain ⟨q3, us3, vs3, a3, b3, rfl⟩ := b2.seq
  obtain ⟨q4, us4, vs4, a4, b4, rfl⟩ := b3.seq
  obtain ⟨q5, us5, vs5, a5, b5, rfl⟩ := b4.seq
  obtain ⟨q6, us6, vs6, a6, b6, rfl⟩ := b5.seq
  obtain ⟨q7, us7, vs7, a7, b7, rfl⟩ := b6.seq
  clear b1 b2 b3 b4 b5 b6
  obtain ⟨e1, -⟩ := a1.pred
  rw [e1] at a2
  obtain ⟨rfl, -, hc⟩ := (a2.nt0 rfl : Mt w r_COLON p q2 us2).onfail.chr
  obtain ⟨e6, -⟩ := a6.pred
  rw [← e6] at a5
  obtain ⟨e7, -⟩ := a7.act
  rw [e7] at b7
  obtain ⟨m1, ms1, ⟨g1, n1⟩, r1⟩ : ∃ m us, Part w q3 m ∧ Mt w r_hws m q4 us := by
    obtain ⟨us, a4, -⟩ := a4.nt
    obtain ⟨r, xs, ys, k1, k2, rfl⟩ := (a4 : Mt w r_client_command_name q3 q4 us).seq
    obtain ⟨rfl, -⟩ := k2.act
    exact arg_part k1.onfail
  have s1 : Goes w (qd item) (p + 1) m1 := ((hws_run (a3.nt0 rfl : Mt w r_hws (p + 1) q3 us3)).2.2.2.1 n1).trans g1
  obtain ⟨m, ms, s2, r2⟩ : ∃ m us, Goes w (qd item) (p + 1) m ∧ Mt w r_hws m q6 us := by
    refine Mt.star (P := fun q q' _ => ∀ m us, Goes w (qd item) (p + 1) m → Mt w r_hws m q us →
      ∃ m us, Goes w (qd item) (p + 1) m ∧ Mt w r_hws m q' us) (fun {q q1 q2 us vs} h1 h2 m ms g r => ?_)
      (fun {q} _ m us g r => ⟨m, us, g, r⟩) a5 m1 ms1 s1 r1
    rcases h1.alt with h1 | ⟨-, h1⟩
    · obtain ⟨i1, xs1, ys1, c1, d1, rfl⟩ := h1.seq
      obtain ⟨i2, xs2, ys2, c2, d2, rfl⟩ := d1.seq
      obtain ⟨i3, xs3, ys3, c3, d3, rfl⟩ := d2.seq
      obtain ⟨rfl, -, hs⟩ := c1.chr
      have hd := drop_get hs
      obtain ⟨l2, e2, -⟩ := hws_run (c2.nt0 rfl : Mt w r_hws (q + 1) i2 xs2)
      obtain ⟨l3, e3⟩ := same_line_end.mt c3
      refine h2 i3 _ ((g.trans ((hws_run r).2.2.2.1 (line_end_none (c := 92) (by rw [hd]; rfl) (by decide) (by decide) (by decide)))).trans
        (Goes.step (by omega) (List.getElem?_eq_some_iff.1 hs).1 ?_)) (d3.nt0 rfl)
      have hk : qd eol (w.drop (q + 1)) = some (i3 - (q + 1)) := Quick.den_seq_some.2 ⟨_, _, env_hws _, by
        rw [e2, List.drop_drop, show q + 1 + (i2 - (q + 1)) = i2 by omega]; exact e3, by rw [e2]; omega⟩
      rw [hd, show i3 - q = 1 + (i3 - (q + 1)) by omega]
      have first : ∀ d, (w.drop (q + 1)).head? = some d → d ≠ 59 ∧ isEsc d = false := by
        intro d hx
        by_contra hn
        have hn : d = 59 ∨ isEsc d = true := by
          by_cases h : d = 59
          · exact .inl h
          · right
            by_contra h'
            exact hn ⟨h, by simpa using h'⟩
        have hd3 : d ≠ 32 ∧ d ≠ 9 ∧ d ≠ 47 ∧ d ≠ 10 ∧ d ≠ 13 :=
          all_bytes (P := fun d => d = 59 ∨ isEsc d = true → d ≠ 32 ∧ d ≠ 9 ∧ d ≠ 47 ∧ d ≠ 10 ∧ d ≠ 13) (by decide +kernel) d hn
        have hgn := gap_none (l := w.drop (q + 1)) (by rw [hx]; simpa using hd3.1) (by rw [hx]; simpa using hd3.2.1)
          (head_not (by rw [hx]; simpa using hd3.2.2.1))
        rw [stop hgn] at e2
        obtain rfl : i2 = q + 1 := by omega
        rw [line_end_none hx hd3.2.2.1 hd3.2.2.2.1 hd3.2.2.2.2] at e3
        cases e3
      refine item_more ?_ (fun e => (first _ e).1 rfl) hk
      cases hx : Quick.env .r_escaped_char (92 :: w.drop (q + 1)) with
      | none => rfl
      | some n =>
        obtain ⟨d, t, e, hd1, -⟩ := Quick.esc_some hx
        have := (first d (by rw [(List.cons.inj e).2]; rfl)).2
        rw [hd1] at this; cases this
    · obtain ⟨i1, xs1, ys1, c1, d1, rfl⟩ := h1.seq
      obtain ⟨rfl, -⟩ := d1.act
      obtain ⟨m', ms', ⟨g', n'⟩, r'⟩ := arg_part c1
      exact h2 m' ms' ((g.trans ((hws_run r).2.2.2.1 n')).trans g') r'
  obtain ⟨y1, y2, y3, y4, y5⟩ := hws_run r2
  obtain ⟨e, hge, hen, hgap, k, hk, hpe⟩ : ∃ e, Goes w (qd item) (p + 1) e ∧ qd item (w.drop e) = none ∧
      starD (qd gap) (w.drop e) = q6 - e ∧ ∃ k, qd (.alt (.chr 59) (.nt .r_line_end none)) (w.drop q6) = some k ∧ p' = q6 + k ∧ e ≤ q6 := by
    rcases b7.alt with h | ⟨f, h⟩
    · obtain ⟨rfl, -, hs⟩ := (h.nt0 rfl : Mt w r_SEMICOLON q6 p' vs7).onfail.chr
      have hd := drop_get hs
      have hn := line_end_none (l := w.drop q6) (c := 59) (by rw [hd]; rfl) (by decide) (by decide) (by decide)
      refine ⟨q6, s2.trans (y4 hn), item_none (by rw [hd]; simp) (by rw [hd]; simp) (by rw [hd]; simp) (by rw [hd]; simp)
        (.inl (by rw [hd]; rfl)), by rw [y3]; omega, 1, Quick.den_alt_some.2 (.inl (Quick.den_chr_some.2 ⟨_, hd, rfl⟩)), rfl, Nat.le_refl _⟩
    · obtain ⟨l3, e3⟩ := same_line_end.mt h
      obtain ⟨m', z1, z2, z3, z4⟩ := y5 _ e3
      refine ⟨m', s2.trans z2, z3, z4, _, Quick.den_alt_some.2 (.inr ⟨no_chr fun hx => ?_, e3⟩), by omega, z1⟩
      rw [List.head?_drop] at hx
      exact (f.nt : Fl w r_SEMICOLON q6).onfail.chr hx
  obtain ⟨rfl, hpe⟩ := hpe
  obtain ⟨hl, hge⟩ := hge
  rw [stop hen] at hge
  refine ⟨by omega, ?_⟩
  rw [Quick.env_eq]
  refine Quick.den_seq_some.2 ⟨p - p0, q6 + k - p, ?_, ?_, by omega⟩
  · rw [Quick.den_nt, Quick.ws_eq, hw]
  rw [List.drop_drop, show p0 + (p - p0) = p by omega]
  refine Quick.den_seq_some.2 ⟨0, q6 + k - p, rfl, ?_, by omega⟩
  refine Quick.den_seq_some.2 ⟨1, q6 + k - (p + 1), Quick.den_chr_some.2 ⟨_, by rw [List.drop_zero]; exact drop_get hc, rfl⟩, ?_, by omega⟩
  rw [List.drop_zero, List.drop_drop]
  refine Quick.den_seq_some.2 ⟨e - (p + 1), q6 + k - e, ?_, ?_, by omega⟩
  · rw [Quick.den_nt, Quick.env_eq]
    exact Quick.den_star.2 (Eq.trans (by omega) hge.symm)
  rw [List.drop_drop, show p + 1 + (e - (p + 1)) = e by omega]
  refine Quick.den_seq_some.2 ⟨0, q6 + k - e, rfl, ?_, by omega⟩
  refine Quick.den_seq_some.2 ⟨q6 - e, k, ?_, ?_, by omega⟩
  · rw [List.drop_zero, Quick.den_nt, env_hws, hgap]
  rw [List.drop_zero, List.drop_drop, show e + (q6 - e) = q6 by omega]
  exact Quick.den_seq_some.2 ⟨k, 0, hk, rfl, rfl⟩

end Verif.Cypher.Scan
