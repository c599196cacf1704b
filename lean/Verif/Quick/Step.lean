import Verif.Quick.Tables
import Verif.Quick.Live
import Verif.Peg.Keep
/-!
# One call of the generated quick parser

`stretch` says, as a function of the remaining input alone, what one call consumes and reports.
-/
namespace Verif.Quick
open Verif.Peg

variable {σ κ : Type}

/-- What one call of the parser finds: the kind of segment, where its text begins and ends, how much
is consumed, and whether the end of the input ended it. -/
structure Stretch where
  isStatement : Bool
  b : Nat
  e : Nat
  n : Nat
  eof : Bool
  deriving DecidableEq, Repr

def stStretch (l : List UInt8) : Stretch :=
  ⟨true, stBegin l, stEnd l, if l[stTerm l]? = some 59 then stTerm l + 1 else stTerm l,
    l[stTerm l]? != some 59⟩

/-- What `command-body` and `--` match (they always match). -/
def cmdBody (l : List UInt8) : Nat := (env .r_command_body l).getD 0
def hws (l : List UInt8) : Nat := (env .r_hws l).getD 0

theorem cmdBody_eq (l : List UInt8) : env .r_command_body l = some (cmdBody l) := by
  unfold cmdBody; rw [env_eq]; rfl
theorem hws_eq (l : List UInt8) : env .r_hws l = some (hws l) := by
  unfold hws; rw [env_eq]; rfl

def cmdEnd (l : List UInt8) : Nat := ws l + 1 + cmdBody (l.drop (ws l + 1))
def cmdTerm (l : List UInt8) : Nat := cmdEnd l + hws (l.drop (cmdEnd l))

/-- A client command that takes `n` bytes in all. -/
def cmdStretch (l : List UInt8) (n : Nat) : Stretch :=
  ⟨false, ws l, cmdEnd l, n,
    l[cmdTerm l]? != some 59 && (l.extract (cmdTerm l) n).getLast? != some 10⟩

def stretch (onlyStatements : Bool) (l : List UInt8) : Stretch :=
  if onlyStatements then stStretch l
  else match env .r_client_command l with
    | some n => cmdStretch l n
    | none => stStretch l

/-! ## The host -/

theorem qhost_yes (S : Source σ) : AlwaysYes (qhost S) := by
  intro x p g; cases x <;> exact ⟨_, _, rfl⟩

theorem qhost_preds (S : Source σ) : PredsAs (qhost S) predT := by
  intro x p g b g' ts h
  obtain ⟨g1, t1, h1⟩ := qhost_yes S x p g
  rw [h1] at h
  simp only [Except.ok.injEq, Prod.mk.injEq] at h
  obtain ⟨rfl, -, -⟩ := h
  simp [predT]

theorem qhost_nothunks (S : Source σ) {x p g b g' ts} (h : (qhost S).pred x p g = .ok (b, g', ts)) :
    ts = [] := by
  cases x <;>
  · simp only [qhost, mkHost, qpred, Except.ok.injEq, Prod.mk.injEq] at h
    exact h.2.2.symm

theorem qhost_lines (S : Source σ) : LineHost (qhost S) (fun g => g.2.lines) kindT := by
  constructor
  · intro p g; rfl
  · intro x p g b g' ts h
    cases x <;>
    · simp only [qhost, mkHost, qpred, Except.ok.injEq, Prod.mk.injEq] at h
      obtain ⟨-, rfl, -⟩ := h
      rfl
  · intro x p g b g' ts _ h
    obtain ⟨g1, t1, h1⟩ := qhost_yes S x p g
    rw [h1] at h
    simp only [Except.ok.injEq, Prod.mk.injEq] at h
    exact h.1.symm

/-- The rules below `statement` and `client-command`: they neither set the text range nor report. -/
def low : Rule → Bool
  | .r_directive | .r_client_command | .r_statement => false
  | _ => true

def lowP : Pred → Bool
  | .lineStart => true
  | _ => false

theorem low_ok (r : Rule) (h : low r = true) :
    onlyE lowP (fun a => decide (a = .eof)) low (grammar r).body = true := by
  have h : Rule.all.all (fun r => !low r || onlyE lowP (fun a => decide (a = .eof)) low
      (grammar r).body) = true := by decide +kernel
  have := List.all_eq_true.1 h r r.mem_all
  simp_all

theorem eofGuard_all (r : Rule) : eofGuarded (fun a => decide (a = Act.eof)) (grammar r).body = true := by
  have h : Rule.all.all (fun r => eofGuarded (fun a => decide (a = Act.eof)) (grammar r).body) = true := by
    decide +kernel
  exact List.all_eq_true.1 h r r.mem_all

/-- Thunks of the lower rules: only `eof` actions, and those only once the whole input is passed. -/
def EofOnly (w : List UInt8) (q : Nat) (ts : List (Peg.Thunk Act)) : Prop :=
  ∀ a p, .act a p ∈ ts → a = .eof ∧ w.length ≤ q

theorem EofOnly.append {w : List UInt8} {q q' : Nat} {ts us : List (Peg.Thunk Act)}
    (h1 : EofOnly w q' ts) (h2 : EofOnly w q us) (hq : q ≤ q') : EofOnly w q' (ts ++ us) := by
  intro a p hm
  rcases List.mem_append.1 hm with hm | hm
  · exact h1 a p hm
  · exact ⟨(h2 a p hm).1, Nat.le_trans (h2 a p hm).2 hq⟩

theorem _root_.Verif.Peg.ThunksIn.bound {A : Type} {p q : Nat} {ts : List (Peg.Thunk A)} (h : ThunksIn p q ts) :
    ∀ a x, .act a x ∈ ts → x ≤ q := by
  induction ts generalizing q with
  | nil => intro a x hm; simp at hm
  | cons t ts ih =>
    intro a x hm
    cases t with
    | act b y =>
      rcases List.mem_cons.1 hm with hm | hm
      · simp only [Thunk.act.injEq] at hm
        rw [hm.2]; exact h.2.1
      · have := ih h.2.2 a x hm; have := h.2.1; omega
    | push => rcases List.mem_cons.1 hm with hm | hm; (· simp at hm); exact ih h a x hm
    | pop => rcases List.mem_cons.1 hm with hm | hm; (· simp at hm); exact ih h a x hm
    | set => rcases List.mem_cons.1 hm with hm | hm; (· simp at hm); exact ih h a x hm

section
variable {S : Source σ} {D : Reader σ → List UInt8 → Prop} {w : List UInt8}

/-- Evaluating an expression made of lower rules. -/
theorem low_eval (hf : Feeds S D) {e : E} (he : onlyE lowP (fun a => decide (a = .eof)) low e = true)
    (hg : eofGuarded (fun a => decide (a = Act.eof)) e = true)
    {s s' : St Act (Reader σ × QState)} (h : Eval grammar (qhost S) e s (.ok s'))
    (hi : s.g.1.At D w s.pos) :
    den env e (w.drop s.pos) = some (s'.pos - s.pos) ∧ s.pos ≤ s'.pos ∧ s'.g.1.At D w s'.pos ∧
    s'.g.2.begin_ = s.g.2.begin_ ∧ s'.g.2.end_ = s.g.2.end_ ∧
    ∃ ts, s'.thunks = ts ++ s.thunks ∧ EofOnly w s'.pos ts := by
  have hr := hf.readsAs w (qpred (σ := σ))
  obtain ⟨n, hd, hp⟩ := h.den (w := w) hr (qhost_yes S) env_eq hi
  obtain ⟨-, hI⟩ := h.good hr hi
  have hk := h.keeps (K := fun g g' => g'.2.begin_ = g.2.begin_ ∧ g'.2.end_ = g.2.end_)
    (fun _ => ⟨rfl, rfl⟩) (by rintro a b c ⟨h1, h2⟩ ⟨h3, h4⟩; exact ⟨h3.trans h1, h4.trans h2⟩)
    (fun _ _ => ⟨rfl, rfl⟩) (okP := lowP) (okA := fun a => decide (a = .eof)) (okR := low)
    (by
      intro x hx p g b g' ts hp
      have := qhost_nothunks S hp
      subst this
      cases x with
      | lineStart =>
        simp only [qhost, mkHost, qpred, Except.ok.injEq, Prod.mk.injEq] at hp
        obtain ⟨-, rfl, -⟩ := hp
        exact ⟨⟨rfl, rfl⟩, by intro a p h; simp at h⟩
      | _ => simp [lowP] at hx) low_ok he
  obtain ⟨⟨hb, hen⟩, ts, hts, hacts⟩ := hk
  obtain ⟨ts2, hts2, hin⟩ := h.thunksIn hr (fun x p g b g' ts hp => by
    have := qhost_nothunks S hp; subst this; simp) hi
  obtain ⟨ts3, hts3, heof⟩ := h.eofAt hr (isEof := fun a => decide (a = Act.eof))
    (fun x p g b g' ts hp => by
      have := qhost_nothunks S hp; subst this; intro a p h; simp at h) eofGuard_all (Or.inl hg) hi
  have e2 : ts2 = ts := List.append_cancel_right (hts2.symm.trans hts)
  have e3 : ts3 = ts := List.append_cancel_right (hts3.symm.trans hts)
  subst e2; subst e3
  refine ⟨by rw [hd]; congr 1; omega, by omega, hI, hb, hen, ts3, hts, fun a p hm => ?_⟩
  have ha := hacts a p hm
  have h1 := heof a p hm ha
  have h2 := hin.bound a p hm
  exact ⟨by simpa using ha, by omega⟩

/-- What a successful call leaves behind, `x` being the stretch found from position `p`. -/
structure Found (D : Reader σ → List UInt8 → Prop) (w : List UInt8) (p : Nat) (x : Stretch)
    (s' : St Act (Reader σ × QState)) : Prop where
  pos : s'.pos = p + x.n
  reader : s'.g.1.At D w s'.pos
  begin_ : s'.g.2.begin_ = p + x.b
  end_ : s'.g.2.end_ = p + x.e
  thunks : ∃ q ts, s'.thunks = .act (.segment x.isStatement) q :: ts ∧
    (∀ a p, .act a p ∈ ts → a = .eof) ∧ (x.eof = true ↔ ∃ p, .act .eof p ∈ ts)

theorem statement_found (hf : Feeds S D) {v : Option Nat} {s s' : St Act (Reader σ × QState)}
    (h : Eval grammar (qhost S) (.nt .r_statement v) s (.ok s')) (hv : v = none)
    (ht : s.thunks = [])
    (hi : s.g.1.At D w s.pos) : Found D w s.pos (stStretch (w.drop s.pos)) s' := by
  subst hv
  cases h with
  | @nt_ok _ _ _ s9 h =>
    change Eval grammar (qhost S) r_statement s (.ok s9) at h
    unfold r_statement at h
    cases h with
    | @seq_ok _ _ _ s1 _ h1 h =>
    cases h with
    | @seq_ok _ _ _ s2 _ h2 h =>
    cases h with
    | @seq_ok _ _ _ s3 _ h3 h =>
    cases h with
    | @seq_ok _ _ _ s4 _ h4 h =>
    cases h with
    | @seq_ok _ _ _ s5 _ h5 h =>
    cases h with
    | @seq_ok _ _ _ s6 _ h6 h =>
    cases h with
    | act =>
    obtain ⟨a1, a2, a3, a4, a5, t1, a6, a7⟩ := low_eval hf rfl rfl h1 hi
    cases h2 with
    | @pred_ok _ _ g2 ts2 h2 =>
    simp only [qhost, mkHost, qpred, Except.ok.injEq, Prod.mk.injEq, true_and] at h2
    obtain ⟨rfl, rfl⟩ := h2
    obtain ⟨b1, b2, b3, b4, b5, t3, b6, b7⟩ := low_eval hf rfl rfl h3 a3
    cases h4 with
    | @pred_ok _ _ g4 ts4 h4 =>
    simp only [qhost, mkHost, qpred, Except.ok.injEq, Prod.mk.injEq, true_and] at h4
    obtain ⟨rfl, rfl⟩ := h4
    obtain ⟨c1, c2, c3, c4, c5, t5, c6, c7⟩ := low_eval hf rfl rfl h5 b3
    have d0 := low_eval hf rfl rfl h6 c3
    obtain ⟨d1, d2, d3, d4, d5, t6, d6, d7⟩ := d0
    rw [den_nt, ws_eq, Option.some.injEq] at a1
    rw [den_nt, stBody_eq, Option.some.injEq] at b1
    rw [den_nt, ws_eq, Option.some.injEq] at c1
    simp only at *
    have p1 : s1.pos = s.pos + stBegin (w.drop s.pos) := by unfold stBegin; omega
    have p3 : s3.pos = s.pos + stEnd (w.drop s.pos) := by
      unfold stEnd
      rw [List.drop_drop, ← p1]; omega
    have p5 : s5.pos = s.pos + stTerm (w.drop s.pos) := by
      unfold stTerm
      rw [List.drop_drop, ← p3]; omega
    have hgt : (w.drop s.pos)[stTerm (w.drop s.pos)]? = (w.drop s5.pos).head? := by
      rw [List.getElem?_drop, List.head?_drop, p5]
    have hthr : ∃ t, s5.thunks = t ∧ EofOnly w s5.pos t := by
      refine ⟨_, rfl, ?_⟩
      rw [c6]
      simp only [List.nil_append]
      rw [b6, a6, ht]
      simp only [List.nil_append, List.append_nil]
      exact c7.append (b7.append a7 b2) (by omega)
    obtain ⟨t, ht5, heof5⟩ := hthr
    refine ⟨?_, by simpa using d3, ?_, ?_, s6.pos, s6.thunks, rfl, ?_, ?_⟩
    · simp only [St.leave_pos, stStretch, hgt]
      rcases den_alt_some.1 d1 with e1 | ⟨e1, e2⟩
      · obtain ⟨u, e2, e3⟩ := den_chr_some.1 e1
        rw [e2, List.head?_cons, if_pos rfl]; omega
      · rw [den_nt] at e2
        obtain ⟨e3, e4⟩ := d_EOF_some.1 e2
        rw [e3, if_neg (by simp)]; omega
    · simp only [St.leave_g, stStretch]
      rw [d4, c4, b4]; exact p1
    · simp only [St.leave_g, stStretch]
      rw [d5, c5]; exact p3
    · intro a p hm
      rw [d6, ht5] at hm
      rcases List.mem_append.1 hm with hm | hm
      · exact (d7 a p hm).1
      · exact (heof5 a p hm).1
    · simp only [stStretch, hgt]
      rw [d6, ht5]
      cases h6 with
      | alt_ok h6 =>
        have e1 : den env (.chr 59 : E) (w.drop s5.pos) = some (s6.pos - s5.pos) :=
          (low_eval hf rfl rfl h6 c3).1
        obtain ⟨u, e2, e3⟩ := den_chr_some.1 e1
        have hlt : s5.pos < w.length := by
          by_contra hn
          rw [List.drop_eq_nil_iff.2 (by omega)] at e2; simp at e2
        rw [e2]
        simp only [List.head?_cons, bne_self_eq_false, Bool.false_eq_true, false_iff]
        rintro ⟨p, hm⟩
        rcases List.mem_append.1 hm with hm | hm
        · cases h6 with
          | one_ok => simp at d6; subst d6; simp at hm
        · have := (heof5 _ _ hm).2; omega
      | @alt_no _ _ _ s5' _ h6 h7 =>
        cases h7 with
        | @nt_ok _ _ _ s7 h7 =>
        change Eval grammar (qhost S) r_EOF _ (.ok s7) at h7
        unfold r_EOF at h7
        cases h7 with
        | @seq_ok _ _ _ s8 _ h7 h8 =>
        cases h8 with
        | act =>
        have e2 : den env (.nt .r_EOF none : E) (w.drop s5.pos) = some (s8.pos - s5.pos) := by
          rcases den_alt_some.1 d1 with e1 | ⟨e1, e2⟩
          · exfalso
            have hr := hf.readsAs w (qpred (σ := σ))
            have := h6.den (w := w) hr (qhost_yes S) env_eq c3
            simp only [Res.Denotes] at this
            rw [this] at e1; simp at e1
          · simpa using e2
        rw [den_nt] at e2
        obtain ⟨e3, e4⟩ := d_EOF_some.1 e2
        rw [e3]
        simp only [List.head?_nil, true_iff, bne_iff_ne, ne_eq, reduceCtorEq, not_false_eq_true]
        refine ⟨s8.pos, ?_⟩
        rw [← ht5, ← d6]
        simp [St.leave, grammar]

/-- `EOL | EOF`. -/
theorem eolEof_eval (hf : Feeds S D) {s s' : St Act (Reader σ × QState)}
    (h : Eval grammar (qhost S) (.alt (.nt .r_EOL none) (.nt .r_EOF none)) s (.ok s'))
    (hi : s.g.1.At D w s.pos) : ∃ ts, s'.thunks = ts ++ s.thunks ∧
      ((s.pos < s'.pos ∧ s.pos < w.length ∧ s'.pos ≤ w.length ∧ w[s'.pos - 1]? = some 10 ∧
          ∀ a p, .act a p ∉ ts) ∨
       (s'.pos = s.pos ∧ s.pos = w.length ∧ ∃ p, .act .eof p ∈ ts)) := by
  cases h with
  | alt_ok h =>
    obtain ⟨d1, d2, d3, d4, d5, t6, d6, d7⟩ := low_eval hf rfl rfl h hi
    have hb : s'.pos ≤ w.length := (hf.readsAs w (qpred (σ := σ))).bound d3
    have hk := h.keeps (K := fun _ _ => True) (fun _ => trivial) (fun _ _ _ _ _ => trivial)
      (fun _ _ => trivial) (okP := lowP) (okA := fun _ => false)
      (okR := fun r => decide (r = .r_EOL) || decide (r = .r__line_start_))
      (by
        intro x hx p g b g' ts hp
        have := qhost_nothunks S hp
        subst this
        exact ⟨trivial, by intro a p h; simp at h⟩)
      (by intro r; cases r <;> decide +kernel) rfl
    obtain ⟨-, ts, h1, h2⟩ := hk
    refine ⟨ts, h1, Or.inl ?_⟩
    rw [den_nt] at d1
    have hno : ∀ a p, .act a p ∉ ts := by
      intro a p hm; have := h2 a p hm; simp at this
    rcases d_EOL_some d1 with ⟨t, e1, e2⟩ | ⟨t, e1, e2⟩
    · have hw : w[s.pos]? = some 10 := by
        have := congrArg List.head? e1; rw [List.head?_drop] at this; simpa using this
      have hlt : s.pos < w.length := by
        by_contra hn; rw [List.getElem?_eq_none (by omega)] at hw; simp at hw
      refine ⟨by omega, hlt, hb, ?_, hno⟩
      rw [show s'.pos - 1 = s.pos by omega]; exact hw
    · have hw : w[s.pos + 1]? = some 10 := by
        have := congrArg (fun l => l[1]?) e1
        simp only [List.getElem?_drop] at this
        simpa using this
      have hlt : s.pos + 1 < w.length := by
        by_contra hn; rw [List.getElem?_eq_none (by omega)] at hw; simp at hw
      refine ⟨by omega, by omega, hb, ?_, hno⟩
      rw [show s'.pos - 1 = s.pos + 1 by omega]; exact hw
  | @alt_no _ _ _ s1 _ h0 h =>
    have hr := hf.readsAs w (qpred (σ := σ))
    obtain ⟨-, hi1⟩ := h0.good hr hi
    have hi2 := hr.down hi1 (h0.good hr hi).1
    obtain ⟨d1, d2, d3, d4, d5, t6, d6, d7⟩ := low_eval hf rfl rfl h hi2
    refine ⟨t6, d6, Or.inr ?_⟩
    rw [den_nt] at d1
    obtain ⟨e1, e2⟩ := d_EOF_some.1 d1
    simp only [St.restore] at e1 e2 d2
    have hb : s.pos ≤ w.length := hr.bound hi
    rw [List.drop_eq_nil_iff] at e1
    refine ⟨by omega, by omega, ?_⟩
    cases h with
    | @nt_ok _ _ _ s7 h7 =>
    change Eval grammar (qhost S) r_EOF _ (.ok s7) at h7
    unfold r_EOF at h7
    cases h7 with
    | @seq_ok _ _ _ s8 _ h7 h8 =>
    have hk := h7.keeps (K := fun _ _ => True) (fun _ => trivial) (fun _ _ _ _ _ => trivial)
      (fun _ _ => trivial) (okP := lowP) (okA := fun _ => false)
      (okR := fun r => decide (r = .r__line_start_))
      (by
        intro x hx p g b g' ts hp
        have := qhost_nothunks S hp
        subst this
        exact ⟨trivial, by intro a p h; simp at h⟩)
      (by intro r; cases r <;> decide +kernel) rfl
    obtain ⟨-, ts, h1, h2⟩ := hk
    cases h8 with
    | act =>
    refine ⟨s8.pos, ?_⟩
    simp only [St.leave, grammar, if_true, St.restore] at d6
    have : t6 = .act .eof s8.pos :: ts := by
      refine List.append_cancel_right (bs := s.thunks) ?_
      rw [← d6, h1]; rfl
    rw [this]; simp

theorem extract_last {l : List UInt8} {a b : Nat} (h : a < b) (hb : b ≤ l.length) :
    (l.extract a b).getLast? = l[b - 1]? := by
  rw [List.extract_eq_take_drop, List.getLast?_take, if_neg (by omega), List.getElem?_drop]
  rw [show a + (b - a - 1) = b - 1 by omega, List.getElem?_eq_getElem (by omega)]
  rfl

/-- No newline in what the loop of a line comment passes. -/
theorem lc_no_nl (t : List UInt8) : ∀ i, i < starD (den (P := Pred) (A := Act) env
    (.seq (.npeek (.nt .r_EOL none)) .dot)) t → t[i]? ≠ some 10 := by
  refine starD_ind (Q := fun t n => ∀ i, i < n → t[i]? ≠ some 10) (fun _ i h => absurd h (by omega))
    (fun l n m hl h _ ih i hi => ?_) t
  obtain ⟨x, y, h1, h2, rfl⟩ := den_seq_some.1 h
  obtain ⟨h3, rfl⟩ := den_npeek_some.1 h1
  obtain ⟨c, t, h4, rfl⟩ := den_dot_some.1 h2
  rw [List.drop_zero] at h4
  subst h4
  cases i with
  | zero => simpa using d_EOL_none h3
  | succ i => simpa using ih i (by omega)

theorem line_end_eval (hf : Feeds S D) {s s' : St Act (Reader σ × QState)}
    (h : Eval grammar (qhost S) (.nt .r_line_end none) s (.ok s'))
    (hi : s.g.1.At D w s.pos) : ∃ ts, s'.thunks = ts ++ s.thunks ∧
      ((w.extract s.pos s'.pos).getLast? ≠ some 10 ↔ ∃ p, .act .eof p ∈ ts) := by
  have hr := hf.readsAs w (qpred (σ := σ))
  have other : ∀ s : St Act (Reader σ × QState), s.g.1.At D w s.pos →
      Eval grammar (qhost S) (.alt (.nt .r_EOL none) (.nt .r_EOF none)) s (.ok s') →
      ∃ ts, s'.thunks = ts ++ s.thunks ∧
      ((w.extract s.pos s'.pos).getLast? ≠ some 10 ↔ ∃ p, .act .eof p ∈ ts) := by
    intro s hi h
    obtain ⟨ts, h1, ⟨h2, h3, h4, h5, h6⟩ | ⟨h2, h3, h4⟩⟩ := eolEof_eval hf h hi
    · refine ⟨ts, h1, ?_⟩
      rw [extract_last h2 h4, h5]
      simp only [ne_eq, not_true, false_iff, not_exists]
      intro p; exact h6 _ p
    · refine ⟨ts, h1, ?_⟩
      simp [h2, h4]
  cases h with
  | @nt_ok _ _ _ s9 h =>
  change Eval grammar (qhost S) r_line_end s (.ok s9) at h
  have hs9 : s9.leave (grammar .r_line_end).nvars none = s9 := by simp [St.leave, grammar]
  rw [hs9] at other ⊢
  unfold r_line_end at h
  cases h with
  | alt_ok h =>
    cases h with
    | @nt_ok _ _ _ s8 h =>
    change Eval grammar (qhost S) r_line_comment s (.ok s8) at h
    have hs8 : s8.leave (grammar .r_line_comment).nvars none = s8 := by simp [St.leave, grammar]
    rw [hs8]
    unfold r_line_comment at h
    cases h with
    | @seq_ok _ _ _ s1 _ h1 h =>
    cases h with
    | @seq_ok _ _ _ s2 _ h2 h =>
    obtain ⟨a1, a2, a3, a4, a5, t1, a6, a7⟩ := low_eval hf rfl rfl h1 hi
    obtain ⟨b1, b2, b3, b4, b5, t2, b6, b7⟩ := low_eval hf rfl rfl h2 a3
    obtain ⟨ts, h3, h4⟩ := eolEof_eval hf h b3
    refine ⟨ts ++ (t2 ++ t1), by rw [h3, b6, a6]; simp, ?_⟩
    obtain ⟨u, e1, e2⟩ := den_str2_some.1 a1
    rw [den_star] at b1
    rcases h4 with ⟨k1, k2, k3, k4, k5⟩ | ⟨k1, k2, p, k3⟩
    · rw [extract_last (by omega) k3, k4]
      simp only [ne_eq, not_true, false_iff, not_exists]
      intro p hm
      rcases List.mem_append.1 hm with hm | hm
      · exact k5 _ _ hm
      · have := (b7.append a7 b2 _ _ hm).2; omega
    · have hl := hr.bound b3
      rw [extract_last (by omega) (by omega)]
      constructor
      · intro _; exact ⟨p, by simp [k3]⟩
      · intro _
        rw [k1]
        by_cases hlt : s1.pos < s2.pos
        · have := lc_no_nl (w.drop s1.pos) (s2.pos - s1.pos - 1) (by rw [← b1]; omega)
          rw [List.getElem?_drop] at this
          rw [show s2.pos - 1 = s1.pos + (s2.pos - s1.pos - 1) by omega]
          exact this
        · have := congrArg (fun l => l[1]?) e1
          simp only [List.getElem?_drop] at this
          rw [show s2.pos - 1 = s.pos + 1 by omega, this]
          simp
  | @alt_no _ _ _ s1 _ h0 h =>
    have hg := h0.good hr hi
    exact other (s.restore s1) (hr.down hg.2 hg.1) h

theorem command_found (hf : Feeds S D) {v : Option Nat} {s s' : St Act (Reader σ × QState)}
    (h : Eval grammar (qhost S) (.nt .r_client_command v) s (.ok s')) (hv : v = none)
    (ht : s.thunks = []) (hi : s.g.1.At D w s.pos) :
    ∃ n, env .r_client_command (w.drop s.pos) = some n ∧
      Found D w s.pos (cmdStretch (w.drop s.pos) n) s' := by
  subst hv
  have hr := hf.readsAs w (qpred (σ := σ))
  obtain ⟨n, hd, hp⟩ := h.den (w := w) hr (qhost_yes S) env_eq hi
  refine ⟨n, hd, ?_⟩
  cases h with
  | @nt_ok _ _ _ s9 h =>
    change Eval grammar (qhost S) r_client_command s (.ok s9) at h
    unfold r_client_command at h
    cases h with
    | @seq_ok _ _ _ s1 _ h1 h =>
    cases h with
    | @seq_ok _ _ _ s2 _ h2 h =>
    cases h with
    | @seq_ok _ _ _ s2' _ h2' h =>
    cases h with
    | @seq_ok _ _ _ s3 _ h3 h =>
    cases h with
    | @seq_ok _ _ _ s4 _ h4 h =>
    cases h with
    | @seq_ok _ _ _ s5 _ h5 h =>
    cases h with
    | @seq_ok _ _ _ s6 _ h6 h =>
    cases h with
    | act =>
    obtain ⟨a1, a2, a3, a4, a5, t1, a6, a7⟩ := low_eval hf rfl rfl h1 hi
    cases h2 with
    | @pred_ok _ _ g2 ts2 h2 =>
    simp only [qhost, mkHost, qpred, Except.ok.injEq, Prod.mk.injEq, true_and] at h2
    obtain ⟨rfl, rfl⟩ := h2
    obtain ⟨x1, x2, x3, x4, x5, t2, x6, x7⟩ := low_eval hf rfl rfl h2' a3
    obtain ⟨b1, b2, b3, b4, b5, t3, b6, b7⟩ := low_eval hf rfl rfl h3 x3
    cases h4 with
    | @pred_ok _ _ g4 ts4 h4 =>
    simp only [qhost, mkHost, qpred, Except.ok.injEq, Prod.mk.injEq, true_and] at h4
    obtain ⟨rfl, rfl⟩ := h4
    obtain ⟨c1, c2, c3, c4, c5, t5, c6, c7⟩ := low_eval hf rfl rfl h5 b3
    obtain ⟨d1, d2, d3, d4, d5, t6, d6, d7⟩ := low_eval hf rfl rfl h6 c3
    obtain ⟨u, x8, x9⟩ := den_chr_some.1 x1
    rw [den_nt, ws_eq, Option.some.injEq] at a1
    rw [den_nt, cmdBody_eq, Option.some.injEq] at b1
    rw [den_nt, hws_eq, Option.some.injEq] at c1
    simp only [St.leave_pos] at *
    have p1 : s1.pos = s.pos + ws (w.drop s.pos) := by omega
    have p2 : s2'.pos = s.pos + (ws (w.drop s.pos) + 1) := by omega
    have p3 : s3.pos = s.pos + cmdEnd (w.drop s.pos) := by
      unfold cmdEnd
      rw [List.drop_drop, ← p2]; omega
    have p5 : s5.pos = s.pos + cmdTerm (w.drop s.pos) := by
      unfold cmdTerm
      rw [List.drop_drop, ← p3]; omega
    have hgt : (w.drop s.pos)[cmdTerm (w.drop s.pos)]? = (w.drop s5.pos).head? := by
      rw [List.getElem?_drop, List.head?_drop, p5]
    have hex : ((w.drop s.pos).extract (cmdTerm (w.drop s.pos)) n) = w.extract s5.pos s6.pos := by
      rw [List.extract_eq_take_drop, List.extract_eq_take_drop, List.drop_drop, p5]
      congr 1; omega
    have heof5 : EofOnly w s5.pos s5.thunks := by
      rw [c6]
      simp only [List.nil_append]
      rw [b6, x6]
      simp only [List.nil_append]
      rw [a6, ht]
      simp only [List.append_nil]
      exact c7.append (b7.append (x7.append a7 x2) b2) (by omega)
    refine ⟨by simpa [cmdStretch] using hp, by simpa using d3, ?_, ?_, s6.pos, s6.thunks, rfl, ?_, ?_⟩
    · simp only [St.leave_g, cmdStretch]
      rw [d4, c4, b4, x4]; exact p1
    · simp only [St.leave_g, cmdStretch]
      rw [d5, c5]; exact p3
    · intro a p hm
      rw [d6] at hm
      rcases List.mem_append.1 hm with hm | hm
      · exact (d7 a p hm).1
      · exact (heof5 a p hm).1
    · simp only [cmdStretch, hgt, hex]
      cases h6 with
      | alt_ok h6 =>
        have e1 : den env (.chr 59 : E) (w.drop s5.pos) = some (s6.pos - s5.pos) :=
          (low_eval hf rfl rfl h6 c3).1
        obtain ⟨u, e2, e3⟩ := den_chr_some.1 e1
        have hlt : s5.pos < w.length := by
          by_contra hn
          rw [List.drop_eq_nil_iff.2 (by omega)] at e2; simp at e2
        rw [e2]
        simp only [List.head?_cons, bne_self_eq_false, Bool.false_and, Bool.false_eq_true, false_iff]
        rintro ⟨p, hm⟩
        rw [d6] at hm
        rcases List.mem_append.1 hm with hm | hm
        · cases h6 with
          | one_ok => simp at d6; subst d6; simp at hm
        · have := (heof5 _ _ hm).2; omega
      | @alt_no _ _ _ s5' _ h6 h7 =>
        have hg := h6.good hr c3
        obtain ⟨ts, k1, k2⟩ := line_end_eval hf h7 (hr.down hg.2 hg.1)
        simp only [St.restore] at k1 k2
        have hne := h6.den (w := w) hr (qhost_yes S) env_eq c3
        simp only [Res.Denotes] at hne
        have hne' := den_chr_none.1 hne
        have hh : (w.drop s5.pos).head? ≠ some 59 := by
          intro hh
          cases hw : w.drop s5.pos with
          | nil => rw [hw] at hh; simp at hh
          | cons c t =>
            rw [hw] at hh hne'
            simp only [List.head?_cons, Option.some.injEq] at hh
            exact hne' ⟨t, by rw [hh]⟩
        simp only [Bool.and_eq_true, bne_iff_ne, ne_eq]
        rw [k1]
        constructor
        · rintro ⟨-, h⟩
          obtain ⟨p, hp⟩ := k2.1 h
          exact ⟨p, by simp [hp]⟩
        · rintro ⟨p, hm⟩
          refine ⟨hh, ?_⟩
          rcases List.mem_append.1 hm with hm | hm
          · exact k2.2 ⟨p, hm⟩
          · -- recorded earlier: then nothing is left
            have hl := (heof5 _ _ hm).2
            have hb := hr.bound d3
            rw [show s6.pos = s5.pos by omega]
            simp

end

end Verif.Quick
