import Verif.Quick.Step
/-!
# The whole quick parse

`segs` gives the segments of an input as a function of its bytes alone; `feed` is the calling
protocol.  `quickParse_eq` shows that the parser, fed by any source that delivers the bytes, hands
exactly those segments to the callback under that protocol.
-/
namespace Verif.Quick
open Verif.Peg

variable {σ κ : Type} {S : Source σ} {D : Reader σ → List UInt8 → Prop} {w : List UInt8}

def startRule (onlyStatements : Bool) : Rule := bif onlyStatements then .r_statement else .r_directive

theorem statement_den (l : List UInt8) : env .r_statement l ≠ none := by
  intro h
  rw [env_eq] at h
  have h0 := stTerm_live l
  rcases den_seq_none.1 h with h | ⟨i, h1, h⟩
  · rw [den_nt, ws_eq] at h; simp at h
  rw [den_nt, ws_eq, Option.some.injEq] at h1
  rcases den_seq_none.1 h with h | ⟨j, h2, h⟩
  · simp [den] at h
  obtain rfl : j = 0 := by simpa [den, eq_comm (a := (0 : Nat))] using h2
  rcases den_seq_none.1 h with h | ⟨j, h3, h⟩
  · rw [den_nt, stBody_eq] at h; simp at h
  rw [den_nt, stBody_eq, Option.some.injEq] at h3
  rcases den_seq_none.1 h with h | ⟨k, h2, h⟩
  · simp [den] at h
  obtain rfl : k = 0 := by simpa [den, eq_comm (a := (0 : Nat))] using h2
  rcases den_seq_none.1 h with h | ⟨k, h4, h⟩
  · rw [den_nt, ws_eq] at h; simp at h
  rw [den_nt, ws_eq, Option.some.injEq] at h4
  rcases den_seq_none.1 h with h | ⟨m, h5, h⟩
  · subst h1 h3 h4
    simp only [List.drop_drop, Nat.add_zero] at h
    obtain ⟨h6, h7⟩ := den_alt_none.1 h
    rw [den_nt, d_EOF_none] at h7
    have he : l.drop (stTerm l) ≠ [] := h7
    have h6' := den_chr_none.1 h6
    rcases h0.2 with h | h
    · refine h6' ⟨l.drop (stTerm l + 1), ?_⟩
      exact drop_cons_of h
    · exact he (by rw [h]; simp)
  · simp [den] at h

theorem LInv_start (w : List UInt8) : LInv w 0 [0] :=
  ⟨by simp, by simp [LineStart], rfl, fun q _ h => by simp; omega⟩

theorem directive_den (l : List UInt8) : env .r_directive l ≠ none := by
  intro h
  rw [env_eq] at h
  obtain ⟨-, h⟩ := den_alt_none.1 h
  exact statement_den l h

/-- One call of the generated parser. -/
theorem call_found (hf : Feeds S D) (only : Bool) {r : Reader σ} (hi : r.At D w 0) :
    ∃ s', Eval grammar (qhost S) (.nt (startRule only) none) ⟨0, [], (r, ⟨0, 0, [0]⟩)⟩ (.ok s') ∧
      Found D w 0 (stretch only w) s' ∧ LInv w s'.pos s'.g.2.lines := by
  have hr := hf.readsAs w (qpred (σ := σ))
  obtain ⟨res, h⟩ := Eval.total hr (qhost_preds S) ruleOk_all (startRule only) none
    ⟨0, [], (r, ⟨0, 0, [0]⟩)⟩ hi
  have hd := h.den (w := w) hr (qhost_yes S) env_eq hi
  have hl := h.lines (w := w) hr (qhost_lines S) (c := lineCfg) lineOk_all rfl
    (fun x _ => by simp [lineCfg, CharSet.mem])
    (fun x p g b g' ts _ hx => by
      cases b with
      | true => rfl
      | false => exact absurd ((qhost_preds S x p g _ g' ts hx).2 rfl) (by simp [predT])) hi (LInv_start w) 0 (by omega) LFact.zero
    (by cases only <;> decide +kernel)
  rw [den_nt] at hd
  cases res with
  | fault f => exact absurd hd (by simp [Res.Denotes])
  | fail s' =>
    exfalso
    cases only
    · exact directive_den _ hd
    · exact statement_den _ hd
  | ok s' =>
    refine ⟨s', h, ?_, hl.1⟩
    cases only with
    | true =>
      have := statement_found hf h rfl rfl hi
      simpa [stretch] using this
    | false =>
      unfold stretch
      simp only [Bool.false_eq_true, if_false]
      cases h with
      | @nt_ok _ _ _ s1 h =>
      change Eval grammar (qhost S) r_directive _ (.ok s1) at h
      have hs1 : s1.leave (grammar (startRule false)).nvars none = s1 := by
        simp [St.leave, grammar, startRule]
      rw [hs1]
      unfold r_directive at h
      cases h with
      | alt_ok h =>
        obtain ⟨n, h1, h2⟩ := command_found hf h rfl rfl hi
        simp only [St.enter, grammar, startRule, cond_false, if_true] at h1 h2
        rw [List.drop_zero] at h1 h2
        rw [h1]; exact h2
      | @alt_no _ _ _ s2 _ h0 h =>
        have hg := h0.good hr hi
        have hd0 := h0.den (w := w) hr (qhost_yes S) env_eq hi
        rw [den_nt] at hd0
        have := statement_found hf h rfl rfl (hr.down hg.2 hg.1)
        simp only [Res.Denotes, St.enter, grammar, startRule, cond_false, if_true, List.drop_zero, St.restore] at hd0 this
        rw [hd0]; exact this

/-- Facts about a stretch. -/
structure Stretch.Fits (x : Stretch) (l : List UInt8) : Prop where
  be : x.b ≤ x.e
  en : x.e ≤ x.n
  len : x.n ≤ l.length
  pos : l ≠ [] → 0 < x.n
  nonempty : l ≠ [] → ¬ (x.e = 0 ∧ x.eof = true)
  eof : x.eof = true → x.n = l.length
  term : x.eof = false → l[x.n - 1]? = some 59 ∨ (x.isStatement = false ∧ l[x.n - 1]? = some 10)

theorem line_end_den {l : List UInt8} {k : Nat} (h : env .r_line_end l = some k) :
    (1 ≤ k ∧ l[k - 1]? = some 10) ∨ k = l.length := by
  have one : ∀ {l : List UInt8} {k : Nat}, den env (.alt (.nt .r_EOL none) (.nt .r_EOF none) : E) l = some k →
      (1 ≤ k ∧ l[k - 1]? = some 10) ∨ k = l.length := by
    intro l k h
    rcases den_alt_some.1 h with h | ⟨-, h⟩
    · rw [den_nt] at h
      rcases d_EOL_some h with ⟨t, rfl, rfl⟩ | ⟨t, rfl, rfl⟩
      · exact Or.inl ⟨by omega, by simp⟩
      · exact Or.inl ⟨by omega, by simp⟩
    · rw [den_nt] at h
      obtain ⟨rfl, rfl⟩ := d_EOF_some.1 h
      exact Or.inr rfl
  rw [env_eq] at h
  rcases den_alt_some.1 h with h | ⟨-, h⟩
  · rw [den_nt, env_eq] at h
    obtain ⟨i, j, h1, h2, rfl⟩ := den_seq_some.1 h
    obtain ⟨x, y, h3, h4, rfl⟩ := den_seq_some.1 h2
    obtain ⟨t, rfl, rfl⟩ := den_str2_some.1 h1
    rw [den_star] at h3
    subst h3
    have hlen : starD (den env (.seq (.npeek (.nt .r_EOL none)) .dot : E)) t ≤ t.length :=
      (lc_step t).2
    simp only [List.drop_succ_cons, List.drop_zero] at h4 ⊢
    rcases one h4 with ⟨h5, h6⟩ | h5
    · left
      refine ⟨by omega, ?_⟩
      rw [List.getElem?_drop] at h6
      generalize starD _ t = m at *
      rw [show 2 + (m + y) - 1 = (m + (y - 1)) + 1 + 1 by omega]
      simpa using h6
    · right
      rw [List.length_drop] at h5
      simp; omega
  · exact one h

/-- What follows the body of a client command. -/
theorem cmd_den {l : List UInt8} {n : Nat} (h : env .r_client_command l = some n) :
    ∃ k, n = cmdTerm l + k ∧
      ((l[cmdTerm l]? = some 59 ∧ k = 1) ∨
       (l[cmdTerm l]? ≠ some 59 ∧ env .r_line_end (l.drop (cmdTerm l)) = some k)) := by
  rw [env_eq] at h
  obtain ⟨i, x1, h1, g1, rfl⟩ := den_seq_some.1 h
  obtain ⟨i2, x2, h2, g2, rfl⟩ := den_seq_some.1 g1
  obtain ⟨i3, x3, h3, g3, rfl⟩ := den_seq_some.1 g2
  obtain ⟨i4, x4, h4, g4, rfl⟩ := den_seq_some.1 g3
  obtain ⟨i5, x5, h5, g5, rfl⟩ := den_seq_some.1 g4
  obtain ⟨i6, x6, h6, g6, rfl⟩ := den_seq_some.1 g5
  obtain ⟨i7, x7, h7, g7, rfl⟩ := den_seq_some.1 g6
  rw [den_nt, ws_eq, Option.some.injEq] at h1
  obtain rfl : i2 = 0 := by simpa [den, eq_comm (a := (0 : Nat))] using h2
  obtain ⟨u, -, rfl⟩ := den_chr_some.1 h3
  rw [den_nt, cmdBody_eq, Option.some.injEq] at h4
  obtain rfl : i5 = 0 := by simpa [den, eq_comm (a := (0 : Nat))] using h5
  rw [den_nt, hws_eq, Option.some.injEq] at h6
  obtain rfl : x7 = 0 := by simpa [den, eq_comm (a := (0 : Nat))] using g7
  subst h1
  simp only [List.drop_drop, Nat.add_zero] at h4 h6 h7
  have e1 : ws l + 1 + i4 = cmdEnd l := by unfold cmdEnd; rw [h4]
  rw [e1] at h6
  have e2 : cmdEnd l + i6 = cmdTerm l := by unfold cmdTerm; rw [h6]
  rw [e1, e2] at h7
  refine ⟨i7, by omega, ?_⟩
  rcases den_alt_some.1 h7 with h8 | ⟨h8, h9⟩
  · obtain ⟨t, h9, rfl⟩ := den_chr_some.1 h8
    have := congrArg List.head? h9
    rw [List.head?_drop] at this
    exact Or.inl ⟨by simpa using this, rfl⟩
  · rw [den_nt] at h9
    refine Or.inr ⟨fun h => ?_, h9⟩
    exact den_chr_none.1 h8 ⟨_, drop_cons_of h⟩

theorem stretch_len (only : Bool) (l : List UInt8) : (stretch only l).n ≤ l.length := by
  obtain ⟨s', -, h, -⟩ := call_found stream_feeds only (stream_init l)
  have := (stream_feeds.readsAs l (qpred (σ := List UInt8))).bound h.reader
  rw [h.pos] at this
  simpa using this

theorem st_fits (l : List UInt8) : (stStretch l).Fits l := by
  obtain ⟨h1, h2, h3⟩ := stEnd_le l
  obtain ⟨-, h4⟩ := stTerm_live l
  have hlt : l[stTerm l]? = some 59 → stTerm l < l.length := by
    intro h
    by_contra hn
    rw [List.getElem?_eq_none (by omega)] at h; simp at h
  have hne : l ≠ [] → stTerm l = l.length → 0 < stTerm l := by
    intro h h'; rw [h']; exact List.length_pos_iff.2 h
  constructor
  · exact h1
  · simp only [stStretch]; split <;> omega
  · simp only [stStretch]; split
    · have := hlt ‹_›; omega
    · exact h3
  · intro h
    simp only [stStretch]; split
    · omega
    · rcases h4 with h4 | h4
      · contradiction
      · exact hne h h4
  · rintro h ⟨h5, h6⟩
    simp only [stStretch, bne_iff_ne, ne_eq] at h5 h6
    rcases h4 with h4 | h4
    · contradiction
    · have h7 := hne h h4
      have hb : ws l = 0 := by unfold stEnd stBegin at h5; omega
      unfold stTerm at h7
      rw [h5, List.drop_zero, hb] at h7
      omega
  · intro h
    simp only [stStretch, bne_iff_ne, ne_eq] at h ⊢
    rw [if_neg h]
    exact h4.resolve_left h
  · intro h
    simp only [stStretch, bne_eq_false_iff_eq] at h ⊢
    rw [if_pos h]
    exact Or.inl h

theorem stretch_fits (only : Bool) (l : List UInt8) : (stretch only l).Fits l := by
  have hlen := stretch_len only l
  unfold stretch at hlen ⊢
  cases only with
  | true => exact st_fits l
  | false =>
    simp only [Bool.false_eq_true, if_false] at hlen ⊢
    cases hc : env .r_client_command l with
    | none => exact st_fits l
    | some n =>
      rw [hc] at hlen
      simp only [cmdStretch] at hlen
      obtain ⟨k, hk, hor⟩ := cmd_den hc
      have hpos : 1 ≤ cmdEnd l := by unfold cmdEnd; omega
      have hte : cmdEnd l ≤ cmdTerm l := Nat.le_add_right _ _
      constructor
      · simp only [cmdStretch, cmdEnd]; omega
      · simp only [cmdStretch]; omega
      · exact hlen
      · intro _; simp only [cmdStretch]; omega
      · rintro _ ⟨h, -⟩; simp only [cmdStretch] at h; omega
      · intro h
        simp only [cmdStretch, Bool.and_eq_true, bne_iff_ne, ne_eq] at h ⊢
        rcases hor with ⟨h1, -⟩ | ⟨-, h1⟩
        · exact absurd h1 h.1
        · rcases line_end_den h1 with ⟨h2, h3⟩ | h2
          · exfalso
            apply h.2
            rw [extract_last (by omega) (by omega), hk]
            rw [List.getElem?_drop] at h3
            rw [← h3]; congr 1; omega
          · rw [List.length_drop] at h2
            have : cmdTerm l ≤ l.length := by omega
            omega
      · intro h
        simp only [cmdStretch] at h ⊢
        rcases hor with ⟨h1, rfl⟩ | ⟨h0, h1⟩
        · left; rw [hk]; simpa using h1
        · right
          refine ⟨trivial, ?_⟩
          rw [show (l[cmdTerm l]? != some 59) = true from by simpa using h0, Bool.true_and,
            bne_eq_false_iff_eq] at h
          by_cases hlt : cmdTerm l < n
          · rwa [extract_last hlt hlen] at h
          · rw [show n = cmdTerm l by omega] at h; simp at h

/-- The segment a stretch reports, `off` being the position where the remaining input begins. -/
def segOf (off : Pos) (l : List UInt8) (x : Stretch) : QSeg :=
  ⟨x.isStatement, l.extract x.b x.e, off.after (l.take x.b), off.after (l.take x.e),
    off.after (l.take x.n), x.eof⟩

/-- The segments of an input. -/
def segs (onlyStatements : Bool) (off : Pos) (l : List UInt8) : List QSeg :=
  if _h : l = [] then []
  else
    segOf off l (stretch onlyStatements l) ::
      segs onlyStatements (off.after (l.take (stretch onlyStatements l).n))
        (l.drop (stretch onlyStatements l).n)
termination_by l.length
decreasing_by
  have := (stretch_fits onlyStatements l).pos _h
  have := List.length_pos_iff.2 _h
  rw [List.length_drop]; omega

/-- The calling protocol: segments are passed in order; a positive answer stops successfully, a
negative one is returned, and `single` stops after the first. -/
def feed (cb : κ → QSeg → Int × κ) (single : Bool) : List QSeg → κ → Int × κ
  | [], k => (0, k)
  | s :: rest, k =>
    let (r, k') := cb k s
    if r > 0 then (0, k')
    else if r < 0 then (r, k')
    else if single then (0, k')
    else feed cb single rest k'

theorem qdone_eofs (cb : κ → QSeg → Int × κ) (pos : Nat) (r : Reader σ) (q : QState) (v : QVars κ) :
    ∀ ts : List (Peg.Thunk Act), (∀ a p, .act a p ∈ ts → a = .eof) → ∀ b : Bool,
      (b = true ↔ ∃ p, .act .eof p ∈ ts) → qdone cb pos r q ts v = .ok { v with eof := v.eof || b } := by
  intro ts
  induction ts with
  | nil =>
    intro _ b hb
    have : b = false := by
      cases b with
      | false => rfl
      | true => obtain ⟨p, hp⟩ := hb.1 rfl; simp at hp
    subst this
    simp [qdone]
  | cons t ts ih =>
    intro h b hb
    have h' : ∀ a p, .act a p ∈ ts → a = .eof := fun a p hm => h a p (by simp [hm])
    have skip : (∀ p, t ≠ .act .eof p) → (b = true ↔ ∃ p, .act .eof p ∈ ts) := by
      intro hn
      rw [hb]
      constructor
      · rintro ⟨p, hp⟩
        rcases List.mem_cons.1 hp with h | h
        · exact absurd h.symm (hn p)
        · exact ⟨p, h⟩
      · rintro ⟨p, hp⟩; exact ⟨p, by simp [hp]⟩
    cases t with
    | push n => rw [qdone]; exacts [ih h' b (skip (by simp)), by simp, by simp]
    | pop n => rw [qdone]; exacts [ih h' b (skip (by simp)), by simp, by simp]
    | set n => rw [qdone]; exacts [ih h' b (skip (by simp)), by simp, by simp]
    | act a p =>
      obtain rfl := h a p (by simp)
      have hb' : b = true := hb.2 ⟨p, by simp⟩
      subst hb'
      by_cases hex : ∃ p, .act .eof p ∈ ts
      · rw [qdone, ih h' true (by simpa using hex)]
        simp [bind, Except.bind]
      · rw [qdone, ih h' false (by simpa using hex)]
        simp [bind, Except.bind]

/-- One call, through the actions. -/
theorem parseFrom_eq (hf : Feeds S D) (only : Bool) (cb : κ → QSeg → Int × κ) {c : QCtx σ κ}
    (hi : c.reader.At D w 0) (hl : c.lines = [0]) (he : c.vars.eof = false) :
    ∃ N r' L', r'.At D (w.drop (stretch only w).n) 0 ∧ ∀ fuel, N ≤ fuel →
      parseFrom S cb fuel (startRule only) c = some (.ok (true, ⟨r', L',
        if w = [] then ⟨c.vars.offset, true, 0, c.vars.k⟩
        else
          let x := stretch only w
          let a := cb c.vars.k (segOf c.vars.offset w x)
          ⟨c.vars.offset.after (w.take x.n), x.eof, a.1, a.2⟩⟩)) := by
  obtain ⟨s', h, hfd, hln⟩ := call_found hf only hi
  obtain ⟨N, hN⟩ := h.to_run
  have hfit := stretch_fits only w
  have hpos : s'.pos = (stretch only w).n := by simpa using hfd.pos
  refine ⟨N, s'.g.1.commit s'.pos, s'.g.2.lines, ?_, ?_⟩
  · rw [← hpos]; exact hfd.reader.commit hf
  · intro fuel hfu
    have hrun := run_mono _ _ _ _ hN fuel hfu
    unfold parseFrom
    rw [hl, hrun]
    obtain ⟨q, ts, ht, h1, h2⟩ := hfd.thunks
    have hdone : qdone cb s'.pos s'.g.1 s'.g.2 s'.thunks c.vars = .ok
        (if w = [] then ⟨c.vars.offset, true, 0, c.vars.k⟩
        else
          let x := stretch only w
          let a := cb c.vars.k (segOf c.vars.offset w x)
          ⟨c.vars.offset.after (w.take x.n), x.eof, a.1, a.2⟩) := by
      rw [ht, qdone, qdone_eofs cb _ _ _ _ ts h1 _ h2]
      simp only [bind, Except.bind]
      have hb := hfd.begin_
      have hee := hfd.end_
      rw [Nat.zero_add] at hb hee
      unfold segment
      simp only [he, Bool.false_or, hee, hb]
      by_cases hw : w = []
      · rw [if_pos hw]
        have h3 : (stretch only w).n = 0 := by have := hfit.len; subst hw; simpa using this
        have h4 : (stretch only w).e = 0 := by have := hfit.en; omega
        have h5 : (stretch only w).eof = true := by
          cases hx : (stretch only w).eof with
          | true => rfl
          | false =>
            have := hfit.term hx
            subst hw; simp at this
        rw [if_pos ⟨h4, h5⟩, h5]
      · rw [if_neg hw, if_neg (hfit.nonempty hw)]
        have hbn : (stretch only w).b ≤ (stretch only w).n := by have := hfit.be; have := hfit.en; omega
        rw [inputPosition_eq hln (Nat.le_refl _) (by rw [hpos]; exact hfit.len),
          inputPosition_eq hln (by rw [hpos]; exact hfit.en) (by have := hfit.en; have := hfit.len; omega),
          inputPosition_eq hln (by rw [hpos]; exact hbn) (by have := hfit.len; omega)]
        simp only [bind, Except.bind]
        have hle := hfd.reader.pos_le
        obtain ⟨rest, hrest, -⟩ := hfd.reader.rest
        rw [if_pos ⟨hfit.be, by have := hfit.en; omega⟩]
        have hext : s'.g.1.buf.extract (stretch only w).b (stretch only w).e =
            w.extract (stretch only w).b (stretch only w).e := by
          have := hfit.en
          have h9 := hfit.be
          generalize stretch only w = x at *
          subst hrest
          rw [List.extract_eq_take_drop, List.extract_eq_take_drop,
            List.drop_append_of_le_length (by omega), List.take_append_of_le_length]
          rw [List.length_drop]; omega
        simp only [hext, hpos, segOf]
    simp only [hdone]

theorem loop_eq (hf : Feeds S D) (only single : Bool) (cb : κ → QSeg → Int × κ) :
    ∀ (m : Nat) (w : List UInt8) (c : QCtx σ κ), w.length ≤ m → c.reader.At D w 0 → c.lines = [0] →
      c.vars.eof = false → ∃ N, ∀ fuel, N ≤ fuel → ∀ n, w.length < n →
        loop S cb (startRule only) single fuel n c =
          some (.ok (feed cb single (segs only c.vars.offset w) c.vars.k)) := by
  intro m
  induction m with
  | zero =>
    intro w c hw hi hl he
    obtain ⟨N, r', L', hr', hp⟩ := parseFrom_eq hf only cb hi hl he
    have hw0 : w = [] := List.length_eq_zero_iff.1 (by omega)
    refine ⟨N, fun fuel hfu n hn => ?_⟩
    obtain ⟨n, rfl⟩ : ∃ n', n = n' + 1 := ⟨n - 1, by omega⟩
    rw [loop, hp fuel hfu]
    subst hw0
    simp [segs, feed]
  | succ m ih =>
    intro w c hw hi hl he
    obtain ⟨N, r', L', hr', hp⟩ := parseFrom_eq hf only cb hi hl he
    by_cases hw0 : w = []
    · refine ⟨N, fun fuel hfu n hn => ?_⟩
      obtain ⟨n, rfl⟩ : ∃ n', n = n' + 1 := ⟨n - 1, by omega⟩
      rw [loop, hp fuel hfu]
      subst hw0
      simp [segs, feed]
    · have hfit := stretch_fits only w
      have hn0 := hfit.pos hw0
      have hlp := List.length_pos_iff.2 hw0
      rw [if_neg hw0] at hp
      simp only [] at hp
      have hseg : segs only c.vars.offset w = segOf c.vars.offset w (stretch only w) ::
          segs only (c.vars.offset.after (w.take (stretch only w).n))
            (w.drop (stretch only w).n) := by rw [segs, dif_neg hw0]
      generalize hx : stretch only w = x at *
      generalize hcb : cb c.vars.k (segOf c.vars.offset w x) = a at *
      obtain ⟨res, k'⟩ := a
      rw [hseg, feed, hcb]
      by_cases hgo : res > 0 ∨ res < 0 ∨ single = true ∨ x.eof = true
      · refine ⟨N, fun fuel hfu n hn => ?_⟩
        obtain ⟨n, rfl⟩ : ∃ n', n = n' + 1 := ⟨n - 1, by omega⟩
        rw [loop, hp fuel hfu]
        simp only []
        split
        · rfl
        · split
          · rfl
          · rcases hgo with h | h | h | h
            · contradiction
            · contradiction
            · simp [h]
            · have : w.drop x.n = [] := by rw [hfit.eof h]; simp
              rw [this]
              simp only [h, Bool.true_or, if_true]
              split
              · rfl
              · have : res = 0 := by omega
                simp [segs, feed]
      · have hres : ¬ res > 0 ∧ ¬ res < 0 ∧ single = false ∧ x.eof = false := by
          refine ⟨fun h => hgo (Or.inl h), fun h => hgo (Or.inr (Or.inl h)), ?_, ?_⟩
          · cases single
            · rfl
            · exact absurd (Or.inr (Or.inr (Or.inl rfl))) hgo
          · cases hxe : x.eof
            · rfl
            · exact absurd (Or.inr (Or.inr (Or.inr hxe))) hgo
        obtain ⟨g1, g2, g3, g4⟩ := hres
        obtain ⟨N', hN'⟩ := ih (w.drop x.n)
          ⟨r', [0], ⟨c.vars.offset.after (w.take x.n), x.eof, res, k'⟩⟩
          (by rw [List.length_drop]; omega) hr' rfl g4
        refine ⟨max N N', fun fuel hfu n hn => ?_⟩
        obtain ⟨n, rfl⟩ : ∃ n', n = n' + 1 := ⟨n - 1, by omega⟩
        rw [loop, hp fuel (by omega)]
        simp only [g1, g2, if_false, g3, g4, Bool.false_or, Bool.false_eq_true]
        have := hN' fuel (by omega) n (by rw [List.length_drop]; omega)
        rw [g4, g3] at this
        exact this

/-- The quick parser, fed by any source that delivers the bytes `w`. -/
theorem quickParse_eq (hf : Feeds S D) {src : σ} (hi : (Reader.init src).At D w 0)
    (only single : Bool) (cb : κ → QSeg → Int × κ) (k : κ) : ∃ N, ∀ fuel, N ≤ fuel →
      quickParse S src cb k only single fuel =
        some (.ok (feed cb single (segs only ⟨1, 1, 0⟩ w) k)) := by
  obtain ⟨N, hN⟩ := loop_eq hf only single cb w.length w
    ⟨.init src, [0], ⟨⟨1, 1, 0⟩, false, 0, k⟩⟩ (Nat.le_refl _) hi rfl rfl
  exact ⟨max N (w.length + 1), fun fuel hfu => hN fuel (by omega) fuel (by omega)⟩

end Verif.Quick
