import Verif.Props.Complete
import Verif.Props.Quick
/-!
# C51: the quick parser divides texts of the grammar as the parser does

`cypher_quick_parse` does not know the language: it looks for semicolons outside of strings, comments and escapes. On texts
of the grammar of C45 it finds the segments that `cypher_parse` finds.
-/
namespace Verif.Stmts
open Verif Verif.Peg Verif.Cypher Verif.Exprs
open Verif.Quick (live Mode Blank ws stretch stStretch stBegin stEnd stTerm segs QSeg)
open Verif.Ops (bytes upper)

variable {σ : Type}

/-! ## White space -/

theorem commented_left {a b : List UInt8} (h : Commented a) : Commented (a ++ b) := by
  obtain ⟨p, h⟩ := h
  refine ⟨p, ?_⟩
  have hl : p + 2 ≤ a.length := by
    have : (a.extract p (p + 2)).length = 2 := by rcases h with h | h <;> rw [h] <;> rfl
    simp only [List.extract_eq_take_drop, List.length_take, List.length_drop] at this
    omega
  have : (a ++ b).extract p (p + 2) = a.extract p (p + 2) := by
    simp only [List.extract_eq_take_drop, Nat.add_sub_cancel_left]
    rw [List.drop_append_of_le_length (by omega), List.take_append_of_le_length (by simp; omega)]
  rwa [this]

def White (c : UInt8) : Prop := c = 32 ∨ c = 9 ∨ c = 10 ∨ c = 13

theorem blank_white {l : List UInt8} (h : Blank l) (hc : ¬ Commented l) : ∀ c ∈ l, White c := by
  induction h with
  | nil => simp
  | @char c l h _ ih =>
    intro d hd
    rcases List.mem_cons.1 hd with rfl | hd
    · unfold White; tauto
    · exact ih (fun h => hc (commented_right (a := [c]) h)) d hd
  | @crlf l _ ih =>
    intro d hd
    rcases List.mem_cons.1 hd with rfl | hd
    · unfold White; tauto
    rcases List.mem_cons.1 hd with rfl | hd
    · unfold White; tauto
    · exact ih (fun h => hc (commented_right (a := [13, 10]) h)) d hd
  | line => exact absurd ⟨0, Or.inl rfl⟩ hc
  | lineEnd => exact absurd ⟨0, Or.inl rfl⟩ hc
  | block => exact absurd ⟨0, Or.inr rfl⟩ hc

theorem gap_white {b : List UInt8} (h : Gap b) : ∀ c ∈ b, White c := by
  unfold White
  induction h with
  | nil => simp
  | char h _ ih => intro d hd; rcases List.mem_cons.1 hd with rfl | hd; · tauto
                   · exact ih d hd
  | crlf _ ih => intro d hd; simp only [List.mem_cons] at hd; rcases hd with rfl | rfl | hd; · tauto
                 · tauto
                 · exact ih d hd

theorem ws_one {c : UInt8} (h : c = 32 ∨ c = 9 ∨ c = 10) (t : List UInt8) : ws (c :: t) = 1 + ws t := by
  have h1 : Peg.den Quick.env (.alt (.nt .r_WS none) (.nt .r_comment none) : Quick.E) (c :: t) = some 1 := by
    rw [Quick.den_alt_some]
    left
    rw [Quick.den_nt, Quick.env_eq]
    rcases h with rfl | rfl | rfl
    · simp [Quick.grammar, Quick.r_WS, Quick.r_HWS, Peg.den, Quick.env_eq .r_HWS, Quick.hws_mem]
    · simp [Quick.grammar, Quick.r_WS, Quick.r_HWS, Peg.den, Quick.env_eq .r_HWS, Quick.hws_mem]
    · simp [Quick.grammar, Quick.r_WS, Quick.r_HWS, Peg.den, Quick.env_eq .r_HWS, Quick.hws_mem, Quick.d_EOL_10]
  unfold ws
  rw [starD, h1]
  simp
theorem ws_two (t : List UInt8) : ws (13 :: 10 :: t) = 2 + ws t := by
  have h1 : Peg.den Quick.env (.alt (.nt .r_WS none) (.nt .r_comment none) : Quick.E) (13 :: 10 :: t) = some 2 := by
    rw [Quick.den_alt_some]
    left
    rw [Quick.den_nt, Quick.env_eq]
    simp [Quick.grammar, Quick.r_WS, Quick.r_HWS, Peg.den, Quick.env_eq .r_HWS, Quick.hws_mem, Quick.d_EOL_13]
  unfold ws
  rw [starD, h1]
  simp
theorem ws_gap {b : List UInt8} (h : Gap b) (z : List UInt8) : b.length ≤ ws (b ++ z) := by
  induction h with
  | nil => simp
  | char h _ ih => rw [List.cons_append, ws_one h]; simp; omega
  | crlf _ ih => rw [List.cons_append, List.cons_append, ws_two]; simp; omega

/-! ## One segment -/

theorem ends_at {k : Bool} {s w : List UInt8} (h : Ends k s w) (hs : s ≠ []) (hc : ¬ Commented (s ++ w)) :
    (stStretch (s ++ w)).n = s.length := by
  have l1 := (Quick.stTerm_live (s ++ w)).1
  simp only [stStretch, l1]
  rcases h.live hc with ⟨s', rfl, e⟩ | ⟨rfl, e⟩
  · rw [e, if_pos (by simp)]; simp
  · rw [List.append_nil, e, if_neg (by simp)]

theorem gap_no_semi {b s' : List UInt8} (h : Gap b) (e : b = s' ++ [59]) : False := by
  have := gap_white h 59 (by simp [e])
  revert this; unfold White; decide

theorem letter_not {c : UInt8} (h : letter c = true) : ¬ White c ∧ c ≠ 58 ∧ c ≠ 59 := by
  refine ⟨?_, ?_, ?_⟩
  · rintro (rfl | rfl | rfl | rfl) <;> exact absurd h (by decide)
  · rintro rfl; exact absurd h (by decide)
  · rintro rfl; exact absurd h (by decide)

/-- The first byte that is not white space, if there is one, is a letter or the semicolon. -/
theorem ends_front {k : Bool} {s w : List UInt8} (h : Ends k s w) (hc : ¬ Commented (s ++ w)) :
    ∃ b z, s ++ w = b ++ z ∧ Gap b ∧ (z = [] ∨ ∃ c r, z = c :: r ∧ ¬ White c ∧ c ≠ 58) ∧
      (k = true → b.length < live .normal 0 (s ++ w) ∧ z ≠ []) ∧ (k = false → live .normal 0 (s ++ w) = b.length) := by
  obtain ⟨b, z, rfl, hb, f1, f2⟩ := h.front
  have hl := h.live hc
  cases k with
  | true =>
    have hz := f1 rfl
    cases z with
    | nil => cases hz
    | cons c r =>
      have hz : letter c = true := by simpa using hz
      obtain ⟨n1, n2, n3⟩ := letter_not hz
      refine ⟨b, c :: r ++ w, by simp, hb, .inr ⟨c, r ++ w, rfl, n1, n2⟩, fun _ => ⟨?_, by simp⟩, nofun⟩
      rcases hl with ⟨s', e, el⟩ | ⟨rfl, el⟩
      · rw [el]
        have e1 := congrArg List.length e
        simp only [List.length_append, List.length_cons, List.length_nil] at e1
        cases r with
        | cons d r => simp only [List.length_cons] at e1; omega
        | nil =>
          have := congrArg List.getLast? e
          simp at this
          exact absurd this n3
      · rw [List.append_nil, el]; simp
  | false =>
    rcases f2 rfl with rfl | rfl
    · rw [List.append_nil] at hl ⊢
      rcases hl with ⟨s', e, el⟩ | ⟨rfl, el⟩
      · exact (gap_no_semi hb e).elim
      · exact ⟨b, [], by simp, hb, .inl rfl, nofun, fun _ => by rw [List.append_nil, el]⟩
    · refine ⟨b, 59 :: w, by simp, hb, .inr ⟨59, w, rfl, by unfold White; decide, by decide⟩, nofun, fun _ => ?_⟩
      rcases hl with ⟨s', e, el⟩ | ⟨rfl, el⟩
      · rw [el, (List.append_inj' e rfl).1]
      · have := (tame_gap hb) [59] (by simpa using hc)
        simpa [live] using this

theorem take_white {l : List UInt8} (hc : ¬ Commented l) (p : Nat) :
    ∀ c ∈ (l.drop p).take (ws (l.drop p)), White c := by
  refine blank_white (Quick.ws_blank _) fun h => hc ?_
  have h1 := commented_left (b := (l.drop p).drop (ws (l.drop p))) h
  rw [List.take_append_drop] at h1
  have h2 := commented_right (a := l.take p) h1
  rwa [List.take_append_drop] at h2

theorem no_command {k : Bool} {s w : List UInt8} (h : Ends k s w) (hc : ¬ Commented (s ++ w)) (only : Bool) :
    stretch only (s ++ w) = stStretch (s ++ w) := by
  obtain ⟨b, z, e, hb, hz, -, -⟩ := ends_front h hc
  have hw := take_white hc 0
  rw [List.drop_zero] at hw
  generalize s ++ w = l at *
  have key : Quick.env .r_client_command l = none := by
    cases hcc : Quick.env .r_client_command l with
    | none => rfl
    | some n =>
      exfalso
      have h58 : l[ws l]? = some 58 := by
        rw [Quick.env_eq] at hcc
        obtain ⟨i, j, h1, h2, -⟩ := Quick.den_seq_some.1 hcc
        rw [Quick.den_nt, Quick.ws_eq, Option.some.injEq] at h1
        obtain ⟨i', j', h3, h4, -⟩ := Quick.den_seq_some.1 h2
        obtain ⟨i'', j'', h5, h6, -⟩ := Quick.den_seq_some.1 h4
        obtain ⟨u, h7, -⟩ := Quick.den_chr_some.1 h5
        have : i' = 0 := by
          simp [Peg.den] at h3
          exact h3.symm
        subst h1 this
        rw [List.drop_zero] at h7
        have := congrArg List.head? h7
        rwa [List.head?_drop] at this
      generalize ws l = m at *
      subst e
      rcases Nat.lt_trichotomy m b.length with hm | rfl | hm
      · rw [List.getElem?_append_left hm] at h58
        have := gap_white hb 58 (List.mem_of_getElem? h58)
        revert this; unfold White; decide
      · rw [List.getElem?_append_right (Nat.le_refl _), Nat.sub_self] at h58
        rcases hz with rfl | ⟨c, r, rfl, -, n⟩
        · cases h58
        · exact n (by simpa using h58)
      · rcases hz with rfl | ⟨c, r, rfl, n, -⟩
        · rw [List.getElem?_eq_none (by simp; omega)] at h58
          cases h58
        · refine n (hw c ?_)
          rw [List.take_append, List.mem_append]
          right
          obtain ⟨j, hj⟩ : ∃ j, m - b.length = j + 1 := ⟨m - b.length - 1, by omega⟩
          rw [hj]
          simp
  unfold stretch
  rw [key]
  cases only <;> rfl

/-- There is text where there is a statement. -/
theorem ends_text {k : Bool} {s w : List UInt8} (h : Ends k s w) (hc : ¬ Commented (s ++ w)) :
    decide (stBegin (s ++ w) < stEnd (s ++ w)) = k := by
  obtain ⟨b, z, e, hb, hz, h1, h2⟩ := ends_front h hc
  obtain ⟨l1, -⟩ := Quick.stTerm_live (s ++ w)
  obtain ⟨e1, e2, e3⟩ := Quick.stEnd_le (s ++ w)
  have hw0 := take_white hc 0
  rw [List.drop_zero] at hw0
  have hw1 := take_white hc (stEnd (s ++ w))
  rw [← l1] at h1 h2
  cases k with
  | true =>
    obtain ⟨h1, h3⟩ := h1 rfl
    simp only [decide_eq_true_eq]
    by_contra hn
    have e0 : stEnd (s ++ w) = ws (s ++ w) := by unfold stBegin at *; omega
    have ht : stTerm (s ++ w) = ws (s ++ w) + ws ((s ++ w).drop (ws (s ++ w))) := by unfold stTerm; rw [e0]
    rw [e0] at hw1
    have hw : ∀ c ∈ (s ++ w).take (stTerm (s ++ w)), White c := by
      intro c hcm
      rw [ht, List.take_add, List.mem_append] at hcm
      exact hcm.elim (hw0 c) (hw1 c)
    rcases hz with rfl | ⟨c, r, rfl, n, -⟩
    · exact h3 rfl
    · refine n (hw c ?_)
      generalize stTerm (s ++ w) = m at *
      rw [e, List.take_append, List.mem_append]
      right
      obtain ⟨j, hj⟩ : ∃ j, m - b.length = j + 1 := ⟨m - b.length - 1, by omega⟩
      rw [hj]
      simp
  | false =>
    have h2 := h2 rfl
    have := ws_gap hb z
    rw [← e] at this
    simp only [decide_eq_false_iff_not]
    unfold stBegin at *
    omega

/-! ## All segments -/

theorem segs_agree {p : Pos} {w : List UInt8} {L : List PSeg} (h : Cut Ends p w L) (hc : ¬ Commented w) (only : Bool) :
    (segs only p w).map (fun s => (s.next, s.isStatement, !s.text.isEmpty)) =
      L.map fun s => (s.range.stop, true, s.directive.isSome) := by
  induction h with
  | nil => rw [segs, dif_pos rfl]; rfl
  | @cons p s w seg L hs hq hst _ ih =>
    have hn := ends_at hq hs hc
    have ht := ends_text hq hc
    have hx := no_command hq hc only
    obtain ⟨e1, e2, e3⟩ := Quick.stEnd_le (s ++ w)
    rw [segs, dif_neg (by simp [hs]), hx, hn]
    simp only [List.take_left', List.drop_left', List.map_cons, ih fun h => hc (commented_right h)]
    congr 1
    simp only [Quick.segOf, hn, hst, Prod.mk.injEq]
    refine ⟨by simp, rfl, ?_⟩
    rw [← ht]
    simp only [stStretch]
    generalize stBegin (s ++ w) = x at *
    generalize stEnd (s ++ w) = y at *
    by_cases hxy : x < y
    · have : (s ++ w).extract x y ≠ [] := by
        intro h0
        have := congrArg List.length h0
        simp only [List.extract_eq_take_drop, List.length_take, List.length_drop, List.length_nil] at this
        omega
      simp [hxy, this]
    · have : (s ++ w).extract x y = [] := by simp [List.extract_eq_take_drop]; omega
      simp [hxy, this]

/-- C51, of all texts that are parsed without errors for those of the grammar. On a text of the grammar the quick parser and the parser find segments that end at the same positions, whichever of
them looks for client commands. All are statements to the quick parser, and it finds text in those for which the parser gives
a directive. -/
theorem quick_agrees_partial {S : Source σ} {src : σ} {w : List UInt8} {ks : List Bool} (h : Text ks w) (hd : Delivers S src w)
    (h1 : 96 ∉ w) (h2 : ¬ Commented w) (cfg : Config) (hp : cfg.position = ⟨1, 1, 0⟩) (only only' : Bool) :
    ∃ L M, YieldsP S src cfg only L ∧ Verif.Yields S src only' M ∧ M.map (·.next) = L.map (·.range.stop) ∧
      (∀ q ∈ M, q.isStatement = true) ∧ M.map (fun q => !q.text.isEmpty) = L.map (fun s => s.directive.isSome) ∧
      L.map (fun s => s.directive.isSome) = ks := by
  obtain ⟨L, g1, g2, g3, g4⟩ := (h.script only).yields hd h1 h2 cfg
  rw [hp] at g4
  have g5 := segs_agree g4 h2 only'
  refine ⟨L, _, g1, hd.yields only', ?_, ?_, ?_, g2⟩
  · have := congrArg (List.map Prod.fst) g5
    rwa [List.map_map, List.map_map] at this
  · intro q hq
    have h6 : (fun s : QSeg => (s.next, s.isStatement, !s.text.isEmpty)) q ∈
        (segs only' ⟨1, 1, 0⟩ w).map (fun s => (s.next, s.isStatement, !s.text.isEmpty)) := List.mem_map_of_mem hq
    rw [g5] at h6
    obtain ⟨s, -, e⟩ := List.mem_map.1 h6
    simp only [Prod.mk.injEq] at e
    exact e.2.1.symm
  · have := congrArg (List.map fun x => x.2.2) g5
    rwa [List.map_map, List.map_map] at this

/-! ## Quoted names -/

/-- C51 is false of names in back quotes: the quick parser does not know them (quick_parser.leg:33-45), and takes a semicolon
in one for the end of the statement. The parser accepts ``RETURN `a;b` `` as one statement. -/
theorem quick_splits_quoted_name :
    (∃ L, YieldsP streamSource (ascii "RETURN `a;b`") plainCfg false L ∧
      L.map (fun s => (s.range.stop.offset, s.errors.length, s.directive.isSome)) = [(12, 0, true)]) ∧
    ∃ M, Verif.Yields streamSource (ascii "RETURN `a;b`") true M ∧ M.map (fun q => q.next.offset) = [10, 12] := by
  constructor
  · obtain ⟨L, h1, h2⟩ := yields_of_test (S := streamSource) (src := ascii "RETURN `a;b`") (cfg := plainCfg) (only := false)
      (fuel := 120) (fun L => L.map (fun s => (s.range.stop.offset, s.errors.length, s.directive.isSome)) == [(12, 0, true)])
      (by decide +kernel)
    exact ⟨L, h1, by simpa using h2⟩
  · obtain ⟨M, h1, h2⟩ := quick_terminator (stream_delivers (ascii "RETURN `a;b`"))
    obtain ⟨M', h3, h4⟩ := quick_tiles (stream_delivers (ascii "RETURN `a;b`")) true
    obtain rfl := h1.unique h3
    refine ⟨M, h1, ?_⟩
    have e0 : (ascii "RETURN `a;b`").length = 12 := by decide +kernel
    have l0 : live .normal 0 ((ascii "RETURN `a;b`").drop 0) = 9 := by decide +kernel
    have l1 : live .normal 0 ((ascii "RETURN `a;b`").drop 10) = 2 := by decide +kernel
    have n1 : (ascii "RETURN `a;b`")[12]? = none := by decide +kernel
    match M, h2, h4 with
    | [], h2, _ => exact absurd (h2.trans e0) (by decide)
    | q :: M, ⟨_, hor, _, _, _, _, h2⟩, ⟨_, _, _, _, _, _, _, _, h4⟩ =>
      rw [l0, e0] at hor
      have hq : q.next.offset = 10 := by omega
      rw [hq] at h2 h4
      match M, h2, h4 with
      | [], h2, _ => exact absurd (h2.trans e0) (by decide)
      | q' :: M, ⟨_, hor', _, _, _, _, _⟩, ⟨_, _, _, _, _, _, _, _, h4⟩ =>
        rw [l1, e0, n1] at hor'
        have hq' : q'.next.offset = 12 := by
          rcases hor' with ⟨_, h, _⟩ | h
          · cases h
          · omega
        rw [hq'] at h4
        match M, h4 with
        | [], _ => simp [hq, hq']
        | _ :: _, ⟨_, _, _, _, _, _⟩ => rw [e0] at *; omega

/-! ## Examples -/

theorem ex3_plain : ¬ Commented ex3 := by
  rintro ⟨p, hp⟩
  have h : ∀ p < ex3.length, ¬ (ex3.extract p (p + 2) = [47, 47] ∨ ex3.extract p (p + 2) = [47, 42]) := by decide +kernel
  by_cases hlt : p < ex3.length
  · exact h p hlt hp
  · have : ex3.extract p (p + 2) = [] := by simp [List.extract_eq_take_drop]; omega
    rw [this] at hp
    simp at hp

/-- A semicolon in a string divides nothing. -/
example : ∃ L M, YieldsP streamSource ex3 plainCfg false L ∧ Verif.Yields streamSource ex3 true M ∧
    M.map (·.next) = L.map (·.range.stop) ∧ M.length = 1 := by
  obtain ⟨L, M, h1, h2, h3, -, h4, h5⟩ := quick_agrees_partial ex3_text (stream_delivers ex3) (by decide +kernel) ex3_plain plainCfg rfl false true
  refine ⟨L, M, h1, h2, h3, ?_⟩
  have := congrArg List.length (h4.trans h5)
  simpa using this

example : (ex3.getLast?, ex3[ex3.length - 2]?) = (some 39, some 59) := by decide +kernel

/-- What the parts of the proof are about: a statement, white space before it, an empty statement after it. -/
example : Ends true (ascii " RETURN ';';") (ascii ";") := by
  refine ⟨⟨[32], ascii "RETURN ';';", by decide +kernel, .char (by decide) .nil, fun _ => by decide +kernel, nofun⟩, fun _ => .inl
    ⟨ascii " RETURN ';'", by decide +kernel, by decide +kernel⟩⟩

/-- `RETURN 1;; RETURN ';'` and a newline: the quick parser, as run, and the parser. -/
example : (match Quick.quickParse streamSource (ascii "RETURN 1;; RETURN ';'\n") (recording always) [] false false 120 with
    | some (.ok (0, M)) => M.map (fun q => (q.next.offset, q.text)) ==
      [(9, ascii "RETURN 1"), (10, []), (22, ascii "RETURN ';'\n")]
    | _ => false) = true := by decide +kernel
example : (match outline (collect streamSource (ascii "RETURN 1;; RETURN ';'\n") plainCfg false false 120) with
    | some (.ok (_, L)) => L.map (fun s => (s.2.1, s.2.2.2.2.1)) == [(9, true), (10, false), (22, true)]
    | _ => false) = true := by decide +kernel

end Verif.Stmts
