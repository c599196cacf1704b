import Verif.Cypher.ExprText
/-!
# Where expressions end, lists and maps

What is needed to read an expression, given that all shorter ones are read.
-/
namespace Verif.Exprs
open Verif.Peg Verif.Cypher Verif.Cypher.Win
open Verif.Ops (words bytes upper)

variable {w : List UInt8}

/-- An expression ends before the text `t` at `p`. -/
structure StopAt (w : List UInt8) (p : Nat) (t : List UInt8) : Prop where
  here : Here w p t
  tail : TailText t
  dot : t.head? ≠ some 46
  loop : ∀ M < 15, ShunsAt w M loop p
  cmp : ∀ M < 15, ShunsAt w M cmpStep p

/-- What follows, as a piece. -/
def endPiece (t : List UInt8) : Piece := ⟨.operand, t, []⟩

theorem stop_at {p : Nat} {c : UInt8} {t : List UInt8} (hc : (Win.set "),];|}").mem c = true) (h : Here w p (c :: t)) :
    StopAt w p (c :: t) where
  here := h
  tail := .of (imp_byte (P := fun c => (Win.set "),];|}").mem c) (by decide +kernel) hc) (by
    intro e; subst e; exact absurd hc (by decide))
  dot := by simp only [List.head?_cons, ne_eq, Option.some.injEq]; intro e; subst e; exact absurd hc (by decide)
  loop M hM := Win.shunsAt (stop_run M (by simpa using hM)).1 (.cons (.of_byte h hc) .nil) (qs := []) .nil
    (by simp) (by simp) (by simp)
  cmp M hM := Win.shunsAt (stop_run M (by simpa using hM)).2 (.cons (.of_byte h hc) .nil) (qs := []) .nil
    (by simp) (by simp) (by simp)

theorem stop_end {p : Nat} (h : Here w p []) : StopAt w p [] where
  here := h
  tail := ⟨.inl rfl, .inl rfl⟩
  dot := by simp
  loop M hM := Win.shunsAt (stop_fin M (by simpa using hM)).1 (.cons (.of_fin h) .nil) (p1 := p) (qs := []) .nil
    (by simp) (by simp) (by simp)
  cmp M hM := Win.shunsAt (stop_fin M (by simpa using hM)).2 (.cons (.of_fin h) .nil) (p1 := p) (qs := []) .nil
    (by simp) (by simp) (by simp)

theorem Apart.other {x : Piece} {t : List UInt8} (h : t.head?.any sym = false) (h' : t.head? ≠ some 46) :
    Apart x (endPiece t) := by
  refine fun _ => ⟨fun e => ?_, fun e => h' e.2⟩
  have := e.2
  rw [show (endPiece t).text = t from rfl, h] at this
  cases this

theorem Spaced.end_ {t : List UInt8} (h : t.head?.any sym = false) (h' : t.head? ≠ some 46) :
    ∀ {E : List Piece}, Spaced E → Spaced (E ++ [endPiece t])
  | [], _ => trivial
  | [_], _ => ⟨.other h h', trivial⟩
  | _ :: y :: E, hs => ⟨hs.1, Spaced.end_ h h' (E := y :: E) hs.2⟩

theorem Spaced.tail {x : Piece} {X : List Piece} (h : Spaced (x :: X)) : Spaced X := by
  cases X with
  | nil => trivial
  | cons y X => exact h.2

theorem Spaced.right : ∀ {X Y : List Piece}, Spaced (X ++ Y) → Spaced Y
  | [], _, h => h
  | _ :: X, _, h => Spaced.right (X := X) h.tail

theorem render_append {X Y : List Piece} : render (X ++ Y) = render X ++ render Y := by simp [render]

/-- What a piece is followed by begins with the next piece, which is kept apart. -/
theorem Spaced.apart {x : Piece} {X : List Piece} {t : List UInt8} (h : Spaced (x :: (X ++ [endPiece t])))
    (hX : ∀ y ∈ X, y.text ≠ []) (hb : x.blank = []) :
    ¬ (EndsSym x.text ∧ (render X ++ t).head?.any sym = true) ∧
      ¬ (x.text.head?.any digit = true ∧ (render X ++ t).head? = some 46) := by
  cases X with
  | nil => exact h.1 hb
  | cons y X =>
    have := h.1 hb
    have hy := hX y (by simp)
    obtain ⟨c, r, e⟩ : ∃ c r, y.text = c :: r := by
      cases hy' : y.text with
      | nil => exact absurd hy' hy
      | cons c r => exact ⟨c, r, rfl⟩
    rw [render_cons, e]
    rw [e] at this
    exact this

theorem Chain.texts {v : Bool} {X : List Piece} (h : Chain v X) : ∀ y ∈ X, y.text ≠ [] := by
  induction h with
  | done => simp
  | operand h1 _ _ ih =>
    intro y hy
    rcases List.mem_cons.1 hy with rfl | hy
    · obtain ⟨c, r, rfl, -⟩ := h1.head; simp
    · exact ih y hy
  | pre _ h1 _ _ ih | post _ h1 _ _ ih | inf _ h1 _ _ ih =>
    intro y hy
    rcases List.mem_cons.1 hy with rfl | hy
    · obtain ⟨c, r, rfl, -⟩ := h1.first; simp
    · exact ih y hy
  | property _ _ _ _ ih | subscript _ _ _ _ _ ih =>
    intro y hy
    rcases List.mem_cons.1 hy with rfl | hy
    · simp
    · exact ih y hy

/-! ## Names with dots -/

/-- After a name: `.name` any number of times, then neither a dot nor a parenthesis. -/
inductive Undot : List UInt8 → Prop
  | stop {t} : TailText t → t.head? ≠ some 46 → Undot t
  | dot {b' s b t} : Gap b' → Symbolic s → Gap b → (b = [] → t.head?.any sym = false) → Undot t →
      Undot (46 :: (b' ++ (s ++ (b ++ t))))

theorem Undot.tail {t : List UInt8} (h : Undot t) : TailText t := by
  cases h with
  | stop h _ => exact h
  | dot => exact .of (by decide) (by simp)

theorem Chain.undot {v : Bool} {X : List Piece} {t : List UInt8} (h : Chain v X) (hv : v = false)
    (ht : TailText t) (hd : t.head? ≠ some 46) (hs : Spaced (X ++ [endPiece t])) : Undot (render X ++ t) := by
  induction h with
  | done =>
    exact .stop ht hd
  | operand => cases hv
  | pre => cases hv
  | @post o s b X h1 h2 h3 h4 _ =>
    have := (Chain.post h1 h2 h3 h4).tail ht
    obtain ⟨c, r, rfl, e⟩ := h2.first
    rw [render_cons] at this ⊢
    refine .stop this fun e' => ?_
    cases Option.some.inj e'
    have : ∀ o ∈ postfixes, ((words o).map bytes).head?.bind List.head? ≠ some (upper 46) := by decide +kernel
    exact this o h1 e
  | @inf o s b X h1 h2 h3 h4 _ =>
    have := (Chain.inf h1 h2 h3 h4).tail ht
    obtain ⟨c, r, rfl, e⟩ := h2.first
    rw [render_cons] at this ⊢
    refine .stop this fun e' => ?_
    cases Option.some.inj e'
    have : ∀ o ∈ infixes, ((words o).map bytes).head?.bind List.head? ≠ some (upper 46) := by decide +kernel
    exact this o h1 e
  | @property s b b' X h1 h2 h3 h4 ih =>
    rw [render_cons]
    have := Undot.dot h1 h2 h3 (fun hb => ?_) (ih rfl hs.tail)
    · simpa using this
    · have := (Spaced.apart hs h4.texts hb).1
      have he : EndsSym (46 :: (b' ++ s)) := EndsSym.append (s := 46 :: b') h2.ends
      simpa [he] using this
  | @subscript b b' F X h1 h2 h3 h4 h5 _ =>
    have := (Chain.subscript h1 h2 h3 h4 h5).tail ht
    rw [render_cons] at this ⊢
    exact .stop this (by simp)

theorem stops_lay {b t : List UInt8} (hb : Gap b) (ht : TailText t) (hc : t.head? ≠ some 46)
    (ha : b = [] → t.head?.any sym = false) {p : Nat} (h : Here w p (b ++ t)) (p' : Nat) :
    ∃ B ∈ stops, Lay w B p [p + b.length, p'] := by
  obtain ⟨h1, rfl | ⟨c, r, rfl, h2⟩⟩ := ht
  · exact ⟨[.ws false, .fin], by simp [stops], fin_lay hb h p'⟩
  have hc : c ≠ 46 := by simpa using hc
  by_cases hb0 : b = []
  · exact ⟨[.ws false, .hole kTailNum], by simp [stops], gap_lay hb h1 rfl (tail_num h2 (by simpa using ha hb0) hc) (by simp) h p'⟩
  · exact ⟨[.ws true, .hole kStop], by simp [stops], gap_lay hb h1 rfl
      (imp_byte (P := fun c => kTail.mem c && c != 46) (by decide +kernel) (by simp [h2, hc])) (fun _ => hb0) h p'⟩

theorem undot_chain {t : List UInt8} (h : Undot t) : ∀ {s b : List UInt8} {p : Nat}, Symbolic s → Gap b →
    (b = [] → t.head?.any sym = false) → Here w p (s ++ (b ++ t)) →
    ∃ p1 p2 B, Eats w (.star chainStep) p p1 ∧ B ∈ stops ∧ (∃ c, w[p]? = some c ∧ kStart.mem c = true) ∧
      Span w nameA p1 p2 ∧ ∃ qs, Lay w B p2 qs := by
  induction h with
  | @stop t ht hc =>
    intro s b p h1 h2 h3 hh
    obtain ⟨B, hB, hl⟩ := stops_lay h2 ht hc h3 hh.right 0
    have hsp := h1.span hh
    have hend := Win.shuns (link_end B hB) hsp hl (by simp) (by simp) (by simp)
    obtain ⟨c', r, rfl, g, -⟩ := h1.start
    exact ⟨p, _, B, .star_end hend, hB, ⟨_, hh.head, start_mem g⟩, hsp, _, hl⟩
  | @dot b' s' b1 t h1' h2' h3' h4' h5' ih =>
    intro s b p h1 h2 h3 hh
    have hb := hh.right
    have hdot : Solid (46 :: (b' ++ (s' ++ (b1 ++ t)))) := .inr <|
      ⟨46, _, rfl, by decide, by decide, by decide, by decide, by simp⟩
    have hd := hb.right
    have hs' := hd.tail.right
    obtain ⟨p1, p2, B, e1, e2, e3, e4⟩ := ih h2' h3' h4' hs'
    obtain ⟨c', r', e, g, -⟩ := h2'.start
    have hstep : Eats w chainStep p (p + s.length + b.length + 1 + b'.length) := by
      refine Win.eats (B := [.hole kStart]) (p1 := p + s.length + b.length + 1 + b'.length)
        (qs := [0]) link_run ?_ (.cons (.of_hole (by rw [e] at hs'; exact hs') (start_mem g)) .nil) (by simp) (by simp) (by simp)
      exact (h1.span hh).append (.cons (.of_gap h2 hdot hb (by simp)) (.cons (.of_byte hd (by decide))
        (.cons (.of_gap h1' h2'.solid hd.tail (by simp)) .nil)))
    obtain ⟨c'', r'', rfl, g', -⟩ := h1.start
    exact ⟨p1, p2, B, .star_more hstep e1, e2, ⟨_, hh.head, start_mem g'⟩, e4⟩

/-- A name that is not followed by a parenthesis is not the name of a function. -/
theorem no_application {s b t : List UInt8} {p : Nat} (h : Undot t) (h1 : Symbolic s) (h2 : Gap b)
    (h3 : b = [] → t.head?.any sym = false) (hh : Here w p (s ++ (b ++ t))) :
    Shuns w (.nt .r_function_application none) p := by
  obtain ⟨p1, p2, B, e1, e2, ⟨c, e3, e3'⟩, ⟨ps, l1, l2⟩, qs, e5⟩ := undot_chain h h1 h2 h3 hh
  have hl : Lay w (.hole kStart :: (nameA ++ B)) p (p1 :: (ps ++ qs)) := by
    refine .cons ⟨c, e3, e3'⟩ (l1.append ?_)
    rw [l2]; exact e5
  refine Win.shuns (apply_no B e2) .nil hl (by simp) (by simp) ?_
  intro f hf
  simp only [List.mem_singleton] at hf
  subst hf
  exact e1

/-! ## Operands -/

/-- Shorter expressions are read. -/
def GoodBelow (w : List UInt8) (N : Nat) : Prop := ∀ E p t, Exprn E → Spaced (E ++ [endPiece t]) → (render E).length < N →
  StopAt w (p + (render E).length) t → Here w p (render E ++ t) →
  Eats w (.nt .r_expression none) p (p + (render E).length)

/-- An expression between brackets. -/
theorem GoodBelow.inner {N : Nat} (hN : GoodBelow w N) {E : List Piece} {p : Nat} {c : UInt8} {t : List UInt8} (h : Exprn E)
    (hs : Spaced E) (hl : (render E).length < N) (hc : (Win.set "),];|}").mem c = true) (hh : Here w p (render E ++ c :: t)) :
    Eats w (.nt .r_expression none) p (p + (render E).length) := by
  have h1 : sym c = false := by
    have := imp_byte (P := fun c => (Win.set "),];|}").mem c) (Q := fun c => !sym c) (by decide +kernel) hc
    simpa using this
  have h2 : c ≠ 46 := by rintro rfl; exact absurd hc (by decide)
  exact hN E p (c :: t) h (hs.end_ (by simpa using h1) (by simpa using h2)) hl (stop_at hc hh.right) hh

theorem Exprn.head {E : List Piece} {t : List UInt8} (h : Exprn E) : HeadText (render E ++ t) := (Exprn.chain le_rfl h).head

/-- No expression begins with the word DISTINCT. -/
theorem Exprn.distinct {E : List Piece} {t : List UInt8} {p : Nat} (h : Exprn E) (hs : Spaced (E ++ [endPiece t]))
    (hh : Here w p (render E ++ t)) : Shuns w (.nt .r_DISTINCT none) p := by
  have hc := Exprn.chain le_rfl h
  have hx := hc.texts
  cases hc with
  | @operand s b X h1 h2 h3 =>
    rw [render_cons] at hh
    refine h1.distinct hh fun he => ?_
    by_cases hb : b = []
    · have := (Spaced.apart (X := X) hs (fun y hy => hx y (by simp [hy])) hb).1
      subst hb
      cases hy : (render X ++ t).head?.any sym
      · exact hy
      · exact absurd ⟨he, hy⟩ this
    · cases h2 with
      | nil => exact absurd rfl hb
      | char hc _ => rcases hc with rfl | rfl | rfl <;> rfl
      | crlf _ => rfl
  | @pre o s b X h1 h2 h3 h4 =>
    obtain ⟨c, r, rfl, h5⟩ := h2.first
    rw [render_cons] at hh
    exact no_distinct hh (imp_byte (P := fun c => prefixes.any fun o => ((words o).map bytes).head?.bind List.head? == some (upper c))
      (Q := fun c => kNoD.mem c) (by decide +kernel) (by rw [List.any_eq_true]; exact ⟨o, h1, by rw [h5, beq_self_eq_true]⟩))

theorem HeadText.solid {t : List UInt8} (h : HeadText t) : Solid t := h.1
theorem HeadText.hole {t : List UInt8} (h : HeadText t) {p : Nat} (hh : Here w p t) (p' : Nat) :
    CellAt w (.hole kHead) p p' := by
  obtain ⟨-, c, r, rfl, h⟩ := h
  exact .of_hole hh h

theorem args_read {N : Nat} (hN : GoodBelow w N) {i : Nat} (hi : i < 2) {z : UInt8} (hz : z = 41 ∨ z = 93) :
    ∀ (n : Nat) {t r : List UInt8} {p : Nat}, t.length ≤ n → Args1 t →
    t.length < N → Here w p (t ++ z :: r) → HeadText (t ++ z :: r) ∧
    ∃ p1, Eats w (.nt .r_expression none) p p1 ∧ Eats w (.star (moreArgs i)) p1 (p + t.length) ∧
      (∃ c, w[p1]? = some c ∧ (c = 44 ∨ c = z)) ∧ Shuns w (.nt .r_DISTINCT none) p := by
  have hzs : (Win.set "),];|}").mem z = true ∧ (Win.set ")]").mem z = true := by
    rcases hz with rfl | rfl <;> exact ⟨by decide, by decide⟩
  intro n
  induction n with
  | zero =>
    intro t r p hn h
    cases h with
    | one h _ =>
      have := h.head (t := [])
      obtain ⟨-, c, r, e, -⟩ := this
      simp only [List.append_nil] at e
      rw [e] at hn
      simp at hn
    | more => simp at hn
  | succ n ih =>
    intro t r p hn h hl hh
    cases h with
    | @one E h hs =>
      refine ⟨h.head, _, hN.inner h hs hl hzs.1 hh, ?_, ⟨z, hh.right.head, .inr rfl⟩,
        h.distinct (hs.end_ (by rcases hz with rfl | rfl <;> rfl) (by rcases hz with rfl | rfl <;> simp)) hh⟩
      exact .star_end (Win.shuns (more_end i hi) (.cons (.of_byte hh.right hzs.2) .nil) (qs := []) .nil (by simp) (by simp) (by simp))
    | @more E b t' h hs hb h' =>
      have e : render E ++ 44 :: (b ++ t') ++ z :: r = render E ++ 44 :: (b ++ (t' ++ z :: r)) := by simp
      rw [e] at hh ⊢
      simp only [List.length_append, List.length_cons] at hn hl
      have hc := hh.right
      have hb' := hc.tail
      have ht' := hb'.right
      obtain ⟨g0, p1, g1, g2, g3⟩ := ih (by omega) h' (by omega) ht'
      refine ⟨h.head, _, hN.inner h hs (by omega) (by decide) hh, ?_, ⟨44, hc.head, .inl rfl⟩,
        h.distinct (hs.end_ rfl (by simp)) hh⟩
      have hstep : Eats w (moreArgs i) (p + (render E).length) p1 := by
        refine Win.eats (B := [.hole kHead]) (p1 := p + (render E).length + 1 + b.length) (qs := [p1]) (more_run i hi)
          (.cons (.of_byte hc (by decide)) (.cons (.of_gap hb g0.solid hb' (by simp)) .nil))
          (.cons (g0.hole ht' p1) .nil) (by simp) ?_ (by simp)
        intro f hf
        simp only [List.mem_singleton] at hf
        subst hf
        exact FactOk.eats g1
      have := Eats.star_more hstep g2
      rw [show p + (render E ++ 44 :: (b ++ t')).length = p + (render E).length + 1 + b.length + t'.length by
        simp; omega]
      exact this

theorem entries_read {N : Nat} (hN : GoodBelow w N) : ∀ (n : Nat) {t r : List UInt8} {p : Nat}, t.length ≤ n → Entries t →
    t.length < N → Here w p (t ++ 125 :: r) → ∃ p0 p1, Solid (t ++ 125 :: r) ∧ Span w entryA p p0 ∧ CellAt w (.hole kHead) p0 p1 ∧
      Eats w (.nt .r_expression none) p0 p1 ∧ Eats w (.star moreEntries) p1 (p + t.length) ∧
      ∃ c, w[p1]? = some c ∧ (Win.set ",}").mem c = true := by
  intro n
  induction n with
  | zero =>
    intro t r p hn h
    cases h with
    | one h => obtain ⟨c, r, rfl, -⟩ := h.start; simp at hn
    | more h => obtain ⟨c, r, rfl, -⟩ := h.start; simp at hn
  | succ n ih =>
    intro t r p hn h hl hh
    have h58 : ∀ r, Solid (58 :: r) := fun r => .inr ⟨58, r, rfl, by decide, by decide, by decide, by decide, by simp⟩
    have first : ∀ {s b b' r : List UInt8} {E : List Piece}, Symbolic s → Gap b → Gap b' → Exprn E →
        Here w p (s ++ (b ++ 58 :: (b' ++ (render E ++ r)))) → Span w entryA p (p + s.length + b.length + 1 + b'.length) ∧
          Here w (p + s.length + b.length + 1 + b'.length) (render E ++ r) := by
      intro s b b' r E h1 h2 h3 h4 hh
      have g1 := hh.right
      have g2 := g1.right
      have g3 := g2.tail
      exact ⟨(h1.span hh).append (.cons (.of_gap h2 (h58 _) g1 (by simp)) (.cons (.of_byte g2 (by decide))
        (.cons (.of_gap h3 h4.head.solid g3 (by simp)) .nil))), g3.right⟩
    cases h with
    | @one s b b' E h1 h2 h3 h4 h5 =>
      simp only [List.length_append, List.length_cons] at hn hl
      have hh' : Here w p (s ++ (b ++ 58 :: (b' ++ (render E ++ 125 :: r)))) := by simpa using hh
      obtain ⟨g1, g2⟩ := first h1 h2 h3 h4 hh'
      refine ⟨_, _, by simpa using h1.solid, g1, h4.head.hole g2 _, hN.inner h4 h5 (by omega) (by decide) g2, ?_, 125,
        g2.right.head, by decide⟩
      rw [show p + (s ++ (b ++ 58 :: (b' ++ render E))).length = p + s.length + b.length + 1 + b'.length + (render E).length by
        simp; omega]
      exact .star_end (Win.shuns entry_end (.cons (.of_byte g2.right (by decide)) .nil) (qs := []) .nil (by simp) (by simp) (by simp))
    | @more s b b' E b'' t h1 h2 h3 h4 h5 h6 h7 =>
      simp only [List.length_append, List.length_cons] at hn hl
      have hh' : Here w p (s ++ (b ++ 58 :: (b' ++ (render E ++ 44 :: (b'' ++ (t ++ 125 :: r)))))) := by simpa using hh
      obtain ⟨g1, g2⟩ := first h1 h2 h3 h4 hh'
      have g3 := g2.right
      have g4 := g3.tail
      have g5 := g4.right
      obtain ⟨q0, q1, k0, k1, k2, k3, k4, k5⟩ := ih (by omega) h7 (by omega) g5
      refine ⟨_, _, by simpa using h1.solid, g1, h4.head.hole g2 _, hN.inner h4 h5 (by omega) (by decide) g2, ?_, 44,
        g3.head, by decide⟩
      have hstep : Eats w moreEntries (p + s.length + b.length + 1 + b'.length + (render E).length) q1 := by
        refine Win.eats (B := [.hole kHead]) (p1 := q0) (qs := [q1]) entry_run
          ((Span.append (.cons (.of_byte g3 (by decide)) (.cons (.of_gap h6 k0 g4 (by simp)) .nil)) k1))
          (.cons k2 .nil) (by simp) ?_ (by simp)
        intro f hf
        simp only [List.mem_singleton] at hf
        subst hf
        exact FactOk.eats k3
      refine (Eats.star_more hstep k4).to ?_
      simp; omega

/-- A map and the white space after it. -/
theorem map_read {N : Nat} (hN : GoodBelow w N) {s b t : List UInt8} {p : Nat} (h : Map s) (hl : s.length ≤ N) (hb : Gap b)
    (ht : Solid t) (hh : Here w p (s ++ (b ++ t))) : ∀ e ∈ mapEs, Eats w e p (p + s.length + b.length) := by
  intro e he
  have h125 : ∀ r, Solid (125 :: r) := fun r => .inr ⟨125, r, rfl, by decide, by decide, by decide, by decide, by simp⟩
  have tail : ∀ {p : Nat}, Here w p (b ++ t) → ∃ B ∈ mapEnds, Lay w B p [p + b.length, 0] := by
    intro p hp
    rcases id ht with rfl | ⟨c, r, rfl, -⟩
    · exact ⟨[.ws false, .fin], by simp [mapEnds], fin_lay hb hp 0⟩
    · exact ⟨[.ws false, .hole ⟨2 ^ 256 - 1⟩], by simp [mapEnds], gap_lay hb ht rfl
        (every_byte (P := fun c => CharSet.mem ⟨2 ^ 256 - 1⟩ c) (by decide +kernel) c) (by simp) hp 0⟩
  cases h with
  | @empty b1 h1 =>
    simp only [List.cons_append, List.append_assoc, List.nil_append] at hh
    have g1 := hh.tail
    have g2 := g1.right
    obtain ⟨B, hB, hl⟩ := tail g2.tail
    have := Win.eats (B := .byte (.single 125) :: B) (p1 := p + 1 + b1.length)
      (qs := [p + 1 + b1.length + 1, p + 1 + b1.length + 1 + b.length, 0]) (map_none e he B hB)
      (.cons (.of_byte hh (by decide)) (.cons (.of_gap h1 (h125 _) g1 (by simp)) .nil)) (.cons (.of_byte g2 (by decide)) hl)
      (by simp) (by simp) (by simp)
    exact this.to (by simp [Mark]; omega)
  | @some b1 t1 h1 h2 =>
    simp only [List.length_cons, List.length_append, List.length_nil] at hl
    simp only [List.cons_append, List.append_assoc, List.nil_append] at hh
    have g1 := hh.tail
    have g2 := g1.right
    have g3 := g2.right
    obtain ⟨q0, q1, k0, k1, k2, k3, k4, c, k5, k6⟩ := entries_read hN _ le_rfl h2 (by omega) g2
    obtain ⟨B, hB, hl⟩ := tail g3.tail
    have := Win.eats (B := mapB ++ B) (p1 := q0)
      (qs := [q1, p + 1 + b1.length + t1.length, p + 1 + b1.length + t1.length + 1, p + 1 + b1.length + t1.length + 1 + b.length, 0])
      (map_some e he B hB)
      (Span.append (.cons (.of_byte hh (by decide)) (.cons (.of_gap h1 k0 g1 (by simp)) .nil)) k1)
      (.cons k2 (.cons ⟨c, k5, k6⟩ (.cons (.of_byte g3 (by decide)) hl))) (by simp)
      (by
        intro f hf
        simp only [List.mem_singleton] at hf
        subst hf
        exact FactOk.eats k3)
      (by
        intro f hf
        simp only [List.mem_singleton] at hf
        subst hf
        exact k4)
    exact this.to (by simp [Mark]; omega)

theorem const_symbolic {s : List UInt8} (g : s.map upper ∈ consts) : Symbolic s := by
  obtain ⟨c, r', rfl, -⟩ := const_head g
  refine ⟨.inl ?_, fun d hd => const_sym g d (by simp [hd])⟩
  have h0 : ∀ x ∈ consts, x.all letter = true := by decide +kernel
  have := h0 _ g
  simp only [List.map_cons, List.all_cons, Bool.and_eq_true] at this
  exact imp_byte (P := fun d => letter (upper d)) (by decide +kernel) this.1

end Verif.Exprs
