import Verif.Cypher.ExprParts
/-!
# The parser reads every expression

By induction on the text: the rule for operands reads each of them, the loop of `_expression` (parser.leg:424-453) goes on
for as long as the level allows.
-/
namespace Verif.Exprs
open Verif.Peg Verif.Cypher Verif.Cypher.Win Verif.Stmts
open Verif.Ops (words bytes upper)

variable {w : List UInt8}

theorem key_symbolic {x : String} {k : Piece} (h : Key x k) (hx : wordy x = true) (hn : bytes x ≠ []) : Symbolic k.text := by
  obtain ⟨h, -⟩ := h
  rename_i s b
  unfold wordy at hx
  rw [← h] at hx hn
  cases s with
  | nil => exact absurd rfl hn
  | cons c s =>
    simp only [List.map_cons, List.all_cons, Bool.and_eq_true, List.all_eq_true] at hx
    exact ⟨.inl (imp_byte (P := fun c => letter (upper c)) (by decide +kernel) hx.1),
      fun d hd => imp_byte (P := fun c => letter (upper c)) (Q := sym) (by decide +kernel) (hx.2 _ (List.mem_map_of_mem hd))⟩

theorem spaced_first {k : Piece} {Y : List Piece} {c : UInt8} {r : List UInt8} (hs : Spaced (k :: Y)) (he : EndsSym k.text)
    (hy : ∀ y ∈ Y, y.text ≠ []) (e : render Y = c :: r) : k.blank = [] → sym c = false := by
  intro hb
  cases Y with
  | nil => cases e
  | cons y Y =>
    have h1 := (hs.1 hb).1
    have h2 := hy y (by simp)
    cases ht : y.text with
    | nil => exact absurd ht h2
    | cons d t =>
      rw [ht] at h1
      have : c = d := by
        simp only [render, List.flatMap_cons, ht, List.cons_append, List.cons.injEq] at e
        exact e.1.symm
      subst this
      cases hc : sym c with
      | false => rfl
      | true => exact absurd ⟨he, by simpa using hc⟩ h1

/-- How an operand of several pieces begins. -/
theorem compound_begin {X : List Piece} (h : Compound Exprn X) (hs : Spaced X) (hx : ∀ x ∈ X, x.text ≠ []) :
    (∃ s b c r, render X = s ++ (b ++ c :: r) ∧ Symbolic s ∧ Gap b ∧ (c = 40 ∨ c = 46)) ∨
    (∃ s b c r, render X = s ++ (b ++ c :: r) ∧ s.map upper = bytes "CASE" ∧ Symbolic s ∧ Gap b ∧ kHead.mem c = true ∧ (b = [] → sym c = false)) ∨
    ∃ r, render X = 91 :: r := by
  have word : ∀ {x : String} {k o : Piece} {Y : List Piece}, Key x k → wordy x = true → bytes x ≠ [] → Key "(" o →
      ∃ s b c r, render (k :: o :: Y) = s ++ (b ++ c :: r) ∧ Symbolic s ∧ Gap b ∧ (c = 40 ∨ c = 46) := by
    intro x k o Y hk h1 h2 ho
    have h3 := key_sign ho (d := 40) (by decide +kernel) (by decide)
    have h4 := key_symbolic hk h1 h2
    obtain ⟨-, hb⟩ := hk
    exact ⟨_, _, 40, o.blank ++ render Y, by simp [render, h3], h4, hb, .inl rfl⟩
  have case : ∀ {k : Piece} {Y : List Piece}, X = k :: Y → Key "CASE" k → HeadText (render Y) →
      ∃ s b c r, render X = s ++ (b ++ c :: r) ∧ s.map upper = bytes "CASE" ∧ Symbolic s ∧ Gap b ∧ kHead.mem c = true ∧ (b = [] → sym c = false) := by
    intro k Y e hk hY
    subst e
    obtain ⟨-, c, r, e, hc⟩ := hY
    have h4 := key_symbolic hk (by decide +kernel) (by decide +kernel)
    have h5 := spaced_first hs h4.ends (fun y hy => hx y (by simp [hy])) e
    obtain ⟨h6, hb⟩ := hk
    exact ⟨_, _, c, r, by rw [← e]; simp [render], h6, h4, hb, hc, h5⟩
  cases h with
  | call h1 h2 | callAll h1 h2 =>
    obtain ⟨s, b, c, r, h3, h4, h5, h6⟩ := h1.first h2
    exact .inl ⟨s, b, c, r, h3, h4.symbolic, h5, h6⟩
  | cases h h1 =>
    refine .inr (.inl (case rfl h ?_))
    obtain ⟨h2, -⟩ := h1
    obtain ⟨c, s, e, hc⟩ := key_first h2 (d := 87) (ds := bytes "HEN") (by decide +kernel)
    have : kHead.mem c = true := imp_byte (P := fun c => upper c == 87) (by decide +kernel) (by simpa using hc)
    simpa [render, e] using HeadText.of this
  | caseOf h h1 =>
    refine .inr (.inl (case rfl h ?_))
    rw [render_append]
    exact h1.head
  | each h0 h1 h2 =>
    simp only [List.mem_cons, List.not_mem_nil, or_false] at h0
    rcases h0 with rfl | rfl | rfl | rfl | rfl <;> exact .inl (word h1 (by decide +kernel) (by decide +kernel) h2)
  | extract h1 h2 | reduce h1 h2 => exact .inl (word h1 (by decide +kernel) (by decide +kernel) h2)
  | list h => exact .inr (.inr ⟨_, by simp [render, key_sign h (d := 91) (by decide +kernel) (by decide)]; rfl⟩)

theorem GoodBelow.read {N : Nat} (hN : GoodBelow w N) : Read w (Short N Exprn) where
  expr h := h.1
  takes h hb hx := ⟨h.1.texts, fun p h1 h2 => (hN _ p _ h.1 h2 h.2 (hb.stop hx h1.right) h1).var⟩

theorem Spaced.swap {x x' y : Piece} (hx : x'.text = x.text) (hy : Apart x' y) : ∀ {X : List Piece}, Spaced (X ++ [x]) →
    Spaced (X ++ [x'] ++ [y])
  | [], _ => ⟨hy, trivial⟩
  | [_], h => ⟨by have := h.1; unfold Apart at *; rw [hx]; exact this, hy, trivial⟩
  | _ :: z :: X, h => ⟨h.1, Spaced.swap hx hy (X := z :: X) h.2⟩

/-- What stands between brackets is not a comprehension. -/
theorem not_compr {E : List Piece} {p : Nat} {b r : List UInt8} {z : UInt8} (hz : z = 44 ∨ z = 93) (h : Exprn E) (hs : Spaced E)
    (hn : ¬ Compr E) (hb : Gap b) (hh : Here w p (91 :: (b ++ (render E ++ z :: r)))) :
    ∀ e ∈ ([.nt .r_list_comprehension none, .nt .r_pattern_comprehension none] : List Cypher.E), Shuns w e p := by
  intro e he
  have hbb := hh.tail
  have hE := hbb.right
  have hopen : Span w listA p (p + 1 + b.length) :=
    .cons (.of_byte hh (by decide)) (.cons (.of_gap hb h.head.solid hbb (by simp)) .nil)
  have hzs : kTail.mem z = true ∧ z ≠ 46 ∧ sym z = false ∧ z ≠ 61 ∧ upper z ≠ 73 := by
    rcases hz with rfl | rfl <;> decide +kernel
  have other : ∀ c r', render E ++ z :: r = c :: r' → (Win.set "0123456789\"'$+-[{").mem c = true → Shuns w e p := by
    intro c r' e' hc
    rw [e'] at hE
    exact Win.shuns (compr_other e he) hopen (.cons (.of_hole hE hc) .nil : Lay w _ _ [0]) (by simp) (by simp) (by simp)
  have after : ∀ {s b1 : List UInt8} {c : UInt8} {t1 : List UInt8}, Symbolic s → Gap b1 →
      render E ++ z :: r = s ++ (b1 ++ c :: t1) → Solid (c :: t1) → kCompr.mem c = true →
      (b1 = [] → sym c = false) → Shuns w e p := by
    intro s b1 c t1 hs hb1 e' hsol hc hsym
    rw [e'] at hE
    have hsp : Span w comprWord p (p + 1 + b.length + s.length) := hopen.append (hs.span hE)
    by_cases hb0 : b1 = []
    · refine Win.shuns (compr_word e he _ (by simp)) hsp (gap_lay hb1 hsol rfl (K := kComprSym) ?_ (by simp) hE.right 0 : Lay w [.ws false, _] _ _)
        (by simp) (by simp) (by simp)
      exact imp_byte (P := fun c => kCompr.mem c && !sym c) (by decide +kernel) (by simp [hc, hsym hb0])
    · exact Win.shuns (compr_word e he _ (by simp)) hsp (gap_lay hb1 hsol rfl hc (fun _ => hb0) hE.right 0 : Lay w [.ws true, _] _ _)
        (by simp) (by simp) (by simp)
  have hch := Exprn.chain le_rfl h
  have word : ∀ {x : Piece} {X : List Piece}, E = x :: X → x.kind = .operand → Chain false X → Gap x.blank →
      Symbolic x.text → Shuns w e p := by
    intro x X e' hk hc hb1 hsy
    subst e'
    obtain ⟨h1, e1 | ⟨c, t1, e1, h2⟩⟩ := hc.tail (t := z :: r) (.of hzs.1 (by rcases hz with rfl | rfl <;> simp))
    · exact absurd e1 (by simp)
    refine after hsy hb1 (by rw [render_cons, e1]) (e1 ▸ h1) ?_ (fun hb0 => ?_)
    · have hcs : c ≠ 61 ∧ upper c ≠ 73 := by
        cases X with
        | nil => cases e1; exact hzs.2.2.2
        | cons y X =>
          have hy := hc.texts y (by simp)
          obtain ⟨c', r', ey⟩ : ∃ c r, y.text = c :: r := by
            cases hy' : y.text with
            | nil => exact absurd hy' hy
            | cons c r => exact ⟨c, r, rfl⟩
          rw [render_cons, ey] at e1
          cases e1
          exact not_or.1 fun h' => hn (.inr (.inl ⟨_, _, _, c, rfl, hk, by rw [ey]; rfl, h'⟩))
      exact imp_byte (P := fun c => kTail.mem c && c != 61 && upper c != 73) (by decide +kernel) (by simp [h2, hcs])
    · have := (Spaced.apart (t := z :: r) (hs.end_ (by simpa using hzs.2.2.1) (by simpa using hzs.2.1)) hc.texts hb0).1
      rw [e1] at this
      simpa [hsy.ends] using this
  cases hch with
  | @pre o s b1 X h1 h2 h3 h4 =>
    simp only [prefixes, List.mem_cons, List.not_mem_nil, or_false] at h1
    rcases h1 with rfl | ho
    · exact absurd (.inl ⟨_, _, rfl, .inl rfl⟩) hn
    · obtain ⟨c, r', rfl, e'⟩ := h2.first
      refine other c _ (by rw [render_cons]; rfl) ?_
      have : upper c = 43 ∨ upper c = 45 := by
        rcases ho with rfl | rfl
        · have e' : some (43 : UInt8) = some (upper c) := e'
          exact .inl (Option.some.inj e').symm
        · have e' : some (45 : UInt8) = some (upper c) := e'
          exact .inr (Option.some.inj e').symm
      exact imp_byte (P := fun c => upper c == 43 || upper c == 45) (by decide +kernel) (by simpa using this)
  | @operand s b1 X h1 h2 h3 =>
    have hdig : ∀ c, digit c = true → (Win.set "0123456789\"'$+-[{").mem c = true := fun c => imp_byte (by decide +kernel)
    cases h1 with
    | number g1 g2 =>
      cases s with
      | nil => exact absurd rfl g1
      | cons a s => exact other a _ (by rw [render_cons]; rfl) (hdig a (g2 a (by simp)))
    | @decimal sa ta g1 g2 _ _ =>
      cases sa with
      | nil => exact absurd rfl g1
      | cons a sa => exact other a _ (by rw [render_cons]; rfl) (hdig a (g2 a (by simp)))
    | quoted g _ => exact other _ _ (by rw [render_cons]; rfl) (by rcases g with rfl | rfl <;> decide)
    | const g => exact word rfl rfl h3 h2 (const_symbolic g)
    | name g => exact word rfl rfl h3 h2 g.symbolic
    | param => exact other 36 _ (by rw [render_cons]; rfl) (by decide)
    | paren => exact absurd (.inl ⟨_, _, rfl, .inr rfl⟩) hn
    | @compound X1 g g1 g2 =>
      rcases compound_begin g g1 (compound_texts g) with ⟨s, b3, c, r3, e3, k1, k2, k3⟩ | ⟨s, b3, c, r3, e3, k0, k1, k2, k3, k4⟩ | ⟨r3, e3⟩
      · refine after k1 k2 (c := c) (t1 := r3 ++ (b1 ++ (render X ++ z :: r))) (by rw [render_cons]; simp [e3]) ?_ ?_ (fun _ => ?_)
        · exact solid_cons (by rcases k3 with rfl | rfl <;> decide)
        · rcases k3 with rfl | rfl <;> decide
        · rcases k3 with rfl | rfl <;> decide
      · refine after k1 k2 (c := c) (t1 := r3 ++ (b1 ++ (render X ++ z :: r))) (by rw [render_cons]; simp [e3]) (HeadText.of k3).solid ?_ k4
        have : upper c ≠ 73 := fun h' => hn (.inr (.inr ⟨_, _, c, rfl, ⟨s, b3, r3, e3, k0, k2, k4⟩, h'⟩))
        exact imp_byte (P := fun c => kHead.mem c && upper c != 73) (by decide +kernel) (by simp [k3, this])
      · exact other 91 _ (by rw [render_cons]; simp only [e3]; rfl) (by decide)
    | empty | one | more => exact other 91 _ (by rw [render_cons]; rfl) (by decide)
    | map g => cases g <;> exact other 123 _ (by rw [render_cons]; rfl) (by decide)

/-- What stands between parentheses is not a node of a pattern. -/
theorem not_pattern {E : List Piece} {p : Nat} {b r : List UInt8} (h : Exprn E) (hs : Spaced E) (hn : ¬ NodeLike E) (hb : Gap b)
    (hh : Here w p (40 :: (b ++ (render E ++ 41 :: r)))) : Shuns w patternE p := by
  have hbb := hh.tail
  have hE := hbb.right
  have hopen : Span w [.byte (.single 40), .ws false] p (p + 1 + b.length) :=
    .cons (.of_byte hh (by decide)) (.cons (.of_gap hb h.head.solid hbb (by simp)) .nil)
  -- neither a word nor a parameter
  have other : ∀ c r', render E ++ 41 :: r = c :: r' → (Win.set "0123456789\"'(+-[").mem c = true → Shuns w patternE p := by
    intro c r' e hc
    rw [e] at hE
    exact Win.shuns node_other .nil (.cons (.of_byte hh (by decide)) (.cons (.of_gap hb h.head.solid hbb (by simp))
      (.cons (.of_hole hE hc) .nil)) : Lay w _ p [_, _, 0]) (by simp) (by simp) (by simp)
  -- what comes after a word or parameter
  have after : ∀ {A : List Tile} {p1 : Nat} {b1 : List UInt8} {c : UInt8} {t1 : List UInt8},
      (∀ B ∈ [[Tile.ws true, .hole kNode], [.ws false, .hole kNodeSym]],
        noAt (run 100 (.mk2 A B [] [] [] none) patternE 0 .same []) = true) →
      Span w A p p1 → Gap b1 → Here w p1 (b1 ++ c :: t1) → Solid (c :: t1) → kNode.mem c = true →
      (b1 = [] → sym c = false) → Shuns w patternE p := by
    intro A p1 b1 c t1 hA hsp hb1 hh1 hsol hc hsym
    by_cases hb0 : b1 = []
    · refine Win.shuns (hA _ (by simp)) hsp (gap_lay hb1 hsol rfl (K := kNodeSym) ?_ (by simp) hh1 0 : Lay w [.ws false, _] _ _)
        (by simp) (by simp) (by simp)
      exact imp_byte (P := fun c => kNode.mem c && !sym c) (by decide +kernel) (by simp [hc, hsym hb0])
    · exact Win.shuns (hA _ (by simp)) hsp (gap_lay hb1 hsol rfl hc (fun _ => hb0) hh1 0 : Lay w [.ws true, _] _ _)
        (by simp) (by simp) (by simp)
  -- what comes after a piece that is not the last
  have next : ∀ {x : Piece} {X : List Piece} {y : Piece}, Chain false (y :: X) → Spaced (x :: y :: X) → EndsSym x.text →
      ∃ c t1, render (y :: X) ++ 41 :: r = c :: t1 ∧ Solid (c :: t1) ∧ kNode.mem c = true ∧ (x.blank = [] → sym c = false) := by
    intro x X y hc hs he
    obtain ⟨h1, e | ⟨c, t1, e, h2⟩⟩ := hc.tail (t := 41 :: r) (.of (by decide) (by simp))
    · exact absurd e (by simp)
    refine ⟨c, t1, e, e ▸ h1, ?_, fun hb0 => ?_⟩
    · have hne : c ≠ 41 := by
        rintro rfl
        rw [render_cons] at e
        cases hc with
        | post k1 k2 _ _ =>
          obtain ⟨c', r', rfl, e'⟩ := k2.first
          cases e
          have : ∀ o ∈ postfixes, ((words o).map bytes).head?.bind List.head? ≠ some (upper 41) := by decide +kernel
          exact this _ k1 e'
        | inf k1 k2 _ _ =>
          obtain ⟨c', r', rfl, e'⟩ := k2.first
          cases e
          have : ∀ o ∈ infixes, ((words o).map bytes).head?.bind List.head? ≠ some (upper 41) := by decide +kernel
          exact this _ k1 e'
        | property => cases e
        | subscript => cases e
      by_cases hc93 : c = 93
      · subst hc93
        rw [render_cons] at e
        cases hc with
        | post k1 k2 _ _ =>
          obtain ⟨c', r', rfl, e'⟩ := k2.first
          cases e
          have : ∀ o ∈ postfixes, ((words o).map bytes).head?.bind List.head? ≠ some (upper 93) := by decide +kernel
          exact absurd e' (this _ k1)
        | inf k1 k2 _ _ =>
          obtain ⟨c', r', rfl, e'⟩ := k2.first
          cases e
          have : ∀ o ∈ infixes, ((words o).map bytes).head?.bind List.head? ≠ some (upper 93) := by decide +kernel
          exact absurd e' (this _ k1)
        | property => cases e
        | subscript => cases e
      · exact imp_byte (P := fun c => kTail.mem c && c != 41 && c != 93) (by decide +kernel) (by simp [h2, hne, hc93])
    · have := (Spaced.apart (t := 41 :: r) (hs.end_ (by simp; decide) (by simp)) hc.texts hb0).1
      rw [e] at this
      simpa [he] using this
  have hch := Exprn.chain le_rfl h
  have word : ∀ {x : Piece} {X : List Piece}, E = x :: X → x.kind = .operand → Chain false X → Gap x.blank →
      Symbolic x.text → Shuns w patternE p := by
    intro x X e hk hc hb1 hsy
    cases X with
    | nil =>
      refine absurd (.inl ⟨x.text, x.blank, ?_, ?_, ?_⟩) hn
      · rw [e]; cases x; cases hk; rfl
      · obtain ⟨c, r, e, g1, g2⟩ := hsy.start
        rw [e]
        intro d hd
        rcases List.mem_cons.1 hd with rfl | hd
        · exact start_sym g1
        · exact g2 d hd
      · obtain ⟨c, r, e, g1, g2⟩ := hsy.start
        rw [e]
        have := imp_byte (P := fun c => letter c || c == 95) (Q := fun c => !digit c) (by decide +kernel) (c := c) (by simpa using g1)
        simpa using this
    | cons y X =>
      subst e
      obtain ⟨c, t1, e, g1, g2, g3⟩ := next hc hs hsy.ends
      rw [render_cons] at hE
      have hq := hE.right
      rw [e] at hq
      exact after node_word (hopen.append (hsy.span hE)) hb1 hq g1 g2 g3
  cases hch with
  | @pre o s b1 X h1 h2 h3 h4 =>
    simp only [prefixes, List.mem_cons, List.not_mem_nil, or_false] at h1
    have hsym : o = .unaryPlus ∨ o = .unaryMinus → Shuns w patternE p := by
      intro ho
      obtain ⟨c, r', rfl, e⟩ := h2.first
      refine other c _ (by rw [render_cons]; rfl) ?_
      have : upper c = 43 ∨ upper c = 45 := by
        rcases ho with rfl | rfl
        · have e' : some (43 : UInt8) = some (upper c) := e
          exact .inl (Option.some.inj e').symm
        · have e' : some (45 : UInt8) = some (upper c) := e
          exact .inr (Option.some.inj e').symm
      exact imp_byte (P := fun c => upper c == 43 || upper c == 45) (by decide +kernel) (by simpa using this)
    rcases h1 with rfl | h1 | h1
    · have hends : EndsSym s := h2.ends (by decide)
      rw [render_cons] at hE
      have hsp : Span w [.byte kStart, .run symPart] (p + 1 + b.length) (p + 1 + b.length + s.length) := by
        have hall : Symbolic s := by
          cases h2 with
          | last h2 =>
            have hx : ∀ d ∈ s, letter d = true := by
              intro d hd
              have h3 : upper d ∈ bytes "NOT" := h2 ▸ List.mem_map_of_mem hd
              exact imp_byte (P := fun d => (bytes "NOT").contains (upper d)) (by decide +kernel) (by simpa using h3)
            cases s with
            | nil => cases h2
            | cons c s => exact ⟨.inl (hx c (by simp)), fun d hd => by
                have := hx d (by simp [hd])
                exact imp_byte (P := letter) (by decide +kernel) this⟩
        exact hall.span hE
      obtain ⟨g1, c, t1, e, g2⟩ := h4.head (t := 41 :: r)
      have hq := hE.right
      have hap := fun hb0 => (Spaced.apart (x := ⟨.pre .not, s, b1⟩) (t := 41 :: r)
        (hs.end_ (by simp; decide) (by simp)) h4.texts hb0).1
      simp only [hends, true_and] at hap
      by_cases hc : c = 36
      · subst hc
        cases h4 with
        | pre h1' h2' _ _ =>
          rw [render_cons] at e
          obtain ⟨c', r', rfl, e'⟩ := h2'.first
          cases e
          have : ∀ o ∈ prefixes, ((words o).map bytes).head?.bind List.head? ≠ some (upper 36) := by decide +kernel
          exact absurd e' (this _ h1')
        | @operand s2 b2 X h1' h2' h3' =>
          rw [render_cons] at e
          have hd36 : s2.head? = some 36 := by
            obtain ⟨c', r', rfl, -⟩ := h1'.head
            cases e
            rfl
          cases X with
          | nil => exact absurd (.inr (.inl ⟨_, _, _, rfl, rfl, hd36⟩)) hn
          | cons y X =>
            have hsy : ∃ s3, s2 = 36 :: s3 ∧ Symbolic s3 := by
              cases h1' with
              | number k1 k2 =>
                cases s2 with
                | nil => cases hd36
                | cons a s2 => cases hd36; exact absurd (k2 36 (by simp)) (by decide)
              | @decimal sa ta k1 k2 _ _ =>
                cases sa with
                | nil => exact absurd rfl k1
                | cons a sa => cases hd36; exact absurd (k2 36 (by simp)) (by decide)
              | quoted g _ => rcases g with rfl | rfl <;> cases hd36
              | const g =>
                cases s2 with
                | nil => cases hd36
                | cons a s2 =>
                  cases hd36
                  have h5 : ∀ x ∈ consts, x.head? ≠ some (upper 36) := by decide +kernel
                  exact absurd rfl (h5 _ g)
              | name g =>
                obtain ⟨c', r', rfl, g', -⟩ := g.symbolic.start
                cases hd36
                rcases g' with g' | g' <;> exact absurd g' (by decide)
              | param g => exact ⟨_, rfl, g⟩
              | paren => cases hd36
              | compound g gs gl =>
                exfalso
                rcases compound_begin g gs (compound_texts g) with ⟨s, b3, c, r3, e3, k1, -⟩ | ⟨s, b3, c, r3, e3, k0, k1, -⟩ | ⟨r3, e3⟩
                · obtain ⟨c', r', rfl, g', -⟩ := k1.start
                  rw [e3] at hd36
                  cases hd36
                  rcases g' with g' | g' <;> exact absurd g' (by decide)
                · obtain ⟨c', r', rfl, g', -⟩ := k1.start
                  rw [e3] at hd36
                  cases hd36
                  rcases g' with g' | g' <;> exact absurd g' (by decide)
                · rw [e3] at hd36
                  cases hd36
              | empty | one | more => cases hd36
              | map g => cases g <;> cases hd36
            obtain ⟨s3, rfl, hs3⟩ := hsy
            have hb1 : b1 ≠ [] := by
              intro hb0
              have := hap hb0
              rw [render_cons] at this
              exact this (by simp; decide)
            rw [render_cons] at hq g1
            have h5 := hq.right
            have h6 := h5.tail
            obtain ⟨c4, t4, e4, k1, k2, k3⟩ := next h3' hs.tail (EndsSym.append (s := [36]) hs3.ends)
            have h7 := h5.right
            rw [e4] at h7
            refine after node_both ((hopen.append hsp).append (.cons (.of_gap h3 g1 hq (fun _ => hb1))
              (.cons (.of_byte h5 (by decide)) (hs3.span h6)))) h2' ?_ k1 k2 k3
            rw [show p + 1 + b.length + s.length + b1.length + 1 + s3.length =
              p + 1 + b.length + s.length + b1.length + (36 :: s3).length by simp; omega]
            exact h7
      · have hc' : c ≠ 123 := by
          rintro rfl
          cases h4 with
          | pre h1' h2' _ _ =>
            rw [render_cons] at e
            obtain ⟨c', r', rfl, e'⟩ := h2'.first
            cases e
            have : ∀ o ∈ prefixes, ((words o).map bytes).head?.bind List.head? ≠ some (upper 123) := by decide +kernel
            exact absurd e' (this _ h1')
          | operand h1' h2' h3' =>
            rw [render_cons] at e
            obtain ⟨c', r', rfl, -⟩ := h1'.head
            cases e
            exact hn (.inr (.inr (.inr (.inl ⟨_, _, _, rfl, rfl, rfl⟩))))
        rw [e] at hq g1
        refine after node_word (hopen.append hsp) h3 hq g1 ?_ (fun hb0 => ?_)
        · exact imp_byte (P := fun c => kHead.mem c && c != 36 && c != 123) (by decide +kernel) (by simp [g2, hc, hc'])
        · have := hap hb0
          rw [e] at this
          simpa using this
    · exact hsym (.inl h1)
    · exact hsym (.inr h1)
  | @operand s b1 X h1 h2 h3 =>
    have hdig : ∀ c, digit c = true → (Win.set "0123456789\"'(+-[").mem c = true := fun c => imp_byte (by decide +kernel)
    cases h1 with
    | number g1 g2 =>
      cases s with
      | nil => exact absurd rfl g1
      | cons a s => exact other a _ (by rw [render_cons]; rfl) (hdig a (g2 a (by simp)))
    | @decimal sa ta g1 g2 _ _ =>
      cases sa with
      | nil => exact absurd rfl g1
      | cons a sa => exact other a _ (by rw [render_cons]; rfl) (hdig a (g2 a (by simp)))
    | quoted g _ => exact other _ _ (by rw [render_cons]; rfl) (by rcases g with rfl | rfl <;> decide)
    | const g =>
      exact word rfl rfl h3 h2 (const_symbolic g)
    | name g => exact word rfl rfl h3 h2 g.symbolic
    | @param s3 g =>
      cases X with
      | nil =>
        refine absurd (.inl ⟨_, _, rfl, ?_, by simp; decide⟩) hn
        intro d hd
        rcases List.mem_cons.1 hd with rfl | hd
        · decide
        · obtain ⟨c, r, rfl, g1, g2⟩ := g.start
          rcases List.mem_cons.1 hd with rfl | hd
          · exact start_sym g1
          · exact g2 d hd
      | cons y X =>
        obtain ⟨c, t1, e, g1, g2, g3⟩ := next h3 hs (EndsSym.append (s := [36]) g.ends)
        rw [render_cons] at hE
        have hq := hE.right
        rw [e] at hq
        refine after node_param ((hopen.append (.cons (.of_byte hE (by decide)) (g.span hE.tail)))) h2 ?_ g1 g2 g3
        rw [show p + 1 + b.length + 1 + s3.length = p + 1 + b.length + (36 :: s3).length by simp; omega]
        exact hq
    | paren => exact other 40 _ (by rw [render_cons]; rfl) (by decide)
    | @compound X1 g g1 g2 =>
      rw [render_cons] at hE
      rcases compound_begin g g1 (compound_texts g) with ⟨s, b3, c, r3, e3, k1, k2, k3⟩ | ⟨s, b3, c, r3, e3, k0, k1, k2, k3, k4⟩ | ⟨r3, e3⟩
      · simp only [e3, List.append_assoc, List.cons_append] at hE
        refine after node_word (hopen.append (k1.span hE)) k2 hE.right (solid_cons ?_) ?_ (fun _ => ?_) <;>
          rcases k3 with rfl | rfl <;> decide
      · simp only [e3, List.append_assoc, List.cons_append] at hE
        refine after node_word (hopen.append (k1.span hE)) k2 hE.right (HeadText.of k3).solid ?_ k4
        have : ¬ (c = 36 ∨ c = 123) := fun h' => hn (.inr (.inr (.inr (.inr ⟨_, _, c, rfl, ⟨s, b3, r3, e3, k0, k2, k4⟩, h'⟩))))
        rw [not_or] at this
        exact imp_byte (P := fun c => kHead.mem c && c != 36 && c != 123) (by decide +kernel) (by simp [k3, this])
      · exact other 91 _ (by rw [render_cons]; simp only [e3]; rfl) (by decide)
    | empty | one | more => exact other 91 _ (by rw [render_cons]; rfl) (by decide)
    | map g => exact absurd (.inr (.inr (.inl ⟨_, _, rfl, by cases g <;> rfl⟩))) hn

theorem digits_span {s t : List UInt8} (h1 : s ≠ []) (h2 : ∀ c ∈ s, digit c = true) {p : Nat} (hh : Here w p (s ++ t)) :
    Span w [.byte kDigit, .run kDigit] p (p + s.length) := by
  cases s with
  | nil => exact absurd rfl h1
  | cons c s =>
    rw [show p + (c :: s).length = p + 1 + s.length by simp; omega]
    exact .cons (.of_byte hh (digit_kind (h2 c (by simp)))) (.cons (.of_run hh.tail fun d hd => digit_kind (h2 d (by simp [hd]))) .nil)

theorem digits_ends {s : List UInt8} (h1 : s ≠ []) (h2 : ∀ c ∈ s, digit c = true) : EndsSym s := by
  cases s with
  | nil => exact absurd rfl h1
  | cons c s => exact .of fun d hd => digit_sym (h2 d hd)

theorem digits_head {s t : List UInt8} (h1 : s ≠ []) (h2 : ∀ c ∈ s, digit c = true) : (s ++ t).head?.any digit = true := by
  cases s with
  | nil => exact absurd rfl h1
  | cons c s => simpa using h2 c (by simp)

theorem quoted_span {q : UInt8} {body t : List UInt8} (hq : q = 34 ∨ q = 39)
    (hbody : ∀ c ∈ body, c ≠ q ∧ c ≠ 92 ∧ c ≠ 10 ∧ c ≠ 13) {p : Nat} (hh : Here w p (q :: (body ++ [q]) ++ t)) :
    ∃ A ∈ quoteds, Span w A p (p + (q :: (body ++ [q])).length) := by
  have hmem : [.byte (.single q), .byte (.single q)] ∈ quoteds ∧
      [Tile.byte (.single q), .byte (kBody q), .run (kBody q), .byte (.single q)] ∈ quoteds := by
    rcases hq with rfl | rfl <;> decide +kernel
  have hq1 : (CharSet.single q).mem q = true := by rcases hq with rfl | rfl <;> decide
  have hb : ∀ c ∈ body, (kBody q).mem c = true := by
    intro c hc
    have := hbody c hc
    rcases hq with rfl | rfl
    · exact imp_byte (P := fun c => c != 34 && c != 92 && c != 10 && c != 13) (by decide +kernel) (by simp [this])
    · exact imp_byte (P := fun c => c != 39 && c != 92 && c != 10 && c != 13) (by decide +kernel) (by simp [this])
  cases body with
  | nil => exact ⟨_, hmem.1, .cons (.of_byte hh hq1) (.cons (.of_byte hh.tail hq1) .nil)⟩
  | cons c body =>
    refine ⟨_, hmem.2, ?_⟩
    simp only [List.cons_append, List.append_assoc] at hh
    have h2 := hh.tail.tail
    rw [show p + (q :: (c :: body ++ [q])).length = p + 1 + 1 + body.length + 1 by simp; omega]
    exact .cons (.of_byte hh hq1) (.cons (.of_byte hh.tail (hb c (by simp)))
      (.cons (.of_run h2 fun d hd => hb d (by simp [hd])) (.cons (.of_byte h2.right hq1) .nil)))

/-- The rule for operands reads an operand and the white space after it. -/
theorem prim_atom {N : Nat} (hN : GoodBelow w N) {s b t : List UInt8} {p : Nat} (h : Prim s) (hl : s.length ≤ N) (hb : Gap b)
    (ht : Undot t) (ha : b = [] → ¬ (EndsSym s ∧ t.head?.any sym = true) ∧ ¬ (s.head?.any digit = true ∧ t.head? = some 46))
    (hh : Here w p (s ++ (b ++ t))) : ∀ e ∈ atomEs, Eats w e p (p + s.length + b.length) := by
  intro ea hea
  have hsym : EndsSym s → b = [] → t.head?.any sym = false := by
    intro he hb0
    have := (ha hb0).1
    simpa [he] using this
  cases h with
  | number h1 h2 =>
    obtain ⟨B, hB, hl⟩ := tail_number hb ht.tail (hsym (digits_ends h1 h2)) (fun hb0 => by
      have := (ha hb0).2
      have h3 := digits_head (t := []) h1 h2
      simp only [List.append_nil] at h3
      simpa [h3] using this) hh.right 0
    exact Win.eats (number_run ea hea _ (by simp [numbers]) B hB) (digits_span h1 h2 hh) hl (by simp) (by simp) (by simp)
  | @decimal s1 s2 h1 h2 h3 h4 =>
    have he : EndsSym (s1 ++ 46 :: s2) := EndsSym.append (EndsSym.append (s := [46]) (digits_ends h3 h4))
    obtain ⟨B, hB, hl⟩ := tail_number hb ht.tail (hsym he)
      (fun hb0 hd => (ha hb0).2 ⟨digits_head h1 h2, hd⟩) hh.right 0
    refine Win.eats (number_run ea hea ([.byte kDigit, .run kDigit] ++ [.byte (.single 46), .byte kDigit, .run kDigit]) (by simp [numbers]) B hB) ?_ hl (by simp) (by simp) (by simp)
    simp only [List.append_assoc, List.cons_append] at hh
    rw [show p + (s1 ++ 46 :: s2).length = p + s1.length + 1 + s2.length by simp; omega]
    exact (digits_span h1 h2 hh).append (.cons (.of_byte hh.right (by decide)) (digits_span h3 h4 hh.right.tail))
  | quoted h1 h2 =>
    obtain ⟨A, hA, hsp⟩ := quoted_span h1 h2 hh
    obtain ⟨B, hB, hl⟩ := tail_other hb ht.tail hh.right 0
    exact Win.eats (quoted_run ea hea A hA B hB) hsp hl (by simp) (by simp) (by simp)
  | const h1 =>
    obtain ⟨B, hB, hl⟩ := tail_word hb ht.tail (hsym (const_ends h1)) hh.right 0
    exact Win.eats (const_run ea hea _ h1 B hB) (Span.word rfl hh) hl (by simp) (by simp) (by simp)
  | name h1 =>
    obtain ⟨B, hB, hl⟩ := tail_word hb ht.tail (hsym h1.symbolic.ends) hh.right 0
    refine Win.eats (name_run ea hea B hB) (h1.symbolic.span hh) hl ?_ (by simp) (by simp)
    intro r hr
    rcases List.mem_cons.1 hr with rfl | hr
    · exact no_application ht h1.symbolic hb (hsym h1.symbolic.ends) hh
    · exact h1.words hh (gap_head hb (hsym h1.symbolic.ends)) r hr
  | @param s3 h1 =>
    obtain ⟨B, hB, hl⟩ := tail_word hb ht.tail (hsym (EndsSym.append (s := [36]) h1.ends)) hh.right 0
    refine Win.eats (param_run ea hea _ (by simp [params]; rfl) B hB) ?_ hl (by simp) (by simp) (by simp)
    rw [show p + (36 :: s3).length = p + 1 + s3.length by simp; omega]
    exact .cons (.of_byte hh (by decide)) (h1.span hh.tail)
  | @paren b' E h1 h2 h3 h4 =>
    simp only [List.length_cons, List.length_append, List.length_nil] at hl
    simp only [List.append_assoc, List.cons_append, List.nil_append] at hh
    have hg := hh.tail
    have hE := hg.right
    have hc := hE.right
    have hr := hN.inner h2 h3 (by omega) (by decide) hE
    obtain ⟨B, hB, hl⟩ := tail_other hb ht.tail hc.tail 0
    have := Win.eats (B := parenB ++ B) (p1 := p + 1 + b'.length)
      (qs := [p + 1 + b'.length + (render E).length, p + 1 + b'.length + (render E).length + 1,
        p + 1 + b'.length + (render E).length + 1 + b.length, 0]) (paren_run ea hea B hB)
      (.cons (.of_byte hh (by decide)) (.cons (.of_gap h1 h2.head.solid hg (by simp)) .nil))
      (.cons (h2.head.hole hE _) (.cons (.of_byte hc (by decide)) hl))
      (by
        intro r hr
        simp only [List.mem_singleton] at hr
        subst hr
        exact not_pattern h2 h3 h4 h1 hh)
      (by
        intro f hf
        simp only [List.mem_singleton] at hf
        subst hf
        exact FactOk.eats hr) (by simp)
    exact this.to (by simp [Mark]; omega)
  | compound h1 h2 h3 =>
    obtain ⟨X0, s1, b0, rfl, hd, hlast⟩ := (h1.short hl).last
    have hb0 : b0 = [] := by simpa using h3
    subst hb0
    have ht' := (hlast b hb).atom hN.read ht.tail.1 ea hea
    have hr : render (X0 ++ [⟨.operand, s1, b⟩]) = render (X0 ++ [⟨.operand, s1, []⟩]) ++ b := by simp [render]
    refine (ht'.eats p (by rw [hr, List.append_assoc]; exact hh) (Spaced.swap (x := ⟨.operand, s1, []⟩) (x' := ⟨.operand, s1, b⟩) rfl ?_ h2)).to (by rw [hr, List.length_append]; omega)
    intro hb1
    obtain ⟨g1, g2⟩ := ha hb1
    refine ⟨fun h => g1 ⟨?_, h.2⟩, fun h => ?_⟩
    · have := EndsSym.append (s := render X0) (t := s1) h.1
      simpa [render] using this
    · simp only [hd] at h
      cases h.1
  | @empty b1 h1 =>
    simp only [List.append_assoc, List.cons_append, List.nil_append] at hh
    have hg := hh.tail
    have hc := hg.right
    obtain ⟨B, hB, hl⟩ := tail_other hb ht.tail hc.tail 0
    have := Win.eats (B := .byte (.single 93) :: B) (p1 := p + 1 + b1.length)
      (qs := [p + 1 + b1.length + 1, p + 1 + b1.length + 1 + b.length, 0]) (list_none ea hea B hB)
      (.cons (.of_byte hh (by decide)) (.cons (.of_gap h1
        (.inr ⟨93, _, rfl, by decide, by decide, by decide, by decide, by simp⟩) hg (by simp)) .nil))
      (.cons (.of_byte hc (by decide)) hl) (by simp) (by simp) (by simp)
    exact this.to (by simp [Mark]; omega)
  | @one b1 E h1 h2 h3 h4 =>
    simp only [List.length_cons, List.length_append, List.length_nil] at hl
    simp only [List.append_assoc, List.cons_append, List.nil_append] at hh
    have hg := hh.tail
    have hE := hg.right
    have hc := hE.right
    have hr := hN.inner h2 h3 (by omega) (by decide) hE
    obtain ⟨B, hB, hl⟩ := tail_other hb ht.tail hc.tail 0
    have := Win.eats (B := listB ++ B) (p1 := p + 1 + b1.length)
      (qs := [p + 1 + b1.length + (render E).length, p + 1 + b1.length + (render E).length, p + 1 + b1.length + (render E).length + 1,
        p + 1 + b1.length + (render E).length + 1 + b.length, 0]) (list_some ea hea B hB)
      (.cons (.of_byte hh (by decide)) (.cons (.of_gap h1 h2.head.solid hg (by simp)) .nil))
      (.cons (h2.head.hole hE _) (.cons (.of_hole hc (by decide)) (.cons (.of_byte hc (by decide)) hl)))
      (by
        intro r hr
        simp only [List.mem_cons, List.not_mem_nil, or_false] at hr
        rcases hr with rfl | rfl <;> exact not_compr (.inr rfl) h2 h3 h4 h1 hh _ (by simp))
      (by
        intro f hf
        simp only [List.mem_singleton] at hf
        subst hf
        exact FactOk.eats hr)
      (by
        intro f hf
        simp only [List.mem_singleton] at hf
        subst hf
        exact .star_end (Win.shuns (more_end 0 (by decide)) (.cons (.of_byte hc (by decide)) .nil) (qs := []) .nil
          (by simp) (by simp) (by simp)))
    exact this.to (by simp [Mark]; omega)
  | @more b1 E b2 t1 h1 h2 h3 h4 h5 h6 =>
    simp only [List.length_cons, List.length_append, List.length_nil] at hl
    simp only [List.append_assoc, List.cons_append, List.nil_append] at hh
    have hg := hh.tail
    have hE := hg.right
    have h44 := hE.right
    have hg2 := h44.tail
    have ha := hg2.right
    have hc := ha.right
    have hr := hN.inner h2 h3 (by omega) (by decide) hE
    obtain ⟨g0, p1, g1, g2, ⟨c, g3, g4⟩, -⟩ := args_read hN (i := 0) (by decide) (.inr rfl) t1.length le_rfl h6 (by omega) ha
    obtain ⟨B, hB, hl⟩ := tail_other hb ht.tail hc.tail 0
    have hstep : Eats w (moreArgs 0) (p + 1 + b1.length + (render E).length) p1 := by
      refine Win.eats (B := [.hole kHead]) (p1 := p + 1 + b1.length + (render E).length + 1 + b2.length) (qs := [p1])
        (more_run 0 (by decide))
        (.cons (.of_byte h44 (by decide)) (.cons (.of_gap h5 g0.solid hg2 (by simp)) .nil))
        (.cons (g0.hole ha p1) .nil) (by simp) ?_ (by simp)
      intro f hf
      simp only [List.mem_singleton] at hf
      subst hf
      exact FactOk.eats g1
    have := Win.eats (B := listB ++ B) (p1 := p + 1 + b1.length)
      (qs := [p + 1 + b1.length + (render E).length, p + 1 + b1.length + (render E).length + 1 + b2.length + t1.length,
        p + 1 + b1.length + (render E).length + 1 + b2.length + t1.length + 1,
        p + 1 + b1.length + (render E).length + 1 + b2.length + t1.length + 1 + b.length, 0]) (list_some ea hea B hB)
      (.cons (.of_byte hh (by decide)) (.cons (.of_gap h1 h2.head.solid hg (by simp)) .nil))
      (.cons (h2.head.hole hE _) (.cons (.of_hole h44 (by decide)) (.cons (.of_byte hc (by decide)) hl)))
      (by
        intro r hr
        simp only [List.mem_cons, List.not_mem_nil, or_false] at hr
        rcases hr with rfl | rfl <;> exact not_compr (.inl rfl) h2 h3 h4 h1 hh _ (by simp))
      (by
        intro f hf
        simp only [List.mem_singleton] at hf
        subst hf
        exact FactOk.eats hr)
      (by
        intro f hf
        simp only [List.mem_singleton] at hf
        subst hf
        exact .star_more hstep g2)
    exact this.to (by simp [Mark]; omega)
  | map h1 => exact map_read hN h1 hl hb ht.tail.1 hh _ (by simp only [atomEs, List.mem_cons, List.not_mem_nil, or_false] at hea; rcases hea with rfl | rfl <;> simp [mapEs])

/-! ## Climbing -/

/-- What the level `M` leaves: nothing, or an operator that binds less. -/
def Left (M : Nat) : List Piece → Prop
  | [] => True
  | x :: _ => ∃ o, (x.kind = .inf o ∨ x.kind = .post o) ∧ o.prec < M

theorem block_start {p : Nat} : Eats w (.nt .r__block_start_ none) p p := fun _ _ => ⟨_, _, .nt_ok (.pred_ok rfl)⟩
theorem block_merge {p : Nat} : Eats w (.nt .r__block_merge_ none) p p := fun _ _ => ⟨_, _, .nt_ok (.pred_ok rfl)⟩
theorem block_replace {p : Nat} : Eats w (.nt .r__block_replace_ none) p p := fun _ _ => ⟨_, _, .nt_ok (.pred_ok rfl)⟩

/-- `_expression`: an operand, and the loop as far as it goes. -/
theorem expression_at {p p1 p2 M : Nat} (ha : Eats w atomE p p1)
    (hl : ShunsAt w M loop p1 ∧ p2 = p1 ∨ ∃ p3, EatsAt w M loop p1 p3 ∧ EatsAt w M (.star loop) p3 p2) :
    EatsAt w M (.nt .r__expression none) p p2 := by
  intro op ps
  obtain ⟨op0, ts0, h0⟩ := block_start (w := w) (p := p) op (M :: ps)
  obtain ⟨op1, ts1, h1⟩ := ha.var (v' := some 0) op0 (M :: ps)
  rcases hl with ⟨hs, rfl⟩ | ⟨p3, h3, h4⟩
  · obtain ⟨op2, h2⟩ := hs op1 ps
    obtain ⟨op3, ts3, h3⟩ := ha op2 (M :: ps)
    refine ⟨op3, _, .nt_ok (ts := ts3) ?_⟩
    rw [expression_body]
    exact .alt_no (.seq_no2 h0 (.seq_no2 h1 (.seq_no (.seq_no h2)))) h3
  · obtain ⟨op2, ts2, h2⟩ := h3 op1 ps
    obtain ⟨op3, ts3, h3⟩ := h4 op2 ps
    obtain ⟨op4, ts4, h4⟩ := block_merge (w := w) (p := p2) op3 (M :: ps)
    have := Hush.nt_ok (r := .r__expression) (v := none) (by
      rw [expression_body]
      exact .alt_ok (.seq_ok h0 (.seq_ok h1 (.seq_ok (.seq_ok h2 h3) (.seq_ok h4 .act)))))
    exact ⟨op4, _, this⟩

/-- A chain of comparisons. -/
theorem comparisons_at {p p1 p2 M : Nat} (h1 : ShunsAt w M altDot p) (h2 : ShunsAt w M altInfix p) (h3 : EatsAt w M cmpStep p p1)
    (h4 : EatsAt w M (.star cmpStep) p1 p2) : EatsAt w M loop p p2 := by
  intro op ps
  obtain ⟨op1, h1⟩ := h1 op ps
  obtain ⟨op2, h2⟩ := h2 op1 ps
  obtain ⟨op3, ts3, h3⟩ := h3 op2 ps
  obtain ⟨op4, ts4, h4⟩ := h4 op3 ps
  obtain ⟨op5, ts5, h5⟩ := block_replace (w := w) (p := p2) op4 (M :: ps)
  exact ⟨op5, _, .alt_no h1 (.alt_no h2 (.alt_ok (.seq_ok .act (.seq_ok (.seq_ok h3 h4) (.seq_ok h5 .act)))))⟩

/-- Pieces at `p`, and the text after them. -/
structure Ctx (w : List UInt8) (N : Nat) (t : List UInt8) (X : List Piece) (p : Nat) : Prop where
  short : ∀ x ∈ X, x.text.length ≤ N
  spaced : Spaced (X ++ [endPiece t])
  here : Here w p (render X ++ t)
  stop : StopAt w (p + (render X).length) t

theorem Ctx.right {N : Nat} {t : List UInt8} {X Y : List Piece} {p : Nat} (h : Ctx w N t (X ++ Y) p) :
    Ctx w N t Y (p + (render X).length) where
  short x hx := h.short x (by simp [hx])
  spaced := Spaced.right (X := X) (by simpa using h.spaced)
  here := by
    have := h.here
    rw [render_append, List.append_assoc] at this
    exact this.right
  stop := by
    have := h.stop
    rw [render_append, List.length_append, ← Nat.add_assoc] at this
    exact this

theorem Ctx.next {N : Nat} {t : List UInt8} {x : Piece} {X : List Piece} {p : Nat} (h : Ctx w N t (x :: X) p) :
    Ctx w N t X (p + x.text.length + x.blank.length) := by
  have := Ctx.right (X := [x]) h
  simpa [render, Nat.add_assoc] using this

theorem Ctx.at_ {N : Nat} {t : List UInt8} {x : Piece} {X : List Piece} {p : Nat} (h : Ctx w N t (x :: X) p) :
    Here w p (x.text ++ (x.blank ++ (render X ++ t))) := by
  have := h.here
  rwa [render_cons] at this

/-- After a word with no white space there is no other word. -/
theorem Ctx.word {N : Nat} {t : List UInt8} {x : Piece} {X : List Piece} {p : Nat} (h : Ctx w N t (x :: X) p)
    (hX : ∀ y ∈ X, y.text ≠ []) (he : EndsSym x.text) : x.blank = [] → (render X ++ t).head?.any sym = false := by
  intro hb
  have := (Spaced.apart h.spaced hX hb).1
  simpa [he] using this

/-- An operator before an operand. -/
theorem Ctx.operator {N : Nat} {t : List UInt8} {k : Kind} {o : Op} {s b : List UInt8} {X : List Piece} {p : Nat}
    (h : Ctx w N t (⟨k, s, b⟩ :: X) p) (hw : Writes o s) (hb : Gap b) (hX : Chain true X) (p' : Nat) :
    Span w (opText o) p (p + s.length) ∧
      ∃ B ∈ afters (isWord o), Lay w B (p + s.length) [p + s.length + b.length, p'] :=
  ⟨hw.span h.at_, head_lay hb hX.head (fun ho hb0 => h.word hX.texts (hw.ends ho) hb0) h.at_.right p'⟩

/-- What follows an operand directly. -/
theorem post_step {N : Nat} (hN : GoodBelow w N) {t : List UInt8} {o : Op} {s b : List UInt8} {X : List Piece} {p M : Nat}
    (hc : Chain false (⟨.post o, s, b⟩ :: X)) (h : Ctx w N t (⟨.post o, s, b⟩ :: X) p) (hM : M < 15) :
    (M ≤ o.prec → EatsAt w M loop p (p + s.length + b.length)) ∧ (o.prec < M → ShunsAt w M loop p) ∧ ShunsAt w M cmpStep p := by
  have hMr : M ∈ List.range 15 := by simpa using hM
  have hat := h.at_
  cases hc with
  | post h1 h2 h3 h4 =>
    have hsp := h2.span hat
    have he : EndsSym s := by
      refine h2.ends ?_
      have : ∀ o ∈ postfixes, isWord o = true := by decide +kernel
      exact this o h1
    obtain ⟨B, hB, hl⟩ := tail_word h3 (h4.tail h.next.stop.tail) (h.word h4.texts he) hat.right 0
    exact ⟨fun hle => Win.eatsAt (postfix_ok o h1 B hB M hMr hle) hsp hl (by simp) (by simp) (by simp),
      fun hlt => Win.shunsAt (postfix_no o h1 B hB M hMr hlt) hsp hl (by simp) (by simp) (by simp),
      Win.shunsAt (postfix_cmp o h1 B hB M hMr) hsp hl (by simp) (by simp) (by simp)⟩
  | @property s b b' X h1 h2 h3 h4 =>
    have he : EndsSym (46 :: (b' ++ s)) := EndsSym.append (s := 46 :: b') h2.ends
    obtain ⟨B, hB, hl⟩ := tail_word h3 (h4.tail h.next.stop.tail) (h.word h4.texts he) hat.right 0
    have hat' := hat
    simp only [List.cons_append, List.append_assoc] at hat'
    have hsp : Span w dotA p (p + (46 :: (b' ++ s)).length) := by
      rw [show p + (46 :: (b' ++ s)).length = p + 1 + b'.length + s.length by simp; omega]
      exact .cons (.of_byte hat' (by decide)) (.cons (.of_gap h1 h2.solid hat'.tail (by simp)) (h2.span hat'.tail.right))
    exact ⟨fun hle => Win.eatsAt (dot_ok B hB M hMr hle) hsp hl (by simp) (by simp) (by simp),
      fun hlt => Win.shunsAt (dot_no B hB M hMr hlt) hsp hl (by simp) (by simp) (by simp),
      Win.shunsAt (dot_cmp M hMr) (.cons (.of_byte hat' (by decide)) .nil) (qs := []) .nil (by simp) (by simp) (by simp)⟩
  | @subscript b b' F X h1 h2 h3 h4 h5 =>
    have hlen := h.short _ (List.mem_cons_self ..)
    simp only [List.length_cons, List.length_append, List.length_nil] at hlen
    have hat' := hat
    simp only [List.cons_append, List.append_assoc, List.nil_append] at hat'
    have hg := hat'.tail
    have hF := hg.right
    have hc := hF.right
    have hr := hN.inner h2 h3 (by omega) (by decide) hF
    refine ⟨fun hle => ?_, fun hlt => ?_, ?_⟩
    · obtain ⟨B, hB, hl⟩ := tail_other h4 (h5.tail h.next.stop.tail) hc.tail 0
      have := Win.eatsAt (B := subB ++ B) (p1 := p + 1 + b'.length)
        (qs := [p + 1 + b'.length + (render F).length, p + 1 + b'.length + (render F).length + 1,
          p + 1 + b'.length + (render F).length + 1 + b.length, 0]) (sub_ok B hB M hMr hle)
        (.cons (.of_byte hat' (by decide)) (.cons (.of_gap h1 h2.head.solid hg (by simp)) .nil))
        (.cons (h2.head.hole hF _) (.cons (.of_byte hc (by decide))
          hl))
        (by simp)
        (by
          intro f hf
          simp only [List.mem_singleton] at hf
          subst hf
          exact FactOk.eats hr) (by simp)
      exact this.to (by simp [Mark]; omega)
    · exact Win.shunsAt (sub_no M hMr hlt) (.cons (.of_byte hat' (by decide)) .nil) (qs := []) .nil (by simp) (by simp) (by simp)
    · exact Win.shunsAt (sub_cmp M hMr) (.cons (.of_byte hat' (by decide)) .nil) (qs := []) .nil (by simp) (by simp) (by simp)

theorem next_lt (o : Op) : o.next < 15 := by cases o <;> decide

/-- A part of the pieces is read by `e`; the rest goes on after an operand. -/
def Reads (w : List UInt8) (M : Nat) (e : E) (X : List Piece) (p : Nat) : Prop :=
  ∃ X1 X2, X = X1 ++ X2 ∧ Chain false X2 ∧ EatsAt w M e p (p + (render X1).length)

/-- The loop at level `M`, as far as it goes. -/
def Loops (w : List UInt8) (M : Nat) (X : List Piece) (p : Nat) : Prop :=
  ∃ X1 X2, X = X1 ++ X2 ∧ Chain false X2 ∧ Left M X2 ∧ (X1 = [] ∧ ShunsAt w M loop p ∨
    ∃ p3, EatsAt w M loop p p3 ∧ EatsAt w M (.star loop) p3 (p + (render X1).length))

theorem Loops.star {M : Nat} {X : List Piece} {p : Nat} (h : Loops w M X p) : ∃ X1 X2, X = X1 ++ X2 ∧ Chain false X2 ∧
    Left M X2 ∧ EatsAt w M (.star loop) p (p + (render X1).length) := by
  obtain ⟨X1, X2, h1, h2, h3, ⟨rfl, h⟩ | ⟨p3, h4, h5⟩⟩ := h
  · exact ⟨[], X2, h1, h2, h3, .star_end h⟩
  · exact ⟨X1, X2, h1, h2, h3, .star_more h4 h5⟩

/-- The loop after a step. -/
theorem Loops.step {M : Nat} {X Y Z : List Piece} {p : Nat} (hX : X = Y ++ Z)
    (hs : EatsAt w M loop p (p + (render Y).length)) (h : Loops w M Z (p + (render Y).length)) : Loops w M X p := by
  obtain ⟨Z1, Z2, h1, h2, h3, h4⟩ := h.star
  refine ⟨Y ++ Z1, Z2, by rw [hX, h1, List.append_assoc], h2, h3, .inr ⟨_, hs, ?_⟩⟩
  rw [render_append, List.length_append, ← Nat.add_assoc]
  exact h4

theorem Reads.step {M : Nat} {e : E} {X Y Z : List Piece} {p : Nat} (hX : X = Y ++ Z)
    (hs : EatsAt w M e p (p + (render Y).length)) (h : Reads w M (.star e) Z (p + (render Y).length)) :
    Reads w M (.star e) X p := by
  obtain ⟨Z1, Z2, h1, h2, h3⟩ := h
  refine ⟨Y ++ Z1, Z2, by rw [hX, h1, List.append_assoc], h2, .star_more hs ?_⟩
  rw [render_append, List.length_append, ← Nat.add_assoc]
  exact h3

theorem render_len {x : Piece} {X : List Piece} :
    (render (x :: X)).length = x.text.length + x.blank.length + (render X).length := by simp [render]; omega

/-- Precedence climbing reads the pieces. -/
theorem climb {N : Nat} (hN : GoodBelow w N) {t : List UInt8} : ∀ (n : Nat) (X : List Piece) (p M : Nat), X.length ≤ n → M < 15 →
    Ctx w N t X p →
    (Chain true X → ∃ X1 X2, X = X1 ++ X2 ∧ X1 ≠ [] ∧ Chain false X2 ∧ Left M X2 ∧
      EatsAt w M (.nt .r__expression none) p (p + (render X1).length)) ∧
    (Chain false X → Loops w M X p ∧ Reads w M (.star cmpStep) X p) := by
  intro n
  induction n with
  | zero =>
    intro X p M hn hM hc
    have : X = [] := List.length_eq_zero_iff.1 (by omega)
    subst this
    have hstop := hc.stop
    simp only [render, List.flatMap_nil, List.length_nil, Nat.add_zero] at hstop
    refine ⟨fun h => (by cases h), fun _ => ⟨⟨[], [], rfl, .done, trivial, .inl ⟨rfl, hstop.loop M hM⟩⟩, [], [], rfl, .done, ?_⟩⟩
    exact EatsAt.star_end (hstop.cmp M hM)
  | succ n ih =>
    intro X p M hn hM hc
    have hMr : M ∈ List.range 15 := by simpa using hM
    refine ⟨fun h => ?_, fun h => ?_⟩
    · -- an operand, then the loop
      suffices hs : ∃ Y Z, X = Y ++ Z ∧ Y ≠ [] ∧ Chain false Z ∧ Eats w atomE p (p + (render Y).length) by
        obtain ⟨Y, Z, rfl, hY, hZ, ha⟩ := hs
        have hlen : Z.length ≤ n := by
          have : 0 < Y.length := List.length_pos_iff.2 hY
          simp only [List.length_append] at hn
          omega
        obtain ⟨Z1, Z2, h1, h2, h3, h4⟩ := ((ih Z _ M hlen hM hc.right).2 hZ).1
        refine ⟨Y ++ Z1, Z2, by rw [h1, List.append_assoc], by simp [hY], h2, h3, ?_⟩
        rw [render_append, List.length_append, ← Nat.add_assoc]
        refine expression_at ha ?_
        rcases h4 with ⟨rfl, h4⟩ | h4
        · exact .inl ⟨h4, rfl⟩
        · exact .inr h4
      cases h with
      | @operand s b X h1 h2 h3 =>
        refine ⟨[⟨.operand, s, b⟩], X, rfl, by simp, h3, ?_⟩
        have := prim_atom hN h1 (hc.short _ (List.mem_cons_self ..)) h2 (h3.undot rfl hc.next.stop.tail hc.next.stop.dot hc.next.spaced)
          (fun hb0 => Spaced.apart hc.spaced h3.texts hb0) hc.at_ atomE (by simp [atomEs])
        exact this.to (by simp [render]; omega)
      | @pre o s b X h1 h2 h3 h4 =>
        simp only [List.length_cons] at hn
        obtain ⟨X1, X2, rfl, g1, g2, -, g3⟩ := (ih X _ o.next (by omega) (next_lt o) hc.next).1 h4
        refine ⟨⟨.pre o, s, b⟩ :: X1, X2, rfl, by simp, g2, ?_⟩
        obtain ⟨k1, B, k2, k3⟩ := hc.operator h2 h3 h4 (p + s.length + b.length + (render X1).length)
        have := Win.eats (prefix_run o h1 B k2) k1 k3 (by simp) (by
          intro f hf
          simp only [Win.prec, List.mem_singleton] at hf
          subst hf
          exact FactOk.prec g3) (by simp)
        exact this.to (by simp [Mark, render_len]; omega)
    · cases h with
      | done =>
        have hstop := hc.stop
        simp only [render, List.flatMap_nil, List.length_nil, Nat.add_zero] at hstop
        refine ⟨⟨[], [], rfl, .done, trivial, .inl ⟨rfl, hstop.loop M hM⟩⟩, [], [], rfl, .done, ?_⟩
        exact EatsAt.star_end (hstop.cmp M hM)
      | @inf o s b X h1 h2 h3 h4 =>
        simp only [List.length_cons] at hn
        obtain ⟨X1, X2, rfl, g1, g2, -, g3⟩ := (ih X _ o.next (by omega) (next_lt o) hc.next).1 h4
        obtain ⟨k1, B, k2, k3⟩ := hc.operator h2 h3 h4 (p + s.length + b.length + (render X1).length)
        have hfact : ∀ f ∈ Win.prec o, FactOk w (Mark (p + s.length) [p + s.length + b.length,
            p + s.length + b.length + (render X1).length]) f := by
          intro f hf
          simp only [Win.prec, List.mem_singleton] at hf
          subst hf
          exact FactOk.prec g3
        have hpos : p + s.length + b.length + (render X1).length = p + (render (⟨.inf o, s, b⟩ :: X1)).length := by
          rw [render_len]; simp only []; omega
        have hrest := hc
        rw [← List.cons_append] at hrest
        have hlen : X2.length ≤ n := by simp only [List.length_append] at hn; omega
        have hrec := fun M hM => (ih X2 _ M hlen hM hrest.right).2 g2
        have hleft : o.prec < M → Left M (⟨.inf o, s, b⟩ :: (X1 ++ X2)) := fun h => ⟨o, .inl rfl, h⟩
        have hch := Chain.inf h1 h2 h3 h4
        have hcases : o ∈ binaries ∨ o ∈ comparisons := by
          have : ∀ o ∈ infixes, o ∈ binaries ∨ o ∈ comparisons := by decide +kernel
          exact this o h1
        rcases hcases with ho | ho
        · refine ⟨?_, [], _, rfl, hch, EatsAt.star_end
            (Win.shunsAt (binary_cmp o ho B k2 M hMr) k1 k3 (by simp) (by simp) (by simp))⟩
          by_cases hle : M ≤ o.prec
          · have := Win.eatsAt (binary_ok o ho B k2 M hMr hle) k1 k3 (by simp) hfact (by simp)
            exact Loops.step (Y := ⟨.inf o, s, b⟩ :: X1) rfl (this.to hpos) (hrec M hM).1
          · exact ⟨[], _, rfl, hch, hleft (by omega), .inl ⟨rfl,
              Win.shunsAt (binary_no o ho B k2 M hMr (by omega)) k1 k3 (by simp) (by simp) (by simp)⟩⟩
        · by_cases hle : M ≤ o.prec
          · have hstep := (Win.eatsAt (comparison_ok o ho B k2 M hMr hle) k1 k3 (by simp) hfact (by simp)).to hpos
            refine ⟨?_, Reads.step (Y := ⟨.inf o, s, b⟩ :: X1) rfl hstep (hrec M hM).2⟩
            obtain ⟨Y1, Y2, rfl, f1, f2⟩ := (hrec M hM).2
            have h1' := Win.shuns (comparison_first o ho B k2).1 k1 k3 (by simp) (by simp) (by simp)
            have h2' := Win.shuns (comparison_first o ho B k2).2 k1 k3 (by simp) (by simp) (by simp)
            have hloop := comparisons_at h1'.at_ h2'.at_ hstep f2
            have hlen2 : Y2.length ≤ n := by simp only [List.length_append] at hlen; omega
            have hrest2 := hrest.right.right
            refine Loops.step (Y := (⟨.inf o, s, b⟩ :: X1) ++ Y1) (Z := Y2) (by simp) (hloop.to ?_) ?_
            · rw [render_append, List.length_append, Nat.add_assoc]
            · rw [render_append, List.length_append, ← Nat.add_assoc]
              exact ((ih Y2 _ M hlen2 hM hrest2).2 f1).1
          · have hno := comparison_no o ho B k2 M hMr (by omega)
            exact ⟨⟨[], _, rfl, hch, hleft (by omega), .inl ⟨rfl, Win.shunsAt hno.1 k1 k3 (by simp) (by simp) (by simp)⟩⟩,
              [], _, rfl, hch, EatsAt.star_end (Win.shunsAt hno.2 k1 k3 (by simp) (by simp) (by simp))⟩
      | @post o s b X h1 h2 h3 h4 =>
        have hch := Chain.post h1 h2 h3 h4
        obtain ⟨g1, g2, g3⟩ := post_step hN hch hc hM
        refine ⟨?_, [], _, rfl, hch, EatsAt.star_end g3⟩
        by_cases hle : M ≤ o.prec
        · exact Loops.step (Y := [⟨.post o, s, b⟩]) rfl ((g1 hle).to (by simp [render]; omega))
            ((ih X _ M (by simpa using hn) hM (Ctx.right (X := [_]) hc)).2 h4).1
        · exact ⟨[], _, rfl, hch, ⟨o, .inr rfl, by omega⟩, .inl ⟨rfl, g2 (by omega)⟩⟩
      | @property s b b' X h1 h2 h3 h4 =>
        have hch := Chain.property h1 h2 h3 h4
        obtain ⟨g1, g2, g3⟩ := post_step hN hch hc hM
        refine ⟨?_, [], _, rfl, hch, EatsAt.star_end g3⟩
        by_cases hle : M ≤ Op.property.prec
        · exact Loops.step (Y := [⟨.post .property, 46 :: (b' ++ s), b⟩]) rfl ((g1 hle).to (by simp [render]; omega))
            ((ih X _ M (by simpa using hn) hM (Ctx.right (X := [_]) hc)).2 h4).1
        · exact ⟨[], _, rfl, hch, ⟨.property, .inr rfl, by omega⟩, .inl ⟨rfl, g2 (by omega)⟩⟩
      | @subscript b b' F X h1 h2 h3 h4 h5 =>
        have hch := Chain.subscript h1 h2 h3 h4 h5
        obtain ⟨g1, g2, g3⟩ := post_step hN hch hc hM
        refine ⟨?_, [], _, rfl, hch, EatsAt.star_end g3⟩
        by_cases hle : M ≤ Op.subscript.prec
        · exact Loops.step (Y := [⟨.post .subscript, 91 :: (b' ++ (render F ++ [93])), b⟩]) rfl
            ((g1 hle).to (by simp [render]; omega))
            ((ih X _ M (by simpa using hn) hM (Ctx.right (X := [_]) hc)).2 h5).1
        · exact ⟨[], _, rfl, hch, ⟨.subscript, .inr rfl, by omega⟩, .inl ⟨rfl, g2 (by omega)⟩⟩

theorem text_le {X : List Piece} : ∀ x ∈ X, x.text.length ≤ (render X).length := by
  induction X with
  | nil => simp
  | cons y X ih =>
    intro x hx
    rw [render_len]
    rcases List.mem_cons.1 hx with rfl | hx
    · omega
    · have := ih x hx; omega

/-- The parser reads every expression. -/
theorem good : ∀ N, GoodBelow w N := by
  intro N
  induction N with
  | zero => intro E p t _ _ h; omega
  | succ N ih =>
    intro E p t h hs hl hstop hh
    have hctx : Ctx w N t E p := ⟨fun x hx => by have := text_le x hx; omega, hs, hh, hstop⟩
    obtain ⟨X1, X2, rfl, -, -, h3, h4⟩ := (climb ih _ E p 0 le_rfl (by omega) hctx).1 (Exprn.chain le_rfl h)
    have : X2 = [] := by
      cases X2 with
      | nil => rfl
      | cons x X2 =>
        obtain ⟨o, -, h⟩ := h3
        omega
    subst this
    simp only [List.append_nil] at h4 ⊢
    exact Eats.expression h4

/-- `expression` reads every expression that ends before `t`. -/
theorem expression_reads {E : List Piece} {p : Nat} {t : List UInt8} (h : Exprn E) (hs : Spaced (E ++ [endPiece t]))
    (hstop : StopAt w (p + (render E).length) t) (hh : Here w p (render E ++ t)) :
    Eats w (.nt .r_expression none) p (p + (render E).length) :=
  good _ E p t h hs (Nat.lt_succ_self _) hstop hh

end Verif.Exprs

namespace Verif.Stmts
open Verif.Peg Verif.Exprs Verif.Cypher Verif.Cypher.Win

variable {w : List UInt8}

/-- Every expression is read. -/
theorem good (N : Nat) : GoodBelow w N := fun _ _ _ h1 h2 _ h3 h4 => expression_reads h1 h2 h3 h4

theorem Exprn.takes {E : List Piece} {t : List UInt8} {xs : List String} (h : Exprn E) (ht : Begins xs t)
    (hx : ∀ x ∈ xs, x ∈ enders) {v : Option Nat} : Takes w (.nt .r_expression v) E t :=
  ⟨(Exprn.chain le_rfl h).texts, fun _ h1 h2 => (expression_reads h h2 (ht.stop hx h1.right) h1).var⟩

end Verif.Stmts
