import Verif.Cypher.Leaf
/-!
# Texts of leaves: the rules

What each of the rules that make leaves matches and records.
-/
namespace Verif.Cypher
open Verif.Peg Verif.Text
open Verif.Quick (Blank)

/-! ## Slices -/

section slices
variable {w : List UInt8}

theorem ext_cons {p j : Nat} {c : UInt8} (h : w[p]? = some c) (hj : p < j) :
    w.extract p j = c :: w.extract (p + 1) j := by
  have hp : p < w.length := by
    rcases Nat.lt_or_ge p w.length with h' | h'
    · exact h'
    · rw [List.getElem?_eq_none h'] at h; cases h
  simp only [List.extract_eq_take_drop]
  rw [List.drop_eq_getElem_cons hp]
  have : j - p = (j - (p + 1)) + 1 := by omega
  rw [this, List.take_succ_cons]
  rw [List.getElem?_eq_getElem hp] at h
  cases h; rfl

theorem ext_app {p k j : Nat} (h1 : p ≤ k) (h2 : k ≤ j) :
    w.extract p j = w.extract p k ++ w.extract k j := by
  simp only [List.extract_eq_take_drop]
  have h3 : j - p = (k - p) + (j - k) := by omega
  have h4 : w.drop k = (w.drop p).drop (k - p) := by rw [List.drop_drop]; congr 1; omega
  rw [h3, h4, List.take_add]

theorem ext_nil {p j : Nat} (h : j ≤ p) : w.extract p j = [] := by
  simp only [List.extract_eq_take_drop]
  rw [Nat.sub_eq_zero_of_le h, List.take_zero]

theorem ext_end {p j : Nat} (h : w.length ≤ p) : w.extract p j = [] := by
  simp only [List.extract_eq_take_drop]
  rw [List.drop_of_length_le h, List.take_nil]

theorem ext_get {p j i : Nat} {c : UInt8} (h : (w.extract p j)[i]? = some c) :
    w[p + i]? = some c ∧ p + i < j := by
  simp only [List.extract_eq_take_drop] at h
  rw [List.getElem?_take] at h
  split at h
  · rw [List.getElem?_drop] at h
    exact ⟨h, by omega⟩
  · cases h

theorem ext_mem {p j : Nat} {c : UInt8} (h : c ∈ w.extract p j) : ∃ k, p ≤ k ∧ k < j ∧ w[k]? = some c := by
  obtain ⟨i, hi⟩ := List.getElem?_of_mem h
  obtain ⟨h1, h2⟩ := ext_get hi
  exact ⟨p + i, by omega, h2, h1⟩

theorem ext_two {p : Nat} {a b : UInt8} : w.extract p (p + 2) = [a, b] ↔
    w[p]? = some a ∧ w[p + 1]? = some b := by
  constructor
  · intro h
    have h0 : (w.extract p (p + 2))[0]? = some a := by rw [h]; rfl
    have h1 : (w.extract p (p + 2))[1]? = some b := by rw [h]; rfl
    exact ⟨(ext_get h0).1, (ext_get h1).1⟩
  · rintro ⟨h0, h1⟩
    rw [ext_cons h0 (by omega), ext_cons h1 (by omega), ext_nil (by omega)]
end slices

/-! ## Sets of bytes -/

theorem all_bytes {P : UInt8 → Prop} (h : ∀ n : Fin 256, P (UInt8.ofNat n)) (c : UInt8) : P c := by
  have := h ⟨c.toNat, c.toNat_lt⟩
  simpa using this

instance : DecidablePred NameStart := fun c => by unfold NameStart; infer_instance
instance : DecidablePred Digit := fun c => by unfold Digit; infer_instance
instance : DecidablePred NameChar := fun c => by unfold NameChar; infer_instance

theorem symStart_mem (c : UInt8) :
    (CharSet.mk 0x7fffffe87fffffe0000000000000000).mem c = decide (NameStart c) :=
  all_bytes (P := fun c => (CharSet.mk 0x7fffffe87fffffe0000000000000000).mem c = decide (NameStart c))
    (by decide +kernel) c

theorem symPart_mem (c : UInt8) :
    (CharSet.mk 0x7fffffe87fffffe03ff001000000000).mem c = decide (NameChar c) :=
  all_bytes (P := fun c => (CharSet.mk 0x7fffffe87fffffe03ff001000000000).mem c = decide (NameChar c))
    (by decide +kernel) c

theorem digit_mem (c : UInt8) : (CharSet.mk 0x3ff000000000000).mem c = decide (Digit c) :=
  all_bytes (P := fun c => (CharSet.mk 0x3ff000000000000).mem c = decide (Digit c))
    (by decide +kernel) c

theorem digit1_mem (c : UInt8) : (CharSet.mk 0x3fe000000000000).mem c = decide (Digit c ∧ c ≠ 48) :=
  all_bytes (P := fun c => (CharSet.mk 0x3fe000000000000).mem c = decide (Digit c ∧ c ≠ 48))
    (by decide +kernel) c

theorem exp_mem (c : UInt8) :
    (CharSet.mk 0x20000000200000000000000000).mem c = decide (c = 101 ∨ c = 69) :=
  all_bytes (P := fun c => (CharSet.mk 0x20000000200000000000000000).mem c = decide (c = 101 ∨ c = 69))
    (by decide +kernel) c

theorem sign_mem (c : UInt8) : (CharSet.mk 0x280000000000).mem c = decide (c = 43 ∨ c = 45) :=
  all_bytes (P := fun c => (CharSet.mk 0x280000000000).mem c = decide (c = 43 ∨ c = 45))
    (by decide +kernel) c

theorem hws_mem (c : UInt8) : (CharSet.mk 0x100000200).mem c = decide (c = 32 ∨ c = 9) :=
  all_bytes (P := fun c => (CharSet.mk 0x100000200).mem c = decide (c = 32 ∨ c = 9))
    (by decide +kernel) c

theorem quote_mem (c : UInt8) : (CharSet.mk 0x8400000000).mem c = decide (c = 34 ∨ c = 39) :=
  all_bytes (P := fun c => (CharSet.mk 0x8400000000).mem c = decide (c = 34 ∨ c = 39))
    (by decide +kernel) c

/-! ## Small expressions -/

section small
variable {w : List UInt8} {p p' : Nat} {ts : List (Peg.Thunk Act)}

theorem Mt.chr {c : UInt8} (h : Mt w (.chr c) p p' ts) : p' = p + 1 ∧ ts = [] ∧ w[p]? = some c := by
  obtain ⟨h1, h2, d, h3, h4⟩ := Mt.one h
  rw [single_mem] at h4
  have : d = c := by simpa using h4
  exact ⟨h1, h2, this ▸ h3⟩

theorem Fl.chr {c : UInt8} (h : Fl w (.chr c) p) : w[p]? ≠ some c := by
  intro hc
  have := Fl.one h c hc
  rw [single_mem] at this
  simp at this

theorem Mt.dot (h : Mt w .dot p p' ts) : p' = p + 1 ∧ ts = [] ∧ ∃ c, w[p]? = some c := by
  obtain ⟨h1, h2, d, h3, -⟩ := Mt.one h
  exact ⟨h1, h2, d, h3⟩

theorem Fl.dot (h : Fl w .dot p) : w[p]? = none := by
  cases hc : w[p]? with
  | none => rfl
  | some c =>
    have := Fl.one h c hc
    rw [any_mem] at this; cases this

/-- Repetition of something that matches one byte and records nothing. -/
theorem star_run {a : E} {Q : Nat → Prop}
    (h1 : ∀ p p1 us, Mt w a p p1 us → p1 = p + 1 ∧ us = [] ∧ Q p) (h : Mt w (.star a) p p' ts) :
    ts = [] ∧ p ≤ p' ∧ (∀ k, p ≤ k → k < p' → Q k) ∧ Fl w a p' := by
  refine Mt.star (P := fun p p' ts => ts = [] ∧ p ≤ p' ∧ (∀ k, p ≤ k → k < p' → Q k) ∧ Fl w a p')
    ?_ ?_ h
  · rintro p p1 p2 us vs hm ⟨rfl, h3, h4, h5⟩
    obtain ⟨rfl, rfl, hq⟩ := h1 _ _ _ hm
    refine ⟨rfl, by omega, fun k hk1 hk2 => ?_, h5⟩
    rcases Nat.eq_or_lt_of_le hk1 with rfl | hk
    · exact hq
    · exact h4 k hk hk2
  · intro p hf
    exact ⟨rfl, Nat.le_refl _, fun k h1 h2 => by omega, hf⟩

theorem plus_run {a : E} {Q : Nat → Prop}
    (h1 : ∀ p p1 us, Mt w a p p1 us → p1 = p + 1 ∧ us = [] ∧ Q p) (h : Mt w (.plus a) p p' ts) :
    ts = [] ∧ p < p' ∧ (∀ k, p ≤ k → k < p' → Q k) ∧ Fl w a p' := by
  obtain ⟨p1, us, vs, h2, h3, rfl⟩ := Mt.seq h
  obtain ⟨rfl, rfl, hq⟩ := h1 _ _ _ h2
  obtain ⟨rfl, h4, h5, h6⟩ := star_run h1 h3
  refine ⟨rfl, by omega, fun k hk1 hk2 => ?_, h6⟩
  rcases Nat.eq_or_lt_of_le hk1 with rfl | hk
  · exact hq
  · exact h5 k hk hk2

/-- A byte in a set. -/
def At (w : List UInt8) (Q : UInt8 → Prop) (k : Nat) : Prop := ∃ c, w[k]? = some c ∧ Q c

theorem At.all {Q : UInt8 → Prop} {i j : Nat} (h : ∀ k, i ≤ k → k < j → At w Q k) : ∀ c ∈ w.extract i j, Q c := by
  intro c hc
  obtain ⟨k, h1, h2, h3⟩ := ext_mem hc
  obtain ⟨d, h4, h5⟩ := h k h1 h2
  rw [h3] at h4
  cases h4; exact h5

theorem one_at {m : CharSet} {Q : UInt8 → Prop} (hm : ∀ c, m.mem c = true → Q c) :
    ∀ p p1 us, Mt w (.one m) p p1 us → p1 = p + 1 ∧ us = [] ∧ At w Q p := by
  intro p p1 us h
  obtain ⟨h1, h2, c, h3, h4⟩ := h.one
  exact ⟨h1, h2, c, h3, hm c h4⟩

theorem sym_start_at : ∀ p p1 us, Mt w (.nt .r_sym_start none) p p1 us →
    p1 = p + 1 ∧ us = [] ∧ At w NameStart p := by
  intro p p1 us h
  exact one_at (fun c hc => by rw [symStart_mem] at hc; simpa using hc) _ _ _ (h.nt0 rfl)

theorem sym_part_at : ∀ p p1 us, Mt w (.nt .r_sym_part none) p p1 us →
    p1 = p + 1 ∧ us = [] ∧ At w NameChar p := by
  intro p p1 us h
  exact one_at (fun c hc => by rw [symPart_mem] at hc; simpa using hc) _ _ _ (h.nt0 rfl)

theorem digit_at : ∀ p p1 us, Mt w (.one ⟨0x3ff000000000000⟩) p p1 us →
    p1 = p + 1 ∧ us = [] ∧ At w Digit p :=
  one_at (fun c hc => by rw [digit_mem] at hc; simpa using hc)

theorem Mt.eol (h : Mt w (.nt .r_EOL none) p p' ts) :
    ts = [] ∧ ((w[p]? = some 10 ∧ p' = p + 1) ∨ (w[p]? = some 13 ∧ w[p + 1]? = some 10 ∧ p' = p + 2)) := by
  obtain ⟨p1, us, vs, h1, h2, rfl⟩ := (h.nt0 rfl : Mt w r_EOL p p' ts).seq
  obtain ⟨rfl, rfl⟩ := (h2.nt0 rfl : Mt w r__line_start_ p1 p' vs).pred
  rcases h1.alt with h1 | ⟨-, h1⟩
  · obtain ⟨rfl, rfl, h3⟩ := h1.chr
    exact ⟨rfl, .inl ⟨h3, rfl⟩⟩
  · obtain ⟨rfl, rfl, h3⟩ := h1.str
    have h3 := ext_two.1 h3
    exact ⟨rfl, .inr ⟨h3.1, h3.2, rfl⟩⟩

theorem Fl.eol (h : Fl w (.nt .r_EOL none) p) :
    w[p]? ≠ some 10 ∧ ¬ (w[p]? = some 13 ∧ w[p + 1]? = some 10) := by
  rcases (h.nt : Fl w r_EOL p).seq with h | ⟨p1, us, -, h⟩
  · obtain ⟨h1, h2⟩ := h.alt
    exact ⟨h1.chr, fun h => h2.str (ext_two.2 h)⟩
  · rcases (h.nt : Fl w r__line_start_ p1).pred with h | h <;> cases h

theorem Mt.eof (h : Mt w (.nt .r_EOF none) p p' ts) : p' = p ∧ ts = [.act .eof p] ∧ w[p]? = none := by
  obtain ⟨p1, us, vs, h1, h2, rfl⟩ := (h.nt0 rfl : Mt w r_EOF p p' ts).seq
  obtain ⟨rfl, rfl, h3⟩ := h1.npeek
  obtain ⟨rfl, rfl⟩ := h2.act
  exact ⟨rfl, rfl, h3.dot⟩

end small

/-! ## Comments and white space -/

section
variable {w : List UInt8} {env : Env} {p p' : Nat} {ts : List (Peg.Thunk Act)}

theorem line_comment_inv (hf : Reads env w) (h : Mt w (.nt .r_line_comment none) p p' ts) :
    Quiet env (LeafAt env w) ts [] ∧ ∃ body, 10 ∉ body ∧
      ((∃ e, (e = [10] ∨ e = [13, 10]) ∧ w.extract p p' = 47 :: 47 :: (body ++ e)) ∨
        w.length ≤ p' ∧ w.extract p p' = 47 :: 47 :: body) := by
  obtain ⟨p1, us, vs, h1, h2, rfl⟩ := (h.nt0 rfl : Mt w r_line_comment p p' ts).seq
  obtain ⟨p2, us2, vs2, g2, h3, rfl⟩ := h2.seq
  obtain ⟨p3, us3, vs3, g3, h4, rfl⟩ := h3.seq
  obtain ⟨p4, us4, vs4, g4, h5, rfl⟩ := h4.seq
  obtain ⟨p5, us5, vs5, g5, h6, rfl⟩ := h5.seq
  clear h2 h3 h4 h5
  obtain ⟨rfl, rfl, e1⟩ := h1.str
  obtain ⟨rfl, rfl⟩ := g2.pred
  obtain ⟨rfl, rfl⟩ := g4.pred
  obtain ⟨rfl, rfl⟩ := g5.act
  obtain ⟨rfl, e2, e3, -⟩ := star_run (Q := At w (· ≠ 10)) (fun p p1 us hm => by
    obtain ⟨q, xs, ys, g1, g2, rfl⟩ := hm.seq
    obtain ⟨rfl, rfl, g3⟩ := g1.npeek
    obtain ⟨rfl, rfl, c, g4⟩ := g2.dot
    exact ⟨rfl, rfl, c, g4, fun e => g3.eol.1 (e ▸ g4)⟩) g3
  have hb : 10 ∉ w.extract (p + 2) p5 := fun hm => At.all e3 10 hm rfl
  have hq := Quiet.leaf (env := env) hf .nil (p := p + 2) (q := p5) (r := p5) (a := .blockEnd) (.inl rfl)
    (d := .discard) (c := .lineComment) rfl ⟨rfl, hb⟩
  obtain ⟨ea, eb⟩ := ext_two.1 e1
  have hp : ∀ j, p + 2 ≤ j → w.extract p j = 47 :: 47 :: w.extract (p + 2) j := by
    intro j hj
    rw [ext_cons ea (by omega), ext_cons eb (by omega)]
  simp only [List.length_cons, List.length_nil, Nat.zero_add, Nat.reduceAdd] at e2
  rcases h6.alt with h6 | ⟨-, h6⟩
  · obtain ⟨rfl, h9⟩ := h6.eol
    refine ⟨by simpa [recT] using hq, _, hb, .inl ?_⟩
    rcases h9 with ⟨h7, rfl⟩ | ⟨h7, h8, rfl⟩
    · refine ⟨[10], .inl rfl, ?_⟩
      rw [hp _ (by omega), ext_app e2 (by omega), ext_cons h7 (by omega), ext_nil (Nat.le_refl _)]
    · refine ⟨[13, 10], .inr rfl, ?_⟩
      rw [hp _ (by omega), ext_app e2 (by omega), ext_cons h7 (by omega), ext_cons h8 (by omega),
        ext_nil (Nat.le_refl _)]
  · obtain ⟨rfl, rfl, h9⟩ := h6.eof
    refine ⟨by simpa [recT] using hq.append Quiet.eof, _, hb, .inr ⟨?_, hp _ e2⟩⟩
    rcases Nat.lt_or_ge p' w.length with hl | hl
    · rw [List.getElem?_eq_getElem hl] at h9; cases h9
    · exact hl

theorem block_comment_inv (hf : Reads env w) (h : Mt w (.nt .r_block_comment none) p p' ts) :
    Quiet env (LeafAt env w) ts [] ∧ ∃ body, NoEnd body ∧
      w.extract p p' = 47 :: 42 :: (body ++ [42, 47]) := by
  obtain ⟨p1, us, vs, h1, h2, rfl⟩ := (h.nt0 rfl : Mt w r_block_comment p p' ts).seq
  obtain ⟨p2, us2, vs2, g2, h3, rfl⟩ := h2.seq
  obtain ⟨p3, us3, vs3, g3, h4, rfl⟩ := h3.seq
  obtain ⟨p4, us4, vs4, g4, h5, rfl⟩ := h4.seq
  obtain ⟨p5, us5, vs5, g5, h6, rfl⟩ := h5.seq
  clear h2 h3 h4 h5
  obtain ⟨rfl, rfl, e1⟩ := h1.str
  obtain ⟨rfl, rfl⟩ := g2.pred
  obtain ⟨rfl, rfl⟩ := g4.pred
  obtain ⟨rfl, rfl⟩ := g5.act
  obtain ⟨rfl, rfl, e6⟩ := h6.onfail.str
  have key : us3 = [] ∧ p + 2 ≤ p5 ∧ ∀ k, p + 2 ≤ k → k < p5 → ¬ (w[k]? = some 42 ∧ w[k + 1]? = some 47) := by
    refine Mt.star (P := fun p p' ts => ts = [] ∧ p ≤ p' ∧ ∀ k, p ≤ k → k < p' →
      ¬ (w[k]? = some 42 ∧ w[k + 1]? = some 47)) ?_ ?_ g3
    · rintro p p1 p2 us vs hm ⟨rfl, g1, g2⟩
      rcases hm.alt with hm | ⟨-, hm⟩
      · obtain ⟨rfl, ⟨a1, rfl⟩ | ⟨a1, a2, rfl⟩⟩ := hm.eol
        · refine ⟨rfl, by omega, fun k h1 h2 => ?_⟩
          rcases Nat.eq_or_lt_of_le h1 with rfl | h1
          · rw [a1]; simp
          · exact g2 k h1 h2
        · refine ⟨rfl, by omega, fun k h1 h2 => ?_⟩
          rcases Nat.eq_or_lt_of_le h1 with rfl | h1
          · rw [a1]; simp
          · rcases Nat.eq_or_lt_of_le h1 with rfl | h1
            · rw [a2]; simp
            · exact g2 k h1 h2
      · obtain ⟨q, xs, ys, a1, a2, rfl⟩ := hm.seq
        obtain ⟨rfl, rfl, a3⟩ := a1.npeek
        obtain ⟨rfl, rfl, c, a4⟩ := a2.dot
        refine ⟨rfl, by omega, fun k h1 h2 => ?_⟩
        rcases Nat.eq_or_lt_of_le h1 with rfl | h1
        · exact fun h => a3.str (ext_two.2 h)
        · exact g2 k h1 h2
    · intro p _
      exact ⟨rfl, Nat.le_refl _, fun k h1 h2 => by omega⟩
  obtain ⟨rfl, e2, e3⟩ := key
  have hb : NoEnd (w.extract (p + 2) p5) := by
    rintro i ⟨h1, h2⟩
    have h1 := ext_get h1
    have h2 := ext_get h2
    exact e3 _ (by omega) h1.2 ⟨h1.1, h2.1⟩
  have hq := Quiet.leaf (env := env) hf .nil (p := p + 2) (q := p5) (r := p5) (a := .blockEnd) (.inl rfl)
    (d := .discard) (c := .blockComment) rfl ⟨rfl, hb⟩
  obtain ⟨ea, eb⟩ := ext_two.1 e1
  refine ⟨by simpa [recT] using hq, _, hb, ?_⟩
  simp only [List.length_cons, List.length_nil, Nat.zero_add, Nat.reduceAdd] at e6 ⊢
  rw [ext_cons ea (by omega), ext_cons eb (by omega), ext_app e2 (by omega), e6]

theorem ws_inv (hf : Reads env w) (h : Mt w (.nt .r_ws none) p p' ts) :
    Quiet env (LeafAt env w) ts [] ∧ Blank (w.extract p p') := by
  have h : Mt w r_ws p p' ts := h.nt0 rfl
  have key : p ≤ p' ∧ Quiet env (LeafAt env w) ts [] ∧ Blank (w.extract p p') := by
    refine Mt.star (P := fun p p' ts => p ≤ p' ∧ Quiet env (LeafAt env w) ts [] ∧ Blank (w.extract p p'))
      ?_ ?_ h
    · rintro p p1 p2 us vs hm ⟨g1, g2, g3⟩
      have hle := hm.le
      refine ⟨by omega, ?_⟩
      rw [ext_app hle g1]
      rcases hm.alt with hm | ⟨-, hm⟩
      · rcases (hm.nt0 rfl : Mt w r_WS p p1 us).alt with hm | ⟨-, hm⟩
        · obtain ⟨rfl, rfl, c, a1, a2⟩ := (hm.nt0 rfl : Mt w r_HWS p p1 us).one
          rw [hws_mem] at a2
          refine ⟨by simpa using g2, ?_⟩
          rw [ext_cons a1 (by omega), ext_nil (Nat.le_refl _)]
          refine .char ?_ g3
          have : c = 32 ∨ c = 9 := by simpa using a2
          rcases this with h | h
          · exact .inl h
          · exact .inr (.inl h)
        · obtain ⟨rfl, ⟨a1, rfl⟩ | ⟨a1, a2, rfl⟩⟩ := hm.eol
          · refine ⟨by simpa using g2, ?_⟩
            rw [ext_cons a1 (by omega), ext_nil (Nat.le_refl _)]
            exact .char (.inr (.inr rfl)) g3
          · refine ⟨by simpa using g2, ?_⟩
            rw [ext_cons a1 (by omega), ext_cons a2 (by omega), ext_nil (Nat.le_refl _)]
            exact .crlf g3
      · rcases (hm.nt0 rfl : Mt w r_comment p p1 us).alt with hm | ⟨-, hm⟩
        · obtain ⟨a1, body, a2, ⟨e, he, a3⟩ | ⟨a3, a4⟩⟩ := line_comment_inv hf hm
          · refine ⟨by simpa using a1.append g2, ?_⟩
            rw [a3]
            rcases he with rfl | rfl
            · simpa using Blank.line a2 g3
            · have : 10 ∉ body ++ [13] := by simp [a2]
              simpa using Blank.line this g3
          · refine ⟨by simpa using a1.append g2, ?_⟩
            rw [a4, ext_end a3]
            simpa using Blank.lineEnd a2
        · obtain ⟨a1, body, a2, a3⟩ := block_comment_inv hf hm
          refine ⟨by simpa using a1.append g2, ?_⟩
          rw [a3]
          simpa using Blank.block a2 g3
    · intro p _
      exact ⟨Nat.le_refl _, .nil, by rw [ext_nil (Nat.le_refl _)]; exact .nil⟩
  exact key.2


/-! ## Names and numbers -/

theorem recT_start {p : Nat} : recT .blockStart p = [.act .blockStart p] := rfl
theorem recT_end {p : Nat} : recT .blockEnd p = [.act .blockEnd p] := rfl
theorem recT_merge {p : Nat} : recT .blockMerge p = [.act .blockMerge p] := rfl

theorem Mt.bstart (h : Mt w (.nt .r__block_start_ none) p p' ts) : p' = p ∧ ts = [.act .blockStart p] :=
  (h.nt0 rfl : Mt w r__block_start_ p p' ts).pred
theorem Mt.bmerge (h : Mt w (.nt .r__block_merge_ none) p p' ts) : p' = p ∧ ts = [.act .blockMerge p] :=
  (h.nt0 rfl : Mt w r__block_merge_ p p' ts).pred

/-- A block whose text is appended to the string buffer. -/
theorem Quiet.slice (hf : Reads env w) {p q r : Nat} :
    Quiet env (LeafAt env w) [.act .sbAppendBlock r, .act .blockEnd q, .act .blockStart p]
      (w.extract p q) := by
  simpa using Quiet.block (env := env) (L := LeafAt env w) hf .nil (p := p) (q := q) (r := r)
    (a := .blockEnd) (.inl rfl)

theorem symbolic_name_inv (hf : Reads env w) (h : Mt w (.nt .r_symbolic_name none) p p' ts) :
    ∃ t, Quiet env (LeafAt env w) ts t ∧ Name (w.extract p p') t := by
  rcases (h.nt0 rfl : Mt w r_symbolic_name p p' ts).alt with h | ⟨-, h⟩
  · obtain ⟨p1, us1, vs1, a1, b1, rfl⟩ := (h.nt0 rfl : Mt w r_unescaped_symbolic_name p p' ts).seq
    obtain ⟨p2, us2, vs2, a2, b2, rfl⟩ := b1.seq
    obtain ⟨p3, us3, vs3, a3, b3, rfl⟩ := b2.seq
    obtain ⟨p4, us4, vs4, a4, b4, rfl⟩ := b3.seq
    clear b1 b2 b3
    obtain ⟨rfl, rfl⟩ := a1.pred
    obtain ⟨rfl, rfl, c, e1, e2⟩ := sym_start_at _ _ _ a2
    obtain ⟨rfl, e3, e4, -⟩ := star_run sym_part_at a3
    obtain ⟨rfl, rfl⟩ := a4.pred
    obtain ⟨rfl, rfl⟩ := b4.act
    refine ⟨_, Quiet.slice hf, ?_⟩
    rw [ext_cons e1 (by omega)]
    exact .plain e2 (At.all e4)
  · obtain ⟨p1, us1, vs1, a1, b1, rfl⟩ := (h.nt0 rfl : Mt w r_escaped_symbolic_name p p' ts).seq
    obtain ⟨p2, us2, vs2, a2, b2, rfl⟩ := b1.seq
    obtain ⟨p3, us3, vs3, a3, b3, rfl⟩ := b2.seq
    obtain ⟨p4, us4, vs4, a4, b4, rfl⟩ := b3.seq
    obtain ⟨p5, us5, vs5, a5, b5, rfl⟩ := b4.seq
    clear b1 b2 b3 b4
    obtain ⟨rfl, rfl, e1⟩ := a1.chr
    obtain ⟨rfl, rfl⟩ := a2.pred
    obtain ⟨rfl, e3, e4, -⟩ := star_run (Q := At w (· ≠ 96)) (fun p p1 us hm => by
      obtain ⟨q, xs, ys, g1, g2, rfl⟩ := hm.seq
      obtain ⟨rfl, rfl, g3⟩ := g1.npeek
      obtain ⟨rfl, rfl, c, g4⟩ := g2.dot
      exact ⟨rfl, rfl, c, g4, fun e => g3.chr (e ▸ g4)⟩) a3
    obtain ⟨rfl, rfl⟩ := a4.pred
    obtain ⟨rfl, rfl, e5⟩ := a5.onfail.chr
    obtain ⟨rfl, rfl⟩ := b5.act
    refine ⟨_, Quiet.slice hf (p := p + 1), ?_⟩
    rw [ext_cons e1 (by omega), ext_app e3 (Nat.le_succ _), ext_cons e5 (by omega), ext_nil (Nat.le_refl _)]
    exact .quoted fun hm => At.all e4 96 hm rfl

theorem parameter_name_inv (hf : Reads env w) (h : Mt w (.nt .r_parameter_name none) p p' ts) :
    ∃ t, Quiet env (LeafAt env w) ts t ∧ ParamName (w.extract p p') t := by
  rcases (h.nt0 rfl : Mt w r_parameter_name p p' ts).alt with h | ⟨-, h⟩
  · obtain ⟨t, h1, h2⟩ := symbolic_name_inv hf h
    exact ⟨t, h1, .name h2⟩
  · obtain ⟨p1, us1, vs1, a1, b1, rfl⟩ := h.seq
    obtain ⟨p2, us2, vs2, a2, b2, rfl⟩ := b1.seq
    obtain ⟨p3, us3, vs3, a3, b3, rfl⟩ := b2.seq
    obtain ⟨p4, us4, vs4, a4, b4, rfl⟩ := b3.seq
    clear b1 b2 b3
    obtain ⟨rfl, rfl⟩ := a1.pred
    obtain ⟨rfl, rfl, c, e1, e2⟩ := one_at (Q := fun c => Digit c ∧ c ≠ 48)
      (fun c hc => by rw [digit1_mem] at hc; simpa using hc) _ _ _ a2
    obtain ⟨rfl, e3, e4, -⟩ := star_run digit_at a3
    obtain ⟨rfl, rfl⟩ := a4.pred
    obtain ⟨rfl, rfl⟩ := b4.act
    refine ⟨_, Quiet.slice hf, ?_⟩
    rw [ext_cons e1 (by omega)]
    exact .number e2.1 e2.2 (At.all e4)

theorem integer_string_inv (hf : Reads env w) (h : Mt w (.nt .r_integer_string none) p p' ts) :
    Quiet env (LeafAt env w) ts (w.extract p p') ∧ IntText (w.extract p p') := by
  obtain ⟨p1, us1, vs1, a1, b1, rfl⟩ := (h.nt0 rfl : Mt w r_integer_string p p' ts).seq
  obtain ⟨p2, us2, vs2, a2, b2, rfl⟩ := b1.seq
  obtain ⟨p3, us3, vs3, a3, b3, rfl⟩ := b2.seq
  obtain ⟨p4, us4, vs4, a4, b4, rfl⟩ := b3.seq
  clear b1 b2 b3
  obtain ⟨rfl, rfl⟩ := a1.pred
  obtain ⟨rfl, rfl, c, e1, e2⟩ := digit_at _ _ _ a2
  obtain ⟨rfl, e3, e4, -⟩ := star_run sym_part_at a3
  obtain ⟨rfl, rfl⟩ := a4.pred
  obtain ⟨rfl, rfl⟩ := b4.act
  refine ⟨Quiet.slice hf, ?_⟩
  rw [ext_cons e1 (by omega)]
  exact .mk e2 (At.all e4)

theorem float_string_inv (hf : Reads env w) (h : Mt w (.nt .r_float_string none) p p' ts) :
    Quiet env (LeafAt env w) ts (w.extract p p') ∧ FloatText (w.extract p p') := by
  rcases (h.nt0 rfl : Mt w r_float_string p p' ts).alt with h | ⟨-, h⟩
  · obtain ⟨p1, us1, vs1, a1, b1, rfl⟩ := h.seq
    obtain ⟨p2, us2, vs2, a2, b2, rfl⟩ := b1.seq
    obtain ⟨p3, us3, vs3, a3, b3, rfl⟩ := b2.seq
    obtain ⟨p4, us4, vs4, a4, b4, rfl⟩ := b3.seq
    obtain ⟨p5, us5, vs5, a5, b5, rfl⟩ := b4.seq
    obtain ⟨p6, us6, vs6, a6, b6, rfl⟩ := b5.seq
    obtain ⟨p7, us7, vs7, a7, b7, rfl⟩ := b6.seq
    obtain ⟨p8, us8, vs8, a8, b8, rfl⟩ := b7.seq
    obtain ⟨p9, us9, vs9, a9, b9, rfl⟩ := b8.seq
    clear b1 b2 b3 b4 b5 b6 b7 b8
    obtain ⟨rfl, rfl⟩ := a1.pred
    obtain ⟨rfl, l2, e2, -⟩ := plus_run digit_at a2
    have h3 : us3 = [] ∧ p2 ≤ p3 ∧ (w.extract p2 p3 = [] ∨ w.extract p2 p3 = [46]) := by
      rcases a3.alt with g | ⟨-, g⟩
      · obtain ⟨rfl, rfl, e⟩ := g.chr
        exact ⟨rfl, by omega, .inr (by rw [ext_cons e (by omega), ext_nil (Nat.le_refl _)])⟩
      · obtain ⟨rfl, rfl⟩ := g.eps
        exact ⟨rfl, Nat.le_refl _, .inl (ext_nil (Nat.le_refl _))⟩
    obtain ⟨rfl, l3, e3⟩ := h3
    obtain ⟨rfl, l4, e4, -⟩ := star_run digit_at a4
    obtain ⟨rfl, rfl, e, e5, e5'⟩ := one_at (Q := fun c => c = 101 ∨ c = 69)
      (fun c hc => by rw [exp_mem] at hc; simpa using hc) _ _ _ a5
    have h6 : us6 = [] ∧ p4 + 1 ≤ p6 ∧ (w.extract (p4 + 1) p6 = [] ∨ w.extract (p4 + 1) p6 = [43] ∨
        w.extract (p4 + 1) p6 = [45]) := by
      rcases a6.alt with g | ⟨-, g⟩
      · obtain ⟨rfl, rfl, c, e, e'⟩ := one_at (Q := fun c => c = 43 ∨ c = 45)
          (fun c hc => by rw [sign_mem] at hc; simpa using hc) _ _ _ g
        refine ⟨rfl, by omega, .inr ?_⟩
        rw [ext_cons e (by omega), ext_nil (Nat.le_refl _)]
        rcases e' with rfl | rfl
        · exact .inl rfl
        · exact .inr rfl
      · obtain ⟨rfl, rfl⟩ := g.eps
        exact ⟨rfl, Nat.le_refl _, .inl (ext_nil (Nat.le_refl _))⟩
    obtain ⟨rfl, l6, e6⟩ := h6
    obtain ⟨rfl, rfl, d, e7, e7'⟩ := digit_at _ _ _ a7
    obtain ⟨rfl, l8, e8, -⟩ := star_run sym_part_at a8
    obtain ⟨rfl, rfl⟩ := a9.pred
    obtain ⟨rfl, rfl⟩ := b9.act
    refine ⟨Quiet.slice hf, ?_⟩
    rw [ext_app (Nat.le_of_lt l2) (by omega), ext_app l3 (by omega), ext_app l4 (by omega),
      ext_cons e5 (by omega), ext_app l6 (by omega), ext_cons e7 (by omega)]
    refine .exp ?_ (At.all e2) e3 (At.all e4) e5' e6 e7' (At.all e8)
    obtain ⟨c, g, -⟩ := e2 _ (Nat.le_refl _) l2
    rw [ext_cons g l2]; simp
  · obtain ⟨p1, us1, vs1, a1, b1, rfl⟩ := h.seq
    obtain ⟨p2, us2, vs2, a2, b2, rfl⟩ := b1.seq
    obtain ⟨p3, us3, vs3, a3, b3, rfl⟩ := b2.seq
    obtain ⟨p4, us4, vs4, a4, b4, rfl⟩ := b3.seq
    obtain ⟨p5, us5, vs5, a5, b5, rfl⟩ := b4.seq
    obtain ⟨p6, us6, vs6, a6, b6, rfl⟩ := b5.seq
    clear b1 b2 b3 b4 b5
    obtain ⟨rfl, rfl⟩ := a1.pred
    obtain ⟨rfl, l2, e2, -⟩ := star_run digit_at a2
    obtain ⟨rfl, rfl, e3⟩ := a3.chr
    obtain ⟨rfl, rfl, d, e4, e4'⟩ := digit_at _ _ _ a4
    obtain ⟨rfl, l5, e5, -⟩ := star_run sym_part_at a5
    obtain ⟨rfl, rfl⟩ := a6.pred
    obtain ⟨rfl, rfl⟩ := b6.act
    refine ⟨Quiet.slice hf, ?_⟩
    rw [ext_app l2 (by omega), ext_cons e3 (by omega), ext_cons e4 (by omega)]
    exact .point (At.all e2) e4' (At.all e5)

/-! ## Strings -/

/-- What stands from `p` to `p'` is read as `out`, in mode `m`. -/
def Unq (env : Env) (w : List UInt8) (m : Option UInt8) (p p' : Nat) (ts : List (Peg.Thunk Act)) : Prop :=
  p ≤ p' ∧ ∃ out, Quiet env (LeafAt env w) ts out ∧
    ∀ j, p' ≤ j → unquote m (w.extract p j) = out ++ unquote m (w.extract p' j)

theorem Unq.nil {m : Option UInt8} : Unq env w m p p [] :=
  ⟨Nat.le_refl _, [], .nil, fun _ _ => rfl⟩

theorem Unq.append {m : Option UInt8} {p1 p2 : Nat} {us vs : List (Peg.Thunk Act)}
    (h1 : Unq env w m p p1 us) (h2 : Unq env w m p1 p2 vs) : Unq env w m p p2 (vs ++ us) := by
  obtain ⟨l1, o1, q1, e1⟩ := h1
  obtain ⟨l2, o2, q2, e2⟩ := h2
  exact ⟨by omega, _, q1.append q2, fun j hj => by rw [e1 j (by omega), e2 j hj, List.append_assoc]⟩

theorem Unq.star {m : Option UInt8} {a : E} (h1 : ∀ p p1 us, Mt w a p p1 us → Unq env w m p p1 us)
    (h : Mt w (.star a) p p' ts) : Unq env w m p p' ts :=
  Mt.star (P := fun p p' ts => Unq env w m p p' ts)
    (fun hm hr => (h1 _ _ _ hm).append hr) (fun _ => .nil) h

theorem Unq.plus {m : Option UInt8} {a : E} (h1 : ∀ p p1 us, Mt w a p p1 us → Unq env w m p p1 us)
    (h : Mt w (.plus a) p p' ts) : Unq env w m p p' ts := by
  obtain ⟨p1, us, vs, h2, h3, rfl⟩ := Mt.seq h
  exact (h1 _ _ _ h2).append (Unq.star h1 h3)

/-- A run of bytes that stand for themselves. -/
theorem Unq.run (hf : Reads env w) {m : Option UInt8} {r : Nat} (hp : p ≤ p')
    (h : ∀ k, p ≤ k → k < p' → ∃ c, w[k]? = some c ∧ ∀ j, p' ≤ j →
      unquote m (c :: w.extract (k + 1) j) = c :: unquote m (w.extract (k + 1) j)) :
    Unq env w m p p' [.act .sbAppendBlock r, .act .blockEnd p', .act .blockStart p] := by
  refine ⟨hp, _, Quiet.slice hf, fun j hj => ?_⟩
  induction hn : p' - p generalizing p with
  | zero =>
    have : p = p' := by omega
    subst this
    rw [ext_nil (Nat.le_refl p)]; rfl
  | succ n ih =>
    obtain ⟨c, h1, h2⟩ := h p (Nat.le_refl _) (by omega)
    rw [ext_cons h1 (by omega), h2 j hj, ext_cons h1 (show p < p' by omega), List.cons_append,
      ih (by omega) (fun k h3 h4 => h k (by omega) h4) (by omega)]

theorem esc_one {a v : UInt8} (ha : escape a = some v)
    (h : Mt w (.seq (.str [92, a]) (.act (.sbAppend v))) p p' ts) :
    ∃ d v, escape d = some v ∧ w[p]? = some 92 ∧ w[p + 1]? = some d ∧ p' = p + 2 ∧
      ts = [.act (.sbAppend v) (p + 2)] := by
  obtain ⟨p1, us, vs, h1, h2, rfl⟩ := h.seq
  obtain ⟨rfl, rfl, h3⟩ := h1.str
  obtain ⟨rfl, rfl⟩ := h2.act
  have := ext_two.1 h3
  exact ⟨a, v, ha, this.1, this.2, rfl, rfl⟩

theorem escaped_char_inv (h : Mt w (.nt .r_escaped_char none) p p' ts) :
    ∃ d v, escape d = some v ∧ w[p]? = some 92 ∧ w[p + 1]? = some d ∧ p' = p + 2 ∧
      ts = [.act (.sbAppend v) (p + 2)] := by
  have h : Mt w r_escaped_char p p' ts := h.nt0 rfl
  rcases h.alt with h | ⟨-, h⟩; · exact esc_one (by decide) h
  rcases h.alt with h | ⟨-, h⟩; · exact esc_one (by decide) h
  rcases h.alt with h | ⟨-, h⟩; · exact esc_one (by decide) h
  rcases h.alt with h | ⟨-, h⟩; · exact esc_one (by decide) h
  rcases h.alt with h | ⟨-, h⟩; · exact esc_one (by decide) h
  rcases h.alt with h | ⟨-, h⟩; · exact esc_one (by decide) h
  rcases h.alt with h | ⟨-, h⟩; · exact esc_one (by decide) h
  rcases h.alt with h | ⟨-, h⟩; · exact esc_one (by decide) h
  rcases h.alt with h | ⟨-, h⟩; · exact esc_one (by decide) h
  rcases h.alt with h | ⟨-, h⟩; · exact esc_one (by decide) h
  exact esc_one (by decide) h

theorem no_esc {a v : UInt8} (h : Fl w (.seq (.str [92, a]) (.act (.sbAppend v))) p) :
    ¬ (w[p]? = some 92 ∧ w[p + 1]? = some a) := by
  rcases h.seq with h | ⟨_, _, -, h⟩
  · exact fun e => h.str (ext_two.2 e)
  · exact h.act.elim

theorem escape_cases {P : UInt8 → Prop} (h : ∀ x ∈ escapeTable, P x.1) {d v : UInt8} (hd : escape d = some v) :
    P d := by
  have : (d, v) ∈ escapeTable := by
    unfold escape at hd
    revert hd
    generalize escapeTable = t
    intro hd
    induction t with
    | nil => cases hd
    | cons x t ih =>
      obtain ⟨a, b⟩ := x
      rw [List.lookup_cons] at hd
      by_cases hx : d == a
      · simp only [hx] at hd
        cases hd
        simp only [beq_iff_eq] at hx
        simp [hx]
      · simp only [Bool.not_eq_true] at hx
        simp only [hx] at hd
        exact List.mem_cons_of_mem _ (ih hd)
  exact h _ this

theorem no_escaped_char (h : Fl w (.nt .r_escaped_char none) p) (hp : w[p]? = some 92) (j : Nat) :
    Lone (w.extract (p + 1) j) := by
  intro d v hd hv
  have hd' : w[p + 1]? = some d := by
    cases hl : w.extract (p + 1) j with
    | nil => rw [hl] at hd; cases hd
    | cons x l =>
      rw [hl] at hd
      cases hd
      have : (w.extract (p + 1) j)[0]? = some d := by rw [hl]; rfl
      exact (ext_get this).1
  have h : Fl w r_escaped_char p := h.nt
  obtain ⟨h1, h⟩ := h.alt
  obtain ⟨h2, h⟩ := h.alt
  obtain ⟨h3, h⟩ := h.alt
  obtain ⟨h4, h⟩ := h.alt
  obtain ⟨h5, h⟩ := h.alt
  obtain ⟨h6, h⟩ := h.alt
  obtain ⟨h7, h⟩ := h.alt
  obtain ⟨h8, h⟩ := h.alt
  obtain ⟨h9, h⟩ := h.alt
  obtain ⟨h10, h11⟩ := h.alt
  refine escape_cases (P := fun d => ¬ w[p + 1]? = some d) ?_ hv hd'
  intro x hx e
  simp only [escapeTable, List.mem_cons, List.not_mem_nil, or_false] at hx
  rcases hx with rfl | rfl | rfl | rfl | rfl | rfl | rfl | rfl | rfl | rfl | rfl
  · exact no_esc h1 ⟨hp, e⟩
  · exact no_esc h2 ⟨hp, e⟩
  · exact no_esc h3 ⟨hp, e⟩
  · exact no_esc h4 ⟨hp, e⟩
  · exact no_esc h5 ⟨hp, e⟩
  · exact no_esc h6 ⟨hp, e⟩
  · exact no_esc h7 ⟨hp, e⟩
  · exact no_esc h8 ⟨hp, e⟩
  · exact no_esc h9 ⟨hp, e⟩
  · exact no_esc h10 ⟨hp, e⟩
  · exact no_esc h11 ⟨hp, e⟩

theorem Unq.esc {m : Option UInt8} (h : Mt w (.nt .r_escaped_char none) p p' ts) : Unq env w m p p' ts := by
  obtain ⟨d, v, h1, h2, h3, rfl, rfl⟩ := escaped_char_inv h
  refine ⟨by omega, _, Quiet.char, fun j hj => ?_⟩
  rw [ext_cons h2 (by omega), ext_cons h3 (by omega), unquote_esc h1]; rfl

/-- The inside of a quoted string. -/
def quotedBody (q : UInt8) : E :=
  .star (.alt (.nt .r_escaped_char none) (.alt (.seq (.pred .blockStart)
    (.seq (.nt .r_EOL none) (.seq (.pred .blockEnd) (.act .sbAppendBlock)))) (.seq (.pred
    .blockStart) (.seq (.plus (.seq (.npeek (.alt (.chr q) (.alt (.nt .r_escaped_char none)
    (.nt .r_EOL none)))) .dot)) (.seq (.pred .blockEnd) (.act .sbAppendBlock))))))

theorem quotedBody_inv (hf : Reads env w) {q : UInt8} (hq : q = 39 ∨ q = 34)
    (h : Mt w (quotedBody q) p p' ts) : Unq env w (some q) p p' ts := by
  refine Unq.star (fun p p1 us h => ?_) h
  have hq1 : (10 : UInt8) ≠ q := by rcases hq with rfl | rfl <;> decide
  have hq2 : (13 : UInt8) ≠ q := by rcases hq with rfl | rfl <;> decide
  rcases h.alt with h | ⟨-, h⟩
  · exact Unq.esc h
  rcases h.alt with h | ⟨-, h⟩
  · obtain ⟨p1, us1, vs1, a1, b1, rfl⟩ := h.seq
    obtain ⟨p2, us2, vs2, a2, b2, rfl⟩ := b1.seq
    obtain ⟨p3, us3, vs3, a3, b3, rfl⟩ := b2.seq
    clear b1 b2
    obtain ⟨rfl, rfl⟩ := a1.pred
    obtain ⟨rfl, rfl⟩ := a3.pred
    obtain ⟨rfl, rfl⟩ := b3.act
    obtain ⟨rfl, e⟩ := a2.eol
    refine Unq.run hf (a2.le) fun k h1 h2 => ?_
    rcases e with ⟨e1, rfl⟩ | ⟨e1, e2, rfl⟩
    · have : k = p1 := by omega
      subst this
      exact ⟨10, e1, fun j _ => unquote_plain hq1 (fun h => absurd h (by decide))⟩
    · have : k = p1 ∨ k = p1 + 1 := by omega
      rcases this with rfl | rfl
      · exact ⟨13, e1, fun j _ => unquote_plain hq2 (fun h => absurd h (by decide))⟩
      · exact ⟨10, e2, fun j _ => unquote_plain hq1 (fun h => absurd h (by decide))⟩
  · obtain ⟨p1, us1, vs1, a1, b1, rfl⟩ := h.seq
    obtain ⟨p2, us2, vs2, a2, b2, rfl⟩ := b1.seq
    obtain ⟨p3, us3, vs3, a3, b3, rfl⟩ := b2.seq
    clear b1 b2
    obtain ⟨rfl, rfl⟩ := a1.pred
    obtain ⟨rfl, rfl⟩ := a3.pred
    obtain ⟨rfl, rfl⟩ := b3.act
    obtain ⟨rfl, e1, e2, -⟩ := plus_run (Q := fun k => ∃ c, w[k]? = some c ∧ c ≠ q ∧
      ∀ j, c = 92 → Lone (w.extract (k + 1) j)) (fun p p1 us hm => by
        obtain ⟨r, xs, ys, g1, g2, rfl⟩ := hm.seq
        obtain ⟨rfl, rfl, g3⟩ := g1.npeek
        obtain ⟨rfl, rfl, c, g4⟩ := g2.dot
        obtain ⟨f1, f2⟩ := g3.alt
        obtain ⟨f2, f3⟩ := f2.alt
        exact ⟨rfl, rfl, c, g4, fun e => f1.chr (e ▸ g4), fun j e => no_escaped_char f2 (e ▸ g4) j⟩) a2
    refine Unq.run hf a2.le fun k h1 h2 => ?_
    obtain ⟨c, f1, f2, f3⟩ := e2 k h1 h2
    exact ⟨c, f1, fun j _ => unquote_plain f2 (f3 j)⟩

theorem quoted_one {q : UInt8} {n : Nat} (hf : Reads env w) (hq : q = 39 ∨ q = 34)
    (h : Mt w (.seq (.chr q) (.seq (quotedBody q) (.onfail (.chr q) (.err n)))) p p' ts) :
    Unq env w none p p' ts := by
  obtain ⟨p1, us1, vs1, a1, b1, rfl⟩ := h.seq
  obtain ⟨p2, us2, vs2, a2, b2, rfl⟩ := b1.seq
  obtain ⟨rfl, rfl, e1⟩ := a1.chr
  obtain ⟨rfl, rfl, e2⟩ := b2.onfail.chr
  obtain ⟨l, out, g1, g2⟩ := quotedBody_inv hf hq a2
  refine ⟨by omega, out, by simpa using g1, fun j hj => ?_⟩
  rw [ext_cons e1 (by omega), unquote_open hq, g2 j (by omega), ext_cons e2 (by omega), unquote_close hq]

theorem quoted_inv (hf : Reads env w) (h : Mt w (.nt .r_quoted none) p p' ts) : Unq env w none p p' ts := by
  rcases (h.nt0 rfl : Mt w r_quoted p p' ts).alt with h | ⟨-, h⟩
  · exact quoted_one hf (.inl rfl) (h.nt0 rfl : Mt w r_single_quoted p p' ts)
  · exact quoted_one hf (.inr rfl) (h.nt0 rfl : Mt w r_double_quoted p p' ts)

theorem unquoted_inv (hf : Reads env w) (h : Mt w (.nt .r_unquoted none) p p' ts) : Unq env w none p p' ts := by
  refine Unq.plus (fun p p1 us h => ?_) (h.nt0 rfl : Mt w r_unquoted p p' ts)
  rcases h.alt with h | ⟨-, h⟩
  · exact Unq.esc h
  rcases h.alt with h | ⟨-, h⟩
  · obtain ⟨p1, us, vs, h1, h2, rfl⟩ := h.seq
    obtain ⟨rfl, rfl, h3⟩ := h1.str
    obtain ⟨rfl, rfl⟩ := h2.act
    obtain ⟨e1, e2⟩ := ext_two.1 h3
    refine ⟨by omega, _, Quiet.char, fun j hj => ?_⟩
    simp only [List.length_cons, List.length_nil, Nat.zero_add, Nat.reduceAdd] at hj ⊢
    rw [ext_cons e1 (by omega), ext_cons e2 (by omega), unquote_semi]; rfl
  · obtain ⟨p1, us1, vs1, a1, b1, rfl⟩ := h.seq
    obtain ⟨p2, us2, vs2, a2, b2, rfl⟩ := b1.seq
    obtain ⟨p3, us3, vs3, a3, b3, rfl⟩ := b2.seq
    clear b1 b2
    obtain ⟨rfl, rfl⟩ := a1.pred
    obtain ⟨rfl, rfl⟩ := a3.pred
    obtain ⟨rfl, rfl⟩ := b3.act
    obtain ⟨rfl, e1, e2, -⟩ := plus_run (Q := At w fun c => c ≠ 39 ∧ c ≠ 34 ∧ c ≠ 92)
      (fun p p1 us hm => by
        obtain ⟨r, xs, ys, g1, g2, rfl⟩ := hm.seq
        obtain ⟨rfl, rfl, g3⟩ := g1.npeek
        obtain ⟨rfl, rfl, c, g4⟩ := g2.dot
        obtain ⟨f1, f⟩ := g3.alt
        obtain ⟨-, f⟩ := f.alt
        obtain ⟨-, f⟩ := f.alt
        obtain ⟨-, f⟩ := f.alt
        obtain ⟨f2, -⟩ := f.alt
        have f1 := f1.one c g4
        rw [quote_mem] at f1
        have f1 : ¬ (c = 34 ∨ c = 39) := by simpa using f1
        exact ⟨rfl, rfl, c, g4, fun e => f1 (.inr e), fun e => f1 (.inl e), fun e => f2.chr (e ▸ g4)⟩) a2
    refine Unq.run hf a2.le fun k h1 h2 => ?_
    obtain ⟨c, f1, f2, f3, f4⟩ := e2 k h1 h2
    exact ⟨c, f1, fun j _ => unquote_bare f2 f3 f4⟩

theorem Unq.leaf {m : Option UInt8} (h : Unq env w m p p' ts) :
    ∃ out, Quiet env (LeafAt env w) ts out ∧ out = unquote m (w.extract p p') := by
  obtain ⟨l, out, h1, h2⟩ := h
  refine ⟨out, h1, ?_⟩
  rw [h2 p' (Nat.le_refl _), ext_nil (Nat.le_refl p')]
  cases m <;> simp [unquote]


/-! ## The rules that make leaves from the string buffer -/

/-- `X` puts into the string buffer what a leaf of kind `c` should have. -/
def Fills (env : Env) (w : List UInt8) (c : Ctor) (X : E) : Prop :=
  ∀ p p' ts, Mt w X p p' ts → ∃ out, Quiet env (LeafAt env w) ts out ∧ Leaf c (w.extract p p') out

theorem outside_inv (hf : Reads env w) {X : E} {c : Ctor} {d : Dst} {n : Pred} (hk : c.terminal = some .strbuf)
    (hX : Fills env w c X)
    (h : Mt w (.seq (.act .sbReset) (.onfail (.seq (.pred .blockStart) (.seq X (.seq (.pred .blockEnd)
      (.seq (.act (.build d c [])) (.nt .r_ws none))))) n)) p p' ts) : Calm env (LeafAt env w) ts := by
  obtain ⟨p1, us1, vs1, a1, b1, rfl⟩ := h.seq
  obtain ⟨p2, us2, vs2, a2, b2, rfl⟩ := b1.onfail.seq
  obtain ⟨p3, us3, vs3, a3, b3, rfl⟩ := b2.seq
  obtain ⟨p4, us4, vs4, a4, b4, rfl⟩ := b3.seq
  obtain ⟨p5, us5, vs5, a5, b5, rfl⟩ := b4.seq
  clear b1 b2 b3 b4
  obtain ⟨rfl, rfl⟩ := a1.act
  obtain ⟨rfl, rfl⟩ := a2.pred
  obtain ⟨rfl, rfl⟩ := a4.pred
  obtain ⟨rfl, rfl⟩ := a5.act
  obtain ⟨out, g1, g2⟩ := hX _ _ _ a3
  have h1 := Calm.name (env := env) (w := w) g1 (a := .blockEnd) (.inl rfl) (d := d) hk g2 (r := p5) (s := p2)
  have h2 := (ws_inv hf b5).1.calm
  simpa [recT] using h1.append h2

theorem inside_inv (hf : Reads env w) {X : E} {c : Ctor} {d : Dst} (hk : c.terminal = some .strbuf)
    (hX : Fills env w c X)
    (h : Mt w (.seq (.pred .blockStart) (.seq (.act .sbReset) (.seq X (.seq (.pred .blockEnd)
      (.seq (.act (.build d c [])) (.nt .r_ws none)))))) p p' ts) : Calm env (LeafAt env w) ts := by
  obtain ⟨p1, us1, vs1, a1, b1, rfl⟩ := h.seq
  obtain ⟨p2, us2, vs2, a2, b2, rfl⟩ := b1.seq
  obtain ⟨p3, us3, vs3, a3, b3, rfl⟩ := b2.seq
  obtain ⟨p4, us4, vs4, a4, b4, rfl⟩ := b3.seq
  obtain ⟨p5, us5, vs5, a5, b5, rfl⟩ := b4.seq
  clear b1 b2 b3 b4
  obtain ⟨rfl, rfl⟩ := a1.pred
  obtain ⟨rfl, rfl⟩ := a2.act
  obtain ⟨rfl, rfl⟩ := a4.pred
  obtain ⟨rfl, rfl⟩ := a5.act
  obtain ⟨out, g1, g2⟩ := hX _ _ _ a3
  have h1 := Calm.name' (env := env) (w := w) g1 (a := .blockEnd) (.inl rfl) (d := d) hk g2 (r := p5) (s := p2)
  have h2 := (ws_inv hf b5).1.calm
  simpa [recT] using h1.append h2

theorem merged_inv (hf : Reads env w) {X : E} {c : Ctor} {d : Dst} (hk : c.terminal = some .strbuf)
    (hX : Fills env w c X)
    (h : Mt w (.seq (.nt .r__block_start_ none) (.seq (.act .sbReset) (.seq X (.seq
      (.nt .r__block_merge_ none) (.seq (.act (.build d c [])) (.nt .r_ws none)))))) p p' ts) :
    Calm env (LeafAt env w) ts := by
  obtain ⟨p1, us1, vs1, a1, b1, rfl⟩ := h.seq
  obtain ⟨p2, us2, vs2, a2, b2, rfl⟩ := b1.seq
  obtain ⟨p3, us3, vs3, a3, b3, rfl⟩ := b2.seq
  obtain ⟨p4, us4, vs4, a4, b4, rfl⟩ := b3.seq
  obtain ⟨p5, us5, vs5, a5, b5, rfl⟩ := b4.seq
  clear b1 b2 b3 b4
  obtain ⟨rfl, rfl⟩ := a1.bstart
  obtain ⟨rfl, rfl⟩ := a2.act
  obtain ⟨rfl, rfl⟩ := a4.bmerge
  obtain ⟨rfl, rfl⟩ := a5.act
  obtain ⟨out, g1, g2⟩ := hX _ _ _ a3
  have h1 := Calm.name' (env := env) (w := w) g1 (a := .blockMerge) (.inr rfl) (d := d) hk g2 (r := p5) (s := p2)
  have h2 := (ws_inv hf b5).1.calm
  simpa using h1.append h2

theorem name_fills (hf : Reads env w) {c : Ctor} (hc : ∀ s t, Name s t → Leaf c s t) :
    Fills env w c (.nt .r_symbolic_name none) := by
  intro p p' ts h
  obtain ⟨t, h1, h2⟩ := symbolic_name_inv hf h
  exact ⟨t, h1, hc _ _ h2⟩

theorem onfail_fills {c : Ctor} {X : E} {n : Pred} (h : Fills env w c X) : Fills env w c (.onfail X n) :=
  fun p p' ts hm => h p p' ts hm.onfail

theorem colon_fills (hf : Reads env w) {c : Ctor} {n : Pred} (hc : ∀ s t, Colon s t → Leaf c s t) :
    Fills env w c (.onfail (.seq (.chr 58) (.seq (.nt .r_ws none) (.nt .r_symbolic_name none))) n) := by
  intro p p' ts h
  obtain ⟨p1, us1, vs1, a1, b1, rfl⟩ := h.onfail.seq
  obtain ⟨p2, us2, vs2, a2, b2, rfl⟩ := b1.seq
  obtain ⟨rfl, rfl, e1⟩ := a1.chr
  obtain ⟨w1, w2⟩ := ws_inv hf a2
  obtain ⟨t, n1, n2⟩ := symbolic_name_inv hf b2
  refine ⟨t, by simpa using w1.append n1, hc _ _ ?_⟩
  have := a2.le
  have := b2.le
  rw [ext_cons e1 (by omega), ext_app a2.le b2.le]
  exact .mk w2 n2

theorem parameter_fills (hf : Reads env w) {n n' : Pred} :
    Fills env w .strbufParameter (.alt (.onfail (.seq (.chr 36)
    (.seq (.nt .r_ws none) (.nt .r_parameter_name none))) n) (.seq (.onfail (.seq (.chr
    123) (.seq (.nt .r_ws none) (.nt .r_parameter_name none))) n') (.seq (.nt .r_ws none)
    (.nt .r_RIGHT_CURLY none)))) := by
  intro p p' ts h
  rcases h.alt with h | ⟨-, h⟩
  · obtain ⟨p1, us1, vs1, a1, b1, rfl⟩ := h.onfail.seq
    obtain ⟨p2, us2, vs2, a2, b2, rfl⟩ := b1.seq
    obtain ⟨rfl, rfl, e1⟩ := a1.chr
    obtain ⟨w1, w2⟩ := ws_inv hf a2
    obtain ⟨t, n1, n2⟩ := parameter_name_inv hf b2
    refine ⟨t, by simpa using w1.append n1, ?_⟩
    have := a2.le
    have := b2.le
    rw [ext_cons e1 (by omega), ext_app a2.le b2.le]
    exact .dollar w2 n2
  · obtain ⟨q1, ys1, zs1, c1, d1, rfl⟩ := h.seq
    obtain ⟨q2, ys2, zs2, c2, d2, rfl⟩ := d1.seq
    obtain ⟨p1, us1, vs1, a1, b1, rfl⟩ := c1.onfail.seq
    obtain ⟨p2, us2, vs2, a2, b2, rfl⟩ := b1.seq
    obtain ⟨rfl, rfl, e1⟩ := a1.chr
    obtain ⟨w1, w2⟩ := ws_inv hf a2
    obtain ⟨t, n1, n2⟩ := parameter_name_inv hf b2
    obtain ⟨w3, w4⟩ := ws_inv hf c2
    obtain ⟨rfl, rfl, e2⟩ := (d2.nt0 rfl : Mt w r_RIGHT_CURLY _ _ _).onfail.chr
    refine ⟨t, by simpa using (w1.append n1).append w3, ?_⟩
    have := a2.le
    have := b2.le
    have := c2.le
    rw [ext_cons e1 (by omega), ext_app a2.le (by omega), ext_app b2.le (by omega), ext_app c2.le (by omega),
      ext_cons e2 (by omega), ext_nil (Nat.le_refl _)]
    exact .braces w2 n2 w4

theorem dotted_fills (hf : Reads env w) {c : Ctor} {n : Pred} (hc : ∀ s t, Dotted s t → Leaf c s t) :
    Fills env w c (.onfail (.seq (.star (.seq (.nt
    .r_symbolic_name none) (.seq (.nt .r_ws none) (.seq (.nt .r_DOT none) (.seq (.nt .r_ws none)
    (.act (.sbAppend 46))))))) (.nt .r_symbolic_name none)) n) := by
  intro p p' ts h
  obtain ⟨p1, us1, vs1, a1, b1, rfl⟩ := h.onfail.seq
  have key : p ≤ p1 ∧ ∃ out, Quiet env (LeafAt env w) us1 out ∧
      ∀ j t, p1 ≤ j → Dotted (w.extract p1 j) t → Dotted (w.extract p j) (out ++ t) := by
    refine Mt.star (P := fun p p1 us1 => p ≤ p1 ∧ ∃ out, Quiet env (LeafAt env w) us1 out ∧
      ∀ j t, p1 ≤ j → Dotted (w.extract p1 j) t → Dotted (w.extract p j) (out ++ t)) ?_ ?_ a1
    · rintro p p1 p2 us vs hm ⟨l, out, g1, g2⟩
      obtain ⟨q1, ys1, zs1, c1, d1, rfl⟩ := hm.seq
      obtain ⟨q2, ys2, zs2, c2, d2, rfl⟩ := d1.seq
      obtain ⟨q3, ys3, zs3, c3, d3, rfl⟩ := d2.seq
      obtain ⟨q4, ys4, zs4, c4, d4, rfl⟩ := d3.seq
      clear d1 d2 d3
      obtain ⟨t1, n1, n2⟩ := symbolic_name_inv hf c1
      obtain ⟨w1, w2⟩ := ws_inv hf c2
      obtain ⟨rfl, rfl, e1⟩ := (c3.nt0 rfl : Mt w r_DOT _ _ _).onfail.chr
      obtain ⟨w3, w4⟩ := ws_inv hf c4
      obtain ⟨rfl, rfl⟩ := d4.act
      have := c1.le
      have := c2.le
      have := c4.le
      refine ⟨by omega, _, ((((n1.append w1).append w3).append Quiet.char).append g1 |> fun x => by simpa using x),
        fun j t hj ht => ?_⟩
      have := g2 j t hj ht
      rw [ext_app c1.le (by omega), ext_app c2.le (by omega), ext_cons e1 (by omega), ext_app c4.le (by omega)]
      simpa using Dotted.dot n2 w2 w4 this
    · intro p _
      exact ⟨Nat.le_refl _, [], .nil, fun j t _ h => h⟩
  obtain ⟨l, out, g1, g2⟩ := key
  obtain ⟨t, n1, n2⟩ := symbolic_name_inv hf b1
  exact ⟨_, g1.append n1, hc _ _ (g2 p' t b1.le (.one n2))⟩

/-- The rules that make leaves from the string buffer. -/
def namers : List Rule :=
  [.r_identifier, .r_string_literal, .r_float_literal, .r_integer_literal, .r_parameter, .r_label,
    .r_rel_type, .r_rel_type_name, .r_prop_name, .r_function_name, .r_index_name, .r_proc_name,
    .r_client_arg_string]

theorem client_arg_string_inv (hf : Reads env w) (h : Mt w (.nt .r_client_arg_string none) p p' ts) :
    Calm env (LeafAt env w) ts := by
  obtain ⟨p1, us1, vs1, a1, b1, rfl⟩ := (h.nt0 rfl : Mt w r_client_arg_string p p' ts).seq
  obtain ⟨p2, us2, vs2, a2, b2, rfl⟩ := b1.seq
  obtain ⟨p3, us3, vs3, a3, b3, rfl⟩ := b2.seq
  obtain ⟨p4, us4, vs4, a4, b4, rfl⟩ := b3.seq
  clear b1 b2 b3
  obtain ⟨rfl, rfl⟩ := a1.act
  obtain ⟨rfl, rfl⟩ := a2.pred
  obtain ⟨rfl, rfl⟩ := a4.pred
  obtain ⟨rfl, rfl⟩ := b4.act
  obtain ⟨out, g1, g2⟩ := (Unq.plus (env := env) (m := none) (fun p p1 us h => by
    rcases h.alt with h | ⟨-, h⟩
    · exact unquoted_inv hf h
    · exact quoted_inv hf h) a3).leaf
  simpa [recT] using Calm.name (env := env) (w := w) g1 (a := .blockEnd) (.inl rfl) (d := .self)
    (c := .strbufString) rfl (show Leaf .strbufString _ _ from g2) (r := p') (s := p2)

theorem namers_calm (hf : Reads env w) {r : Rule} (hr : r ∈ namers) (h : Mt w (.nt r none) p p' ts) :
    Calm env (LeafAt env w) ts := by
  simp only [namers, List.mem_cons, List.not_mem_nil, or_false] at hr
  rcases hr with rfl | rfl | rfl | rfl | rfl | rfl | rfl | rfl | rfl | rfl | rfl | rfl | rfl
  · exact outside_inv hf (c := .strbufIdentifier) rfl (name_fills hf fun _ _ h => h) (h.nt0 rfl : Mt w r_identifier p p' ts)
  · refine outside_inv hf rfl (fun _ _ _ hm => ?_) (h.nt0 rfl : Mt w r_string_literal p p' ts)
    exact (quoted_inv hf hm).leaf
  · refine outside_inv hf rfl (fun _ _ _ hm => ?_) (h.nt0 rfl : Mt w r_float_literal p p' ts)
    obtain ⟨g1, g2⟩ := float_string_inv hf hm
    exact ⟨_, g1, rfl, g2⟩
  · refine outside_inv hf rfl (fun _ _ _ hm => ?_) (h.nt0 rfl : Mt w r_integer_literal p p' ts)
    obtain ⟨g1, g2⟩ := integer_string_inv hf hm
    exact ⟨_, g1, rfl, g2⟩
  · exact merged_inv hf rfl (parameter_fills hf) (h.nt0 rfl : Mt w r_parameter p p' ts)
  · exact merged_inv hf (c := .strbufLabel) rfl (colon_fills hf fun _ _ h => h) (h.nt0 rfl : Mt w r_label p p' ts)
  · exact merged_inv hf (c := .strbufReltype) rfl (colon_fills hf fun _ _ h => .inr h) (h.nt0 rfl : Mt w r_rel_type p p' ts)
  · exact inside_inv hf (c := .strbufReltype) rfl (onfail_fills (name_fills hf fun _ _ h => .inl h))
      (h.nt0 rfl : Mt w r_rel_type_name p p' ts)
  · exact inside_inv hf (c := .strbufPropName) rfl (onfail_fills (name_fills hf fun _ _ h => h))
      (h.nt0 rfl : Mt w r_prop_name p p' ts)
  · exact inside_inv hf (c := .strbufFunctionName) rfl (dotted_fills hf fun _ _ h => h) (h.nt0 rfl : Mt w r_function_name p p' ts)
  · exact inside_inv hf (c := .strbufIndexName) rfl (onfail_fills (name_fills hf fun _ _ h => h))
      (h.nt0 rfl : Mt w r_index_name p p' ts)
  · exact inside_inv hf (c := .strbufProcName) rfl (dotted_fills hf fun _ _ h => h) (h.nt0 rfl : Mt w r_proc_name p p' ts)
  · exact client_arg_string_inv hf h

end
end Verif.Cypher
