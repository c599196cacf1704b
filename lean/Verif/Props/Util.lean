import Verif.Data.Util
/-!
# C13 (`snprintf_realloc`) and C08 (`line_context`)
-/
namespace Verif

/-! ## C13 -/

theorem takeWhile_append_nul (t r : List UInt8) (h : (0 : UInt8) ∉ t) :
    (t ++ 0 :: r).takeWhile (· != 0) = t := by
  induction t with
  | nil => simp
  | cons a t ih =>
    simp only [List.mem_cons, not_or] at h
    have : (a != 0) = true := by simp; exact fun e => h.1 e.symm
    simp [this, ih h.2]

theorem cString_vsnprintf (buf t : List UInt8) (cap : Nat) (h0 : (0 : UInt8) ∉ t) (hc : 0 < cap) :
    cString (vsnprintf buf cap t) = .ok (t.take (cap - 1)) := by
  have hnz : (0 : UInt8) ∉ t.take (cap - 1) := fun h => h0 (List.mem_of_mem_take h)
  unfold vsnprintf
  rw [if_neg (by omega)]
  simp only [cString]
  rw [if_pos (by simp)]
  rw [List.append_assoc, List.singleton_append]
  rw [takeWhile_append_nul _ _ hnz]

/-- **C13 (partial).** For any previous buffer contents and any text without NUL bytes whose length
differs from the current capacity, the buffer afterwards holds the complete text, and the returned
width is its length.  *Missing:* the case `t.length = cap`, which is false, see
`snprintf_realloc_truncates`. -/
theorem snprintf_realloc_complete_partial (junk buf t : List UInt8) (cap : Nat)
    (h0 : (0 : UInt8) ∉ t) (hne : t.length ≠ cap) :
    cString (snprintfRealloc junk buf cap t).1 = .ok t ∧
    (snprintfRealloc junk buf cap t).2.2 = t.length ∧
    t.length < (snprintfRealloc junk buf cap t).2.1 := by
  unfold snprintfRealloc
  by_cases h : t.length > cap
  · simp only [h, if_true]
    refine ⟨?_, trivial, by omega⟩
    rw [cString_vsnprintf _ _ _ h0 (by omega)]
    simp
  · simp only [h, if_false, true_and]
    refine ⟨?_, by omega⟩
    rw [cString_vsnprintf _ _ _ h0 (by omega), List.take_of_length_le (by omega)]

example : cString (snprintfRealloc [9, 9, 9, 9, 9] [7, 7] 2 [65, 66, 67]).1 = .ok [65, 66, 67] :=
  (snprintf_realloc_complete_partial [9, 9, 9, 9, 9] [7, 7] [65, 66, 67] 2
    (by decide) (by decide)).1

/-- **C13 (negation).** Whenever the text is exactly as long as a non-empty buffer, its last byte
is lost although success is reported: for every such text. -/
theorem snprintf_realloc_truncates (junk buf t : List UInt8) (h0 : (0 : UInt8) ∉ t)
    (hpos : t ≠ []) :
    cString (snprintfRealloc junk buf t.length t).1 = .ok t.dropLast ∧ t.dropLast ≠ t := by
  have hl : 0 < t.length := List.length_pos_iff.2 hpos
  unfold snprintfRealloc
  simp only [gt_iff_lt, Nat.lt_irrefl, if_false]
  rw [cString_vsnprintf _ _ _ h0 hl, List.dropLast_eq_take]
  refine ⟨rfl, ?_⟩
  intro e
  have := congrArg List.length e
  simp at this; omega

example : cString (snprintfRealloc [] [0, 0, 0] 3 [65, 66, 67]).1 = .ok [65, 66] :=
  (snprintf_realloc_truncates [] [0, 0, 0] [65, 66, 67] (by decide) (by decide)).1

/-! ## C08 -/

/-- Specification: `S` is the start of the line containing index `e`. -/
def IsLineStart (b : List UInt8) (e S : Nat) : Prop :=
  S ≤ e ∧ (S = 0 ∨ ∃ c, b[S - 1]? = some c ∧ isEol c = true) ∧
  ∀ i, S ≤ i → i < e → ∀ c, b[i]? = some c → isEol c = false

/-- Specification: `E` is the (exclusive) end of the line containing index `e`. -/
def IsLineEnd (b : List UInt8) (e E : Nat) : Prop :=
  e ≤ E ∧ E ≤ b.length ∧ (E = b.length ∨ ∃ c, b[E]? = some c ∧ isEol c = true) ∧
  ∀ i, e ≤ i → i < E → ∀ c, b[i]? = some c → isEol c = false

/-- Specification of the marked index: the last index at or before the offset that holds neither a
line end nor a NUL (or 0 when there is none). -/
def IsMark (b : List UInt8) (offset e : Nat) : Prop :=
  e ≤ offset ∧ e < b.length ∧
  (e = 0 ∨ ∃ c, b[e]? = some c ∧ isEol c = false ∧ c ≠ 0) ∧
  ∀ i, e < i → i ≤ offset → ∀ c, b[i]? = some c → (isEol c = true ∨ c = 0)

theorem getD_of_lt (b : List UInt8) (i : Nat) (h : i < b.length) :
    b[i]? = some (b.getD i 0) := by
  simp [List.getD, h]

theorem lcBackUp_spec (b : List UInt8) (e : Nat) (he : e < b.length) :
    IsMark b e (lcBackUp b e) := by
  induction e with
  | zero =>
    exact ⟨Nat.le_refl _, he, .inl rfl, fun i h1 h2 => absurd h1 (by simp [lcBackUp]; omega)⟩
  | succ e ih =>
    unfold lcBackUp
    have hg := getD_of_lt b (e + 1) he
    split
    · rename_i h
      obtain ⟨h1, h2, h3, h4⟩ := ih (by omega)
      refine ⟨by omega, h2, h3, fun i hi hle c hc => ?_⟩
      by_cases hi' : i = e + 1
      · subst hi'
        rw [hg] at hc
        simp only [Option.some.injEq] at hc
        subst hc
        simpa using h
      · exact h4 i hi (by omega) c hc
    · rename_i h
      refine ⟨Nat.le_refl _, he, .inr ⟨_, hg, ?_⟩, fun i h1 h2 => by omega⟩
      simpa using h

/-- Invariant of the search loop. -/
structure LcInv (b : List UInt8) (e max : Nat) (s : LcState) : Prop where
  hs : s.startp ≤ e
  he : e ≤ s.endp
  hl : s.endp ≤ b.length
  hn : s.endp - s.startp = s.n
  hmax : s.n ≤ max
  clrS : ∀ i, s.startp ≤ i → i < e → ∀ c, b[i]? = some c → isEol c = false
  clrE : ∀ i, e ≤ i → i < s.endp → ∀ c, b[i]? = some c → isEol c = false
  fS : s.foundStart = true → s.startp = 0 ∨ ∃ c, b[s.startp - 1]? = some c ∧ isEol c = true
  fE : s.foundEnd = true → s.endp = b.length ∨ ∃ c, b[s.endp]? = some c ∧ isEol c = true

def lcMeasure (b : List UInt8) (s : LcState) : Nat :=
  s.startp + (b.length - s.endp) + (if s.foundStart then 0 else 1) + (if s.foundEnd then 0 else 1)

theorem lcStart_inv {b : List UInt8} {e max : Nat} {s : LcState} (h : LcInv b e max s)
    (hlt : s.foundStart = false → s.n < max) (heb : e < b.length) :
    LcInv b e max (lcStart b max s).1 ∧
    ((lcStart b max s).2 = true → (lcStart b max s).1.n = max) ∧
    ((lcStart b max s).2 = false → (lcStart b max s).1.n < max ∨ s.foundStart = true) ∧
    (lcStart b max s).1.foundEnd = s.foundEnd ∧ (lcStart b max s).1.endp = s.endp ∧
    (s.foundStart = true → (lcStart b max s).1 = s) ∧
    (lcStart b max s).1.n ≤ s.n + 1 ∧
    lcMeasure b (lcStart b max s).1 + (if s.foundStart then 0 else 1) ≤ lcMeasure b s := by
  unfold lcStart
  by_cases hf : s.foundStart = true
  · simp [hf, h]
  · simp only [hf, Bool.false_eq_true, if_false]
    have hlt' := hlt (by simpa using hf)
    have := h.hs; have := h.he; have := h.hl; have := h.hn
    by_cases hc : (s.startp = 0 || isEol (b.getD (s.startp - 1) 0)) = true
    · simp only [hc, if_true]
      refine ⟨⟨h.hs, h.he, h.hl, h.hn, h.hmax, h.clrS, h.clrE, ?_, h.fE⟩, by simp, by simp; omega,
        trivial, trivial, by simp, by simp, ?_⟩
      · intro _
        simp only [Bool.or_eq_true, decide_eq_true_eq] at hc
        rcases hc with hc | hc
        · exact .inl hc
        · by_cases h0 : s.startp = 0
          · exact .inl h0
          · exact .inr ⟨_, getD_of_lt b _ (by simp only []; omega), hc⟩
      · simp [lcMeasure, hf]; omega
    · simp only [hc, Bool.false_eq_true, if_false]
      simp only [Bool.or_eq_true, decide_eq_true_eq, not_or] at hc
      refine ⟨⟨?_, ?_, ?_, ?_, ?_, ?_, ?_, ?_, ?_⟩, by simp, ?_, trivial, trivial, by simp, by simp, ?_⟩
      · simp; omega
      · exact h.he
      · exact h.hl
      · simp; omega
      · simp; omega
      · intro i h1 h2 c hci
        simp at h1
        by_cases hi : i = s.startp - 1
        · subst hi
          rw [getD_of_lt b _ (by omega)] at hci
          simp only [Option.some.injEq] at hci
          subst hci
          simpa using hc.2
        · exact h.clrS i (by omega) h2 c hci
      · exact h.clrE
      · intro hx; simp at hx
      · exact h.fE
      · simp; omega
      · simp [lcMeasure, hf]; omega

theorem lcEnd_inv {b : List UInt8} {e max : Nat} {s : LcState} (h : LcInv b e max s)
    (hlt : s.foundEnd = false → s.n < max) :
    LcInv b e max (lcEnd b max s).1 ∧
    ((lcEnd b max s).2 = true → (lcEnd b max s).1.n = max) ∧
    ((lcEnd b max s).2 = false → (lcEnd b max s).1.n < max ∨ s.foundEnd = true) ∧
    (lcEnd b max s).1.foundStart = s.foundStart ∧
    (s.foundEnd = true → (lcEnd b max s).1 = s) ∧
    lcMeasure b (lcEnd b max s).1 + (if s.foundEnd then 0 else 1) ≤ lcMeasure b s := by
  unfold lcEnd
  by_cases hf : s.foundEnd = true
  · simp [hf, h]
  · simp only [hf, Bool.false_eq_true, if_false]
    have hlt' := hlt (by simpa using hf)
    have := h.hs; have := h.he; have := h.hl; have := h.hn
    by_cases hc : (s.endp = b.length || isEol (b.getD s.endp 0)) = true
    · simp only [hc, if_true]
      refine ⟨⟨h.hs, h.he, h.hl, h.hn, h.hmax, h.clrS, h.clrE, h.fS, ?_⟩, by simp, by simp; omega,
        trivial, by simp, ?_⟩
      · intro _
        simp only [Bool.or_eq_true, decide_eq_true_eq] at hc
        rcases hc with hc | hc
        · exact .inl hc
        · by_cases h0 : s.endp = b.length
          · exact .inl h0
          · exact .inr ⟨_, getD_of_lt b _ (by simp only []; omega), hc⟩
      · simp [lcMeasure, hf]
    · simp only [hc, Bool.false_eq_true, if_false]
      simp only [Bool.or_eq_true, decide_eq_true_eq, not_or] at hc
      refine ⟨⟨?_, ?_, ?_, ?_, ?_, ?_, ?_, ?_, ?_⟩, by simp, ?_, trivial, by simp, ?_⟩
      · exact h.hs
      · simp; omega
      · simp; omega
      · simp; omega
      · simp; omega
      · exact h.clrS
      · intro i h1 h2 c hci
        simp at h2
        by_cases hi : i = s.endp
        · subst hi
          rw [getD_of_lt b _ (by omega)] at hci
          simp only [Option.some.injEq] at hci
          subst hci
          simpa using hc.2
        · exact h.clrE i h1 (by omega) c hci
      · exact h.fS
      · intro hx; simp at hx
      · simp; omega
      · simp [lcMeasure, hf]; omega

theorem lcLoop_spec {b : List UInt8} {e max : Nat} (heb : e < b.length) :
    ∀ (fuel : Nat) (s : LcState), LcInv b e max s → lcMeasure b s < fuel →
    (s.n < max ∨ (s.foundStart = true ∧ s.foundEnd = true)) →
    ∃ s', lcLoop b max fuel s = some s' ∧ LcInv b e max s' ∧ s.endp ≤ s'.endp ∧
      ((s'.foundStart = true ∧ s'.foundEnd = true) ∨ s'.n = max) := by
  intro fuel
  induction fuel with
  | zero => intro s _ h; omega
  | succ fuel ih =>
    intro s hinv hm hlt
    unfold lcLoop
    by_cases hdone : (s.foundStart && s.foundEnd) = true
    · rw [if_pos hdone]
      refine ⟨s, rfl, hinv, Nat.le_refl _, .inl (by simpa using hdone)⟩
    · rw [if_neg hdone]
      have hlt : s.n < max := by
        rcases hlt with h | ⟨h1, h2⟩
        · exact h
        · simp [h1, h2] at hdone
      obtain ⟨a1, a2, a3, a4, a5, a6, a7, a8⟩ := lcStart_inv hinv (fun _ => hlt) heb
      rcases hst : lcStart b max s with ⟨s1, brk1⟩
      simp only [hst] at a1 a2 a3 a4 a5 a6 a7 a8
      simp only []
      cases brk1 with
      | true => exact ⟨s1, by simp, a1, by omega, .inr (a2 rfl)⟩
      | false =>
        simp only [Bool.false_eq_true, if_false]
        have hlt1 : s1.n < max := by
          rcases a3 rfl with h | h
          · exact h
          · rw [a6 h]; exact hlt
        obtain ⟨b1, b2, b3, b4, b5, b6⟩ := lcEnd_inv a1 (fun _ => hlt1)
        rcases hen : lcEnd b max s1 with ⟨s2, brk2⟩
        simp only [hen] at b1 b2 b3 b4 b5 b6
        simp only []
        have hle : s1.endp ≤ s2.endp := by
          have : s2 = (lcEnd b max s1).1 := by rw [hen]
          rw [this]; unfold lcEnd
          split
          · exact Nat.le_refl _
          · split <;> simp
        cases brk2 with
        | true => exact ⟨s2, by simp, b1, by omega, .inr (b2 rfl)⟩
        | false =>
          simp only [Bool.false_eq_true, if_false]
          have hlt2 : s2.n < max := by
            rcases b3 rfl with h | h
            · exact h
            · rw [b5 h]; exact hlt1
          have hmm : lcMeasure b s2 < fuel := by
            have hd : ¬ (s.foundStart = true ∧ s1.foundEnd = true) := by
              rw [a4]; simpa using hdone
            by_cases c1 : s.foundStart = true
            · have c2 : ¬ s1.foundEnd = true := fun h => hd ⟨c1, h⟩
              simp only [c1, c2, if_true] at a8 b6
              simp at b6; omega
            · simp only [c1] at a8
              simp at a8
              have : lcMeasure b s2 ≤ lcMeasure b s1 := by omega
              omega
          obtain ⟨s', h1, h2, h3, h4⟩ := ih s2 b1 hmm (.inl hlt2)
          exact ⟨s', h1, h2, by omega, h4⟩

/-- The text shown for the window `[s,t)` of `b`, with dots over the cut ends. -/
def shownWindow (b : List UInt8) (s t : Nat) (cutL cutR : Bool) : List UInt8 :=
  let w := (b.drop s).take (t - s)
  let w := if cutL then [46, 46, 46] ++ w.drop 3 else w
  if cutR then w.take (t - s - 3) ++ [46, 46, 46] else w

/-- **C08.** For every non-empty buffer, every offset in it and every limit of at least 7,
`line_context` succeeds without fault.  Its result is a window of at most `max` bytes of the line
containing the marked index; wherever the window is shorter than the line, the cut end is shown as
dots; the returned offset is relative to the window.  If the window is not the whole line, or has
dots, then the line has at least `max` bytes. -/
theorem line_context_spec (b : List UInt8) (offset max : Nat) (hmax : 7 ≤ max) (hb : b ≠ [])
    (ho : offset ≤ b.length) :
    ∃ ctx e S E s t cutL cutR, lineContext b offset max = .ok (some (ctx, offset - s)) ∧
      IsMark b (min offset (b.length - 1)) e ∧ IsLineStart b e S ∧ IsLineEnd b e E ∧
      S ≤ s ∧ s ≤ e ∧ e ≤ t ∧ t ≤ E ∧ t - s ≤ max ∧
      ctx = shownWindow b s t cutL cutR ∧
      (s ≠ S → cutL = true) ∧ (t ≠ E → cutR = true) ∧
      ((cutL = true ∨ cutR = true) → max ≤ E - S) := by
  have hpos : 0 < b.length := List.length_pos_iff.2 hb
  have hoff : (if offset ≥ b.length then b.length - 1 else offset) = min offset (b.length - 1) := by
    split <;> omega
  have hmark := lcBackUp_spec b (min offset (b.length - 1)) (by omega)
  generalize he : lcBackUp b (min offset (b.length - 1)) = e at hmark
  have heb : e < b.length := hmark.2.1
  have hinit : LcInv b e max ⟨e, e, 0, false, false⟩ :=
    ⟨Nat.le_refl _, Nat.le_refl _, by simp; omega, by simp, by simp,
     fun i h1 h2 => by simp at h1; omega, fun i h1 h2 => by simp at h2; omega, by simp, by simp⟩
  obtain ⟨st, h1, h2, h3, h4⟩ := lcLoop_spec heb (b.length + 3) ⟨e, e, 0, false, false⟩ hinit
    (by simp [lcMeasure]; omega) (.inl (by simp; omega))
  -- the true line bounds
  have exS : ∃ S, IsLineStart b e S := by
    clear h1 h2 h3 h4 hinit hmark he
    induction e with
    | zero => exact ⟨0, Nat.le_refl _, .inl rfl, fun i h1 h2 => by omega⟩
    | succ e ih =>
      by_cases hc : isEol (b.getD e 0) = true
      · exact ⟨e + 1, Nat.le_refl _, .inr ⟨_, getD_of_lt b e (by omega), hc⟩,
          fun i h1 h2 => by omega⟩
      · obtain ⟨S, g1, g2, g3⟩ := ih (by omega)
        refine ⟨S, by omega, g2, fun i i1 i2 c hci => ?_⟩
        by_cases hi : i = e
        · subst hi
          rw [getD_of_lt b _ (by omega)] at hci
          simp only [Option.some.injEq] at hci
          subst hci; simpa using hc
        · exact g3 i i1 (by omega) c hci
  have exE : ∃ E, IsLineEnd b e E := by
    have : ∀ k x, x + k = b.length → (∃ E, IsLineEnd b x E) := by
      intro k
      induction k with
      | zero => intro x hx; exact ⟨x, Nat.le_refl _, by omega, .inl (by omega), fun i h1 h2 => by omega⟩
      | succ k ih =>
        intro x hx
        by_cases hc : isEol (b.getD x 0) = true
        · exact ⟨x, Nat.le_refl _, by omega, .inr ⟨_, getD_of_lt b x (by omega), hc⟩,
            fun i h1 h2 => by omega⟩
        · obtain ⟨E, g1, g2, g3, g4⟩ := ih (x + 1) (by omega)
          refine ⟨E, by omega, g2, g3, fun i i1 i2 c hci => ?_⟩
          by_cases hi : i = x
          · subst hi
            rw [getD_of_lt b _ (by omega)] at hci
            simp only [Option.some.injEq] at hci
            subst hci; simpa using hc
          · exact g4 i (by omega) i2 c hci
    exact this (b.length - e) e (by omega)
  obtain ⟨S, hS⟩ := exS
  obtain ⟨E, hE⟩ := exE
  have hSs : S ≤ st.startp := by
    apply Nat.le_of_not_lt
    intro hlt
    rcases hS.2.1 with h0 | ⟨c, hc1, hc2⟩
    · omega
    · have := h2.clrS (S - 1) (by omega) (by have := hS.1; omega) c hc1
      rw [this] at hc2; cases hc2
  have hEt : st.endp ≤ E := by
    apply Nat.le_of_not_lt
    intro hlt
    rcases hE.2.2.1 with h0 | ⟨c, hc1, hc2⟩
    · have := h2.hl; omega
    · have := h2.clrE E hE.1 hlt c hc1
      rw [this] at hc2; cases hc2
  have hfS : st.foundStart = true → st.startp = S := by
    intro hf
    rcases h2.fS hf with h0 | ⟨c, hc1, hc2⟩
    · omega
    · apply Nat.le_antisymm _ hSs
      apply Nat.le_of_not_lt
      intro hlt
      have := hS.2.2 (st.startp - 1) (by omega) (by have := h2.hs; omega) c hc1
      rw [this] at hc2; cases hc2
  have hfE : st.foundEnd = true → st.endp = E := by
    intro hf
    rcases h2.fE hf with h0 | ⟨c, hc1, hc2⟩
    · have := hE.2.1; omega
    · apply Nat.le_antisymm hEt
      apply Nat.le_of_not_lt
      intro hlt
      have := hE.2.2.2 st.endp h2.he hlt c hc1
      rw [this] at hc2; cases hc2
  refine ⟨shownWindow b st.startp st.endp (!st.foundStart) (!st.foundEnd), e, S, E, st.startp,
    st.endp, !st.foundStart, !st.foundEnd, ?_, hmark, hS, hE, hSs, h2.hs, h2.he, hEt,
    by have := h2.hn; have := h2.hmax; omega, rfl, ?_, ?_, ?_⟩
  · unfold lineContext
    rw [if_neg (by omega), if_neg (by omega), if_neg (by omega)]
    simp only [hoff, he, h1]
    have hn := h2.hn; have hm := h2.hmax
    rw [if_neg (by omega)]
    rw [if_neg (by
      rintro ⟨hc1, hc2⟩
      rcases h4 with ⟨g1, g2⟩ | g
      · simp [g1, g2] at hc1
      · omega)]
    simp only [shownWindow, hn]
    cases st.foundStart <;> cases st.foundEnd <;> simp
  · intro hne
    cases hf : st.foundStart with
    | true => exact absurd (hfS hf) hne
    | false => rfl
  · intro hne
    cases hf : st.foundEnd with
    | true => exact absurd (hfE hf) hne
    | false => rfl
  · intro hcut
    have hn := h2.hn
    rcases h4 with ⟨g1, g2⟩ | g
    · simp [g1, g2] at hcut
    · omega

/-- **C08 (short lines).** A line shorter than the limit is shown completely and unmodified, and the
returned offset is the distance from the start of that line. -/
theorem line_context_short (b : List UInt8) (offset max e S E : Nat) (hmax : 7 ≤ max) (hb : b ≠ [])
    (ho : offset ≤ b.length) (hm : IsMark b (min offset (b.length - 1)) e)
    (hS : IsLineStart b e S) (hE : IsLineEnd b e E) (hshort : E - S < max) :
    lineContext b offset max = .ok (some ((b.drop S).take (E - S), offset - S)) := by
  obtain ⟨ctx, e', S', E', s, t, cL, cR, h1, h2, h3, h4, h5, h6, h7, h8, h9, h10, h11, h12, h13⟩ :=
    line_context_spec b offset max hmax hb ho
  have hee : e = e' := by
    have key : ∀ x y, IsMark b (min offset (b.length - 1)) x →
        IsMark b (min offset (b.length - 1)) y → x ≤ y := by
      intro x y hx hy
      apply Nat.le_of_not_lt
      intro hlt
      rcases hx.2.2.1 with h0 | ⟨c, hc1, hc2, hc3⟩
      · omega
      · rcases hy.2.2.2 x hlt hx.1 c hc1 with h | h
        · rw [h] at hc2; cases hc2
        · exact hc3 h
    exact Nat.le_antisymm (key _ _ hm h2) (key _ _ h2 hm)
  subst hee
  have hSS : S = S' := by
    have key : ∀ x y, IsLineStart b e x → IsLineStart b e y → x ≤ y := by
      intro x y hx hy
      apply Nat.le_of_not_lt
      intro hlt
      rcases hx.2.1 with h0 | ⟨c, hc1, hc2⟩
      · omega
      · have := hy.2.2 (x - 1) (by omega) (by have := hx.1; omega) c hc1
        rw [this] at hc2; cases hc2
    exact Nat.le_antisymm (key _ _ hS h3) (key _ _ h3 hS)
  have hEE : E = E' := by
    have key : ∀ x y, IsLineEnd b e x → IsLineEnd b e y → x ≤ y := by
      intro x y hx hy
      apply Nat.le_of_not_lt
      intro hlt
      rcases hy.2.2.1 with h0 | ⟨c, hc1, hc2⟩
      · have := hx.2.1; omega
      · have := hx.2.2.2 y hy.1 hlt c hc1
        rw [this] at hc2; cases hc2
    exact Nat.le_antisymm (key _ _ hE h4) (key _ _ h4 hE)
  subst hSS hEE
  have hcL : cL = false := by
    cases cL with
    | false => rfl
    | true => have := h13 (.inl rfl); omega
  have hcR : cR = false := by
    cases cR with
    | false => rfl
    | true => have := h13 (.inr rfl); omega
  have hs : s = S := Classical.byContradiction fun h => by have := h11 h; simp [hcL] at this
  have ht : t = E := Classical.byContradiction fun h => by have := h12 h; simp [hcR] at this
  subst hs ht
  rw [h1, h10]
  simp [shownWindow, hcL, hcR]

/-- "ab\ncde" with the offset at 'd': the second line, offset 1. -/
example : lineContext [97, 98, 10, 99, 100, 101] 4 80 = .ok (some ([99, 100, 101], 1)) :=
  line_context_short [97, 98, 10, 99, 100, 101] 4 80 4 3 6 (by decide) (by decide) (by decide)
    ⟨by decide, by decide, .inr ⟨100, by decide, by decide, by decide⟩,
      fun i h1 h2 => by simp at h2; omega⟩
    ⟨by decide, .inr ⟨10, by decide, by decide⟩, fun i h1 h2 c hc => by
      have : i = 3 := by omega
      subst this; simp at hc; subst hc; decide⟩
    ⟨by decide, by decide, .inl rfl, fun i h1 h2 c hc => by
      have : i = 4 ∨ i = 5 := by omega
      rcases this with h | h <;> (subst h; simp at hc; subst hc; decide)⟩
    (by decide)

/-- **C08 (negation of exactness at the limit).** A line of exactly `max` bytes is shown with its end
overwritten by dots although nothing was cut off. -/
theorem line_context_spurious_dots :
    lineContext [97, 98, 99, 100, 101, 102, 103] 0 7 =
      .ok (some ([97, 98, 99, 100, 46, 46, 46], 0)) := by rfl

/-- **C08 (negation for the offset).** After trailing line ends the returned offset can point beyond
the returned text ("a\n\n\n" at offset 4 gives offset 4 into a text of length 1). -/
theorem line_context_offset_outside :
    lineContext [97, 10, 10, 10] 4 80 = .ok (some ([97], 4)) := by rfl

end Verif
