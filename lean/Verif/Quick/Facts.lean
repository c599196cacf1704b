import Verif.Quick.Loop
/-!
# Facts about the segments of an input

Specifications (`Blank`, `Tiles`, …) of what the list of segments should be, and proofs that `segs`
meets them.
-/
namespace Verif.Quick
open Verif.Peg

/-! ## White space and comments -/

/-- White space and comments: spaces, tabs, newlines, `//` up to a newline or the end, and closed
block comments. -/
inductive Blank : List UInt8 → Prop
  | nil : Blank []
  | char {c l} : c = 32 ∨ c = 9 ∨ c = 10 → Blank l → Blank (c :: l)
  | crlf {l} : Blank l → Blank (13 :: 10 :: l)
  | line {body l} : 10 ∉ body → Blank l → Blank (47 :: 47 :: (body ++ 10 :: l))
  | lineEnd {body} : 10 ∉ body → Blank (47 :: 47 :: body)
  | block {body l} : (∀ i : Nat, ¬ (body[i]? = some 42 ∧ body[i + 1]? = some 47)) → Blank l →
      Blank (47 :: 42 :: (body ++ 42 :: 47 :: l))

theorem WS_blank {l r : List UInt8} {n : Nat} (h : env .r_WS l = some n) (hr : Blank r) :
    Blank (l.take n ++ r) := by
  rw [env_eq] at h
  rcases den_alt_some.1 h with h | ⟨-, h⟩
  · rw [den_nt, env_eq] at h
    cases l with
    | nil => exact absurd h (by simp [grammar, r_HWS, den])
    | cons c t =>
      have h' : (if (CharSet.mk 0x100000200).mem c = true then some 1 else none) = some n := h
      rw [hws_mem] at h'
      split at h'
      · rename_i hc
        obtain rfl : 1 = n := by simpa using h'
        rcases of_decide_eq_true hc with rfl | rfl
        · exact .char (by decide) hr
        · exact .char (by decide) hr
      · simp at h'
  · rw [den_nt] at h
    rcases d_EOL_some h with ⟨t, rfl, rfl⟩ | ⟨t, rfl, rfl⟩
    · exact .char (by decide) hr
    · exact .crlf hr

theorem lc_blank {l r : List UInt8} {n : Nat} (h : env .r_line_comment l = some n) (hr : Blank r)
    (hend : l.drop n = [] → r = []) : Blank (l.take n ++ r) := by
  rw [env_eq] at h
  obtain ⟨i, j, h1, h2, rfl⟩ := den_seq_some.1 h
  obtain ⟨t, rfl, rfl⟩ := den_str2_some.1 h1
  obtain ⟨x, y, h3, h4, rfl⟩ := den_seq_some.1 h2
  rw [den_star] at h3
  have hno := lc_no_nl t
  have hlen : starD (den env (.seq (.npeek (.nt .r_EOL none)) .dot : E)) t ≤ t.length :=
    (lc_step t).2
  simp only [List.drop_succ_cons, List.drop_zero] at h3 h4
  rw [← h3] at hno hlen
  have hb : (10 : UInt8) ∉ t.take x := by
    intro hm
    obtain ⟨i, hi, hm⟩ := List.mem_iff_getElem.1 hm
    rw [List.length_take] at hi
    rw [List.getElem_take] at hm
    exact hno i (by omega) (by rw [List.getElem?_eq_getElem (by omega), hm])
  have htake : ∀ y, (47 :: 47 :: t).take (2 + (x + y)) = 47 :: 47 :: (t.take x ++ (t.drop x).take y) := by
    intro y
    rw [show 2 + (x + y) = x + y + 1 + 1 by omega, List.take_succ_cons, List.take_succ_cons,
      List.take_add]
  rcases den_alt_some.1 h4 with h5 | ⟨-, h5⟩
  · rw [den_nt] at h5
    rcases d_EOL_some h5 with ⟨u, h6, rfl⟩ | ⟨u, h6, rfl⟩
    · rw [htake, h6]
      simpa using Blank.line hb hr
    · rw [htake, h6]
      have : (10 : UInt8) ∉ t.take x ++ [13] := by simp [hb]
      simpa using Blank.line this hr
  · rw [den_nt] at h5
    obtain ⟨h6, rfl⟩ := d_EOF_some.1 h5
    have : r = [] := hend (by
      rw [show 2 + (x + 0) = x + 1 + 1 by omega]; simpa using h6)
    subst this
    rw [htake]
    simpa using Blank.lineEnd hb

theorem bc_no_close (t : List UInt8) : ∀ i : Nat, i < starD (den env bcLoop) t →
    ¬ (t[i]? = some 42 ∧ t[i + 1]? = some 47) := by
  refine starD_ind (Q := fun t n => ∀ i : Nat, i < n → ¬ (t[i]? = some 42 ∧ t[i + 1]? = some 47))
    (fun _ i h => absurd h (by omega)) (fun l n m hl h _ ih i hi => ?_) t
  rcases den_alt_some.1 h with h | ⟨-, h⟩
  · rw [den_nt] at h
    rcases d_EOL_some h with ⟨t, rfl, rfl⟩ | ⟨t, rfl, rfl⟩
    · cases i with
      | zero => simp
      | succ i => simpa using ih i (by omega)
    · cases i with
      | zero => simp
      | succ i =>
        cases i with
        | zero => simp
        | succ i => simpa using ih i (by omega)
  · obtain ⟨x, y, h1, h2, rfl⟩ := den_seq_some.1 h
    obtain ⟨h3, rfl⟩ := den_npeek_some.1 h1
    obtain ⟨c, t, h4, rfl⟩ := den_dot_some.1 h2
    rw [List.drop_zero] at h4
    subst h4
    cases i with
    | zero =>
      rintro ⟨h5, h6⟩
      cases t with
      | nil => simp at h6
      | cons d t =>
        obtain rfl : c = 42 := by simpa using h5
        obtain rfl : d = 47 := by simpa using h6
        exact den_str2_none.1 h3 ⟨t, rfl⟩
    | succ i => simpa using ih i (by omega)

theorem bc_blank {l r : List UInt8} {n : Nat} (h : env .r_block_comment l = some n) (hr : Blank r) :
    Blank (l.take n ++ r) := by
  rw [env_eq] at h
  obtain ⟨i, j, h1, h2, rfl⟩ := den_seq_some.1 h
  obtain ⟨t, rfl, rfl⟩ := den_str2_some.1 h1
  obtain ⟨x, y, h3, h4, rfl⟩ := den_seq_some.1 h2
  rw [den_star] at h3
  have hno := bc_no_close t
  simp only [List.drop_succ_cons, List.drop_zero] at h3 h4
  have h3' : starD (den env bcLoop) t = x := h3.symm
  rw [h3'] at hno
  obtain ⟨u, h5, rfl⟩ := den_str2_some.1 h4
  have htake : (47 :: 42 :: t).take (2 + (x + 2)) = 47 :: 42 :: (t.take x ++ [42, 47]) := by
    rw [show 2 + (x + 2) = x + 2 + 1 + 1 by omega, List.take_succ_cons, List.take_succ_cons,
      List.take_add, h5]
    rfl
  rw [htake]
  have hb : ∀ i : Nat, ¬ ((t.take x)[i]? = some 42 ∧ (t.take x)[i + 1]? = some 47) := by
    rintro i ⟨h6, h7⟩
    rw [List.getElem?_take] at h6 h7
    split at h6
    · split at h7
      · exact hno i (by omega) ⟨h6, h7⟩
      · simp at h7
    · simp at h6
  simpa using Blank.block hb hr

theorem ws_blank (l : List UInt8) : Blank (l.take (ws l)) := by
  refine starD_ind (Q := fun l n => Blank (l.take n)) (fun _ => by simpa using Blank.nil)
    (fun l n m hl h _ ih => ?_) l
  rw [List.take_add]
  rcases den_alt_some.1 h with h | ⟨-, h⟩
  · exact WS_blank h ih
  · rw [den_nt, env_eq] at h
    rcases den_alt_some.1 h with h | ⟨-, h⟩
    · refine lc_blank h ih (fun hd => by rw [hd]; simp)
    · exact bc_blank h ih

/-- The text of a statement does not begin with white space or a line comment. -/
theorem ws_stops (l : List UInt8) : ∀ c, (l.drop (ws l)).head? = some c → c ≠ 32 ∧ c ≠ 9 ∧ c ≠ 10 ∧
    ¬ (c = 47 ∧ (l.drop (ws l))[1]? = some 47) := by
  intro c hc
  have key : den env (.alt (.nt .r_WS none) (.nt .r_comment none) : E) (l.drop (ws l)) = none := by
    rcases starD_exit (den env (.alt (.nt .r_WS none) (.nt .r_comment none) : E)) l with h | h | h
    · exact h
    · exfalso
      rcases den_alt_some.1 h with h | ⟨-, h⟩
      · have := (WS_some h).1; omega
      · have := (comment_some h).1; omega
    · change l.drop (ws l) = [] at h
      rw [h] at hc; simp at hc
  generalize l.drop (ws l) = t at *
  cases t with
  | nil => simp at hc
  | cons d t =>
    obtain rfl : d = c := by simpa using hc
    obtain ⟨h1, h2⟩ := den_alt_none.1 key
    rw [den_nt, env_eq] at h1 h2
    obtain ⟨h3, h4⟩ := den_alt_none.1 h1
    obtain ⟨h5, -⟩ := den_alt_none.1 h2
    have h6 : ¬ (d = 32 ∨ d = 9) := by
      intro hd
      rw [den_nt, env_eq] at h3
      have h' : (if (CharSet.mk 0x100000200).mem d = true then some 1 else none) = none := h3
      rw [hws_mem, if_pos (by simpa using hd)] at h'
      simp at h'
    refine ⟨fun h => h6 (Or.inl h), fun h => h6 (Or.inr h), d_EOL_none h4, ?_⟩
    rintro ⟨rfl, h7⟩
    cases t with
    | nil => simp at h7
    | cons e t =>
      obtain rfl : e = 47 := by simpa using h7
      exact lc_none h5 ⟨t, rfl⟩

/-! ## Tiling, positions, terminators -/

/-- Segments that follow one another from byte `p` of `w` to its end: each takes at least one byte
and its text lies within what it takes. A segment is marked `eof` only if it takes everything that is left, and if it is
not marked it ends with a `;`, or (a client command) with a newline. -/
def Tiles (w : List UInt8) : Nat → List QSeg → Prop
  | p, [] => p = w.length
  | p, s :: rest => p ≤ s.start.offset ∧ s.start.offset ≤ s.stop.offset ∧
      s.stop.offset ≤ s.next.offset ∧ s.next.offset ≤ w.length ∧ p < s.next.offset ∧
      s.text = w.extract s.start.offset s.stop.offset ∧
      (s.eof = true → s.next.offset = w.length) ∧
      (s.eof = false → w[s.next.offset - 1]? = some 59 ∨
        (s.isStatement = false ∧ w[s.next.offset - 1]? = some 10)) ∧
      Tiles w s.next.offset rest

/-- Positions obtained by counting bytes and newlines from the beginning of the input. -/
def Counted (w : List UInt8) (s : QSeg) : Prop :=
  s.start = Pos.after ⟨1, 1, 0⟩ (w.take s.start.offset) ∧
  s.stop = Pos.after ⟨1, 1, 0⟩ (w.take s.stop.offset) ∧
  s.next = Pos.after ⟨1, 1, 0⟩ (w.take s.next.offset)

/-- In statements-only mode: from byte `p`, each segment takes everything up to and including the
first live `;` (or everything, when there is none, and then it is marked `eof`); its text leaves out
only white space and comments. -/
def ByTerminator (w : List UInt8) : Nat → List QSeg → Prop
  | p, [] => p = w.length
  | p, s :: rest =>
      let t := p + live .normal 0 (w.drop p)
      s.isStatement = true ∧
      (s.eof = false ∧ w[t]? = some 59 ∧ s.next.offset = t + 1 ∨
        s.eof = true ∧ t = w.length ∧ s.next.offset = t) ∧
      s.stop.offset ≤ t ∧
      Blank (w.extract p s.start.offset) ∧ Blank (w.extract s.stop.offset t) ∧
      (∀ c, s.text.head? = some c → c ≠ 32 ∧ c ≠ 9 ∧ c ≠ 10) ∧
      ByTerminator w s.next.offset rest

theorem after_offset (p : Pos) (l : List UInt8) : (p.after l).offset = p.offset + l.length := by
  induction l generalizing p with
  | nil => simp [Pos.after]
  | cons c l ih =>
    have : Pos.after p (c :: l) = Pos.after (p.step c) l := rfl
    rw [this, ih]
    have : (p.step c).offset = p.offset + 1 := by unfold Pos.step; split <;> rfl
    rw [this]; simp; omega

theorem take_drop_take (w : List UInt8) (p n : Nat) :
    w.take p ++ (w.drop p).take n = w.take (p + n) := by rw [List.take_add]

theorem extract_drop (w : List UInt8) (p b e : Nat) :
    (w.drop p).extract b e = w.extract (p + b) (p + e) := by
  rw [List.extract_eq_take_drop, List.extract_eq_take_drop, List.drop_drop]
  congr 1; omega

/-- What `segs` produces when it starts at byte `p` of `w`. -/
theorem segs_step (only : Bool) (w : List UInt8) (p : Nat) (hp : p ≤ w.length) :
    let off := Pos.after ⟨1, 1, 0⟩ (w.take p)
    let x := stretch only (w.drop p)
    let s := segOf off (w.drop p) x
    s.start = Pos.after ⟨1, 1, 0⟩ (w.take (p + x.b)) ∧
    s.stop = Pos.after ⟨1, 1, 0⟩ (w.take (p + x.e)) ∧
    s.next = Pos.after ⟨1, 1, 0⟩ (w.take (p + x.n)) ∧
    s.start.offset = p + x.b ∧ s.stop.offset = p + x.e ∧ s.next.offset = p + x.n ∧
    s.text = w.extract (p + x.b) (p + x.e) := by
  intro off x s
  have hfit : x.Fits (w.drop p) := stretch_fits only (w.drop p)
  have h1 := hfit.be
  have h2 := hfit.en
  have h3 := hfit.len
  rw [List.length_drop] at h3
  have hpos : ∀ k, off.after ((w.drop p).take k) = Pos.after ⟨1, 1, 0⟩ (w.take (p + k)) := by
    intro k
    rw [← take_drop_take, Pos.after_append]
  have hoff : ∀ k, p + k ≤ w.length → (Pos.after ⟨1, 1, 0⟩ (w.take (p + k))).offset = p + k := by
    intro k hk
    rw [after_offset, List.length_take]; simp; omega
  refine ⟨hpos _, hpos _, hpos _, ?_, ?_, ?_, extract_drop _ _ _ _⟩
  · change (off.after _).offset = _
    rw [hpos, hoff]; omega
  · change (off.after _).offset = _
    rw [hpos, hoff]; omega
  · change (off.after _).offset = _
    rw [hpos, hoff]; omega

theorem segs_ind (only : Bool) (w : List UInt8) (Q : Nat → List QSeg → Prop) (h0 : Q w.length [])
    (h1 : ∀ p rest, p < w.length → Q (p + (stretch only (w.drop p)).n) rest →
      Q p (segOf (Pos.after ⟨1, 1, 0⟩ (w.take p)) (w.drop p) (stretch only (w.drop p)) :: rest)) :
    Q 0 (segs only ⟨1, 1, 0⟩ w) := by
  have key : ∀ (m p : Nat), p ≤ w.length → w.length - p ≤ m →
      Q p (segs only (Pos.after ⟨1, 1, 0⟩ (w.take p)) (w.drop p)) := by
    intro m
    induction m with
    | zero =>
      intro p hp hm
      obtain rfl : p = w.length := by omega
      rw [List.drop_length, segs, dif_pos rfl]; exact h0
    | succ m ih =>
      intro p hp hm
      by_cases hlt : p < w.length
      · have hne : w.drop p ≠ [] := by rw [ne_eq, List.drop_eq_nil_iff]; omega
        rw [segs, dif_neg hne]
        apply h1 p _ hlt
        have hfit := stretch_fits only (w.drop p)
        have h2 := hfit.pos hne
        have h3 := hfit.len
        rw [List.length_drop] at h3
        rw [← Pos.after_append, take_drop_take, List.drop_drop]
        exact ih _ (by omega) (by omega)
      · obtain rfl : p = w.length := by omega
        rw [List.drop_length, segs, dif_pos rfl]; exact h0
  simpa [Pos.after] using key w.length 0 (Nat.zero_le _) (by omega)

theorem segs_tiles (only : Bool) (w : List UInt8) : Tiles w 0 (segs only ⟨1, 1, 0⟩ w) := by
  refine segs_ind only w (Tiles w) rfl (fun p rest hp ih => ?_)
  obtain ⟨-, -, -, h4, h5, h6, h7⟩ := segs_step only w p (by omega)
  have hfit := stretch_fits only (w.drop p)
  have hne : w.drop p ≠ [] := by rw [ne_eq, List.drop_eq_nil_iff]; omega
  have f1 := hfit.be
  have f2 := hfit.en
  have f3 := hfit.len
  have f4 := hfit.pos hne
  have f5 := hfit.eof
  have f6 := hfit.term
  rw [List.length_drop] at f3 f5
  rw [List.getElem?_drop] at f6
  unfold Tiles
  rw [h4, h5, h6]
  refine ⟨by omega, by omega, by omega, by omega, by omega, h7, ?_, ?_, ih⟩
  · intro h
    have := f5 h
    omega
  · intro h
    rw [show p + (stretch only (w.drop p)).n - 1 = p + ((stretch only (w.drop p)).n - 1) by omega]
    exact f6 h

theorem segs_counted (only : Bool) (w : List UInt8) : ∀ s ∈ segs only ⟨1, 1, 0⟩ w, Counted w s := by
  refine segs_ind only w (fun _ L => ∀ s ∈ L, Counted w s) (by simp) (fun p rest hp ih => ?_)
  obtain ⟨h1, h2, h3, h4, h5, h6, -⟩ := segs_step only w p (by omega)
  intro s hs
  rcases List.mem_cons.1 hs with rfl | hs
  · unfold Counted
    rw [h4, h5, h6]
    exact ⟨h1, h2, h3⟩
  · exact ih s hs

theorem head_extract {l : List UInt8} {a b : Nat} {c : UInt8} (h : (l.extract a b).head? = some c) :
    (l.drop a).head? = some c := by
  rw [List.extract_eq_take_drop, List.head?_take] at h
  split at h
  · simp at h
  · exact h

theorem segs_byTerminator (w : List UInt8) : ByTerminator w 0 (segs true ⟨1, 1, 0⟩ w) := by
  refine segs_ind true w (ByTerminator w) rfl (fun p rest hp ih => ?_)
  obtain ⟨-, -, -, h4, h5, h6, h7⟩ := segs_step true w p (by omega)
  have hst : stretch true (w.drop p) = stStretch (w.drop p) := rfl
  obtain ⟨l1, l2⟩ := stTerm_live (w.drop p)
  obtain ⟨e1, e2, e3⟩ := stEnd_le (w.drop p)
  have hse := ws_stops (w.drop p)
  have hb1 := ws_blank (w.drop p)
  have hb2 := ws_blank ((w.drop p).drop (stEnd (w.drop p)))
  unfold ByTerminator
  rw [h4, h5, h6, h7, ← l1]
  rw [hst] at ih ⊢
  refine ⟨rfl, ?_, ?_, ?_, ?_, ?_, ih⟩
  · simp only [segOf, stStretch, bne_eq_false_iff_eq, bne_iff_ne, ne_eq]
    rw [List.getElem?_drop] at *
    rw [List.length_drop] at l2
    by_cases hc : w[p + stTerm (w.drop p)]? = some 59
    · exact Or.inl ⟨hc, hc, by rw [if_pos hc]; omega⟩
    · have := l2.resolve_left hc
      exact Or.inr ⟨hc, by omega, by rw [if_neg hc]⟩
  · simp only [stStretch]; omega
  · simp only [stStretch]
    rw [List.extract_eq_take_drop, show p + stBegin (w.drop p) - p = ws (w.drop p) by unfold stBegin; omega]
    exact hb1
  · simp only [stStretch]
    rw [List.extract_eq_take_drop, show p + stTerm (w.drop p) - (p + stEnd (w.drop p)) =
      ws ((w.drop p).drop (stEnd (w.drop p))) by unfold stTerm; omega, ← List.drop_drop]
    exact hb2
  · intro c hc
    have := hse c (by
      have := head_extract hc
      simpa [stStretch, stBegin, List.drop_drop] using this)
    exact ⟨this.1, this.2.1, this.2.2.1⟩

end Verif.Quick
