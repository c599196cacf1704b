import Verif.Quick.Facts
/-!
# Properties of the quick parser (C14-C19, C31)
-/
namespace Verif
open Verif.Peg Verif.Quick

variable {σ κ : Type}

/-- A source that delivers exactly the bytes `w`, in any portions: there is an account `D` of what
each reader state has still to deliver, kept by every read, which says `w` at the start. -/
def Delivers (S : Source σ) (src : σ) (w : List UInt8) : Prop :=
  ∃ D, Feeds S D ∧ (Reader.init src).At D w 0

/-- A callback that answers `f` (which may depend on the segments seen so far) and records what it is
given. -/
def recording (f : List QSeg → QSeg → Int) (h : List QSeg) (s : QSeg) : Int × List QSeg :=
  (f h s, h ++ [s])

/-- A callback that always goes on. -/
def always : List QSeg → QSeg → Int := fun _ _ => 0

theorem feed_always (L h : List QSeg) : feed (recording always) false L h = (0, h ++ L) := by
  induction L generalizing h with
  | nil => simp [feed]
  | cons s L ih => simp [feed, recording, always] at ih ⊢; rw [ih]; simp

/-- Running the parser to the end and recording everything yields the segments `L`. -/
def Yields (S : Source σ) (src : σ) (onlyStatements : Bool) (L : List QSeg) : Prop :=
  ∃ N, ∀ fuel, N ≤ fuel →
    quickParse S src (recording always) [] onlyStatements false fuel = some (.ok (0, L))

theorem Delivers.yields {S : Source σ} {src : σ} {w : List UInt8} (h : Delivers S src w)
    (only : Bool) : Yields S src only (segs only ⟨1, 1, 0⟩ w) := by
  obtain ⟨D, hf, hi⟩ := h
  obtain ⟨N, hN⟩ := quickParse_eq hf hi only false (recording always) []
  refine ⟨N, fun fuel hfu => ?_⟩
  rw [hN fuel hfu, feed_always]; rfl

theorem Yields.unique {S : Source σ} {src : σ} {only : Bool} {L L' : List QSeg}
    (h : Yields S src only L) (h' : Yields S src only L') : L = L' := by
  obtain ⟨N, hN⟩ := h
  obtain ⟨N', hN'⟩ := h'
  have h1 := hN (max N N') (by omega)
  rw [hN' (max N N') (by omega)] at h1
  simpa using h1.symm

/-! ## C14 -/

/-- C14. Whatever the bytes and however they arrive, the quick parser ends, without a fault, and
returns 0 if the callback always answers 0. -/
theorem quick_never_fails {S : Source σ} {src : σ} {w : List UInt8} (h : Delivers S src w)
    (only single : Bool) (cb : κ → QSeg → Int × κ) (k : κ) (h0 : ∀ k s, (cb k s).1 = 0) :
    ∃ k' N, ∀ fuel, N ≤ fuel →
      quickParse S src cb k only single fuel = some (.ok (0, k')) := by
  obtain ⟨D, hf, hi⟩ := h
  obtain ⟨N, hN⟩ := quickParse_eq hf hi only single cb k
  refine ⟨(feed cb single (segs only ⟨1, 1, 0⟩ w) k).2, N, fun fuel hfu => ?_⟩
  rw [hN fuel hfu]
  generalize segs only ⟨1, 1, 0⟩ w = L
  have : (feed cb single L k).1 = 0 := by
    clear hN
    induction L generalizing k with
    | nil => rfl
    | cons s L ih =>
      have h1 := h0 k s
      unfold feed
      rcases hc : cb k s with ⟨r, k'⟩
      rw [hc] at h1
      simp only at h1
      subst h1
      cases single with
      | true => simp
      | false => simpa using ih k'
  rw [← this]

/-- C14, any callback: it ends without a fault, and never with the `-1` of a failed parse unless the
callback answered that. -/
theorem quick_terminates {S : Source σ} {src : σ} {w : List UInt8} (h : Delivers S src w)
    (only single : Bool) (cb : κ → QSeg → Int × κ) (k : κ) :
    ∃ r k' N, (r = 0 ∨ ∃ k s, (cb k s).1 = r) ∧ ∀ fuel, N ≤ fuel →
      quickParse S src cb k only single fuel = some (.ok (r, k')) := by
  obtain ⟨D, hf, hi⟩ := h
  obtain ⟨N, hN⟩ := quickParse_eq hf hi only single cb k
  refine ⟨(feed cb single (segs only ⟨1, 1, 0⟩ w) k).1, (feed cb single (segs only ⟨1, 1, 0⟩ w) k).2,
    N, ?_, fun fuel hfu => by rw [hN fuel hfu]⟩
  generalize segs only ⟨1, 1, 0⟩ w = L
  clear hN
  induction L generalizing k with
  | nil => exact Or.inl rfl
  | cons s L ih =>
    unfold feed
    rcases hc : cb k s with ⟨r, k'⟩
    simp only []
    split
    · exact Or.inl rfl
    · split
      · exact Or.inr ⟨k, s, by rw [hc]⟩
      · split
        · exact Or.inl rfl
        · exact ih k'

/-! ## C15, C17 -/

/-- C15. The segments tile the input, up to its end. -/
theorem quick_tiles {S : Source σ} {src : σ} {w : List UInt8} (h : Delivers S src w) (only : Bool) :
    ∃ L, Yields S src only L ∧ Tiles w 0 L :=
  ⟨_, h.yields only, segs_tiles only w⟩

/-- C17. All positions reported are those obtained by counting. -/
theorem quick_positions {S : Source σ} {src : σ} {w : List UInt8} (h : Delivers S src w)
    (only : Bool) : ∃ L, Yields S src only L ∧ ∀ s ∈ L, Counted w s :=
  ⟨_, h.yields only, segs_counted only w⟩

/-! ## C16 -/

/-- C16. In statements-only mode a segment ends at the first `;` outside quotes, comments and
escapes. -/
theorem quick_terminator {S : Source σ} {src : σ} {w : List UInt8} (h : Delivers S src w) :
    ∃ L, Yields S src true L ∧ ByTerminator w 0 L :=
  ⟨_, h.yields true, segs_byTerminator w⟩

/-! ## C18 -/

/-- A source that delivers its bytes in portions of prescribed sizes (one more than the numbers
listed; one byte at a time after that). -/
def portions : Source (List UInt8 × List Nat) := fun s n =>
  let len := min n (s.2.headD 0 + 1)
  (s.1.take len, (s.1.drop len, s.2.tail))

theorem portions_delivers (w : List UInt8) (sizes : List Nat) : Delivers portions (w, sizes) w := by
  refine ⟨fun r rest => r.src.1 = rest ∧ 0 < r.buflen, ⟨?_, ?_⟩, ?_⟩
  · rintro r rest ⟨rfl, hb⟩
    have hroom := growBuf_room (r.buf.length + 512) r.buflen r.buf.length hb (by omega)
    have hge := growBuf_ge (r.buf.length + 512) r.buflen r.buf.length
    refine ⟨r.src.1.drop (min (growBuf (r.buf.length + 512) r.buflen r.buf.length - r.buf.length)
      (r.src.2.headD 0 + 1)), ?_, ⟨?_, ?_⟩, ?_, ?_⟩
    · simp [portions]
    · simp only [Reader.refill, portions]; split <;> rfl
    · simp only [Reader.refill, portions]; split <;> (simp only []; omega)
    · intro h
      simp only [portions, List.take_eq_nil_iff] at h
      rcases h with h | h
      · omega
      · exact h
    · simp only [portions, List.length_take]; omega
  · rintro r rest p ⟨h, hb⟩ _
    exact ⟨h, hb⟩
  · exact ⟨Nat.zero_le _, by simp [Reader.init], w, by simp [Reader.init], by simp [Reader.init]⟩

theorem stream_delivers (w : List UInt8) : Delivers streamSource w w :=
  ⟨_, stream_feeds, stream_init w⟩

/-- C18 for the quick parser. Two sources that deliver the same bytes, however portioned, get the
same answers: for every callback and every flag, and for all sufficient fuel. -/
theorem quick_chunk_independent {τ : Type} {S : Source σ} {src : σ} {T : Source τ} {src' : τ}
    {w : List UInt8} (h : Delivers S src w) (h' : Delivers T src' w) (only single : Bool)
    (cb : κ → QSeg → Int × κ) (k : κ) : ∃ r N, ∀ fuel, N ≤ fuel →
      quickParse S src cb k only single fuel = some (.ok r) ∧
      quickParse T src' cb k only single fuel = some (.ok r) := by
  obtain ⟨D, hf, hi⟩ := h
  obtain ⟨D', hf', hi'⟩ := h'
  obtain ⟨N, hN⟩ := quickParse_eq hf hi only single cb k
  obtain ⟨N', hN'⟩ := quickParse_eq hf' hi' only single cb k
  exact ⟨_, max N N', fun fuel hfu => ⟨hN fuel (by omega), hN' fuel (by omega)⟩⟩

/-! ## C19 -/

/-- C19, for buffers of at most 1024 bytes: they are delivered completely and in order. (Full
property: no bound. It is false, see `buffer_repeats`.) -/
theorem buffer_delivers_partial (w : List UInt8) (hw : w.length ≤ 1024) :
    Delivers bufferSource ⟨w, w.length⟩ w :=
  ⟨_, buffer_feeds w hw, buffer_init w⟩

/-- C19 fails beyond 1024 bytes: `source_from_buffer` does not advance its pointer, so that the
second read delivers the beginning of the buffer again. -/
theorem buffer_repeats (w : List UInt8) (h1 : 1024 < w.length) (h2 : w.length ≤ 1536) :
    Delivers bufferSource ⟨w, w.length⟩ (w.take 1024 ++ w.take (w.length - 1024)) := by
  refine ⟨fun r rest =>
    (r.buf = [] ∧ r.buflen = 1024 ∧ r.src = ⟨w, w.length⟩ ∧
      rest = w.take 1024 ++ w.take (w.length - 1024)) ∨
    (0 < r.buflen ∧ r.src = ⟨w, w.length - 1024⟩ ∧ rest = w.take (w.length - 1024)) ∨
    (0 < r.buflen ∧ r.src.length = 0 ∧ rest = []), ⟨?_, ?_⟩, ?_⟩
  · rintro r rest (⟨h3, h4, h5, h6⟩ | ⟨h3, h4, h6⟩ | ⟨h3, h4, h6⟩)
    · subst h6
      have hg : growBuf (0 + 512) 1024 0 = 1024 := rfl
      have hm : min w.length (1024 - 0) = 1024 := by omega
      refine ⟨w.take (w.length - 1024), ?_, Or.inr (Or.inl ⟨?_, ?_, Eq.refl _⟩), ?_, ?_⟩
      · simp only [h3, h4, h5, List.length_nil, hg, bufferSource, hm]
      · simp only [Reader.refill, h3, h4, List.length_nil, hg]; split <;> exact Nat.succ_pos _
      · simp only [Reader.refill, h3, h4, h5, List.length_nil, hg, bufferSource, hm]
        split <;> rfl
      · simp only [h3, h4, h5, List.length_nil, hg, bufferSource, hm]
        intro h
        have := congrArg List.length h
        rw [List.length_take, List.length_nil] at this
        omega
      · simp only [h3, h4, h5, List.length_nil, hg, bufferSource, hm, List.length_take]
        omega
    · rw [h6]
      clear h6
      have hroom := growBuf_room (r.buf.length + 512) r.buflen r.buf.length h3 (by omega)
      have hge := growBuf_ge (r.buf.length + 512) r.buflen r.buf.length
      have hm : min (w.length - 1024) (growBuf (r.buf.length + 512) r.buflen r.buf.length -
        r.buf.length) = w.length - 1024 := by omega
      refine ⟨[], ?_, Or.inr (Or.inr ⟨?_, ?_, rfl⟩), ?_, ?_⟩
      · simp only [h4, bufferSource, hm, List.append_nil]
      · simp only [Reader.refill]; split <;> (simp only []; omega)
      · simp only [Reader.refill, h4, bufferSource, hm]
        split <;> (simp only []; omega)
      · intro h
        simpa only [h4, bufferSource, hm] using h
      · simp only [h4, bufferSource, hm, List.length_take]; omega
    · subst h6
      have hge := growBuf_ge (r.buf.length + 512) r.buflen r.buf.length
      refine ⟨[], ?_, Or.inr (Or.inr ⟨?_, ?_, rfl⟩), fun _ => rfl, ?_⟩
      · simp [bufferSource, h4]
      · simp only [Reader.refill]; split <;> (simp only []; omega)
      · simp only [Reader.refill, h4, bufferSource]
        split <;> simp
      · simp [bufferSource, h4]
  · rintro r rest p (⟨h3, h4, h5, h6⟩ | ⟨h3, h4, h5⟩ | ⟨h3, h4, h5⟩) hp
    · exact Or.inl ⟨by simp [Reader.commit, h3], h4, h5, h6⟩
    · exact Or.inr (Or.inl ⟨h3, h4, h5⟩)
    · exact Or.inr (Or.inr ⟨h3, h4, h5⟩)
  · exact ⟨Nat.zero_le _, by simp [Reader.init], _, by simp [Reader.init]; rfl, by simp [Reader.init]⟩

theorem live_letters (n : Nat) (t : List UInt8) : live .normal 0 (List.replicate n 97 ++ t) =
    n + live .normal 0 t := by
  induction n with
  | zero => simp
  | succ n ih => rw [List.replicate_succ, List.cons_append]; simp [live, ih]; omega

theorem segs_letters_semi (n : Nat) : ∀ s ∈ segs true ⟨1, 1, 0⟩ (List.replicate n 97 ++ [59]),
    s.eof = false := by
  have hb := segs_byTerminator (List.replicate n 97 ++ [59])
  have ht := segs_tiles true (List.replicate n 97 ++ [59])
  have hw : (List.replicate n (97 : UInt8) ++ [59]).length = n + 1 := by simp
  generalize segs true ⟨1, 1, 0⟩ (List.replicate n 97 ++ [59]) = L at hb ht
  cases L with
  | nil => simp
  | cons s L =>
    obtain ⟨-, hor, -⟩ := hb
    obtain ⟨-, -, -, -, -, -, -, -, hrest⟩ := ht
    simp only [List.drop_zero, live_letters, hw] at hor
    have hl : live .normal 0 [59] = 0 := rfl
    rw [hl] at hor
    rcases hor with ⟨g1, -, g3⟩ | ⟨-, g2, -⟩
    · rw [g3] at hrest
      cases L with
      | nil => simpa using g1
      | cons s' L =>
        exfalso
        obtain ⟨-, -, -, h4, h5, -⟩ := hrest
        omega
    · omega

theorem segs_letters (n : Nat) : ∃ s ∈ segs true ⟨1, 1, 0⟩ (List.replicate (n + 1) 97),
    s.eof = true := by
  have hb := segs_byTerminator (List.replicate (n + 1) 97)
  generalize segs true ⟨1, 1, 0⟩ (List.replicate (n + 1) 97) = L at hb
  cases L with
  | nil => simp [ByTerminator] at hb
  | cons s L =>
    obtain ⟨-, hor, -⟩ := hb
    have hl := live_letters (n + 1) []
    rw [List.append_nil] at hl
    simp only [List.drop_zero, hl] at hor
    rcases hor with ⟨-, g2, -⟩ | ⟨g1, -, -⟩
    · have hl : live .normal 0 [] = 0 := rfl
      rw [hl] at g2
      rw [List.getElem?_eq_none (by simp)] at g2; simp at g2
    · exact ⟨s, by simp, g1⟩

/-- So a buffer of 1024 letters and a final `;` is reported as an unterminated statement, though a
stream of the same bytes is not. -/
theorem buffer_loses_terminator : ∃ w : List UInt8, w.length = 1025 ∧
    (∃ L, Yields streamSource w true L ∧ ∀ s ∈ L, s.eof = false) ∧
    (∃ L, Yields bufferSource ⟨w, w.length⟩ true L ∧ ∃ s ∈ L, s.eof = true) := by
  obtain ⟨n, hn⟩ : ∃ n : Nat, n = 1024 := ⟨_, rfl⟩
  have hlen : (List.replicate n (97 : UInt8) ++ [59]).length = n + 1 := by simp
  refine ⟨List.replicate n 97 ++ [59], by omega, ?_, ?_⟩
  · exact ⟨_, (stream_delivers _).yields true, segs_letters_semi n⟩
  · refine ⟨_, (buffer_repeats _ (by omega) (by omega)).yields true, ?_⟩
    have hw : (List.replicate n (97 : UInt8) ++ [59]).take 1024 ++
        (List.replicate n (97 : UInt8) ++ [59]).take
          ((List.replicate n (97 : UInt8) ++ [59]).length - 1024) = List.replicate (n + 1) 97 := by
      rw [hlen, ← hn, show n + 1 - n = 1 by omega, List.take_append_of_le_length (by simp),
        List.take_append_of_le_length (by simp; omega), List.take_replicate, List.take_replicate,
        List.replicate_append_replicate]
      congr 1; omega
    rw [hw]
    exact segs_letters n

/-! ## C31 -/

/-- C31 for the quick parser: the segments passed to the callback are the first few of the segments
`L` of the input, in order; every one but the last was answered by 0 (and there is no other with the
single flag); the result is the last answer if that is negative, and 0 otherwise; and segments are
left out only after an answer other than 0, or with the single flag. -/
structure Protocol (f : List QSeg → QSeg → Int) (single : Bool) (L : List QSeg) (ret : Int)
    (seen : List QSeg) : Prop where
  pre : seen <+: L
  cont : ∀ a s b, seen = a ++ s :: b → b ≠ [] → f a s = 0 ∧ single = false
  ret_last : ∀ a s, seen = a ++ [s] → ret = min (f a s) 0
  ret_none : seen = [] → ret = 0
  complete : seen ≠ L → ∃ a s, seen = a ++ [s] ∧ (f a s ≠ 0 ∨ single = true)

theorem feed_protocol (f : List QSeg → QSeg → Int) (single : Bool) : ∀ (L h : List QSeg) (ret : Int)
    (seen : List QSeg), feed (recording f) single L h = (ret, seen) →
    (∀ a s b, h = a ++ s :: b → f a s = 0 ∧ single = false) → ∃ u, seen = h ++ u ∧
      (∀ a s b, seen = a ++ s :: b → b ≠ [] → f a s = 0 ∧ single = false) ∧
      (u <+: L) ∧ (∀ a s, seen = a ++ [s] → ret = min (f a s) 0) ∧ (seen = [] → ret = 0) ∧
      (u ≠ L → ∃ a s, seen = a ++ [s] ∧ (f a s ≠ 0 ∨ single = true)) := by
  intro L
  induction L with
  | nil =>
    intro h ret seen hfe hh
    simp only [feed, Prod.mk.injEq] at hfe
    obtain ⟨rfl, rfl⟩ := hfe
    refine ⟨[], by simp, fun a s b he _ => hh a s b he, by simp, fun a s he => ?_, fun _ => rfl,
      by simp⟩
    rw [(hh a s [] he).1]; rfl
  | cons s L ih =>
    intro h ret seen hfe hh
    simp only [feed, recording] at hfe
    have last : ∀ a t, h ++ [s] = a ++ [t] → a = h ∧ t = s := by
      intro a t he
      have := List.append_inj' he rfl
      exact ⟨this.1.symm, by simpa using this.2.symm⟩
    have mid : ∀ a t b, h ++ [s] = a ++ t :: b → b ≠ [] → f a t = 0 ∧ single = false := by
      intro a t b he hb
      obtain ⟨b', x, rfl⟩ : ∃ b' x, b = b' ++ [x] := ⟨b.dropLast, b.getLast hb, (List.dropLast_concat_getLast hb).symm⟩
      have : h ++ [s] = (a ++ t :: b') ++ [x] := by rw [he]; simp
      exact hh a t b' (List.append_inj' this rfl).1
    have stop : ∀ ret', feed (recording f) single (s :: L) h = (ret', h ++ [s]) → ret' = min (f h s) 0 →
        (f h s ≠ 0 ∨ single = true) → ret = ret' → seen = h ++ [s] → ∃ u, seen = h ++ u ∧
      (∀ a s b, seen = a ++ s :: b → b ≠ [] → f a s = 0 ∧ single = false) ∧
      (u <+: s :: L) ∧ (∀ a s, seen = a ++ [s] → ret = min (f a s) 0) ∧ (seen = [] → ret = 0) ∧
      (u ≠ s :: L → ∃ a s, seen = a ++ [s] ∧ (f a s ≠ 0 ∨ single = true)) := by
      intro ret' _ hmin hst hr hs
      subst hr hs
      refine ⟨[s], rfl, mid, by simp, ?_, by simp, fun _ => ⟨h, s, rfl, hst⟩⟩
      intro a t he
      obtain ⟨rfl, rfl⟩ := last a t he
      exact hmin
    by_cases hp : f h s > 0
    · simp only [hp, if_true] at hfe
      simp only [Prod.mk.injEq] at hfe
      refine stop 0 ?_ (by omega) (Or.inl (by omega)) hfe.1.symm hfe.2.symm
      simp [feed, recording, hp]
    · simp only [hp, if_false] at hfe
      by_cases hn : f h s < 0
      · simp only [hn, if_true] at hfe
        simp only [Prod.mk.injEq] at hfe
        refine stop (f h s) ?_ (by omega) (Or.inl (by omega)) hfe.1.symm hfe.2.symm
        simp [feed, recording, hp, hn]
      · simp only [hn, if_false] at hfe
        have h0 : f h s = 0 := by omega
        by_cases hs : single = true
        · rw [if_pos hs] at hfe
          simp only [Prod.mk.injEq] at hfe
          refine stop 0 ?_ (by omega) (Or.inr hs) hfe.1.symm hfe.2.symm
          simp [feed, recording, h0, hs]
        · rw [if_neg hs] at hfe
          have hs' : single = false := by simpa using hs
          obtain ⟨u, g1, g2, g3, g4, g5, g6⟩ := ih (h ++ [s]) ret seen hfe (by
            intro a t b he
            by_cases hb : b = []
            · subst hb
              obtain ⟨rfl, rfl⟩ := last a t he
              exact ⟨h0, hs'⟩
            · exact mid a t b he hb)
          refine ⟨s :: u, by rw [g1]; simp, g2, ?_, g4, g5, ?_⟩
          · exact (List.cons_prefix_cons).2 ⟨rfl, g3⟩
          · intro hne
            exact g6 (fun h => hne (by rw [h]))

/-- C31 for the quick parser. -/
theorem quick_callback_protocol {S : Source σ} {src : σ} {w : List UInt8} (h : Delivers S src w)
    (only single : Bool) (f : List QSeg → QSeg → Int) :
    ∃ L ret seen N, Yields S src only L ∧ Protocol f single L ret seen ∧ ∀ fuel, N ≤ fuel →
      quickParse S src (recording f) [] only single fuel = some (.ok (ret, seen)) := by
  have hy := h.yields only
  obtain ⟨D, hf, hi⟩ := h
  obtain ⟨N, hN⟩ := quickParse_eq hf hi only single (recording f) []
  rcases hfe : feed (recording f) single (segs only ⟨1, 1, 0⟩ w) [] with ⟨ret, seen⟩
  refine ⟨_, ret, seen, N, hy, ?_, fun fuel hfu => by rw [hN fuel hfu, hfe]⟩
  obtain ⟨u, g1, g2, g3, g4, g5, g6⟩ := feed_protocol f single _ _ _ _ hfe (by simp)
  rw [List.nil_append] at g1
  subst g1
  exact ⟨g3, g2, g4, g5, g6⟩

/-! ## Examples -/

/-- Bytes of `a ';' ;` then newline, ` :b` newline, `c`: a statement with a quoted `;`, a client
command, an unterminated statement. -/
private def sample : List UInt8 := [97, 32, 39, 59, 39, 32, 59, 10, 32, 58, 98, 10, 99]

private def sampleSegs : List QSeg :=
  [⟨true, [97, 32, 39, 59, 39], ⟨1, 1, 0⟩, ⟨1, 6, 5⟩, ⟨1, 8, 7⟩, false⟩,
   ⟨false, [58, 98], ⟨2, 2, 9⟩, ⟨2, 4, 11⟩, ⟨3, 1, 12⟩, false⟩,
   ⟨true, [99], ⟨3, 1, 12⟩, ⟨3, 2, 13⟩, ⟨3, 2, 13⟩, true⟩]

example : quickParse streamSource sample (recording always) [] false false 120 =
    some (.ok (0, sampleSegs)) := by decide +kernel

example : quickParse portions (sample, [2, 0, 5]) (recording always) [] false false 120 =
    some (.ok (0, sampleSegs)) := by decide +kernel

example : Tiles sample 0 sampleSegs := by simp [Tiles, sample, sampleSegs]

example : ∀ s ∈ sampleSegs, Counted sample s := by
  simp [sampleSegs, Counted, sample, Pos.after, Pos.step]

/-- A callback that answers 1 to the second segment sees two, and the result is 0. -/
example : quickParse streamSource sample (recording fun h _ => if h = [] then 0 else 1) [] false
    false 120 = some (.ok (0, sampleSegs.take 2)) := by decide +kernel

/-- The scan passes over the quoted `;` and stops at the one after it. -/
example : live .normal 0 sample = 6 := by decide +kernel

example : Blank [32, 47, 42, 59, 42, 47, 10] :=
  .char (by decide) (.block (body := [59]) (by intro i; rcases i with _ | i <;> simp)
    (.char (by decide) .nil))

end Verif
