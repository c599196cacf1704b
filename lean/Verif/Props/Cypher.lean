import Verif.Cypher.Loop
import Verif.Props.Quick
import Verif.Props.Segment
/-!
# Properties of the main parser: C20-C26, C30-C33, C36

Everything is stated of `parseEach`, the model of `cypher_parse_each` and its variants, for every
source that delivers the bytes `w`, every configuration, both flags and every callback.

Two failures are possible and are tolerated throughout: `Known w e`.  One is finding 24 (a comment
inside a dotted name makes an assertion fail; `comment_in_name_crashes` below is the witness).  The
other is the debug assertion of `cp_et_note_potential_error` (finding 39; the witness is
`comment_over_name_crashes`), which is shown not to fail when there is no backquote in the input.
`parse_ok` says that there are no others.
-/
namespace Verif
open Verif.Peg Verif.Cypher

variable {σ κ : Type}

/-- For all sufficient fuel the parser stops with `r`. -/
def StopsWith (S : Source σ) (src : σ) (cb : κ → PSeg → Int × κ) (k : κ) (cfg : Config)
    (only single : Bool) (r : Except Stop (Ret κ)) : Prop :=
  ∃ N, ∀ fuel, N ≤ fuel → parseEach S src cb k cfg only single fuel = some r

theorem StopsWith.unique {S : Source σ} {src : σ} {cb : κ → PSeg → Int × κ} {k : κ} {cfg : Config}
    {only single : Bool} {r r' : Except Stop (Ret κ)} (h : StopsWith S src cb k cfg only single r)
    (h' : StopsWith S src cb k cfg only single r') : r = r' := by
  obtain ⟨N, hN⟩ := h
  obtain ⟨N', hN'⟩ := h'
  have h1 := hN (max N N') (by omega)
  rw [hN' (max N N') (by omega)] at h1
  simpa using h1.symm

theorem Delivers.session {S : Source σ} {src : σ} {w : List UInt8} (h : Delivers S src w)
    (cb : κ → PSeg → Int × κ) (k : κ) (cfg : Config) (only single : Bool) :
    ∃ r, StopsWith S src cb k cfg only single r ∧
      ((∃ e, r = .error e ∧ Known w e) ∨ ∃ ret, r = .ok ret ∧
        Session only single cfg.colorization cb w cfg.position cfg.ordinal none k ret) := by
  obtain ⟨D, hf, hi⟩ := h
  obtain ⟨rest, e1, e2⟩ := hi.rest
  have e1 : w = rest := e1
  subst e1
  obtain ⟨N, r, h1, h2⟩ := parseEach_session hf e2 cb k cfg only single
  exact ⟨r, ⟨N, h1⟩, h2⟩

/-! ## The segments -/

/-- A callback that answers `f` (which may depend on the segments seen so far) and records what it is
given. -/
def recordingP (f : List PSeg → PSeg → Int) (h : List PSeg) (s : PSeg) : Int × List PSeg :=
  (f h s, h ++ [s])

/-- Consecutive segments of the text `w`, of which `rest` is left. -/
inductive Segments (only : Bool) (color : Colorization) : List UInt8 → Pos → Nat → List PSeg →
    List UInt8 → Prop
  | nil {w off ordinal} : Segments only color w off ordinal [] w
  | cons {w off ordinal n seg L rest} : SegOk only color w off n seg → seg.ordinal = ordinal →
      (seg.eof = true → L = []) →
      Segments only color (w.drop n) seg.range.stop (ordinal + seg.toSegment.nnodes) L rest →
      Segments only color w off ordinal (seg :: L) rest

/-- The calling protocol: what the callback `f` has seen, what was returned, and whether it was told
everything. -/
structure ProtocolP (f : List PSeg → PSeg → Int) (single : Bool) (h seen : List PSeg) (ret : Int)
    (last0 last : Option Pos) (rest : List UInt8) : Prop where
  /-- the callback was called again only after it answered 0, without `SINGLE`, before the end -/
  cont : ∀ a s b, seen = a ++ s :: b → b ≠ [] → f (h ++ a) s = 0 ∧ single = false ∧ s.eof = false
  /-- a negative answer is returned, any other becomes 0 -/
  ret_last : ∀ a s, seen = a ++ [s] → ret = min (f (h ++ a) s) 0 ∧ last = some s.range.stop
  ret_none : seen = [] → ret = 0 ∧ last = last0
  /-- if something is left then because the callback or `SINGLE` said so -/
  complete : rest ≠ [] → ∃ a s, seen = a ++ [s] ∧ (f (h ++ a) s ≠ 0 ∨ single = true)

theorem append_one {α : Type} {a : List α} {s x : α} (h : [x] = a ++ [s]) : a = [] ∧ s = x := by
  cases a with
  | nil => simpa using h.symm
  | cons y ys => simp at h

theorem _root_.Verif.Cypher.Session.segments {only single : Bool} {color : Colorization} {f : List PSeg → PSeg → Int}
    {w : List UInt8} {off : Pos} {ordinal : Nat} {last : Option Pos} {h : List PSeg}
    {ret : Ret (List PSeg)}
    (hs : Session only single color (recordingP f) w off ordinal last h ret) :
    ∃ seen rest, ret.2.2 = h ++ seen ∧ Segments only color w off ordinal seen rest ∧
      ProtocolP f single h seen ret.1 last ret.2.1 rest := by
  have one : ∀ {w : List UInt8} {off : Pos} {n ordinal : Nat} {last : Option Pos} {h k' : List PSeg}
      {seg : PSeg} {err ret : Int}, SegOk only color w off n seg →
      seg.ordinal = ordinal → recordingP f h seg = (err, k') → ret = min err 0 →
      (err = 0 → single = true ∨ w.drop n = []) →
      ∃ seen rest, k' = h ++ seen ∧ Segments only color w off ordinal seen rest ∧
        ProtocolP f single h seen ret last (some seg.range.stop) rest := by
    intro w off n ordinal last h k' seg err ret h1 h2 h3 h4 h5
    simp only [recordingP, Prod.mk.injEq] at h3
    refine ⟨[seg], w.drop n, h3.2.symm, .cons h1 h2 (fun _ => rfl) .nil, ?_, ?_, ?_, ?_⟩
    · intro a s b hb hne
      have : a = [] ∧ b = [] := by
        cases a with
        | nil => simp at hb; exact ⟨rfl, hb.2⟩
        | cons y ys => simp at hb
      exact absurd this.2 hne
    · intro a s hb
      obtain ⟨rfl, rfl⟩ := append_one hb
      rw [List.append_nil, h3.1]
      exact ⟨h4, rfl⟩
    · intro hb; cases hb
    · intro hr
      refine ⟨[], seg, rfl, ?_⟩
      rw [List.append_nil, h3.1]
      by_cases he : err = 0
      · exact (h5 he).elim .inr fun e => absurd e hr
      · exact .inl he
  induction hs with
  | @nothing off ordinal last k =>
    refine ⟨[], [], by simp, .nil, ?_, ?_, fun _ => ⟨rfl, rfl⟩, fun hr => absurd rfl hr⟩
    · intro a s b hb; simp at hb
    · intro a s hb; simp at hb
  | stopped h1 h2 h3 h4 => exact one h1 h2 h3 (by omega) (by omega)
  | failed h1 h2 h3 h4 => exact one h1 h2 h3 (by omega) (by omega)
  | @done w off n ordinal last k seg k' h1 h2 h3 h4 =>
    refine one h1 h2 h3 (by omega) fun _ => ?_
    rw [Bool.or_eq_true] at h4
    rcases h4 with h4 | h4
    · right; rw [h1.eof h4]; simp
    · exact .inl h4
  | @next w off n ordinal last k seg k' ret h1 h2 h3 h4 _ ih =>
    simp only [recordingP, Prod.mk.injEq] at h3
    obtain ⟨seen, rest, e1, e2, e3⟩ := ih
    rw [Bool.or_eq_false_iff] at h4
    rw [← h3.2] at e1 e3
    refine ⟨seg :: seen, rest, by rw [e1]; simp, .cons h1 h2 (fun he => by rw [h4.1] at he; cases he) e2,
      ?_, ?_, ?_, ?_⟩
    · intro a s b hb hne
      cases a with
      | nil =>
        simp only [List.nil_append, List.cons.injEq] at hb
        obtain ⟨rfl, rfl⟩ := hb
        rw [List.append_nil, h3.1]
        exact ⟨rfl, h4.2, h4.1⟩
      | cons x a =>
        simp only [List.cons_append, List.cons.injEq] at hb
        obtain ⟨rfl, hb⟩ := hb
        have := e3.cont a s b hb hne
        simpa using this
    · intro a s hb
      cases a with
      | nil =>
        simp only [List.nil_append, List.cons.injEq] at hb
        obtain ⟨rfl, rfl⟩ := hb
        have := e3.ret_none rfl
        rw [List.append_nil, h3.1]
        exact ⟨by rw [this.1]; rfl, this.2⟩
      | cons x a =>
        simp only [List.cons_append, List.cons.injEq] at hb
        obtain ⟨rfl, hb⟩ := hb
        have := e3.ret_last a s hb
        simpa using this
    · intro hb; cases hb
    · intro hr
      obtain ⟨a, s, rfl, hc⟩ := e3.complete hr
      exact ⟨seg :: a, s, rfl, by simpa using hc⟩

/-- Recording everything to the end yields the segments `L`. -/
def YieldsP (S : Source σ) (src : σ) (cfg : Config) (only : Bool) (L : List PSeg) : Prop :=
  ∃ last, StopsWith S src (recordingP fun _ _ => 0) [] cfg only false (.ok (0, last, L))

/-- The parser stops at one of the two assertions. -/
def Crashes (S : Source σ) (src : σ) (cfg : Config) (only : Bool) (w : List UInt8) : Prop :=
  ∃ e, StopsWith S src (recordingP fun _ _ => 0) [] cfg only false (.error e) ∧ Known w e

theorem Delivers.segments {S : Source σ} {src : σ} {w : List UInt8} (h : Delivers S src w)
    (cfg : Config) (only : Bool) : Crashes S src cfg only w ∨
      ∃ L, YieldsP S src cfg only L ∧
        Segments only cfg.colorization w cfg.position cfg.ordinal L [] := by
  obtain ⟨r, hr, ⟨e, rfl, he⟩ | ⟨ret, rfl, hs⟩⟩ := h.session (recordingP fun _ _ => 0) [] cfg only false
  · exact .inl ⟨e, hr, he⟩
  · obtain ⟨seen, rest, h1, h2, h3⟩ := hs.segments
    have hrest : rest = [] := by
      by_cases hn : rest = []
      · exact hn
      · obtain ⟨a, s, -, h4 | h4⟩ := h3.complete hn
        · exact absurd rfl h4
        · cases h4
    subst hrest
    refine .inr ⟨seen, ⟨ret.2.1, ?_⟩, h2⟩
    have h0 : ret.1 = 0 := by
      by_cases hn : seen = []
      · exact (h3.ret_none hn).1
      · have := (h3.ret_last _ _ (List.dropLast_append_getLast hn).symm).1
        simpa using this
    have : ret = (0, ret.2.1, seen) := by
      rw [← h0]
      simp only [List.nil_append] at h1
      rw [← h1]
    rw [this] at hr
    exact hr

theorem Segments.all {only : Bool} {color : Colorization} {w : List UInt8} {off : Pos} {ordinal : Nat}
    {L : List PSeg} {rest : List UInt8} (h : Segments only color w off ordinal L rest)
    {P : PSeg → Prop} (hP : ∀ w off n seg, SegOk only color w off n seg → P seg) : ∀ s ∈ L, P s := by
  induction h with
  | nil => simp
  | cons h1 _ _ _ ih =>
    intro s hs
    rcases List.mem_cons.1 hs with rfl | hs
    · exact hP _ _ _ _ h1
    · exact ih s hs

/-! ## C20 -/

/-- C20. Parsing terminates, for every input, callback and setting. -/
theorem cypher_terminates {S : Source σ} {src : σ} {w : List UInt8} (h : Delivers S src w)
    (cb : κ → PSeg → Int × κ) (k : κ) (cfg : Config) (only single : Bool) :
    ∃ r, StopsWith S src cb k cfg only single r := by
  obtain ⟨r, hr, -⟩ := h.session cb k cfg only single
  exact ⟨r, hr⟩

/-! ## C21 -/

/-- Each segment starts where the one before it stopped, contains at least one byte, and the last
one stops at the end. -/
def TilesP (hi : Nat) : Pos → List PSeg → Prop
  | pos, [] => pos.offset = hi
  | pos, s :: L => s.range.start = pos ∧ pos.offset < s.range.stop.offset ∧ TilesP hi s.range.stop L

theorem Segments.tiles {only : Bool} {color : Colorization} {w : List UInt8} {off : Pos} {ordinal : Nat}
    {L : List PSeg} {rest : List UInt8} (h : Segments only color w off ordinal L rest) :
    TilesP (off.offset + (w.length - rest.length)) off L ∧ rest.length ≤ w.length := by
  induction h with
  | nil => simp [TilesP]
  | cons h1 _ _ _ ih =>
    have e1 := h1.stop
    have e2 := h1.pos
    have e3 := h1.len
    have e4 := ih.2
    rw [List.length_drop] at ih e4
    refine ⟨⟨h1.start, by omega, ?_⟩, by omega⟩
    have : ∀ a b : Nat, a = b → ∀ p L, TilesP a p L → TilesP b p L := fun a b e p L h => e ▸ h
    exact this _ _ (by omega) _ _ ih.1

/-- C21, part. The parser reports segments that tile the input, unless one of the two assertions
fails.  The full statement, without `Crashes`, is false: both failures do occur
(`comment_in_name_crashes`, `comment_over_name_crashes`). -/
theorem cypher_tiles_partial {S : Source σ} {src : σ} {w : List UInt8} (h : Delivers S src w)
    (cfg : Config) (only : Bool) : Crashes S src cfg only w ∨
      ∃ L, YieldsP S src cfg only L ∧ TilesP (cfg.position.offset + w.length) cfg.position L := by
  rcases h.segments cfg only with h | ⟨L, h1, h2⟩
  · exact .inl h
  · exact .inr ⟨L, h1, by simpa using h2.tiles.1⟩

/-- C21. Whatever happens the grammar never rejects: the parser stops with an answer or at one of
the two assertions, never because no rule matched or nothing was consumed. -/
theorem cypher_never_rejects {S : Source σ} {src : σ} {w : List UInt8} (h : Delivers S src w)
    (cb : κ → PSeg → Int × κ) (k : κ) (cfg : Config) (only single : Bool) {r : Except Stop (Ret κ)}
    (hr : StopsWith S src cb k cfg only single r) : r ≠ .error .failed ∧ r ≠ .error .nothing := by
  obtain ⟨r', hr', h⟩ := h.session cb k cfg only single
  obtain rfl := hr.unique hr'
  rcases h with ⟨e, rfl, ⟨rfl, -⟩ | ⟨rfl, -⟩⟩ | ⟨ret, rfl, -⟩ <;> simp

/-! ## C22 -/

/-- How the segments of `w` end: only the last can be at the end of the input, it is there, and
every other ends with `;` or, if commands are allowed, with a newline. -/
def EndsP (only : Bool) (w : List UInt8) (base : Nat) : List PSeg → Prop
  | [] => True
  | s :: L => (s.eof = true → L = [] ∧ s.range.stop.offset = base + w.length) ∧
      (s.eof = false → w[s.range.stop.offset - base - 1]? = some 59 ∨
        (only = false ∧ w[s.range.stop.offset - base - 1]? = some 10)) ∧
      EndsP only w base L

theorem Segments.ends {only : Bool} {color : Colorization} {w : List UInt8} {off : Pos} {ordinal : Nat}
    {L : List PSeg} {rest : List UInt8} (h : Segments only color w off ordinal L rest)
    {W : List UInt8} {base : Nat} (hb : base ≤ off.offset)
    (hw : w = W.drop (off.offset - base)) (hl : off.offset - base ≤ W.length) : EndsP only W base L := by
  induction h with
  | nil => trivial
  | @cons w off ordinal n seg L rest h1 _ h3 _ ih =>
    have e1 := h1.stop
    have e2 := h1.pos
    have e3 := h1.len
    have e4 : w.length = W.length - (off.offset - base) := by rw [hw, List.length_drop]
    refine ⟨fun he => ⟨h3 he, ?_⟩, fun he => ?_, ?_⟩
    · have := h1.eof he; omega
    · have := h1.ending he
      rw [hw, List.getElem?_drop, show off.offset - base + (n - 1) = seg.range.stop.offset - base - 1 by omega] at this
      exact this
    · refine ih (by omega) ?_ (by omega)
      rw [hw, List.drop_drop]
      congr 1
      omega

/-- C22, part (up to the two assertions). -/
theorem cypher_eof_partial {S : Source σ} {src : σ} {w : List UInt8} (h : Delivers S src w)
    (cfg : Config) (only : Bool) : Crashes S src cfg only w ∨
      ∃ L, YieldsP S src cfg only L ∧ EndsP only w cfg.position.offset L := by
  rcases h.segments cfg only with h | ⟨L, h1, h2⟩
  · exact .inl h
  · exact .inr ⟨L, h1, h2.ends (Nat.le_refl _) (by simp) (by simp)⟩

/-! ## C23 -/

/-- The position is the one reached by counting through part of the input. -/
def CountedP (w : List UInt8) (start p : Pos) : Prop := ∃ i ≤ w.length, p = start.after (w.take i)

/-- All positions in a segment. -/
structure AllCounted (w : List UInt8) (start : Pos) (s : PSeg) : Prop where
  range : CountedP w start s.range.start ∧ CountedP w start s.range.stop
  nodes : ∀ x ∈ s.roots, Everywhere (fun n => CountedP w start n.range.start ∧
    CountedP w start n.range.stop) x
  errors : ∀ e ∈ s.errors, CountedP w start e.position

theorem Segments.counted {only : Bool} {color : Colorization} {w : List UInt8} {off : Pos} {ordinal : Nat}
    {L : List PSeg} {rest : List UInt8} (h : Segments only color w off ordinal L rest)
    {W : List UInt8} {start : Pos} {m : Nat} (hW : 96 ∉ W) (hm : m ≤ W.length) (hw : w = W.drop m)
    (ho : off = start.after (W.take m)) : ∀ s ∈ L, AllCounted W start s := by
  induction h generalizing m with
  | nil => simp
  | @cons w off ordinal n seg L rest h1 _ h3 _ ih =>
    have hq : 96 ∉ w := fun h => hW (by rw [hw] at h; exact List.mem_of_mem_drop h)
    have hlen : w.length = W.length - m := by rw [hw, List.length_drop]
    have key : ∀ i, i ≤ w.length → off.after (w.take i) = start.after (W.take (m + i)) := by
      intro i hi
      rw [ho, hw, ← Pos.after_append, List.take_add]
    have key' : ∀ i, i ≤ w.length → CountedP W start (off.after (w.take i)) := fun i hi =>
      ⟨m + i, by omega, key i hi⟩
    intro s hs
    rcases List.mem_cons.1 hs with rfl | hs
    · refine ⟨⟨⟨m, hm, by rw [h1.start]; exact ho⟩, ?_⟩, fun x hx => ?_, fun e he => ?_⟩
      · rw [h1.exact hq]; exact key' n h1.len
      · refine (h1.placed hq x hx).imp fun y hy => ?_
        obtain ⟨i, j, h4, h5, h6, h7⟩ := hy
        have := h1.len
        rw [h6, h7]
        exact ⟨key' i (by omega), key' j (by omega)⟩
      · obtain ⟨buf, rs, -, -, h4⟩ := h1.errors
        obtain ⟨q, hq, -, -, h5, -⟩ := (h4 e he).located hq
        rw [h5]; exact key' q hq
    · refine ih (m := m + n) (by have := h1.len; omega) (by rw [hw, List.drop_drop]) ?_ s hs
      rw [h1.exact hq]; exact key n h1.len

/-- C23, part. Every position in every segment, node range and error is the one obtained by counting,
if there is no backquote in the input.  Missing: inputs with backquotes, for which it can be false
(`newline_in_name`). -/
theorem cypher_positions_partial {S : Source σ} {src : σ} {w : List UInt8} (h : Delivers S src w)
    (hq : 96 ∉ w) (cfg : Config) (only : Bool) : Crashes S src cfg only w ∨
      ∃ L, YieldsP S src cfg only L ∧ ∀ s ∈ L, AllCounted w cfg.position s := by
  rcases h.segments cfg only with h | ⟨L, h1, h2⟩
  · exact .inl h
  · exact .inr ⟨L, h1, h2.counted hq (Nat.zero_le _) rfl rfl⟩

/-! ## C24 -/

/-- C24, part. No assertion fails and no constructor rejects its arguments, except for the two
assertions of `Known`. -/
theorem cypher_no_crash_partial {S : Source σ} {src : σ} {w : List UInt8} (h : Delivers S src w)
    (cb : κ → PSeg → Int × κ) (k : κ) (cfg : Config) (only single : Bool) :
    (∃ ret, StopsWith S src cb k cfg only single (.ok ret)) ∨
    (StopsWith S src cb k cfg only single (.error (.fault .assertion)) ∧ 96 ∈ w) ∨
    (StopsWith S src cb k cfg only single (.error (.crash .terminalChildren)) ∧ Commented w) := by
  obtain ⟨r, hr, ⟨e, rfl, ⟨rfl, he⟩ | ⟨rfl, he⟩⟩ | ⟨ret, rfl, -⟩⟩ := h.session cb k cfg only single
  · exact .inr (.inl ⟨hr, he⟩)
  · exact .inr (.inr ⟨hr, he⟩)
  · exact .inl ⟨ret, hr⟩

/-- In particular nothing fails if there are neither backquotes nor comments. -/
theorem cypher_plain_ok {S : Source σ} {src : σ} {w : List UInt8} (h : Delivers S src w)
    (h1 : 96 ∉ w) (h2 : ¬ Commented w) (cb : κ → PSeg → Int × κ) (k : κ) (cfg : Config)
    (only single : Bool) : ∃ ret, StopsWith S src cb k cfg only single (.ok ret) := by
  rcases cypher_no_crash_partial h cb k cfg only single with h | h | h
  · exact h
  · exact absurd h.2 h1
  · exact absurd h.2 h2

/-! ## C25 -/

/-- C25 (of every parse that is not stopped by an assertion). -/
theorem cypher_well_typed {S : Source σ} {src : σ} {w : List UInt8} (h : Delivers S src w)
    (cfg : Config) (only : Bool) {L : List PSeg} (hL : YieldsP S src cfg only L) :
    ∀ s ∈ L, ∀ x ∈ s.roots, WellTyped x := by
  obtain ⟨last, hL⟩ := hL
  rcases h.segments cfg only with ⟨e, h1, -⟩ | ⟨L', ⟨last', h1⟩, h2⟩
  · cases hL.unique h1
  · cases hL.unique h1
    exact h2.all fun w off n seg hs => hs.typed

/-! ## C26 -/

/-- C26 (of every parse that is not stopped by an assertion). -/
theorem cypher_ranges_nest {S : Source σ} {src : σ} {w : List UInt8} (h : Delivers S src w)
    (cfg : Config) (only : Bool) {L : List PSeg} (hL : YieldsP S src cfg only L) :
    ∀ s ∈ L, InOrder s.roots ∧
      ∀ x ∈ s.roots, Within s.range.start.offset s.range.stop.offset x := by
  obtain ⟨last, hL⟩ := hL
  rcases h.segments cfg only with ⟨e, h1, -⟩ | ⟨L', ⟨last', h1⟩, h2⟩
  · cases hL.unique h1
  · cases hL.unique h1
    exact h2.all fun w off n seg hs => ⟨hs.order, by rw [hs.start, hs.stop]; exact hs.within⟩

/-! ## C31 -/

/-- C31 for the main parser. The callback sees consecutive segments of the input under the protocol,
whatever it answers. -/
theorem cypher_callback_protocol {S : Source σ} {src : σ} {w : List UInt8} (h : Delivers S src w)
    (f : List PSeg → PSeg → Int) (cfg : Config) (only single : Bool)
    {ret : Int} {last : Option Pos} {seen : List PSeg}
    (hr : StopsWith S src (recordingP f) [] cfg only single (.ok (ret, last, seen))) :
    ∃ rest, Segments only cfg.colorization w cfg.position cfg.ordinal seen rest ∧
      ProtocolP f single [] seen ret none last rest := by
  obtain ⟨r, hr', ⟨e, rfl, he⟩ | ⟨ret', rfl, hs⟩⟩ := h.session (recordingP f) [] cfg only single
  · cases hr.unique hr'
  · cases hr.unique hr'
    obtain ⟨seen', rest, h1, h2, h3⟩ := hs.segments
    simp only [List.nil_append] at h1
    subst h1
    exact ⟨rest, h2, h3⟩

/-! ## C30 -/

def PSeg.desc (s : PSeg) : SegDesc :=
  ⟨s.range, s.errors, s.roots.map fun n => (n.id, n.toAst), s.directive.map (·.id), s.eof⟩

theorem Segments.built {only : Bool} {color : Colorization} {w : List UInt8} {off : Pos} {ordinal : Nat}
    {L : List PSeg} {rest : List UInt8} (h : Segments only color w off ordinal L rest) :
    L.map PSeg.toSegment = buildSegments ordinal (L.map PSeg.desc) := by
  induction h with
  | nil => rfl
  | cons _ h2 _ _ ih =>
    simp only [List.map_cons, buildSegments, ih]
    subst h2
    rfl

/-- C30. Over a whole parse the ordinals of all nodes of all segments, in order, are consecutive from
the configured one. -/
theorem cypher_ordinals {S : Source σ} {src : σ} {w : List UInt8} (h : Delivers S src w)
    (cfg : Config) (only : Bool) {L : List PSeg} (hL : YieldsP S src cfg only L) :
    ((L.map PSeg.toSegment).flatMap fun s => preorderList (s.rts.map (·.2))) =
      List.range' cfg.ordinal ((L.map fun s => sizeList (s.toSegment.rts.map (·.2))).sum) := by
  obtain ⟨last, hL⟩ := hL
  rcases h.segments cfg only with ⟨e, h1, -⟩ | ⟨L', ⟨last', h1⟩, h2⟩
  · cases hL.unique h1
  · cases hL.unique h1
    have hb := h2.built
    obtain ⟨g1, g2⟩ := ordinals_across_segments (L.map PSeg.desc) cfg.ordinal
    rw [← hb] at g1 g2
    rw [g1, List.map_map]
    congr 2
    apply List.map_congr_left
    intro s hs
    exact g2 _ (List.mem_map_of_mem hs)

/-! ## C32 -/

/-- C32, part. The directive of a segment is NULL or one of its roots (no two nodes have the same
identity), a statement or, if commands are allowed, a command.  Missing: that a segment with neither
directive nor error is empty, which is false (`errors_lost`). -/
theorem cypher_directive_partial {S : Source σ} {src : σ} {w : List UInt8} (h : Delivers S src w)
    (cfg : Config) (only : Bool) {L : List PSeg} (hL : YieldsP S src cfg only L) :
    ∀ s ∈ L, (Node.idss s.roots).Nodup ∧ ∀ r, s.directive = some r →
      (∃ x ∈ s.roots, x.ref = r) ∧ (r.ty = .statement ∨ (only = false ∧ r.ty = .command)) := by
  obtain ⟨last, hL⟩ := hL
  rcases h.segments cfg only with ⟨e, h1, -⟩ | ⟨L', ⟨last', h1⟩, h2⟩
  · cases hL.unique h1
  · cases hL.unique h1
    exact h2.all fun w off n seg hs => ⟨hs.ids, hs.directive⟩

/-! ## C33 -/

theorem Segments.placed {only : Bool} {color : Colorization} {w : List UInt8} {off : Pos} {ordinal : Nat}
    {L : List PSeg} {rest : List UInt8} (h : Segments only color w off ordinal L rest)
    {P : Nat → PSeg → Prop} (hP : ∀ w' off' n seg, off'.offset + w'.length = off.offset + w.length →
      (96 ∉ w → 96 ∉ w') → SegOk only color w' off' n seg → P (off.offset + w.length) seg) :
    ∀ s ∈ L, P (off.offset + w.length) s := by
  induction h with
  | nil => simp
  | @cons w off ordinal n seg L rest h1 _ _ _ ih =>
    intro s hs
    rcases List.mem_cons.1 hs with rfl | hs
    · exact hP _ _ _ _ rfl id h1
    · have e1 := h1.stop
      have e2 := h1.len
      have e : seg.range.stop.offset + (w.drop n).length = off.offset + w.length := by
        rw [List.length_drop]; omega
      rw [← e]
      refine ih (fun w' off' n' seg' g1 g2 g3 => ?_) s hs
      rw [e]
      exact hP w' off' n' seg' (g1.trans e) (fun hw => g2 fun hm => hw (List.mem_of_mem_drop hm)) g3

/-- C33, part. The errors of a segment lie between its start and the end of the input, have a context,
and (if there is no backquote in the input) are in strictly increasing order.  Missing: that they lie
in the segment, which is false (`error_beyond_segment`). -/
theorem cypher_errors_partial {S : Source σ} {src : σ} {w : List UInt8} (h : Delivers S src w)
    (cfg : Config) (only : Bool) {L : List PSeg} (hL : YieldsP S src cfg only L) :
    ∀ s ∈ L, (∀ e ∈ s.errors, s.range.start.offset ≤ e.position.offset ∧
        e.position.offset ≤ cfg.position.offset + w.length ∧ e.context.isSome = true) ∧
      (96 ∉ w → s.errors.Pairwise fun a b => a.position.offset < b.position.offset) := by
  obtain ⟨last, hL⟩ := hL
  rcases h.segments cfg only with ⟨e, h1, -⟩ | ⟨L', ⟨last', h1⟩, h2⟩
  · cases hL.unique h1
  · cases hL.unique h1
    refine h2.placed (P := fun hi s => (∀ e ∈ s.errors, s.range.start.offset ≤ e.position.offset ∧
        e.position.offset ≤ hi ∧ e.context.isSome = true) ∧
      (96 ∉ w → s.errors.Pairwise fun a b => a.position.offset < b.position.offset)) ?_
    intro w' off' n seg e1 e2 hs
    refine ⟨fun e he => ?_, fun hw => hs.sorted (e2 hw)⟩
    obtain ⟨buf, rs, g1, -, g3⟩ := hs.errors
    have h4 := g3 e he
    have h5 := h4.hi
    have : w'.length = buf.length + rs.length := by rw [g1, List.length_append]
    rw [hs.start]
    exact ⟨h4.lo, by omega, h4.context.1⟩

/-! ## C36 -/

/-- C36. Whatever a rule does, it leaves the precedence stack as it was; the operator register is
read only when set; and when the actions of a whole match have run, the operator stack and the blocks
are what they were, with nodes added. -/
theorem stacks_balanced {S : Source σ} :
    (∀ (q : Rule) (v : Option Nat) (s : St Act (Reader σ × CState)) (r : Res Act (Reader σ × CState)),
      Eval grammar (chost S) (.nt q v) s r → ∀ g ∈ r.g?, g.2.precs = s.g.2.precs) ∧
    (∀ (only : Bool) (s : St Act (Reader σ × CState)) (x : Pred) (p : Nat) (g : Reader σ × CState),
      Called grammar (chost S) (.nt (startRule only) none) s x p g → x = .precPush ∨ x = .precChk →
      g.2.op.isSome = true) ∧
    (∀ {D : Reader σ → List UInt8 → Prop} {w : List UInt8} {c : PCtx σ} (only : Bool)
      (s : St Act (Reader σ × CState)) (m : Mach), Feeds S D → c.reader.At D w 0 → Ready c →
      Eval grammar (chost S) (.nt (startRule only) none) ⟨0, [], (c.reader, c.st)⟩ (.ok s) →
      Mach.exec ⟨s.g.2.off, s.g.2.lines, s.g.1.buf, s.pos⟩ s.thunks
        { c.mach with result := none, eof := false, frames := [], errs := s.g.2.errs.errors } = .ok m →
      m.ops = [] ∧ m.prev = none ∧ ∃ b, m.blocks = [b] ∧ b.seq = []) := by
  refine ⟨fun q v s r h => precs_balanced h, fun only s x p g h hx => ?_, ?_⟩
  · refine op_used h (by rcases hx with rfl | rfl <;> rfl) false (by simp) ?_
    cases only <;> decide +kernel
  · intro D w c only s m hf hi hc h hm
    obtain ⟨n1, hrun⟩ := Eval.to_run h
    obtain ⟨n2, r, h1, h2⟩ := parseOne_spec hf only hi hc
    have h3 := h1 (max n1 n2) (by omega)
    unfold parseOne at h3
    rw [run_mono _ _ _ _ hrun _ (by omega : n1 ≤ max n1 n2)] at h3
    have h3 := Option.some.inj h3
    unfold finishOne at h3
    rw [hm] at h3
    simp only at h3
    split at h3
    · rename_i top htop
      split at h3
      · rename_i hcond
        exact ⟨hcond.2.2.1, by simpa using hcond.2.1, top, htop, hcond.1⟩
      · subst h3; simp at h2
    · subst h3; simp at h2

/-! ## Witnesses and examples -/

/-- The outcome with the segments reduced to offsets, errors' offsets, the number of nodes, and whether
there is a directive and the end was reached. -/
def outline (r : Option (Except Stop (Ret (List PSeg)))) :
    Option (Except Stop (Int × List (Nat × Nat × List Nat × Nat × Bool × Bool))) :=
  r.map fun r => match r with
    | .error e => .error e
    | .ok (i, _, l) => .ok (i, l.map fun s => (s.range.start.offset, s.range.stop.offset,
        s.errors.map (·.position.offset), s.toSegment.nnodes, s.directive.isSome, s.eof))

def plainCfg : Config := ⟨⟨1, 1, 0⟩, 0, noColorization⟩

/-- One run tells the outcome. -/
theorem yields_of_run {S : Source σ} {src : σ} {cfg : Config} {only : Bool} {fuel : Nat}
    {last : Option Pos} {L : List PSeg}
    (h : collect S src cfg only false fuel = some (.ok (0, last, L))) : YieldsP S src cfg only L :=
  ⟨last, fuel, fun _ hle => parseEach_mono h hle⟩

theorem yields_of_test {S : Source σ} {src : σ} {cfg : Config} {only : Bool} {fuel : Nat}
    (P : List PSeg → Bool)
    (h : (match collect S src cfg only false fuel with
      | some (.ok (0, _, L)) => P L
      | _ => false) = true) : ∃ L, YieldsP S src cfg only L ∧ P L = true := by
  split at h
  · rename_i last L heq; exact ⟨L, yields_of_run heq, h⟩
  · cases h

/-- C24 is false: `RETURN a./**/b()` stops at the assertion in `_add_terminal` that a terminal has no
children (parser.c:3085): the comment inside the name is a child of the name's block. -/
theorem comment_in_name_crashes :
    StopsWith streamSource (ascii "RETURN a./**/b()") (recordingP fun _ _ => 0) [] plainCfg false false
      (.error (.crash .terminalChildren)) := by
  have h : (match collect streamSource (ascii "RETURN a./**/b()") plainCfg false false 140 with
      | some (.error (.crash .terminalChildren)) => true
      | _ => false) = true := by decide +kernel
  split at h
  · rename_i heq; exact ⟨140, fun _ hle => parseEach_mono heq hle⟩
  · cases h

/-- The other failure, the assertion in `cp_et_note_potential_error` that potential errors at the same
offset have the same line and column (errors.c:97-98), also occurs.  In ``CYPHER a=/* RETURN `⏎` `` the
comment is read to the end of the input, counting lines, where the end of it is missed.  It is then taken as the
text of an option, and the name is read without counting the line in it, so that what is missed
after it is noted at the same offset in another line. -/
theorem comment_over_name_crashes :
    StopsWith streamSource (ascii "CYPHER a=/* RETURN `\n` ") (recordingP fun _ _ => 0) [] plainCfg false
      false (.error (.fault .assertion)) := by
  have h : (match collect streamSource (ascii "CYPHER a=/* RETURN `\n` ") plainCfg false false 140 with
      | some (.error (.fault .assertion)) => true
      | _ => false) = true := by decide +kernel
  split at h
  · rename_i heq; exact ⟨140, fun _ hle => parseEach_mono heq hle⟩
  · cases h

/-- C23 is false with backquotes: in ``RETURN `⏎`;`` the newline in the name is not noticed, and the
segment is said to stop in line 1. -/
theorem newline_in_name : ∃ L, YieldsP streamSource (ascii "RETURN `\n`;") plainCfg false L ∧
    ∃ s ∈ L, ¬ CountedP (ascii "RETURN `\n`;") plainCfg.position s.range.stop := by
  obtain ⟨L, h1, h2⟩ := yields_of_test (fun L => (L.map (·.range.stop)) == [⟨1, 12, 11⟩])
    (S := streamSource) (src := ascii "RETURN `\n`;") (cfg := plainCfg) (only := false) (fuel := 100)
    (by decide +kernel)
  refine ⟨L, h1, ?_⟩
  simp only [beq_iff_eq] at h2
  cases L with
  | nil => cases h2
  | cons s L =>
    refine ⟨s, List.mem_cons_self, ?_⟩
    rintro ⟨i, hi, he⟩
    have h3 : s.range.stop = ⟨1, 12, 11⟩ := by simpa using (List.cons.inj h2).1
    have h4 := congrArg Pos.offset he
    rw [Pos.after_offset, h3, List.length_take] at h4
    have hl : (ascii "RETURN `\n`;").length = 11 := by decide +kernel
    simp only [plainCfg] at h4
    have : i = 11 := by omega
    subst this
    rw [h3] at he
    exact absurd he (by decide +kernel)

/-- C32 is false: in `CYPHER a=/* RETURN 1;a;` the second segment, `a;`, is not empty, but has neither
a directive nor an error.  While reading the first one the end of a comment was looked for up to the end
of the input; when the segment was done that potential error was discarded, but not its position
(`clear_potentials_stale`), so that every error before it is lost. -/
theorem errors_lost : ∃ L, YieldsP streamSource (ascii "CYPHER a=/* RETURN 1;a;") plainCfg false L ∧
    ∃ s ∈ L, s.directive = none ∧ s.eof = false ∧ s.errors = [] ∧
      (ascii "CYPHER a=/* RETURN 1;a;").extract s.range.start.offset s.range.stop.offset = ascii "a;" := by
  obtain ⟨L, h1, h2⟩ := yields_of_test
    (fun L => L.any fun s => s.directive.isNone && !s.eof && s.errors.isEmpty &&
      (ascii "CYPHER a=/* RETURN 1;a;").extract s.range.start.offset s.range.stop.offset == ascii "a;")
    (S := streamSource) (src := ascii "CYPHER a=/* RETURN 1;a;") (cfg := plainCfg) (only := false)
    (fuel := 80) (by decide +kernel)
  refine ⟨L, h1, ?_⟩
  rw [List.any_eq_true] at h2
  obtain ⟨s, hs, h2⟩ := h2
  simp only [Bool.and_eq_true, Option.isNone_iff_eq_none, Bool.not_eq_true', List.isEmpty_iff,
    beq_iff_eq] at h2
  exact ⟨s, hs, h2.1.1.1, h2.1.1.2, h2.1.2, h2.2⟩

/-- C33 is false: in `RETURN ';b` the first segment stops after the `;`, its error is at the end of the
input. -/
theorem error_beyond_segment : ∃ L, YieldsP streamSource (ascii "RETURN ';b") plainCfg false L ∧
    ∃ s ∈ L, ∃ e ∈ s.errors, s.range.stop.offset < e.position.offset := by
  obtain ⟨L, h1, h2⟩ := yields_of_test
    (fun L => L.any fun s => s.errors.any fun e => decide (s.range.stop.offset < e.position.offset))
    (S := streamSource) (src := ascii "RETURN ';b") (cfg := plainCfg) (only := false) (fuel := 100)
    (by decide +kernel)
  refine ⟨L, h1, ?_⟩
  simp only [List.any_eq_true, decide_eq_true_eq] at h2
  exact h2

/-- A statement, an error, a command ended by a newline, and a comment before the end. -/
def sampleP : List UInt8 := ascii "MATCH (n:X) RETURN n.y < 3 + 4; x; :c d\n /* e */"

example : (match outline (collect streamSource sampleP plainCfg false false 120) with
    | some (.ok x) => x == (0, [(0, 31, [], 18, true, false), (31, 34, [32], 1, false, false),
        (34, 40, [], 3, true, false), (40, 48, [], 1, false, true)])
    | _ => false) = true := by decide +kernel

/-- The same in portions, starting elsewhere. -/
example : (match outline (collect portions (sampleP, [3, 0, 11]) ⟨⟨3, 5, 100⟩, 7, noColorization⟩ false
      false 120) with
    | some (.ok x) => x == (0, [(100, 131, [], 18, true, false), (131, 134, [132], 1, false, false),
        (134, 140, [], 3, true, false), (140, 148, [], 1, false, true)])
    | _ => false) = true := by decide +kernel

/-- The hypotheses of `cypher_plain_ok` are met. -/
example : ∃ ret, StopsWith streamSource (ascii "RETURN 1;") (recordingP fun _ _ => 0) [] plainCfg false
    false (.ok ret) :=
  cypher_plain_ok (stream_delivers _) (by decide +kernel) (by
    rintro ⟨p, hp⟩
    have h : ∀ p < 10, ¬ ((ascii "RETURN 1;").extract p (p + 2) = [47, 47] ∨
      (ascii "RETURN 1;").extract p (p + 2) = [47, 42]) := by decide +kernel
    by_cases hlt : p < 10
    · exact h p hlt hp
    · have : (ascii "RETURN 1;").extract p (p + 2) = [] := by
        rw [List.extract_eq_take_drop, List.drop_eq_nil_of_le (by
          have : (ascii "RETURN 1;").length = 9 := by decide +kernel
          omega)]
        simp
      rw [this] at hp; simp at hp) _ _ _ _ _

/-- A callback that stops at the first error has seen two segments; the next one is not read. -/
example : (match outline (parseEach streamSource sampleP
      (recordingP fun _ s => if s.errors = [] then 0 else -7) [] plainCfg false false 120) with
    | some (.ok x) => x == (-7, [(0, 31, [], 18, true, false), (31, 34, [32], 1, false, false)])
    | _ => false) = true := by decide +kernel

end Verif
