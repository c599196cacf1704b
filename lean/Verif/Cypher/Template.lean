import Verif.Cypher.Step
/-!
# Parsing a text with a hole

`Tmpl.run` is the generated parser on a text of which one piece is not known: only its first byte and
the rule that matches it are. Where the parser would look further into the piece the run gives up.
`Tmpl.run_sound` says that what the run finds holds for whatever the piece is.

Places in the text are counted as if the piece were one byte long.
-/
namespace Verif.Cypher
open Verif.Peg

/-- A text with a hole: what comes before, the first byte of the piece, what comes after, and the rule
that matches the piece. -/
structure Tmpl where
  pre : List UInt8
  first : UInt8
  post : List UInt8
  rule : Rule

/-- Thunks; those of the piece are not known. -/
inductive VTh where
  | th (t : Peg.Thunk Act)
  | hole
  deriving DecidableEq

/-- The state of the parser: `seen` places have been looked at, `past` says that the line starts of
the piece are on the stack, `last` is the place of the labels. -/
structure VSt where
  pos : Nat
  seen : Nat
  past : Bool
  labels : List (List UInt8)
  last : Nat
  op : Option Op
  precs : List Nat
  ts : List VTh

inductive VRes where
  | ok (v : VSt)
  | no (v : VSt)

namespace Tmpl

/-- The text, with the piece shown by its first byte. -/
def text (T : Tmpl) : List UInt8 := T.pre ++ T.first :: T.post

def look (v : VSt) : VSt := { v with seen := max v.seen (v.pos + 1) }

/-- `matchStr`: `none` when it would look into the piece. -/
def str (T : Tmpl) (start : Nat) : List UInt8 → Nat → Nat → Option (Bool × Nat × Nat)
  | [], k, n => some (true, k, n)
  | c :: cs, k, n => match T.text[k]? with
    | none => some (false, k, max n (k + 1))
    | some d =>
      bif d == c then bif k == T.pre.length then none else T.str start cs (k + 1) (max n (k + 1))
      else some (false, start, max n (k + 1))

/-- Noting a label. -/
def note (T : Tmpl) (l : Nat) (v : VSt) : Option VSt :=
  let low := decide (v.pos ≤ T.pre.length)
  bif (low || v.past) && decide (v.pos < v.seen) then
    let v := { v with past := !low }
    bif v.labels.isEmpty || decide (v.last < v.pos) then
      some { v with last := v.pos, labels := [labelText l] }
    else bif decide (v.pos < v.last) then some v
    else bif v.labels.contains (labelText l) then some v
    else some { v with labels := v.labels ++ [labelText l] }
  else none

def pred (T : Tmpl) (x : Pred) (v : VSt) : Option (Bool × VSt) :=
  match x with
  | .blockStart => some (true, { v with ts := .th (.act .blockStart v.pos) :: v.ts })
  | .blockEnd => some (true, { v with ts := .th (.act .blockEnd v.pos) :: v.ts })
  | .blockReplace => some (true, { v with ts := .th (.act .blockReplace v.pos) :: v.ts })
  | .blockMerge => some (true, { v with ts := .th (.act .blockMerge v.pos) :: v.ts })
  | .yes => some (true, v)
  | .no => some (false, v)
  | .lineStart => none
  | .recordError => none
  | .err l => match T.note l v with
    | some v => some (true, v)
    | none => none
  | .op o => some (true, { v with op := some o })
  | .precPushTop => some (true, { v with precs := 0 :: v.precs })
  | .precPush => match v.op with
    | none => none
    | some o => some (true, { v with precs := o.next :: v.precs })
  | .precPop => some (true, { v with precs := v.precs.tail })
  | .precChk => match v.op with
    | none => none
    | some o => some (decide (lastPrec v.precs ≤ o.prec), v)

def enter (n : Nat) (v : VSt) : VSt :=
  bif n == 0 then v else { v with ts := .th (.push n) :: v.ts }

def leave (n : Nat) (var : Option Nat) (v : VSt) : VSt :=
  let v := bif n == 0 then v else { v with ts := .th (.pop n) :: v.ts }
  match var with
  | none => v
  | some i => { v with ts := .th (.set i) :: v.ts }

def restore (saved now : VSt) : VSt := { now with pos := saved.pos, ts := saved.ts }

/-- The generated code, as `Peg.run`. -/
def run (T : Tmpl) : Nat → E → VSt → Option VRes
  | 0, _, _ => none
  | n + 1, e, s =>
    match e with
    | .eps => some (.ok s)
    | .one m =>
      match T.text[s.pos]? with
      | none => some (.no (look s))
      | some c =>
        bif m.mem c then
          bif s.pos == T.pre.length then none else some (.ok { look s with pos := s.pos + 1 })
        else some (.no (look s))
    | .str l =>
      match T.str s.pos l s.pos s.seen with
      | none => none
      | some (true, p, k) => some (.ok { s with pos := p, seen := k })
      | some (false, p, k) => some (.no { s with pos := p, seen := k })
    | .nt r var =>
      bif decide (r = T.rule) && s.pos == T.pre.length && var.isNone then
        some (.ok { look s with pos := s.pos + 1, past := true, ts := .hole :: s.ts })
      else
        match T.run n (grammar r).body (enter (grammar r).nvars s) with
        | some (.ok s1) => some (.ok (leave (grammar r).nvars var s1))
        | some (.no s1) => some (.no (restore s s1))
        | none => none
    | .seq a b =>
      match T.run n a s with
      | some (.ok s1) => T.run n b s1
      | r => r
    | .alt a b =>
      match T.run n a s with
      | some (.no s1) => T.run n b (restore s s1)
      | r => r
    | .star a =>
      match T.run n a s with
      | some (.ok s1) => T.run n (.star a) s1
      | some (.no s1) => some (.ok (restore s s1))
      | r => r
    | .peek a =>
      match T.run n a s with
      | some (.ok s1) => some (.ok (restore s s1))
      | r => r
    | .npeek a =>
      match T.run n a s with
      | some (.ok s1) => some (.no s1)
      | some (.no s1) => some (.ok (restore s s1))
      | r => r
    | .pred p =>
      match T.pred p s with
      | some (true, s1) => some (.ok s1)
      | some (false, s1) => some (.no s1)
      | none => none
    | .act a => some (.ok { s with ts := .th (.act a s.pos) :: s.ts })
    | .onfail a p =>
      match T.run n a s with
      | some (.no s1) => match T.pred p s1 with
        | some (_, s2) => some (.no s2)
        | none => none
      | r => r

/-- The state at the start. -/
def start : VSt := ⟨0, 0, false, [], 0, none, [], []⟩

end Tmpl

/-! ## What it means -/

variable {σ : Type}

/-- A piece for the hole: its bytes, the thunks of its rule, and the line starts after it. -/
structure Piece where
  bytes : List UInt8
  ts : List (Peg.Thunk Act)
  lines : List Nat

namespace Piece

/-- The whole text. -/
def whole (F : Piece) (T : Tmpl) : List UInt8 := T.pre ++ F.bytes ++ T.post

/-- Where a place of the template is in the whole text. -/
def at_ (F : Piece) (T : Tmpl) (k : Nat) : Nat :=
  if k ≤ T.pre.length then k else k - 1 + F.bytes.length

def thunk (F : Piece) (T : Tmpl) : VTh → List (Peg.Thunk Act)
  | .th (.act a k) => [.act a (F.at_ T k)]
  | .th t => [t]
  | .hole => F.ts

def thunks (F : Piece) (T : Tmpl) (l : List VTh) : List (Peg.Thunk Act) := l.flatMap (F.thunk T)

/-- The piece begins as the template says, its rule matches it, and the line starts found lie in it. -/
structure Ok (F : Piece) (T : Tmpl) (S : Source σ) (D : Reader σ → List UInt8 → Prop) : Prop where
  first : F.bytes[0]? = some T.first
  lines : ∃ A, F.lines = A ++ [0] ∧ ∀ x ∈ A, T.pre.length < x ∧ x ≤ T.pre.length + F.bytes.length
  eval : ∀ (r : Reader σ) (c : CState) (ts : List (Peg.Thunk Act)), r.At D (F.whole T) T.pre.length →
    c.lines = [0] ∨ c.lines = F.lines →
    ∃ r' : Reader σ, Eval grammar (chost S) (.nt T.rule none) ⟨T.pre.length, ts, (r, c)⟩
      (.ok ⟨T.pre.length + F.bytes.length, F.ts ++ ts, (r', { c with lines := F.lines })⟩)

/-- The position reported for a place. -/
def posOf (F : Piece) (T : Tmpl) (off : Pos) (k : Nat) : Pos :=
  match inputPosition off F.lines (F.at_ T k) with
  | .ok x => x
  | .error _ => off

/-- The state `v` of the template stands for the reader `r` and the state `c`. -/
structure Is (F : Piece) (T : Tmpl) (D : Reader σ → List UInt8 → Prop) (off : Pos) (v : VSt)
    (r : Reader σ) (c : CState) : Prop where
  at_ : r.At D (F.whole T) (F.at_ T v.pos)
  seen : ∀ k, k < v.seen → F.at_ T k < (F.whole T).length → F.at_ T k < r.buf.length
  offset : c.off = off
  lines : c.lines = bif v.past then F.lines else [0]
  errors : c.errs.errors = []
  labels : c.errs.labels = v.labels
  fresh : v.labels = [] → c.errs.lastPosition.offset ≤ off.offset
  last : v.labels ≠ [] → c.errs.lastPosition = F.posOf T off v.last ∧
    c.errs.lastChar = (F.whole T)[F.at_ T v.last]?.getD 0
  op : c.op = v.op
  precs : c.precs = v.precs

variable {F : Piece} {T : Tmpl} {S : Source σ} {D : Reader σ → List UInt8 → Prop} {off : Pos}

theorem Ok.pos (h : F.Ok T S D) : 0 < F.bytes.length := by
  have := h.first
  cases hb : F.bytes with
  | nil => rw [hb] at this; cases this
  | cons => simp

theorem Ok.at_lt (h : F.Ok T S D) {j k : Nat} : F.at_ T j < F.at_ T k ↔ j < k := by
  have := h.pos
  unfold Piece.at_
  split <;> split <;> omega

theorem Ok.at_le (h : F.Ok T S D) {j k : Nat} : F.at_ T j ≤ F.at_ T k ↔ j ≤ k := by
  have := h.pos
  unfold Piece.at_
  split <;> split <;> omega

theorem at_succ {k : Nat} (hk : k ≠ T.pre.length) : F.at_ T (k + 1) = F.at_ T k + 1 := by
  unfold Piece.at_
  split <;> split <;> omega

theorem Ok.get (h : F.Ok T S D) (k : Nat) : (F.whole T)[F.at_ T k]? = T.text[k]? := by
  have hp := h.pos
  unfold Piece.at_ Piece.whole Tmpl.text
  by_cases h1 : k ≤ T.pre.length
  · rw [if_pos h1]
    rcases Nat.lt_or_eq_of_le h1 with h2 | rfl
    · rw [List.append_assoc, List.getElem?_append_left h2, List.getElem?_append_left h2]
    · rw [List.append_assoc, List.getElem?_append_right (Nat.le_refl _),
        List.getElem?_append_right (Nat.le_refl _), Nat.sub_self, List.getElem?_append_left hp, h.first]
      rfl
  · rw [if_neg h1, List.getElem?_append_right (by simp; omega),
      List.getElem?_append_right (by omega)]
    obtain ⟨d, rfl⟩ : ∃ d, k = T.pre.length + 1 + d := ⟨k - (T.pre.length + 1), by omega⟩
    rw [show T.pre.length + 1 + d - T.pre.length = d + 1 by omega, List.getElem?_cons_succ]
    congr 1
    simp only [List.length_append]
    omega

theorem dropWhile_nil {p : Nat → Bool} : ∀ {l : List Nat}, (∀ x ∈ l, p x = true) → l.dropWhile p = []
  | [], _ => rfl
  | a :: l, h => by
    rw [List.dropWhile_cons_of_pos (h a (by simp))]
    exact dropWhile_nil fun x hx => h x (by simp [hx])

theorem Ok.low (h : F.Ok T S D) {k : Nat} (hk : k ≤ T.pre.length) : backtrackL k F.lines = [0] := by
  obtain ⟨A, e, hA⟩ := h.lines
  rw [e]
  unfold backtrackL
  rw [List.dropWhile_append]
  have : A.dropWhile (fun x => decide (k < x)) = [] := dropWhile_nil fun x hx => by
    have := hA x hx
    simp; omega
  rw [this]; simp

theorem Ok.high (h : F.Ok T S D) {k : Nat} (hk : T.pre.length + F.bytes.length ≤ k) :
    backtrackL k F.lines = F.lines := by
  obtain ⟨A, e, hA⟩ := h.lines
  rw [e]
  unfold backtrackL
  cases A with
  | nil => simp
  | cons a A =>
    have := hA a (by simp)
    rw [List.cons_append, List.dropWhile_cons_of_neg (by simp; omega)]

theorem Ok.zero (h : F.Ok T S D) {k : Nat} : backtrackL k F.lines ≠ [] := by
  obtain ⟨A, e, hA⟩ := h.lines
  have : 0 ∈ backtrackL k F.lines := by
    rw [e]
    unfold backtrackL
    rw [List.dropWhile_append]
    split <;> simp
  intro hn
  rw [hn] at this
  cases this

theorem Ok.position (h : F.Ok T S D) (off : Pos) (k : Nat) :
    inputPosition off F.lines (F.at_ T k) = .ok (F.posOf T off k) ∧
      (F.posOf T off k).offset = off.offset + F.at_ T k := by
  have : ∃ x, inputPosition off F.lines (F.at_ T k) = .ok x := by
    unfold inputPosition
    have := h.zero (k := F.at_ T k)
    cases hb : backtrackL (F.at_ T k) F.lines with
    | nil => exact absurd hb this
    | cons => exact ⟨_, rfl⟩
  obtain ⟨x, hx⟩ := this
  unfold posOf
  rw [hx]
  exact ⟨rfl, by rw [inputPosition_offset hx, Nat.add_comm]⟩

/-! ## Soundness -/

/-- Places looked at stay looked at. -/
theorem Is.peek (hF : F.Ok T S D) (hf : Feeds S D) {v : VSt} {r : Reader σ} {c : CState}
    (h : F.Is T D off v r c) {k : Nat} (hk : r.At D (F.whole T) (F.at_ T k)) :
    ∃ r', (chost S).peek (F.at_ T k) (r, c) = (T.text[k]?, (r', c)) ∧
      r'.At D (F.whole T) (F.at_ T k) ∧
      (k ≠ T.pre.length → (T.text[k]?).isSome → r'.At D (F.whole T) (F.at_ T (k + 1))) ∧
      F.Is T D off { v with seen := max v.seen (k + 1), pos := k } r' c := by
  have hr := hf.readsAs (F.whole T) (cpred (σ := σ))
  have h1 := hr.val (p := F.at_ T k) (g := (r, c)) hk
  have h2 := hr.keep (p := F.at_ T k) (g := (r, c)) hk
  have h3 := hr.next (p := F.at_ T k) (g := (r, c)) hk
  have h4 : ((chost S).peek (F.at_ T k) (r, c)).2.2 = c := rfl
  have h5 : r.buf.length ≤ ((chost S).peek (F.at_ T k) (r, c)).2.1.buf.length :=
    Reader.peek_grows (F.at_ T k) r
  change ((chost S).peek (F.at_ T k) (r, c)).1 = _ at h1
  change ((chost S).peek (F.at_ T k) (r, c)).2.1.At D _ _ at h2
  change _ → ((chost S).peek (F.at_ T k) (r, c)).2.1.At D _ _ at h3
  generalize (chost S).peek (F.at_ T k) (r, c) = x at *
  obtain ⟨o, r', c'⟩ := x
  simp only at h1 h2 h3 h4 h5
  subst h4
  rw [hF.get] at h1
  subst h1
  refine ⟨r', rfl, h2, fun hne hs => ?_, ?_⟩
  · rw [at_succ hne]
    refine h3 ?_
    rw [← hF.get, Option.isSome_iff_exists] at hs
    obtain ⟨a, ha⟩ := hs
    exact (List.getElem?_eq_some_iff.1 ha).1
  · refine ⟨h2, fun j hj hw => ?_, h.offset, h.lines, h.errors, h.labels, h.fresh, h.last, h.op, h.precs⟩
    by_cases hj' : j < v.seen
    · exact Nat.lt_of_lt_of_le (h.seen j hj' hw) h5
    · simp only at hj
      have hle : j ≤ k := by omega
      have := hF.at_le.2 hle
      rcases Nat.lt_or_eq_of_le this with hlt | heq
      · exact Nat.lt_of_lt_of_le hlt h2.pos_le
      · rw [heq] at hw ⊢
        exact (h3 hw).pos_le

theorem Is.move {v : VSt} {r : Reader σ} {c : CState} (h : F.Is T D off v r c) {k : Nat} (hk : r.At D (F.whole T) (F.at_ T k))
    (ts : List VTh) : F.Is T D off { v with pos := k, ts := ts } r c :=
  ⟨hk, h.seen, h.offset, h.lines, h.errors, h.labels, h.fresh, h.last, h.op, h.precs⟩

theorem Is.note (hF : F.Ok T S D) {v v' : VSt} {r : Reader σ} {c : CState} {l : Nat}
    (h : F.Is T D off v r c) (hn : T.note l v = some v') :
    ∃ c', cpred (.err l) (F.at_ T v.pos) r c = .ok (true, c', []) ∧ v'.ts = v.ts ∧ v'.pos = v.pos ∧
      F.Is T D off v' r c' := by
  have hp := hF.position off v.pos
  unfold Tmpl.note at hn
  simp only [Bool.and_eq_true, Bool.or_eq_true, decide_eq_true_eq, cond_eq_ite] at hn
  split at hn
  case isFalse => cases hn
  rename_i hg
  obtain ⟨hg, hs⟩ := hg
  have hlines : backtrackL (F.at_ T v.pos) c.lines =
      bif !decide (v.pos ≤ T.pre.length) then F.lines else [0] := by
    rw [h.lines]
    by_cases hlow : v.pos ≤ T.pre.length
    · have he : F.at_ T v.pos = v.pos := by simp [Piece.at_, hlow]
      rw [he]
      simp only [hlow, decide_true, Bool.not_true, cond_false]
      cases v.past with
      | true => exact hF.low hlow
      | false => simp [backtrackL]
    · have hpast : v.past = true := hg.resolve_left hlow
      simp only [hlow, hpast, decide_false, Bool.not_false, cond_true]
      refine hF.high ?_
      simp only [Piece.at_, hlow, if_false]; omega
  have hpos : inputPosition c.off (backtrackL (F.at_ T v.pos) c.lines) (F.at_ T v.pos) =
      .ok (F.posOf T off v.pos) := by
    rw [← hp.1, h.offset, hlines]
    by_cases hlow : v.pos ≤ T.pre.length
    · have he : F.at_ T v.pos = v.pos := by simp [Piece.at_, hlow]
      simp only [hlow, decide_true, Bool.not_true, cond_false]
      unfold inputPosition
      rw [he, hF.low hlow]
      simp [backtrackL]
    · simp [hlow]
  have hchar : r.buf[F.at_ T v.pos]?.getD 0 = (F.whole T)[F.at_ T v.pos]?.getD 0 := by
    obtain ⟨-, -, rest, hw, -⟩ := h.at_
    by_cases hlt : F.at_ T v.pos < (F.whole T).length
    · have := h.seen v.pos hs hlt
      rw [hw, List.getElem?_append_left this]
    · have h2 : r.buf.length ≤ F.at_ T v.pos := by
        rw [hw, List.length_append] at hlt; omega
      rw [List.getElem?_eq_none h2, List.getElem?_eq_none (by omega)]
  have hc : ∀ e, c.errs.note (F.posOf T off v.pos) ((F.whole T)[F.at_ T v.pos]?.getD 0) (labelText l) = .ok e →
      cpred (.err l) (F.at_ T v.pos) r c = .ok (true,
        { c with lines := backtrackL (F.at_ T v.pos) c.lines, errs := e }, []) := by
    intro e he
    simp only [cpred, hpos, hchar, he]
  simp only [List.isEmpty_iff] at hn
  by_cases h0 : v.labels = [] ∨ v.last < v.pos
  · rw [if_pos h0] at hn
    cases hn
    have hnote : c.errs.note (F.posOf T off v.pos) ((F.whole T)[F.at_ T v.pos]?.getD 0) (labelText l) =
        .ok ⟨c.errs.colorization, F.posOf T off v.pos, (F.whole T)[F.at_ T v.pos]?.getD 0, [labelText l],
          c.errs.errors, c.errs.lastErrorOffset⟩ := by
      unfold ErrTrack.note
      have hnot : ¬ ((F.posOf T off v.pos).offset < c.errs.lastPosition.offset ∨
          (c.errs.errors.length > 0 ∧ (F.posOf T off v.pos).offset ≤ c.errs.lastErrorOffset)) := by
        rw [h.errors]
        simp only [List.length_nil, gt_iff_lt, Nat.lt_irrefl, false_and, or_false]
        rw [hp.2]
        by_cases hl : v.labels = []
        · have := h.fresh hl; omega
        · have := hF.at_lt.2 (h0.resolve_left hl)
          rw [(h.last hl).1, (hF.position off v.last).2]; omega
      have hyes : c.errs.labels.length = 0 ∨ (F.posOf T off v.pos).offset > c.errs.lastPosition.offset := by
        by_cases hl : v.labels = []
        · left; rw [h.labels, hl]; rfl
        · right
          have := hF.at_lt.2 (h0.resolve_left hl)
          rw [(h.last hl).1, (hF.position off v.last).2, hp.2]; omega
      rw [if_neg hnot]
      simp only [hyes, if_true, List.length_nil, ne_eq, not_true_eq_false, false_and, if_false,
        List.not_mem_nil]
      rfl
    refine ⟨_, hc _ hnote, rfl, rfl, ⟨h.at_, h.seen, h.offset, hlines, h.errors, rfl, ?_, ?_, h.op, h.precs⟩⟩
    · intro hl; cases hl
    · intro _; exact ⟨rfl, rfl⟩
  · rw [if_neg h0] at hn
    simp only [not_or] at h0
    obtain ⟨hl, hle⟩ := h0
    have hlast := h.last hl
    have hlo := (hF.position off v.last).2
    by_cases hlt : v.pos < v.last
    · rw [if_pos hlt] at hn
      cases hn
      refine ⟨_, hc c.errs ?_, rfl, rfl, ⟨h.at_, h.seen, h.offset, hlines, h.errors, h.labels, h.fresh, h.last, h.op, h.precs⟩⟩
      unfold ErrTrack.note
      rw [if_pos]
      left
      rw [hlast.1, hlo, hp.2]
      have := hF.at_lt.2 hlt
      omega
    · rw [if_neg hlt] at hn
      have heq : v.last = v.pos := by omega
      have hnote : c.errs.note (F.posOf T off v.pos) ((F.whole T)[F.at_ T v.pos]?.getD 0) (labelText l) =
          .ok (if labelText l ∈ c.errs.labels then c.errs
            else { c.errs with labels := c.errs.labels ++ [labelText l] }) := by
        unfold ErrTrack.note
        rw [heq] at hlast
        have hnot : ¬ ((F.posOf T off v.pos).offset < c.errs.lastPosition.offset ∨
            (c.errs.errors.length > 0 ∧ (F.posOf T off v.pos).offset ≤ c.errs.lastErrorOffset)) := by
          rw [h.errors, hlast.1]; simp
        have hno : ¬ (c.errs.labels.length = 0 ∨
            (F.posOf T off v.pos).offset > c.errs.lastPosition.offset) := by
          rw [h.labels, hlast.1]
          simp [hl]
        rw [if_neg hnot]
        simp only [hno, if_false]
        rw [hlast.1, hlast.2]
        simp only [and_self, not_true_eq_false, and_false, if_false]
        split <;> rfl
      have h2 := hc _ hnote
      rw [h.labels] at h2
      split at hn
      · rename_i hm
        have hm : labelText l ∈ v.labels := by simpa using hm
        cases hn
        rw [if_pos hm] at h2
        exact ⟨_, h2, rfl, rfl, ⟨h.at_, h.seen, h.offset, hlines, h.errors, h.labels, h.fresh, h.last, h.op, h.precs⟩⟩
      · rename_i hm
        have hm : labelText l ∉ v.labels := by simpa using hm
        cases hn
        rw [if_neg hm] at h2
        refine ⟨_, h2, rfl, rfl, ⟨h.at_, h.seen, h.offset, hlines, h.errors, rfl, ?_, fun _ => hlast, h.op, h.precs⟩⟩
        intro hc; simp at hc

theorem Is.pred (hF : F.Ok T S D) {v v' : VSt} {r : Reader σ} {c : CState} {x : Pred} {b : Bool}
    (h : F.Is T D off v r c) (hn : T.pred x v = some (b, v')) :
    ∃ c' ts, (chost S).pred x (F.at_ T v.pos) (r, c) = .ok (b, (r, c'), ts) ∧
      F.thunks T v'.ts = ts ++ F.thunks T v.ts ∧ v'.pos = v.pos ∧ F.Is T D off v' r c' := by
  have hq : ∀ {c' ts}, cpred x (F.at_ T v.pos) r c = .ok (b, c', ts) →
      (chost S).pred x (F.at_ T v.pos) (r, c) = .ok (b, (r, c'), ts) := by
    intro c' ts hc
    simp only [chost, mkHost, hc]
  cases x with
  | err l =>
    simp only [Tmpl.pred] at hn
    split at hn
    · rename_i v1 h1
      cases hn
      obtain ⟨c', g1, g2, g3, g4⟩ := h.note hF h1
      exact ⟨c', [], hq g1, by rw [g2]; rfl, g3, g4⟩
    · cases hn
  | lineStart => cases hn
  | recordError => cases hn
  | op o =>
    cases hn
    exact ⟨_, _, hq rfl, rfl, rfl, ⟨h.at_, h.seen, h.offset, h.lines, h.errors, h.labels, h.fresh, h.last, rfl, h.precs⟩⟩
  | precPushTop =>
    cases hn
    exact ⟨_, _, hq rfl, rfl, rfl, ⟨h.at_, h.seen, h.offset, h.lines, h.errors, h.labels, h.fresh, h.last, h.op,
      by show 0 :: _ = _; rw [h.precs]⟩⟩
  | precPop =>
    cases hn
    exact ⟨_, _, hq rfl, rfl, rfl, ⟨h.at_, h.seen, h.offset, h.lines, h.errors, h.labels, h.fresh, h.last, h.op,
      by show List.tail _ = _; rw [h.precs]⟩⟩
  | precPush =>
    simp only [Tmpl.pred] at hn
    split at hn
    · cases hn
    · rename_i o ho
      cases hn
      exact ⟨{ c with precs := o.next :: c.precs }, [], hq (by simp only [cpred, h.op, ho]), rfl, rfl, ⟨h.at_, h.seen, h.offset, h.lines, h.errors, h.labels, h.fresh, h.last, h.op,
        by show _ :: _ = _; rw [h.precs]⟩⟩
  | precChk =>
    simp only [Tmpl.pred] at hn
    split at hn
    · cases hn
    · rename_i o ho
      cases hn
      exact ⟨c, [], hq (by simp only [cpred, h.op, ho, h.precs]), rfl, rfl, h⟩
  | yes => cases hn; exact ⟨_, _, hq rfl, rfl, rfl, h⟩
  | no => cases hn; exact ⟨_, _, hq rfl, rfl, rfl, h⟩
  | _ =>
    cases hn
    exact ⟨_, _, hq rfl, rfl, rfl, ⟨h.at_, h.seen, h.offset, h.lines, h.errors, h.labels, h.fresh, h.last, h.op, h.precs⟩⟩

theorem Is.str (hF : F.Ok T S D) (hf : Feeds S D) {start : Nat} {c : CState} :
    ∀ (l : List UInt8) (v : VSt) (r : Reader σ) {b : Bool} {p n : Nat}, F.Is T D off v r c →
    start ≤ v.pos → T.str start l v.pos v.seen = some (b, p, n) →
    ∃ r', matchStr (chost S) (F.at_ T start) l (F.at_ T v.pos) (r, c) = (b, F.at_ T p, (r', c)) ∧
      F.Is T D off { v with pos := p, seen := n } r' c
  | [], v, r, b, p, n, h, _, hs => by
    cases hs
    exact ⟨r, rfl, h⟩
  | d :: l, v, r, b, p, n, h, hst, hs => by
    obtain ⟨r1, h1, h2, h3, h4⟩ := h.peek hF hf h.at_
    simp only [Tmpl.str] at hs
    simp only [matchStr, h1]
    cases ht : T.text[v.pos]? with
    | none =>
      rw [ht] at hs
      cases hs
      exact ⟨r1, rfl, h4⟩
    | some a =>
      rw [ht] at hs
      simp only [cond_eq_ite, beq_iff_eq] at hs ⊢
      split at hs
      · rename_i hd
        rw [if_pos hd]
        split at hs
        · cases hs
        · rename_i hne
          have h5 := h3 hne (by rw [ht]; rfl)
          rw [← at_succ hne]
          obtain ⟨r', g1, g2⟩ := Is.str hF hf l { v with pos := v.pos + 1, seen := max v.seen (v.pos + 1) } r1
            (h4.move h5 v.ts) (by simp only; omega) hs
          exact ⟨r', g1, g2⟩
      · rename_i hd
        rw [if_neg hd]
        cases hs
        refine ⟨r1, rfl, ?_⟩
        have hr := hf.readsAs (F.whole T) (cpred (σ := σ))
        exact h4.move (hr.down (g := (r1, c)) h2 (hF.at_le.2 hst)) v.ts

/-- What the run with a hole finds holds for every piece. -/
theorem run_sound (hF : F.Ok T S D) (hf : Feeds S D) : ∀ (n : Nat) (e : E) (v : VSt) (x : VRes)
    (r : Reader σ) (c : CState), T.run n e v = some x → F.Is T D off v r c →
    match x with
    | .ok v' => ∃ r' c', Eval grammar (chost S) e ⟨F.at_ T v.pos, F.thunks T v.ts, (r, c)⟩
        (.ok ⟨F.at_ T v'.pos, F.thunks T v'.ts, (r', c')⟩) ∧ F.Is T D off v' r' c'
    | .no v' => ∃ r' c', Eval grammar (chost S) e ⟨F.at_ T v.pos, F.thunks T v.ts, (r, c)⟩
        (.fail ⟨F.at_ T v'.pos, F.thunks T v'.ts, (r', c')⟩) ∧ F.Is T D off v' r' c' := by
  have hr := hf.readsAs (F.whole T) (cpred (σ := σ))
  have hdown : ∀ {e : E} {v v' : VSt} {r r' : Reader σ} {c c' : CState} {ts ts' : List (Peg.Thunk Act)},
      F.Is T D off v r c →
      Eval grammar (chost S) e ⟨F.at_ T v.pos, ts, (r, c)⟩ (.fail ⟨F.at_ T v'.pos, ts', (r', c')⟩) →
      F.Is T D off v' r' c' → F.Is T D off (Tmpl.restore v v') r' c' := by
    intro e v v' r r' c c' ts ts' h he h'
    have hg := he.good hr h.at_
    exact h'.move (hr.down (g := (r', c')) h'.at_ hg.1) _
  have hdown' : ∀ {e : E} {v v' : VSt} {r r' : Reader σ} {c c' : CState} {ts ts' : List (Peg.Thunk Act)},
      F.Is T D off v r c →
      Eval grammar (chost S) e ⟨F.at_ T v.pos, ts, (r, c)⟩ (.ok ⟨F.at_ T v'.pos, ts', (r', c')⟩) →
      F.Is T D off v' r' c' → F.Is T D off (Tmpl.restore v v') r' c' := by
    intro e v v' r r' c c' ts ts' h he h'
    have hg := he.good hr h.at_
    exact h'.move (hr.down (g := (r', c')) h'.at_ hg.1) _
  intro n
  induction n with
  | zero => intro e v x r c h; cases h
  | succ n ih =>
    intro e v x r c h hi
    cases e with
    | eps => cases h; exact ⟨r, c, .eps, hi⟩
    | one m =>
      simp only [Tmpl.run] at h
      obtain ⟨r1, h1, h2, h3, h4⟩ := hi.peek hF hf hi.at_
      cases ht : T.text[v.pos]? with
      | none =>
        rw [ht] at h h1
        cases h
        exact ⟨r1, c, .one_end h1, h4⟩
      | some a =>
        rw [ht] at h h1
        simp only [cond_eq_ite, beq_iff_eq] at h
        split at h
        · rename_i hm
          split at h
          · cases h
          · rename_i hne
            cases h
            refine ⟨r1, c, ?_, h4.move (h3 hne (by rw [ht]; rfl)) v.ts⟩
            have := Eval.one_ok (G := grammar) (s := ⟨F.at_ T v.pos, F.thunks T v.ts, (r, c)⟩) h1 hm
            rw [← at_succ hne] at this
            exact this
        · rename_i hm
          cases h
          exact ⟨r1, c, .one_no h1 (by simpa using hm), h4⟩
    | str l =>
      simp only [Tmpl.run] at h
      split at h
      · cases h
      · rename_i p k hs
        cases h
        obtain ⟨r', g1, g2⟩ := Is.str hF hf l v r hi (Nat.le_refl _) hs
        exact ⟨r', c, .str_ok g1, g2⟩
      · rename_i p k hs
        cases h
        obtain ⟨r', g1, g2⟩ := Is.str hF hf l v r hi (Nat.le_refl _) hs
        exact ⟨r', c, .str_no g1, g2⟩
    | nt q var =>
      simp only [Tmpl.run, cond_eq_ite, Bool.and_eq_true, decide_eq_true_eq, beq_iff_eq,
        Option.isNone_iff_eq_none] at h
      split at h
      · rename_i hc
        obtain ⟨⟨rfl, hp⟩, rfl⟩ := hc
        cases h
        have he : F.at_ T v.pos = T.pre.length := by rw [hp]; simp [Piece.at_]
        have he' : F.at_ T (v.pos + 1) = T.pre.length + F.bytes.length := by
          rw [hp]; unfold Piece.at_; rw [if_neg (by omega)]; omega
        have hat := hi.at_
        rw [he] at hat
        obtain ⟨r', g⟩ := hF.eval r c (F.thunks T v.ts) hat (by
          rw [hi.lines]; cases v.past <;> simp)
        have hg := g.good hr hat
        have hgrow : r.buf.length ≤ r'.buf.length := by
          have := g.pres (Q := fun g => r.buf.length ≤ g.1.buf.length)
            (fun p g h => Nat.le_trans h (Reader.peek_grows p g.1))
            (fun x p g _ hq b g' ts hp => by rw [(chost_pred hp).2]; exact hq) (Nat.le_refl _)
          exact this _ rfl
        refine ⟨r', { c with lines := F.lines }, ?_, ?_⟩
        · rw [he]
          show Eval _ _ _ _ (.ok ⟨F.at_ T (v.pos + 1), _, _⟩)
          rw [he']
          exact g
        · refine ⟨?_, ?_, hi.offset, rfl, hi.errors, hi.labels, hi.fresh, hi.last, hi.op, hi.precs⟩
          · show r'.At D _ (F.at_ T (v.pos + 1))
            rw [he']; exact hg.2
          · intro k hk hw
            by_cases hk' : k < v.seen
            · exact Nat.lt_of_lt_of_le (hi.seen k hk' hw) hgrow
            · have hk : k < max v.seen (v.pos + 1) := hk
              have hle : F.at_ T k ≤ F.at_ T v.pos := hF.at_le.2 (by omega)
              have h1 := hg.2.pos_le
              simp only at h1
              have := hF.pos
              omega
      · have henter : F.thunks T (Tmpl.enter (grammar q).nvars v).ts =
            ((⟨F.at_ T v.pos, F.thunks T v.ts, (r, c)⟩ : St Act (Reader σ × CState)).enter
              (grammar q).nvars).thunks ∧ (Tmpl.enter (grammar q).nvars v).pos = v.pos := by
          unfold Tmpl.enter St.enter
          cases h0 : (grammar q).nvars with
          | zero => exact ⟨rfl, rfl⟩
          | succ m => exact ⟨rfl, rfl⟩
        have hst : (⟨F.at_ T (Tmpl.enter (grammar q).nvars v).pos,
            F.thunks T (Tmpl.enter (grammar q).nvars v).ts, (r, c)⟩ : St Act (Reader σ × CState)) =
            (⟨F.at_ T v.pos, F.thunks T v.ts, (r, c)⟩ : St Act (Reader σ × CState)).enter (grammar q).nvars := by
          rw [henter.1, henter.2]
          unfold St.enter
          split <;> rfl
        have hi' : F.Is T D off (Tmpl.enter (grammar q).nvars v) r c := by
          unfold Tmpl.enter
          cases h0 : (grammar q).nvars with
          | zero => exact hi
          | succ m => exact hi.move hi.at_ _
        cases hb : T.run n (grammar q).body (Tmpl.enter (grammar q).nvars v) with
        | none => rw [hb] at h; cases h
        | some y =>
          have := ih _ _ _ r c hb hi'
          rw [hb] at h
          cases y with
          | ok s1 =>
            cases h
            obtain ⟨r', c', g1, g2⟩ := this
            rw [hst] at g1
            have g3 := Eval.nt_ok (var := var) g1
            have hleave : (⟨F.at_ T s1.pos, F.thunks T s1.ts, (r', c')⟩ : St Act (Reader σ × CState)).leave
                (grammar q).nvars var = ⟨F.at_ T (Tmpl.leave (grammar q).nvars var s1).pos,
                  F.thunks T (Tmpl.leave (grammar q).nvars var s1).ts, (r', c')⟩ ∧
                F.Is T D off (Tmpl.leave (grammar q).nvars var s1) r' c' := by
              unfold Tmpl.leave St.leave
              cases h0 : (grammar q).nvars with
              | zero => cases var with
                | none => exact ⟨rfl, g2⟩
                | some i => exact ⟨rfl, g2.move g2.at_ _⟩
              | succ m => cases var with
                | none => exact ⟨rfl, g2.move g2.at_ _⟩
                | some i => exact ⟨rfl, g2.move g2.at_ _⟩
            rw [hleave.1] at g3
            exact ⟨r', c', g3, hleave.2⟩
          | no s1 =>
            cases h
            obtain ⟨r', c', g1, g2⟩ := this
            have g4 := hdown hi' g1 g2
            rw [hst] at g1
            refine ⟨r', c', Eval.nt_no (var := var) g1, ?_⟩
            have h5 := g4.at_
            simp only [Tmpl.restore] at h5
            rw [henter.2] at h5
            exact g2.move h5 _
    | seq a b =>
      simp only [Tmpl.run] at h
      cases ha : T.run n a v with
      | none => rw [ha] at h; cases h
      | some y =>
        rw [ha] at h
        have h1 := ih _ _ _ r c ha hi
        cases y with
        | ok s1 =>
          simp only at h h1
          obtain ⟨r1, c1, g1, g2⟩ := h1
          have h2 := ih _ _ _ r1 c1 h g2
          cases x with
          | ok s2 => obtain ⟨r2, c2, g3, g4⟩ := h2; exact ⟨r2, c2, .seq_ok g1 g3, g4⟩
          | no s2 => obtain ⟨r2, c2, g3, g4⟩ := h2; exact ⟨r2, c2, .seq_ok g1 g3, g4⟩
        | no s1 =>
          cases h
          obtain ⟨r1, c1, g1, g2⟩ := h1
          exact ⟨r1, c1, .seq_no g1, g2⟩
    | alt a b =>
      simp only [Tmpl.run] at h
      cases ha : T.run n a v with
      | none => rw [ha] at h; cases h
      | some y =>
        rw [ha] at h
        have h1 := ih _ _ _ r c ha hi
        cases y with
        | ok s1 =>
          cases h
          obtain ⟨r1, c1, g1, g2⟩ := h1
          exact ⟨r1, c1, .alt_ok g1, g2⟩
        | no s1 =>
          simp only at h h1
          obtain ⟨r1, c1, g1, g2⟩ := h1
          have h2 := ih _ _ _ r1 c1 h (hdown hi g1 g2)
          cases x with
          | ok s2 => obtain ⟨r2, c2, g3, g4⟩ := h2; exact ⟨r2, c2, .alt_no g1 g3, g4⟩
          | no s2 => obtain ⟨r2, c2, g3, g4⟩ := h2; exact ⟨r2, c2, .alt_no g1 g3, g4⟩
    | star a =>
      simp only [Tmpl.run] at h
      cases ha : T.run n a v with
      | none => rw [ha] at h; cases h
      | some y =>
        rw [ha] at h
        have h1 := ih _ _ _ r c ha hi
        cases y with
        | ok s1 =>
          simp only at h h1
          obtain ⟨r1, c1, g1, g2⟩ := h1
          have h2 := ih _ _ _ r1 c1 h g2
          cases x with
          | ok s2 => obtain ⟨r2, c2, g3, g4⟩ := h2; exact ⟨r2, c2, .star_more g1 g3, g4⟩
          | no s2 => obtain ⟨r2, c2, g3, g4⟩ := h2; exact ⟨r2, c2, .star_more g1 g3, g4⟩
        | no s1 =>
          cases h
          obtain ⟨r1, c1, g1, g2⟩ := h1
          exact ⟨r1, c1, .star_end g1, hdown hi g1 g2⟩
    | peek a =>
      simp only [Tmpl.run] at h
      cases ha : T.run n a v with
      | none => rw [ha] at h; cases h
      | some y =>
        rw [ha] at h
        have h1 := ih _ _ _ r c ha hi
        cases y with
        | ok s1 =>
          cases h
          obtain ⟨r1, c1, g1, g2⟩ := h1
          exact ⟨r1, c1, .peek_ok g1, hdown' hi g1 g2⟩
        | no s1 =>
          cases h
          obtain ⟨r1, c1, g1, g2⟩ := h1
          exact ⟨r1, c1, .peek_no g1, g2⟩
    | npeek a =>
      simp only [Tmpl.run] at h
      cases ha : T.run n a v with
      | none => rw [ha] at h; cases h
      | some y =>
        rw [ha] at h
        have h1 := ih _ _ _ r c ha hi
        cases y with
        | ok s1 =>
          cases h
          obtain ⟨r1, c1, g1, g2⟩ := h1
          exact ⟨r1, c1, .npeek_ok g1, g2⟩
        | no s1 =>
          cases h
          obtain ⟨r1, c1, g1, g2⟩ := h1
          exact ⟨r1, c1, .npeek_no g1, hdown hi g1 g2⟩
    | pred p =>
      simp only [Tmpl.run] at h
      split at h
      · rename_i s1 hp
        cases h
        obtain ⟨c', ts, g1, g2, g3, g4⟩ := hi.pred hF hp
        refine ⟨r, c', ?_, g4⟩
        rw [g2, g3]
        exact .pred_ok g1
      · rename_i s1 hp
        cases h
        obtain ⟨c', ts, g1, g2, g3, g4⟩ := hi.pred hF hp
        refine ⟨r, c', ?_, g4⟩
        rw [g2, g3]
        exact .pred_no g1
      · cases h
    | act a =>
      cases h
      exact ⟨r, c, .act, hi.move hi.at_ _⟩
    | onfail a p =>
      simp only [Tmpl.run] at h
      cases ha : T.run n a v with
      | none => rw [ha] at h; cases h
      | some y =>
        rw [ha] at h
        have h1 := ih _ _ _ r c ha hi
        cases y with
        | ok s1 =>
          cases h
          obtain ⟨r1, c1, g1, g2⟩ := h1
          exact ⟨r1, c1, .onfail_ok g1, g2⟩
        | no s1 =>
          simp only at h h1
          obtain ⟨r1, c1, g1, g2⟩ := h1
          cases hp : T.pred p s1 with
          | none => rw [hp] at h; cases h
          | some z =>
            obtain ⟨b, s2⟩ := z
            rw [hp] at h
            cases h
            obtain ⟨c', ts, g3, g4, g5, g6⟩ := g2.pred hF hp
            refine ⟨r1, c', ?_, g6⟩
            rw [g4, g5]
            exact .onfail_no g1 g3

end Piece
end Verif.Cypher
