import Verif.Quick.Grammar
import Verif.Peg.Reader
import Verif.Peg.Position
/-!
# The quick parser (`lib/src/quick_parser.c`)

The generated parser runs `grammar` in the host below; this file adds what `quick_parser.c` itself
does: the inline predicates, the two actions, and the loop that calls the generated parser.

Not modelled: allocation failure (`abort_malloc`, `offsets_push` returning non-zero), and overflow of
`unsigned int` (positions are naturals).
-/
namespace Verif.Quick
open Verif.Peg

/-- The fields of `yycontext` that inline predicates change: `__begin`, `__end` and
`line_start_offsets` (last entry first). -/
structure QState where
  begin_ : Nat
  end_ : Nat
  lines : List Nat
  deriving DecidableEq, Repr

/-- Inline predicates: `<`, `>` and `_line_start_` (quick_parser.leg:61, quick_parser.c:333-345). -/
def qpred {σ : Type} : Pred → Nat → Reader σ → QState → Except Fault (Bool × QState × List (Peg.Thunk Act))
  | .beginText, p, _, q => .ok (true, { q with begin_ := p }, [])
  | .endText, p, _, q => .ok (true, { q with end_ := p }, [])
  | .lineStart, p, _, q => .ok (true, { q with lines := lineStartL p q.lines }, [])

/-- The host in which the generated parser runs. -/
def qhost {σ : Type} (S : Source σ) : Host Pred Act (Reader σ × QState) := mkHost S qpred

/-- `struct cypher_quick_parse_segment` (quick_parser.c:236-244); `ptr` and `length` are the text. -/
structure QSeg where
  isStatement : Bool
  text : List UInt8
  start : Pos
  stop : Pos
  next : Pos
  eof : Bool
  deriving DecidableEq, Repr

/-- The fields of `yycontext` that actions change, and the state of the callback. -/
structure QVars (κ : Type) where
  offset : Pos
  eof : Bool
  result : Int
  k : κ

variable {σ κ : Type}

/-- `segment` (quick_parser.c:247-272). Reading the text outside the buffer is a fault. -/
def segment (cb : κ → QSeg → Int × κ) (pos : Nat) (r : Reader σ) (q : QState)
    (isStatement : Bool) (v : QVars κ) : Except Fault (QVars κ) :=
  if q.end_ = 0 ∧ v.eof = true then .ok { v with result := 0 }
  else do
    let next ← inputPosition v.offset q.lines pos
    let stop ← inputPosition v.offset q.lines q.end_
    let start ← inputPosition v.offset q.lines q.begin_
    if q.begin_ ≤ q.end_ ∧ q.end_ ≤ r.buf.length then
      let (res, k) := cb v.k ⟨isStatement, r.buf.extract q.begin_ q.end_, start, stop, next, v.eof⟩
      .ok ⟨next, v.eof, res, k⟩
    else .error .outOfBounds

/-- `yyDone`: run the deferred actions in order (the list is latest first). -/
def qdone (cb : κ → QSeg → Int × κ) (pos : Nat) (r : Reader σ) (q : QState) :
    List (Peg.Thunk Act) → QVars κ → Except Fault (QVars κ)
  | [], v => .ok v
  | .act .eof _ :: ts, v => do
    let v ← qdone cb pos r q ts v
    .ok { v with eof := true }
  | .act (.segment b) _ :: ts, v => do
    let v ← qdone cb pos r q ts v
    segment cb pos r q b v
  | _ :: ts, v => qdone cb pos r q ts v

/-- Everything that persists from one call of the generated parser to the next. -/
structure QCtx (σ κ : Type) where
  reader : Reader σ
  lines : List Nat
  vars : QVars κ

/-- `yyparsefrom` (generated), through `safe_yyparsefrom` (quick_parser.c:199-211): parse, run the
actions if successful, commit. -/
def parseFrom (S : Source σ) (cb : κ → QSeg → Int × κ) (fuel : Nat) (rule : Rule) (c : QCtx σ κ) :
    Option (Except Fault (Bool × QCtx σ κ)) :=
  match run grammar (qhost S) fuel (.nt rule none) ⟨0, [], (c.reader, ⟨0, 0, c.lines⟩)⟩ with
  | none => none
  | some (.fault f) => some (.error f)
  | some (.fail s) => some (.ok (false, ⟨s.g.1.commit s.pos, s.g.2.lines, c.vars⟩))
  | some (.ok s) =>
    match qdone cb s.pos s.g.1 s.g.2 s.thunks c.vars with
    | .error f => some (.error f)
    | .ok v => some (.ok (true, ⟨s.g.1.commit s.pos, s.g.2.lines, v⟩))

/-- The loop of `parse` (quick_parser.c:160-190), returning `err` and the callback's final state. -/
def loop (S : Source σ) (cb : κ → QSeg → Int × κ) (rule : Rule) (single : Bool) (fuel : Nat) :
    Nat → QCtx σ κ → Option (Except Fault (Int × κ))
  | 0, _ => none
  | n + 1, c =>
    match parseFrom S cb fuel rule c with
    | none => none
    | some (.error f) => some (.error f)
    | some (.ok (false, c)) => some (.ok (-1, c.vars.k))
    | some (.ok (true, c)) =>
      if c.vars.result > 0 then some (.ok (0, c.vars.k))
      else if c.vars.result < 0 then some (.ok (c.vars.result, c.vars.k))
      else if c.vars.eof || single then some (.ok (0, c.vars.k))
      else loop S cb rule single fuel n { c with lines := [0] }

/-- `parse` (quick_parser.c:137-196): `onlyStatements` and `single` are the two flags.
`cypher_input_position_zero` is line 1, column 1, offset 0. -/
def quickParse (S : Source σ) (src : σ) (cb : κ → QSeg → Int × κ) (k : κ)
    (onlyStatements single : Bool) (fuel : Nat) : Option (Except Fault (Int × κ)) :=
  loop S cb (bif onlyStatements then .r_statement else .r_directive) single fuel fuel
    ⟨.init src, [0], ⟨⟨1, 1, 0⟩, false, 0, k⟩⟩

end Verif.Quick
