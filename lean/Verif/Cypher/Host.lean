import Verif.Cypher.Grammar
import Verif.Peg.Reader
import Verif.Peg.Position
/-!
# Inline predicates of the parser (`lib/src/parser.c`)

What the generated parser evaluates while matching: the fields of `yycontext` it changes are not
restored when backtracking.
-/
namespace Verif.Cypher
open Verif.Peg

/-- The fields of `yycontext` (parser.c:479-495) that inline predicates read or change:
`position_offset`, `line_start_offsets` (last first), `error_tracking`, `op` (`none` is NULL),
`precedences` (last first). -/
structure CState where
  off : Pos
  lines : List Nat
  errs : ErrTrack
  op : Option Op
  precs : List Nat
  deriving DecidableEq, Repr

/-- `precedences_last` (parser.c:113, vector.h:107-114): 0 when empty. -/
def lastPrec : List Nat → Nat
  | [] => 0
  | p :: _ => p

/-- `_prec_push` (parser.c:1080-1089): what is pushed. -/
def Op.next (o : Op) : Nat := if o.assoc = .left then o.prec + 1 else o.prec

/-- Inline predicates: block directives (parser.c:503-506, parser.leg:1110-1121), `line_start`
(parser.c:840-853), `record_error` (parser.c:1029-1035), `_err` (parser.c:1014-1026; `c` is NUL when
the buffer ends at `pos`), and the operator macros (parser.c:169-180, 1080-1099). A null `op` is
dereferenced by `PREC_CHK` and fails the assertion of `_prec_push`. Allocation succeeds. -/
def cpred {σ : Type} : Pred → Nat → Reader σ → CState →
    Except Fault (Bool × CState × List (Peg.Thunk Act))
  | .blockStart, p, _, q => .ok (true, q, [.act .blockStart p])
  | .blockEnd, p, _, q => .ok (true, q, [.act .blockEnd p])
  | .blockReplace, p, _, q => .ok (true, q, [.act .blockReplace p])
  | .blockMerge, p, _, q => .ok (true, q, [.act .blockMerge p])
  | .yes, _, _, q => .ok (true, q, [])
  | .no, _, _, q => .ok (false, q, [])
  | .lineStart, p, _, q => .ok (true, { q with lines := lineStartL p q.lines }, [])
  | .recordError, _, _, q =>
    match q.errs.reify with
    | .ok e => .ok (true, { q with errs := e }, [])
    | .error f => .error f
  | .err l, p, r, q =>
    let lines := backtrackL p q.lines
    match inputPosition q.off lines p with
    | .error f => .error f
    | .ok pos =>
      match q.errs.note pos (r.buf[p]?.getD 0) (labelText l) with
      | .ok e => .ok (true, { q with lines := lines, errs := e }, [])
      | .error f => .error f
  | .op o, _, _, q => .ok (true, { q with op := some o }, [])
  | .precPushTop, _, _, q => .ok (true, { q with precs := 0 :: q.precs }, [])
  | .precPush, _, _, q =>
    match q.op with
    | none => .error .assertion
    | some o => .ok (true, { q with precs := o.next :: q.precs }, [])
  | .precPop, _, _, q => .ok (true, { q with precs := q.precs.tail }, [])
  | .precChk, _, _, q =>
    match q.op with
    | none => .error .outOfBounds
    | some o => .ok (decide (lastPrec q.precs ≤ o.prec), q, [])

/-- The host in which the generated parser runs. -/
def chost {σ : Type} (S : Source σ) : Host Pred Act (Reader σ × CState) := mkHost S cpred

end Verif.Cypher
