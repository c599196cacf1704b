import Verif.Data.Util
/-!
# Error tracking (`lib/src/errors.[ch]`)

Text is a list of bytes without the terminating NUL.
-/
namespace Verif

/-- `struct cypher_input_position` (cypher-parser.h.in); naturals for unsigned values. -/
structure Pos where
  line : Nat
  column : Nat
  offset : Nat
  deriving DecidableEq, Repr, Inhabited

/-- `struct cypher_parse_error` (errors.h:23-29).  The context fields are filled in later, by
`finished` (parser.c:816-837). -/
structure PErr where
  position : Pos
  msg : List UInt8
  context : Option (List UInt8 × Nat) := none
  deriving DecidableEq, Repr

/-- The parts of `struct cypher_parser_colorization` (cypher-parser.h.in) used for messages:
each a start/end pair. -/
structure Colorization where
  error : List UInt8 × List UInt8
  errorToken : List UInt8 × List UInt8
  errorMessage : List UInt8 × List UInt8
  deriving DecidableEq, Repr

/-- `cypher_parser_no_colorization` (parser_config.c:33-43). -/
def noColorization : Colorization := ⟨([], []), ([], []), ([], [])⟩

/-- `struct cp_error_tracking` (errors.h:35-50).  Simplification: the two growable arrays
(`labels`, `errors`) are lists; their growth policy is that of `CVec`.  Allocation succeeds. -/
structure ErrTrack where
  colorization : Colorization
  lastPosition : Pos
  lastChar : UInt8
  labels : List (List UInt8)
  errors : List PErr
  lastErrorOffset : Nat
  deriving DecidableEq, Repr

namespace ErrTrack

/-- `cp_et_init` (errors.c:67-73). -/
def init (c : Colorization) : ErrTrack := ⟨c, ⟨0, 0, 0⟩, 0, [], [], 0⟩

/-- `cp_et_note_potential_error` (errors.c:76-127), with the debug assertions. -/
def note (et : ErrTrack) (position : Pos) (c : UInt8) (label : List UInt8) :
    Except Fault ErrTrack :=
  if position.offset < et.lastPosition.offset ∨
      (et.errors.length > 0 ∧ position.offset ≤ et.lastErrorOffset) then .ok et
  else
    let et := if et.labels.length = 0 ∨ position.offset > et.lastPosition.offset
      then { et with lastPosition := position, lastChar := c, labels := [] } else et
    if et.labels.length ≠ 0 ∧ ¬ (et.lastPosition.line = position.line ∧
        et.lastPosition.column = position.column ∧ et.lastChar = c) then .error .assertion
    else if label ∈ et.labels then .ok et
    else .ok { et with labels := et.labels ++ [label] }

end ErrTrack

/-- ASCII bytes of a string literal. -/
def ascii (s : String) : List UInt8 := s.toList.map fun c => c.toNat.toUInt8

/-- `chardesc` (errors.c:180-201). -/
def chardesc (c : UInt8) : List UInt8 :=
  if c = 7 then ascii "'\\a'" else if c = 8 then ascii "'\\b'" else if c = 12 then ascii "'\\f'"
  else if c = 10 then ascii "'\\n'" else if c = 13 then ascii "'\\r'"
  else if c = 9 then ascii "'\\t'" else if c = 11 then ascii "'\\v'"
  else if c = 39 then ascii "'\\''" else if c = 0 then ascii "at end of input"
  else [39, c, 39]

/-- The loop at errors.c:266-282, appending to what has been written so far; `i` labels have been
written, `rest` remain. -/
def erLabels (n : Nat) : Nat → List (List UInt8) → List UInt8 → List UInt8
  | _, [], out => out
  | i, l :: rest, out =>
    let out := out ++ [32] ++ l
    let i := i + 1
    let out := if i + 1 < n then out ++ [44] else if i < n then out ++ ascii " or" else out
    erLabels n i rest out

/-- The size computed at errors.c:222-235. -/
def erSize (prefixLen : Nat) (col : Colorization) (labels : List (List UInt8)) : Nat :=
  let len := prefixLen + col.errorMessage.1.length + 8 + col.errorMessage.2.length + 1
  if labels.length > 0 then
    let len := labels.foldr (fun l acc => acc + (l.length + 2)) len
    let len := len - 1
    if labels.length > 1 then len + 2 else len
  else len

/-- `error_report` (errors.c:204-290) called with no previous buffer (`NULL`, 0), as
`cp_et_reify_potentials` does: everything written must fit the computed size with room for the
NUL (the assertion at errors.c:287; a longer text would already have overrun the buffer). -/
def errorReport (col : Colorization) (labels : List (List UInt8)) (pfx : List UInt8) :
    Except Fault (List UInt8) :=
  let cap := erSize pfx.length col labels
  let out := pfx ++ col.errorMessage.1 ++ ascii "expected"
  let out := erLabels labels.length 0 labels out
  let out := out ++ col.errorMessage.2
  if out.length < cap then .ok out else .error .outOfBounds

namespace ErrTrack

/-- `cp_et_reify_potentials` (errors.c:130-177). -/
def reify (et : ErrTrack) : Except Fault ErrTrack :=
  if et.labels.length = 0 then .ok et
  else
    let pfx := et.colorization.error.1 ++ ascii "Invalid input" ++ et.colorization.error.2 ++ [32] ++
      et.colorization.errorToken.1 ++ chardesc et.lastChar ++ et.colorization.errorToken.2 ++
      ascii ": "
    match errorReport et.colorization et.labels pfx with
    | .error f => .error f
    | .ok msg => .ok { et with
        errors := et.errors ++ [{ position := et.lastPosition, msg := msg }]
        lastErrorOffset := et.lastPosition.offset
        lastPosition := ⟨0, 0, 0⟩
        lastChar := 0
        labels := [] }

/-- `cp_et_clear_potentials` (errors.h:61-64): only the label count is reset. -/
def clearPotentials (et : ErrTrack) : ErrTrack := { et with labels := [] }

/-- `cp_et_clear_errors` (errors.h:76-79). -/
def clearErrors (et : ErrTrack) : ErrTrack := { et with errors := [] }

end ErrTrack

/-- Operations on the error tracker. -/
inductive EtOp where
  | note (p : Pos) (c : UInt8) (label : List UInt8)
  | reify | clearPotentials | clearErrors
  deriving DecidableEq, Repr

def ErrTrack.step (et : ErrTrack) : EtOp → Except Fault ErrTrack
  | .note p c l => et.note p c l
  | .reify => et.reify
  | .clearPotentials => .ok et.clearPotentials
  | .clearErrors => .ok et.clearErrors

def ErrTrack.run (et : ErrTrack) : List EtOp → Except Fault ErrTrack
  | [] => .ok et
  | op :: ops => match et.step op with
    | .error f => .error f
    | .ok et' => ErrTrack.run et' ops

end Verif
