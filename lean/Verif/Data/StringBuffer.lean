import Verif.Data.Vector
/-!
# String buffers (`lib/src/string_buffer.[ch]`)
-/
namespace Verif

/-- `struct cp_string_buffer` (string_buffer.h:22-27).  `mem = none` is `buffer == NULL`; a cell is
`none` until it has been written. -/
structure SBuf where
  mem : Option (List (Option UInt8))
  capacity : Nat
  length : Nat
  deriving DecidableEq, Repr

namespace SBuf

/-- The zeroed buffer (parser.c:424-470 zeroes the parser state holding it). -/
def init : SBuf := ⟨none, 0, 0⟩

/-- C `memcpy(mem + at, s, s.length)`: every destination cell must be allocated. -/
def memcpyTo (m : List (Option UInt8)) (at_ : Nat) (s : List UInt8) :
    Except Fault (List (Option UInt8)) :=
  if at_ + s.length ≤ m.length then
    .ok (m.take at_ ++ s.map some ++ m.drop (at_ + s.length))
  else .error .outOfBounds

/-- `cp_sb_append` (string_buffer.c:25-46); `none` is the `-1` return.
`allocOk` says whether `realloc` succeeds. -/
def append (allocOk : Bool) (sb : SBuf) (s : List UInt8) : Except Fault (Option SBuf) :=
  if ¬ sb.length ≤ sb.capacity then .error .assertion else
  let grow := sb.length + s.length ≥ sb.capacity
  if grow ∧ ¬ allocOk then .ok none else
  let sb' : SBuf :=
    if grow then
      let newcap := ((sb.length + s.length + 3 * 8 / 2) / 8) * 8
      { sb with mem := some (CVec.realloc sb.mem newcap), capacity := newcap }
    else sb
  if ¬ sb'.length + s.length < sb'.capacity then .error .assertion else
  match memcpyTo (sb'.mem.getD []) sb'.length s with
  | .error f => .error f
  | .ok m => .ok (some { sb' with mem := some m, length := sb'.length + s.length })

/-- `cp_sb_reset` (string_buffer.h:30-33). -/
def reset (sb : SBuf) : SBuf := { sb with length := 0 }

/-- What a caller reads through `cp_sb_data`/`cp_sb_length` (string_buffer.h:35-43). -/
def read (sb : SBuf) : Except Fault (List UInt8) :=
  if sb.length ≤ (sb.mem.getD []).length then
    match ((sb.mem.getD []).take sb.length).mapM id with
    | none => .error .uninitialised
    | some l => .ok l
  else .error .outOfBounds

end SBuf

/-- Operations on a string buffer. -/
inductive SBOp where
  | append (s : List UInt8) | reset
  deriving DecidableEq, Repr

/-- Run a history of operations (allocation succeeds). -/
def SBuf.run (sb : SBuf) : List SBOp → Except Fault SBuf
  | [] => .ok sb
  | .append s :: ops => match sb.append true s with
    | .error f => .error f
    | .ok none => .ok sb
    | .ok (some sb') => SBuf.run sb' ops
  | .reset :: ops => SBuf.run sb.reset ops

end Verif
