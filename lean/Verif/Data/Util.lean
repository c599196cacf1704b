import Verif.Data.Vector
/-!
# Utilities (`lib/src/util.c`): `snprintf_realloc` and `line_context`
-/
namespace Verif

/-- Bytes ending a line: `'\n'` and `'\r'` (util.c:72, 88, 104). -/
def isEol (c : UInt8) : Bool := c == 10 || c == 13

/-! ## `snprintf_realloc` -/

/-- C `vsnprintf(buf, cap, ...)` for a call whose complete formatted text is `t`: at most `cap-1`
bytes followed by a NUL are stored, the rest of the buffer is unchanged, nothing is stored when
`cap = 0`.  The return value is `t.length`. -/
def vsnprintf (buf : List UInt8) (cap : Nat) (t : List UInt8) : List UInt8 :=
  if cap = 0 then buf
  else
    let w := t.take (cap - 1) ++ [0]
    w ++ buf.drop w.length

/-- `snprintf_realloc` (util.c:26-51), result `(buf, cap, width)`.  The cells added by `realloc`
have indeterminate contents, given here by `junk`.  Simplification: `realloc` succeeds. -/
def snprintfRealloc (junk : List UInt8) (buf : List UInt8) (cap : Nat) (t : List UInt8) :
    List UInt8 × Nat × Nat :=
  let buf1 := vsnprintf buf cap t
  let width := t.length
  if width > cap then
    let grown := (buf1 ++ junk).take (width + 1)
    (vsnprintf grown (width + 1) t, width + 1, width)
  else (buf1, cap, width)

/-- Reading a buffer as a C string: the bytes before the first NUL; running past the end of the
allocation is a fault. -/
def cString (buf : List UInt8) : Except Fault (List UInt8) :=
  if 0 ∈ buf then .ok (buf.takeWhile (· != 0)) else .error .outOfBounds

/-! ## `line_context` -/

/-- The loop at util.c:71-74: move back over line ends and NULs. -/
def lcBackUp (b : List UInt8) : Nat → Nat
  | 0 => 0
  | e + 1 =>
    if isEol (b.getD (e + 1) 0) || b.getD (e + 1) 0 == 0 then lcBackUp b e else e + 1

/-- State of the loop at util.c:81-114. -/
structure LcState where
  startp : Nat
  endp : Nat
  n : Nat
  foundStart : Bool
  foundEnd : Bool
  deriving DecidableEq, Repr

/-- First half of one iteration (util.c:83-97); the Boolean says that `break` was reached. -/
def lcStart (b : List UInt8) (max : Nat) (s : LcState) : LcState × Bool :=
  if s.foundStart then (s, false)
  else if s.startp = 0 || isEol (b.getD (s.startp - 1) 0) then ({ s with foundStart := true }, false)
  else
    let s' := { s with startp := s.startp - 1, n := s.n + 1 }
    (s', s'.n == max)

/-- Second half of one iteration (util.c:99-113). -/
def lcEnd (b : List UInt8) (max : Nat) (s : LcState) : LcState × Bool :=
  if s.foundEnd then (s, false)
  else if s.endp = b.length || isEol (b.getD s.endp 0) then ({ s with foundEnd := true }, false)
  else
    let s' := { s with endp := s.endp + 1, n := s.n + 1 }
    (s', s'.n == max)

/-- The loop at util.c:81-114; `none` only if the fuel runs out. -/
def lcLoop (b : List UInt8) (max : Nat) : Nat → LcState → Option LcState
  | 0, _ => none
  | fuel + 1, s =>
    if s.foundStart && s.foundEnd then some s
    else
      let (s1, brk1) := lcStart b max s
      if brk1 then some s1
      else
        let (s2, brk2) := lcEnd b max s1
        if brk2 then some s2 else lcLoop b max fuel s2

/-- `line_context` (util.c:54-142), result: the context text and the new `*offset`.
`none` is the NULL return of a failed `REQUIRE` (or, in builds with assertions, an abort).
All reads are at indices the C code dereferences; `getD` defaults are never reached when the
`REQUIRE`s hold (the pointers stay in `[0, bufsize)` whenever they are dereferenced). -/
def lineContext (b : List UInt8) (offset max : Nat) : Except Fault (Option (List UInt8 × Nat)) :=
  if ¬ max ≥ 7 then .ok none
  else if ¬ b.length > 0 then .ok none
  else if ¬ offset ≤ b.length then .ok none
  else
    let errp := lcBackUp b (if offset ≥ b.length then b.length - 1 else offset)
    match lcLoop b max (b.length + 3) ⟨errp, errp, 0, false, false⟩ with
    | none => .error .assertion
    | some s =>
      if s.endp - s.startp ≠ s.n ∨ ¬ s.n ≤ max then .error .assertion
      else if (¬ s.foundStart ∨ ¬ s.foundEnd) ∧ ¬ s.n > 3 then .error .assertion
      else
        let ctx := (b.drop s.startp).take s.n
        let ctx := if s.foundStart then ctx else [46, 46, 46] ++ ctx.drop 3
        let ctx := if s.foundEnd then ctx else ctx.take (s.n - 3) ++ [46, 46, 46]
        .ok (some (ctx, offset - s.startp))

end Verif
