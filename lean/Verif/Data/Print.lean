import Verif.Data.Ast
import Verif.Data.Util
/-!
# Printing trees (`cypher_ast_fprint`, lib/src/ast.c:600-880)

What is printed is the list of bytes handed to `fprintf`, `fputs` and `fputc`. Simplifications: printing and
allocation succeed; `(unsigned int)log10(x)` is exact for positive `x` (it only decides on padding).
`flags` is not used by the code.
-/
namespace Verif.Print
open Verif

/-- Why printing stops. -/
inductive Stop where
  | fault (f : Fault)
  /-- `(unsigned int)log10(0)`: the conversion of minus infinity is undefined (C11 6.3.1.4) -/
  | conversion
  deriving DecidableEq, Repr

/-- Storing bytes in a buffer at an index. -/
def store (buf : List UInt8) (i : Nat) (bs : List UInt8) : Except Fault (List UInt8) :=
  if i + bs.length ≤ buf.length then .ok (buf.take i ++ (bs ++ buf.drop (i + bs.length)))
  else .error .outOfBounds

/-! ## Writing details

The `detailstr` functions of `lib/src/ast_*.c` write into `str`, which has `size` bytes, and count in `n`. -/

/-- Which NUL is written after a closing bracket. -/
inductive Nul where
  | no
  /-- `str[n+1] = '\0'` -/
  | next
  /-- `str[size-1] = '\0'` -/
  | last
  deriving DecidableEq, Repr

/-- One step of a `detailstr` function. -/
inductive W where
  /-- `r = snprintf(str+n, (n < size)? size-n : 0, ...); n += r`, where `t` is the whole text -/
  | fmt (t : List UInt8)
  /-- `if (n < size) str[n] = c; n++` -/
  | put (c : UInt8)
  /-- `if (n+1 < size) { str[n] = c; ... } n++` -/
  | close (c : UInt8) (nul : Nul)
  /-- `if (n < size) { strncpy(str+n, t, size-n); str[size-1] = '\0'; } n += k` -/
  | copy (t : List UInt8) (k : Nat)
  /-- `if (n < size) strncpy(str+n, t, size-n); if (size > 0) str[size-1] = '\0'; n += k` -/
  | copyAnd (t : List UInt8) (k : Nat)
  deriving DecidableEq, Repr

/-- The bytes stored by `snprintf` with `m` bytes of room. -/
def snBytes (m : Nat) (t : List UInt8) : List UInt8 := if m = 0 then [] else t.take (m - 1) ++ [0]

/-- The bytes stored by `strncpy` with `m` bytes of room: padded with NULs. -/
def cpBytes (m : Nat) (t : List UInt8) : List UInt8 := t.take m ++ List.replicate (m - t.length) 0

def W.step (size : Nat) (buf : List UInt8) (n : Nat) : W → Except Fault (List UInt8 × Nat)
  | .fmt t => do
    let buf ← if n < size then store buf n (snBytes (size - n) t) else .ok buf
    .ok (buf, n + t.length)
  | .put c => do
    let buf ← if n < size then store buf n [c] else .ok buf
    .ok (buf, n + 1)
  | .close c nul => do
    if n + 1 < size then
      let buf ← store buf n [c]
      let buf ← match nul with
        | .no => .ok buf
        | .next => store buf (n + 1) [0]
        | .last => store buf (size - 1) [0]
      .ok (buf, n + 1)
    else .ok (buf, n + 1)
  | .copy t k => do
    if n < size then
      let buf ← store buf n (cpBytes (size - n) t)
      let buf ← store buf (size - 1) [0]
      .ok (buf, n + k)
    else .ok (buf, n + k)
  | .copyAnd t k => do
    let buf ← if n < size then store buf n (cpBytes (size - n) t) else .ok buf
    let buf ← if 0 < size then store buf (size - 1) [0] else .ok buf
    .ok (buf, n + k)

/-- A `detailstr` function: its steps, one after the other. -/
def writeAll (size : Nat) : List W → List UInt8 → Nat → Except Fault (List UInt8 × Nat)
  | [], buf, n => .ok (buf, n)
  | w :: ws, buf, n => do
    let (buf, n) ← w.step size buf n
    writeAll size ws buf n

/-- `cypher_astnode_detailstr_realloc` (ast.c:600-624), result `(buf, cap, width)`; the cells added by
`realloc` hold `junk`. -/
def detailRealloc (junk : Nat → List UInt8) (ws : List W) (buf : List UInt8) (cap : Nat) :
    Except Fault (List UInt8 × Nat × Nat) := do
  let (buf, width) ← writeAll cap ws buf 0
  if width > cap then
    let grown := (buf ++ junk width).take (width + 1)
    let (buf, width') ← writeAll (width + 1) ws grown 0
    .ok (buf, width + 1, width')
  else .ok (buf, cap, width)

/-! ## Numbers -/

/-- The digit of a number below 10. -/
def digit (n : Nat) : UInt8 := UInt8.ofNat (48 + n)

def decAux : Nat → Nat → List UInt8 → List UInt8
  | 0, _, acc => acc
  | f + 1, n, acc => if n < 10 then digit n :: acc else decAux f (n / 10) (digit (n % 10) :: acc)

/-- `%u`, `%zu`. -/
def decimal (n : Nat) : List UInt8 := decAux (n + 1) n []

def logAux : Nat → Nat → Nat
  | 0, _ => 0
  | f + 1, n => if n < 10 then 0 else 1 + logAux f (n / 10)

/-- `(unsigned int)log10(n)`. -/
def log10 (n : Nat) : Except Stop Nat := if n = 0 then .error .conversion else .ok (logAux n n)

/-- `%*s`, `%*zu`. -/
def padLeft (w : Nat) (t : List UInt8) : List UInt8 := List.replicate (w - t.length) 32 ++ t
/-- `%-*zu`. -/
def padRight (w : Nat) (t : List UInt8) : List UInt8 := t ++ List.replicate (w - t.length) 32

/-! ## Trees -/

/-- A tree as far as it is printed: type, range, ordinal, steps of `detailstr`, children. -/
inductive Tree where
  | node (ty : AstType) (range : Range) (ordinal : Nat) (detail : List W) (children : List Tree)

/-- The colours of `struct cypher_parser_colorization` (cypher-parser.h.in:90-101) used for trees. -/
structure Colours where
  ordinal : List UInt8 × List UInt8
  range : List UInt8 × List UInt8
  indent : List UInt8 × List UInt8
  type : List UInt8 × List UInt8
  desc : List UInt8 × List UInt8

/-- `cypher_parser_no_colorization` (parser_config.c:33-42). -/
def noColours : Colours := ⟨([], []), ([], []), ([], []), ([], []), ([], [])⟩

/-- `cypher_parser_ansi_colorization` (parser_config.c:44-53). -/
def ansiColours : Colours :=
  let reset := 27 :: ascii "[0m"
  ⟨([], []), (27 :: ascii "[36m", reset), (27 :: ascii "[33m", reset), (27 :: ascii "[1m", reset), ([], [])⟩

/-- `strlen(cypher_astnode_typestr(type))` and the string itself; abstract types have none. -/
def typeName (ty : AstType) : Except Fault (List UInt8) :=
  match typestr ty with
  | .ok (some s) => .ok (ascii s)
  | .ok none => .error .outOfBounds
  | .error e => .error e

/-- `max_ordinal`, `max_start`, `max_end` and `name_width`. -/
structure Widths where
  ordinal : Nat
  start : Nat
  stop : Nat
  name : Nat
  deriving DecidableEq, Repr

mutual
/-- `ast_fprint_field_widths` (ast.c:627-646). -/
def fieldWidths : Tree → Nat → Widths → Except Fault Widths
  | .node ty r o _ cs, depth, m => do
    let t ← typeName ty
    fieldWidthsAll cs (depth + 1)
      ⟨max m.ordinal o, max m.start r.start.offset, max m.stop r.stop.offset, max m.name (t.length + depth * 2)⟩
def fieldWidthsAll : List Tree → Nat → Widths → Except Fault Widths
  | [], _, m => .ok m
  | t :: ts, depth, m => do
    let m ← fieldWidths t depth m
    fieldWidthsAll ts depth m
end

/-- What is printed for a byte of the detail (ast.c:670-682): the bytes up to the first NUL of `desc`. -/
def escape (c : UInt8) : List UInt8 :=
  if c = 7 then [92, 97] else if c = 8 then [92, 98] else if c = 12 then [92, 102]
  else if c = 10 then [92, 110] else if c = 13 then [92, 114] else if c = 9 then [92, 116]
  else if c = 11 then [92, 118] else if c = 0 then [] else [c]

/-- `--w` on a `size_t`. -/
def decrement (w : Nat) : Nat := if w = 0 then 2 ^ 64 - 1 else w - 1

/-- The inner loop (ast.c:684-704): the bytes for one byte of the detail; `more` is `n+1 < len`. -/
def detailBytes (render width offset : Nat) (more : Bool) : List UInt8 → Nat → List UInt8 × Nat
  | [], w => ([], w)
  | c :: cs, w =>
    if 0 < render then
      let w := decrement w
      if w = 0 ∧ more = true then
        let (out, w) := detailBytes render width offset more cs width
        (c :: 10 :: (List.replicate offset 32 ++ out), w)
      else
        let (out, w) := detailBytes render width offset more cs w
        (c :: out, w)
    else
      let (out, w) := detailBytes render width offset more cs w
      (c :: out, w)

/-- The loop at ast.c:667-705. -/
def detailLoop (render width offset : Nat) : List UInt8 → Nat → List UInt8
  | [], _ => []
  | c :: cs, w =>
    let (out, w) := detailBytes render width offset (!cs.isEmpty) (escape c) w
    out ++ detailLoop render width offset cs w

/-- `ast_fprint_detail` (ast.c:651-715). -/
def printDetail (colours : Colours) (detail : List UInt8) (render offset : Nat) : List UInt8 :=
  let width := if render = 0 then 0 else if offset < render then render - offset else 10
  colours.desc.1 ++ detailLoop render width offset detail width ++ [10] ++ colours.desc.2

/-- The widths of the columns (`ordinal_width`, `start_width`, `end_width`, `name_width`). -/
structure Columns where
  ordinal : Nat
  start : Nat
  stop : Nat
  name : Nat
  deriving DecidableEq, Repr

def liftF {α : Type} : Except Fault α → Except Stop α
  | .ok a => .ok a
  | .error e => .error (.fault e)

/-- The end of the line (ast.c:767-790), given `consumed`. -/
def printBack (colours : Colours) (render : Nat) (cols : Columns) (consumed : Nat) (buf : List UInt8) (len : Nat) :
    Except Stop (List UInt8) :=
  if 0 < len then
    if consumed ≤ cols.name then
      if len ≤ buf.length then
        .ok (List.replicate (cols.name - consumed + 2) 32 ++ printDetail colours (buf.take len) render
          (cols.name + cols.start + cols.stop + cols.ordinal + 8))
      else .error (.fault .outOfBounds)
    else .error (.fault .assertion)
  else .ok [10]

section
variable (junk : Nat → List UInt8) (colours : Colours) (render : Nat) (cols : Columns)

mutual
/-- `_cypher_ast_fprint` (ast.c:718-804): what is printed, and the buffer with its capacity. -/
def printTree : Tree → Nat → List UInt8 → Nat → Except Stop (List UInt8 × List UInt8 × Nat)
  | .node ty r o detail cs, depth, buf, cap => do
    let (buf, cap, _) := snprintfRealloc (junk cap) buf cap (64 :: decimal o)
    let number ← liftF (cString buf)
    let name ← liftF (typeName ty)
    let front := colours.ordinal.1 ++ padLeft cols.ordinal number ++ colours.ordinal.2 ++ [32, 32] ++
      colours.range.1 ++ padLeft cols.start (decimal r.start.offset) ++ [46, 46] ++
      padRight cols.stop (decimal r.stop.offset) ++ colours.range.2 ++ [32, 32] ++ colours.indent.1 ++
      (List.replicate depth [62, 32]).flatten ++ colours.indent.2 ++ colours.type.1 ++ name ++ colours.type.2
    let (buf, cap, len) ← liftF (detailRealloc junk detail buf cap)
    let back ← printBack colours render cols (depth * 2 + name.length) buf len
    let (rest, buf, cap) ← printAll cs (depth + 1) buf cap
    .ok (front ++ back ++ rest, buf, cap)
def printAll : List Tree → Nat → List UInt8 → Nat → Except Stop (List UInt8 × List UInt8 × Nat)
  | [], _, buf, cap => .ok ([], buf, cap)
  | t :: ts, depth, buf, cap => do
    let (out, buf, cap) ← printTree t depth buf cap
    let (rest, buf, cap) ← printAll ts depth buf cap
    .ok (out ++ rest, buf, cap)
end
end

/-- `cypher_ast_fprintv` (ast.c:839-881); `cypher_ast_fprint` (ast.c:807-836) is the same for one tree.
`junk n` is what fresh memory holds. -/
def fprintv (junk : Nat → List UInt8) (colours : Colours) (render : Nat) (ts : List Tree) :
    Except Stop (List UInt8) := do
  let m ← liftF (fieldWidthsAll ts 0 ⟨0, 0, 0, 0⟩)
  let ow ← log10 m.ordinal
  let sw ← log10 m.start
  let ew ← log10 m.stop
  let (out, _, _) ← printAll junk colours render ⟨ow + 2, sw + 1, ew + 1, m.name⟩ ts 0 ((junk 1024).take 1024) 1024
  .ok out

end Verif.Print
