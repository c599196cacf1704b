import Verif.Data.Ast
/-!
# Segments and results (`lib/src/segment.c`, `lib/src/result.c`)

Roots are pairs of an address (the C pointer) and the tree stored there; directives are addresses.
Arrays are lists (the allocated block) next to the count fields of the C structures, so that reading
past the allocation is a distinct outcome.
-/
namespace Verif

/-- A root: address and tree. -/
abbrev Root := Nat × Ast

/-- `struct cypher_parse_segment` (segment.h:24-36). -/
structure Segment where
  refcount : Nat
  range : Range
  errors : List PErr
  nerrors : Nat
  roots : List Root
  nroots : Nat
  nnodes : Nat
  directive : Option Nat
  eof : Bool

/-- Reading element `i` of an allocated array. -/
def arrayRead {α : Type} (block : List α) (i : Nat) : Except Fault α :=
  match block[i]? with
  | some a => .ok a
  | none => .error .outOfBounds

/-- The accessor pattern `if (index >= n) return NULL; return block[index]`
(segment.c:126-134, 144-152; result.c:31-39, 55-63, 72-80). -/
def guardedRead {α : Type} (block : List α) (n i : Nat) : Except Fault (Option α) :=
  if i ≥ n then .ok none
  else match arrayRead block i with
    | .ok a => .ok (some a)
    | .error e => .error e

/-- The ordinals loop of the constructor (segment.c:54-58): the trees are updated in place. -/
def setRootOrdinals : List Root → Nat → List Root × Nat
  | [], n => ([], n)
  | (a, t) :: rs, n =>
    let (t', n1) := t.setOrdinals n
    let (rs', n2) := setRootOrdinals rs n1
    ((a, t') :: rs', n2)

namespace Segment

/-- `cypher_parse_segment` (segment.c:24-79), allocation succeeding.  `nnodes` is computed by
subtraction as in the C code. -/
def new (ordinal : Nat) (range : Range) (errors : List PErr) (roots : List Root)
    (directive : Option Nat) (eof : Bool) : Segment :=
  let (roots', final) := setRootOrdinals roots ordinal
  { refcount := 1, range := range,
    errors := if errors.length > 0 then errors else [],
    nerrors := if errors.length > 0 then errors.length else 0,
    roots := if roots.length > 0 then roots' else [],
    nroots := if roots.length > 0 then roots.length else 0,
    nnodes := final - ordinal, directive := directive, eof := eof }

/-- `cypher_parse_segment_get_error` (segment.c:126-134). -/
def getError (s : Segment) (i : Nat) : Except Fault (Option PErr) :=
  guardedRead s.errors s.nerrors i

/-- `cypher_parse_segment_get_node` (segment.c:143-152). -/
def getRoot (s : Segment) (i : Nat) : Except Fault (Option Root) :=
  guardedRead s.roots s.nroots i

end Segment

/-- `struct cypher_parse_result` (result.h:25-38). `directives` holds the used part of the array,
`directivesCap` its capacity. -/
structure Result where
  errors : List PErr
  nerrors : Nat
  roots : List Root
  nroots : Nat
  nnodes : Nat
  directives : List Nat
  ndirectives : Nat
  directivesCap : Nat
  eof : Bool

namespace Result

/-- `calloc` in `parse` (parser.c:712). -/
def empty : Result := ⟨[], 0, [], 0, 0, [], 0, 0, false⟩

/-- `memcpy(dst + n, src, m)` where `dst` has just been reallocated to hold `n+m` elements. Reading
more than `src` or more than `n` initialised elements of `dst` is a fault. -/
def appendCopy {α : Type} (dst : List α) (n : Nat) (src : List α) (m : Nat) :
    Except Fault (List α) :=
  if dst.length < n ∨ src.length < m then .error .outOfBounds
  else .ok (dst.take n ++ src.take m)

/-- The eof flag (result.c:92-96). -/
def mergeEof (r : Result) (s : Segment) : Result :=
  if !r.eof && s.eof && (s.directive.isSome || decide (s.nerrors > 0))
    then { r with eof := true } else r

/-- The errors (result.c:98-113). -/
def mergeErrors (r : Result) (s : Segment) : Except Fault (Result × Segment) :=
  if s.nerrors > 0 then
    match appendCopy r.errors r.nerrors s.errors s.nerrors with
    | .ok errors => .ok ({ r with errors := errors, nerrors := r.nerrors + s.nerrors },
        { s with nerrors := 0 })
    | .error e => .error e
  else .ok (r, s)

/-- The roots (result.c:115-130). -/
def mergeRoots (r : Result) (s : Segment) : Except Fault (Result × Segment) :=
  if s.nroots > 0 then
    match appendCopy r.roots r.nroots s.roots s.nroots with
    | .ok roots => .ok ({ r with roots := roots, nroots := r.nroots + s.nroots },
        { s with nroots := 0 })
    | .error e => .error e
  else .ok (r, s)

/-- The directive (result.c:134-150): the array is grown when full. -/
def mergeDirective (r : Result) (s : Segment) : Except Fault (Result × Segment) :=
  match s.directive with
  | none => .ok (r, s)
  | some d =>
    if ¬ (r.directivesCap ≥ r.ndirectives) then .error .assertion
    else
      let cap := if r.directivesCap ≤ r.ndirectives then
          (if r.directivesCap = 0 then 8 else r.directivesCap * 2) else r.directivesCap
      if r.ndirectives < cap then
        .ok ({ r with directives := r.directives.take r.ndirectives ++ [d],
                      ndirectives := r.ndirectives + 1, directivesCap := cap },
             { s with directive := none })
      else .error .outOfBounds

/-- `cp_result_merge_segment` (result.c:89-153), allocation succeeding: the updated result and
segment. -/
def merge (r : Result) (s : Segment) : Except Fault (Result × Segment) := do
  let (r, s) ← mergeErrors (mergeEof r s) s
  let (r, s) ← mergeRoots r s
  mergeDirective { r with nnodes := r.nnodes + s.nnodes } s

/-- `cypher_parse_result_get_root` (result.c:31-39). -/
def getRoot (r : Result) (i : Nat) : Except Fault (Option Root) := guardedRead r.roots r.nroots i

/-- `cypher_parse_result_get_directive` (result.c:55-63). -/
def getDirective (r : Result) (i : Nat) : Except Fault (Option Nat) :=
  guardedRead r.directives r.ndirectives i

/-- `cypher_parse_result_get_error` (result.c:72-80). -/
def getError (r : Result) (i : Nat) : Except Fault (Option PErr) := guardedRead r.errors r.nerrors i

/-- What `cypher_parse` does with the successive segments: `parse_all_callback` is called on each
(parser.c:701-705). -/
def mergeAll (r : Result) : List Segment → Except Fault Result
  | [] => .ok r
  | s :: ss => match r.merge s with
    | .ok (r', _) => mergeAll r' ss
    | .error e => .error e

end Result

/-- `cypher_astnode_get_child` (ast.c:466-474): same guarded read over the children of a node. -/
def Ast.getChild (a : Ast) (i : Nat) : Except Fault (Option Ast) :=
  guardedRead a.children a.children.length i

/-! ## Ownership: retain, release, merge and free -/

/-- The heap as seen by the ownership discipline. `segs` maps a segment handle to the live
segment or to `none` once freed; `result` is the parse result collecting segments (`none` once
freed); `freedRoots`, `freedErrors` log each `cypher_ast_free` / error cleanup. -/
structure Heap where
  segs : List (Option Segment)
  result : Option Result
  freedRoots : List Nat
  freedErrors : List PErr

/-- Client-visible operations. -/
inductive SegOp where
  | create (ordinal : Nat) (range : Range) (errors : List PErr) (roots : List Root)
      (directive : Option Nat) (eof : Bool)
  | retain (h : Nat)
  | release (h : Nat)
  | merge (h : Nat)
  | freeResult

namespace Heap

/-- Dereferencing a handle: using a freed (or never allocated) segment is a fault. -/
def deref (w : Heap) (h : Nat) : Except Fault Segment :=
  match w.segs[h]? with
  | some (some s) => .ok s
  | _ => .error .outOfBounds

/-- One operation. `retain`: segment.c:82-87; `release`: segment.c:90-109 with
`cp_errors_vcleanup` (errors.c:55-64) and `cypher_ast_vfree` (ast.c:433-440) over the counts still in
the segment; `merge`: result.c:89-153; `freeResult`: result.c:174-187. -/
def step (w : Heap) : SegOp → Except Fault Heap
  | .create o rg es rs d e =>
    .ok { w with segs := w.segs ++ [some (Segment.new o rg es rs d e)] }
  | .retain h => do
    let s ← w.deref h
    if ¬ (s.refcount > 0) then throw .assertion
    .ok { w with segs := w.segs.set h (some { s with refcount := s.refcount + 1 }) }
  | .release h => do
    let s ← w.deref h
    if ¬ (s.refcount > 0) then throw .assertion
    let rc := s.refcount - 1
    if rc > 0 then .ok { w with segs := w.segs.set h (some { s with refcount := rc }) }
    else
      if s.errors.length < s.nerrors ∨ s.roots.length < s.nroots then throw .outOfBounds
      .ok { w with segs := w.segs.set h none,
                   freedErrors := w.freedErrors ++ s.errors.take s.nerrors,
                   freedRoots := w.freedRoots ++ (s.roots.take s.nroots).map (·.1) }
  | .merge h => do
    let s ← w.deref h
    match w.result with
    | none => throw .outOfBounds
    | some r => do
      let (r', s') ← r.merge s
      .ok { w with segs := w.segs.set h (some s'), result := some r' }
  | .freeResult =>
    match w.result with
    | none => .error .outOfBounds
    | some r =>
      if r.errors.length < r.nerrors ∨ r.roots.length < r.nroots then .error .outOfBounds
      else .ok { w with result := none,
                        freedErrors := w.freedErrors ++ r.errors.take r.nerrors,
                        freedRoots := w.freedRoots ++ (r.roots.take r.nroots).map (·.1) }

/-- A history. -/
def run (w : Heap) : List SegOp → Except Fault Heap
  | [] => .ok w
  | op :: ops => match w.step op with
    | .ok w' => run w' ops
    | .error e => .error e

/-- The heap at the start of `cypher_parse`: no segment, an empty result. -/
def init : Heap := ⟨[], some Result.empty, [], []⟩

end Heap
end Verif
