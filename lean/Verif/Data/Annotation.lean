import Verif.Data.Vector
/-!
# Annotations (`lib/src/annotation.[ch]`)

The doubly linked lists threaded through annotation records are modelled as a heap: records are
addressed by natural numbers, every field is a map from addresses, and dereferencing an address
that is not allocated is a fault.  Contexts and AST nodes are identified by numbers; only their
`annotations` head pointers matter here.  Annotation data (a `void *`) is a natural number.
-/
namespace Verif

/-- Point update of a map. -/
def upd {β : Type} (f : Nat → β) (a : Nat) (b : β) : Nat → β := fun x => if x = a then b else f x

/-- All `struct cypher_astnode_annotation` records (annotation.h:23-34), field by field, with the
`annotations` fields of contexts (annotation.h:37-42) and AST nodes (astnode.h). -/
structure AHeap where
  live : Nat → Bool
  context : Nat → Option Nat
  astnode : Nat → Option Nat
  data : Nat → Nat
  nodePrev : Nat → Option Nat
  nodeNext : Nat → Option Nat
  ctxPrev : Nat → Option Nat
  ctxNext : Nat → Option Nat
  nodeHead : Nat → Option Nat
  ctxHead : Nat → Option Nat
  /-- the allocator: addresses from here on have never been used -/
  fresh : Nat

namespace AHeap

/-- Initial heap: no annotation anywhere. -/
def init : AHeap :=
  ⟨fun _ => false, fun _ => none, fun _ => none, fun _ => 0, fun _ => none, fun _ => none,
   fun _ => none, fun _ => none, fun _ => none, fun _ => none, 0⟩

/-- Dereference check. -/
def chk (h : AHeap) (a : Nat) : Except Fault Unit :=
  if h.live a then .ok () else .error .outOfBounds

/-- `find_annotation` (annotation.c:155-166); `fuel` bounds the walk, `none` for a walk that does not
end within it is a fault (a cyclic list would loop for ever). -/
def findLoop (h : AHeap) (c : Nat) : Nat → Option Nat → Except Fault (Option Nat)
  | _, none => .ok none
  | 0, some _ => .error .assertion
  | fuel + 1, some a => do
    h.chk a
    if h.context a = some c then .ok (some a) else findLoop h c fuel (h.nodeNext a)

def find (h : AHeap) (c n : Nat) : Except Fault (Option Nat) :=
  h.findLoop c h.fresh (h.nodeHead n)

/-- `attach_annotation_to_astnode` (annotation.c:169-182). -/
def attachNode (h : AHeap) (n a : Nat) : Except Fault AHeap := do
  h.chk a
  let h := { h with astnode := upd h.astnode a (some n) }
  let h := { h with nodeNext := upd h.nodeNext a (h.nodeHead n) }
  let h ← match h.nodeHead n with
    | some b => do h.chk b; pure { h with nodePrev := upd h.nodePrev b (some a) }
    | none => pure h
  pure { h with nodeHead := upd h.nodeHead n (some a) }

/-- `attach_annotation_to_context` (annotation.c:208-221). -/
def attachCtx (h : AHeap) (c a : Nat) : Except Fault AHeap := do
  h.chk a
  let h := { h with context := upd h.context a (some c) }
  let h := { h with ctxNext := upd h.ctxNext a (h.ctxHead c) }
  let h ← match h.ctxHead c with
    | some b => do h.chk b; pure { h with ctxPrev := upd h.ctxPrev b (some a) }
    | none => pure h
  pure { h with ctxHead := upd h.ctxHead c (some a) }

/-- `detach_annotation_from_astnode` (annotation.c:185-205). -/
def detachNode (h : AHeap) (a : Nat) : Except Fault AHeap := do
  h.chk a
  let h ← match h.nodeNext a with
    | some b => do h.chk b; pure { h with nodePrev := upd h.nodePrev b (h.nodePrev a) }
    | none => pure h
  let h ← match h.nodePrev a with
    | none => match h.astnode a with
      | some n => pure { h with nodeHead := upd h.nodeHead n (h.nodeNext a) }
      | none => .error .outOfBounds
    | some b => do h.chk b; pure { h with nodeNext := upd h.nodeNext b (h.nodeNext a) }
  pure { h with astnode := upd h.astnode a none, nodeNext := upd h.nodeNext a none,
                nodePrev := upd h.nodePrev a none }

/-- `detach_annotation_from_context` (annotation.c:224-242). -/
def detachCtx (h : AHeap) (a : Nat) : Except Fault AHeap := do
  h.chk a
  let h ← match h.ctxNext a with
    | some b => do h.chk b; pure { h with ctxPrev := upd h.ctxPrev b (h.ctxPrev a) }
    | none => pure h
  let h ← match h.ctxPrev a with
    | none => match h.context a with
      | some c => pure { h with ctxHead := upd h.ctxHead c (h.ctxNext a) }
      | none => .error .outOfBounds
    | some b => do h.chk b; pure { h with ctxNext := upd h.ctxNext b (h.ctxNext a) }
  pure { h with context := upd h.context a none, ctxNext := upd h.ctxNext a none,
                ctxPrev := upd h.ctxPrev a none }

/-- `malloc` + `memset` + setting `data` (annotation.c:94-100); allocation succeeds. -/
def alloc (h : AHeap) (d : Nat) : AHeap :=
  let a := h.fresh
  { h with live := upd h.live a true, context := upd h.context a none,
           astnode := upd h.astnode a none, data := upd h.data a d,
           nodePrev := upd h.nodePrev a none, nodeNext := upd h.nodeNext a none,
           ctxPrev := upd h.ctxPrev a none, ctxNext := upd h.ctxNext a none,
           fresh := h.fresh + 1 }

/-- C `free` of a record. -/
def free (h : AHeap) (a : Nat) : Except Fault AHeap := do
  h.chk a
  pure { h with live := upd h.live a false }

/-- `cypher_astnode_attach_annotation` (annotation.c:73-110): new heap and `*previous_annotation`. -/
def attach (h : AHeap) (c n d : Nat) : Except Fault (Option Nat × AHeap) := do
  match ← h.find c n with
  | some a =>
    h.chk a
    pure (some (h.data a), { h with data := upd h.data a d })
  | none =>
    let a := h.fresh
    let h := h.alloc d
    let h ← h.attachNode n a
    let h ← h.attachCtx c a
    pure (none, h)

/-- `cypher_astnode_remove_annotation` (annotation.c:113-135). -/
def remove (h : AHeap) (c n : Nat) : Except Fault (Option Nat × AHeap) := do
  match ← h.find c n with
  | none => pure (none, h)
  | some a =>
    if h.astnode a ≠ some n ∨ h.context a ≠ some c then .error .assertion
    else
      let h1 ← h.detachNode a
      let h2 ← h1.detachCtx a
      let d := h2.data a
      let h3 ← h2.free a
      pure (some d, h3)

/-- `cypher_astnode_get_annotation` (annotation.c:138-152). -/
def get (h : AHeap) (c n : Nat) : Except Fault (Option Nat) := do
  match ← h.find c n with
  | none => pure none
  | some a => do h.chk a; pure (some (h.data a))

/-- `cp_release_annotation` (annotation.c:245-260): the call made to the release handler (its node
argument and the data), and the new heap.  The handler may be absent; the would-be call is
reported either way.  Simplification: the handler does not itself call into the library. -/
def release (h : AHeap) (a : Nat) : Except Fault ((Option Nat × Nat) × AHeap) := do
  h.chk a
  match h.context a with
  | none => .error .outOfBounds   -- `context->release_cb` with a NULL context
  | some _ =>
    let h1 ← h.detachNode a
    let h2 ← h1.detachCtx a
    let call := (h2.astnode a, h2.data a)
    let h3 ← h2.free a
    pure (call, h3)

/-- The loop of `cypher_ast_annotation_context_free` (annotation.c:57-70). -/
def freeCtxLoop (c : Nat) : Nat → AHeap → Except Fault (List (Option Nat × Nat) × AHeap)
  | fuel, h => match h.ctxHead c with
    | none => .ok ([], h)
    | some a => match fuel with
      | 0 => .error .assertion
      | fuel + 1 => do
        let (call, h) ← h.release a
        let (calls, h) ← freeCtxLoop c fuel h
        pure (call :: calls, h)

def freeCtx (h : AHeap) (c : Nat) : Except Fault (List (Option Nat × Nat) × AHeap) :=
  freeCtxLoop c h.fresh h

/-- Releasing the annotations of a node being freed (`cypher_ast_free` and
`cypher_astnode_free`, ast.c:499-502 and 523-526): the same loop over the node's list. -/
def freeNodeLoop (n : Nat) : Nat → AHeap → Except Fault (List (Option Nat × Nat) × AHeap)
  | fuel, h => match h.nodeHead n with
    | none => .ok ([], h)
    | some a => match fuel with
      | 0 => .error .assertion
      | fuel + 1 => do
        let (call, h) ← h.release a
        let (calls, h) ← freeNodeLoop n fuel h
        pure (call :: calls, h)

def freeNode (h : AHeap) (n : Nat) : Except Fault (List (Option Nat × Nat) × AHeap) :=
  freeNodeLoop n h.fresh h

end AHeap

/-- Operations on annotations. -/
inductive AnnOp where
  | attach (c n d : Nat) | remove (c n : Nat) | get (c n : Nat) | freeCtx (c : Nat) | freeNode (n : Nat)
  deriving DecidableEq, Repr

/-- Observations: a returned pointer, or the data values handed to the release handler. -/
inductive AnnObs where
  | val (d : Option Nat) | released (ds : List Nat)
  deriving DecidableEq, Repr

def AHeap.step (h : AHeap) : AnnOp → Except Fault (AnnObs × AHeap)
  | .attach c n d => do let (r, h) ← h.attach c n d; pure (.val r, h)
  | .remove c n => do let (r, h) ← h.remove c n; pure (.val r, h)
  | .get c n => do let r ← h.get c n; pure (.val r, h)
  | .freeCtx c => do let (r, h) ← h.freeCtx c; pure (.released (r.map Prod.snd), h)
  | .freeNode n => do let (r, h) ← h.freeNode n; pure (.released (r.map Prod.snd), h)

def AHeap.run (h : AHeap) : List AnnOp → Except Fault (List AnnObs)
  | [] => .ok []
  | op :: ops => do
    let (o, h) ← h.step op
    let os ← AHeap.run h ops
    pure (o :: os)

end Verif
