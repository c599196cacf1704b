/-!
# Growable vectors (`lib/src/vector.[ch]`)

The element storage is modelled as an explicit memory of `capacity` cells, each of which is
either uninitialised (`none`) or holds a value.  Touching memory outside the allocation, reading
an uninitialised cell, or violating a C `assert` is a distinct outcome (`Fault`).
-/
namespace Verif

/-- Outcomes of C code that are not ordinary results. -/
inductive Fault where
  /-- access outside an allocation, or through NULL -/
  | outOfBounds
  /-- read of memory that was never written -/
  | uninitialised
  /-- a C `assert` is violated -/
  | assertion
  deriving DecidableEq, Repr

deriving instance DecidableEq for Except

/-- `struct cp_vector` (vector.h:84-90).  `mem = none` is `elements == NULL`.
Simplification: element size is abstracted, one cell per element. -/
structure CVec (α : Type) where
  mem : Option (List (Option α))
  capacity : Nat
  length : Nat
  deriving DecidableEq, Repr

namespace CVec
variable {α : Type}

/-- `cp_vector_init` (vector.c:46-52). -/
def init : CVec α := ⟨none, 0, 0⟩

/-- `CYPHER_VECTOR_BLOCK_SIZE` (vector.c:23). -/
def blockSize : Nat := 8

/-- C `realloc` on success: the old cells are kept, new ones are uninitialised. -/
def realloc (mem : Option (List (Option α))) (n : Nat) : List (Option α) :=
  let old := mem.getD []
  (old ++ List.replicate (n - old.length) none).take n

/-- Write one cell (the `memcpy` at vector.c:79-80). -/
def store (mem : Option (List (Option α))) (i : Nat) (a : α) :
    Except Fault (Option (List (Option α))) :=
  match mem with
  | none => .error .outOfBounds
  | some m => if i < m.length then .ok (some (m.set i (some a))) else .error .outOfBounds

/-- Read one cell. -/
def load (mem : Option (List (Option α))) (i : Nat) : Except Fault α :=
  match mem with
  | none => .error .outOfBounds
  | some m => match m[i]? with
    | none => .error .outOfBounds
    | some none => .error .uninitialised
    | some (some a) => .ok a

/-- `cp_vector_push` (vector.c:63-83).  `allocOk` says whether `realloc` succeeds.  The check at
vector.c:71 tests the argument (`element`, never NULL as it is the address of a local, vector.h:51)
rather than the new allocation, so a failed `realloc` is not noticed. -/
def push (allocOk : Bool) (v : CVec α) (a : α) : Except Fault (CVec α) :=
  if ¬ v.length ≤ v.capacity then .error .assertion else
  let v' : CVec α :=
    if v.length ≥ v.capacity then
      let newcap := if v.capacity = 0 then blockSize else v.capacity * 2
      { v with mem := if allocOk then some (realloc v.mem newcap) else none, capacity := newcap }
    else v
  if ¬ v'.length < v'.capacity then .error .assertion else
  match store v'.mem v'.length a with
  | .error f => .error f
  | .ok m => .ok { v' with mem := m, length := v'.length + 1 }

/-- `name##_pop` over `cp_vector_pop` (vector.h:53-55, 103-107). -/
def pop (d : α) (v : CVec α) : Except Fault (α × CVec α) :=
  if v.length > 0 then
    match load v.mem (v.length - 1) with
    | .error f => .error f
    | .ok a => .ok (a, { v with length := v.length - 1 })
  else .ok (d, v)

/-- `cp_vector_npop` (vector.h:109-112). -/
def npop (v : CVec α) (n : Nat) : CVec α :=
  { v with length := v.length - (if v.length ≤ n then v.length else n) }

/-- `name##_get` over `cp_vector_get` (vector.h:61-63, 114-117). -/
def get (d : α) (v : CVec α) (i : Nat) : Except Fault α :=
  if i < v.length then load v.mem i else .ok d

/-- `name##_last` over `cp_vector_last` (vector.h:65-67, 119-123). -/
def last (d : α) (v : CVec α) : Except Fault α :=
  if v.length > 0 then load v.mem (v.length - 1) else .ok d

/-- `cp_vector_size` (vector.h:125-128). -/
def size (v : CVec α) : Nat := v.length

/-- `cp_vector_clear` (vector.h:130-133). -/
def clear (v : CVec α) : CVec α := { v with length := 0 }

end CVec

/-- The operations of the vector interface. -/
inductive VecOp (α : Type) where
  | push (a : α) | pop | npop (n : Nat) | get (i : Nat) | last | size | clear
  deriving DecidableEq, Repr

/-- What an operation lets the caller observe. -/
inductive VecObs (α : Type) where
  | unit | val (a : α) | num (n : Nat)
  deriving DecidableEq, Repr

/-- Dispatch of an operation on the C vector (allocation succeeds). -/
def CVec.step {α : Type} (d : α) (v : CVec α) : VecOp α → Except Fault (VecObs α × CVec α)
  | .push a => (v.push true a).map fun v' => (.unit, v')
  | .pop => (v.pop d).map fun p => (.val p.1, p.2)
  | .npop n => .ok (.unit, v.npop n)
  | .get i => (v.get d i).map fun a => (.val a, v)
  | .last => (v.last d).map fun a => (.val a, v)
  | .size => .ok (.num v.size, v)
  | .clear => .ok (.unit, v.clear)

/-- Run a sequence of operations on the C vector. -/
def CVec.run {α : Type} (d : α) (v : CVec α) : List (VecOp α) → Except Fault (List (VecObs α))
  | [] => .ok []
  | op :: ops => match v.step d op with
    | .error f => .error f
    | .ok (o, v') => (CVec.run d v' ops).map (o :: ·)

end Verif
