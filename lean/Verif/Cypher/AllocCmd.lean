import Verif.Data.AstType
/-!
# Programs that allocate

The constructors and the clone functions of `lib/src/ast_*.c`, as far as they allocate and free: a list of commands
over the pointers they use. Every question that the environment decides (does an allocation succeed, do the checks
pass, is a count zero) is put to `ask`, by its number; an allocation has the number of the question it was the answer
to.

Simplifications: what the memory contains is not modelled, but for the pointers to other allocations; a `check` stands
for any number of `REQUIRE`s in a row (util.h:34-39, compiled without assertions).
-/
namespace Verif.Alloc
open Verif

/-- The pointers: the node, `node->children`, the other array of a node (`node->args` and the like), and the arrays of
the clone functions. -/
inductive Slot where
  | node | kids | extra | first | second
  deriving DecidableEq, Repr

def Slot.all : List Slot := [.node, .kids, .extra, .first, .second]

/-- The commands. The lists are what is freed before NULL is returned. -/
inductive Cmd where
  /-- `REQUIRE(.., NULL)` -/
  | check (f : List Slot)
  /-- `x = calloc(..); if (x == NULL) { .. return NULL; }`, or with `mdup` -/
  | alloc (x : Slot) (f : List Slot)
  /-- `if (n > 0) { x = mdup(..); if (x == NULL) { .. return NULL; } }` -/
  | part (x : Slot) (f : List Slot)
  /-- `if (cypher_astnode_init(node, .., children, nchildren, ..)) { .. return NULL; }` (ast.c:888-912) -/
  | init (f : List Slot)
  /-- the same with `NULL, 0`, which cannot fail -/
  | bare
  /-- `clone = cypher_ast_t(.., children, nchildren, ..)` -/
  | build (t : AstType)
  /-- `free(x)` -/
  | drop (x : Slot)
  /-- `return node` -/
  | ret
  deriving DecidableEq, Repr

inductive Ptr where
  /-- not yet assigned -/
  | wild
  | null
  | cell (i : Nat)
  deriving DecidableEq, Repr

inductive Fault where
  /-- a pointer that was not assigned is used -/
  | wild
  /-- memory is read or written after it was freed, or through NULL -/
  | useAfterFree
  | doubleFree
  /-- there is no such function -/
  | nullCall
  deriving DecidableEq, Repr

/-- What is allocated, and the number of the next question. -/
structure Mem where
  tick : Nat
  live : List Nat
  deriving DecidableEq, Repr

/-- After a question. -/
def Mem.next (m : Mem) : Mem := { m with tick := m.tick + 1 }
/-- After a question that was answered by an allocation. -/
def Mem.add (m : Mem) : Mem := ⟨m.tick + 1, m.tick :: m.live⟩

/-- `free` -/
def free (p : Ptr) (m : Mem) : Except Fault Mem :=
  match p with
  | .wild => .error .wild
  | .null => .ok m
  | .cell i => if i ∈ m.live then .ok { m with live := m.live.filter (· ≠ i) } else .error .doubleFree

/-- Memory is read or written through a pointer. -/
def touch (p : Ptr) (m : Mem) : Except Fault Unit :=
  match p with
  | .wild => .error .wild
  | .null => .error .useAfterFree
  | .cell i => if i ∈ m.live then .ok () else .error .useAfterFree

/-- A node that was made: its structure and its arrays. -/
structure Made where
  node : Nat
  kids : Option Nat
  extra : Option Nat
  deriving DecidableEq, Repr

def Made.cells (d : Made) : List Nat := d.node :: (d.kids.toList ++ d.extra.toList)

/-- The variables of a function. -/
structure Frame where
  ptr : Slot → Ptr
  /-- what is to be returned -/
  out : Option Made

def Frame.start : Frame := ⟨fun _ => .wild, none⟩

def Frame.set (fr : Frame) (x : Slot) (p : Ptr) : Frame := { fr with ptr := fun y => if y = x then p else fr.ptr y }

/-- The pointers that are fields of the node. -/
def Slot.inNode : Slot → Bool
  | .kids | .extra => true
  | _ => false

/-- Before a pointer is read or assigned: it may be a field of the node. -/
def Frame.reach (fr : Frame) (x : Slot) (m : Mem) : Except Fault Unit :=
  if x.inNode then touch (fr.ptr .node) m else .ok ()

/-- `free(x)` -/
def Frame.free (fr : Frame) (x : Slot) (m : Mem) : Except Fault Mem := do
  fr.reach x m
  Alloc.free (fr.ptr x) m

/-- The structure of a node is all zero at first (`calloc`). -/
def Frame.fill (fr : Frame) (x : Slot) (p : Ptr) : Frame :=
  if x = .node then ((fr.set .kids .null).set .extra .null).set .node p else fr.set x p

/-- `free(..); return NULL;` -/
def fail (fr : Frame) : List Slot → Mem → Except Fault (Option Made × Mem)
  | [], m => .ok (none, m)
  | x :: xs, m => do
    let m ← fr.free x m
    fail fr xs m

def Ptr.opt : Ptr → Except Fault (Option Nat)
  | .wild => .error .wild
  | .null => .ok none
  | .cell i => .ok (some i)

/-- `return node` -/
def Frame.ret (fr : Frame) (m : Mem) : Except Fault Frame := do
  touch (fr.ptr .node) m
  match fr.ptr .node with
  | .cell i => do
    let k ← (fr.ptr .kids).opt
    let e ← (fr.ptr .extra).opt
    .ok { fr with out := some ⟨i, k, e⟩ }
  | _ => .error .wild

section
variable (ask : Nat → Bool) (n : Nat) (callee : AstType → Mem → Except Fault (Option Made × Mem))

/-- The run of a function; `n` is the number of children. -/
def exec : List Cmd → Frame → Mem → Except Fault (Option Made × Mem)
  | [], fr, m => .ok (fr.out, m)
  | .check f :: p, fr, m => if ask m.tick then exec p fr m.next else fail fr f m.next
  | .alloc x f :: p, fr, m => do
    fr.reach x m
    if ask m.tick then exec p (fr.fill x (.cell m.tick)) m.add else fail (fr.set x .null) f m.next
  | .part x f :: p, fr, m =>
    if ask m.tick then do
      let m := m.next
      fr.reach x m
      if ask m.tick then exec p (fr.fill x (.cell m.tick)) m.add else fail (fr.set x .null) f m.next
    else exec p fr m.next
  | .init f :: p, fr, m => do
    fr.reach .kids m
    if n = 0 then exec p (fr.set .kids .null) m
    else if ask m.tick then exec p (fr.set .kids (.cell m.tick)) m.add
    else fail (fr.set .kids .null) f m.next
  | .bare :: p, fr, m => do
    fr.reach .kids m
    exec p (fr.set .kids .null) m
  | .build t :: p, fr, m => do
    let (o, m) ← callee t m
    exec p { fr with out := o } m
  | .drop x :: p, fr, m => do
    let m ← fr.free x m
    exec p fr m
  | .ret :: p, fr, m => do
    let fr ← fr.ret m
    exec p fr m

end

/-- The constructors and the clone functions. -/
structure Progs where
  new : AstType → Option (List Cmd)
  clone : AstType → Option (List Cmd)

/-- A constructor call. -/
def newNode (P : Progs) (ask : Nat → Bool) (n : Nat) (t : AstType) (m : Mem) : Except Fault (Option Made × Mem) :=
  match P.new t with
  | none => .error .nullCall
  | some p => exec ask n (fun _ _ => .error .nullCall) p .start m

/-- `vt->clone(ast, children)` -/
def cloneNode (P : Progs) (ask : Nat → Bool) (n : Nat) (t : AstType) (m : Mem) : Except Fault (Option Made × Mem) :=
  match P.clone t with
  | none => .error .nullCall
  | some p => exec ask n (newNode P ask n) p .start m

end Verif.Alloc
