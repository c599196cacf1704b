import Verif.Cypher.AllocTable
import Verif.Cypher.AllocChk
import Verif.Cypher.Typing
/-!
# Copying trees when allocations may fail

`cypher_ast_clone` with the memory it takes. What the copies contain is modelled in `Clone.lean`; here it does not
matter, and neither does what `child_index` answers, as long as it answers.
-/
namespace Verif.Alloc
open Verif Verif.Cypher

/-- The functions of the code. -/
def code : Progs := ⟨newProg, cloneProg⟩

/-- The functions with five repairs: `cypher_ast_query`, `cypher_ast_call` and `cypher_ast_comparison` also free the
array of children, and the clone functions of a query and of CALL free the first array when there is no second. -/
def repaired : Progs where
  new
    | .query => some [.check [], .alloc .node [], .init [.node], .part .extra [.kids, .node], .ret]
    | .call => some [.check [], .alloc .node [], .init [.node], .part .extra [.kids, .node], .ret]
    | .comparison => some [.check [], .alloc .node [], .init [.node], .alloc .extra [.extra, .kids, .node], .ret]
    | t => newProg t
  clone
    | .query => some [.check [], .alloc .first [], .alloc .second [.first], .build .query, .drop .first, .drop .second]
    | .call => some [.check [], .alloc .first [], .alloc .second [.first], .build .call, .drop .first, .drop .second]
    | t => cloneProg t

/-- A tree that was made. -/
inductive Tree where
  | mk (d : Made) (children : List Tree)

mutual
def Tree.cells : Tree → List Nat
  | .mk d ch => d.cells ++ Tree.cellss ch
def Tree.cellss : List Tree → List Nat
  | [] => []
  | t :: ts => t.cells ++ Tree.cellss ts
end

def optPtr : Option Nat → Ptr
  | none => .null
  | some i => .cell i

mutual
/-- `cypher_ast_free` (ast.c:492-513), with the `release` function of the type, which frees the other array if there is
one. -/
def treeFree : Tree → Mem → Except Fault Mem
  | .mk d ch, m => do
    touch (.cell d.node) m
    let m ← free (optPtr d.extra) m
    let m ← free (.cell d.node) m
    let m ← treesFree (optPtr d.kids) ch m
    free (optPtr d.kids) m
/-- `cypher_ast_vfree` (ast.c:450-456): the array is read before each node is freed. -/
def treesFree (array : Ptr) : List Tree → Mem → Except Fault Mem
  | [], m => .ok m
  | t :: ts, m => do
    touch array m
    let m ← treeFree t m
    treesFree array ts m
end

section
variable (P : Progs) (leak : Bool) (ask : Nat → Bool)

/-- The cleanup of `cypher_ast_vclone` and of `cypher_ast_clone` (ast.c:482-489, 564-570). The array has NULL after the
copies that were made (`calloc`). -/
def giveUp (a : Ptr) (ts : List Tree) (m : Mem) : Except Fault (Option Tree × Mem) := do
  let m ← treesFree a ts m
  let m ← free a m
  .ok (none, m)

mutual
/-- `cypher_ast_clone` (ast.c:538-571). If `leak` is false, the array of the copies is freed in the end, which the code
does not do. -/
def cloneTree : Node → Mem → Except Fault (Option Tree × Mem)
  | .mk id c ops args seq text range children, m =>
    if children.length = 0 then do
      let (d, m) ← cloneNode P ask 0 c.ty m
      .ok (d.map (.mk · []), m)
    else if ask m.tick then do
      let a := m.tick
      let ((ts, all), m) ← cloneTrees children m.add
      if all then do
        let (d, m) ← cloneNode P ask children.length c.ty m
        match d with
        | none => giveUp (.cell a) ts m
        | some d => do
          -- the children belong to the node if it has an array of children
          let t := Tree.mk d (if d.kids.isSome then ts else [])
          if leak then .ok (some t, m)
          else do
            let m ← free (.cell a) m
            .ok (some t, m)
      else giveUp (.cell a) ts m
    else .ok (none, m.next)
/-- The loop of `cypher_ast_vclone` (ast.c:473-480): the copies that were made, and whether they are all. -/
def cloneTrees : List Node → Mem → Except Fault ((List Tree × Bool) × Mem)
  | [], m => .ok (([], true), m)
  | x :: xs, m => do
    let (t, m) ← cloneTree x m
    match t with
    | none => .ok (([], false), m)
    | some t => do
      let ((ts, all), m) ← cloneTrees xs m
      .ok ((t :: ts, all), m)
end

end

end Verif.Alloc
