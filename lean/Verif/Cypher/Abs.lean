import Verif.Cypher.Typing
import Verif.Cypher.Host
/-!
# Abstract interpretation of the deferred actions

What the thunks recorded by a rule do to the machine of `Machine.lean`, computed on a finite
abstraction: for every variable the possible types and in which open block its node lies, for every
block opened since the entry of the rule what its sequence of nodes looks like and how many nodes it
holds at least, what the closed block is, and how many operators are on the stack. `tr` runs an
expression on the abstraction; rules are summarised by a table. That the table is right and that the
analysis is sound is proved in `AbsSem.lean` to `AbsEval.lean`.
-/
namespace Verif.Cypher
open Verif.Peg

/-- Where the node of a value is: in the `j`th open block, in the closed block, or unknown. -/
inductive Loc where
  | at (j : Nat)
  | prev
  | unknown
  deriving DecidableEq, Repr

/-- A value: may it be NULL, its possible types (as a bit mask), where it is, and whether it is the
first node there. -/
structure AVal where
  nul : Bool
  mask : Nat
  loc : Loc
  fst : Bool
  deriving DecidableEq, Repr

/-- A sequence of nodes: types of a first and a second part, the second part not empty; types at even
and odd positions; parity of the length; minimal length. -/
structure SeqA where
  pre : Nat
  post : Nat
  ne : Bool
  ev : Nat
  od : Nat
  par : Option Bool
  min : Nat
  deriving DecidableEq, Repr

/-- A block: has no nodes; how many nodes it has more than elements of the sequence, at least; the
sequence; its first node is the first element of the sequence. -/
structure ABlk where
  emp : Bool
  sur : Nat
  seq : SeqA
  hd : Bool
  deriving DecidableEq, Repr

/-- The closed block: none; as at the entry of the rule, or none; none or without nodes; without
nodes and with its text; with its text and as described. -/
inductive APrev where
  | no | keep | clean | txt
  | blk (a : ABlk)
  deriving DecidableEq, Repr

/-- `$$`: as at the entry of the rule, unknown, or as described. -/
inductive ASelf where
  | keep | unk
  | val (a : AVal)
  deriving DecidableEq, Repr

/-- The abstract machine. `blks`: blocks opened since the entry of the rule, innermost first, and
last what was added to the block that was innermost then. `ops`: operators pushed since. `dif`: the
length of the innermost block's sequence plus 8 is `ops` plus this; `pdif`: the same for the closed
block. `res`: types of a result set since; `fin`: `finished` has run. -/
structure Abs where
  vars : List (Option AVal)
  self : ASelf
  blks : List ABlk
  prev : APrev
  ops : Option Nat
  dif : Option Nat
  pdif : Option Nat
  res : Nat
  fin : Bool
  deriving DecidableEq, Repr

/-- What a rule does. -/
structure Sum where
  self : ASelf
  blk : ABlk
  prev : APrev
  ops : Option Nat
  res : Nat
  fin : Bool
  deriving DecidableEq, Repr

/-- Which failures are tolerated: with `lax` that of `add_terminal` for a block with nodes; and which
literals do not occur in the input. -/
structure Mode where
  lax : Bool
  dead : List (List UInt8)
  deriving DecidableEq, Repr

def subset (a b : Nat) : Bool := a &&& b == a

/-! ### Order and join -/

def AVal.le (a b : AVal) : Bool :=
  (!a.nul || b.nul) && subset a.mask b.mask &&
    (a.mask == 0 || b.loc == .unknown || (a.loc == b.loc && (!b.fst || a.fst)))

def AVal.join (a b : AVal) : AVal :=
  let (l, f) :=
    if a.mask = 0 then (b.loc, b.fst)
    else if b.mask = 0 then (a.loc, a.fst)
    else if a.loc = b.loc then (a.loc, a.fst && b.fst)
    else (.unknown, false)
  ⟨a.nul || b.nul, a.mask ||| b.mask, l, f⟩

def optLe {α : Type} [DecidableEq α] (a b : Option α) : Bool := b == none || a == b
def optJoin {α : Type} [DecidableEq α] (a b : Option α) : Option α := if a = b then a else none

def SeqA.le (a b : SeqA) : Bool :=
  subset a.pre b.pre && subset a.post b.post && (!b.ne || a.ne) && subset a.ev b.ev &&
    subset a.od b.od && optLe a.par b.par && decide (b.min ≤ a.min)

def SeqA.join (a b : SeqA) : SeqA :=
  ⟨a.pre ||| b.pre, a.post ||| b.post, a.ne && b.ne, a.ev ||| b.ev, a.od ||| b.od,
    optJoin a.par b.par, Nat.min a.min b.min⟩

def ABlk.le (a b : ABlk) : Bool :=
  (!b.emp || a.emp) && decide (b.sur ≤ a.sur) && a.seq.le b.seq && (!b.hd || a.hd)

def ABlk.join (a b : ABlk) : ABlk :=
  ⟨a.emp && b.emp, Nat.min a.sur b.sur, a.seq.join b.seq, a.hd && b.hd⟩

def APrev.le : APrev → APrev → Bool
  | .no, .no | .no, .keep | .no, .clean => true
  | .keep, .keep | .keep, .clean => true
  | .clean, .clean => true
  | .txt, .txt | .txt, .clean => true
  | .blk a, .blk b => a.le b
  | .blk a, .clean => a.emp
  | .blk a, .txt => a.emp
  | _, _ => false

def APrev.join : APrev → APrev → APrev
  | .no, .no => .no
  | .no, .keep | .keep, .no | .keep, .keep => .keep
  | .txt, .txt => .txt
  | .blk a, .blk b => .blk (a.join b)
  | _, _ => .clean

def ASelf.le : ASelf → ASelf → Bool
  | _, .unk => true
  | .keep, .keep => true
  | .val a, .val b => a.le b
  | _, _ => false

def ASelf.join : ASelf → ASelf → ASelf
  | .keep, .keep => .keep
  | .val a, .val b => .val (a.join b)
  | _, _ => .unk

def varLe : Option AVal → Option AVal → Bool
  | _, none => true
  | some a, some b => a.le b
  | none, some _ => false

def varJoin : Option AVal → Option AVal → Option AVal
  | some a, some b => some (a.join b)
  | _, _ => none

def allLe {α : Type} (f : α → α → Bool) : List α → List α → Bool
  | [], [] => true
  | a :: as, b :: bs => f a b && allLe f as bs
  | _, _ => false

def Abs.le (a b : Abs) : Bool :=
  allLe varLe a.vars b.vars && a.self.le b.self && allLe ABlk.le a.blks b.blks && a.prev.le b.prev &&
    optLe a.ops b.ops && optLe a.dif b.dif && optLe a.pdif b.pdif && subset a.res b.res &&
    (!b.fin || a.fin)

def Abs.join (a b : Abs) : Option Abs :=
  let j : Abs := ⟨List.zipWith varJoin a.vars b.vars, a.self.join b.self,
    List.zipWith ABlk.join a.blks b.blks, a.prev.join b.prev, optJoin a.ops b.ops,
    optJoin a.dif b.dif, optJoin a.pdif b.pdif, a.res ||| b.res, a.fin && b.fin⟩
  if a.le j && b.le j then some j else none

/-! ### Sequences -/

def SeqA.empty : SeqA := ⟨0, 0, false, 0, 0, some false, 0⟩
def SeqA.single (m : Nat) : SeqA := ⟨m, 0, false, m, 0, some true, 1⟩
def SeqA.isEmpty (a : SeqA) : Bool := a.pre == 0 && a.post == 0

/-- The types of the two parts of a concatenation. -/
def SeqA.parts (a d : SeqA) : Nat × Nat × Bool :=
  if d.isEmpty then (a.pre, a.post, a.ne)
  else if a.isEmpty then (d.pre, d.post, d.ne)
  else if a.post = 0 ∧ subset d.pre a.pre then (a.pre, d.post, d.ne)
  else (a.pre, a.post ||| d.pre ||| d.post, a.ne || decide (0 < d.min))

/-- The types at even and odd positions of a concatenation. -/
def SeqA.turns (a d : SeqA) : Nat × Nat :=
  match a.par with
  | some false => (a.ev ||| d.ev, a.od ||| d.od)
  | some true => (a.ev ||| d.od, a.od ||| d.ev)
  | none => (a.ev ||| d.ev ||| d.od, a.od ||| d.ev ||| d.od)

/-- Concatenation. -/
def SeqA.app (a d : SeqA) : SeqA :=
  let (pre, post, ne) := a.parts d
  let (ev, od) := a.turns d
  ⟨pre, post, ne, ev, od,
    (match a.par, d.par with
      | some x, some y => some (x != y)
      | _, _ => none), Nat.min 2 (a.min + d.min)⟩

/-! ### Types -/

/-- The types that are subtypes of a type, as a bit mask. -/
def sub (t : AstType) : Nat :=
  AstType.all.foldl (fun m u => if isA ⟨0, u⟩ t then m ||| 2 ^ u.num else m) 0

def bit (t : AstType) : Nat := 2 ^ t.num

def Want.fits : Want → AVal → Bool
  | .node t, a => !a.nul && subset a.mask (sub t) && a.loc == .prev
  | .maybe t, a => subset a.mask (sub t) && (a.mask == 0 || a.loc == .prev)
  | .oneOf t u, a => !a.nul && subset a.mask (sub t ||| sub u) && a.loc == .prev
  | .maybeOneOf t u, a => subset a.mask (sub t ||| sub u) && (a.mask == 0 || a.loc == .prev)

def allFit : List Want → List AVal → Bool
  | [], [] => true
  | w :: ws, a :: as => w.fits a && allFit ws as
  | _, _ => false

def Wants.fits (hd : Bool) (pdif : Option Nat) : Wants → SeqA → Bool
  | .none, _ => true
  | .all t min, a => subset a.pre (sub t) && subset a.post (sub t) && decide (min ≤ a.min)
  | .query, a => subset a.pre (sub .queryOption) && subset a.post (sub .queryClause) && a.ne
  | .call, a => subset a.pre (sub .expression) && subset a.post (sub .projection)
  | .cases, a => subset a.pre (sub .expression) && subset a.post (sub .expression) &&
      a.par == some false && decide (2 ≤ a.min)
  | .pairs, a => a.par == some false && subset a.ev (sub .propName) && subset a.od (sub .expression)
  | .path, a => hd && a.par == some true && subset a.ev (sub .nodePattern) &&
      subset a.od (sub .relPattern)
  | .comparison, a => subset a.pre (sub .expression) && subset a.post (sub .expression) &&
      decide (2 ≤ a.min) && pdif == some 9

/-! ### Actions -/

def AVal.reloc (f : Loc → Bool → Loc × Bool) (a : AVal) : AVal :=
  ⟨a.nul, a.mask, (f a.loc a.fst).1, (f a.loc a.fst).2⟩

def ASelf.reloc (f : Loc → Bool → Loc × Bool) : ASelf → ASelf
  | .val a => .val (a.reloc f)
  | s => s

/-- Nodes have moved. -/
def Abs.reloc (f : Loc → Bool → Loc × Bool) (A : Abs) : Abs :=
  { A with vars := A.vars.map (Option.map (AVal.reloc f)), self := A.self.reloc f }

def onPush : Loc → Bool → Loc × Bool
  | .at j, f => (.at (j + 1), f)
  | _, _ => (.unknown, false)
def onPop : Loc → Bool → Loc × Bool
  | .at 0, f => (.prev, f)
  | .at (j + 1), f => (.at j, f)
  | _, _ => (.unknown, false)
def onReplace : Loc → Bool → Loc × Bool
  | .at 0, f => (.prev, f)
  | .at (j + 1), f => (.at (j + 1), f)
  | _, _ => (.unknown, false)
def onMerge : Loc → Bool → Loc × Bool
  | .at 0, _ => (.at 0, false)
  | .at (j + 1), f => (.at j, f)
  | _, _ => (.unknown, false)
/-- The closed block is gone. -/
def onDrop : Loc → Bool → Loc × Bool
  | .at j, f => (.at j, f)
  | _, _ => (.unknown, false)

def APrev.isClean : APrev → Bool
  | .blk a => a.emp
  | _ => true

def ABlk.fresh : ABlk := ⟨true, 0, .empty, false⟩

/-- `dif` of a block with an empty sequence. -/
def newDif : Option Nat → Option Nat
  | some k => if k ≤ 8 then some (8 - k) else none
  | none => none

def Abs.blockStart (A : Abs) : Option Abs :=
  if A.prev.isClean then
    some { A.reloc onPush with
      blks := .fresh :: A.blks, prev := .no, dif := newDif A.ops, pdif := none }
  else none

def Abs.blockEnd (A : Abs) : Option Abs :=
  match A.prev.isClean, A.blks with
  | true, a :: b :: bs => some { A.reloc onPop with
      blks := b :: bs, prev := .blk a, pdif := A.dif, dif := none }
  | _, _ => none

def Abs.blockReplace (A : Abs) : Option Abs :=
  match A.prev.isClean, A.blks with
  | true, a :: b :: bs => some { A.reloc onReplace with
      blks := .fresh :: b :: bs, prev := .blk a, pdif := A.dif, dif := newDif A.ops }
  | _, _ => none

def Abs.blockMerge (A : Abs) : Option Abs :=
  match A.prev.isClean, A.blks with
  | true, a :: b :: bs => some { A.reloc onMerge with
      blks := ⟨a.emp && b.emp, b.sur + a.sur, b.seq, b.hd⟩ :: bs, prev := .txt, pdif := none,
      dif := none }
  | _, _ => none

def Abs.getVar (A : Abs) (i : Nat) : Option AVal :=
  match A.vars[i]? with
  | some (some a) => some a
  | _ => none

def Abs.setVar (A : Abs) (i : Nat) (v : Option AVal) : Option Abs :=
  if i < A.vars.length then some { A with vars := A.vars.set i v } else none

def Abs.assign (A : Abs) (d : Dst) (v : AVal) : Option Abs :=
  match d with
  | .self => some { A with self := .val v }
  | .var i => A.setVar i (some v)
  | .discard => some A

def Abs.getArgs (A : Abs) : List (Option Nat) → Option (List AVal)
  | [] => some []
  | none :: as => (A.getArgs as).map (⟨true, 0, .unknown, false⟩ :: ·)
  | some i :: as => match A.getVar i, A.getArgs as with
    | some v, some vs => some (v :: vs)
    | _, _ => none

/-- A node is added to the innermost block. -/
def Abs.addNode (A : Abs) (ty : AstType) : Option (Abs × AVal) :=
  match A.blks with
  | [] => none
  | b :: bs => some ({ A.reloc onDrop with
      blks := { b with emp := false, sur := b.sur + 1 } :: bs, prev := .no, pdif := none },
      ⟨false, bit ty, .at 0, b.emp⟩)

def Abs.terminal (md : Mode) (A : Abs) (c : Ctor) : Option (Abs × AVal) :=
  match A.prev with
  | .txt => A.addNode c.ty
  | .blk b => if b.emp || md.lax then A.addNode c.ty else none
  | _ => none

def Abs.takeOps (A : Abs) (c : Ctor) : Option Abs :=
  match c with
  | .unaryOperator | .binaryOperator =>
    match A.ops with
    | some (k + 1) => some { A with ops := some k, dif := A.dif.map (· + 1) }
    | _ => none
  | .comparisonOperator => some { A with ops := some 0, dif :=
      match A.blks with
      | b :: _ => if b.seq.isEmpty then some 8 else none
      | [] => none }
  | _ => some A

def Abs.build (md : Mode) (A : Abs) (c : Ctor) (args : List AVal) : Option (Abs × AVal) :=
  match c.terminal with
  | some _ => A.terminal md c
  | none =>
    match A.prev with
    | .blk b =>
      if allFit c.wants.1 args && c.wants.2.fits b.hd A.pdif b.seq then
        match A.takeOps c with
        | some A => A.addNode c.ty
        | none => none
      else none
    | _ => none

def Abs.seqAdd (A : Abs) (v : AVal) : Option Abs :=
  match A.blks with
  | [] => none
  | b :: bs =>
    if !v.nul && v.loc == .at 0 && decide (1 ≤ b.sur) then
      some { A with
        blks := ⟨b.emp, b.sur - 1, b.seq.app (.single v.mask), b.hd || (v.fst && b.seq.isEmpty)⟩ :: bs
        dif := A.dif.map (· + 1) }
    else none

def Abs.seqAdds (A : Abs) : List Nat → Option Abs
  | [] => some A
  | i :: is => match A.getVar i with
    | some v => match A.seqAdd v with
      | some A => A.seqAdds is
      | none => none
    | none => none

/-- One action. -/
def Abs.act (md : Mode) (A : Abs) : Act → Option Abs
  | .blockStart => A.blockStart
  | .blockEnd => A.blockEnd
  | .blockReplace => A.blockReplace
  | .blockMerge => A.blockMerge
  | .eof => some A
  | .result none => some A
  | .result (some i) =>
    match A.getVar i with
    | some v =>
      if A.blks.length = 1 ∧ (v.mask = 0 ∨ v.loc = .at 0) then some { A with res := A.res ||| v.mask }
      else none
    | none => none
  | .finished => some { A with fin := true }
  | .seqAdd vs => A.seqAdds vs
  | .copy i => (A.getVar i).map fun v => { A with self := .val v }
  | .null => some { A with self := .val ⟨true, 0, .unknown, false⟩ }
  | .build d c args =>
    match A.getArgs args with
    | some vs => match A.build md c vs with
      | some (A, v) => A.assign d v
      | none => none
    | none => none
  | .aliasUnless e i =>
    match A.getVar e with
    | some _ => match A.terminal md .blockIdentifier with
      | some (B, v) => match B.setVar i (some v) with
        | some B => A.join B
        | none => none
      | none => none
    | none => none
  | .sbReset => some A
  | .sbAppend _ => some A
  | .sbAppendBlock =>
    match A.prev with
    | .txt | .blk _ => some A
    | _ => none
  | .opPush _ => some { A with
      ops := A.ops.map (· + 1), dif := A.dif.bind fun d => if 1 ≤ d then some (d - 1) else none
      pdif := none }

/-! ### Rules and expressions -/

/-- The start of a rule with `n` variables. -/
def Abs.init (n : Nat) : Abs :=
  ⟨List.replicate n none, .keep, [.fresh], .keep, some 0, some 8, none, 0, false⟩

/-- The end of a rule as in the table. -/
def Sum.toAbs (s : Sum) (n : Nat) : Abs :=
  ⟨List.replicate n none, s.self, [s.blk], s.prev, s.ops, none, none, s.res, s.fin⟩

/-- `dif` after a rule. -/
def callDif (dif : Option Nat) (s : Sum) : Option Nat :=
  match dif, s.ops with
  | some d, some k => if s.blk.seq.isEmpty && decide (k ≤ d) then some (d - k) else none
  | _, _ => none

/-- The value of `$$` after a rule. -/
def callSelf (self : ASelf) (emp : Bool) : ASelf → ASelf
  | .keep => self
  | .unk => .unk
  | .val a => .val (match a.loc with
    | .at 0 => { a with fst := a.fst && emp }
    | _ => { a with loc := .unknown, fst := false })

def callPrev (p : APrev) : APrev → APrev
  | .no => .no
  | .keep => match p with
    | .no => .no
    | .keep => .keep
    | _ => .clean
  | _ => .clean

/-- Calling a rule. -/
def Abs.call (A : Abs) (s : Sum) : Option Abs :=
  match A.blks with
  | [] => none
  | b :: bs =>
    if A.prev.isClean && (s.res == 0 || bs == []) && s.prev.isClean then
      let B := A.reloc onDrop
      some { B with
        self := callSelf B.self b.emp s.self
        blks := ⟨b.emp && s.blk.emp, b.sur + s.blk.sur, b.seq.app s.blk.seq, b.hd⟩ :: bs
        prev := callPrev A.prev s.prev
        ops := (match A.ops, s.ops with
          | some j, some k => some (j + k)
          | _, _ => none)
        dif := callDif A.dif s
        pdif := none
        res := A.res ||| s.res
        fin := s.fin }
    else none

/-- `v:` at a call. -/
def Abs.setSelf (A : Abs) : Option Nat → Option Abs
  | none => some A
  | some i => A.setVar i (match A.self with
    | .val a => some a
    | _ => none)

/-- The rules that only record one action. -/
def inlined : Rule → Option Act
  | .r__block_start_ => some .blockStart
  | .r__block_end_ => some .blockEnd
  | .r__block_replace_ => some .blockReplace
  | .r__block_merge_ => some .blockMerge
  | _ => none

/-- The action a predicate records. -/
def Pred.act : Pred → Option Act
  | .blockStart => some .blockStart
  | .blockEnd => some .blockEnd
  | .blockReplace => some .blockReplace
  | .blockMerge => some .blockMerge
  | _ => none

/-- Iteration of `*`. -/
def starLoop (f : Abs → Option (Option Abs)) : Nat → Abs → Option (Option Abs)
  | 0, _ => none
  | n + 1, A =>
    match f A with
    | none => none
    | some none => some (some A)
    | some (some B) =>
      match A.join B with
      | none => none
      | some J => if J = A then some (some A) else starLoop f n J

def altJoin : Option (Option Abs) → Option (Option Abs) → Option (Option Abs)
  | some none, some y => some y
  | some x, some none => some x
  | some (some x), some (some y) => (x.join y).map some
  | _, _ => none

/-- An expression: `none` if the analysis fails, `some none` if the expression cannot succeed. -/
def tr (md : Mode) (T : Rule → Option Sum) : E → Abs → Option (Option Abs)
  | .eps, A => some (some A)
  | .one _, A => some (some A)
  | .str l, A => if l ∈ md.dead then some none else some (some A)
  | .nt r v, A =>
    match inlined r with
    | some a => ((A.act md a).bind (·.setSelf v)).map some
    | none =>
      match T r with
      | none => some none
      | some s => ((A.call s).bind (·.setSelf v)).map some
  | .seq a b, A =>
    match tr md T a A with
    | some (some B) => tr md T b B
    | x => x
  | .alt a b, A => altJoin (tr md T a A) (tr md T b A)
  | .star a, A => starLoop (tr md T a) 6 A
  | .peek _, A => some (some A)
  | .npeek _, A => some (some A)
  | .pred p, A =>
    match p.act with
    | some a => (A.act md a).map some
    | none => some (some A)
  | .act a, A => (A.act md a).map some
  | .onfail a _, A => tr md T a A

/-- The table entry of a rule is right. -/
def sumOk (md : Mode) (T : Rule → Option Sum) (r : Rule) : Bool :=
  (inlined r).isSome ||
  match tr md T (grammar r).body (.init (grammar r).nvars), T r with
  | some none, none => true
  | some (some A), some s => A.le (s.toAbs (grammar r).nvars)
  | _, _ => false

/-- Any input. -/
def lax : Mode := ⟨true, []⟩
/-- No comments: neither `//` nor `/*` occurs. -/
def strict : Mode := ⟨false, [[47, 47], [47, 42]]⟩

end Verif.Cypher
