import Verif.Cypher.Typing
import Verif.Cypher.Abs
/-!
# Which nodes a block holds: abstract interpretation

A builder makes a node of the nodes created in the block just closed; which of them the new node
refers to is a matter of the variables of the grammar. Here the contents of each block are tracked in
terms of variables: `[v 0, seq, v 1]` for a block that holds, besides comments and errors, the node in
variable 0 (if it is not NULL), those of the block's sequence, and the node in variable 1. `ftr` runs an
expression on this abstraction; rules are summarised by a table. That it is sound is proved in
`FieldsSound.lean` and `FieldsEval.lean`.
-/
namespace Verif.Cypher
open Verif.Peg

/-- Nodes that are not part of what was parsed: comments (`lib/src/parser.leg:1018-1025`) and what was
skipped after an error (`lib/src/parser.leg:1044-1072`). -/
def _root_.Verif.AstType.aside : AstType → Bool
  | .lineComment | .blockComment | .comment | .error => true
  | _ => false

/-- How many of the builder's node arguments come before the nodes of the sequence, for the builders
that have both. -/
def Ctor.ahead : Ctor → Nat
  | .cypherOption => 1 -- parser.leg:64-67: version, parameters
  | .createIndex | .dropIndex => 1 -- parser.leg:86-92, 114-120: label, names
  | .nodeIdLookup | .relIdLookup => 1 -- parser.leg:188, 201: identifier, ids
  | .matchClause _ => 1 -- parser.leg:214-222: pattern, hints; predicate
  | .mergeClause => 1 -- parser.leg:236-238: pattern, actions
  | .setLabels => 1 -- parser.leg:265-266: identifier, labels
  | .removeLabels => 1 -- parser.leg:284-285: identifier, labels
  | .foreachClause => 2 -- parser.leg:288-290: identifier, expression, clauses
  | .callClause => 1 -- parser.leg:340-355: name, arguments and projections; predicate
  | .applyOperator _ => 1 -- parser.leg:604-613: name, arguments
  | .mapProjection => 1 -- parser.leg:435-441: expression, selectors
  | .labelsOperator => 1 -- parser.leg:442-444: expression, labels
  | .caseExpression => 1 -- parser.leg:555-558: expression, alternatives; default
  | .nodePattern => 1 -- parser.leg:766-770: identifier, labels; properties
  | .relPattern _ => 1 -- parser.leg:780-797: identifier, types; length, properties
  | .command => 1 -- parser.leg:826-830: name, arguments
  | _ => 0 -- parser.leg:57 (statement), 169-172 (START), 295-317 (WITH), 363-380 (RETURN): all after

/-- What a block holds: the value of `$$`, that of a variable, or the nodes of its sequence. -/
inductive Held where
  | self
  | var (i : Nat)
  | seq
  deriving DecidableEq, Repr

/-- The abstract machine: the blocks opened since the entry of the rule, innermost first, and last
what was added to the block that was innermost then (`none`: unknown); the closed block; is `$$` as at
the entry; is it NULL; the variables that are NULL; the number of variables. -/
structure Hold where
  blks : List (Option (List Held))
  prev : Option (List Held)
  keep : Bool
  null : Bool
  nulls : List Nat
  nv : Nat
  deriving DecidableEq, Repr

/-- What a rule does: what it adds to the block, and to `$$`. -/
structure HSum where
  items : Option (List Held)
  keep : Bool
  null : Bool
  deriving DecidableEq, Repr

/-! ### Order and join -/

/-- A block without a sequence has an empty one. -/
def itemsLe : Option (List Held) → Option (List Held) → Bool
  | _, none => true
  | some a, some b => a == b || (!a.contains .seq && b.erase .seq == a)
  | none, some _ => false

def itemsJoin (a b : Option (List Held)) : Option (List Held) :=
  if itemsLe a b then b else if itemsLe b a then a else none

def Hold.le (a b : Hold) : Bool :=
  allLe itemsLe a.blks b.blks && itemsLe a.prev b.prev && (!b.keep || a.keep) && (!b.null || a.null) &&
    b.nulls.all a.nulls.contains && a.nv == b.nv

def Hold.join (a b : Hold) : Option Hold :=
  let j : Hold := ⟨List.zipWith itemsJoin a.blks b.blks, itemsJoin a.prev b.prev, a.keep && b.keep,
    a.null && b.null, a.nulls.filter b.nulls.contains, a.nv⟩
  if a.le j && b.le j then some j else none

/-! ### Actions -/

/-- The contents are no longer known if they are in terms of `x`. -/
def drop (x : Held) : Option (List Held) → Option (List Held)
  | none => none
  | some is => if is.contains x then none else some is

/-- `x` is also called `y`. -/
def rename (x y : Held) : Option (List Held) → Option (List Held)
  | none => none
  | some is => some (is.map fun z => if z = x then y else z)

/-- `x` is NULL. -/
def without (x : Held) : Option (List Held) → Option (List Held)
  | none => none
  | some is => some (is.filter fun z => z ≠ x)

def Hold.map (f : Option (List Held) → Option (List Held)) (A : Hold) : Hold :=
  { A with blks := A.blks.map f, prev := f A.prev }

/-- `$$` is about to change. -/
def Hold.forgetSelf (A : Hold) : Hold := { A.map (drop .self) with keep := false, null := false }

/-- A variable is about to change. -/
def Hold.forgetVar (A : Hold) (i : Nat) : Hold :=
  { A.map (drop (.var i)) with nulls := A.nulls.filter (· ≠ i) }

/-- Something is added to the innermost block. -/
def Hold.onTop (f : Option (List Held) → Option (List Held)) (A : Hold) : Option Hold :=
  match A.blks with
  | [] => none
  | a :: as => some { A with blks := f a :: as }

def addItem (x : Held) : Option (List Held) → Option (List Held)
  | none => none
  | some is => some (is ++ [x])

def Hold.blockStart (A : Hold) : Option Hold :=
  some { A with blks := some [] :: A.blks, prev := none }

def Hold.blockEnd (A : Hold) : Option Hold :=
  match A.blks with
  | a :: b :: bs => some { A with blks := b :: bs, prev := a }
  | _ => none

def Hold.blockReplace (A : Hold) : Option Hold :=
  match A.blks with
  | a :: b :: bs => some { A with blks := some [] :: b :: bs, prev := a }
  | _ => none

/-- Contents put together. -/
def merge : Option (List Held) → Option (List Held) → Option (List Held)
  | some b, some a => if a.contains .seq then none else some (b ++ a)
  | _, _ => none

def Hold.blockMerge (A : Hold) : Option Hold :=
  match A.blks with
  | a :: b :: bs => some { A with blks := merge b a :: bs, prev := none }
  | _ => none

/-- `sequence_add`: a node of the block goes to the end of the sequence. -/
def seqTake (i : Nat) : List Held → Option (List Held)
  | [] => none
  | .seq :: .var j :: is => if j = i ∧ ¬ is.contains .seq then some (.seq :: is) else none
  | .seq :: _ => none
  | .var j :: is =>
    if j = i then if is.contains .seq then none else some (.seq :: is)
    else (seqTake i is).map (.var j :: ·)
  | .self :: is => (seqTake i is).map (.self :: ·)

def Hold.seqAdds (A : Hold) : List Nat → Option Hold
  | [] => some A
  | i :: is => match A.onTop (·.bind (seqTake i)) with
    | some A => A.seqAdds is
    | none => none

def asItem (a : Option Nat) : List Held := (a.map Held.var).toList

/-- The nodes the new node refers to, in the order of the source. -/
def wanted (c : Ctor) (args : List (Option Nat)) : List Held :=
  (args.take c.ahead).flatMap asItem ++ (if c.checks.2 = .none then [] else [.seq]) ++
    (args.drop c.ahead).flatMap asItem

/-- The nodes of the block are those. -/
def matches_ (c : Ctor) (args : List (Option Nat)) (is : List Held) : Bool :=
  itemsLe (some is) (some (wanted c args)) ||
    (match c, args with
      | .range, [some i, some j] => i == j && is == [.var i]
      | _, _ => false)

/-- The node to be made refers to the nodes of the closed block. -/
def Hold.fits (A : Hold) (c : Ctor) (args : List (Option Nat)) : Bool :=
  c.terminal.isSome ||
    match A.prev with
    | some is => matches_ c args is
    | none => false

/-- A new node is added to the innermost block and assigned. -/
def Hold.store (A : Hold) (d : Dst) (aside : Bool) : Option Hold :=
  match d with
  | .self => A.forgetSelf.onTop (if aside then id else addItem .self)
  | .var i => if i < A.nv then (A.forgetVar i).onTop (if aside then id else addItem (.var i)) else none
  | .discard => A.onTop (if aside then id else fun _ => none)

def Hold.build (A : Hold) (d : Dst) (c : Ctor) (args : List (Option Nat)) : Option Hold :=
  if A.fits c args then ({ A with prev := none }).store d c.ty.aside else none

/-- One action. -/
def Hold.act (A : Hold) : Act → Option Hold
  | .blockStart => A.blockStart
  | .blockEnd => A.blockEnd
  | .blockReplace => A.blockReplace
  | .blockMerge => A.blockMerge
  | .eof | .result _ | .finished | .sbReset | .sbAppend _ | .sbAppendBlock | .opPush _ => some A
  | .seqAdd vs => A.seqAdds vs
  | .copy i =>
    some { A.forgetSelf.map (rename (.var i) .self) with null := A.nulls.contains i }
  | .null => ({ A.forgetSelf with null := true }).onTop (addItem .self)
  | .build d c args => A.build d c args
  | .aliasUnless _ i =>
    if i ∈ A.nulls ∧ i < A.nv then
      let B := A.map (without (.var i))
      ({ B with prev := none, nulls := A.nulls.filter (· ≠ i) }).onTop (addItem (.var i))
    else none

/-! ### Rules and expressions -/

/-- The start of a rule with `n` variables. -/
def Hold.init (n : Nat) : Hold := ⟨[some []], none, true, false, [], n⟩

/-- The end of a rule as in the table. -/
def HSum.toHold (s : HSum) (n : Nat) : Hold := ⟨[s.items], none, s.keep, s.null, [], n⟩

/-- What a rule added comes after what was there. -/
def append : Option (List Held) → Option (List Held) → Option (List Held)
  | some a, some d =>
    if ¬ d.contains .seq then some (a ++ d)
    else if ¬ a.contains .seq then some (a ++ d)
    else match d with
      | .seq :: d =>
        if a.getLast? = some .seq ∧ ¬ a.dropLast.contains .seq ∧ ¬ d.contains .seq then some (a ++ d)
        else none
      | _ => none
  | _, _ => none

/-- Calling a rule. -/
def Hold.call (A : Hold) (s : HSum) : Option Hold :=
  let B := if s.keep then A else { A.forgetSelf with null := s.null }
  ({ B with prev := none }).onTop (append · s.items)

/-- `v:` at a call. -/
def Hold.setSelf (A : Hold) : Option Nat → Option Hold
  | none => some A
  | some i =>
    if i < A.nv then
      let B := (A.forgetVar i).map (rename .self (.var i))
      some { B with nulls := if A.null then i :: B.nulls else B.nulls }
    else none

/-- Iteration of `*`. -/
def holdLoop (f : Hold → Option Hold) : Nat → Hold → Option Hold
  | 0, _ => none
  | n + 1, A =>
    match f A with
    | none => none
    | some B =>
      match A.join B with
      | none => none
      | some J => if J = A then some A else holdLoop f n J

/-- An expression: `none` if the analysis fails. -/
def ftr (T : Rule → HSum) : E → Hold → Option Hold
  | .eps, A => some A
  | .one _, A => some A
  | .str _, A => some A
  | .nt r v, A =>
    match inlined r with
    | some a => (A.act a).bind (·.setSelf v)
    | none => (A.call (T r)).bind (·.setSelf v)
  | .seq a b, A => (ftr T a A).bind (ftr T b)
  | .alt a b, A =>
    match ftr T a A, ftr T b A with
    | some x, some y => x.join y
    | _, _ => none
  | .star a, A => holdLoop (ftr T a) 6 A
  | .peek _, A => some A
  | .npeek _, A => some A
  | .pred p, A =>
    match p.act with
    | some a => A.act a
    | none => some A
  | .act a, A => A.act a
  | .onfail a _, A => ftr T a A

/-- In terms of `$$` and the sequence only. -/
def HSum.closed (s : HSum) : Bool :=
  match s.items with
  | none => true
  | some is => is.all fun x => x == .self || x == .seq

/-- The table entry of a rule is right. -/
def holdOk (T : Rule → HSum) (r : Rule) : Bool :=
  (inlined r).isSome ||
  match ftr T (grammar r).body (.init (grammar r).nvars) with
  | some A => (T r).closed && A.le ((T r).toHold (grammar r).nvars)
  | none => false

end Verif.Cypher
