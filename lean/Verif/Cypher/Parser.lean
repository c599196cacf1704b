import Verif.Cypher.Host
import Verif.Cypher.Machine
import Verif.Data.Segment
/-!
# `parse_each` and `parse_one` (`lib/src/parser.c`)

Not modelled: allocation failure, overflow of `unsigned int` (positions and ordinals are naturals).
-/
namespace Verif.Cypher
open Verif.Peg

/-- `struct cypher_parser_config`: the fields used here. -/
structure Config where
  position : Pos
  ordinal : Nat
  colorization : Colorization

mutual
/-- The node as seen through the general AST functions. -/
def Node.toAst : Node → Ast
  | .mk _ c _ _ _ text range children => .node c.ty range 0 text (Node.toAsts children)
def Node.toAsts : List Node → List Ast
  | [] => []
  | n :: ns => n.toAst :: Node.toAsts ns
end

/-- What is given to `cypher_parse_segment` (parser.c:646-647): the segment handed to the callback
is `toSegment`; the nodes are kept with the types and arguments of the constructor. -/
structure PSeg where
  ordinal : Nat
  range : Range
  errors : List PErr
  roots : List Node
  directive : Option Ref
  eof : Bool

/-- `cypher_parse_segment` (segment.c:24-79). -/
def PSeg.toSegment (s : PSeg) : Segment :=
  Segment.new s.ordinal s.range s.errors (s.roots.map fun n => (n.id, n.toAst))
    (s.directive.map (·.id)) s.eof

/-- Why parsing stopped before the end. -/
inductive Stop where
  /-- an assertion failed or memory was misused while matching or computing a position -/
  | fault (f : Fault)
  /-- an action stopped -/
  | crash (c : Crash)
  /-- the grammar rejected the input: `parse_one` returns -1 -/
  | failed
  /-- an assertion at the end of `parse_one` (parser.c:742-754) -/
  | leftover
  /-- an assertion of `parse_each` when nothing was consumed (parser.c:625-627) -/
  | nothing
  deriving DecidableEq, Repr

variable {σ κ : Type}

/-- `yycontext` between calls. -/
structure PCtx (σ : Type) where
  reader : Reader σ
  st : CState
  mach : Mach

/-- The second half of `parse_one` (parser.c:737-757): the actions run, what they leave behind is
checked, the text is given up and the potential errors are cleared. -/
def finishOne (c : PCtx σ) (s : St Act (Reader σ × CState)) : Except Stop (PCtx σ) :=
  match Mach.exec ⟨s.g.2.off, s.g.2.lines, s.g.1.buf, s.pos⟩ s.thunks
      { c.mach with result := none, eof := false, frames := [], errs := s.g.2.errs.errors } with
  | .error x => .error (.crash x)
  | .ok m =>
    match m.blocks with
    | [top] =>
      if top.seq = [] ∧ m.prev.isNone ∧ m.ops = [] ∧ s.g.2.precs = [] then
        .ok ⟨s.g.1.commit s.pos,
          { s.g.2 with errs := ({ s.g.2.errs with errors := m.errs }).clearPotentials }, m⟩
      else .error .leftover
    | _ => .error .leftover

/-- `parse_one` (parser.c:729-776) with `yyparsefrom` (generated) through `safe_yyparsefrom`
(parser.c:779-791): match, run the actions, commit; then the assertions. The errors live in
`error_tracking`; the machine has a copy while actions run. -/
def parseOne (S : Source σ) (fuel : Nat) (rule : Rule) (c : PCtx σ) :
    Option (Except Stop (PCtx σ)) :=
  match run grammar (chost S) fuel (.nt rule none) ⟨0, [], (c.reader, c.st)⟩ with
  | none => none
  | some (.fault f) => some (.error (.fault f))
  | some (.fail _) => some (.error .failed)
  | some (.ok s) => some (finishOne c s)

/-- The return value of `parse_each`, `*last` (if it was set), and the callback's state. -/
abbrev Ret (κ : Type) := Int × Option Pos × κ

/-- The loop of `parse_each` (parser.c:617-681). -/
def eachLoop (S : Source σ) (cb : κ → PSeg → Int × κ) (rule : Rule) (single : Bool) (fuel : Nat) :
    Nat → PCtx σ → Nat → Option Pos → κ → Option (Except Stop (Ret κ))
  | 0, _, _, _, _ => none
  | n + 1, c, ordinal, last, k =>
    match parseOne S fuel rule c with
    | none => none
    | some (.error e) => some (.error e)
    | some (.ok c) =>
      if c.mach.consumed = 0 then
        if c.mach.result.isNone ∧ c.st.errs.errors = [] ∧ c.mach.eof = true then
          some (.ok (0, last, k))
        else some (.error .nothing)
      else
        match inputPosition c.st.off c.st.lines c.mach.consumed with
        | .error f => some (.error (.fault f))
        | .ok stop =>
          match c.mach.blocks with
          | [] => some (.error .leftover)
          | top :: bs =>
            let seg : PSeg := ⟨ordinal, ⟨c.st.off, stop⟩, c.st.errs.errors, top.children,
              c.mach.result, c.mach.eof⟩
            let (err, k) := cb k seg
            if err > 0 then some (.ok (0, some stop, k))
            else if err < 0 then some (.ok (err, some stop, k))
            else if c.mach.eof || single then some (.ok (0, some stop, k))
            else eachLoop S cb rule single fuel n
              ⟨c.reader, { c.st with errs := c.st.errs.clearErrors, off := stop, lines := [0] },
                { c.mach with blocks := { top with children := [] } :: bs }⟩
              (ordinal + seg.toSegment.nnodes) (some stop) k

/-- The state at the start of the loop of `parse_each` (parser.c:588-615): the context is zeroed,
the line offsets hold 0, and one block is open. -/
def PCtx.init (cfg : Config) (src : σ) : PCtx σ :=
  ⟨.init src, ⟨cfg.position, [0], .init cfg.colorization, none, []⟩,
    { blocks := [⟨0, 0, cfg.position, cfg.position, [], []⟩], prev := none, strbuf := [], ops := [],
      self := none, frames := [], result := none, eof := false, consumed := 0, errs := [],
      next := 0 }⟩

/-- `parse_each` (parser.c:583-698) as called by `cypher_parse_each` and the other entry points
(parser.c:542-580): `onlyStatements` and `single` are the two flags. -/
def parseEach (S : Source σ) (src : σ) (cb : κ → PSeg → Int × κ) (k : κ) (cfg : Config)
    (onlyStatements single : Bool) (fuel : Nat) : Option (Except Stop (Ret κ)) :=
  eachLoop S cb (bif onlyStatements then .r_statement else .r_directive) single fuel fuel
    (.init cfg src) cfg.ordinal none k

/-- `parse` (parser.c:708-726) with `parse_all_callback` (701-705): the segments, in order. -/
def collect (S : Source σ) (src : σ) (cfg : Config) (onlyStatements single : Bool) (fuel : Nat) :
    Option (Except Stop (Ret (List PSeg))) :=
  parseEach S src (fun k s => (0, k ++ [s])) [] cfg onlyStatements single fuel

end Verif.Cypher
