import Verif.Cypher.Layout
/-!
# What the rules for expressions match

For every kind of operand and operator, a run on the cells it consists of and those that may follow.
-/
namespace Verif.Cypher
open Verif.Peg Verif.Exprs
open Verif.Ops (words bytes upper)

namespace Win

def set (s : String) : CharSet := .ofList (bytes s)
def kDigit : CharSet := ⟨0x3ff000000000000⟩
def kLetter : CharSet := ⟨0x7fffffe07fffffe0000000000000000⟩
def kStart : CharSet := ⟨0x7fffffe87fffffe0000000000000000⟩
/-- First bytes of expressions. -/
def kHead : CharSet := set "ABCDEFGHIJKLMNOPQRSTUVWXYZabcdefghijklmnopqrstuvwxyz_0123456789\"'$(+-[{"
def kHeadSym : CharSet := set "\"'(+-[{"
/-- First bytes of what follows operands. -/
def kTail : CharSet := set "ABCDEFGHIJKLMNOPQRSTUVWXYZabcdefghijklmnopqrstuvwxyz+-*/%^=<>)],;|}.["
def kTailSym : CharSet := set "+-*/%^=<>)],;|}.["
def kTailNum : CharSet := set "+-*/%^=<>)],;|}["
/-- All but one kind of quotes, backslashes and ends of lines. -/
def kBody (q : UInt8) : CharSet := ⟨2 ^ 256 - 1 - (2 ^ q.toNat + 0x100000000000000000002400)⟩

/-- A byte, in any case. -/
def kAny (x : UInt8) : CharSet := if letter x then .ofList [x, x + 32] else .single x
def wordCells (x : List UInt8) : List Tile := x.map fun c => .byte (kAny c)
def opCells : List (List UInt8) → List Tile
  | [] => []
  | [x] => wordCells x
  | x :: y :: xs => wordCells x ++ .ws true :: opCells (y :: xs)

/-- What kind of byte a piece ends with. -/
inductive EndOf where
  | word | number | other
  deriving DecidableEq

/-- What may follow an operand. -/
def tails : EndOf → List (List Tile)
  | .word => [[.ws true, .hole kTail], [.ws false, .hole kTailSym], [.ws false, .fin]]
  | .number => [[.ws true, .hole kTail], [.ws false, .hole kTailNum], [.ws false, .fin]]
  | .other => [[.ws false, .hole kTail], [.ws false, .fin]]
/-- What may follow an operator. -/
def afters : Bool → List (List Tile)
  | true => [[.ws true, .hole kHead], [.ws false, .hole kHeadSym]]
  | false => [[.ws false, .hole kHead]]

def consts : List (List UInt8) := ["TRUE", "FALSE", "NULL"].map bytes

def numbers : List (List Tile) :=
  [[.byte kDigit, .run kDigit], [.byte kDigit, .run kDigit, .byte (.single 46), .byte kDigit, .run kDigit]]
def quoteds : List (List Tile) :=
  [34, 39].flatMap fun q : UInt8 => [[.byte (.single q), .byte (.single q)],
    [.byte (.single q), .byte (kBody q), .run (kBody q), .byte (.single q)]]
def params : List (List Tile) := [[.byte (.single 36), .byte kStart, .run symPart]]
/-- All bytes but a letter, in any case. -/
def unlike (d : UInt8) : CharSet := ⟨2 ^ 256 - 1 - (kAny d).mask⟩
def minus (K : CharSet) (ds : List UInt8) : CharSet := ds.foldl (fun K d => ⟨K.mask &&& (unlike d).mask⟩) K
def capitals : List UInt8 := bytes "ABCDEFGHIJKLMNOPQRSTUVWXYZ"
/-- The letters with which words of a list begin. -/
def kids (Ws : List (List UInt8)) : List UInt8 := capitals.filter fun d => Ws.any fun W => W.head? == some d
/-- What is left of those that begin with a letter. -/
def rest (Ws : List (List UInt8)) (d : UInt8) : List (List UInt8) :=
  Ws.filterMap fun | [] => none | c :: W => if c = d then some W else none
/-- What is none of the words of a list: it leaves them for another byte, or ends before they do. -/
def trie : Nat → List (List UInt8) → List (List Tile)
  | 0, _ => []
  | n + 1, Ws => [.byte (minus symPart (kids Ws)), .run symPart] :: ((if [] ∈ Ws then [] else [[]]) ++
      (kids Ws).flatMap fun d => (trie n (rest Ws d)).map (.byte (kAny d) :: ·))
/-- The words that are not names, and their rules. -/
def wordRules : List (Rule × List UInt8) :=
  [(.r_ALL, bytes "ALL"), (.r_ALLSHORTESTPATHS, bytes "ALLSHORTESTPATHS"), (.r_ANY, bytes "ANY"), (.r_CASE, bytes "CASE"),
    (.r_DISTINCT, bytes "DISTINCT"), (.r_EXTRACT, bytes "EXTRACT"), (.r_FALSE, bytes "FALSE"), (.r_FILTER, bytes "FILTER"),
    (.r_NONE, bytes "NONE"), (.r_NOT, bytes "NOT"), (.r_NULL, bytes "NULL"), (.r_REDUCE, bytes "REDUCE"),
    (.r_SHORTESTPATH, bytes "SHORTESTPATH"), (.r_SINGLE, bytes "SINGLE"), (.r_TRUE, bytes "TRUE")]
def wordRule : List Rule := wordRules.map (·.1)
def nameA : List Tile := [.byte kStart, .run symPart]
/-- What may follow a word. -/
def wordStops : List (List Tile) := [[.hole ⟨2 ^ 256 - 1 - symPart.mask⟩], [.fin]]

def isWord (o : Op) : Bool := (words o).all fun x => x.toList.all Char.isAlpha
def opText (o : Op) : List Tile := opCells ((words o).map bytes)

def binaries : List Op :=
  [.or, .xor, .and, .regex, .equal, .nequal, .plus, .minus, .mult, .div, .mod, .pow, .in_, .contains, .startsWith,
    .endsWith]
def comparisons : List Op := [.lt, .gt, .lte, .gte]

def atomE : E := .nt .r__atom none
/-- Operands in expressions, and in what is set or removed (parser.leg:489-492). -/
def atomEs : List E := [atomE, .nt .r_atom none]
def prec (o : Op) : List Fact := [⟨1, .r__prec_expression, some o, some 2, false⟩]

/-! ## Operands -/

theorem number_run : ∀ e ∈ atomEs, ∀ A ∈ numbers, ∀ B ∈ tails .number,
    okAt (A.length + 1) (run 100 (.mk2 A B [] [] [] none) e 0 .same []) = true := by decide +kernel
theorem quoted_run : ∀ e ∈ atomEs, ∀ A ∈ quoteds, ∀ B ∈ tails .other,
    okAt (A.length + 1) (run 100 (.mk2 A B [] [] [] none) e 0 .same []) = true := by decide +kernel
theorem const_run : ∀ e ∈ atomEs, ∀ x ∈ consts, ∀ B ∈ tails .word,
    okAt ((wordCells x).length + 1) (run 100 (.mk2 (wordCells x) B [] [] [] none) e 0 .same []) = true := by
  decide +kernel
theorem param_run : ∀ e ∈ atomEs, ∀ A ∈ params, ∀ B ∈ tails .word,
    okAt (A.length + 1) (run 100 (.mk2 A B [] [] [] none) e 0 .same []) = true := by decide +kernel
/-- A name is none of the words. -/
theorem name_word : ∀ x ∈ wordRules, ∀ A ∈ trie 18 [x.2], ∀ B ∈ wordStops,
    noAt (run 100 (.mk2 A B [] [] [] none) (.nt x.1 none) 0 .same []) = true := by
  decide +kernel
/-- What begins with another letter is not DISTINCT. -/
def kNoD : CharSet := set "ABCEFGHIJKLMNOPQRSTUVWXYZabcefghijklmnopqrstuvwxyz_0123456789\"'$(+-[{"
theorem other_distinct : noAt (run 100 (.mk2 [] [.hole kNoD] [] [] [] none) (.nt .r_DISTINCT none) 0 .same []) = true := by
  decide +kernel
theorem name_run : ∀ e ∈ atomEs, ∀ B ∈ tails .word,
    okAt (nameA.length + 1) (run 100 (.mk2 nameA B (.r_function_application :: wordRule) [] [] none) e 0 .same []) = true := by
  decide +kernel
def parenA : List Tile := [.byte (.single 40), .ws false]
def parenB : List Tile := [.hole kHead, .byte (.single 41)]
theorem paren_run : ∀ e ∈ atomEs, ∀ B ∈ tails .other, okAt (parenA.length + 3)
    (run 100 (.mk2 parenA (parenB ++ B) [.r_pattern_expression] [⟨0, .r_expression, none, some 1, false⟩] [] none) e 0 .same []) =
      true := by decide +kernel

def moreArgs (i : Nat) : E :=
  .seq (.nt .r_COMMA none) (.seq (.nt .r_ws none) (.seq (.nt .r_expression (some i)) (.act (.seqAdd [i]))))
theorem prefix_run : ∀ o ∈ prefixes, ∀ B ∈ afters (isWord o),
    okAt ((opText o).length + 2) (run 100 (.mk2 (opText o) B [] (prec o) [] none) atomE 0 .same []) = true := by
  decide +kernel

/-! ## Operators -/

theorem binary_ok : ∀ o ∈ binaries, ∀ B ∈ afters (isWord o), ∀ M ∈ List.range 15, M ≤ o.prec →
    okAt ((opText o).length + 2) (run 100 (.mk2 (opText o) B [] (prec o) [] (some M)) loop 0 .same []) = true := by
  decide +kernel
theorem binary_no : ∀ o ∈ binaries, ∀ B ∈ afters (isWord o), ∀ M ∈ List.range 15, o.prec < M →
    noAt (run 100 (.mk2 (opText o) B [] [] [] (some M)) loop 0 .same []) = true := by
  decide +kernel
theorem binary_cmp : ∀ o ∈ binaries, ∀ B ∈ afters (isWord o), ∀ M ∈ List.range 15,
    noAt (run 100 (.mk2 (opText o) B [] [] [] (some M)) cmpStep 0 .same []) = true := by
  decide +kernel
theorem comparison_ok : ∀ o ∈ comparisons, ∀ B ∈ afters (isWord o), ∀ M ∈ List.range 15, M ≤ o.prec →
    okAt ((opText o).length + 2) (run 100 (.mk2 (opText o) B [] (prec o) [] (some M)) cmpStep 0 .same []) = true := by
  decide +kernel
theorem comparison_no : ∀ o ∈ comparisons, ∀ B ∈ afters (isWord o), ∀ M ∈ List.range 15, o.prec < M →
    noAt (run 100 (.mk2 (opText o) B [] [] [] (some M)) loop 0 .same []) = true ∧
    noAt (run 100 (.mk2 (opText o) B [] [] [] (some M)) cmpStep 0 .same []) = true := by
  decide +kernel
theorem comparison_first : ∀ o ∈ comparisons, ∀ B ∈ afters (isWord o),
    noAt (run 100 (.mk2 (opText o) B [] [] [] none) altDot 0 .same []) = true ∧
    noAt (run 100 (.mk2 (opText o) B [] [] [] none) altInfix 0 .same []) = true := by
  decide +kernel
theorem postfix_ok : ∀ o ∈ postfixes, ∀ B ∈ tails .word, ∀ M ∈ List.range 15, M ≤ o.prec →
    okAt ((opText o).length + 1) (run 100 (.mk2 (opText o) B [] [] [] (some M)) loop 0 .same []) = true := by
  decide +kernel
theorem postfix_no : ∀ o ∈ postfixes, ∀ B ∈ tails .word, ∀ M ∈ List.range 15, o.prec < M →
    noAt (run 100 (.mk2 (opText o) B [] [] [] (some M)) loop 0 .same []) = true := by
  decide +kernel
theorem postfix_cmp : ∀ o ∈ postfixes, ∀ B ∈ tails .word, ∀ M ∈ List.range 15,
    noAt (run 100 (.mk2 (opText o) B [] [] [] (some M)) cmpStep 0 .same []) = true := by
  decide +kernel

def dotA : List Tile := [.byte (.single 46), .ws false, .byte kStart, .run symPart]
theorem dot_ok : ∀ B ∈ tails .word, ∀ M ∈ List.range 15, M ≤ Op.property.prec →
    okAt (dotA.length + 1) (run 100 (.mk2 dotA B [] [] [] (some M)) loop 0 .same []) = true := by
  decide +kernel
theorem dot_no : ∀ B ∈ tails .word, ∀ M ∈ List.range 15, Op.property.prec < M →
    noAt (run 100 (.mk2 dotA B [] [] [] (some M)) loop 0 .same []) = true := by
  decide +kernel
theorem dot_cmp : ∀ M ∈ List.range 15,
    noAt (run 100 (.mk2 [.byte (.single 46)] [] [] [] [] (some M)) cmpStep 0 .same []) = true := by
  decide +kernel

def subA : List Tile := [.byte (.single 91), .ws false]
def subB : List Tile := [.hole kHead, .byte (.single 93)]
theorem sub_ok : ∀ B ∈ tails .other, ∀ M ∈ List.range 15, M ≤ Op.subscript.prec → okAt (subA.length + 3)
    (run 100 (.mk2 subA (subB ++ B) [] [⟨0, .r_expression, none, some 1, false⟩] [] (some M)) loop 0 .same []) = true := by
  decide +kernel
theorem sub_no : ∀ M ∈ List.range 15, Op.subscript.prec < M →
    noAt (run 100 (.mk2 [.byte (.single 91)] [] [] [] [] (some M)) loop 0 .same []) = true := by
  decide +kernel
theorem sub_cmp : ∀ M ∈ List.range 15,
    noAt (run 100 (.mk2 [.byte (.single 91)] [] [] [] [] (some M)) cmpStep 0 .same []) = true := by
  decide +kernel

/-! ## Ends -/

theorem stop_run : ∀ M ∈ List.range 15,
    noAt (run 100 (.mk2 [.byte (set "),];|}")] [] [] [] [] (some M)) loop 0 .same []) = true ∧
    noAt (run 100 (.mk2 [.byte (set "),];|}")] [] [] [] [] (some M)) cmpStep 0 .same []) = true := by
  decide +kernel

theorem stop_fin : ∀ M ∈ List.range 15,
    noAt (run 100 (.mk2 [.fin] [] [] [] [] (some M)) loop 0 .same []) = true ∧
    noAt (run 100 (.mk2 [.fin] [] [] [] [] (some M)) cmpStep 0 .same []) = true := by
  decide +kernel

def moreA : List Tile := [.byte (.single 44), .ws false]
theorem more_run : ∀ i < 2, okAt (moreA.length + 1)
    (run 100 (.mk2 moreA [.hole kHead] [] [⟨0, .r_expression, none, some 1, false⟩] [] none) (moreArgs i) 0 .same []) = true := by
  decide +kernel
theorem more_end : ∀ i < 2, noAt (run 100 (.mk2 [.byte (set ")]")] [] [] [] [] none) (moreArgs i) 0 .same []) = true := by
  decide +kernel

/-! ## Lists and maps -/

def listA : List Tile := [.byte (.single 91), .ws false]
theorem list_none : ∀ e ∈ atomEs, ∀ B ∈ tails .other, okAt (listA.length + 2)
    (run 100 (.mk2 listA (.byte (.single 93) :: B) [] [] [] none) e 0 .same []) = true := by
  decide +kernel
def listB : List Tile := [.hole kHead, .hole (set ",]"), .byte (.single 93)]
theorem list_some : ∀ e ∈ atomEs, ∀ B ∈ tails .other, okAt (listA.length + 4)
    (run 100 (.mk2 listA (listB ++ B) [.r_list_comprehension, .r_pattern_comprehension]
      [⟨0, .r_expression, none, some 1, false⟩] [(1, moreArgs 0, 2)] none) e 0 .same []) = true := by
  decide +kernel
/-- No word and no parenthesis: no comprehension. -/
theorem compr_other : ∀ e ∈ ([.nt .r_list_comprehension none, .nt .r_pattern_comprehension none] : List E),
    noAt (run 100 (.mk2 listA [.hole (set "0123456789\"'$+-[{")] [] [] [] none) e 0 .same []) = true := by
  decide +kernel
def comprWord : List Tile := listA ++ [.byte kStart, .run symPart]
def kCompr : CharSet := set "ABCDEFGHJKLMNOPQRSTUVWXYZabcdefghjklmnopqrstuvwxyz+-*/%^<>)],;|}.[(_0123456789\"'${"
def kComprSym : CharSet := set "+-*/%^<>)],;|}.[(\"'{"
theorem compr_word : ∀ e ∈ ([.nt .r_list_comprehension none, .nt .r_pattern_comprehension none] : List E),
    ∀ B ∈ [[.ws true, .hole kCompr], [.ws false, .hole kComprSym]],
    noAt (run 100 (.mk2 comprWord B [] [] [] none) e 0 .same []) = true := by
  decide +kernel

def moreEntries : E :=
  .seq (.nt .r_COMMA none) (.seq (.nt .r_ws none) (.seq (.nt .r_prop_name (some 0)) (.seq (.act (.seqAdd [0]))
    (.seq (.nt .r_COLON none) (.seq (.nt .r_ws none) (.seq (.nt .r_expression (some 1)) (.act (.seqAdd [1]))))))))
def entryA : List Tile := [.byte kStart, .run symPart, .ws false, .byte (.single 58), .ws false]
theorem entry_run : okAt ((moreA ++ entryA).length + 1)
    (run 100 (.mk2 (moreA ++ entryA) [.hole kHead] [] [⟨0, .r_expression, none, some 1, false⟩] [] none) moreEntries 0 .same []) = true := by
  decide +kernel
theorem entry_end : noAt (run 100 (.mk2 [.byte (.single 125)] [] [] [] [] none) moreEntries 0 .same []) = true := by
  decide +kernel
/-- As an operand and as the properties in a pattern. -/
def mapEs : List E := [atomE, .nt .r_atom none, .nt .r_pattern_properties none]
def mapA : List Tile := [.byte (.single 123), .ws false]
/-- What follows is left open. -/
def mapEnds : List (List Tile) := [[.ws false, .hole ⟨2 ^ 256 - 1⟩], [.ws false, .fin]]
theorem map_none : ∀ e ∈ mapEs, ∀ B ∈ mapEnds, okAt (mapA.length + 2)
    (run 100 (.mk2 mapA (.byte (.single 125) :: B) [] [] [] none) e 0 .same []) = true := by
  decide +kernel
def mapB : List Tile := [.hole kHead, .hole (set ",}"), .byte (.single 125)]
theorem map_some : ∀ e ∈ mapEs, ∀ B ∈ mapEnds, okAt ((mapA ++ entryA).length + 4)
    (run 100 (.mk2 (mapA ++ entryA) (mapB ++ B) []
      [⟨0, .r_expression, none, some 1, false⟩] [(1, moreEntries, 2)] none) e 0 .same []) = true := by
  decide +kernel

/-! ## Names with dots that are no names of functions -/

/-- The repetition in `function-name` (parser.leg:682-684). -/
def chainStep : E :=
  .seq (.nt .r_symbolic_name none) (.seq (.nt .r_ws none) (.seq (.nt .r_DOT none) (.seq (.nt .r_ws none)
    (.act (.sbAppend 46)))))
def linkA : List Tile := [.byte kStart, .run symPart, .ws false, .byte (.single 46), .ws false]
def kStop : CharSet := set "ABCDEFGHIJKLMNOPQRSTUVWXYZabcdefghijklmnopqrstuvwxyz+-*/%^=<>)],;|}["
def stops : List (List Tile) := [[.ws true, .hole kStop], [.ws false, .hole kTailNum], [.ws false, .fin]]
theorem link_run : okAt (linkA.length + 0) (run 100 (.mk2 linkA [.hole kStart] [] [] [] none) chainStep 0 .same []) = true := by
  decide +kernel
theorem link_end : ∀ B ∈ stops, noAt (run 100 (.mk2 nameA B [] [] [] none) chainStep 0 .same []) = true := by
  decide +kernel
theorem apply_no : ∀ B ∈ stops, noAt (run 100 (.mk2 [] (.hole kStart :: (nameA ++ B)) [] [] [(0, chainStep, 1)] none)
    (.nt .r_function_application none) 0 .same []) = true := by
  decide +kernel

/-! ## What is not a pattern -/

def patternE : E := .nt .r_pattern_expression none
def kNodeSym : CharSet := set "\"'(+-*/%^=<>;,|}.["
def kNode : CharSet := set "ABCDEFGHIJKLMNOPQRSTUVWXYZabcdefghijklmnopqrstuvwxyz_0123456789\"'(+-*/%^=<>;,|}.["
/-- No word: no node. -/
theorem node_other : noAt (run 100 (.mk2 [] [.byte (.single 40), .ws false, .hole (set "0123456789\"'(+-[")] [] [] [] none) patternE 0 .same []) =
    true := by decide +kernel
def nodeWord : List Tile := [.byte (.single 40), .ws false, .byte kStart, .run symPart]
theorem node_word : ∀ B ∈ [[.ws true, .hole kNode], [.ws false, .hole kNodeSym]],
    noAt (run 100 (.mk2 nodeWord B [] [] [] none) patternE 0 .same []) = true := by decide +kernel
def nodeParam : List Tile := [.byte (.single 40), .ws false, .byte (.single 36), .byte kStart, .run symPart]
theorem node_param : ∀ B ∈ [[.ws true, .hole kNode], [.ws false, .hole kNodeSym]],
    noAt (run 100 (.mk2 nodeParam B [] [] [] none) patternE 0 .same []) = true := by decide +kernel
def nodeBoth : List Tile :=
  nodeWord ++ [.ws true, .byte (.single 36), .byte kStart, .run symPart]
theorem node_both : ∀ B ∈ [[.ws true, .hole kNode], [.ws false, .hole kNodeSym]],
    noAt (run 100 (.mk2 nodeBoth B [] [] [] none) patternE 0 .same []) = true := by decide +kernel

end Win
end Verif.Cypher
