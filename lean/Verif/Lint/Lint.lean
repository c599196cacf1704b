import Verif.Cypher.Detail
import Verif.Cypher.Parser
/-!
# The `cypher-lint` program (`linter/src/cypher-lint.c`)

Modelled: the options, the loop over the files, parsing with and without `--stream`, and every byte written to the
standard output and to the standard error output. Simplifications: `getopt_long` has already split the command line into
options and operands; allocation and writing succeed, so that `perror` is reached only where said; counters do not wrap.
Not modelled: Windows, `fclose`.
-/
namespace Verif.Lint
open Verif Verif.Peg Verif.Cypher Verif.Print

/-- Why the process ends other than by returning from `main`. -/
inductive Abort where
  /-- inside the parser -/
  | parse (s : Cypher.Stop)
  /-- while printing a tree -/
  | print (s : Print.Stop)
  /-- reading memory that is not there -/
  | fault (f : Fault)
  deriving DecidableEq, Repr

/-- What has been written so far. -/
structure Out where
  out : List UInt8 := []
  err : List UInt8 := []
  deriving DecidableEq, Repr

/-! ## Options -/

/-- What `getopt_long` returns for `shortopts` and `longopts` (cypher-lint.c:30-52). -/
inductive Opt where
  | one | ast | colorize | noColorize | help | onlyStatements | outputWidth (n : Nat) | stream | version
  /-- anything else, such as `?` -/
  | other
  deriving DecidableEq, Repr

/-- `struct lint_config` (cypher-lint.c:77-85); `single` and `only` are the two bits of `flags`. -/
structure Conf where
  width : Nat := 0
  single : Bool := false
  only : Bool := false
  dump : Bool := false
  colorOut : Bool := false
  colorErr : Bool := false
  stream : Bool := false
  deriving DecidableEq, Repr

/-- How the loop over the options ends. -/
inductive Chosen where
  | go (c : Conf)
  | help
  | version
  | usage
  deriving DecidableEq, Repr

/-- The loop over the options (cypher-lint.c:169-210). -/
def options (c : Conf) : List Opt → Chosen
  | [] => .go c
  | .one :: os => options { c with single := true } os
  | .ast :: os => options { c with dump := true } os
  | .colorize :: os => options { c with colorOut := true, colorErr := true } os
  | .noColorize :: os => options { c with colorOut := false, colorErr := false } os
  | .help :: _ => .help
  | .onlyStatements :: os => options { c with only := true } os
  | .outputWidth n :: os => options { c with width := n } os
  | .stream :: os => options { c with stream := true } os
  | .version :: _ => .version
  | .other :: _ => .usage

/-- `usage` (cypher-lint.c:54-74). -/
def usage (prog : List UInt8) : List UInt8 :=
  ascii "usage: " ++ prog ++ ascii (" [OPTIONS] [file ...]\noptions:\n" ++
    " -1                  Only parse the first statement or client-command.\n" ++
    " --ast, -a           Dump the AST to stdout.\n" ++
    " --colorize          Colorize output using ANSI escape sequences.\n" ++
    " --no-colorize       Disable colorization even when outputting to a TTY.\n" ++
    " --help, -h          Output this usage information.\n" ++
    " --only-statements   Only parse statements (and not client commands).\n" ++
    " --output-width <n>  Attempt to limit output to the specified width.\n" ++
    " --stream            Output each statement as it is read, rather than parsing\n" ++
    "                     the entire input first (note: will result in inconsistent\n" ++
    "                     formatting of AST dumps).\n" ++
    " --version           Output the version of cypher-lint and libcypher-parser\n\n" ++
    "If no input files are specified, then input is read from standard input.\n\n")

/-! ## Errors -/

/-- `%s`: the bytes before the first NUL. -/
def cstr (t : List UInt8) : List UInt8 := t.takeWhile (· != 0)

/-- `%*.*s` of `n`, `n` and a blank. -/
def blanks (n : Nat) : List UInt8 := padLeft n ((ascii " ").take n)

/-- `print_error` (cypher-lint.c:408-418). A context that is not there is NULL. -/
def printError (name : List UInt8) (e : PErr) : Except Abort (List UInt8) :=
  match e.context with
  | none => .error (.fault .outOfBounds)
  | some (context, offset) =>
    .ok (cstr name ++ ascii ":" ++ decimal e.position.line ++ ascii ":" ++ decimal e.position.column ++ ascii ": " ++
      cstr e.msg ++ ascii "\n" ++ (cstr context ++ ascii "\n" ++ blanks offset ++ ascii "^\n"))

/-- The loops over the errors (cypher-lint.c:341-346, 376-381): the number of errors and what was written. The loop
ends at the first index for which there is no error; `none` if the fuel runs out. -/
def errorLoop (name : List UInt8) (get : Nat → Except Fault (Option PErr)) :
    Nat → Nat → List UInt8 → Option (Except Abort (Nat × List UInt8))
  | 0, _, _ => none
  | fuel + 1, i, err =>
    match get i with
    | .error f => some (.error (.fault f))
    | .ok none => some (.ok (i, err))
    | .ok (some e) =>
      match printError name e with
      | .error a => some (.error a)
      | .ok t => errorLoop name get fuel (i + 1) (err ++ t)

/-! ## Parsing -/

/-- `cypher_parser_ansi_colorization` (parser_config.c:44-53): the part used for messages. -/
def ansiColorization : Colorization :=
  let reset := 27 :: ascii "[0m"
  let bold := 27 :: ascii "[1m"
  ⟨(bold ++ 27 :: ascii "[31m", reset), (bold, reset), (bold, reset)⟩

/-- The configuration made by `process` (cypher-lint.c:268-283) with the defaults of `cypher_parser_new_config`
(parser_config.c:59-63). -/
def Conf.config (c : Conf) : Config :=
  ⟨⟨1, 1, 0⟩, 0, if c.colorErr then ansiColorization else noColorization⟩

/-- `output_colorization` (cypher-lint.c:285-286); NULL means no colours (ast.c:813-816). -/
def Conf.colours (c : Conf) : Colours := if c.colorOut then ansiColours else noColours

/-- `struct parse_callback_data` (cypher-lint.c:301-308), what has been written, and whether the process has ended. -/
structure Cb where
  out : Out
  nerrors : Nat := 0
  abort : Option Abort := none

/-- `parse_callback` (cypher-lint.c:335-358). Where the process ends the model stops the parser. The fuel of the error
loop is one more than there are errors; should it run out the model also ends. -/
def callback (junk : Nat → List UInt8) (c : Conf) (name : List UInt8) (k : Cb) (s : PSeg) : Int × Cb :=
  match errorLoop name s.toSegment.getError (s.errors.length + 1) 0 k.out.err with
  | none => (-1, { k with abort := some (.fault .assertion) })
  | some (.error a) => (-1, { k with abort := some a })
  | some (.ok (i, err)) =>
    let k := { k with out := { k.out with err := err }, nerrors := k.nerrors + i }
    if c.dump then
      match printRoots junk c.colours c.width s.ordinal s.roots with
      | .error x => (-1, { k with abort := some (.print x) })
      | .ok t => (0, { k with out := { k.out with out := k.out.out ++ t } })
    else (0, k)

/-- `process_streamed` (cypher-lint.c:311-332): its result. `why` is what `perror` writes. -/
def streamed (junk : Nat → List UInt8) (why : List UInt8) (c : Conf) (name bytes : List UInt8) (o : Out) (fuel : Nat) :
    Option (Except Abort (Int × Out)) :=
  match parseEach streamSource bytes (callback junk c name) { out := o } c.config c.only c.single fuel with
  | none => none
  | some (.error s) => some (.error (.parse s))
  | some (.ok (ret, _, k)) =>
    match k.abort with
    | some a => some (.error a)
    | none =>
      if ret ≠ 0 then
        some (.ok (-1, { k.out with err := k.out.err ++ (ascii "cypher_fparse_each: " ++ why ++ ascii "\n") }))
      else some (.ok (if k.nerrors = 0 then 0 else 1, k.out))

/-- The roots of a result, with the ordinals that each segment gave to its nodes (segment.c:54-58). -/
def printResult (junk : Nat → List UInt8) (colours : Colours) (width : Nat) (L : List PSeg) :
    Except Print.Stop (List UInt8) :=
  match treeAll (L.foldl (fun ord s => (numberAll s.roots s.ordinal ord).2) fun _ => 0) (L.flatMap PSeg.roots) with
  | .ok ts => fprintv junk colours width ts
  | .error e => .error (.fault e)

/-- `process_all` (cypher-lint.c:361-405) with `cypher_fparse` and `cypher_parse_result_fprint_ast`
(result.c:156-163). `header` is the name, if any, that is written before the tree. -/
def all (junk : Nat → List UInt8) (why : List UInt8) (c : Conf) (name : List UInt8) (header : Option (List UInt8))
    (bytes : List UInt8) (o : Out) (fuel : Nat) : Option (Except Abort (Int × Out)) :=
  match collect streamSource bytes c.config c.only c.single fuel with
  | none => none
  | some (.error s) => some (.error (.parse s))
  | some (.ok (ret, _, L)) =>
    if ret ≠ 0 then some (.ok (-1, { o with err := o.err ++ (ascii "cypher_fparse: " ++ why ++ ascii "\n") }))
    else
      match Result.empty.mergeAll (L.map PSeg.toSegment) with
      | .error f => some (.error (.fault f))
      | .ok r =>
        match errorLoop name r.getError (r.nerrors + 1) 0 o.err with
        | none => some (.error (.fault .assertion))
        | some (.error a) => some (.error a)
        | some (.ok (_, err)) =>
          let status : Int := if r.nerrors = 0 then 0 else 1
          if c.dump then
            let out := match header with
              | some h => o.out ++ (cstr h ++ ascii ":\n")
              | none => o.out
            match printResult junk c.colours c.width L with
            | .error x => some (.error (.print x))
            | .ok t => some (.ok (status, ⟨out ++ t, err⟩))
          else some (.ok (status, ⟨o.out, err⟩))

/-- `process` (cypher-lint.c:268-298); `filename` may be NULL (cypher-lint.c:255, 385, 415). -/
def process (junk : Nat → List UInt8) (why : List UInt8) (c : Conf) (filename : Option (List UInt8))
    (bytes : List UInt8) (o : Out) (fuel : Nat) : Option (Except Abort (Int × Out)) :=
  let name := filename.getD (ascii "<stdin>")
  if c.stream then streamed junk why c name bytes o fuel else all junk why c name filename bytes o fuel

/-! ## `main` -/

/-- What the program finds around it. -/
structure World where
  /-- the name it was called by -/
  prog : List UInt8
  /-- `strerror(errno)` -/
  why : List UInt8
  /-- the two versions -/
  versions : List UInt8 × List UInt8
  /-- what memory contains before it is written to -/
  junk : Nat → List UInt8
  /-- the bytes that the standard input delivers to the operand at an index -/
  stdin : Nat → List UInt8
  /-- opening the operand at an index: the bytes of the file, or `strerror(errno)` -/
  opened : Nat → List UInt8 → Except (List UInt8) (List UInt8)

/-- The loop over the operands (cypher-lint.c:222-251), from index `i` on; `bad` says that `err` is not 0. The result
is the exit status. -/
def files (w : World) (c : Conf) (fuel : Nat) : Nat → List (List UInt8) → Bool → Out → Option (Except Abort (Nat × Out))
  | _, [], bad, o => some (.ok (if bad then 1 else 0, o))
  | i, a :: as, bad, o =>
    if a = ascii "-" then
      match process w.junk w.why c (some (ascii "<stdin>")) (w.stdin i) o fuel with
      | none => none
      | some (.error x) => some (.error x)
      | some (.ok (res, o)) => files w c fuel (i + 1) as (bad || res != 0) o
    else
      match w.opened i a with
      | .error m => some (.ok (1, { o with
          err := o.err ++ (w.prog ++ ascii ": " ++ a ++ ascii ": " ++ m ++ ascii "\n") }))
      | .ok bytes =>
        match process w.junk w.why c (some a) bytes o fuel with
        | none => none
        | some (.error x) => some (.error x)
        | some (.ok (res, o)) =>
          if res < 0 then some (.ok (1, o)) else files w c fuel (i + 1) as (bad || res != 0) o

/-- `main` (cypher-lint.c:142-265): the exit status and what was written. `tty` says whether the standard output and
the standard error output are terminals. -/
def main (w : World) (tty : Bool × Bool) (os : List Opt) (as : List (List UInt8)) (fuel : Nat) :
    Option (Except Abort (Nat × Out)) :=
  match options { colorOut := tty.1, colorErr := tty.2 } os with
  | .help => some (.ok (0, ⟨usage w.prog, []⟩))
  | .version => some (.ok (0, ⟨ascii "cypher-lint: " ++ w.versions.1 ++ ascii "\n" ++ (ascii "libcypher-parser: " ++
      w.versions.2 ++ ascii "\n"), []⟩))
  | .usage => some (.ok (1, ⟨[], usage w.prog⟩))
  | .go c =>
    let c := if c.dump then c else { c with stream := true }
    if as = [] then
      match process w.junk w.why c none (w.stdin 0) {} fuel with
      | none => none
      | some (.error x) => some (.error x)
      | some (.ok (res, o)) => some (.ok (if res ≠ 0 then 1 else 0, o))
    else files w c fuel 0 as false {}

end Verif.Lint
