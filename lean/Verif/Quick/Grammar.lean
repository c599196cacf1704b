import Verif.Peg.Syntax
/-!
# The quick parser's grammar (`lib/src/quick_parser.leg`)

Generated by `tools/gen_quick.py` from the grammar file; each rule cites its lines.
-/
namespace Verif.Quick
open Verif.Peg

/-- Inline predicates: `<`, `>` (which set `__begin`, `__end`) and `_line_start_`. -/
inductive Pred where
  | beginText | endText | lineStart
  deriving DecidableEq, Repr

/-- Deferred actions: `segment(is_statement, yy)` and `yy->eof = true`. -/
inductive Act where
  | segment (isStatement : Bool)
  | eof
  deriving DecidableEq, Repr

/-- Rule names (`-` is `r_ws`, `--` is `r_hws`). -/
inductive Rule where
  | r_directive
  | r_client_command
  | r_command_body
  | r_statement
  | r_statement_body
  | r_quoted
  | r_single_quoted
  | r_double_quoted
  | r_escaped_char
  | r_ws
  | r_hws
  | r_line_end
  | r_comment
  | r_line_comment
  | r_block_comment
  | r_unclosed_block_comment
  | r_WS
  | r_HWS
  | r_EOL
  | r_EOF
  | r__line_start_
  deriving DecidableEq, Repr

/-- All rules. -/
def Rule.all : List Rule :=
    [.r_directive, .r_client_command, .r_command_body, .r_statement, .r_statement_body,
    .r_quoted, .r_single_quoted, .r_double_quoted, .r_escaped_char, .r_ws, .r_hws, .r_line_end,
    .r_comment, .r_line_comment, .r_block_comment, .r_unclosed_block_comment, .r_WS, .r_HWS,
    .r_EOL, .r_EOF, .r__line_start_]

abbrev E := Expr Rule Pred Act

/-- `directive` (quick_parser.leg:17). -/
def r_directive : E :=
    .alt (.nt .r_client_command none) (.nt .r_statement none)

/-- `client-command` (quick_parser.leg:19-20). -/
def r_client_command : E :=
    .seq (.nt .r_ws none) (.seq (.pred .beginText) (.seq (.chr 58) (.seq (.nt .r_command_body
    none) (.seq (.pred .endText) (.seq (.nt .r_hws none) (.seq (.alt (.chr 59) (.nt .r_line_end
    none)) (.act (.segment false))))))))

/-- `command-body` (quick_parser.leg:21-29). -/
def r_command_body : E :=
    .star (.alt (.nt .r_escaped_char none) (.alt (.str [92, 59]) (.alt (.seq (.chr 92) (.seq
    (.nt .r_hws none) (.nt .r_line_end none))) (.alt (.nt .r_block_comment none) (.alt (.nt
    .r_unclosed_block_comment none) (.alt (.nt .r_quoted none) (.seq (.npeek (.alt (.chr 59)
    (.seq (.nt .r_hws none) (.nt .r_line_end none)))) .dot)))))))

/-- `statement` (quick_parser.leg:31-32). -/
def r_statement : E :=
    .seq (.nt .r_ws none) (.seq (.pred .beginText) (.seq (.nt .r_statement_body none) (.seq
    (.pred .endText) (.seq (.nt .r_ws none) (.seq (.alt (.chr 59) (.nt .r_EOF none)) (.act
    (.segment true)))))))

/-- `statement-body` (quick_parser.leg:33-39). -/
def r_statement_body : E :=
    .star (.alt (.nt .r_comment none) (.alt (.nt .r_quoted none) (.alt (.nt
    .r_unclosed_block_comment none) (.alt (.nt .r_escaped_char none) (.seq (.npeek (.seq (.nt
    .r_ws none) (.chr 59))) .dot)))))

/-- `quoted` (quick_parser.leg:41). -/
def r_quoted : E :=
    .alt (.nt .r_single_quoted none) (.nt .r_double_quoted none)

/-- `single-quoted` (quick_parser.leg:42). -/
def r_single_quoted : E :=
    .seq (.chr 39) (.seq (.star (.alt (.nt .r_escaped_char none) (.alt (.nt .r_EOL none) (.seq
    (.npeek (.chr 39)) .dot)))) (.alt (.chr 39) (.nt .r_EOF none)))

/-- `double-quoted` (quick_parser.leg:43). -/
def r_double_quoted : E :=
    .seq (.chr 34) (.seq (.star (.alt (.nt .r_escaped_char none) (.alt (.nt .r_EOL none) (.seq
    (.npeek (.chr 34)) .dot)))) (.alt (.chr 34) (.nt .r_EOF none)))

/-- `escaped-char` (quick_parser.leg:45). -/
def r_escaped_char : E :=
    .seq (.chr 92) (.one ⟨0x544046100000008000008400000000⟩)

/-- `-` (quick_parser.leg:47). -/
def r_ws : E :=
    .star (.alt (.nt .r_WS none) (.nt .r_comment none))

/-- `--` (quick_parser.leg:48). -/
def r_hws : E :=
    .star (.alt (.nt .r_HWS none) (.nt .r_block_comment none))

/-- `line-end` (quick_parser.leg:49). -/
def r_line_end : E :=
    .alt (.nt .r_line_comment none) (.alt (.nt .r_EOL none) (.nt .r_EOF none))

/-- `comment` (quick_parser.leg:51). -/
def r_comment : E :=
    .alt (.nt .r_line_comment none) (.nt .r_block_comment none)

/-- `line-comment` (quick_parser.leg:52). -/
def r_line_comment : E :=
    .seq (.str [47, 47]) (.seq (.star (.seq (.npeek (.nt .r_EOL none)) .dot)) (.alt (.nt .r_EOL
    none) (.nt .r_EOF none)))

/-- `block-comment` (quick_parser.leg:53). -/
def r_block_comment : E :=
    .seq (.str [47, 42]) (.seq (.star (.alt (.nt .r_EOL none) (.seq (.npeek (.str [42, 47]))
    .dot))) (.str [42, 47]))

/-- `unclosed-block-comment` (quick_parser.leg:54). -/
def r_unclosed_block_comment : E :=
    .seq (.str [47, 42]) (.seq (.star (.alt (.nt .r_EOL none) (.seq (.npeek (.str [42, 47]))
    .dot))) (.nt .r_EOF none))

/-- `WS` (quick_parser.leg:56). -/
def r_WS : E :=
    .alt (.nt .r_HWS none) (.nt .r_EOL none)

/-- `HWS` (quick_parser.leg:57). -/
def r_HWS : E :=
    .one ⟨0x100000200⟩

/-- `EOL` (quick_parser.leg:58). -/
def r_EOL : E :=
    .seq (.alt (.chr 10) (.str [13, 10])) (.nt .r__line_start_ none)

/-- `EOF` (quick_parser.leg:59). -/
def r_EOF : E :=
    .seq (.npeek .dot) (.act .eof)

/-- `_line_start_` (quick_parser.leg:61). -/
def r__line_start_ : E :=
    .pred .lineStart

/-- The grammar. -/
def grammar : Rule → RuleDef Rule Pred Act
  | .r_directive => ⟨0, r_directive⟩
  | .r_client_command => ⟨0, r_client_command⟩
  | .r_command_body => ⟨0, r_command_body⟩
  | .r_statement => ⟨0, r_statement⟩
  | .r_statement_body => ⟨0, r_statement_body⟩
  | .r_quoted => ⟨0, r_quoted⟩
  | .r_single_quoted => ⟨0, r_single_quoted⟩
  | .r_double_quoted => ⟨0, r_double_quoted⟩
  | .r_escaped_char => ⟨0, r_escaped_char⟩
  | .r_ws => ⟨0, r_ws⟩
  | .r_hws => ⟨0, r_hws⟩
  | .r_line_end => ⟨0, r_line_end⟩
  | .r_comment => ⟨0, r_comment⟩
  | .r_line_comment => ⟨0, r_line_comment⟩
  | .r_block_comment => ⟨0, r_block_comment⟩
  | .r_unclosed_block_comment => ⟨0, r_unclosed_block_comment⟩
  | .r_WS => ⟨0, r_WS⟩
  | .r_HWS => ⟨0, r_HWS⟩
  | .r_EOL => ⟨0, r_EOL⟩
  | .r_EOF => ⟨0, r_EOF⟩
  | .r__line_start_ => ⟨0, r__line_start_⟩

end Verif.Quick
