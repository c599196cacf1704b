import Verif.Quick.Parser
/-!
# Static facts about the quick parser's grammar

Tables computed by `tools/tables.lean.txt`; the theorems below check them against the grammar.
-/
namespace Verif.Quick
open Verif.Peg

/-- Possible outcomes of each rule: at the end of input, before it. -/
def outT : Rule → Out2
  | .r_directive => ⟨⟨false, true, false⟩, ⟨true, false, true⟩⟩
  | .r_client_command => ⟨⟨true, false, false⟩, ⟨true, false, true⟩⟩
  | .r_command_body => ⟨⟨false, true, false⟩, ⟨false, true, true⟩⟩
  | .r_statement => ⟨⟨false, true, false⟩, ⟨true, false, true⟩⟩
  | .r_statement_body => ⟨⟨false, true, false⟩, ⟨false, true, true⟩⟩
  | .r_quoted => ⟨⟨true, false, false⟩, ⟨true, false, true⟩⟩
  | .r_single_quoted => ⟨⟨true, false, false⟩, ⟨true, false, true⟩⟩
  | .r_double_quoted => ⟨⟨true, false, false⟩, ⟨true, false, true⟩⟩
  | .r_escaped_char => ⟨⟨true, false, false⟩, ⟨true, false, true⟩⟩
  | .r_ws => ⟨⟨false, true, false⟩, ⟨false, true, true⟩⟩
  | .r_hws => ⟨⟨false, true, false⟩, ⟨false, true, true⟩⟩
  | .r_line_end => ⟨⟨false, true, false⟩, ⟨true, false, true⟩⟩
  | .r_comment => ⟨⟨true, false, false⟩, ⟨true, false, true⟩⟩
  | .r_line_comment => ⟨⟨true, false, false⟩, ⟨true, false, true⟩⟩
  | .r_block_comment => ⟨⟨true, false, false⟩, ⟨true, false, true⟩⟩
  | .r_unclosed_block_comment => ⟨⟨true, false, false⟩, ⟨true, false, true⟩⟩
  | .r_WS => ⟨⟨true, false, false⟩, ⟨true, false, true⟩⟩
  | .r_HWS => ⟨⟨true, false, false⟩, ⟨true, false, true⟩⟩
  | .r_EOL => ⟨⟨true, false, false⟩, ⟨true, false, true⟩⟩
  | .r_EOF => ⟨⟨false, true, false⟩, ⟨true, false, false⟩⟩
  | .r__line_start_ => ⟨⟨false, true, false⟩, ⟨false, true, false⟩⟩

/-- Rank: decreases along calls made before consuming input. -/
def rankT : Rule → Nat
  | .r_directive => 5
  | .r_client_command => 3
  | .r_command_body => 2
  | .r_statement => 4
  | .r_statement_body => 3
  | .r_quoted => 1
  | .r_single_quoted => 0
  | .r_double_quoted => 0
  | .r_escaped_char => 0
  | .r_ws => 2
  | .r_hws => 1
  | .r_line_end => 1
  | .r_comment => 1
  | .r_line_comment => 0
  | .r_block_comment => 0
  | .r_unclosed_block_comment => 0
  | .r_WS => 1
  | .r_HWS => 0
  | .r_EOL => 0
  | .r_EOF => 0
  | .r__line_start_ => 0

/-- Rules that leave the line starts alone. -/
def quietT : Rule → Bool
  | .r_escaped_char => true
  | .r_HWS => true
  | .r_EOF => true
  | _ => false

/-- What each rule does to the line starts. -/
def lineT : Rule → LSum
  | .r_directive => ⟨0, some 2, some (0, 1), some 1⟩
  | .r_client_command => ⟨0, none, some (0, 1), some 1⟩
  | .r_command_body => ⟨0, some 1, some (1, 2), none⟩
  | .r_statement => ⟨0, some 2, some (0, 1), some 1⟩
  | .r_statement_body => ⟨0, some 1, some (1, 1), none⟩
  | .r_quoted => ⟨0, none, some (0, 2), some 0⟩
  | .r_single_quoted => ⟨0, none, some (0, 2), some 0⟩
  | .r_double_quoted => ⟨0, none, some (0, 2), some 0⟩
  | .r_escaped_char => ⟨0, none, some (0, 2), some 0⟩
  | .r_ws => ⟨0, some 2, some (2, 1), none⟩
  | .r_hws => ⟨0, some 0, some (0, 2), none⟩
  | .r_line_end => ⟨0, some 2, some (0, 1), some 2⟩
  | .r_comment => ⟨0, none, some (0, 2), some 0⟩
  | .r_line_comment => ⟨0, none, some (0, 2), some 0⟩
  | .r_block_comment => ⟨0, none, some (0, 2), some 0⟩
  | .r_unclosed_block_comment => ⟨0, none, some (2, 2), some 0⟩
  | .r_WS => ⟨0, none, some (0, 1), some 2⟩
  | .r_HWS => ⟨0, none, some (0, 2), some 0⟩
  | .r_EOL => ⟨0, none, some (0, 1), some 2⟩
  | .r_EOF => ⟨0, some 2, none, some 0⟩
  | .r__line_start_ => ⟨3, none, none, none⟩

/-- Predicates always succeed. -/
def predT : Pred → Bool × Bool := fun _ => (true, false)

/-- What predicates do to the line starts. -/
def kindT : Pred → LKind
  | .lineStart => .start
  | _ => .keep

/-- Configuration of the line start analysis. -/
def lineCfg : LCfg Rule Pred := ⟨lineT, quietT, fun r => decide (r = .r_EOL), kindT, ⟨0⟩, fun _ => true⟩

theorem Rule.mem_all (r : Rule) : r ∈ Rule.all := by cases r <;> decide

theorem ruleOk_all (r : Rule) : ruleOk outT predT rankT grammar r = true := by
  have h : Rule.all.all (fun r => ruleOk outT predT rankT grammar r) = true := by decide +kernel
  exact List.all_eq_true.1 h r r.mem_all

theorem lineOk_all (r : Rule) : lineOk lineCfg .r__line_start_ grammar r = true := by
  have h : Rule.all.all (fun r => lineOk lineCfg .r__line_start_ grammar r) = true := by
    decide +kernel
  exact List.all_eq_true.1 h r r.mem_all

end Verif.Quick
