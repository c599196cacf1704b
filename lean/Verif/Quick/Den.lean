import Verif.Quick.Grammar
import Verif.Peg.Den
/-!
# What the quick parser's rules match

`env r l` is the number of bytes rule `r` matches at the head of `l`; the grammar is not recursive,
so it is defined rule by rule.
-/
namespace Verif.Quick
open Verif.Peg

def d__line_start_ (l : List UInt8) : Option Nat := den (fun _ _ => none) r__line_start_ l
def env_EOL : Rule → List UInt8 → Option Nat
  | .r__line_start_ => d__line_start_
  | _ => fun _ => none
def d_EOL (l : List UInt8) : Option Nat := den env_EOL r_EOL l
def env_block_comment : Rule → List UInt8 → Option Nat
  | .r_EOL => d_EOL
  | _ => fun _ => none
def d_block_comment (l : List UInt8) : Option Nat := den env_block_comment r_block_comment l
def d_escaped_char (l : List UInt8) : Option Nat := den (fun _ _ => none) r_escaped_char l
def d_HWS (l : List UInt8) : Option Nat := den (fun _ _ => none) r_HWS l
def env_hws : Rule → List UInt8 → Option Nat
  | .r_HWS => d_HWS
  | .r_block_comment => d_block_comment
  | _ => fun _ => none
def d_hws (l : List UInt8) : Option Nat := den env_hws r_hws l
def d_EOF (l : List UInt8) : Option Nat := den (fun _ _ => none) r_EOF l
def env_line_comment : Rule → List UInt8 → Option Nat
  | .r_EOF => d_EOF
  | .r_EOL => d_EOL
  | _ => fun _ => none
def d_line_comment (l : List UInt8) : Option Nat := den env_line_comment r_line_comment l
def env_line_end : Rule → List UInt8 → Option Nat
  | .r_EOF => d_EOF
  | .r_EOL => d_EOL
  | .r_line_comment => d_line_comment
  | _ => fun _ => none
def d_line_end (l : List UInt8) : Option Nat := den env_line_end r_line_end l
def env_double_quoted : Rule → List UInt8 → Option Nat
  | .r_EOF => d_EOF
  | .r_EOL => d_EOL
  | .r_escaped_char => d_escaped_char
  | _ => fun _ => none
def d_double_quoted (l : List UInt8) : Option Nat := den env_double_quoted r_double_quoted l
def env_single_quoted : Rule → List UInt8 → Option Nat
  | .r_EOF => d_EOF
  | .r_EOL => d_EOL
  | .r_escaped_char => d_escaped_char
  | _ => fun _ => none
def d_single_quoted (l : List UInt8) : Option Nat := den env_single_quoted r_single_quoted l
def env_quoted : Rule → List UInt8 → Option Nat
  | .r_double_quoted => d_double_quoted
  | .r_single_quoted => d_single_quoted
  | _ => fun _ => none
def d_quoted (l : List UInt8) : Option Nat := den env_quoted r_quoted l
def env_unclosed_block_comment : Rule → List UInt8 → Option Nat
  | .r_EOF => d_EOF
  | .r_EOL => d_EOL
  | _ => fun _ => none
def d_unclosed_block_comment (l : List UInt8) : Option Nat := den env_unclosed_block_comment r_unclosed_block_comment l
def env_command_body : Rule → List UInt8 → Option Nat
  | .r_block_comment => d_block_comment
  | .r_escaped_char => d_escaped_char
  | .r_hws => d_hws
  | .r_line_end => d_line_end
  | .r_quoted => d_quoted
  | .r_unclosed_block_comment => d_unclosed_block_comment
  | _ => fun _ => none
def d_command_body (l : List UInt8) : Option Nat := den env_command_body r_command_body l
def env_WS : Rule → List UInt8 → Option Nat
  | .r_EOL => d_EOL
  | .r_HWS => d_HWS
  | _ => fun _ => none
def d_WS (l : List UInt8) : Option Nat := den env_WS r_WS l
def env_comment : Rule → List UInt8 → Option Nat
  | .r_block_comment => d_block_comment
  | .r_line_comment => d_line_comment
  | _ => fun _ => none
def d_comment (l : List UInt8) : Option Nat := den env_comment r_comment l
def env_ws : Rule → List UInt8 → Option Nat
  | .r_WS => d_WS
  | .r_comment => d_comment
  | _ => fun _ => none
def d_ws (l : List UInt8) : Option Nat := den env_ws r_ws l
def env_client_command : Rule → List UInt8 → Option Nat
  | .r_command_body => d_command_body
  | .r_hws => d_hws
  | .r_line_end => d_line_end
  | .r_ws => d_ws
  | _ => fun _ => none
def d_client_command (l : List UInt8) : Option Nat := den env_client_command r_client_command l
def env_statement_body : Rule → List UInt8 → Option Nat
  | .r_comment => d_comment
  | .r_escaped_char => d_escaped_char
  | .r_quoted => d_quoted
  | .r_unclosed_block_comment => d_unclosed_block_comment
  | .r_ws => d_ws
  | _ => fun _ => none
def d_statement_body (l : List UInt8) : Option Nat := den env_statement_body r_statement_body l
def env_statement : Rule → List UInt8 → Option Nat
  | .r_EOF => d_EOF
  | .r_statement_body => d_statement_body
  | .r_ws => d_ws
  | _ => fun _ => none
def d_statement (l : List UInt8) : Option Nat := den env_statement r_statement l
def env_directive : Rule → List UInt8 → Option Nat
  | .r_client_command => d_client_command
  | .r_statement => d_statement
  | _ => fun _ => none
def d_directive (l : List UInt8) : Option Nat := den env_directive r_directive l

/-- What each rule matches. -/
def env : Rule → List UInt8 → Option Nat
  | .r_directive => d_directive
  | .r_client_command => d_client_command
  | .r_command_body => d_command_body
  | .r_statement => d_statement
  | .r_statement_body => d_statement_body
  | .r_quoted => d_quoted
  | .r_single_quoted => d_single_quoted
  | .r_double_quoted => d_double_quoted
  | .r_escaped_char => d_escaped_char
  | .r_ws => d_ws
  | .r_hws => d_hws
  | .r_line_end => d_line_end
  | .r_comment => d_comment
  | .r_line_comment => d_line_comment
  | .r_block_comment => d_block_comment
  | .r_unclosed_block_comment => d_unclosed_block_comment
  | .r_WS => d_WS
  | .r_HWS => d_HWS
  | .r_EOL => d_EOL
  | .r_EOF => d_EOF
  | .r__line_start_ => d__line_start_

theorem env_eq (r : Rule) (l : List UInt8) : env r l = den env (grammar r).body l := by
  cases r <;> rfl

/-! ## Simple facts about matching -/

section
variable {env : Rule → List UInt8 → Option Nat} {a b : E} {l : List UInt8} {n : Nat}

theorem den_seq_some : den env (.seq a b) l = some n ↔
    ∃ i j, den env a l = some i ∧ den env b (l.drop i) = some j ∧ n = i + j := by
  simp only [den]
  cases h1 : den env a l with
  | none => simp
  | some i =>
    cases h2 : den env b (l.drop i) with
    | none => simp [h2]
    | some j => simp [h2, eq_comm]

theorem den_seq_none : den env (.seq a b) l = none ↔
    den env a l = none ∨ ∃ i, den env a l = some i ∧ den env b (l.drop i) = none := by
  simp only [den]
  cases h1 : den env a l with
  | none => simp
  | some i =>
    cases h2 : den env b (l.drop i) with
    | none => simp [h2]
    | some j => simp [h2]

theorem den_alt_some : den env (.alt a b) l = some n ↔
    den env a l = some n ∨ (den env a l = none ∧ den env b l = some n) := by
  simp only [den]
  cases h1 : den env a l <;> simp

theorem den_alt_none : den env (.alt a b) l = none ↔ den env a l = none ∧ den env b l = none := by
  simp only [den]
  cases h1 : den env a l <;> simp

theorem den_npeek_some : den env (.npeek a) l = some n ↔ den env a l = none ∧ n = 0 := by
  simp only [den]
  cases h1 : den env a l <;> simp [eq_comm]

theorem den_npeek_none : den env (.npeek a) l = none ↔ ∃ n, den env a l = some n := by
  simp only [den]
  cases h1 : den env a l <;> simp

theorem den_star : den env (.star a) l = some n ↔ n = starD (den env a) l := by
  simp only [den, Option.some.injEq, eq_comm]

theorem den_nt {r : Rule} {v : Option Nat} : den env (.nt r v : E) l = env r l := rfl

end

theorem starD_exit (f : List UInt8 → Option Nat) (l : List UInt8) :
    f (l.drop (starD f l)) = none ∨ f (l.drop (starD f l)) = some 0 ∨
      l.drop (starD f l) = [] := by
  fun_induction starD f l with
  | case1 n h => right; right; simp
  | case2 l n h hl ih => rw [← List.drop_drop]; exact ih
  | case3 l h =>
    rw [List.drop_zero]
    cases hf : f l with
    | none => exact Or.inl rfl
    | some n =>
      cases n with
      | zero => exact Or.inr (Or.inl rfl)
      | succ n => exact absurd hf (h n)

theorem starD_ind {f : List UInt8 → Option Nat} {Q : List UInt8 → Nat → Prop}
    (h0 : ∀ l, Q l 0)
    (h1 : ∀ l n m, l ≠ [] → f l = some n → 0 < n → Q (l.drop n) m → Q l (n + m)) (l : List UInt8) :
    Q l (starD f l) := by
  fun_induction starD f l with
  | case1 n h => exact h0 _
  | case2 l n h hl ih => exact h1 l (n + 1) _ hl h (by omega) ih
  | case3 l h => exact h0 _

end Verif.Quick
