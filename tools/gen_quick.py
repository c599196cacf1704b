"""Writes Verif/Quick/Grammar.lean from lib/src/quick_parser.leg."""
import sys; sys.path.insert(0, '/verif/tools')
from leg import *
rules = parse('/repo/lib/src/quick_parser.leg')
PM = {'<': '.beginText', '>': '.endText', '(line_start(yy), 1)': '.lineStart'}
AM = {'segment(false, yy);': '(.segment false)', 'segment(true, yy);': '(.segment true)',
      'yy->eof = true;': '.eof'}
em = Emit(lambda t: PM[t], lambda t, vs: AM[t])
o = ['''import Verif.Peg.Syntax
/-!
# The quick parser's grammar (`lib/src/quick_parser.leg`)

Generated by `tools/gen_quick.py` from the grammar file; each rule cites its lines.
-/
namespace Verif.Quick
open Verif.Peg

/-- Inline predicates: `<`, `>` (which set `__begin`, `__end`) and `_line_start_`. -/
inductive Pred where
  | beginText | endText | lineStart
  deriving DecidableEq, Repr

/-- Deferred actions: `segment(is_statement, yy)` and `yy->eof = true`. -/
inductive Act where
  | segment (isStatement : Bool)
  | eof
  deriving DecidableEq, Repr

/-- Rule names (`-` is `r_ws`, `--` is `r_hws`). -/
inductive Rule where''']
for n, e, vs, a, b in rules: o.append(f'  | {ident(n)}')
o.append('  deriving DecidableEq, Repr\n')
o.append('/-- All rules. -/\ndef Rule.all : List Rule :=\n' + wrap('[' + ', '.join('.'+ident(n) for n, *_ in rules) + ']') + '\n')
o.append('abbrev E := Expr Rule Pred Act\n')
for n, e, vs, a, b in rules:
    loc = f'{a}' if a == b else f'{a}-{b}'
    o.append(f'/-- `{n}` (quick_parser.leg:{loc}). -/\ndef {ident(n)} : E :=\n' + wrap(em.e(e, vs)) + '\n')
o.append('/-- The grammar. -/\ndef grammar : Rule → RuleDef Rule Pred Act')
for n, e, vs, a, b in rules: o.append(f'  | .{ident(n)} => ⟨{len(vs)}, {ident(n)}⟩')
o.append('\nend Verif.Quick')
open('/verif/lean/Verif/Quick/Grammar.lean', 'w').write('\n'.join(o) + '\n')
