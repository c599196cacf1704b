"""Writes Verif/Cypher/Grammar.lean from lib/src/parser.leg."""
import re, sys; sys.path.insert(0, '/verif/tools')
from leg import *
rules = parse('/repo/lib/src/parser.leg')

# builder macro -> (Lean name, argument kinds: b = bool, d = direction, o = op_pop(), n = node)
B = '''statement:n cypher_option:n cypher_option_param:nn explain_option: profile_option: create_index:n
drop_index:n create_node_prop_constraint:nnnb drop_node_prop_constraint:nnnb
create_rel_prop_constraint:nnnb drop_rel_prop_constraint:nnnb query: using_periodic_commit:n
load_csv:bnnn start_clause:n node_index_lookup:nnnn node_index_query:nnn node_id_lookup:n
all_nodes_scan:n rel_index_lookup:nnnn rel_index_query:nnn rel_id_lookup:n all_rels_scan:n
match_clause:bnn using_index:nnn using_join: using_scan:nn merge_clause:n on_match: on_create:
create_clause:bn set_clause: set_property:nn set_all_properties:nn merge_properties:nn set_labels:n
delete:b remove_clause: remove_property:n remove_labels:n foreach_clause:nn with_clause:bbnnnn
unwind_clause:nn call_clause:nn return_clause:bbnnn projection:nn order_by: sort_item:nb
union_clause:b unary_operator:on binary_operator:onn comparison_operator: apply_operator:nb
apply_all_operator:nb property_operator:nn subscript_operator:nn slice_operator:nnn map_projection:n
map_projection_literal:nn map_projection_property:n map_projection_identifier:n
map_projection_all_properties: labels_operator:n list_comprehension:nnnn pattern_comprehension:nnnn
case_expression:nn filter:nnn extract:nnn reduce:nnnnn all_predicate:nnn any_predicate:nnn
single_predicate:nnn none_predicate:nnn collection_literal: map_literal: strbuf_identifier:
block_identifier: strbuf_parameter: strbuf_integer: strbuf_float: true_literal: false_literal:
null_literal: strbuf_label: strbuf_reltype: strbuf_prop_name: strbuf_function_name:
strbuf_index_name: strbuf_proc_name: pattern: named_path:nn shortest_path:bn pattern_path:
node_pattern:nn rel_pattern:dnnn range:nn command:n block_string: strbuf_string: line_comment:
block_comment: skip:'''.split()
B = dict(x.split(':') for x in B)
def camel(s):
    p = s.split('_')
    return p[0] + ''.join(w[0].upper() + w[1:] for w in p[1:])
KW = {'match': 'match_', 'set': 'set_', 'with': 'with_'}
def cname(m): return camel(m)
FLAGN = {'load_csv': ['withHeaders'], 'match_clause': ['optional'], 'create_clause': ['unique'],
  'delete': ['detach'], 'with_clause': ['distinct', 'includeExisting'],
  'return_clause': ['distinct', 'includeExisting'], 'sort_item': ['ascending'], 'union_clause': ['all'],
  'apply_operator': ['distinct'], 'apply_all_operator': ['distinct'], 'shortest_path': ['single'],
  'create_node_prop_constraint': ['unique'], 'drop_node_prop_constraint': ['unique'],
  'create_rel_prop_constraint': ['unique'], 'drop_rel_prop_constraint': ['unique']}
OPS = 'OR XOR AND NOT EQUAL NEQUAL LT GT LTE GTE PLUS MINUS MULT DIV MOD POW UNARY_PLUS UNARY_MINUS REGEX IN STARTS_WITH ENDS_WITH CONTAINS IS_NULL IS_NOT_NULL MAP_PROJECTION SUBSCRIPT PROPERTY LABEL'.split()
src = open('/repo/lib/src/operators.c').read()
opinfo = {}
for m in re.finditer(r'_CYPHER_OP_(\w+) =\s*\{ \.precedence = (\d+), \.associativity = (\w+),\s*\.str = "([^"]*)"', src):
    opinfo[m.group(1)] = (int(m.group(2)), m.group(3), m.group(4), src[:m.start()].count('\n') + 1)
assert set(opinfo) == set(OPS), (set(opinfo) ^ set(OPS))
def opn(o): return '.' + camel(o.lower()) + ('_' if camel(o.lower()) in ('in',) else '')
DIR = {'BIDIRECTIONAL': '.bidirectional', 'INBOUND': '.inbound', 'OUTBOUND': '.outbound'}

labels = []
def pred(t):
    t = t.strip()
    fixed = {'<': '.blockStart', '>': '.blockEnd', 'PREC_PUSH_TOP()': '.precPushTop', 'PREC_PUSH()': '.precPush',
      'PREC_POP()': '.precPop', 'PREC_CHK()': '.precChk', '1': '.yes', '0': '.no',
      '(line_start(yy), 1)': '.lineStart', '(record_error(yy), 1)': '.recordError'}
    if t in fixed: return fixed[t]
    m = re.fullmatch(r'yyDo\(yy, block_(\w+)_action, yy->__pos, 0\), 1', t)
    if m: return '.block' + m.group(1).capitalize()
    m = re.fullmatch(r'OP\((\w+)\)', t)
    if m: return f'(.op {opn(m.group(1))})'
    m = re.fullmatch(r'ERR\("(.*)"\)', t)
    if m:
        l = bytes(unescape(m.group(1)))
        if l not in labels: labels.append(l)
        return f'(.err {labels.index(l)})'
    raise Exception(t)

def act(t, vs):
    t = re.sub(r'\s+', ' ', t.strip())
    if not t.startswith('if'):
        parts = [x.strip() for x in t.split(';') if x.strip()] if 'strbuf_append(' not in t else [t.rstrip(';')]
    else: parts = [t]
    if len(parts) == 2:
        ms = [re.fullmatch(r'sequence_add\((\w)\)', p) for p in parts]
        return '(.seqAdd [' + ', '.join(str(vs.index(m.group(1))) for m in ms) + '])'
    t = parts[0]
    fixed = {'finished(yy)': '.finished', 'yy->result = NULL': '(.result none)', 'yy->eof = true': '.eof',
      '$$ = NULL': '.null', 'strbuf_reset()': '.sbReset', 'strbuf_append_block()': '.sbAppendBlock',
      'line_comment()': '(.build .discard .lineComment [])', 'block_comment()': '(.build .discard .blockComment [])'}
    if t in fixed: return fixed[t]
    m = re.fullmatch(r'yy->result = (\w)', t)
    if m: return f'(.result (some {vs.index(m.group(1))}))'
    m = re.fullmatch(r'sequence_add\((\w)\)', t)
    if m: return f'(.seqAdd [{vs.index(m.group(1))}])'
    m = re.fullmatch(r'\$\$ = (\w)', t)
    if m: return f'(.copy {vs.index(m.group(1))})'
    m = re.fullmatch(r'strbuf_append\("(.*)", 1\)', t)
    if m:
        u = unescape(m.group(1)); assert len(u) == 1
        return f'(.sbAppend {u[0]})'
    m = re.fullmatch(r'op_push\((\w+)\)', t)
    if m: return f'(.opPush {opn(m.group(1))})'
    if t.startswith('if (!cypher_astnode_instanceof( e, CYPHER_AST_IDENTIFIER)) { i = block_identifier(); }'):
        return f'(.aliasUnless {vs.index("e")} {vs.index("i")})'
    m = re.fullmatch(r'(\$\$|\w) = (\w+)\((.*)\)', t)
    if m:
        dst = '.self' if m.group(1) == '$$' else f'(.var {vs.index(m.group(1))})'
        f, args = m.group(2), [a.strip() for a in m.group(3).split(',') if a.strip()]
        if f == 'simple_rel_pattern': f, args = 'rel_pattern', args + ['NULL'] * 3
        kinds = B[f]; assert len(kinds) == len(args), (t, kinds)
        flags, nodes = [], []
        for k, a in zip(kinds, args):
            if k == 'b': flags.append(a); assert a in ('true', 'false')
            elif k == 'd': flags.append(DIR[a])
            elif k == 'o': assert a == 'op_pop()'
            else: nodes.append('none' if a == 'NULL' else f'some {vs.index(a)}')
        c = '.' + cname(f) if not flags else f'(.{cname(f)} {" ".join(flags)})'
        return f'(.build {dst} {c} [{", ".join(nodes)}])'
    raise Exception(t)

em = Emit(pred, act)
bodies = [(n, em.e(e, vs), vs, a, b) for n, e, vs, a, b in rules]
o = ['''import Verif.Peg.Syntax
import Verif.Data.Errors
/-!
# The parser's grammar (`lib/src/parser.leg`)

Generated by `tools/gen_cypher.py` from the grammar file; each rule cites its lines.
-/
namespace Verif.Cypher
open Verif.Peg

/-- The operators (operators.c). -/
inductive Op where''']
for x in OPS: o.append(f'  | {opn(x)[1:]}')
o.append('''  deriving DecidableEq, Repr

/-- `enum associativity` (operators.h:23-28). -/
inductive Assoc where | left | right | unary
  deriving DecidableEq, Repr

/-- `precedence` of each operator (operators.c, lines as cited). -/
def Op.prec : Op → Nat''')
for x in OPS: o.append(f'  | {opn(x)} => {opinfo[x][0]}  -- {opinfo[x][3]}')
o.append('''
/-- `associativity` of each operator (operators.c, same lines). -/
def Op.assoc : Op → Assoc''')
for x in OPS: o.append(f'  | {opn(x)} => .' + {'LEFT_ASSOC': 'left', 'RIGHT_ASSOC': 'right', 'UNARY': 'unary'}[opinfo[x][1]])
o.append('''
/-- `str` of each operator (operators.c, same lines). -/
def Op.str : Op → String''')
for x in OPS: o.append(f'  | {opn(x)} => "{opinfo[x][2]}"')
o.append('''
/-- `enum cypher_rel_direction` (cypher-parser.h.in). -/
inductive Dir where | inbound | outbound | bidirectional
  deriving DecidableEq, Repr

/-- The functions of parser.c:1102-3078 that create AST nodes, with their arguments other than
nodes. -/
inductive Ctor where''')
for f, kinds in B.items():
    fl = list(FLAGN.get(f, []))
    ps = ''
    for k in kinds:
        if k == 'b': ps += f' ({fl.pop(0)} : Bool)'
        if k == 'd': ps += ' (direction : Dir)'
    o.append(f'  | {cname(f)}{ps}')
o.append('''  deriving DecidableEq, Repr

/-- Inline predicates: the block directives `<`, `>`, `_block_start_`, .. (which record a thunk with
the position), `&{1}`, `&{0}`, `line_start`, `record_error`, `ERR(label)` (the label by number, see
`labelText`), and the operator precedence macros (parser.c:154-180). -/
inductive Pred where
  | blockStart | blockEnd | blockReplace | blockMerge
  | yes | no | lineStart | recordError
  | err (label : Nat)
  | op (o : Op)
  | precPushTop | precPush | precPop | precChk
  deriving DecidableEq, Repr

/-- Where an action stores a created node: `$$ = ..`, `v = ..`, or nowhere. -/
inductive Dst where | self | var (i : Nat) | discard
  deriving DecidableEq, Repr

/-- Deferred actions. Variables are numbered by first occurrence in their rule. -/
inductive Act where
  /-- the thunks recorded by the block directives -/
  | blockStart | blockEnd | blockReplace | blockMerge
  /-- `yy->eof = true` -/
  | eof
  /-- `yy->result = NULL`, `yy->result = v` -/
  | result (v : Option Nat)
  /-- `finished(yy)` -/
  | finished
  /-- `sequence_add(v); ..` -/
  | seqAdd (vs : List Nat)
  /-- `$$ = v` -/
  | copy (v : Nat)
  /-- `$$ = NULL` -/
  | null
  /-- `dst = constructor(args)`; `none` is `NULL` -/
  | build (dst : Dst) (c : Ctor) (args : List (Option Nat))
  /-- `if (!cypher_astnode_instanceof(e, CYPHER_AST_IDENTIFIER)) { i = block_identifier(); }` -/
  | aliasUnless (e i : Nat)
  /-- `strbuf_reset()`, `strbuf_append(c, 1)`, `strbuf_append_block()` -/
  | sbReset | sbAppend (c : UInt8) | sbAppendBlock
  /-- `op_push(o)` -/
  | opPush (o : Op)
  deriving DecidableEq, Repr

/-- Rule names (`-` is `r_ws`, `--` is `r_hws`). -/
inductive Rule where''')
for n, *_ in rules: o.append(f'  | {ident(n)}')
o.append('  deriving DecidableEq, Repr\n')
o.append('/-- All rules. -/\ndef Rule.all : List Rule :=\n' + wrap('[' + ', '.join('.'+ident(n) for n, *_ in rules) + ']') + '\n')
o.append('theorem Rule.mem_all (r : Rule) : r ∈ Rule.all := by cases r <;> decide +kernel\n')
o.append('abbrev E := Expr Rule Pred Act\n')
o.append('/-- The texts of `ERR(..)` in order of first occurrence. -/\ndef labelText : Nat → List UInt8')
for i, l in enumerate(labels):
    o.append(f'  | {i} => ascii "' + l.decode().replace('\\', '\\\\').replace('"', '\\"') + '"')
o.append('  | _ => []\n')
for n, body, vs, a, b in bodies:
    loc = f'{a}' if a == b else f'{a}-{b}'
    v = '' if not vs else ' Variables: ' + ', '.join(f'{x} = {i}' for i, x in enumerate(vs)) + '.'
    o.append(f'/-- `{n}` (parser.leg:{loc}).{v} -/\ndef {ident(n)} : E :=\n' + wrap(body) + '\n')
o.append('/-- The grammar. -/\ndef grammar : Rule → RuleDef Rule Pred Act')
for n, e, vs, a, b in bodies: o.append(f'  | .{ident(n)} => ⟨{len(vs)}, {ident(n)}⟩')
o.append('\nend Verif.Cypher')
open('/verif/lean/Verif/Cypher/Grammar.lean', 'w').write('\n'.join(o) + '\n')
print(len(rules), 'rules', len(labels), 'labels')
