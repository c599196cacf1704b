#!/usr/bin/env python3
"""Extracts what the constructors and clone functions of lib/src/ast_*.c allocate and free.
usage: gen_alloc.py > Verif/Cypher/AllocTable.lean"""
import glob, os, re, sys
SRC = '/repo/lib/src'
MEM = re.compile(r'\b(calloc|malloc|realloc|strdup|strndup|mdup|free|\w*_init|cypher_ast_\w+|goto|return|REQUIRE\w*|cypher_astnode_release|\w*free)\s*\(|\bgoto\b|\breturn\b')

def strip(t):
    return re.sub(r'/\*.*?\*/', lambda m: re.sub(r'[^\n]', ' ', m.group(0)), t, flags=re.S)

def funcs(t):
    for m in re.finditer(r'^(?!static const|struct|#|typedef)([a-z][^;{}=]*?\b(\w+)\s*\([^;{}]*\))\s*\n\{(.*?)^\}', t, re.M | re.S):
        yield m.group(2), t[:m.start()].count('\n') + 1, t[:m.end()].count('\n') + 1, m.group(3)

def parse(s):
    """statements: (text, block or None)"""
    out, buf, i, par = [], '', 0, 0
    while i < len(s):
        c = s[i]
        if c == '(': par += 1
        if c == ')': par -= 1
        if c == '{' and par == 0:
            d, j = 1, i + 1
            while d:
                d += {'{': 1, '}': -1}.get(s[j], 0); j += 1
            out.append((buf.strip(), parse(s[i + 1:j - 1]))); buf = ''; i = j; continue
        if c == ';' and par == 0:
            out.append((buf.strip(), None)); buf = ''; i += 1; continue
        buf += c; i += 1
    assert not buf.strip(), buf
    return out

class Bad(Exception): pass

def translate(fn, body, slots):
    sts = [(re.sub(r'\s+', ' ', a), b) for a, b in parse(body)]
    labels = {}
    flat = []
    for a, b in sts:
        m = re.match(r'(\w+): (.*)$', a)
        if m and m.group(1) not in ('default',) and '?' not in a.split(':')[0]:
            labels[m.group(1)] = len(flat); a = m.group(2)
        flat.append((a, b))
    def slot(x):
        if x not in slots: raise Bad(f'slot {x}')
        return '.' + slots[x]
    def tail(k):
        """what is freed from statement k on until NULL is returned"""
        r = []
        for a, b in flat[k:]:
            if b is not None: raise Bad('block in cleanup')
            m = re.match(r'free\((.*)\)$', a)
            if m: r.append(slot(m.group(1))); continue
            if a == 'return NULL': return r
            if MEM.search(a): raise Bad('cleanup: ' + a)
        raise Bad('cleanup ends')
    def fails(block):
        r = []
        for a, b in block:
            a = re.sub(r'\s+', ' ', a)
            if b is not None: raise Bad('block in failure')
            m = re.match(r'free\((.*)\)$', a)
            if m: r.append(slot(m.group(1))); continue
            if a == 'return NULL': return r
            m = re.match(r'goto (\w+)$', a)
            if m: return r + tail(labels[m.group(1)])
            if MEM.search(a): raise Bad('failure: ' + a)
        raise Bad('failure ends')
    L = lambda r: '[' + ', '.join(r) + ']'
    ALLOC = r'(?:.*?[\s*])?\*?((?:node->)?\w+) = (calloc|malloc|mdup|strdup|strndup)\(.*\)$'
    def seq(sts, top=True):
        out, i = [], 0
        while i < len(sts):
            a, b = sts[i]
            a = re.sub(r'\s+', ' ', a)
            m = re.match(ALLOC, a)
            if m and b is None:
                x = m.group(1)
                na, nb = sts[i + 1]
                na = re.sub(r'\s+', ' ', na)
                if na != f'if ({x} == NULL)' or nb is None: raise Bad('unchecked ' + a)
                out.append(('alloc', slot(x), L(fails(nb))))
                if slot(x) == '.node':
                    if m.group(2) != 'calloc': raise Bad('node not calloc')
                    out.append(('zero',))
                i += 2; continue
            m = re.match(r'if \((\w+_init)\((.*)\)\)$', a)
            if m and b is not None:
                args = [x.strip() for x in m.group(2).split(',')]
                if m.group(1) == 'map_init': raise Bad('map_init')
                if args[-3:-1] == ['children', 'nchildren']: out.append(('init', L(fails(b))))
                elif args[-3:-1] == ['NULL', '0']: out.append(('bare',))
                else: raise Bad(a)
                i += 1; continue
            if a.startswith('REQUIRE'):
                if not re.search(r', NULL\)$', a): raise Bad(a)
                out.append(('check', '[]')); i += 1; continue
            m = re.match(r'if \((\w+) > 0\)$', a)
            if m and b is not None:
                inner = seq(b, False)
                if len(inner) == 1 and inner[0][0] == 'alloc': out.append(('part',) + inner[0][1:])
                elif inner: raise Bad('if ' + repr(inner))
                i += 1; continue
            m = re.match(r'free\((.*)\)$', a)
            if m: out.append(('drop', slot(m.group(1)))); i += 1; continue
            m = re.match(r'cypher_astnode_t \*clone = (cypher_ast_\w+)\(', a)
            if m: out.append(('build', m.group(1))); i += 1; continue
            m = re.match(r'return (cypher_ast_\w+)\(', a)
            if m and top: return out + [('build', m.group(1))]
            m = re.match(r'struct \w+ \*node = (\w+_init)\(.*\)$', a)
            if m:
                raise Bad('struct init')
            if re.match(r'return (&\(node->[\w.]+\)|clone|node)$', a) and top: return out
            if a.startswith('for (') and b is not None:
                if seq(b, False): raise Bad('for')
                i += 1; continue
            if b is not None or MEM.search(a): raise Bad(a)
            i += 1
        if top: raise Bad('no return')
        return out
    return seq(flat)


def types():
    """CYPHER_AST_X -> name in Data/AstType.lean, both in the order of ast.c"""
    s = open(SRC + '/ast.c').read()
    f = re.findall(r'\*\s*(\w+);', re.search(r'struct cypher_astnode_vts\s*\{(.*?)\}', s, re.S).group(1))
    o = dict(re.findall(r'const uint8_t (CYPHER_AST_\w+) =\s*VT_OFFSET\((\w+)\)', s))
    t = open(os.path.join(os.path.dirname(__file__), '../lean/Verif/Data/AstType.lean')).read()
    l = re.findall(r'\.(\w+)', re.search(r'def all : List AstType :=\s*\[(.*?)\]', t, re.S).group(1))
    assert len(f) == len(l) == len(o), (len(f), len(l), len(o))
    return {k: l[f.index(o[k])] for k in o}

# functions whose checks are in loops or whose node is made by a static function: the body after inlining and
# without the loops (a `check` stands for any number of REQUIREs)
BYHAND = {('ast_map.c', 'cypher_ast_pair_map'): [('check', '[]'), ('alloc', '.node', '[]'), ('init', '[.node]'), ('ret',)],
          ('ast_pattern_path.c', 'cypher_ast_pattern_path'):
              [('check', '[]'), ('alloc', '.node', '[]'), ('init', '[.node]'), ('ret',)]}

def squeeze(ops):
    out = []
    for o in ops:
        if o == ('zero',): continue
        if o[0] == 'check' and out and out[-1] == o: continue
        out.append(o)
    return out

def main():
    T, ctors, clones, types_of = types(), {}, {}, {}
    for f in sorted(glob.glob(SRC + '/ast_*.c')):
        t = strip(open(f).read()); n = os.path.basename(f)
        t = re.sub(r'(REQUIRE_TYPE\(self, \w+), false\)', r'\1, NULL)', t)
        for name, a, b, body in funcs(t):
            if name == 'clone':
                arrays = re.findall(r'\*\*(\w+)\s*=\s*calloc', body)
                ty = re.search(r'REQUIRE_TYPE\(self, (CYPHER_AST_\w+)', body).group(1)
                ops = squeeze(translate(name, body, dict(zip(arrays, ['first', 'second', 'third']))))
                clones[T[ty]] = (n, a, b, ops)
            elif (n, name) in BYHAND:
                ty = re.search(r'\b(CYPHER_AST_\w+),\s*(?:&pp_vt,\s*)?children', t).group(1)
                ctors[T[ty]] = (n, a, b, BYHAND[n, name]); types_of[name] = T[ty]
            elif name not in ('cypher_ast_map', 'map_init') and not name.endswith('_init') and re.search(r'_init\(', body):
                ty = re.search(r'_init\([^;]*?(CYPHER_AST_\w+)', body).group(1)
                slots = {'node': 'node', **{x: 'extra' for x in re.findall(r'(node->\w+) = mdup', body)}}
                ctors[T[ty]] = (n, a, b, squeeze(translate(name, body, slots)) + [('ret',)]); types_of[name] = T[ty]
    show = lambda o: '.' + ' '.join(o) if o[0] != 'build' else '.build .' + types_of[o[1]]
    def table(d):
        for k in T.values():
            if k in d:
                n, a, b, ops = d[k]
                print(f"  | .{k} => some [{', '.join(show(o) for o in ops)}] -- {n}:{a}-{b}")
        print('  | _ => none')
    print("""import Verif.Cypher.AllocCmd
/-!
# What the constructors and the clone functions allocate and free

Generated by `tools/gen_alloc.py` from `lib/src/ast_*.c`.
-/
namespace Verif.Alloc
open Verif

/-- The constructors (`cypher_ast_x`). -/
def newProg : AstType → Option (List Cmd)""")
    table(ctors)
    print("""
/-- The clone functions (`clone` in each file). -/
def cloneProg : AstType → Option (List Cmd)""")
    table(clones)
    print("\nend Verif.Alloc")

if __name__ == '__main__': main()
