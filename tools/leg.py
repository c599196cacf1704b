"""Parser for the `leg` grammar notation, and emission of Lean terms.  The expression structure follows
leg's own grammar: choice > sequence > error (`~{}`) > prefix (`&`, `!`) > suffix (`?*+`) > primary."""
import re

class Tok:
    def __init__(self, k, v, line): self.k, self.v, self.line = k, v, line
    def __repr__(self): return f"{self.k}:{self.v!r}@{self.line}"

def tokenize(text):
    i, line, out = 0, 1, []
    while i < len(text):
        c = text[i]
        if c == '\n': line += 1; i += 1; continue
        if c.isspace(): i += 1; continue
        if c == '#':
            while i < len(text) and text[i] != '\n': i += 1
            continue
        if c == '{':
            d, j, l0 = 0, i, line
            while True:
                if text[j] == '{': d += 1
                elif text[j] == '}':
                    d -= 1
                    if d == 0: break
                elif text[j] == '\n': line += 1
                j += 1
            out.append(Tok('action', text[i+1:j].strip(), l0)); i = j+1; continue
        if c in '\'"':
            j = i+1
            while text[j] != c: j += 2 if text[j] == '\\' else 1
            out.append(Tok('lit', text[i+1:j], line)); i = j+1; continue
        if c == '[':
            j = i+1
            while text[j] != ']': j += 2 if text[j] == '\\' else 1
            out.append(Tok('cls', text[i+1:j], line)); i = j+1; continue
        m = re.match(r'[-a-zA-Z_][-a-zA-Z_0-9]*', text[i:])
        if m: out.append(Tok('id', m.group(), line)); i += m.end(); continue
        out.append(Tok(c, c, line)); i += 1
    return out

def unescape(s):
    out, i = [], 0
    simple = {'a':7,'b':8,'f':12,'n':10,'r':13,'t':9,'v':11,'\\':92,"'":39,'"':34,'?':63}
    while i < len(s):
        if s[i] == '\\':
            if s[i+1] in simple: out.append(simple[s[i+1]]); i += 2
            else:
                m = re.match(r'[0-7]{1,3}', s[i+1:])
                if m: out.append(int(m.group(), 8)); i += 1+m.end()
                else: out.append(ord(s[i+1])); i += 2
        else: out.append(ord(s[i])); i += 1
    return out

def charset(s):
    neg = s.startswith('^')
    if neg: s = s[1:]
    m, i, prev = set(), 0, None
    # leg's makeCharClass: ranges with `-` between two characters
    chars = []
    while i < len(s):
        if s[i] == '\\':
            c = unescape(s[i:i+2])[0]; i += 2
        else: c = ord(s[i]); i += 1
        chars.append((c, s[i-1] == '-' and True))
    k, res = 0, set()
    while k < len(chars):
        c, dash = chars[k]
        if dash and k > 0 and k+1 < len(chars) and chars[k][0] == 45:
            for x in range(chars[k-1][0], chars[k+1][0]+1): res.add(x)
            k += 2
        else: res.add(c); k += 1
    if neg: res = set(range(256)) - res
    return res

class P:
    def __init__(self, toks): self.t, self.i = toks, 0
    def pk(self, o=0): return self.t[self.i+o] if self.i+o < len(self.t) else Tok('eof', None, -1)
    def nx(self): self.i += 1; return self.t[self.i-1]
    def grammar(self):
        rules = []
        while self.pk().k != 'eof':
            n = self.nx(); assert n.k == 'id', n
            assert self.nx().k == '='
            self.vars = []
            start = n.line
            e = self.choice()
            if self.pk().k == ';': self.nx()
            end = self.t[self.i-1].line
            rules.append((n.v, e, list(self.vars), start, end))
        return rules
    def choice(self):
        if self.pk().k == '|': raise Exception('leading |')
        xs = [self.sequence()]
        while self.pk().k == '|':
            self.nx(); xs.append(self.sequence())
        return xs[0] if len(xs) == 1 else ('alt', xs)
    def sequence(self):
        xs = []
        while True:
            t = self.pk()
            if t.k in ('|', ')', 'eof', ';'): break
            if t.k == 'id' and self.pk(1).k == '=': break
            xs.append(self.error())
        return xs[0] if len(xs) == 1 else ('seq', xs)
    def error(self):
        e = self.prefix()
        if self.pk().k == '~':
            self.nx(); a = self.nx(); assert a.k == 'action'
            return ('onfail', e, a.v, a.line)
        return e
    def prefix(self):
        if self.pk().k == '&':
            self.nx()
            if self.pk().k == 'action':
                a = self.nx(); return ('pred', a.v, a.line)
            return ('peek', self.suffix())
        if self.pk().k == '!':
            self.nx(); return ('npeek', self.suffix())
        return self.suffix()
    def suffix(self):
        e = self.primary()
        while self.pk().k in '?*+' and self.pk().k != 'eof':
            e = ({'?': 'opt', '*': 'star', '+': 'plus'}[self.nx().k], e)
        return e
    def primary(self):
        t = self.nx()
        if t.k == 'id':
            if self.pk().k == ':':
                self.nx(); r = self.nx(); assert r.k == 'id'
                if t.v not in self.vars: self.vars.append(t.v)
                return ('nt', r.v, self.vars.index(t.v))
            return ('nt', t.v, None)
        if t.k == '(':
            e = self.choice(); assert self.nx().k == ')', t; return e
        if t.k == 'lit': return ('lit', unescape(t.v))
        if t.k == 'cls': return ('cls', charset(t.v), t.v)
        if t.k == '.': return ('dot',)
        if t.k == 'action': return ('act', t.v, t.line, list(self.vars))
        if t.k == '<': return ('begin',)
        if t.k == '>': return ('end',)
        raise Exception(f'unexpected {t}')

def ident(n):
    if n == '-': return 'r_ws'
    if n == '--': return 'r_hws'
    return 'r_' + n.replace('-', '_')

def parse(path): return P(tokenize(open(path).read())).grammar()

class Emit:
    """pred(text)->lean, act(text, vars)->lean"""
    def __init__(self, pred, act): self.pred, self.act = pred, act
    def e(self, x, vs):
        k = x[0]
        if k == 'seq':
            if not x[1]: return '.eps'
            r = self.e(x[1][-1], vs)
            for y in reversed(x[1][:-1]): r = f'.seq {self.p(y, vs)} ({r})' if ' ' in r else f'.seq {self.p(y, vs)} {r}'
            return r
        if k == 'alt':
            r = self.e(x[1][-1], vs)
            for y in reversed(x[1][:-1]): r = f'.alt {self.p(y, vs)} ({r})' if ' ' in r else f'.alt {self.p(y, vs)} {r}'
            return r
        if k in ('star', 'peek', 'npeek', 'opt', 'plus'): return f'.{k} {self.p(x[1], vs)}'
        if k == 'onfail': return f'.onfail {self.p(x[1], vs)} {self.pred(x[2])}'
        if k == 'pred': return f'.pred {self.pred(x[1])}'
        if k == 'nt':
            v = 'none' if x[2] is None else f'(some {x[2]})'
            return f'.nt .{ident(x[1])} {v}'
        if k == 'lit':
            if len(x[1]) == 1: return f'.chr {x[1][0]}'
            return '.str [' + ', '.join(map(str, x[1])) + ']'
        if k == 'cls': return '.one ⟨0x%x⟩' % sum(1 << c for c in x[1])
        if k == 'dot': return '.dot'
        if k == 'act': return f'.act {self.act(x[1], vs)}'
        if k == 'begin': return f'.pred {self.pred("<")}'
        if k == 'end': return f'.pred {self.pred(">")}'
        raise Exception(k)
    def p(self, x, vs):
        s = self.e(x, vs)
        return s if ' ' not in s else f'({s})'

def wrap(s, width=96, ind='    '):
    out, line = [], ''
    for w in s.split(' '):
        if len(line) + len(w) + 1 > width: out.append(line); line = ind + w
        else: line = (line + ' ' + w) if line else ind + w
    out.append(line)
    return '\n'.join(out)
