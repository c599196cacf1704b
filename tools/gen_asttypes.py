#!/usr/bin/env python3
"""Generate lean/Verif/Data/AstType.lean from lib/src/ast.c and lib/src/ast_*.c."""
import re, glob, sys
R='/repo/lib/src/'
src=open(R+'ast.c').read()
lines=src.split('\n')
m=re.search(r'struct cypher_astnode_vts\n\{(.*?)\n\};',src,re.S)
fields=re.findall(r'\*(\w+);',m.group(1))
m2=re.search(r'static const struct cypher_astnode_vts cypher_astnode_vts =\s*\{(.*?)\n\s*\};',src,re.S)
inits=dict(re.findall(r'\.(\w+)\s*=\s*&cypher_(\w+)_astnode_vt',m2.group(1)))
vtof=dict((f,inits.get(f,f)) for f in fields)
back={v:k for k,v in vtof.items()}
for k,v in inits.items():
    if k!=v: print('renamed',k,v)
missing=[f for f in fields if f not in inits]
# parents & names: each vt definition
info={}
for fn in sorted(glob.glob(R+'ast_*.c')):
    t=open(fn).read()
    ls=t.split('\n')
    par=re.search(r'static const struct cypher_astnode_vt \*parents\[\] =\s*\{(.*?)\};',t,re.S)
    ps=re.findall(r'&cypher_(\w+)_astnode_vt',par.group(1)) if par else []
    for mm in re.finditer(r'const struct cypher_astnode_vt cypher_(\w+)_astnode_vt =\s*\{(.*?)\};',t,re.S):
        ty=back.get(mm.group(1),mm.group(1)); body=mm.group(2)
        np=re.search(r'\.nparents\s*=\s*(\d+)',body)
        n=int(np.group(1)) if np else 0
        nm=re.search(r'\.name\s*=\s*"([^"]*)"',body)
        line=t[:mm.start()].count('\n')+1
        use=[back[p] for p in ps[:n]] if re.search(r'\.parents\s*=\s*parents',body) else []
        assert len(use)==n,(fn,ty,ps,n)
        info[ty]=(use,nm.group(1) if nm else None,fn.split('/')[-1],line)
for f in fields: assert f in info,f
kw={'match','with','set','end','return','where','in','macro','prefix','import','variable','open','universe','section','namespace','instance','true','false','null','deriving','extends','default','case','if','then','else','do','let','have','show','by','from','fun','example','theorem','def','class','structure','inductive','partial','unsafe','private','protected','attribute','export','export','for','unless','try','catch','finally','mut','using','filter','all','any','none','map'}
def nm(f): return f+'_' if f in kw else f
def ident(f):
    parts=f.split('_'); s=parts[0]+''.join(p.capitalize() for p in parts[1:])
    return s+'_' if s in kw else s
out=[]
out.append('''/-!
# AST node types (`lib/src/ast.c`, `lib/src/ast_*.c`)

Generated by `tools/gen_asttypes.py` from `struct cypher_astnode_vts` (ast.c:25-139, the order of
the fields defines the type numbers, ast.c:259-372), its initialiser (ast.c:141-) and the
`cypher_*_astnode_vt` tables of the individual node types.
-/
namespace Verif

/-- The AST node types, in the order of `struct cypher_astnode_vts` (ast.c:25-139). -/
inductive AstType where''')
for f in fields: out.append(f'  | {ident(f)}')
out.append('  deriving DecidableEq, Repr\n')
out.append('namespace AstType\n')
out.append('/-- All node types in order (ast.c:25-139). -/')
out.append('def all : List AstType :=\n  ['+', '.join('.'+ident(f) for f in fields)+']\n')
out.append('/-- The type number, the offset in `struct cypher_astnode_vts` (`VT_OFFSET`, ast.c:259). -/')
out.append('def num : AstType → Nat')
for i,f in enumerate(fields): out.append(f'  | .{ident(f)} => {i}')
out.append('\n/-- The `.parents` of the node type (`.parents`/`.nparents` in each `cypher_*_astnode_vt`). -/')
out.append('def parents : AstType → List AstType')
for f in fields:
    if info[f][0]:
        out.append(f'  | .{ident(f)} => ['+', '.join('.'+ident(p) for p in info[f][0])+f']  -- {info[f][2]}:{info[f][3]}')
out.append('  | _ => []')
out.append('\n/-- The `.name` of the node type (`none` when the table has no name: abstract types). -/')
out.append('def name : AstType → Option String')
for f in fields:
    if info[f][1] is not None: out.append(f'  | .{ident(f)} => some "{info[f][1]}"  -- {info[f][2]}:{info[f][3]}')
out.append('  | _ => none')
out.append('\n/-- `VT_PTR(type)` (ast.c): the table registered for a type in the initialiser (ast.c:141-);\n`none` is NULL: the field is not initialised. -/')
out.append('def vtPtr : AstType → Option AstType')
for f in missing: out.append(f'  | .{ident(f)} => none')
out.append('  | t => some t')
out.append('\nend AstType\n\nend Verif')
open('/verif/lean/Verif/Data/AstType.lean','w').write('\n'.join(out)+'\n')
print(len(fields),'missing',missing, 'orphans',[t for t in info if t not in fields])
