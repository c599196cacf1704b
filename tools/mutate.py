#!/usr/bin/env python3
"""Mutation testing in a scratch copy.  usage: mutate.py muts.py out.jsonl [target ..]
muts.py defines M = [(file, definition, old, new, claim), ...]."""
import json, os, re, subprocess, sys, runpy, time
SRC, DST, BASE = '/verif/lean/', '/tmp/mut/lean', '/tmp/mut/base'
DECL = re.compile(r'^(?:@\[[^\]]*\]\s*)?(?:private |protected |noncomputable )*(theorem|lemma|def|example|instance|abbrev|structure|inductive)\b\s*(\S*)')

def decl_at(path, line):
    name = None
    with open(path) as f:
        for i, l in enumerate(f, 1):
            if i > line: break
            m = DECL.match(l)
            if m:
                name = m.group(2) if m.group(1) not in ('example', 'instance') or m.group(2) not in (':', '') else None
                name = f'{m.group(1)}@{i}' if m.group(1) == 'example' else (m.group(2) or f'{m.group(1)}@{i}')
    return name

def manifest():
    r = {}
    for c in json.load(open('/verif/MANIFEST.json'))['claims']:
        for t in c['theorems']:
            r[t] = c['property']
    return r

def modules(): # theorem -> module, imports
    where, imps = {}, {}
    for root, _, fs in os.walk(SRC + 'Verif'):
        for f in fs:
            if not f.endswith('.lean'): continue
            p = os.path.join(root, f); m = p[len(SRC):-5].replace('/', '.')
            t = open(p).read()
            imps[m] = re.findall(r'^import (Verif\S*)', t, re.M)
            for x in re.findall(r'^(?:private |protected )?theorem (\S+)', t, re.M):
                where.setdefault(x.split('.')[-1], []).append(m)
    return where, imps

def main():
    subprocess.run(['rm', '-rf', BASE], check=True); subprocess.run(['cp', '-a', SRC.rstrip('/'), BASE], check=True)
    muts = runpy.run_path(sys.argv[1])['M']
    out = sys.argv[2]
    man = manifest(); where, imps = modules()
    def closure(m, seen):
        if m in seen: return seen
        seen.add(m)
        for i in imps.get(m, []): closure(i, seen)
        return seen
    for k, (file, dfn, old, new, claim) in enumerate(muts):
        subprocess.run(['rm', '-rf', DST], check=True); subprocess.run(['cp', '-a', BASE, DST], check=True)
        p = DST + '/' + file
        t = open(p).read()
        if t.count(old) != 1:
            print(f'[{k}] SKIP {dfn}: {t.count(old)} occurrences of {old!r}', flush=True); continue
        open(p, 'w').write(t.replace(old, new))
        t0 = time.time()
        try:
            r = subprocess.run(['lake', 'build', *sys.argv[3:]], cwd=DST, stdin=subprocess.DEVNULL, capture_output=True, text=True, timeout=3000)
            txt = r.stdout + r.stderr; ok = r.returncode == 0
        except subprocess.TimeoutExpired as e:
            txt = (e.stdout or b'').decode(); ok = False
        failed, bad = [], set()
        for m in re.finditer(r'^error: (Verif/\S+?\.lean):(\d+):', txt, re.M):
            d = decl_at(DST + '/' + m.group(1), int(m.group(2)))
            mod = m.group(1)[:-5].replace('/', '.')
            bad.add(mod)
            s = f'{mod}:{d}'
            if s not in failed: failed.append(s)
        lost = []
        for th, prop in man.items():
            for m in where.get(th.split('.')[-1], []):
                if f'{m}:{th.split(".")[-1]}' in failed or (closure(m, set()) - {m}) & bad:
                    lost.append(th); break
        rec = dict(definition=f'{file[6:-5].replace("/", ".")}.{dfn}', edit=f'{old!r} -> {new!r}', claim=claim,
                   failed=failed[:14], claims_lost=sorted(lost), survived=ok, tightened=[], seconds=int(time.time() - t0))
        open(out, 'a').write(json.dumps(rec) + '\n')
        print(f'[{k}] {"SURVIVED" if ok else "killed"} {dfn}: {claim} :: {failed[:4]} ({rec["seconds"]}s)', flush=True)
        if not ok and not failed: print(txt[-600:], flush=True)
main()
