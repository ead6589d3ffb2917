#!/usr/bin/env python3
"""Mutation-test the theorems in a scratch copy.

usage: mutate.py MUTS.py [--log]
MUTS.py defines `muts`, a list of (file under lean/Verif, old, new, claim broken).  For every
mutation the scratch copy /tmp/mut/lean is rebuilt; the theorems whose proofs (or examples) fail in
the first broken modules are reported, with the property theorems that depend on them.
"""
import json, os, re, subprocess, sys
SRC, DST = '/verif/lean', '/tmp/mut/lean'
DEPS = '/tmp/mut/deps.txt'

def sh(cmd, **kw):
    return subprocess.run(cmd, shell=True, capture_output=True, text=True, **kw)

def load_deps():
    d = {}
    for line in open(DEPS):
        a = line.split()
        if a: d[a[0]] = set(a[1:])
    return d

def closure_rev(deps, bad):
    rev = {}
    for k, vs in deps.items():
        for v in vs: rev.setdefault(v, set()).add(k)
    seen, todo = set(bad), list(bad)
    while todo:
        x = todo.pop()
        for y in rev.get(x, ()):
            if y not in seen:
                seen.add(y); todo.append(y)
    return seen

def enclosing(path, line):
    """Name of the declaration containing the line."""
    src = open(path).read().split('\n')
    for i in range(min(line, len(src)) - 1, -1, -1):
        m = re.match(r'(?:@\[[^\]]*\]\s*)?(?:private |protected |noncomputable )*(theorem|lemma|def|abbrev|structure|inductive|instance|example)\b\s*([^\s:({\[]*)', src[i])
        if m:
            ns = []
            for l in src[:i]:
                a = re.match(r'namespace (\S+)', l)
                if a: ns.append(a.group(1))
                b = re.match(r'end (\S+)', l)
                if b and ns and ns[-1] == b.group(1): ns.pop()
            if m.group(1) == 'example':
                # attribute to the preceding theorem
                return f'example({os.path.basename(path)}:{i+1})'
            return '.'.join(ns + [m.group(2)])
    return '?'

def main():
    env = {}
    exec(open(sys.argv[1]).read(), env)
    log = '--log' in sys.argv
    sh(f'mkdir -p {DST} && rsync -a --delete {SRC}/ {DST}/ || (rm -rf {DST} && cp -a {SRC} {DST})')
    sh(f'cd {SRC} && lake env lean ../tools/deps.lean.txt > {DEPS}')
    deps = load_deps()
    claims = json.load(open('/verif/MANIFEST.json'))['claims']
    prop = {t: c['property'] for c in claims for t in c['theorems']}
    for mut in env['muts']:
        f, old, new, claim = mut[:4]
        tightened = mut[4] if len(mut) > 4 else []
        p = f'{DST}/Verif/{f}'
        orig = open(p).read()
        if orig.count(old) != 1:
            print('!! pattern count', orig.count(old), f, repr(old)); continue
        open(p, 'w').write(orig.replace(old, new))
        r = sh(f'cd {DST} && lake build 2>&1')
        out = r.stdout
        errs = re.findall(r'error: (?:\./)?(Verif/\S+?\.lean):(\d+):\d+', out)
        names = []
        for path, ln in errs:
            n = enclosing(f'{DST}/{path}', int(ln))
            if n not in names: names.append(n)
        hit = closure_rev(deps, [n for n in names])
        ps = sorted({prop[t] for t in hit if t in prop})
        mod = sorted({e[0] for e in errs})
        dn = enclosing(p, orig[:orig.index(old)].count('\n') + 1)
        print(json.dumps({'file': f, 'tightened': tightened, 'def': dn, 'edit': f'{old!r} -> {new!r}', 'claim': claim,
                          'failed': names[:12], 'props': ps, 'modules': mod}), flush=True)
        if r.returncode == 0: print('   *** SURVIVED', flush=True)
        if log:
            with open('/verif/seeded/LOG.jsonl', 'a') as g:
                g.write(json.dumps({'definition': dn, 'file': 'lean/Verif/' + f,
                    'edit': f'{old} => {new}', 'breaks': claim,
                    'failed': names[:12],
                    'properties_depending_on_failed': ps,
                    'survived': r.returncode == 0,
                    'tightened': tightened}) + '\n')
        open(p, 'w').write(orig)
main()
