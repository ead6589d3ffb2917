#!/usr/bin/env python3
"""Apply small syntactic changes to the model definitions, one at a time, in a scratch copy.

usage: automutate.py SEED COUNT [FILE...]   (prints one JSON object per change that compiles)
Changes that are in the log already are left out.  Changes that make a model file fail to compile are not wrong programs and are dropped.
"""
import json, os, random, re, sys
sys.argv, argv = ['mutate', '/dev/null'], sys.argv
here = os.path.dirname(os.path.abspath(__file__))
src = open(f'{here}/mutate.py').read().rsplit('main()', 1)[0]
exec(src)
OPS = [(r' ≤ ', ' < '), (r' < ', ' ≤ '), (r' ≠ ', ' = '), (r'(?<=if ).*? = ', None), (r' \+ ', ' - '),
       (r' - ', ' + '), (r' \* ', ' + '), (r' ∧ ', ' ∨ '), (r' && ', ' || '), (r' \|\| ', ' && '),
       (r'\btrue\b', 'false'), (r'\bfalse\b', 'true'), (r'(?<= )0\b(?!\.)', '1'), (r'(?<= )1\b(?!\.)', '0'),
       (r'\.valueError', '.typeError'), (r'\.typeError', '.valueError'),
       (r'\.attributeError', '.valueError'), (r'\.indexError', '.valueError'),
       (r'\.overflow\b', '.valueError'), (r'!(?=[a-z(])', ''), (r'\bif (?!let)', 'if ¬ '),
       (r'\.none\b', '.int 0'), (r'\bnone\b', 'some default'), (r'\breset\b', 'pure'),
       (r'length', 'length.succ'), (r'\btake\b', 'drop'), (r'\bdrop\b', 'take'),
       (r'\.sum\b', '.length'), (r'\bmap\b', 'reverse.map')]
def code_lines(text):
    """Character offsets of lines that are code, not comments or headers."""
    off, inc = 0, False
    for line in text.split('\n'):
        s = line.strip()
        if '/-' in s: inc = True
        code = not inc and s and not s.startswith(('import', 'variable', 'namespace', 'end', 'open',
            'deriving', 'structure', 'instance', 'inductive', '--', 'set_option'))
        if code: yield off, line
        if '-/' in s: inc = False
        off += len(line) + 1
def mutants(f):
    text = open(f'{SRC}/Verif/{f}').read()
    lines = list(code_lines(text))
    for k, (off, line) in enumerate(lines):
        if re.match(r'\s*(def|theorem|abbrev)\b', line): line0 = line.rfind(':=')
        else: line0 = 0
        if line0 < 0: continue
        for pat, new in OPS:
            for m in re.finditer(pat, line):
                if m.start() < line0: continue
                if new is None:
                    a = m.end() - 3; yield f, off + a, 3, ' ≠ '
                else: yield f, off + m.start(), len(m.group()), new
        # drop a statement
        ind = len(line) - len(line.lstrip())
        if re.match(r'\s+(?!let|match|if|else|\||return|do|fun|pure|def)[a-zA-Z(]', line) and k + 1 < len(lines):
            nxt = lines[k + 1][1]
            if len(nxt) - len(nxt.lstrip()) == ind and ' := ' not in line and not nxt.strip().startswith('|'):
                yield f, off, len(line) + 1, ''
def build():
    """Build everything, but stop at the first module with an error."""
    p = subprocess.Popen(f'cd {DST} && exec nice lake build 2>&1', shell=True, stdout=subprocess.PIPE,
        text=True, start_new_session=True)
    out, bad = '', False
    for line in p.stdout:
        if bad and not line.startswith(('error: ', ' ', '\n')) and re.match(r'[✔✖⚠ℹ]', line): break
        out += line
        bad = bad or bool(re.match(r'error: (?:\./)?Verif/', line))
    if bad:
        try: os.killpg(p.pid, 9)
        except ProcessLookupError: pass
    return p.wait(), out
def auto():
    seed, count = int(argv[1]), int(argv[2])
    files = argv[3:] or ['Model/' + x for x in sorted(os.listdir(f'{SRC}/Verif/Model')) if x.endswith('.lean')]
    ms = [m for f in files for m in mutants(f)]
    random.Random(seed).shuffle(ms)
    sh(f'mkdir -p {DST} && rsync -a --delete {SRC}/ {DST}/ || (rm -rf {DST} && cp -a {SRC} {DST})')
    sh(f'cd {SRC} && lake env lean ../tools/deps.lean.txt > {DEPS}')
    deps = load_deps()
    claims = json.load(open('/verif/MANIFEST.json'))['claims']
    prop = {t: c['property'] for c in claims for t in c['theorems']}
    print('#', len(ms), 'candidates', flush=True)
    tried = {(j['definition'], j['edit']) for j in map(json.loads, open('/verif/seeded/LOG.jsonl'))}
    done = 0
    for f, a, n, new in ms:
        if done >= count: break
        p = f'{DST}/Verif/{f}'
        orig = open(p).read()
        mut = orig[:a] + new + orig[a + n:]
        ln = orig[:a].count('\n')
        l0, l1 = orig.split('\n')[ln], mut.split('\n')[ln]
        dn = enclosing(p, ln + 1)
        edit = f'{l0.strip()!r} -> {l1.strip() if n <= len(l0) else ""!r}'
        if (dn, edit) in tried: continue
        open(p, 'w').write(mut)
        try:
            if sh(f'cd {DST} && lake env lean Verif/{f}').returncode != 0: continue
            code, out = build()
            errs = re.findall(r'error: (?:\./)?(Verif/\S+?\.lean):(\d+):\d+', out)
            if errs and all(e[0].startswith('Verif/Model/') for e in errs): continue
            names = []
            for path, l in errs:
                nm = enclosing(f'{DST}/{path}', int(l))
                if nm not in names: names.append(nm)
            hit = closure_rev(deps, names)
            print(json.dumps({'file': f, 'tightened': [], 'def': dn, 'edit': edit, 'claim': 'syntactic change',
                'failed': names[:12], 'props': sorted({prop[t] for t in hit if t in prop}),
                'modules': sorted({e[0] for e in errs})}), flush=True)
            if code == 0: print('   *** SURVIVED', flush=True)
            done += 1
        finally: open(p, 'w').write(orig)
auto()
