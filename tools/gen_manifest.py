#!/usr/bin/env python3
"""Regenerates /verif/MANIFEST.json; checks that every theorem named exists in the sources."""
import json, os, re, glob
here = os.path.dirname(os.path.abspath(__file__))
C = {}
def c(pid, status, theorems, note):
    C[pid] = dict(property=pid, status=status, theorems=['Fauxdoc.' + t for t in theorems.split()], note=note)
exec(open(os.path.join(here, 'claims.py')).read())
src = ''
for f in glob.glob(os.path.join(here, '../lean/Verif/**/*.lean'), recursive=True): src += open(f).read()
short = lambda t: t.split(".")[-1]
names = set(re.findall(r'^(?:private |protected )?theorem\s+([^\s:({\[]+)', src, re.M))
for v in C.values():
    for t in v['theorems']:
        if short(t) not in names: print('MISSING theorem', v['property'], t)
props = [json.loads(l)['id'] for l in open(os.path.join(here, '../properties.jsonl'))]
for p in props:
    if p not in C: print('no claim for', p)
json.dump({'claims': [C[p] for p in props if p in C]}, open(os.path.join(here, '../MANIFEST.json'), 'w'), indent=1)
print(len(C), 'claims of', len(props))
