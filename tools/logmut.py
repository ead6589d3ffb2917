#!/usr/bin/env python3
"""Append the results printed by mutate.py to seeded/LOG.jsonl."""
import json, sys
surv = None
out = []
for l in open(sys.argv[1]):
    if l.startswith('{'):
        d = json.loads(l)
        out.append({'definition': d['def'], 'edit': d['edit'], 'breaks': d['claim'],
                    'failed': d['failed'], 'properties_depending_on_failed': d['props'],
                    'survived': False, 'tightened': d.get('tightened', [])})
    elif 'SURVIVED' in l:
        out[-1]['survived'] = True
with open('/verif/seeded/LOG.jsonl', 'a') as f:
    for d in out: f.write(json.dumps(d, ensure_ascii=False) + '\n')
print(len(out), 'entries;', sum(d['survived'] for d in out), 'survived')
