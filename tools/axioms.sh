#!/bin/sh
# Print the axioms of every theorem named in MANIFEST.json (run after `lake build`).
cd "$(dirname "$0")/../lean" || exit 1
python3 - > /tmp/axioms_check.lean <<'P'
import json
print('import Verif')
for c in json.load(open('../MANIFEST.json'))['claims']:
    for t in c['theorems']:
        print('#print axioms', t)
P
lake env lean /tmp/axioms_check.lean | grep -o 'depends on axioms.*\|does not depend.*' | sort | uniq -c
