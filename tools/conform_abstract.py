#!/usr/bin/env python3
"""Write lean/Verif/Conform/Abstract.lean: `__abstractmethods__` as CPython computes it, for random
hierarchies of classes with abstract and other methods."""
import random
from abc import ABC, abstractmethod
def lst(l): return '[' + ', '.join(f'"{x}"' for x in l) + ']'
out = ['''import Verif.Model.Abstract
import Verif.Conform.Basic
/-
Generated by tools/conform_abstract.py: abstract methods of classes in CPython.
-/
namespace Fauxdoc.Conform
open Fauxdoc.Cls

/-- Which of the methods `f`, `g` are abstract in each class, for a hierarchy over `ABC`. -/
def abstractIn (classes : List (Name × List Name × List (String × Bool))) : Except Err (List (List Bool)) :=
  let stmts := ("ABC", ["object"]) :: classes.map fun c => (c.1, c.2.1)
  match defineAll builtins stmts with
  | .error e => .error e
  | .ok env =>
    let ms : Methods := fun c => ((classes.find? (·.1 = c)).map (·.2.2)).getD []
    let t := collectAll ms env [] stmts
    .ok (classes.map fun c => ["f", "g"].map fun n => decide (n ∈ t.of c.1))
''']
rng = random.Random(122)
n = 0
while n < 60:
    k = rng.randint(3, 7)
    cls = {'ABC': ABC, 'object': object}; stmts = []; res = []
    try:
        for i in range(k):
            name = chr(65 + i)
            pool = [x for x in cls if x not in ('object', 'ABC')]
            bases = rng.sample(pool, min(len(pool), rng.choice([1, 1, 2, 2])))
            if not bases or rng.random() < .3:
                bases = [b for b in bases if rng.random() < .6]
                bases = bases + ['ABC'] if rng.random() < .7 else (bases or ['object'])
            ms = []
            for m in 'fg':
                r = rng.random()
                if r < .3: ms.append((m, True))
                elif r < .55: ms.append((m, False))
            ns = {m: (abstractmethod(lambda s: 0) if a else (lambda s: 0)) for m, a in ms}
            if any(b in ('ABC',) or issubclass(cls[b], ABC) for b in bases):
                c = type(ABC)(name, tuple(cls[b] for b in bases), ns)
            else:
                c = type(name, tuple(cls[b] for b in bases), ns)
            cls[name] = c
            stmts.append((name, bases, ms))
            am = getattr(c, '__abstractmethods__', frozenset())
            res.append([m in am for m in 'fg'])
            try:
                c(); ok = True
            except TypeError:
                ok = False
            assert ok == (not am)
    except TypeError:
        continue
    if not any(any(r) for r in res): continue
    n += 1
    q = '"'
    st = ', '.join(f'({q}{a}{q}, {lst(b)}, [{", ".join(f"({q}{m}{q}, {str(x).lower()})" for m, x in ms)}])' for a, b, ms in stmts)
    out.append(f'example : abstractIn [{st}] =\n    .ok [{", ".join("[" + ", ".join(str(x).lower() for x in r) + "]" for r in res)}] := by decide +kernel\n')
out.append('end Fauxdoc.Conform\n')
open('/verif/lean/Verif/Conform/Abstract.lean', 'w').write('\n'.join(out))
print(n)
