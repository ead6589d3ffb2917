#!/usr/bin/env python3
"""Write lean/Verif/Conform/Classes.lean: method resolution orders as CPython computes them, for the
bases of the library's classes (with stand-ins of the same names) and for random hierarchies."""
import random
from abc import ABC
from typing import Generic, TypeVar
T = TypeVar('T')
LIB = [('Emitter', 'Generic[T], ABC'), ('RandomMixin', ''), ('ItemsMixin', 'Generic[T]'), ('ChildrenMixin', ''),
       ('RandomWithChildrenMixin', 'RandomMixin, ChildrenMixin'),
       ('Choice', 'RandomMixin, ItemsMixin[T], Emitter[T]'), ('Static', 'ItemsMixin[T], Emitter[T]'),
       ('Iterative', 'Emitter[T]'), ('Sequential', 'ItemsMixin[T], Emitter[T]'),
       ('Word', 'RandomWithChildrenMixin, Emitter[str]'), ('Text', 'RandomWithChildrenMixin, Emitter[str]'),
       ('_deprecated_Wrap', 'Generic[T], RandomWithChildrenMixin, Emitter[T]'),
       ('WrapOne', 'Generic[T], RandomWithChildrenMixin, Emitter[T]'),
       ('WrapMany', 'Generic[T], RandomWithChildrenMixin, Emitter[T]'),
       ('CopyFields', 'Generic[T], Emitter[T]'), ('BasedOnFields', 'Generic[T], RandomMixin, Emitter[T]'),
       ('Field', 'RandomWithChildrenMixin, Generic[T]')]
env = {'Generic': Generic, 'ABC': ABC, 'T': T}
for n, b in LIB:
    exec(f'class {n}({b}): pass', env)
def names(c): return [k.__name__ for k in c.__mro__]
def lst(l): return '[' + ', '.join(f'"{x}"' for x in l) + ']'
out = ['''import Verif.Model.Classes
import Verif.Conform.Basic
/-
Generated by tools/conform_classes.py: method resolution orders of CPython.
-/
namespace Fauxdoc.Conform
open Fauxdoc.Cls

/-- The order of the last class of a hierarchy, or the error of a class statement. -/
def lastMro (env : Classes) (classes : List (Name × List Name)) : Except Err (List Name) :=
  match defineAll env classes with
  | .error e => .error e
  | .ok env =>
    match env with
    | [] => .ok []
    | (_, l) :: _ => .ok l

/-- The orders of all classes, the latest first. -/
def allMros (classes : List (Name × List Name)) : Except Err (List (List Name)) :=
  match defineAll builtins classes with
  | .error e => .error e
  | .ok env => .ok (env.map Prod.snd)
''']
allm = [names(env[n]) for n, _ in reversed(LIB)]
# stand-ins for Generic and ABC come first
allm += [['ABC', 'object'], ['Generic', 'object'], ['object']]
out.append('example : allMros library = .ok [\n  ' + ',\n  '.join(lst(l) for l in allm) + '] := by decide +kernel\n')
rng = random.Random(20261117)
n = fails = 0
while n < 60:
    k = rng.randint(3, 8)
    cls = {'object': object}; stmts = []; res = None
    for i in range(k):
        name = chr(65 + i)
        pool = [x for x in cls if x != 'object'] or ['object']
        m = min(len(pool), rng.choice([1, 1, 2, 2, 3]))
        bases = rng.sample(pool, m)
        stmts.append((name, bases))
        try:
            cls[name] = type(name, tuple(cls[b] for b in bases), {})
            res = '.ok ' + lst(names(cls[name]))
        except TypeError:
            res = '.error .typeError'
            break
    if '.error' in res:
        if fails >= 20: continue
        fails += 1
    elif max(len(b) for _, b in stmts) < 2: continue
    n += 1
    out.append(f'example : lastMro builtins [{", ".join(f"({chr(34)}{a}{chr(34)}, {lst(b)})" for a, b in stmts)}] =\n    {res} := by decide +kernel\n')
out.append('end Fauxdoc.Conform\n')
open('/verif/lean/Verif/Conform/Classes.lean', 'w').write('\n'.join(out))
print(n, fails)
