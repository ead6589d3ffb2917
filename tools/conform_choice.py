#!/usr/bin/env python3
"""Translate /repo/tests/test_emitters_choice.py into lean/Verif/Conform/Choice.lean.

The test file is read as text and parsed; nothing of the project is run.  Only the literal arguments
of the tests are evaluated.
"""
import ast, os
REPO = '/repo/tests/test_emitters_choice.py'
OUT = os.path.join(os.path.dirname(os.path.abspath(__file__)), '../lean/Verif/Conform/Choice.lean')
tree = ast.parse(open(REPO).read())
out, skipped = [], []

def lit(node):
    return eval(compile(ast.Expression(node), '', 'eval'), {'__builtins__': {'range': range, 'len': len}})

class Kind:
    """How the items of a test are written in Lean."""
    def __init__(self, items):
        items = list(items)
        if all(isinstance(i, bool) for i in items): self.ty, self.f = 'Bool', lambda v: str(v).lower()
        elif all(isinstance(i, int) for i in items): self.ty, self.f = 'Nat', str
        elif all(isinstance(i, str) and len(i) == 1 for i in items): self.ty, self.f = 'Char', lambda v: f"'{v}'"
        else: self.ty, self.f = 'String', lambda v: f'"{v}"'
    def lst(self, l):
        return '[' + ', '.join(self.f(v) for v in l) + ']'
    def items(self, l):
        if isinstance(l, range) and l.start == 0 and l.step == 1 and len(l) > 9: return f'(List.range {len(l)})'
        return f'({self.lst(l)} : List {self.ty})'

def weights(w):
    if w is None: return 'none'
    w = list(w)
    runs = []
    for x in w:
        if runs and runs[-1][0] == x: runs[-1][1] += 1
        else: runs.append([x, 1])
    if len(w) > 9: return '(some (' + ' ++ '.join(f'List.replicate {n} {x}' for x, n in runs) + '))'
    return '(some [' + ', '.join(str(x) for x in w) + '])'
def b(x): return str(bool(x)).lower()
def seed(s): return 'none' if s is None else f'(some {s})'
def wrap(text):
    line, lines = '', []
    for word in text.split(' '):
        if line and len(line) + 1 + len(word) > 96:
            lines.append(line); line = '    ' + word
        else: line = line + ' ' + word if line else word
    return '\n'.join(lines + [line])
def emit(comment, expr):
    if comment: out.append(f'/-! {comment} -/')
    out.append(wrap(f'example : {expr} = true := by decide~+kernel').replace('~', ' '))

ATTR = {'num_unique_values': 'values', 'num_unique_items': 'items', 'emits_unique_values': 'unique',
        'weights': 'weights', 'cum_weights': 'cumWeights', 'replace': 'replace',
        'replace_only_after_call': 'roac', 'rng_seed': 'seed'}
SET = {'weights': 'setWeights', 'cum_weights': 'setCumWeights', 'replace': 'setReplace',
       'replace_only_after_call': 'setRoac', 'rng_seed': 'setRngSeed'}
class Skip(Exception): pass
def is_ce(n): return isinstance(n, ast.Name) and n.id == 'ce'
def op(call):
    """A call on the emitter as a ChoiceOp."""
    if isinstance(call, ast.Call) and is_ce(call.func):
        return f'(.call {"none" if not call.args else "(some %d)" % lit(call.args[0])})'
    if isinstance(call, ast.Call) and isinstance(call.func, ast.Attribute) and is_ce(call.func.value):
        if call.func.attr == 'reset': return '.reset'
        if call.func.attr == 'seed': return f'(.seed (some {lit(call.args[0])}))'
    raise Skip
def assign(st):
    t = st.targets[0]
    if not (isinstance(t, ast.Attribute) and is_ce(t.value)): raise Skip
    if t.attr == 'rng':
        return f'.rng {lit(st.value.args[0])}'
    if t.attr not in SET: raise Skip
    v = lit(st.value)
    if t.attr in ('weights', 'cum_weights'): return f'.run (.{SET[t.attr]} {weights(v)})'
    if t.attr == 'rng_seed': return f'.run (.setRngSeed {seed(v)})'
    return f'.run (.{SET[t.attr]} {b(v)})'
def getter(n): return isinstance(n, ast.Attribute) and is_ce(n.value) and n.attr in ATTR
def step(st, k):
    if isinstance(st, ast.Expr): return f'.run {op(st.value)}'
    if isinstance(st, ast.Assign): return assign(st)
    if isinstance(st, ast.Assert):
        t = st.test
        if isinstance(t, ast.UnaryOp) and getter(t.operand): return f'.{ATTR[t.operand.attr]} false'
        if getter(t): return f'.{ATTR[t.attr]} true'
        if isinstance(t, ast.Compare):
            l, r = t.left, lit(t.comparators[0])
            if getter(l):
                if l.attr in ('weights', 'cum_weights'): return f'.{ATTR[l.attr]} {weights(r)}'
                return f'.{ATTR[l.attr]} {r}'
            if isinstance(l, ast.Call) and is_ce(l.func):
                n = lit(l.args[0])
                assert n == len(r)
                return f'.gives {k.lst(r)}'
    if isinstance(st, ast.With):
        e = st.items[0].context_expr.args[0].id
        if e != 'ValueError' or len(st.body) != 1: raise Skip
        return f'.raises {op(st.body[0].value)} .valueError'
    raise Skip
def params(fn):
    d = fn.decorator_list[0]
    return ''.join(lit(d.args[0])).replace(' ', '').split(','), d.args[1].elts
def ctor(call):
    kw = {x.arg: lit(x.value) for x in call.keywords}
    items = lit(call.args[0])
    k = Kind(items)
    assert set(kw) <= {'weights', 'cum_weights', 'replace', 'replace_only_after_call', 'rng_seed'}, kw
    return k, (f'choice {k.items(items)} {weights(kw.get("weights"))} {weights(kw.get("cum_weights"))} '
               f'{b(kw.get("replace", True))} {b(kw.get("replace_only_after_call", False))} '
               f'{seed(kw.get("rng_seed"))}')
def steps(l): return '[' + ', '.join(l) + ']'

for fn in tree.body:
    if not isinstance(fn, ast.FunctionDef): continue
    name, where = fn.name, f'`{fn.name}`, line {fn.lineno}'
    if name == 'test_choice':
        for i, row in enumerate(params(fn)[1]):
            sd, items, w, cw, repl, num, rep, exp = lit(row)
            k = Kind(items); after = repl == 'after_call'
            if rep and num is None: ss = [f'.ones {k.lst(exp)}']
            elif rep: ss = [f'.gives {k.lst(e)}' for e in exp]
            else: ss = [f'.gives {k.lst(exp)}']
            emit(where if i == 0 else '', f'choice {k.items(items)} {weights(w)} {weights(cw)} {b(repl or after)} {b(after)} {seed(sd)} {steps(ss)}')
    elif name == 'test_choice_uniqueness_properties':
        for i, row in enumerate(params(fn)[1]):
            k, c = ctor(row.elts[0])
            v, n, u, num, v2, n2, u2 = [lit(x) for x in row.elts[1:]]
            def three(v, n, u): return [f'.values {v}', f'.items {n}', f'.unique {b(u)}']
            emit(where if i == 0 else '', f'{c} {steps(three(v, n, u) + [f".run (.call (some {num}))"] + three(v2, n2, u2) + [".run .reset"] + three(v, n, u))}')
    elif name == 'test_choice_not_enough_unique_values':
        for i, row in enumerate(params(fn)[1]):
            items, repl, num, rep, _ = lit(row)
            k = Kind(items); after = repl == 'after_call'
            call = f'(.call {"none" if num is None else "(some %d)" % num})'
            # the error comes with the last call
            ss = [f'.run {call}'] * ((rep or 1) - 1) + [f'.raises {call} .valueError']
            emit(where if i == 0 else '', f'choice {k.items(items)} none none {b(repl or after)} {b(after)} none {steps(ss)}')
    elif name == 'test_choice_cannot_init_empty_items':
        emit(where, 'noChoice ([] : List Nat) none none .valueError')
    elif name == 'test_choice_cannot_init_weights_and_cumweights':
        emit(where, 'noChoice ["abc"] (some [10, 50, 40]) (some [10, 60, 100]) .typeError')
    elif name == 'test_choice_incorrect_weights':
        for i, row in enumerate(params(fn)[1]):
            items, bad, cum, _ = lit(row)
            w, c = ('none', weights(bad)) if cum else (weights(bad), 'none')
            emit(where if i == 0 else '', f'noChoice {Kind(items).items(items)} {w} {c} .valueError')
    elif name == 'test_choice_change_weights_to_incorrect_weights':
        for i, row in enumerate(params(fn)[1]):
            items, bad, cum = lit(row)
            good = weights([10] * len(items))
            w, c = ('none', good) if cum else (good, 'none')
            emit(where if i == 0 else '', f'choice {Kind(items).items(items)} {w} {c} true false none [.raises (.{"setCumWeights" if cum else "setWeights"} {weights(bad)}) .valueError]')
    elif name == 'test_chance':
        from fractions import Fraction
        for i, row in enumerate(params(fn)[1]):
            sd, p, exp = lit(row)
            q = Fraction(str(p))
            q = f'({q.numerator} / {q.denominator})' if q.denominator > 1 else f'({q.numerator})'
            k = Kind(exp)
            emit(where if i == 0 else '', f'chanceOf {q} {sd} {k.lst(exp)}')
    elif fn.decorator_list:
        skipped.append(name)
    else:
        try:
            st = fn.body[0]
            assert isinstance(st, ast.Assign) and is_ce(st.targets[0])
            k, c = ctor(st.value)
            emit(where, f'{c} {steps([step(x, k) for x in fn.body[1:]])}')
        except (Skip, AssertionError, NameError):
            skipped.append(name)
head = f'''import Verif.Conform.Basic
/-
The tests of `/repo/tests/test_emitters_choice.py`, run on the model. Made by
`tools/conform_choice.py` from the text of the tests.

Left out: {", ".join("`" + s + "`" for s in skipped)}
(attributes without setters, tuples, error messages, and those in `Conform/ChoiceRange`).
-/
namespace Fauxdoc
namespace Conform

/-- `chance(p, rng_seed=seed)`, then `assert em(n) == l`. -/
def chanceOf (p : ℚ) (seed : Int) (l : List Bool) : Bool :=
  match chance (R := pyRng) p (some seed) 0 with
  | (.ok s, e) => check [.gives l] (s, e)
  | (.error _, _) => false

'''
open(OUT, 'w').write(head + '\n'.join(out) + '\n\nend Conform\nend Fauxdoc\n')
print(len(out), 'lines;', 'skipped:', skipped)
