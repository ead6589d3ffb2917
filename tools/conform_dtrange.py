#!/usr/bin/env python3
"""Translate /repo/tests/test_dtrange.py, the parts of test_emitters_choice.py about dates, and
test_mathtools.py into lean/Verif/Conform/{DtRange,ChoiceRange,MathTools}.lean.

The test files are read as text and parsed; nothing of the project is run.  Only the literal
arguments of the tests (with the types of the `datetime` module) are evaluated.
"""
import ast, os, datetime as D
from datetime import date, time, datetime, timedelta
TESTS = '/repo/tests/'
OUT = os.path.join(os.path.dirname(os.path.abspath(__file__)), '../lean/Verif/Conform/')
class dtrange:
    @staticmethod
    def DateOrTimeRange(*a): return a
ENV = {'__builtins__': {'range': range, 'slice': slice}, 'date': date, 'time': time,
       'datetime': datetime, 'timedelta': timedelta, 'dtrange': dtrange, 'ord': ord, 'list': list}
def load(name):
    tree = ast.parse(open(TESTS + name).read())
    res = {}
    for fn in tree.body:
        if isinstance(fn, ast.FunctionDef) and fn.decorator_list:
            d = fn.decorator_list[0]
            if isinstance(d, ast.Call) and len(d.args) == 2:
                try: res[fn.name] = (fn.lineno, [eval(compile(ast.Expression(r), '', 'eval'), ENV) for r in d.args[1].elts])
                except NameError: pass
    return res
def us(td): return td // timedelta(microseconds=1)
def tus(t): return us(timedelta(hours=t.hour, minutes=t.minute, seconds=t.second, microseconds=t.microsecond))
def i(n): return f'({n})' if n < 0 else str(n)
def oi(n): return 'none' if n is None else f'(some {i(n)})'
def dt(v):
    if isinstance(v, datetime): return f'(.datetime {v.toordinal() * 86400000000 + tus(v.time())})'
    if isinstance(v, date): return f'(.date {v.toordinal()})'
    return f'(.time {tus(v)})'
def dts(l): return '[' + ', '.join(dt(v) for v in l) + ']'
def start(v): return f'(.dt {dt(v)})' if isinstance(v, (date, time)) else '.other'
def length(v): return f'(.int {i(v)})' if isinstance(v, int) else '(.raises .valueError)'
def stepa(v): return f'(.td {i(us(v))})' if isinstance(v, timedelta) else '.other'
def b(x): return str(bool(x)).lower()
def rng(s, n, d): return f'{dt(s)} {i(n)} {i(us(d))}'
def q(x): return str(x)
out = []
def wrap(text):
    line, lines = '', []
    for word in text.split(' '):
        if line and len(line) + 1 + len(word) > 96: lines.append(line); line = '    ' + word
        else: line = line + ' ' + word if line else word
    return '\n'.join(lines + [line]).replace('~', ' ')
def emit(expr): out.append(wrap(f'example : {expr} = true := by decide~+kernel'))
def head(name, line): out.append(f'/-! `{name}`, line {line} -/')

# --- dtrange
T = load('test_dtrange.py')
strings = set()
def user(v):
    if isinstance(v, (date, time)): return f'(.dt {dt(v)})'
    if isinstance(v, str): strings.add(v); return f'(.str "{v}")'
    return '.other'
for name, (line, rows) in T.items():
    short = name[5:]
    body = []
    mark = len(out)
    if short == 'dateortimerange_validation':
        for s, n, d, e in rows: emit(f'validates {start(s)} {length(n)} {stepa(d)} {b(e is None)}')
    elif short == 'dateortimerange_stop_value_is_correct':
        for s, n, d, e in rows: emit(f'stops {rng(s, n, d)} {dt(e)}')
    elif short == 'dateortimerange_items_as_list':
        for s, n, d, e in rows: emit(f'lists {rng(s, n, d)} {dts(e)}')
    elif short == 'dateortimerange_getitem_by_index':
        for s, n, d, x, e in rows:
            if isinstance(x, slice): emit(f'slices {rng(s, n, d)} ⟨{oi(x.start)}, {oi(x.stop)}, {oi(x.step)}⟩ {dts(e)}')
            elif e is None: emit(f'noItem {rng(s, n, d)} {i(x)}')
            else: emit(f'item {rng(s, n, d)} {i(x)} {dt(e)}')
    elif short == 'dateortimerange_equality_and_hash':
        for x, y, e in rows: emit(f'equals {rng(*x)} {rng(*y)} {b(e)}')
    elif short == 'dateortimerange_find_index_by_item':
        for s, n, d, v, e in rows: emit(f'finds {rng(s, n, d)} {dt(v)} {oi(e)}')
    elif short == 'dtrange_validation':
        for a, z, n, u, e in rows: emit(f'noRange {user(a)} {user(z)} {i(n)} (some "{u}")')
    elif short == 'dtrange_return_value':
        for a, z, n, u, e in rows:
            u = 'none' if u is None else f'(some "{u}")'
            emit(f'ranges {user(a)} {user(z)} {i(n)} {u} {dts(e)}')
    elif short == 'dtrange_start_equals_stop':
        for a, z, n, u, e in rows:
            u = 'none' if u is None else f'(some "{u}")'
            emit(f'hasLength {user(a)} {user(z)} {i(n)} {u} {e}')
    if len(out) > mark: out.insert(mark, f'/-! `{name}`, line {line} -/')
def parse(ty, s):
    try: return ty.fromisoformat(s)
    except ValueError: return None
def table(ty, num):
    rows = [(s, parse(ty, s)) for s in sorted(strings)]
    return '\n'.join(f'    | "{s}" => some {num(v)}' for s, v in rows if v is not None)
text = f'''import Verif.Conform.Basic
import Verif.Model.DtRangeObj
/-
The tests of `/repo/tests/test_dtrange.py`, run on the model. Made by `tools/conform_dtrange.py`
from the text of the tests. Left out: `test_dateortimerange_string_representation` (in
`Conform/DtRepr`) and error messages.
-/
namespace Fauxdoc
namespace Conform

/-- Whether `DateOrTimeRange(start, length, step)` is accepted, with the given attributes. -/
def validates (start : StartArg) (length : LengthArg) (step : StepArg) (ok : Bool) : Bool :=
  match DTObj.init start length step DTObj.blank with
  | (.ok _, o) =>
    ok && (match start, length, step with
      | .dt v, .int n, .td d =>
        decide (o.start = some v) && decide (o.length = some n) && decide (o.step = some d)
      | _, _, _ => false)
  | (.error e, _) => !ok && decide (e = .valueError)

/-- `DateOrTimeRange(start, length, step)`, then something that has to be true. -/
def withRange (start : DT) (length step : Int) (f : DTR → Bool) : Bool :=
  match DTR.mk' start length step with
  | .ok r => f r
  | .error _ => false

def stops (start : DT) (length step : Int) (v : DT) : Bool :=
  withRange start length step fun r => is r.stop v

def lists (start : DT) (length step : Int) (l : List DT) : Bool :=
  withRange start length step fun r => is r.toList l

def item (start : DT) (length step : Int) (i : Int) (v : DT) : Bool :=
  withRange start length step fun r => is (r.getItem i) v

def noItem (start : DT) (length step : Int) (i : Int) : Bool :=
  withRange start length step fun r => fails (r.getItem i) .indexError

def slices (start : DT) (length step : Int) (s : PySlice) (l : List DT) : Bool :=
  withRange start length step fun r => is (r.getSlice s >>= DTR.toList) l

/-- `==` of the ranges, of their lists and of what is hashed. -/
def equals (start : DT) (length step : Int) (start' : DT) (length' step' : Int) (b : Bool) : Bool :=
  withRange start length step fun r => withRange start' length' step' fun r' =>
    is (r.eq r') b
      && is (do return decide ((← r.toList) = (← r'.toList))) b
      && is (do return decide ((← r.hashKey) = (← r'.hashKey))) b

/-- `index`, `in` and `count`. -/
def finds (start : DT) (length step : Int) (v : DT) (n : Option Int) : Bool :=
  withRange start length step fun r =>
    (match n with
      | some i => is (r.index v none none) i
      | none => fails (r.index v none none) .valueError)
    && is (r.contains v) n.isSome
    && is (r.count v) (if n.isSome then 1 else 0)

/-- What `fromisoformat` makes of the texts in the tests. -/
def testIso : IsoParsers where
  date s := match s with
{table(date, lambda v: v.toordinal())}
    | _ => none
  time s := match s with
{table(time, tus)}
    | _ => none
  datetime s := match s with
{table(datetime, lambda v: v.toordinal() * 86400000000 + tus(v.time()))}
    | _ => none

def noRange (start stop : UserDate) (step : Int) (unit : Option String) : Bool :=
  fails (dtrange testIso start stop step unit) .valueError

def ranges (start stop : UserDate) (step : Int) (unit : Option String) (l : List DT) : Bool :=
  is (dtrange testIso start stop step unit >>= DTR.toList) l

def hasLength (start stop : UserDate) (step : Int) (unit : Option String) (n : Int) : Bool :=
  is (dtrange testIso start stop step unit >>= DTR.len) n

'''
open(OUT + 'DtRange.lean', 'w').write(text + '\n'.join(out) + '\n\nend Conform\nend Fauxdoc\n')
print('DtRange', len(out))

# --- choices from ranges
out = []
import re
src = open(TESTS + 'test_emitters_choice.py').read()
ENV['datetime'] = D
T = load('test_emitters_choice.py')
def wts(w):
    if w is None: return 'none'
    runs = []
    for x in w:
        if runs and runs[-1][0] == x: runs[-1][1] += 1
        else: runs.append([x, 1])
    return '(some (' + ' ++ '.join(f'List.replicate {n} {x}' for x, n in runs) + '))'
def opt(u): return 'none' if u is None else f'(some "{u}")'
left = []
for name, ty in (('test_choice_dates', date), ('test_choice_times', time), ('test_choice_datetimes', datetime)):
    line, rows = T[name]
    head(name, line)
    for k, row in enumerate(rows):
        if ty is date: sd, mn, mx, w, e = row; st, u = 1, None
        else: sd, mn, mx, st, u, w, e = row
        mn, mx = ty(*mn), ty(*mx)
        f = lambda v: v if isinstance(v, datetime) else (datetime.combine(v, time()) if isinstance(v, date) else datetime.combine(date(2000, 1, 1), v))
        span = f(mx) - f(mn)
        if ty is time and mn == mx: span = timedelta(days=1)
        n = span / timedelta(**{u or 'days': st})
        if n > 2000: left.append(f'`{name}` {k}'); continue
        emit(f'picks {dt(mn)} {dt(mx)} {st} {opt(u)} {wts(w)} {sd} {dts([ty(*x) for x in e])}')
text = f'''import Verif.Conform.DtRange
import Verif.Model.Choice
/-
The tests of `/repo/tests/test_emitters_choice.py` that choose dates and times, run on the model.
Made by `tools/conform_dtrange.py` from the text of the tests. Left out, because the ranges are
long: {", ".join(left)}.
-/
namespace Fauxdoc
namespace Conform

instance : PyHash DT := ⟨fun _ => true⟩

/-- `Choice(dtrange(start, stop, step, unit), weights=weights, rng_seed=seed)`, then
`assert em(n) == l`. -/
def picks (start stop : DT) (step : Int) (unit : Option String) (weights : Option (List ℚ))
    (seed : Int) (l : List DT) : Bool :=
  match dtrange testIso (.dt start) (.dt stop) step unit >>= DTR.toList with
  | .ok items => choice items weights none true false (some seed) [.gives l]
  | .error _ => false

'''
open(OUT + 'ChoiceRange.lean', 'w').write(text + '\n'.join(out) + '\n\nend Conform\nend Fauxdoc\n')
print('ChoiceRange', len(out), left)

# --- mathtools
out = []
T = load('test_mathtools.py')
line, rows = T['test_clamp']
head('test_clamp', line)
for n, mn, mx, e in rows:
    out.append(f'example : clamp ({n} : ℚ) {oi(mn)} {oi(mx)} = {e} := by decide +kernel')
line, rows = T['test_weighted_shuffle']
head('test_weighted_shuffle', line)
for sd, items, w, k, e in rows:
    items = list(items)
    e = [[items.index(x) for x in r] for r in e]
    emit(f'shuffles {len(items)} {wts(w)[6:-1]} {sd} {oi(k)} [' + ', '.join('[' + ', '.join(map(str, r)) + ']' for r in e) + ']')
line, rows = T['test_weighted_shuffle_raises_error_mismatched_weights']
head('test_weighted_shuffle_raises_error_mismatched_weights', line)
for items, w in rows:
    emit(f'fails (weightedShuffle pyRng {len(items)} {w} none (Twister.ofSeed 0)).1 .valueError')
text = '''import Verif.Conform.Basic
import Verif.Model.MathTools
/-
The tests of `/repo/tests/test_mathtools.py` of `clamp` and `weighted_shuffle`, run on the model.
Made by `tools/conform_dtrange.py` from the text of the tests. Left out: `poisson` and `gaussian`,
which the model has over the reals, and error messages.
-/
namespace Fauxdoc
namespace Conform

/-- Whether the next shuffles give these positions. -/
def shufflesFrom (nitems : Nat) (ws : List ℚ) (k : Option Int) : List (List Nat) → Twister.G → Bool
  | [], _ => true
  | l :: ls, g =>
    match weightedShuffle pyRng nitems ws k g with
    | (.ok l', g') => decide (l' = l) && shufflesFrom nitems ws k ls g'
    | (.error _, _) => false

def shuffles (nitems : Nat) (ws : List ℚ) (seed : Int) (k : Option Int) (l : List (List Nat)) :
    Bool :=
  shufflesFrom nitems ws k l (Twister.ofSeed seed)

'''
open(OUT + 'MathTools.lean', 'w').write(text + '\n'.join(out) + '\n\nend Conform\nend Fauxdoc\n')
print('MathTools', len(out))
