#!/usr/bin/env python3
"""Compare the model of `str` and `fromisoformat` with the `datetime` module of this Python.

Writes lean/Verif/Conform/Datetime.lean.  Python from 3.11 on reads more forms than the model (which
has those of 3.7 to 3.10), so texts that only Python reads are left out.
"""
import os, random
from datetime import date, time, datetime, timedelta
OUT = os.path.join(os.path.dirname(os.path.abspath(__file__)), '../lean/Verif/Conform/Datetime.lean')
R = random.Random(5)
def us(td): return td // timedelta(microseconds=1)
def tus(t): return us(timedelta(hours=t.hour, minutes=t.minute, seconds=t.second, microseconds=t.microsecond))
def dt(v):
    if isinstance(v, datetime): return f'.datetime {v.toordinal() * 86400000000 + tus(v.time())}'
    if isinstance(v, date): return f'.date {v.toordinal()}'
    return f'.time {tus(v)}'
def rdate():
    return date.fromordinal(R.choice([R.randint(1, 3652059), R.randint(700000, 740000)]))
def rtime():
    return time(R.randrange(24), R.randrange(60), R.choice([0, R.randrange(60)]), R.choice([0, 0, 5, 1000, R.randrange(10**6)]))
vals = [date(1, 1, 1), date(9999, 12, 31), date(2000, 2, 29), date(1900, 2, 28), date(1900, 3, 1), date(2024, 12, 31), date(2025, 1, 1), time(0), time(23, 59, 59, 999999), datetime.min, datetime.max]
vals += [rdate() for _ in range(25)] + [rtime() for _ in range(15)] + [datetime.combine(rdate(), rtime()) for _ in range(15)]
tds = [timedelta(0), timedelta.min, timedelta.max, timedelta(-1), timedelta(1), timedelta(2), timedelta(-2), timedelta(microseconds=-1), timedelta(hours=10), timedelta(days=1, hours=1)]
tds += [timedelta(R.randint(-3, 3), R.randrange(86400), R.choice([0, R.randrange(10**6)])) for _ in range(15)]
def read(s):
    for t in (date, time, datetime):
        try: return t.fromisoformat(s)
        except ValueError: pass
texts = [str(v) for v in vals[:20]]
def spoil(s):
    k = R.randrange(len(s) + 1)
    return R.choice([s[:k] + s[k + 1:], s[:k] + R.choice('0123456789-:. T') + s[k:], s[:k] + R.choice('0123456789-:. T') + s[k + 1:]])
forms = ['%H', '%H:%M', '%H:%M:%S', '%Y-%m-%d', '%Y-%m-%dT%H', '%Y-%m-%d %H:%M', '%Y-%m-%d_%H:%M:%S']
base = [datetime.combine(rdate().replace(year=R.randint(1000, 9999), day=R.randint(1, 28)), rtime()).strftime(R.choice(forms)) for _ in range(40)]
base += [datetime.combine(date(2016, 1, 5), rtime()).isoformat(sep='T', timespec=R.choice(['milliseconds', 'microseconds', 'minutes'])) for _ in range(10)]
texts += base
good = [(s, read(s)) for s in texts]
assert all(v is not None for s, v in good)
bad = []
for s in [spoil(b) for b in base * 6] + ['', '-', '24:00', '12:60', '12:00:60', '2015-02-29', '0000-01-01', '2016-13-01', '2016-00-01', '2016-04-31', '2016-04-00', '10:', '10:1', '1 day + 00:00:00']:
    if s not in bad and read(s) is None: bad.append(s)
bad = bad[-70:]
q = lambda s: '"' + s + '"'
lines = ['import Verif.Conform.Basic', 'import Verif.Model.DtIso', '/-', 'The model of `str` and `fromisoformat` against the `datetime` module of CPython 3.11.10.  Written by', '`tools/conform_datetime.py`.', '-/', 'namespace Fauxdoc', 'namespace Conform', '', '/-- Values and their texts. -/', 'def printedValues : List (DT × String) := [']
lines.append(',\n'.join(f'  ({dt(v)}, {q(str(v))})' for v in vals) + ']')
lines += ['', '/-- Timedeltas and their texts. -/', 'def printedSteps : List (Int × String) := [', ',\n'.join(f'  ({us(t)}, {q(str(t))})' for t in tds) + ']']
lines += ['', '/-- Texts and the values they are read as. -/', 'def readTexts : List (String × DT) := [', ',\n'.join(f'  ({q(s)}, {dt(v)})' for s, v in good) + ']']
lines += ['', '/-- Texts that are refused. -/', 'def refusedTexts : List String := [', ',\n'.join('  ' + q(s) for s in bad) + ']']
lines += ['', 'example : printedValues.all (fun p => p.1.str == p.2.toList) = true := by decide +kernel',
  'example : printedSteps.all (fun p => strTd p.1 == p.2.toList) = true := by decide +kernel',
  'example : readTexts.all (fun p => is (parseUserDate isoReaders (.str p.1)) p.2) = true := by decide +kernel',
  'example : refusedTexts.all (fun s => parseUserDate isoReaders (.str s) == .error .valueError) = true := by', '  decide +kernel', '', 'end Conform', 'end Fauxdoc', '']
open(OUT, 'w').write('\n'.join(lines))
# Float steps.
from fractions import Fraction
OUT2 = os.path.join(os.path.dirname(OUT), 'FloatStep.lean')
UNITS = ['weeks', 'days', 'hours', 'minutes', 'seconds', 'milliseconds', 'microseconds']
K = {u: us(timedelta(**{u: 1})) for u in UNITS}
steps = []
for u in UNITS:
    xs = [0.5, 0.1, -0.1, 1 / 3, -2.5, 1.5, 2.0, 1e-9, 1e-7 * 3, 12345.6789, R.random(), -R.random() * 100, R.randint(-9, 9) + 0.5, R.randrange(10**6) / 10**6]
    if u == 'microseconds': xs += [2.5, 3.5, -3.5, 0.5, -0.5, 1234567.5]
    if u == 'milliseconds': xs += [0.0005, 0.0015, 2.0025, 1.0005]
    steps += [(u, x, us(timedelta(**{u: x}))) for x in xs]
while True:
    x = R.random()
    m = us(timedelta(weeks=x))
    if abs(m - Fraction(x) * K['weeks']) > Fraction(1, 2): break
steps.append(('weeks', x, m))
def q2(x):
    n, d = x.as_integer_ratio()
    return f'({n} : ℚ) / {d}'
lines = ['import Verif.Conform.Basic', 'import Verif.Model.DtStep', 'import Verif.Proofs.Double', '/-', 'The model of `timedelta(**{unit: step})` for float steps against CPython 3.11.10.  Written by', '`tools/conform_datetime.py`.  The last sample is rounded to the farther of two microseconds.', '-/', 'namespace Fauxdoc', 'namespace Conform', '', '/-- Unit, step and the microseconds of the timedelta. -/', 'def floatSteps : List (String × ℚ × Int) := [']
lines.append(',\n'.join(f'  ("{u}", {q2(x)}, {m})' for u, x, m in steps) + ']')
lines += ['', 'example : floatSteps.all (fun s => stepTdF (rounding ℚ) s.1 (.fin s.2.1) == .ok s.2.2) = true := by', '  decide +kernel', '', 'end Conform', 'end Fauxdoc', '']
open(OUT2, 'w').write('\n'.join(lines))
print(x, m, Fraction(x) * K['weeks'] - m)
