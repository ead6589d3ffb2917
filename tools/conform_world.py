#!/usr/bin/env python3
"""Translate tests with tables of expected values from /repo/tests into Lean:
test_emitters_text.py (Conform/Text), poisson_choice and gaussian_choice of test_emitters_choice.py
(Conform/Curves), and the tables of test_emitters_fromfields.py and test_profile.py (Conform/Fields).

The test files are read as text and parsed; nothing of the project is run.  The weights of Poisson
and Gaussian curves are computed here, as doubles, with the formulas of mathtools.py 22 and 40-42.
"""
import ast, math, os
from fractions import Fraction
TESTS = '/repo/tests/'
OUT = os.path.join(os.path.dirname(os.path.abspath(__file__)), '../lean/Verif/Conform/')
out = []
def wrap(text):
    line, lines = '', []
    for word in text.split(' '):
        if line and len(line) + 1 + len(word) > 96: lines.append(line); line = '    ' + word
        else: line = line + ' ' + word if line else word
    return '\n'.join(lines + [line]).replace('~', ' ')
def emit(expr): out.append(wrap(f'example : {expr} = true := by decide~+kernel'))
def lit(node): return eval(compile(ast.Expression(node), '', 'eval'), {'__builtins__': {'range': range, 'list': list, 'ord': ord, 'str': str}})
def load(name):
    tree = ast.parse(open(TESTS + name).read())
    res = {}
    for fn in tree.body:
        if isinstance(fn, ast.FunctionDef) and fn.decorator_list:
            d = fn.decorator_list[0]
            if isinstance(d, ast.Call) and len(d.args) == 2: res[fn.name] = (fn.lineno, d.args[1].elts)
    return res
def head(name, T): out.append(f'/-! `{name}`, line {T[name][0]} -/')
def q(x):
    f = Fraction(x) if isinstance(x, int) else Fraction(str(x))
    if f.denominator == 1: return f'({f.numerator})' if f < 0 else str(f.numerator)
    return f'({f.numerator} / {f.denominator})'
def dy(x):
    """A double, exactly."""
    f = Fraction(x)
    if f.denominator == 1: return str(f.numerator)
    return f'{f.numerator} / 2^{f.denominator.bit_length() - 1}'
def ws(w): return 'none' if w is None else '(some [' + ', '.join(q(x) for x in w) + '])'
def strlit(v): return '"' + v.replace(' ', '~') + '"'
def val(v):
    if v is None: return '.none'
    if isinstance(v, bool): return f'(.bool {str(v).lower()})'
    if isinstance(v, int): return f'(.int {v})'
    if isinstance(v, str): return f'(s {strlit(v)})'
    return '(.list [' + ', '.join(val(x) for x in v) + '])'
def vals(l):
    if l and all(isinstance(x, str) for x in l): return '([' + ', '.join(strlit(x) for x in l) + '].map s)'
    return '[' + ', '.join(val(x) for x in l) + ']'
def items(v):
    if isinstance(v, str): return f'(chars "{v}")'
    if isinstance(v, range) and v.step == 1 and len(v) > 0: return f'(ints {v.start} {v.stop - 1})'
    return vals(list(v))
def poisson(x, mu): return (mu ** x) * (math.exp(-1 * mu)) / math.factorial(x)
def gaussian(x, mu, sigma):
    return math.exp(-1 * (((x - mu) / sigma) ** 2) / 2) * (1 / (math.sqrt(2 * math.pi) * sigma))
def curve(l): return '(some [' + ', '.join(dy(x) for x in l) + '])'
def em(n):
    """An expression that makes an emitter or a field, as a Lean program."""
    if isinstance(n, ast.Constant) and n.value is None: return None
    f = n.func.attr if isinstance(n.func, ast.Attribute) else n.func.id
    kw = {k.arg: k.value for k in n.keywords}
    if f == 'Static': return f'(static {val(lit(n.args[0]))})'
    if f == 'chance': return f'(withChance {q(lit(n.args[0]))})'
    if f == 'poisson_choice':
        it = lit(n.args[0])
        return f'(pick {items(it)} {curve([poisson(x, lit(kw["mu"])) for x in range(1, len(it) + 1)])})'
    if f == 'Choice':
        if isinstance(n.args[0], ast.ListComp): it = [str(k) for k in range(100)]
        else: it = lit(n.args[0])
        w = n.args[1] if len(n.args) > 1 else kw.get('weights')
        w = None if w is None else lit(w)
        assert set(kw) <= {'weights'}, ast.dump(n)
        return f'(pick {items(it)} {ws(w)})'
    if f == 'Word': return f'(word {em(n.args[0])} {em(n.args[1])} none)'
    if f == 'Field':
        name = lit(n.args[0])
        return f'(field "{name}" {em(n.args[1])} {opt(kw.get("repeat"))} {opt(kw.get("gate"))} false none)'
    raise Exception(ast.dump(n))
def opt(n):
    if n is None: return 'none'
    e = em(n)
    return 'none' if e is None else f'(some {e})'
def seed(v): return 'none' if v is None else f'(some {v})'
def write(name, imports, comment, defs=''):
    global out
    opened = '' if name == 'Curves' else 'open World\n'
    text = '\n'.join('import ' + i for i in imports) + f'\n/-\n{comment}\n-/\nnamespace Fauxdoc\nnamespace Conform\n{opened}\n{defs}'
    open(OUT + name + '.lean', 'w').write(text + '\n'.join(out) + '\n\nend Conform\nend Fauxdoc\n')
    print(name, len(out))
    out = []

# --- text
T = load('test_emitters_text.py')
head('test_makealphabet', T)
for r in T['test_makealphabet'][1]:
    ranges, exp = lit(r)
    emit(f'is (makeAlphabet (some {[tuple(x) for x in ranges]})) {[ord(c) for c in exp]}')
head('test_word_emit', T)
for r in T['test_word_emit'][1]:
    sd, mn, mx, lw, al, aw, num, rep, exp = lit(r)
    w = f'word (pick (ints {mn} {mx}) {ws(lw)}) (pick (chars "{al}") {ws(aw)}) (some {sd})'
    emit(f'holds ({w}) (fun r => {"each" if rep else "many"} r {vals(exp)})')
head('test_word_unique_properties', T)
for r in T['test_word_unique_properties'][1]:
    l, al, n = lit(r)
    emit(f'hasUnique (word (pick {vals(l)} none) (pick (chars "{al}") none) none) {n}')
head('test_text_emit_generated_words', T)
for r in T['test_text_emit_generated_words'][1]:
    sd, mn, mx, w, sep, sw, num, rep, exp = lit(r)
    sp = 'none' if sep is None else f'(some (pick {vals(sep)} {ws(sw)}))'
    t = f'text (pick (ints {mn} {mx}) {ws(w)}) autoWord {sp} (some {sd})'
    emit(f'holds ({t}) (fun r => {"each" if rep else "many"} r {vals(exp)})')
head('test_text_emit_words_list', T)
for r in T['test_text_emit_words_list'][1]:
    sd, mn, mx, u, num, rep, exp = lit(r)
    t = f'text (pick (ints {mn} {mx}) none) (wordList {str(u).lower()}) (some seps) (some {sd})'
    emit(f'holds ({t}) (fun r => {"each" if rep else "many"} r {vals(exp)})')
head('test_text_unique_properties', T)
for r in T['test_text_unique_properties'][1]:
    w, sep, nw, n = r.elts
    sep = lit(sep)
    sp = 'none' if sep is None else f'(some (pick {vals(sep)} none))'
    emit(f'hasUnique (text (pick {vals(lit(nw))} none) {em(w)} {sp} none) {lit(n)}')
write('Text', ['Verif.Conform.World'], '''The tests of `/repo/tests/test_emitters_text.py`, run on the model. Made by `tools/conform_world.py`
from the text of the tests.''', '''/-- The fixture `auto_word_emitter`, line 12. -/
def autoWord : Test Ref := word (pick (ints 2 8) none) (pick (chars "abcde") none) none

/-- The fixture `make_wordlist_emitter`, line 18. -/
def wordList (distinct : Bool) : Test Ref :=
  newChoice .other (["red", "cat", "sappy", "blooming", "flower", "isolated", "runway",
    "refrigerator", "truck", "of", "the", "a", "baseless", "bird", "on", "clapping"].map s)
    (some [5, 5, 5, 5, 5, 5, 5, 5, 5, 10, 10, 10, 5, 5, 10, 5]) true distinct none none

/-- The separators of `test_text_emit_words_list`. -/
def seps : Test Ref := pick ([" ", "-", ", ", "; ", ": "].map s) (some [80, 5, 10, 3, 2])

''')

# --- curves
T = load('test_emitters_choice.py')
head('test_poisson_choice', T)
for r in T['test_poisson_choice'][1]:
    sd, it, mu, fl, exp = lit(r)
    w = [max(poisson(x, mu), fl) for x in range(1, len(it) + 1)]
    emit(f'choice {list(it)} {curve(w)} none true false (some {sd}) [.gives {exp}]')
head('test_gaussian_choice', T)
for r in T['test_gaussian_choice'][1]:
    sd, it, mu, sg, fl, exp = lit(r)
    w = [max(gaussian(x, mu, sg), fl) for x in range(1, len(it) + 1)]
    emit(f'choice {list(it)} {curve(w)} none true false (some {sd}) [.gives {exp}]')
write('Curves', ['Verif.Conform.Basic'], '''The tests of `poisson_choice` and `gaussian_choice` in `/repo/tests/test_emitters_choice.py`, run on
the model. Made by `tools/conform_world.py` from the text of the tests; it computed the weights as
doubles (`Model/Pdf` has the curves over the reals, which cannot be evaluated).''')

# --- fields
T = load('test_profile.py')
head('test_field_output_repeat_and_gate', T)
for r in T['test_field_output_repeat_and_gate'][1]:
    sd, rep, gate, exp = r.elts
    emit(f'holds (field "subjects" subjects {opt(rep)} {opt(gate)} false (some {lit(sd)})) (fun r => each r {vals(lit(exp))})')
head('test_field_caches_previous_value', T)
for r in T['test_field_caches_previous_value'][1]:
    sd, rep, gate, hide, exp = r.elts
    emit(f'holds (field "test" subjects {opt(rep)} {opt(gate)} {str(lit(hide)).lower()} (some {lit(sd)})) (fun r => caches r .none {vals(lit(exp))})')
head('test_field_multivalued_attribute', T)
for r in T['test_field_multivalued_attribute'][1]:
    f, exp = r.elts
    emit(f'holds {em(f)} (fun r => isMulti r {str(lit(exp)).lower()})')
T = load('test_emitters_fromfields.py')
def source(n): return ('[' + ', '.join(em(x) for x in n.elts) + ']', 'false') if isinstance(n, ast.List) else (f'[{em(n)}]', 'true')
for name in ('test_sourcefieldgroup_singlevalued', 'test_copyfields_singlevalued'):
    head(name, T)
    for r in T[name][1]:
        src, exp = r.elts
        l, single = source(src)
        emit(f'holds (copy {l} {single} none) (fun r => isSingle r {str(lit(exp)).lower()})')
head('test_copyfields_emit', T)
for r in T['test_copyfields_emit'][1]:
    src, sep, exp = r.elts
    l, single = source(src)
    sep = lit(sep)
    sp = 'none' if sep is None else f'(some {strlit(sep)})'
    emit(f'holds (copy {l} {single} {sp}) (fun r => copies r {val(lit(exp))})')
CB = {'single_field_multi': 'singleFieldMulti', 'single_field_multi_collapse': 'singleFieldMultiCollapse',
      'single_field_random': 'singleFieldRandom', 'multi_field_each_single': 'multiFieldEachSingle',
      'multi_field_each_multi': 'multiFieldEachMulti', 'multi_field_each_single_collapse': 'multiFieldEachSingleCollapse',
      'multi_field_each_multi_collapse': 'multiFieldEachMultiCollapse', 'multi_field_random': 'multiFieldRandom', 'str': 'strFunction'}
head('test_basedonfields_emit', T)
for r in T['test_basedonfields_emit'][1]:
    src, action, sd, exp = r.elts
    l, single = source(src)
    cb = CB[action.id] if isinstance(action, ast.Name) else 'joinThree'
    emit(f'based {l} {single} {cb} {seed(lit(sd))} {val(lit(exp))}')
def params(fn): return '[' + ', '.join(f'⟨"{a.arg}", .posOrKw, false⟩' for a in fn.args.args) + ']'
head('test_basedonfields_emit_bad_action_raises_error', T)
for r in T['test_basedonfields_emit_bad_action_raises_error'][1]:
    src, action, _, _ = r.elts
    l, single = source(src)
    emit(f'badAction {l} {single} {params(action)}')
T = load('test_emitters_wrappers.py')
head('test_wrapone_emit_bad_wrapper_raises_error', T)
for r in T['test_wrapone_emit_bad_wrapper_raises_error'][1]:
    emit(f'badWrapOne {params(r.elts[0])}')
head('test_wrapmany_emit_bad_wrapper_raises_error', T)
for r in T['test_wrapmany_emit_bad_wrapper_raises_error'][1]:
    emit(f'badWrapMany {params(r.elts[0])}')
write('Fields', ['Verif.Conform.Callbacks'], '''Tests with tables of expected values in `/repo/tests/test_profile.py`,
`/repo/tests/test_emitters_fromfields.py` and `/repo/tests/test_emitters_wrappers.py`, run on the
model. Made by `tools/conform_world.py` from the text of the tests; the callbacks are in
`Conform/Callbacks`.''')
