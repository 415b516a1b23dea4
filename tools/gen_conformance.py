#!/usr/bin/env python3
"""Writes lean/Verif/Conformance.lean: the tables of /repo/strtk_tokenizer_test.cpp, checked against the model.

The sandbox cannot run the program.  Its own tests say what it returns on these texts, so they are a check of the model
(not of the theorems)."""
import re
from fractions import Fraction

src = open('/repo/strtk_tokenizer_test.cpp').read()

def body(start, after=0):
    """The text between the braces that follow the first occurrence of `start`."""
    i = src.index(start, after)
    i = src.index('{', i)
    depth, j, instr = 0, i, False
    while True:
        c = src[j]
        if instr:
            if c == '\\': j += 1
            elif c == '"': instr = False
        elif c == '"': instr = True
        elif c == '{': depth += 1
        elif c == '}':
            depth -= 1
            if depth == 0: return src[i + 1:j]
        j += 1

def strings(t): return [m.group(1) for m in re.finditer(r'"((?:[^"\\]|\\.)*)"', t)]
def pairs(t): return [(a, b) for a, b in re.findall(r'\{\s*"([^"]*)"\s*,\s*"([^"]*)"\s*\}', t)]
def q(s):
    assert '\\' not in s, s
    return '"' + s + '"'
def lst(xs, per=10):
    rows = [', '.join(xs[i:i + per]) for i in range(0, len(xs), per)]
    return '[' + ',\n   '.join(rows) + ']'

out = []
def emit(name, ty, doc, val): out.append(f"/-- {doc} -/\ndef {name} : {ty} :=\n  {val}\n")

for k in range(1, 5):
    t = pairs(body(f'test_input_output{k}[test_count]'))
    assert len(t) == 40, (k, len(t))
    emit(f'table{k}', 'List (String × String)', f'`test_input_output{k}`.', lst([f'({q(a)}, {q(b)})' for a, b in t], 4))

ts = strings(body('const std::string test_str[]'))
ti = [int(x) for x in re.findall(r'-?\d+', body('const int test_int[]'))]
assert len(ts) == len(ti) == 21
emit('ints', 'List (String × Int)', '`test_str` and `test_int` of `test_int_uint_convert`.', lst([f'({q(a)}, {b})' for a, b in zip(ts, ti)], 6))
i = src.index('bool test_int_uint_convert')
bad = strings(body('bad_list[]', i))
emit('badInts', 'List String', '`bad_list` of `test_int_uint_convert`.', lst([q(b) for b in bad], 5))

j = src.index('std::string s[] = {')
fs = strings(body('std::string s[] = {'))
fv = [int(x) for x in re.findall(r'(\d+)LL', body('unsigned long long v[] = {', j))]
assert len(fs) == len(fv) == 30
emit('fast', 'List (String × Nat)', 'The texts and numbers of `test_fast_convert`.', lst([f'({q(a)}, {b})' for a, b in zip(fs, fv)], 3))

# doubles
def val(x):
    x = x.strip()
    if 'infinity' in x: return 'inf' if not x.startswith('-') else '-inf'
    if 'NaN' in x: return 'nan'
    return Fraction(x.rstrip('.') if x.endswith('.') else x)
ds = strings(body('double_str[] ='))
dv = [val(x) for x in re.sub(r'\s+', ' ', body('static const double d[]')).split(',') if x.strip()]
assert len(ds) == len(dv), (len(ds), len(dv))
def lv(v):
    if v == 'inf': return '.inf false'
    if v == '-inf': return '.inf true'
    if v == 'nan': return '.nan'
    return f'.num ({v.numerator}) {v.denominator}'
def reals(name, doc, a, b): emit(name, 'List (String × Expect)', doc, lst([f'({q(x)}, {lv(y)})' for x, y in zip(a, b)], 4))
reals('doubles', '`double_str` and `d` of `test_double_convert`.', ds, dv)
k = src.index('double_str[] =')
badd = strings(body('bad_list[] =', k))
emit('badDoubles', 'List String', '`bad_list` of `test_double_convert`.', lst([q(b) for b in badd], 5))
tens = strings(body('fract10_str[] ='))[1:]
assert len(tens) == 308
emit('tens', 'List String', '`fract10_str` of `test_double_convert`, from entry 1 on.', lst([q(b) for b in tens], 10))
ls = strings(body('dbl_str_list[] ='))
lvv = [val(x) for x in re.sub(r'\s+', ' ', body('dbl_list[] =')).split(',') if x.strip()]
assert len(ls) == len(lvv), (len(ls), len(lvv))
reals('fracs', '`dbl_str_list` and `dbl_list` of `test_double_convert`.', ls, lvv)

# replace_pattern
r = src.index('bool test_replace_pattern')
rp = [(a, b) for a, b in re.findall(r'sp_type\(\s*"([^"]*)"\s*,\s*"([^"]*)"\s*\)', body('test[] =', r))]
base = strings(re.sub(r'"\s+"', '', body('base[] =', r)))
assert len(rp) == 20, len(rp)
emit('patterns', 'List (String × String)', '`test` of `test_replace_pattern`.', lst([f'({q(a)}, {q(b)})' for a, b in rp], 5))
emit('bases', 'List String', '`base` of `test_replace_pattern`.', lst([q(b) for b in base], 2))

n = [tuple(map(int, x)) for x in re.findall(r'n_choose_k\(\s*(\d+)\s*,\s*(\d+)\s*\)\s*==\s*(\d+)LL', src)]
emit('chosen', 'List (Nat × Nat × Nat)', 'The assertions of `test_n_choose_k`.', lst([str(x).replace("'", '') for x in n], 6))

tmpl = open('/verif/tools/conformance.template').read()
open('/verif/lean/Verif/Conformance.lean', 'w').write(tmpl.replace('--TABLES--\n', '\n'.join(out)))
print({'doubles': len(ds), 'bad doubles': len(badd), 'fracs': len(ls), 'bad ints': len(bad), 'chosen': len(n), 'bases': len(base)})
