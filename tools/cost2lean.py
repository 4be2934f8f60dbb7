#!/usr/bin/env python3
"""Generate lean/Verif/Gen/CostTables.lean from /repo/clar2wasm/src/cost/clar{1,2,3}.rs."""
import re
out = ['import Verif.Gen.Cost', '',
 '/-! Generated by tools/cost2lean.py from /repo/clar2wasm/src/cost/clar{1,2,3}.rs. Do not edit.',
 'A word is named by its Rust type. -/', '', 'namespace Gen', '']
def caf(s):
    s = s.strip().rstrip(',').replace('_', '')
    if s == 'None': return '.none'
    m = re.fullmatch(r'Constant\((\d+)\)', s)
    if m: return f'.const {m[1]}'
    s = s.replace(", }", " }")
    s = re.sub(r'(\w)\{', r'\1 {', s)
    m = re.fullmatch(r'(Linear|LogN|NLogN) \{ a: ?(\d+), b: ?(\d+) ?\}', s)
    assert m, s
    k = {'Linear': 'linear', 'LogN': 'logN', 'NLogN': 'nLogN'}[m[1]]
    return f'.{k} {m[2]} {m[3]}'
for v in (1, 2, 3):
    path = f'/repo/clar2wasm/src/cost/clar{v}.rs'
    src = open(path).read()
    rows = []
    for m in re.finditer(r'map\.insert\(\s*([\w:]+)\.name\(\),\s*WordCost \{([^{}]*(?:\{[^}]*\}[^{}]*)*)\}', src, re.S):
        body = re.sub(r'\s+', ' ', m[2])
        f = {}
        for k in ('runtime', 'read_count', 'read_length', 'write_count', 'write_length'):
            f[k] = caf(re.search(r'\b' + k + r': (None|Constant\(\w+\)|\w+ \{[^}]*\})', body)[1])
        rows.append((m[1], f, src[:m.start()].count('\n') + 1))
    n = len(re.findall(r'map\.insert\(', src))
    assert n == len(rows), (n, len(rows))
    out.append(f'/-- cost/clar{v}.rs {rows[0][2]}-{rows[-1][2] + 9}: `WORD_COSTS`, {n} words. -/')
    out.append(f'def wordCosts{v} : List (String × WordCost) :=')
    for i, (w, f, ln) in enumerate(rows):
        out.append(('  [' if i == 0 else '   ') +
          f'("{w}", ⟨{", ".join(f.values())}⟩)' + (']' if i == len(rows) - 1 else ','))
    out.append('')
out.append('end Gen')
open('/verif/lean/Verif/Gen/CostTables.lean', 'w').write('\n'.join(out) + '\n')
