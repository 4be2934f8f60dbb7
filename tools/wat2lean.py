#!/usr/bin/env python3
"""Translate standard.wat into Lean definitions, instruction for instruction.

usage: wat2lean.py [standard.wat] [outdir]
Writes <outdir>/Names.lean (function enumerations) and <outdir>/Code.lean (bodies).
Folded s-expressions are unfolded: operands first (in order), then the operator.
Named locals / labels / functions are resolved.
"""
import sys, re
SRC = sys.argv[1] if len(sys.argv) > 1 else "/repo/clar2wasm/src/standard/standard.wat"
OUT = sys.argv[2] if len(sys.argv) > 2 else "/verif/lean/Verif/Stdlib"
text = open(SRC).read()

# ---- tokenizer / s-expression parser, keeping line numbers -------------------------------
def tokenize(s):
    i, line, n = 0, 1, len(s)
    while i < n:
        c = s[i]
        if c == '\n': line += 1; i += 1
        elif c.isspace(): i += 1
        elif s.startswith(';;', i):
            while i < n and s[i] != '\n': i += 1
        elif s.startswith('(;', i):
            d = 0
            while True:
                if s.startswith('(;', i): d += 1; i += 2
                elif s.startswith(';)', i):
                    d -= 1; i += 2
                    if d == 0: break
                else:
                    if s[i] == '\n': line += 1
                    i += 1
        elif c in '()': yield (c, line); i += 1
        elif c == '"':
            j = i + 1
            while s[j] != '"': j += 2 if s[j] == '\\' else 1
            yield (s[i:j+1], line); i = j + 1
        else:
            j = i
            while j < n and not s[j].isspace() and s[j] not in '()";': j += 1
            yield (s[i:j], line); i = j

class L(list):
    line = 0; end = 0
def parse(tokens):
    stack = [L()]
    for t, ln in tokens:
        if t == '(':
            x = L(); x.line = ln; stack.append(x)
        elif t == ')':
            x = stack.pop(); x.end = ln; stack[-1].append(x)
        else: stack[-1].append(t)
    assert len(stack) == 1
    return stack[0]
mod = parse(tokenize(text))[0]
assert mod[0] == 'module'

def leanid(name):
    name = name.lstrip('$')
    if name.startswith('stdlib.'): name = name[7:]
    r = re.sub(r'[^A-Za-z0-9_]', '_', name)
    return {'not': 'not_', 'log': 'log_'}.get(r, r)

types, hosts, funcs, elems, datas = {}, [], [], [], []
def sig(parts):
    ps, rs, names = [], [], []
    for p in parts:
        if isinstance(p, L) and p and p[0] in ('param', 'result'):
            xs = list(p[1:])
            if p[0] == 'param':
                if xs and xs[0].startswith('$'): names.append(xs[0]); ps.append(xs[1])
                else: names += [None]*len(xs); ps += xs
            else: rs += xs
    return ps, rs, names
for d in mod[1:]:
    if d[0] == 'type' and isinstance(d[1], str): types[d[1]] = sig(d[2][1:])[:2]
    elif d[0] == 'import':
        f = d[3]
        if f[0] == 'func': hosts.append((f[1], sig(f[2:]), d.line))
    elif d[0] == 'func': funcs.append(d)
    elif d[0] == 'elem': elems.append((int(d[1][1]), list(d[2:])))
    elif d[0] == 'data':
        raw = d[2][1:-1]; bs = []; i = 0
        while i < len(raw):
            assert raw[i] == '\\'; bs.append(int(raw[i+1:i+3], 16)); i += 3
        datas.append((int(d[1][1]), bs))

fid = {}
for n, _, _ in hosts: fid[n] = '.host .' + leanid(n)
for f in funcs: fid[f[1]] = '.std .' + leanid(f[1])
globs = {'$stack-pointer': 'stackPointer', '$runtime-error-code': 'errCode',
         '$runtime-error-arg-offset': 'errArgOff', '$runtime-error-arg-len': 'errArgLen',
         '$runtime-error-value-offset': 'errValOff',
         '$runtime-error-type-ser-offset': 'errTyOff', '$runtime-error-type-ser-len': 'errTyLen'}

BIN = dict(add='add', sub='sub', mul='mul', shl='shl', shr_u='shrU', shr_s='shrS', rotl='rotl', rotr='rotr')
BIN['and'] = 'and'; BIN['or'] = 'or'; BIN['xor'] = 'xor'
REL = dict(eq='eq', ne='ne', lt_u='ltU', lt_s='ltS', gt_u='gtU', gt_s='gtS', le_u='leU', le_s='leS', ge_u='geU', ge_s='geS')
LOADS = {'load': None, 'load8_u': 1, 'load16_u': 2, 'load32_u': 4}
STORES = {'store': None, 'store8': 1, 'store16': 2, 'store32': 4}

def num(s, bits):
    v = int(s.replace('_', ''), 0)
    return v % (1 << bits)
def vt(t): return '.' + t

class Fn:
    def __init__(self, f):
        self.f = f; self.name = f[1]; self.line = f.line; self.end = f.end
        ps, rs, names = sig(f[2:])
        self.ps, self.rs = ps, rs
        self.loc = {}
        for i, n in enumerate(names):
            if n: self.loc[n] = i
        self.ls = []; body = []
        for x in f[2:]:
            if isinstance(x, L) and x[0] in ('param', 'result', 'type'): continue
            if isinstance(x, L) and x[0] == 'local':
                xs = list(x[1:])
                if xs[0].startswith('$'):
                    self.loc[xs[0]] = len(ps) + len(self.ls); self.ls.append(xs[1])
                else: self.ls += xs
                continue
            body.append(x)
        self.body = self.seq(body, [])
    def l(self, x): return self.loc[x] if x.startswith('$') else int(x)
    def lab(self, x, labels):
        return labels.index(x) if x.startswith('$') else int(x)
    # sequence of instrs (mix of folded and plain)
    def seq(self, xs, labels):
        out = []; i = 0; xs = list(xs)
        while i < len(xs):
            x = xs[i]
            if isinstance(x, L): out += self.folded(x, labels); i += 1
            else:
                # plain instruction: gather string immediates
                j = i + 1
                imm = []
                while j < len(xs) and isinstance(xs[j], str) and not re.match(r'^(i32|i64|v128|i8x16|i64x2|local|global|call|br|br_if|return|drop|select|unreachable|memory)\b', xs[j]):
                    imm.append(xs[j]); j += 1
                assert x not in ('block', 'loop', 'if'), x
                out.append(self.op(x, imm, labels)); i = j
        return out
    def folded(self, x, labels):
        h = x[0]
        if h in ('block', 'loop'):
            i = 1; lab = None
            if i < len(x) and isinstance(x[i], str) and x[i].startswith('$'): lab = x[i]; i += 1
            ps, rs = [], []
            while i < len(x) and isinstance(x[i], L) and x[i][0] in ('param', 'result'):
                p, r, _ = sig([x[i]]); ps += p; rs += r; i += 1
            body = self.seq(x[i:], [lab] + labels)
            return [(h, len(ps), len(rs), body)]
        if h == 'if':
            i = 1; lab = None
            if isinstance(x[i], str) and x[i].startswith('$'): lab = x[i]; i += 1
            ps, rs = [], []; pre = []; t = e = []
            while i < len(x):
                y = x[i]
                if isinstance(y, L) and y[0] in ('param', 'result'):
                    p, r, _ = sig([y]); ps += p; rs += r
                elif isinstance(y, L) and y[0] == 'then': t = self.seq(y[1:], [lab] + labels)
                elif isinstance(y, L) and y[0] == 'else': e = self.seq(y[1:], [lab] + labels)
                else: pre += self.seq([y], labels)
                i += 1
            return pre + [('ite', len(ps), len(rs), t, e)]
        if h == 'call_indirect':
            t = x[1]; assert t[0] == 'type'
            pre = self.seq(x[2:], labels)
            ps, rs = types[t[1]]
            return pre + [('x', '.callIndirect [%s] [%s]' % (', '.join(map(vt, ps)), ', '.join(map(vt, rs))), 'call_indirect')]
        imm = [y for y in x[1:] if isinstance(y, str)]
        ops = [y for y in x[1:] if isinstance(y, L)]
        pre = self.seq(ops, labels)
        return pre + [self.op(h, imm, labels)]
    def op(self, h, imm, labels):
        def B(s): return ('x', '.b (%s)' % s if ' ' in s else '.b ' + s, h)
        if h == 'local.get': return B('.localGet %d' % self.l(imm[0]))
        if h == 'local.set': return B('.localSet %d' % self.l(imm[0]))
        if h == 'local.tee': return B('.localTee %d' % self.l(imm[0]))
        if h == 'global.get': return B('.global32Get .%s' % globs[imm[0]])
        if h == 'global.set': return B('.global32Set .%s' % globs[imm[0]])
        if h == 'call': return ('x', '.call (%s)' % fid[imm[0]], h)
        if h == 'br': return ('x', '.br %d' % self.lab(imm[0], labels), h)
        if h == 'br_if': return ('x', '.brIf %d' % self.lab(imm[0], labels), h)
        if h == 'return': return ('x', '.ret', h)
        if h == 'unreachable': return ('x', '.unreachable', h)
        if h == 'select': return B('.select')
        if h == 'drop': return B('.drop')
        if h == 'memory.copy': return B('.memCopy')
        if h == 'memory.fill': return B('.memFill')
        if h == 'i32.wrap_i64': return B('.i32wrap')
        if h == 'i64.extend_i32_u': return B('.i64extU')
        if h == 'i64.extend_i32_s': return B('.i64extS')
        if h == 'v128.any_true': return B('.v128anyTrue')
        if h == 'v128.and': return B('.v128and')
        if h == 'v128.xor': return B('.v128xor')
        if h == 'i8x16.swizzle': return B('.i8x16swizzle')
        if h == 'i64x2.extract_lane': return B('.i64x2extract %d' % int(imm[0]))
        off = 0
        for y in imm:
            if y.startswith('offset='): off = int(y[7:], 0)
        if h == 'v128.load': return B('.v128load %d' % off)
        if h == 'v128.store': return B('.v128store %d' % off)
        if h == 'v128.const':
            kind = imm[0]; w = {'i8x16': 8, 'i16x8': 16, 'i32x4': 32, 'i64x2': 64}[kind]
            v = 0
            assert len(imm) - 1 == 128 // w
            for k, y in enumerate(imm[1:]): v |= num(y, w) << (k * w)
            return B('.const (.v128 0x%x#128)' % v)
        if '.' not in h: raise Exception('unknown op %s in %s' % (h, self.name))
        ty, o = h.split('.')
        bits = int(ty[1:])
        if o == 'const': return B('.const (.%s %d#%d)' % (ty, num(imm[0], bits), bits))
        if o in BIN: return B('.%sbin .%s' % (ty, BIN[o]))
        if o in ('div_u', 'rem_u'): return B('.%sdiv .%s' % (ty, {'div_u': 'divU', 'rem_u': 'remU'}[o]))
        if o in REL: return B('.%srel .%s' % (ty, REL[o]))
        if o == 'eqz': return B('.%seqz' % ty)
        if o == 'clz': return B('.%sclz' % ty)
        if o in LOADS: return B('.%sload %d %d' % (ty, LOADS[o] or bits // 8, off))
        if o in STORES: return B('.%sstore %d %d' % (ty, STORES[o] or bits // 8, off))
        raise Exception('unknown op %s in %s' % (h, self.name))

def emit(body, ind):
    pad = ' ' * ind
    if not body: return '[]'
    lines = []
    for k, it in enumerate(body):
        if it[0] == 'x': lines.append(it[1])
        elif it[0] in ('block', 'loop'):
            lines.append('.%s %d %d %s' % (it[0], it[1], it[2], emit(it[3], ind + 2)))
        else:
            lines.append('.ite %d %d %s %s' % (it[1], it[2], emit(it[3], ind + 2), emit(it[4], ind + 2)))
    # pack short lines
    out = []; cur = ''
    for k, l in enumerate(lines):
        piece = l + (',' if k + 1 < len(lines) else '')
        if '\n' in l or len(cur) + len(piece) + ind > 98:
            if cur: out.append(cur)
            cur = piece
            if '\n' in l: out.append(cur); cur = ''
        else: cur = (cur + ' ' + piece) if cur else piece
    if cur: out.append(cur)
    return '[\n' + '\n'.join(pad + '  ' + o for o in out) + ']'

F = [Fn(f) for f in funcs]
names = open(OUT + '/Names.lean', 'w')
w = names.write
w('/-! Generated by tools/wat2lean.py from /repo/clar2wasm/src/standard/standard.wat. Do not edit. -/\n\nnamespace Wasm\n\n')
w('/-- Functions defined in standard.wat (lines %d-%d). -/\ninductive StdFn\n' % (F[0].line, F[-1].end))
for f in F: w('  | %s\n' % leanid(f.name))
w('  deriving DecidableEq, Repr\n\n')
w('/-- Functions imported by standard.wat from the host (lines %d-%d). -/\ninductive HostFn\n' % (hosts[0][2], hosts[-1][2]))
for n, _, ln in hosts: w('  | %s\n' % leanid(n))
w('  deriving DecidableEq, Repr\n\nend Wasm\n')
names.close()

code = open(OUT + '/Code.lean', 'w')
w = code.write
w('import Verif.Wasm.Syntax\n\n/-! Generated by tools/wat2lean.py from /repo/clar2wasm/src/standard/standard.wat. Do not edit.\nOne definition per Wasm function, instruction for instruction (operands first, then operator). -/\n\nnamespace Wasm.Std\n\n')
for f in F:
    tl = lambda xs: '[' + ', '.join(map(vt, xs)) + ']'
    w('/-- `%s`: standard.wat lines %d-%d.' % (f.name, f.line, f.end))
    inv = sorted(f.loc.items(), key=lambda kv: kv[1])
    if inv: w(' Locals: ' + ', '.join('%d = %s' % (i, n) for n, i in inv) + '.')
    w(' -/\n')
    w('def %s_body : List Instr := %s\n\n' % (leanid(f.name), emit(f.body, 0)))
    w('/-- `%s`: standard.wat lines %d-%d (signature and locals). -/\n' % (f.name, f.line, f.end))
    w('def %s : Func where\n  params := %s\n  results := %s\n  locals := %s\n  body := %s_body\n\n' % (leanid(f.name), tl(f.ps), tl(f.rs), tl(f.ls), leanid(f.name)))
w('end Wasm.Std\n\nnamespace Wasm\n\n')
w('/-- The runtime library: standard.wat lines %d-%d. -/\ndef stdFunc : StdFn → Func\n' % (F[0].line, F[-1].end))
for f in F: w('  | .%s => Std.%s\n' % (leanid(f.name), leanid(f.name)))
w('\n/-- Signatures of the imported host functions: standard.wat lines %d-%d. -/\n' % (hosts[0][2], hosts[-1][2]))
w('def hostSig : HostFn → List VT × List VT\n')
for n, (ps, rs, _), ln in hosts:
    w('  | .%s => ([%s], [%s])\n' % (leanid(n), ', '.join(map(vt, ps)), ', '.join(map(vt, rs))))
w('\n/-- The function table: standard.wat `(elem ..)` segments, lines 384-389. -/\ndef stdTable : Nat → Option FId\n')
for base, es in elems:
    for k, e in enumerate(es): w('  | %d => some (%s)\n' % (base + k, fid[e]))
w('  | _ => none\n\n')
w('/-- The `(data ..)` segments of standard.wat, lines 351-379: (offset, bytes). -/\ndef stdData : List (Nat × List (BitVec 8)) := [\n')
w(',\n'.join('  (%d, [%s])' % (o, ', '.join('%d#8' % b for b in bs)) for o, bs in datas))
w(']\n\nend Wasm\n')
code.close()
print(len(F), 'functions,', len(hosts), 'imports')
