#!/usr/bin/env python3
"""Generates lean/Verif/BhData.lean from /repo/src/common/material_library.cpp (the spline data of the
shipped steels), as exact decimals."""
import re
from fractions import Fraction
src = open('/repo/src/common/material_library.cpp').read()

def block(name):
    m = re.search(r'const auto %s = R"\((.*?)\)"_json' % name, src, re.S)
    return m.start(1), m.group(1)

def lineno(pos):
    return src.count('\n', 0, pos) + 1

def arr(name, model, key):
    off, b = block(name)
    i = b.index('"%s"' % model)
    m = re.search(r'"%s": \[(.*?)\]' % key, b[i:], re.S)
    vals = [v.strip() for v in m.group(1).split(',')]
    return lineno(off + i + m.start()), lineno(off + i + m.end()), vals

def deg(name, model):
    off, b = block(name)
    i = b.index('"%s"' % model)
    return int(re.search(r'"degree": (\d+)', b[i:]).group(1))

def rat(v):
    f = Fraction(v)
    return str(f.numerator) if f.denominator == 1 else '%d / %d' % (f.numerator, f.denominator)

out = ['import Verif.BSpline', '', '/-!',
       'GENERATED by tools/gen_bh.py: the spline data of the shipped steels,',
       '/repo/src/common/material_library.cpp, as exact decimals (`double` rounding not modelled).', '-/', '',
       'namespace Verif.BSpline', '']
for nm, model, lean in [('hiperco50', 'lognu', 'hiperco50LogNu'), ('hiperco50', 'bh', 'hiperco50BH'), ('team13', 'bh', 'team13BH')]:
    a, _, c = arr(nm, model, 'cps')
    _, z, k = arr(nm, model, 'knots')
    out += ['/-- `%s`, model `%s`. material_library.cpp:%d-%d. -/' % (nm, model, a, z),
            'def %s : Data where' % lean,
            '  cps := [' + ', '.join(map(rat, c)) + ']',
            '  knots := [' + ', '.join(map(rat, k)) + ']',
            '  degree := %d' % deg(nm, model), '']
out += ['end Verif.BSpline', '']
open('/verif/lean/Verif/BhData.lean', 'w').write('\n'.join(out))
