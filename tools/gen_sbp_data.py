#!/usr/bin/env python3
"""Generates lean/Verif/SbpData.lean from /repo/src/common/data/sbp_operators.hpp and the node lists
in /repo/src/common/sbp_fe.cpp (decimal literals are converted exactly to scaled integers)."""
import re, math
from fractions import Fraction as F
SQ, SX = 34, 19
raw = open('/repo/src/common/data/sbp_operators.hpp').read()
lines = raw.split('\n')
T, L = {}, {}
for m in re.finditer(r'const double (\w+)\[(\d+)\]\s*=\s*\{([^}]*)\}', raw, re.S):
    body = re.sub(r'//[^\n]*', '', m.group(3))
    v = [F(x.strip()) for x in body.replace('\n', ' ').split(',') if x.strip()]
    assert len(v) == int(m.group(2)), m.group(1)
    T[m.group(1)] = v
    L[m.group(1)] = (raw[:m.start()].count('\n') + 1, raw[:m.end()].count('\n') + 1)
src = open('/repo/src/common/sbp_fe.cpp').read()
def nodes(a, b):
    lo, hi = src.index(a), src.index(b)
    out = {}
    for m in re.finditer(r'case (\d):(.*?)break;', src[lo:hi], re.S):
        body = re.sub(r'//[^\n]*', '', m.group(2))
        d = {int(i): [F(x.strip()) for x in args.split(',')]
             for i, args in re.findall(r'IntPoint\((\d+)\)\.Set\w*\(([^)]*)\)', body)}
        l0 = src[:lo + m.start()].count('\n') + 1
        l1 = src[:lo + m.end()].count('\n') + 1
        out[int(m.group(1))] = ([d[i] for i in range(len(d))], (l0, l1))
    return out
tri = nodes('SBPTriangleElement::SBPTriangleElement', 'void SBPTriangleElement::CalcShape')
tet = nodes('SBPTetrahedronElement::SBPTetrahedronElement', 'void SBPTetrahedronElement::CalcShape')
def z(f, s):
    x = f * 10**s
    assert x.denominator == 1
    return str(x.numerator)
out = ['''import Verif.Sbp
import Mathlib.Algebra.Field.Rat

/-!
GENERATED by tools/gen_sbp_data.py.  The SBP operator tables of
/repo/src/common/data/sbp_operators.hpp and the node coordinates and weights of
/repo/src/common/sbp_fe.cpp, as exact integers: operator entries in units of 10^-34, coordinates
and weights in units of 10^-19.  (`double` rounding of the decimal literals is not modelled.)
-/

namespace Verif.Sbp

/-- One shipped element: dimension, number of nodes, the operators row by row as they appear in the
header (row `i`, column `j` of `Q_di`), node coordinates (one list per direction) and weights. -/
structure Table where
  /-- reference dimension -/
  dim : ℕ
  /-- number of nodes -/
  n : ℕ
  /-- rows of the operators, in units of `10^-34` -/
  q : List (List (List ℤ))
  /-- node coordinates, one list per direction, in units of `10^-19` -/
  x : List (List ℤ)
  /-- quadrature weights, in units of `10^-19` -/
  w : List ℤ

/-- The element built from a table: the arrays are stored row-major and loaded into a column-major
`DenseMatrix`, so `Q[di](r, c)` is entry `c * n + r` of the array -- the transposed operator
(sbp_operators.hpp:6-7, sbp_fe.cpp:657-658, 815-821). -/
def Table.elem (K : Type*) [Field K] (t : Table) : Elem K where
  dim := t.dim
  dof := t.n
  H := fun i => ((t.w.getD i 0 : ℤ) : K) / 10 ^ 19
  Q := fun di r c => ((((t.q.getD di []).getD c []).getD r 0 : ℤ) : K) / 10 ^ 34
  V := fun _ _ => 0
  nv := 0
  x := fun i di => (((t.x.getD di []).getD i 0 : ℤ) : K) / 10 ^ 19
''']
def emit(name, ops, nd, dim):
    pts, (l0, l1) = nd
    n = len(pts)
    cites = ', '.join(f'{o} {L[o][0]}-{L[o][1]}' for o in ops)
    out.append(f'/-- sbp_operators.hpp: {cites}; nodes sbp_fe.cpp:{l0}-{l1}. -/')
    out.append(f'def {name} : Table where\n  dim := {dim}\n  n := {n}')
    q = []
    for o in ops:
        v = T[o]; assert len(v) == n*n
        q.append('[' + ',\n    '.join('[' + ', '.join(z(v[i*n+j], SQ) for j in range(n)) + ']' for i in range(n)) + ']')
    out.append('  q := [' + ',\n   '.join(q) + ']')
    out.append('  x := [' + ',\n   '.join('[' + ', '.join(z(p[d], SX) for p in pts) + ']' for d in range(dim)) + ']')
    out.append('  w := [' + ', '.join(z(p[dim], SX) for p in pts) + ']\n')
for p in range(5):
    emit(f'tri{p}', [f'p{p}Qx_tri', f'p{p}Qy_tri'], tri[p], 2)
for p in range(2):
    emit(f'tet{p}', [f'p{p}Q{c}_tet' for c in 'xyz'], tet[p], 3)
# segment operators: the nodes come from an iteration and are not tabulated
for p in range(5):
    o = f'p{p}Qx_seg'; v = T[o]; n = p + 2
    out.append(f'/-- sbp_operators.hpp:{L[o][0]}-{L[o][1]} ({o}), rows, in units of 10^-34. -/')
    out.append(f'def seg{p}Q : List (List ℤ) :=\n  [' + ',\n   '.join('[' + ', '.join(z(v[i*n+j], SQ) for j in range(n)) + ']' for i in range(n)) + ']\n')
out.append('end Verif.Sbp')
open('/verif/lean/Verif/SbpData.lean', 'w').write('\n'.join(out) + '\n')
