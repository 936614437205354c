import json
props=[json.loads(l) for l in open('/verif/properties.jsonl')]
head='''# DESIGN — formal model of OptimalDesignLab/MISO in Lean 4

## Approach

The model lives in `lean/Verif/`.  Each area of the code has two files: `<Area>.lean` (the
model: small total functions, each with a `/repo` file:line citation) and `<Area>Props.lean`
(an independent specification plus the property theorems and non-vacuity examples).
Helper lemmas sit in `<Area>.lean` or `<Area>Lemmas.lean`, never between the property theorems.

* `double` is modelled by an arbitrary linearly ordered field `K` (executable on the rationals
  for the witnesses) or by the reals where `sqrt`, `log`, `exp`, `pow` occur.  Rounding, NaN
  and infinities are *not* modelled.
* A function that mutates through a reference becomes one that returns the new value; aliasing,
  where the property is about aliasing, is modelled by an explicit heap.
* Exceptions, `mfem_error` aborts and undefined behaviour are distinct outcomes of the model.
* External calls (MFEM assembly, hypre solves, `std::nth_element`, MPI reductions) are
  parameters; whatever is assumed about them is an explicit hypothesis of the theorem.
* Not modelled, and represented only by such parameters or by the documented behaviour stated in
  the comment of the definition: MFEM's meshes, element geometry, quadrature and finite-element
  tables, hypre and PETSc, Adept (its differentiation is taken to be exact), tinyspline, LAPACK,
  GSLIB's point search, EGADS, `std::ofstream`, pybind11, OpenMDAO and MPhys.
* Where the code violates the English property, the negation is proved with a concrete
  witness, and the strongest part that does hold is proved under the suffix `_partial`.

## Trusted base

* Lean 4.33.0's kernel, and the standard axioms `propext`, `Classical.choice`, `Quot.sound`
  only (`#print axioms` on every property theorem).  No axioms added; no compiled-code tactics.
* Mathlib definitions used in the statements (`List.Perm`, ordered fields, `Real.log`, ...).
* The reading of the C++ recorded in the citation comment of every definition.  The code
  is not executed here; nothing checks the model against the binary.

## Per-property plan

'''
plan=json.load(open('/verif/tools/plan.json')) if __import__('os').path.exists('/verif/tools/plan.json') else {}
out=head
import re,glob,os
docs={};where={}
for f in sorted(glob.glob('/verif/lean/Verif/*.lean')):
    txt=open(f).read()
    for m in re.finditer(r'(?:/--((?:(?!-/).)*)-/\s*(?:set_option[^\n]*\n)*)?^theorem (C\d\d+)(_\w+)',txt,re.S|re.M):
        if m.group(1): docs[m.group(2)+m.group(3)]=' '.join(m.group(1).split())
        where.setdefault(m.group(2),[]).append((os.path.basename(f),m.group(2)+m.group(3)))
def clean(d):
    d=re.sub(r'^\**C\d+\**[^A-Za-z*`]*','',d).strip()
    d=re.split(r'(?<=[a-z`)\]])\.\s',d)[0]
    return d.strip().rstrip('.')
for x in props:
    ws=where.get(x['id'],[])
    files=sorted({w[0] for w in ws})
    out+=f"* **{x['id']} {x['title']}** — "
    if x['id'] in plan: out+=plan[x['id']]
    else: out+='Models '+'; '.join(x['anchors'])+'.'
    if files: out+=f" Stated in {', '.join('`'+f+'`' for f in files)}"
    out+='.\n' if files else '\n'
    for f,n in ws:
        out+=f"  * `{n}`"+(f" — {clean(docs[n])}" if n in docs else '')+'\n'
tail=open('/verif/tools/design_tail.md').read() if os.path.exists('/verif/tools/design_tail.md') else ''
open('/verif/DESIGN.md','w').write(out+tail)
