import Mathlib.Algebra.Field.Basic
import Mathlib.Algebra.BigOperators.Group.Finset.Basic

/-!
Model of the SBP finite-element operators, `/repo/src/common/sbp_fe.cpp`.

`double` is an arbitrary field (no rounding).  `DenseMatrix` and `Vector` objects are total
functions of `ℕ` indices; loops are `forN`.  A matrix entry outside the allocated range is never
touched by the modelled loops, so its (arbitrary) value is simply carried along.
-/

namespace Verif.Sbp

/-- `for (int k = 0; k < n; ++k) s = body(k, s);` -- the C++ counting loop used throughout
sbp_fe.cpp:19, 34, 108, ... -/
def forN {σ : Type*} : ℕ → (ℕ → σ → σ) → σ → σ
  | 0, _, s => s
  | n + 1, body, s => body n (forN n body s)

/-- `for (int k = a; k < b; ++k)`, e.g. inviscid_integ_def.hpp:171 (`int j = i + 1`). -/
def forFromTo {σ : Type*} (a b : ℕ) (body : ℕ → σ → σ) (s : σ) : σ :=
  forN (b - a) (fun k => body (a + k)) s

variable {K : Type*} [Field K]

/-- `v(i) += x` on a `Vector` (e.g. sbp_fe.cpp:144). -/
def addAt (i : ℕ) (x : K) (v : ℕ → K) : ℕ → K := fun p => if p = i then v p + x else v p

/-- `M(i, j) += x` on a `DenseMatrix` (e.g. sbp_fe.cpp:125). -/
def addAt2 (i j : ℕ) (x : K) (M : ℕ → ℕ → K) : ℕ → ℕ → K :=
  fun p q => if p = i ∧ q = j then M p q + x else M p q

/-- The data of an `SBPFiniteElement` (sbp_fe.hpp:178-190): reference dimension, number of nodes
(`dof`), diagonal norm `H`, the operators `Q[di]` **stored transposed**, the generalised
Vandermonde matrix `V` (`dof` x `nv`), and the reference coordinates of the nodes. -/
structure Elem (K : Type*) where
  /-- `GetDim()` -/
  dim : ℕ
  /-- `GetDof()` -/
  dof : ℕ
  /-- `H(i)` -/
  H : ℕ → K
  /-- `Q[di](r, c)`, the stored (transposed) operator -/
  Q : ℕ → ℕ → ℕ → K
  /-- `V(i, k)` -/
  V : ℕ → ℕ → K
  /-- `V.Width()` -/
  nv : ℕ
  /-- `x(i, di)` -/
  x : ℕ → ℕ → K

/-- `multNormMatrix`, sbp_fe.cpp:12-26 (may be called in place). -/
def multNormMatrix (e : Elem K) (ns : ℕ) (u Hu : ℕ → ℕ → K) : ℕ → ℕ → K :=
  fun n i => if n < ns ∧ i < e.dof then e.H i * u n i else Hu n i

/-- `multNormMatrixInv`, sbp_fe.cpp:28-43. -/
def multNormMatrixInv (e : Elem K) (ns : ℕ) (u Hu : ℕ → ℕ → K) : ℕ → ℕ → K :=
  fun n i => if n < ns ∧ i < e.dof then (1 / e.H i) * u n i else Hu n i

/-- `getStrongOperator(di, D, trans)`, sbp_fe.cpp:45-61.  `InvRightScaling(s)` divides column `j`
by `s(j)`, `InvLeftScaling(s)` divides row `i` by `s(i)` (MFEM). -/
def getStrongOperator (e : Elem K) (di : ℕ) (trans : Bool) : ℕ → ℕ → K :=
  if trans then fun r c => e.Q di r c * (1 / e.H c)
  else fun r c => e.Q di c r * (1 / e.H r)

/-- `getStrongOperator(di, i, D)`: row `i` of the operator, sbp_fe.cpp:63-74. -/
def getStrongRow (e : Elem K) (di i : ℕ) : ℕ → K :=
  fun j => (1 / e.H i) * e.Q di j i

/-- `getWeakOperator(di, Qdi, trans)`, sbp_fe.cpp:76-90. -/
def getWeakOperator (e : Elem K) (di : ℕ) (trans : Bool) : ℕ → ℕ → K :=
  if trans then e.Q di else fun r c => e.Q di c r

/-- Innermost body of `multWeakOperator`, sbp_fe.cpp:109-115 (`trans`) and 122-128. -/
def multWeakBody (e : Elem K) (di : ℕ) (trans : Bool) (u : ℕ → ℕ → K) (i j n : ℕ)
    (Qu : ℕ → ℕ → K) : ℕ → ℕ → K :=
  if trans then addAt2 n i (-(e.Q di i j * u n j)) Qu
  else addAt2 n i (e.Q di j i * u n j) Qu

/-- `multWeakOperator(di, u, Qu, trans)`, sbp_fe.cpp:92-132; `ns = u.Height()`. -/
def multWeakOperator (e : Elem K) (ns di : ℕ) (trans : Bool) (u Qu : ℕ → ℕ → K) : ℕ → ℕ → K :=
  forN e.dof (fun i => forN e.dof (fun j => forN ns (fun n =>
    multWeakBody e di trans u i j n))) Qu

/-- `multWeakOperator(di, i, u, Qu)` at one node, sbp_fe.cpp:134-154. -/
def multWeakNode (e : Elem K) (ns di i : ℕ) (u : ℕ → ℕ → K) : ℕ → K :=
  forN e.dof (fun j => forN ns (fun n => addAt n (e.Q di j i * u n j))) (fun _ => 0)

/-- `multStrongOperator(di, i, u, Du)`, sbp_fe.cpp:156-164. -/
def multStrongNode (e : Elem K) (ns di i : ℕ) (u : ℕ → ℕ → K) : ℕ → K :=
  fun n => multWeakNode e ns di i u n * (1 / e.H i)

/-- `getQ(di, i, j)`, sbp_fe.cpp:166-169. -/
def getQ (e : Elem K) (di i j : ℕ) : K := e.Q di j i

/-- `getSkewEntry(di, i, j, adjJ_i, adjJ_j)`, sbp_fe.cpp:171-183. -/
def getSkewEntry (e : Elem K) (di i j : ℕ) (adjI adjJ : ℕ → ℕ → K) : K :=
  forN e.dim (fun k S => S + (adjI k di * e.Q k j i - adjJ k di * e.Q k i j)) 0

/-- `getSkewEntryRevDiff`, sbp_fe.cpp:185-198: returns the updated pair of adjoints. -/
def getSkewEntryRevDiff (e : Elem K) (di i j : ℕ) (Sbar : K)
    (s : (ℕ → ℕ → K) × (ℕ → ℕ → K)) : (ℕ → ℕ → K) × (ℕ → ℕ → K) :=
  forN e.dim (fun k s => (addAt2 k di (Sbar * e.Q k j i) s.1,
    addAt2 k di (-(Sbar * e.Q k i j)) s.2)) s

/-- `getSymEntry(di, i, adjJ_i)`, sbp_fe.cpp:200-210. -/
def getSymEntry (e : Elem K) (di i : ℕ) (adjI : ℕ → ℕ → K) : K :=
  forN e.dim (fun k E => E + adjI k di * e.Q k i i) 0

/-- `getQEntry(di, i, j, adjJ_i, adjJ_j)`, sbp_fe.cpp:212-226. -/
def getQEntry (e : Elem K) (di i j : ℕ) (adjI adjJ : ℕ → ℕ → K) : K :=
  if i = j then getSymEntry e di i adjI else 1 / 2 * getSkewEntry e di i j adjI adjJ

/-- `getProjOperator(P)`, sbp_fe.cpp:228-239: `MultAAt`, `RightScaling(H)` (column `j` times
`H(j)`), negate, add the identity. -/
def getProjOperator (e : Elem K) : ℕ → ℕ → K :=
  fun i j => (forN e.nv (fun k s => s + e.V i k * e.V j k) 0) * e.H j * (-1) +
    (if i = j then 1 else 0)

/-- `getProjOperatorEntry(i, j)`, sbp_fe.cpp:241-252. -/
def getProjOperatorEntry (e : Elem K) (i j : ℕ) : K :=
  forN e.nv (fun k P => P - e.V i k * e.V j k * e.H j) (if i = j then 1 else 0)

/-- The work vector `prod` of `multProjOperator`: `V(:,i)^T u` (`trans`, sbp_fe.cpp:272-280) or
`V(:,i)^T H u` (sbp_fe.cpp:298-307). -/
def projProd (e : Elem K) (ns : ℕ) (trans : Bool) (u : ℕ → ℕ → K) (i : ℕ) : ℕ → K :=
  forN e.dof (fun j => forN ns (fun n => addAt n
    (if trans then e.V j i * u n j else e.V j i * e.H j * u n j))) (fun _ => 0)

/-- `multProjOperator(u, Pu, trans)`, sbp_fe.cpp:254-319. -/
def multProjOperator (e : Elem K) (ns : ℕ) (trans : Bool) (u : ℕ → ℕ → K) : ℕ → ℕ → K :=
  forN e.nv (fun i => forN e.dof (fun j => forN ns (fun n => addAt2 n j
    (-((if trans then e.V j i * e.H j else e.V j i) * projProd e ns trans u i n))))) u

/-- `CalcDShape` at a node with index `ip`, sbp_fe.cpp:500-507 and 918-926: column `di` of
`dshape` is column `ip` of the stored `Q[di]`, and then the whole matrix is `InvLeftScaling(H)`-ed,
which divides **row `j`** by `H(j)`.  (The index lookup that precedes it is `dshapeIndex`.) -/
def calcDShape (e : Elem K) (ip : ℕ) : ℕ → ℕ → K :=
  fun j di => e.Q di j ip * (1 / e.H j)

/-- `CalcShape` at a point that is not one of the stored nodes, sbp_fe.cpp:441-463 and 860-886:
`poly k` is the value of the `k`-th orthonormal polynomial at the point (orthopoly.cpp), `c` the
scaling `poly *= 2.0`. -/
def calcShapeOff (e : Elem K) (c : K) (poly : ℕ → K) : ℕ → K :=
  forN e.nv (fun ptr => forN e.dof (fun k => addAt k (poly ptr * c * e.V k ptr * e.H k)))
    (fun _ => 0)

/-- `CalcShape` at node `ip`, sbp_fe.cpp:464-465, 887-888. -/
def calcShapeNode (ip : ℕ) : ℕ → K := fun k => if k = ip then 1 else 0

/-- `CalcShape(ip, shape)`, sbp_fe.cpp:428-467, 841-885, 1032-1081: `stored` is the result of
`ipIdxMap.at(&ip)`, a lookup by **address** (`none` is the `out_of_range` exception). -/
def calcShape (e : Elem K) (c : K) (poly : ℕ → K) (stored : Option ℕ) : ℕ → K :=
  match stored with
  | some ip => calcShapeNode ip
  | none => calcShapeOff e c poly

section lookup
variable [LinearOrder K]

/-- squared distance of a point to node `i` in the first `dim` coordinates, sbp_fe.cpp:326-333. -/
def dist2 (e : Elem K) (p : ℕ → K) (i : ℕ) : K :=
  let d0 := (p 0 - e.x i 0) ^ 2
  if e.dim > 1 then
    let d1 := d0 + (p 1 - e.x i 1) ^ 2
    if e.dim > 2 then d1 + (p 2 - e.x i 2) ^ 2 else d1
  else d0

/-- `getIntegrationPointIndex(ip)`, sbp_fe.cpp:321-342: the first node whose distance is below
`1e-12`, an exception (`none`) otherwise.  `sqrt(delta) < tol` is modelled as `delta < tol^2`
(equivalent for `delta ≥ 0`, `tol > 0`). -/
def indexFrom (e : Elem K) (tol2 : K) (p : ℕ → K) : ℕ → ℕ → Option ℕ
  | 0, _ => none
  | fuel + 1, i => if dist2 e p i < tol2 then some i else indexFrom e tol2 p fuel (i + 1)

/-- `getIntegrationPointIndex(ip)`, sbp_fe.cpp:321-342. -/
def getIntegrationPointIndex (e : Elem K) (p : ℕ → K) : Option ℕ :=
  indexFrom e ((1 / 10 ^ 12) ^ 2) p e.dof 0

/-- The coordinate lookup of `CalcDShape`, sbp_fe.cpp:487-498 (segment: `fabs(dx) < 1e-12`),
905-917 and 1100-1113 (triangle, tetrahedron: **squared** distance `< 1e-12`).  `none` is `ipIdx = -1`,
the value it keeps when no node matches. -/
def dshapeIndex (e : Elem K) (p : ℕ → K) : Option ℕ :=
  indexFrom e (if e.dim = 1 then (1 / 10 ^ 12) ^ 2 else 1 / 10 ^ 12) p e.dof 0

/-- `CalcDShape(ip, dshape)`, sbp_fe.cpp:472-507, 890-927, 1086-1124.  `none`: column `-1` of `Q` is
read (`GetColumnReference(-1, ..)`), outside the array. -/
def calcDShapeFull (e : Elem K) (stored : Option ℕ) (p : ℕ → K) : Option (ℕ → ℕ → K) :=
  ((stored <|> dshapeIndex e p) : Option ℕ).map (calcDShape e)

end lookup

end Verif.Sbp
