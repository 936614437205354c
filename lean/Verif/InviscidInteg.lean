import Verif.Sbp

/-!
Model of the SBP nonlinear-form integrators, `/repo/src/physics/fluidflow/inviscid_integ_def.hpp`.

Element vectors are flat and ordered "by nodes": `DenseMatrix u(elfun.GetData(), num_nodes,
num_states)` is column-major, so `u(i, n)` is `elfun[n * num_nodes + i]`.  The mapping Jacobians
enter only through their adjugates at the nodes, `adj i`, face normals through `nrm i`.  Flux
functions and their Jacobians (computed by Adept in the code) are parameters.
-/

namespace Verif.Inviscid
open Verif.Sbp

variable {K : Type*} [Field K]

/-- `u.GetRow(i, ui)`: row `i` of the `N x num_states` view of the flat vector
(inviscid_integ_def.hpp:27, 33, ...). -/
def row (elfun : ℕ → K) (N i : ℕ) : ℕ → K := fun n => elfun (n * N + i)

/-- `res.Transpose(elres); res *= alpha;` inviscid_integ_def.hpp:83-84: the flat element vector
whose `(i, n)` entry is `alpha * elres(n, i)`. -/
def packT (N : ℕ) (alpha : K) (elres : ℕ → ℕ → K) : ℕ → K :=
  fun p => alpha * elres (p / N) (p % N)

/-- `dxidx`: row `di` of the adjugate, inviscid_integ_def.hpp:73. -/
def adjRow (adj : ℕ → ℕ → ℕ → K) (i di : ℕ) : ℕ → K := fun k => adj i di k

/-! ### InviscidIntegrator -/

/-- `InviscidIntegrator::GetElementEnergy`, inviscid_integ_def.hpp:12-39: `volFun` at node `i`,
`w i = trans.Weight()`. -/
def weakEnergy (e : Elem K) (alpha : K) (volFun : ℕ → (ℕ → K) → K) (w : ℕ → K) (elfun : ℕ → K) :
    K :=
  (forN e.dof (fun i f => f + volFun i (row elfun e.dof i) * w i * e.H i) 0) * alpha

/-- `InviscidIntegrator::AssembleElementVector`, inviscid_integ_def.hpp:41-85. -/
def weakVec (e : Elem K) (ns : ℕ) (alpha : K) (flux : (ℕ → K) → (ℕ → K) → (ℕ → K))
    (adj : ℕ → ℕ → ℕ → K) (elfun : ℕ → K) : ℕ → K :=
  packT e.dof alpha
    (forN e.dim (fun di elres => multWeakOperator e ns di true
      (fun n i => flux (adjRow adj i di) (row elfun e.dof i) n) elres) (fun _ _ => 0))

/-- `InviscidIntegrator::AssembleElementGrad`, inviscid_integ_def.hpp:87-137.  Note the state loops
run to `dim + 2`, not to `num_states`. -/
def weakGrad (e : Elem K) (alpha : K) (fluxJac : (ℕ → K) → (ℕ → K) → (ℕ → ℕ → K))
    (adj : ℕ → ℕ → ℕ → K) (elfun : ℕ → K) : ℕ → ℕ → K :=
  forN e.dim (fun di => forN e.dof (fun i => forN e.dof (fun j => forN (e.dim + 2) (fun n =>
    forN (e.dim + 2) (fun m => addAt2 (m * e.dof + j) (n * e.dof + i)
      (-(alpha * getQ e di i j * fluxJac (adjRow adj i di) (row elfun e.dof i) m n))))))) 
    (fun _ _ => 0)

/-! ### DyadicFluxIntegrator -/

/-- The two updates of the innermost loop of `DyadicFluxIntegrator::AssembleElementVector`,
inviscid_integ_def.hpp:180-184. -/
def dyadicUpd (N i j n : ℕ) (x : K) (res : ℕ → K) : ℕ → K :=
  addAt (n * N + j) (-x) (addAt (n * N + i) x res)

/-- `DyadicFluxIntegrator::AssembleElementVector`, inviscid_integ_def.hpp:139-189. -/
def dyadicVec (e : Elem K) (ns : ℕ) (alpha : K) (flux : ℕ → (ℕ → K) → (ℕ → K) → (ℕ → K))
    (adj : ℕ → ℕ → ℕ → K) (elfun : ℕ → K) : ℕ → K :=
  forN e.dof (fun i => forFromTo (i + 1) e.dof (fun j => forN e.dim (fun di => forN ns (fun n =>
    dyadicUpd e.dof i j n (getSkewEntry e di i j (adj i) (adj j) * alpha *
      flux di (row elfun e.dof i) (row elfun e.dof j) n))))) (fun _ => 0)

/-- The four updates of the innermost loop of `DyadicFluxIntegrator::AssembleElementGrad`,
inviscid_integ_def.hpp:232-245. -/
def dyadicGradUpd (N i j n m : ℕ) (S ji jj : K) (M : ℕ → ℕ → K) : ℕ → ℕ → K :=
  addAt2 (n * N + j) (m * N + j) (-(S * jj)) (addAt2 (n * N + j) (m * N + i) (-(S * ji))
    (addAt2 (n * N + i) (m * N + j) (S * jj) (addAt2 (n * N + i) (m * N + i) (S * ji) M)))

/-- `DyadicFluxIntegrator::AssembleElementGrad`, inviscid_integ_def.hpp:191-251. -/
def dyadicGrad (e : Elem K) (ns : ℕ) (alpha : K)
    (jacL jacR : ℕ → (ℕ → K) → (ℕ → K) → (ℕ → ℕ → K)) (adj : ℕ → ℕ → ℕ → K) (elfun : ℕ → K) :
    ℕ → ℕ → K :=
  forN e.dim (fun di => forN e.dof (fun i => forFromTo (i + 1) e.dof (fun j => forN ns (fun n =>
    forN ns (fun m => dyadicGradUpd e.dof i j n m (getSkewEntry e di i j (adj i) (adj j) * alpha)
      (jacL di (row elfun e.dof i) (row elfun e.dof j) n m)
      (jacR di (row elfun e.dof i) (row elfun e.dof j) n m)))))) (fun _ _ => 0)

/-! ### LPSIntegrator -/

/-- `Pw`: convert the variables and project, inviscid_integ_def.hpp:277-285, 338-346. -/
def lpsPw (e : Elem K) (ns : ℕ) (convert : (ℕ → K) → (ℕ → K)) (elfun : ℕ → K) : ℕ → ℕ → K :=
  multProjOperator e ns false (fun n i => convert (row elfun e.dof i) n)

/-- `LPSIntegrator::AssembleElementVector`, inviscid_integ_def.hpp:253-306;
`scale i q v` is `scale(adjJ(node i), q, v)`. -/
def lpsVec (e : Elem K) (ns : ℕ) (alpha lps : K) (convert : (ℕ → K) → (ℕ → K))
    (scale : ℕ → (ℕ → K) → (ℕ → K) → (ℕ → K)) (elfun : ℕ → K) : ℕ → K :=
  let Pw := lpsPw e ns convert elfun
  let w1 : ℕ → ℕ → K := fun n i => scale i (row elfun e.dof i) (fun m => Pw m i) n * lps
  let w2 := multNormMatrix e ns w1 w1
  packT e.dof alpha (multProjOperator e ns true w2)

/-- `Lij`, inviscid_integ_def.hpp:370-384. -/
def lpsL (e : Elem K) (scaleJacV : ℕ → (ℕ → K) → (ℕ → ℕ → K)) (elfun : ℕ → K) (i j : ℕ) :
    ℕ → ℕ → K :=
  forN e.dof (fun k L => fun n m => L n m + getProjOperatorEntry e k i * e.H k *
    getProjOperatorEntry e k j * scaleJacV k (row elfun e.dof k) n m) (fun _ _ => 0)

/-- `Mult(Lij, jac_term, jac_node)`, inviscid_integ_def.hpp:388, 403. -/
def matMul (ns : ℕ) (A B : ℕ → ℕ → K) : ℕ → ℕ → K :=
  fun n m => forN ns (fun k s => s + A n k * B k m) 0

/-- `jac_node` for row node `i`, column node `j`: `Lij` times the Jacobian of `convert` at `c`
(inviscid_integ_def.hpp:386-388: `c = j`; 401-403: `c = i`). -/
def lpsNode (e : Elem K) (ns : ℕ) (scaleJacV : ℕ → (ℕ → K) → (ℕ → ℕ → K))
    (convJac : (ℕ → K) → (ℕ → ℕ → K)) (elfun : ℕ → K) (i j c : ℕ) : ℕ → ℕ → K :=
  matMul ns (lpsL e scaleJacV elfun i j) (convJac (row elfun e.dof c))

/-- Body of the `i` loop of `LPSIntegrator::AssembleElementGrad`,
inviscid_integ_def.hpp:348-412. -/
def lpsGradBody (e : Elem K) (ns : ℕ) (convert : (ℕ → K) → (ℕ → K))
    (convJac : (ℕ → K) → (ℕ → ℕ → K))
    (scaleJacState : ℕ → (ℕ → K) → (ℕ → K) → (ℕ → ℕ → K))
    (scaleJacV : ℕ → (ℕ → K) → (ℕ → ℕ → K)) (elfun : ℕ → K) (i : ℕ) (M : ℕ → ℕ → K) :
    ℕ → ℕ → K :=
  let Pw := lpsPw e ns convert elfun
  let M1 := forN e.dof (fun j => forN ns (fun n => forN ns (fun m =>
    addAt2 (n * e.dof + j) (m * e.dof + i) (e.H i * getProjOperatorEntry e i j *
      scaleJacState i (row elfun e.dof i) (fun k => Pw k i) n m)))) M
  forFromTo i e.dof (fun j M =>
    let M2 := forN ns (fun n => forN ns (fun m => addAt2 (n * e.dof + i) (m * e.dof + j)
      (lpsNode e ns scaleJacV convJac elfun i j j n m))) M
    if i = j then M2
    else forN ns (fun n => forN ns (fun m => addAt2 (n * e.dof + j) (m * e.dof + i)
      (lpsNode e ns scaleJacV convJac elfun i j i n m))) M2) M1

/-- `LPSIntegrator::AssembleElementGrad`, inviscid_integ_def.hpp:308-414.  The LPS coefficient does
not appear. -/
def lpsGrad (e : Elem K) (ns : ℕ) (alpha : K) (convert : (ℕ → K) → (ℕ → K))
    (convJac : (ℕ → K) → (ℕ → ℕ → K))
    (scaleJacState : ℕ → (ℕ → K) → (ℕ → K) → (ℕ → ℕ → K))
    (scaleJacV : ℕ → (ℕ → K) → (ℕ → ℕ → K)) (elfun : ℕ → K) : ℕ → ℕ → K :=
  fun p q => (forN e.dof (lpsGradBody e ns convert convJac scaleJacState scaleJacV elfun)
    (fun _ _ => 0)) p q * alpha

/-! ### Boundary, face and mass integrators

`nodeOf i` is the element node that `getIntegrationPointIndex` finds for face node `i`. -/

/-- A face as seen by the integrators: number of face nodes, quadrature weights, face normals
(`CalcOrtho`), physical coordinates, and the element node(s) matching each face node.
inviscid_integ_def.hpp:416-748. -/
structure Face (K : Type*) where
  /-- `sbp_face->GetDof()` -/
  n : ℕ
  /-- `face_ip.weight` -/
  w : ℕ → K
  /-- `nrm` -/
  nrm : ℕ → ℕ → K
  /-- `x` -/
  x : ℕ → ℕ → K
  /-- index found in the (left) element -/
  left : ℕ → ℕ
  /-- index found in the right element -/
  right : ℕ → ℕ

/-- `InviscidBoundaryIntegrator::GetFaceEnergy`, inviscid_integ_def.hpp:416-468. -/
def bndEnergy (f : Face K) (N : ℕ) (alpha : K) (bfun : (ℕ → K) → (ℕ → K) → (ℕ → K) → K)
    (elfun : ℕ → K) : K :=
  forN f.n (fun i s => s + bfun (f.x i) (f.nrm i) (row elfun N (f.left i)) * f.w i * alpha) 0

/-- `InviscidBoundaryIntegrator::AssembleFaceVector`, inviscid_integ_def.hpp:470-533. -/
def bndVec (f : Face K) (N ns : ℕ) (alpha : K) (flux : (ℕ → K) → (ℕ → K) → (ℕ → K) → (ℕ → K))
    (elfun : ℕ → K) : ℕ → K :=
  forN f.n (fun i => forN ns (fun n => addAt (n * N + f.left i)
    (alpha * (flux (f.x i) (f.nrm i) (row elfun N (f.left i)) n * f.w i)))) (fun _ => 0)

/-- `InviscidBoundaryIntegrator::AssembleFaceGrad`, inviscid_integ_def.hpp:535-608. -/
def bndGrad (f : Face K) (N ns : ℕ) (alpha : K)
    (fluxJac : (ℕ → K) → (ℕ → K) → (ℕ → K) → (ℕ → ℕ → K)) (elfun : ℕ → K) : ℕ → ℕ → K :=
  forN f.n (fun i => forN ns (fun n => forN ns (fun m =>
    addAt2 (m * N + f.left i) (n * N + f.left i)
      (alpha * (fluxJac (f.x i) (f.nrm i) (row elfun N (f.left i)) m n * f.w i))))) (fun _ _ => 0)

/-- `u_right`'s row `i`: the right element's data start at `num_nodes_left * num_states`,
inviscid_integ_def.hpp:627-630. -/
def rowRight (elfun : ℕ → K) (ns NL NR i : ℕ) : ℕ → K := fun n => elfun (NL * ns + (n * NR + i))

/-- `nrm *= c`. inviscid_integ_def.hpp:818-836. -/
def scaleNrm (c : K) (nrm : ℕ → K) : ℕ → K := fun d => nrm d * c

/-- `InviscidFaceIntegrator::GetFaceEnergy`, inviscid_integ_def.hpp:610-671: `alpha` is not used. -/
def faceEnergy (f : Face K) (NL NR ns : ℕ) (ifun : (ℕ → K) → (ℕ → K) → (ℕ → K) → K)
    (elfun : ℕ → K) : K :=
  forN f.n (fun i s => s + ifun (scaleNrm (f.w i) (f.nrm i)) (row elfun NL (f.left i))
    (rowRight elfun ns NL NR (f.right i))) 0

/-- `InviscidFaceIntegrator::AssembleFaceVector`, inviscid_integ_def.hpp:673-748. -/
def faceVec (f : Face K) (NL NR ns : ℕ) (alpha : K)
    (flux : (ℕ → K) → (ℕ → K) → (ℕ → K) → (ℕ → K)) (elfun : ℕ → K) : ℕ → K :=
  forN f.n (fun i => forN ns (fun n v =>
    let x := alpha * flux (scaleNrm (f.w i) (f.nrm i)) (row elfun NL (f.left i))
      (rowRight elfun ns NL NR (f.right i)) n
    addAt (NL * ns + (n * NR + f.right i)) (-x) (addAt (n * NL + f.left i) x v))) (fun _ => 0)

/-- The four updates of the innermost loop of `InviscidFaceIntegrator::AssembleFaceGrad`,
inviscid_integ_def.hpp:818-836. -/
def faceGradUpd (NL NR ns l r n m : ℕ) (jl jr : K) (M : ℕ → ℕ → K) : ℕ → ℕ → K :=
  addAt2 (ns * NL + (n * NR + r)) (ns * NL + (m * NR + r)) (-jr)
    (addAt2 (ns * NL + (n * NR + r)) (m * NL + l) (-jl)
      (addAt2 (n * NL + l) (ns * NL + (m * NR + r)) jr (addAt2 (n * NL + l) (m * NL + l) jl M)))

/-- `InviscidFaceIntegrator::AssembleFaceGrad`, inviscid_integ_def.hpp:750-839: the flux Jacobians
are evaluated at the normal scaled by `alpha * weight`. -/
def faceGrad (f : Face K) (NL NR ns : ℕ) (alpha : K)
    (jacL jacR : (ℕ → K) → (ℕ → K) → (ℕ → K) → (ℕ → ℕ → K)) (elfun : ℕ → K) : ℕ → ℕ → K :=
  forN f.n (fun i => forN ns (fun n => forN ns (fun m =>
    faceGradUpd NL NR ns (f.left i) (f.right i) n m
      (jacL (scaleNrm (alpha * f.w i) (f.nrm i)) (row elfun NL (f.left i))
        (rowRight elfun ns NL NR (f.right i)) n m)
      (jacR (scaleNrm (alpha * f.w i) (f.nrm i)) (row elfun NL (f.left i))
        (rowRight elfun ns NL NR (f.right i)) n m)))) (fun _ _ => 0)

/-- `NonlinearMassIntegrator::AssembleElementVector`, inviscid_integ_def.hpp:841-875;
`w i = trans.Weight() * ip.weight`. -/
def massVec (N ns : ℕ) (alpha : K) (w : ℕ → K) (convert : (ℕ → K) → (ℕ → K)) (elfun : ℕ → K) :
    ℕ → K :=
  fun p => (forN N (fun i => forN ns (fun n => addAt (n * N + i)
    (w i * convert (row elfun N i) n))) (fun _ => 0)) p * alpha

/-- `NonlinearMassIntegrator::AssembleElementGrad`, inviscid_integ_def.hpp:877-915. -/
def massGrad (N ns : ℕ) (alpha : K) (w : ℕ → K) (convJac : (ℕ → K) → (ℕ → ℕ → K))
    (elfun : ℕ → K) : ℕ → ℕ → K :=
  fun p q => (forN N (fun i => forN ns (fun n => forN ns (fun m =>
    addAt2 (n * N + i) (m * N + i) (w i * convJac (row elfun N i) n m)))) (fun _ _ => 0)) p q * alpha

end Verif.Inviscid
