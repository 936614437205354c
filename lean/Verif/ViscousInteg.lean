import Verif.InviscidInteg

/-!
Model of the generic second-derivative SBP integrators,
`/repo/src/physics/fluidflow/viscous_integ_def.hpp`, and of the surface-force functional's assembly in
`/repo/src/physics/fluidflow/navier_stokes_integ_def.hpp`.

As in `InviscidInteg.lean`, element vectors are flat: the entry for node `k` and state `s` is
`s * num_nodes + k`.  `wt i` is `Trans.Weight()` and `adj i` the adjugate of the mapping Jacobian at
node `i`.  The CRTP members (`convert`, `scale`, `flux`, `fluxDv`, ... and their Jacobians) are
parameters.  A `DenseMatrix` of size `num_states x dim` is a function of state and direction.
-/

namespace Verif.ViscousInteg
open Verif.Sbp Verif.Inviscid

variable {K : Type*} [Field K]

/-- `double Hinv = 1.0 / (sbp.getDiagNormEntry(i) * Trans.Weight());` viscous_integ_def.hpp:72, 301,
396, 523; navier_stokes_integ_def.hpp:1468, 1563. -/
def hinv (e : Elem K) (wt : ℕ → K) (i : ℕ) : K := 1 / (e.H i * wt i)

/-- `Dwi`: the physical-space derivative at node `i`, viscous_integ_def.hpp:78-96 (and 163-181,
305-322, 400-417, 527-544; navier_stokes_integ_def.hpp:1472-1489, 1567-1584). -/
def calcDw (e : Elem K) (ns : ℕ) (wt : ℕ → K) (adj : ℕ → ℕ → ℕ → K) (convert : (ℕ → K) → (ℕ → K))
    (u : ℕ → K) (i : ℕ) : ℕ → ℕ → K :=
  let D := forN e.dof (fun j => forN e.dim (fun d => forN ns (fun s =>
    addAt2 s d (getQEntry e d i j (adj i) (adj j) * convert (row u e.dof j) s)))) (fun _ _ => 0)
  fun s d => D s d * hinv e wt i

/-! ### SymmetricViscousIntegrator -/

/-- `SymmetricViscousIntegrator::AssembleElementVector`, viscous_integ_def.hpp:39-117; `x i` is the
physical location of node `i`. -/
def symVec (e : Elem K) (ns : ℕ) (alpha : K) (wt : ℕ → K) (adj : ℕ → ℕ → ℕ → K) (x : ℕ → ℕ → K)
    (convert : (ℕ → K) → (ℕ → K))
    (scale : ℕ → (ℕ → K) → (ℕ → K) → (ℕ → ℕ → K) → (ℕ → K)) (u : ℕ → K) : ℕ → K :=
  forN e.dof (fun i => forN e.dim (fun d => forN e.dof (fun k => forN ns (fun s =>
    addAt (s * e.dof + k) (alpha * getQEntry e d i k (adj i) (adj k) *
      scale d (x i) (row u e.dof i) (calcDw e ns wt adj convert u i) s))))) (fun _ => 0)

/-- `SymmetricViscousIntegrator::GetElementEnergy`, viscous_integ_def.hpp:12-37. -/
def symEnergy (e : Elem K) (ns : ℕ) (alpha : K) (wt : ℕ → K) (adj : ℕ → ℕ → ℕ → K) (x : ℕ → ℕ → K)
    (convert : (ℕ → K) → (ℕ → K))
    (scale : ℕ → (ℕ → K) → (ℕ → K) → (ℕ → ℕ → K) → (ℕ → K)) (u : ℕ → K) : K :=
  let res := symVec e ns alpha wt adj x convert scale u
  forN e.dof (fun i s => s + forN ns (fun n t => t + convert (row u e.dof i) n * row res e.dof i n) 0)
    0

/-- The contribution of `(i, d, k)` in `SymmetricViscousIntegrator::AssembleElementGrad`,
viscous_integ_def.hpp:188-238: `jac1 = jac_term1`, `CDw = CDw_jac`, `convJac = convertJacState`. -/
def symGradUpd (e : Elem K) (ns : ℕ) (wt : ℕ → K) (adj : ℕ → ℕ → ℕ → K)
    (convJac : (ℕ → K) → (ℕ → ℕ → K)) (jac1 : ℕ → ℕ → K) (CDw : ℕ → ℕ → ℕ → K) (u : ℕ → K)
    (i d k : ℕ) (M : ℕ → ℕ → K) : ℕ → ℕ → K :=
  let Qik := getQEntry e d i k (adj i) (adj k)
  let M1 := forN ns (fun sk => forN ns (fun si =>
    addAt2 (sk * e.dof + k) (si * e.dof + i) (Qik * jac1 sk si))) M
  forN e.dof (fun j => forN e.dim (fun d2 => forN ns (fun sk => forN ns (fun sj =>
    addAt2 (sk * e.dof + k) (sj * e.dof + j)
      (matMul ns (CDw d2) (convJac (row u e.dof j)) sk sj *
        (Qik * hinv e wt i * getQEntry e d2 i j (adj i) (adj j))))))) M1

/-- `SymmetricViscousIntegrator::AssembleElementGrad`, viscous_integ_def.hpp:119-243;
`scaleJac`/`scaleJacDw` are the Jacobians of `scale` with respect to the state and to each column of
`Dw`. -/
def symGrad (e : Elem K) (ns : ℕ) (alpha : K) (wt : ℕ → K) (adj : ℕ → ℕ → ℕ → K) (x : ℕ → ℕ → K)
    (convert : (ℕ → K) → (ℕ → K)) (convJac : (ℕ → K) → (ℕ → ℕ → K))
    (scaleJac : ℕ → (ℕ → K) → (ℕ → K) → (ℕ → ℕ → K) → (ℕ → ℕ → K))
    (scaleJacDw : ℕ → (ℕ → K) → (ℕ → K) → (ℕ → ℕ → K) → (ℕ → ℕ → ℕ → K)) (u : ℕ → K) :
    ℕ → ℕ → K :=
  fun p q => (forN e.dof (fun i => forN e.dim (fun d => forN e.dof (fun k =>
    symGradUpd e ns wt adj convJac
      (scaleJac d (x i) (row u e.dof i) (calcDw e ns wt adj convert u i))
      (scaleJacDw d (x i) (row u e.dof i) (calcDw e ns wt adj convert u i)) u i d k)))
    (fun _ _ => 0)) p q * alpha

/-! ### ViscousBoundaryIntegrator

`f.left k` is the element node that `getIntegrationPointIndex` finds for face node `k`.  The `switch`
on the dimension (viscous_integ_def.hpp:269-285) only selects the face element, which is `f`. -/

/-- `ViscousBoundaryIntegrator::GetFaceEnergy`, viscous_integ_def.hpp:245-330. -/
def vbEnergy (f : Face K) (e : Elem K) (ns : ℕ) (alpha : K) (wt : ℕ → K) (adj : ℕ → ℕ → ℕ → K)
    (convert : (ℕ → K) → (ℕ → K))
    (bfun : (ℕ → K) → (ℕ → K) → K → (ℕ → K) → (ℕ → ℕ → K) → K) (u : ℕ → K) : K :=
  forN f.n (fun k s => s + bfun (f.x k) (f.nrm k) (wt (f.left k)) (row u e.dof (f.left k))
    (calcDw e ns wt adj convert u (f.left k)) * f.w k * alpha) 0

/-- Body of the face-node loop of `ViscousBoundaryIntegrator::AssembleFaceVector`,
viscous_integ_def.hpp:386-450.  The second group of updates is not multiplied by `alpha`. -/
def vbVecBody (f : Face K) (e : Elem K) (ns : ℕ) (alpha : K) (wt : ℕ → K) (adj : ℕ → ℕ → ℕ → K)
    (convert : (ℕ → K) → (ℕ → K))
    (flux : (ℕ → K) → (ℕ → K) → K → (ℕ → K) → (ℕ → ℕ → K) → (ℕ → K))
    (fluxDv : (ℕ → K) → (ℕ → K) → (ℕ → K) → (ℕ → ℕ → K)) (u : ℕ → K) (k : ℕ) (res : ℕ → K) :
    ℕ → K :=
  let i := f.left k
  let res1 := forN ns (fun s => addAt (s * e.dof + i) (alpha * (flux (f.x k) (f.nrm k) (wt i)
    (row u e.dof i) (calcDw e ns wt adj convert u i) s * f.w k))) res
  forN e.dof (fun j => forN e.dim (fun d => forN ns (fun s => addAt (s * e.dof + j)
    (getQEntry e d i j (adj i) (adj j) *
      (fluxDv (f.x k) (f.nrm k) (row u e.dof i) s d * f.w k * hinv e wt i))))) res1

/-- `ViscousBoundaryIntegrator::AssembleFaceVector`, viscous_integ_def.hpp:332-452. -/
def vbVec (f : Face K) (e : Elem K) (ns : ℕ) (alpha : K) (wt : ℕ → K) (adj : ℕ → ℕ → ℕ → K)
    (convert : (ℕ → K) → (ℕ → K))
    (flux : (ℕ → K) → (ℕ → K) → K → (ℕ → K) → (ℕ → ℕ → K) → (ℕ → K))
    (fluxDv : (ℕ → K) → (ℕ → K) → (ℕ → K) → (ℕ → ℕ → K)) (u : ℕ → K) : ℕ → K :=
  forN f.n (vbVecBody f e ns alpha wt adj convert flux fluxDv u) (fun _ => 0)

/-- Body of the face-node loop of `ViscousBoundaryIntegrator::AssembleFaceGrad`,
viscous_integ_def.hpp:513-606.  `alpha` does not appear in the function. -/
def vbGradBody (f : Face K) (e : Elem K) (ns : ℕ) (wt : ℕ → K) (adj : ℕ → ℕ → ℕ → K)
    (convert : (ℕ → K) → (ℕ → K)) (convJac : (ℕ → K) → (ℕ → ℕ → K))
    (fluxJac : (ℕ → K) → (ℕ → K) → K → (ℕ → K) → (ℕ → ℕ → K) → (ℕ → ℕ → K))
    (fluxJacDw : (ℕ → K) → (ℕ → K) → K → (ℕ → K) → (ℕ → ℕ → K) → (ℕ → ℕ → ℕ → K))
    (fluxDvJac : (ℕ → K) → (ℕ → K) → (ℕ → K) → (ℕ → ℕ → ℕ → K)) (u : ℕ → K) (k : ℕ)
    (M : ℕ → ℕ → K) : ℕ → ℕ → K :=
  let i := f.left k
  let Dwi := calcDw e ns wt adj convert u i
  let M1 := forN ns (fun s1 => forN ns (fun s2 => addAt2 (s1 * e.dof + i) (s2 * e.dof + i)
    (fluxJac (f.x k) (f.nrm k) (wt i) (row u e.dof i) Dwi s1 s2 * f.w k))) M
  let M2 := forN e.dof (fun j => forN e.dim (fun d => forN ns (fun si => forN ns (fun sj =>
    addAt2 (si * e.dof + i) (sj * e.dof + j)
      (matMul ns (fluxJacDw (f.x k) (f.nrm k) (wt i) (row u e.dof i) Dwi d)
        (convJac (row u e.dof j)) si sj *
        (hinv e wt i * getQEntry e d i j (adj i) (adj j) * f.w k)))))) M1
  forN e.dof (fun j => forN e.dim (fun d => forN ns (fun si => forN ns (fun sj =>
    addAt2 (sj * e.dof + j) (si * e.dof + i)
      (f.w k * hinv e wt i * getQEntry e d i j (adj i) (adj j) *
        fluxDvJac (f.x k) (f.nrm k) (row u e.dof i) d sj si))))) M2

/-- `ViscousBoundaryIntegrator::AssembleFaceGrad`, viscous_integ_def.hpp:454-608. -/
def vbGrad (f : Face K) (e : Elem K) (ns : ℕ) (wt : ℕ → K) (adj : ℕ → ℕ → ℕ → K)
    (convert : (ℕ → K) → (ℕ → K)) (convJac : (ℕ → K) → (ℕ → ℕ → K))
    (fluxJac : (ℕ → K) → (ℕ → K) → K → (ℕ → K) → (ℕ → ℕ → K) → (ℕ → ℕ → K))
    (fluxJacDw : (ℕ → K) → (ℕ → K) → K → (ℕ → K) → (ℕ → ℕ → K) → (ℕ → ℕ → ℕ → K))
    (fluxDvJac : (ℕ → K) → (ℕ → K) → (ℕ → K) → (ℕ → ℕ → ℕ → K)) (u : ℕ → K) : ℕ → ℕ → K :=
  forN f.n (vbGradBody f e ns wt adj convert convJac fluxJac fluxJacDw fluxDvJac u) (fun _ _ => 0)

/-! ### SurfaceForce

`SurfaceForce::GetFaceEnergy` (navier_stokes_integ_def.hpp:1414-1497) is line for line
`ViscousBoundaryIntegrator::GetFaceEnergy`, i.e. `vbEnergy`. -/

/-- Body of the face-node loop of `SurfaceForce::AssembleFaceVector`,
navier_stokes_integ_def.hpp:1552-1612.  The second group of updates is not multiplied by `alpha`. -/
def sfVecBody (f : Face K) (e : Elem K) (ns : ℕ) (alpha : K) (wt : ℕ → K) (adj : ℕ → ℕ → ℕ → K)
    (convert : (ℕ → K) → (ℕ → K)) (convJac : (ℕ → K) → (ℕ → ℕ → K))
    (funJac : (ℕ → K) → (ℕ → K) → K → (ℕ → K) → (ℕ → ℕ → K) → (ℕ → K))
    (funJacDw : (ℕ → K) → (ℕ → K) → K → (ℕ → K) → (ℕ → ℕ → K) → (ℕ → ℕ → K)) (u : ℕ → K) (k : ℕ)
    (res : ℕ → K) : ℕ → K :=
  let i := f.left k
  let Dwi := calcDw e ns wt adj convert u i
  let res1 := forN ns (fun s => addAt (s * e.dof + i) (alpha *
    (funJac (f.x k) (f.nrm k) (wt i) (row u e.dof i) Dwi s * f.w k))) res
  forN e.dof (fun j => forN e.dim (fun d => forN ns (fun s1 => forN ns (fun s2 =>
    addAt (s2 * e.dof + j) (convJac (row u e.dof j) s1 s2 * getQEntry e d i j (adj i) (adj j) *
      (funJacDw (f.x k) (f.nrm k) (wt i) (row u e.dof i) Dwi s1 d * f.w k * hinv e wt i)))))) res1

/-- `SurfaceForce::AssembleFaceVector`, navier_stokes_integ_def.hpp:1499-1614. -/
def sfVec (f : Face K) (e : Elem K) (ns : ℕ) (alpha : K) (wt : ℕ → K) (adj : ℕ → ℕ → ℕ → K)
    (convert : (ℕ → K) → (ℕ → K)) (convJac : (ℕ → K) → (ℕ → ℕ → K))
    (funJac : (ℕ → K) → (ℕ → K) → K → (ℕ → K) → (ℕ → ℕ → K) → (ℕ → K))
    (funJacDw : (ℕ → K) → (ℕ → K) → K → (ℕ → K) → (ℕ → ℕ → K) → (ℕ → ℕ → K)) (u : ℕ → K) : ℕ → K :=
  forN f.n (sfVecBody f e ns alpha wt adj convert convJac funJac funJacDw u) (fun _ => 0)

end Verif.ViscousInteg
