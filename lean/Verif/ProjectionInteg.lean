import Verif.ThermalFaces

/-!
Model of `L2ProjectionIntegrator` and `TestBCIntegrator` with their mesh sensitivities
(`/repo/src/physics/thermal/thermal_integ.cpp:8-339`).  `R` is the family of quadrature rules on the element or boundary face, with the
shape functions at their points; `g` the desired value at the points (`g.Eval(trans, ip)`).
-/

namespace Verif.ProjectionInteg
open Verif.Sbp Verif.Dense Verif.Diffusion Verif.DGDiffusion Verif.ThermalFaces

variable {nd : ℕ}

/-- `2 * el.GetOrder() + trans.OrderW()`: residual, Jacobian and mesh sensitivity, thermal_integ.cpp:169, 203, 266. -/
def l2Order (p ow : ℕ) : ℕ := 2 * p + ow

/-- `L2ProjectionIntegrator::AssembleElementVector`, thermal_integ.cpp:152-190. -/
def l2Vec (alpha : ℝ) (R : ℕ → BRule nd) (g : ℕ → ℕ → ℝ) (p ow : ℕ) (u : Vec nd) : Vec nd :=
  let r := R (l2Order p ow)
  forN r.n (fun i v =>
    let q := r.pt i
    let w := alpha * q.w * q.J
    let state := dotv u q.shape
    let desired := g (l2Order p ow) i
    axpy (w * (state - desired)) q.shape v) zeroV

/-- `L2ProjectionIntegrator::AssembleElementGrad`, thermal_integ.cpp:192-223. -/
def l2Grad (alpha : ℝ) (R : ℕ → BRule nd) (p ow : ℕ) : Mat nd nd :=
  let r := R (l2Order p ow)
  forN r.n (fun i A =>
    let q := r.pt i
    let w := alpha * q.w * q.J
    addVWt w q.shape q.shape A) zeroM

/-- `L2ProjectionIntegratorMeshRevSens::AssembleRHSElementVect`, thermal_integ.cpp:225-339.  `wRev`, `gRev`: what `isotrans.WeightRevDiff` and
`g.EvalRevDiff` add to `PointMat_bar` at a point; `mf` the number of mesh nodes of the element. -/
noncomputable def l2Mesh (alpha : ℝ) (R : ℕ → BRule nd) (g : ℕ → ℕ → ℝ) (p ow dim mf : ℕ) (wRev gRev : ℕ → ℕ → ℝ → ℕ → ℕ → ℝ)
    (u psi : Vec nd) : ℕ → ℝ :=
  let r := R (l2Order p ow)
  forN r.n (fun i bar =>
    let q := r.pt i
    let w := alpha * q.w * q.J
    let state := dotv u q.shape
    let desired := g (l2Order p ow) i
    let psiShape := dotv psi q.shape
    let wBar := 1 * (state - desired) * psiShape
    let desiredBar := -1 * w * psiShape
    let JBar := wBar * alpha * q.w
    scatter mf dim (fun k j => 0 + gRev (l2Order p ow) i desiredBar k j + wRev (l2Order p ow) i JBar k j) bar) (fun _ => 0)

/-- `TestBCIntegrator::AssembleFaceVector`, thermal_integ.cpp:10-50. -/
def testVec (R : ℕ → BRule nd) (p ow : ℕ) (u : Vec nd) : Vec nd :=
  let r := R (bcOrder p ow)
  forN r.n (fun i v =>
    let q := r.pt i
    let w := q.w * q.J
    let val := dotv u q.shape * w
    axpy val q.shape v) zeroV

/-- `TestBCIntegratorMeshRevSens::AssembleRHSElementVect`, thermal_integ.cpp:52-150. -/
noncomputable def testMesh (R : ℕ → BRule nd) (p ow dim mf : ℕ) (wRev : ℕ → ℕ → ℝ → ℕ → ℕ → ℝ) (u psi : Vec nd) : ℕ → ℝ :=
  let r := R (bcSensOrder p ow)
  forN r.n (fun i bar =>
    let q := r.pt i
    let elfunShape := dotv u q.shape
    let psiShape := dotv psi q.shape
    let wBar := 1 * psiShape * elfunShape
    let JBar := wBar * q.w
    scatter mf dim (fun k j => 0 + wRev (bcSensOrder p ow) i JBar k j) bar) (fun _ => 0)

end Verif.ProjectionInteg
