import Verif.Force

/-!
Model of the curl-curl element of the three-dimensional magnetostatic residual, `CurlCurlNLFIntegrator`,
and its sensitivities, `/repo/src/physics/electromagnetics/electromag_integ.cpp:3197-3621` (added to the
residual in `/repo/src/physics/electromagnetics/magnetostatic_residual.cpp:256`).
-/

namespace Verif.CurlCurl
open Verif.Sbp Verif.Dense Verif.Diffusion Verif.Force

variable {ndof : ℕ}

/-- One quadrature point: `ip.weight`, the reference curls `el.CalcCurlShape`, `trans.Jacobian()` and
`trans.Weight()`, electromag_integ.cpp:3240-3256.  Simplification: three dimensions only (the branch
`dim != 3` is reached by no residual of the repository). -/
structure CPt (ndof : ℕ) where
  w : ℝ
  cs : Mat ndof 3
  jac : Mat 3 3
  J : ℝ

/-- `curlshape_dFt`, electromag_integ.cpp:3251. -/
def CPt.cdft (p : CPt ndof) : Mat ndof 3 := mulABt p.cs p.jac

/-- Body of the quadrature loop of `AssembleElementVector`, electromag_integ.cpp:3238-3267;
`nu` is `model.Eval(trans, ip, ·)`. -/
noncomputable def vecBody (alpha : ℝ) (nu : ℝ → ℝ) (p : CPt ndof) (u elvect : Vec ndof) : Vec ndof :=
  let w := p.w / p.J
  let w := w * alpha
  let b := addMulTV p.cdft u zeroV
  let norm := norm2 b
  let mag := norm / p.J
  let modelVal := nu mag
  let modelVal := modelVal * w
  let b := scale modelVal b
  addMulV p.cdft 1 b elvect

/-- `CurlCurlNLFIntegrator::AssembleElementVector`, electromag_integ.cpp:3197-3268. -/
noncomputable def elemVec (alpha : ℝ) (nu : ℕ → ℝ → ℝ) (n : ℕ) (pt : ℕ → CPt ndof) (u : Vec ndof) : Vec ndof :=
  forN n (fun i => vecBody alpha (nu i) (pt i) u) zeroV

/-- Body of the quadrature loop of `AssembleElementGrad`, electromag_integ.cpp:3312-3371; `dnu` is
`model.EvalStateDeriv(trans, ip, ·)`. -/
noncomputable def gradBody (alpha : ℝ) (nu dnu : ℝ → ℝ) (p : CPt ndof) (u : Vec ndof) (elmat : Mat ndof ndof) :
    Mat ndof ndof :=
  let w := p.w / p.J
  let w := w * alpha
  let b := mulTV p.cdft u
  let b : Vec 3 := fun k => b k / p.J
  let mag := norm2 b
  let modelVal := nu mag * w
  let elmat := addABt (scaleM modelVal p.cdft) p.cdft elmat
  if |mag| > 1 / 10 ^ 14 then
    let scratch := mulV p.cdft b
    let modelDeriv := dnu mag * w
    let modelDeriv := modelDeriv / mag
    addVWt modelDeriv scratch scratch elmat
  else elmat

/-- `CurlCurlNLFIntegrator::AssembleElementGrad`, electromag_integ.cpp:3270-3390. -/
noncomputable def elemGrad (alpha : ℝ) (nu dnu : ℕ → ℝ → ℝ) (n : ℕ) (pt : ℕ → CPt ndof) (u : Vec ndof) :
    Mat ndof ndof :=
  forN n (fun i => gradBody alpha (nu i) (dnu i) (pt i) u) zeroM

/-- `CurlCurlNLFIntegratorStateRevSens::AssembleRHSElementVect`, electromag_integ.cpp:3392-3418. -/
noncomputable def stateRev (alpha : ℝ) (nu dnu : ℕ → ℝ → ℝ) (n : ℕ) (pt : ℕ → CPt ndof) (u psi : Vec ndof) :
    Vec ndof := mulTV (elemGrad alpha nu dnu n pt u) psi

/-- `CurlCurlNLFIntegratorStateFwdSens::AssembleRHSElementVect`, electromag_integ.cpp:3420-3446. -/
noncomputable def stateFwd (alpha : ℝ) (nu dnu : ℕ → ℝ → ℝ) (n : ℕ) (pt : ℕ → CPt ndof) (u udot : Vec ndof) :
    Vec ndof := mulV (elemGrad alpha nu dnu n pt u) udot

/-- The reverse pass at one quadrature point of `CurlCurlNLFIntegratorMeshRevSens`,
electromag_integ.cpp:3518-3603: `jac_bar` and the final `trans_weight_bar`.  `alpha` is not used. -/
noncomputable def revPoint (nu dnu : ℝ → ℝ) (p : CPt ndof) (u psi : Vec ndof) : Mat 3 3 × ℝ :=
  let w := p.w / p.J
  let b := addMulTV p.cdft u zeroV
  let curlPsi := addMulTV p.cdft psi zeroV
  let cdb := dotv curlPsi b
  let norm := norm2 b
  let mag := norm / p.J
  let nuVal := nu mag
  let funBar : ℝ := 1
  let nuValBar := funBar * cdb * w
  let cdbBar := funBar * nuVal * w
  let wBar := funBar * nuVal * cdb
  let magBar := 0 + nuValBar * dnu mag
  let normBar := 0 + magBar / p.J
  let JBar := 0 - magBar * norm / p.J ^ 2
  let bBar : Vec 3 := axpy (normBar / norm) b zeroV
  let cpBar : Vec 3 := axpy cdbBar b zeroV
  let bBar := axpy cdbBar curlPsi bBar
  let cdftBar : Mat 3 ndof := addVWt 1 cpBar psi zeroM
  let cdftBar := addVWt 1 bBar u cdftBar
  let jacBar : Mat 3 3 := fun a b => zeroM a b + mulM cdftBar p.cs a b
  let JBar := JBar - wBar * p.w / p.J ^ 2
  (jacBar, JBar)

/-- `CurlCurlNLFIntegratorMeshRevSens::AssembleRHSElementVect`, electromag_integ.cpp:3448-3621.
`jacRev i` and `wRev i 1` are what MFEM's `JacobianRevDiff` and `WeightRevDiff` add to
`PointMat_bar`; the latter is scaled by `trans_weight_bar` before the former is added. -/
noncomputable def meshSens (nu dnu : ℕ → ℝ → ℝ) (n meshNdof : ℕ) (pt : ℕ → CPt ndof)
    (jacRev : ℕ → Mat 3 3 → ℕ → ℕ → ℝ) (wRev : ℕ → ℝ → ℕ → ℕ → ℝ) (u psi : Vec ndof) : ℕ → ℝ :=
  forN n (fun i bar =>
    let r := revPoint (nu i) (dnu i) (pt i) u psi
    scatter meshNdof 3 (fun k j => (0 + wRev i 1 k j) * r.2 + jacRev i r.1 k j) bar) (fun _ => 0)

/-- Rule used when none is set, electromag_integ.cpp:3221-3236 (residual), 3293-3308 (Jacobian),
3505-3520 (mesh sensitivity). -/
def rule (s : Space) (order : ℕ) : Rule :=
  if s = .Pk then ⟨false, 2 * order - 1⟩ else ⟨false, 2 * order⟩

end Verif.CurlCurl
