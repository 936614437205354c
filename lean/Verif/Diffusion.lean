import Verif.Dense

/-!
Model of `NonlinearDiffusionIntegrator` and its mesh sensitivity,
`/repo/src/physics/electromagnetics/electromag_integ.cpp:13-448` (used by the thermal and the
two-dimensional magnetostatic residuals), and of the magnetic energy density functions.
-/

namespace Verif.Diffusion
open Verif.Sbp Verif.Dense

variable {ndof dim : ℕ}

/-- One quadrature point: `ip.weight`, `el.CalcDShape`, `trans.AdjugateJacobian()` and
`trans.Weight()` there (electromag_integ.cpp:138-147). -/
structure QPt (ndof dim : ℕ) where
  w : ℝ
  dshape : Mat ndof dim
  adj : Mat dim dim
  J : ℝ

/-- `dshapedxt`, electromag_integ.cpp:146-147. -/
def QPt.dxt (p : QPt ndof dim) : Mat ndof dim := mulM p.dshape p.adj

/-- Body of the quadrature loop of `NonlinearDiffusionIntegrator::AssembleElementVector`,
electromag_integ.cpp:138-164; `nu` is `model.Eval(trans, ip, ·)`. -/
noncomputable def vecBody (alpha : ℝ) (nu : ℝ → ℝ) (p : QPt ndof dim) (u : Vec ndof) (elvect : Vec ndof) :
    Vec ndof :=
  let w := alpha * p.w / p.J
  let pointflux := mulTV p.dxt u
  let mag := norm2 pointflux / p.J
  let modelVal := nu mag
  addMulV p.dxt 1 (scale (w * modelVal) pointflux) elvect

/-- `NonlinearDiffusionIntegrator::AssembleElementVector`, electromag_integ.cpp:92-165. -/
noncomputable def elemVec (alpha : ℝ) (nu : ℕ → ℝ → ℝ) (n : ℕ) (pt : ℕ → QPt ndof dim) (u : Vec ndof) :
    Vec ndof :=
  forN n (fun i => vecBody alpha (nu i) (pt i) u) zeroV

/-- Body of the quadrature loop of `NonlinearDiffusionIntegrator::AssembleElementGrad`,
electromag_integ.cpp:221-262; `dnu` is `model.EvalStateDeriv(trans, ip, ·)`.  The division by a zero
norm before the guard yields a value that is then not used. -/
noncomputable def gradBody (alpha : ℝ) (nu dnu : ℝ → ℝ) (p : QPt ndof dim) (u : Vec ndof)
    (elmat : Mat ndof ndof) : Mat ndof ndof :=
  let w := alpha * p.w / p.J
  let pointflux := mulTV p.dxt u
  let norm := norm2 pointflux
  let nd := addMulV p.dxt (1 / norm) pointflux zeroV
  let mag := norm / p.J
  let nd : Vec ndof := fun r => nd r / p.J
  let modelVal := nu mag
  let nd := scale (dnu mag) nd
  let p2 := scaleM modelVal p.dxt
  let p2 := if |norm| > 1 / 10 ^ 14 then addVWt 1 nd pointflux p2 else p2
  addABt p.dxt (scaleM w p2) elmat

/-- `NonlinearDiffusionIntegrator::AssembleElementGrad`, electromag_integ.cpp:172-266. -/
noncomputable def elemGrad (alpha : ℝ) (nu dnu : ℕ → ℝ → ℝ) (n : ℕ) (pt : ℕ → QPt ndof dim) (u : Vec ndof) :
    Mat ndof ndof :=
  forN n (fun i => gradBody alpha (nu i) (dnu i) (pt i) u) zeroM

/-- The reverse pass at one quadrature point of
`NonlinearDiffusionIntegratorMeshRevSens::AssembleRHSElementVect`, electromag_integ.cpp:354-433:
returns `adj_jac_bar` and the final `trans_weight_bar`. -/
noncomputable def revPoint (alpha : ℝ) (nu dnu : ℝ → ℝ) (p : QPt ndof dim) (u psi : Vec ndof) :
    Mat dim dim × ℝ :=
  let w := alpha * p.w / p.J
  let pointflux := mulTV p.dxt u
  let curlPsi := mulTV p.dxt psi
  let cdp := dotv curlPsi pointflux
  let norm := norm2 pointflux
  let mag := norm / p.J
  let modelVal := nu mag
  let funBar : ℝ := 1
  let modelValBar := funBar * cdp * w
  let cdpBar := funBar * modelVal * w
  let wBar := funBar * modelVal * cdp
  let magBar := 0 + modelValBar * dnu mag
  let normBar := 0 + magBar / p.J
  let JBar := 0 - magBar * norm / p.J ^ 2
  let pfBar : Vec dim := zeroV
  let pfBar := if |norm| > 1 / 10 ^ 14 then axpy (normBar / norm) pointflux pfBar else pfBar
  let cpBar : Vec dim := axpy cdpBar pointflux zeroV
  let pfBar := axpy cdpBar curlPsi pfBar
  let dxtBar : Mat ndof dim := addVWt 1 psi cpBar zeroM
  let dxtBar := addVWt 1 u pfBar dxtBar
  let adjBar := mulAtB p.dshape dxtBar
  let JBar := JBar - wBar * alpha * p.w / p.J ^ 2
  (adjBar, JBar)

/-- The loop inserting `PointMat_bar` into `mesh_coords_bar`, electromag_integ.cpp:438-445. -/
noncomputable def scatter (meshNdof spaceDim : ℕ) (P : ℕ → ℕ → ℝ) (bar : ℕ → ℝ) : ℕ → ℝ :=
  forN meshNdof (fun j => forN spaceDim (fun k => addAt (k * meshNdof + j) (P k j))) bar

/-- `NonlinearDiffusionIntegratorMeshRevSens::AssembleRHSElementVect`, electromag_integ.cpp:273-448.
`adjRev i` and `wRev i` are what MFEM's `AdjugateJacobianRevDiff` and `WeightRevDiff` add to
`PointMat_bar` at point `i`. -/
noncomputable def meshSens (alpha : ℝ) (nu dnu : ℕ → ℝ → ℝ) (n meshNdof : ℕ) (pt : ℕ → QPt ndof dim)
    (adjRev : ℕ → Mat dim dim → ℕ → ℕ → ℝ) (wRev : ℕ → ℝ → ℕ → ℕ → ℝ) (u psi : Vec ndof) : ℕ → ℝ :=
  forN n (fun i bar =>
    let r := revPoint alpha (nu i) (dnu i) (pt i) u psi
    scatter meshNdof dim (fun k j => 0 + adjRev i r.1 k j + wRev i r.2 k j) bar) (fun _ => 0)

/-- The kinds of function space an element can have (`el.Space()`, electromag_integ.cpp:117, 128). -/
inductive Space | Pk | Qk | rQk
  deriving DecidableEq, Repr

/-- A quadrature rule: refined or not, and its order (electromag_integ.cpp:128-135). -/
structure Rule where
  refined : Bool
  order : ℕ
  deriving DecidableEq, Repr

/-- Rule used by `AssembleElementVector` and `AssembleElementGrad` when none is set,
electromag_integ.cpp:111-136, 195-220. -/
def vecRule (s : Space) (order dim : ℕ) : Rule :=
  let o := if s = .Pk then 2 * order else 2 * order + dim - 1
  if s = .rQk then ⟨true, o⟩ else ⟨false, o⟩

/-- Rule used by the mesh sensitivity, electromag_integ.cpp:332-349. -/
def sensRule (s : Space) (order dim : ℕ) : Rule :=
  let o := if s = .Pk then 2 * order else 2 * order + dim - 1
  ⟨false, o⟩

/-! ### Magnetic energy density

`n`, `x j`, `w j` are the points of the segment rule of order 20. -/

/-- `calcMagneticEnergy`, electromag_integ.cpp:13-33. -/
noncomputable def energy (n : ℕ) (x w : ℕ → ℝ) (nu : ℝ → ℝ) (B : ℝ) : ℝ :=
  forN n (fun j en => en + w j * (x j * B) * nu (x j * B)) 0 * B

/-- `calcMagneticEnergyDot`, electromag_integ.cpp:35-61. -/
noncomputable def energyDot (n : ℕ) (x w : ℕ → ℝ) (nu dnu : ℝ → ℝ) (B : ℝ) : ℝ :=
  let s := forN n (fun j (s : ℝ × ℝ) =>
    let xi := x j * B
    let dxidB := x j
    (s.1 + w j * xi * nu xi, s.2 + w j * (nu xi + xi * dnu xi) * dxidB)) (0, 0)
  s.2 * B + s.1

/-- `calcMagneticEnergyDoubleDot`, electromag_integ.cpp:63-90. -/
noncomputable def energyDoubleDot (n : ℕ) (x w : ℕ → ℝ) (nu dnu d2nu : ℝ → ℝ) (B : ℝ) : ℝ :=
  forN n (fun j s =>
    let xi := x j * B
    let dxidB := x j
    s + w j * (2 * ((dxidB * nu xi) + (xi * dnu xi * dxidB) + (dxidB * dxidB * dnu xi * B)) +
      xi * d2nu xi * dxidB * dxidB * B)) 0

end Verif.Diffusion
