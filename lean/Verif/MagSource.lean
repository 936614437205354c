import Verif.Force

/-!
Model of the magnetic energy output, `MagneticEnergyIntegrator` and its mesh sensitivity
(`/repo/src/physics/electromagnetics/electromag_integ.cpp:4319-4686`), and of the permanent-magnet source
of the two-dimensional magnetostatic residual, `MagnetizationSource2DIntegrator` and its mesh and
temperature sensitivities (`electromag_integ.cpp:2739-3195`).
-/

namespace Verif.MagSource
open Verif.Sbp Verif.Dense Verif.Diffusion Verif.Force

variable {ndof dim m nt : ℕ}

/-! ### Energy -/

/-- `MagneticEnergyIntegrator::GetElementEnergy`, electromag_integ.cpp:4319-4387. -/
noncomputable def energy (n : ℕ) (E : ℕ → En) (pt : ℕ → FPt ndof dim m) (u : Vec ndof) : ℝ :=
  forN n (fun i fun_ =>
    let p := pt i
    let w := p.w * p.J
    let b := addMulTV p.cdft u zeroV
    let norm := norm2 b
    let mag := norm / p.J
    fun_ + (E i).e mag * w) 0

/-- Reverse pass of the state gradient at one point: `b_vec_bar`, electromag_integ.cpp:4446-4485. -/
noncomputable def bBar (E : En) (p : FPt ndof dim m) (u : Vec ndof) : Vec dim :=
  let w := p.w * p.J
  let b := addMulTV p.cdft u zeroV
  let norm := norm2 b
  let mag := norm / p.J
  let funBar : ℝ := 1
  let energyBar := 0 + funBar * w
  let magBar := 0 + energyBar * E.e1 mag
  let normBar := 0 + magBar / p.J
  axpy (normBar / norm) b zeroV

/-- `MagneticEnergyIntegrator::AssembleElementVector`, electromag_integ.cpp:4389-4489. -/
noncomputable def energyState (n : ℕ) (E : ℕ → En) (pt : ℕ → FPt ndof dim m) (u : Vec ndof) : Vec ndof :=
  forN n (fun i bar => addMulV (pt i).cdft 1 (bBar (E i) (pt i) u) bar) zeroV

/-- `trans_weight_bar` at the end of the reverse pass of the mesh sensitivity,
electromag_integ.cpp:4577-4608, 4646. -/
noncomputable def jBar (E : En) (p : FPt ndof dim m) (u : Vec ndof) : ℝ :=
  let w := p.w * p.J
  let b := addMulTV p.cdft u zeroV
  let norm := norm2 b
  let mag := norm / p.J
  let funBar : ℝ := 1
  let energyBar := 0 + funBar * w
  let wBar := 0 + funBar * E.e mag
  let magBar := 0 + energyBar * E.e1 mag
  let JBar := 0 - magBar * norm / p.J ^ 2
  JBar + wBar * p.w

/-- `jac_bar` (three dimensions), electromag_integ.cpp:4611-4626. -/
noncomputable def jacBar (E : En) (p : FPt ndof dim m) (u : Vec ndof) : Mat dim dim :=
  let cdftBar : Mat dim ndof := vwt (bBar E p u) u
  fun a b => zeroM a b + mulM cdftBar p.cs a b

/-- `adj_bar` (two dimensions), electromag_integ.cpp:4628-4643. -/
noncomputable def adjBar (E : En) (p : FPt ndof dim m) (u : Vec ndof) : Mat dim dim :=
  let cdftBar : Mat ndof dim := vwt u (bBar E p u)
  mulAtB p.cs cdftBar

/-- `MagneticEnergyIntegratorMeshSens::AssembleRHSElementVect`, electromag_integ.cpp:4491-4661. -/
noncomputable def energyMesh (n meshNdof : ℕ) (E : ℕ → En) (pt : ℕ → FPt ndof dim m)
    (adjRev : ℕ → Mat dim dim → ℕ → ℕ → ℝ) (wRev : ℕ → ℝ → ℕ → ℕ → ℝ) (jacRev : ℕ → Mat dim dim → ℕ → ℕ → ℝ)
    (u : Vec ndof) : ℕ → ℝ :=
  forN n (fun i bar =>
    scatter meshNdof dim (fun k j =>
      (if dim = 3 then 0 + jacRev i (jacBar (E i) (pt i) u) k j else 0 + adjRev i (adjBar (E i) (pt i) u) k j) +
        wRev i (jBar (E i) (pt i) u) k j) bar) (fun _ => 0)

/-- Rule used by the energy output when none is set, electromag_integ.cpp:4341-4356. -/
def energyRule (s : Space) (order : ℕ) : Rule :=
  if s = .Pk then ⟨false, 2 * order - 2⟩ else ⟨false, 2 * order⟩

/-! ### Magnets -/

/-- One quadrature point of the magnet source: as for the diffusion element plus the shape functions of
the temperature, electromag_integ.cpp:2815-2826. -/
structure SPt (ndof nt : ℕ) extends QPt ndof 2 where
  tshape : Vec nt

/-- Body of the loop of `MagnetizationSource2DIntegrator::AssembleRHSElementVect`,
electromag_integ.cpp:2813-2838; `M` is `M.Eval(mag_flux, trans, ip, ·)`. -/
noncomputable def srcBody (alpha : ℝ) (M : ℝ → Vec 2) (p : SPt ndof nt) (temp : Vec nt) (elvect : Vec ndof) :
    Vec ndof :=
  let w := alpha * p.w
  let temperature := dotv p.tshape temp
  let magFlux := M temperature
  let scratch : Vec ndof := zeroV
  let scratch := axpy (magFlux 1) (fun r => p.dxt r 0) scratch
  let scratch := axpy (-magFlux 0) (fun r => p.dxt r 1) scratch
  axpy w scratch elvect

/-- `MagnetizationSource2DIntegrator::AssembleRHSElementVect`, electromag_integ.cpp:2739-2840. -/
noncomputable def src (alpha : ℝ) (n : ℕ) (M : ℕ → ℝ → Vec 2) (pt : ℕ → SPt ndof nt) (temp : Vec nt) : Vec ndof :=
  forN n (fun i => srcBody alpha (M i) (pt i) temp) zeroV

/-- `mag_flux_bar`, electromag_integ.cpp:2980-2994 (3163-3177). -/
noncomputable def magFluxBar (alpha : ℝ) (p : SPt ndof nt) (psi : Vec ndof) : Vec 2 :=
  let w := alpha * p.w
  let funBar : ℝ := 1
  let scratchBar : Vec ndof := axpy (funBar * w) psi zeroV
  fun k => if k = 0 then -dotv (fun r => p.dxt r 1) scratchBar else dotv (fun r => p.dxt r 0) scratchBar

/-- `adj_jac_bar`, electromag_integ.cpp:2984-3008. -/
noncomputable def srcAdjBar (alpha : ℝ) (M : ℝ → Vec 2) (p : SPt ndof nt) (temp : Vec nt) (psi : Vec ndof) :
    Mat 2 2 :=
  let w := alpha * p.w
  let funBar : ℝ := 1
  let scratchBar : Vec ndof := axpy (funBar * w) psi zeroV
  let magFlux := M (dotv p.tshape temp)
  let dxtBar : Mat ndof 2 := fun r k =>
    if k = 0 then zeroM r k + magFlux 1 * scratchBar r else zeroM r k + (-magFlux 0) * scratchBar r
  mulAtB p.dshape dxtBar

/-- `MagnetizationSource2DIntegratorMeshRevSens::AssembleRHSElementVect`, electromag_integ.cpp:2842-3024;
`mRev i vbar` is what `M.EvalRevDiff` adds to `PointMat_bar`. -/
noncomputable def srcMesh (alpha : ℝ) (n meshNdof : ℕ) (M : ℕ → ℝ → Vec 2) (pt : ℕ → SPt ndof nt)
    (adjRev : ℕ → Mat 2 2 → ℕ → ℕ → ℝ) (mRev : ℕ → Vec 2 → ℝ → ℕ → ℕ → ℝ) (temp : Vec nt) (psi : Vec ndof) : ℕ → ℝ :=
  forN n (fun i bar =>
    scatter meshNdof 2 (fun k j =>
      0 + mRev i (magFluxBar alpha (pt i) psi) (dotv (pt i).tshape temp) k j +
        adjRev i (srcAdjBar alpha (M i) (pt i) temp psi) k j) bar) (fun _ => 0)

/-- `MagnetizationSource2DIntegratorTemperatureSens::AssembleRHSElementVect`,
electromag_integ.cpp:3026-3195; `dM` is `M.EvalStateDeriv`. -/
noncomputable def srcTemp (alpha : ℝ) (n : ℕ) (dM : ℕ → ℝ → Vec 2) (pt : ℕ → SPt ndof nt) (temp : Vec nt)
    (psi : Vec ndof) : Vec nt :=
  forN n (fun i bar =>
    let p := pt i
    let magFluxDot := dM i (dotv p.tshape temp)
    let temperatureBar := dotv (magFluxBar alpha p psi) magFluxDot
    axpy temperatureBar p.tshape bar) zeroV

/-- The coefficient `nuM` the residual passes to the integrator: `ScalarVectorProductCoefficient` of the
reluctivity and the magnetisation, both evaluated with the state handed in, which is the temperature
(`/repo/src/common/coefficient.cpp:2013-2037`,
`/repo/src/physics/electromagnetics/magnetostatic_residual.cpp:375-385`). -/
def nuM (nu : ℝ → ℝ) (M : ℝ → Vec 2) (state : ℝ) : Vec 2 := fun k => M state k * nu state

/-- Its state derivative, coefficient.cpp:2039-2083. -/
def nuMDeriv (nu dnu : ℝ → ℝ) (M dM : ℝ → Vec 2) (state : ℝ) : Vec 2 := fun k =>
  0 + M state k * dnu state + dM state k * nu state

end Verif.MagSource
