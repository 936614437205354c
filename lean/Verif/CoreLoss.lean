import Verif.Losses
import Verif.MatCoeffs

/-!
Model of the CAL2 core losses: the element integral with its frequency, peak-flux, temperature and mesh
sensitivities, the heat distribution handed to the thermal solver with its reverse sensitivities, and the
demagnetization integral (`/repo/src/physics/electromagnetics/electromag_integ.cpp:11598-13200`), and the
combined heat source (`electromag_outputs.cpp:1756-1806`).

`double` is ℝ; the material coefficients return `none` for a non-finite value (as in `MatCoeffs.lean`), and
a sum or vector with a non-finite contribution is `none` (every entry of the vectors receives
`bar * shape_j`, which is NaN whatever `shape_j` is).  Not modelled: the extraction of element degrees of
freedom, the debugging output to the terminal and to ParaView.
-/

namespace Verif.CoreLoss
open Verif.Sbp Verif.Dense Verif.Diffusion Verif.Losses Verif.MatCoeffs

variable {nt nf : ℕ}

/-- A `ThreeStateCoefficient` of temperature, frequency and flux density: `Eval`, `EvalDerivS1`,
`EvalDerivS2`, `EvalDerivS3` (coefficient.hpp, class `ThreeStateCoefficient`). -/
structure Tri where
  eval : ℝ → ℝ → ℝ → Option ℝ
  d1 : ℝ → ℝ → ℝ → Option ℝ
  d2 : ℝ → ℝ → ℝ → Option ℝ
  d3 : ℝ → ℝ → ℝ → Option ℝ

/-- The CAL2 coefficient as a three-state coefficient (cal2_kh_coefficient.cpp:544-662). -/
noncomputable def Tri.ofCal2 (k : Cal2) : Tri := ⟨k.eval, k.dT, k.df, k.dB⟩

/-- `for i: v.Add(coef(i), x(i))` from zero; NaN in every entry once a coefficient is not finite.
electromag_integ.cpp:11956-11958. -/
noncomputable def vsum {d : ℕ} (n : ℕ) (coef : ℕ → Option ℝ) (x : ℕ → Vec d) : Option (Vec d) :=
  forN n (fun i acc => acc.bind fun v => (coef i).map fun c => axpy c (x i) v) (some zeroV)

/-- The insertion of `PointMat_bar` of every point into `mesh_coords_bar`.
electromag_integ.cpp:12228-12237. -/
noncomputable def msum (n meshNdof dim : ℕ) (bar : ℕ → Option ℝ) (wRev : ℕ → ℝ → ℕ → ℕ → ℝ) : Option (ℕ → ℝ) :=
  forN n (fun i acc => acc.bind fun v => (bar i).map fun c =>
    scatter meshNdof dim (fun k j => 0 + wRev i c k j) v) (some fun _ => 0)

/-- The material of a point: density and the two CAL2 coefficients (members `rho`, `CAL2_kh`, `CAL2_ke`). electromag_integ.cpp:11598-13200. -/
structure Core where
  rho : ℝ
  kh : Tri
  ke : Tri

/-- `loss = rho (kh f B² + ke f² B²)`, electromag_integ.cpp:11684-11692. -/
noncomputable def loss (c : Core) (T f B : ℝ) : Option ℝ :=
  (c.kh.eval T f B).bind fun kh => (c.ke.eval T f B).map fun ke =>
    c.rho * (kh * f * B ^ 2 + ke * f ^ 2 * B ^ 2)

/-- Default rule: order from the flux element (functional) or the temperature element (distribution).
electromag_integ.cpp:11651-11667, 12306-12321. -/
def rule (s : Space) (order : ℕ) : ℕ := if s = .Pk then 2 * order - 1 else 2 * order

/-- `CAL2CoreLossIntegrator::GetElementEnergy`, electromag_integ.cpp:11603-11697. -/
noncomputable def energy (c : ℕ → Core) (n : ℕ) (pt : ℕ → LPt nt nf) (f : ℝ) (T : Vec nt) (b : Vec nf) : Option ℝ :=
  fsum n fun i =>
    let w := (pt i).w * (pt i).J
    let B := dotv (pt i).fshape b
    let t := dotv (pt i).tshape T
    (loss (c i) t f B).map fun l => l * w

/-- `CAL2CoreLossIntegratorFreqSens::GetElementEnergy`, electromag_integ.cpp:11699-11819. -/
noncomputable def freqSens (c : ℕ → Core) (n : ℕ) (pt : ℕ → LPt nt nf) (f : ℝ) (T : Vec nt) (b : Vec nf) : Option ℝ :=
  fsum n fun i =>
    let w := (pt i).w * (pt i).J
    let B := dotv (pt i).fshape b
    let t := dotv (pt i).tshape T
    ((c i).kh.eval t f B).bind fun kh => ((c i).kh.d2 t f B).bind fun khDot =>
    ((c i).ke.eval t f B).bind fun ke => ((c i).ke.d2 t f B).map fun keDot =>
      let hDot := khDot * f * B ^ 2 + kh * B ^ 2
      let eDot := keDot * f ^ 2 * B ^ 2 + 2 * ke * f * B ^ 2
      (c i).rho * (hDot + eDot) * w

/-- `B_pk_bar` of one point, electromag_integ.cpp:11928-11955. -/
noncomputable def fluxBar (c : Core) (t f B w : ℝ) : Option ℝ :=
  (c.kh.eval t f B).bind fun kh => (c.ke.eval t f B).bind fun ke =>
  (c.ke.d3 t f B).bind fun keD => (c.kh.d3 t f B).map fun khD =>
    let lossBar := 1 * w
    let bar := lossBar * c.rho * (2 * kh * f * B + 2 * ke * f ^ 2 * B)
    let khBar := lossBar * c.rho * f * B ^ 2
    let keBar := lossBar * c.rho * f ^ 2 * B ^ 2
    bar + keBar * keD + khBar * khD

/-- `CAL2CoreLossIntegratorPeakFluxSens::AssembleRHSElementVect`, electromag_integ.cpp:11821-11960. -/
noncomputable def fluxSens (c : ℕ → Core) (n : ℕ) (pt : ℕ → LPt nt nf) (f : ℝ) (T : Vec nt) (b : Vec nf) :
    Option (Vec nf) :=
  vsum n (fun i => fluxBar (c i) (dotv (pt i).tshape T) f (dotv (pt i).fshape b) ((pt i).w * (pt i).J))
    fun i => (pt i).fshape

/-- `temp_bar` of one point, electromag_integ.cpp:12068-12094.  The values of the coefficients enter only the unused
`loss`, so that a non-finite value does not matter here. -/
noncomputable def tempBar (c : Core) (t f B w : ℝ) : Option ℝ :=
  (c.ke.d1 t f B).bind fun keD => (c.kh.d1 t f B).map fun khD =>
    let lossBar := 1 * w
    let khBar := lossBar * c.rho * f * B ^ 2
    let keBar := lossBar * c.rho * f ^ 2 * B ^ 2
    keBar * keD + khBar * khD

/-- `CAL2CoreLossIntegratorTemperatureSens::AssembleRHSElementVect`, electromag_integ.cpp:11962-12098. -/
noncomputable def tempSens (c : ℕ → Core) (n : ℕ) (pt : ℕ → LPt nt nf) (f : ℝ) (T : Vec nt) (b : Vec nf) :
    Option (Vec nt) :=
  vsum n (fun i => tempBar (c i) (dotv (pt i).tshape T) f (dotv (pt i).fshape b) ((pt i).w * (pt i).J))
    fun i => (pt i).tshape

/-- `CAL2CoreLossIntegratorMeshSens::AssembleRHSElementVect`, electromag_integ.cpp:12100-12240. -/
noncomputable def meshSens (c : ℕ → Core) (n meshNdof dim : ℕ) (pt : ℕ → LPt nt nf)
    (wRev : ℕ → ℝ → ℕ → ℕ → ℝ) (f : ℝ) (T : Vec nt) (b : Vec nf) : Option (ℕ → ℝ) :=
  msum n meshNdof dim (fun i =>
    (loss (c i) (dotv (pt i).tshape T) f (dotv (pt i).fshape b)).map fun l => 1 * l * (pt i).w) wRev

/-! ### The distribution -/

/-- `loss = rho kh f B² + rho ke f² B²`, electromag_integ.cpp:12345-12346. -/
noncomputable def dloss (c : Core) (T f B : ℝ) : Option ℝ :=
  (c.kh.eval T f B).bind fun kh => (c.ke.eval T f B).map fun ke =>
    c.rho * kh * f * B ^ 2 + c.rho * ke * f ^ 2 * B ^ 2

/-- `CAL2CoreLossDistributionIntegrator::AssembleRHSElementVect`, electromag_integ.cpp:12254-12349. -/
noncomputable def dvec (c : ℕ → Core) (n : ℕ) (pt : ℕ → LPt nt nf) (f : ℝ) (T : Vec nt) (b : Vec nf) : Option (Vec nt) :=
  vsum n (fun i => (dloss (c i) (dotv (pt i).tshape T) f (dotv (pt i).fshape b)).map fun l =>
    l * ((pt i).w * (pt i).J)) fun i => (pt i).tshape

/-- `CAL2CoreLossDistributionIntegratorMeshRevSens::AssembleRHSElementVect`, electromag_integ.cpp:12351-12505. -/
noncomputable def dmeshSens (c : ℕ → Core) (n meshNdof dim : ℕ) (pt : ℕ → LPt nt nf)
    (wRev : ℕ → ℝ → ℕ → ℕ → ℝ) (f : ℝ) (T : Vec nt) (b : Vec nf) (psi : Vec nt) : Option (ℕ → ℝ) :=
  msum n meshNdof dim (fun i =>
    (dloss (c i) (dotv (pt i).tshape T) f (dotv (pt i).fshape b)).map fun l =>
      1 * l * dotv psi (pt i).tshape * (pt i).w) wRev

/-- `CAL2CoreLossDistributionIntegratorPeakFluxRevSens::AssembleRHSElementVect`, electromag_integ.cpp:12507-12655. -/
noncomputable def dfluxSens (c : ℕ → Core) (n : ℕ) (pt : ℕ → LPt nt nf) (f : ℝ) (T : Vec nt) (b : Vec nf)
    (psi : Vec nt) : Option (Vec nf) :=
  vsum n (fun i =>
    let w := (pt i).w * (pt i).J
    let B := dotv (pt i).fshape b
    let t := dotv (pt i).tshape T
    ((c i).kh.eval t f B).bind fun kh => ((c i).ke.eval t f B).bind fun ke =>
    ((c i).ke.d3 t f B).bind fun keD => ((c i).kh.d3 t f B).map fun khD =>
      let lossBar := 1 * dotv psi (pt i).tshape * w
      let khBar := lossBar * (c i).rho * f * B ^ 2
      let keBar := lossBar * (c i).rho * f ^ 2 * B ^ 2
      let bar := lossBar * (c i).rho * (kh * f + ke * f ^ 2) * 2 * B
      bar + keBar * keD + khBar * khD) fun i => (pt i).fshape

/-- `CAL2CoreLossDistributionIntegratorTemperatureRevSens::AssembleRHSElementVect`,
electromag_integ.cpp:12657-12806. -/
noncomputable def dtempSens (c : ℕ → Core) (n : ℕ) (pt : ℕ → LPt nt nf) (f : ℝ) (T : Vec nt) (b : Vec nf)
    (psi : Vec nt) : Option (Vec nt) :=
  vsum n (fun i =>
    let w := (pt i).w * (pt i).J
    let B := dotv (pt i).fshape b
    let t := dotv (pt i).tshape T
    ((c i).ke.d1 t f B).bind fun keD => ((c i).kh.d1 t f B).map fun khD =>
      let lossBar := 1 * dotv psi (pt i).tshape * w
      let khBar := lossBar * (c i).rho * f * B ^ 2
      let keBar := lossBar * (c i).rho * f ^ 2 * B ^ 2
      keBar * keD + khBar * khD) fun i => (pt i).tshape

/-- `CAL2CoreLossDistributionIntegratorFrequencyRevSens::GetElementEnergy`, electromag_integ.cpp:12808-12958. -/
noncomputable def dfreqSens (c : ℕ → Core) (n : ℕ) (pt : ℕ → LPt nt nf) (f : ℝ) (T : Vec nt) (b : Vec nf)
    (psi : Vec nt) : Option ℝ :=
  fsum n fun i =>
    let w := (pt i).w * (pt i).J
    let B := dotv (pt i).fshape b
    let t := dotv (pt i).tshape T
    ((c i).kh.eval t f B).bind fun kh => ((c i).ke.eval t f B).bind fun ke =>
    ((c i).ke.d2 t f B).bind fun keD => ((c i).kh.d2 t f B).map fun khD =>
      let lossBar := 1 * dotv psi (pt i).tshape * w
      let khBar := lossBar * (c i).rho * f * B ^ 2
      let keBar := lossBar * (c i).rho * f ^ 2 * B ^ 2
      let bar := lossBar * (c i).rho * (kh * B ^ 2 + ke * 2 * f * B ^ 2)
      bar + keBar * keD + khBar * khD

/-! ### The combined heat source -/

/-- `calcOutput(EMHeatSourceOutput)`, electromag_outputs.cpp:1756-1776: `dc`, `ac` and `core` are what the three
distributions write into a zero vector. -/
noncomputable def heatSource {d : ℕ} (dc ac core : Vec d) : Vec d :=
  let out : Vec d := dc
  let scratch : Vec d := ac
  let out : Vec d := fun r => out r + scratch r
  let scratch : Vec d := core
  fun r => out r + scratch r

/-- Scalar `vectorJacobianProduct(EMHeatSourceOutput)`, electromag_outputs.cpp:1788-1796. -/
def heatVjpScalar (dc ac core : ℝ) : ℝ :=
  let bar := dc
  let bar := bar + ac
  bar + core

/-- Vector `vectorJacobianProduct(EMHeatSourceOutput)`, electromag_outputs.cpp:1798-1806; each argument adds its
contribution to the vector it is given. -/
def heatVjp {d : ℕ} (dc ac core : Vec d → Vec d) (bar : Vec d) : Vec d := core (ac (dc bar))

/-! ### Demagnetization -/

/-- `PMDemagIntegrator::GetElementEnergy`, electromag_integ.cpp:12960-13085: the value accumulated so far is
negated after every point.  `c i` is the constraint at point `i` as a function of flux density and temperature; without
a temperature field the temperature is `100 + 273.15`. -/
noncomputable def pmEnergy (c : ℕ → ℝ → ℝ → ℝ) (n : ℕ) (pt : ℕ → LPt nt nf) (T : Option (Vec nt)) (b : Vec nf) : ℝ :=
  forN n (fun i acc =>
    let w := (pt i).w * (pt i).J
    let bMag := dotv (pt i).fshape b
    let t := match T with
      | some T => dotv (pt i).tshape T
      | none => 100 + 273.15
    let acc := acc + c i bMag t * w
    acc * (-1)) 0

/-- `PMDemagIntegrator::AssembleElementVector`, electromag_integ.cpp:13087-13200. -/
noncomputable def pmVector (c : ℕ → ℝ → ℝ → ℝ) (n : ℕ) (pt : ℕ → LPt nt nf) (T : Option (Vec nt)) (b : Vec nf) : Vec nf :=
  forN n (fun i v =>
    let w := (pt i).w * (pt i).J
    let bMag := dotv (pt i).fshape b
    let t := match T with
      | some T => dotv (pt i).tshape T
      | none => 100 + 273.15
    axpy (c i bMag t * w) (pt i).fshape v) zeroV

end Verif.CoreLoss
