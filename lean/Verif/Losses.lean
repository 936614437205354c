import Verif.Dense
import Verif.Diffusion
import Verif.Quotient
import Mathlib.Analysis.SpecialFunctions.Trigonometric.Basic

/-!
Model of the winding losses: the DC and AC loss functionals with their forward and reverse
derivatives (`/repo/src/physics/electromagnetics/electromag_outputs.cpp:82-1455`), the element
integrators they use and the integrators of the loss distributions handed to the thermal solver, with
all their sensitivities (`electromag_integ.cpp:5958-9480`).

`double` is ℝ, `M_PI` is `Real.pi`, `sqrt(2)` is `√2`.
-/

namespace Verif.Losses
open Verif.Sbp Verif.Dense Verif.Quotient Verif.Diffusion

/-! ### Dispatch on the name of an input -/

/-- `wrt.rfind(name, 0) == 0`: `wrt` starts with `name` (electromag_outputs.cpp:104). -/
def startsWith (wrt name : String) : Bool := name.toList.isPrefixOf wrt.toList

/-! ### The DC loss functional -/

/-- The scalar inputs of the DC loss (electromag_outputs.hpp, `DCLossFunctional`; setInputs). -/
inductive DCIn | wireLength | rmsCurrent | strandRadius | strandsInHand
  deriving DecidableEq, Repr

/-- Values of the scalar inputs (electromag_outputs.hpp). -/
abbrev DCPar := DCIn → ℝ

/-- `calcOutput(DCLossFunctional)`, electromag_outputs.cpp:82-97; `rho` and `volume` are the values of
the two functionals it calls. -/
noncomputable def dcLoss (p : DCPar) (rho volume : ℝ) : ℝ :=
  let strandArea := Real.pi * p .strandRadius ^ 2
  let R := p .wireLength * rho / (strandArea * p .strandsInHand)
  let loss := p .rmsCurrent ^ 2 * R * √2
  loss / volume

/-- The branches of `jacobianVectorProduct(DCLossFunctional)` for the scalar inputs,
electromag_outputs.cpp:104-181; `dot` is `wrt_dot(0)`. -/
noncomputable def dcJvpScalar (p : DCPar) (rho volume : ℝ) (x : DCIn) (dot : ℝ) : ℝ :=
  let strandArea := Real.pi * p .strandRadius ^ 2
  match x with
  | .wireLength =>
    let RDot := rho / (strandArea * p .strandsInHand) * dot
    let lossDot := p .rmsCurrent ^ 2 * √2 * RDot
    1 / volume * lossDot
  | .rmsCurrent =>
    let R := p .wireLength * rho / (strandArea * p .strandsInHand)
    let lossDot := 2 * p .rmsCurrent * R * √2 * dot
    1 / volume * lossDot
  | .strandRadius =>
    let strandAreaDot := Real.pi * 2 * p .strandRadius * dot
    let RDot := -p .wireLength * rho / (strandArea ^ 2 * p .strandsInHand) * strandAreaDot
    let lossDot := p .rmsCurrent ^ 2 * √2 * RDot
    1 / volume * lossDot
  | .strandsInHand =>
    let RDot := -p .wireLength * rho / (strandArea * p .strandsInHand ^ 2) * dot
    let lossDot := p .rmsCurrent ^ 2 * √2 * RDot
    1 / volume * lossDot

/-- The mesh branch, electromag_outputs.cpp:182-206. -/
noncomputable def dcJvpMesh (p : DCPar) (rho rhoDot volume volumeDot : ℝ) : ℝ :=
  let strandArea := Real.pi * p .strandRadius ^ 2
  let R := p .wireLength * rho / (strandArea * p .strandsInHand)
  let RDot := p .wireLength / (strandArea * p .strandsInHand) * rhoDot
  let loss := p .rmsCurrent ^ 2 * R * √2
  let lossDot := p .rmsCurrent ^ 2 * √2 * RDot
  lossDot / volume - loss / volume ^ 2 * volumeDot

/-- The temperature branch, electromag_outputs.cpp:207-229. -/
noncomputable def dcJvpTemp (p : DCPar) (rhoDot volume : ℝ) : ℝ :=
  let strandArea := Real.pi * p .strandRadius ^ 2
  let RDot := p .wireLength / (strandArea * p .strandsInHand) * rhoDot
  let lossDot := p .rmsCurrent ^ 2 * √2 * RDot
  lossDot / volume

/-- What an input name selects (electromag_outputs.cpp:104-233, in the order of the tests). -/
inductive DCWrt | scalar (x : DCIn) | mesh | temperature | other
  deriving DecidableEq, Repr

/-- The chain of tests on `wrt`, electromag_outputs.cpp:104-233. -/
def dcWrt (wrt : String) : DCWrt :=
  if startsWith wrt "wire_length" then .scalar .wireLength
  else if startsWith wrt "rms_current" then .scalar .rmsCurrent
  else if startsWith wrt "strand_radius" then .scalar .strandRadius
  else if startsWith wrt "strands_in_hand" then .scalar .strandsInHand
  else if startsWith wrt "mesh_coords" then .mesh
  else if startsWith wrt "temperature" then .temperature
  else .other

/-- `jacobianVectorProduct(DCLossFunctional)`, electromag_outputs.cpp:99-233.  `rho` and `vol` are the
resistivity and volume functionals as functions of the vector the name selects; for a scalar name
`dot` is `wrt_dot(0)`. -/
noncomputable def dcJvp {n : ℕ} (p : DCPar) (rho vol : Func n) (u v : Fin n → ℝ) (dot : ℝ)
    (wrt : String) : ℝ :=
  match dcWrt wrt with
  | .scalar x => dcJvpScalar p (rho.val u) (vol.val u) x dot
  | .mesh => dcJvpMesh p (rho.val u) (rho.jvp u v) (vol.val u) (vol.jvp u v)
  | .temperature => dcJvpTemp p (rho.jvp u v) (vol.val u)
  | .other => 0

/-- Scalar `vectorJacobianProduct(DCLossFunctional)`, electromag_outputs.cpp:247-447. -/
noncomputable def dcVjpScalar (p : DCPar) (rho volume : ℝ) (outBar : ℝ) (wrt : String) : ℝ :=
  let strandArea := Real.pi * p .strandRadius ^ 2
  let lossBar := outBar / volume
  let RBar := lossBar * p .rmsCurrent ^ 2 * √2
  if startsWith wrt "wire_length" then RBar * rho / (strandArea * p .strandsInHand)
  else if startsWith wrt "rms_current" then
    let R := p .wireLength * rho / (strandArea * p .strandsInHand)
    lossBar * 2 * p .rmsCurrent * R * √2
  else if startsWith wrt "strand_radius" then
    let strandAreaBar := -RBar * p .wireLength * rho / (strandArea ^ 2 * p .strandsInHand)
    strandAreaBar * Real.pi * 2 * p .strandRadius
  else if startsWith wrt "strands_in_hand" then
    -RBar * p .wireLength * rho / (strandArea * p .strandsInHand ^ 2)
  else 0

/-- Vector `vectorJacobianProduct(DCLossFunctional)`, electromag_outputs.cpp:449-551. -/
noncomputable def dcVjpVec {n : ℕ} (p : DCPar) (rho vol : Func n) (u : Fin n → ℝ) (outBar : ℝ)
    (wrt : String) (wrtBar : Fin n → ℝ) : Fin n → ℝ :=
  let strandArea := Real.pi * p .strandRadius ^ 2
  if startsWith wrt "mesh_coords" then
    let R := p .wireLength * rho.val u / (strandArea * p .strandsInHand)
    let loss := p .rmsCurrent ^ 2 * R * √2
    let volume := vol.val u
    let lossBar := outBar / volume
    let volumeBar := -outBar * loss / volume ^ 2
    let wrtBar := vol.vjp u volumeBar wrtBar
    let RBar := lossBar * p .rmsCurrent ^ 2 * √2
    let rhoBar := RBar * p .wireLength / (strandArea * p .strandsInHand)
    rho.vjp u rhoBar wrtBar
  else if startsWith wrt "temperature" then
    let volume := vol.val u
    let lossBar := outBar / volume
    let RBar := lossBar * p .rmsCurrent ^ 2 * √2
    let rhoBar := RBar * p .wireLength / (strandArea * p .strandsInHand)
    rho.vjp u rhoBar wrtBar
  else wrtBar

/-! ### The AC loss functional -/

/-- The scalar inputs of the AC loss (electromag_outputs.cpp:682-687). -/
inductive ACIn | strandRadius | frequency | stackLength | strandsInHand | numTurns | numSlots
  deriving DecidableEq, Repr

/-- Values of the scalar inputs (electromag_outputs.cpp:682-687). -/
abbrev ACPar := ACIn → ℝ

/-- `strand_loss`, electromag_outputs.cpp:704-706. -/
noncomputable def strandLoss (p : ACPar) (sb2 : ℝ) : ℝ :=
  sb2 * p .stackLength * Real.pi * p .strandRadius ^ 4 * (2 * Real.pi * p .frequency) ^ 2 / 8

/-- `num_strands`, electromag_outputs.cpp:708-709. -/
def numStrands (p : ACPar) : ℝ := 2 * p .strandsInHand * p .numTurns * p .numSlots

/-- `calcOutput(ACLossFunctional)`, electromag_outputs.cpp:692-716. -/
noncomputable def acLoss (p : ACPar) (sb2 volume : ℝ) : ℝ := numStrands p * strandLoss p sb2 / volume

/-- What an input name selects (electromag_outputs.cpp:722-905). -/
inductive ACWrt | scalar (x : ACIn) | mesh | peakFlux | temperature | other
  deriving DecidableEq, Repr

/-- The chain of tests on `wrt`, electromag_outputs.cpp:722-905. -/
def acWrt (wrt : String) : ACWrt :=
  if startsWith wrt "strand_radius" then .scalar .strandRadius
  else if startsWith wrt "frequency" then .scalar .frequency
  else if startsWith wrt "stack_length" then .scalar .stackLength
  else if startsWith wrt "strands_in_hand" then .scalar .strandsInHand
  else if startsWith wrt "num_turns" then .scalar .numTurns
  else if startsWith wrt "num_slots" then .scalar .numSlots
  else if startsWith wrt "mesh_coords" then .mesh
  else if startsWith wrt "peak_flux" then .peakFlux
  else if startsWith wrt "temperature" then .temperature
  else .other

/-- The scalar branches of `jacobianVectorProduct(ACLossFunctional)`, electromag_outputs.cpp:722-839.
The frequency branch has `pow(output.radius, 3)` where the value has the fourth power. -/
noncomputable def acJvpScalar (p : ACPar) (sb2 volume : ℝ) (x : ACIn) (dot : ℝ) : ℝ :=
  match x with
  | .strandRadius =>
    let sDot := 4 * sb2 * p .stackLength * Real.pi * p .strandRadius ^ 3 *
      (2 * Real.pi * p .frequency) ^ 2 / 8 * dot
    numStrands p * sDot / volume
  | .frequency =>
    let sDot := 2 * sb2 * p .stackLength * Real.pi * p .strandRadius ^ 3 * p .frequency *
      (2 * Real.pi) ^ 2 / 8 * dot
    numStrands p * sDot / volume
  | .stackLength =>
    let sDot := sb2 * Real.pi * p .strandRadius ^ 4 * (2 * Real.pi * p .frequency) ^ 2 / 8 * dot
    numStrands p * sDot / volume
  | .strandsInHand =>
    let nDot := 2 * p .numTurns * p .numSlots * dot
    strandLoss p sb2 * nDot / volume
  | .numTurns =>
    let nDot := 2 * p .strandsInHand * p .numSlots * dot
    strandLoss p sb2 * nDot / volume
  | .numSlots =>
    let nDot := 2 * p .strandsInHand * p .numTurns * dot
    strandLoss p sb2 * nDot / volume

/-- `jacobianVectorProduct(ACLossFunctional)`, electromag_outputs.cpp:718-909. -/
noncomputable def acJvp {n : ℕ} (p : ACPar) (sb2 vol : Func n) (u v : Fin n → ℝ) (dot : ℝ)
    (wrt : String) : ℝ :=
  let fieldDot := p .stackLength * Real.pi * p .strandRadius ^ 4 *
    (2 * Real.pi * p .frequency) ^ 2 / 8 * sb2.jvp u v
  match acWrt wrt with
  | .scalar x => acJvpScalar p (sb2.val u) (vol.val u) x dot
  | .mesh =>
    let loss := numStrands p * strandLoss p (sb2.val u)
    let lossDot := numStrands p * fieldDot
    lossDot / vol.val u - loss / vol.val u ^ 2 * vol.jvp u v
  | .peakFlux => numStrands p * fieldDot / vol.val u
  | .temperature => numStrands p * fieldDot / vol.val u
  | .other => 0

/-- Scalar `vectorJacobianProduct(ACLossFunctional)`, electromag_outputs.cpp:911-1268. -/
noncomputable def acVjpScalar (p : ACPar) (sb2 volume : ℝ) (outBar : ℝ) (wrt : String) : ℝ :=
  let lossBar := outBar / volume
  let strandLossBar := lossBar * numStrands p
  let numStrandsBar := lossBar * strandLoss p sb2
  if startsWith wrt "strand_radius" then
    strandLossBar * sb2 * p .stackLength * Real.pi * 4 * p .strandRadius ^ 3 *
      (2 * Real.pi * p .frequency) ^ 2 / 8
  else if startsWith wrt "frequency" then
    strandLossBar * sb2 * p .stackLength * Real.pi * p .strandRadius ^ 4 * 2 * p .frequency *
      (2 * Real.pi) ^ 2 / 8
  else if startsWith wrt "stack_length" then
    strandLossBar * sb2 * Real.pi * p .strandRadius ^ 4 * (2 * Real.pi * p .frequency) ^ 2 / 8
  else if startsWith wrt "strands_in_hand" then numStrandsBar * 2 * p .numTurns * p .numSlots
  else if startsWith wrt "num_turns" then numStrandsBar * 2 * p .strandsInHand * p .numSlots
  else if startsWith wrt "num_slots" then numStrandsBar * 2 * p .strandsInHand * p .numTurns
  else 0

/-- Vector `vectorJacobianProduct(ACLossFunctional)`, electromag_outputs.cpp:1270-1455. -/
noncomputable def acVjpVec {n : ℕ} (p : ACPar) (sb2 vol : Func n) (u : Fin n → ℝ) (outBar : ℝ)
    (wrt : String) (wrtBar : Fin n → ℝ) : Fin n → ℝ :=
  let volume := vol.val u
  let lossBar := outBar / volume
  let strandLossBar := lossBar * numStrands p
  let sb2Bar := strandLossBar * p .stackLength * Real.pi * p .strandRadius ^ 4 *
    (2 * Real.pi * p .frequency) ^ 2 / 8
  if startsWith wrt "mesh_coords" then
    let loss := numStrands p * strandLoss p (sb2.val u)
    let volumeBar := -outBar * loss / volume ^ 2
    let wrtBar := vol.vjp u volumeBar wrtBar
    sb2.vjp u sb2Bar wrtBar
  else if startsWith wrt "peak_flux" then sb2.vjp u sb2Bar wrtBar
  else if startsWith wrt "temperature" then sb2.vjp u sb2Bar wrtBar
  else wrtBar

/-! ### Element integrators -/

variable {nt nf : ℕ}

/-- One quadrature point: `ip.weight`, `trans.Weight()`, the shape functions of the temperature and of
the flux (electromag_integ.cpp:6006-6020, 7500-7512). -/
structure LPt (nt nf : ℕ) where
  w : ℝ
  J : ℝ
  tshape : Vec nt
  fshape : Vec nf

/-- Default rule of the DC integrators, electromag_integ.cpp:5989-6003, 6266-6281. -/
def dcRule (s : Space) (order : ℕ) : ℕ := if s = .Pk then 2 * order - 1 else 2 * order

/-- Default rule of the AC functional, electromag_integ.cpp:7478-7492. -/
def acRule (s : Space) (order : ℕ) : ℕ := if s = .Pk then 2 * order - 2 else 2 * order

/-- `DCLossFunctionalIntegrator::GetElementEnergy`, electromag_integ.cpp:5958-6028;
`sigma i` is `sigma.Eval(trans, ip, ·)` at point `i`. -/
noncomputable def dcEnergy (sigma : ℕ → ℝ → ℝ) (n : ℕ) (pt : ℕ → LPt nt nf) (T : Vec nt) : ℝ :=
  forN n (fun i fun_ =>
    let w := (pt i).w * (pt i).J
    let temperature := dotv (pt i).tshape T
    fun_ + w / sigma i temperature) 0

/-- `DCLossFunctionalIntegratorMeshSens`, electromag_integ.cpp:6030-6135; `sRev i` is what
`sigma.EvalRevDiff` and `wRev i` what `WeightRevDiff` add to `PointMat_bar` at point `i`. -/
noncomputable def dcMeshSens (sigma : ℕ → ℝ → ℝ) (n meshNdof dim : ℕ) (pt : ℕ → LPt nt nf)
    (sRev wRev : ℕ → ℝ → ℕ → ℕ → ℝ) (T : Vec nt) : ℕ → ℝ :=
  forN n (fun i bar =>
    let w := (pt i).w * (pt i).J
    let sigmaV := sigma i (dotv (pt i).tshape T)
    let funBar : ℝ := 1
    let wBar := funBar / sigmaV
    let sigmaVBar := -funBar * w / sigmaV ^ 2
    let JBar := wBar * (pt i).w
    scatter meshNdof dim (fun k j => 0 + sRev i sigmaVBar k j + wRev i JBar k j) bar) (fun _ => 0)

/-- `DCLossFunctionalIntegratorTemperatureSens`, electromag_integ.cpp:6137-6219. -/
noncomputable def dcTempSens (sigma dsigma : ℕ → ℝ → ℝ) (n : ℕ) (pt : ℕ → LPt nt nf) (T : Vec nt) : Vec nt :=
  forN n (fun i bar =>
    let w := (pt i).w * (pt i).J
    let temperature := dotv (pt i).tshape T
    let sigmaV := sigma i temperature
    let funBar : ℝ := 1
    let sigmaVBar := -funBar * w / sigmaV ^ 2
    let temperatureBar := sigmaVBar * dsigma i temperature
    axpy temperatureBar (pt i).tshape bar) zeroV

/-- The scalar inputs of the DC loss distribution (electromag_integ.cpp:6221-6229). -/
inductive DDIn | wireLength | rmsCurrent | strandRadius | strandsInHand | stackLength | windingVolume
  deriving DecidableEq, Repr

/-- Values of the scalar inputs (electromag_integ.cpp:6221-6229). -/
abbrev DDPar := DDIn → ℝ

/-- Loss density at a point: electromag_integ.cpp:6299-6312. -/
noncomputable def ddLoss (p : DDPar) (sigmaV : ℝ) : ℝ :=
  let strandArea := Real.pi * p .strandRadius ^ 2
  let R := p .wireLength / (strandArea * p .strandsInHand * sigmaV)
  let loss := p .rmsCurrent ^ 2 * R
  let loss := loss * (1 * √2)
  loss * (1 / (p .windingVolume * p .stackLength))

/-- `DCLossDistributionIntegrator::AssembleRHSElementVect`, electromag_integ.cpp:6235-6315. -/
noncomputable def ddVec (p : DDPar) (sigma : ℕ → ℝ → ℝ) (n : ℕ) (pt : ℕ → LPt nt nf) (T : Vec nt) : Vec nt :=
  forN n (fun i elvect =>
    let w := (pt i).w * (pt i).J
    let loss := ddLoss p (sigma i (dotv (pt i).tshape T))
    axpy (loss * w) (pt i).tshape elvect) zeroV

/-- `DCLossDistributionIntegratorMeshRevSens`, electromag_integ.cpp:6317-6460. -/
noncomputable def ddMeshSens (p : DDPar) (sigma : ℕ → ℝ → ℝ) (n meshNdof dim : ℕ) (pt : ℕ → LPt nt nf)
    (wRev : ℕ → ℝ → ℕ → ℕ → ℝ) (T psi : Vec nt) : ℕ → ℝ :=
  forN n (fun i bar =>
    let loss := ddLoss p (sigma i (dotv (pt i).tshape T))
    let psiDot := dotv psi (pt i).tshape
    let funBar : ℝ := 1
    let wBar := funBar * loss * psiDot
    let JBar := wBar * (pt i).w
    scatter meshNdof dim (fun k j => 0 + wRev i JBar k j) bar) (fun _ => 0)

/-- The reverse pass through the loss density shared by the reverse sensitivities of the DC
distribution, electromag_integ.cpp:6572-6602, 6718-6750, 6860-6895, 7004-7039, 7148-7183, 7292-7312, 7420-7440: the
derivative with respect to the conductivity (`none`) or an input. -/
noncomputable def ddBar (p : DDPar) (sigmaV psiDot w : ℝ) (x : Option DDIn) : ℝ :=
  let strandArea := Real.pi * p .strandRadius ^ 2
  let R := p .wireLength / (strandArea * p .strandsInHand * sigmaV)
  let lossBar0 := 1 * psiDot * w
  let lossBar := lossBar0 * (1 / (p .windingVolume * p .stackLength))
  let lossBar := lossBar * (1 * √2)
  let RBar := lossBar * p .rmsCurrent ^ 2
  let loss3 := p .rmsCurrent ^ 2 * R * (1 * √2) / (p .windingVolume * p .stackLength)
  match x with
  | none => -RBar * p .wireLength / (strandArea * p .strandsInHand * sigmaV ^ 2)
  | some .rmsCurrent => lossBar * 2 * p .rmsCurrent * R
  | some .wireLength => RBar / (strandArea * p .strandsInHand * sigmaV)
  | some .strandRadius =>
    let strandAreaBar := -RBar * p .wireLength / (strandArea ^ 2 * p .strandsInHand * sigmaV)
    strandAreaBar * Real.pi * 2 * p .strandRadius
  | some .strandsInHand => -RBar * p .wireLength / (strandArea * p .strandsInHand ^ 2 * sigmaV)
  | some .stackLength => -lossBar0 * loss3 / p .stackLength
  | some .windingVolume => -lossBar0 * loss3 / p .windingVolume

/-- `DCLossDistributionIntegratorTemperatureRevSens`, electromag_integ.cpp:6462-6612. -/
noncomputable def ddTempSens (p : DDPar) (sigma dsigma : ℕ → ℝ → ℝ) (n : ℕ) (pt : ℕ → LPt nt nf)
    (T psi : Vec nt) : Vec nt :=
  forN n (fun i bar =>
    let w := (pt i).w * (pt i).J
    let temperature := dotv (pt i).tshape T
    let sigmaV := sigma i temperature
    let psiDot := dotv psi (pt i).tshape
    let sigmaVBar := ddBar p sigmaV psiDot w none
    axpy (sigmaVBar * dsigma i temperature) (pt i).tshape bar) zeroV

/-- `DCLossDistributionIntegrator{StrandRadius,WireLength,StrandsInHand,Current,StackLength,
WindingVolume}RevSens::GetElementEnergy`, electromag_integ.cpp:6614-7440. -/
noncomputable def ddScalarSens (p : DDPar) (sigma : ℕ → ℝ → ℝ) (n : ℕ) (pt : ℕ → LPt nt nf)
    (T psi : Vec nt) (x : DDIn) : ℝ :=
  forN n (fun i fun_ =>
    let w := (pt i).w * (pt i).J
    let sigmaV := sigma i (dotv (pt i).tshape T)
    let psiDot := dotv psi (pt i).tshape
    fun_ + ddBar p sigmaV psiDot w (some x)) 0

/-- `ACLossFunctionalIntegrator::GetElementEnergy`, electromag_integ.cpp:7444-7520. -/
noncomputable def acEnergy (sigma : ℕ → ℝ → ℝ) (n : ℕ) (pt : ℕ → LPt nt nf) (T : Vec nt) (b : Vec nf) : ℝ :=
  forN n (fun i fun_ =>
    let w := (pt i).w * (pt i).J
    let bMag := dotv (pt i).fshape b
    let temperature := dotv (pt i).tshape T
    let loss := sigma i temperature * bMag ^ 2
    fun_ + loss * w) 0

/-- `ACLossFunctionalIntegratorMeshSens`, electromag_integ.cpp:7590-7728; `fRev i` is what
`CalcPhysShapeRevDiff` of the flux element adds to `PointMat_bar`. -/
noncomputable def acMeshSens (sigma : ℕ → ℝ → ℝ) (n meshNdof dim : ℕ) (pt : ℕ → LPt nt nf)
    (sRev wRev : ℕ → ℝ → ℕ → ℕ → ℝ) (fRev : ℕ → Vec nf → ℕ → ℕ → ℝ) (T : Vec nt) (b : Vec nf) : ℕ → ℝ :=
  forN n (fun i bar =>
    let w := (pt i).w * (pt i).J
    let bMag := dotv (pt i).fshape b
    let sigmaV := sigma i (dotv (pt i).tshape T)
    let loss := sigmaV * bMag ^ 2
    let funBar : ℝ := 1
    let lossBar := funBar * w
    let wBar := funBar * loss
    let sigmaVBar := lossBar * bMag ^ 2
    let bMagBar := lossBar * sigmaV * 2 * bMag
    let shapeBar := axpy bMagBar b zeroV
    let JBar := wBar * (pt i).w
    scatter meshNdof dim
      (fun k j => 0 + sRev i sigmaVBar k j + fRev i shapeBar k j + wRev i JBar k j) bar) (fun _ => 0)

/-- `ACLossFunctionalIntegratorPeakFluxSens`, electromag_integ.cpp:7730-7832. -/
noncomputable def acFluxSens (sigma : ℕ → ℝ → ℝ) (n : ℕ) (pt : ℕ → LPt nt nf) (T : Vec nt) (b : Vec nf) : Vec nf :=
  forN n (fun i bar =>
    let w := (pt i).w * (pt i).J
    let bMag := dotv (pt i).fshape b
    let sigmaV := sigma i (dotv (pt i).tshape T)
    let lossBar := 1 * w
    let bMagBar := lossBar * sigmaV * 2 * bMag
    axpy bMagBar (pt i).fshape bar) zeroV

/-- `ACLossFunctionalIntegratorTemperatureSens`, electromag_integ.cpp:7834-7944. -/
noncomputable def acTempSens (dsigma : ℕ → ℝ → ℝ) (n : ℕ) (pt : ℕ → LPt nt nf) (T : Vec nt) (b : Vec nf) :
    Vec nt :=
  forN n (fun i bar =>
    let w := (pt i).w * (pt i).J
    let bMag := dotv (pt i).fshape b
    let temperature := dotv (pt i).tshape T
    let lossBar := 1 * w
    let sigmaVBar := lossBar * bMag ^ 2
    axpy (sigmaVBar * dsigma i temperature) (pt i).tshape bar) zeroV

/-- The scalar inputs of the AC loss distribution (electromag_integ.cpp:7946-7955). -/
inductive ADIn | frequency | strandRadius | strandsInHand | numTurns | numSlots | windingVolume
  deriving DecidableEq, Repr

/-- Values of the scalar inputs (electromag_integ.cpp:7946-7955). -/
abbrev ADPar := ADIn → ℝ

/-- Loss density at a point: electromag_integ.cpp:8040-8051. -/
noncomputable def adLoss (p : ADPar) (sigmaV bMag : ℝ) : ℝ :=
  let loss := Real.pi * p .strandRadius ^ 4 * (2 * Real.pi * p .frequency * bMag) ^ 2 * sigmaV / 8
  let loss := loss * (2 * p .strandsInHand * p .numTurns * p .numSlots)
  loss * (1 / p .windingVolume)

/-- `ACLossDistributionIntegrator::AssembleRHSElementVect`, electromag_integ.cpp:7957-8054. -/
noncomputable def adVec (p : ADPar) (sigma : ℕ → ℝ → ℝ) (n : ℕ) (pt : ℕ → LPt nt nf) (T : Vec nt) (b : Vec nf) :
    Vec nt :=
  forN n (fun i elvect =>
    let w := (pt i).w * (pt i).J
    let bMag := dotv (pt i).fshape b
    let loss := adLoss p (sigma i (dotv (pt i).tshape T)) bMag
    axpy (loss * w) (pt i).tshape elvect) zeroV

/-- `ACLossDistributionIntegratorMeshRevSens`, electromag_integ.cpp:8056-8219. -/
noncomputable def adMeshSens (p : ADPar) (sigma : ℕ → ℝ → ℝ) (n meshNdof dim : ℕ) (pt : ℕ → LPt nt nf)
    (wRev : ℕ → ℝ → ℕ → ℕ → ℝ) (T : Vec nt) (b : Vec nf) (psi : Vec nt) : ℕ → ℝ :=
  forN n (fun i bar =>
    let bMag := dotv (pt i).fshape b
    let loss := adLoss p (sigma i (dotv (pt i).tshape T)) bMag
    let psiDot := dotv psi (pt i).tshape
    let funBar : ℝ := 1
    let wBar := funBar * loss * psiDot
    let JBar := wBar * (pt i).w
    scatter meshNdof dim (fun k j => 0 + wRev i JBar k j) bar) (fun _ => 0)

/-- `ACLossDistributionIntegratorPeakFluxRevSens`, electromag_integ.cpp:8221-8376. -/
noncomputable def adFluxSens (p : ADPar) (sigma : ℕ → ℝ → ℝ) (n : ℕ) (pt : ℕ → LPt nt nf) (T : Vec nt)
    (b : Vec nf) (psi : Vec nt) : Vec nf :=
  forN n (fun i bar =>
    let w := (pt i).w * (pt i).J
    let bMag := dotv (pt i).fshape b
    let sigmaV := sigma i (dotv (pt i).tshape T)
    let psiDot := dotv psi (pt i).tshape
    let lossBar := 1 * psiDot * w
    let lossBar := lossBar * (1 / p .windingVolume)
    let lossBar := lossBar * (2 * p .strandsInHand * p .numTurns * p .numSlots)
    let bMagBar := lossBar * Real.pi * p .strandRadius ^ 4 * 2 * (2 * Real.pi * p .frequency) ^ 2 *
      bMag * sigmaV / 8
    axpy bMagBar (pt i).fshape bar) zeroV

/-- `ACLossDistributionIntegratorTemperatureRevSens`, electromag_integ.cpp:8378-8537. -/
noncomputable def adTempSens (p : ADPar) (dsigma : ℕ → ℝ → ℝ) (n : ℕ) (pt : ℕ → LPt nt nf) (T : Vec nt)
    (b : Vec nf) (psi : Vec nt) : Vec nt :=
  forN n (fun i bar =>
    let w := (pt i).w * (pt i).J
    let bMag := dotv (pt i).fshape b
    let temperature := dotv (pt i).tshape T
    let psiDot := dotv psi (pt i).tshape
    let lossBar := 1 * psiDot * w
    let lossBar := lossBar * (1 / p .windingVolume)
    let lossBar := lossBar * (2 * p .strandsInHand * p .numTurns * p .numSlots)
    let sigmaVBar := lossBar * Real.pi * p .strandRadius ^ 4 * (2 * Real.pi * p .frequency * bMag) ^ 2 / 8
    axpy (sigmaVBar * dsigma i temperature) (pt i).tshape bar) zeroV

/-- The value one point adds in `ACLossDistributionIntegrator{Frequency,StrandRadius,StrandsInHand,
NumTurns,NumSlots,WindingVolume}RevSens::GetElementEnergy`, electromag_integ.cpp:8663-8682, 8815-8840,
8971-8998, 9130-9157, 9288-9315, 9446-9470. -/
noncomputable def adBar (p : ADPar) (sigmaV bMag psiDot w : ℝ) (x : ADIn) : ℝ :=
  let loss := Real.pi * p .strandRadius ^ 4 * (2 * Real.pi * p .frequency * bMag) ^ 2 * sigmaV / 8
  let loss2 := loss * 2 * p .strandsInHand * p .numTurns * p .numSlots
  let lossBar := 1 * psiDot * w
  let loss2Bar := lossBar / p .windingVolume
  match x with
  | .frequency =>
    let lossBar := lossBar / p .windingVolume
    let lossBar := lossBar * (2 * p .strandsInHand * p .numTurns * p .numSlots)
    lossBar * Real.pi * p .strandRadius ^ 4 * 2 * p .frequency * (2 * Real.pi * bMag) ^ 2 * sigmaV / 8
  | .strandRadius =>
    let lossBar := lossBar * (1 / p .windingVolume)
    let lossBar := lossBar * (2 * p .strandsInHand * p .numTurns * p .numSlots)
    lossBar * Real.pi * 4 * p .strandRadius ^ 3 * (2 * Real.pi * p .frequency * bMag) ^ 2 * sigmaV / 8
  | .strandsInHand => loss2Bar * loss * 2 * p .numTurns * p .numSlots
  | .numTurns => loss2Bar * loss * 2 * p .strandsInHand * p .numSlots
  | .numSlots => loss2Bar * loss * 2 * p .strandsInHand * p .numTurns
  | .windingVolume => -lossBar * loss2 / p .windingVolume ^ 2

/-- The scalar reverse sensitivities of the AC loss distribution, electromag_integ.cpp:8539-9480. -/
noncomputable def adScalarSens (p : ADPar) (sigma : ℕ → ℝ → ℝ) (n : ℕ) (pt : ℕ → LPt nt nf) (T : Vec nt)
    (b : Vec nf) (psi : Vec nt) (x : ADIn) : ℝ :=
  forN n (fun i fun_ =>
    let w := (pt i).w * (pt i).J
    let bMag := dotv (pt i).fshape b
    let sigmaV := sigma i (dotv (pt i).tshape T)
    let psiDot := dotv psi (pt i).tshape
    fun_ + adBar p sigmaV bMag psiDot w x) 0

/-- Vector `vectorJacobianProduct` of the DC and AC loss distribution outputs with respect to
`mesh_coords`, electromag_outputs.cpp:604-626, 1520-1545: `loadVjp` is what the linear form's reverse
sensitivity adds, `volBar` the linear form's scalar reverse sensitivity to `winding_volume`. -/
noncomputable def distMeshVjp {n : ℕ} (loadVjp : (Fin n → ℝ) → Fin n → ℝ) (volBar : ℝ) (vol : Func n)
    (u : Fin n → ℝ) (wrtBar : Fin n → ℝ) : Fin n → ℝ :=
  vol.vjp u volBar (loadVjp wrtBar)

end Verif.Losses
