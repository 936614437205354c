import Verif.Force

/-!
Model of the older force integrator `ForceIntegrator` and of `MagnetizationIntegrator`
(`/repo/src/physics/electromagnetics/electromag_integ.cpp:10573-10936, 3623-3709`): public integrators of the library which the force and
torque outputs no longer use.
-/

namespace Verif.Force
open Verif.Sbp Verif.Dense Verif.Diffusion

variable {ndof dim m : ℕ}

/-- `dBmdJ`, electromag_integ.cpp:10654-10680. -/
noncomputable def FPt.dbdJOld (p : FPt ndof dim m) (u : Vec ndof) : Mat dim dim :=
  let b := p.bvec u
  let norm := norm2 b
  if dim = 3 then
    let bhat := mulTV p.cs u
    let BBt := vwt b bhat
    let invT := transpose p.inv
    fun i j => 1 / (p.J * norm) * BBt i j + -norm / p.J * invT i j
  else
    let bhat := mulV p.inv b
    addVWt (-1 / norm) b bhat zeroM

/-- `dBds`, electromag_integ.cpp:10682-10694. -/
noncomputable def FPt.dBdsOld (p : FPt ndof dim m) (u : Vec ndof) (dXds : Mat m dim) : ℝ :=
  let dBdX : Mat dim m := addABt (p.dbdJOld u) p.dshape zeroM
  ∑ j, ∑ k, dBdX k j * dXds j k

open Classical in
/-- `ForceIntegrator::GetElementEnergy`, electromag_integ.cpp:10573-10720.  `inBody` is `attrs.count(trans.Attribute) == 1`. -/
noncomputable def forceOld (inBody : Bool) (n : ℕ) (E : ℕ → En) (pt : ℕ → FPt ndof dim m) (dXds : Mat m dim)
    (u : Vec ndof) : ℝ :=
  if inBody then 0 else
  if tiny dXds then 0 else
  forN n (fun i fun_ =>
    let p := pt i
    let w := p.w * p.J
    let f1 := p.dBdsOld u dXds * (E i).e1 (p.bmag u)
    let f2 := (E i).e (p.bmag u) * p.tr dXds
    fun_ - (f1 + f2) * w) 0

/-- One point of `ForceIntegrator::AssembleElementVector` in three dimensions, electromag_integ.cpp:10786-10934.  (In two dimensions the
function sizes its matrices for one curl component and reads `curlshape` uninitialised; that case is not modelled.) -/
noncomputable def revBodyOld (E : En) (dXds : Mat m dim) (p : FPt ndof dim m) (u : Vec ndof) (bar : Vec ndof) : Vec ndof :=
  let w := p.w * p.J
  let b := p.bvec u
  let norm := norm2 b
  let bmag := norm / p.J
  let bhat := mulTV p.cs u
  let BBt := vwt b bhat
  let invT := transpose p.inv
  let dBmdJ : Mat dim dim := fun i j => 1 / (p.J * norm) * BBt i j + -norm / p.J * invT i j
  let dBdX : Mat dim m := addABt dBmdJ p.dshape zeroM
  let dBds := ∑ j, ∑ k, dBdX k j * dXds j k
  let forceBar := 0 - 1 * w
  let force2Bar := 0 - 1 * w
  let energyBar := force2Bar * p.tr dXds
  let bb := 0 + energyBar * E.e1 bmag
  let dBdsBar := forceBar * E.e1 bmag
  let energyDotBar := forceBar * dBds
  let bb := bb + energyDotBar * E.e2 bmag
  let dBdXBar : Mat dim m := fun k j => 0 + dBdsBar * dXds j k
  let D := fun i j => zeroM i j + mulM dBdXBar p.dshape i j
  let BBtBar : Mat dim dim := fun i j => D i j * (1 / (p.J * norm))
  let normBar := 0 - ∑ j, ∑ k, D j k * (BBt j k / (p.J * norm ^ 2) + invT j k / p.J)
  let bBar := mulV BBtBar bhat
  let bhatBar := mulTV BBtBar b
  let bar := addMulV p.cs 1 bhatBar bar
  let normBar := normBar + bb / p.J
  let bBar := axpy (normBar / norm) b bBar
  addMulV p.cdft 1 bBar bar

open Classical in
/-- `ForceIntegrator::AssembleElementVector` in three dimensions, electromag_integ.cpp:10722-10936. -/
noncomputable def stateSensOld (inBody : Bool) (n : ℕ) (E : ℕ → En) (pt : ℕ → FPt ndof dim m) (dXds : Mat m dim)
    (u : Vec ndof) : Vec ndof :=
  if inBody then zeroV else
  if tiny dXds then zeroV else
  forN n (fun i => revBodyOld (E i) dXds (pt i) u) zeroV

/-! ### Magnetisation -/

/-- One quadrature point of `MagnetizationIntegrator`: weight, the physical curls of the basis (`curlshape_dFt`, not divided by the
Jacobian determinant), `trans.Weight()`, the magnetisation. electromag_integ.cpp:3668-3698. -/
structure MPt (ndof dim : ℕ) where
  w : ℝ
  cdft : Mat ndof dim
  J : ℝ
  mag : Vec dim

/-- `MagnetizationIntegrator::AssembleElementVector`, electromag_integ.cpp:3623-3700; `nu i` is the reluctivity law at point `i`. -/
noncomputable def magVector (α : ℝ) (n : ℕ) (nu : ℕ → ℝ → ℝ) (pt : ℕ → MPt ndof dim) (u : Vec ndof) : Vec ndof :=
  forN n (fun i elvect =>
    let p := pt i
    let w := α * p.w / p.J
    let b := mulTV p.cdft u
    let nuVal := nu i (norm2 b) * w
    addMulV p.cdft 1 (fun k => p.mag k * nuVal) elvect) zeroV

/-- `MagnetizationIntegrator::AssembleElementGrad`, electromag_integ.cpp:3702-3709: the active body is `elmat = 0.0`; the matrix keeps the
size it arrives with. -/
def magGrad (elmat : Mat ndof ndof) : Mat ndof ndof := fun i j => 0 * elmat i j

end Verif.Force
