import Verif.LegacyForce

/-!
Model of `ForceIntegratorMeshSens`, the mesh sensitivity of the older force integrator
(`/repo/src/physics/electromagnetics/electromag_integ.cpp:10937-11236`), in three dimensions.  (In two dimensions the function sizes its
matrices for one component; that case is not modelled.)
-/

namespace Verif.Force
open Verif.Sbp Verif.Dense Verif.Diffusion

variable {ndof dim m : ℕ}

/-- The reverse pass at one quadrature point, electromag_integ.cpp:11027-11216: `jac_bar` and `trans_weight_bar` at the end. -/
noncomputable def meshPointOld (E : En) (dXds : Mat m dim) (p : FPt ndof dim m) (u : Vec ndof) : Mat dim dim × ℝ :=
  let w := p.w * p.J
  let b := p.bvec u
  let norm := norm2 b
  let bmag := norm / p.J
  let bhat := mulTV p.cs u
  let BBt := vwt b bhat
  let invT := transpose p.inv
  let dBmdJ : Mat dim dim := fun i j => 1 / (p.J * norm) * BBt i j + -norm / p.J * invT i j
  let dBdX : Mat dim m := addABt dBmdJ p.dshape zeroM
  let dBds := ∑ j, ∑ k, dBdX k j * dXds j k
  let energyDot := E.e1 bmag
  let force := dBds * energyDot
  let dJds := mulAtB dXds p.dshape
  let JinvdJds := mulM p.inv dJds
  let tr := trace JinvdJds
  let energy := E.e bmag
  let force2 := energy * tr
  let forceBar := 0 - 1 * w
  let force2Bar := 0 - 1 * w
  let wBar := 0 - 1 * (force + force2)
  let energyBar := force2Bar * tr
  let trBar := force2Bar * energy
  let bmagBar := 0 + energyBar * energyDot
  let JinvdJdsBar : Mat dim dim := fun i j => if i = j then trBar else 0
  let dJdsBar := mulM invT JinvdJdsBar
  let jacBar : Mat dim dim := fun i j => mulABt dJdsBar JinvdJds i j * (-1)
  let dBdsBar := forceBar * energyDot
  let energyDotBar := forceBar * dBds
  let bmagBar := bmagBar + energyDotBar * E.e2 bmag
  let dBdXBar : Mat dim m := fun k j => 0 + dBdsBar * dXds j k
  let D : Mat dim dim := fun i j => zeroM i j + mulM dBdXBar p.dshape i j
  let BBtBar : Mat dim dim := fun i j => D i j * (1 / (p.J * norm))
  let invTBar : Mat dim dim := fun i j => D i j * (-norm / p.J)
  let normBar := 0 - ∑ j, ∑ k, D j k * (BBt j k / (p.J * norm ^ 2) + invT j k / p.J)
  let JBar := 0 - ∑ j, ∑ k, D j k * (BBt j k / (p.J ^ 2 * norm) - invT j k * norm / p.J ^ 2)
  let invBar := transpose invTBar
  let tmp : Mat dim dim := fun i j => mulM invBar invT i j * (-1)
  let jacBar : Mat dim dim := fun i j => jacBar i j + mulM invT tmp i j
  let bBar := mulV BBtBar bhat
  let normBar := normBar + bmagBar / p.J
  let JBar := JBar - bmagBar * norm / p.J ^ 2
  let bBar := axpy (normBar / norm) b bBar
  let cdftBar := vwt bBar u
  let jacBar : Mat dim dim := fun i j => jacBar i j + mulM cdftBar p.cs i j
  let JBar := JBar + wBar * p.w
  (jacBar, JBar)

open Classical in
/-- `ForceIntegratorMeshSens::AssembleRHSElementVect`, electromag_integ.cpp:10937-11236.  `wRev i 1` is what `WeightRevDiff(PointMat_bar)`
adds to a zero `PointMat_bar` at point `i`, `jacRev i A` what `JacobianRevDiff(A, PointMat_bar)` adds. -/
noncomputable def meshSensOld (inBody : Bool) (n : ℕ) (E : ℕ → En) (pt : ℕ → FPt ndof dim m)
    (wRev : ℕ → ℝ → ℕ → ℕ → ℝ) (jacRev : ℕ → Mat dim dim → ℕ → ℕ → ℝ) (dXds : Mat m dim) (u : Vec ndof) : ℕ → ℝ :=
  if inBody then fun _ => 0 else
  if tiny dXds then fun _ => 0 else
  forN n (fun i bar =>
    let r := meshPointOld (E i) dXds (pt i) u
    scatter m dim (fun k j => (0 + wRev i 1 k j) * r.2 + jacRev i r.1 k j) bar) (fun _ => 0)

end Verif.Force
