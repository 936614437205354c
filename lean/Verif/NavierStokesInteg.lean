import Verif.EulerInteg
import Verif.Viscous
import Verif.ViscousInteg

/-!
Model of the Navier–Stokes integrators (`/repo/src/physics/fluidflow/navier_stokes_integ.hpp`,
`navier_stokes_integ_def.hpp`) plugged into the generic integrators of `ViscousInteg.lean`, and of the
entropy change reported by the viscous flow residual (`flow_residual.cpp`).
-/

namespace Verif.NavierStokes
open Verif.EulerFluxes Verif.EulerInteg Verif.Sbp Verif.Inviscid Verif.Viscous Verif.ViscousInteg

variable {d : ℕ}

/-- `ESViscousIntegrator::convertVars`, navier_stokes_integ.hpp:79-82, and the `convertVars` of every
viscous boundary condition (same body): always from conservative variables (`entvar = false`), also
when it is added to `FlowResidual<dim, true>` (flow_residual.cpp:172-175). -/
noncomputable def nsConvert (d : ℕ) (q : ℕ → ℝ) : ℕ → ℝ := ofState (calcEntropyVars (toState d q))

/-- `Dw.GetData()` as the columns of a `num_states x dim` matrix (navier_stokes_integ.hpp:111-112). -/
def toDw (d : ℕ) (Dw : ℕ → ℕ → ℝ) : Fin d → State d := fun j => toState d (fun s => Dw s j)

/-- `ESViscousIntegrator::applyScaling`, navier_stokes_integ.hpp:98-113; only called with
`0 ≤ dd < dim`. -/
noncomputable def nsScale (d : ℕ) (mu Re Pr : ℝ) (dd : ℕ) (_x q : ℕ → ℝ) (Dw : ℕ → ℕ → ℝ) : ℕ → ℝ :=
  if h : dd < d then
    ofState (viscousScaling ⟨dd, h⟩ (muRe mu Re (toState d q)) Pr (toState d q) (toDw d Dw))
  else fun _ => 0

/-- `ESViscousIntegrator::AssembleElementVector` (viscous_integ_def.hpp:39-117 with the members above). -/
noncomputable def esViscVec (d : ℕ) (mu Re Pr : ℝ) (e : Elem ℝ) (alpha : ℝ) (wt : ℕ → ℝ)
    (adj : ℕ → ℕ → ℕ → ℝ) (x : ℕ → ℕ → ℝ) (u : ℕ → ℝ) : ℕ → ℝ :=
  symVec e (d + 2) alpha wt adj x (nsConvert d) (nsScale d mu Re Pr) u

/-- `ESViscousIntegrator::GetElementEnergy` (viscous_integ_def.hpp:12-37 with the members above). -/
noncomputable def esViscEnergy (d : ℕ) (mu Re Pr : ℝ) (e : Elem ℝ) (alpha : ℝ) (wt : ℕ → ℝ)
    (adj : ℕ → ℕ → ℕ → ℝ) (x : ℕ → ℕ → ℝ) (u : ℕ → ℝ) : ℝ :=
  symEnergy e (d + 2) alpha wt adj x (nsConvert d) (nsScale d mu Re Pr) u

/-- The boundary conditions `addViscousBoundaryIntegrators` can attach to a boundary face,
flow_residual.cpp:308-374. -/
inductive Bnd (d : ℕ)
  /-- `ViscousSlipWallBC` -/
  | slipWall
  /-- `NoSlipAdiabaticWallBC` with its reference state -/
  | noSlip (qref : State d)
  /-- `FarFieldBC` (the inviscid condition, in the residual's own variables) -/
  | farField (qfar : State d)
  /-- `ViscousExactBC` with the exact solution -/
  | exact (qex : (ℕ → ℝ) → State d)
  /-- `ViscousControlBC`: reference state, control value and scale function -/
  | control (qref : State d) (control : ℝ) (scale : (ℕ → ℝ) → ℝ)

/-- `calcFlux` of the viscous conditions: navier_stokes_integ_def.hpp:109-139 (no-slip), 343-386
(slip), 830-864 (exact), 1008-1050 (control).  `none` for the far field, which is not a viscous
integrator. -/
noncomputable def Bnd.flux (mu Re Pr : ℝ) (x dir : ℕ → ℝ) (jac : ℝ) (q : ℕ → ℝ)
    (Dw : ℕ → ℕ → ℝ) : Bnd d → Option (State d)
  | .slipWall => some (viscSlipFlux mu Re Pr (toDir d dir) (toState d q) (toDw d Dw))
  | .noSlip qref => some (noSlipFlux mu Re Pr qref (toDir d dir) jac (toState d q) (toDw d Dw))
  | .farField _ => none
  | .exact qex => some (viscExactFlux mu Re Pr (qex x) (toDir d dir) (toState d q) (toDw d Dw))
  | .control qref c scale =>
      some (viscControlFlux mu Re Pr c (scale x) qref (toDir d dir) jac (toState d q) (toDw d Dw))

/-- `calcBndryFun` of the viscous conditions: `w * flux_vec` with
`calcEntropyVars<double, dim, false>`, navier_stokes_integ_def.hpp:97-108, 330-341, 817-828,
995-1006. -/
noncomputable def Bnd.fn (mu Re Pr : ℝ) (b : Bnd d) (x dir : ℕ → ℝ) (jac : ℝ) (q : ℕ → ℝ)
    (Dw : ℕ → ℕ → ℝ) : ℝ :=
  match b.flux mu Re Pr x dir jac q Dw with
  | some f => vdot (d + 2) (nsConvert d q) (ofState f)
  | none => 0

/-- `GetFaceEnergy` of the integrator attached to a boundary face: the viscous boundary integrator
(viscous_integ_def.hpp:245-330), or the inviscid one for the far field
(inviscid_integ_def.hpp:416-468). -/
noncomputable def Bnd.energy (entvar : Bool) (mu Re Pr : ℝ) (f : Face ℝ) (e : Elem ℝ) (wt : ℕ → ℝ)
    (adj : ℕ → ℕ → ℕ → ℝ) (u : ℕ → ℝ) (b : Bnd d) : ℝ :=
  match b with
  | .farField qfar => bndEnergy f e.dof 1 (testedFlux d entvar (farFieldFlux d entvar qfar)) u
  | b => vbEnergy f e (d + 2) 1 wt adj (nsConvert d) (b.fn mu Re Pr) u

/-- `FlowResidual::calcEntropyChange_` (flow_residual.cpp:445-459) for a viscous flow: the sum of the
energies of the integrators added at flow_residual.cpp:139-190 (Ismail-Roe, LPS if its coefficient is
positive, ESViscous) and 308-374 (boundary).  The discontinuous basis throws for viscous flows
(flow_residual.cpp:203-208), so there are no interface terms.  `wt k i` is `Trans.Weight()` and
`x k i` the location of node `i` of element `k`. -/
noncomputable def nsEntropyChange (d : ℕ) (entvar : Bool) (lpsCoeff mu Re Pr : ℝ) (m : FlowMesh)
    (wt : ℕ → ℕ → ℝ) (x : ℕ → ℕ → ℕ → ℝ) (bc : ℕ → Bnd d) (u : ℕ → ℕ → ℝ) : ℝ :=
  let dom := forN m.ne (fun k s => s + irEnergy d entvar (m.elem k).e 1 (m.elem k).adj (u k)) 0
  let dom := if 0 < lpsCoeff then
      forN m.ne (fun k s => s + entLpsEnergy d entvar (m.elem k).e lpsCoeff 1 (m.elem k).adj (u k)) dom
    else dom
  let dom := forN m.ne (fun k s => s +
    esViscEnergy d mu Re Pr (m.elem k).e 1 (wt k) (m.elem k).adj (x k) (u k)) dom
  forN m.nb (fun b s => s + (bc b).energy entvar mu Re Pr (m.bface b) (m.elem (m.bE b)).e (wt (m.bE b))
    (m.elem (m.bE b)).adj (u (m.bE b))) dom

end Verif.NavierStokes
