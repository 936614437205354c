import Verif.AdJacobian
import Verif.NavierStokesInteg

/-!
# Jacobians by operator overloading (Adept) in the Navier–Stokes integrators

`/repo/src/physics/fluidflow/navier_stokes_integ_def.hpp`, `navier_stokes_integ.hpp`.  The kernels are
functions of the state `q` and of the array `Dw` of derivatives; each `...JacState` and `...JacDw` records
the kernel again, with the state or the array as independent variables.  Adept is modelled as in
`AdJacobian.lean`.
-/

namespace Verif.AdViscous
open Verif.EulerFluxes Verif.Sbp Verif.Inviscid Verif.EulerInteg Verif.Viscous Verif.ViscousInteg
  Verif.NavierStokes Verif.AdJacobian

/-- `Dw.GetData()`: a `num_states x dim` matrix as a column-major array.
navier_stokes_integ_def.hpp:75. -/
def flat (ns : ℕ) (Dw : ℕ → ℕ → ℝ) : ℕ → ℝ := fun k => Dw (k % ns) (k / ns)

/-- The array `Dw_a.data()` read by the kernels: derivative `j` of variable `s` at `j*(dim+2)+s`.
navier_stokes_integ_def.hpp:87-88, navier_stokes_fluxes.hpp:140-144. -/
def unflat (ns : ℕ) (a : ℕ → ℝ) : ℕ → ℕ → ℝ := fun s j => a (j * ns + s)

/-- `...JacState`: independent `q_a`, `Dw_a` recorded with its values.
navier_stokes_integ_def.hpp:21-54, 161-218, 389-440, 867-922, 1071-1133. -/
noncomputable def jacState (ns : ℕ) (F : (ℕ → ℝ) → (ℕ → ℕ → ℝ) → ℕ → ℝ) (q : ℕ → ℝ) (Dw : ℕ → ℕ → ℝ) :
    ℕ → ℕ → ℝ :=
  jac1 ns (fun y => F y Dw) q

/-- `...JacDw`: independent `Dw_a`; the array `work` is cut into `dim` blocks of `num_states²` numbers, each
the data of a square matrix. navier_stokes_integ_def.hpp:57-99, 221-283, 443-510, 925-984, 1136-1204. -/
noncomputable def jacDw (ns : ℕ) (F : (ℕ → ℝ) → (ℕ → ℕ → ℝ) → ℕ → ℝ) (q : ℕ → ℝ) (Dw : ℕ → ℕ → ℝ) :
    ℕ → ℕ → ℕ → ℝ :=
  fun i => dense ns (fun p => stackJac ns (fun a => F q (unflat ns a)) (flat ns Dw) (i * ns * ns + p))

variable (d : ℕ)

/-- `convertVarsJac`, euler_fluxes.hpp:991-1010 (`convertVarsJacState` of every viscous integrator,
navier_stokes_integ.hpp:87-90, 198-201, 345-348, ...). -/
noncomputable def nsConvertJac (q : ℕ → ℝ) : ℕ → ℕ → ℝ := jac1 (d + 2) (nsConvert d) q

/-- `ESViscousIntegrator::applyScalingJacState`, navier_stokes_integ_def.hpp:21-54. -/
noncomputable def nsScaleJac (mu Re Pr : ℝ) (dd : ℕ) (x q : ℕ → ℝ) (Dw : ℕ → ℕ → ℝ) : ℕ → ℕ → ℝ :=
  jacState (d + 2) (nsScale d mu Re Pr dd x) q Dw

/-- `ESViscousIntegrator::applyScalingJacDw`, navier_stokes_integ_def.hpp:57-99. -/
noncomputable def nsScaleJacDw (mu Re Pr : ℝ) (dd : ℕ) (x q : ℕ → ℝ) (Dw : ℕ → ℕ → ℝ) : ℕ → ℕ → ℕ → ℝ :=
  jacDw (d + 2) (nsScale d mu Re Pr dd x) q Dw

/-- `ESViscousIntegrator::AssembleElementGrad` (inherited, viscous_integ_def.hpp:119-243). -/
noncomputable def esViscGrad (mu Re Pr : ℝ) (e : Elem ℝ) (alpha : ℝ) (wt : ℕ → ℝ)
    (adj : ℕ → ℕ → ℕ → ℝ) (x : ℕ → ℕ → ℝ) (u : ℕ → ℝ) : ℕ → ℕ → ℝ :=
  symGrad e (d + 2) alpha wt adj x (nsConvert d) (nsConvertJac d) (nsScaleJac d mu Re Pr)
    (nsScaleJacDw d mu Re Pr) u

variable {d}

/-- The flux vector written by `calcFlux` of a viscous boundary condition (the far field is not one:
flow_residual.cpp:308-374 attaches the inviscid condition). navier_stokes_integ_def.hpp:109-139, 343-386,
830-864, 1008-1050. -/
noncomputable def bcFlux (mu Re Pr : ℝ) (b : Bnd d) (x dir : ℕ → ℝ) (jac : ℝ) (q : ℕ → ℝ)
    (Dw : ℕ → ℕ → ℝ) : ℕ → ℝ :=
  ofState ((b.flux mu Re Pr x dir jac q Dw).getD zeroS)

/-- `calcFluxDv`: zero for all of them. navier_stokes_integ_def.hpp:142-149, 1053-1060,
navier_stokes_integ.hpp:382-388, 986-992. -/
def bcFluxDv (_x _dir _q : ℕ → ℝ) : ℕ → ℕ → ℝ := fun _ _ => 0

/-- `calcFluxDvJacState`: zero. navier_stokes_integ.hpp:276-285, 425-434, 1029-1038, 1188-1197. -/
def bcFluxDvJac (_x _dir _q : ℕ → ℝ) : ℕ → ℕ → ℕ → ℝ := fun _ _ _ => 0

/-- `AssembleFaceVector` of a viscous boundary condition with `alpha = 1` (viscous_integ_def.hpp:332-420). -/
noncomputable def bcVec (mu Re Pr : ℝ) (b : Bnd d) (f : Face ℝ) (e : Elem ℝ) (wt : ℕ → ℝ)
    (adj : ℕ → ℕ → ℕ → ℝ) (u : ℕ → ℝ) : ℕ → ℝ :=
  vbVec f e (d + 2) 1 wt adj (nsConvert d) (bcFlux mu Re Pr b) bcFluxDv u

/-- `AssembleFaceGrad` of a viscous boundary condition: `calcFluxJacState`, `calcFluxJacDw` recorded at the
face node. navier_stokes_integ_def.hpp:161-283 (no-slip), 389-510 (slip), 867-984 (exact), 1071-1204
(control). -/
noncomputable def bcGrad (mu Re Pr : ℝ) (b : Bnd d) (f : Face ℝ) (e : Elem ℝ) (wt : ℕ → ℝ)
    (adj : ℕ → ℕ → ℕ → ℝ) (u : ℕ → ℝ) : ℕ → ℕ → ℝ :=
  vbGrad f e (d + 2) wt adj (nsConvert d) (nsConvertJac d)
    (fun x dir jac => jacState (d + 2) (bcFlux mu Re Pr b x dir jac))
    (fun x dir jac => jacDw (d + 2) (bcFlux mu Re Pr b x dir jac)) bcFluxDvJac u

/-- `SurfaceForce::calcBndryFun`, navier_stokes_integ_def.hpp:1249-1280. -/
noncomputable def sfFun (mu Re Pr : ℝ) (qfs : State d) (forceNrm : Fin d → ℝ) (_x dir : ℕ → ℝ) (jac : ℝ)
    (q : ℕ → ℝ) (Dw : ℕ → ℕ → ℝ) : ℝ :=
  surfaceForce mu Re Pr qfs forceNrm (toDir d dir) jac (toState d q) (toDw d Dw)

/-- `SurfaceForce::calcBndryFunJacState`: reverse mode with seed 1, gradient with respect to `q_a`.
navier_stokes_integ_def.hpp:1283-1343. -/
noncomputable def sfJacState (mu Re Pr : ℝ) (qfs : State d) (forceNrm : Fin d → ℝ) (x dir : ℕ → ℝ)
    (jac : ℝ) (q : ℕ → ℝ) (Dw : ℕ → ℕ → ℝ) : ℕ → ℝ :=
  stackJac 1 (fun y _ => sfFun mu Re Pr qfs forceNrm x dir jac y Dw) q

/-- `SurfaceForce::calcBndryFunJacDw`: gradient with respect to `Dw_a`, `flux_mat(s, d) =
work(d*(dim+2)+s)`. navier_stokes_integ_def.hpp:1346-1412. -/
noncomputable def sfJacDw (mu Re Pr : ℝ) (qfs : State d) (forceNrm : Fin d → ℝ) (x dir : ℕ → ℝ)
    (jac : ℝ) (q : ℕ → ℝ) (Dw : ℕ → ℕ → ℝ) : ℕ → ℕ → ℝ :=
  let work := stackJac 1 (fun a _ => sfFun mu Re Pr qfs forceNrm x dir jac q (unflat (d + 2) a))
    (flat (d + 2) Dw)
  fun s dd => work (dd * (d + 2) + s)

/-- `SurfaceForce::AssembleFaceVector` with `alpha = 1`, navier_stokes_integ_def.hpp:1499-1624. -/
noncomputable def sfGradVec (mu Re Pr : ℝ) (qfs : State d) (forceNrm : Fin d → ℝ) (f : Face ℝ) (e : Elem ℝ)
    (wt : ℕ → ℝ) (adj : ℕ → ℕ → ℕ → ℝ) (u : ℕ → ℝ) : ℕ → ℝ :=
  sfVec f e (d + 2) 1 wt adj (nsConvert d) (nsConvertJac d) (sfJacState mu Re Pr qfs forceNrm)
    (sfJacDw mu Re Pr qfs forceNrm) u

end Verif.AdViscous
