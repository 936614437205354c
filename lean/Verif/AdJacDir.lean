import Verif.AdJacobian

/-! # Jacobians of the Euler fluxes with respect to the direction (C241)

`calcFluxJacDir` of the Euler integrators, and `EulerIntegrator`'s two Jacobians.  As in `AdJacobian`, Adept's `jacobian` is taken to fill
a column-major array with the partial derivatives of what was recorded. -/

namespace Verif.AdJacobian
open Verif.EulerFluxes Verif.Inviscid Verif.EulerInteg

variable (d : ℕ) (entvar : Bool)

/-- `EulerIntegrator::calcFluxJacState`, euler_integ_def.hpp:15-35. -/
noncomputable def eulerJacState (dir q : ℕ → ℝ) : ℕ → ℕ → ℝ := jac1 (d + 2) (eulerFlux d dir) q

/-- `EulerIntegrator::calcFluxJacDir`, euler_integ_def.hpp:38-58. -/
noncomputable def eulerJacDir (dir q : ℕ → ℝ) : ℕ → ℕ → ℝ :=
  dense (d + 2) (stackJac (d + 2) (fun r => eulerFlux d r q) dir)

/-- `calcFluxJacDir` of the boundary conditions: the kernel is recorded with the position and the state fixed.
euler_integ_def.hpp:428-452 (vortex), 501-524 (slip wall), 580-607 (far field), 672-702 (entropy conservative), 758-785 (control). -/
noncomputable def bcJacDir (flux : (ℕ → ℝ) → (ℕ → ℝ) → (ℕ → ℝ) → ℕ → ℝ) (x dir q : ℕ → ℝ) : ℕ → ℕ → ℝ :=
  dense (d + 2) (stackJac (d + 2) (fun r => flux x r q) dir)

/-- The free function `calcFluxJacState`: the boundary flux against `q_ref`, by the state; the position, `jac` and `Dw` do not enter.
euler_fluxes.hpp:1019-1056. -/
noncomputable def freeJacState (dir qref q : ℕ → ℝ) : ℕ → ℕ → ℝ :=
  jac1 (d + 2) (fun v => ofState (calcBoundaryFlux (toDir d dir) (toState d qref) (toState d v))) q

/-- `InterfaceIntegrator::calcFluxJacDir`, euler_integ_def.hpp:885-920. -/
noncomputable def ifaceJacDir (diss : ℝ) (dir qL qR : ℕ → ℝ) : ℕ → ℕ → ℝ :=
  dense (d + 2) (stackJac (d + 2) (fun r => ifaceFlux d entvar diss r qL qR) dir)

end Verif.AdJacobian
