import Verif.Viscous
import Mathlib.Analysis.SpecialFunctions.Trigonometric.Basic

/-!
Model of the manufactured solutions and their source terms:
`/repo/src/physics/fluidflow/navier_stokes_fluxes.hpp:356-786` (`viscousMMSExact`, `calcViscousMMS`),
`/repo/src/physics/fluidflow/euler_fluxes.hpp:1272-1420` (`InviscidMMSExact`, `calcInviscidMMS`), and of
the integrator that puts a source into the residual (`mms_integ.hpp`, `mms_integ_def.hpp`,
`navier_stokes_integ.hpp:15-50`, `euler_integ_mms.hpp`, `flow_residual.cpp:159-186`).

`double` is `ℝ`, `M_PI` is `π`.  The decimal constants of the generated source expressions
(`0.033333333333333333`, `1.3333333333333333`, `9.3333333333333339`, ...) are read as the rational numbers they
are the printed double of (`1/30`, `4/3`, `28/3`, ...).  A C array `x` is a function `ℕ → ℝ` (what stands in
memory from `x[0]` on), so that an index beyond the size of the vector can be expressed.
The source expressions were transcribed token by token by a script.
-/

namespace Verif.Mms
open Verif.EulerFluxes Verif.Viscous Real
set_option linter.unusedVariables false

/-- `pow(a, n)` of the C library at a small integer exponent (navier_stokes_fluxes.hpp:434-783,
euler_fluxes.hpp:1337-1410). -/
noncomputable def pow (a : ℝ) (n : ℕ) : ℝ := a ^ n

/-- The end of `viscousMMSExact` and `InviscidMMSExact`, navier_stokes_fluxes.hpp:380-385, 399-403,
euler_fluxes.hpp:1303-1308: `p = u[0]*T`, the energy from the velocities, then the velocities times density. -/
noncomputable def finish {d : ℕ} (rho : ℝ) (u : Fin d → ℝ) (T : ℝ) : State d :=
  let p : ℝ := rho * T
  ⟨rho, fun i => u i * rho, p / gami + 1 / 2 * rho * ∑ i, u i * u i⟩

/-- `viscousMMSExact`, `default` (two-dimensional) branch, navier_stokes_fluxes.hpp:387-406. -/
noncomputable def viscousExact2 (x : ℕ → ℝ) : State 2 :=
  let rho0 : ℝ := 1
  let rhop : ℝ := 1 / 20
  let U0 : ℝ := 1 / 2
  let Up : ℝ := 1 / 20
  let T0 : ℝ := 1
  let Tp : ℝ := 1 / 20
  let rho : ℝ := rho0 + rhop * (sin (π * x 0)) ^ 2 * sin (π * x 1)
  let u1 : ℝ := 4 * U0 * x 1 * (1 - x 1) + Up * sin (2 * π * x 1) * (sin (π * x 0)) ^ 2
  let u2 : ℝ := -Up * (sin (2 * π * x 0)) ^ 2 * sin (π * x 1)
  let T : ℝ := T0 + Tp * (x 0 ^ 4 - 2 * x 0 ^ 3 + x 0 ^ 2 + x 1 ^ 4 - 2 * x 1 ^ 3 + x 1 ^ 2)
  finish rho ![u1, u2] T

/-- `viscousMMSExact`, `case 3`, navier_stokes_fluxes.hpp:366-386.  The density reads `x[3]`. -/
noncomputable def viscousExact3 (x : ℕ → ℝ) : State 3 :=
  let r0 : ℝ := 1
  let rxyz : ℝ := 1
  let u0 : ℝ := 1 / 2
  let v0 : ℝ := 1 / 2
  let w0 : ℝ := 1 / 2
  let T0 : ℝ := 1
  let rho : ℝ := r0 + r0 * (1 / 10) * sin (2 * rxyz * π * x 0) * sin (2 * rxyz * π * x 1) *
    sin (2 * rxyz * π * x 3)
  let u1 : ℝ := u0 * ((x 0 ^ 3 / 3 - x 0 ^ 2 / 2) + (x 1 ^ 3 / 3 - x 1 ^ 2 / 2) + (x 2 ^ 3 / 3 - x 2 ^ 2 / 2))
  let u2 : ℝ := v0 * ((x 0 ^ 3 / 3 - x 0 ^ 2 / 2) + (x 1 ^ 3 / 3 - x 1 ^ 2 / 2) + (x 2 ^ 3 / 3 - x 2 ^ 2 / 2))
  let u3 : ℝ := w0 * ((x 0 ^ 3 / 3 - x 0 ^ 2 / 2) + (x 1 ^ 3 / 3 - x 1 ^ 2 / 2) + (x 2 ^ 3 / 3 - x 2 ^ 2 / 2))
  finish rho ![u1, u2, u3] T0

/-- `InviscidMMSExact`, `case 3`, euler_fluxes.hpp:1283-1310. -/
noncomputable def inviscidExact3 (x : ℕ → ℝ) : State 3 :=
  let rhop : ℝ := 1 / 10
  let rho0 : ℝ := 1
  let up : ℝ := 1 / 10
  let u0 : ℝ := 1 / 10
  let trans : ℝ := 0
  let scale : ℝ := 1
  let T0 : ℝ := 1
  let Tp : ℝ := 1 / 10
  let rho : ℝ := rho0 + rhop * sin (π * ((x 0 + trans) / scale) ^ 2) * sin (π * (x 1 + trans) / scale)
  let u1 : ℝ := 4 * u0 * ((x 1 + trans) / scale) * (1 - (x 1 + trans) / scale) +
    up * sin (2 * π * (x 1 + trans) / scale) * sin (π * ((x 0 + trans) / scale) ^ 2)
  let u2 : ℝ := -up * sin (2 * π * ((x 0 + trans) / scale) ^ 2) * sin (π * (x 1 + trans) / scale)
  let T : ℝ := T0 + Tp * (((x 0 + trans) / scale) ^ 4 - 2 * ((x 0 + trans) / scale) ^ 3 +
    ((x 0 + trans) / scale) ^ 2 + ((x 1 + trans) / scale) ^ 4 - 2 * ((x 1 + trans) / scale) ^ 3 +
    ((x 1 + trans) / scale) ^ 2)
  finish rho ![u1, u2, 0] T

/-- `InviscidMMSExact`, `default`, euler_fluxes.hpp:1311-1315: all zeros (the fifth store is past the end of a
two-dimensional state; not modelled). -/
def inviscidExactDefault {d : ℕ} (x : ℕ → ℝ) : State d := ⟨0, fun _ => 0, 0⟩

/-- `src[0]` of `calcViscousMMS`, two-dimensional branch, navier_stokes_fluxes.hpp:538-549 (constants
528-535). -/
noncomputable def viscousSrc2_0 (mu Pr : ℝ) (x : ℕ → ℝ) : ℝ :=
  let gamma : ℝ := EulerFluxes.gamma
  let rho0 : ℝ := 1
  let rhop : ℝ := 1 / 20
  let U0 : ℝ := 1 / 2
  let Up : ℝ := 1 / 20
  let T0 : ℝ := 1
  let Tp : ℝ := 1 / 20
  let kappa : ℝ := mu * gamma / (Pr * gami)
  π * (-Up * rhop * pow (sin (π * x 0)) 2 * pow (sin (2 * π * x 0)) 2 * sin (π * x 1) * cos (π *
  x 1) + 2 * Up * (rho0 + rhop * pow (sin (π * x 0)) 2 * sin (π * x 1)) * sin (π * x 0) * sin (2
  * π * x 1) * cos (π * x 0) - Up * (rho0 + rhop * pow (sin (π * x 0)) 2 * sin (π * x 1)) * pow
  (sin (2 * π * x 0)) 2 * cos (π * x 1) - 2 * rhop * (4 * U0 * x 1 * (x 1 - 1) - Up * pow (sin
  (π * x 0)) 2 * sin (2 * π * x 1)) * sin (π * x 0) * sin (π * x 1) * cos (π * x 0))

/-- `src[1]` of `calcViscousMMS`, two-dimensional branch, navier_stokes_fluxes.hpp:551-590 (constants
528-535). -/
noncomputable def viscousSrc2_1 (mu Pr : ℝ) (x : ℕ → ℝ) : ℝ :=
  let gamma : ℝ := EulerFluxes.gamma
  let rho0 : ℝ := 1
  let rhop : ℝ := 1 / 20
  let U0 : ℝ := 1 / 2
  let Up : ℝ := 1 / 20
  let T0 : ℝ := 1
  let Tp : ℝ := 1 / 20
  let kappa : ℝ := mu * gamma / (Pr * gami)
  2 * Tp * x 0 * (rho0 + rhop * pow (sin (π * x 0)) 2 * sin (π * x 1)) * (2 * pow (x 0) 2 - 3 *
  x 0 + 1) + (1 / 3) * pow (π) 2 * Up * mu * (sin (π * (4 * x 0 - x 1)) + sin (π * (4 * x 0 + x
  1))) + (8 / 3) * pow (π) 2 * Up * mu * pow (sin (π * x 0)) 2 * sin (2 * π * x 1) - (8 / 3) *
  pow (π) 2 * Up * mu * sin (2 * π * x 1) * pow (cos (π * x 0)) 2 + π * Up * rhop * (4 * U0 * x
  1 * (x 1 - 1) - Up * pow (sin (π * x 0)) 2 * sin (2 * π * x 1)) * pow (sin (π * x 0)) 2 * pow
  (sin (2 * π * x 0)) 2 * sin (π * x 1) * cos (π * x 1) - 4 * π * Up * (rho0 + rhop * pow (sin
  (π * x 0)) 2 * sin (π * x 1)) * (4 * U0 * x 1 * (x 1 - 1) - Up * pow (sin (π * x 0)) 2 * sin
  (2 * π * x 1)) * sin (π * x 0) * sin (2 * π * x 1) * cos (π * x 0) + π * Up * (rho0 + rhop *
  pow (sin (π * x 0)) 2 * sin (π * x 1)) * (4 * U0 * x 1 * (x 1 - 1) - Up * pow (sin (π * x 0))
  2 * sin (2 * π * x 1)) * pow (sin (2 * π * x 0)) 2 * cos (π * x 1) + 2 * Up * (rho0 + rhop *
  pow (sin (π * x 0)) 2 * sin (π * x 1)) * (2 * U0 * x 1 + 2 * U0 * (x 1 - 1) - π * Up * pow
  (sin (π * x 0)) 2 * cos (2 * π * x 1)) * pow (sin (2 * π * x 0)) 2 * sin (π * x 1) + 4 * mu *
  (2 * U0 + pow (π) 2 * Up * pow (sin (π * x 0)) 2 * sin (2 * π * x 1)) + (1 / 2) * π * rhop *
  (T0 + Tp * (pow (x 0) 4 - 2 * pow (x 0) 3 + pow (x 0) 2 + pow (x 1) 4 - 2 * pow (x 1) 3 + pow
  (x 1) 2)) * (cos (π * (2 * x 0 - x 1)) - cos (π * (2 * x 0 + x 1))) + 2 * π * rhop * pow (4 *
  U0 * x 1 * (x 1 - 1) - Up * pow (sin (π * x 0)) 2 * sin (2 * π * x 1)) 2 * sin (π * x 0) * sin
  (π * x 1) * cos (π * x 0)

/-- `src[2]` of `calcViscousMMS`, two-dimensional branch, navier_stokes_fluxes.hpp:592-626 (constants
528-535). -/
noncomputable def viscousSrc2_2 (mu Pr : ℝ) (x : ℕ → ℝ) : ℝ :=
  let gamma : ℝ := EulerFluxes.gamma
  let rho0 : ℝ := 1
  let rhop : ℝ := 1 / 20
  let U0 : ℝ := 1 / 2
  let Up : ℝ := 1 / 20
  let T0 : ℝ := 1
  let Tp : ℝ := 1 / 20
  let kappa : ℝ := mu * gamma / (Pr * gami)
  2 * Tp * x 1 * (rho0 + rhop * pow (sin (π * x 0)) 2 * sin (π * x 1)) * (2 * pow (x 1) 2 - 3 *
  x 1 + 1) + π * pow Up 2 * rhop * pow (sin (π * x 0)) 2 * pow (sin (2 * π * x 0)) 4 * pow (sin
  (π * x 1)) 2 * cos (π * x 1) - 16 * π * pow Up 2 * (rho0 + rhop * pow (sin (π * x 0)) 2 * sin
  (π * x 1)) * pow (sin (π * x 0)) 3 * pow (sin (π * x 1)) 2 * pow (cos (π * x 0)) 3 * cos (π *
  x 1) + 2 * π * pow Up 2 * (rho0 + rhop * pow (sin (π * x 0)) 2 * sin (π * x 1)) * pow (sin (2
  * π * x 0)) 4 * sin (π * x 1) * cos (π * x 1) - (1 / 3) * pow (π) 2 * Up * mu * (sin (π * (2 *
  x 0 - 2 * x 1)) + sin (π * (2 * x 0 + 2 * x 1))) - (28 / 3) * pow (π) 2 * Up * mu * pow (sin
  (2 * π * x 0)) 2 * sin (π * x 1) + 8 * pow (π) 2 * Up * mu * sin (π * x 1) * pow (cos (2 * π *
  x 0)) 2 + 2 * π * Up * rhop * (4 * U0 * x 1 * (x 1 - 1) - Up * pow (sin (π * x 0)) 2 * sin (2
  * π * x 1)) * sin (π * x 0) * pow (sin (2 * π * x 0)) 2 * pow (sin (π * x 1)) 2 * cos (π * x
  0) + 4 * π * Up * (rho0 + rhop * pow (sin (π * x 0)) 2 * sin (π * x 1)) * (4 * U0 * x 1 * (x 1
  - 1) - Up * pow (sin (π * x 0)) 2 * sin (2 * π * x 1)) * sin (2 * π * x 0) * sin (π * x 1) *
  cos (2 * π * x 0) + π * rhop * (T0 + Tp * (pow (x 0) 4 - 2 * pow (x 0) 3 + pow (x 0) 2 + pow
  (x 1) 4 - 2 * pow (x 1) 3 + pow (x 1) 2)) * pow (sin (π * x 0)) 2 * cos (π * x 1)

/-- `src[3]` of `calcViscousMMS`, two-dimensional branch, navier_stokes_fluxes.hpp:628-783 (constants
528-535). -/
noncomputable def viscousSrc2_3 (mu Pr : ℝ) (x : ℕ → ℝ) : ℝ :=
  let gamma : ℝ := EulerFluxes.gamma
  let rho0 : ℝ := 1
  let rhop : ℝ := 1 / 20
  let U0 : ℝ := 1 / 2
  let Up : ℝ := 1 / 20
  let T0 : ℝ := 1
  let Tp : ℝ := 1 / 20
  let kappa : ℝ := mu * gamma / (Pr * gami)
  (1 / 2) * (2 * π * Up * (rho0 + rhop * pow (sin (π * x 0)) 2 * sin (π * x 1)) * (2 * T0 + 2 *
  Tp * (pow (x 0) 4 - 2 * pow (x 0) 3 + pow (x 0) 2 + pow (x 1) 4 - 2 * pow (x 1) 3 + pow (x 1)
  2) + (gamma - 1) * (2 * T0 + 2 * Tp * (pow (x 0) 4 - 2 * pow (x 0) 3 + pow (x 0) 2 + pow (x 1)
  4 - 2 * pow (x 1) 3 + pow (x 1) 2) + pow Up 2 * pow (sin (2 * π * x 0)) 4 * pow (sin (π * x
  1)) 2 + pow (4 * U0 * x 1 * (x 1 - 1) - Up * pow (sin (π * x 0)) 2 * sin (2 * π * x 1)) 2)) *
  sin (π * x 0) * sin (2 * π * x 1) * cos (π * x 0) - π * Up * (rho0 + rhop * pow (sin (π * x
  0)) 2 * sin (π * x 1)) * (2 * T0 + 2 * Tp * (pow (x 0) 4 - 2 * pow (x 0) 3 + pow (x 0) 2 + pow
  (x 1) 4 - 2 * pow (x 1) 3 + pow (x 1) 2) + (gamma - 1) * (2 * T0 + 2 * Tp * (pow (x 0) 4 - 2 *
  pow (x 0) 3 + pow (x 0) 2 + pow (x 1) 4 - 2 * pow (x 1) 3 + pow (x 1) 2) + pow Up 2 * pow (sin
  (2 * π * x 0)) 4 * pow (sin (π * x 1)) 2 + pow (4 * U0 * x 1 * (x 1 - 1) - Up * pow (sin (π *
  x 0)) 2 * sin (2 * π * x 1)) 2)) * pow (sin (2 * π * x 0)) 2 * cos (π * x 1) - Up * (4 * Tp *
  x 1 * (rho0 + rhop * pow (sin (π * x 0)) 2 * sin (π * x 1)) * (2 * pow (x 1) 2 - 3 * x 1 + 1)
  + 2 * π * rhop * (T0 + Tp * (pow (x 0) 4 - 2 * pow (x 0) 3 + pow (x 0) 2 + pow (x 1) 4 - 2 *
  pow (x 1) 3 + pow (x 1) 2)) * pow (sin (π * x 0)) 2 * cos (π * x 1) + (gamma - 1) * (4 * Tp *
  x 1 * (rho0 + rhop * pow (sin (π * x 0)) 2 * sin (π * x 1)) * (2 * pow (x 1) 2 - 3 * x 1 + 1)
  + 2 * π * rhop * (T0 + Tp * (pow (x 0) 4 - 2 * pow (x 0) 3 + pow (x 0) 2 + pow (x 1) 4 - 2 *
  pow (x 1) 3 + pow (x 1) 2)) * pow (sin (π * x 0)) 2 * cos (π * x 1) + π * rhop * (pow Up 2 *
  pow (sin (2 * π * x 0)) 4 * pow (sin (π * x 1)) 2 + pow (4 * U0 * x 1 * (x 1 - 1) - Up * pow
  (sin (π * x 0)) 2 * sin (2 * π * x 1)) 2) * pow (sin (π * x 0)) 2 * cos (π * x 1) + 2 * (rho0
  + rhop * pow (sin (π * x 0)) 2 * sin (π * x 1)) * (π * pow Up 2 * pow (sin (2 * π * x 0)) 4 *
  sin (π * x 1) * cos (π * x 1) + 2 * (4 * U0 * x 1 * (x 1 - 1) - Up * pow (sin (π * x 0)) 2 *
  sin (2 * π * x 1)) * (2 * U0 * x 1 + 2 * U0 * (x 1 - 1) - π * Up * pow (sin (π * x 0)) 2 * cos
  (2 * π * x 1))))) * pow (sin (2 * π * x 0)) 2 * sin (π * x 1) + 2 * (gamma - 1) * (-2 * Tp *
  kappa * (6 * pow (x 0) 2 - 6 * x 0 + 1) - 2 * Tp * kappa * (6 * pow (x 1) 2 - 6 * x 1 + 1) +
  (16 / 3) * pow (π) 2 * pow Up 2 * mu * (1 - 2 * pow (sin (π * x 1)) 2) * pow (sin (π * x 0)) 3
  * sin (π * x 1) * pow (cos (π * x 0)) 3 - (64 / 3) * pow (π) 2 * pow Up 2 * mu * pow (sin (π *
  x 0)) 3 * sin (π * x 1) * pow (cos (π * x 0)) 3 * pow (cos (π * x 1)) 2 - (16 / 3) * pow (π) 2
  * pow Up 2 * mu * pow (sin (π * x 0)) 2 * pow (sin (2 * π * x 1)) 2 * pow (cos (π * x 0)) 2 +
  (28 / 3) * pow (π) 2 * pow Up 2 * mu * pow (sin (2 * π * x 0)) 4 * pow (sin (π * x 1)) 2 - (4
  / 3) * pow (π) 2 * pow Up 2 * mu * pow (sin (2 * π * x 0)) 4 * pow (cos (π * x 1)) 2 - 24 *
  pow (π) 2 * pow Up 2 * mu * pow (sin (2 * π * x 0)) 2 * pow (sin (π * x 1)) 2 * pow (cos (2 *
  π * x 0)) 2 - (8 / 3) * pow (π) 2 * Up * mu * (4 * U0 * x 1 * (x 1 - 1) - Up * pow (sin (π * x
  0)) 2 * sin (2 * π * x 1)) * pow (sin (π * x 0)) 2 * sin (2 * π * x 1) - (4 / 3) * pow (π) 2 *
  Up * mu * (4 * U0 * x 1 * (x 1 - 1) - Up * pow (sin (π * x 0)) 2 * sin (2 * π * x 1)) * sin (2
  * π * x 0) * cos (2 * π * x 0) * cos (π * x 1) + (8 / 3) * pow (π) 2 * Up * mu * (4 * U0 * x 1
  * (x 1 - 1) - Up * pow (sin (π * x 0)) 2 * sin (2 * π * x 1)) * sin (2 * π * x 1) * pow (cos
  (π * x 0)) 2 - 16 * π * Up * mu * (2 * U0 * x 1 + 2 * U0 * (x 1 - 1) - π * Up * pow (sin (π *
  x 0)) 2 * cos (2 * π * x 1)) * sin (2 * π * x 0) * sin (π * x 1) * cos (2 * π * x 0) - 4 * mu
  * (2 * U0 + pow (π) 2 * Up * pow (sin (π * x 0)) 2 * sin (2 * π * x 1)) * (4 * U0 * x 1 * (x 1
  - 1) - Up * pow (sin (π * x 0)) 2 * sin (2 * π * x 1)) - 4 * mu * pow (2 * U0 * x 1 + 2 * U0 *
  (x 1 - 1) - π * Up * pow (sin (π * x 0)) 2 * cos (2 * π * x 1)) 2) - (4 * U0 * x 1 * (x 1 - 1)
  - Up * pow (sin (π * x 0)) 2 * sin (2 * π * x 1)) * (4 * Tp * x 0 * (rho0 + rhop * pow (sin (π
  * x 0)) 2 * sin (π * x 1)) * (2 * pow (x 0) 2 - 3 * x 0 + 1) + π * rhop * (T0 + Tp * (pow (x
  0) 4 - 2 * pow (x 0) 3 + pow (x 0) 2 + pow (x 1) 4 - 2 * pow (x 1) 3 + pow (x 1) 2)) * (cos (π
  * (2 * x 0 - x 1)) - cos (π * (2 * x 0 + x 1))) + (gamma - 1) * (4 * Tp * x 0 * (rho0 + rhop *
  pow (sin (π * x 0)) 2 * sin (π * x 1)) * (2 * pow (x 0) 2 - 3 * x 0 + 1) + 4 * π * Up * (rho0
  + rhop * pow (sin (π * x 0)) 2 * sin (π * x 1)) * (2 * Up * pow (sin (2 * π * x 0)) 3 * pow
  (sin (π * x 1)) 2 * cos (2 * π * x 0) - (4 * U0 * x 1 * (x 1 - 1) - Up * pow (sin (π * x 0)) 2
  * sin (2 * π * x 1)) * sin (π * x 0) * sin (2 * π * x 1) * cos (π * x 0)) + π * rhop * (T0 +
  Tp * (pow (x 0) 4 - 2 * pow (x 0) 3 + pow (x 0) 2 + pow (x 1) 4 - 2 * pow (x 1) 3 + pow (x 1)
  2)) * (cos (π * (2 * x 0 - x 1)) - cos (π * (2 * x 0 + x 1))) + 2 * π * rhop * (pow Up 2 * pow
  (sin (2 * π * x 0)) 4 * pow (sin (π * x 1)) 2 + pow (4 * U0 * x 1 * (x 1 - 1) - Up * pow (sin
  (π * x 0)) 2 * sin (2 * π * x 1)) 2) * sin (π * x 0) * sin (π * x 1) * cos (π * x 0)))) /
  (gamma - 1)

/-- `calcViscousMMS`, two-dimensional branch, navier_stokes_fluxes.hpp:526-785. -/
noncomputable def viscousSrc2 (mu Pr : ℝ) (x : ℕ → ℝ) : State 2 :=
  ⟨viscousSrc2_0 mu Pr x, ![viscousSrc2_1 mu Pr x, viscousSrc2_2 mu Pr x], viscousSrc2_3 mu Pr x⟩

/-- `src[0]` of `calcViscousMMS`, `case 3`, navier_stokes_fluxes.hpp:434-441 (constants 425-432). -/
noncomputable def viscousSrc3_0 (mu Pr : ℝ) (x : ℕ → ℝ) : ℝ :=
  let gamma : ℝ := EulerFluxes.gamma
  let kappa : ℝ := mu * gamma / (Pr * gami)
  let r0 : ℝ := 1
  let rxyz : ℝ := 1
  let u0 : ℝ := 1 / 2
  let v0 : ℝ := 1 / 2
  let w0 : ℝ := 1 / 2
  let T0 : ℝ := 1
  r0 * ((1 / 30) * π * rxyz * u0 * (2 * pow (x 0) 3 - 3 * pow (x 0) 2 + 2 * pow (x 1) 3 - 3 *
  pow (x 1) 2 + 2 * pow (x 2) 3 - 3 * pow (x 2) 2) * sin (2 * π * rxyz * x 1) * sin (2 * π *
  rxyz * x 2) * cos (2 * π * rxyz * x 0) + (1 / 30) * π * rxyz * v0 * (2 * pow (x 0) 3 - 3 * pow
  (x 0) 2 + 2 * pow (x 1) 3 - 3 * pow (x 1) 2 + 2 * pow (x 2) 3 - 3 * pow (x 2) 2) * sin (2 * π
  * rxyz * x 0) * sin (2 * π * rxyz * x 2) * cos (2 * π * rxyz * x 1) + (1 / 30) * π * rxyz * w0
  * (2 * pow (x 0) 3 - 3 * pow (x 0) 2 + 2 * pow (x 1) 3 - 3 * pow (x 1) 2 + 2 * pow (x 2) 3 - 3
  * pow (x 2) 2) * sin (2 * π * rxyz * x 0) * sin (2 * π * rxyz * x 1) * cos (2 * π * rxyz * x
  2) + u0 * x 0 * (x 0 - 1) * ((1 / 10) * sin (2 * π * rxyz * x 0) * sin (2 * π * rxyz * x 1) *
  sin (2 * π * rxyz * x 2) + 1) + v0 * x 1 * (x 1 - 1) * ((1 / 10) * sin (2 * π * rxyz * x 0) *
  sin (2 * π * rxyz * x 1) * sin (2 * π * rxyz * x 2) + 1) + w0 * x 2 * (x 2 - 1) * ((1 / 10) *
  sin (2 * π * rxyz * x 0) * sin (2 * π * rxyz * x 1) * sin (2 * π * rxyz * x 2) + 1))

/-- `src[1]` of `calcViscousMMS`, `case 3`, navier_stokes_fluxes.hpp:442-453 (constants 425-432). -/
noncomputable def viscousSrc3_1 (mu Pr : ℝ) (x : ℕ → ℝ) : ℝ :=
  let gamma : ℝ := EulerFluxes.gamma
  let kappa : ℝ := mu * gamma / (Pr * gami)
  let r0 : ℝ := 1
  let rxyz : ℝ := 1
  let u0 : ℝ := 1 / 2
  let v0 : ℝ := 1 / 2
  let w0 : ℝ := 1 / 2
  let T0 : ℝ := 1
  (1 / 5) * π * T0 * r0 * rxyz * sin (2 * π * rxyz * x 1) * sin (2 * π * rxyz * x 2) * cos (2 *
  π * rxyz * x 0) - (4 / 3) * mu * u0 * (2 * x 0 - 1) - mu * u0 * (2 * x 1 - 1) - mu * u0 * (2 *
  x 2 - 1) + (1 / 180) * π * r0 * rxyz * pow u0 2 * pow (2 * pow (x 0) 3 - 3 * pow (x 0) 2 + 2 *
  pow (x 1) 3 - 3 * pow (x 1) 2 + 2 * pow (x 2) 3 - 3 * pow (x 2) 2) 2 * sin (2 * π * rxyz * x
  1) * sin (2 * π * rxyz * x 2) * cos (2 * π * rxyz * x 0) + (1 / 180) * π * r0 * rxyz * u0 * v0
  * pow (2 * pow (x 0) 3 - 3 * pow (x 0) 2 + 2 * pow (x 1) 3 - 3 * pow (x 1) 2 + 2 * pow (x 2) 3
  - 3 * pow (x 2) 2) 2 * sin (2 * π * rxyz * x 0) * sin (2 * π * rxyz * x 2) * cos (2 * π * rxyz
  * x 1) + (1 / 180) * π * r0 * rxyz * u0 * w0 * pow (2 * pow (x 0) 3 - 3 * pow (x 0) 2 + 2 *
  pow (x 1) 3 - 3 * pow (x 1) 2 + 2 * pow (x 2) 3 - 3 * pow (x 2) 2) 2 * sin (2 * π * rxyz * x
  0) * sin (2 * π * rxyz * x 1) * cos (2 * π * rxyz * x 2) + (1 / 3) * r0 * pow u0 2 * x 0 * (x
  0 - 1) * ((1 / 10) * sin (2 * π * rxyz * x 0) * sin (2 * π * rxyz * x 1) * sin (2 * π * rxyz *
  x 2) + 1) * (2 * pow (x 0) 3 - 3 * pow (x 0) 2 + 2 * pow (x 1) 3 - 3 * pow (x 1) 2 + 2 * pow
  (x 2) 3 - 3 * pow (x 2) 2) + (1 / 3) * r0 * u0 * v0 * x 1 * (x 1 - 1) * ((1 / 10) * sin (2 * π
  * rxyz * x 0) * sin (2 * π * rxyz * x 1) * sin (2 * π * rxyz * x 2) + 1) * (2 * pow (x 0) 3 -
  3 * pow (x 0) 2 + 2 * pow (x 1) 3 - 3 * pow (x 1) 2 + 2 * pow (x 2) 3 - 3 * pow (x 2) 2) + (1
  / 3) * r0 * u0 * w0 * x 2 * (x 2 - 1) * ((1 / 10) * sin (2 * π * rxyz * x 0) * sin (2 * π *
  rxyz * x 1) * sin (2 * π * rxyz * x 2) + 1) * (2 * pow (x 0) 3 - 3 * pow (x 0) 2 + 2 * pow (x
  1) 3 - 3 * pow (x 1) 2 + 2 * pow (x 2) 3 - 3 * pow (x 2) 2)

/-- `src[2]` of `calcViscousMMS`, `case 3`, navier_stokes_fluxes.hpp:454-465 (constants 425-432). -/
noncomputable def viscousSrc3_2 (mu Pr : ℝ) (x : ℕ → ℝ) : ℝ :=
  let gamma : ℝ := EulerFluxes.gamma
  let kappa : ℝ := mu * gamma / (Pr * gami)
  let r0 : ℝ := 1
  let rxyz : ℝ := 1
  let u0 : ℝ := 1 / 2
  let v0 : ℝ := 1 / 2
  let w0 : ℝ := 1 / 2
  let T0 : ℝ := 1
  (1 / 5) * π * T0 * r0 * rxyz * sin (2 * π * rxyz * x 0) * sin (2 * π * rxyz * x 2) * cos (2 *
  π * rxyz * x 1) - mu * v0 * (2 * x 0 - 1) - (4 / 3) * mu * v0 * (2 * x 1 - 1) - mu * v0 * (2 *
  x 2 - 1) + (1 / 180) * π * r0 * rxyz * u0 * v0 * pow (2 * pow (x 0) 3 - 3 * pow (x 0) 2 + 2 *
  pow (x 1) 3 - 3 * pow (x 1) 2 + 2 * pow (x 2) 3 - 3 * pow (x 2) 2) 2 * sin (2 * π * rxyz * x
  1) * sin (2 * π * rxyz * x 2) * cos (2 * π * rxyz * x 0) + (1 / 180) * π * r0 * rxyz * pow v0
  2 * pow (2 * pow (x 0) 3 - 3 * pow (x 0) 2 + 2 * pow (x 1) 3 - 3 * pow (x 1) 2 + 2 * pow (x 2)
  3 - 3 * pow (x 2) 2) 2 * sin (2 * π * rxyz * x 0) * sin (2 * π * rxyz * x 2) * cos (2 * π *
  rxyz * x 1) + (1 / 180) * π * r0 * rxyz * v0 * w0 * pow (2 * pow (x 0) 3 - 3 * pow (x 0) 2 + 2
  * pow (x 1) 3 - 3 * pow (x 1) 2 + 2 * pow (x 2) 3 - 3 * pow (x 2) 2) 2 * sin (2 * π * rxyz * x
  0) * sin (2 * π * rxyz * x 1) * cos (2 * π * rxyz * x 2) + (1 / 3) * r0 * u0 * v0 * x 0 * (x 0
  - 1) * ((1 / 10) * sin (2 * π * rxyz * x 0) * sin (2 * π * rxyz * x 1) * sin (2 * π * rxyz * x
  2) + 1) * (2 * pow (x 0) 3 - 3 * pow (x 0) 2 + 2 * pow (x 1) 3 - 3 * pow (x 1) 2 + 2 * pow (x
  2) 3 - 3 * pow (x 2) 2) + (1 / 3) * r0 * pow v0 2 * x 1 * (x 1 - 1) * ((1 / 10) * sin (2 * π *
  rxyz * x 0) * sin (2 * π * rxyz * x 1) * sin (2 * π * rxyz * x 2) + 1) * (2 * pow (x 0) 3 - 3
  * pow (x 0) 2 + 2 * pow (x 1) 3 - 3 * pow (x 1) 2 + 2 * pow (x 2) 3 - 3 * pow (x 2) 2) + (1 /
  3) * r0 * v0 * w0 * x 2 * (x 2 - 1) * ((1 / 10) * sin (2 * π * rxyz * x 0) * sin (2 * π * rxyz
  * x 1) * sin (2 * π * rxyz * x 2) + 1) * (2 * pow (x 0) 3 - 3 * pow (x 0) 2 + 2 * pow (x 1) 3
  - 3 * pow (x 1) 2 + 2 * pow (x 2) 3 - 3 * pow (x 2) 2)

/-- `src[3]` of `calcViscousMMS`, `case 3`, navier_stokes_fluxes.hpp:466-477 (constants 425-432). -/
noncomputable def viscousSrc3_3 (mu Pr : ℝ) (x : ℕ → ℝ) : ℝ :=
  let gamma : ℝ := EulerFluxes.gamma
  let kappa : ℝ := mu * gamma / (Pr * gami)
  let r0 : ℝ := 1
  let rxyz : ℝ := 1
  let u0 : ℝ := 1 / 2
  let v0 : ℝ := 1 / 2
  let w0 : ℝ := 1 / 2
  let T0 : ℝ := 1
  (1 / 5) * π * T0 * r0 * rxyz * sin (2 * π * rxyz * x 0) * sin (2 * π * rxyz * x 1) * cos (2 *
  π * rxyz * x 2) - mu * w0 * (2 * x 0 - 1) - mu * w0 * (2 * x 1 - 1) - (4 / 3) * mu * w0 * (2 *
  x 2 - 1) + (1 / 180) * π * r0 * rxyz * u0 * w0 * pow (2 * pow (x 0) 3 - 3 * pow (x 0) 2 + 2 *
  pow (x 1) 3 - 3 * pow (x 1) 2 + 2 * pow (x 2) 3 - 3 * pow (x 2) 2) 2 * sin (2 * π * rxyz * x
  1) * sin (2 * π * rxyz * x 2) * cos (2 * π * rxyz * x 0) + (1 / 180) * π * r0 * rxyz * v0 * w0
  * pow (2 * pow (x 0) 3 - 3 * pow (x 0) 2 + 2 * pow (x 1) 3 - 3 * pow (x 1) 2 + 2 * pow (x 2) 3
  - 3 * pow (x 2) 2) 2 * sin (2 * π * rxyz * x 0) * sin (2 * π * rxyz * x 2) * cos (2 * π * rxyz
  * x 1) + (1 / 180) * π * r0 * rxyz * pow w0 2 * pow (2 * pow (x 0) 3 - 3 * pow (x 0) 2 + 2 *
  pow (x 1) 3 - 3 * pow (x 1) 2 + 2 * pow (x 2) 3 - 3 * pow (x 2) 2) 2 * sin (2 * π * rxyz * x
  0) * sin (2 * π * rxyz * x 1) * cos (2 * π * rxyz * x 2) + (1 / 3) * r0 * u0 * w0 * x 0 * (x 0
  - 1) * ((1 / 10) * sin (2 * π * rxyz * x 0) * sin (2 * π * rxyz * x 1) * sin (2 * π * rxyz * x
  2) + 1) * (2 * pow (x 0) 3 - 3 * pow (x 0) 2 + 2 * pow (x 1) 3 - 3 * pow (x 1) 2 + 2 * pow (x
  2) 3 - 3 * pow (x 2) 2) + (1 / 3) * r0 * v0 * w0 * x 1 * (x 1 - 1) * ((1 / 10) * sin (2 * π *
  rxyz * x 0) * sin (2 * π * rxyz * x 1) * sin (2 * π * rxyz * x 2) + 1) * (2 * pow (x 0) 3 - 3
  * pow (x 0) 2 + 2 * pow (x 1) 3 - 3 * pow (x 1) 2 + 2 * pow (x 2) 3 - 3 * pow (x 2) 2) + (1 /
  3) * r0 * pow w0 2 * x 2 * (x 2 - 1) * ((1 / 10) * sin (2 * π * rxyz * x 0) * sin (2 * π *
  rxyz * x 1) * sin (2 * π * rxyz * x 2) + 1) * (2 * pow (x 0) 3 - 3 * pow (x 0) 2 + 2 * pow (x
  1) 3 - 3 * pow (x 1) 2 + 2 * pow (x 2) 3 - 3 * pow (x 2) 2)

/-- `src[4]` of `calcViscousMMS`, `case 3`, navier_stokes_fluxes.hpp:478-520 (constants 425-432). -/
noncomputable def viscousSrc3_4 (mu Pr : ℝ) (x : ℕ → ℝ) : ℝ :=
  let gamma : ℝ := EulerFluxes.gamma
  let kappa : ℝ := mu * gamma / (Pr * gami)
  let r0 : ℝ := 1
  let rxyz : ℝ := 1
  let u0 : ℝ := 1 / 2
  let v0 : ℝ := 1 / 2
  let w0 : ℝ := 1 / 2
  let T0 : ℝ := 1
  (1 / 72) * (12 * mu * (gamma - 1) * (-(4 / 3) * pow u0 2 * (2 * x 0 - 1) * (2 * pow (x 0) 3 -
  3 * pow (x 0) 2 + 2 * pow (x 1) 3 - 3 * pow (x 1) 2 + 2 * pow (x 2) 3 - 3 * pow (x 2) 2) - pow
  u0 2 * (2 * x 1 - 1) * (2 * pow (x 0) 3 - 3 * pow (x 0) 2 + 2 * pow (x 1) 3 - 3 * pow (x 1) 2
  + 2 * pow (x 2) 3 - 3 * pow (x 2) 2) - pow u0 2 * (2 * x 2 - 1) * (2 * pow (x 0) 3 - 3 * pow
  (x 0) 2 + 2 * pow (x 1) 3 - 3 * pow (x 1) 2 + 2 * pow (x 2) 3 - 3 * pow (x 2) 2) + 4 * u0 * x
  0 * (x 0 - 1) * (-2 * u0 * x 0 * (x 0 - 1) + v0 * x 1 * (x 1 - 1) + w0 * x 2 * (x 2 - 1)) - 6
  * u0 * x 1 * (x 1 - 1) * (u0 * x 1 * (x 1 - 1) + v0 * x 0 * (x 0 - 1)) - 6 * u0 * x 2 * (x 2 -
  1) * (u0 * x 2 * (x 2 - 1) + w0 * x 0 * (x 0 - 1)) - pow v0 2 * (2 * x 0 - 1) * (2 * pow (x 0)
  3 - 3 * pow (x 0) 2 + 2 * pow (x 1) 3 - 3 * pow (x 1) 2 + 2 * pow (x 2) 3 - 3 * pow (x 2) 2) -
  (4 / 3) * pow v0 2 * (2 * x 1 - 1) * (2 * pow (x 0) 3 - 3 * pow (x 0) 2 + 2 * pow (x 1) 3 - 3
  * pow (x 1) 2 + 2 * pow (x 2) 3 - 3 * pow (x 2) 2) - pow v0 2 * (2 * x 2 - 1) * (2 * pow (x 0)
  3 - 3 * pow (x 0) 2 + 2 * pow (x 1) 3 - 3 * pow (x 1) 2 + 2 * pow (x 2) 3 - 3 * pow (x 2) 2) -
  6 * v0 * x 0 * (x 0 - 1) * (u0 * x 1 * (x 1 - 1) + v0 * x 0 * (x 0 - 1)) + 4 * v0 * x 1 * (x 1
  - 1) * (u0 * x 0 * (x 0 - 1) - 2 * v0 * x 1 * (x 1 - 1) + w0 * x 2 * (x 2 - 1)) - 6 * v0 * x 2
  * (x 2 - 1) * (v0 * x 2 * (x 2 - 1) + w0 * x 1 * (x 1 - 1)) - pow w0 2 * (2 * x 0 - 1) * (2 *
  pow (x 0) 3 - 3 * pow (x 0) 2 + 2 * pow (x 1) 3 - 3 * pow (x 1) 2 + 2 * pow (x 2) 3 - 3 * pow
  (x 2) 2) - pow w0 2 * (2 * x 1 - 1) * (2 * pow (x 0) 3 - 3 * pow (x 0) 2 + 2 * pow (x 1) 3 - 3
  * pow (x 1) 2 + 2 * pow (x 2) 3 - 3 * pow (x 2) 2) - (4 / 3) * pow w0 2 * (2 * x 2 - 1) * (2 *
  pow (x 0) 3 - 3 * pow (x 0) 2 + 2 * pow (x 1) 3 - 3 * pow (x 1) 2 + 2 * pow (x 2) 3 - 3 * pow
  (x 2) 2) - 6 * w0 * x 0 * (x 0 - 1) * (u0 * x 2 * (x 2 - 1) + w0 * x 0 * (x 0 - 1)) - 6 * w0 *
  x 1 * (x 1 - 1) * (v0 * x 2 * (x 2 - 1) + w0 * x 1 * (x 1 - 1)) + 4 * w0 * x 2 * (x 2 - 1) *
  (u0 * x 0 * (x 0 - 1) + v0 * x 1 * (x 1 - 1) - 2 * w0 * x 2 * (x 2 - 1))) + r0 * u0 * x 0 *
  (72 * T0 + (gamma - 1) * (72 * T0 + pow u0 2 * pow (2 * pow (x 0) 3 - 3 * pow (x 0) 2 + 2 *
  pow (x 1) 3 - 3 * pow (x 1) 2 + 2 * pow (x 2) 3 - 3 * pow (x 2) 2) 2 + pow v0 2 * pow (2 * pow
  (x 0) 3 - 3 * pow (x 0) 2 + 2 * pow (x 1) 3 - 3 * pow (x 1) 2 + 2 * pow (x 2) 3 - 3 * pow (x
  2) 2) 2 + 36 * pow (x 2) 2)) * (x 0 - 1) * ((1 / 10) * sin (2 * π * rxyz * x 0) * sin (2 * π *
  rxyz * x 1) * sin (2 * π * rxyz * x 2) + 1) + r0 * u0 * ((12 / 5) * π * T0 * rxyz * sin (2 * π
  * rxyz * x 1) * sin (2 * π * rxyz * x 2) * cos (2 * π * rxyz * x 0) + (gamma - 1) * ((12 / 5)
  * π * T0 * rxyz * sin (2 * π * rxyz * x 1) * sin (2 * π * rxyz * x 2) * cos (2 * π * rxyz * x
  0) + (1 / 30) * π * rxyz * (pow u0 2 * pow (2 * pow (x 0) 3 - 3 * pow (x 0) 2 + 2 * pow (x 1)
  3 - 3 * pow (x 1) 2 + 2 * pow (x 2) 3 - 3 * pow (x 2) 2) 2 + pow v0 2 * pow (2 * pow (x 0) 3 -
  3 * pow (x 0) 2 + 2 * pow (x 1) 3 - 3 * pow (x 1) 2 + 2 * pow (x 2) 3 - 3 * pow (x 2) 2) 2 +
  36 * pow (x 2) 2) * sin (2 * π * rxyz * x 1) * sin (2 * π * rxyz * x 2) * cos (2 * π * rxyz *
  x 0) + 2 * x 0 * (pow u0 2 + pow v0 2) * (x 0 - 1) * ((1 / 10) * sin (2 * π * rxyz * x 0) *
  sin (2 * π * rxyz * x 1) * sin (2 * π * rxyz * x 2) + 1) * (2 * pow (x 0) 3 - 3 * pow (x 0) 2
  + 2 * pow (x 1) 3 - 3 * pow (x 1) 2 + 2 * pow (x 2) 3 - 3 * pow (x 2) 2))) * (2 * pow (x 0) 3
  - 3 * pow (x 0) 2 + 2 * pow (x 1) 3 - 3 * pow (x 1) 2 + 2 * pow (x 2) 3 - 3 * pow (x 2) 2) +
  r0 * v0 * x 1 * (72 * T0 + (gamma - 1) * (72 * T0 + pow u0 2 * pow (2 * pow (x 0) 3 - 3 * pow
  (x 0) 2 + 2 * pow (x 1) 3 - 3 * pow (x 1) 2 + 2 * pow (x 2) 3 - 3 * pow (x 2) 2) 2 + pow v0 2
  * pow (2 * pow (x 0) 3 - 3 * pow (x 0) 2 + 2 * pow (x 1) 3 - 3 * pow (x 1) 2 + 2 * pow (x 2) 3
  - 3 * pow (x 2) 2) 2 + 36 * pow (x 2) 2)) * (x 1 - 1) * ((1 / 10) * sin (2 * π * rxyz * x 0) *
  sin (2 * π * rxyz * x 1) * sin (2 * π * rxyz * x 2) + 1) + r0 * v0 * ((12 / 5) * π * T0 * rxyz
  * sin (2 * π * rxyz * x 0) * sin (2 * π * rxyz * x 2) * cos (2 * π * rxyz * x 1) + (gamma - 1)
  * ((12 / 5) * π * T0 * rxyz * sin (2 * π * rxyz * x 0) * sin (2 * π * rxyz * x 2) * cos (2 * π
  * rxyz * x 1) + (1 / 30) * π * rxyz * (pow u0 2 * pow (2 * pow (x 0) 3 - 3 * pow (x 0) 2 + 2 *
  pow (x 1) 3 - 3 * pow (x 1) 2 + 2 * pow (x 2) 3 - 3 * pow (x 2) 2) 2 + pow v0 2 * pow (2 * pow
  (x 0) 3 - 3 * pow (x 0) 2 + 2 * pow (x 1) 3 - 3 * pow (x 1) 2 + 2 * pow (x 2) 3 - 3 * pow (x
  2) 2) 2 + 36 * pow (x 2) 2) * sin (2 * π * rxyz * x 0) * sin (2 * π * rxyz * x 2) * cos (2 * π
  * rxyz * x 1) + 2 * x 1 * (pow u0 2 + pow v0 2) * (x 1 - 1) * ((1 / 10) * sin (2 * π * rxyz *
  x 0) * sin (2 * π * rxyz * x 1) * sin (2 * π * rxyz * x 2) + 1) * (2 * pow (x 0) 3 - 3 * pow
  (x 0) 2 + 2 * pow (x 1) 3 - 3 * pow (x 1) 2 + 2 * pow (x 2) 3 - 3 * pow (x 2) 2))) * (2 * pow
  (x 0) 3 - 3 * pow (x 0) 2 + 2 * pow (x 1) 3 - 3 * pow (x 1) 2 + 2 * pow (x 2) 3 - 3 * pow (x
  2) 2) + r0 * w0 * x 2 * (72 * T0 + (gamma - 1) * (72 * T0 + pow u0 2 * pow (2 * pow (x 0) 3 -
  3 * pow (x 0) 2 + 2 * pow (x 1) 3 - 3 * pow (x 1) 2 + 2 * pow (x 2) 3 - 3 * pow (x 2) 2) 2 +
  pow v0 2 * pow (2 * pow (x 0) 3 - 3 * pow (x 0) 2 + 2 * pow (x 1) 3 - 3 * pow (x 1) 2 + 2 *
  pow (x 2) 3 - 3 * pow (x 2) 2) 2 + 36 * pow (x 2) 2)) * (x 2 - 1) * ((1 / 10) * sin (2 * π *
  rxyz * x 0) * sin (2 * π * rxyz * x 1) * sin (2 * π * rxyz * x 2) + 1) + r0 * w0 * ((12 / 5) *
  π * T0 * rxyz * sin (2 * π * rxyz * x 0) * sin (2 * π * rxyz * x 1) * cos (2 * π * rxyz * x 2)
  + (gamma - 1) * ((12 / 5) * π * T0 * rxyz * sin (2 * π * rxyz * x 0) * sin (2 * π * rxyz * x
  1) * cos (2 * π * rxyz * x 2) + (1 / 30) * π * rxyz * (pow u0 2 * pow (2 * pow (x 0) 3 - 3 *
  pow (x 0) 2 + 2 * pow (x 1) 3 - 3 * pow (x 1) 2 + 2 * pow (x 2) 3 - 3 * pow (x 2) 2) 2 + pow
  v0 2 * pow (2 * pow (x 0) 3 - 3 * pow (x 0) 2 + 2 * pow (x 1) 3 - 3 * pow (x 1) 2 + 2 * pow (x
  2) 3 - 3 * pow (x 2) 2) 2 + 36 * pow (x 2) 2) * sin (2 * π * rxyz * x 0) * sin (2 * π * rxyz *
  x 1) * cos (2 * π * rxyz * x 2) + 2 * x 2 * ((1 / 10) * sin (2 * π * rxyz * x 0) * sin (2 * π
  * rxyz * x 1) * sin (2 * π * rxyz * x 2) + 1) * (pow u0 2 * (x 2 - 1) * (2 * pow (x 0) 3 - 3 *
  pow (x 0) 2 + 2 * pow (x 1) 3 - 3 * pow (x 1) 2 + 2 * pow (x 2) 3 - 3 * pow (x 2) 2) + pow v0
  2 * (x 2 - 1) * (2 * pow (x 0) 3 - 3 * pow (x 0) 2 + 2 * pow (x 1) 3 - 3 * pow (x 1) 2 + 2 *
  pow (x 2) 3 - 3 * pow (x 2) 2) + 6))) * (2 * pow (x 0) 3 - 3 * pow (x 0) 2 + 2 * pow (x 1) 3 -
  3 * pow (x 1) 2 + 2 * pow (x 2) 3 - 3 * pow (x 2) 2)) / (gamma - 1)

/-- `calcViscousMMS`, `case 3`, navier_stokes_fluxes.hpp:423-525. -/
noncomputable def viscousSrc3 (mu Pr : ℝ) (x : ℕ → ℝ) : State 3 :=
  ⟨viscousSrc3_0 mu Pr x, ![viscousSrc3_1 mu Pr x, viscousSrc3_2 mu Pr x, viscousSrc3_3 mu Pr x],
    viscousSrc3_4 mu Pr x⟩

/-- `src[0]` of `calcInviscidMMS`, `case 3`, euler_fluxes.hpp:1337-1341 (constants 1327-1335). -/
noncomputable def inviscidSrc3_0 (x : ℕ → ℝ) : ℝ :=
  let rhop : ℝ := 1 / 10
  let rho0 : ℝ := 1
  let up : ℝ := 1 / 10
  let u0 : ℝ := 1 / 10
  let trans : ℝ := 0
  let scale : ℝ := 1
  let T0 : ℝ := 1
  let Tp : ℝ := 1 / 10
  let gamma : ℝ := EulerFluxes.gamma
  (-π * rhop * up * pow (sin (π * (trans + x 0) / scale)) 2 * pow (sin (2 * π * (trans + x 0) /
  scale)) 2 * sin (π * (trans + x 1) / scale) * cos (π * (trans + x 1) / scale) / scale + 2 * π
  * rhop * (up * pow (sin (π * (trans + x 0) / scale)) 2 * sin (2 * π * (trans + x 1) / scale) +
  4 * u0 * (1 - (trans + x 1) / scale) * (trans + x 1) / scale) * sin (π * (trans + x 0) /
  scale) * sin (π * (trans + x 1) / scale) * cos (π * (trans + x 0) / scale) / scale + 2 * π *
  up * (rho0 + rhop * pow (sin (π * (trans + x 0) / scale)) 2 * sin (π * (trans + x 1) / scale))
  * sin (π * (trans + x 0) / scale) * sin (2 * π * (trans + x 1) / scale) * cos (π * (trans + x
  0) / scale) / scale - π * up * (rho0 + rhop * pow (sin (π * (trans + x 0) / scale)) 2 * sin (π
  * (trans + x 1) / scale)) * pow (sin (2 * π * (trans + x 0) / scale)) 2 * cos (π * (trans + x
  1) / scale) / scale)

/-- `src[1]` of `calcInviscidMMS`, `case 3`, euler_fluxes.hpp:1343-1355 (constants 1327-1335). -/
noncomputable def inviscidSrc3_1 (x : ℕ → ℝ) : ℝ :=
  let rhop : ℝ := 1 / 10
  let rho0 : ℝ := 1
  let up : ℝ := 1 / 10
  let u0 : ℝ := 1 / 10
  let trans : ℝ := 0
  let scale : ℝ := 1
  let T0 : ℝ := 1
  let Tp : ℝ := 1 / 10
  let gamma : ℝ := EulerFluxes.gamma
  Tp * (rho0 + rhop * pow (sin (π * (trans + x 0) / scale)) 2 * sin (π * (trans + x 1) / scale))
  * ((2 * trans + 2 * x 0) / pow scale 2 - 6 * pow (trans + x 0) 2 / pow scale 3 + 4 * pow
  (trans + x 0) 3 / pow scale 4) - π * rhop * up * (up * pow (sin (π * (trans + x 0) / scale)) 2
  * sin (2 * π * (trans + x 1) / scale) + 4 * u0 * (1 - (trans + x 1) / scale) * (trans + x 1) /
  scale) * pow (sin (π * (trans + x 0) / scale)) 2 * pow (sin (2 * π * (trans + x 0) / scale)) 2
  * sin (π * (trans + x 1) / scale) * cos (π * (trans + x 1) / scale) / scale + 2 * π * rhop *
  (T0 + Tp * (pow (trans + x 0) 2 / pow scale 2 + pow (trans + x 1) 2 / pow scale 2 - 2 * pow
  (trans + x 0) 3 / pow scale 3 - 2 * pow (trans + x 1) 3 / pow scale 3 + pow (trans + x 0) 4 /
  pow scale 4 + pow (trans + x 1) 4 / pow scale 4)) * sin (π * (trans + x 0) / scale) * sin (π *
  (trans + x 1) / scale) * cos (π * (trans + x 0) / scale) / scale + 2 * π * rhop * pow (up *
  pow (sin (π * (trans + x 0) / scale)) 2 * sin (2 * π * (trans + x 1) / scale) + 4 * u0 * (1 -
  (trans + x 1) / scale) * (trans + x 1) / scale) 2 * sin (π * (trans + x 0) / scale) * sin (π *
  (trans + x 1) / scale) * cos (π * (trans + x 0) / scale) / scale - up * (rho0 + rhop * pow
  (sin (π * (trans + x 0) / scale)) 2 * sin (π * (trans + x 1) / scale)) * (4 * u0 * (1 - (trans
  + x 1) / scale) / scale + 2 * π * up * pow (sin (π * (trans + x 0) / scale)) 2 * cos (2 * π *
  (trans + x 1) / scale) / scale - 4 * u0 * (trans + x 1) / pow scale 2) * pow (sin (2 * π *
  (trans + x 0) / scale)) 2 * sin (π * (trans + x 1) / scale) + 4 * π * up * (rho0 + rhop * pow
  (sin (π * (trans + x 0) / scale)) 2 * sin (π * (trans + x 1) / scale)) * (up * pow (sin (π *
  (trans + x 0) / scale)) 2 * sin (2 * π * (trans + x 1) / scale) + 4 * u0 * (1 - (trans + x 1)
  / scale) * (trans + x 1) / scale) * sin (π * (trans + x 0) / scale) * sin (2 * π * (trans + x
  1) / scale) * cos (π * (trans + x 0) / scale) / scale - π * up * (rho0 + rhop * pow (sin (π *
  (trans + x 0) / scale)) 2 * sin (π * (trans + x 1) / scale)) * (up * pow (sin (π * (trans + x
  0) / scale)) 2 * sin (2 * π * (trans + x 1) / scale) + 4 * u0 * (1 - (trans + x 1) / scale) *
  (trans + x 1) / scale) * pow (sin (2 * π * (trans + x 0) / scale)) 2 * cos (π * (trans + x 1)
  / scale) / scale

/-- `src[2]` of `calcInviscidMMS`, `case 3`, euler_fluxes.hpp:1357-1368 (constants 1327-1335). -/
noncomputable def inviscidSrc3_2 (x : ℕ → ℝ) : ℝ :=
  let rhop : ℝ := 1 / 10
  let rho0 : ℝ := 1
  let up : ℝ := 1 / 10
  let u0 : ℝ := 1 / 10
  let trans : ℝ := 0
  let scale : ℝ := 1
  let T0 : ℝ := 1
  let Tp : ℝ := 1 / 10
  let gamma : ℝ := EulerFluxes.gamma
  Tp * (rho0 + rhop * pow (sin (π * (trans + x 0) / scale)) 2 * sin (π * (trans + x 1) / scale))
  * ((2 * trans + 2 * x 1) / pow scale 2 - 6 * pow (trans + x 1) 2 / pow scale 3 + 4 * pow
  (trans + x 1) 3 / pow scale 4) + π * rhop * pow up 2 * pow (sin (π * (trans + x 0) / scale)) 2
  * pow (sin (2 * π * (trans + x 0) / scale)) 4 * pow (sin (π * (trans + x 1) / scale)) 2 * cos
  (π * (trans + x 1) / scale) / scale - 2 * π * rhop * up * (up * pow (sin (π * (trans + x 0) /
  scale)) 2 * sin (2 * π * (trans + x 1) / scale) + 4 * u0 * (1 - (trans + x 1) / scale) *
  (trans + x 1) / scale) * sin (π * (trans + x 0) / scale) * pow (sin (2 * π * (trans + x 0) /
  scale)) 2 * pow (sin (π * (trans + x 1) / scale)) 2 * cos (π * (trans + x 0) / scale) / scale
  + π * rhop * (T0 + Tp * (pow (trans + x 0) 2 / pow scale 2 + pow (trans + x 1) 2 / pow scale 2
  - 2 * pow (trans + x 0) 3 / pow scale 3 - 2 * pow (trans + x 1) 3 / pow scale 3 + pow (trans +
  x 0) 4 / pow scale 4 + pow (trans + x 1) 4 / pow scale 4)) * pow (sin (π * (trans + x 0) /
  scale)) 2 * cos (π * (trans + x 1) / scale) / scale - 2 * π * pow up 2 * (rho0 + rhop * pow
  (sin (π * (trans + x 0) / scale)) 2 * sin (π * (trans + x 1) / scale)) * sin (π * (trans + x
  0) / scale) * pow (sin (2 * π * (trans + x 0) / scale)) 2 * sin (π * (trans + x 1) / scale) *
  sin (2 * π * (trans + x 1) / scale) * cos (π * (trans + x 0) / scale) / scale + 2 * π * pow up
  2 * (rho0 + rhop * pow (sin (π * (trans + x 0) / scale)) 2 * sin (π * (trans + x 1) / scale))
  * pow (sin (2 * π * (trans + x 0) / scale)) 4 * sin (π * (trans + x 1) / scale) * cos (π *
  (trans + x 1) / scale) / scale - 4 * π * up * (rho0 + rhop * pow (sin (π * (trans + x 0) /
  scale)) 2 * sin (π * (trans + x 1) / scale)) * (up * pow (sin (π * (trans + x 0) / scale)) 2 *
  sin (2 * π * (trans + x 1) / scale) + 4 * u0 * (1 - (trans + x 1) / scale) * (trans + x 1) /
  scale) * sin (2 * π * (trans + x 0) / scale) * sin (π * (trans + x 1) / scale) * cos (2 * π *
  (trans + x 0) / scale) / scale

/-- `src[3]` of `calcInviscidMMS`, `case 3`, euler_fluxes.hpp:1370 (constants 1327-1335). -/
noncomputable def inviscidSrc3_3 (x : ℕ → ℝ) : ℝ :=
  let rhop : ℝ := 1 / 10
  let rho0 : ℝ := 1
  let up : ℝ := 1 / 10
  let u0 : ℝ := 1 / 10
  let trans : ℝ := 0
  let scale : ℝ := 1
  let T0 : ℝ := 1
  let Tp : ℝ := 1 / 10
  let gamma : ℝ := EulerFluxes.gamma
  0

/-- `src[4]` of `calcInviscidMMS`, `case 3`, euler_fluxes.hpp:1372-1410 (constants 1327-1335). -/
noncomputable def inviscidSrc3_4 (x : ℕ → ℝ) : ℝ :=
  let rhop : ℝ := 1 / 10
  let rho0 : ℝ := 1
  let up : ℝ := 1 / 10
  let u0 : ℝ := 1 / 10
  let trans : ℝ := 0
  let scale : ℝ := 1
  let T0 : ℝ := 1
  let Tp : ℝ := 1 / 10
  let gamma : ℝ := EulerFluxes.gamma
  (-up * (Tp * (rho0 + rhop * pow (sin (π * (trans + x 0) / scale)) 2 * sin (π * (trans + x 1) /
  scale)) * ((2 * trans + 2 * x 1) / pow scale 2 - 6 * pow (trans + x 1) 2 / pow scale 3 + 4 *
  pow (trans + x 1) 3 / pow scale 4) + Tp * (rho0 + rhop * pow (sin (π * (trans + x 0) / scale))
  2 * sin (π * (trans + x 1) / scale)) * ((2 * trans + 2 * x 1) / pow scale 2 - 6 * pow (trans +
  x 1) 2 / pow scale 3 + 4 * pow (trans + x 1) 3 / pow scale 4) / (gamma - 1) + π * rhop * (T0 +
  Tp * (pow (trans + x 0) 2 / pow scale 2 + pow (trans + x 1) 2 / pow scale 2 - 2 * pow (trans +
  x 0) 3 / pow scale 3 - 2 * pow (trans + x 1) 3 / pow scale 3 + pow (trans + x 0) 4 / pow scale
  4 + pow (trans + x 1) 4 / pow scale 4)) * pow (sin (π * (trans + x 0) / scale)) 2 * cos (π *
  (trans + x 1) / scale) / scale + π * rhop * (T0 + Tp * (pow (trans + x 0) 2 / pow scale 2 +
  pow (trans + x 1) 2 / pow scale 2 - 2 * pow (trans + x 0) 3 / pow scale 3 - 2 * pow (trans + x
  1) 3 / pow scale 3 + pow (trans + x 0) 4 / pow scale 4 + pow (trans + x 1) 4 / pow scale 4)) *
  pow (sin (π * (trans + x 0) / scale)) 2 * cos (π * (trans + x 1) / scale) / (scale * (gamma -
  1)) + (1 / 2) * π * rhop * (pow up 2 * pow (sin (2 * π * (trans + x 0) / scale)) 4 * pow (sin
  (π * (trans + x 1) / scale)) 2 + pow (up * pow (sin (π * (trans + x 0) / scale)) 2 * sin (2 *
  π * (trans + x 1) / scale) + 4 * u0 * (1 - (trans + x 1) / scale) * (trans + x 1) / scale) 2)
  * pow (sin (π * (trans + x 0) / scale)) 2 * cos (π * (trans + x 1) / scale) / scale + ((1 / 2)
  * rho0 + (1 / 2) * rhop * pow (sin (π * (trans + x 0) / scale)) 2 * sin (π * (trans + x 1) /
  scale)) * ((up * pow (sin (π * (trans + x 0) / scale)) 2 * sin (2 * π * (trans + x 1) / scale)
  + 4 * u0 * (1 - (trans + x 1) / scale) * (trans + x 1) / scale) * (8 * u0 * (1 - (trans + x 1)
  / scale) / scale + 4 * π * up * pow (sin (π * (trans + x 0) / scale)) 2 * cos (2 * π * (trans
  + x 1) / scale) / scale - 8 * u0 * (trans + x 1) / pow scale 2) + 2 * π * pow up 2 * pow (sin
  (2 * π * (trans + x 0) / scale)) 4 * sin (π * (trans + x 1) / scale) * cos (π * (trans + x 1)
  / scale) / scale)) * pow (sin (2 * π * (trans + x 0) / scale)) 2 * sin (π * (trans + x 1) /
  scale) + (up * pow (sin (π * (trans + x 0) / scale)) 2 * sin (2 * π * (trans + x 1) / scale) +
  4 * u0 * (1 - (trans + x 1) / scale) * (trans + x 1) / scale) * (Tp * (rho0 + rhop * pow (sin
  (π * (trans + x 0) / scale)) 2 * sin (π * (trans + x 1) / scale)) * ((2 * trans + 2 * x 0) /
  pow scale 2 - 6 * pow (trans + x 0) 2 / pow scale 3 + 4 * pow (trans + x 0) 3 / pow scale 4) +
  Tp * (rho0 + rhop * pow (sin (π * (trans + x 0) / scale)) 2 * sin (π * (trans + x 1) / scale))
  * ((2 * trans + 2 * x 0) / pow scale 2 - 6 * pow (trans + x 0) 2 / pow scale 3 + 4 * pow
  (trans + x 0) 3 / pow scale 4) / (gamma - 1) + 2 * π * rhop * (T0 + Tp * (pow (trans + x 0) 2
  / pow scale 2 + pow (trans + x 1) 2 / pow scale 2 - 2 * pow (trans + x 0) 3 / pow scale 3 - 2
  * pow (trans + x 1) 3 / pow scale 3 + pow (trans + x 0) 4 / pow scale 4 + pow (trans + x 1) 4
  / pow scale 4)) * sin (π * (trans + x 0) / scale) * sin (π * (trans + x 1) / scale) * cos (π *
  (trans + x 0) / scale) / scale + 2 * π * rhop * (T0 + Tp * (pow (trans + x 0) 2 / pow scale 2
  + pow (trans + x 1) 2 / pow scale 2 - 2 * pow (trans + x 0) 3 / pow scale 3 - 2 * pow (trans +
  x 1) 3 / pow scale 3 + pow (trans + x 0) 4 / pow scale 4 + pow (trans + x 1) 4 / pow scale 4))
  * sin (π * (trans + x 0) / scale) * sin (π * (trans + x 1) / scale) * cos (π * (trans + x 0) /
  scale) / (scale * (gamma - 1)) + π * rhop * (pow up 2 * pow (sin (2 * π * (trans + x 0) /
  scale)) 4 * pow (sin (π * (trans + x 1) / scale)) 2 + pow (up * pow (sin (π * (trans + x 0) /
  scale)) 2 * sin (2 * π * (trans + x 1) / scale) + 4 * u0 * (1 - (trans + x 1) / scale) *
  (trans + x 1) / scale) 2) * sin (π * (trans + x 0) / scale) * sin (π * (trans + x 1) / scale)
  * cos (π * (trans + x 0) / scale) / scale + ((1 / 2) * rho0 + (1 / 2) * rhop * pow (sin (π *
  (trans + x 0) / scale)) 2 * sin (π * (trans + x 1) / scale)) * (8 * π * pow up 2 * pow (sin (2
  * π * (trans + x 0) / scale)) 3 * pow (sin (π * (trans + x 1) / scale)) 2 * cos (2 * π *
  (trans + x 0) / scale) / scale + 4 * π * up * (up * pow (sin (π * (trans + x 0) / scale)) 2 *
  sin (2 * π * (trans + x 1) / scale) + 4 * u0 * (1 - (trans + x 1) / scale) * (trans + x 1) /
  scale) * sin (π * (trans + x 0) / scale) * sin (2 * π * (trans + x 1) / scale) * cos (π *
  (trans + x 0) / scale) / scale)) + 2 * π * up * ((T0 + Tp * (pow (trans + x 0) 2 / pow scale 2
  + pow (trans + x 1) 2 / pow scale 2 - 2 * pow (trans + x 0) 3 / pow scale 3 - 2 * pow (trans +
  x 1) 3 / pow scale 3 + pow (trans + x 0) 4 / pow scale 4 + pow (trans + x 1) 4 / pow scale 4))
  * (rho0 + rhop * pow (sin (π * (trans + x 0) / scale)) 2 * sin (π * (trans + x 1) / scale)) +
  (T0 + Tp * (pow (trans + x 0) 2 / pow scale 2 + pow (trans + x 1) 2 / pow scale 2 - 2 * pow
  (trans + x 0) 3 / pow scale 3 - 2 * pow (trans + x 1) 3 / pow scale 3 + pow (trans + x 0) 4 /
  pow scale 4 + pow (trans + x 1) 4 / pow scale 4)) * (rho0 + rhop * pow (sin (π * (trans + x 0)
  / scale)) 2 * sin (π * (trans + x 1) / scale)) / (gamma - 1) + (1 / 2) * (rho0 + rhop * pow
  (sin (π * (trans + x 0) / scale)) 2 * sin (π * (trans + x 1) / scale)) * (pow up 2 * pow (sin
  (2 * π * (trans + x 0) / scale)) 4 * pow (sin (π * (trans + x 1) / scale)) 2 + pow (up * pow
  (sin (π * (trans + x 0) / scale)) 2 * sin (2 * π * (trans + x 1) / scale) + 4 * u0 * (1 -
  (trans + x 1) / scale) * (trans + x 1) / scale) 2)) * sin (π * (trans + x 0) / scale) * sin (2
  * π * (trans + x 1) / scale) * cos (π * (trans + x 0) / scale) / scale - π * up * ((T0 + Tp *
  (pow (trans + x 0) 2 / pow scale 2 + pow (trans + x 1) 2 / pow scale 2 - 2 * pow (trans + x 0)
  3 / pow scale 3 - 2 * pow (trans + x 1) 3 / pow scale 3 + pow (trans + x 0) 4 / pow scale 4 +
  pow (trans + x 1) 4 / pow scale 4)) * (rho0 + rhop * pow (sin (π * (trans + x 0) / scale)) 2 *
  sin (π * (trans + x 1) / scale)) + (T0 + Tp * (pow (trans + x 0) 2 / pow scale 2 + pow (trans
  + x 1) 2 / pow scale 2 - 2 * pow (trans + x 0) 3 / pow scale 3 - 2 * pow (trans + x 1) 3 / pow
  scale 3 + pow (trans + x 0) 4 / pow scale 4 + pow (trans + x 1) 4 / pow scale 4)) * (rho0 +
  rhop * pow (sin (π * (trans + x 0) / scale)) 2 * sin (π * (trans + x 1) / scale)) / (gamma -
  1) + (1 / 2) * (rho0 + rhop * pow (sin (π * (trans + x 0) / scale)) 2 * sin (π * (trans + x 1)
  / scale)) * (pow up 2 * pow (sin (2 * π * (trans + x 0) / scale)) 4 * pow (sin (π * (trans + x
  1) / scale)) 2 + pow (up * pow (sin (π * (trans + x 0) / scale)) 2 * sin (2 * π * (trans + x
  1) / scale) + 4 * u0 * (1 - (trans + x 1) / scale) * (trans + x 1) / scale) 2)) * pow (sin (2
  * π * (trans + x 0) / scale)) 2 * cos (π * (trans + x 1) / scale) / scale)

/-- `calcInviscidMMS`, `case 3`, euler_fluxes.hpp:1325-1411. -/
noncomputable def inviscidSrc3 (x : ℕ → ℝ) : State 3 :=
  ⟨inviscidSrc3_0 x, ![inviscidSrc3_1 x, inviscidSrc3_2 x, inviscidSrc3_3 x], inviscidSrc3_4 x⟩

/-- `calcInviscidMMS`, `default`, euler_fluxes.hpp:1412-1416: all zeros (the fifth store is past the end of a
two-dimensional source; not modelled). -/
def inviscidSrcDefault {d : ℕ} (x : ℕ → ℝ) : State d := ⟨0, fun _ => 0, 0⟩

/-- `MMSIntegrator::AssembleElementVector`, mms_integ_def.hpp:13-46.  `W i` is `trans.Weight()` at node `i`, `w i` the
weight of the node, `X i` its physical position, `src` the `calcSource` of the derived class; entry `(i, n)` of
`elvect` is returned as a function (`elvect` holds it at `n * num_nodes + i`).  `elfun` is not used. -/
noncomputable def mmsVector {P : Type*} (alpha : ℝ) (src : P → ℕ → ℝ) (W w : ℕ → ℝ) (X : ℕ → P)
    (elfun : ℕ → ℕ → ℝ) : ℕ → ℕ → ℝ :=
  fun i n => (0 + W i * w i * src (X i) n) * alpha

/-- `MMSIntegrator::AssembleElementGrad`, mms_integ_def.hpp:48-61. -/
def mmsGrad (elfun : ℕ → ℕ → ℝ) : ℕ → ℕ → ℕ → ℕ → ℝ := fun _ _ _ _ => 0

/-- `NavierStokesMMSIntegrator::calcSource`, navier_stokes_integ.hpp:33-37: `mu = 1.0 / Re`; two dimensions. -/
noncomputable def nsSource2 (Re Pr : ℝ) (x : ℕ → ℝ) : State 2 := viscousSrc2 (1 / Re) Pr x
/-- The same in three dimensions, navier_stokes_integ.hpp:33-37. -/
noncomputable def nsSource3 (Re Pr : ℝ) (x : ℕ → ℝ) : State 3 := viscousSrc3 (1 / Re) Pr x
/-- Component `n` of a state as the C array `src` stores it (0: density, then momenta, then energy). navier_stokes_fluxes.hpp:434-783. -/
noncomputable def comp {d : ℕ} (q : State d) (n : ℕ) : ℝ :=
  if n = 0 then q.rho else if h : n - 1 < d then q.mom ⟨n - 1, h⟩ else q.ener

end Verif.Mms
