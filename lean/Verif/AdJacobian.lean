import Mathlib.Analysis.Calculus.Deriv.Basic
import Verif.EulerInteg

/-!
# Jacobians by operator overloading (Adept) in the Euler integrators

`/repo/src/physics/fluidflow/euler_integ_def.hpp`: every `...Jac...` function records the templated
kernel with active numbers and asks the Adept stack for the Jacobian of the dependent with respect to
the independent variables.  Adept is not part of /repo; what is assumed is its documented behaviour:
`jacobian` and `jacobian_reverse` fill a column-major array (dependent index fastest) with the partial
derivatives of the recorded calculation at the recorded point.  A partial derivative is modelled by
Mathlib's `deriv`; the theorems say where it is the derivative of the residual.
-/

namespace Verif.AdJacobian
open Verif.EulerFluxes Verif.Sbp Verif.Inviscid Verif.EulerInteg

/-- `stack.independent(x)`, `stack.dependent(y)` with `nd` dependents, `stack.jacobian(data)`: entry
`p` is the derivative of dependent `p mod nd` by independent `p / nd`. euler_integ_def.hpp:133-136,
207-210, 278-280 etc. -/
noncomputable def stackJac (nd : ℕ) (record : (ℕ → ℝ) → ℕ → ℝ) (x : ℕ → ℝ) : ℕ → ℝ :=
  fun p => deriv (fun t => record (Function.update x (p / nd) t) (p % nd)) (x (p / nd))

/-- `DenseMatrix` with `h` rows over the array `data` (column-major). euler_integ_def.hpp:113, 210. -/
def dense (h : ℕ) (data : ℕ → ℝ) : ℕ → ℕ → ℝ := fun i j => data (i + j * h)

/-- `CopyCols(A, first, last)`. euler_integ_def.hpp:138, 140, 874-875. -/
def copyCols (A : ℕ → ℕ → ℝ) (first : ℕ) : ℕ → ℕ → ℝ := fun i j => A i (first + j)

/-- Two successive calls `independent(a, n)`, `independent(b, n)`. euler_integ_def.hpp:133-134,
868-869. -/
def concat (n : ℕ) (a b : ℕ → ℝ) : ℕ → ℝ := fun k => if k < n then a k else b (k - n)

/-- A recording of a kernel of two arrays as a function of all independents.
euler_integ_def.hpp:124-136, 855-872. -/
def record2 (n : ℕ) (F : (ℕ → ℝ) → (ℕ → ℝ) → ℕ → ℝ) (x : ℕ → ℝ) : ℕ → ℝ := F x (fun k => x (n + k))

/-- `flux_jac` of a kernel of one array. euler_integ_def.hpp:181-211, 402-426, 476-500, 551-578. -/
noncomputable def jac1 (ns : ℕ) (F : (ℕ → ℝ) → ℕ → ℝ) (q : ℕ → ℝ) : ℕ → ℕ → ℝ :=
  dense ns (stackJac ns F q)

/-- `jacL` of a kernel of two arrays. euler_integ_def.hpp:133-138, 868-874. -/
noncomputable def jac2L (ns : ℕ) (F : (ℕ → ℝ) → (ℕ → ℝ) → ℕ → ℝ) (qL qR : ℕ → ℝ) : ℕ → ℕ → ℝ :=
  copyCols (dense ns (stackJac ns (record2 ns F) (concat ns qL qR))) 0

/-- `jacR` of a kernel of two arrays. euler_integ_def.hpp:133-140, 868-875. -/
noncomputable def jac2R (ns : ℕ) (F : (ℕ → ℝ) → (ℕ → ℝ) → ℕ → ℝ) (qL qR : ℕ → ℝ) : ℕ → ℕ → ℝ :=
  copyCols (dense ns (stackJac ns (record2 ns F) (concat ns qL qR))) ns

/-- The identity matrix filled by hand. euler_integ_def.hpp:187-192, 370-376. -/
def ident : ℕ → ℕ → ℝ := fun i j => if i = j then 1 else 0

variable (d : ℕ) (entvar : Bool)

/-- `IsmailRoeIntegrator::calcFluxJacStates`, left. euler_integ_def.hpp:104-142. -/
noncomputable def irJacL (di : ℕ) (qL qR : ℕ → ℝ) : ℕ → ℕ → ℝ := jac2L (d + 2) (irFlux d entvar di) qL qR

/-- `IsmailRoeIntegrator::calcFluxJacStates`, right. euler_integ_def.hpp:104-142. -/
noncomputable def irJacR (di : ℕ) (qL qR : ℕ → ℝ) : ℕ → ℕ → ℝ := jac2R (d + 2) (irFlux d entvar di) qL qR

/-- `IsmailRoeIntegrator::AssembleElementGrad` (inherited, inviscid_integ_def.hpp:191-251). -/
noncomputable def irGrad (e : Elem ℝ) (alpha : ℝ) (adj : ℕ → ℕ → ℕ → ℝ) (u : ℕ → ℝ) : ℕ → ℕ → ℝ :=
  dyadicGrad e (d + 2) alpha (irJacL d entvar) (irJacR d entvar) adj u

/-- `EntStableLPSIntegrator::convertVarsJacState`. euler_integ_def.hpp:180-211. -/
noncomputable def lpsConvertJac (q : ℕ → ℝ) : ℕ → ℕ → ℝ :=
  if entvar then ident else jac1 (d + 2) (lpsConvert d entvar) q

/-- `EntStableLPSIntegrator::applyScalingJacState`. euler_integ_def.hpp:232-269. -/
noncomputable def lpsScaleJacState (adjJ : ℕ → ℕ → ℝ) (q v : ℕ → ℝ) : ℕ → ℕ → ℝ :=
  jac1 (d + 2) (fun x => lpsScale d entvar adjJ x v) q

/-- `EntStableLPSIntegrator::applyScalingJacV`: recorded at `vec = q`. euler_integ_def.hpp:305-339. -/
noncomputable def lpsScaleJacV (adjJ : ℕ → ℕ → ℝ) (q : ℕ → ℝ) : ℕ → ℕ → ℝ :=
  jac1 (d + 2) (fun x => lpsScale d entvar adjJ q x) q

/-- `EntStableLPSIntegrator::AssembleElementGrad` (inherited, inviscid_integ_def.hpp:308-414). -/
noncomputable def entLpsGrad (e : Elem ℝ) (alpha : ℝ) (adj : ℕ → ℕ → ℕ → ℝ) (u : ℕ → ℝ) : ℕ → ℕ → ℝ :=
  lpsGrad e (d + 2) alpha (lpsConvert d entvar) (lpsConvertJac d entvar)
    (fun i => lpsScaleJacState d entvar (adj i)) (fun i => lpsScaleJacV d entvar (adj i)) u

/-- `MassIntegrator::convertVarsJacState`. euler_integ_def.hpp:348-378. -/
noncomputable def massConvertJac (u : ℕ → ℝ) : ℕ → ℕ → ℝ :=
  if entvar then jac1 (d + 2) (massConvert d entvar) u else ident

/-- `MassIntegrator::AssembleElementGrad` (inherited, inviscid_integ_def.hpp:877-915). -/
noncomputable def eulerMassGrad (N : ℕ) (alpha : ℝ) (w u : ℕ → ℝ) : ℕ → ℕ → ℝ :=
  massGrad N (d + 2) alpha w (massConvertJac d entvar) u

/-- `calcFluxJacState` of the boundary conditions: the kernel recorded with `x` and `dir` fixed.
euler_integ_def.hpp:402-426 (vortex), 476-500 (slip wall), 551-578 (far field), 639-672 (entropy
conservative), 730-757 (control). -/
noncomputable def bcJacState (flux : (ℕ → ℝ) → (ℕ → ℝ) → (ℕ → ℝ) → ℕ → ℝ) (x dir q : ℕ → ℝ) : ℕ → ℕ → ℝ :=
  jac1 (d + 2) (flux x dir) q

/-- `InterfaceIntegrator::calcFluxJacState`, left. euler_integ_def.hpp:842-876. -/
noncomputable def ifaceJacL (diss : ℝ) (dir qL qR : ℕ → ℝ) : ℕ → ℕ → ℝ :=
  jac2L (d + 2) (ifaceFlux d entvar diss dir) qL qR

/-- `InterfaceIntegrator::calcFluxJacState`, right. euler_integ_def.hpp:842-876. -/
noncomputable def ifaceJacR (diss : ℝ) (dir qL qR : ℕ → ℝ) : ℕ → ℕ → ℝ :=
  jac2R (d + 2) (ifaceFlux d entvar diss dir) qL qR

/-- `PressureForce::calcFlux`: the gradient of the functional by the reverse mode, one dependent with
seed 1. euler_integ_def.hpp:932-958. -/
noncomputable def pressureForceGrad (forceNrm : Fin d → ℝ) (x dir q : ℕ → ℝ) : ℕ → ℝ :=
  stackJac 1 (fun y _ => pressureForce d entvar forceNrm x dir y) q

end Verif.AdJacobian
