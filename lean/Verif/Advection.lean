import Verif.Sbp
import Mathlib.Analysis.SpecialFunctions.Sqrt

/-! # Linear advection (C239)

Model of `AdvectionIntegrator` and `AdvectLPSIntegrator`, advection.cpp (a file the build leaves out:
fluidflow/CMakeLists.txt:28). -/

namespace Verif.Advection
open Verif.Sbp

/-- An element of the mesh: the SBP element, the adjugate of the mapping's Jacobian and the velocity at each node,
advection.cpp:32-40. -/
structure AElem where
  e : Elem ℝ
  adj : ℕ → ℕ → ℕ → ℝ
  vel : ℕ → ℕ → ℝ

/-- `adjJ.Mult(vel_i, velhat_i)`: component `d` of the velocity in reference space at node `i`, advection.cpp:33-41, 82-83. -/
def velhat (a : AElem) (i d : ℕ) : ℝ := forN a.e.dim (fun k s => s + a.adj i d k * a.vel i k) 0

/-- `AdvectionIntegrator::AssembleElementMatrix`, advection.cpp:12-51: `RightScaling` multiplies column `j`,
`elmat.Add(-alpha, Q)`. -/
def advMat (a : AElem) (alpha : ℝ) : ℕ → ℕ → ℝ :=
  forN a.e.dim (fun di M i j => M i j + -alpha * (getWeakOperator a.e di true i j * velhat a j di)) fun _ _ => 0

/-- `velhat_i.Norml2()`, advection.cpp:84. -/
noncomputable def speed (a : AElem) (i : ℕ) : ℝ := √(forN a.e.dim (fun d s => s + velhat a i d * velhat a i d) 0)

/-- The scaling `AH(i)`, advection.cpp:84. -/
noncomputable def lpsAH (a : AElem) (alpha lps : ℝ) (i : ℕ) : ℝ := alpha * lps * a.e.H i * speed a i

/-- `AdvectLPSIntegrator::AssembleElementMatrix`, advection.cpp:59-90: the projection is transposed and
`MultADAt(P, AH, elmat)` forms `P diag(AH) Pᵀ` of that. -/
noncomputable def lpsMat (a : AElem) (alpha lps : ℝ) : ℕ → ℕ → ℝ :=
  let P : ℕ → ℕ → ℝ := fun i j => getProjOperator a.e j i
  fun i j => forN a.e.dof (fun k s => s + P i k * lpsAH a alpha lps k * P j k) 0

/-- The two integrators as `AdvectionSolver` adds them, advection.cpp:103-108. -/
noncomputable def stiffness (a : AElem) (lps : ℝ) : ℕ → ℕ → ℝ := fun i j => advMat a (-1) i j + lpsMat a (-1) lps i j

end Verif.Advection
