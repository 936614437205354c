import Mathlib.Analysis.Calculus.Deriv.Basic
import Verif.EulerInteg
import Verif.Dense

/-!
# Mesh sensitivities of the flow residual

`/repo/src/physics/fluidflow/mesh_sens_integ_def.hpp`, `euler_sens_integ_def.hpp`: linear-form
integrators that return the derivative of `ψᵀ R(u, x)` with respect to the mesh nodes `x` for the
Ismail-Roe volume term and the slip-wall boundary term.

`state.GetVectorValues(isotrans, ir, u)` interpolates at the SBP nodes, where the SBP basis is the
nodal indicator: column `i` of `u` is the node's state, i.e. `row` of the element vector.
MFEM's `AdjugateJacobianRevDiff`, `JacobianRevDiff` and `CalcOrthoRevDiff` are parameters (their
contracts are in the specification); the first two *add* to `PointMat_bar`.
-/

namespace Verif.MeshSens
open Verif.Sbp Verif.Dense Verif.Inviscid Verif.EulerInteg Verif.EulerFluxes

/-- A `DenseMatrix` of size `m x n` over a total array; the entries out of range are never read
(mesh_sens_integ_def.hpp:47-48). -/
def toMat (m n : ℕ) (A : ℕ → ℕ → ℝ) : Mat m n := fun a b => A a b

/-- A `DenseMatrix` as a total array (padding is never read), mesh_sens_integ_def.hpp:47-48. -/
def natMat {m n : ℕ} (A : Mat m n) : ℕ → ℕ → ℝ :=
  fun a b => if h : a < m ∧ b < n then A ⟨a, h.1⟩ ⟨b, h.2⟩ else 0

/-- A `Vector` as a total array, mesh_sens_integ_def.hpp:233-234. -/
def natVec {n : ℕ} (v : Vec n) : ℕ → ℝ := fun a => if h : a < n then v ⟨a, h⟩ else 0

/-- `PointMat_bar += ...` inside the reverse-mode MFEM calls, mesh_sens_integ_def.hpp:82, 86, 294. -/
def addMat (P Q : ℕ → ℕ → ℝ) : ℕ → ℕ → ℝ := fun a b => P a b + Q a b

/-- `Sij_bar`, mesh_sens_integ_def.hpp:67-75. -/
noncomputable def skewBar (ns : ℕ) (alpha : ℝ) (fluxij psiI psiJ : ℕ → ℝ) : ℝ :=
  forN ns (fun n s => s + fluxij n * psiI n - fluxij n * psiJ n) 0 * alpha

/-- The `di` loop for one pair of nodes: `(adjJ_i_bar, adjJ_j_bar)` after it.
mesh_sens_integ_def.hpp:62-79. -/
noncomputable def pairBar (e : Elem ℝ) (ns : ℕ) (alpha : ℝ)
    (flux : ℕ → (ℕ → ℝ) → (ℕ → ℝ) → (ℕ → ℝ)) (u psi : ℕ → ℝ) (i j : ℕ) (aI : ℕ → ℕ → ℝ) :
    (ℕ → ℕ → ℝ) × (ℕ → ℕ → ℝ) :=
  forN e.dim (fun di => getSkewEntryRevDiff e di i j
    (skewBar ns alpha (flux di (row u e.dof i) (row u e.dof j)) (row psi e.dof i) (row psi e.dof j)))
    (aI, fun _ _ => 0)

/-- The `j` loop for one node `i`: `(adjJ_i_bar, PointMat_bar)` after it.
mesh_sens_integ_def.hpp:56-83. -/
noncomputable def nodeBar (e : Elem ℝ) (ns : ℕ) (alpha : ℝ)
    (flux : ℕ → (ℕ → ℝ) → (ℕ → ℝ) → (ℕ → ℝ)) (adjRev : ℕ → Mat e.dim e.dim → ℕ → ℕ → ℝ)
    (u psi : ℕ → ℝ) (i : ℕ) (P : ℕ → ℕ → ℝ) : (ℕ → ℕ → ℝ) × (ℕ → ℕ → ℝ) :=
  forFromTo (i + 1) e.dof (fun j s =>
    let ab := pairBar e ns alpha flux u psi i j s.1
    (ab.1, addMat s.2 (adjRev j (toMat e.dim e.dim ab.2)))) (fun _ _ => 0, P)

/-- Both node loops: `PointMat_bar`. mesh_sens_integ_def.hpp:49-87. -/
noncomputable def dyadicPointMat (e : Elem ℝ) (ns : ℕ) (alpha : ℝ)
    (flux : ℕ → (ℕ → ℝ) → (ℕ → ℝ) → (ℕ → ℝ)) (adjRev : ℕ → Mat e.dim e.dim → ℕ → ℕ → ℝ)
    (u psi : ℕ → ℝ) : ℕ → ℕ → ℝ :=
  forN e.dof (fun i P =>
    let s := nodeBar e ns alpha flux adjRev u psi i P
    addMat s.2 (adjRev i (toMat e.dim e.dim s.1))) (fun _ _ => 0)

/-- `elvect(d * ndof + i) = PointMat_bar(d, i)`, mesh_sens_integ_def.hpp:90-96, 297-303; `v0` is the
uninitialised vector left by `SetSize`. -/
def insertBar (dim m : ℕ) (P : ℕ → ℕ → ℝ) (v0 : ℕ → ℝ) : ℕ → ℝ :=
  forN m (fun i => forN dim (fun d v => Function.update v (d * m + i) (P d i))) v0

/-- `DyadicMeshSensIntegrator::AssembleRHSElementVect`, mesh_sens_integ_def.hpp:12-97; `m` mesh nodes.
`fluxij` is assumed large enough for the kernel (`num_state_vars = dim + 2`). -/
noncomputable def dyadicMeshSens (e : Elem ℝ) (ns : ℕ) (alpha : ℝ)
    (flux : ℕ → (ℕ → ℝ) → (ℕ → ℝ) → (ℕ → ℝ)) (adjRev : ℕ → Mat e.dim e.dim → ℕ → ℕ → ℝ) (m : ℕ)
    (u psi v0 : ℕ → ℝ) : ℕ → ℝ :=
  insertBar e.dim m (dyadicPointMat e ns alpha flux adjRev u psi) v0

/-- `IsmailRoeMeshSensIntegrator` (`calcFlux` of euler_sens_integ_def.hpp:16-32 is the residual's). -/
noncomputable def irMeshSens (d : ℕ) (entvar : Bool) (e : Elem ℝ) (alpha : ℝ)
    (adjRev : ℕ → Mat e.dim e.dim → ℕ → ℕ → ℝ) (m : ℕ) (u psi v0 : ℕ → ℝ) : ℕ → ℝ :=
  dyadicMeshSens e (d + 2) alpha (irFlux d entvar) adjRev m u psi v0

/-! ### Boundary -/

/-- `MultABt(A, B, C)`, mesh_sens_integ_def.hpp:293. -/
def multABt {m n k : ℕ} (A : Mat m k) (B : Mat n k) : Mat m n := fun i j => ∑ l, A i l * B j l

/-- `set_gradients(flux, flux_bar); compute_adjoint(); get_gradients(dir)` (Adept): the products of
`flux_bar` with the partial derivatives of the recorded flux. euler_sens_integ_def.hpp:52-54. -/
noncomputable def stackAdjoint (ns : ℕ) (record : (ℕ → ℝ) → ℕ → ℝ) (x bar : ℕ → ℝ) : ℕ → ℝ :=
  fun k => ∑ n ∈ Finset.range ns, bar n * deriv (fun t => record (Function.update x k t) n) (x k)

/-- `SlipWallBCMeshSens::calcFluxBar`, euler_sens_integ_def.hpp:34-55. -/
noncomputable def slipWallFluxBar (d : ℕ) (entvar : Bool) (x dir u bar : ℕ → ℝ) : ℕ → ℝ :=
  stackAdjoint (d + 2) (fun y => slipWallFlux d entvar x y u) dir bar

/-- What one boundary node sees of the geometry (mesh_sens_integ_def.hpp:270-286). -/
structure FacePt (d f : ℕ) where
  /-- `trans.Elem1->Jacobian()` -/
  Jel : Mat d d
  /-- `CalcInverse(trans.Elem1->Jacobian(), .)` -/
  inv : Mat d d
  /-- `trans.Face->Jacobian()` -/
  Jface : Mat d f
  /-- the physical coordinates -/
  x : ℕ → ℝ
  /-- `face_ip.weight` -/
  w : ℝ
  /-- `getIntegrationPointIndex(el_ip)` -/
  node : ℕ

/-- The body of the face loop: the adjoint of the element Jacobian. mesh_sens_integ_def.hpp:268-293. -/
noncomputable def facePtBar {d f : ℕ} (ortho : Mat d f → Vec d) (orthoRev : Mat d f → Vec d → Mat d f)
    (N : ℕ) (alpha : ℝ) (fluxBar : (ℕ → ℝ) → (ℕ → ℝ) → (ℕ → ℝ) → (ℕ → ℝ) → ℕ → ℝ) (u psi : ℕ → ℝ)
    (p : FacePt d f) : Mat d d :=
  let jacMap := mulM p.inv p.Jface
  let nrmBar := fluxBar p.x (natVec (ortho p.Jface)) (row u N p.node) (row psi N p.node)
  let nrmBar : Vec d := fun k => nrmBar k * (p.w * alpha)
  multABt (orthoRev p.Jface nrmBar) jacMap

/-- `BoundaryMeshSensIntegrator::AssembleRHSElementVect` on a boundary face,
mesh_sens_integ_def.hpp:205-304; `nf` face nodes. The dispatch on the dimension (248-263) is left
out: the caller fixes `d`. -/
noncomputable def bndMeshSens {d f : ℕ} (ortho : Mat d f → Vec d) (orthoRev : Mat d f → Vec d → Mat d f)
    (jacRev : ℕ → Mat d d → ℕ → ℕ → ℝ) (nf N m : ℕ) (alpha : ℝ)
    (fluxBar : (ℕ → ℝ) → (ℕ → ℝ) → (ℕ → ℝ) → (ℕ → ℝ) → ℕ → ℝ) (pt : ℕ → FacePt d f)
    (u psi v0 : ℕ → ℝ) : ℕ → ℝ :=
  insertBar d m (forN nf (fun i P =>
    addMat P (jacRev i (facePtBar ortho orthoRev N alpha fluxBar u psi (pt i)))) (fun _ _ => 0)) v0

/-- `mfem::CalcOrtho` for a curve in the plane, mesh_sens_integ_def.hpp:283. -/
def ortho2 (J : Mat 2 1) : Vec 2 := fun k => if k = 0 then J 1 0 else -J 0 0

/-- `mfem::CalcOrtho` for a surface in space, mesh_sens_integ_def.hpp:283. -/
def ortho3 (J : Mat 3 2) : Vec 3 := fun k =>
  if k = 0 then J 1 0 * J 2 1 - J 2 0 * J 1 1
  else if k = 1 then J 2 0 * J 0 1 - J 0 0 * J 2 1
  else J 0 0 * J 1 1 - J 1 0 * J 0 1

end Verif.MeshSens
