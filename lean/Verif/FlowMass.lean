import Verif.FlowSetup
import Verif.Unsteady

/-!
# The mass matrix of the flow solver (`flow_residual.cpp`, `flow_solver.cpp`)

Which integrator the constructor of `FlowResidual` puts in the mass form, how `getMassMatrix_` assembles and keeps the matrix, and
the pointer `TimeDependentResidual` holds to it while the mesh nodes are moved by later inputs.  One rank, `double` = ℝ.
-/

namespace Verif.FlowMass

open Verif.NLForm Matrix Finset

variable {n : ℕ}

/-- A finite-element space of SBP elements of one kind: number of elements, nodes per element, states, space dimension, cubature
weights, and the global number of each local (byNODES) dof.  flow_residual.cpp:90-101. -/
structure Space (n : ℕ) where
  ne : ℕ
  nn : ℕ
  ns : ℕ
  dim : ℕ
  wt : ℕ → ℝ
  vdof : ℕ → ℕ → Fin n

/-- The mesh as the mass integrator sees it: `Trans.Weight()` at node `i` of element `e`, diag_mass_integ.cpp:22-24. -/
abbrev Mesh := ℕ → ℕ → ℝ

/-- What `options["time-dis"]["steady"]` may hold, flow_residual.cpp:125: a boolean, or something `nlohmann::json` refuses to convert
(absent members are null). -/
inductive Js
  | bool (b : Bool)
  | other

/-- How the construction of the solver can end badly: a `json` type error, or (not an exception but undefined behaviour) an element
matrix read outside its bounds. flow_residual.cpp:119-132. -/
inductive Err
  | jsonType
  | outOfBounds
deriving DecidableEq

/-- The integrator of the mass form, flow_residual.cpp:121-132. -/
inductive Form
  | diag (spaceVary : Bool)
  | mfemMass
deriving DecidableEq

/-- `strncmp(name, p, k) == 0` for a literal `p` of length `k`, flow_residual.cpp:123. -/
def hasPrefix (p name : String) : Bool := name.toList.take p.toList.length == p.toList

/-- The choice of the mass integrator in the constructor, flow_residual.cpp:121-132. -/
def massForm (name : String) (steady : Js) : Except Err Form :=
  if hasPrefix "SBP" name || hasPrefix "DSBP" name then
    match steady with
    | .bool b => .ok (.diag b)
    | .other => .error .jsonType
  else .ok .mfemMass

/-- `mass.Assemble(0); mass.Finalize(0); mass.ParallelAssemble()` (MFEM, called at flow_residual.cpp:564-566): the element matrices
of diag_mass_integ.cpp:8-38 added into the rows and columns of their dofs.  `mfem::MassIntegrator` returns an `nn × nn` matrix whatever
the number of states, so for more than one state MFEM reads it out of bounds; its values (one state) are the parameter `scalar`. -/
noncomputable def assemble (S : Space n) (scalar : Mesh → Matrix (Fin n) (Fin n) ℝ) (f : Form) (J : Mesh) :
    Except Err (Matrix (Fin n) (Fin n) ℝ) :=
  match f with
  | .diag vary => .ok (Matrix.of fun r c => ∑ e ∈ range S.ne, ∑ i ∈ range (S.nn * S.ns), ∑ j ∈ range (S.nn * S.ns),
      if S.vdof e i = r ∧ S.vdof e j = c then FlowSetup.diagMass S.dim S.ns S.nn vary S.wt (J e) i j else 0)
  | .mfemMass => if S.ns ≤ 1 then .ok (scalar J) else .error .outOfBounds

/-- `FlowResidual`: its mass form and `mass_mat` (null until the first request), flow_residual.hpp:168-173. -/
structure Res (n : ℕ) where
  form : Form
  massMat : Option (Matrix (Fin n) (Fin n) ℝ)

/-- `getMassMatrix_`, flow_residual.cpp:554-569. -/
noncomputable def getMassMatrix (S : Space n) (scalar : Mesh → Matrix (Fin n) (Fin n) ℝ) (J : Mesh) (r : Res n) :
    Except Err (Matrix (Fin n) (Fin n) ℝ × Res n) :=
  match r.massMat with
  | some M => .ok (M, r)
  | none => do
    let M ← assemble S scalar r.form J
    pure (M, { r with massMat := some M })

/-- `FlowSolver`: the current mesh, the spatial residual, and the matrix `TimeDependentResidual::mass_matrix_` points to,
flow_solver.cpp:53-58, ode.hpp:59-62. -/
structure Solver (n : ℕ) where
  mesh : Mesh
  res : Res n
  tdMass : Matrix (Fin n) (Fin n) ℝ

/-- The part of the constructor of `FlowSolver` that sets up the mass matrix, flow_solver.cpp:53-58. -/
noncomputable def construct (S : Space n) (scalar : Mesh → Matrix (Fin n) (Fin n) ℝ) (name : String) (steady : Js) (J : Mesh) :
    Except Err (Solver n) := do
  let f ← massForm name steady
  let (M, r) ← getMassMatrix S scalar J ⟨f, none⟩
  pure ⟨J, r, M⟩

/-- What a caller can do afterwards: pass new `mesh_coords` (which moves the mesh nodes, ode.cpp:85 and the nonlinear form's
`setInputs`), or ask for the mass matrix (miso_residual.hpp:652-656). -/
inductive Cmd
  | meshCoords (J : Mesh)
  | getMass

/-- One call; flow_residual.cpp:554-569, ode.cpp:57-86.  Nothing in `setInputs` touches `mass_mat` or `mass_matrix_`. -/
noncomputable def step (S : Space n) (scalar : Mesh → Matrix (Fin n) (Fin n) ℝ) (s : Solver n) : Cmd → Except Err (Solver n)
  | .meshCoords J => .ok { s with mesh := J }
  | .getMass => do
    let (_, r) ← getMassMatrix S scalar s.mesh s.res
    pure { s with res := r }

/-- A history of calls. flow_residual.cpp:554-569, ode.cpp:57-86. -/
noncomputable def run (S : Space n) (scalar : Mesh → Matrix (Fin n) (Fin n) ℝ) (s : Solver n) : List Cmd → Except Err (Solver n)
  | [] => .ok s
  | c :: cs => do
    let s' ← step S scalar s c
    run S scalar s' cs

/-- The dynamics the time steppers then integrate: the spatial residual `R` and its Jacobian on the current mesh, with the stored mass
matrix, ode.cpp:94-153. -/
noncomputable def dyn (R : Mesh → Vec n → Vec n) (DR : Mesh → Vec n → Mat n) (s : Solver n) : Unsteady.Dyn n :=
  ⟨R s.mesh, DR s.mesh, s.tdMass⟩

end Verif.FlowMass
