import Verif.EulerInteg
import Verif.TimeLoop

/-!
Model of the set-up and reporting parts of the flow solver: `/repo/src/physics/fluidflow/flow_residual.cpp`
(options, boundary conditions, drag and lift directions, CFL time step, conservative-variable error),
`flow_solver.cpp` (step size), `/repo/src/physics/diag_mass_integ.cpp` and `squaredExponential` of
`/repo/src/utils/utils.cpp`.
-/

namespace Verif.FlowSetup
open Verif.EulerFluxes Verif.EulerInteg Verif.Sbp Verif.Inviscid

variable {d : ℕ}

/-! ### Axes, drag and lift -/

/-- The checks on `roll-axis` and `pitch-axis` in `FlowResidual::setOptions_`,
flow_residual.cpp:405-417 (`true`: no exception). -/
def axesOk (iroll ipitch : ℤ) : Bool :=
  if iroll = ipitch then false
  else if iroll < 0 ∨ iroll > 2 then false
  else if ipitch < 0 ∨ ipitch > 2 then false
  else true

/-- `v(i) = y` on an `mfem::Vector` of size `n` (flow_residual.cpp:703-714); `none` is a write outside
the vector. -/
def vecSet (n : ℕ) (v : ℕ → ℝ) (i : ℤ) (y : ℝ) : Option (ℕ → ℝ) :=
  if 0 ≤ i ∧ i < n then some (Function.update v i.toNat y) else none

/-- `drag_dir` in `FlowResidual::constructOutput`, flow_residual.cpp:705-716. -/
noncomputable def dragDir (dim : ℕ) (mach aoa : ℝ) (iroll ipitch : ℤ) : Option (ℕ → ℝ) :=
  let v := if dim = 1 then vecSet dim (fun _ => 0) 0 1
    else (vecSet dim (fun _ => 0) iroll (Real.cos aoa)).bind
      fun v => vecSet dim v ipitch (Real.sin aoa)
  v.map fun v i => v i * (1 / mach ^ 2)

/-- `lift_dir` in `FlowResidual::constructOutput`, flow_residual.cpp:744-755. -/
noncomputable def liftDir (dim : ℕ) (mach aoa : ℝ) (iroll ipitch : ℤ) : Option (ℕ → ℝ) :=
  let v := if dim = 1 then vecSet dim (fun _ => 0) 0 0
    else (vecSet dim (fun _ => 0) iroll (-Real.sin aoa)).bind
      fun v => vecSet dim v ipitch (Real.cos aoa)
  v.map fun v i => v i * (1 / mach ^ 2)

/-! ### Boundary conditions -/

/-- The boundary integrators the flow residual can attach (flow_residual.cpp:226-376). -/
inductive Bc
  | vortex | slipWall | farField | pump | control
  | viscSlip | noSlip | viscExact | viscControl
  deriving DecidableEq, Repr

/-- `options["bcs"]`: keys with their attribute lists.  A JSON object has each key at most once, so
`List.lookup` is `contains` / `operator[]`.  flow_residual.cpp:225-374. -/
abbrev Bcs := List (String × List ℕ)

/-- One `if (bcs.contains(key)) res.addBdrFaceIntegrator(new ..., bcs[key])` block
(flow_residual.cpp:245-264). -/
def addBc (bcs : Bcs) (key : String) (kind : Bc) (l : List (Bc × List ℕ)) : List (Bc × List ℕ) :=
  match bcs.lookup key with
  | some attrs => l ++ [(kind, attrs)]
  | none => l

/-- `addInviscidBoundaryIntegrators`, flow_residual.cpp:225-307; `none` is the exception. -/
def inviscidBcs (dim : ℕ) (bcs : Bcs) : Option (List (Bc × List ℕ)) :=
  if (bcs.lookup "vortex").isSome ∧ dim ≠ 2 then none
  else
    let l := addBc bcs "vortex" .vortex []
    let l := addBc bcs "slip-wall" .slipWall l
    let l := addBc bcs "far-field" .farField l
    let l := addBc bcs "pump" .pump l
    some (addBc bcs "control" .control l)

/-- `addViscousBoundaryIntegrators`, flow_residual.cpp:309-374. -/
def viscousBcs (bcs : Bcs) : List (Bc × List ℕ) :=
  let l := addBc bcs "slip-wall" .viscSlip []
  let l := addBc bcs "no-slip-adiabatic" .noSlip l
  let l := addBc bcs "far-field" .farField l
  let l := addBc bcs "viscous-mms" .viscExact l
  addBc bcs "control" .viscControl l

/-- `addFlowBoundaryIntegrators`, flow_residual.cpp:210-223. -/
def flowBcs (viscous : Bool) (dim : ℕ) (bcs : Bcs) : Option (List (Bc × List ℕ)) :=
  if viscous then some (viscousBcs bcs) else inviscidBcs dim bcs

/-- The checks of the `FlowSolver<dim, entvar>` constructor, flow_solver.cpp:29-50. -/
def solverOk (dim : ℕ) (entvar : Bool) (meshDim : ℕ) (entState steady : Bool) : Bool :=
  if meshDim ≠ dim then false
  else if entState ≠ entvar then false
  else if entvar ∧ ¬ steady then false
  else true

/-- The checks made while the integrators are added: the flux function (flow_residual.cpp:143-157) and
the viscous interface terms (flow_residual.cpp:195-208). -/
def integratorsOk (entvar : Bool) (fluxFun basis : String) (viscous : Bool) : Bool :=
  if fluxFun ≠ "IR" ∧ entvar then false
  else if basis = "dsbp" ∧ viscous then false
  else true

/-- The assignments of the `pump` lambda, in order, as `(index, value)`: flow_residual.cpp:270-278. -/
noncomputable def pumpWrites (t : ℝ) : List (ℕ × ℝ) :=
  let uL : ℝ := 1 / 20
  let xL := uL * (1 - Real.cos t)
  let q0 := 1 / (1 - xL)
  let q1 := q0 * uL * Real.sin t
  let press := q0 ^ gamma
  [(0, q0), (1, q1), (2, 0), (3, press / gami + 1 / 2 * q1 * q1 / q0)]

/-- The vector of size `n` after a list of assignments; entries never assigned are `none`
(uninitialised), and the result is `none` if an assignment is out of bounds.  flow_residual.cpp:270-278. -/
def writeAll (n : ℕ) : List (ℕ × ℝ) → (ℕ → Option ℝ) → Option (ℕ → Option ℝ)
  | [], v => some v
  | (i, y) :: l, v => if i < n then writeAll n l (Function.update v i (some y)) else none

/-- `squaredExponential(len, xc, x)`, utils.cpp:51-55, with `n = x.Size()` and `nc = xc.Size()`; `none` when
the sizes differ (`x * xc` then reads past the end of one of the vectors, or trips MFEM's assertion). -/
noncomputable def squaredExponential (len : ℝ) (nc : ℕ) (xc : ℕ → ℝ) (n : ℕ) (x : ℕ → ℝ) : Option ℝ :=
  if n = nc then
    let prod2 := vdot n x x - 2 * vdot n x xc + vdot nc xc xc
    some (Real.exp (-prod2 / len ^ 2))
  else none

/-- The scale used by the `control` boundary and the `boundary-entropy` output: `len = 0.1`,
`xc = (0.5, 0)`, for every `dim`; flow_residual.cpp:287-298, 789-799. -/
noncomputable def controlScale (dim : ℕ) (x : ℕ → ℝ) : Option ℝ :=
  squaredExponential (1 / 10) 2 (fun i => if i = 0 then 1 / 2 else 0) dim x

/-! ### CFL time step -/

/-- Euclidean distance of the mapped nodes, `dxij.Norml2()` (flow_residual.cpp:612-614). -/
noncomputable def dist (a b : Fin d → ℝ) : ℝ := √(dot (fun i => b i - a i) (fun i => b i - a i))

/-- Innermost statement of `minCFLTimeStep`, flow_residual.cpp:606-619, for node `i` of the element and
every other node `j`. -/
noncomputable def cflNode (entvar : Bool) (cfl : ℝ) (x : ℕ → Fin d → ℝ) (ui : State d) (i j : ℕ)
    (dt : ℝ) : ℝ :=
  if j = i then dt
  else min dt (cfl * dist (x i) (x j) * dist (x i) (x j) /
    calcSpectralRadius entvar (fun a => x j a - x i a) ui)

/-- Local part of `FlowResidual::minCFLTimeStep`, flow_residual.cpp:580-622: `x k i` is the mapped node `i`
of element `k`, `u k i` the state there. -/
noncomputable def minCflLocal (entvar : Bool) (cfl : ℝ) (ne : ℕ) (dof : ℕ → ℕ) (x : ℕ → ℕ → Fin d → ℝ)
    (u : ℕ → ℕ → State d) : ℝ :=
  forN ne (fun k dt => forN (dof k) (fun i dt => forN (dof k) (cflNode entvar cfl (x k) (u k i) i) dt)
    dt) (10 ^ 100)

/-- `MPI_Allreduce(..., MPI_MIN, ...)` over ranks `0..n` (flow_residual.cpp:623-630). -/
def allMin (n : ℕ) (f : ℕ → ℝ) : ℝ := forN n (fun r s => min s (f (r + 1))) (f 0)

/-- `FlowSolver::calcStepSize` with `const-cfl` (flow_solver.cpp:151-157) in the loop of
`solveForState`.  The loop state is the pair of the solution vector and the solver's `state` field:
the step size is computed from the field (`getState()`), which `initialHook` sets
(pde_solver.cpp:535) and which afterwards only changes when the residual is evaluated
(flow_residual.cpp:421-426 through `setInputs`, miso_nonlinearform.cpp:17-34).
`step s t dt` returns the new solution and the state at which the residual was last evaluated.
`iterationExit` is the default one (flow_solver.cpp:183-186). -/
def cflSolver {K S : Type} [Field K] [LinearOrder K] (tInit tFinal : K) (maxIter : ℕ) (minCfl : S → K)
    (step : S → K → K → S × S) : TimeLoop.Solver K (S × S) where
  tInit := tInit
  tFinal := tFinal
  maxIter := maxIter
  calcStepSize := fun _ _ _ _ sf => minCfl sf.2
  iterationExit := TimeLoop.defaultExit
  step := fun sf t dt => (step sf.1 t dt, t + dt, dt)

/-- The same loop for `FlowControlSolver::calcStepSize`, which first copies the current state into the
field (flow_control_solver.cpp:346-357). -/
def cflControlSolver {K S : Type} [Field K] [LinearOrder K] (tInit tFinal : K) (maxIter : ℕ)
    (minCfl : S → K) (step : S → K → K → S × S) : TimeLoop.Solver K (S × S) where
  tInit := tInit
  tFinal := tFinal
  maxIter := maxIter
  calcStepSize := fun _ _ _ _ sf => minCfl sf.1
  iterationExit := TimeLoop.defaultExit
  step := fun sf t dt => (step sf.1 t dt, t + dt, dt)

/-- Forward Euler as a `step` for the above: the residual is evaluated at the old state only
(ode.cpp:95-99: with `dt == 0` the state itself is handed to the residual). -/
def forwardEuler {K S : Type} (upd : S → K → S) : S → K → K → S × S := fun s _ dt => (upd s dt, s)

/-! ### Conservative-variable error -/

/-- `node_error`, flow_residual.cpp:641-666: `entry < 0` sums all entries. -/
noncomputable def nodeError (d : ℕ) (entvar : Bool) (entry : ℤ) (discrete exact : ℕ → ℝ) : ℝ :=
  let qd := ofState (consOf entvar (toState d discrete))
  let qe := ofState (consOf entvar (toState d exact))
  if entry < 0 then forN (d + 2) (fun i err => err + (qd i - qe i) * (qd i - qe i)) 0
  else (qd entry.toNat - qe entry.toNat) * (qd entry.toNat - qe entry.toNat)

/-- Local sum of `calcConservativeVarsL2Error`, flow_residual.cpp:673-689; `w k j` is
`ip.weight * T->Weight()`. -/
noncomputable def l2Local (d : ℕ) (entvar : Bool) (entry : ℤ) (ne : ℕ) (dof : ℕ → ℕ) (w : ℕ → ℕ → ℝ)
    (u ex : ℕ → ℕ → ℕ → ℝ) : ℝ :=
  forN ne (fun k s => forN (dof k) (fun j s => s + w k j * nodeError d entvar entry (u k j) (ex k j)) s)
    0

/-- `calcConservativeVarsL2Error` on one rank (the reduction is a sum), flow_residual.cpp:690-699. -/
noncomputable def consL2Error (d : ℕ) (entvar : Bool) (entry : ℤ) (ne : ℕ) (dof : ℕ → ℕ)
    (w : ℕ → ℕ → ℝ) (u ex : ℕ → ℕ → ℕ → ℝ) : ℝ :=
  let norm := l2Local d entvar entry ne dof w u ex
  if norm < 0 then -√(-norm) else √norm

/-! ### Diagonal mass matrix -/

/-- `DiagMassIntegrator::AssembleElementMatrix`, diag_mass_integ.cpp:8-38: `wt i` is the cubature weight
and `J i` is `Trans.Weight()` at node `i`. -/
noncomputable def diagMass (dim ns nn : ℕ) (spaceVary : Bool) (wt J : ℕ → ℝ) : ℕ → ℕ → ℝ :=
  forN nn (fun i M =>
    let norm := if spaceVary then wt i * J i / J i ^ ((1 : ℝ) / dim) else wt i * J i
    forN ns (fun k M => fun r c => if r = i + k * nn ∧ c = i + k * nn then norm else M r c) M)
    (fun _ _ => 0)

end Verif.FlowSetup
