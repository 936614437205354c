import Verif.Control

/-!
# The coupled flow–control residual and its solver
(`src/physics/fluidflow/flow_control_residual.cpp`, `flow_control_solver.cpp`)

The controller is `Verif.Control.Ctrl`.  The flow discipline is abstract (its integrators are modelled in
`EulerInteg`/`ViscousInteg`): `S` is a flow state vector, `R` a flow residual vector; a read past the end of the
actuator position vector is `none`.  Actuator positions are lists of coordinates; the model copies them, whereas the
code keeps a pointer into the caller's vector (the aliasing is the subject of `Inputs`).
-/

namespace Verif.FlowControl

open Verif.Control

variable {K : Type} [Field K] [LinearOrder K]

/-- What the flow residual and its two outputs compute, as functions of the parameters their integrators hold
(`ControlBC`: control value and actuator position, euler_integ.hpp:593-606; `BoundaryEntropy`: actuator position,
euler_integ.hpp:920-930).  flow_residual.cpp:420-459, 789-815. -/
structure FlowOps (K S R : Type) where
  boundaryEntropy : List K → S → Option K
  residual : K → List K → S → Option R
  entropy : S → K
  entropyChange : K → List K → K → S → Option K
  supplyRate : S → K
  jacobian : K → List K → S → Option (S → R)

/-- State of a `FlowControlResidual` (flow_control_residual.hpp:285-310): the controller, the member `x_actuator`,
the control value and position held by the control boundary integrator, and the position held by the boundary-entropy
integrator. -/
structure Obj (K : Type) where
  ctrl : Ctrl K
  xAct : List K
  bcControl : K
  bcX : List K
  entX : List K

/-- The object after construction: `x_actuator` is an empty vector, the integrators hold the default position
`xc = (0.5, 0)` and control value zero.  flow_control_residual.cpp:265-316, flow_residual.cpp:287-298, 789-799,
euler_integ.hpp:530-552. -/
def Obj.init (c : Ctrl K) : Obj K := ⟨c, [], 0, [1 / 2, 0], [1 / 2, 0]⟩

/-- Inputs of the coupled residual; the `"state"` and `"state_dot"` vectors are already split (`extractStates`).
flow_control_residual.cpp:317-356, 397-459. -/
structure CIn (K S : Type) where
  par : Inp K := {}
  state : Option ((K × K) × S) := none
  stateDot : Option ((K × K) × S) := none
  dt : Option K := none
  control : Option K := none
  xAct : Option (List K) := none

/-- `FlowControlResidual::setInputs_`, flow_control_residual.cpp:337-356.  Second component: the controller threw (before
the flow and `x_actuator` were updated).  The flow residual's `setInputs` hands `control` and `x-actuator` to the control
boundary integrator (flow_residual.cpp:386-391, euler_integ.hpp:593-597). -/
def Obj.setInputs {S : Type} (o : Obj K) (i : CIn K S) : Obj K × Bool :=
  let par := match i.state with
    | some s => { i.par with state := some s.1 }
    | none => { i.par with state := none }
  let r := o.ctrl.setInputs par
  if r.2 then ({ o with ctrl := r.1 }, true)
  else ({ o with ctrl := r.1, bcControl := i.control.getD o.bcControl, bcX := i.xAct.getD o.bcX,
                 xAct := i.xAct.getD o.xAct }, false)

/-- The common start of `evaluate_` and `calcEntropyChange_`: the boundary entropy for the inputs
`{state, x-actuator}` and the control velocity for `{state, boundary-entropy}`; returns (entropy, velocity).
flow_control_residual.cpp:368-375, 410-417. -/
def Obj.couple {S R : Type} (fl : FlowOps K S R) (o : Obj K) (x : K × K) (s : S) : Obj K × Option (K × K) :=
  let o1 := { o with entX := o.xAct }
  match fl.boundaryEntropy o1.entX s with
  | none => (o1, none)
  | some e =>
    let c1 := (o1.ctrl.setInputs { state := some x, bndEnt := some e }).1
    ({ o1 with ctrl := c1 }, some (e, c1.velocity))

/-- `FlowControlResidual::evaluate_`, flow_control_residual.cpp:358-380.  `none`: exception or invalid read.
Simplification: a call without `"state"` (which reuses the views left by the last call) is `none`. -/
def Obj.evaluate {S R : Type} (fl : FlowOps K S R) (o : Obj K) (i : CIn K S) : Obj K × Option ((K × K) × R) :=
  let r := o.setInputs i
  match r.2, i.state with
  | false, some (x, s) =>
    match r.1.couple fl x s with
    | (o1, none) => (o1, none)
    | (o1, some (e, vel)) =>
      -- flow_inputs = {state, x-actuator, control}
      let o2 := { o1 with bcControl := vel, bcX := o1.xAct }
      match fl.residual o2.bcControl o2.bcX s with
      | none => (o2, none)
      | some fr =>
        let c2 := (o2.ctrl.setInputs { state := some x, bndEnt := some e }).1
        ({ o2 with ctrl := c2 }, some (c2.residual, fr))
  | _, _ => (r.1, none)

/-- `FlowControlResidual::calcEntropy_`, flow_control_residual.cpp:382-394. -/
def Obj.entropy {S R : Type} (fl : FlowOps K S R) (o : Obj K) (i : CIn K S) : Obj K × Option K :=
  let r := o.setInputs i
  match r.2, i.state with
  | false, some (x, s) =>
    let c := (r.1.ctrl.setInputs { state := some x }).1
    ({ r.1 with ctrl := c }, some (fl.entropy s + c.entropy))
  | _, _ => (r.1, none)

/-- `FlowControlResidual::calcEntropyChange_`, flow_control_residual.cpp:396-433: no call of `setInputs_`; the state,
its rate, `time` and `dt` are required; the flow part gets `{state, state_dot, control, time, dt}` (no actuator
position), the controller `{state, state_dot, time, dt}`. -/
def Obj.entropyChange {S R : Type} (fl : FlowOps K S R) (o : Obj K) (i : CIn K S) : Obj K × Option K :=
  match i.state, i.stateDot, i.par.time, i.dt with
  | some (x, s), some (dx, _), some t, some dt =>
    match o.couple fl x s with
    | (o1, none) => (o1, none)
    | (o1, some (_, vel)) =>
      let o2 := { o1 with bcControl := vel }
      match fl.entropyChange o2.bcControl o2.bcX (t + dt) s with
      | none => (o2, none)
      | some fc =>
        let c := (o2.ctrl.setInputs { state := some x, time := some t }).1
        ({ o2 with ctrl := c }, some (fc + c.entropyChange dx))
  | _, _, _, _ => (o, none)

/-- `FlowControlResidual::calcSupplyRate_`, flow_control_residual.cpp:435-455. -/
def Obj.supplyRate {S R : Type} (fl : FlowOps K S R) (_o : Obj K) (i : CIn K S) : Option K :=
  match i.state, i.stateDot, i.par.time, i.dt with
  | some (_, s), some _, some _, some _ => some (fl.supplyRate s)
  | _, _, _, _ => none

/-- `FlowControlResidual::getJacobianBlock_`, flow_control_residual.cpp:457-480: block 0 is the controller's Jacobian,
block 1 the flow's (with the control value and position the boundary integrator holds after `setInputs_`). -/
def Obj.jacobianBlock {S R : Type} (fl : FlowOps K S R) (o : Obj K) (i : CIn K S) (b : ℤ) :
    Option ((K × K × K × K) ⊕ (S → R)) :=
  let r := o.setInputs i
  match r.2, i.state with
  | false, some (x, s) =>
    if b = 0 then some (.inl ((r.1.ctrl.setInputs { state := some x }).1.jacobian))
    else if b = 1 then (fl.jacobian r.1.bcControl r.1.bcX s).map .inr
    else none
  | _, _ => none

/-- Where an output of the coupled residual comes from. flow_control_residual.cpp:490-515. -/
inductive OutSrc
  /-- an output of the flow residual (applied to the flow part of the state) -/
  | flow (name : String)
  /-- the total entropy (applied to the compound state) -/
  | compound
  deriving DecidableEq

/-- `FlowControlResidual::constructOutput`, flow_control_residual.cpp:490-515 (`none`: exception). -/
def constructOutput (fun' : String) : Option OutSrc :=
  if fun' = "drag" ∨ fun' = "lift" ∨ fun' = "boundary-entropy" ∨ fun' = "far-field-supply-rate" then
    some (.flow fun')
  else if fun' = "entropy" then some .compound
  else none

/-- The consistency check that ends the constructor of `FlowControlResidual`, flow_control_residual.cpp:297-316: `true` iff
no exception.  `bcControl` is `options["bcs"]["control"]` if present, `entBdrs` the boundaries of the boundary-entropy
output. -/
def residualOk (bcControl : Option (List ℤ)) (entBdrs : List ℤ) : Bool :=
  match bcControl with
  | some m => m == entBdrs
  | none => false

/-- Options of a flow-control solver that its construction and start inspect. flow_control_solver.cpp:96-235. -/
structure SolverOpts where
  meshFile : String
  entropyState : Bool
  steady : Bool
  bcControl : Option (List ℤ)
  entBdrs : List ℤ

/-- What `constructMesh` yields, flow_control_solver.cpp:165-210. -/
inductive MeshSrc
  | given
  | file (path : String)
  | exception
  /-- `mesh->EnsureNodes()` through a null pointer -/
  | nullDeref
  deriving DecidableEq

/-- The text after the last dot (`rfind('.')`, `substr(i+1)`), `none` without a dot.
flow_control_solver.cpp:171-183. -/
def extension (f : String) : Option String :=
  if '.' ∈ f.toList then some (String.ofList (f.toList.reverse.takeWhile (· ≠ '.')).reverse) else none

/-- `FlowControlSolver::constructMesh`, flow_control_solver.cpp:165-210; `given`: a serial mesh was passed in. -/
def constructMesh (meshFile : String) (given : Bool) : MeshSrc :=
  match extension meshFile with
  | none => .exception
  | some ext => if given then .given else if ext = "mesh" then .file meshFile else .nullDeref

/-- The constructor of `FlowControlSolver<dim,entvar>` up to the construction of the residual
(flow_control_solver.cpp:96-138): `meshDim` gives the dimension of the mesh that `constructMesh` delivers.  `none`: exception
(or null dereference). -/
def construct (dim : ℕ) (entvar : Bool) (meshDim : MeshSrc → ℕ) (given : Bool) (o : SolverOpts) : Option MeshSrc :=
  let m := constructMesh o.meshFile given
  if m = .exception ∨ m = .nullDeref then none
  else if meshDim m ≠ dim then none
  else if o.entropyState ≠ entvar then none
  else if entvar = true ∧ o.steady = false then none
  else if residualOk o.bcControl o.entBdrs = false then none
  else some m

/-- The refusal at the start of a solve, `initialHook`, flow_control_solver.cpp:238-253 (`true`: continues). -/
def startOk (o : SolverOpts) : Bool := !o.steady

/-- `FlowControlSolver::setState_` with a pair of functions, flow_control_solver.cpp:212-233, on rank `rank`; `numCtrl` is the number
of control unknowns the rank owns, `controlFun` overwrites them, `project` computes the rank's flow unknowns from the flow
function. -/
def setState {α : Type} (rank numCtrl : ℕ) (controlFun : List α → List α) (project : List α → List α)
    (state : List α) : List α :=
  let parts := extractStates numCtrl state
  (if rank = 0 then controlFun parts.1 else parts.1) ++ project parts.2

end Verif.FlowControl
