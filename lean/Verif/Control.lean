import Mathlib.Algebra.Order.Field.Basic
import Mathlib.Algebra.Order.Group.Abs

/-!
# Controller residual and coupled flow-control residual
(`src/physics/fluidflow/flow_control_residual.{hpp,cpp}`)

`double` is an ordered field `K`; the rank that owns the two control variables is modelled (the other ranks hold none and receive broadcasts).
Division by zero (a zero gain) yields infinities in C++ which are not modelled; theorems that depend on it assume non-zero gains.
-/

namespace Verif.Control

variable {K : Type} [Field K] [LinearOrder K]

/-- Object state of `ControlResidual` (`flow_control_residual.hpp:107-143`); `P` holds `(P00, P01, P10, P11)`. -/
structure Ctrl (K : Type) where
  testOde : Bool
  time : K
  bndEnt : K
  x : K × K
  Kp : K
  Td : K
  Ti : K
  eta : K
  beta : K
  target : K
  closed : Bool
  P : K × K × K × K

/-- Constructor (`flow_control_residual.cpp:15-51`); the uninitialised state vector is a parameter. -/
def Ctrl.init (testOde : Bool) (x : K × K) : Ctrl K :=
  ⟨testOde, 0, 0, x, 0, 0, 0, 0, 0, 0, true, (0, 0, 0, 0)⟩

/-- The inputs the controller looks at; `none` means the key is absent.
flow_control_residual.cpp:53-109. -/
structure Inp (K : Type) where
  time : Option K := none
  bndEnt : Option K := none
  state : Option (K × K) := none
  Kp : Option K := none
  Td : Option K := none
  Ti : Option K := none
  eta : Option K := none
  beta : Option K := none
  target : Option K := none
  closedLoop : Option K := none
  P : Option (K × K × K × K) := none

/-- `numeric_limits<double>::epsilon()`. flow_control_residual.cpp:68,103. -/
def epsilon : K := 1 / 2 ^ 52

/-- `setInputs(ControlResidual)` (`flow_control_residual.cpp:53-109`).  The Boolean of the result is true iff the asymmetry exception is thrown (after everything has been stored). -/
def Ctrl.setInputs (c : Ctrl K) (i : Inp K) : Ctrl K × Bool :=
  let closedDouble := i.closedLoop.getD 1
  let c' : Ctrl K :=
    { c with
      time := i.time.getD c.time, bndEnt := i.bndEnt.getD c.bndEnt, x := i.state.getD c.x,
      Kp := i.Kp.getD c.Kp, Td := i.Td.getD c.Td, Ti := i.Ti.getD c.Ti, eta := i.eta.getD c.eta,
      beta := i.beta.getD c.beta, target := i.target.getD c.target,
      closed := if |closedDouble| < epsilon then false else true }
  match i.P with
  | none => (c', false)
  | some (p0, p1, p2, p3) => ({ c' with P := (p0, p1, p1, p3) }, decide (|p1 - p2| > 10000 * epsilon))

/-- Residual formula (`flow_control_residual.cpp:116-161`) for the stored data. -/
def Ctrl.residual (c : Ctrl K) : K × K :=
  if c.testOde then (-(5 / 100) * c.x.2, 5 / 100 * c.x.1 + c.bndEnt)
  else
    let fac := 1 / (c.beta * c.eta * c.Ti * c.Td)
    let r0 := fac * c.x.2
    let r1 := -c.x.1 + fac * (c.beta * c.Ti + c.eta * c.Td) * c.x.2
    if c.closed then
      let scaled := (c.target - c.bndEnt) * c.Kp / (c.eta * c.Ti * c.Td)
      (r0 + (1 / (c.eta * c.beta) - 1) * scaled,
       r1 + ((c.beta * c.Ti + c.eta * c.Td) / (c.eta * c.beta) - (c.Ti + c.Td)) * scaled)
    else (r0, r1)

/-- `evaluate(ControlResidual)`: new object and residual (`none`: exception from `setInputs`).
flow_control_residual.cpp:116-161. -/
def Ctrl.evaluate (c : Ctrl K) (i : Inp K) : Ctrl K × Option (K × K) :=
  let r := c.setInputs i
  (r.1, if r.2 then none else some r.1.residual)

/-- `getJacobian(ControlResidual)` (`flow_control_residual.cpp:163-194`): entries `(J00, J01, J10, J11)` for the stored data. -/
def Ctrl.jacobian (c : Ctrl K) : K × K × K × K :=
  if c.testOde then (0, -(5 / 100), 5 / 100, 0)
  else
    let fac := 1 / (c.beta * c.eta * c.Ti * c.Td)
    (0, fac, -1, fac * (c.beta * c.Ti + c.eta * c.Td))

/-- `x ↦ yᵀ P x` with the stored `P` (`DenseMatrix::InnerProduct(x, y) = yᵀ A x`).
flow_control_residual.cpp:210,233. -/
def Ctrl.innerP (c : Ctrl K) (x y : K × K) : K :=
  y.1 * (c.P.1 * x.1 + c.P.2.1 * x.2) + y.2 * (c.P.2.2.1 * x.1 + c.P.2.2.2 * x.2)

/-- `calcEntropy(ControlResidual)` (`flow_control_residual.cpp:196-215`) for the stored data. -/
def Ctrl.entropy (c : Ctrl K) : K :=
  if c.testOde then 1 / 2 * (c.x.1 * c.x.1 + c.x.2 * c.x.2) else 1 / 2 * c.innerP c.x c.x

/-- `calcEntropyChange(ControlResidual)` (`flow_control_residual.cpp:217-238`). -/
def Ctrl.entropyChange (c : Ctrl K) (dxdt : K × K) : K :=
  if c.testOde then -(c.x.1 * dxdt.1 + c.x.2 * dxdt.2) else -c.innerP c.x dxdt

/-- `getControlVelocity` after its `setInputs` (`flow_control_residual.cpp:240-264`). -/
def Ctrl.velocity (c : Ctrl K) : K :=
  if c.testOde then c.x.2
  else if c.closed then c.x.2 + c.Kp * (c.target - c.bndEnt) / c.eta else c.x.2

/-! ### Coupled residual -/

/-- The flow side, abstractly: state type `S`, residual type `R`.
flow_control_residual.cpp:317-380. -/
structure Flow (K S R : Type) where
  boundaryEntropy : S → K
  residual : S → K → R

/-- Inputs of the coupled residual: the controller's keys (its `"state"` entry already split into control and flow part, `extractStates`).
flow_control_residual.cpp:347-380. -/
structure CInp (K S : Type) where
  ctrl : Inp K
  flow : S

/-- `FlowControlResidual::evaluate_` (`flow_control_residual.cpp:347-380`): `setInputs_(inputs)`; boundary entropy of the flow state; `getControlVelocity` and `evaluate` with the inputs
`{"state", "boundary-entropy"}` only.  `x0` is the control part of the given state.  The asymmetry exception of `setInputs_` leaves the residual unevaluated. -/
def coupledEvaluate {S R : Type} (fl : Flow K S R) (c : Ctrl K) (i : CInp K S) (x0 : K × K) : Ctrl K × Option ((K × K) × R) :=
  let r := c.setInputs { i.ctrl with state := some x0 }
  if r.2 then (r.1, none)
  else
    let inner : Inp K := { state := some x0, bndEnt := some (fl.boundaryEntropy i.flow) }
    let c1 := (r.1.setInputs inner).1
    let vel := c1.velocity
    let flowRes := fl.residual i.flow vel
    let c2 := (c1.setInputs inner).1
    (c2, some (c2.residual, flowRes))

/-- `extractStates` (`flow_control_residual.cpp:317-324`) on a flat vector. -/
def extractStates {α : Type} (numControl : ℕ) (state : List α) : List α × List α :=
  (state.take numControl, state.drop numControl)

end Verif.Control
