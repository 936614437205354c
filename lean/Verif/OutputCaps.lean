import Verif.Registry
import Verif.EMOutputs

/-!
# Which operations the outputs and residuals of a solver really have
(`src/common/miso_output.hpp`, `src/common/miso_residual.hpp`)

`MISOOutput` and `MISOResidual` forward every operation to the free function overload resolution picks for the concrete
type: an overload for exactly that type, else the function template (an exact match, so it wins over a base class's
overload), else an overload for a base class.  The templates throw `NotImplementedException`, except those of `setInputs`
and `setOptions`, which do nothing.
-/

namespace Verif.OutputCaps

open Verif.Registry (Iface Outcome Err)

/-- The concrete output types the solvers register.  magnetostatic.cpp:167-400, thermal.cpp:52-108,
flow_residual.cpp:695-812, flow_control_residual.cpp:484-506. -/
inductive Cls
  | functional | force | torque | volume | mass | stateAverage | averageCurl | ieAggregate | ieCurlAggregate
  | dcLoss | acLoss | coreLoss | curlProjection | curlMagProjection | heatSource | entropy
  deriving DecidableEq

/-- The forwarded operations, miso_output.hpp:164-219. -/
inductive Fn
  | setInputs | setOptions | calcScalar | calcVec | partialScalar | partialVec | jvpScalar | jvpVec | vjpScalar | vjpVec
  deriving DecidableEq

/-- Is there an overload for exactly this type?
functional_output.hpp:21-48 (`functional`); electromag_outputs.hpp:29-71 (`force`), 101-143 (`torque`), 229-266 (`dcLoss`),
350-368 (`acLoss`), 455-474 (`coreLoss`), 568-606 (`heatSource`); common_outputs.hpp:24-53 (`volume`), 70-107 (`mass`),
132-191 (`stateAverage`), 218-249 (`averageCurl`), 275-314 (`ieAggregate`), 335-366 (`ieCurlAggregate`);
l2_transfer_operator.hpp:203-248 (`curl…Projection`); miso_output.hpp:313-330 (`entropy`). -/
def own : Cls → Fn → Bool
  | .curlProjection, f | .curlMagProjection, f => match f with
    | .setInputs | .calcVec | .vjpVec => true
    | _ => false
  | c, f => match f with
    | .setInputs | .setOptions | .calcScalar => true
    | .calcVec => match c with | .heatSource => true | _ => false
    | .partialScalar | .partialVec => match c with
      | .functional | .force | .torque | .entropy => true
      | _ => false
    | .jvpScalar => match c with | .heatSource | .entropy => false | _ => true
    | .jvpVec => match c with | .heatSource => true | _ => false
    | .vjpScalar => match c with
      | .functional | .mass | .dcLoss | .acLoss | .coreLoss | .heatSource => true
      | _ => false
    | .vjpVec => match c with | .entropy => false | _ => true

/-- What a function template does when it is picked. miso_output.hpp:25-50, 170-227. -/
inductive Target
  | own | base | throws | nothing | illFormed
  deriving DecidableEq

/-- The function templates: miso_input.hpp:66-72, miso_output.hpp:25-49, miso_residual.hpp:56-87.  There is no template for
the scalar `calcOutput`. -/
def generic : Fn → Option Target
  | .setInputs | .setOptions => some .nothing
  | .calcScalar => none
  | _ => some .throws

/-- Overloads for a base class of the type: only the two projections derive from one (`L2TransferOperator`).
l2_transfer_operator.hpp:113-149. -/
def base : Cls → Fn → Bool
  | .curlProjection, f | .curlMagProjection, f => match f with
    | .setInputs | .calcScalar | .calcVec | .vjpVec => true
    | _ => false
  | _, _ => false

/-- C++ overload resolution for the calls in `MISOOutput::model<T>`: miso_output.hpp:160-222. -/
def resolve (c : Cls) (f : Fn) : Target :=
  if own c f then .own
  else match generic f with
    | some t => t
    | none => if base c f then .base else .illFormed

variable {O In Opt K : Type}

/-- A registered output: its type and its data. miso_output.hpp:138-229. -/
abbrev Obj (O : Type) := Cls × O

/-- `getSize`: common_outputs.hpp:19-22, 65-68, 127-130, 213-216, 270-273, 330-333; electromag_outputs.hpp:24-27, 96-99, 227,
345-348, 450-453, 563-566; l2_transfer_operator.hpp:177-186; functional_output.hpp:159.  `EntropyOutput` returns the size of
its residual, i.e. of the state vector: miso_output.hpp:309-312. -/
def size (I : Iface O In Opt K) (o : Obj O) : Int :=
  match o.1 with
  | .curlProjection | .curlMagProjection | .heatSource | .entropy => I.size o.2
  | _ => 1

/-- The interface of a registered output (`MISOOutput`), from what the classes' own overloads do (`I`) and overload resolution.
Fixed bodies: the scalar `calcOutput` of the field outputs returns NaN (electromag_outputs.hpp:584-588,
l2_transfer_operator.hpp:129-132); `EntropyOutput`'s partials are zero and do nothing, its `setInputs`/`setOptions` do nothing
(miso_output.hpp:313-330). -/
def iface [Zero K] (nan : K) (mk : String → Opt → Outcome (Obj O)) (I : Iface O In Opt K) : Iface (Obj O) In Opt K where
  make := mk
  size := size I
  setInputs o i := match resolve o.1 .setInputs with
    | .own => if o.1 = .entropy then (o, none) else let r := I.setInputs o.2 i; ((o.1, r.1), r.2)
    | _ => (o, none)
  setOptions o opt := match resolve o.1 .setOptions with
    | .own => if o.1 = .entropy then (o, none) else let r := I.setOptions o.2 opt; ((o.1, r.1), r.2)
    | _ => (o, none)
  calcScalar o i := match resolve o.1 .calcScalar with
    | .own => if o.1 = .heatSource then (o, .ok nan) else let r := I.calcScalar o.2 i; ((o.1, r.1), r.2)
    | _ => (o, .ok nan)
  calcVec o i v := match resolve o.1 .calcVec with
    | .own => let r := I.calcVec o.2 i v; ((o.1, r.1), r.2)
    | _ => (o, v, some .other)
  partialScalar o w i := match resolve o.1 .partialScalar with
    | .own => if o.1 = .entropy then (o, .ok 0) else let r := I.partialScalar o.2 w i; ((o.1, r.1), r.2)
    | _ => (o, .throws .other)
  partialVec o w i v := match resolve o.1 .partialVec with
    | .own => if o.1 = .entropy then (o, v, none) else let r := I.partialVec o.2 w i v; ((o.1, r.1), r.2)
    | _ => (o, v, some .other)
  jvpScalar o d w := match resolve o.1 .jvpScalar with
    | .own => let r := I.jvpScalar o.2 d w; ((o.1, r.1), r.2)
    | _ => (o, .throws .other)
  jvpVec o d w v := match resolve o.1 .jvpVec with
    | .own => let r := I.jvpVec o.2 d w v; ((o.1, r.1), r.2)
    | _ => (o, v, some .other)
  vjpScalar o b w := match resolve o.1 .vjpScalar with
    | .own => let r := I.vjpScalar o.2 b w; ((o.1, r.1), r.2)
    | _ => (o, .throws .other)
  vjpVec o b w v := match resolve o.1 .vjpVec with
    | .own => let r := I.vjpVec o.2 b w v; ((o.1, r.1), r.2)
    | _ => (o, v, some .other)

/-- Type of the output a magnetostatic solver registers for each kind of name: magnetostatic.cpp:171-383. -/
def clsM : EMOutputs.Kind → Cls
  | .energy => .functional
  | .force => .force
  | .torque => .torque
  | .fluxDensity => .curlProjection
  | .fluxMagnitude => .curlMagProjection
  | .averageFluxMagnitude => .averageCurl
  | .maxFluxMagnitude => .ieCurlAggregate
  | .maxState => .ieAggregate
  | .dcLoss => .dcLoss
  | .acLoss => .acLoss
  | .coreLoss => .coreLoss
  | .mass => .mass
  | .volume => .volume
  | .heatSource => .heatSource

/-- The same for a thermal solver: thermal.cpp:55-101. -/
def clsT : EMOutputs.TKind → Cls
  | .thermalFlux => .functional
  | .maxState => .ieAggregate
  | .averageState => .stateAverage

/-- The same for the flow and flow-control solvers, where names are compared exactly: flow_residual.cpp:699-806,
flow_control_residual.cpp:488-497. -/
def clsFlow (f : String) : Option Cls :=
  if f = "drag" then some .functional
  else if f = "lift" then some .functional
  else if f = "entropy" then some .entropy
  else if f = "boundary-entropy" then some .functional
  else if f = "far-field-supply-rate" then some .functional
  else none

/-! ## Residuals -/

/-- The residuals behind the solvers, with whether the solver has an ODE integrator (`ode`): magnetostatic.cpp:70-110,
thermal.cpp:20-41, mesh_warper.cpp:225-304, flow_solver.cpp:54-74, flow_control_solver.cpp:140-165. -/
inductive Phys
  | magnetostatic | thermal | meshWarper | flow | flowControl
  deriving DecidableEq

/-- `ode` is set by the two flow solvers only: flow_solver.cpp:73, flow_control_solver.cpp:160. -/
def hasOde : Phys → Bool
  | .flow | .flowControl => true
  | _ => false

/-- The operations of `MISOResidual` used by the sensitivity analysis: miso_residual.hpp:12-87. -/
inductive RFn
  | linearize | setUpAdjointSystem | jvpScalar | jvpVec | vjpScalar | vjpVec
  deriving DecidableEq

/-- Overloads for exactly the type: magnetostatic_residual.hpp:37-76, thermal_residual.hpp:33-72, mesh_warper.cpp:29-62;
flow_residual.hpp:200-325 and flow_control_residual.hpp:155-250 have none of them. -/
def ownR : Phys → RFn → Bool
  | .magnetostatic, _ | .thermal, _ | .meshWarper, _ => true
  | .flow, _ | .flowControl, _ => false

/-- How a call ends: the residual's own code runs, or an exception of one of the two types.
utils.hpp:37-80. -/
inductive End
  | runs | notImplemented | misoException
  deriving DecidableEq

/-- `linearize`, `jacobianVectorProduct`, `vectorJacobianProduct` and `solveForAdjoint` of a solver:
abstract_solver.cpp:133-178, 438-520, with the templates of miso_residual.hpp:12-87. -/
def call (p : Phys) (f : RFn) : End :=
  if hasOde p then .misoException
  else if ownR p f then .runs else .notImplemented

/-- The Python exception a caller sees (`none`: no exception from the dispatch): exceptions.cpp:8-12; other C++ exceptions
become `RuntimeError`. -/
def pyError : End → Option String
  | .runs => none
  | .notImplemented => some "NotImplementedError"
  | .misoException => some "RuntimeError"

end Verif.OutputCaps
