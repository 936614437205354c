/-
Model of the creation and the options of the outputs of the magnetostatic and the thermal solver:
`MagnetostaticSolver::addOutput` (src/physics/electromagnetics/magnetostatic.cpp:54-66, 162-490),
`ThermalSolver::addOutput` (src/physics/thermal/thermal.cpp:53-104), the force and torque functionals
(src/physics/electromagnetics/electromag_outputs.cpp:24-82, electromag_outputs.hpp:71-170) and the
entry points `createOutput`, `setOutputOptions`, `calcOutput` (src/common/abstract_solver.cpp:229-303).

Simplifications: an options object is the record of the keys these functions read; the virtual
displacement field is represented by the options it was projected from; the numbers computed by the
integrators are parameters (`Env`).  Inputs named like a virtual displacement field are not considered.
-/
import Mathlib.Data.Real.Basic
import Verif.Losses

namespace Verif.EMOutputs
open Verif.Losses (startsWith)

/-- The branches of `MagnetostaticSolver::addOutput`, magnetostatic.cpp:166-391. -/
inductive Kind
  | energy | force | torque | fluxDensity | fluxMagnitude | averageFluxMagnitude | maxFluxMagnitude | maxState
  | dcLoss | acLoss | coreLoss | mass | volume | heatSource
  deriving DecidableEq, Repr

/-- The chain of tests on the name, magnetostatic.cpp:166-490; `none` is the exception at its end. -/
def classify (f : String) : Option Kind :=
  if startsWith f "energy" then some .energy
  else if startsWith f "force" then some .force
  else if startsWith f "torque" then some .torque
  else if startsWith f "flux_density" then some .fluxDensity
  else if startsWith f "flux_magnitude" then some .fluxMagnitude
  else if startsWith f "average_flux_magnitude" then some .averageFluxMagnitude
  else if startsWith f "max_flux_magnitude" then some .maxFluxMagnitude
  else if startsWith f "max_state" then some .maxState
  else if startsWith f "dc_loss" then some .dcLoss
  else if startsWith f "ac_loss" then some .acLoss
  else if startsWith f "core_loss" then some .coreLoss
  else if startsWith f "mass" then some .mass
  else if startsWith f "volume" then some .volume
  else if startsWith f "heat_source" then some .heatSource
  else none

/-- The branches of `ThermalSolver::addOutput`, thermal.cpp:56-97. -/
inductive TKind
  | thermalFlux | maxState | averageState
  deriving DecidableEq, Repr

/-- The chain of tests on the name, thermal.cpp:56-103. -/
def classifyT (f : String) : Option TKind :=
  if startsWith f "thermal_flux" then some .thermalFlux
  else if startsWith f "max_state" then some .maxState
  else if startsWith f "average_state" then some .averageState
  else none

/-- The keys of the options that are read, electromag_outputs.cpp:26-27, 42-44, electromag_outputs.hpp:151-155,
magnetostatic.cpp:281. -/
structure Opts where
  attributes : Option (List ℤ) := none
  axis : Option (List ℝ) := none
  about : Option (List ℝ) := none
  air : Option (List ℤ) := none
  state : Option String := none

/-- What a field holds, as far as it matters here: `zero` after creation, the projected rigid translation
or rotation of the given attributes, or data of another kind.  electromag_outputs.cpp:29-38, 46-81. -/
inductive Content
  | zero
  | translation (attrs : List ℤ) (axis : List ℝ)
  | rotation (attrs : List ℤ) (axis about : List ℝ)
  | other

/-- A constructed output: its class, the attributes stored in the integrator of a force or torque, the
elements it is restricted to, and the options of the other classes.  electromag_outputs.hpp:80-84, 149-167. -/
structure Out where
  kind : Kind
  attrs : List ℤ := []
  air : Option (List ℤ) := none
  opts : Opts := {}

/-- The solver: the fields, the outputs, and the attributes listed under `current` (a list of sources for
each group).  abstract_solver.hpp, pde_solver.hpp; magnetostatic.cpp:54-66. -/
structure Solver where
  fields : String → Option Content
  outputs : String → Option Out
  current : List (List (List ℤ))

/-- How a call ends: `missing` is the access to an absent key of constant options (an assertion of the
JSON library, or a type error).  abstract_solver.cpp:229-283. -/
inductive Outcome
  | ok | misoException | outOfRange | missing
  deriving DecidableEq, Repr

/-- `m.emplace(k, v)`: keeps an existing value.  magnetostatic.cpp:185-187. -/
def emplace {α : Type} (m : String → Option α) (k : String) (v : α) : String → Option α := fun x =>
  if x = k then some ((m k).getD v) else m x

/-- Assignment to an existing entry.  electromag_outputs.cpp:33-38. -/
def put {α : Type} (m : String → Option α) (k : String) (v : α) : String → Option α := fun x =>
  if x = k then some v else m x

/-- `getCurrentAttributes`, magnetostatic.cpp:54-66. -/
def currentAttributes (s : Solver) : List ℤ :=
  s.current.foldl (fun acc group => group.foldl (fun acc attrs => acc ++ attrs) acc) []

/-- `setOptions(ForceFunctional&, ..)`, electromag_outputs.cpp:24-39. -/
def setOptionsForce (s : Solver) (o : Opts) : Solver × Outcome :=
  match o.attributes with
  | none => (s, .missing)
  | some attrs =>
    match o.axis with
    | none => (s, .missing)
    | some axis =>
      match s.fields "vforce" with
      | none => (s, .outOfRange)
      | some _ => ({ s with fields := put s.fields "vforce" (.translation attrs axis) }, .ok)

/-- `setOptions(TorqueFunctional&, ..)`, electromag_outputs.cpp:41-82. -/
def setOptionsTorque (s : Solver) (o : Opts) : Solver × Outcome :=
  match o.attributes with
  | none => (s, .missing)
  | some attrs =>
    match o.axis with
    | none => (s, .missing)
    | some axis =>
      match o.about with
      | none => (s, .missing)
      | some about =>
        match s.fields "vtorque" with
        | none => (s, .outOfRange)
        | some _ => ({ s with fields := put s.fields "vtorque" (.rotation attrs axis about) }, .ok)

/-- `MagnetostaticSolver::addOutput`, magnetostatic.cpp:162-490. -/
def addOutput (s : Solver) (f : String) (o : Opts) : Solver × Outcome :=
  match classify f with
  | none => (s, .misoException)
  | some .force =>
    let s := { s with fields := emplace s.fields ("v" ++ f) .zero }
    match setOptionsForce s o with
    | (s, .ok) => ({ s with outputs := emplace s.outputs f { kind := .force, attrs := o.attributes.getD [] } }, .ok)
    | (s, e) => (s, e)
  | some .torque =>
    let s := { s with fields := emplace s.fields ("v" ++ f) .zero }
    match setOptionsTorque s o with
    | (s, .ok) =>
      ({ s with outputs := emplace s.outputs f { kind := .torque, attrs := o.attributes.getD [], air := o.air } }, .ok)
    | (s, e) => (s, e)
  | some .fluxDensity =>
    ({ s with
        fields := emplace s.fields f .other
        outputs := emplace s.outputs f { kind := .fluxDensity, opts := o } }, .ok)
  | some .fluxMagnitude =>
    match s.fields f with
    | none => (s, .outOfRange)
    | some _ => ({ s with outputs := emplace s.outputs f { kind := .fluxMagnitude, opts := o } }, .ok)
  | some .maxState =>
    match o.state with
    | some name =>
      match s.fields name with
      | none => (s, .outOfRange)
      | some _ => ({ s with outputs := emplace s.outputs f { kind := .maxState, opts := o } }, .ok)
    | none => ({ s with outputs := emplace s.outputs f { kind := .maxState, opts := o } }, .ok)
  | some .dcLoss =>
    ({ s with outputs := emplace s.outputs f { kind := .dcLoss, opts := { o with attributes := some (currentAttributes s) } } },
      .ok)
  | some .acLoss =>
    ({ s with outputs := emplace s.outputs f { kind := .acLoss, opts := { o with attributes := some (currentAttributes s) } } },
      .ok)
  | some k => ({ s with outputs := emplace s.outputs f { kind := k, opts := o } }, .ok)

/-- `createOutput`, abstract_solver.cpp:235-246. -/
def createOutput (s : Solver) (f : String) (o : Opts) : Solver × Outcome :=
  match s.outputs f with
  | none => addOutput s f o
  | some _ => (s, .misoException)

/-- What is left abstract: the numbers, and how the other classes combine new options with old ones.
abstract_solver.cpp:296. -/
structure Env (I : Type) where
  force : Content → List ℤ → I → ℝ
  torque : Content → List ℤ → Option (List ℤ) → I → ℝ
  other : Kind → Opts → I → ℝ
  merge : Kind → Opts → Opts → Opts

variable {I : Type}

/-- `setOutputOptions`, abstract_solver.cpp:267-283; the integrator of a force or torque keeps the attributes it
was constructed with. -/
def setOutputOptions (E : Env I) (s : Solver) (f : String) (o : Opts) : Solver × Outcome :=
  match s.outputs f with
  | none => (s, .misoException)
  | some out =>
    match out.kind with
    | .force => setOptionsForce s o
    | .torque => setOptionsTorque s o
    | k => ({ s with outputs := put s.outputs f { out with opts := E.merge k out.opts o } }, .ok)

/-- `calcOutput`, abstract_solver.cpp:285-303, electromag_outputs.hpp:34-38, 105-109; the virtual displacement is read
when the output is evaluated.  `none` is an exception. -/
def calcOutput (E : Env I) (s : Solver) (f : String) (i : I) : Option ℝ :=
  match s.outputs f with
  | none => none
  | some out =>
    match out.kind with
    | .force => (s.fields "vforce").map fun v => E.force v out.attrs i
    | .torque => (s.fields "vtorque").map fun v => E.torque v out.attrs out.air i
    | k => some (E.other k out.opts i)

/-- Calls that change the solver's outputs. abstract_solver.cpp:229-283. -/
inductive Op
  | create (f : String) (o : Opts)
  | setOptions (f : String) (o : Opts)

/-- One call; the caller catches whatever is thrown. abstract_solver.cpp:229-283. -/
def step (E : Env I) (s : Solver) : Op → Solver
  | .create f o => (createOutput s f o).1
  | .setOptions f o => (setOutputOptions E s f o).1

/-- A history of calls. abstract_solver.cpp:229-283. -/
def run (E : Env I) (s : Solver) (h : List Op) : Solver := h.foldl (step E) s

/-- `ThermalSolver::addOutput`: the space an aggregate or average is taken over is that of the named field.
thermal.cpp:53-104. -/
def addOutputT (fields : String → Option Content) (outs : String → Option (TKind × Opts)) (f : String) (o : Opts) :
    (String → Option (TKind × Opts)) × Outcome :=
  match classifyT f with
  | none => (outs, .misoException)
  | some .thermalFlux => (emplace outs f (.thermalFlux, o), .ok)
  | some .maxState =>
    match o.state with
    | some name => if (fields name).isSome then (emplace outs f (.maxState, o), .ok) else (outs, .outOfRange)
    | none => (emplace outs f (.maxState, o), .ok)
  | some .averageState =>
    match o.state with
    | some name => if (fields name).isSome then (emplace outs f (.averageState, o), .ok) else (outs, .outOfRange)
    | none => (emplace outs f (.averageState, o), .ok)

end Verif.EMOutputs
