import Mathlib.Data.Nat.Notation

/-!
# Python functions as states and exact solutions (`miso/pyMISO/misoSolver.cpp:45-137`)

`setState` and `calcStateError` of the Python module each have several overloads that differ only in the C++ function type they take.
pybind11 tries them in order, first without and then with implicit conversions; its `std::function` caster accepts every callable Python
object, whatever its parameters (and `None`, as an empty function, when conversions are allowed).  The field is scalar and nodal (H1 or L2): projecting a
function means evaluating it at the nodes.
-/

namespace Verif.PyFunctions

variable {K : Type}

/-- An argument of a call from C++ to Python: a NumPy array with a copy of the coordinates (misoSolver.cpp:68-72) or a wrapped
`mfem::Vector` (misoSolver.cpp:83-92, 102-131). -/
inductive Arg (K : Type)
  | array (x : List K)
  | vector (x : List K)

/-- What calling a Python function ends with: a number, an object that is no number, or an exception. misoSolver.cpp:73. -/
inductive PyRes (K : Type)
  | number (y : K)
  | object
  | raises

/-- What is passed as `fun` or `ex_sol`: a callable, `None`, or anything else. misoSolver.cpp:60-137. -/
inductive PyObj (K : Type)
  | callable (f : List (Arg K) → PyRes K)
  | pyNone
  | other

/-- The `std::function` made by the caster: `none` is the empty one. misoSolver.cpp:60-137. -/
abbrev CppFn (K : Type) := Option (List (Arg K) → PyRes K)

/-- pybind11's `std::function` caster (`pybind11/functional.h`, included at misoSolver.cpp:6). -/
def fnCaster (convert : Bool) : PyObj K → Option (CppFn K)
  | .callable f => some (some f)
  | .pyNone => if convert then some none else none
  | .other => none

/-- pybind11's choice among `count` overloads that all take a function, an array and a name; `exact`: the array needs no conversion.  The result is the
position of the overload and the function it gets. misoSolver.cpp:60-137. -/
def pick (count : ℕ) (exact : Bool) (o : PyObj K) : Option (ℕ × CppFn K) :=
  let attempt (convert : Bool) : Option (ℕ × CppFn K) :=
    ((List.range count).filterMap fun i =>
      if exact || convert then (fnCaster convert o).map fun f => (i, f) else none).head?
  match attempt false with
  | some r => some r
  | none => attempt true

/-- The module registers no class for `mfem::Vector`: `initVector` is commented out, pyMISO.cpp:11, 21. -/
def vectorRegistered : Bool := false

/-- Calling the function from C++: an argument of an unregistered class cannot be passed, an empty function throws. misoSolver.cpp:66-74, 83-92,
101-131, pyMISO.cpp:11. -/
def callFn (f : CppFn K) (args : List (Arg K)) : PyRes K :=
  match f with
  | none => .raises
  | some f =>
    if args.any (fun a => match a with | .vector _ => !vectorRegistered | .array _ => false) then .raises else f args

/-- How a call from Python ends. misoSolver.cpp:60-137. -/
inductive Outcome (α : Type)
  | typeError
  | raised
  | ok (a : α)

/-- The fields of the solver by name, as lists of nodal values. pde_solver.cpp:416-422. -/
abbrev FieldMap (K : Type) := String → Option (List K)

/-- `fun(py_x)` cast to a double, misoSolver.cpp:66-74; `none`: an exception. -/
def evalScalar (f : CppFn K) (x : List K) : Option K :=
  match callFn f [.array x] with
  | .number y => some y
  | _ => none

/-- `project` of a scalar function, finite_element_state.hpp:66-83: evaluate at the nodes in turn, then copy to the caller's vector. -/
def projectScalar (nodes : List (List K)) (f : CppFn K) : Option (List K) := nodes.mapM (evalScalar f)

/-- `PDESolver::setState_` with a scalar function, pde_solver.cpp:448-471: the named field, then once more for `dirichlet_bc` if the name is `state`; a
name without a field throws (`fields.at`).  Simplification: after an exception the field (not the caller's vector) may hold some of the new values; here it
keeps the old ones. -/
def setStateScalar (nodes : List (List K)) (f : CppFn K) (name : String) (s : FieldMap K × List K) : Outcome (FieldMap K × List K) :=
  match s.1 name with
  | none => .raised
  | some _ => match projectScalar nodes f with
    | none => .raised
    | some v =>
      let s1 : FieldMap K × List K := (fun g => if g = name then some v else s.1 g, v)
      if name = "state" then
        match s1.1 "dirichlet_bc" with
        | none => .raised
        | some _ => match projectScalar nodes f with
          | none => .raised
          | some w => .ok (fun g => if g = "dirichlet_bc" then some w else s1.1 g, w)
      else .ok s1

/-- `setState` from Python, misoSolver.cpp:58-97: two overloads, a scalar function of the coordinates as an array, and a function of a point and of the vector to
fill.  (A caller's array that is not one of doubles is converted and the result lost: C170; here `exact` only steers the choice.) -/
def setState (nodes : List (List K)) (exact : Bool) (o : PyObj K) (name : String) (s : FieldMap K × List K) : Outcome (FieldMap K × List K) :=
  match pick 2 exact o with
  | none => .typeError
  | some (0, f) => setStateScalar nodes f name s
  | some (_, f) => match callFn f [.vector [], .vector []] with
    | .raises => .raised
    | _ => .ok s

/-- `calcStateError` from Python, misoSolver.cpp:99-137, abstract_solver.cpp:53-66: three overloads, the first with a function that fills a vector; the base class
calls it at once with the work vector.  `norm` is the value returned if that call came back. -/
def calcStateError (exact : Bool) (o : PyObj K) (state : List K) (norm : List K → K) : Outcome (Option K) :=
  match pick 3 exact o with
  | none => .typeError
  | some (0, f) => match callFn f [.vector state] with
    | .raises => .raised
    | _ => .ok (some (norm state))
  | some (_, f) => match callFn f [.vector []] with
    | .raises => .raised
    | _ => .ok none

end Verif.PyFunctions
