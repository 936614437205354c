import Mathlib.Data.Rat.Floor

/-!
# Options from Python (`miso/pyMISO/pybind11_json.hpp`, `miso/pyMISO/pdeSolver.cpp`)

Solver and output options are written in Python as nested dictionaries and turned into `nlohmann::json` by `to_json`;
`getOptions` turns them back with `from_json`.  Python objects are finite trees (a list that contains itself makes
`to_json` recurse for ever and is left out).  `nlohmann::json` keeps its keys sorted; here a new key goes to the end: only
the order of the keys of a returned dictionary could tell.
-/

namespace Verif.PyJson

/-- A C++ or Python double: the finite ones are rationals. pybind11_json.hpp:34-44, 82-85. -/
inductive Flt
  | fin (q : ℚ)
  | inf
  | ninf
  | nan

mutual
/-- A Python object as `to_json` tells them apart, pybind11_json.hpp:70-112; `seq true` is a tuple, `seq false` a list; `other` is
anything else (a NumPy array, a NumPy integer, a set, bytes, …). -/
inductive Py
  | pyNone
  | bool (b : Bool)
  | int (z : ℤ)
  | float (f : Flt)
  | str (s : String)
  | seq (tuple : Bool) (l : PyL)
  | dict (d : PyD)
  | other
/-- The items of a tuple or a list. pybind11_json.hpp:90-98. -/
inductive PyL
  | nil
  | cons (v : Py) (rest : PyL)
/-- The items of a dictionary in insertion order; only the text `str(key)` of a key is kept. pybind11_json.hpp:99-107. -/
inductive PyD
  | nil
  | cons (key : String) (v : Py) (rest : PyD)
end

mutual
/-- `nlohmann::json`. pybind11_json.hpp:24-112. -/
inductive Json
  | null
  | bool (b : Bool)
  | int (z : ℤ)
  | float (f : Flt)
  | str (s : String)
  | arr (l : JL)
  | obj (o : JO)
/-- The elements of an array. pybind11_json.hpp:92-97. -/
inductive JL
  | nil
  | cons (v : Json) (rest : JL)
/-- The members of an object. pybind11_json.hpp:101-106. -/
inductive JO
  | nil
  | cons (key : String) (v : Json) (rest : JO)
end

/-- `out[key] = v` of an object, pybind11_json.hpp:104, pdeSolver.cpp:32: an existing member is overwritten. -/
def JO.set : JO → String → Json → JO
  | .nil, k, v => .cons k v .nil
  | .cons k' v' r, k, v => if k' = k then .cons k' v r else .cons k' v' (r.set k v)

/-- The member with that key. pdeSolver.cpp:33. -/
def JO.find : JO → String → Option Json
  | .nil, _ => none
  | .cons k v r, s => if k = s then some v else r.find s

/-- `obj[key] = v` of a Python dictionary, pybind11_json.hpp:63. -/
def PyD.set : PyD → String → Py → PyD
  | .nil, k, v => .cons k v .nil
  | .cons k' v' r, k, v => if k' = k then .cons k' v r else .cons k' v' (r.set k v)

/-- The integers a `long` holds (64 bits), the ones `obj.cast<long>()` accepts: pybind11_json.hpp:82. -/
def InLong (z : ℤ) : Prop := -(2 ^ 63) ≤ z ∧ z < 2 ^ 63

/-- Decided by comparing: pybind11_json.hpp:82. -/
instance (z : ℤ) : Decidable (InLong z) := by unfold InLong; infer_instance

mutual
/-- `to_json`, pybind11_json.hpp:70-112; `none`: it throws. -/
def toJson : Py → Option Json
  | .pyNone => some .null
  | .bool b => some (.bool b)
  | .int z => if InLong z then some (.int z) else none
  | .float f => some (.float f)
  | .str s => some (.str s)
  | .seq _ l => (toJsonL l).map .arr
  | .dict d => (toJsonD d .nil).map .obj
  | .other => none
/-- The loop over the items of a tuple or list, pybind11_json.hpp:92-97. -/
def toJsonL : PyL → Option JL
  | .nil => some .nil
  | .cons v r => match toJson v with
    | none => none
    | some j => (toJsonL r).map (.cons j)
/-- The loop over the keys of a dictionary, pybind11_json.hpp:101-106; `out` is the object so far. -/
def toJsonD : PyD → JO → Option JO
  | .nil, out => some out
  | .cons k v r, out => match toJson v with
    | none => none
    | some j => toJsonD r (out.set k j)
end

/-- The number branch of `from_json` for a double, pybind11_json.hpp:34-44: a value equal to its floor is read as a `long`; `none`: that
conversion is undefined behaviour (the value does not fit). -/
def fromFlt : Flt → Option Py
  | .fin q => if q = (⌊q⌋ : ℤ) then (if InLong ⌊q⌋ then some (.int ⌊q⌋) else none) else some (.float (.fin q))
  | .inf => none
  | .ninf => none
  | .nan => some (.float .nan)

mutual
/-- `from_json`, pybind11_json.hpp:24-68; `none`: undefined behaviour. -/
def fromJson : Json → Option Py
  | .null => some .pyNone
  | .bool b => some (.bool b)
  | .int z => some (.int z)
  | .float f => fromFlt f
  | .str s => some (.str s)
  | .arr l => (fromJsonL l).map (.seq false)
  | .obj o => (fromJsonO o .nil).map .dict
/-- The loop over the elements of an array, pybind11_json.hpp:51-55. -/
def fromJsonL : JL → Option PyL
  | .nil => some .nil
  | .cons j r => match fromJson j with
    | none => none
    | some v => (fromJsonL r).map (.cons v)
/-- The loop over the members of an object, pybind11_json.hpp:60-64; `out` is the dictionary so far. -/
def fromJsonO : JO → PyD → Option PyD
  | .nil, out => some out
  | .cons k j r, out => match fromJson j with
    | none => none
    | some v => fromJsonO r (out.set k v)
end

/-! ### `PDESolver(type, solver_options)` -/

/-- The two solvers Python can build, pdeSolver.cpp:35-43. -/
inductive Kind
  | magnetostatic
  | thermal
  deriving DecidableEq

/-- How a call of the constructor ends: `typeError` when no overload accepts the arguments, `raised` when the chosen one throws,
else the class of solver and the options its constructor gets. pdeSolver.cpp:28-97. -/
inductive Made
  | typeError
  | raised
  | made (k : Kind) (options : Json)

/-- `solver_options["solver-type"] = solver_type`, pdeSolver.cpp:32: `operator[]` turns `null` into an object and throws for anything
but an object. -/
def putType (options type : Json) : Option Json :=
  match options with
  | .null => some (.obj (JO.nil.set "solver-type" type))
  | .obj o => some (.obj (o.set "solver-type" type))
  | _ => none

/-- `solver_type["type"].get<std::string>()`, pdeSolver.cpp:33; `none`: throws. -/
def typeName : Json → Option String
  | .obj o => match o.find "type" with
    | some (.str s) => some s
    | _ => none
  | _ => none

/-- `initSolver` with a dictionary, pdeSolver.cpp:28-50. -/
def initSolver (type options : Json) : Made :=
  match putType options type with
  | none => .raised
  | some opts => match typeName type with
    | none => .raised
    | some s =>
      if s = "magnetostatic" then .made .magnetostatic opts
      else if s = "thermal" then .made .thermal opts
      else .raised

/-- `PDESolver(type, solver_options)`, pdeSolver.cpp:56-62, 75-97: a string `type` is wrapped in a dictionary by the first overload, anything
else goes to the second; the conversion of an argument that throws makes an overload unusable (pybind11_json.hpp:175-186). -/
def pdeSolver (type options : Py) : Made :=
  match toJson options with
  | none => .typeError
  | some opts => match type with
    | .str s => initSolver (.obj (.cons "type" (.str s) .nil)) opts
    | t => match toJson t with
      | none => .typeError
      | some tj => initSolver tj opts

end Verif.PyJson
