/-!
# JSON options and `merge_patch` (`src/common/abstract_solver.cpp:22-33`, `src/physics/pde_solver.cpp:350-370`)

`AbstractSolver2`'s constructor sets `options = default_options` and calls
`options.merge_patch(solver_options)`; `getMaterials` calls
`materials[name].merge_patch(material)`.  `nlohmann::json` is a dependency (not in /repo); its
`merge_patch` is the RFC 7386 algorithm and is modelled here.  Object keys are unique in
`nlohmann::json`; this is the predicate `WF`.
-/

namespace Verif.Options

mutual
/-- A JSON document; every value that is neither `null` nor an object is a `leaf`
(numbers, strings, booleans, arrays: `merge_patch` treats them alike).
abstract_solver.cpp:22-33. -/
inductive Json
  | null
  | leaf (s : String)
  | obj (f : Fields)
/-- The members of an object. abstract_solver.cpp:22-33. -/
inductive Fields
  | nil
  | cons (k : String) (v : Json) (rest : Fields)
end

/-- Value of the first member with that key: lookup in the merged options of
abstract_solver.cpp:22-33. -/
def Fields.get : Fields → String → Option Json
  | .nil, _ => none
  | .cons k v r, x => if k = x then some v else r.get x

/-- `operator[](key) = v`. abstract_solver.cpp:29-32. -/
def Fields.put : Fields → String → Json → Fields
  | .nil, x, w => .cons x w .nil
  | .cons k v r, x, w => if k = x then .cons k w r else .cons k v (r.put x w)

/-- `erase(key)`. abstract_solver.cpp:29-32. -/
def Fields.erase : Fields → String → Fields
  | .nil, _ => .nil
  | .cons k v r, x => if k = x then r.erase x else .cons k v (r.erase x)

/-- Members if an object, else the empty object (`if (!is_object()) *this = object()`).
abstract_solver.cpp:29-32. -/
def Json.members : Json → Fields
  | .obj f => f
  | _ => .nil

/-- `value().is_null()`. abstract_solver.cpp:29-32. -/
def Json.isNull : Json → Bool
  | .null => true
  | _ => false

mutual
/-- `target.merge_patch(patch)` (nlohmann, used at `abstract_solver.cpp:32`, `pde_solver.cpp:362`). -/
def merge : Json → Json → Json
  | t, .obj ps => .obj (mergeFields t.members ps)
  | _, .null => .null
  | _, .leaf s => .leaf s
/-- The loop over the members of the patch inside `merge_patch`: called from
abstract_solver.cpp:32, pde_solver.cpp:362. -/
def mergeFields : Fields → Fields → Fields
  | l, .nil => l
  | l, .cons k v ps =>
    mergeFields (if v.isNull then l.erase k else l.put k (merge ((l.get k).getD .null) v)) ps
end

/-- The options a solver works with (`abstract_solver.cpp:29-32`). -/
def solverOptions (defaults user : Json) : Json := merge defaults user

/-- Keys of an object, in order; used to say that keys are unique: abstract_solver.cpp:22-33. -/
def Fields.keys : Fields → List String
  | .nil => []
  | .cons k _ r => k :: r.keys

mutual
/-- Keys are unique in every object. abstract_solver.cpp:22-33. -/
inductive Json.WF : Json → Prop
  | null : Json.WF .null
  | leaf (s : String) : Json.WF (.leaf s)
  | obj (f : Fields) : Fields.WF f → Json.WF (.obj f)
/-- Keys are unique in an object and in every nested one: abstract_solver.cpp:22-33. -/
inductive Fields.WF : Fields → Prop
  | nil : Fields.WF .nil
  | cons (k : String) (v : Json) (r : Fields) : k ∉ r.keys → Json.WF v → Fields.WF r →
      Fields.WF (.cons k v r)
end

end Verif.Options
