import Mathlib.Data.Int.Notation
import Mathlib.Data.List.Basic

/-!
# Attribute markers (`src/utils/utils.cpp:99-138`)
-/

namespace Verif.Boundary

/-- A JSON value as far as `getMFEMBoundaryArray` distinguishes them.  An array element is a number or boolean,
which `get<std::vector<int>>` converts to `int` (`some`; fractions are truncated by nlohmann), or
anything else, on which it throws (`none`). utils.cpp:99-128. -/
inductive Json
  | str (s : String)
  | arr (l : List (Option ℤ))
  | other
  deriving DecidableEq

/-- How `getMFEMBoundaryArray` can end: utils.cpp:99-128. -/
inductive Res
  | ok (a : List ℤ)
  /-- `MISOException`; carries the array left behind -/
  | misoException (a : List ℤ)
  /-- `nlohmann::json::type_error` -/
  | typeError (a : List ℤ)
  /-- out-of-bounds write -/
  | ub
  deriving DecidableEq

/-- The loop of `attrVecToArray` (`utils.cpp:134-137`): `attributes[attr - 1] = 1`. -/
def setAttrs : List ℤ → List ℤ → Res
  | [], a => .ok a
  | x :: xs, a =>
    if 1 ≤ x ∧ x ≤ a.length then setAttrs xs (a.set (x - 1).toNat 1) else .ub

/-- `attrVecToArray` (`utils.cpp:130-138`). -/
def attrVecToArray (attrs : List ℤ) (a : List ℤ) : Res := setAttrs attrs (a.map fun _ => 0)

/-- `getMFEMBoundaryArray` (`utils.cpp:99-128`). -/
def getMFEMBoundaryArray (b : Json) (a : List ℤ) : Res :=
  let z := a.map fun _ => (0 : ℤ)
  match b with
  | .str s => if s = "all" then .ok (z.map fun _ => 1) else if s = "none" then .ok (z.map fun _ => 0)
      else .misoException z
  | .arr l => match l.mapM id with
    | some attrs => attrVecToArray attrs z
    | none => .typeError z
  | .other => .misoException z

end Verif.Boundary
