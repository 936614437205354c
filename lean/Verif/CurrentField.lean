import Verif.Loads
import Verif.SourceFields

/-!
# The current density field built from the option `current`

`CurrentDensityCoefficient` and `CurrentDensityCoefficient2D` of `src/physics/electromagnetics/current_source_functions.cpp`:
the attribute map their constructors build, what `Eval` returns on an element after any number of `setInputs`, and the reverse
pass of the two-dimensional one.  MFEM's `ProductCoefficient`, `ScalarVectorProductCoefficient` (the product of the two values)
and, for the reverse pass, the fork's `EvalRevDiff` of a product with a constant and of a `FunctionCoefficient` are taken from
their documentation.
-/

namespace Verif.CurrentField

open Verif.Source Verif.Loads Verif.Dense

/-- A point of the plane, current_source_functions.cpp:213-229. -/
abbrev V2 := Fin 2 → ℝ

/-- The keys below a current group, two-dimensional case, and the function each one selects:
current_source_functions.cpp:1058-1145; `box1_current2D`, `box2_current2D`: 212-228. -/
noncomputable def dir2 : String → Option (V2 → ℝ)
  | "z" => some fun _ => 1
  | "-z" => some fun _ => -1
  | "box1" => some fun x => -6 * (x 1 - 0.5)
  | "box2" => some fun x => 6 * (x 1 - 0.5)
  | _ => none

/-- The reverse functions: those of `z` and `-z` are empty lambdas, so they leave `x_bar` as the caller supplied it
(current_source_functions.cpp:1067-1069, 1088-1090); `box1CurrentSource2DRevDiff` and `box2CurrentSource2DRevDiff` overwrite it
with the gradient Adept computes (current_source_functions.cpp:562-584, 594-616). -/
def dir2Rev (xbar0 : V2) (src : String) (b : ℝ) : V2 :=
  match src with
  | "box1" => ![0, -6 * b]
  | "box2" => ![0, 6 * b]
  | _ => xbar0

/-- The keys of the option object (`current_options.items()`), which become the groups: current_source_functions.cpp:720-726, 1050-1056. -/
def groupNames (o : Groups) : List String := o.map (·.1)

/-- Does some group have a stator winding, current_source_functions.cpp:730, 765. -/
def hasStator (o : Groups) : Bool := o.any fun e => e.2.any fun s => s.1 = "cwStator" || s.1 = "ccwStator"

/-- The coefficient: the densities of the groups, and which (group, source) each attribute has; current_source_functions.hpp:46-56, 88-98. -/
structure CurCoeff where
  den : Density ℝ
  attrs : AttrMap

/-- Constructor of `CurrentDensityCoefficient`, current_source_functions.cpp:714-982.  `none`: `addCoefficient` aborts. -/
noncomputable def new3 (o : Groups) : Option CurCoeff :=
  (addGroups (fun s => (currentDir 24 0.345 s).isSome) o []).map fun m => ⟨Density.new (groupNames o) (hasStator o) 24 0.345, m⟩

/-- Constructor of `CurrentDensityCoefficient2D`, current_source_functions.cpp:1046-1148. -/
noncomputable def new2 (o : Groups) : Option CurCoeff :=
  (addGroups (fun s => (dir2 s).isSome) o []).map fun m => ⟨Density.new (groupNames o) false 0 0, m⟩

/-- A sequence of calls of `setInputs`; the result of each is dropped.  A call that throws ends the sequence (`none`).
current_source_functions.cpp:673-697, 1008-1032. -/
noncomputable def CurCoeff.run (c : CurCoeff) : List (Inputs.Inputs ℝ) → Option CurCoeff
  | [] => some c
  | i :: rest => match c.den.setInputs i with
    | (d, _, true) => run { c with den := d } rest
    | _ => none

/-- `CurrentDensityCoefficient::Eval` on an element with attribute `a` at the point `x`, current_source_functions.cpp:699-704,
coefficient.cpp:1801-1823.  Only for the sources that do not read the stator parameters (`Loads.lean`). -/
noncomputable def CurCoeff.eval3 (c : CurCoeff) (a : ℤ) (x : V3) : Option V3 :=
  match find c.attrs a with
  | none => some 0
  | some (grp, src) => ((currentDir 24 0.345 src).bind fun f => f x).map fun d i => c.den.g grp * d i

/-- `CurrentDensityCoefficient2D::Eval`, current_source_functions.cpp:1034-1038, coefficient.cpp:90-112. -/
noncomputable def CurCoeff.eval2 (c : CurCoeff) (a : ℤ) (x : V2) : ℝ :=
  -1 * (match find c.attrs a with
    | none => 0
    | some (grp, src) => match dir2 src with
      | none => 0
      | some f => c.den.g grp * f x)

variable {n : ℕ}

/-- The point of the element with nodes `P` and shape functions `N` (MFEM's `Transform`), current_source_functions.cpp:1040-1046. -/
def pointAt (P : Fin 2 → Fin n → ℝ) (N : Fin n → ℝ) : V2 := fun i => ∑ k, P i k * N k

/-- `CurrentDensityCoefficient2D::EvalRevDiff`: what it adds to `PointMat_bar`, current_source_functions.cpp:1040-1048,
coefficient.cpp (`MeshDependentCoefficient::EvalRevDiff`, which leaves it alone for an attribute that is not in the map). -/
noncomputable def CurCoeff.rev2 (c : CurCoeff) (xbar0 : V2) (a : ℤ) (N : Fin n → ℝ) (qbar : ℝ) : Fin 2 → Fin n → ℝ :=
  match find c.attrs a with
  | none => fun _ _ => 0
  | some (grp, src) => fun i k => dir2Rev xbar0 src (qbar * -1 * c.den.g grp) i * N k

end Verif.CurrentField
