import Verif.Inputs
import Mathlib.Algebra.Ring.Defs
import Mathlib.Data.List.Basic

/-!
# `ThermalResidual` (`src/physics/thermal/thermal_residual.cpp`)

The heap of `Verif.Inputs` is used because the load vector aliases the caller's memory.  The nonlinear form's contribution is a parameter.
-/

namespace Verif.Thermal

open Verif.Inputs

variable {K : Type}

/-- `ThermalResidual` (`thermal_residual.hpp`): `ess` are the form's essential dofs, `load` the member vector. -/
structure Res where
  ess : List ℕ
  load : Vec

/-- `Vector::SetSubVector(dofs, 0.0)` (MFEM) through a pointer; an index outside the vector is undefined behaviour.
called from thermal_residual.cpp:19-48. -/
def setSub [Zero K] (h : Heap K) (v : Vec) : List ℕ → Out (Heap K)
  | [] => .ok h
  | i :: is =>
    match h v.data with
    | some l => if i < v.size ∧ i < l.length then setSub (wr h v.data i 0) v is else .ub
    | none => .ub

/-- `setInputs(ThermalResidual&, inputs)` (`thermal_residual.cpp:19-31`), the part concerning the load. -/
def Res.setInputs [Zero K] (h : Heap K) (r : Res) (inputs : Inputs K) (fresh : ℕ) (junk : ℕ → List K) : Out (Heap K × Res) :=
  match setVectorFromInputs h inputs "thermal_load" r.load false false fresh junk with
  | .ok (h1, v1) =>
    if v1.size ≠ 0 then
      match setSub h1 v1 r.ess with
      | .ok h2 => .ok (h2, { r with load := v1 })
      | .badVariant => .badVariant
      | .misoException => .misoException
      | .ub => .ub
    else .ok (h1, { r with load := v1 })
  | .badVariant => .badVariant
  | .misoException => .misoException
  | .ub => .ub

/-- `evaluate(ThermalResidual&, …)` (`thermal_residual.cpp:38-48`): `nl` is what the nonlinear form wrote; `res_vec.Add(-1.0, load)` if the sizes agree. -/
def Res.evaluate [Sub K] (h : Heap K) (r : Res) (nl : List K) : Out (List K) :=
  if r.load.size = nl.length then
    match h r.load.data with
    | some l => if r.load.size ≤ l.length then .ok (List.zipWith (· - ·) nl (l.take r.load.size)) else .ub
    | none => if r.load.size = 0 then .ok nl else .ub
  else .ok nl

/-- Vector `jacobianVectorProduct` (`thermal_residual.cpp:95-121`) for `wrt` starting with `"thermal_load"`: `res_dot = 0.0; res_dot.Add(-1.0, wrt_dot)`
(the essential dofs are not consulted). -/
def Res.jvpLoad [Ring K] (_r : Res) (wrtDot resDot : List K) : List K :=
  List.zipWith (fun r w => r + (-1) * w) (resDot.map fun _ => 0) wrtDot

/-- Vector `vectorJacobianProduct` (`thermal_residual.cpp:131-158`) for `wrt` starting with `"thermal_load"`. -/
def Res.vjpLoad [Ring K] (_r : Res) (resBar wrtBar : List K) : List K :=
  List.zipWith (fun w r => w + (-1) * r) (wrtBar.map fun _ => 0) resBar

end Verif.Thermal
