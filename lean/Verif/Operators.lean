import Mathlib.Data.Matrix.Mul
import Mathlib.Analysis.Real.Sqrt

/-!
# Matrix-free operators and the time-dependent residual
(`src/common/matrix_operators.cpp`, `src/common/ode.cpp`, `src/common/ode.hpp`)

`double` is ℝ; vectors are `Fin n → ℝ` (square operators; the work vectors of the code are sized
accordingly).  The threshold `1e-16` of the code is kept.
-/

namespace Verif.Operators

open Matrix

/-- `mfem::Vector`: matrix_operators.cpp:39-61. -/
abbrev Vec (n : ℕ) := Fin n → ℝ

variable {n : ℕ}

/-- `zero` (`matrix_operators.cpp:42`, `matrix_operators.hpp:247`). -/
noncomputable def tiny : ℝ := 1 / 10 ^ 16

/-- `SumOfOperators::Mult` (`matrix_operators.cpp:39-61`).  `work` and `y` are the contents of the work vector and of the result
before the call; returns the new `(work, y)`. -/
noncomputable def sumMult (a b : ℝ) (A B : Vec n → Vec n) (work x y : Vec n) : Vec n × Vec n :=
  let work' := if |a| > tiny then (if |a - 1| > tiny then a • A x else A x) else work
  let y' := if |b| > tiny then (if |b - 1| > tiny then b • B x else B x) else y
  (work', y' + work')

/-- `JacobianFree::getStepSize` (`matrix_operators.cpp:164-181`): `prod` is the global inner product. -/
noncomputable def stepSize (x : Vec n) : ℝ :=
  let prod := ∑ i, x i * x i
  if prod > 1 / 10 ^ 6 then Real.sqrt ((1 / 10 ^ 10) / prod) else 1 / 10 ^ 7

/-- A `JacobianFree` object: residual, optional explicit part, scale, baseline and the residual stored at it.
matrix_operators.hpp:204-270. -/
structure JF (n : ℕ) where
  res : Vec n → Vec n
  explicit : Option (Vec n → Vec n)
  scale : ℝ
  state : Vec n
  resAtState : Vec n

/-- `setState` (`matrix_operators.cpp:73-89`): copies the baseline and evaluates the residual there. -/
def JF.setState (j : JF n) (u : Vec n) : JF n := { j with state := u, resAtState := j.res u }

/-- `setScaling` (`matrix_operators.hpp:219`). -/
def JF.setScaling (j : JF n) (s : ℝ) : JF n := { j with scale := s }

/-- `JacobianFree::Mult` (`matrix_operators.cpp:91-114`); `y` is the prior content of the result. -/
noncomputable def JF.mult (j : JF n) (x y : Vec n) : Vec n :=
  let y1 :=
    if |j.scale| > tiny then
      let eps := stepSize x
      let d := (1 / eps) • (j.res (j.state + eps • x) - j.resAtState)
      if |j.scale - 1| > tiny then j.scale • d else d
    else y
  match j.explicit with
  | some E => y1 + E x
  | none => y1

/-! ### TimeDependentResidual -/

/-- `evaluate(TimeDependentResidual)` (`ode.cpp:94-116`): `state`, `state_dot`, `dt` are the stored inputs. -/
noncomputable def tdEvaluate (R M : Vec n → Vec n) (dt : ℝ) (state stateDot : Vec n) : Vec n :=
  if dt = 0 then R state + M stateDot else R (state + dt • stateDot) + M stateDot

/-- Kinds of operator the code distinguishes by `dynamic_cast`. ode.cpp:14-48, ode.cpp:118-153. -/
inductive Kind | hypre | identity | dense | block | other
  deriving DecidableEq

/-- The pre-allocated Jacobian (`ode.hpp:77-94`): a matrix (with its content), a Jacobian-free operator, or nothing. -/
inductive Jac (n : ℕ)
  | mat (k : Kind) (C : Matrix (Fin n) (Fin n) ℝ)
  | free (j : JF n)
  | null

/-- How `getJacobian` can end: ode.cpp:118-153. -/
inductive Res (n : ℕ)
  | mat (C : Matrix (Fin n) (Fin n) ℝ)
  | free (j : JF n)
  | ub

/-- Constructor: which Jacobian is allocated for which mass matrix (`ode.hpp:67-94`).  `junk` is the uninitialised content of a new
`DenseMatrix`. -/
def allocJac (R : Vec n → Vec n) (massKind : Kind) (M : Matrix (Fin n) (Fin n) ℝ)
    (junk : Matrix (Fin n) (Fin n) ℝ) : Jac n :=
  match massKind with
  | .hypre => .mat .hypre M
  | .identity => .mat .dense junk
  | .block => .free ⟨R, some (fun x => M *ᵥ x), 1, 0, 0⟩
  | .dense | .other => .null

/-- `addJacobians(A, dt, B, C)` for a matrix-valued `C` (`ode.cpp:14-48`).  Result: new content of `C`. -/
def addJacobians (kA kB : Kind) (A : Matrix (Fin n) (Fin n) ℝ) (dt : ℝ) (B C : Matrix (Fin n) (Fin n) ℝ) :
    Matrix (Fin n) (Fin n) ℝ :=
  if kA = .hypre ∧ kB = .hypre then A + dt • B
  else if kA = .identity ∧ kB = .dense then 1 + dt • B
  else C

/-- `getJacobian(TimeDependentResidual)` (`ode.cpp:118-153`).  `J u` is the spatial Jacobian at `u`, of kind `spatialKind`. -/
noncomputable def tdJacobian (J : Vec n → Matrix (Fin n) (Fin n) ℝ) (massKind spatialKind : Kind)
    (M : Matrix (Fin n) (Fin n) ℝ) (jac : Jac n) (dt : ℝ) (state stateDot : Vec n) : Res n :=
  if dt = 0 then .mat M
  else
    let w := state + dt • stateDot
    match jac with
    | .free j => .free ((j.setScaling dt).setState w)
    | .mat _ C => .mat (addJacobians massKind spatialKind M dt (J w) C)
    | .null => .ub

end Verif.Operators
