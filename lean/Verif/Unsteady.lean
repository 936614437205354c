import Verif.NonlinearForm
import Verif.SteadySolve
import Verif.Operators
import Verif.LineSearch
import Verif.Ode

/-!
# Solving for the time derivative (`src/common/ode.cpp`, `ode.hpp`, `miso_residual.hpp`)

`FirstOrderODE::solve` stores *pointers* to the caller's `u` and `du_dt` in the space-time residual
(`setVectorFromInputs` without a deep copy) and then runs the nonlinear solver on `du_dt`.  The residual and its Jacobian
read the stored vectors, not the argument they are called with.  Memory is therefore explicit: a block is one vector.
One rank, `double` = ℝ.
-/

namespace Verif.Unsteady

open Verif.NLForm Matrix

variable {n : ℕ}

/-- Memory: the contents of the vectors involved, by block. ode.cpp:57-86. -/
abbrev Mem (n : ℕ) := ℕ → Vec n

/-- Store a vector in a block. ode.cpp:57-86. -/
def write (m : Mem n) (b : ℕ) (v : Vec n) : Mem n := fun c => if c = b then v else m c

/-- The spatial residual with its Jacobian and the mass matrix (`TimeDependentResidual::spatial_res_`, `mass_matrix_`,
ode.hpp:97-107).  Mass matrix and spatial Jacobian are both `HypreParMatrix` (or identity and dense). -/
structure Dyn (n : ℕ) where
  R : Vec n → Vec n
  J : Vec n → Mat n
  M : Mat n

/-- `TimeDependentResidual`'s stored inputs: step and the two pointers, ode.hpp:108-112. -/
structure TD where
  dt : ℝ
  state : ℕ
  dot : ℕ

/-- `setInputs(TimeDependentResidual&, inputs)`, ode.cpp:57-86, for the inputs of `FirstOrderODE::solve`. -/
def TD.setInputs (_t : TD) (dt : ℝ) (u k : ℕ) : TD := ⟨dt, u, k⟩

/-- `MISOResidual::Mult(x, r)` (miso_residual.hpp:327-331) for a space-time residual: `evaluate`, ode.cpp:94-116, looks at the
stored pointers and not at its inputs, so `x` plays no role. -/
noncomputable def operMult (d : Dyn n) (t : TD) (m : Mem n) (_x : ℕ) : Vec n :=
  Operators.tdEvaluate d.R (fun v => d.M *ᵥ v) t.dt (m t.state) (m t.dot)

/-- `MISOResidual::GetGradient(x)` (miso_residual.hpp:335-339), `getJacobian`, ode.cpp:118-153, likewise. -/
noncomputable def operGrad (d : Dyn n) (t : TD) (m : Mem n) (_x : ℕ) : Mat n :=
  if t.dt = 0 then d.M else d.M + t.dt • d.J (m t.state + t.dt • m t.dot)

/-- The scaling of the Newton step: `newton` and `inexactnewton` of `constructNonlinearSolver` use MFEM's factor 1;
`relaxednewton` the backtracking search (mfem_extensions.cpp:536-560). -/
inductive Kind
  | newton
  | relaxed (P : LineSearch.Params ℝ)

/-- A configured nonlinear solver (mfem_extensions.cpp:522-577). `lin A r` is the correction the linear solver returns. -/
structure NSolver (n : ℕ) where
  kind : Kind
  relTol : ℝ
  absTol : ℝ
  maxIter : ℕ
  lin : Mat n → Vec n → Vec n
  iterative : Bool

/-- `Phi::operator()`, linesearch.cpp:126-133: the trial point goes into `scratch`, a vector of its own, and the operator is
called with it. -/
noncomputable def phi (d : Dyn n) (t : TD) (m : Mem n) (x scratch : ℕ) (c : Vec n) (α : ℝ) : ℝ :=
  Steady.norm2 (operMult d t (write m scratch (m x - α • c)) scratch)

/-- `ComputeScalingFactor` (MFEM's default; `RelaxedNewton`, relaxed_newton.cpp:63-80 with linesearch.cpp:109-124); `r` is the
current residual. -/
noncomputable def scaling (N : NSolver n) (d : Dyn n) (t : TD) (m : Mem n) (x scratch : ℕ) (r c : Vec n) : ℝ :=
  match N.kind with
  | .newton => 1
  | .relaxed P => (LineSearch.search Real.sqrt (1 / 2 ^ 52) P (phi d t m x scratch c) (Steady.norm2 r)
      (-((operGrad d t m x *ᵥ c) ⬝ᵥ r) / Steady.norm2 r) 1).1

/-- Memory afterwards, convergence flag, iterations. MFEM (not in /repo), called at ode.cpp:265. -/
structure Run (n : ℕ) where
  mem : Mem n
  converged : Bool
  iters : ℕ

/-- The loop of `mfem::NewtonSolver::Mult` (MFEM; called at ode.cpp:265) on block `x`. -/
noncomputable def loop (N : NSolver n) (d : Dyn n) (t : TD) (x scratch : ℕ) (goal : ℝ) : ℕ → ℕ → Mem n → Vec n → Run n
  | left, it, m, r =>
    if Steady.norm2 r ≤ goal then ⟨m, true, it⟩
    else match left with
      | 0 => ⟨m, false, it⟩
      | left + 1 =>
        let c := N.lin (operGrad d t m x) r
        let s := scaling N d t m x scratch r c
        if s = 0 then ⟨m, false, it⟩
        else
          let m' := write m x (m x - s • c)
          loop N d t x scratch goal left (it + 1) m' (operMult d t m' x)

/-- `NewtonSolver::Mult(zero, x)` with an empty right-hand side. MFEM (not in /repo), called at ode.cpp:265. -/
noncomputable def mult (N : NSolver n) (d : Dyn n) (t : TD) (x scratch : ℕ) (m : Mem n) : Run n :=
  let m0 := if N.iterative then m else write m x 0
  let r := operMult d t m0 x
  loop N d t x scratch (max (N.relTol * Steady.norm2 r) N.absTol) N.maxIter 0 m0 r

/-- `FirstOrderODE::solve(dt, u, du_dt)`, ode.cpp:258-269; `u`, `k` are the blocks of its arguments. -/
noncomputable def solve (N : NSolver n) (d : Dyn n) (t : TD) (u k scratch : ℕ) (dt : ℝ) (m : Mem n) : TD × Run n :=
  let t1 := t.setInputs dt u k
  (t1, mult N d t1 k scratch m)

/-- Blocks: the state, the stepper's slope, the line search's scratch vector. mfem_extensions.cpp:15-37. -/
def bU : ℕ := 0
/-- See `bU`. -/
def bK : ℕ := 1
/-- See `bU`. -/
def bS : ℕ := 2

/-- What a call of `ImplicitSolve(dt, x, k)` or (`dt = 0`) `Mult(x, k)` leaves in `k` (ode.hpp:141-158), `k0` being its contents
before. -/
noncomputable def slope (N : NSolver n) (d : Dyn n) (dt : ℝ) (x k0 : Vec n) : Run n :=
  (solve N d ⟨0, 0, 0⟩ bU bK bS dt (fun b => if b = bU then x else k0)).2

/-- The operator the steppers of `Ode.lean` see (time-independent residual; entropy functions are not used here). ode.hpp:108-205. -/
noncomputable def oper (N : NSolver n) (d : Dyn n) : Ode.Oper ℝ (Vec n) where
  mult _ y := (slope N d 0 y 0).mem bK
  implicitSolve _ dt x k0 := (slope N d dt x k0).mem bK
  entropy _ := 0
  entropyChange _ _ _ _ := 0

/-- Forward Euler (`mfem::ForwardEulerSolver::Step`, option "RK1", ode.cpp:218-221): time argument of the residual omitted. -/
noncomputable def forwardEuler (f : Ode.Oper ℝ (Vec n)) (x : Vec n) (t dt : ℝ) : Vec n × ℝ := (x + dt • f.mult t x, t + dt)

/-- `mfem::ImplicitMidpointSolver::Step`, option "MIDPOINT", ode.cpp:226-229. -/
noncomputable def midpoint (f : Ode.Oper ℝ (Vec n)) (k0 x : Vec n) (t dt : ℝ) : Vec n × ℝ :=
  (x + dt • f.implicitSolve (t + dt / 2) (dt / 2) x k0, t + dt)

/-- `mfem::RK4Solver::Step`, option "RK4" (the default), ode.cpp:222-225. -/
noncomputable def rk4 (f : Ode.Oper ℝ (Vec n)) (x : Vec n) (t dt : ℝ) : Vec n × ℝ :=
  let k1 := f.mult t x
  let y1 := x + (dt / 2) • k1
  let k2 := f.mult (t + dt / 2) y1
  let y2 := x + (dt / 2) • k2
  let k3 := f.mult (t + dt / 2) y2
  let y3 := x + dt • k3
  let k4 := f.mult (t + dt) y3
  (x + (dt / 6) • k1 + (dt / 3) • k2 + (dt / 3) • k3 + (dt / 6) • k4, t + dt)

/-- `SteadyODESolver::Step` (mfem_extensions.cpp:15-23) on the operator; the nonlinear solver's `iterative_mode` is set for this
stepper (ode.cpp:242-246). -/
noncomputable def steady (N : NSolver n) (d : Dyn n) (x : Vec n) (t dt : ℝ) : Vec n × ℝ :=
  Ode.steadyStep (oper { N with iterative := true } d) x t dt

/-- The time steppers by option value, ode.cpp:210-256; `none` is the `MISOException` (for an unknown value the error message
itself reads the missing key "ode-solver" and throws another exception).  The relaxation steppers are those of `Ode.lean`. -/
def stepperName (deprecated : Bool) (type : String) : Option String :=
  if deprecated then none
  else if type = "RK1" then some "ForwardEuler"
  else if type = "RK4" then some "RK4"
  else if type = "MIDPOINT" then some "ImplicitMidpoint"
  else if type = "RRK" ∨ type = "RRKMIDPOINT" then some "RRKImplicitMidpoint"
  else if type = "RRK6" then some "RRK6"
  else if type = "PTC" then some "PseudoTransient"
  else if type = "steady" then some "Steady"
  else none

end Verif.Unsteady
