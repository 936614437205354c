import Mathlib.Analysis.SpecialFunctions.Pow.Real
import Verif.NonlinearForm
import Verif.TimeLoop

/-!
# The steady branch of `AbstractSolver2` (`src/common/abstract_solver.cpp:79-205,440-502`)

A solver whose residual is one `MISONonlinearForm` (the residuals of the thermal and magnetostatic solvers and of the mesh
warper forward every call used here to their form).  One rank; true dofs `Fin n`; `double` = ℝ.  The linear solvers are
arbitrary functions of the operator they are given, the right-hand side and the initial guess.
-/

namespace Verif.Steady

open Verif.NLForm

variable {n : ℕ} {P : Type}

/-- The Newton solver (`mfem::NewtonSolver`, set up by `constructNonlinearSolver`, mfem_extensions.cpp:474-577).
`scale x c` is `ComputeScalingFactor` (`1` for MFEM's class, overridden in relaxed_newton.cpp:9-86 and
inexact_newton.cpp:8-60).  `lin A r` is the correction the linear solver returns for the operator `A`. -/
structure Newton (n : ℕ) where
  relTol : ℝ
  absTol : ℝ
  maxIter : ℕ
  lin : Mat n → Vec n → Vec n
  scale : Vec n → Vec n → ℝ

/-- Euclidean norm of a residual (`mfem::IterativeSolver::Norm`); also `calcResidualNorm`, abstract_solver.cpp:199-204. -/
noncomputable def norm2 (r : Vec n) : ℝ := Real.sqrt (∑ i, r i * r i)

/-- What a Newton run returns: object, iterate, convergence flag, iterations. MFEM (not in /repo), called at abstract_solver.cpp:126. -/
structure Run (n : ℕ) (P : Type) where
  form : Form n P
  u : Vec n
  converged : Bool
  iters : ℕ

/-- The loop of `mfem::NewtonSolver::Mult` (MFEM, not in /repo; called at abstract_solver.cpp:126): test the residual norm,
give up after `max_iter` iterations, assemble the Jacobian at the current iterate (`GetGradient`, miso_residual.hpp:335-339),
take a scaled step, evaluate the residual there (`Mult`, miso_residual.hpp:327-331). `left = max_iter - it`. -/
noncomputable def loop (F : Phys n P) (N : Newton n) (goal : ℝ) : ℕ → ℕ → Form n P → Vec n → Vec n → Run n P
  | left, it, f, u, r =>
    if norm2 r ≤ goal then ⟨f, u, true, it⟩
    else match left with
      | 0 => ⟨f, u, false, it⟩
      | left + 1 =>
        let f1 := f.getJacobian F u
        let c := N.lin (f1.jac.getD 0) r
        let s := N.scale u c
        if s = 0 then ⟨f1, u, false, it⟩
        else
          let u' : Vec n := fun i => u i - s * c i
          let e := f1.evaluate F u'
          loop F N goal left (it + 1) e.1 u' e.2

/-- `nonlinear_solver->Mult(zero, state)` with `iterative_mode = true` and an empty right-hand side
(abstract_solver.cpp:122-126): the tolerance is the larger of the absolute one and the relative one times the norm of the
initial residual. -/
noncomputable def newton (F : Phys n P) (N : Newton n) (f : Form n P) (u0 : Vec n) : Run n P :=
  let e := f.evaluate F u0
  loop F N (max (N.relTol * norm2 e.2) N.absTol) N.maxIter 0 e.1 u0 e.2

/-- A `logState` call on one logger: field name, timestep, time, vector. abstract_solver.cpp:9-18. -/
structure Entry (n : ℕ) where
  field : String
  timestep : ℕ
  time : ℝ
  vec : Vec n

/-- The solver object: its form and what was logged so far by its (single) logger. abstract_solver.hpp:240-290. -/
structure Solver (n : ℕ) (P : Type) where
  form : Form n P
  log : List (Entry n)

/-- `solveForState(inputs, state)` without time marching (abstract_solver.cpp:79-134).  `inverted` is the result of
`CheckElementOrientation` in `PDESolver::initialHook` (pde_solver.cpp:514-534); `none` is the exception thrown then.  The
initial state is logged if the option asks for it (`initialHook`, abstract_solver.cpp:504-516); the final state is logged
unconditionally.  Whether Newton's method converged is not looked at: it is the third component here only for the
theorems.  Simplification: `inputs` sets every parameter `p`. -/
noncomputable def solveForState (F : Phys n P) (N : Newton n) (o : TimeLoop.LogOpts) (inverted : Bool) (s : Solver n P) (p : P)
    (u0 : Vec n) : Option (Solver n P × Vec n × Run n P) :=
  let f := s.form.setInputs p
  let l0 : List (Entry n) := if o.initialState then [⟨"state", 0, 0, u0⟩] else []
  if inverted then none
  else
    let R := newton F N f u0
    some (⟨R.form, s.log ++ l0 ++ [⟨"state", 1, 1, R.u⟩]⟩, R.u, R)

/-- `solveForAdjoint(inputs, state_bar, adjoint)` without time marching (abstract_solver.cpp:136-177): `adjLin T b a` is
the vector the adjoint linear solver returns for the operator `T`, right-hand side `b` and initial guess `a`.  `none` is the
exception of `getJacobianTranspose`. -/
def solveForAdjoint (adjLin : Mat n → Vec n → Vec n → Vec n) (s : Solver n P) (p : P) (stateBar adjoint : Vec n) :
    Option (Solver n P × Vec n) :=
  match (s.form.setInputs p).setUpAdjoint stateBar adjoint with
  | none => none
  | some (f, T, b, a) => some (⟨f, s.log ++ [⟨"adjoint", 0, 0, adjLin T b a⟩]⟩, adjLin T b a)

/-- A call of the two solves in a program that catches the exceptions. abstract_solver.cpp:79-177. -/
inductive Call (n : ℕ) (P : Type)
  | state (inverted : Bool) (p : P) (u0 : Vec n)
  | adjoint (p : P) (stateBar guess : Vec n)

/-- What the caller gets. abstract_solver.cpp:79-177. -/
inductive Result (n : ℕ)
  | state (u0 u : Vec n)
  | inverted (u0 : Vec n)
  | adjoint (ψ : Vec n)
  | noJacobian

/-- One call: the solver afterwards and the result.  An inverted mesh is detected after the initial state was logged
(pde_solver.cpp:514-527); `solveForAdjoint` throws before it logs (abstract_solver.cpp:164-176). -/
noncomputable def exec (F : Phys n P) (N : Newton n) (adjLin : Mat n → Vec n → Vec n → Vec n) (o : TimeLoop.LogOpts) (s : Solver n P) :
    Call n P → Solver n P × Result n
  | .state inv p u0 =>
    match solveForState F N o inv s p u0 with
    | some (s1, u, _) => (s1, .state u0 u)
    | none => (⟨s.form.setInputs p, s.log ++ (if o.initialState then [⟨"state", 0, 0, u0⟩] else [])⟩, .inverted u0)
  | .adjoint p b a =>
    match solveForAdjoint adjLin s p b a with
    | some (s1, ψ) => (s1, .adjoint ψ)
    | none => (⟨s.form.setInputs p, s.log⟩, .noJacobian)

/-- A whole session. abstract_solver.cpp:79-177. -/
noncomputable def session (F : Phys n P) (N : Newton n) (adjLin : Mat n → Vec n → Vec n → Vec n) (o : TimeLoop.LogOpts) :
    Solver n P → List (Call n P) → Solver n P × List (Result n)
  | s, [] => (s, [])
  | s, c :: cs =>
    let r := exec F N adjLin o s c
    let q := session F N adjLin o r.1 cs
    (q.1, r.2 :: q.2)

/-- `linearize(inputs)` (abstract_solver.cpp:440-453). -/
def linearize (F : Phys n P) (s : Solver n P) (p : P) (u : Vec n) : Solver n P := { s with form := s.form.linearize F p u }

/-- `calcResidual(inputs, residual)` (abstract_solver.cpp:186-191). -/
def calcResidual (F : Phys n P) (s : Solver n P) (p : P) (u : Vec n) : Solver n P × Vec n :=
  let e := (s.form.setInputs p).evaluate F u
  ({ s with form := e.1 }, e.2)

/-- `calcResidualNorm(inputs)` (abstract_solver.cpp:199-204). -/
noncomputable def calcResidualNorm (F : Phys n P) (s : Solver n P) (p : P) (u : Vec n) : ℝ := norm2 (calcResidual F s p u).2

/-- `vectorJacobianProduct(res_bar, wrt, wrt_bar)` of the solver for a field of `m` dofs (abstract_solver.cpp:484-502). -/
def vjpField {m : ℕ} (s : Solver n P) (G : Matrix (Fin n) (Fin m) ℝ) (resBar : Vec n) (wrtBar : Fin m → ℝ) : Fin m → ℝ :=
  s.form.vjpField G resBar wrtBar

/-- `vectorJacobianProduct(res_bar, wrt)` of the solver for a scalar (abstract_solver.cpp:468-482). -/
def vjpScalar (s : Solver n P) (g : Vec n) (resBar : Vec n) : ℝ := s.form.vjpScalar g resBar

/-! ### `PDESolver::setState` -/

/-- What the user may pass to `setState` (abstract_solver.hpp:397-432): a function filling the vector, something that is
projected (scalar or vector function, coefficient), or any other object. `proj` is the projected true vector. -/
inductive Setter (n : ℕ)
  | fill (f : Vec n → Vec n)
  | project (proj : Vec n)
  | other

/-- The true vectors behind the solver's fields. pde_solver.hpp:150-170. -/
structure Fields (n : ℕ) where
  state : Vec n
  dirichletBc : Vec n

/-- One round of `PDESolver::setState_` for the field "state" or "dirichlet_bc" (pde_solver.cpp:450-465, abstract_solver.cpp:45-51,
useAny, utils.hpp:286-318): a filling function changes the caller's vector only; a projection goes into the named field and
from there into the caller's vector; any other object changes nothing. -/
def setOne (g : Setter n) (bc : Bool) (x : Fields n × Vec n) : Fields n × Vec n :=
  match g with
  | .fill f => (x.1, f x.2)
  | .project v => (if bc then { x.1 with dirichletBc := v } else { x.1 with state := v }, v)
  | .other => x

/-- `PDESolver::setState_(function, "state", state)` (pde_solver.cpp:450-473): the named field, then once more for
"dirichlet_bc". -/
def setState (g : Setter n) (x : Fields n × Vec n) : Fields n × Vec n := setOne g true (setOne g false x)

end Verif.Steady
