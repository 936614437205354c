import Mathlib.Algebra.Order.Field.Basic
import Mathlib.Algebra.Order.Group.Abs
import Mathlib.Algebra.Module.Basic

/-!
# Model of `src/common/linesearch.{hpp,cpp}` and of the Newton loop in `relaxed_newton.cpp`

`double` is an ordered field `K`.  `sqrt` is a parameter (any function) so that the model stays
executable; where its meaning matters the theorems use `Real.sqrt`.
-/

namespace Verif.LineSearch

variable {K : Type} [Field K] [LinearOrder K]

/-- `quadratic_interp` (`linesearch.cpp:11-21`). -/
def quadraticInterp (phi0 dphi0 phiAlpha alpha : K) : K :=
  let c := phi0
  let b := dphi0
  let a := (phiAlpha - b * alpha - c) / alpha ^ 2;
  -b / (2 * a)

/-- Coefficient `a` of `cubic_interp` (`linesearch.cpp:32-35`). -/
def cubicA (phi0 dphi0 phi1 alpha1 phi2 alpha2 : K) : K :=
  (alpha1 ^ 2 * (phi2 - phi0 - dphi0 * alpha2) - alpha2 ^ 2 * (phi1 - phi0 - dphi0 * alpha1)) /
    (alpha1 ^ 2 * alpha2 ^ 2 * (alpha2 - alpha1))

/-- Coefficient `b` of `cubic_interp` (`linesearch.cpp:37-39`). -/
def cubicB (phi0 dphi0 phi1 alpha1 phi2 alpha2 : K) : K :=
  (-alpha1 ^ 3 * (phi2 - phi0 - dphi0 * alpha2) + alpha2 ^ 3 * (phi1 - phi0 - dphi0 * alpha1)) /
    (alpha1 ^ 2 * alpha2 ^ 2 * (alpha2 - alpha1))

/-- `cubic_interp` (`linesearch.cpp:25-52`); `eps` is `numeric_limits<double>::epsilon()`. -/
def cubicInterp (sqrt : K → K) (eps : K) (phi0 dphi0 phi1 alpha1 phi2 alpha2 : K) : K :=
  let a := cubicA phi0 dphi0 phi1 alpha1 phi2 alpha2
  let b := cubicB phi0 dphi0 phi1 alpha1 phi2 alpha2
  if |a| < eps then dphi0 / (2 * b)
  else
    let d := max (b ^ 2 - 3 * a * dphi0) 0;
    (-b + sqrt d) / (3 * a)

/-- The public parameters of `BacktrackingLineSearch` (`linesearch.hpp:30-34`);
a negative `max_iter` behaves like `0`. -/
structure Params (K : Type) where
  mu : K
  rhoHi : K
  rhoLo : K
  interpOrder : ℤ
  maxIter : ℕ

/-- The default member initialisers (`linesearch.hpp:30-34`). -/
def Params.default : Params K := ⟨1 / 10 ^ 4, 9 / 10, 1 / 10, 3, 10⟩

/-- The `while` loop of `BacktrackingLineSearch::search` (`linesearch.cpp:70-100`).
`left = max_iter - iter`, `iter` the local counter.  The result pairs the returned step with
the list of *further* step lengths at which `phi` was evaluated, in order. -/
def searchLoop (sqrt : K → K) (eps : K) (P : Params K) (phi : K → K) (phi0 dphi0 : K) :
    ℕ → ℕ → K → K → K → K → K × List K
  | left, iter, alpha1, phi1, alpha2, phi2 =>
    if phi2 > phi0 + P.mu * alpha2 * dphi0 then
      match left with
      | 0 => (0, [])
      | left' + 1 =>
        let tmp :=
          if iter + 1 = 1 ∨ P.interpOrder = 2 then quadraticInterp phi0 dphi0 phi2 alpha2
          else cubicInterp sqrt eps phi0 dphi0 phi1 alpha1 phi2 alpha2
        let a := max (min tmp (alpha2 * P.rhoHi)) (alpha2 * P.rhoLo)
        let r := searchLoop sqrt eps P phi phi0 dphi0 left' (iter + 1) alpha2 phi2 a (phi a)
        (r.1, a :: r.2)
    else (alpha2, [])

/-- `BacktrackingLineSearch::search` (`linesearch.cpp:58-105`): returned step and all
trial steps at which `phi` was evaluated, in order. -/
def search (sqrt : K → K) (eps : K) (P : Params K) (phi : K → K) (phi0 dphi0 alpha : K) :
    K × List K :=
  let r := searchLoop sqrt eps P phi phi0 dphi0 P.maxIter 0 alpha (phi alpha) alpha (phi alpha)
  (r.1, alpha :: r.2)

/-! ### Newton -/

/-- What Newton needs to know about one linearised problem on one rank: residual with the right
hand side already subtracted, Jacobian and linear solve (`prec->Mult`).
relaxed_newton.cpp:63-80. -/
structure Problem (K V : Type) where
  /-- `oper->Mult(x, r); r -= b` -/
  res : V → V
  /-- `GetGradient(x).Mult(v)` -/
  jac : V → V → V
  /-- `c = prec(r)` with the operator set at `x` -/
  solve : V → V → V
  /-- `Vector::Norml2` -/
  norm : V → K
  /-- `Vector::operator*` -/
  dot : V → V → K

variable {V : Type} [AddCommGroup V] [Module K V]

/-- `Phi::phi0` (`linesearch.cpp:116`), `residual` being the residual at the current state. -/
def Problem.phi0 (p : Problem K V) (x : V) : K := p.norm (p.res x)

/-- `Phi::dphi0` (`linesearch.cpp:117-123`). -/
def Problem.dphi0 (p : Problem K V) (x c : V) : K :=
  -(p.dot (p.jac x c) (p.res x)) / p.phi0 x

/-- `Phi::operator()` (`linesearch.cpp:126-133`): `‖res(x - alpha c)‖`. -/
def Problem.phi (p : Problem K V) (x c : V) (alpha : K) : K := p.norm (p.res (x - alpha • c))

/-- `RelaxedNewton::ComputeScalingFactor` (`relaxed_newton.cpp:63-80`), step length only. -/
def Problem.scaling (sqrt : K → K) (eps : K) (P : Params K) (p : Problem K V) (x c : V) : K :=
  (search sqrt eps P (p.phi x c) (p.phi0 x) (p.dphi0 x c) 1).1

/-- Result of `mfem::NewtonSolver::Mult`, from which `RelaxedNewton` inherits.
relaxed_newton.cpp:63-80, inexact_newton.cpp:112-160. -/
structure NewtonResult (K V : Type) where
  x : V
  converged : Bool
  finalIter : ℕ
  /-- residual norms of all iterates, in order -/
  norms : List K

/-- The iteration of `mfem::NewtonSolver::Mult` (external; same structure as
`inexact_newton.cpp:112-160`) using `ComputeScalingFactor`; `left = max_iter - it`. -/
def newtonLoop (sqrt : K → K) (eps : K) (P : Params K) (p : Problem K V) (goal : K) :
    ℕ → ℕ → V → NewtonResult K V
  | left, it, x =>
    let norm := p.norm (p.res x)
    if norm ≤ goal then ⟨x, true, it, [norm]⟩
    else
      match left with
      | 0 => ⟨x, false, it, [norm]⟩
      | left' + 1 =>
        let c := p.solve x (p.res x)
        let s := p.scaling sqrt eps P x c
        if s = 0 then ⟨x, false, it, [norm]⟩
        else
          let r := newtonLoop sqrt eps P p goal left' (it + 1) (x - s • c)
          { r with norms := norm :: r.norms }

/-! ### Parallel runs -/

/-- One MPI rank's view of a line search: its rank-local `phi`, `phi0`, `dphi0`
(`Norml2` and `Vector * Vector` do not communicate, `linesearch.cpp:116-132`). -/
structure RankData (K : Type) where
  phi : K → K
  phi0 : K
  dphi0 : K

/-- Each rank runs `search` on its own data (`relaxed_newton.cpp:63-80`).  Every call of `phi` is a
collective residual evaluation, so unequal evaluation counts deadlock (`none`).
Simplification: the residual rows of a rank depend on that rank's step only. -/
def parallelSearch (sqrt : K → K) (eps : K) (P : Params K) (ranks : List (RankData K))
    (alpha : K) : Option (List K) :=
  let rs := ranks.map fun r => search sqrt eps P r.phi r.phi0 r.dphi0 alpha
  match rs with
  | [] => some []
  | r0 :: _ => if rs.all (fun r => r.2.length = r0.2.length) then some (rs.map (·.1)) else none

end Verif.LineSearch
