import Verif.RootFind
import Mathlib.Algebra.Module.Basic

/-! # Model of `src/common/inexact_newton.{hpp,cpp}` -/

namespace Verif.InexactNewton

variable {K : Type} [Field K] [LinearOrder K]
variable {V : Type} [AddCommGroup V] [Module K V]

/-- The nonlinear problem and linear solver handed to the solver.  `b` is `none` when
`b.Size() != Height()` (`inexact_newton.cpp:36`, `:94`). -/
structure Prob (K V : Type) where
  oper : V → V
  grad : V → V → V
  prec : V → V → V
  norm : V → K
  dot : V → V → K
  b : Option V

/-- `oper->Mult(x, r); if (have_b) r -= b;` (`inexact_newton.cpp:35-40`, `:99-104`). -/
def Prob.res (p : Prob K V) (x : V) : V :=
  match p.b with
  | none => p.oper x
  | some b => p.oper x - b

/-- Parameters (`inexact_newton.hpp:53-57`): `t`, `eta_max`, `theta_min = 0.1`,
`theta_max = 0.5`, `max_iter` (from `IterativeSolver`). -/
structure Par (K : Type) where
  t : K
  etaMax : K
  thetaMin : K
  thetaMax : K
  maxIter : ℕ

/-- What `ComputeStepSize` delivers. inexact_newton.cpp:11-84. -/
inductive StepOut (K : Type) where
  /-- normal return: step `s`, last `theta`, new `eta`, number of reductions `itt` -/
  | ret (s theta eta : K) (itt : ℕ)
  /-- `mfem_error("Fail to globalize ...")`: the program aborts -/
  | abort

/-- `theta = (theta > min) ? theta : min; theta = (theta < max) ? theta : max;`
(`inexact_newton.cpp:50-51`). -/
def clampTheta (P : Par K) (th : K) : K :=
  let th1 := if th > P.thetaMin then th else P.thetaMin
  if th1 < P.thetaMax then th1 else P.thetaMax

/-- The slope handed to the interpolation, `p0p = -Dot(c, jac*r)` (`inexact_newton.cpp:28-30`). -/
def Prob.p0p (p : Prob K V) (x c : V) : K := -(p.dot c (p.grad x (p.res x)))

/-- The `while` loop (`inexact_newton.cpp:44-77`).  `left = max_iter - itt`. -/
def stepLoop (P : Par K) (p : Prob K V) (x c : V) (norm p0p : K) :
    ℕ → ℕ → K → K → K → StepOut K
  | left, itt, theta, s, eta =>
    let err := p.norm (p.res (x - s • c))
    if err > (1 - P.t * (1 - theta)) * norm then
      match left with
      | 0 => .abort
      | left' + 1 =>
        let theta' := clampTheta P
          (RootFind.quadInterp 0 (1 / 2 * norm * norm) p0p 1 (1 / 2 * err * err))
        let s' := s * theta'
        let eta' := 1 - theta' * (1 - eta)
        let eta'' := if eta' < P.etaMax then eta' else P.etaMax
        stepLoop P p x c norm p0p left' (itt + 1) theta' s' eta''
    else .ret s theta eta itt

/-- `InexactNewton::ComputeStepSize` (`inexact_newton.cpp:11-84`). -/
def computeStepSize (P : Par K) (p : Prob K V) (x c : V) (norm eta : K) : StepOut K :=
  stepLoop P p x c norm (p.p0p x c) P.maxIter 0 0 1 eta

/-- Result of `InexactNewton::Mult`. inexact_newton.cpp:98-166. -/
structure Result (K V : Type) where
  x : V
  converged : Bool
  finalIter : ℕ
  finalNorm : K

/-- The `for` loop of `InexactNewton::Mult` (`inexact_newton.cpp:112-163`); `left = max_iter - it`;
`norm` is the local variable of that name.  `none` = program abort. -/
def multLoop (P : Par K) (p : Prob K V) (goal : K) : ℕ → ℕ → V → K → K → Option (Result K V)
  | left, it, x, norm, eta =>
    if norm ≤ goal then some ⟨x, true, it, norm⟩
    else
      match left with
      | 0 => some ⟨x, false, it, norm⟩
      | left' + 1 =>
        let c := p.prec x (p.res x)
        match computeStepSize P p x c norm eta with
        | .abort => none
        | .ret s _ eta' _ =>
          if s = 0 then some ⟨x, false, it, norm⟩
          else
            let x' := x - s • c
            multLoop P p goal left' (it + 1) x' (p.norm (p.res x')) eta'

/-- `InexactNewton::Mult(b, x)` (`inexact_newton.cpp:98-166`); `x0` is the initial guess (0 unless
`iterative_mode`). -/
def mult (P : Par K) (p : Prob K V) (relTol absTol eta : K) (x0 : V) : Option (Result K V) :=
  let norm := p.norm (p.res x0)
  multLoop P p (max (relTol * norm) absTol) P.maxIter 0 x0 norm eta

end Verif.InexactNewton
