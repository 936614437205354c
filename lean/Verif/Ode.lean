import Mathlib.Algebra.Module.Basic
import Mathlib.Data.Rat.Defs
import Mathlib.Algebra.Order.Field.Basic
import Verif.RootFind

/-!
# Time steppers (`src/common/mfem_extensions.cpp`)

`double` is an ordered field `K`, vectors are elements of a `K`-module `V`.  The operator being stepped is given by its
callbacks; `ImplicitSolve` is a parameter (the nonlinear solver is modelled elsewhere).
-/

namespace Verif.Ode

open Verif.RootFind

variable {K V : Type} [Field K] [LinearOrder K] [AddCommGroup V] [Module K V]

/-- The callbacks of `mfem::TimeDependentOperator` / `EntropyConstrainedOperator` used by the steppers.
`mult t y` is `SetTime(t); Mult(y,k)`; `implicitSolve t dt x k0` is `SetTime(t); ImplicitSolve(dt,x,k)` with `k` holding `k0` on entry.
mfem_extensions.hpp:10-88. -/
structure Oper (K V : Type) where
  mult : K → V → V
  implicitSolve : K → K → V → V → V
  entropy : V → K
  /-- `EntropyChange(dt, x, k)` called after `SetTime t` -/
  entropyChange : K → K → V → V → K

/-- `SteadyODESolver::Step` (`mfem_extensions.cpp:15-23`): returns `(x, t)`. -/
def steadyStep (f : Oper K V) (x : V) (t dt : K) : V × K :=
  (f.implicitSolve (t + dt) dt x x, t + dt)

/-- `PseudoTransientSolver::Step` (`mfem_extensions.cpp:30-37`).  `k0` is the previous content of the member `k`. -/
def ptcStep (f : Oper K V) (k0 x : V) (t dt : K) : V × K :=
  let k := f.implicitSolve (t + dt) dt x k0
  (x + dt • k, t + dt)

/-- `ftol`, `xtol` and `maxiter` hard-coded in both relaxation steppers (`mfem_extensions.cpp:96-98, 193-195`). -/
def ftol : K := 1 / 10 ^ 12
@[inherit_doc ftol] def xtol : K := 1 / 10 ^ 12
@[inherit_doc ftol] def maxiter : ℤ := 30

/-- The relaxation equation (`entropyFun`, `mfem_extensions.cpp:77-94, 175-190`): `dir` is the full-step increment `dt * k`
(midpoint) or `dt * Σ b_i k_i` (explicit), `delta` the entropy change rate. -/
def entropyFun (f : Oper K V) (x dir : V) (dt delta gamma : K) : K :=
  f.entropy (x + gamma • dir) - f.entropy x + gamma * dt * delta

/-- Outcome of a relaxation step: new state and time, an exception, or a non-finite `gamma`.
mfem_extensions.cpp:44-107, 136-203. -/
inductive StepOut (K V : Type) where
  | ok (x : V) (t : K)
  | throw
  | nonfinite

/-- The common tail: find `gamma` by `secant(entropyFun, 0.99, 1.01, ...)` and advance (`mfem_extensions.cpp:99-107, 196-203`). -/
def relax (f : Oper K V) (x dir : V) (t dt delta : K) : StepOut K V :=
  match secant (entropyFun f x dir dt delta) (99 / 100) (101 / 100) ftol xtol maxiter with
  | .ret gamma _ => .ok (x + gamma • dir) (t + gamma * dt)
  | .throw => .throw
  | .nonfinite => .nonfinite

/-- `RRKImplicitMidpointSolver::Step` (`mfem_extensions.cpp:44-107`).  `k0` as in `ptcStep`. -/
def rrkMidpointStep (f : Oper K V) (k0 x : V) (t dt : K) : StepOut K V :=
  let k := f.implicitSolve (t + dt / 2) (dt / 2) x k0
  let delta := f.entropyChange (t + dt / 2) (1 / 2 * dt) (x + (1 / 2 * dt) • k) k
  relax f x (dt • k) t dt delta

/-- Inner stage sum `add(x, a[l++]*dt, k[0], y); for j: y.Add(a[l++]*dt, k[j])` (`mfem_extensions.cpp:150-154`).
`ks` are the slopes `k[0..i-1]`; returns `y` and the advanced `l`. -/
def stageSum (a : ℕ → K) (dt : K) : ℕ → V → List V → V × ℕ
  | l, y, [] => (y, l)
  | l, y, k :: ks => stageSum a dt (l + 1) (y + (a l * dt) • k) ks

/-- The stage loop (`mfem_extensions.cpp:148-158`): `n` stages remain, `ks` are the slopes so far, `l` the running index into `a`,
`delta` the running entropy change. -/
def stages (f : Oper K V) (a b c : ℕ → K) (x : V) (t dt : K) : ℕ → ℕ → List V → K → List V × K
  | 0, _, ks, delta => (ks, delta)
  | n + 1, l, ks, delta =>
    let i := ks.length
    let r := stageSum a dt l x ks
    let y := r.1
    let k := f.mult (t + c (i - 1) * dt) y
    stages f a b c x t dt n r.2 (ks ++ [k])
      (delta + b i * f.entropyChange (t + c (i - 1) * dt) (c (i - 1) * dt) y k)

/-- Accumulation `k[0] *= b[0]*dt; k[0].Add(b[i]*dt, k[i])` (`mfem_extensions.cpp:160-164`); `i` is the index of the head of the list. -/
def weighted (b : ℕ → K) (dt : K) : ℕ → V → List V → V
  | _, acc, [] => acc
  | i, acc, k :: ks => weighted b dt (i + 1) (acc + (b i * dt) • k) ks

/-- `ExplicitRRKSolver::Step` (`mfem_extensions.cpp:136-203`) with `s ≥ 1` stages. -/
def rrkExplicitStep (f : Oper K V) (s : ℕ) (a b c : ℕ → K) (x : V) (t dt : K) : StepOut K V :=
  let k0 := f.mult t x
  let r := stages f a b c x t dt (s - 1) 0 [k0] (b 0 * f.entropyChange t 0 x k0)
  match r.1 with
  | [] => .throw   -- unreachable: the list always starts with `k0`
  | k :: ks => relax f x (weighted b dt 1 ((b 0 * dt) • k) ks) t dt r.2

/-! ### Coefficients of `RRK6Solver` -/

/-- `RRK6Solver::a` (`mfem_extensions.cpp:208-235`), the decimal literals as written. -/
def rrk6a : List ℚ := [0.6e-1, 0.1923996296296296296296296296296296296296e-1, 0.7669337037037037037037037037037037037037e-1,
  0.35975e-1, 0, 0.107925,
  1.318683415233148260919747276431735612861, 0, -5.042058063628562225427761634715637693344, 4.220674648395413964508014358283902080483,
  -41.87259166432751461803757780644346812905, 0, 159.4325621631374917700365669070346830453,
  -122.1192135650100309202516203389242140663, 5.531743066200053768252631238332999150076,
  -54.43015693531650433250642051294142461271, 0, 207.0672513650184644273657173866509835987,
  -158.6108137845899991828742424365058599469, 6.991816585950242321992597280791793907096,
  -0.1859723106220323397765171799549294623692e-1,
  -54.66374178728197680241215648050386959351, 0, 207.9528062553893734515824816699834244238,
  -159.2889574744995071508959805871426654216, 7.018743740796944434698170760964252490817,
  -0.1833878590504572306472782005141738268361e-1, -0.5119484997882099077875432497245168395840e-3]

/-- `RRK6Solver::b` (`mfem_extensions.cpp:236-243`). -/
def rrk6b : List ℚ := [0.3438957868357036009278820124728322386520e-1, 0, 0, 0.2582624555633503404659558098586120858767,
  0.4209371189673537150642551514069801967032, 4.405396469669310170148836816197095664891,
  -176.4831190242986576151740942499002125029, 172.3641334014150730294022582711902413315]

/-- `RRK6Solver::c` (`mfem_extensions.cpp:244-252`). -/
def rrk6c : List ℚ := [0.6e-1, 0.9593333333333333333333333333333333333333e-1, 0.1439, 0.4973, 0.9725, 0.9995, 1]

/-- Number of stages passed by the `RRK6Solver` constructor (`mfem_extensions.hpp:88`). -/
def rrk6s : ℕ := 8

end Verif.Ode
