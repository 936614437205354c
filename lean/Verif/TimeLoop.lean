import Mathlib.Algebra.Order.Field.Basic

/-!
# Model of the unsteady branch of `AbstractSolver2::solveForState`

`src/common/abstract_solver.cpp:79-116` with the default hooks `:504-583`, and the
pseudo-transient overrides of `src/physics/fluidflow/flow_solver.cpp:130-186`.
-/

namespace Verif.TimeLoop

variable {K : Type} [Field K] [LinearOrder K] {S : Type}

/-- A call of `logState(logger, state, "state", timestep, time, rank)`
(`abstract_solver.cpp:9-18`), on a fixed logger and rank. -/
structure Entry (K S : Type) where
  timestep : ℕ
  time : K
  state : S

/-- The virtual functions and options the loop uses.  `step` is `ode->step(state, t, dt)`, returning the
new `(state, t, dt)`; it receives `t` and `dt` by reference. abstract_solver.cpp:79-116. -/
structure Solver (K S : Type) where
  tInit : K
  tFinal : K
  maxIter : ℕ
  /-- `calcStepSize(iter, t, t_final, dt_old, state)` -/
  calcStepSize : ℕ → K → K → K → S → K
  /-- `iterationExit(iter, t, t_final, dt, state)` -/
  iterationExit : ℕ → K → K → K → S → Bool
  step : S → K → K → S × K × K

/-- One executed iteration: index, time/step/state handed to `ode->step`.
abstract_solver.cpp:91-113. -/
structure Iter (K S : Type) where
  ti : ℕ
  t : K
  dt : K
  state : S

/-- Result of the loop: final state, time, loop variable `ti`, whether the loop ended by `break`, and the
executed iterations in order. abstract_solver.cpp:79-116. -/
structure Res (K S : Type) where
  state : S
  t : K
  ti : ℕ
  broke : Bool
  iters : List (Iter K S)

/-- The `for` loop (`abstract_solver.cpp:97-113`); `left = max-iter - ti`. -/
def loop (v : Solver K S) : ℕ → ℕ → S → K → K → Res K S
  | 0, ti, s, t, _ => ⟨s, t, ti, false, []⟩
  | left + 1, ti, s, t, dt0 =>
    let dt := v.calcStepSize ti t v.tFinal dt0 s
    let it : Iter K S := ⟨ti, t, dt, s⟩
    match v.step s t dt with
    | (s', t', dt') =>
      if v.iterationExit ti t' v.tFinal dt' s' then ⟨s', t', ti, true, [it]⟩
      else
        let r := loop v left (ti + 1) s' t' dt'
        { r with iters := it :: r.iters }

/-- The whole unsteady solve: `t = t-initial; dt = 0.0; for ...` (`abstract_solver.cpp:91-113`). -/
def solve (v : Solver K S) (s0 : S) : Res K S := loop v v.maxIter 0 s0 v.tInit 0

/-- Default `calcStepSize` (`abstract_solver.cpp:543-554`); `exact` is option `exact-t-final`. -/
def defaultStepSize (dtOpt : K) (exact : Bool) : ℕ → K → K → K → S → K :=
  fun _ t tFinal _ _ => if exact then min dtOpt (tFinal - t) else dtOpt

/-- Default `iterationExit` (`abstract_solver.cpp:556-563`). -/
def defaultExit : ℕ → K → K → K → S → Bool :=
  fun _ t tFinal dt _ => decide (t ≥ tFinal - 1 / 10 ^ 14 * dt)

/-- The default solver. abstract_solver.cpp:543-563. -/
def defaultSolver (tInit tFinal dtOpt : K) (maxIter : ℕ) (exact : Bool)
    (step : S → K → K → S × K × K) : Solver K S :=
  ⟨tInit, tFinal, maxIter, defaultStepSize dtOpt exact, defaultExit, step⟩

/-! ### Logging -/

/-- `LoggingOptions` (`data_logging.hpp:14-19`). -/
structure LogOpts where
  initialState : Bool
  eachTimestep : Bool
  finalState : Bool

/-- The sequence of `logState` calls made on one logger during an unsteady solve: `initialHook`
(`:504-516`, with the literal timestep 0 and time 0.0), one `iterationHook` per executed
iteration (`:518-532`, called before the step), `terminalHook` (`:565-579`). abstract_solver.cpp:504-583. -/
def logged (o : LogOpts) (v : Solver K S) (s0 : S) : List (Entry K S) :=
  let r := solve v s0
  (if o.initialState then [⟨0, 0, s0⟩] else []) ++
  (if o.eachTimestep then r.iters.map (fun i => ⟨i.ti, i.t, i.state⟩) else []) ++
  (if o.finalState then [⟨r.ti, r.t, r.state⟩] else [])

/-- What is on disk afterwards: files are keyed by timestep (field and rank fixed,
`data_logging.hpp:32-33`), later saves overwrite earlier ones. -/
def onDisk : List (Entry K S) → ℕ → Option (K × S)
  | [], _ => none
  | e :: es, n =>
    match onDisk es n with
    | some x => some x
    | none => if e.timestep = n then some (e.time, e.state) else none

/-! ### Pseudo-transient continuation -/

/-- Steady branch of `FlowSolver::calcStepSize` (`flow_solver.cpp:136-146`).  `powRatio s` stands for
`pow(res_norm0 / calcResidualNorm(state), res-exp)`. -/
def ptcStepSize (dtOpt : K) (powRatio : S → K) : ℕ → K → K → K → S → K :=
  fun _ _ _ dtOld s => max (dtOpt * powRatio s) dtOld

/-- Steady branch of `FlowSolver::iterationExit` (`flow_solver.cpp:167-181`). -/
def ptcExit (resNorm : S → K) (resNorm0 abstol reltol : K) : ℕ → K → K → K → S → Bool :=
  fun _ _ _ _ s =>
    if resNorm s ≤ abstol then true
    else if resNorm s ≤ resNorm0 * reltol then true
    else false

end Verif.TimeLoop
