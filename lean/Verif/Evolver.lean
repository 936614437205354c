import Verif.NonlinearForm
import Verif.SteadySolve
import Verif.Ode

/-!
# `MISOEvolver` (`src/common/evolver.{hpp,cpp}`)

The time-dependent operator assembled from mass (linear or nonlinear), residual, stiffness and load forms, and its system operator for implicit
stages.  One rank; prolongation is the identity; fully assembled matrices (`LEGACYFULL`; the partially assembled branch applies the same
matrices).  `double` = ℝ.
-/

namespace Verif.Evolver

open Verif.NLForm Matrix

variable {n : ℕ}

/-- A nonlinear form: action and assembled gradient. evolver.hpp:208-215. -/
structure NForm (n : ℕ) where
  f : Vec n → Vec n
  grad : Vec n → Mat n

/-- Constructor arguments, evolver.cpp:209-219; `none` is a null pointer, `ess` the true dofs of the marked boundaries. -/
structure Parts (n : ℕ) where
  nmass : Option (NForm n)
  mass : Option (Mat n)
  res : Option (NForm n)
  stiff : Option (Mat n)
  load : Option (Vec n)
  ent : Option (Vec n → ℝ)
  /-- `res->GetEnergy`, evolver.cpp:408 -/
  energy : Vec n → ℝ
  ess : Finset (Fin n)
  abort : Bool

/-- The object: `mass`, `stiff` are the operator handles, `essMember` the member list, `sysEss` the system operator's list, `work` is `r_work1`
(whatever memory holds at construction). evolver.hpp:205-245. -/
structure Ev (n : ℕ) where
  parts : Parts n
  mass : Option (Mat n)
  stiff : Option (Mat n)
  sysEss : Finset (Fin n)
  work : Vec n

/-- `MISOEvolver::MISOEvolver`, evolver.cpp:209-299, with `SystemOperator::SystemOperator`, 44-81; `none` is the exception.  The mass matrix
is eliminated with the member `ess_tdof_list`, which is still empty there (the list computed at 249-250 is a local variable); it is filled
in the stiffness branch, 279. -/
def construct (p : Parts n) (junk : Vec n) : Option (Ev n) :=
  if p.mass.isSome ∧ p.nmass.isSome then none
  else
    let member0 : Finset (Fin n) := ∅
    let mass := p.mass.map (elim member0)
    let member1 := if p.stiff.isSome then p.ess else member0
    let stiff := p.stiff.map (elim member1)
    let sysEss := if p.mass.isSome then p.ess else if p.res.isSome then p.ess else ∅
    some ⟨p, mass, stiff, sysEss, junk⟩

/-- `MISOEvolver::Mult`, evolver.cpp:303-329: new object (its work vector changes) and `y`; `none` is the exception, or the call of a
mass solver without operator.  `cg M r` is what the conjugate gradient solver returns. -/
def mult (cg : Mat n → Vec n → Vec n) (e : Ev n) (x : Vec n) : Option (Ev n × Vec n) :=
  if e.parts.nmass.isSome then none
  else
    let w := match e.parts.res with
      | some R => R.f x
      | none => e.work
    let w := match e.stiff with
      | some S => w + S *ᵥ x
      | none => w
    let w := match e.parts.load with
      | some l => w + l
      | none => w
    match e.mass with
    | some M => some ({ e with work := w }, (-1 : ℝ) • cg M w)
    | none => none

/-- `SystemOperator::Mult`, evolver.cpp:88-124; `none`: the residual is dereferenced without a check (103). -/
noncomputable def sysMult (e : Ev n) (dt dts : ℝ) (x k : Vec n) : Option (Vec n) :=
  match e.parts.res with
  | none => none
  | some R =>
    let r : Vec n := 0
    let r := match e.parts.nmass with
      | some N => (1 / dts) • (N.f (x + dts • k) - N.f x)
      | none => r
    let r := r + R.f (x + dt • k)
    let r := match e.parts.load with
      | some l => zeroEss e.sysEss (r + l)
      | none => r
    some (match e.parts.mass with
      | some M => zeroEss e.sysEss (r + M *ᵥ k)
      | none => r)

/-- `SystemOperator::GetGradient`, evolver.cpp:128-178. -/
noncomputable def sysGrad (e : Ev n) (dt dts : ℝ) (x k : Vec n) : Option (Mat n) :=
  match e.parts.res with
  | none => none
  | some R =>
    let m := e.parts.mass
    let m := match e.parts.nmass with
      | some N => some (N.grad (x + dts • k))
      | none => m
    let J := R.grad (x + dt • k)
    some (elim e.sysEss (match m with
      | some M => M + dt • J
      | none => J))

/-- A Newton solver: tolerances, limit, linear solver, step length (1 for plain Newton), `iterative_mode`. mfem_extensions.cpp:522-577. -/
structure Newton (n : ℕ) where
  relTol : ℝ
  absTol : ℝ
  maxIter : ℕ
  lin : Mat n → Vec n → Vec n
  scal : Vec n → Vec n → ℝ
  iterative : Bool

/-- The loop of `mfem::NewtonSolver::Mult` for a system `(F, G)`; called at evolver.cpp:339. -/
noncomputable def newtonLoop (N : Newton n) (F : Vec n → Vec n) (G : Vec n → Mat n) (goal : ℝ) : ℕ → Vec n → Vec n × Bool
  | left, k =>
    if Steady.norm2 (F k) ≤ goal then (k, true)
    else match left with
      | 0 => (k, false)
      | left + 1 =>
        let c := N.lin (G k) (F k)
        let s := N.scal k c
        if s = 0 then (k, false) else newtonLoop N F G goal left (k - s • c)

/-- `NewtonSolver::Mult(zero, k)`. MFEM (not in /repo), called at evolver.cpp:339. -/
noncomputable def newtonMult (N : Newton n) (F : Vec n → Vec n) (G : Vec n → Mat n) (k0 : Vec n) : Vec n × Bool :=
  let k := if N.iterative then k0 else 0
  newtonLoop N F G (max (N.relTol * Steady.norm2 (F k)) N.absTol) N.maxIter k

/-- Outcome of `ImplicitSolve`. evolver.cpp:331-347. -/
inductive Out (n : ℕ)
  | crash
  | abort
  | ok (k : Vec n) (N : Newton n)

/-- `MISOEvolver::ImplicitSolve`, evolver.cpp:331-347; `setOperParameters(dt, &x)` passes the default `dt_stage = -1`
(evolver.hpp:248-252). -/
noncomputable def implicitSolve (e : Ev n) (N : Newton n) (dt : ℝ) (x k0 : Vec n) : Out n :=
  match e.parts.res with
  | none => .crash
  | some _ =>
    let F := fun k => (sysMult e dt (-1) x k).getD 0
    let G := fun k => (sysGrad e dt (-1) x k).getD 0
    let it := N.iterative
    let N1 := { N with iterative := false }
    let r := newtonMult N1 F G k0
    let N2 := { N1 with iterative := it }
    if e.parts.abort then (if r.2 then .ok r.1 N2 else .abort) else .ok r.1 N2

/-- `MISOEvolver::Entropy`, evolver.cpp:389-396. -/
def entropy (e : Ev n) (x : Vec n) : Option ℝ := e.parts.ent.map fun f => f x

/-- `MISOEvolver::EntropyChange`, evolver.cpp:398-409: the residual form's energy at `x + dt k`. -/
noncomputable def entropyChange (e : Ev n) (dt : ℝ) (x k : Vec n) : Option ℝ :=
  match e.parts.ent with
  | none => none
  | some _ => some (e.parts.energy (x + dt • k))

end Verif.Evolver
