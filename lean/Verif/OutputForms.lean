import Mathlib.Data.Real.Basic
import Mathlib.Data.List.Basic
import Mathlib.Algebra.BigOperators.Group.List.Basic

/-!
Model of `FunctionalOutput` (`/repo/src/common/functional_output.cpp`, `.hpp`) and `MISOLinearForm`
(`/repo/src/common/miso_linearform.cpp`, `.hpp`): the objects behind every output and every load.

One rank; `double` is ℝ; vectors of true degrees of freedom are lists (their sizes differ from field to field).  The
assembled MFEM forms are parameters: functions of everything the integrators can see (`Env`: the values last distributed
to the registered fields, and the scalars set through `setInputs`).  `none` is an exception (`std::out_of_range` of
`.at`, `NotImplementedException`) or an MFEM size assertion.  Not modelled: attribute markers (see `Boundary.lean` and
`NonlinearForm.lean`), options.
-/

namespace Verif.OutForms

/-- A vector of true dofs (functional_output.cpp:55). -/
abbrev V := List ℝ

/-- `MISOInput`: a scalar or a vector (miso_input.hpp:16-27). -/
inductive Inp | num (x : ℝ) | vec (v : V)

/-- `MISOInputs` (miso_input.hpp:29). -/
abbrev Inputs := String → Option Inp

/-- What integrators see: registered fields and scalars (functional_output.hpp:139, miso_linearform.hpp:160). -/
structure Env where
  field : String → Option V
  scalar : String → ℝ

/-- `setInputs`: every vector input with a registered name is distributed to its field, every scalar goes to the
integrators; whatever is not supplied keeps its value.  functional_output.cpp:13-33, miso_linearform.cpp:17-37.
Simplification: scalars of all names are stored, integrators use those they know. -/
def setInputs (e : Env) (i : Inputs) : Env where
  field s := match e.field s, i s with
    | some _, some (.vec v) => some v
    | o, _ => o
  scalar s := match i s with
    | some (.num x) => x
    | _ => e.scalar s

/-- `InnerProduct(a, b)`, functional_output.cpp:124. -/
def dot (a b : V) : ℝ := (List.zipWith (· * ·) a b).sum

/-- `y.Add(a, x)`, functional_output.cpp:167. -/
def addMul (a : ℝ) (y x : V) : V := List.zipWith (fun p q => p + a * q) y x

/-! ### FunctionalOutput -/

/-- The assembled form and its sensitivities (functional_output.hpp:134-158).  `mult` is
`ParNonlinearForm::Mult`, `scalarSens` `GetEnergy(state_gf)` of the registered scalar sensitivity forms. -/
structure FForm where
  size : ℕ
  stateName : String
  energy : Env → V → ℝ
  mult : Env → V → V
  sens : String → Option (Env → V)
  scalarSens : String → Option (Env → ℝ)

/-- The object: what the integrators see and the work vector (functional_output.hpp:136, 139). -/
structure FObj where
  env : Env
  scratch : V

/-- `scratch.SetSize(n)`: unchanged if it already has that size, otherwise whatever the memory holds (`fresh`).
functional_output.cpp:59, 97. -/
def resize (fresh : ℕ → V → V) (n : ℕ) (s : V) : V := if s.length = n then s else fresh n s

/-- `calcOutput`, functional_output.cpp:52-65: without a state input of the right size the form is evaluated at the
content of the work vector.  Not modelled: a scalar under the name of the state (an exception). -/
noncomputable def calcOutput (F : FForm) (fresh : ℕ → V → V) (o : FObj) (i : Inputs) : FObj × ℝ :=
  let env := setInputs o.env i
  match i F.stateName with
  | some (.vec u) =>
    if u.length ≠ F.size then
      let s := resize fresh F.size o.scratch
      (⟨env, s⟩, F.energy env s)
    else (⟨env, o.scratch⟩, F.energy env u)
  | _ =>
    if 0 ≠ F.size then
      let s := resize fresh F.size o.scratch
      (⟨env, s⟩, F.energy env s)
    else (⟨env, o.scratch⟩, F.energy env [])

/-- `wrt.substr(0, wrt.find(':'))`, functional_output.cpp:112. -/
def key (wrt : String) : String := String.ofList (wrt.toList.takeWhile fun c => c ≠ ':')

/-- `Mult(state, scratch)` with the size checks of MFEM, functional_output.cpp:100-102. -/
def multAt (F : FForm) (env : Env) (n : ℕ) : Option V :=
  (env.field "state").bind fun u => if u.length = F.size ∧ n = F.size then some (F.mult env u) else none

/-- `ParallelAssemble(scratch)` of a registered sensitivity, functional_output.cpp:120-121. -/
def sensAt (F : FForm) (env : Env) (wrt : String) (n : ℕ) : Option V :=
  (F.sens wrt).bind fun g => if (g env).length = n then some (g env) else none

/-- `GetEnergy(state_gf)` of a registered scalar sensitivity, functional_output.cpp:106-117, 131-140. -/
def scalarAt (F : FForm) (env : Env) (wrt : String) : Option ℝ :=
  (env.field "state").bind fun _ => (F.scalarSens (key wrt)).map fun g => g env

/-- `jacobianVectorProduct`, functional_output.cpp:93-125. -/
noncomputable def jvp (F : FForm) (o : FObj) (wrtDot : V) (wrt : String) : Option (FObj × ℝ) :=
  if wrt = "state" then
    (multAt F o.env wrtDot.length).map fun s => (⟨o.env, s⟩, dot s wrtDot)
  else if wrtDot.length = 1 then
    (scalarAt F o.env wrt).map fun x => (⟨o.env, [x]⟩, dot [x] wrtDot)
  else (sensAt F o.env wrt wrtDot.length).map fun s => (⟨o.env, s⟩, dot s wrtDot)

/-- Scalar `vectorJacobianProduct`, functional_output.cpp:127-143; `outBar` is `out_bar(0)`. -/
def vjpScalar (F : FForm) (o : FObj) (outBar : ℝ) (wrt : String) : Option ℝ :=
  (scalarAt F o.env wrt).map fun x => x * outBar

/-- Vector `vectorJacobianProduct`, functional_output.cpp:145-168. -/
def vjp (F : FForm) (o : FObj) (outBar : ℝ) (wrt : String) (wrtBar : V) : Option (FObj × V) :=
  if wrt = "state" then
    (multAt F o.env wrtBar.length).map fun s => (⟨o.env, s⟩, addMul outBar wrtBar s)
  else (sensAt F o.env wrt wrtBar.length).map fun s => (⟨o.env, s⟩, addMul outBar wrtBar s)

/-! ### MISOLinearForm -/

/-- The assembled load and its sensitivity forms (miso_linearform.hpp:143-177). -/
structure LForm where
  ess : ℕ → Bool
  adjointName : String
  load : Env → V
  fwd : String → Bool
  fwdScalar : String → Bool
  rev : String → Option (Env → V)
  revScalar : String → Option (Env → ℝ)

/-- `v.SetSubVector(ess_tdof_list, 0.0)`, miso_linearform.cpp:59. -/
def mask (ess : ℕ → Bool) (v : V) : V := v.mapIdx fun i x => if ess i then 0 else x

/-- `addLoad`, miso_linearform.cpp:54-61. -/
def addLoad (L : LForm) (e : Env) (tv : V) : V := List.zipWith (· + ·) tv (mask L.ess (L.load e))

/-- Scalar `jacobianVectorProduct`, miso_linearform.cpp:63-73. -/
def lfJvpScalar (L : LForm) (wrt : String) : Option ℝ := if L.fwdScalar wrt then none else some 0

/-- Vector `jacobianVectorProduct`, miso_linearform.cpp:75-85: the result is not touched. -/
def lfJvp (L : LForm) (wrt : String) (resDot : V) : Option V := if L.fwd wrt then none else some resDot

/-- `adjoint.distributeSharedDofs(psi)`, miso_linearform.cpp:95-96, 119-120. -/
def setAdjoint (L : LForm) (e : Env) (psi : V) : Env :=
  { e with field := fun s => if s = L.adjointName then some psi else e.field s }

/-- Scalar `vectorJacobianProduct`, miso_linearform.cpp:87-104: the seed is distributed as it is. -/
def lfVjpScalar (L : LForm) (e : Env) (loadBar : V) (wrt : String) : Option ℝ :=
  match L.revScalar wrt with
  | none => some 0
  | some g =>
    let e := setAdjoint L e loadBar
    (e.field "state").map fun _ => g e

/-- Vector `vectorJacobianProduct`, miso_linearform.cpp:106-131. -/
def lfVjp (L : LForm) (e : Env) (loadBar : V) (wrt : String) (wrtBar : V) : V :=
  match L.rev wrt with
  | none => wrtBar
  | some g =>
    let e := setAdjoint L e (mask L.ess loadBar)
    List.zipWith (· + ·) wrtBar (g e)

end Verif.OutForms
