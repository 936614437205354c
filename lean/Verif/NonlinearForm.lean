import Mathlib.Data.Matrix.Mul
import Mathlib.Data.Real.Basic
import Verif.Boundary

/-!
# `MISONonlinearForm` (`src/physics/miso_nonlinearform.{hpp,cpp}`)

One rank, true dofs `Fin n`, `double` = ℝ.  `P` is the type of everything the integrators receive through `setInputs`
(scalars and fields other than the state).  MFEM's assembled residual and gradient are parameters `R p u`, `J p u`.

MFEM semantics assumed: `ParNonlinearForm::Mult` zeroes essential rows; `Ae.EliminateRowsCols(A, ess)` leaves in `A` the matrix with essential rows and columns
replaced by those of the identity and in `Ae` the difference (old `A` minus new `A`); `EliminateRows` zeroes rows.
-/

namespace Verif.NLForm

open Matrix

/-- `mfem::Vector` of true dofs: miso_nonlinearform.cpp:62-89. -/
abbrev Vec (n : ℕ) := Fin n → ℝ
/-- `mfem::HypreParMatrix` by entry: miso_nonlinearform.cpp:105-135. -/
abbrev Mat (n : ℕ) := Matrix (Fin n) (Fin n) ℝ

variable {n : ℕ} {P : Type}

/-- `v.SetSubVector(ess, 0.0)`. miso_nonlinearform.cpp:62-89. -/
def zeroEss (ess : Finset (Fin n)) (v : Vec n) : Vec n := fun i => if i ∈ ess then 0 else v i

/-- Object state.  `bc` is the true vector of the field `"dirichlet_bc"` if registered; `state`/`adjoint` those fields' last distributed values.
miso_nonlinearform.hpp:166-218. -/
structure Form (n : ℕ) (P : Type) where
  ess : Finset (Fin n)
  p : P
  bc : Option (Vec n)
  jac : Option (Mat n)
  jacE : Option (Mat n)
  jacT : Option (Mat n)
  scratch : Vec n

/-- The assembled spatial form: residual and gradient for given parameters.
miso_nonlinearform.cpp:62-135. -/
structure Phys (n : ℕ) (P : Type) where
  R : P → Vec n → Vec n
  J : P → Vec n → Mat n

/-- `setInputs` (`miso_nonlinearform.cpp:18-35`). -/
def Form.setInputs (f : Form n P) (p : P) : Form n P := { f with p := p }

/-- `evaluate` (`miso_nonlinearform.cpp:62-89`): new object state (`scratch` receives the boundary values) and residual.
With no essential dofs the bc branch would be a no-op, as in the code's early return. -/
def Form.evaluate (F : Phys n P) (f : Form n P) (u : Vec n) : Form n P × Vec n :=
  let res := zeroEss f.ess (F.R f.p u)
  if f.ess = ∅ then (f, res)
  else match f.bc with
    | some bc => ({ f with scratch := bc }, fun i => if i ∈ f.ess then u i - bc i else res i)
    | none => (f, res)

/-- What `EliminateRowsCols` leaves in the matrix. miso_nonlinearform.cpp:105-135. -/
def elim (ess : Finset (Fin n)) (A : Mat n) : Mat n := fun i j =>
  if i ∈ ess ∨ j ∈ ess then (if i = j then 1 else 0) else A i j

/-- What `EliminateRowsCols` followed by `EliminateRows` leaves in `jac_e`.
miso_nonlinearform.cpp:159-180. -/
def elimE (ess : Finset (Fin n)) (A : Mat n) : Mat n := fun i j =>
  if i ∈ ess then 0 else A i j - elim ess A i j

/-- `getJacobian` (`miso_nonlinearform.cpp:105-135`). -/
def Form.getJacobian (F : Phys n P) (f : Form n P) (u : Vec n) : Form n P :=
  let A := F.J f.p u
  { f with jac := some (elim f.ess A), jacE := some (elimE f.ess A), jacT := none }

/-- `getJacobianTranspose` (`miso_nonlinearform.cpp:137-157`); `none` is the `MISOException`. -/
def Form.getJacobianTranspose (f : Form n P) : Option (Form n P × Mat n) :=
  match f.jacT with
  | some T => some (f, T)
  | none => match f.jac with
    | some A => some ({ f with jacT := some Aᵀ }, Aᵀ)
    | none => none

/-- `linearize` (`miso_nonlinearform.cpp:91-103`). -/
def Form.linearize (F : Phys n P) (f : Form n P) (p : P) (u : Vec n) : Form n P :=
  let f1 := f.setInputs p
  let f2 := match f1.jac with
    | some _ => f1
    | none => f1.getJacobian F u
  match f2.jacT, f2.jac with
  | none, some A => { f2 with jacT := some Aᵀ }
  | _, _ => f2

/-- Vector `jacobianVectorProduct` with `wrt == "state"` (`miso_nonlinearform.cpp:221-250`): accumulates into `res_dot`; `none` is the exception. -/
def Form.jvpState (f : Form n P) (wrtDot resDot : Vec n) : Option (Form n P × Vec n) :=
  match f.jac, f.jacE with
  | some A, some Ae => some ({ f with scratch := zeroEss f.ess wrtDot },
      resDot + A *ᵥ zeroEss f.ess wrtDot + Ae *ᵥ wrtDot)
  | _, _ => none

/-- Vector `vectorJacobianProduct` with `wrt == "state"` (`miso_nonlinearform.cpp:277-309`). -/
def Form.vjpState (f : Form n P) (resBar wrtBar : Vec n) : Option (Form n P × Vec n) :=
  match f.jac, f.jacE with
  | some A, some Ae => some ({ f with scratch := zeroEss f.ess resBar },
      wrtBar + Aᵀ *ᵥ zeroEss f.ess resBar + Aeᵀ *ᵥ resBar)
  | _, _ => none

/-- Vector `vectorJacobianProduct` with respect to a field of `m` dofs (`miso_nonlinearform.cpp:311-337`).  `G` is the derivative of the unconstrained residual
with respect to the field; the sensitivity integrators are assumed to assemble `adjointᵀ G`. -/
def Form.vjpField {m : ℕ} (f : Form n P) (G : Matrix (Fin n) (Fin m) ℝ) (resBar : Vec n) (wrtBar : Fin m → ℝ) : Fin m → ℝ :=
  wrtBar + Gᵀ *ᵥ zeroEss f.ess resBar

/-- Scalar `vectorJacobianProduct` (`miso_nonlinearform.cpp:257-275`): `g` is the derivative of the unconstrained residual with respect to the scalar; the seed is *not* zeroed. -/
def Form.vjpScalar (_f : Form n P) (g : Vec n) (resBar : Vec n) : ℝ := resBar ⬝ᵥ g

/-- `setUpAdjointSystem` (`miso_nonlinearform.cpp:159-180`).  Returns the object, the operator handed to the solver, the modified `state_bar` and `adjoint`.
`scratch` keeps the essential entries of `state_bar` (modelled as a full vector). -/
def Form.setUpAdjoint (f : Form n P) (stateBar adjoint : Vec n) : Option (Form n P × Mat n × Vec n × Vec n) :=
  match f.getJacobianTranspose with
  | none => none
  | some (f', T) =>
    if f'.ess = ∅ then some (f', T, stateBar, adjoint)
    else some ({ f' with scratch := stateBar }, T, zeroEss f'.ess stateBar, zeroEss f'.ess adjoint)

/-- `finalizeAdjointSystem` (`miso_nonlinearform.cpp:182-207`).  The code passes `adjoint` as both operand and result of `MultTranspose(1.0, x, -1.0, y)`; the model uses the
mathematical value `y = Aeᵀ x - y` (simplification: aliasing effects inside hypre are not modelled). -/
def Form.finalizeAdjoint (f : Form n P) (adjoint : Vec n) : Option (Vec n) :=
  if f.ess = ∅ then some adjoint
  else
    let adj := fun i => if i ∈ f.ess then f.scratch i else adjoint i
    match f.jacE with
    | none => none
    | some Ae => some (Aeᵀ *ᵥ adj - adj)

/-! ### Registration of integrators -/

/-- An integrator registered in the underlying `mfem::ParNonlinearForm`: `marker = none` means it acts everywhere; `kind` separates domain from boundary integrators.
miso_nonlinearform.hpp:220-253. -/
structure Integ (E : Type) where
  dom : Bool
  marker : Option (List ℤ)
  contrib : E → ℝ

/-- Elements (or boundary elements) with their attribute; MFEM applies an integrator if it has no marker or `marker[attr-1] ≠ 0`.
miso_nonlinearform.hpp:220-253. -/
def applies {E : Type} (i : Integ E) (dom : Bool) (attr : ℕ) : Bool :=
  i.dom == dom && match i.marker with
    | none => true
    | some m => m.getD (attr - 1) 0 != 0

/-- Sum of contributions: `cells` lists `(isDomain, attribute, cell)`.
miso_nonlinearform.cpp:62-89. -/
def assemble {E : Type} (is : List (Integ E)) (cells : List (Bool × ℕ × E)) : ℝ :=
  (cells.map fun c => ((is.filter fun i => applies i c.1 c.2.1).map fun i => i.contrib c.2.2).sum).sum

/-- `addDomainIntegrator(integ)` (`miso_nonlinearform.hpp:220-233`). -/
def addDomain {E : Type} (is : List (Integ E)) (c : E → ℝ) : List (Integ E) := is ++ [⟨true, none, c⟩]

/-- `addDomainIntegrator(integ, attrs)` (`miso_nonlinearform.hpp:235-253`): the marker is built (sized by the largest *boundary* attribute) but
`nf.AddDomainIntegrator(integrator)` is called without it.  `none`: out-of-bounds write while building the marker. -/
def addDomainAttrs {E : Type} (bdrMax : ℕ) (is : List (Integ E)) (c : E → ℝ) (attrs : List ℤ) : Option (List (Integ E)) :=
  match Boundary.attrVecToArray attrs (List.replicate bdrMax 0) with
  | .ok _ => some (is ++ [⟨true, none, c⟩])
  | _ => none

/-- `addBdrFaceIntegrator(integ, attrs)` (`miso_nonlinearform.hpp:282-306`). -/
def addBdrAttrs {E : Type} (bdrMax : ℕ) (is : List (Integ E)) (c : E → ℝ) (attrs : List ℤ) : Option (List (Integ E)) :=
  match Boundary.attrVecToArray attrs (List.replicate bdrMax 0) with
  | .ok m => some (is ++ [⟨false, some m, c⟩])
  | _ => none

end Verif.NLForm
