import Mathlib.Data.Matrix.Mul
import Mathlib.Data.List.FinRange
import Mathlib.Logic.Function.Basic

/-!
# Mesh warper (`src/utils/mesh_warper/mesh_warper.cpp`, `miso/mesh_warper.py`)

Volume dofs `Fin n`, surface dofs `Fin m`, `idx` the surface indices.  The elasticity form's residual and Jacobian are parameters.
-/

namespace Verif.Warper

open Matrix

variable {K : Type} {n m : ℕ}

/-- `mfem::Vector` of true dofs: mesh_warper.cpp:121-215. -/
abbrev Vec (n : ℕ) (K : Type) := Fin n → K

/-- Loop of `evaluate(MeshWarperResidual&, …)` (`mesh_warper.cpp:121-141`): `nl` is what the form wrote, `surf` the optional `"surf_mesh_coords"` input. -/
def evaluate [Sub K] (idx : Fin m → Fin n) (nl state : Vec n K) (surf : Option (Vec m K)) : Vec n K :=
  match surf with
  | none => nl
  | some s => (List.finRange m).foldl (fun r i => Function.update r (idx i) (state (idx i) - s i)) nl

/-- Vector `jacobianVectorProduct` with respect to `"surf_mesh_coords"` (`mesh_warper.cpp:178-192`); the form itself does not know that input and adds nothing. -/
def jvpSurf [Sub K] (idx : Fin m → Fin n) (wrtDot : Vec m K) (resDot : Vec n K) : Vec n K :=
  (List.finRange m).foldl (fun r i => Function.update r (idx i) (r (idx i) - wrtDot i)) resDot

/-- Vector `vectorJacobianProduct` with respect to `"surf_mesh_coords"` (`mesh_warper.cpp:201-215`). -/
def vjpSurf [Sub K] (idx : Fin m → Fin n) (resBar : Vec n K) (wrtBar : Vec m K) : Vec m K :=
  (List.finRange m).foldl (fun w i => Function.update w i (w i - resBar (idx i))) wrtBar

/-- The same C++ loop on raw buffers: `jacobianVectorProduct(wrt_dot, "surf_mesh_coords", res_dot)` for buffers of any length.  `none`: access outside a buffer.
mesh_warper.cpp:178-192. -/
def jvpRaw [Sub K] : List ℕ → ℕ → List K → List K → Option (List K)
  | [], _, _, resDot => some resDot
  | j :: idx, i, wrtDot, resDot =>
    match wrtDot[i]?, resDot[j]? with
    | some w, some r => jvpRaw idx (i + 1) wrtDot (resDot.set j (r - w))
    | _, _ => none

/-- Reverse mode of the Python component for the surface coordinates (`miso/mesh_warper.py:104-113`): calls `jacobianVectorProduct` with
`wrt_dot = d_residuals`, `res_dot = d_inputs`. -/
def pyRev [Sub K] (idx : List ℕ) (dRes dIn : List K) : Option (List K) := jvpRaw idx 0 dRes dIn

/-- Forward mode of the Python component for the surface coordinates (`miso/mesh_warper.py:93-102`). -/
def pyFwd [Sub K] (idx : List ℕ) (dIn dRes : List K) : Option (List K) := jvpRaw idx 0 dIn dRes

/-- `volume_coords[self.surf_indices] = surface_coords[:]` (`miso/mesh_warper.py:67`). -/
def setSurface (idx : Fin m → Fin n) (vol : Vec n K) (surf : Vec m K) : Vec n K :=
  (List.finRange m).foldl (fun v i => Function.update v (idx i) (surf i)) vol

/-- The essential-dof treatment of the form: residual rows zeroed, Jacobian rows and columns of the identity (`miso_nonlinearform.cpp:62-135`, no `dirichlet_bc` field here). -/
def zeroEss [Zero K] (ess : Fin n → Prop) [DecidablePred ess] (v : Vec n K) : Vec n K := fun i => if ess i then 0 else v i

/-- Row/column elimination on essential dofs (miso_nonlinearform.cpp:105-135), used by
mesh_warper.cpp:290-301. -/
def elim [Zero K] [One K] (ess : Fin n → Prop) [DecidablePred ess] (A : Matrix (Fin n) (Fin n) K) : Matrix (Fin n) (Fin n) K :=
  fun i j => if ess i ∨ ess j then (if i = j then 1 else 0) else A i j

/-- Newton's method as run by `solveForState` (`mesh_warper.cpp:290-301`, `abstract_solver.cpp:88-134`): `x ← x - a c`, where the linear solve returns *some* `c` with
`J c = r` (exact solve) and `a` is whatever scaling the solver's globalisation picks.  `Newton R J ess k x y`: `k` iterations lead from `x` to `y`. -/
inductive Newton [Field K] (R : Vec n K → Vec n K) (J : Vec n K → Matrix (Fin n) (Fin n) K) (ess : Fin n → Prop) [DecidablePred ess] :
    ℕ → Vec n K → Vec n K → Prop
  | done (x) : Newton R J ess 0 x x
  | step (k) (x c y) (a : K) (hsolve : elim ess (J x) *ᵥ c = zeroEss ess (R x)) (rest : Newton R J ess k (x - a • c) y) : Newton R J ess (k + 1) x y

end Verif.Warper
