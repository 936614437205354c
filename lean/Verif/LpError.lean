import Mathlib.Analysis.SpecialFunctions.Pow.Real
import Mathlib.Analysis.SpecialFunctions.Sqrt
import Mathlib.Algebra.BigOperators.Group.Finset.Basic
import Mathlib.Data.Fintype.Basic

/-!
# Error norms of finite element states (`src/physics/finite_element_state.cpp`)

What the functions see of the mesh and the grid function is, for every MPI rank, element and
quadrature point, the factor `ip.weight * T->Weight()`, the value of the state and the value of
the exact solution there (`GetValues`, `GetVectorValues` and `Eval` are MFEM's).  `double` is `ℝ`;
`none` is NaN.
-/

set_option linter.dupNamespace false

namespace Verif.LpError

/-- The order of the norm: a finite number or `mfem::infinity()`.
finite_element_state.cpp:23-85. -/
inductive Order
  | fin (p : ℝ)
  | inf

/-- A quadrature point of a scalar state. finite_element_state.cpp:189-221. -/
structure Pt where
  w : ℝ
  val : ℝ
  exact : ℝ

/-- A quadrature point of a state with `n` components. finite_element_state.cpp:239-315. -/
structure VPt (n : ℕ) where
  w : ℝ
  val : Fin n → ℝ
  exact : Fin n → ℝ

open Classical in
/-- C's `pow` (used at `finite_element_state.cpp:213,228,232,291,305,309`): NaN for a negative base
and a non-integral exponent. -/
noncomputable def cpow (x p : ℝ) : Option ℝ :=
  if 0 ≤ x then some (x ^ p)
  else if h : ∃ n : ℤ, p = n then some (x ^ (Classical.choose h))
  else none

/-- `loc_error` after one quadrature point: `finite_element_state.cpp:210-219` and `288-298`;
`e` is `ip_error`. -/
noncomputable def step (p : Order) (loc : Option ℝ) (w e : ℝ) : Option ℝ :=
  match p with
  | .fin p => match loc, cpow e p with
    | some l, some v => some (l + w * v)
    | _, _ => none
  | .inf => loc.map fun l => max l e

/-- The loops over elements and points (`finite_element_state.cpp:189-221`, `254-300`). -/
noncomputable def accumulate (p : Order) (elems : List (List (ℝ × ℝ))) : Option ℝ :=
  elems.foldl (fun acc pts => pts.foldl (fun acc q => step p acc q.1 q.2) acc) (some 0)

/-- The signed `p`-th root (`finite_element_state.cpp:223-234`, `301-312`). -/
noncomputable def root (p : Order) (x : Option ℝ) : Option ℝ :=
  match p with
  | .fin p => x.bind fun x => if x < 0 then (cpow (-x) (1 / p)).map (- ·) else cpow x (1 / p)
  | .inf => x

/-- One rank's contribution to the `MPI_SUM` in `mfem::GlobalLpNorm` (MFEM): the signed power.
called from finite_element_state.cpp:84,175,236,314. -/
noncomputable def sumStep (p : ℝ) (l acc : Option ℝ) : Option ℝ :=
  match l, acc with
  | some l, some a => (if l < 0 then (cpow (-l) p).map (- ·) else cpow l p).map (· + a)
  | _, _ => none

/-- `mfem::GlobalLpNorm` (MFEM, not in /repo; called at `finite_element_state.cpp:84,175,236,314`):
signed `p`-th powers are summed over the ranks, then the signed root; the maximum for infinity.
The maximum starts from the first rank; there is at least one. -/
noncomputable def globalLpNorm (p : Order) (locs : List (Option ℝ)) : Option ℝ :=
  match p with
  | .fin p =>
    root (.fin p) (locs.foldr (sumStep p) (some 0))
  | .inf => match locs with
    | [] => some 0
    | l :: ls => ls.foldr (fun l acc => match l, acc with
      | some l, some a => some (max l a)
      | _, _ => none) l

/-- `calcLpError(state, Coefficient, p)` (`finite_element_state.cpp:178-237`). -/
noncomputable def calcLpError (p : Order) (ranks : List (List (List Pt))) : Option ℝ :=
  globalLpNorm p (ranks.map fun elems =>
    root p (accumulate p (elems.map fun pts => pts.map fun q => (q.w, |q.val - q.exact|))))

/-- `ip_error` of the vector version (`finite_element_state.cpp:272-288`): the Euclidean length,
or entry `i` — without `fabs`.  An entry out of range is undefined in the program and not
representable here. -/
noncomputable def vErr {n : ℕ} (entry : Option (Fin n)) (q : VPt n) : ℝ :=
  match entry with
  | none => Real.sqrt (∑ i, (q.val i - q.exact i) ^ 2)
  | some i => q.val i - q.exact i

/-- `calcLpError(state, VectorCoefficient, p, entry)` (`finite_element_state.cpp:239-315`);
`entry = none` is `entry < 0`. -/
noncomputable def calcLpErrorVec {n : ℕ} (p : Order) (entry : Option (Fin n))
    (ranks : List (List (List (VPt n)))) : Option ℝ :=
  globalLpNorm p (ranks.map fun elems =>
    root p (accumulate p (elems.map fun pts => pts.map fun q => (q.w, vErr entry q))))

/-- `loc_error` of `calcL2Error` (`finite_element_state.cpp:34-83`, `101-174`): the accumulated
`weight * e * e` and its signed square root. -/
noncomputable def l2Local (elems : List (List (ℝ × ℝ))) : ℝ :=
  let s := elems.foldl (fun acc pts => pts.foldl (fun acc q => acc + q.1 * (q.2 * q.2)) acc) 0
  if s < 0 then -Real.sqrt (-s) else Real.sqrt s

/-- `calcL2Error(state, Coefficient)` (`finite_element_state.cpp:23-85`).  The state's value at the
point, computed there from `vdofs` and the shape functions, is `val`. -/
noncomputable def calcL2Error (ranks : List (List (List Pt))) : Option ℝ :=
  globalLpNorm (.fin 2) (ranks.map fun elems =>
    some (l2Local (elems.map fun pts => pts.map fun q => (q.w, q.val - q.exact))))

/-- `calcL2Error(state, VectorCoefficient, entry)` (`finite_element_state.cpp:87-176`). -/
noncomputable def calcL2ErrorVec {n : ℕ} (entry : Option (Fin n))
    (ranks : List (List (List (VPt n)))) : Option ℝ :=
  globalLpNorm (.fin 2) (ranks.map fun elems =>
    some (l2Local (elems.map fun pts => pts.map fun q => (q.w, vErr entry q))))

end Verif.LpError
