import Mathlib.Analysis.Real.Sqrt

/-!
# Distance to a surface (`src/common/surface_def.hpp:189-318`), planar case (the constructor throws for any other dimension)

Real arithmetic.  An element is its transformation: position, Jacobian and second derivative as functions of the reference coordinate.
-/

namespace Verif.SurfaceDist

/-- A point of the plane (`mfem::Vector` of size 2): surface_def.hpp:189-318. -/
abbrev P2 := ℝ × ℝ

/-- An `ElementTransformation` of a segment embedded in the plane. surface_def.hpp:204-241. -/
structure Elem where
  pos : ℝ → P2
  jac : ℝ → P2
  hess : ℝ → P2

/-- Inner product of two `mfem::Vector`s: surface_def.hpp:242-316. -/
def dot (u v : P2) : ℝ := u.1 * v.1 + u.2 * v.2

/-- `Vector::Norml2`. surface_def.hpp:242-316. -/
noncomputable def norm (u : P2) : ℝ := Real.sqrt (dot u u)

/-- How the search can end: surface_def.hpp:204-318. -/
inductive Res where
  | dist (d : ℝ)
  | linearSolveFailed
  | newtonFailed

/-- MFEM's `Geometry::ProjectPoint` on the reference segment: clips to `[0,1]`; `false` when it had to.
called from surface_def.hpp:242-316. -/
noncomputable def project (xi : ℝ) : ℝ × Bool := if xi < 0 then (0, false) else if 1 < xi then (1, false) else (xi, true)

/-- The step taken for gradient `g` and Hessian `H` (`surface_def.hpp:271-292`): Newton's, unless it is not a descent direction. -/
noncomputable def stepOf (g H : ℝ) : ℝ :=
  let newton := -g / H
  if newton * g > 0 then (-(1 / 10) / |g|) * g else newton

/-- Newton loop (`surface_def.hpp:242-316`) for a surface in the plane (one reference coordinate).  `ltol` is the pivot tolerance of MFEM's `LinearSolve` (1e-9 by default), `tol = 1e-13`. -/
noncomputable def loop (e : Elem) (x : P2) (tol ltol : ℝ) : ℕ → ℝ → Bool → Res
  | 0, _, _ => .newtonFailed
  | n + 1, xi, hit =>
    let res := e.pos xi - x
    let g := dot (e.jac xi) res
    if |g| < tol then .dist (norm res)
    else
      let H := dot (e.jac xi) (e.jac xi) + dot (e.hess xi) res
      if |H| ≤ ltol then .linearSolveFailed
      else
        let pr := project (xi + stepOf g H)
        if pr.2 then loop e x tol ltol n pr.1 hit
        else if hit then .dist (norm res)
        else loop e x tol ltol n pr.1 true

/-- `solveDistance` (`surface_def.hpp:204-318`): starts at the centre, at most 30 iterations. -/
noncomputable def solveDistance (e : Elem) (x : P2) (tol ltol : ℝ) : Res := loop e x tol ltol 30 (1 / 2) false

/-- A straight element between `a` and `b` (linear nodal function). surface_def.hpp:204-241. -/
noncomputable def segment (a b : P2) : Elem := ⟨fun t => a + t • (b - a), fun _ => b - a, fun _ => 0⟩

/-- `calcDistance` (`surface_def.hpp:189-202`): the distance to one element, the one `GetElementForDof` returns for the node nearest to `x` (`tree.nearest`, property C01). -/
noncomputable def calcDistance (elems : ℕ → Elem) (elemForDof : ℕ → ℕ) (nearest : P2 → ℕ) (x : P2) (tol ltol : ℝ) : Res :=
  solveDistance (elems (elemForDof (nearest x))) x tol ltol

end Verif.SurfaceDist
