import Mathlib.Analysis.SpecialFunctions.Trigonometric.Basic

/-!
# `buildQuarterAnnulusMesh`

`/repo/src/utils/utils.cpp:774-828`, over `ℝ` (no rounding). MFEM's `Mesh::MakeCartesian2D` and the
nodal projection of `GridFunction::ProjectCoefficient` are not in the repository; what they do is
stated here: a `num_rad x num_ang` grid of the parameter rectangle, each cell cut along the diagonal
from its lower left to its upper right corner, and one node per Lagrange point, placed at the image of
the point's position in the (linear) parameter triangle.
-/

namespace Verif.QuarterAnnulus

/-- A point of the plane (the parameters `(r - 1, θ)`, or physical coordinates), utils.cpp:812-817. -/
abbrev Pt := ℝ × ℝ

/-- Vertex `(a, b)` of the Cartesian grid, utils.cpp:779-785. -/
noncomputable def gridVertex (nr na : ℕ) (a b : ℕ) : Pt := (2 * a / nr, Real.pi * 0.5 * b / na)

/-- Is the vertex interior, utils.cpp:797-798? -/
def Interior (eps : ℝ) (v : Pt) : Prop :=
  v.1 > eps ∧ v.1 < 2 - eps ∧ v.2 > eps ∧ v.2 < Real.pi * 0.5 - eps

/-- One vertex of the perturbation loop with the two draws `rnd`, utils.cpp:795-803. -/
noncomputable def perturbVertex (eps : ℝ) (nr na : ℕ) (rnd : ℝ × ℝ) (v : Pt) : Pt :=
  open Classical in
  if Interior eps v then (v.1 + rnd.1 * 2 / nr, v.2 + rnd.2 * Real.pi * 0.5 / na) else v

/-- The parameter vertices of the mesh: `rnd a b` are the two draws for vertex `(a, b)` from
`uniform_real_distribution(-pert, pert)`. utils.cpp:787-805. -/
noncomputable def vertex (eps pert : ℝ) (nr na : ℕ) (rnd : ℕ → ℕ → ℝ × ℝ) (a b : ℕ) : Pt :=
  open Classical in
  if pert > eps then perturbVertex eps nr na (rnd a b) (gridVertex nr na a b) else gridVertex nr na a b

/-- A triangle given by its vertex numbers, in MFEM's order, utils.cpp:779-785. -/
abbrev Tri := Fin 3 → ℕ × ℕ

/-- The two triangles of cell `(i, j)`, utils.cpp:779-785. -/
def cellTri (i j : ℕ) (upper : Bool) : Tri :=
  if upper then ![(i, j), (i + 1, j + 1), (i, j + 1)] else ![(i, j), (i + 1, j), (i + 1, j + 1)]

/-- The coordinate change `xy_fun`, utils.cpp:816-821. -/
noncomputable def xyFun (rt : Pt) : Pt := ((rt.1 + 1) * Real.cos rt.2, (rt.1 + 1) * Real.sin rt.2)

/-- Parameter position of the Lagrange point with barycentric coordinates `l` in a triangle,
utils.cpp:822-825. -/
noncomputable def paramAt (V : ℕ → ℕ → Pt) (T : Tri) (l : Fin 3 → ℝ) : Pt :=
  (∑ k, l k * (V (T k).1 (T k).2).1, ∑ k, l k * (V (T k).1 (T k).2).2)

/-- Position of that node in the mesh returned by `buildQuarterAnnulusMesh`, utils.cpp:774-828. -/
noncomputable def node (eps pert : ℝ) (nr na : ℕ) (rnd : ℕ → ℕ → ℝ × ℝ) (i j : ℕ) (upper : Bool)
    (l : Fin 3 → ℝ) : Pt :=
  xyFun (paramAt (vertex eps pert nr na rnd) (cellTri i j upper) l)

end Verif.QuarterAnnulus
