import Verif.Sbp
import Verif.OrthoPoly

/-!
Model of the concrete SBP elements' Vandermonde matrices and off-node shape functions,
`/repo/src/common/sbp_fe.cpp` (real arithmetic because of the `sqrt`s).
-/

namespace Verif.Sbp
open Verif.OrthoPoly

/-- The `l`-th orthonormal polynomial of the segment basis at reference coordinate `x` of `[0,1]`:
`jacobiPoly` at `2 x - 1` (sbp_fe.cpp:416-421, 452-456). -/
noncomputable def segPoly (x : ℝ) (l : ℕ) : ℝ := jacobiPoly (2 * x - 1) 0 0 l

/-- The `l`-th triangle basis polynomial at `(x, y)` of the unit triangle (sbp_fe.cpp:823-836,
869-880); the column order is that of `getVandermondeForTri`. -/
noncomputable def triPoly (d : ℕ) (x y : ℝ) (l : ℕ) : ℝ :=
  ((triCols d)[l]?.map fun ij => prorio2 (2 * x - 1) (2 * y - 1) ij.1 ij.2).getD 0

/-- The `l`-th tetrahedron basis polynomial (sbp_fe.cpp:1004-1020, 1056-1068). -/
noncomputable def tetPoly (d : ℕ) (x y z : ℝ) (l : ℕ) : ℝ :=
  ((tetCols d)[l]?.map fun ijk =>
    prorio3 (2 * x - 1) (2 * y - 1) (2 * z - 1) ijk.1 ijk.2.1 ijk.2.2).getD 0

/-- `SBPSegmentElement` constructor, Vandermonde part, sbp_fe.cpp:413-424 (`V *= sqrt(2.0)`); the
nodes, weights and `Q` are parameters. -/
noncomputable def segElem (d : ℕ) (dof : ℕ) (H : ℕ → ℝ) (Q : ℕ → ℕ → ℕ → ℝ) (x : ℕ → ℕ → ℝ) :
    Elem ℝ :=
  { dim := 1, dof := dof, H := H, Q := Q, x := x, nv := d + 1,
    V := fun i l => segPoly (x i 0) l * √2 }

/-- `SBPTriangleElement` constructor, Vandermonde part, sbp_fe.cpp:822-837 (`V *= 2.0`). -/
noncomputable def triElem (d : ℕ) (dof : ℕ) (H : ℕ → ℝ) (Q : ℕ → ℕ → ℕ → ℝ) (x : ℕ → ℕ → ℝ) :
    Elem ℝ :=
  { dim := 2, dof := dof, H := H, Q := Q, x := x, nv := (d + 1) * (d + 2) / 2,
    V := fun i l => triPoly d (x i 0) (x i 1) l * 2 }

/-- `SBPTetrahedronElement` constructor, Vandermonde part, sbp_fe.cpp:1003-1021
(`V *= 2.0*sqrt(2.0)`). -/
noncomputable def tetElem (d : ℕ) (dof : ℕ) (H : ℕ → ℝ) (Q : ℕ → ℕ → ℕ → ℝ) (x : ℕ → ℕ → ℝ) :
    Elem ℝ :=
  { dim := 3, dof := dof, H := H, Q := Q, x := x, nv := (d + 1) * (d + 2) * (d + 3) / 6,
    V := fun i l => tetPoly d (x i 0) (x i 1) (x i 2) l * (2 * √2) }

/-- Polynomial indices in the order of the loops of `SBPTriangleElement::CalcShape`,
sbp_fe.cpp:874-884. -/
def triShapeCols (d : ℕ) : List (ℕ × ℕ) :=
  (List.range (d + 1)).flatMap fun r => (List.range (r + 1)).map fun j => (r - j, j)

/-- Polynomial indices in the order of the loops of `SBPTetrahedronElement::CalcShape`,
sbp_fe.cpp:1056-1062: `j` outer, `k` inner, indices `(r-j-k, k, j)`. -/
def tetShapeCols (d : ℕ) : List (ℕ × ℕ × ℕ) :=
  (List.range (d + 1)).flatMap fun r => (List.range (r + 1)).flatMap fun j =>
    (List.range (r - j + 1)).map fun k => (r - j - k, k, j)

/-- `SBPSegmentElement::CalcShape` off the nodes, sbp_fe.cpp:441-463 (`poly *= 2.0`). -/
noncomputable def segShape (e : Elem ℝ) (x : ℝ) : ℕ → ℝ := calcShapeOff e 2 (segPoly x)

/-- `SBPTriangleElement::CalcShape` off the nodes, sbp_fe.cpp:860-886 (`poly *= 2.0`). -/
noncomputable def triShape (e : Elem ℝ) (d : ℕ) (x y : ℝ) : ℕ → ℝ :=
  calcShapeOff e 2 fun l => ((triShapeCols d)[l]?.map fun ij =>
    prorio2 (2 * x - 1) (2 * y - 1) ij.1 ij.2).getD 0

/-- `SBPTetrahedronElement::CalcShape` off the nodes, sbp_fe.cpp:1040-1075
(`poly *= 2.0*sqrt(2.0)`). -/
noncomputable def tetShape (e : Elem ℝ) (d : ℕ) (x y z : ℝ) : ℕ → ℝ :=
  calcShapeOff e (2 * √2) fun l => ((tetShapeCols d)[l]?.map fun ijk =>
    prorio3 (2 * x - 1) (2 * y - 1) (2 * z - 1) ijk.1 ijk.2.1 ijk.2.2).getD 0

end Verif.Sbp
