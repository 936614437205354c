import Mathlib.Algebra.Order.Field.Basic
import Mathlib.Algebra.Order.Field.Rat
import Verif.MatCoeffs

/-!
# B-splines of the reluctivity models

The reluctivity coefficients hand control points, knots and a degree to the library tinyspline and
evaluate the resulting curve and its derivatives (reluctivity_coefficient.cpp:372-385, 481-501).
tinyspline itself is not part of /repo; what is assumed of it is its documented behaviour:
the constructor and setters reject inconsistent sizes and decreasing knots, `eval` is de Boor's
algorithm in the knot span of the parameter, `derive` returns the spline with the divided
differences of the control points and the outer knots removed.
-/

namespace Verif.BSpline

/-- What the options or the material library provide. reluctivity_coefficient.cpp:150-185. -/
structure Data where
  /-- control points -/
  cps : List ℚ
  /-- knots -/
  knots : List ℚ
  /-- degree of the curve -/
  degree : ℕ

/-- The knots do not decrease. Knot vector of reluctivity_coefficient.cpp:372-385. -/
def sorted : List ℚ → Bool
  | [] => true
  | [_] => true
  | a :: b :: l => decide (a ≤ b) && sorted (b :: l)

/-- A spline. The members of `tinyspline::BSpline` (not in /repo) used at reluctivity_coefficient.cpp:378-385, 488-498. -/
structure Spline where
  /-- control points -/
  c : List ℚ
  /-- knots -/
  t : List ℚ
  /-- degree -/
  p : ℕ
  deriving DecidableEq

/-- `BSpline(cps.size(), 1, degree)` with `setControlPoints` and `setKnots`; `none`: tinyspline throws
(too few control points for the degree, wrong number of knots, decreasing knots).
reluctivity_coefficient.cpp:372-385, 481-501. -/
def mk (d : Data) : Option Spline :=
  if d.cps.length ≤ d.degree ∨ d.knots.length ≠ d.cps.length + d.degree + 1 ∨ sorted d.knots = false then none
  else some ⟨d.cps, d.knots, d.degree⟩

/-- The scaling of the knots by the last one in the `bh` model. reluctivity_coefficient.cpp:489-493. -/
def Data.scaled (d : Data) : Data := { d with knots := d.knots.map (· / d.knots.getLastD 1) }

/-- `derive()`: control points `p (c_{i+1} - c_i) / (t_{i+p+1} - t_{i+1})`, outer knots removed
(tinyspline). tinyspline (not in /repo), called at reluctivity_coefficient.cpp:383, 433, 498. -/
def Spline.derive (s : Spline) : Spline where
  c := (List.range (s.c.length - 1)).map fun i =>
    s.p * (s.c.getD (i + 1) 0 - s.c.getD i 0) / (s.t.getD (i + s.p + 1) 0 - s.t.getD (i + 1) 0)
  t := (s.t.drop 1).dropLast
  p := s.p - 1

section eval
variable {K : Type*} [Field K]

/-- De Boor's algorithm: `d^0_i = c_i`, `d^{r+1}_i = (1 - a) d^r_{i-1} + a d^r_i` with
`a = (x - t_i) / (t_{i+p-r} - t_i)`. tinyspline (not in /repo), behind `eval` at reluctivity_coefficient.cpp:393-444. -/
def deBoor (c t : ℕ → K) (p : ℕ) (x : K) : ℕ → ℕ → K
  | 0, i => c i
  | r + 1, i =>
    let a := (x - t i) / (t (i + p - r) - t i)
    (1 - a) * deBoor c t p x r (i - 1) + a * deBoor c t p x r i

/-- Value at `x`: search for the knot span from `k` on (`more` spans follow), then de Boor in that
span. tinyspline (not in /repo), behind `eval` at reluctivity_coefficient.cpp:393-444. -/
def evalFrom [LinearOrder K] (c t : ℕ → K) (p : ℕ) (x : K) : ℕ → ℕ → K
  | k, 0 => deBoor c t p x p k
  | k, more + 1 => if x < t (k + 1) then deBoor c t p x p k else evalFrom c t p x (k + 1) more

end eval

/-- Control point or knot as a number of `K`. reluctivity_coefficient.cpp:378-382. -/
def fn (K : Type*) [Field K] (l : List ℚ) (i : ℕ) : K := ((l.getD i 0 : ℚ) : K)

/-- `eval(x).result()[0]`. (Outside the knots tinyspline throws; here the first or last polynomial
piece is continued.  The coefficients never evaluate outside.) tinyspline (not in /repo), called at reluctivity_coefficient.cpp:393-444, 511-539. -/
def Spline.eval {K : Type*} [Field K] [LinearOrder K] (s : Spline) (x : K) : K :=
  evalFrom (fn K s.c) (fn K s.t) s.p x s.p (s.c.length - 1 - s.p)

open Verif.MatCoeffs in
/-- The `lognu` coefficient built from spline data; `none`: tinyspline throws.
reluctivity_coefficient.cpp:372-385 (`b_max` the last knot, `dlognudb = lognu.derive()`), 432-435
(`d2lognudb2 = dlognudb.derive()`). -/
noncomputable def logNuOf (d : Data) : Option LogNu :=
  (mk d).map fun s => ⟨((d.knots.getLastD 0 : ℚ) : ℝ), s.eval, s.derive.eval, s.derive.derive.eval⟩

open Verif.MatCoeffs in
/-- The `bh` coefficient built from spline data; `none`: tinyspline throws.
reluctivity_coefficient.cpp:481-501 (`h_max` the last control point, `b_max` the last knot, knots
scaled by it). -/
noncomputable def bhOf (d : Data) : Option BH :=
  (mk d.scaled).map fun s =>
    ⟨((d.cps.getLastD 0 : ℚ) : ℝ), ((d.knots.getLastD 0 : ℚ) : ℝ), s.eval, s.derive.eval⟩

end Verif.BSpline
