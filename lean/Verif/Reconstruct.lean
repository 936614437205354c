import Mathlib.Data.Matrix.Mul
import Mathlib.Data.Real.Basic
import Mathlib.Data.Fin.VecNotation

/-!
# Reconstruction operators on element patches

`/repo/src/utils/utils.cpp:436-735`: `buildInterpolation` (minimum-norm reconstruction) and
`buildLSInterpolation` (least-squares reconstruction), over `ℝ`. LAPACK's `dgels` is not part of the
repository; it is a parameter `Lapack` whose contract is in the specification.
A point is a function of the coordinate; the centres and quadrature points are columns of the matrices.
-/

namespace Verif.Reconstruct

/-- LAPACK's `dgels('N', m, n, 1, A, b)`: the solution left in `b(1:n)`. utils.cpp:516-526, 646-656. -/
abbrev Lapack := (m n : ℕ) → Matrix (Fin m) (Fin n) ℝ → (Fin m → ℝ) → Fin n → ℝ

/-- The argument checks of `dgels` for `lda = m`, leading dimension `ldb`, `nrhs` right-hand sides and a
work array of length `lwork`: `false` is `info < 0` (an error, nothing is solved). utils.cpp:516-527,
646-657. -/
def dgelsArgsOk (m n nrhs ldb lwork : ℕ) : Bool :=
  decide (max 1 (max m n) ≤ ldb) && decide (max 1 (min m n + max (min m n) nrhs) ≤ lwork)

/-- `pow(x_diff, a) * pow(y_diff, b) * ...`, utils.cpp:487, 503, 595, 610, 628. -/
def mon {d : ℕ} (e : Fin d → ℕ) (x : Fin d → ℝ) : ℝ := ∏ i, x i ^ e i

/-- Exponents of the rows of `r` in one dimension, utils.cpp:483-488. -/
def interpExps1 (degree : ℕ) : List (Fin 1 → ℕ) := ![0] :: (List.range degree).map fun o => ![o + 1]

/-- Exponents of the rows of `r` in two dimensions, in the order of the running `index`,
utils.cpp:494-505: `order = 1 .. degree`, `c = order .. 0`. -/
def interpExps2 (degree : ℕ) : List (Fin 2 → ℕ) :=
  ![0, 0] :: (List.range degree).flatMap fun o => (List.range (o + 2)).map fun t => ![o + 1 - t, t]

/-- The rows of `r` of `buildInterpolation` and their number `m`; `none` is the exception.
utils.cpp:447-464. -/
def interpBasis : (dim degree : ℕ) → Option (ℕ × List (Fin dim → ℕ))
  | 1, k => some (k + 1, interpExps1 k)
  | 2, k => some ((k + 1) * (k + 2) / 2, interpExps2 k)
  | _, _ => none

/-- The matrix `r` for quadrature point `xq`, utils.cpp:477-512; rows that no iteration fills stay 0. -/
noncomputable def interpMat {d : ℕ} (m n : ℕ) (E : List (Fin d → ℕ)) (xc : ℕ → Fin d → ℝ) (xq : Fin d → ℝ) :
    Matrix (Fin m) (Fin n) ℝ :=
  fun row j => match E[row.val]? with
    | some e => mon e (fun i => xc j i - xq i)
    | none => 0

/-- `buildInterpolation`: entry `(i, k)` of `interp` for `n` element centres. utils.cpp:436-534. -/
noncomputable def buildInterpolation (dgels : Lapack) (dim degree n : ℕ) (xc xq : ℕ → Fin dim → ℝ) :
    Option (ℕ → Fin n → ℝ) :=
  (interpBasis dim degree).map fun (b : ℕ × List (Fin dim → ℕ)) i =>
    dgels b.1 n (interpMat b.1 n b.2 xc (xq i)) (fun row => if row.val = 0 then 1 else 0)

/-- Basis of `buildLSInterpolation` in one dimension, utils.cpp:572-580. -/
def lsExps1 (degree : ℕ) : List (Fin 1 → ℕ) := (List.range (degree + 1)).map fun p => ![p]

/-- In two dimensions, utils.cpp:582-598. -/
def lsExps2 (degree : ℕ) : List (Fin 2 → ℕ) :=
  (List.range (degree + 1)).flatMap fun p => (List.range (p + 1)).map fun q => ![p - q, q]

/-- In three dimensions, utils.cpp:600-621. -/
def lsExps3 (degree : ℕ) : List (Fin 3 → ℕ) :=
  (List.range (degree + 1)).flatMap fun p => (List.range (p + 1)).flatMap fun q =>
    (List.range (p - q + 1)).map fun r => ![p - q - r, r, q]

/-- Number of basis functions and their exponents, utils.cpp:549-568. -/
def lsBasis : (dim degree : ℕ) → Option (ℕ × List (Fin dim → ℕ))
  | 1, k => some (k + 1, lsExps1 k)
  | 2, k => some ((k + 1) * (k + 2) / 2, lsExps2 k)
  | 3, k => some ((k + 1) * (k + 2) * (k + 3) / 6, lsExps3 k)
  | _, _ => none

/-- The value of basis function `col` relative to the first centre, utils.cpp:575-619, 667-731. -/
noncomputable def lsVal {d : ℕ} (E : List (Fin d → ℕ)) (xc : ℕ → Fin d → ℝ) (x : Fin d → ℝ) (col : ℕ) : ℝ :=
  match E[col]? with
  | some e => mon e (fun i => x i - xc 0 i)
  | none => 0

/-- The generalised Vandermonde matrix `V`, utils.cpp:570-621. -/
noncomputable def lsMat {d : ℕ} (n m : ℕ) (E : List (Fin d → ℕ)) (xc : ℕ → Fin d → ℝ) : Matrix (Fin n) (Fin m) ℝ :=
  fun i col => lsVal E xc (xc i) col

/-- `buildLSInterpolation`: entry `(j, i)` of `interp`. utils.cpp:537-734. -/
noncomputable def buildLSInterpolation (dgels : Lapack) (dim degree n : ℕ) (xc xq : ℕ → Fin dim → ℝ) :
    Option (ℕ → Fin n → ℝ) :=
  (lsBasis dim degree).map fun (b : ℕ × List (Fin dim → ℕ)) =>
    let coeff : Fin b.1 → Fin n → ℝ := fun col i =>
      dgels n b.1 (lsMat n b.1 b.2 xc) (fun r => if r = i then 1 else 0) col
    fun j i => ∑ col : Fin b.1, lsVal b.2 xc (xq j) col * coeff col i

end Verif.Reconstruct
