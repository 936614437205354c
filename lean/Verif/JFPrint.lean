import Verif.Operators

/-!
Model of `JacobianFree::print` (`/repo/src/common/matrix_operators.cpp:182-225`) and of the size check and re-targeting of
`SumOfOperators` (`matrix_operators.cpp:10-37`).  The file is the sequence of things written to it: numbers, separators, line ends
(`setprecision(16)` is not modelled; `remove` makes the file empty before).
-/

namespace Verif.Operators

open Matrix

variable {n : ℕ}

/-- What is written: a number, `", "`, or `endl`. matrix_operators.cpp:209-220. -/
inductive Tok | num (x : ℝ) | comma | eol

/-- The vector `y` of column `j`, matrix_operators.cpp:190-208. -/
noncomputable def JF.printed (s : JF n) (j : Fin n) : Vec n :=
  let eps := stepSize s.state
  let pert := Function.update s.state j (s.state j + eps)
  let y := (1 / eps) • (s.res pert - s.resAtState)
  let y := if |s.scale - 1| > tiny then s.scale • y else y
  match s.explicit with
  | some E => y + E (Function.update 0 j 1)
  | none => y

/-- The inner loop over the entries, matrix_operators.cpp:209-220: `height` entries starting at index `i`. -/
def writeRow (height : ℕ) (y : ℕ → ℝ) : ℕ → ℕ → List Tok
  | 0, _ => []
  | k + 1, i => .num (y i) :: (if i ≠ height - 1 then .comma else .eol) :: writeRow height y k (i + 1)

/-- The vector as indexed by the loop, matrix_operators.cpp:211. -/
def ext (y : Vec n) (i : ℕ) : ℝ := if h : i < n then y ⟨i, h⟩ else 0

/-- `JacobianFree::print`, matrix_operators.cpp:182-225: the file afterwards, whatever it held before (`old`): it is removed first. -/
noncomputable def JF.print (s : JF n) (_old : List Tok) : List Tok :=
  (List.finRange n).flatMap fun j => writeRow n (ext (s.printed j)) n 0

/-- A `SumOfOperators` as far as sizes go: heights and widths of the two operators, size of the work vector; the constructor,
matrix_operators.cpp:10-26 (`none` = the exception). -/
structure SumOp where
  (hA wA hB wB work : ℕ)

/-- matrix_operators.cpp:10-26. -/
def mkSum (hA wA hB wB : ℕ) : Option SumOp := if hA ≠ hB ∨ wA ≠ wB then none else some ⟨hA, wA, hB, wB, wA⟩

/-- `SumOfOperators::Add`, matrix_operators.cpp:28-37. -/
def SumOp.add (s : SumOp) (hA wA hB wB : ℕ) : SumOp := { s with hA, wA, hB, wB }

end Verif.Operators
