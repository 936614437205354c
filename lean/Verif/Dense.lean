import Verif.Sbp
import Mathlib.Analysis.SpecialFunctions.Pow.Real

/-!
The MFEM dense linear algebra used by the finite-element integrators.  MFEM is not part of the
repository: these definitions state what its documented operations compute (over `ℝ`), with one use
site each.
-/

namespace Verif.Dense

/-- `mfem::Vector` of size `n` (electromag_integ.cpp:108). -/
abbrev Vec (n : ℕ) := Fin n → ℝ
/-- `mfem::DenseMatrix` of size `m x n` (electromag_integ.cpp:105-106). -/
abbrev Mat (m n : ℕ) := Fin m → Fin n → ℝ

variable {m n k : ℕ}

/-- `a * b` on vectors (electromag_integ.cpp:373). -/
def dotv (a b : Vec n) : ℝ := ∑ i, a i * b i

/-- `Norml2()` (electromag_integ.cpp:151). -/
noncomputable def norm2 (a : Vec n) : ℝ := √(dotv a a)

/-- `Mult(A, B, C)` (electromag_integ.cpp:147). -/
def mulM (A : Mat m k) (B : Mat k n) : Mat m n := fun i j => ∑ l, A i l * B l j

/-- `MultAtB(A, B, C)` (electromag_integ.cpp:424). -/
def mulAtB (A : Mat k m) (B : Mat k n) : Mat m n := fun i j => ∑ l, A l i * B l j

/-- `A.Mult(x, y)` (electromag_integ.cpp:530). -/
def mulV (A : Mat m n) (x : Vec n) : Vec m := fun i => ∑ j, A i j * x j

/-- `A.MultTranspose(x, y)` (electromag_integ.cpp:149). -/
def mulTV (A : Mat m n) (x : Vec m) : Vec n := fun j => ∑ i, A i j * x i

/-- `A.AddMult_a(a, x, y)`; `AddMult` is `a = 1` (electromag_integ.cpp:158, 236). -/
def addMulV (A : Mat m n) (a : ℝ) (x : Vec n) (y : Vec m) : Vec m := fun i => y i + a * mulV A x i

/-- `A.AddMultTranspose(x, y)` (electromag_integ.cpp:844). -/
def addMulTV (A : Mat m n) (x : Vec m) (y : Vec n) : Vec n := fun j => y j + mulTV A x j

/-- `y.Add(a, x)`, `add(y, a, x, y)` (electromag_integ.cpp:409, 534). -/
def axpy (a : ℝ) (x y : Vec n) : Vec n := fun i => y i + a * x i

/-- `y *= a` on vectors (electromag_integ.cpp:156). -/
def scale (a : ℝ) (x : Vec n) : Vec n := fun i => x i * a

/-- `M *= a` on matrices (electromag_integ.cpp:248). -/
def scaleM (a : ℝ) (M : Mat m n) : Mat m n := fun i j => M i j * a

/-- `AddMult_a_VWt(a, v, w, M)`; `AddMultVWt` is `a = 1`, `AddMult_a_VVt` is `v = w`
(electromag_integ.cpp:252, 628, 641). -/
def addVWt (a : ℝ) (v : Vec m) (w : Vec n) (M : Mat m n) : Mat m n := fun i j => M i j + a * (v i * w j)

/-- `AddMultABt(A, B, M)` (electromag_integ.cpp:256). -/
def addABt (A : Mat m k) (B : Mat n k) (M : Mat m n) : Mat m n := fun i j => M i j + ∑ l, A i l * B j l

/-- `x = 0.0` (electromag_integ.cpp:137). -/
def zeroV : Vec n := fun _ => 0
/-- `M = 0.0` (electromag_integ.cpp:181). -/
def zeroM : Mat m n := fun _ _ => 0

end Verif.Dense
