import Mathlib.Analysis.SpecialFunctions.ExpDeriv
import Mathlib.Algebra.BigOperators.Fin
import Mathlib.Algebra.BigOperators.Ring.Finset

/-!
# Ratio functionals and induced-exponential aggregation
(`src/physics/common_outputs.hpp:119-380`, `src/physics/common_outputs.cpp:88-260`,
`src/physics/mfem_common_integ.cpp:735-985`)

`double` is ℝ.  Vectors are `Fin n → ℝ`.
-/

namespace Verif.Quotient

variable {n : ℕ}

/-- What a ratio functional uses of its numerator/denominator (a `FunctionalOutput`): the value, the Jacobian-vector product, and
the gradient that `vectorJacobianProduct` scales by `out_bar` and adds (`functional_output.cpp:52-168`). -/
structure Func (n : ℕ) where
  val : (Fin n → ℝ) → ℝ
  jvp : (Fin n → ℝ) → (Fin n → ℝ) → ℝ
  grad : (Fin n → ℝ) → Fin n → ℝ

/-- `vectorJacobianProduct(FunctionalOutput)` (`functional_output.cpp:148-168`): `wrt_bar.Add(out_bar(0), scratch)`. -/
def Func.vjp (f : Func n) (u : Fin n → ℝ) (outBar : ℝ) (wrtBar : Fin n → ℝ) : Fin n → ℝ :=
  fun i => wrtBar i + outBar * f.grad u i

/-- `calcOutput` of the ratio functionals (`common_outputs.hpp:147-154, 233-240, 290-306, 350-357`). -/
noncomputable def ratio (N D : Func n) (u : Fin n → ℝ) : ℝ := N.val u / D.val u

/-- `jacobianVectorProduct` of the ratio functionals (`common_outputs.hpp:156-171`, `common_outputs.cpp:88-102,144-164,224-236`). -/
noncomputable def ratioJVP (N D : Func n) (u v : Fin n → ℝ) : ℝ :=
  (D.val u * N.jvp u v - N.val u * D.jvp u v) / D.val u ^ 2

/-- `vectorJacobianProduct` of the ratio functionals (`common_outputs.hpp:173-192`,
`common_outputs.cpp:104-121,166-196,238-255`): scratch is zeroed before each use. -/
noncomputable def ratioVJP (N D : Func n) (u : Fin n → ℝ) (outBar : ℝ) (wrtBar : Fin n → ℝ) : Fin n → ℝ :=
  let s1 := N.vjp u outBar 0
  let w1 : Fin n → ℝ := fun i => wrtBar i + 1 / D.val u * s1 i
  let s2 := D.vjp u outBar 0
  fun i => w1 i + -N.val u / D.val u ^ 2 * s2 i

/-! ### Induced exponential aggregation -/

/-- A quadrature point of an element: weight times Jacobian determinant, and the shape function values.
mfem_common_integ.cpp:745-773. -/
structure Pt (n : ℕ) where
  w : ℝ
  shape : Fin n → ℝ

/-- Sum over the quadrature points of an element: mfem_common_integ.cpp:745-773. -/
def dot (a b : Fin n → ℝ) : ℝ := ∑ i, a i * b i

/-- `IEAggregateIntegratorNumerator::GetElementEnergy` (`mfem_common_integ.cpp:745-773`). -/
noncomputable def ieNum (rho m : ℝ) : List (Pt n) → (Fin n → ℝ) → ℝ
  | [], _ => 0
  | p :: ps, u => (let g := dot p.shape u; g * Real.exp (rho * (g - m)) * p.w) + ieNum rho m ps u

/-- `IEAggregateIntegratorDenominator::GetElementEnergy` (`mfem_common_integ.cpp:910-938`). -/
noncomputable def ieDen (rho m : ℝ) : List (Pt n) → (Fin n → ℝ) → ℝ
  | [], _ => 0
  | p :: ps, u => (let g := dot p.shape u; Real.exp (rho * (g - m)) * p.w) + ieDen rho m ps u

/-- `IEAggregateIntegratorNumerator::AssembleElementVector` (`mfem_common_integ.cpp:775-815`). -/
noncomputable def ieNumBar (rho m : ℝ) : List (Pt n) → (Fin n → ℝ) → Fin n → ℝ
  | [], _ => 0
  | p :: ps, u => fun i =>
    let g := dot p.shape u
    let e := Real.exp (rho * (g - m))
    let gBar0 := 1 * e * p.w
    let eBar := 1 * g * p.w
    let gBar := gBar0 + eBar * rho * e
    gBar * p.shape i + ieNumBar rho m ps u i

/-- `IEAggregateIntegratorDenominator::AssembleElementVector` (`mfem_common_integ.cpp:940-980`). -/
noncomputable def ieDenBar (rho m : ℝ) : List (Pt n) → (Fin n → ℝ) → Fin n → ℝ
  | [], _ => 0
  | p :: ps, u => fun i =>
    let g := dot p.shape u
    let e := Real.exp (rho * (g - m))
    let eBar := 1 * p.w
    let gBar := eBar * rho * e
    gBar * p.shape i + ieDenBar rho m ps u i

/-- The integrals on several ranks: every rank uses its own `true_max` (`common_outputs.hpp:293-299`: `state.Max()` is the maximum over the
rank's own entries), and `GetEnergy` sums the rank contributions. -/
noncomputable def ieParallel (rho : ℝ) (ranks : List (ℝ × List (Pt n))) (u : Fin n → ℝ) : ℝ :=
  (ranks.map fun r => ieNum rho r.1 r.2 u).sum / (ranks.map fun r => ieDen rho r.1 r.2 u).sum

end Verif.Quotient
