import Mathlib.Analysis.SpecialFunctions.Exp
import Mathlib.Analysis.Real.Sqrt
import Mathlib.Algebra.BigOperators.Fin

/-!
# Aggregate of the demagnetisation margin

`IEAggregateDemagIntegratorNumerator` and `…Denominator` (`/repo/src/physics/mfem_common_integ.cpp:1734-2158`): the value of each at an element; a functional adds
the elements up and divides.  Division by zero (a point without magnetisation) gives NaN: `none`.
-/

namespace Verif.DemagAgg

/-- A quadrature point: `ip.weight`, `trans.Weight()`, the shape functions of the temperature and of the flux density field, the knee flux density and the
magnetisation as functions of the temperature. mfem_common_integ.cpp:1846-1932. -/
structure DPt (nt nb : ℕ) where
  w : ℝ
  J : ℝ
  tShape : Fin nt → ℝ
  bShape : Fin nb → ℝ
  knee : ℝ → ℝ
  mag : ℝ → Fin 2 → ℝ

/-- The fields restricted to an element: either may be missing; the flux density has its `x` and then its `y` coefficients. mfem_common_integ.cpp:1768-1808. -/
structure Fields (nt nb : ℕ) where
  temperature : Option (Fin nt → ℝ)
  flux : Option (Fin (nb + nb) → ℝ)

variable {nt nb : ℕ}

/-- The temperature at a point, 100 °C without a field: mfem_common_integ.cpp:1863-1879. -/
noncomputable def temperatureAt (f : Fields nt nb) (p : DPt nt nb) : ℝ :=
  match f.temperature with
  | some t => ∑ i, p.tShape i * t i
  | none => 100 + 273.15

/-- The flux density at a point, 99 in both components without a field: mfem_common_integ.cpp:1880-1908. -/
noncomputable def fluxAt (f : Fields nt nb) (p : DPt nt nb) : Fin 2 → ℝ :=
  match f.flux with
  | some b => fun k => if k = 0 then ∑ i, p.bShape i * b (Fin.castAdd nb i) else ∑ i, p.bShape i * b (Fin.natAdd nb i)
  | none => fun _ => 99

/-- `g = B_demag - (B * M) / M.Norml2()`, mfem_common_integ.cpp:1930-1932; `none`: NaN. -/
noncomputable def margin (f : Fields nt nb) (p : DPt nt nb) : Option ℝ :=
  let T := temperatureAt f p
  let B := fluxAt f p
  let M := p.mag T
  let nrm := Real.sqrt (M 0 * M 0 + M 1 * M 1)
  if nrm = 0 then none else some (p.knee T - (B 0 * M 0 + B 1 * M 1) / nrm)

/-- `IEAggregateDemagIntegratorNumerator::GetElementEnergy`, mfem_common_integ.cpp:1749-1953. -/
noncomputable def num (rho tm : ℝ) (f : Fields nt nb) : List (DPt nt nb) → Option ℝ
  | [] => some 0
  | p :: ps => (margin f p).bind fun g => (num rho tm f ps).map fun s => g * Real.exp (rho * (g - tm)) * (p.w * p.J) + s

/-- `IEAggregateDemagIntegratorDenominator::GetElementEnergy`, mfem_common_integ.cpp:2016-2158. -/
noncomputable def den (rho tm : ℝ) (f : Fields nt nb) : List (DPt nt nb) → Option ℝ
  | [] => some 0
  | p :: ps => (margin f p).bind fun g => (den rho tm f ps).map fun s => Real.exp (rho * (g - tm)) * (p.w * p.J) + s

/-- Sum over the elements, each with its fields and its points: what `FunctionalOutput` makes of either integrator (`calcOutput`, functional_output.cpp:53-65, by mfem's `NonlinearForm::GetEnergy`). -/
noncomputable def total (h : Fields nt nb → List (DPt nt nb) → Option ℝ) : List (Fields nt nb × List (DPt nt nb)) → Option ℝ
  | [] => some 0
  | e :: es => (h e.1 e.2).bind fun a => (total h es).map fun s => a + s

/-- The aggregate: the quotient of the two functionals; no output of the library forms it for these integrators (mfem_common_integ.hpp:748-880), so this is the quotient
`IEAggregateFunctional` forms for its own pair, common_outputs.hpp:290-305. -/
noncomputable def aggregate (rho tm : ℝ) (es : List (Fields nt nb × List (DPt nt nb))) : Option ℝ :=
  (total (num rho tm) es).bind fun a => (total (den rho tm) es).bind fun b => if b = 0 then none else some (a / b)

end Verif.DemagAgg
