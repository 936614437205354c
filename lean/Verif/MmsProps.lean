import Verif.MmsLemmas
import Mathlib.Analysis.SpecialFunctions.Trigonometric.Deriv
import Mathlib.Tactic.FinCases

/-!
Property C197: the two-dimensional viscous manufactured solution.
-/

namespace Verif.Mms
open Verif.EulerFluxes Verif.Viscous Real

/-- Specification: the C array of a point: its coordinates, then whatever stands in memory. -/
def arr {d : ℕ} (y : Fin d → ℝ) (junk : ℕ → ℝ) : ℕ → ℝ := fun n => if h : n < d then y ⟨n, h⟩ else junk n

theorem HasDiv.congr {d : ℕ} {F : Fin d → (Fin d → ℝ) → State d} {x : Fin d → ℝ} {s s' : State d}
    (h : HasDiv F x s) (e : s' = s) : HasDiv F x s' := e ▸ h

/-! ### one-variable functions -/

theorem hs (t : ℝ) : HasDerivAt (fun t => sin (π * t)) (π * cos (π * t)) t := by
  have := ((hasDerivAt_id t).const_mul π).sin
  simpa [mul_comm] using this

theorem hc (t : ℝ) : HasDerivAt (fun t => cos (π * t)) (-(π * sin (π * t))) t := by
  have := ((hasDerivAt_id t).const_mul π).cos
  simpa [mul_comm] using this

theorem sin2 (a : ℝ) : sin (2 * π * a) = 2 * sin (π * a) * cos (π * a) := by
  rw [mul_assoc, sin_two_mul]

theorem cos2 (a : ℝ) : cos (2 * π * a) = cos (π * a) ^ 2 - sin (π * a) ^ 2 := by
  rw [mul_assoc, cos_two_mul']

theorem hpoly (k t : ℝ) : HasDerivAt (fun t : ℝ => t ^ 4 - 2 * t ^ 3 + t ^ 2 + k) (4 * t ^ 3 - 6 * t ^ 2 + 2 * t) t := by
  have := (((hasDerivAt_pow 4 t).sub ((hasDerivAt_pow 3 t).const_mul 2)).add (hasDerivAt_pow 2 t)).add_const k
  refine this.congr_deriv ?_
  norm_num
  ring

theorem hpoly' (t : ℝ) : HasDerivAt (fun t : ℝ => 4 * t ^ 3 - 6 * t ^ 2 + 2 * t) (12 * t ^ 2 - 12 * t + 2) t := by
  have := (((hasDerivAt_pow 3 t).const_mul 4).sub ((hasDerivAt_pow 2 t).const_mul 6)).add
    ((hasDerivAt_id t).const_mul 2)
  refine this.congr_deriv ?_
  norm_num
  ring

theorem hparab (t : ℝ) : HasDerivAt (fun t : ℝ => t * (1 - t)) (1 - 2 * t) t := by
  refine ((hasDerivAt_id t).mul ((hasDerivAt_id t).const_sub 1)).congr_deriv ?_
  simp only [id]; ring

/-- `sin² (πt)`. -/
theorem hss (t : ℝ) : HasDerivAt (fun t => sin (π * t) ^ 2) (2 * π * (sin (π * t) * cos (π * t))) t := by
  refine ((hs t).fun_pow 2).congr_deriv ?_
  norm_num; ring

theorem hsc (t : ℝ) : HasDerivAt (fun t => sin (π * t) * cos (π * t))
    (π * (cos (π * t) ^ 2 - sin (π * t) ^ 2)) t := by
  refine ((hs t).fun_mul (hc t)).congr_deriv ?_
  ring

theorem hcs (t : ℝ) : HasDerivAt (fun t => cos (π * t) ^ 2 - sin (π * t) ^ 2)
    (-(4 * π * (sin (π * t) * cos (π * t)))) t := by
  refine (((hc t).fun_pow 2).fun_sub ((hs t).fun_pow 2)).congr_deriv ?_
  norm_num; ring

/-- `sin² (πt) cos² (πt)`. -/
theorem hq (t : ℝ) : HasDerivAt (fun t => sin (π * t) ^ 2 * cos (π * t) ^ 2)
    (2 * π * (sin (π * t) * cos (π * t) ^ 3 - sin (π * t) ^ 3 * cos (π * t))) t := by
  refine (((hs t).fun_pow 2).fun_mul ((hc t).fun_pow 2)).congr_deriv ?_
  norm_num; ring

theorem hq' (t : ℝ) : HasDerivAt (fun t => sin (π * t) * cos (π * t) ^ 3 - sin (π * t) ^ 3 * cos (π * t))
    (π * (cos (π * t) ^ 4 - 6 * sin (π * t) ^ 2 * cos (π * t) ^ 2 + sin (π * t) ^ 4)) t := by
  refine (((hs t).fun_mul ((hc t).fun_pow 3)).fun_sub (((hs t).fun_pow 3).fun_mul (hc t))).congr_deriv ?_
  norm_num; ring

/-! ### C197: the two-dimensional solution in primitive variables

`α` is the amplitude of the perturbations, `V` four times the amplitude of the parabolic profile: 1/20 and 2 for the
viscous solution. -/

/-- Density. -/
noncomputable def r2 (α : ℝ) (y : Fin 2 → ℝ) : ℝ := 1 + α * (sin (π * y 0) ^ 2 * sin (π * y 1))
/-- Velocity. -/
noncomputable def U2 (α V : ℝ) (k : Fin 2) (y : Fin 2 → ℝ) : ℝ :=
  if k = 0 then V * (y 1 * (1 - y 1)) + 2 * α * ((sin (π * y 1) * cos (π * y 1)) * sin (π * y 0) ^ 2)
  else -(4 * α) * (sin (π * y 0) ^ 2 * cos (π * y 0) ^ 2 * sin (π * y 1))
/-- Temperature. -/
noncomputable def T2 (α : ℝ) (y : Fin 2 → ℝ) : ℝ :=
  1 + α * (y 0 ^ 4 - 2 * y 0 ^ 3 + y 0 ^ 2 + (y 1 ^ 4 - 2 * y 1 ^ 3 + y 1 ^ 2))
/-- Derivatives of the density. -/
noncomputable def R2 (α : ℝ) (j : Fin 2) (y : Fin 2 → ℝ) : ℝ :=
  if j = 0 then α * (2 * π * (sin (π * y 0) * cos (π * y 0)) * sin (π * y 1))
  else α * (sin (π * y 0) ^ 2 * (π * cos (π * y 1)))
/-- Derivatives of the velocity. -/
noncomputable def G2 (α V : ℝ) (k j : Fin 2) (y : Fin 2 → ℝ) : ℝ :=
  if k = 0 then
    if j = 0 then 2 * α * ((sin (π * y 1) * cos (π * y 1)) * (2 * π * (sin (π * y 0) * cos (π * y 0))))
    else V * (1 - 2 * y 1) +
      2 * α * (π * (cos (π * y 1) ^ 2 - sin (π * y 1) ^ 2) * sin (π * y 0) ^ 2)
  else
    if j = 0 then -(4 * α) * (2 * π * (sin (π * y 0) * cos (π * y 0) ^ 3 - sin (π * y 0) ^ 3 * cos (π * y 0)) *
      sin (π * y 1))
    else -(4 * α) * (sin (π * y 0) ^ 2 * cos (π * y 0) ^ 2 * (π * cos (π * y 1)))
/-- Derivatives of the temperature. -/
noncomputable def Tg2 (α : ℝ) (j : Fin 2) (y : Fin 2 → ℝ) : ℝ := α * (4 * y j ^ 3 - 6 * y j ^ 2 + 2 * y j)
/-- Second derivatives of the velocity: `H2 k j l = ∂_l ∂_j U_k`. -/
noncomputable def H2 (α V : ℝ) (x : Fin 2 → ℝ) (k j l : Fin 2) : ℝ :=
  if k = 0 then
    if j = 0 then
      if l = 0 then 2 * α * ((sin (π * x 1) * cos (π * x 1)) * (2 * π * (π * (cos (π * x 0) ^ 2 - sin (π * x 0) ^ 2))))
      else 2 * α * (π * (cos (π * x 1) ^ 2 - sin (π * x 1) ^ 2) * (2 * π * (sin (π * x 0) * cos (π * x 0))))
    else
      if l = 0 then 2 * α * (π * (cos (π * x 1) ^ 2 - sin (π * x 1) ^ 2) * (2 * π * (sin (π * x 0) * cos (π * x 0))))
      else V * (-2) + 2 * α * (π * (-(4 * π * (sin (π * x 1) * cos (π * x 1)))) * sin (π * x 0) ^ 2)
  else
    if j = 0 then
      if l = 0 then -(4 * α) * (2 * π * (π * (cos (π * x 0) ^ 4 - 6 * sin (π * x 0) ^ 2 * cos (π * x 0) ^ 2 +
        sin (π * x 0) ^ 4)) * sin (π * x 1))
      else -(4 * α) * (2 * π * (sin (π * x 0) * cos (π * x 0) ^ 3 - sin (π * x 0) ^ 3 * cos (π * x 0)) *
        (π * cos (π * x 1)))
    else
      if l = 0 then -(4 * α) * (2 * π * (sin (π * x 0) * cos (π * x 0) ^ 3 - sin (π * x 0) ^ 3 * cos (π * x 0)) *
        (π * cos (π * x 1)))
      else -(4 * α) * (sin (π * x 0) ^ 2 * cos (π * x 0) ^ 2 * (π * (-(π * sin (π * x 1)))))
/-- Second derivatives of the temperature. -/
noncomputable def Th2 (α : ℝ) (x : Fin 2 → ℝ) (j : Fin 2) : ℝ := α * (12 * x j ^ 2 - 12 * x j + 2)

theorem u00 (x : Fin 2 → ℝ) (t : ℝ) : Function.update x 0 t 0 = t := Function.update_self ..
theorem u01 (x : Fin 2 → ℝ) (t : ℝ) : Function.update x 0 t 1 = x 1 := Function.update_of_ne (by decide) ..
theorem u10 (x : Fin 2 → ℝ) (t : ℝ) : Function.update x 1 t 0 = x 0 := Function.update_of_ne (by decide) ..
theorem u11 (x : Fin 2 → ℝ) (t : ℝ) : Function.update x 1 t 1 = t := Function.update_self ..

theorem prims2 (α V : ℝ) (h0 : 0 ≤ α) (h1 : α < 1) (x : Fin 2 → ℝ) :
    Prims (r2 α) (U2 α V) (T2 α) (R2 α) (G2 α V) (Tg2 α) x (H2 α V x) (Th2 α x) where
  pos y := by
    unfold r2
    have a1 := sin_sq_le_one (π * y 0)
    have a2 := sq_nonneg (sin (π * y 0))
    have a3 := neg_one_le_sin (π * y 1)
    have : -1 ≤ sin (π * y 0) ^ 2 * sin (π * y 1) := by nlinarith
    nlinarith
  tpos y := by
    unfold T2
    have : 0 ≤ y 0 ^ 4 - 2 * y 0 ^ 3 + y 0 ^ 2 + (y 1 ^ 4 - 2 * y 1 ^ 3 + y 1 ^ 2) := by
      have := sq_nonneg (y 0 * (y 0 - 1)); have := sq_nonneg (y 1 * (y 1 - 1)); nlinarith
    positivity
  dr y j := by
    unfold HasPd r2 R2
    fin_cases j
    · simp only [Fin.zero_eta, u00, u01, if_true]
      exact (((hss _).mul_const _).const_mul _).const_add _
    · simp only [Fin.mk_one, u10, u11, one_ne_zero, if_false]
      exact (((hs _).const_mul _).const_mul _).const_add _
  dU y k j := by
    unfold HasPd U2 G2
    fin_cases k <;> fin_cases j <;>
      simp only [Fin.zero_eta, Fin.mk_one, u00, u01, u10, u11, if_true, one_ne_zero, if_false]
    · exact (((hss _).const_mul _).const_mul _).const_add _
    · exact ((hparab _).const_mul V).add (((hsc _).mul_const _).const_mul _)
    · exact ((hq _).mul_const _).const_mul _
    · exact ((hs _).const_mul _).const_mul _
  dT y j := by
    unfold HasPd T2 Tg2
    fin_cases j <;> simp only [Fin.zero_eta, Fin.mk_one, u00, u01, u10, u11]
    · exact ((hpoly _ _).const_mul _).const_add _
    · refine HasDerivAt.const_add _ (HasDerivAt.const_mul _ (HasDerivAt.const_add _ ?_))
      simpa using hpoly 0 (y 1)
  dG k j l := by
    unfold HasPd G2 H2
    fin_cases k <;> fin_cases j <;> fin_cases l <;>
      simp only [Fin.zero_eta, Fin.mk_one, u00, u01, u10, u11, if_true, one_ne_zero, if_false]
    · exact (((hsc _).const_mul _).const_mul _).const_mul _
    · exact (((hsc _).mul_const _)).const_mul _
    · exact (((hss _).const_mul _).const_mul _).const_add _
    · refine HasDerivAt.fun_add (HasDerivAt.const_mul _ ?_) ((((hcs _).const_mul _).mul_const _).const_mul _)
      refine (((hasDerivAt_id (x 1)).const_mul 2).const_sub 1).congr_deriv (by norm_num)
    · exact (((hq' _).const_mul _).mul_const _).const_mul _
    · exact ((hs _).const_mul _).const_mul _
    · exact ((hq _).mul_const _).const_mul _
    · exact (((hc _).const_mul _).const_mul _).const_mul _
  dTg j := by
    unfold HasPd Tg2 Th2
    simp only [upd_same]
    exact (hpoly' _).const_mul _

theorem exact2_prim (junk : ℕ → ℝ) (y : Fin 2 → ℝ) :
    viscousExact2 (arr y junk) = prim (r2 (1 / 20) y) (fun k => U2 (1 / 20) 2 k y) (T2 (1 / 20) y) := by
  unfold viscousExact2
  simp only [finish_eq]
  have e0 : arr y junk 0 = y 0 := rfl
  have e1 : arr y junk 1 = y 1 := rfl
  simp only [e0, e1, sin2]
  congr 1
  · unfold r2; ring
  · funext k
    fin_cases k
    · simp [U2]; ring
    · simp [U2]; ring
  · unfold T2; ring

theorem src2_eq (mu Pr : ℝ) (junk : ℕ → ℝ) (x : Fin 2 → ℝ) :
    viscousSrc2 mu Pr (arr x junk) =
      ⟨∑ j, (R2 (1 / 20) j x * U2 (1 / 20) 2 j x + r2 (1 / 20) x * G2 (1 / 20) 2 j j x),
       fun i => ∑ j, ((R2 (1 / 20) j x * U2 (1 / 20) 2 i x + r2 (1 / 20) x * G2 (1 / 20) 2 i j x) * U2 (1 / 20) 2 j x +
          r2 (1 / 20) x * U2 (1 / 20) 2 i x * G2 (1 / 20) 2 j j x +
         (if i = j then R2 (1 / 20) j x * T2 (1 / 20) x + r2 (1 / 20) x * Tg2 (1 / 20) j x else 0)
         - tau mu (fun k l => H2 (1 / 20) 2 x k l j) j i),
       ∑ j, ((R2 (1 / 20) j x * (7 / 2 * T2 (1 / 20) x + 1 / 2 * ∑ i, U2 (1 / 20) 2 i x ^ 2) +
           r2 (1 / 20) x * (7 / 2 * Tg2 (1 / 20) j x + 1 / 2 * ∑ i, 2 * U2 (1 / 20) 2 i x * G2 (1 / 20) 2 i j x)) *
             U2 (1 / 20) 2 j x +
         r2 (1 / 20) x * (7 / 2 * T2 (1 / 20) x + 1 / 2 * ∑ i, U2 (1 / 20) 2 i x ^ 2) * G2 (1 / 20) 2 j j x
         - ((∑ k, (G2 (1 / 20) 2 k j x * tau mu (fun k l => G2 (1 / 20) 2 k l x) j k +
             U2 (1 / 20) 2 k x * tau mu (fun k l => H2 (1 / 20) 2 x k l j) j k)) +
           7 / 2 * mu / Pr * Th2 (1 / 20) x j))⟩ := by
  have e0 : arr x junk 0 = x 0 := rfl
  have e1 : arr x junk 1 = x 1 := rfl
  have t1 : sin (π * (4 * x 0 - x 1)) + sin (π * (4 * x 0 + x 1)) =
      8 * (sin (π * x 0) * cos (π * x 0) * (cos (π * x 0) ^ 2 - sin (π * x 0) ^ 2)) * cos (π * x 1) := by
    have a : π * (4 * x 0 - x 1) = 2 * (2 * (π * x 0)) - π * x 1 := by ring
    have b : π * (4 * x 0 + x 1) = 2 * (2 * (π * x 0)) + π * x 1 := by ring
    rw [a, b, sin_sub, sin_add, sin_two_mul, sin_two_mul, cos_two_mul' (π * x 0)]
    ring
  have t2 : sin (π * (2 * x 0 - 2 * x 1)) + sin (π * (2 * x 0 + 2 * x 1)) =
      4 * (sin (π * x 0) * cos (π * x 0)) * (cos (π * x 1) ^ 2 - sin (π * x 1) ^ 2) := by
    have a : π * (2 * x 0 - 2 * x 1) = 2 * (π * x 0) - 2 * (π * x 1) := by ring
    have b : π * (2 * x 0 + 2 * x 1) = 2 * (π * x 0) + 2 * (π * x 1) := by ring
    rw [a, b, sin_sub, sin_add, sin_two_mul, cos_two_mul' (π * x 1)]
    ring
  have t3 : cos (π * (2 * x 0 - x 1)) - cos (π * (2 * x 0 + x 1)) =
      4 * (sin (π * x 0) * cos (π * x 0)) * sin (π * x 1) := by
    have a : π * (2 * x 0 - x 1) = 2 * (π * x 0) - π * x 1 := by ring
    have b : π * (2 * x 0 + x 1) = 2 * (π * x 0) + π * x 1 := by ring
    rw [a, b, cos_sub, cos_add, sin_two_mul]
    ring
  have p0 := sin_sq_add_cos_sq (π * x 0)
  have p1 := sin_sq_add_cos_sq (π * x 1)
  ext i
  · simp only [viscousSrc2, viscousSrc2_0, e0, e1, Fin.sum_univ_two, R2, U2, r2, G2, if_true, one_ne_zero, if_false,
      sin2, pow]
    ring
  · fin_cases i
    · simp only [viscousSrc2, viscousSrc2_1, e0, e1, t1, t3, Fin.sum_univ_two, R2, U2, r2, G2, H2, T2, Tg2, tau,
        if_true, one_ne_zero, zero_ne_one, if_false, sin2, cos2, pow, Fin.zero_eta, Matrix.cons_val_zero]
      ring
    · simp only [viscousSrc2, viscousSrc2_2, e0, e1, t2, Fin.sum_univ_two, R2, U2, r2, G2, H2, T2, Tg2, tau,
        if_true, one_ne_zero, zero_ne_one, if_false, sin2, cos2, pow, Fin.mk_one, Matrix.cons_val_one]
      simp
      ring
  · simp only [viscousSrc2, viscousSrc2_3, e0, e1, t3, Fin.sum_univ_two, R2, U2, r2, G2, H2, T2, Tg2, Th2, tau,
        if_true, one_ne_zero, zero_ne_one, if_false, sin2, cos2, pow, gami_eq, gamma_eq]
    obtain ⟨s, es⟩ : ∃ s, s = sin (π * x 0) := ⟨_, rfl⟩
    obtain ⟨c, ec⟩ : ∃ s, s = cos (π * x 0) := ⟨_, rfl⟩
    obtain ⟨S, eS⟩ : ∃ s, s = sin (π * x 1) := ⟨_, rfl⟩
    obtain ⟨C, eC⟩ : ∃ s, s = cos (π * x 1) := ⟨_, rfl⟩
    rw [← es, ← ec] at p0
    rw [← eS, ← eC] at p1
    rw [← es, ← ec, ← eS, ← eC]
    linear_combination ((1/75) * s ^ 3 * c * S * π ^ 2 * mu + (-1/75) * s ^ 3 * c * S ^ 3 * π ^ 2 * mu +
      (-1/75) * s ^ 3 * c * S * C ^ 2 * π ^ 2 * mu) * p0 +
      ((-1/75) * s ^ 3 * c * S * π ^ 2 * mu + (1/75) * s ^ 5 * c * S * π ^ 2 * mu) * p1

/-- The flow the two-dimensional viscous manufactured solution describes is physical everywhere. -/
theorem C197_exact_admissible (junk : ℕ → ℝ) (y : Fin 2 → ℝ) : Admissible (viscousExact2 (arr y junk)) := by
  have h := prims2 (1 / 20) 2 (by norm_num) (by norm_num) y
  rw [exact2_prim]
  exact prim_adm (h.pos y) (h.tpos y) _

/-- At every point, the two-dimensional viscous source is the divergence of the flow flux (Euler flux minus viscous
flux) of the two-dimensional exact solution, for every viscosity and Prandtl number. -/
theorem C197_source_is_divergence (mu Pr : ℝ) (junk : ℕ → ℝ) (x : Fin 2 → ℝ) :
    HasDiv (flowFlux mu Pr (fun y => viscousExact2 (arr y junk))) x (viscousSrc2 mu Pr (arr x junk)) := by
  have h := prims2 (1 / 20) 2 (by norm_num) (by norm_num) x
  have e : (fun y => viscousExact2 (arr y junk)) =
      fun y => prim (r2 (1 / 20) y) (fun k => U2 (1 / 20) 2 k y) (T2 (1 / 20) y) := by
    funext y; exact exact2_prim junk y
  rw [e]
  exact (h.div mu Pr).congr (src2_eq mu Pr junk x)

/-- With the viscosity option at 1 the integrators see one and the same viscosity: the source of the integrator is the
divergence of the flux with the viscosity the viscous integrator uses. -/
theorem C197_integrator_consistent (Re Pr : ℝ) (junk : ℕ → ℝ) (x : Fin 2 → ℝ) :
    HasDiv (fun j y => subS (calcEulerFlux (Pi.single j 1) (viscousExact2 (arr y junk)))
      (viscousScaling j (muRe 1 Re (viscousExact2 (arr y junk))) Pr (viscousExact2 (arr y junk))
        (gradW (fun y => viscousExact2 (arr y junk)) y))) x (nsSource2 Re Pr (arr x junk)) := by
  have e : ∀ q : State 2, muRe 1 Re q = 1 / Re := fun q => by
    unfold muRe; rw [if_neg (by norm_num)]
  simp only [e]
  exact C197_source_is_divergence (1 / Re) Pr junk x

end Verif.Mms
