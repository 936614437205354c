import Verif.EulerVortexProps
import Verif.EulerStabilityProps

/-! # Euler fluxes: pressure gradient and upwind behaviour of the wrappers (C52, C56, C79) -/

namespace Verif.EulerFluxes

variable {d : ℕ}

/-- `dpressdq` is the gradient of the pressure: it gives the derivative of the physical pressure in every direction. -/
theorem C52_pressure_gradient (q v : State d) (hr : q.rho ≠ 0) :
    HasDerivAt (fun t : ℝ => specP (⟨q.rho + t * v.rho, fun i => q.mom i + t * v.mom i, q.ener + t * v.ener⟩ : State d))
      ((dpressdq q).rho * v.rho + ∑ i, (dpressdq q).mom i * v.mom i + (dpressdq q).ener * v.ener) 0 := by
  have h1 : HasDerivAt (fun t : ℝ => q.rho + t * v.rho) v.rho 0 := by
    simpa using ((hasDerivAt_id' (0 : ℝ)).mul_const v.rho).const_add q.rho
  have h2 : ∀ i, HasDerivAt (fun t : ℝ => q.mom i + t * v.mom i) (v.mom i) 0 := fun i => by
    simpa using ((hasDerivAt_id' (0 : ℝ)).mul_const (v.mom i)).const_add (q.mom i)
  have h3 : HasDerivAt (fun t : ℝ => q.ener + t * v.ener) v.ener 0 := by
    simpa using ((hasDerivAt_id' (0 : ℝ)).mul_const v.ener).const_add q.ener
  have hs : HasDerivAt (fun t : ℝ => ∑ i, (q.mom i + t * v.mom i) ^ 2) (∑ i, 2 * q.mom i * v.mom i) 0 := by
    refine (HasDerivAt.fun_sum (fun i _ => (h2 i).fun_pow 2)).congr_deriv ?_
    refine Finset.sum_congr rfl fun i _ => ?_
    simp
  unfold specP
  have h := (h3.fun_sub (hs.fun_div (h1.const_mul 2) (by simpa using hr))).const_mul (7 / 5 - 1 : ℝ)
  refine h.congr_deriv ?_
  simp only [dpressdq, gami, gamma, zero_mul, add_zero]
  have e1 : ∑ i, -(7 / 5 - 1 : ℝ) * (q.mom i / q.rho) * v.mom i = -(7 / 5 - 1 : ℝ) / q.rho * ∑ i, q.mom i * v.mom i := by
    rw [Finset.mul_sum]; refine Finset.sum_congr rfl fun i _ => ?_; ring
  have e2 : ∑ i, 2 * q.mom i * v.mom i = 2 * ∑ i, q.mom i * v.mom i := by
    rw [Finset.mul_sum]; refine Finset.sum_congr rfl fun i _ => ?_; ring
  have e3 : ∑ i, q.mom i / q.rho * (q.mom i / q.rho) = (∑ i, q.mom i ^ 2) / q.rho ^ 2 := by
    rw [Finset.sum_div]; refine Finset.sum_congr rfl fun i _ => ?_; field_simp
  rw [e1, e2, e3]
  field_simp
  ring

/-- The far-field and vortex fluxes take the interior state in entropy variables as well: both variants agree. -/
theorem C56_variants_agree (dir : Fin d → ℝ) (qbnd q : State d) (h : Admissible q) :
    calcFarFieldFlux true dir qbnd (calcEntropyVars q) = calcFarFieldFlux false dir qbnd q := by
  unfold calcFarFieldFlux consOf
  rw [if_pos rfl, C53_roundtrip_cons q h]; rfl

theorem C79_variants_agree (x dir : Fin 2 → ℝ) (q : State 2) (h : Admissible q) :
    calcIsentropicVortexFlux true x dir (calcEntropyVars q) = calcIsentropicVortexFlux false x dir q := by
  unfold calcIsentropicVortexFlux consOf
  rw [if_pos rfl, C53_roundtrip_cons q h]; rfl

/-- On the exact solution the vortex boundary flux is the physical flux of the vortex, in both sets of variables. -/
theorem C79_boundary_flux_consistent (x dir : Fin 2 → ℝ) (hdir : dir ≠ 0) (h : Admissible (calcIsentropicVortexState x)) :
    calcIsentropicVortexFlux false x dir (calcIsentropicVortexState x) = physFlux dir (calcIsentropicVortexState x) ∧
    calcIsentropicVortexFlux true x dir (calcEntropyVars (calcIsentropicVortexState x)) = physFlux dir (calcIsentropicVortexState x) := by
  rw [C79_variants_agree x dir _ h]
  have := C56_boundary_consistent dir (calcIsentropicVortexState x) hdir h
  exact ⟨this, this⟩

/-- Far-field flux at a supersonic outflow: the far-field data has no influence, in both sets of variables. -/
theorem C56_farfield_supersonic_outflow (dir : Fin d → ℝ) (qbnd q : State d) (hdir : dir ≠ 0)
    (hb : Admissible qbnd) (h : Admissible q)
    (hout : √(∑ i, dir i ^ 2) * √(specA2 qbnd) ≤ (∑ i, qbnd.mom i * dir i) / qbnd.rho) :
    calcFarFieldFlux false dir qbnd q = physFlux dir q ∧ calcFarFieldFlux true dir qbnd (calcEntropyVars q) = physFlux dir q := by
  rw [C56_variants_agree dir qbnd q h]
  have := C56_supersonic_outflow dir qbnd q hdir hb h hout
  exact ⟨this, this⟩

/-- Far-field flux at a supersonic inflow: `F(q) - F'(q_bnd)(q - q_bnd)`. -/
theorem C56_farfield_supersonic_inflow (dir : Fin d → ℝ) (qbnd q : State d) (hdir : dir ≠ 0)
    (hb : Admissible qbnd) (h : Admissible q)
    (hin : (∑ i, qbnd.mom i * dir i) / qbnd.rho ≤ -(√(∑ i, dir i ^ 2) * √(specA2 qbnd))) :
    let J := eulerJac dir qbnd ⟨q.rho - qbnd.rho, q.mom - qbnd.mom, q.ener - qbnd.ener⟩
    let F := physFlux dir q
    calcFarFieldFlux false dir qbnd q = ⟨F.rho - J.rho, F.mom - J.mom, F.ener - J.ener⟩ ∧
    calcFarFieldFlux true dir qbnd (calcEntropyVars q) = ⟨F.rho - J.rho, F.mom - J.mom, F.ener - J.ener⟩ := by
  rw [C56_variants_agree dir qbnd q h]
  have := C56_supersonic_inflow dir qbnd q hdir hb h hin
  exact ⟨this, this⟩

/-- The convective far-field flux takes mass, momentum and total enthalpy from the upwind side (decided by the far-field velocity) and the pressure force from the interior. -/
theorem C56_farfield2_upwind (dir : Fin d → ℝ) (qbnd q : State d) :
    let U := (∑ i, dir i * qbnd.mom i) / qbnd.rho
    let up := if 0 ≤ U then q else qbnd
    calcFarFieldFlux2 false dir qbnd q = some ⟨U * up.rho, fun i => U * up.mom i + specP q * dir i, U * (up.ener + specP up)⟩ := by
  simp only
  unfold calcFarFieldFlux2
  simp only [Bool.false_eq_true, if_false, pressure_spec]
  rw [show dot dir qbnd.mom = ∑ i, dir i * qbnd.mom i from rfl]
  generalize (∑ i, dir i * qbnd.mom i) / qbnd.rho = U
  by_cases hU : 0 ≤ U
  · rw [if_pos hU, abs_of_nonneg hU]
    congr 1
    ext i <;> simp only <;> ring
  · rw [if_neg hU, abs_of_neg (not_le.1 hU)]
    congr 1
    ext i <;> simp only <;> ring

/-- The hypotheses above are met: a state moving at Mach 2 along the outward normal. -/
example : ∃ (q : State 1) (dir : Fin 1 → ℝ), Admissible q ∧ dir ≠ 0 ∧ √(∑ i, dir i ^ 2) * √(specA2 q) ≤ (∑ i, q.mom i * dir i) / q.rho := by
  refine ⟨⟨1, fun _ => 2, 1 / (7 / 5 * (7 / 5 - 1)) + 2⟩, fun _ => 1, ⟨by norm_num, ?_⟩, fun h => one_ne_zero (congrFun h 0), ?_⟩
  · simp
    norm_num
  · simp [specA2, specP]
    norm_num

end Verif.EulerFluxes
