import Verif.Losses
import Verif.QuotientProps
import Mathlib.Tactic.FinCases
import Mathlib.Analysis.Calculus.Deriv.Pow
import Mathlib.Analysis.Calculus.Deriv.Shift
import Mathlib.Algebra.BigOperators.Field

/-!
Properties C127 (DC loss functional) and C128 (AC loss functional).
-/

namespace Verif.Losses
open Finset Verif.Quotient

set_option linter.unusedSimpArgs false

variable {n : ℕ}

/-! ### C127: the DC loss and its derivatives -/

/-- Specification: the documented name of a scalar input. -/
def dcName : DCIn → String
  | .wireLength => "wire_length"
  | .rmsCurrent => "rms_current"
  | .strandRadius => "strand_radius"
  | .strandsInHand => "strands_in_hand"

/-- Specification: the DC loss per winding volume, `√2 I² ρ L / (π r² n V)`. -/
noncomputable def dcSpec (L I r m rho V : ℝ) : ℝ := √2 * (I ^ 2 * (rho * L) / (Real.pi * r ^ 2 * m)) / V

theorem dcWrt_scalar (x : DCIn) (s : String) : dcWrt (dcName x ++ s) = .scalar x := by
  cases x <;> simp [dcWrt, startsWith, dcName]

theorem dcWrt_mesh (s : String) : dcWrt ("mesh_coords" ++ s) = .mesh := by simp [dcWrt, startsWith]

theorem dcWrt_temp (s : String) : dcWrt ("temperature" ++ s) = .temperature := by simp [dcWrt, startsWith]

/-- **C127** The value is the loss formula. -/
theorem C127_value (p : DCPar) (rho V : ℝ) : dcLoss p rho V =
    dcSpec (p .wireLength) (p .rmsCurrent) (p .strandRadius) (p .strandsInHand) rho V := by
  unfold dcLoss dcSpec; ring

/-- **C127** For every scalar input and every name that begins with it, the forward derivative is the
derivative of the loss. -/
theorem C127_forward_scalar (p : DCPar) (rho vol : Func n) (u v : Fin n → ℝ) (dot : ℝ) (x : DCIn) (s : String)
    (hr : p .strandRadius ≠ 0) (hm : p .strandsInHand ≠ 0) :
    HasDerivAt (fun t => dcLoss (Function.update p x (p x + t * dot)) (rho.val u) (vol.val u))
      (dcJvp p rho vol u v dot (dcName x ++ s)) 0 := by
  have hpi := Real.pi_ne_zero
  have hl : ∀ a : ℝ, HasDerivAt (fun t : ℝ => a + t * dot) dot 0 := fun a =>
    (((hasDerivAt_id' (0 : ℝ)).mul_const dot).const_add a).congr_deriv (by ring)
  unfold dcJvp
  rw [dcWrt_scalar]
  unfold dcLoss dcJvpScalar
  cases x
  · simp only [ne_eq, reduceCtorEq, not_false_eq_true, Function.update_of_ne, Function.update_self]
    refine ((((((hl _).mul_const (rho.val u)).div_const _).const_mul _).mul_const _).div_const _).congr_deriv ?_
    field_simp
  · simp only [ne_eq, reduceCtorEq, not_false_eq_true, Function.update_of_ne, Function.update_self]
    refine (((((hl _).fun_pow 2).mul_const _).mul_const _).div_const _).congr_deriv ?_
    norm_num
    field_simp
  · simp only [ne_eq, reduceCtorEq, not_false_eq_true, Function.update_of_ne, Function.update_self]
    have h1 := (((hl (p .strandRadius)).fun_pow 2).const_mul Real.pi).mul_const (p .strandsInHand)
    have h2 := (hasDerivAt_const (0 : ℝ) (p .wireLength * rho.val u)).fun_div h1
      (by simp only [zero_mul, add_zero]; positivity)
    refine (((h2.const_mul _).mul_const _).div_const _).congr_deriv ?_
    norm_num
    field_simp
  · simp only [ne_eq, reduceCtorEq, not_false_eq_true, Function.update_of_ne, Function.update_self]
    have h1 := (hl (p .strandsInHand)).const_mul (Real.pi * p .strandRadius ^ 2)
    have h2 := (hasDerivAt_const (0 : ℝ) (p .wireLength * rho.val u)).fun_div h1
      (by simp only [zero_mul, add_zero]; positivity)
    refine (((h2.const_mul _).mul_const _).div_const _).congr_deriv ?_
    norm_num
    field_simp

/-- **C127** The scalar reverse derivative is `out_bar` times the forward one. -/
theorem C127_reverse_scalar (p : DCPar) (rho vol : Func n) (u v : Fin n → ℝ) (outBar dot : ℝ) (x : DCIn)
    (s : String) :
    dcVjpScalar p (rho.val u) (vol.val u) outBar (dcName x ++ s) * dot =
      outBar * dcJvp p rho vol u v dot (dcName x ++ s) := by
  unfold dcJvp
  rw [dcWrt_scalar]
  cases x <;> simp [dcVjpScalar, startsWith, dcName, dcJvpScalar] <;> ring

/-- **C127** The forward derivative along a motion of the mesh is the directional derivative of the
loss, if those of the resistivity and volume functionals are. -/
theorem C127_forward_mesh (p : DCPar) (rho vol : Func n) (u v : Fin n → ℝ) (dot : ℝ) (s : String)
    (hR : rho.Correct u) (hV : vol.Correct u) (h0 : vol.val u ≠ 0) :
    DirDeriv (fun u => dcLoss p (rho.val u) (vol.val u)) u v
      (dcJvp p rho vol u v dot ("mesh_coords" ++ s)) := by
  unfold dcJvp
  rw [dcWrt_mesh]
  have h := ((((((hR.1 v).const_mul (p .wireLength)).div_const
    (Real.pi * p .strandRadius ^ 2 * p .strandsInHand)).const_mul (p .rmsCurrent ^ 2)).mul_const √2).fun_div
    (hV.1 v) (by simpa using h0))
  unfold DirDeriv dcLoss dcJvpMesh
  refine h.congr_deriv ?_
  simp only [zero_smul, add_zero]
  field_simp

/-- **C127** The reverse derivative with respect to the mesh adds the transpose of the forward one. -/
theorem C127_reverse_mesh (p : DCPar) (rho vol : Func n) (u v wrtBar : Fin n → ℝ) (outBar dot : ℝ) (s : String)
    (hR : rho.Correct u) (hV : vol.Correct u) :
    ∑ i, dcVjpVec p rho vol u outBar ("mesh_coords" ++ s) wrtBar i * v i =
      ∑ i, wrtBar i * v i + outBar * dcJvp p rho vol u v dot ("mesh_coords" ++ s) := by
  unfold dcJvp
  rw [dcWrt_mesh]
  simp only [dcJvpMesh, hR.2 v, hV.2 v, dcVjpVec, startsWith, String.toList_append,
    List.isPrefixOf_iff_prefix.2 (List.prefix_append _ _), if_true, Func.vjp]
  simp only [mul_sub, mul_sum, sum_div, ← sum_sub_distrib, ← sum_add_distrib]
  exact sum_congr rfl fun i _ => by ring

/-- **C127** The forward derivative along a change of the temperature. -/
theorem C127_forward_temperature (p : DCPar) (rho vol : Func n) (u v : Fin n → ℝ) (dot : ℝ) (s : String)
    (hR : rho.Correct u) :
    DirDeriv (fun w => dcLoss p (rho.val w) (vol.val u)) u v
      (dcJvp p rho vol u v dot ("temperature" ++ s)) := by
  unfold dcJvp
  rw [dcWrt_temp]
  have h := ((((((hR.1 v).const_mul (p .wireLength)).div_const
    (Real.pi * p .strandRadius ^ 2 * p .strandsInHand)).const_mul (p .rmsCurrent ^ 2)).mul_const √2).div_const
    (vol.val u))
  unfold DirDeriv dcLoss dcJvpTemp
  exact h.congr_deriv (by ring)

/-- **C127** The reverse derivative with respect to the temperature. -/
theorem C127_reverse_temperature (p : DCPar) (rho vol : Func n) (u v wrtBar : Fin n → ℝ) (outBar dot : ℝ)
    (s : String) (hR : rho.Correct u) :
    ∑ i, dcVjpVec p rho vol u outBar ("temperature" ++ s) wrtBar i * v i =
      ∑ i, wrtBar i * v i + outBar * dcJvp p rho vol u v dot ("temperature" ++ s) := by
  unfold dcJvp
  rw [dcWrt_temp]
  have hm : startsWith ("temperature" ++ s) "mesh_coords" = false := by simp [startsWith, List.isPrefixOf]
  have ht : startsWith ("temperature" ++ s) "temperature" = true := by simp [startsWith]
  simp only [dcJvpTemp, hR.2 v, dcVjpVec, hm, ht, if_true, if_false, Func.vjp, Bool.false_eq_true]
  simp only [mul_sum, sum_div, ← sum_add_distrib]
  exact sum_congr rfl fun i _ => by ring

/-- **C127** An input the loss does not depend on (no documented name is a prefix of it) has zero
derivatives in all three calls. -/
theorem C127_other (p : DCPar) (rho vol : Func n) (u v wrtBar : Fin n → ℝ) (outBar dot : ℝ) (wrt : String)
    (h : ∀ x, startsWith wrt (dcName x) = false) (hm : startsWith wrt "mesh_coords" = false)
    (ht : startsWith wrt "temperature" = false) :
    dcJvp p rho vol u v dot wrt = 0 ∧ dcVjpScalar p (rho.val u) (vol.val u) outBar wrt = 0 ∧
      dcVjpVec p rho vol u outBar wrt wrtBar = wrtBar := by
  have h1 := h .wireLength
  have h2 := h .rmsCurrent
  have h3 := h .strandRadius
  have h4 := h .strandsInHand
  simp only [dcName] at h1 h2 h3 h4
  refine ⟨?_, ?_, ?_⟩
  · simp [dcJvp, dcWrt, h1, h2, h3, h4, hm, ht]
  · simp [dcVjpScalar, h1, h2, h3, h4]
  · simp [dcVjpVec, hm, ht]

/-- Non-vacuity: correct functionals of two variables, a winding with nonzero radius and strands, an
unrelated name. -/
example : ∃ (rho vol : Func 2) (p : DCPar), rho.Correct ![1, 2] ∧ vol.Correct ![1, 2] ∧ vol.val ![1, 2] ≠ 0 ∧
    p .strandRadius ≠ 0 ∧ p .strandsInHand ≠ 0 ∧ (∀ x, startsWith "peak_flux" (dcName x) = false) ∧
    dcLoss p (rho.val ![1, 2]) (vol.val ![1, 2]) ≠ 0 := by
  have hc : ∀ c : ℝ, (⟨fun u => u 0 * c, fun _ v => v 0 * c, fun _ => ![c, 0]⟩ : Func 2).Correct ![1, 2] := by
    intro c
    refine ⟨fun v => ?_, fun v => by simp [mul_comm]⟩
    unfold DirDeriv
    simp only [Pi.add_apply, Pi.smul_apply, smul_eq_mul]
    exact ((((hasDerivAt_id' (0 : ℝ)).mul_const (v 0)).const_add _).mul_const c).congr_deriv (by ring)
  refine ⟨_, _, fun _ => 1, hc 1, hc 2, by simp, by simp, by simp, fun x => by cases x <;> simp [startsWith, dcName, List.isPrefixOf], ?_⟩
  simp [dcLoss, Real.pi_ne_zero]

/-! ### C128: the AC loss and its derivatives -/

/-- Specification: the documented name of a scalar input. -/
def acName : ACIn → String
  | .strandRadius => "strand_radius"
  | .frequency => "frequency"
  | .stackLength => "stack_length"
  | .strandsInHand => "strands_in_hand"
  | .numTurns => "num_turns"
  | .numSlots => "num_slots"

/-- Specification: the AC loss per winding volume, `(2 n N S) L π r⁴ (2π f)² (∫σB²) / (8 V)`. -/
noncomputable def acSpec (r f L m N S sb2 V : ℝ) : ℝ :=
  2 * m * N * S * (L * Real.pi * r ^ 4 * (2 * Real.pi * f) ^ 2 * sb2 / 8) / V

theorem acWrt_scalar (x : ACIn) (s : String) : acWrt (acName x ++ s) = .scalar x := by
  cases x <;> simp [acWrt, startsWith, acName]

theorem acWrt_mesh (s : String) : acWrt ("mesh_coords" ++ s) = .mesh := by simp [acWrt, startsWith]

theorem acWrt_flux (s : String) : acWrt ("peak_flux" ++ s) = .peakFlux := by simp [acWrt, startsWith]

theorem acWrt_temp (s : String) : acWrt ("temperature" ++ s) = .temperature := by simp [acWrt, startsWith]

/-- **C128** The value is the loss formula. -/
theorem C128_value (p : ACPar) (sb2 V : ℝ) : acLoss p sb2 V =
    acSpec (p .strandRadius) (p .frequency) (p .stackLength) (p .strandsInHand) (p .numTurns) (p .numSlots)
      sb2 V := by
  unfold acLoss acSpec numStrands strandLoss; ring

/-- The derivative of the loss with respect to a scalar input, as the reverse mode computes it. -/
theorem acLoss_hasDerivAt (p : ACPar) (sb2 V : ℝ) (dot : ℝ) (x : ACIn) (s : String) :
    HasDerivAt (fun t => acLoss (Function.update p x (p x + t * dot)) sb2 V)
      (acVjpScalar p sb2 V 1 (acName x ++ s) * dot) 0 := by
  have hl : ∀ a : ℝ, HasDerivAt (fun t : ℝ => a + t * dot) dot 0 := fun a =>
    (((hasDerivAt_id' (0 : ℝ)).mul_const dot).const_add a).congr_deriv (by ring)
  unfold acLoss numStrands strandLoss
  cases x
  · simp only [ne_eq, reduceCtorEq, not_false_eq_true, Function.update_of_ne, Function.update_self]
    refine (((((((hl _).fun_pow 4).const_mul _).mul_const _).div_const _).const_mul _).div_const _).congr_deriv ?_
    simp [acVjpScalar, startsWith, acName, numStrands, strandLoss]
    ring
  · simp only [ne_eq, reduceCtorEq, not_false_eq_true, Function.update_of_ne, Function.update_self]
    refine (((((((hl _).const_mul _).fun_pow 2).const_mul _).div_const _).const_mul _).div_const _).congr_deriv ?_
    simp [acVjpScalar, startsWith, acName, numStrands, strandLoss]
    ring
  · simp only [ne_eq, reduceCtorEq, not_false_eq_true, Function.update_of_ne, Function.update_self]
    refine ((((((((hl _).const_mul _).mul_const _).mul_const _).mul_const _).div_const _).const_mul _).div_const _).congr_deriv ?_
    simp [acVjpScalar, startsWith, acName, numStrands, strandLoss]
    ring
  · simp only [ne_eq, reduceCtorEq, not_false_eq_true, Function.update_of_ne, Function.update_self]
    refine ((((((hl _).const_mul _).mul_const _).mul_const _).mul_const _).div_const _).congr_deriv ?_
    simp [acVjpScalar, startsWith, acName, numStrands, strandLoss]
    ring
  · simp only [ne_eq, reduceCtorEq, not_false_eq_true, Function.update_of_ne, Function.update_self]
    refine (((((hl _).const_mul _).mul_const _).mul_const _).div_const _).congr_deriv ?_
    simp [acVjpScalar, startsWith, acName, numStrands, strandLoss]
    ring
  · simp only [ne_eq, reduceCtorEq, not_false_eq_true, Function.update_of_ne, Function.update_self]
    refine ((((hl _).const_mul _).mul_const _).div_const _).congr_deriv ?_
    simp [acVjpScalar, startsWith, acName, numStrands, strandLoss]
    ring

/-- **C128** The scalar reverse derivative is `out_bar` times the derivative of the loss, for every
scalar input. -/
theorem C128_reverse_scalar (p : ACPar) (sb2 V : ℝ) (outBar : ℝ) (x : ACIn) (s : String) :
    HasDerivAt (fun t => outBar * acLoss (Function.update p x t) sb2 V)
      (acVjpScalar p sb2 V outBar (acName x ++ s)) (p x) := by
  have h := (acLoss_hasDerivAt p sb2 V 1 x s).const_mul outBar
  simp only [mul_one] at h
  have h2 : HasDerivAt (fun t => outBar * acLoss (Function.update p x t) sb2 V)
      (outBar * acVjpScalar p sb2 V 1 (acName x ++ s)) (p x) := by
    have h3 := HasDerivAt.comp_sub_const (f := fun t => outBar * acLoss (Function.update p x (p x + t)) sb2 V)
      (p x) (p x) (by simpa using h)
    refine h3.congr_of_eventuallyEq (Filter.Eventually.of_forall fun t => ?_)
    simp
  refine h2.congr_deriv ?_
  cases x <;> simp [acVjpScalar, startsWith, acName] <;> ring

/-- **C128** (partial) The forward derivative with respect to every scalar input other than the
frequency is the derivative of the loss. -/
theorem C128_forward_scalar_partial (p : ACPar) (sb2 vol : Func n) (u v : Fin n → ℝ) (dot : ℝ) (x : ACIn)
    (s : String) (hx : x ≠ .frequency) :
    HasDerivAt (fun t => acLoss (Function.update p x (p x + t * dot)) (sb2.val u) (vol.val u))
      (acJvp p sb2 vol u v dot (acName x ++ s)) 0 := by
  refine (acLoss_hasDerivAt p (sb2.val u) (vol.val u) dot x s).congr_deriv ?_
  unfold acJvp
  rw [acWrt_scalar]
  cases x
  · simp [acVjpScalar, startsWith, acName, acJvpScalar]; ring
  · exact absurd rfl hx
  · simp [acVjpScalar, startsWith, acName, acJvpScalar]; ring
  · simp [acVjpScalar, startsWith, acName, acJvpScalar]; ring
  · simp [acVjpScalar, startsWith, acName, acJvpScalar]; ring
  · simp [acVjpScalar, startsWith, acName, acJvpScalar]; ring

/-- **C128** The forward derivative with respect to the frequency is too large by the factor `1 / r`:
multiplied by the strand radius it is the derivative of the loss. -/
theorem C128_forward_frequency_partial (p : ACPar) (sb2 vol : Func n) (u v : Fin n → ℝ) (dot : ℝ) (s : String) :
    HasDerivAt (fun t => acLoss (Function.update p .frequency (p .frequency + t * dot)) (sb2.val u) (vol.val u))
      (p .strandRadius * acJvp p sb2 vol u v dot ("frequency" ++ s)) 0 := by
  refine (acLoss_hasDerivAt p (sb2.val u) (vol.val u) dot .frequency s).congr_deriv ?_
  have := acWrt_scalar .frequency s
  simp only [acName] at this
  unfold acJvp
  rw [this]
  simp [acVjpScalar, startsWith, acName, acJvpScalar]
  ring

/-- **C128** (negation) So the forward derivative with respect to the frequency is *not* the derivative
of the loss whenever the radius is not one and the loss does not vanish. -/
theorem C128_forward_frequency_false (p : ACPar) (sb2 vol : Func n) (u v : Fin n → ℝ) (dot : ℝ) (s : String)
    (hp : ∀ x, p x ≠ 0) (hr : p .strandRadius ≠ 1) (hs : sb2.val u ≠ 0) (hv : vol.val u ≠ 0) (hd : dot ≠ 0) :
    ¬ HasDerivAt (fun t => acLoss (Function.update p .frequency (p .frequency + t * dot)) (sb2.val u) (vol.val u))
      (acJvp p sb2 vol u v dot ("frequency" ++ s)) 0 := by
  intro h
  have e := h.unique (C128_forward_frequency_partial p sb2 vol u v dot s)
  have hne : acJvp p sb2 vol u v dot ("frequency" ++ s) ≠ 0 := by
    have := acWrt_scalar .frequency s
    simp only [acName] at this
    unfold acJvp
    rw [this]
    simp only [acJvpScalar, numStrands]
    have := hp .strandRadius; have := hp .frequency; have := hp .stackLength
    have := hp .strandsInHand; have := hp .numTurns; have := hp .numSlots
    have := Real.pi_ne_zero
    positivity
  apply hr
  have : (p .strandRadius - 1) * acJvp p sb2 vol u v dot ("frequency" ++ s) = 0 := by linarith
  rcases mul_eq_zero.1 this with h | h
  · linarith
  · exact absurd h hne

/-- **C128** The forward derivative along a motion of the mesh. -/
theorem C128_forward_mesh (p : ACPar) (sb2 vol : Func n) (u v : Fin n → ℝ) (dot : ℝ) (s : String)
    (hS : sb2.Correct u) (hV : vol.Correct u) (h0 : vol.val u ≠ 0) :
    DirDeriv (fun u => acLoss p (sb2.val u) (vol.val u)) u v
      (acJvp p sb2 vol u v dot ("mesh_coords" ++ s)) := by
  unfold acJvp
  rw [acWrt_mesh]
  have h := ((((((((hS.1 v).mul_const (p .stackLength)).mul_const Real.pi).mul_const
    (p .strandRadius ^ 4)).mul_const ((2 * Real.pi * p .frequency) ^ 2)).div_const 8).const_mul
    (numStrands p)).fun_div (hV.1 v) (by simpa using h0))
  unfold DirDeriv acLoss strandLoss
  refine h.congr_deriv ?_
  simp only [zero_smul, add_zero]
  field_simp

/-- **C128** The reverse derivative with respect to the mesh. -/
theorem C128_reverse_mesh (p : ACPar) (sb2 vol : Func n) (u v wrtBar : Fin n → ℝ) (outBar dot : ℝ) (s : String)
    (hS : sb2.Correct u) (hV : vol.Correct u) :
    ∑ i, acVjpVec p sb2 vol u outBar ("mesh_coords" ++ s) wrtBar i * v i =
      ∑ i, wrtBar i * v i + outBar * acJvp p sb2 vol u v dot ("mesh_coords" ++ s) := by
  unfold acJvp
  rw [acWrt_mesh]
  simp only [hS.2 v, hV.2 v, acVjpVec, startsWith, String.toList_append,
    List.isPrefixOf_iff_prefix.2 (List.prefix_append _ _), if_true, Func.vjp]
  simp only [mul_sub, mul_sum, sum_div, ← sum_sub_distrib, ← sum_add_distrib]
  exact sum_congr rfl fun i _ => by ring

/-- Specification: the names of the two fields (other than the mesh) the AC loss depends on. -/
def acField (flux : Bool) : String := if flux then "peak_flux" else "temperature"

/-- **C128** The forward derivative along a change of the peak flux or of the temperature. -/
theorem C128_forward_field (p : ACPar) (sb2 vol : Func n) (u v : Fin n → ℝ) (dot : ℝ) (flux : Bool) (s : String)
    (hS : sb2.Correct u) :
    DirDeriv (fun w => acLoss p (sb2.val w) (vol.val u)) u v
      (acJvp p sb2 vol u v dot (acField flux ++ s)) := by
  have h := ((((((((hS.1 v).mul_const (p .stackLength)).mul_const Real.pi).mul_const
    (p .strandRadius ^ 4)).mul_const ((2 * Real.pi * p .frequency) ^ 2)).div_const 8).const_mul
    (numStrands p)).div_const (vol.val u))
  unfold DirDeriv acLoss strandLoss
  refine h.congr_deriv ?_
  cases flux
  · have := acWrt_temp s
    unfold acJvp; simp only [acField, Bool.false_eq_true, if_false, this]; ring
  · have := acWrt_flux s
    unfold acJvp; simp only [acField, if_true, this]; ring

/-- **C128** The reverse derivative with respect to the peak flux or the temperature. -/
theorem C128_reverse_field (p : ACPar) (sb2 vol : Func n) (u v wrtBar : Fin n → ℝ) (outBar dot : ℝ)
    (flux : Bool) (s : String) (hS : sb2.Correct u) :
    ∑ i, acVjpVec p sb2 vol u outBar (acField flux ++ s) wrtBar i * v i =
      ∑ i, wrtBar i * v i + outBar * acJvp p sb2 vol u v dot (acField flux ++ s) := by
  cases flux
  · have := acWrt_temp s
    have h1 : startsWith ("temperature" ++ s) "mesh_coords" = false := by simp [startsWith, List.isPrefixOf]
    have h2 : startsWith ("temperature" ++ s) "peak_flux" = false := by simp [startsWith, List.isPrefixOf]
    have h3 : startsWith ("temperature" ++ s) "temperature" = true := by simp [startsWith]
    simp only [acJvp, acField, Bool.false_eq_true, if_false, this, acVjpVec, h1, h2, h3, if_true, Func.vjp, hS.2 v]
    simp only [mul_sum, sum_div, ← sum_add_distrib]
    exact sum_congr rfl fun i _ => by ring
  · have := acWrt_flux s
    have h1 : startsWith ("peak_flux" ++ s) "mesh_coords" = false := by simp [startsWith, List.isPrefixOf]
    have h2 : startsWith ("peak_flux" ++ s) "peak_flux" = true := by simp [startsWith]
    simp only [acJvp, acField, Bool.false_eq_true, if_false, this, acVjpVec, h1, h2, if_true, Func.vjp, hS.2 v]
    simp only [mul_sum, sum_div, ← sum_add_distrib]
    exact sum_congr rfl fun i _ => by ring

/-- Non-vacuity of the negation: all inputs two. -/
example : ∃ (p : ACPar) (sb2 vol : Func 1), (∀ x, p x ≠ 0) ∧ p .strandRadius ≠ 1 ∧ sb2.val ![1] ≠ 0 ∧
    vol.val ![1] ≠ 0 ∧ acLoss p (sb2.val ![1]) (vol.val ![1]) ≠ 0 :=
  ⟨fun _ => 2, ⟨fun u => u 0, fun _ v => v 0, fun _ => ![1]⟩, ⟨fun u => u 0, fun _ v => v 0, fun _ => ![1]⟩,
    by simp, by norm_num, by simp, by simp, by simp [acLoss, numStrands, strandLoss, Real.pi_ne_zero]⟩

end Verif.Losses
