import Verif.Diffusion
import Verif.DenseLemmas
import Verif.InviscidIntegLemmas

/-!
Properties C121 (nonlinear diffusion element: weak form, structure, Jacobian), C122 (its mesh
sensitivity) and C123 (magnetic energy density).
-/

namespace Verif.Diffusion
open Finset Verif.Sbp Verif.Dense Verif.Inviscid

set_option linter.unusedSectionVars false

variable {ndof dim : ℕ}

/-! ### Specification -/

/-- The physical gradient at a quadrature point of the finite-element function with coefficients `u`:
`∂u/∂x_k = Σ_r u_r Σ_l ∂N_r/∂ξ_l ∂ξ_l/∂x_k`, with `∂ξ/∂x = adj / det`. -/
noncomputable def grad (p : QPt ndof dim) (u : Vec ndof) : Vec dim := fun k =>
  ∑ r, u r * ∑ l, p.dshape r l * (p.adj l k / p.J)

/-- A diffusivity whose flux `ν(s) s` does not decrease with the gradient magnitude `s`. -/
def MonotoneFlux (nu : ℝ → ℝ) : Prop := ∀ s t, 0 ≤ s → s ≤ t → nu s * s ≤ nu t * t

theorem grad_eq (p : QPt ndof dim) (u : Vec ndof) (k : Fin dim) :
    grad p u k = mulTV p.dxt u k / p.J := by
  unfold grad mulTV QPt.dxt mulM
  rw [sum_div]
  refine sum_congr rfl fun r _ => ?_
  rw [sum_mul, mul_sum, sum_div]
  exact sum_congr rfl fun l _ => by ring

theorem norm_grad (p : QPt ndof dim) (hJ : 0 < p.J) (u : Vec ndof) :
    norm2 (grad p u) = norm2 (mulTV p.dxt u) / p.J := by
  rw [← norm2_div _ _ hJ]
  congr 1
  funext k
  exact grad_eq p u k

theorem grad_add_smul (p : QPt ndof dim) (u δ : Vec ndof) (t : ℝ) (k : Fin dim) :
    grad p (fun r => u r + t * δ r) k = grad p u k + t * grad p δ k := by
  rw [grad_eq, grad_eq, grad_eq, mulTV_add p.dxt u (fun r => t * δ r), mulTV_smul]
  ring

theorem grad_sub (p : QPt ndof dim) (u v : Vec ndof) (k : Fin dim) :
    grad p (fun r => u r - v r) k = grad p u k - grad p v k := by
  rw [grad_eq, grad_eq, grad_eq, mulTV_sub]
  ring

/-! ### Values -/

theorem vecBody_apply (alpha : ℝ) (nu : ℝ → ℝ) (p : QPt ndof dim) (u v : Vec ndof) (r : Fin ndof) :
    vecBody alpha nu p u v r = v r + mulV p.dxt (scale (alpha * p.w / p.J *
      nu (norm2 (mulTV p.dxt u) / p.J)) (mulTV p.dxt u)) r := by
  simp [vecBody, addMulV]

theorem elemVec_apply (alpha : ℝ) (nu : ℕ → ℝ → ℝ) (n : ℕ) (pt : ℕ → QPt ndof dim) (u : Vec ndof)
    (r : Fin ndof) :
    elemVec alpha nu n pt u r = ∑ i ∈ range n, mulV (pt i).dxt (scale (alpha * (pt i).w / (pt i).J *
      nu i (norm2 (mulTV (pt i).dxt u) / (pt i).J)) (mulTV (pt i).dxt u)) r := by
  unfold elemVec
  rw [forN_vec n _ _ (fun i v r => vecBody_apply alpha (nu i) (pt i) u v r)]
  simp [zeroV]

/-- **Weak form.**  The element residual tested with `ψ` is the quadrature of `ν(|∇u|) ∇u·∇ψ`. -/
theorem C121_weak_form (alpha : ℝ) (nu : ℕ → ℝ → ℝ) (n : ℕ) (pt : ℕ → QPt ndof dim)
    (hJ : ∀ i < n, 0 < (pt i).J) (u psi : Vec ndof) :
    dotv psi (elemVec alpha nu n pt u) = ∑ i ∈ range n, alpha * (pt i).w * (pt i).J *
      (nu i (norm2 (grad (pt i) u)) * dotv (grad (pt i) u) (grad (pt i) psi)) := by
  have h : elemVec alpha nu n pt u = fun r => ∑ i ∈ range n, mulV (pt i).dxt
      (scale (alpha * (pt i).w / (pt i).J * nu i (norm2 (mulTV (pt i).dxt u) / (pt i).J))
        (mulTV (pt i).dxt u)) r := by
    funext r; exact elemVec_apply alpha nu n pt u r
  rw [h, dotv_sum_right]
  refine sum_congr rfl fun i hi => ?_
  have hJi := hJ i (mem_range.1 hi)
  rw [dotv_mulV, norm_grad _ hJi]
  have e1 : dotv (mulTV (pt i).dxt psi) (scale (alpha * (pt i).w / (pt i).J *
      nu i (norm2 (mulTV (pt i).dxt u) / (pt i).J)) (mulTV (pt i).dxt u)) =
      alpha * (pt i).w / (pt i).J * nu i (norm2 (mulTV (pt i).dxt u) / (pt i).J) *
        dotv (mulTV (pt i).dxt u) (mulTV (pt i).dxt psi) := by
    unfold dotv scale
    rw [mul_sum]
    exact sum_congr rfl fun k _ => by ring
  have e2 : dotv (grad (pt i) u) (grad (pt i) psi) =
      dotv (mulTV (pt i).dxt u) (mulTV (pt i).dxt psi) / (pt i).J ^ 2 := by
    unfold dotv
    rw [sum_div]
    exact sum_congr rfl fun k _ => by rw [grad_eq, grad_eq]; ring
  rw [e1, e2]
  field_simp

/-- **No flux for constants.**  If the shape functions sum to one (so their derivatives sum to zero), a
constant field has zero residual, and every residual sums to zero: the element neither creates nor
destroys heat. -/
theorem C121_constants (alpha : ℝ) (nu : ℕ → ℝ → ℝ) (n : ℕ) (pt : ℕ → QPt ndof dim)
    (hpu : ∀ i < n, ∀ l, ∑ r, (pt i).dshape r l = 0) (c : ℝ) (u : Vec ndof) :
    (∀ r, elemVec alpha nu n pt (fun _ => c) r = 0) ∧ ∑ r, elemVec alpha nu n pt u r = 0 := by
  have h0 : ∀ i < n, ∀ k, ∑ r, (pt i).dxt r k = 0 := by
    intro i hi k
    unfold QPt.dxt mulM
    rw [sum_comm]
    exact sum_eq_zero fun l _ => by rw [← sum_mul, hpu i hi l, zero_mul]
  constructor
  · intro r
    rw [elemVec_apply]
    refine sum_eq_zero fun i hi => ?_
    have : mulTV (pt i).dxt (fun _ => c) = fun _ => 0 := by
      funext k
      unfold mulTV
      rw [← sum_mul, h0 i (mem_range.1 hi) k, zero_mul]
    rw [this]
    simp [mulV, scale]
  · simp only [elemVec_apply]
    rw [sum_comm]
    refine sum_eq_zero fun i hi => ?_
    unfold mulV
    rw [sum_comm]
    exact sum_eq_zero fun k _ => by rw [← sum_mul, h0 i (mem_range.1 hi) k, zero_mul]

/-- **Dissipation.**  With positive weights and a positive diffusivity `u·R(u)` is non-negative and
vanishes exactly when the gradient vanishes at every quadrature point. -/
theorem C121_coercive (alpha : ℝ) (ha : 0 < alpha) (nu : ℕ → ℝ → ℝ) (n : ℕ) (pt : ℕ → QPt ndof dim)
    (hJ : ∀ i < n, 0 < (pt i).J) (hw : ∀ i < n, 0 < (pt i).w) (hnu : ∀ i < n, ∀ s, 0 ≤ s → 0 < nu i s)
    (u : Vec ndof) :
    0 ≤ dotv u (elemVec alpha nu n pt u) ∧
      (dotv u (elemVec alpha nu n pt u) = 0 ↔ ∀ i < n, ∀ k, grad (pt i) u k = 0) := by
  rw [C121_weak_form alpha nu n pt hJ]
  have hc : ∀ i ∈ range n, 0 < alpha * (pt i).w * (pt i).J * nu i (norm2 (grad (pt i) u)) := by
    intro i hi
    have hi := mem_range.1 hi
    have := hJ i hi; have := hw i hi; have := hnu i hi _ (norm2_nonneg (grad (pt i) u))
    positivity
  have hn : ∀ i ∈ range n, 0 ≤ alpha * (pt i).w * (pt i).J *
      (nu i (norm2 (grad (pt i) u)) * dotv (grad (pt i) u) (grad (pt i) u)) := by
    intro i hi
    rw [← mul_assoc]
    exact mul_nonneg (hc i hi).le (dotv_self_nonneg _)
  refine ⟨sum_nonneg hn, ?_⟩
  rw [sum_eq_zero_iff_of_nonneg hn]
  constructor
  · intro h i hi k
    have := h i (mem_range.2 hi)
    rw [← mul_assoc] at this
    rcases mul_eq_zero.1 this with h1 | h1
    · exact absurd h1 (hc i (mem_range.2 hi)).ne'
    · exact (dotv_self_eq_zero _).1 h1 k
  · intro h i hi
    rw [(dotv_self_eq_zero _).2 (h i (mem_range.1 hi))]
    ring

theorem monotone_pair (nu : ℝ → ℝ) (hn : ∀ s, 0 ≤ s → 0 ≤ nu s) (hm : MonotoneFlux nu) (a b : Vec dim) :
    0 ≤ nu (norm2 a) * (dotv a a - dotv a b) - nu (norm2 b) * (dotv a b - dotv b b) := by
  have ha := norm2_nonneg a
  have hb := norm2_nonneg b
  have hab := dotv_le_norm a b
  rw [← norm2_sq, ← norm2_sq b]
  have na := hn _ ha
  have nb := hn _ hb
  have key : 0 ≤ (nu (norm2 a) * norm2 a - nu (norm2 b) * norm2 b) * (norm2 a - norm2 b) := by
    rcases le_total (norm2 a) (norm2 b) with h | h
    · have := hm _ _ ha h
      exact mul_nonneg_of_nonpos_of_nonpos (by linarith) (by linarith)
    · have := hm _ _ hb h
      exact mul_nonneg (by linarith) (by linarith)
  nlinarith [mul_nonneg na (sub_nonneg.2 hab), mul_nonneg nb (sub_nonneg.2 hab)]

/-- **Monotone.**  For a non-negative diffusivity with non-decreasing flux the residual is a monotone
operator: `(u - v)·(R(u) - R(v)) ≥ 0`. -/
theorem C121_monotone (alpha : ℝ) (ha : 0 ≤ alpha) (nu : ℕ → ℝ → ℝ) (n : ℕ) (pt : ℕ → QPt ndof dim)
    (hJ : ∀ i < n, 0 < (pt i).J) (hw : ∀ i < n, 0 ≤ (pt i).w)
    (hn : ∀ i < n, ∀ s, 0 ≤ s → 0 ≤ nu i s) (hm : ∀ i < n, MonotoneFlux (nu i)) (u v : Vec ndof) :
    0 ≤ dotv (fun r => u r - v r) (fun r => elemVec alpha nu n pt u r - elemVec alpha nu n pt v r) := by
  rw [dotv_sub_right (elemVec alpha nu n pt u) (elemVec alpha nu n pt v),
    C121_weak_form alpha nu n pt hJ, C121_weak_form alpha nu n pt hJ, ← sum_sub_distrib]
  refine sum_nonneg fun i hi => ?_
  have hi := mem_range.1 hi
  have e : ∀ w, dotv (grad (pt i) w) (grad (pt i) fun r => u r - v r) =
      dotv (grad (pt i) w) (grad (pt i) u) - dotv (grad (pt i) w) (grad (pt i) v) := by
    intro w
    rw [show grad (pt i) (fun r => u r - v r) = fun k => grad (pt i) u k - grad (pt i) v k from
      funext fun k => grad_sub _ _ _ k, dotv_sub_right]
  rw [e, e, dotv_comm (grad (pt i) v) (grad (pt i) u), ← mul_sub]
  have := hJ i hi; have := hw i hi
  exact mul_nonneg (by positivity) (monotone_pair (nu i) (hn i hi) (hm i hi) _ _)

/-! ### Jacobian -/

/-- Coefficient of the rank-one part of the Jacobian. -/
noncomputable def rankCoef (dnu : ℝ → ℝ) (p : QPt ndof dim) (u : Vec ndof) : ℝ :=
  if |norm2 (mulTV p.dxt u)| > 1 / 10 ^ 14 then
    dnu (norm2 (mulTV p.dxt u) / p.J) / (p.J * norm2 (mulTV p.dxt u)) else 0

theorem gradBody_apply (alpha : ℝ) (nu dnu : ℝ → ℝ) (p : QPt ndof dim) (u : Vec ndof)
    (M : Mat ndof ndof) (r c : Fin ndof) :
    gradBody alpha nu dnu p u M r c = M r c + alpha * p.w / p.J *
      (nu (norm2 (mulTV p.dxt u) / p.J) * ∑ k, p.dxt r k * p.dxt c k +
        rankCoef dnu p u * (mulV p.dxt (mulTV p.dxt u) r * mulV p.dxt (mulTV p.dxt u) c)) := by
  unfold gradBody rankCoef
  by_cases h : |norm2 (mulTV p.dxt u)| > 1 / 10 ^ 14
  · rw [if_pos h, if_pos h]
    simp only [addABt, scaleM, addVWt, scale, addMulV, zeroV]
    congr 1
    have e : ∀ k, p.dxt r k * ((p.dxt c k * nu (norm2 (mulTV p.dxt u) / p.J) +
        1 * ((0 + 1 / norm2 (mulTV p.dxt u) * mulV p.dxt (mulTV p.dxt u) c) / p.J *
          dnu (norm2 (mulTV p.dxt u) / p.J) * mulTV p.dxt u k)) * (alpha * p.w / p.J)) =
        alpha * p.w / p.J * (nu (norm2 (mulTV p.dxt u) / p.J) * (p.dxt r k * p.dxt c k) +
          dnu (norm2 (mulTV p.dxt u) / p.J) / (p.J * norm2 (mulTV p.dxt u)) *
            (p.dxt r k * mulTV p.dxt u k * mulV p.dxt (mulTV p.dxt u) c)) := fun k => by
      rw [zero_add]; ring
    rw [sum_congr rfl fun k _ => e k, ← mul_sum, sum_add_distrib, ← mul_sum, ← mul_sum, ← sum_mul]
    rfl
  · rw [if_neg h, if_neg h]
    simp only [addABt, scaleM]
    congr 1
    rw [zero_mul, add_zero, mul_sum, mul_sum]
    exact sum_congr rfl fun k _ => by ring

theorem elemGrad_apply (alpha : ℝ) (nu dnu : ℕ → ℝ → ℝ) (n : ℕ) (pt : ℕ → QPt ndof dim) (u : Vec ndof)
    (r c : Fin ndof) :
    elemGrad alpha nu dnu n pt u r c = ∑ i ∈ range n, alpha * (pt i).w / (pt i).J *
      (nu i (norm2 (mulTV (pt i).dxt u) / (pt i).J) * ∑ k, (pt i).dxt r k * (pt i).dxt c k +
        rankCoef (dnu i) (pt i) u *
          (mulV (pt i).dxt (mulTV (pt i).dxt u) r * mulV (pt i).dxt (mulTV (pt i).dxt u) c)) := by
  unfold elemGrad
  rw [forN_mat n _ _ (fun i M r c => gradBody_apply alpha (nu i) (dnu i) (pt i) u M r c)]
  simp [zeroM]

theorem dxt_outer (p : QPt ndof dim) (δ : Vec ndof) (r : Fin ndof) :
    ∑ c, (∑ k, p.dxt r k * p.dxt c k) * δ c = mulV p.dxt (mulTV p.dxt δ) r := by
  unfold mulV mulTV
  simp only [sum_mul, mul_sum]
  rw [sum_comm]
  exact sum_congr rfl fun k _ => sum_congr rfl fun c _ => by ring

theorem dxt_dot (p : QPt ndof dim) (u δ : Vec ndof) :
    ∑ c, mulV p.dxt (mulTV p.dxt u) c * δ c = dotv (mulTV p.dxt u) (mulTV p.dxt δ) := by
  have := dotv_mulV p.dxt (mulTV p.dxt u) δ
  rw [dotv_comm (mulTV p.dxt u), ← this]
  exact sum_congr rfl fun _ _ => mul_comm _ _

/-- The Jacobian applied to a direction, in terms of gradients. -/
theorem elemGrad_dir (alpha : ℝ) (nu dnu : ℕ → ℝ → ℝ) (n : ℕ) (pt : ℕ → QPt ndof dim) (u δ : Vec ndof)
    (r : Fin ndof) :
    ∑ c, elemGrad alpha nu dnu n pt u r c * δ c = ∑ i ∈ range n, alpha * (pt i).w / (pt i).J *
      (nu i (norm2 (mulTV (pt i).dxt u) / (pt i).J) * mulV (pt i).dxt (mulTV (pt i).dxt δ) r +
        rankCoef (dnu i) (pt i) u * dotv (mulTV (pt i).dxt u) (mulTV (pt i).dxt δ) *
          mulV (pt i).dxt (mulTV (pt i).dxt u) r) := by
  simp only [elemGrad_apply, sum_mul]
  rw [sum_comm]
  refine sum_congr rfl fun i _ => ?_
  set p := pt i
  set A := alpha * p.w / p.J
  set N := nu i (norm2 (mulTV p.dxt u) / p.J)
  set R := rankCoef (dnu i) p u
  have e : ∀ c, A * (N * ∑ k, p.dxt r k * p.dxt c k +
      R * (mulV p.dxt (mulTV p.dxt u) r * mulV p.dxt (mulTV p.dxt u) c)) * δ c =
      A * N * ((∑ k, p.dxt r k * p.dxt c k) * δ c) +
        A * R * mulV p.dxt (mulTV p.dxt u) r * (mulV p.dxt (mulTV p.dxt u) c * δ c) := fun c => by ring
  rw [sum_congr rfl fun c _ => e c, sum_add_distrib, ← mul_sum, ← mul_sum, dxt_outer, dxt_dot]
  ring

/-- **Jacobian.**  The matrix `AssembleElementGrad` returns is the derivative of the residual in every
direction, at every state whose gradient is zero or not tiny (`> 1e-14` before the mapping) at each
quadrature point. -/
theorem C121_jacobian_partial (alpha : ℝ) (nu dnu : ℕ → ℝ → ℝ) (n : ℕ) (pt : ℕ → QPt ndof dim)
    (hnu : ∀ i < n, ∀ s, HasDerivAt (nu i) (dnu i s) s) (u δ : Vec ndof)
    (hu : ∀ i < n, norm2 (mulTV (pt i).dxt u) = 0 ∨ 1 / 10 ^ 14 < norm2 (mulTV (pt i).dxt u))
    (r : Fin ndof) :
    HasDerivAt (fun t => elemVec alpha nu n pt (fun q => u q + t * δ q) r)
      (∑ c, elemGrad alpha nu dnu n pt u r c * δ c) 0 := by
  simp only [elemVec_apply, elemGrad_dir]
  refine HasDerivAt.fun_sum fun i hi => ?_
  have hi := mem_range.1 hi
  set p := pt i
  have hlin : ∀ t k, mulTV p.dxt (fun q => u q + t * δ q) k = mulTV p.dxt u k + t * mulTV p.dxt δ k :=
    fun t k => by rw [mulTV_add p.dxt u (fun q => t * δ q), mulTV_smul]
  have hg : ∀ k, HasDerivAt (fun t => mulTV p.dxt (fun q => u q + t * δ q) k) (mulTV p.dxt δ k) 0 := by
    intro k
    simp only [hlin]
    exact (((hasDerivAt_id' (0 : ℝ)).mul_const _).const_add _).congr_deriv (by ring)
  have h0 : mulTV p.dxt (fun q => u q + 0 * δ q) = mulTV p.dxt u := by
    funext k; rw [hlin]; ring
  have key : ∀ k, HasDerivAt (fun t => nu i (norm2 (mulTV p.dxt (fun q => u q + t * δ q)) / p.J) *
      mulTV p.dxt (fun q => u q + t * δ q) k)
      (nu i (norm2 (mulTV p.dxt u) / p.J) * mulTV p.dxt δ k +
        rankCoef (dnu i) p u * dotv (mulTV p.dxt u) (mulTV p.dxt δ) * mulTV p.dxt u k) 0 := by
    intro k
    rcases hu i hi with hz | hz
    · have hk : mulTV p.dxt u k = 0 := (norm2_eq_zero _).1 hz k
      have hc : ContinuousAt (fun t => nu i (norm2 (mulTV p.dxt (fun q => u q + t * δ q)) / p.J)) 0 := by
        have h1 := (continuousAt_norm2 (fun t => mulTV p.dxt (fun q => u q + t * δ q)) 0
          fun k => (hg k).continuousAt).div_const p.J
        exact ContinuousAt.comp_of_eq (hnu i hi (norm2 (mulTV p.dxt u) / p.J)).continuousAt h1
          (by rw [h0])
      have := hasDerivAt_mul_of_zero _ _ _ 0 hc (hg k) (by rw [h0]; exact hk)
      refine this.congr_deriv ?_
      rw [h0, hk]
      ring
    · have hne : norm2 (mulTV p.dxt u) ≠ 0 := by
        have : (0 : ℝ) < 1 / 10 ^ 14 := by positivity
        linarith
      have hn := hasDerivAt_norm2 (fun t => mulTV p.dxt (fun q => u q + t * δ q)) _ 0 hg
        (by rw [h0]; exact hne)
      have hn2 := HasDerivAt.comp_of_eq (0 : ℝ) (hnu i hi (norm2 (mulTV p.dxt u) / p.J))
        (hn.div_const p.J) (by rw [h0])
      have := hn2.fun_mul (hg k)
      refine this.congr_deriv ?_
      simp only [Function.comp, h0]
      unfold rankCoef
      rw [if_pos (by rw [abs_of_nonneg (norm2_nonneg _)]; exact hz)]
      field_simp
      ring
  unfold mulV scale
  refine (HasDerivAt.fun_sum fun k _ => ((key k).const_mul (alpha * p.w / p.J * p.dxt r k)).congr_of_eventuallyEq
    (Filter.Eventually.of_forall fun t => ?_)).congr_deriv ?_
  · ring
  · rw [mul_add, mul_sum, mul_sum, mul_sum, mul_sum, ← sum_add_distrib]
    exact sum_congr rfl fun k _ => by ring

/-- **Symmetric.** -/
theorem C121_symmetric (alpha : ℝ) (nu dnu : ℕ → ℝ → ℝ) (n : ℕ) (pt : ℕ → QPt ndof dim) (u : Vec ndof)
    (r c : Fin ndof) : elemGrad alpha nu dnu n pt u r c = elemGrad alpha nu dnu n pt u c r := by
  rw [elemGrad_apply, elemGrad_apply]
  refine sum_congr rfl fun i _ => ?_
  rw [mul_comm (mulV _ _ r), sum_congr rfl fun k _ => mul_comm ((pt i).dxt r k) _]

/-- **Positive semidefinite.**  If the diffusivity and the derivative `ν + s ν'` of the flux are
non-negative, so is the Jacobian. -/
theorem C121_jacobian_psd (alpha : ℝ) (ha : 0 ≤ alpha) (nu dnu : ℕ → ℝ → ℝ) (n : ℕ)
    (pt : ℕ → QPt ndof dim) (hJ : ∀ i < n, 0 < (pt i).J) (hw : ∀ i < n, 0 ≤ (pt i).w)
    (hn : ∀ i < n, ∀ s, 0 ≤ s → 0 ≤ nu i s) (hm : ∀ i < n, ∀ s, 0 ≤ s → 0 ≤ nu i s + s * dnu i s)
    (u δ : Vec ndof) :
    0 ≤ ∑ r, ∑ c, δ r * elemGrad alpha nu dnu n pt u r c * δ c := by
  have e : ∑ r, ∑ c, δ r * elemGrad alpha nu dnu n pt u r c * δ c =
      ∑ i ∈ range n, alpha * (pt i).w / (pt i).J *
        (nu i (norm2 (mulTV (pt i).dxt u) / (pt i).J) * dotv (mulTV (pt i).dxt δ) (mulTV (pt i).dxt δ) +
          rankCoef (dnu i) (pt i) u * dotv (mulTV (pt i).dxt u) (mulTV (pt i).dxt δ) ^ 2) := by
    have e1 : ∀ r, ∑ c, δ r * elemGrad alpha nu dnu n pt u r c * δ c =
        δ r * ∑ c, elemGrad alpha nu dnu n pt u r c * δ c := fun r => by
      rw [mul_sum]; exact sum_congr rfl fun c _ => by ring
    simp only [e1, elemGrad_dir, mul_sum]
    rw [sum_comm]
    refine sum_congr rfl fun i _ => ?_
    have e2 := dotv_mulV (pt i).dxt (mulTV (pt i).dxt δ) δ
    have e3 := dotv_mulV (pt i).dxt (mulTV (pt i).dxt u) δ
    rw [dotv_comm (mulTV (pt i).dxt δ) (mulTV (pt i).dxt u)] at e3
    set D := dotv (mulTV (pt i).dxt u) (mulTV (pt i).dxt δ)
    rw [← e2, pow_two]
    nth_rewrite 2 [← e3]
    set A := alpha * (pt i).w / (pt i).J
    set N := nu i (norm2 (mulTV (pt i).dxt u) / (pt i).J)
    set R := rankCoef (dnu i) (pt i) u
    have e5 : ∀ r, δ r * (A * (N * mulV (pt i).dxt (mulTV (pt i).dxt δ) r +
        R * D * mulV (pt i).dxt (mulTV (pt i).dxt u) r)) =
        A * N * (δ r * mulV (pt i).dxt (mulTV (pt i).dxt δ) r) +
          A * R * D * (δ r * mulV (pt i).dxt (mulTV (pt i).dxt u) r) := fun r => by ring
    rw [sum_congr rfl fun r _ => e5 r, sum_add_distrib, ← mul_sum, ← mul_sum]
    unfold dotv
    ring
  rw [e]
  refine sum_nonneg fun i hi => ?_
  have hi := mem_range.1 hi
  have hJi := hJ i hi
  have hwi := hw i hi
  refine mul_nonneg (by positivity) ?_
  set g := mulTV (pt i).dxt u
  set h := mulTV (pt i).dxt δ
  have hs : 0 ≤ norm2 g / (pt i).J := div_nonneg (norm2_nonneg _) hJi.le
  have h1 := hn i hi _ hs
  have h2 := hm i hi _ hs
  have hcs := dotv_sq_le g h
  unfold rankCoef
  split_ifs with hg
  · have hpos : 0 < norm2 g := by
      rw [abs_of_nonneg (norm2_nonneg _)] at hg
      have : (0 : ℝ) < 1 / 10 ^ 14 := by positivity
      linarith
    rw [← norm2_sq g] at hcs
    set s := norm2 g / (pt i).J with hsd
    have e4 : dnu i s / ((pt i).J * norm2 g) * dotv g h ^ 2 =
        (s * dnu i s) * (dotv g h ^ 2 / norm2 g ^ 2) := by
      rw [hsd]; field_simp
    rw [e4]
    have hq : 0 ≤ dotv g h ^ 2 / norm2 g ^ 2 := by positivity
    have hq2 : dotv g h ^ 2 / norm2 g ^ 2 ≤ dotv h h := by
      rw [div_le_iff₀ (by positivity)]; linarith
    nlinarith [mul_nonneg h1 (sub_nonneg.2 hq2), mul_nonneg h2 hq]
  · rw [zero_mul, add_zero]
    exact mul_nonneg h1 (dotv_self_nonneg _)

/-- **Energy.**  The residual is the derivative of the stored energy: if `E_i' (s) = ν_i(s) s` then
`R(u)·δ` is the derivative of the quadrature of `E(|∇u|)` in direction `δ` - at every state, also
where the gradient vanishes. -/
theorem C121_energy (alpha : ℝ) (nu E : ℕ → ℝ → ℝ) (n : ℕ) (pt : ℕ → QPt ndof dim)
    (hJ : ∀ i < n, 0 < (pt i).J) (hE : ∀ i < n, ∀ s, HasDerivAt (E i) (nu i s * s) s) (u δ : Vec ndof) :
    HasDerivAt (fun t => ∑ i ∈ range n, alpha * (pt i).w * (pt i).J *
        E i (norm2 (grad (pt i) fun q => u q + t * δ q)))
      (dotv δ (elemVec alpha nu n pt u)) 0 := by
  rw [C121_weak_form alpha nu n pt hJ]
  refine HasDerivAt.fun_sum fun i hi => HasDerivAt.const_mul _ ?_
  have hi := mem_range.1 hi
  set p := pt i
  have hg : ∀ k, HasDerivAt (fun t => grad p (fun q => u q + t * δ q) k) (grad p δ k) 0 := by
    intro k
    simp only [grad_add_smul]
    exact (((hasDerivAt_id' (0 : ℝ)).mul_const _).const_add _).congr_deriv (by ring)
  have h0 : grad p (fun q => u q + 0 * δ q) = grad p u := by
    funext k; rw [grad_add_smul]; ring
  by_cases hz : norm2 (grad p u) = 0
  · have hE0 : HasDerivAt (E i) 0 0 := (hE i hi 0).congr_deriv (by ring)
    have := hasDerivAt_comp_norm_of_zero (E i) (fun t => grad p fun q => u q + t * δ q) (grad p δ) 0 hE0 hg
      (by rw [h0]; exact hz)
    refine this.congr_deriv ?_
    have : dotv (grad p u) (grad p δ) = 0 :=
      sum_eq_zero fun k _ => by rw [(norm2_eq_zero _).1 hz k, zero_mul]
    rw [this, mul_zero]
  · have hn := hasDerivAt_norm2 (fun t => grad p fun q => u q + t * δ q) (grad p δ) 0 hg
      (by rw [h0]; exact hz)
    have := HasDerivAt.comp_of_eq (0 : ℝ) (hE i hi (norm2 (grad p u))) hn (by rw [h0])
    refine this.congr_deriv ?_
    simp only [h0]
    field_simp

/-- The Jacobian is not the derivative where the gradient is nonzero but below the guard. -/
theorem C121_jacobian_small_false :
    ¬ ∀ (nu dnu : ℝ → ℝ) (_ : ∀ s, HasDerivAt nu (dnu s) s) (pt : QPt 1 1) (u δ : Vec 1),
      HasDerivAt (fun t => elemVec 1 (fun _ => nu) 1 (fun _ => pt) (fun q => u q + t * δ q) 0)
        (∑ c, elemGrad 1 (fun _ => nu) (fun _ => dnu) 1 (fun _ => pt) u 0 c * δ c) 0 := by
  intro h
  have h1 := h (fun s => s) (fun _ => 1) (fun s => hasDerivAt_id' s)
    ⟨1, fun _ _ => 1, fun _ _ => 1, 1⟩ (fun _ => 1 / 10 ^ 15) (fun _ => 1)
  have hv : ∀ x : Vec 1, elemVec 1 (fun _ => fun s => s) 1 (fun _ => (⟨1, fun _ _ => 1, fun _ _ => 1, 1⟩ : QPt 1 1)) x 0 =
      |x 0| * x 0 := by
    intro x
    rw [elemVec_apply]
    simp [mulV, scale, QPt.dxt, mulM, mulTV, norm2, dotv, Real.sqrt_mul_self_eq_abs]
    ring
  simp only [hv] at h1
  have h2 : HasDerivAt (fun t : ℝ => |1 / 10 ^ 15 + t * 1| * (1 / 10 ^ 15 + t * 1)) (2 / 10 ^ 15) 0 := by
    have hq : HasDerivAt (fun t : ℝ => (1 / 10 ^ 15 + t * 1) * (1 / 10 ^ 15 + t * 1)) (2 / 10 ^ 15) 0 := by
      have hl : HasDerivAt (fun t : ℝ => 1 / 10 ^ 15 + t * 1) 1 0 :=
        (((hasDerivAt_id' (0 : ℝ)).mul_const 1).const_add _).congr_deriv (by ring)
      exact (hl.fun_mul hl).congr_deriv (by norm_num)
    refine hq.congr_of_eventuallyEq ?_
    filter_upwards [Ioi_mem_nhds (show (-(1 / 10 ^ 15) : ℝ) < 0 by norm_num)] with t ht
    rw [abs_of_pos (by have : (-(1 / 10 ^ 15) : ℝ) < t := ht; linarith)]
  have h3 := h1.unique h2
  rw [Fin.sum_univ_one, elemGrad_apply] at h3
  simp [rankCoef, mulV, QPt.dxt, mulM, mulTV, norm2, dotv] at h3
  norm_num at h3

/-- Non-vacuity: one linear segment of length two with the nonlinear diffusivity `1 + s²`; the
hypotheses of the theorems above hold and the residual is not zero. -/
example : ∃ (pt : QPt 2 1) (u : Vec 2), 0 < pt.J ∧ 0 < pt.w ∧ (∀ l, ∑ r, pt.dshape r l = 0) ∧
    (∀ s : ℝ, 0 ≤ s → 0 < 1 + s ^ 2) ∧ MonotoneFlux (fun s => 1 + s ^ 2) ∧
    (∀ s : ℝ, 0 ≤ s → 0 ≤ (1 + s ^ 2) + s * (2 * s)) ∧
    1 / 10 ^ 14 < norm2 (mulTV pt.dxt u) ∧
    elemVec 1 (fun _ s => 1 + s ^ 2) 1 (fun _ => pt) u 1 = 2 := by
  refine ⟨⟨1, fun r _ => if r = 0 then -1 else 1, fun _ _ => 1, 2⟩, fun r => if r = 0 then 1 else 3,
    by norm_num, by norm_num, fun l => by simp [Fin.sum_univ_two], fun s _ => by positivity, ?_,
    fun s _ => by positivity, ?_, ?_⟩
  · intro s t hs hst
    have : s ^ 3 ≤ t ^ 3 := pow_le_pow_left₀ hs hst 3
    nlinarith
  · have h : norm2 (mulTV (QPt.dxt (⟨1, fun r _ => if r = 0 then -1 else 1, fun _ _ => 1, 2⟩ : QPt 2 1))
        (fun r => if r = 0 then 1 else 3)) = 2 := by
      unfold norm2
      rw [show dotv _ _ = (2 : ℝ) ^ 2 by
        simp [dotv, mulTV, QPt.dxt, mulM, Fin.sum_univ_two]; norm_num]
      exact Real.sqrt_sq (by norm_num)
    rw [h]; norm_num
  · rw [elemVec_apply]
    have h : norm2 (mulTV (QPt.dxt (⟨1, fun r _ => if r = 0 then -1 else 1, fun _ _ => 1, 2⟩ : QPt 2 1))
        (fun r => if r = 0 then 1 else 3)) = 2 := by
      unfold norm2
      rw [show dotv _ _ = (2 : ℝ) ^ 2 by
        simp [dotv, mulTV, QPt.dxt, mulM, Fin.sum_univ_two]; norm_num]
      exact Real.sqrt_sq (by norm_num)
    rw [sum_range_one, h]
    simp [mulV, scale, mulTV, QPt.dxt, mulM, Fin.sum_univ_two]
    norm_num

end Verif.Diffusion
