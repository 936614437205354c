import Verif.CurlCurl
import Verif.IsoMotion3

/-!
Properties C136 (curl-curl element: weak form, gauge invariance, energy, monotonicity) and C137 (its
Jacobian and sensitivities).
-/

namespace Verif.CurlCurl
open Finset Verif.Sbp Verif.Dense Verif.Diffusion Verif.Force Verif.Losses

set_option linter.unusedSimpArgs false
set_option linter.unusedSectionVars false

variable {ndof m n : ℕ}

/-! ### Specification -/

/-- Specification: the curl in physical space, at a quadrature point, of the field with edge coefficients
`u`: the contravariant Piola transform `J curl̂ / det J` of the reference curl. -/
noncomputable def curl (p : CPt ndof) (u : Vec ndof) : Vec 3 := fun k =>
  (∑ l, p.jac k l * ∑ r, p.cs r l * u r) / p.J

/-- Specification: the field with coefficients `g` is curl free on the element (for instance a gradient
of a nodal function). -/
def CurlFree (n : ℕ) (pt : ℕ → CPt ndof) (g : Vec ndof) : Prop := ∀ i < n, ∀ l, ∑ r, (pt i).cs r l * g r = 0

/-! ### Reduction to the diffusion element -/

/-- The point seen as one of the diffusion element whose adjugate is the transposed Jacobian matrix. -/
def CPt.toQ (p : CPt ndof) : QPt ndof 3 := ⟨p.w, p.cs, transpose p.jac, p.J⟩

theorem toQ_dxt (p : CPt ndof) : p.toQ.dxt = p.cdft := rfl

theorem grad_toQ (p : CPt ndof) (u : Vec ndof) : grad p.toQ u = curl p u := by
  funext k
  rw [grad_eq, toQ_dxt]
  change mulTV (mulABt p.cs p.jac) u k / p.J = _
  unfold curl mulTV mulABt
  congr 1
  simp only [sum_mul, mul_sum]
  rw [sum_comm]
  exact sum_congr rfl fun _ _ => sum_congr rfl fun _ _ => by ring

theorem addMulTV_zero {a b : ℕ} (A : Mat a b) (x : Vec a) : addMulTV A x zeroV = mulTV A x := by
  funext k; simp [addMulTV, zeroV]

theorem vecBody_eq (alpha : ℝ) (nu : ℝ → ℝ) (p : CPt ndof) (u v : Vec ndof) :
    vecBody alpha nu p u v = Diffusion.vecBody alpha nu p.toQ u v := by
  unfold vecBody Diffusion.vecBody
  simp only [addMulTV_zero, toQ_dxt]
  have : ∀ x : ℝ, x * (p.w / p.J * alpha) = alpha * p.toQ.w / p.toQ.J * x := fun x => by
    change x * (p.w / p.J * alpha) = alpha * p.w / p.J * x; ring
  rw [this]; rfl

theorem elemVec_eq (alpha : ℝ) (nu : ℕ → ℝ → ℝ) (n : ℕ) (pt : ℕ → CPt ndof) (u : Vec ndof) :
    elemVec alpha nu n pt u = Diffusion.elemVec alpha nu n (fun i => (pt i).toQ) u := by
  unfold elemVec Diffusion.elemVec
  congr 1
  funext i v
  exact vecBody_eq _ _ _ _ _

/-! ### C136 -/

/-- **C136** Weak form: the element residual tested with `ψ` is the quadrature of `ν(|B|) B·curl ψ` with
`B = curl A`. -/
theorem C136_weak_form (alpha : ℝ) (nu : ℕ → ℝ → ℝ) (pt : ℕ → CPt ndof) (hJ : ∀ i < n, 0 < (pt i).J)
    (u psi : Vec ndof) :
    dotv psi (elemVec alpha nu n pt u) = ∑ i ∈ range n, alpha * (pt i).w * (pt i).J *
      (nu i (norm2 (curl (pt i) u)) * dotv (curl (pt i) u) (curl (pt i) psi)) := by
  rw [elemVec_eq, C121_weak_form _ _ _ _ hJ]
  simp only [grad_toQ]
  rfl

theorem curlFree_curl (pt : ℕ → CPt ndof) (g : Vec ndof) (hg : CurlFree n pt g) (i : ℕ) (hi : i < n) (k : Fin 3) :
    curl (pt i) g k = 0 := by
  unfold curl
  rw [sum_eq_zero fun l _ => by rw [hg i hi l, mul_zero], zero_div]

theorem cdft_curlFree (pt : ℕ → CPt ndof) (g : Vec ndof) (hg : CurlFree n pt g) (i : ℕ) (hi : i < n) :
    mulTV (pt i).cdft g = fun _ => 0 := by
  funext k
  unfold mulTV CPt.cdft mulABt
  simp only [sum_mul]
  rw [sum_comm]
  refine sum_eq_zero fun l _ => ?_
  have : ∀ r, (pt i).cs r l * (pt i).jac k l * g r = (pt i).jac k l * ((pt i).cs r l * g r) := fun r => by ring
  rw [sum_congr rfl fun r _ => this r, ← mul_sum, hg i hi l, mul_zero]

/-- **C136** Gauge invariance: adding a curl-free field to the potential does not change the residual, and
the residual is orthogonal to every curl-free field (the discrete statement that `div J = 0` is
required of the load). -/
theorem C136_gauge (alpha : ℝ) (nu : ℕ → ℝ → ℝ) (pt : ℕ → CPt ndof) (u g : Vec ndof) (hg : CurlFree n pt g) :
    elemVec alpha nu n pt (fun r => u r + g r) = elemVec alpha nu n pt u ∧
      dotv g (elemVec alpha nu n pt u) = 0 := by
  constructor
  · funext r
    rw [elemVec_eq, elemVec_eq, elemVec_apply, elemVec_apply]
    refine sum_congr rfl fun i hi => ?_
    have : mulTV (pt i).toQ.dxt (fun r => u r + g r) = mulTV (pt i).toQ.dxt u := by
      funext k
      rw [mulTV_add (pt i).toQ.dxt u g, toQ_dxt, cdft_curlFree pt g hg i (mem_range.1 hi), add_zero]
    rw [this]
  · rw [elemVec_eq]
    have h : Diffusion.elemVec alpha nu n (fun i => (pt i).toQ) u = fun r => ∑ i ∈ range n, mulV (pt i).toQ.dxt
        (scale (alpha * (pt i).toQ.w / (pt i).toQ.J * nu i (norm2 (mulTV (pt i).toQ.dxt u) / (pt i).toQ.J))
          (mulTV (pt i).toQ.dxt u)) r := by
      funext r; exact elemVec_apply alpha nu n (fun i => (pt i).toQ) u r
    rw [h, dotv_sum_right]
    refine sum_eq_zero fun i hi => ?_
    rw [dotv_mulV, toQ_dxt, cdft_curlFree pt g hg i (mem_range.1 hi)]
    simp [dotv]

/-- **C136** With positive weights and reluctivity, `A·R(A) ≥ 0`, with equality exactly when the flux
density vanishes at every quadrature point. -/
theorem C136_coercive (alpha : ℝ) (ha : 0 < alpha) (nu : ℕ → ℝ → ℝ) (pt : ℕ → CPt ndof)
    (hJ : ∀ i < n, 0 < (pt i).J) (hw : ∀ i < n, 0 < (pt i).w) (hnu : ∀ i < n, ∀ s, 0 ≤ s → 0 < nu i s)
    (u : Vec ndof) :
    0 ≤ dotv u (elemVec alpha nu n pt u) ∧
      (dotv u (elemVec alpha nu n pt u) = 0 ↔ ∀ i < n, ∀ k, curl (pt i) u k = 0) := by
  have := C121_coercive alpha ha nu n (fun i => (pt i).toQ) hJ hw hnu u
  simp only [grad_toQ] at this
  rw [elemVec_eq]
  exact this

/-- **C136** For a non-negative reluctivity with non-decreasing `H(B) = ν(B) B` the residual is monotone. -/
theorem C136_monotone (alpha : ℝ) (ha : 0 ≤ alpha) (nu : ℕ → ℝ → ℝ) (pt : ℕ → CPt ndof)
    (hJ : ∀ i < n, 0 < (pt i).J) (hw : ∀ i < n, 0 ≤ (pt i).w)
    (hn : ∀ i < n, ∀ s, 0 ≤ s → 0 ≤ nu i s) (hm : ∀ i < n, MonotoneFlux (nu i)) (u v : Vec ndof) :
    0 ≤ dotv (fun r => u r - v r) (fun r => elemVec alpha nu n pt u r - elemVec alpha nu n pt v r) := by
  rw [elemVec_eq, elemVec_eq]
  exact C121_monotone alpha ha nu n (fun i => (pt i).toQ) hJ hw hn hm u v

/-- **C136** The residual is the derivative of the magnetic energy: if `E_i'(s) = ν_i(s) s`, then
`R(A)·δ` is the derivative of the quadrature of `E(|curl A|)` in direction `δ` - at every state. -/
theorem C136_energy (alpha : ℝ) (nu E : ℕ → ℝ → ℝ) (pt : ℕ → CPt ndof) (hJ : ∀ i < n, 0 < (pt i).J)
    (hE : ∀ i < n, ∀ s, HasDerivAt (E i) (nu i s * s) s) (u δ : Vec ndof) :
    HasDerivAt (fun t => ∑ i ∈ range n, alpha * (pt i).w * (pt i).J *
        E i (norm2 (curl (pt i) fun q => u q + t * δ q)))
      (dotv δ (elemVec alpha nu n pt u)) 0 := by
  have := C121_energy alpha nu E n (fun i => (pt i).toQ) hJ hE u δ
  simp only [grad_toQ] at this
  rw [elemVec_eq]
  exact this

/-! ### C137: Jacobian -/

/-- Coefficient of the rank-one part of the Jacobian. -/
noncomputable def rankC (dnu : ℝ → ℝ) (p : CPt ndof) (u : Vec ndof) : ℝ :=
  if |norm2 (curl p u)| > 1 / 10 ^ 14 then dnu (norm2 (curl p u)) / norm2 (curl p u) else 0

theorem curl_eq (p : CPt ndof) (u : Vec ndof) : curl p u = fun k => mulTV p.cdft u k / p.J := by
  funext k; rw [← grad_toQ, grad_eq, toQ_dxt]; rfl

theorem gradBody_apply (alpha : ℝ) (nu dnu : ℝ → ℝ) (p : CPt ndof) (u : Vec ndof) (M : Mat ndof ndof)
    (r c : Fin ndof) :
    gradBody alpha nu dnu p u M r c = M r c + alpha * p.w / p.J *
      (nu (norm2 (curl p u)) * ∑ k, p.cdft r k * p.cdft c k +
        rankC dnu p u * (mulV p.cdft (curl p u) r * mulV p.cdft (curl p u) c)) := by
  unfold gradBody rankC
  simp only
  rw [← curl_eq]
  have h1 : ∀ x : ℝ, ∑ l, scaleM x p.cdft r l * p.cdft c l = x * ∑ k, p.cdft r k * p.cdft c k := by
    intro x
    rw [mul_sum]
    exact sum_congr rfl fun _ _ => by unfold scaleM; ring
  split_ifs with h
  · simp only [addABt, addVWt, h1]; ring
  · simp only [addABt, h1]; ring

theorem elemGrad_apply (alpha : ℝ) (nu dnu : ℕ → ℝ → ℝ) (n : ℕ) (pt : ℕ → CPt ndof) (u : Vec ndof)
    (r c : Fin ndof) :
    elemGrad alpha nu dnu n pt u r c = ∑ i ∈ range n, alpha * (pt i).w / (pt i).J *
      (nu i (norm2 (curl (pt i) u)) * ∑ k, (pt i).cdft r k * (pt i).cdft c k +
        rankC (dnu i) (pt i) u * (mulV (pt i).cdft (curl (pt i) u) r * mulV (pt i).cdft (curl (pt i) u) c)) := by
  unfold elemGrad
  rw [forN_mat n _ _ (fun i M r c => gradBody_apply alpha (nu i) (dnu i) (pt i) u M r c)]
  simp [zeroM]

/-- The Jacobian applied to a direction. -/
theorem elemGrad_dir (alpha : ℝ) (nu dnu : ℕ → ℝ → ℝ) (pt : ℕ → CPt ndof) (hJ : ∀ i < n, (pt i).J ≠ 0)
    (u δ : Vec ndof) (r : Fin ndof) :
    ∑ c, elemGrad alpha nu dnu n pt u r c * δ c = ∑ i ∈ range n, alpha * (pt i).w *
      (nu i (norm2 (curl (pt i) u)) * mulV (pt i).cdft (curl (pt i) δ) r +
        rankC (dnu i) (pt i) u * dotv (curl (pt i) u) (curl (pt i) δ) * mulV (pt i).cdft (curl (pt i) u) r) := by
  simp only [elemGrad_apply, sum_mul]
  rw [sum_comm]
  refine sum_congr rfl fun i hi => ?_
  have hJi := hJ i (mem_range.1 hi)
  set p := pt i
  set N := nu i (norm2 (curl p u))
  set R := rankC (dnu i) p u
  have e : ∀ c, alpha * p.w / p.J * (N * ∑ k, p.cdft r k * p.cdft c k +
      R * (mulV p.cdft (curl p u) r * mulV p.cdft (curl p u) c)) * δ c =
      alpha * p.w / p.J * N * ((∑ k, p.cdft r k * p.cdft c k) * δ c) +
        alpha * p.w / p.J * R * mulV p.cdft (curl p u) r * (mulV p.cdft (curl p u) c * δ c) := fun c => by ring
  have h1 : ∑ c, (∑ k, p.cdft r k * p.cdft c k) * δ c = p.J * mulV p.cdft (curl p δ) r := by
    have := dxt_outer p.toQ δ r
    rw [toQ_dxt] at this
    rw [this, curl_eq]
    unfold mulV
    rw [mul_sum]
    exact sum_congr rfl fun k _ => by field_simp
  have h2 : ∑ c, mulV p.cdft (curl p u) c * δ c = p.J * dotv (curl p u) (curl p δ) := by
    have := dotv_mulV p.cdft (curl p u) δ
    rw [dotv_comm] at this
    change dotv (mulV p.cdft (curl p u)) δ = _
    rw [this, dotv_comm, ← dotv_smul_right]
    congr 1; funext k
    rw [curl_eq p δ]; field_simp
  rw [sum_congr rfl fun c _ => e c, sum_add_distrib, ← mul_sum, ← mul_sum, h1, h2]
  field_simp

theorem elemVec_curl (alpha : ℝ) (nu : ℕ → ℝ → ℝ) (pt : ℕ → CPt ndof) (hJ : ∀ i < n, 0 < (pt i).J) (u : Vec ndof)
    (r : Fin ndof) :
    elemVec alpha nu n pt u r = ∑ i ∈ range n, alpha * (pt i).w *
      mulV (pt i).cdft (fun k => nu i (norm2 (curl (pt i) u)) * curl (pt i) u k) r := by
  rw [elemVec_eq, elemVec_apply]
  refine sum_congr rfl fun i hi => ?_
  have hJi := hJ i (mem_range.1 hi)
  rw [← grad_toQ, norm_grad _ hJi]
  unfold mulV scale
  rw [mul_sum]
  refine sum_congr rfl fun k _ => ?_
  beta_reduce
  rw [grad_eq]
  change _ * (_ * (alpha * (pt i).w / (pt i).J * _)) = _ * (_ * (_ * (_ / (pt i).J)))
  rw [toQ_dxt]
  ring

theorem curl_line (p : CPt ndof) (u δ : Vec ndof) (t : ℝ) (k : Fin 3) :
    curl p (fun q => u q + t * δ q) k = curl p u k + t * curl p δ k := by
  rw [← grad_toQ, ← grad_toQ, ← grad_toQ]; exact grad_add_smul _ _ _ _ _

/-- **C137** The element matrix is the derivative of the element residual in every direction, at every
state whose flux density at each quadrature point is zero or above `1e-14` in magnitude. -/
theorem C137_jacobian_partial (alpha : ℝ) (nu dnu : ℕ → ℝ → ℝ) (pt : ℕ → CPt ndof) (hJ : ∀ i < n, 0 < (pt i).J)
    (hnu : ∀ i < n, ∀ s, HasDerivAt (nu i) (dnu i s) s) (u δ : Vec ndof)
    (hu : ∀ i < n, norm2 (curl (pt i) u) = 0 ∨ 1 / 10 ^ 14 < norm2 (curl (pt i) u)) (r : Fin ndof) :
    HasDerivAt (fun t => elemVec alpha nu n pt (fun q => u q + t * δ q) r)
      (∑ c, elemGrad alpha nu dnu n pt u r c * δ c) 0 := by
  simp only [elemVec_curl alpha nu pt hJ]
  rw [elemGrad_dir alpha nu dnu pt (fun i hi => (hJ i hi).ne')]
  refine HasDerivAt.fun_sum fun i hi => HasDerivAt.const_mul _ ?_
  have hi := mem_range.1 hi
  set p := pt i
  have hg : ∀ k, HasDerivAt (fun t => curl p (fun q => u q + t * δ q) k) (curl p δ k) 0 := by
    intro k
    simp only [curl_line]
    exact hasDerivAt_line _ _
  have h0 : curl p (fun q => u q + 0 * δ q) = curl p u := by
    funext k; rw [curl_line]; ring
  have key : ∀ k, HasDerivAt (fun t => nu i (norm2 (curl p (fun q => u q + t * δ q))) *
      curl p (fun q => u q + t * δ q) k)
      (nu i (norm2 (curl p u)) * curl p δ k + rankC (dnu i) p u * dotv (curl p u) (curl p δ) * curl p u k) 0 := by
    intro k
    rcases hu i hi with hz | hz
    · have hk : curl p u k = 0 := (norm2_eq_zero _).1 hz k
      have hc : ContinuousAt (fun t => nu i (norm2 (curl p (fun q => u q + t * δ q)))) 0 :=
        ContinuousAt.comp_of_eq (hnu i hi (norm2 (curl p u))).continuousAt
          (continuousAt_norm2 (fun t => curl p (fun q => u q + t * δ q)) 0 fun k => (hg k).continuousAt)
          (by rw [h0])
      refine (hasDerivAt_mul_of_zero _ _ _ 0 hc (hg k) (by rw [h0]; exact hk)).congr_deriv ?_
      rw [h0, hk]
      ring
    · have hne : norm2 (curl p u) ≠ 0 := by
        have : (0 : ℝ) < 1 / 10 ^ 14 := by positivity
        linarith
      have hn := hasDerivAt_norm2 (fun t => curl p (fun q => u q + t * δ q)) _ 0 hg (by rw [h0]; exact hne)
      have hn2 := HasDerivAt.comp_of_eq (0 : ℝ) (hnu i hi (norm2 (curl p u))) hn (by rw [h0])
      refine (hn2.fun_mul (hg k)).congr_deriv ?_
      simp only [Function.comp, h0]
      unfold rankC
      rw [if_pos (by rw [abs_of_nonneg (norm2_nonneg _)]; exact hz)]
      field_simp
      ring
  unfold mulV
  refine (HasDerivAt.fun_sum fun k _ => (key k).const_mul (p.cdft r k)).congr_deriv ?_
  rw [mul_sum, mul_sum, ← sum_add_distrib]
  exact sum_congr rfl fun k _ => by ring

/-- **C137** The element matrix is symmetric. -/
theorem C137_symmetric (alpha : ℝ) (nu dnu : ℕ → ℝ → ℝ) (pt : ℕ → CPt ndof) (u : Vec ndof)
    (r c : Fin ndof) : elemGrad alpha nu dnu n pt u r c = elemGrad alpha nu dnu n pt u c r := by
  rw [elemGrad_apply, elemGrad_apply]
  refine sum_congr rfl fun i _ => ?_
  rw [mul_comm (mulV _ _ r), sum_congr rfl fun k _ => mul_comm ((pt i).cdft r k) _]

theorem dotv_elemGrad (alpha : ℝ) (nu dnu : ℕ → ℝ → ℝ) (pt : ℕ → CPt ndof) (hJ : ∀ i < n, (pt i).J ≠ 0)
    (u δ η : Vec ndof) :
    dotv η (mulV (elemGrad alpha nu dnu n pt u) δ) = ∑ i ∈ range n, alpha * (pt i).w * (pt i).J *
      (nu i (norm2 (curl (pt i) u)) * dotv (curl (pt i) η) (curl (pt i) δ) +
        rankC (dnu i) (pt i) u * dotv (curl (pt i) u) (curl (pt i) δ) * dotv (curl (pt i) u) (curl (pt i) η)) := by
  have e : mulV (elemGrad alpha nu dnu n pt u) δ = fun r => ∑ i ∈ range n, alpha * (pt i).w *
      (nu i (norm2 (curl (pt i) u)) * mulV (pt i).cdft (curl (pt i) δ) r +
        rankC (dnu i) (pt i) u * dotv (curl (pt i) u) (curl (pt i) δ) * mulV (pt i).cdft (curl (pt i) u) r) :=
    funext fun r => elemGrad_dir alpha nu dnu pt hJ u δ r
  rw [e, dotv_sum_right]
  refine sum_congr rfl fun i hi => ?_
  have hJi := hJ i (mem_range.1 hi)
  have h : ∀ x : Vec 3, dotv η (mulV (pt i).cdft x) = (pt i).J * dotv (curl (pt i) η) x := by
    intro x
    rw [dotv_mulV, ← dotv_smul_left]
    congr 1; funext k
    rw [curl_eq]; field_simp
  rw [dotv_smul_right, dotv_add_right (fun r => _ * _) (fun r => _ * _), dotv_smul_right, dotv_smul_right, h, h,
    dotv_comm (curl (pt i) η) (curl (pt i) u)]
  ring

/-- **C137** If `ν` and the differential reluctivity `ν + s ν'` are non-negative, the element matrix is
positive semidefinite. -/
theorem C137_jacobian_psd (alpha : ℝ) (ha : 0 ≤ alpha) (nu dnu : ℕ → ℝ → ℝ)
    (pt : ℕ → CPt ndof) (hJ : ∀ i < n, 0 < (pt i).J) (hw : ∀ i < n, 0 ≤ (pt i).w)
    (hn : ∀ i < n, ∀ s, 0 ≤ s → 0 ≤ nu i s) (hm : ∀ i < n, ∀ s, 0 ≤ s → 0 ≤ nu i s + s * dnu i s)
    (u δ : Vec ndof) :
    0 ≤ dotv δ (mulV (elemGrad alpha nu dnu n pt u) δ) := by
  rw [dotv_elemGrad alpha nu dnu pt (fun i hi => (hJ i hi).ne')]
  refine sum_nonneg fun i hi => ?_
  have hi := mem_range.1 hi
  have hJi := hJ i hi
  have hwi := hw i hi
  refine mul_nonneg (by positivity) ?_
  set g := curl (pt i) u
  set h := curl (pt i) δ
  have hs := norm2_nonneg g
  have h1 := hn i hi _ hs
  have h2 := hm i hi _ hs
  have hcs := dotv_sq_le g h
  unfold rankC
  split_ifs with hg
  · have hpos : 0 < norm2 g := by
      rw [abs_of_nonneg (norm2_nonneg _)] at hg
      have : (0 : ℝ) < 1 / 10 ^ 14 := by positivity
      linarith
    rw [← norm2_sq g] at hcs
    have e4 : dnu i (norm2 g) / norm2 g * dotv g h * dotv g h =
        (norm2 g * dnu i (norm2 g)) * (dotv g h ^ 2 / norm2 g ^ 2) := by
      field_simp
    rw [e4]
    have hq : 0 ≤ dotv g h ^ 2 / norm2 g ^ 2 := by positivity
    have hq2 : dotv g h ^ 2 / norm2 g ^ 2 ≤ dotv h h := by
      rw [div_le_iff₀ (by positivity)]; linarith
    nlinarith [mul_nonneg h1 (sub_nonneg.2 hq2), mul_nonneg h2 hq]
  · rw [zero_mul, zero_mul, add_zero]
    exact mul_nonneg h1 (dotv_self_nonneg _)

/-- **C137** The curl-free fields are in the null space of the element matrix: without the boundary
conditions and regularisation the matrix is singular. -/
theorem C137_nullspace (alpha : ℝ) (nu dnu : ℕ → ℝ → ℝ) (pt : ℕ → CPt ndof) (hJ : ∀ i < n, (pt i).J ≠ 0)
    (u g : Vec ndof) (hg : CurlFree n pt g) : mulV (elemGrad alpha nu dnu n pt u) g = fun _ => 0 := by
  funext r
  refine (elemGrad_dir alpha nu dnu pt hJ u g r).trans (sum_eq_zero fun i hi => ?_)
  have h0 : curl (pt i) g = fun _ => 0 := funext fun k => curlFree_curl pt g hg i (mem_range.1 hi) k
  rw [h0]
  simp [mulV, dotv]

/-- **C137** The forward state sensitivity is the directional derivative of the residual; the reverse one
is its transpose. -/
theorem C137_state_sens_partial (alpha : ℝ) (nu dnu : ℕ → ℝ → ℝ) (pt : ℕ → CPt ndof) (hJ : ∀ i < n, 0 < (pt i).J)
    (hnu : ∀ i < n, ∀ s, HasDerivAt (nu i) (dnu i s) s) (u δ psi : Vec ndof)
    (hu : ∀ i < n, norm2 (curl (pt i) u) = 0 ∨ 1 / 10 ^ 14 < norm2 (curl (pt i) u)) :
    (∀ r, HasDerivAt (fun t => elemVec alpha nu n pt (fun q => u q + t * δ q) r)
      (stateFwd alpha nu dnu n pt u δ r) 0) ∧
    HasDerivAt (fun t => dotv psi (elemVec alpha nu n pt (fun q => u q + t * δ q)))
      (dotv (stateRev alpha nu dnu n pt u psi) δ) 0 := by
  have h := C137_jacobian_partial alpha nu dnu pt hJ hnu u δ hu
  refine ⟨h, ?_⟩
  unfold stateRev
  rw [← dotv_mulV]
  exact HasDerivAt.fun_sum fun r _ => (h r).const_mul (psi r)

/-! ### C137: mesh sensitivity -/

/-- Specification: the quadrature points after a motion of the mesh nodes by `t`. -/
noncomputable def pts (μ : FMotion n 3 m) (w : ℕ → ℝ) (cs : ℕ → Mat ndof 3) (t : ℝ) (i : ℕ) : CPt ndof :=
  ⟨w i, cs i, μ.jac i t, μ.J i t⟩

theorem revPoint_dot (nu dnu : ℝ → ℝ) (p : CPt ndof) (u psi : Vec ndof) (K' : Mat 3 3) (J' : ℝ) :
    frob (revPoint nu dnu p u psi).1 K' + (revPoint nu dnu p u psi).2 * J' =
      dotv (mulTV p.cdft psi) (mulTV p.cdft u) * (p.w / p.J) *
          dnu (norm2 (mulTV p.cdft u) / p.J) / p.J / norm2 (mulTV p.cdft u) *
          dotv (mulTV p.cdft u) (mulV K' (mulTV p.cs u)) +
      nu (norm2 (mulTV p.cdft u) / p.J) * (p.w / p.J) *
        (dotv (mulTV p.cdft u) (mulV K' (mulTV p.cs psi)) +
          dotv (mulTV p.cdft psi) (mulV K' (mulTV p.cs u))) -
      (dotv (mulTV p.cdft psi) (mulTV p.cdft u) * (p.w / p.J) *
          dnu (norm2 (mulTV p.cdft u) / p.J) * norm2 (mulTV p.cdft u) / p.J ^ 2 +
        nu (norm2 (mulTV p.cdft u) / p.J) * dotv (mulTV p.cdft psi) (mulTV p.cdft u) * p.w / p.J ^ 2) * J' := by
  unfold revPoint
  simp only [addMulTV_zero]
  have e : ∀ a b : Vec 3, (fun i j => (zeroM : Mat 3 3) i j + mulM (addVWt 1 a u (addVWt 1 b psi (zeroM : Mat 3 ndof))) p.cs i j) =
      fun i j => vwt b (mulTV p.cs psi) i j + vwt a (mulTV p.cs u) i j := by
    intro a b; funext i j
    rw [← mulM_vwt, ← mulM_vwt]
    simp only [addVWt, zeroM, mulM, vwt]
    rw [zero_add, ← sum_add_distrib]
    exact sum_congr rfl fun _ _ => by ring
  rw [e, frob_add (vwt _ _), frob_vwt, frob_vwt]
  have h2 : ∀ (c x : ℝ) (a b y : Vec 3), dotv (axpy c a (axpy x b zeroV)) y = c * dotv a y + x * dotv b y := by
    intro c x a b y
    rw [← dotv_smul_left, ← dotv_smul_left, ← dotv_add_left]
    congr 1; funext i; simp [axpy, zeroV]; ring
  have h3 : ∀ (c : ℝ) (a y : Vec 3), dotv (axpy c a zeroV) y = c * dotv a y := by
    intro c a y
    rw [← dotv_smul_left]
    congr 1; funext i; simp [axpy, zeroV]
  unfold bil
  rw [h2, h3]
  ring

theorem point_hasDerivAt (μ : FMotion n 3 m) (w : ℕ → ℝ) (cs : ℕ → Mat ndof 3) (nu dnu : ℝ → ℝ)
    (hnu : ∀ s, HasDerivAt nu (dnu s) s) (u psi : Vec ndof) (i : ℕ) (hi : i < n) (hJ0 : μ.J i 0 ≠ 0)
    (hne : norm2 (mulTV (pts μ w cs 0 i).cdft u) ≠ 0) :
    HasDerivAt (fun t => 1 * w i / μ.J i t *
        nu (norm2 (mulTV (pts μ w cs t i).cdft u) / μ.J i t) *
        dotv (mulTV (pts μ w cs t i).cdft psi) (mulTV (pts μ w cs t i).cdft u))
      (frob (revPoint nu dnu (pts μ w cs 0 i) u psi).1 (μ.jac' i) +
        (revPoint nu dnu (pts μ w cs 0 i) u psi).2 * μ.J' i) 0 := by
  rw [revPoint_dot]
  have hJ := μ.hJ i hi
  have hf : ∀ v : Vec ndof, ∀ k, HasDerivAt (fun t => mulTV (pts μ w cs t i).cdft v k)
      (mulV (μ.jac' i) (mulTV (cs i) v) k) 0 := by
    intro v k
    have e : ∀ t, mulTV (pts μ w cs t i).cdft v k = mulV (μ.jac i t) (mulTV (cs i) v) k := by
      intro t
      unfold CPt.cdft pts mulTV mulABt mulV
      simp only [sum_mul, mul_sum]
      rw [sum_comm]
      exact sum_congr rfl fun _ _ => sum_congr rfl fun _ _ => by ring
    simp only [e]
    unfold mulV
    exact HasDerivAt.fun_sum fun l _ => (μ.hjac i hi k l).mul_const _
  have hd := hasDerivAt_dotv (fun t => mulTV (pts μ w cs t i).cdft psi)
    (fun t => mulTV (pts μ w cs t i).cdft u) _ _ 0 (hf psi) (hf u)
  have hw : HasDerivAt (fun t => 1 * w i / μ.J i t) (-(w i * μ.J' i) / μ.J i 0 ^ 2) 0 :=
    ((hasDerivAt_const (0 : ℝ) (1 * w i)).fun_div hJ hJ0).congr_deriv (by ring)
  have hn := hasDerivAt_norm2 (fun t => mulTV (pts μ w cs t i).cdft u) _ 0 (hf u) hne
  have hn2 := HasDerivAt.comp_of_eq (0 : ℝ) (hnu (norm2 (mulTV (pts μ w cs 0 i).cdft u) / μ.J i 0))
    (hn.fun_div hJ hJ0) rfl
  refine ((hw.fun_mul hn2).fun_mul hd).congr_deriv ?_
  simp only [Function.comp]
  have eJ : (pts μ w cs 0 i).J = μ.J i 0 := rfl
  have ew : (pts μ w cs 0 i).w = w i := rfl
  have ed : (pts μ w cs 0 i).cs = cs i := rfl
  rw [eJ, ew, ed]
  generalize mulTV (pts μ w cs 0 i).cdft u = g at hne ⊢
  generalize mulTV (pts μ w cs 0 i).cdft psi = h
  rw [dotv_comm (mulV (μ.jac' i) (mulTV (cs i) psi)) g]
  generalize dotv g (mulV (μ.jac' i) (mulTV (cs i) psi)) = a
  generalize dotv g (mulV (μ.jac' i) (mulTV (cs i) u)) = b
  generalize dotv h (mulV (μ.jac' i) (mulTV (cs i) u)) = c
  generalize dotv h g = d
  generalize nu (norm2 g / μ.J i 0) = N
  generalize dnu (norm2 g / μ.J i 0) = N'
  field_simp
  ring

/-- **C137** Mesh sensitivity: with `alpha = 1` (the only value the residual uses), at every state with
non-zero flux density at each quadrature point, the assembled vector multiplied with any motion of the
mesh nodes is the derivative of the adjoint-weighted residual under that motion. -/
theorem C137_mesh_sensitivity_partial (μ : FMotion n 3 m) (w : ℕ → ℝ) (cs : ℕ → Mat ndof 3)
    (nu dnu : ℕ → ℝ → ℝ) (hnu : ∀ i < n, ∀ s, HasDerivAt (nu i) (dnu i s) s) (u psi : Vec ndof)
    (hJ : ∀ i < n, 0 < μ.J i 0) (hu : ∀ i < n, curl (pts μ w cs 0 i) u ≠ 0)
    (hlin : ∀ i < n, ∀ x k j, μ.wRev i x k j = x * μ.wRev i 1 k j) :
    HasDerivAt (fun t => dotv psi (elemVec 1 nu n (pts μ w cs t) u))
      (∑ q ∈ range (3 * m), meshSens nu dnu n m (pts μ w cs 0) μ.jacRev μ.wRev u psi q * μ.δ q) 0 := by
  unfold meshSens
  rw [scatterLoop3 (D := fun i => frob (revPoint (nu i) (dnu i) (pts μ w cs 0 i) u psi).1 (μ.jac' i) +
    (revPoint (nu i) (dnu i) (pts μ w cs 0 i) u psi).2 * μ.J' i)]
  · have hv : ∀ t, dotv psi (elemVec 1 nu n (pts μ w cs t) u) = ∑ i ∈ range n,
        1 * w i / μ.J i t * nu i (norm2 (mulTV (pts μ w cs t i).cdft u) / μ.J i t) *
          dotv (mulTV (pts μ w cs t i).cdft psi) (mulTV (pts μ w cs t i).cdft u) := by
      intro t
      have h : elemVec 1 nu n (pts μ w cs t) u = fun r => ∑ i ∈ range n,
          mulV (pts μ w cs t i).cdft (fun k => (1 * w i / μ.J i t *
            nu i (norm2 (mulTV (pts μ w cs t i).cdft u) / μ.J i t)) *
            mulTV (pts μ w cs t i).cdft u k) r := by
        funext r; rw [elemVec_eq, elemVec_apply]
        refine sum_congr rfl fun i _ => ?_
        unfold scale
        congr 1; funext k; rw [mul_comm]; rfl
      rw [h, dotv_sum_right]
      refine sum_congr rfl fun i _ => ?_
      rw [dotv_mulV, dotv_smul_right]
    simp only [hv]
    refine HasDerivAt.fun_sum fun i hi => ?_
    have hi := mem_range.1 hi
    refine point_hasDerivAt μ w cs (nu i) (dnu i) (hnu i hi) u psi i hi (hJ i hi).ne' ?_
    intro h
    apply hu i hi
    rw [curl_eq]
    funext k
    rw [(norm2_eq_zero _).1 h k, zero_div]; rfl
  · intro i hi
    rw [← μ.hjacRev i hi, ← μ.hwRev i hi]
    simp only [← sum_add_distrib]
    refine sum_congr rfl fun k _ => sum_congr rfl fun j _ => ?_
    rw [hlin i hi (revPoint (nu i) (dnu i) (pts μ w cs 0 i) u psi).2]
    ring

/-! ### A concrete element -/

/-- Reference gradients of three nodes at distance one from the origin along the axes (the fourth vertex of
the reference tetrahedron stays at the origin). -/
def tetDN : ℕ → ℕ → Fin 3 → ℝ := fun _ j b => if (b : ℕ) = j then 1 else 0

/-- Nodes of the unit tetrahedron. -/
def tetNodes : ℕ → ℝ := fun q => if q = 0 ∨ q = 4 ∨ q = 8 then 1 else 0

theorem tet_jac (t : ℝ) : isoJac3 3 (tetDN 0) (fun q => tetNodes q + t * tetNodes q) =
    fun a b => if a = b then 1 + t else 0 := by
  funext a b
  fin_cases a <;> fin_cases b <;> simp [isoJac3, tetDN, tetNodes, sum_range_succ]

/-- The unit tetrahedron growing uniformly. -/
noncomputable def tetGrow : FMotion 1 3 3 := isoFMotion3 1 3 tetDN tetNodes tetNodes (by
  intro i hi
  have := tet_jac 0
  simp only [zero_mul, add_zero] at this
  have e : tetDN i = tetDN 0 := rfl
  rw [e, this]
  simp [det3])

theorem tetGrow_jac (t : ℝ) : tetGrow.jac 0 t = fun a b => if a = b then 1 + t else 0 := tet_jac t

theorem tetGrow_J (t : ℝ) : tetGrow.J 0 t = (1 + t) ^ 3 := by
  have e : tetGrow.J 0 t = det3 (isoJac3 3 (tetDN 0) fun q => tetNodes q + t * tetNodes q) := rfl
  rw [e, tet_jac]
  simp [det3]
  ring

/-- Reference curl of one edge function. -/
def oneCurl : ℕ → Mat 1 3 := fun _ _ l => if l = 0 then 1 else 0

theorem one_curl (t : ℝ) (u : Vec 1) (k : Fin 3) :
    mulTV (pts tetGrow (fun _ => 1) oneCurl t 0).cdft u k = if k = 0 then (1 + t) * u 0 else 0 := by
  have : (pts tetGrow (fun _ => 1) oneCurl t 0).jac = tetGrow.jac 0 t := rfl
  unfold CPt.cdft mulTV mulABt
  rw [this, tetGrow_jac]
  change ∑ i, (∑ l, oneCurl 0 i l * _) * u i = _
  fin_cases k <;> simp [oneCurl, Fin.sum_univ_three]

theorem one_residual (alpha t : ℝ) (ht : -1 < t) :
    dotv (fun _ => 1) (elemVec alpha (fun _ _ => 1) 1 (pts tetGrow (fun _ => 1) oneCurl t) fun _ => 1) =
      alpha / (1 + t) := by
  have hp : 0 < 1 + t := by linarith
  have hJ : (pts tetGrow (fun _ => 1) oneCurl t 0).J = (1 + t) ^ 3 := tetGrow_J t
  rw [C136_weak_form _ _ _ (by
    intro i hi
    have : i = 0 := by omega
    rw [this, hJ]; positivity)]
  rw [sum_range_one, hJ, curl_eq, hJ]
  simp only [one_curl]
  change alpha * 1 * _ * _ = _
  simp [dotv, Fin.sum_univ_three]
  field_simp

/-- **C137, violation** The mesh sensitivity ignores `alpha`: for `alpha = 2` it is not the derivative of
the adjoint-weighted residual. -/
theorem C137_mesh_alpha_false :
    ¬ ∀ (alpha : ℝ) (μ : FMotion 1 3 3) (w : ℕ → ℝ) (cs : ℕ → Mat 1 3) (nu dnu : ℕ → ℝ → ℝ)
      (_ : ∀ i < 1, ∀ s, HasDerivAt (nu i) (dnu i s) s) (u psi : Vec 1) (_ : ∀ i < 1, 0 < μ.J i 0)
      (_ : ∀ i < 1, curl (pts μ w cs 0 i) u ≠ 0)
      (_ : ∀ i < 1, ∀ x k j, μ.wRev i x k j = x * μ.wRev i 1 k j),
      HasDerivAt (fun t => dotv psi (elemVec alpha nu 1 (pts μ w cs t) u))
        (∑ q ∈ range (3 * 3), meshSens nu dnu 1 3 (pts μ w cs 0) μ.jacRev μ.wRev u psi q * μ.δ q) 0 := by
  intro h
  have hev : ∀ᶠ t : ℝ in nhds 0, -1 < t := lt_mem_nhds (by norm_num)
  have hder : ∀ alpha : ℝ, HasDerivAt (fun t => dotv (fun _ => 1)
      (elemVec alpha (fun _ _ => 1) 1 (pts tetGrow (fun _ => 1) oneCurl t) fun _ => 1)) (-alpha) 0 := by
    intro alpha
    have h1 : HasDerivAt (fun t : ℝ => alpha / (1 + t)) (-alpha) 0 := by
      have h2 : HasDerivAt (fun t : ℝ => 1 + t) 1 0 := (hasDerivAt_id' (0 : ℝ)).const_add 1
      exact ((hasDerivAt_const (0 : ℝ) alpha).fun_div h2 (by norm_num)).congr_deriv (by norm_num)
    exact h1.congr_of_eventuallyEq (by filter_upwards [hev] with t ht using one_residual alpha t ht)
  have hg : ∀ alpha : ℝ, _ := fun alpha => h alpha tetGrow (fun _ => 1) oneCurl (fun _ _ => 1) (fun _ _ => 0)
    (fun _ _ s => hasDerivAt_const _ _) (fun _ => 1) (fun _ => 1)
    (by intro i hi; have : i = 0 := by omega
        rw [this, tetGrow_J]; norm_num)
    (by intro i hi; have : i = 0 := by omega
        rw [this, curl_eq]
        intro hc
        have := congrFun hc 0
        rw [one_curl] at this
        have hJ : (pts tetGrow (fun _ => 1) oneCurl 0 0).J = (1 + 0) ^ 3 := tetGrow_J 0
        rw [hJ] at this
        simp at this)
    (by intro i _ x k j; simp [tetGrow, isoFMotion3])
  have h1 := (hg 1).unique (hder 1)
  have h2 := (hg 2).unique (hder 2)
  rw [h1] at h2
  norm_num at h2

/-- Non-vacuity: the growing tetrahedron meets every hypothesis of the theorems of C136 and C137 with a
nonlinear reluctivity, and its residual is not zero. -/
example : (∀ i < 1, 0 < tetGrow.J i 0) ∧ (∀ i < 1, 1 / 10 ^ 14 < norm2 (curl (pts tetGrow (fun _ => 1) oneCurl 0 i) fun _ => 1)) ∧
    (∀ i < 1, ∀ x k j, tetGrow.wRev i x k j = x * tetGrow.wRev i 1 k j) ∧
    (∀ s : ℝ, HasDerivAt (fun s : ℝ => 1 + s ^ 2) (2 * s) s) ∧
    dotv (fun _ => 1) (elemVec 1 (fun _ _ => 1) 1 (pts tetGrow (fun _ => 1) oneCurl 0) fun _ => 1) = 1 := by
  refine ⟨?_, ?_, ?_, ?_, ?_⟩
  · intro i hi; have : i = 0 := by omega
    rw [this, tetGrow_J]; norm_num
  · intro i hi; have : i = 0 := by omega
    rw [this, curl_eq]
    have hJ : (pts tetGrow (fun _ => 1) oneCurl 0 0).J = (1 + 0) ^ 3 := tetGrow_J 0
    simp only [one_curl, hJ]
    simp [norm2, dotv, Fin.sum_univ_three]
    norm_num
  · intro i _ x k j; simp [tetGrow, isoFMotion3]
  · intro s
    exact (((hasDerivAt_id' s).fun_pow 2).const_add 1).congr_deriv (by ring)
  · rw [one_residual 1 0 (by norm_num)]; norm_num

/-- Non-vacuity of gauge invariance: a non-zero curl-free coefficient vector. -/
example : CurlFree 1 (fun _ => (⟨1, fun r l => if l = 0 then (if r = 0 then 1 else -1) else 0,
    fun a b => if a = b then 1 else 0, 1⟩ : CPt 2)) (fun _ => 1) := by
  intro i _ l
  fin_cases l <;> simp [Fin.sum_univ_two]

end Verif.CurlCurl
