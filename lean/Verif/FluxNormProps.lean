import Verif.FluxNorm
import Verif.CurlCurlProps

/-! # Integrals of the flux-density magnitude and their sensitivities (C212) -/

namespace Verif.FluxNorm
open Finset Verif.Sbp Verif.Dense Verif.Diffusion Verif.Force Verif.Losses Verif.CurlCurl

set_option linter.unusedSimpArgs false
set_option linter.unusedSectionVars false

variable {ndof d m n : ℕ}

/-! ### Specification -/

/-- Specification: the flux density at a quadrature point of the field with coefficients `u`. -/
noncomputable def B (p : NPt ndof d) (u : Vec ndof) : Vec d := fun k => (∑ r, p.cdft r k * u r) / p.J

/-- Specification: quadrature of `f` over the element. -/
noncomputable def quad (n : ℕ) (pt : ℕ → NPt ndof d) (f : ℕ → ℝ) : ℝ := ∑ i ∈ range n, (pt i).w * (pt i).J * f i

/-- In three dimensions this is the physical curl of the potential. -/
theorem C212_flux_is_curl (p : CPt ndof) (u : Vec ndof) : B (three p) u = curl p u := by
  rw [curl_eq]; rfl

/-! ### Values -/

/-- The unscaled flux of the code. -/
private theorem norm_B (p : NPt ndof d) (hJ : 0 < p.J) (u : Vec ndof) : norm2 (mulTV p.cdft u) / p.J = norm2 (B p u) :=
  (norm2_div _ _ hJ).symm

private theorem norm_b (p : NPt ndof d) (hJ : 0 < p.J) (u : Vec ndof) : norm2 (mulTV p.cdft u) = p.J * norm2 (B p u) := by
  rw [← norm_B p hJ]; field_simp

theorem C212_norm_value (pt : ℕ → NPt ndof d) (hJ : ∀ i < n, 0 < (pt i).J) (u : Vec ndof) :
    bnorm n pt u = quad n pt fun i => norm2 (B (pt i) u) := by
  unfold bnorm quad
  simp only [addMulTV_zero]
  rw [forN_real, zero_add]
  refine sum_congr rfl fun i hi => ?_
  rw [norm_B _ (hJ i (mem_range.1 hi))]; ring

theorem C212_square_value (pt : ℕ → NPt ndof d) (hJ : ∀ i < n, 0 < (pt i).J) (u : Vec ndof) :
    bnormSq n pt u = quad n pt fun i => dotv (B (pt i) u) (B (pt i) u) := by
  unfold bnormSq quad
  simp only [addMulTV_zero]
  rw [forN_real, zero_add]
  refine sum_congr rfl fun i hi => ?_
  rw [norm_B _ (hJ i (mem_range.1 hi)), ← norm2_sq]; ring

private theorem nuB_form (nu : ℕ → ℝ → ℝ) (pt : ℕ → NPt ndof d) (u : Vec ndof) :
    nuBnorm nu n pt u = ∑ i ∈ range n,
      nu i (norm2 (mulTV (pt i).cdft u)) * norm2 (mulTV (pt i).cdft u) * ((pt i).w / (pt i).J) := by
  unfold nuBnorm
  simp only [addMulTV_zero]
  rw [forN_real, zero_add]

private theorem nuF_form (nu : ℕ → ℝ → ℝ) (pt : ℕ → NPt ndof d) (u : Vec ndof) :
    nuFunc nu n pt u = ∑ i ∈ range n,
      nu i (norm2 (mulTV (pt i).cdft u) / (pt i).J) * ((pt i).w / (pt i).J) := by
  unfold nuFunc
  simp only [addMulTV_zero]
  rw [forN_real, zero_add]

/-- What `nuBNormIntegrator` computes: the reluctivity is taken at `|B|` times the Jacobian determinant, and the volume factor is
missing. -/
theorem C212_nu_norm_value (nu : ℕ → ℝ → ℝ) (pt : ℕ → NPt ndof d) (hJ : ∀ i < n, 0 < (pt i).J) (u : Vec ndof) :
    nuBnorm nu n pt u = ∑ i ∈ range n, (pt i).w * (nu i ((pt i).J * norm2 (B (pt i) u)) * norm2 (B (pt i) u)) := by
  rw [nuB_form]
  refine sum_congr rfl fun i hi => ?_
  have h := hJ i (mem_range.1 hi)
  rw [norm_b _ h]
  field_simp

/-- On an element of unit Jacobian it is the integral of `ν(|B|) |B|`. -/
theorem C212_nu_norm_value_partial (nu : ℕ → ℝ → ℝ) (pt : ℕ → NPt ndof d) (hJ : ∀ i < n, (pt i).J = 1) (u : Vec ndof) :
    nuBnorm nu n pt u = quad n pt fun i => nu i (norm2 (B (pt i) u)) * norm2 (B (pt i) u) := by
  rw [C212_nu_norm_value nu pt (fun i hi => by rw [hJ i hi]; exact one_pos)]
  refine sum_congr rfl fun i hi => ?_
  rw [hJ i (mem_range.1 hi)]; simp

/-- What `nuFuncIntegrator` computes: the point weights are divided by the Jacobian determinant. -/
theorem C212_nu_value_partial (nu : ℕ → ℝ → ℝ) (pt : ℕ → NPt ndof d) (hJ : ∀ i < n, (pt i).J = 1) (u : Vec ndof) :
    nuFunc nu n pt u = quad n pt fun i => nu i (norm2 (B (pt i) u)) := by
  rw [nuF_form]
  refine sum_congr rfl fun i hi => ?_
  have h := hJ i (mem_range.1 hi)
  rw [norm_B _ (by rw [h]; exact one_pos), h]; ring

/-- A one-point element with determinant `J`, one coefficient, flux density one for `u = J`. -/
def demo (J : ℝ) : ℕ → NPt 1 1 := fun _ => two 1 (fun _ _ => 1) J

private theorem norm_one (x : ℝ) (hx : 0 ≤ x) : norm2 (fun _ : Fin 1 => x) = x := by
  unfold norm2 dotv; simp [Real.sqrt_mul_self hx]

private theorem demo_b (J x : ℝ) (hx : 0 ≤ x) : norm2 (mulTV (demo J 0).cdft fun _ => x) = x := by
  have : mulTV (demo J 0).cdft (fun _ => x) = fun _ => x := by funext k; simp [mulTV, demo, two]
  rw [this, norm_one x hx]

private theorem demo_B (J x : ℝ) (hJ : 0 < J) (hx : 0 ≤ x) : norm2 (B (demo J 0) fun _ => x) = x / J := by
  rw [← norm_B _ (show 0 < (demo J 0).J from hJ), demo_b J x hx]; rfl

/-- FALSE in general for both: already for constant reluctivity on an element of determinant two. -/
theorem C212_nu_values_false : ∃ (pt : ℕ → NPt 1 1) (u : Vec 1), 0 < (pt 0).J ∧
    nuBnorm (fun _ _ => 1) 1 pt u ≠ quad 1 pt (fun i => 1 * norm2 (B (pt i) u)) ∧
    nuFunc (fun _ _ => 1) 1 pt u ≠ quad 1 pt (fun _ => 1) := by
  refine ⟨demo 2, fun _ => 2, by norm_num [demo, two], ?_, ?_⟩
  · rw [C212_nu_norm_value (hJ := fun i _ => by norm_num [demo, two])]
    simp only [quad, sum_range_one, demo_B 2 2 (by norm_num) (by norm_num)]
    norm_num [demo, two]
  · rw [nuF_form]
    simp only [quad, sum_range_one]
    norm_num [demo, two]

/-- Both values are non-negative for positive weights, and scale with the field as they should. -/
theorem C212_norm_nonneg (pt : ℕ → NPt ndof d) (hJ : ∀ i < n, 0 < (pt i).J) (hw : ∀ i < n, 0 < (pt i).w) (u : Vec ndof) :
    0 ≤ bnorm n pt u ∧ 0 ≤ bnormSq n pt u ∧
      (bnorm n pt u = 0 ↔ ∀ i < n, B (pt i) u = 0) ∧ (bnormSq n pt u = 0 ↔ ∀ i < n, B (pt i) u = 0) := by
  rw [C212_norm_value pt hJ, C212_square_value pt hJ]
  have hp : ∀ i ∈ range n, 0 < (pt i).w * (pt i).J := fun i hi =>
    mul_pos (hw i (mem_range.1 hi)) (hJ i (mem_range.1 hi))
  have h1 : ∀ i ∈ range n, 0 ≤ (pt i).w * (pt i).J * norm2 (B (pt i) u) := fun i hi =>
    mul_nonneg (hp i hi).le (norm2_nonneg _)
  have h2 : ∀ i ∈ range n, 0 ≤ (pt i).w * (pt i).J * dotv (B (pt i) u) (B (pt i) u) := fun i hi =>
    mul_nonneg (hp i hi).le (dotv_self_nonneg _)
  refine ⟨sum_nonneg h1, sum_nonneg h2, ?_, ?_⟩
  · unfold quad
    rw [sum_eq_zero_iff_of_nonneg h1]
    constructor
    · intro h i hi
      have := h i (mem_range.2 hi)
      have h0 := (mul_eq_zero.1 this).resolve_left (hp i (mem_range.2 hi)).ne'
      funext k; exact (norm2_eq_zero _).1 h0 k
    · intro h i hi
      rw [(norm2_eq_zero _).2 fun k => by rw [h i (mem_range.1 hi)]; rfl, mul_zero]
  · unfold quad
    rw [sum_eq_zero_iff_of_nonneg h2]
    constructor
    · intro h i hi
      have := h i (mem_range.2 hi)
      have h0 := (mul_eq_zero.1 this).resolve_left (hp i (mem_range.2 hi)).ne'
      funext k; exact (dotv_self_eq_zero _).1 h0 k
    · intro h i hi
      rw [(dotv_self_eq_zero _).2 fun k => by rw [h i (mem_range.1 hi)]; rfl, mul_zero]

/-- Cauchy–Schwarz between the two: the squared integral of `|B|` is at most the volume times that of `|B|²`. -/
theorem C212_norm_le (pt : ℕ → NPt ndof d) (hJ : ∀ i < n, 0 < (pt i).J) (hw : ∀ i < n, 0 < (pt i).w) (u : Vec ndof) :
    bnorm n pt u ^ 2 ≤ quad n pt (fun _ => 1) * bnormSq n pt u := by
  rw [C212_norm_value pt hJ, C212_square_value pt hJ]
  unfold quad
  have hp : ∀ i ∈ range n, 0 ≤ (pt i).w * (pt i).J := fun i hi =>
    (mul_pos (hw i (mem_range.1 hi)) (hJ i (mem_range.1 hi))).le
  have := sum_mul_sq_le_sq_mul_sq (range n) (fun i => √((pt i).w * (pt i).J))
    fun i => √((pt i).w * (pt i).J) * norm2 (B (pt i) u)
  have e1 : ∑ i ∈ range n, √((pt i).w * (pt i).J) * (√((pt i).w * (pt i).J) * norm2 (B (pt i) u)) =
      ∑ i ∈ range n, (pt i).w * (pt i).J * norm2 (B (pt i) u) :=
    sum_congr rfl fun i hi => by rw [← mul_assoc, Real.mul_self_sqrt (hp i hi)]
  have e2 : ∑ i ∈ range n, √((pt i).w * (pt i).J) ^ 2 = ∑ i ∈ range n, (pt i).w * (pt i).J * 1 :=
    sum_congr rfl fun i hi => by rw [Real.sq_sqrt (hp i hi), mul_one]
  have e3 : ∑ i ∈ range n, (√((pt i).w * (pt i).J) * norm2 (B (pt i) u)) ^ 2 =
      ∑ i ∈ range n, (pt i).w * (pt i).J * dotv (B (pt i) u) (B (pt i) u) :=
    sum_congr rfl fun i hi => by rw [mul_pow, Real.sq_sqrt (hp i hi), norm2_sq]
  rw [e1, e2, e3] at this
  exact this

/-! ### Loops that give up at a zero flux -/

private theorem gather {X : Type} (c : ℕ → Prop) [DecidablePred c] (stp : ℕ → X → X) (N : ℕ) (x : X) :
    ((∀ i < N, ¬ c i) →
      forN N (fun i acc => acc.bind fun v => if c i then none else some (stp i v)) (some x) = some (forN N stp x)) ∧
    ((∃ i < N, c i) →
      forN N (fun i acc => acc.bind fun v => if c i then none else some (stp i v)) (some x) = none) := by
  induction N with
  | zero => exact ⟨fun _ => rfl, fun ⟨i, hi, _⟩ => absurd hi (by omega)⟩
  | succ N ih =>
    obtain ⟨h1, h2⟩ := ih
    constructor
    · intro h
      rw [forN, h1 fun i hi => h i (by omega), Option.bind_some, if_neg (h N (by omega)), forN]
    · rintro ⟨i, hi, hc⟩
      rw [forN]
      by_cases hN : ∃ i < N, c i
      · rw [h2 hN]; rfl
      · have hiN : i = N := by
          by_contra hne
          exact hN ⟨i, by omega, hc⟩
        subst hiN
        rw [h1 fun j hj hcj => hN ⟨j, hj, hcj⟩, Option.bind_some, if_pos hc]

private theorem B_zero_iff (p : NPt ndof d) (hJ : 0 < p.J) (u : Vec ndof) :
    norm2 (mulTV p.cdft u) = 0 ↔ B p u = 0 := by
  rw [norm_b p hJ, mul_eq_zero, or_iff_right hJ.ne', norm2_eq_zero]
  exact ⟨fun h => funext h, fun h i => congrFun h i⟩

/-! ### State gradients -/

private theorem hasDerivAt_b (p : NPt ndof d) (u v : Vec ndof) (k : Fin d) :
    HasDerivAt (fun t : ℝ => mulTV p.cdft (fun r => u r + t * v r) k) (mulTV p.cdft v k) 0 := by
  unfold mulTV
  refine HasDerivAt.fun_sum fun r _ => ?_
  exact ((((hasDerivAt_id' (0 : ℝ)).mul_const (v r)).const_add (u r)).const_mul (p.cdft r k)).congr_deriv (by ring)

private theorem line_zero (p : NPt ndof d) (u v : Vec ndof) :
    mulTV p.cdft (fun r => u r + (0 : ℝ) * v r) = mulTV p.cdft u := by simp

private theorem dot_sum (n : ℕ) (g : ℕ → Vec ndof) (v : Vec ndof) :
    dotv (forN n (fun i x => fun r => x r + g i r) zeroV) v = ∑ i ∈ range n, dotv (g i) v := by
  have h := dotv_axpys n (fun _ => 1) g v
  have e : (fun i (bar : Vec ndof) => axpy 1 (g i) bar) = fun i x => fun r => x r + g i r := by
    funext i x r; simp [axpy]
  rw [e] at h
  simpa using h

private theorem dot_mulV_left (A : Mat ndof d) (x : Vec d) (c : ℝ) (v : Vec ndof) :
    dotv (fun r => c * mulV A x r) v = c * dotv x (mulTV A v) := by
  rw [dotv_smul_left, dotv_comm, dotv_mulV, dotv_comm]

/-- State gradient of `∫|B|`: exact in every direction as soon as no quadrature point has zero flux. -/
theorem C212_norm_state_partial (pt : ℕ → NPt ndof d) (hJ : ∀ i < n, 0 < (pt i).J) (u v : Vec ndof)
    (hB : ∀ i < n, B (pt i) u ≠ 0) :
    ∃ g, bnormState n pt u = some g ∧ HasDerivAt (fun t => bnorm n pt fun r => u r + t * v r) (dotv g v) 0 := by
  have hb : ∀ i < n, norm2 (mulTV (pt i).cdft u) ≠ 0 := fun i hi h => hB i hi ((B_zero_iff _ (hJ i hi) u).1 h)
  have hg := (gather (fun i => norm2 (mulTV (pt i).cdft u) / (pt i).J = 0)
    (fun i (x : Vec ndof) r => x r + mulV (pt i).cdft (mulTV (pt i).cdft u) r /
      (norm2 (mulTV (pt i).cdft u) / (pt i).J) * ((pt i).w / (pt i).J)) n zeroV).1
    fun i hi h => (hb i hi) ((div_eq_zero_iff.1 h).resolve_right (hJ i hi).ne')
  refine ⟨_, Eq.trans ?_ hg, ?_⟩
  · unfold bnormState
    simp only [addMulTV_zero]
    rfl
  rw [dot_sum]
  have hv : ∀ t : ℝ, bnorm n pt (fun r => u r + t * v r) = ∑ i ∈ range n,
      norm2 (mulTV (pt i).cdft fun r => u r + t * v r) / (pt i).J * ((pt i).w * (pt i).J) := by
    intro t
    unfold bnorm
    simp only [addMulTV_zero]
    rw [forN_real, zero_add]
  simp only [hv]
  refine HasDerivAt.fun_sum fun i hi => ?_
  have hi := mem_range.1 hi
  have hn := hasDerivAt_norm2 (fun t : ℝ => mulTV (pt i).cdft fun r => u r + t * v r) _ 0 (hasDerivAt_b (pt i) u v)
    (by rw [line_zero]; exact hb i hi)
  simp only [line_zero] at hn
  have hJi := (hJ i hi).ne'
  have hbi := hb i hi
  refine ((hn.div_const (pt i).J).mul_const ((pt i).w * (pt i).J)).congr_deriv ?_
  have e : (fun r => mulV (pt i).cdft (mulTV (pt i).cdft u) r / (norm2 (mulTV (pt i).cdft u) / (pt i).J) *
      ((pt i).w / (pt i).J)) = fun r => (pt i).w / norm2 (mulTV (pt i).cdft u) *
      mulV (pt i).cdft (mulTV (pt i).cdft u) r := by
    funext r; field_simp
  rw [e, dot_mulV_left]
  field_simp

/-- State gradient of `nuBNormIntegrator`: exact for what that integrator computes. -/
theorem C212_nu_norm_state_partial (nu dnu : ℕ → ℝ → ℝ) (hnu : ∀ i < n, ∀ s, HasDerivAt (nu i) (dnu i s) s)
    (pt : ℕ → NPt ndof d) (hJ : ∀ i < n, 0 < (pt i).J) (u v : Vec ndof) (hB : ∀ i < n, B (pt i) u ≠ 0) :
    ∃ g, nuBnormState nu dnu n pt u = some g ∧
      HasDerivAt (fun t => nuBnorm nu n pt fun r => u r + t * v r) (dotv g v) 0 := by
  have hb : ∀ i < n, norm2 (mulTV (pt i).cdft u) ≠ 0 := fun i hi h => hB i hi ((B_zero_iff _ (hJ i hi) u).1 h)
  have hg := (gather (fun i => norm2 (mulTV (pt i).cdft u) = 0)
    (fun i (x : Vec ndof) r => x r + mulV (pt i).cdft (mulTV (pt i).cdft u) r *
      (dnu i (norm2 (mulTV (pt i).cdft u)) + nu i (norm2 (mulTV (pt i).cdft u)) / norm2 (mulTV (pt i).cdft u)) *
      ((pt i).w / (pt i).J)) n zeroV).1 hb
  refine ⟨_, Eq.trans ?_ hg, ?_⟩
  · unfold nuBnormState
    simp only [addMulTV_zero]
    rfl
  rw [dot_sum]
  simp only [nuB_form]
  refine HasDerivAt.fun_sum fun i hi => ?_
  have hi := mem_range.1 hi
  have hn := hasDerivAt_norm2 (fun t : ℝ => mulTV (pt i).cdft fun r => u r + t * v r) _ 0 (hasDerivAt_b (pt i) u v)
    (by rw [line_zero]; exact hb i hi)
  simp only [line_zero] at hn
  have hbi := hb i hi
  have h0 : norm2 (mulTV (pt i).cdft fun r => u r + (0 : ℝ) * v r) = norm2 (mulTV (pt i).cdft u) := by rw [line_zero]
  have hc := HasDerivAt.comp_of_eq (0 : ℝ) (hnu i hi (norm2 (mulTV (pt i).cdft u))) hn h0.symm
  refine ((hc.fun_mul hn).mul_const ((pt i).w / (pt i).J)).congr_deriv ?_
  simp only [Function.comp, line_zero]
  have e : (fun r => mulV (pt i).cdft (mulTV (pt i).cdft u) r *
      (dnu i (norm2 (mulTV (pt i).cdft u)) + nu i (norm2 (mulTV (pt i).cdft u)) / norm2 (mulTV (pt i).cdft u)) *
      ((pt i).w / (pt i).J)) = fun r =>
      ((dnu i (norm2 (mulTV (pt i).cdft u)) + nu i (norm2 (mulTV (pt i).cdft u)) / norm2 (mulTV (pt i).cdft u)) *
        ((pt i).w / (pt i).J)) * mulV (pt i).cdft (mulTV (pt i).cdft u) r := by
    funext r; ring
  rw [e, dot_mulV_left]
  field_simp

/-- FALSE at a point of zero flux: neither gradient is finite there, for instance at the zero initial state. -/
theorem C212_state_false (nu dnu : ℕ → ℝ → ℝ) (pt : ℕ → NPt ndof d) (hJ : ∀ i < n, 0 < (pt i).J) (u : Vec ndof)
    (hB : ∃ i < n, B (pt i) u = 0) : bnormState n pt u = none ∧ nuBnormState nu dnu n pt u = none := by
  obtain ⟨i, hi, h⟩ := hB
  have hb := (B_zero_iff _ (hJ i hi) u).2 h
  constructor
  · have hg := (gather (fun i => norm2 (mulTV (pt i).cdft u) / (pt i).J = 0)
      (fun i (x : Vec ndof) r => x r + mulV (pt i).cdft (mulTV (pt i).cdft u) r /
        (norm2 (mulTV (pt i).cdft u) / (pt i).J) * ((pt i).w / (pt i).J)) n zeroV).2 ⟨i, hi, by rw [hb, zero_div]⟩
    unfold bnormState
    simp only [addMulTV_zero]
    exact hg
  · have hg := (gather (fun i => norm2 (mulTV (pt i).cdft u) = 0)
      (fun i (x : Vec ndof) r => x r + mulV (pt i).cdft (mulTV (pt i).cdft u) r *
        (dnu i (norm2 (mulTV (pt i).cdft u)) + nu i (norm2 (mulTV (pt i).cdft u)) / norm2 (mulTV (pt i).cdft u)) *
        ((pt i).w / (pt i).J)) n zeroV).2 ⟨i, hi, hb⟩
    unfold nuBnormState
    simp only [addMulTV_zero]
    exact hg

/-- Witness of the hypotheses: the flux of the one-point element is not zero, and is zero for the zero state. -/
example : (∀ i < 1, B (demo 2 i) (fun _ => 2) ≠ 0) ∧ (∃ i < 1, B (demo 2 i) 0 = 0) := by
  refine ⟨fun i hi h => ?_, 0, by norm_num, by funext k; simp [B]⟩
  have := congrFun h 0
  simp [B, demo, two] at this

/-! ### Mesh sensitivities -/

private theorem hf (μ : FMotion n 3 m) (w : ℕ → ℝ) (cs : ℕ → Mat ndof 3) (u : Vec ndof) (i : ℕ) (hi : i < n) (k : Fin 3) :
    HasDerivAt (fun t => mulTV (pts μ w cs t i).cdft u k) (mulV (μ.jac' i) (mulTV (cs i) u) k) 0 := by
  have e : ∀ t, mulTV (pts μ w cs t i).cdft u k = mulV (μ.jac i t) (mulTV (cs i) u) k := by
    intro t
    unfold CPt.cdft pts mulTV mulABt mulV
    simp only [sum_mul, mul_sum]
    rw [sum_comm]
    exact sum_congr rfl fun _ _ => sum_congr rfl fun _ _ => by ring
  simp only [e]
  unfold mulV
  exact HasDerivAt.fun_sum fun l _ => (μ.hjac i hi k l).mul_const _

/-- Derivative of the unscaled flux magnitude under a motion of the nodes. -/
private theorem hnorm (μ : FMotion n 3 m) (w : ℕ → ℝ) (cs : ℕ → Mat ndof 3) (u : Vec ndof) (i : ℕ) (hi : i < n)
    (h : norm2 (mulTV (pts μ w cs 0 i).cdft u) ≠ 0) :
    HasDerivAt (fun t => norm2 (mulTV (pts μ w cs t i).cdft u))
      (bil (μ.jac' i) (mulTV (pts μ w cs 0 i).cdft u) (mulTV (cs i) u) / norm2 (mulTV (pts μ w cs 0 i).cdft u)) 0 :=
  hasDerivAt_norm2 (fun t => mulTV (pts μ w cs t i).cdft u) _ 0 (hf μ w cs u i hi) h

private theorem frob_smul (c : ℝ) (A C : Mat 3 3) : frob (fun i j => c * A i j) C = c * frob A C := by
  unfold frob
  simp only [mul_sum]
  exact sum_congr rfl fun i _ => sum_congr rfl fun j _ => by ring

private theorem ne_of_B (μ : FMotion n 3 m) (w : ℕ → ℝ) (cs : ℕ → Mat ndof 3) (u : Vec ndof) (hJ : ∀ i < n, 0 < μ.J i 0)
    (hB : ∀ i < n, curl (pts μ w cs 0 i) u ≠ 0) (i : ℕ) (hi : i < n) : norm2 (mulTV (pts μ w cs 0 i).cdft u) ≠ 0 := by
  intro h
  exact hB i hi (by rw [← C212_flux_is_curl]; exact (B_zero_iff (three (pts μ w cs 0 i)) (hJ i hi) u).1 h)

/-- Mesh sensitivity of `∫|B|`. -/
theorem C212_norm_mesh_partial (μ : FMotion n 3 m) (w : ℕ → ℝ) (cs : ℕ → Mat ndof 3) (u : Vec ndof)
    (hJ : ∀ i < n, 0 < μ.J i 0) (hB : ∀ i < n, curl (pts μ w cs 0 i) u ≠ 0) :
    ∃ g, bnormMesh n m (pts μ w cs 0) μ.jacRev u = some g ∧
      HasDerivAt (fun t => bnorm n (fun i => three (pts μ w cs t i)) u) (∑ q ∈ range (3 * m), g q * μ.δ q) 0 := by
  have hb := ne_of_B μ w cs u hJ hB
  have hg := (gather (fun i => norm2 (mulTV (pts μ w cs 0 i).cdft u) = 0)
    (fun i bar => scatter m 3 (fun k j => w i * (0 + μ.jacRev i (scaleM (1 / norm2 (mulTV (pts μ w cs 0 i).cdft u))
      (vwt (mulTV (pts μ w cs 0 i).cdft u) (mulTV (cs i) u))) k j)) bar) n fun _ => 0).1 hb
  refine ⟨_, Eq.trans ?_ hg, ?_⟩
  · unfold bnormMesh
    simp only [addMulTV_zero]
    rfl
  rw [scatterLoop3 (D := fun i => w i * (1 / norm2 (mulTV (pts μ w cs 0 i).cdft u) *
    bil (μ.jac' i) (mulTV (pts μ w cs 0 i).cdft u) (mulTV (cs i) u)))]
  · have hv : ∀ t, bnorm n (fun i => three (pts μ w cs t i)) u = ∑ i ∈ range n,
        norm2 (mulTV (pts μ w cs t i).cdft u) / μ.J i t * (w i * μ.J i t) := by
      intro t
      unfold bnorm
      simp only [addMulTV_zero]
      rw [forN_real, zero_add]; rfl
    simp only [hv]
    refine HasDerivAt.fun_sum fun i hi => ?_
    have hi := mem_range.1 hi
    have hbi := hb i hi
    have hJi := (hJ i hi).ne'
    refine (((hnorm μ w cs u i hi hbi).fun_div (μ.hJ i hi) hJi).fun_mul
      ((μ.hJ i hi).const_mul (w i))).congr_deriv ?_
    field_simp
    ring
  · intro i hi
    have e : scaleM (1 / norm2 (mulTV (pts μ w cs 0 i).cdft u)) (vwt (mulTV (pts μ w cs 0 i).cdft u) (mulTV (cs i) u)) =
        fun a b => 1 / norm2 (mulTV (pts μ w cs 0 i).cdft u) * vwt (mulTV (pts μ w cs 0 i).cdft u) (mulTV (cs i) u) a b := by
      funext a b; simp only [scaleM]; ring
    rw [e, ← frob_vwt, ← frob_smul, ← μ.hjacRev i hi, mul_sum]
    refine sum_congr rfl fun k _ => ?_
    rw [mul_sum]
    exact sum_congr rfl fun j _ => by ring

/-- Mesh sensitivity of `nuBNormIntegrator`, for what that integrator computes. -/
theorem C212_nu_norm_mesh_partial (μ : FMotion n 3 m) (w : ℕ → ℝ) (cs : ℕ → Mat ndof 3) (nu dnu : ℕ → ℝ → ℝ)
    (hnu : ∀ i < n, ∀ s, HasDerivAt (nu i) (dnu i s) s) (u : Vec ndof) (hJ : ∀ i < n, 0 < μ.J i 0)
    (hB : ∀ i < n, curl (pts μ w cs 0 i) u ≠ 0) :
    ∃ g, nuBnormMesh nu dnu n m (pts μ w cs 0) μ.jacRev μ.wRev u = some g ∧
      HasDerivAt (fun t => nuBnorm nu n (fun i => three (pts μ w cs t i)) u) (∑ q ∈ range (3 * m), g q * μ.δ q) 0 := by
  have hb := ne_of_B μ w cs u hJ hB
  have hg := (gather (fun i => norm2 (mulTV (pts μ w cs 0 i).cdft u) = 0)
    (fun i bar =>
      let dB := vwt (fun k => mulTV (pts μ w cs 0 i).cdft u k / norm2 (mulTV (pts μ w cs 0 i).cdft u)) (mulTV (cs i) u)
      let N := nu i (norm2 (mulTV (pts μ w cs 0 i).cdft u))
      scatter m 3 (fun k j => w i * ((0 + μ.jacRev i dB k j) * (N / μ.J i 0) +
        (0 + μ.wRev i 1 k j) * (-N * norm2 (mulTV (pts μ w cs 0 i).cdft u) / μ.J i 0 ^ 2) +
        (0 + μ.jacRev i dB k j) * (norm2 (mulTV (pts μ w cs 0 i).cdft u) *
          dnu i (norm2 (mulTV (pts μ w cs 0 i).cdft u)) / μ.J i 0))) bar) n fun _ => 0).1 hb
  refine ⟨_, Eq.trans ?_ hg, ?_⟩
  · unfold nuBnormMesh
    simp only [addMulTV_zero]
    rfl
  simp only
  rw [scatterLoop3 (D := fun i => w i * (bil (μ.jac' i) (mulTV (pts μ w cs 0 i).cdft u) (mulTV (cs i) u) /
      norm2 (mulTV (pts μ w cs 0 i).cdft u) * (nu i (norm2 (mulTV (pts μ w cs 0 i).cdft u)) / μ.J i 0) +
    μ.J' i * (-nu i (norm2 (mulTV (pts μ w cs 0 i).cdft u)) * norm2 (mulTV (pts μ w cs 0 i).cdft u) / μ.J i 0 ^ 2) +
    bil (μ.jac' i) (mulTV (pts μ w cs 0 i).cdft u) (mulTV (cs i) u) / norm2 (mulTV (pts μ w cs 0 i).cdft u) *
      (norm2 (mulTV (pts μ w cs 0 i).cdft u) * dnu i (norm2 (mulTV (pts μ w cs 0 i).cdft u)) / μ.J i 0)))]
  · simp only [nuB_form]
    refine HasDerivAt.fun_sum fun i hi => ?_
    have hi := mem_range.1 hi
    have hbi := hb i hi
    have hJi := (hJ i hi).ne'
    have hn := hnorm μ w cs u i hi hbi
    have hc := HasDerivAt.comp_of_eq (0 : ℝ) (hnu i hi (norm2 (mulTV (pts μ w cs 0 i).cdft u))) hn rfl
    have hw : HasDerivAt (fun t => w i / μ.J i t) (-(w i * μ.J' i) / μ.J i 0 ^ 2) 0 :=
      ((hasDerivAt_const (0 : ℝ) (w i)).fun_div (μ.hJ i hi) hJi).congr_deriv (by ring)
    refine ((hc.fun_mul hn).fun_mul hw).congr_deriv ?_
    simp only [Function.comp]
    field_simp
    ring
  · intro i hi
    have e : vwt (fun k => mulTV (pts μ w cs 0 i).cdft u k / norm2 (mulTV (pts μ w cs 0 i).cdft u)) (mulTV (cs i) u) =
        fun a b => 1 / norm2 (mulTV (pts μ w cs 0 i).cdft u) *
          vwt (mulTV (pts μ w cs 0 i).cdft u) (mulTV (cs i) u) a b := by
      funext a b; simp only [vwt]; ring
    have h1 := μ.hjacRev i hi (vwt (fun k => mulTV (pts μ w cs 0 i).cdft u k /
      norm2 (mulTV (pts μ w cs 0 i).cdft u)) (mulTV (cs i) u))
    have h2 := μ.hwRev i hi 1
    have h3 : frob (vwt (fun k => mulTV (pts μ w cs 0 i).cdft u k / norm2 (mulTV (pts μ w cs 0 i).cdft u)) (mulTV (cs i) u))
        (μ.jac' i) = bil (μ.jac' i) (mulTV (pts μ w cs 0 i).cdft u) (mulTV (cs i) u) /
        norm2 (mulTV (pts μ w cs 0 i).cdft u) := by
      rw [e, frob_smul, frob_vwt]; ring
    rw [h3] at h1
    rw [← h1]
    rw [one_mul] at h2
    rw [← h2]
    simp only [sum_mul, mul_sum, ← sum_add_distrib]
    exact sum_congr rfl fun k _ => sum_congr rfl fun j _ => by ring

/-- Mesh sensitivity of `nuFuncIntegrator`, for what that integrator computes. -/
theorem C212_nu_mesh_partial (μ : FMotion n 3 m) (w : ℕ → ℝ) (cs : ℕ → Mat ndof 3) (nu dnu : ℕ → ℝ → ℝ)
    (hnu : ∀ i < n, ∀ s, HasDerivAt (nu i) (dnu i s) s) (u : Vec ndof) (hJ : ∀ i < n, 0 < μ.J i 0)
    (hB : ∀ i < n, curl (pts μ w cs 0 i) u ≠ 0) :
    ∃ g, nuFuncMesh nu dnu n m (pts μ w cs 0) μ.jacRev μ.wRev u = some g ∧
      HasDerivAt (fun t => nuFunc nu n (fun i => three (pts μ w cs t i)) u) (∑ q ∈ range (3 * m), g q * μ.δ q) 0 := by
  have hb := ne_of_B μ w cs u hJ hB
  have hg := (gather (fun i => norm2 (mulTV (pts μ w cs 0 i).cdft u) * μ.J i 0 = 0)
    (fun i bar =>
      let dB := addVWt (1 / (norm2 (mulTV (pts μ w cs 0 i).cdft u) * μ.J i 0)) (mulTV (pts μ w cs 0 i).cdft u)
        (mulTV (cs i) u) zeroM
      let M := norm2 (mulTV (pts μ w cs 0 i).cdft u) / μ.J i 0
      scatter m 3 (fun k j => w i *
        (((0 + μ.wRev i 1 k j) * (-norm2 (mulTV (pts μ w cs 0 i).cdft u) / μ.J i 0 ^ 2) + μ.jacRev i dB k j) *
            (dnu i M / μ.J i 0) + (0 + μ.wRev i 1 k j) * (-nu i M / μ.J i 0 ^ 2))) bar) n fun _ => 0).1
    fun i hi => mul_ne_zero (hb i hi) (hJ i hi).ne'
  refine ⟨_, Eq.trans ?_ hg, ?_⟩
  · unfold nuFuncMesh
    simp only [addMulTV_zero]
    rfl
  simp only
  rw [scatterLoop3 (D := fun i => w i * ((μ.J' i * (-norm2 (mulTV (pts μ w cs 0 i).cdft u) / μ.J i 0 ^ 2) +
      bil (μ.jac' i) (mulTV (pts μ w cs 0 i).cdft u) (mulTV (cs i) u) /
        (norm2 (mulTV (pts μ w cs 0 i).cdft u) * μ.J i 0)) *
      (dnu i (norm2 (mulTV (pts μ w cs 0 i).cdft u) / μ.J i 0) / μ.J i 0) +
    μ.J' i * (-nu i (norm2 (mulTV (pts μ w cs 0 i).cdft u) / μ.J i 0) / μ.J i 0 ^ 2)))]
  · simp only [nuF_form]
    refine HasDerivAt.fun_sum fun i hi => ?_
    have hi := mem_range.1 hi
    have hbi := hb i hi
    have hJi := (hJ i hi).ne'
    have hn := (hnorm μ w cs u i hi hbi).fun_div (μ.hJ i hi) hJi
    have hc := HasDerivAt.comp_of_eq (0 : ℝ) (hnu i hi (norm2 (mulTV (pts μ w cs 0 i).cdft u) / μ.J i 0)) hn rfl
    have hw : HasDerivAt (fun t => w i / μ.J i t) (-(w i * μ.J' i) / μ.J i 0 ^ 2) 0 :=
      ((hasDerivAt_const (0 : ℝ) (w i)).fun_div (μ.hJ i hi) hJi).congr_deriv (by ring)
    refine (hc.fun_mul hw).congr_deriv ?_
    simp only [Function.comp]
    field_simp
    ring
  · intro i hi
    have e : addVWt (1 / (norm2 (mulTV (pts μ w cs 0 i).cdft u) * μ.J i 0)) (mulTV (pts μ w cs 0 i).cdft u)
        (mulTV (cs i) u) zeroM = fun a b => 1 / (norm2 (mulTV (pts μ w cs 0 i).cdft u) * μ.J i 0) *
          vwt (mulTV (pts μ w cs 0 i).cdft u) (mulTV (cs i) u) a b := by
      funext a b; simp only [vwt, addVWt, zeroM]; ring
    have h1 := μ.hjacRev i hi (addVWt (1 / (norm2 (mulTV (pts μ w cs 0 i).cdft u) * μ.J i 0))
      (mulTV (pts μ w cs 0 i).cdft u) (mulTV (cs i) u) zeroM)
    have h2 := μ.hwRev i hi 1
    have h3 : frob (addVWt (1 / (norm2 (mulTV (pts μ w cs 0 i).cdft u) * μ.J i 0))
        (mulTV (pts μ w cs 0 i).cdft u) (mulTV (cs i) u) zeroM) (μ.jac' i) =
        bil (μ.jac' i) (mulTV (pts μ w cs 0 i).cdft u) (mulTV (cs i) u) /
          (norm2 (mulTV (pts μ w cs 0 i).cdft u) * μ.J i 0) := by
      rw [e, frob_smul, frob_vwt]; ring
    rw [h3] at h1
    rw [← h1]
    rw [one_mul] at h2
    rw [← h2]
    simp only [sum_mul, mul_sum, ← sum_add_distrib]
    exact sum_congr rfl fun k _ => sum_congr rfl fun j _ => by ring

/-- Witness of the hypotheses: the growing tetrahedron with a unit reference curl. -/
example : (∀ i < 1, 0 < tetGrow.J i 0) ∧ ∀ i < 1, curl (pts tetGrow (fun _ => 1) oneCurl 0 i) (fun _ => 1) ≠ 0 := by
  refine ⟨fun i hi => ?_, fun i hi h => ?_⟩
  · obtain rfl : i = 0 := by omega
    rw [tetGrow_J]; norm_num
  · obtain rfl : i = 0 := by omega
    have h2 := congrFun h 0
    rw [curl_eq] at h2
    simp only [one_curl] at h2
    simp at h2
    have e : (pts tetGrow (fun _ => 1) oneCurl 0 0).J = tetGrow.J 0 0 := rfl
    rw [e, tetGrow_J] at h2
    norm_num at h2

/-! ### Chain rule through a heat source -/

/-- `ThermalSensIntegrator`: with `V` the derivative of the source density with respect to the potential, the vector is the gradient
of the adjoint-weighted heat load. -/
theorem C212_thermal_sens {nh nd : ℕ} (pt : ℕ → TPt nh nd) (psi : Vec nh) (Q : ℕ → Vec nd → ℝ) (a v : Vec nd)
    (hQ : ∀ i < n, HasDerivAt (fun t => Q i fun r => a r + t * v r) (dotv (pt i).V v) 0) :
    HasDerivAt (fun t => dotv psi fun r => ∑ i ∈ range n,
        (pt i).w * (pt i).J * Q i (fun r => a r + t * v r) * (pt i).shape r)
      (dotv (thermalSens n pt psi) v) 0 := by
  unfold thermalSens
  rw [dotv_axpys n (fun i => (pt i).w * ((pt i).J * dotv psi (pt i).shape)) (fun i => (pt i).V) v]
  have e : ∀ t : ℝ, (dotv psi fun r => ∑ i ∈ range n,
      (pt i).w * (pt i).J * Q i (fun r => a r + t * v r) * (pt i).shape r) =
      ∑ i ∈ range n, (pt i).w * (pt i).J * dotv psi (pt i).shape * Q i (fun r => a r + t * v r) := by
    intro t
    rw [dotv_sum_right]
    refine sum_congr rfl fun i _ => ?_
    rw [dotv_smul_right]; ring
  simp only [e]
  refine HasDerivAt.fun_sum fun i hi => ?_
  exact ((hQ i (mem_range.1 hi)).const_mul _).congr_deriv (by ring)

/-- Witness: a linear source density. -/
example : HasDerivAt (fun t : ℝ => (fun a : Vec 1 => 3 * a 0) fun r => (1 : Vec 1) r + t * (1 : Vec 1) r)
    (dotv (fun _ : Fin 1 => (3 : ℝ)) 1) 0 := by
  have : HasDerivAt (fun t : ℝ => 3 * (1 + t * 1)) 3 0 :=
    ((((hasDerivAt_id' (0 : ℝ)).mul_const 1).const_add 1).const_mul 3).congr_deriv (by ring)
  refine this.congr_deriv ?_
  simp [dotv]

end Verif.FluxNorm
