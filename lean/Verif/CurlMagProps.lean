import Verif.CommonInteg
import Verif.CurlCurlProps

/-!
Property C153: integral, average and aggregate of the magnitude of the flux density.
-/

namespace Verif.CommonInteg
open Finset Verif.Sbp Verif.Dense Verif.Diffusion Verif.Force Verif.Losses

set_option linter.unusedSimpArgs false
set_option linter.unusedSectionVars false

variable {ndof dim n m : ℕ}

/-! ### Specification -/

/-- Specification: the flux density `B` at a quadrature point for the coefficients `u`.  In three dimensions the
contravariant Piola transform of the reference curl; in two the gradient of `A_z` (the curl of `A_z e_z` is that
gradient rotated, so both have the same magnitude). -/
noncomputable def bfield (p : MPt ndof dim) (u : Vec ndof) : Vec dim :=
  if dim = 3 then fun k => (∑ l, p.jac k l * ∑ r, p.cs r l * u r) / p.J
  else fun k => (∑ l, p.adj l k * ∑ r, p.cs r l * u r) / p.J

/-- Specification: quadrature of `φ(|B|)`. -/
noncomputable def quadB (φ : ℝ → ℝ) (n : ℕ) (pt : ℕ → MPt ndof dim) (u : Vec ndof) : ℝ :=
  ∑ i ∈ range n, (pt i).w * (pt i).J * φ (norm2 (bfield (pt i) u))

/-- Specification: the points after the mesh nodes moved by `t`. -/
noncomputable def mpts (μ : FMotion n dim m) (w : ℕ → ℝ) (cs : ℕ → Mat ndof dim) (t : ℝ) (i : ℕ) : MPt ndof dim :=
  ⟨w i, cs i, μ.jac i t, μ.adj i t, μ.J i t⟩

/-! ### Values -/

theorem curlVec_eq (p : MPt ndof dim) (u : Vec ndof) (k : Fin dim) :
    mulTV p.cdft u k = if dim = 3 then mulV p.jac (mulTV p.cs u) k else mulTV p.adj (mulTV p.cs u) k := by
  unfold MPt.cdft
  split_ifs
  · unfold mulTV mulABt mulV
    simp only [sum_mul, mul_sum]
    rw [sum_comm]
    exact sum_congr rfl fun _ _ => sum_congr rfl fun _ _ => by ring
  · unfold mulTV mulM
    simp only [sum_mul, mul_sum]
    rw [sum_comm]
    exact sum_congr rfl fun _ _ => sum_congr rfl fun _ _ => by ring

theorem bfield_eq (p : MPt ndof dim) (u : Vec ndof) : bfield p u = fun k => mulTV p.cdft u k / p.J := by
  funext k
  rw [curlVec_eq]
  unfold bfield
  split_ifs <;> rfl

theorem norm_bfield (p : MPt ndof dim) (hJ : 0 < p.J) (u : Vec ndof) : norm2 (bfield p u) = p.mag u := by
  rw [bfield_eq, norm2_div _ _ hJ]; rfl

theorem norm_ne_zero (p : MPt ndof dim) (u : Vec ndof) (h : bfield p u ≠ 0) : p.norm u ≠ 0 := by
  intro hn
  apply h
  rw [bfield_eq]
  funext k
  rw [(norm2_eq_zero _).1 hn k, zero_div]; rfl

theorem bfield_line (p : MPt ndof dim) (u δ : Vec ndof) (t : ℝ) (k : Fin dim) :
    bfield p (fun q => u q + t * δ q) k = bfield p u k + t * bfield p δ k := by
  simp only [bfield_eq]
  rw [← mul_div_assoc, ← add_div]
  congr 1
  unfold mulTV
  rw [mul_sum, ← sum_add_distrib]
  exact sum_congr rfl fun _ _ => by ring

theorem energies_sum (rho M : ℝ) (n : ℕ) (pt : ℕ → MPt ndof dim) (u : Vec ndof) :
    avgEnergy n pt u = ∑ i ∈ range n, (pt i).w * (pt i).J * (pt i).mag u ∧
    numEnergy rho M n pt u = ∑ i ∈ range n, (pt i).w * (pt i).J *
      ((pt i).mag u * Real.exp (rho * (pt i).mag u / M)) ∧
    denEnergy rho M n pt u = ∑ i ∈ range n, (pt i).w * (pt i).J * Real.exp (rho * (pt i).mag u / M) := by
  unfold avgEnergy numEnergy denEnergy
  refine ⟨?_, ?_, ?_⟩
  · rw [forN_real, zero_add]; exact sum_congr rfl fun i _ => mul_comm _ _
  · rw [forN_real, zero_add]; exact sum_congr rfl fun i _ => by rw [← mul_div_assoc]; ring
  · rw [forN_real, zero_add]; exact sum_congr rfl fun i _ => by rw [← mul_div_assoc]; ring

theorem quadB_sum (φ : ℝ → ℝ) (pt : ℕ → MPt ndof dim) (hJ : ∀ i < n, 0 < (pt i).J) (u : Vec ndof) :
    quadB φ n pt u = ∑ i ∈ range n, (pt i).w * (pt i).J * φ ((pt i).mag u) :=
  sum_congr rfl fun i hi => by rw [norm_bfield _ (hJ i (mem_range.1 hi))]

/-- **C153** The three element integrals are the quadratures of `|B|`, `|B| e^{ρ|B|/M}` and `e^{ρ|B|/M}`. -/
theorem C153_values (rho M : ℝ) (pt : ℕ → MPt ndof dim) (hJ : ∀ i < n, 0 < (pt i).J) (u : Vec ndof) :
    avgEnergy n pt u = quadB (fun s => s) n pt u ∧
    numEnergy rho M n pt u = quadB (fun s => s * Real.exp (rho * s / M)) n pt u ∧
    denEnergy rho M n pt u = quadB (fun s => Real.exp (rho * s / M)) n pt u := by
  rw [quadB_sum _ _ hJ, quadB_sum _ _ hJ, quadB_sum _ _ hJ]
  exact energies_sum rho M n pt u

theorem norm2_triangle (a b : Vec m) : norm2 (fun i => a i + b i) ≤ norm2 a + norm2 b := by
  have h : norm2 (fun i => a i + b i) ^ 2 ≤ (norm2 a + norm2 b) ^ 2 := by
    have hc : dotv a b ≤ norm2 a * norm2 b := by
      refine (abs_le_of_sq_le_sq' ?_ (mul_nonneg (norm2_nonneg a) (norm2_nonneg b))).2
      rw [mul_pow, norm2_sq, norm2_sq]
      exact dotv_sq_le a b
    rw [norm2_sq, add_sq, norm2_sq, norm2_sq]
    have : dotv (fun i => a i + b i) (fun i => a i + b i) = dotv a a + 2 * dotv a b + dotv b b := by
      unfold dotv
      rw [mul_sum, ← sum_add_distrib, ← sum_add_distrib]
      exact sum_congr rfl fun _ _ => by ring
    rw [this]; linarith
  exact (abs_le_of_sq_le_sq' h (add_nonneg (norm2_nonneg a) (norm2_nonneg b))).2

theorem norm2_scale (c : ℝ) (a : Vec m) : norm2 (fun i => c * a i) = |c| * norm2 a := by
  have : dotv (fun i => c * a i) (fun i => c * a i) = c ^ 2 * dotv a a := by
    unfold dotv
    rw [mul_sum]
    exact sum_congr rfl fun _ _ => by ring
  rw [norm2, this, Real.sqrt_mul (sq_nonneg c), Real.sqrt_sq_eq_abs, norm2]

/-- **C153** The integral of `|B|` is a seminorm of the potential: non-negative, absolutely homogeneous and
subadditive; it vanishes exactly when `B` does at every quadrature point. -/
theorem C153_seminorm (pt : ℕ → MPt ndof dim) (hJ : ∀ i < n, 0 < (pt i).J) (hw : ∀ i < n, 0 < (pt i).w)
    (u v : Vec ndof) (c : ℝ) :
    0 ≤ avgEnergy n pt u ∧ avgEnergy n pt (fun r => c * u r) = |c| * avgEnergy n pt u ∧
    avgEnergy n pt (fun r => u r + v r) ≤ avgEnergy n pt u + avgEnergy n pt v ∧
    (avgEnergy n pt u = 0 ↔ ∀ i < n, bfield (pt i) u = 0) := by
  simp only [fun u => (C153_values 0 0 pt hJ u).1]
  unfold quadB
  have hc : ∀ i, bfield (pt i) (fun r => c * u r) = fun k => c * bfield (pt i) u k := by
    intro i; funext k
    simp only [bfield_eq]
    rw [← mul_div_assoc]
    congr 1
    unfold mulTV
    rw [mul_sum]
    exact sum_congr rfl fun _ _ => by ring
  have ha : ∀ i, bfield (pt i) (fun r => u r + v r) = fun k => bfield (pt i) u k + bfield (pt i) v k := by
    intro i; funext k
    have := bfield_line (pt i) u v 1 k
    simpa using this
  have hnn : ∀ i ∈ range n, 0 ≤ (pt i).w * (pt i).J * norm2 (bfield (pt i) u) := fun i hi => by
    have := hJ i (mem_range.1 hi)
    have := hw i (mem_range.1 hi)
    have := norm2_nonneg (bfield (pt i) u)
    positivity
  refine ⟨sum_nonneg hnn, ?_, ?_, ?_⟩
  · rw [mul_sum]
    exact sum_congr rfl fun i _ => by rw [hc, norm2_scale]; ring
  · rw [← sum_add_distrib]
    refine sum_le_sum fun i hi => ?_
    rw [← mul_add, ha]
    exact mul_le_mul_of_nonneg_left (norm2_triangle _ _)
      (mul_pos (hw i (mem_range.1 hi)) (hJ i (mem_range.1 hi))).le
  · rw [sum_eq_zero_iff_of_nonneg hnn]
    constructor
    · intro h i hi
      have h1 := h i (mem_range.2 hi)
      have h2 := mul_pos (hw i hi) (hJ i hi)
      have h3 : norm2 (bfield (pt i) u) = 0 := by
        rcases mul_eq_zero.1 h1 with h | h
        · exact absurd h h2.ne'
        · exact h
      funext k
      exact (norm2_eq_zero _).1 h3 k
    · intro h i hi
      rw [h i (mem_range.1 hi), (norm2_eq_zero (0 : Vec dim)).2 fun _ => rfl, mul_zero]

/-- **C153** All three integrals are gauge invariant: a field without flux density does not change them. -/
theorem C153_gauge (rho M : ℝ) (pt : ℕ → MPt ndof dim) (hJ : ∀ i < n, 0 < (pt i).J) (u g : Vec ndof)
    (hg : ∀ i < n, bfield (pt i) g = 0) :
    avgEnergy n pt (fun r => u r + g r) = avgEnergy n pt u ∧
    numEnergy rho M n pt (fun r => u r + g r) = numEnergy rho M n pt u ∧
    denEnergy rho M n pt (fun r => u r + g r) = denEnergy rho M n pt u := by
  have e : ∀ φ : ℝ → ℝ, quadB φ n pt (fun r => u r + g r) = quadB φ n pt u := by
    intro φ
    refine sum_congr rfl fun i hi => ?_
    have : bfield (pt i) (fun r => u r + g r) = bfield (pt i) u := by
      funext k
      have := bfield_line (pt i) u g 1 k
      rw [hg i (mem_range.1 hi)] at this
      simpa using this
    rw [this]
  obtain ⟨a1, a2, a3⟩ := C153_values rho M pt hJ (fun r => u r + g r)
  obtain ⟨b1, b2, b3⟩ := C153_values rho M pt hJ u
  rw [a1, a2, a3, b1, b2, b3]
  exact ⟨e _, e _, e _⟩

/-! ### Derivatives -/

/-- The reverse pass of a functional `φ(|B|)`. -/
def IsRev (φ φ' : ℝ → ℝ) (rev : MPt ndof dim → Vec ndof → ℝ × ℝ) : Prop :=
  ∀ p u, rev p u = (p.w * p.J * φ' (p.mag u), φ (p.mag u))

theorem avg_isRev : IsRev (ndof := ndof) (dim := dim) (fun s => s) (fun _ => 1) avgRev := by
  intro p u; simp [avgRev]

theorem num_isRev (rho M : ℝ) : IsRev (ndof := ndof) (dim := dim) (fun s => s * Real.exp (rho * s / M))
    (fun s => Real.exp (rho * s / M) * (1 + rho * s / M)) (numRev rho M) := by
  intro p u
  unfold numRev
  rw [← mul_div_assoc]
  refine Prod.ext ?_ ?_
  · simp only; ring
  · simp only; ring

theorem den_isRev (rho M : ℝ) : IsRev (ndof := ndof) (dim := dim) (fun s => Real.exp (rho * s / M))
    (fun s => rho / M * Real.exp (rho * s / M)) (denRev rho M) := by
  intro p u
  unfold denRev
  rw [← mul_div_assoc]
  refine Prod.ext ?_ ?_
  · simp only; ring
  · simp only; ring

theorem exp_hasDerivAt (rho M s : ℝ) :
    HasDerivAt (fun s => Real.exp (rho * s / M)) (rho / M * Real.exp (rho * s / M)) s := by
  have := (((hasDerivAt_id' s).const_mul rho).div_const M).exp
  refine this.congr_deriv ?_
  ring

theorem numφ_hasDerivAt (rho M s : ℝ) : HasDerivAt (fun s => s * Real.exp (rho * s / M))
    (Real.exp (rho * s / M) * (1 + rho * s / M)) s := by
  refine ((hasDerivAt_id' s).fun_mul (exp_hasDerivAt rho M s)).congr_deriv ?_
  ring

theorem magVec_some (rev : MPt ndof dim → Vec ndof → ℝ × ℝ) (pt : ℕ → MPt ndof dim) (u : Vec ndof)
    (hu : ∀ i < n, (pt i).norm u ≠ 0) :
    magVec rev n pt u = some fun r => ∑ i ∈ range n, mulV (pt i).cdft
      (fun k => (rev (pt i) u).1 / (pt i).J / (pt i).norm u * mulTV (pt i).cdft u k) r := by
  unfold magVec
  induction n with
  | zero => simp only [forN, range_zero, sum_empty]; rfl
  | succ n ih =>
    rw [forN, ih fun i hi => hu i (by omega), Option.bind_some]
    unfold backVec
    simp only
    rw [if_neg (hu n (by omega))]
    congr 1
    funext r
    rw [sum_range_succ]
    unfold addMulV
    rw [one_mul]
    congr 2
    funext k
    simp [axpy, zeroV]

theorem magVec_none (rev : MPt ndof dim → Vec ndof → ℝ × ℝ) (pt : ℕ → MPt ndof dim) (u : Vec ndof) (j : ℕ)
    (hj : j < n) (h0 : (pt j).norm u = 0) : magVec rev n pt u = none := by
  unfold magVec
  induction n with
  | zero => omega
  | succ n ih =>
    rw [forN]
    by_cases e : j = n
    · subst e
      have : ∀ bar, backVec (pt j) u (rev (pt j) u).1 bar = none := fun bar => by
        unfold backVec; simp only; rw [if_pos h0]
      simp only [this]
      rw [Option.bind_fun_none]
    · rw [ih (by omega)]; rfl

/-- The derivative of `φ(|B|)` with respect to the state. -/
theorem magVec_hasDerivAt (φ φ' : ℝ → ℝ) (hφ : ∀ s, HasDerivAt φ (φ' s) s)
    (rev : MPt ndof dim → Vec ndof → ℝ × ℝ) (hr : IsRev φ φ' rev) (pt : ℕ → MPt ndof dim)
    (hJ : ∀ i < n, 0 < (pt i).J) (u : Vec ndof) (hu : ∀ i < n, bfield (pt i) u ≠ 0) :
    ∃ g, magVec rev n pt u = some g ∧
      ∀ δ, HasDerivAt (fun t => quadB φ n pt fun r => u r + t * δ r) (dotv g δ) 0 := by
  refine ⟨_, magVec_some rev pt u fun i hi => norm_ne_zero _ _ (hu i hi), fun δ => ?_⟩
  rw [dotv_comm, dotv_sum_right]
  refine HasDerivAt.fun_sum fun i hi => ?_
  have hi := mem_range.1 hi
  set p := pt i with hp
  have hJi : 0 < p.J := hJ i hi
  have hne : norm2 (bfield p u) ≠ 0 := by
    rw [norm_bfield p hJi]
    exact div_ne_zero (norm_ne_zero _ _ (hu i hi)) hJi.ne'
  have hg : ∀ k, HasDerivAt (fun t => bfield p (fun q => u q + t * δ q) k) (bfield p δ k) 0 := by
    intro k
    simp only [bfield_line]
    exact hasDerivAt_line _ _
  have h0 : bfield p (fun q => u q + 0 * δ q) = bfield p u := by
    funext k; rw [bfield_line]; ring
  have hn := hasDerivAt_norm2 (fun t => bfield p fun q => u q + t * δ q) _ 0 hg (by rw [h0]; exact hne)
  have hc := HasDerivAt.comp_of_eq (0 : ℝ) (hφ (norm2 (bfield p u))) hn (by rw [h0])
  refine (hc.const_mul (p.w * p.J)).congr_deriv ?_
  rw [h0, dotv_mulV, dotv_smul_right, hr]
  simp only
  rw [norm_bfield p hJi]
  have e : dotv (bfield p u) (bfield p δ) = dotv (mulTV p.cdft δ) (mulTV p.cdft u) / p.J ^ 2 := by
    rw [bfield_eq, bfield_eq, dotv_comm]
    unfold dotv
    rw [sum_div]
    exact sum_congr rfl fun _ _ => by rw [div_mul_div_comm, pow_two]
  rw [e]
  have hn' : p.norm u ≠ 0 := norm_ne_zero _ _ (hu i hi)
  have hm : p.mag u = p.norm u / p.J := rfl
  generalize φ' (p.mag u) = x
  rw [hm]
  field_simp

/-- **C153** Derivative with respect to the potential: when the flux density is not zero at any quadrature point,
the assembled vectors of the three functionals are the exact derivatives, in every direction. -/
theorem C153_gradient_partial (rho M : ℝ) (pt : ℕ → MPt ndof dim) (hJ : ∀ i < n, 0 < (pt i).J) (u : Vec ndof)
    (hu : ∀ i < n, bfield (pt i) u ≠ 0) :
    (∃ g, magVec avgRev n pt u = some g ∧
      ∀ δ, HasDerivAt (fun t => avgEnergy n pt fun r => u r + t * δ r) (dotv g δ) 0) ∧
    (∃ g, magVec (numRev rho M) n pt u = some g ∧
      ∀ δ, HasDerivAt (fun t => numEnergy rho M n pt fun r => u r + t * δ r) (dotv g δ) 0) ∧
    (∃ g, magVec (denRev rho M) n pt u = some g ∧
      ∀ δ, HasDerivAt (fun t => denEnergy rho M n pt fun r => u r + t * δ r) (dotv g δ) 0) := by
  simp only [fun v => (C153_values rho M pt hJ v).1, fun v => (C153_values rho M pt hJ v).2.1,
    fun v => (C153_values rho M pt hJ v).2.2]
  exact ⟨magVec_hasDerivAt _ _ (fun s => hasDerivAt_id' s) _ avg_isRev pt hJ u hu,
    magVec_hasDerivAt _ _ (numφ_hasDerivAt rho M) _ (num_isRev rho M) pt hJ u hu,
    magVec_hasDerivAt _ _ (exp_hasDerivAt rho M) _ (den_isRev rho M) pt hJ u hu⟩

/-- **C153** One point with zero flux density - for instance the zero state every solve starts from - makes the
whole vector NaN, for each of the three functionals. -/
theorem C153_gradient_zero_flux_false (rho M : ℝ) (pt : ℕ → MPt ndof dim) (u : Vec ndof) (j : ℕ) (hj : j < n)
    (hJ : (pt j).J ≠ 0) (h0 : bfield (pt j) u = 0) :
    magVec avgRev n pt u = none ∧ magVec (numRev rho M) n pt u = none ∧ magVec (denRev rho M) n pt u = none := by
  have h : (pt j).norm u = 0 := by
    rw [MPt.norm, norm2_eq_zero]
    intro k
    have := congrFun h0 k
    rw [bfield_eq] at this
    rcases div_eq_zero_iff.1 this with h | h
    · exact h
    · exact absurd h hJ
  exact ⟨magVec_none _ pt u j hj h, magVec_none _ pt u j hj h, magVec_none _ pt u j hj h⟩

/-! ### Mesh sensitivity -/

/-- Derivative of the reference-scaled flux under mesh motion. -/
def dcurl (μ : FMotion n dim m) (cs : ℕ → Mat ndof dim) (u : Vec ndof) (i : ℕ) : Vec dim :=
  if dim = 3 then mulV (μ.jac' i) (mulTV (cs i) u) else mulTV (μ.adj' i) (mulTV (cs i) u)

theorem curl_motion (μ : FMotion n dim m) (w : ℕ → ℝ) (cs : ℕ → Mat ndof dim) (u : Vec ndof) (i : ℕ) (hi : i < n)
    (k : Fin dim) :
    HasDerivAt (fun t => mulTV (mpts μ w cs t i).cdft u k) (dcurl μ cs u i k) 0 := by
  simp only [curlVec_eq]
  unfold dcurl
  split_ifs
  · unfold mulV
    exact HasDerivAt.fun_sum fun l _ => (μ.hjac i hi k l).mul_const (mulTV (cs i) u l)
  · exact HasDerivAt.fun_sum fun l _ => (μ.hadj i hi l k).mul_const (mulTV (cs i) u l)

theorem backMesh_dot (μ : FMotion n dim m) (w : ℕ → ℝ) (cs : ℕ → Mat ndof dim) (u : Vec ndof) (i : ℕ) (hi : i < n)
    (a b : ℝ) (h0 : (mpts μ w cs 0 i).norm u ≠ 0) :
    ∃ r, backMesh (mpts μ w cs 0 i) u a b = some r ∧
      ∑ k ∈ range dim, ∑ j ∈ range m, (0 + (if dim = 3 then μ.jacRev i r.1 k j else μ.adjRev i r.1 k j) +
        μ.wRev i r.2 k j) * μ.δ (k * m + j) =
      a / μ.J i 0 / (mpts μ w cs 0 i).norm u * dotv (mulTV (mpts μ w cs 0 i).cdft u) (dcurl μ cs u i) +
        (-a * (mpts μ w cs 0 i).norm u / μ.J i 0 ^ 2 + b * w i) * μ.J' i := by
  unfold backMesh
  simp only
  rw [if_neg h0]
  refine ⟨_, rfl, ?_⟩
  simp only
  set p := mpts μ w cs 0 i with hp
  have eJ : p.J = μ.J i 0 := rfl
  have ew : p.w = w i := rfl
  have ec : p.cs = cs i := rfl
  rw [eJ, ew, ec]
  generalize hx : a / μ.J i 0 / p.norm u = x
  have h3 : ∀ y : Vec dim, dotv (axpy x (mulTV p.cdft u) zeroV) y = x * dotv (mulTV p.cdft u) y := by
    intro y
    rw [← dotv_smul_left]
    congr 1; funext i; simp [axpy, zeroV]
  generalize axpy x (mulTV p.cdft u) zeroV = c at h3 ⊢
  generalize -a * p.norm u / μ.J i 0 ^ 2 + b * w i = y
  by_cases hd : dim = 3
  · simp only [if_pos hd]
    have := μ.hjacRev i hi (fun a b => zeroM a b + mulM (vwt c u) (cs i) a b)
    have h2 := μ.hwRev i hi y
    have e : frob (fun a b => zeroM a b + mulM (vwt c u) (cs i) a b) (μ.jac' i) =
        x * dotv (mulTV p.cdft u) (dcurl μ cs u i) := by
      rw [← h3]
      unfold dcurl
      rw [if_pos hd]
      have : (fun a b => zeroM a b + mulM (vwt c u) (cs i) a b) = vwt c (mulTV (cs i) u) := by
        funext a b; rw [mulM_vwt]; simp [zeroM]
      rw [this, frob_vwt]; rfl
    rw [← e, ← this, ← h2, ← sum_add_distrib]
    refine sum_congr rfl fun k _ => ?_
    rw [← sum_add_distrib]
    exact sum_congr rfl fun j _ => by ring
  · simp only [if_neg hd]
    have := μ.hadjRev i hi (mulAtB (cs i) (vwt u c))
    have h2 := μ.hwRev i hi y
    have e : frob (mulAtB (cs i) (vwt u c)) (μ.adj' i) = x * dotv (mulTV p.cdft u) (dcurl μ cs u i) := by
      rw [← h3]
      unfold dcurl
      rw [if_neg hd, frob_mulAtB, frob_vwt, bil_eq', dotv_comm]
      congr 1
      funext k
      unfold mulTV mulM
      simp only [sum_mul, mul_sum]
      rw [sum_comm]
      exact sum_congr rfl fun _ _ => sum_congr rfl fun _ _ => by ring
    rw [← e, ← this, ← h2, ← sum_add_distrib]
    refine sum_congr rfl fun k _ => ?_
    rw [← sum_add_distrib]
    exact sum_congr rfl fun j _ => by ring

theorem magMesh_some (rev : MPt ndof dim → Vec ndof → ℝ × ℝ) (pt : ℕ → MPt ndof dim)
    (jacRev adjRev : ℕ → Mat dim dim → ℕ → ℕ → ℝ) (wRev : ℕ → ℝ → ℕ → ℕ → ℝ) (u : Vec ndof)
    (r : ℕ → Mat dim dim × ℝ)
    (h : ∀ i < n, backMesh (pt i) u (rev (pt i) u).1 (rev (pt i) u).2 = some (r i)) :
    magMesh rev n m pt jacRev adjRev wRev u = some (forN n (fun i bar => scatter m dim (fun k j =>
      0 + (if dim = 3 then jacRev i (r i).1 k j else adjRev i (r i).1 k j) + wRev i (r i).2 k j) bar)
        fun _ => 0) := by
  unfold magMesh
  induction n with
  | zero => rfl
  | succ n ih =>
    rw [forN, ih fun i hi => h i (by omega), h n (by omega)]
    rfl

theorem magMesh_hasDerivAt (φ φ' : ℝ → ℝ) (hφ : ∀ s, HasDerivAt φ (φ' s) s)
    (rev : MPt ndof dim → Vec ndof → ℝ × ℝ) (hr : IsRev φ φ' rev) (μ : FMotion n dim m) (w : ℕ → ℝ)
    (cs : ℕ → Mat ndof dim) (hJ : ∀ i < n, 0 < μ.J i 0) (u : Vec ndof)
    (hu : ∀ i < n, bfield (mpts μ w cs 0 i) u ≠ 0) :
    ∃ bar, magMesh rev n m (mpts μ w cs 0) μ.jacRev μ.adjRev μ.wRev u = some bar ∧
      HasDerivAt (fun t => ∑ i ∈ range n, w i * μ.J i t * φ ((mpts μ w cs t i).mag u))
        (∑ q ∈ range (dim * m), bar q * μ.δ q) 0 := by
  have hne : ∀ i < n, (mpts μ w cs 0 i).norm u ≠ 0 := fun i hi => norm_ne_zero _ _ (hu i hi)
  choose! r hr1 hr2 using fun i (hi : i < n) => backMesh_dot μ w cs u i hi
    (rev (mpts μ w cs 0 i) u).1 (rev (mpts μ w cs 0 i) u).2 (hne i hi)
  refine ⟨_, magMesh_some rev _ _ _ _ u r hr1, ?_⟩
  rw [scatterLoop3 n m dim _ μ.δ _ hr2]
  refine HasDerivAt.fun_sum fun i hi => ?_
  have hi := mem_range.1 hi
  have hJi := (hJ i hi).ne'
  have hn := hasDerivAt_norm2 (fun t => mulTV (mpts μ w cs t i).cdft u) _ 0 (curl_motion μ w cs u i hi) (hne i hi)
  have hm := hn.fun_div (μ.hJ i hi) hJi
  have hc := HasDerivAt.comp_of_eq (0 : ℝ) (hφ ((mpts μ w cs 0 i).mag u)) hm rfl
  refine (((μ.hJ i hi).const_mul (w i)).fun_mul hc).congr_deriv ?_
  rw [hr]
  have e1 : (φ ∘ fun s => norm2 (mulTV (mpts μ w cs s i).cdft u) / μ.J i s) 0 = φ ((mpts μ w cs 0 i).mag u) := rfl
  rw [e1]
  simp only
  have e2 : norm2 (mulTV (mpts μ w cs 0 i).cdft u) = (mpts μ w cs 0 i).norm u := rfl
  have e3 : (mpts μ w cs 0 i).w = w i := rfl
  have e4 : (mpts μ w cs 0 i).J = μ.J i 0 := rfl
  have hnz := hne i hi
  rw [e2, e3, e4]
  generalize φ ((mpts μ w cs 0 i).mag u) = x
  generalize φ' ((mpts μ w cs 0 i).mag u) = y
  generalize dotv (mulTV (mpts μ w cs 0 i).cdft u) (dcurl μ cs u i) = z
  generalize (mpts μ w cs 0 i).norm u = N at hnz ⊢
  field_simp
  ring

/-- **C153** Mesh sensitivity: when the flux density is not zero at any quadrature point, the assembled vectors
multiplied with any motion of the mesh nodes are the derivatives of the three integrals under that motion. -/
theorem C153_mesh_sensitivity_partial (rho M : ℝ) (μ : FMotion n dim m) (w : ℕ → ℝ)
    (cs : ℕ → Mat ndof dim) (hJ : ∀ i < n, 0 < μ.J i 0) (u : Vec ndof)
    (hu : ∀ i < n, bfield (mpts μ w cs 0 i) u ≠ 0) :
    (∃ bar, magMesh avgRev n m (mpts μ w cs 0) μ.jacRev μ.adjRev μ.wRev u = some bar ∧
      HasDerivAt (fun t => avgEnergy n (mpts μ w cs t) u) (∑ q ∈ range (dim * m), bar q * μ.δ q) 0) ∧
    (∃ bar, magMesh (numRev rho M) n m (mpts μ w cs 0) μ.jacRev μ.adjRev μ.wRev u = some bar ∧
      HasDerivAt (fun t => numEnergy rho M n (mpts μ w cs t) u) (∑ q ∈ range (dim * m), bar q * μ.δ q) 0) ∧
    (∃ bar, magMesh (denRev rho M) n m (mpts μ w cs 0) μ.jacRev μ.adjRev μ.wRev u = some bar ∧
      HasDerivAt (fun t => denEnergy rho M n (mpts μ w cs t) u) (∑ q ∈ range (dim * m), bar q * μ.δ q) 0) := by
  simp only [fun t => (energies_sum rho M n (mpts μ w cs t) u).1,
    fun t => (energies_sum rho M n (mpts μ w cs t) u).2.1, fun t => (energies_sum rho M n (mpts μ w cs t) u).2.2]
  exact ⟨magMesh_hasDerivAt _ _ (fun s => hasDerivAt_id' s) _ avg_isRev μ w cs hJ u hu,
    magMesh_hasDerivAt _ _ (numφ_hasDerivAt rho M) _ (num_isRev rho M) μ w cs hJ u hu,
    magMesh_hasDerivAt _ _ (exp_hasDerivAt rho M) _ (den_isRev rho M) μ w cs hJ u hu⟩

/-- **C153** One point with zero flux density makes the mesh sensitivities NaN as well. -/
theorem C153_mesh_zero_flux_false (rho M : ℝ) (pt : ℕ → MPt ndof dim)
    (jacRev adjRev : ℕ → Mat dim dim → ℕ → ℕ → ℝ) (wRev : ℕ → ℝ → ℕ → ℕ → ℝ) (u : Vec ndof) (j : ℕ) (hj : j < n)
    (hJ : (pt j).J ≠ 0) (h0 : bfield (pt j) u = 0) :
    magMesh avgRev n m pt jacRev adjRev wRev u = none ∧
    magMesh (numRev rho M) n m pt jacRev adjRev wRev u = none ∧
    magMesh (denRev rho M) n m pt jacRev adjRev wRev u = none := by
  have h : (pt j).norm u = 0 := by
    rw [MPt.norm, norm2_eq_zero]
    intro k
    have := congrFun h0 k
    rw [bfield_eq] at this
    rcases div_eq_zero_iff.1 this with h | h
    · exact h
    · exact absurd h hJ
  have key : ∀ rev : MPt ndof dim → Vec ndof → ℝ × ℝ, magMesh rev n m pt jacRev adjRev wRev u = none := by
    intro rev
    unfold magMesh
    induction n with
    | zero => omega
    | succ n ih =>
      rw [forN]
      by_cases e : j = n
      · subst e
        have : backMesh (pt j) u (rev (pt j) u).1 (rev (pt j) u).2 = none := by
          unfold backMesh; simp only; rw [if_pos h]
        rw [this]
        simp only [Option.map_none, Option.bind_fun_none]
      · rw [ih (by omega)]; rfl
  exact ⟨key _, key _, key _⟩

/-! ### The aggregate of the curl magnitude -/

/-- **C153** With positive weights the aggregate lies between the smallest and the largest sampled `|B|`. -/
theorem C153_aggregate_bounds (rho M lo hi : ℝ) (pt : ℕ → MPt ndof dim) (hn : 0 < n)
    (hJ : ∀ i < n, 0 < (pt i).J) (hw : ∀ i < n, 0 < (pt i).w) (u : Vec ndof)
    (hlo : ∀ i < n, lo ≤ norm2 (bfield (pt i) u)) (hhi : ∀ i < n, norm2 (bfield (pt i) u) ≤ hi) :
    lo ≤ ratioOut (numEnergy rho M n pt u) (denEnergy rho M n pt u) ∧
      ratioOut (numEnergy rho M n pt u) (denEnergy rho M n pt u) ≤ hi := by
  obtain ⟨-, h2, h3⟩ := C153_values rho M pt hJ u
  have hd : 0 < denEnergy rho M n pt u := by
    rw [h3]
    refine sum_pos (fun i hi => ?_) ⟨0, mem_range.2 hn⟩
    exact mul_pos (mul_pos (hw i (mem_range.1 hi)) (hJ i (mem_range.1 hi))) (Real.exp_pos _)
  unfold ratioOut
  rw [le_div_iff₀ hd, div_le_iff₀ hd, h2, h3]
  unfold quadB
  rw [mul_sum, mul_sum]
  constructor
  · refine sum_le_sum fun i hi => ?_
    have := mul_pos (mul_pos (hw i (mem_range.1 hi)) (hJ i (mem_range.1 hi)))
      (Real.exp_pos (rho * norm2 (bfield (pt i) u) / M))
    have := mul_le_mul_of_nonneg_right (hlo i (mem_range.1 hi)) this.le
    linarith
  · refine sum_le_sum fun i hi => ?_
    have := mul_pos (mul_pos (hw i (mem_range.1 hi)) (hJ i (mem_range.1 hi)))
      (Real.exp_pos (rho * norm2 (bfield (pt i) u) / M))
    have := mul_le_mul_of_nonneg_right (hhi i (mem_range.1 hi)) this.le
    linarith

/-! ### Non-vacuity -/

/-- The right triangle with vertices (0,0), (1,0), (0,1). -/
def triDN : ℕ → ℕ → Fin 2 → ℝ := fun _ j b => if j = (b : ℕ) + 1 then 1 else if j = 0 then -1 else 0

def triNodes : ℕ → ℝ := fun q => if q = 1 ∨ q = 5 then 1 else 0

theorem tri_jac : isoJac 3 (triDN 0) triNodes = fun a b => if a = b then 1 else 0 := by
  funext a b
  fin_cases a <;> fin_cases b <;> simp [isoJac, triDN, triNodes, sum_range_succ]

/-- Motion of its second vertex to the right. -/
noncomputable def triMove : FMotion 1 2 3 := isoFMotion 1 3 triDN triNodes (fun q => if q = 1 then 1 else 0) (by
  intro i hi
  have : i = 0 := by omega
  subst this
  rw [tri_jac]
  simp [det2])

theorem triMove_J : triMove.J 0 0 = 1 := by
  change det2 (isoJac 3 (triDN 0) fun q => triNodes q + 0 * _) = 1
  simp only [zero_mul, add_zero]
  change det2 (isoJac 3 (triDN 0) triNodes) = 1
  rw [tri_jac]
  simp [det2]

/-- Gradients of the linear shape functions. -/
def triCs : ℕ → Mat 3 2 := fun _ r l => if (r : ℕ) = (l : ℕ) + 1 then 1 else if (r : ℕ) = 0 then -1 else 0

theorem tri_bfield : bfield (mpts triMove (fun _ => 1 / 2) triCs 0 0) ![0, 3, 4] = ![3, 4] := by
  have ha : triMove.adj 0 0 = fun a b => if a = b then 1 else 0 := by
    change adj2 (isoJac 3 (triDN 0) fun q => triNodes q + 0 * _) = _
    simp only [zero_mul, add_zero]
    change adj2 (isoJac 3 (triDN 0) triNodes) = _
    rw [tri_jac]
    funext a b
    fin_cases a <;> fin_cases b <;> simp [adj2]
  funext k
  unfold bfield mpts
  rw [if_neg (by norm_num)]
  simp only [triMove_J, ha, div_one]
  fin_cases k <;> simp [Fin.sum_univ_two, Fin.sum_univ_three, triCs]

/-- The triangle, with flux density (3, 4) and magnitude 5, meets every hypothesis of C153; its integral of `|B|`
is `5/2`, the aggregate is 5. -/
example : (∀ i < 1, 0 < triMove.J i 0) ∧
    (∀ i < 1, bfield (mpts triMove (fun _ => 1 / 2) triCs 0 i) ![0, 3, 4] ≠ 0) ∧
    avgEnergy 1 (mpts triMove (fun _ => 1 / 2) triCs 0) ![0, 3, 4] = 5 / 2 := by
  have hJ : ∀ i < 1, 0 < triMove.J i 0 := by
    intro i hi
    have : i = 0 := by omega
    subst this
    rw [triMove_J]; norm_num
  refine ⟨hJ, ?_, ?_⟩
  · intro i hi
    have : i = 0 := by omega
    subst this
    rw [tri_bfield]
    intro h
    have := congrFun h 0
    norm_num at this
  · rw [(C153_values 0 0 _ hJ _).1, quadB, sum_range_one, tri_bfield]
    have h5 : norm2 (![3, 4] : Vec 2) = 5 := by
      unfold norm2 dotv
      rw [Fin.sum_univ_two]
      have : (![3, 4] : Vec 2) 0 * (![3, 4] : Vec 2) 0 + (![3, 4] : Vec 2) 1 * (![3, 4] : Vec 2) 1 = 5 ^ 2 := by
        norm_num
      rw [this, Real.sqrt_sq (by norm_num)]
    rw [h5]
    change 1 / 2 * triMove.J 0 0 * 5 = _
    rw [triMove_J]; norm_num

/-- In three dimensions the growing tetrahedron of C137 does. -/
example : (∀ i < 1, 0 < CurlCurl.tetGrow.J i 0) ∧
    ∀ i < 1, bfield (mpts CurlCurl.tetGrow (fun _ => 1 / 6) CurlCurl.oneCurl 0 i) (fun _ => 1) ≠ 0 := by
  constructor
  · intro i hi
    have : i = 0 := by omega
    subst this
    rw [CurlCurl.tetGrow_J]; norm_num
  · intro i hi h
    have : i = 0 := by omega
    subst this
    have := congrFun h 0
    unfold bfield mpts at this
    simp [CurlCurl.tetGrow_jac, CurlCurl.tetGrow_J, CurlCurl.oneCurl] at this

end Verif.CommonInteg
