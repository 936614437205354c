import Verif.DiffusionProps
import Verif.MeshMotion
import Mathlib.Tactic.IntervalCases
import Mathlib.Tactic.FinCases

/-!
Properties C122 (mesh sensitivity of the nonlinear diffusion element) and C123 (magnetic energy
density).
-/

namespace Verif.Diffusion
open Finset Verif.Sbp Verif.Dense Verif.Inviscid

set_option linter.unusedSectionVars false

variable {ndof dim : ℕ}

/-! ### C122 -/

/-- The quadrature points after the mesh has moved by `t`. -/
noncomputable def Motion.pts {n m : ℕ} (μ : Motion n dim m) (w : ℕ → ℝ) (dshape : ℕ → Mat ndof dim) (t : ℝ)
    (i : ℕ) : QPt ndof dim := ⟨w i, dshape i, μ.adj i t, μ.J i t⟩

/-- What one quadrature point of the reverse pass contributes. -/
theorem revPoint_dot (alpha : ℝ) (nu dnu : ℝ → ℝ) (p : QPt ndof dim) (u psi : Vec ndof) (A' : Mat dim dim)
    (J' : ℝ) :
    frob (revPoint alpha nu dnu p u psi).1 A' + (revPoint alpha nu dnu p u psi).2 * J' =
      (if |norm2 (mulTV p.dxt u)| > 1 / 10 ^ 14 then
        dotv (mulTV p.dxt psi) (mulTV p.dxt u) * (alpha * p.w / p.J) *
          dnu (norm2 (mulTV p.dxt u) / p.J) / p.J / norm2 (mulTV p.dxt u) *
          dotv (mulTV p.dxt u) (mulTV (mulM p.dshape A') u) else 0) +
      nu (norm2 (mulTV p.dxt u) / p.J) * (alpha * p.w / p.J) *
        (dotv (mulTV p.dxt u) (mulTV (mulM p.dshape A') psi) +
          dotv (mulTV p.dxt psi) (mulTV (mulM p.dshape A') u)) -
      (dotv (mulTV p.dxt psi) (mulTV p.dxt u) * (alpha * p.w / p.J) *
          dnu (norm2 (mulTV p.dxt u) / p.J) * norm2 (mulTV p.dxt u) / p.J ^ 2 +
        nu (norm2 (mulTV p.dxt u) / p.J) * dotv (mulTV p.dxt psi) (mulTV p.dxt u) * alpha * p.w / p.J ^ 2) *
        J' := by
  unfold revPoint
  simp only
  rw [frob_mulAtB]
  have e : ∀ a b : Vec dim, addVWt 1 u a (addVWt 1 psi b (zeroM : Mat ndof dim)) =
      fun i j => psi i * b j + u i * a j := by
    intro a b; funext i j; simp [addVWt, zeroM]
  rw [e, frob_add, frob_outer, frob_outer]
  have h1 : dotv (axpy (1 * nu (norm2 (mulTV p.dxt u) / p.J) * (alpha * p.w / p.J)) (mulTV p.dxt u) zeroV)
      (mulTV (mulM p.dshape A') psi) = nu (norm2 (mulTV p.dxt u) / p.J) * (alpha * p.w / p.J) *
      dotv (mulTV p.dxt u) (mulTV (mulM p.dshape A') psi) := by
    rw [← dotv_smul_left]
    congr 1; funext k; simp [axpy, zeroV]
  rw [h1]
  have h2 : ∀ (c x : ℝ) (a b y : Vec dim), dotv (axpy c a (axpy x b zeroV)) y = c * dotv a y + x * dotv b y := by
    intro c x a b y
    rw [← dotv_smul_left, ← dotv_smul_left, ← dotv_add_left]
    congr 1; funext i; simp [axpy, zeroV]; ring
  have h3 : ∀ (c : ℝ) (a y : Vec dim), dotv (axpy c a zeroV) y = c * dotv a y := by
    intro c a y
    rw [← dotv_smul_left]
    congr 1; funext i; simp [axpy, zeroV]
  by_cases h : |norm2 (mulTV p.dxt u)| > 1 / 10 ^ 14
  · rw [if_pos h, if_pos h, h2]; ring
  · rw [if_neg h, if_neg h, h3]; ring

/-- Derivative of the adjoint-weighted point contribution under mesh motion. -/
theorem point_hasDerivAt {n m : ℕ} (μ : Motion n dim m) (w : ℕ → ℝ) (dshape : ℕ → Mat ndof dim) (alpha : ℝ)
    (nu dnu : ℝ → ℝ) (hnu : ∀ s, HasDerivAt nu (dnu s) s) (u psi : Vec ndof) (i : ℕ) (hi : i < n)
    (hJ0 : μ.J i 0 ≠ 0)
    (hu : norm2 (mulTV (μ.pts w dshape 0 i).dxt u) = 0 ∨
      1 / 10 ^ 14 < norm2 (mulTV (μ.pts w dshape 0 i).dxt u)) :
    HasDerivAt (fun t => alpha * w i / μ.J i t *
        nu (norm2 (mulTV (μ.pts w dshape t i).dxt u) / μ.J i t) *
        dotv (mulTV (μ.pts w dshape t i).dxt psi) (mulTV (μ.pts w dshape t i).dxt u))
      (frob (revPoint alpha nu dnu (μ.pts w dshape 0 i) u psi).1 (μ.adj' i) +
        (revPoint alpha nu dnu (μ.pts w dshape 0 i) u psi).2 * μ.J' i) 0 := by
  rw [revPoint_dot]
  have hJ := μ.hJ i hi
  have hf : ∀ v : Vec ndof, ∀ k, HasDerivAt (fun t => mulTV (μ.pts w dshape t i).dxt v k)
      (mulTV (mulM (dshape i) (μ.adj' i)) v k) 0 := fun v k => μ.hasDerivAt_flux i hi (dshape i) v k
  have hd := hasDerivAt_dotv (fun t => mulTV (μ.pts w dshape t i).dxt psi)
    (fun t => mulTV (μ.pts w dshape t i).dxt u) _ _ 0 (hf psi) (hf u)
  have hw : HasDerivAt (fun t => alpha * w i / μ.J i t) (-(alpha * w i * μ.J' i) / μ.J i 0 ^ 2) 0 :=
    ((hasDerivAt_const (0 : ℝ) (alpha * w i)).fun_div hJ hJ0).congr_deriv (by ring)
  have eJ : (μ.pts w dshape 0 i).J = μ.J i 0 := rfl
  have ew : (μ.pts w dshape 0 i).w = w i := rfl
  have ed : (μ.pts w dshape 0 i).dshape = dshape i := rfl
  rw [eJ, ew, ed]
  set g := mulTV (μ.pts w dshape 0 i).dxt u with hg
  set h := mulTV (μ.pts w dshape 0 i).dxt psi with hh
  rcases hu with hz | hz
  · have hg0 : ∀ k, g k = 0 := (norm2_eq_zero _).1 hz
    have hz0 : ∀ a : Vec dim, dotv a g = 0 := fun a => sum_eq_zero fun k _ => by rw [hg0, mul_zero]
    have hz1 : ∀ a : Vec dim, dotv g a = 0 := fun a => by rw [dotv_comm, hz0]
    have hc : ContinuousAt (fun t => alpha * w i / μ.J i t *
        nu (norm2 (mulTV (μ.pts w dshape t i).dxt u) / μ.J i t)) 0 := by
      refine hw.continuousAt.mul ?_
      have h1 := (continuousAt_norm2 (fun t => mulTV (μ.pts w dshape t i).dxt u) 0
        fun k => (hf u k).continuousAt).div hJ.continuousAt hJ0
      exact ContinuousAt.comp_of_eq (hnu (norm2 g / μ.J i 0)).continuousAt h1 rfl
    refine (hasDerivAt_mul_of_zero _ _ _ 0 hc hd (hz0 _)).congr_deriv ?_
    rw [if_neg (by rw [hz]; norm_num)]
    rw [← hg, hz, hz0, hz0, hz1]
    ring
  · have hne : norm2 g ≠ 0 := by
      have : (0 : ℝ) < 1 / 10 ^ 14 := by positivity
      linarith
    have hn := hasDerivAt_norm2 (fun t => mulTV (μ.pts w dshape t i).dxt u) _ 0 (hf u) hne
    have hn2 := HasDerivAt.comp_of_eq (0 : ℝ) (hnu (norm2 g / μ.J i 0)) (hn.fun_div hJ hJ0) rfl
    refine ((hw.fun_mul hn2).fun_mul hd).congr_deriv ?_
    simp only [Function.comp]
    rw [if_pos (by rw [abs_of_nonneg (norm2_nonneg _)]; exact hz)]
    rw [← hg, ← hh, dotv_comm (mulTV (mulM (dshape i) (μ.adj' i)) psi) g]
    generalize dotv g (mulTV (mulM (dshape i) (μ.adj' i)) psi) = a
    generalize dotv g (mulTV (mulM (dshape i) (μ.adj' i)) u) = b
    generalize dotv h (mulTV (mulM (dshape i) (μ.adj' i)) u) = c
    generalize dotv h g = d
    generalize nu (norm2 g / μ.J i 0) = N
    generalize dnu (norm2 g / μ.J i 0) = N'
    field_simp
    ring

/-- **Mesh sensitivity.**  Provided residual and sensitivity use the same quadrature points, the vector
the mesh-sensitivity integrator assembles, multiplied with any motion of the mesh nodes, is the
derivative of the adjoint-weighted residual under that motion - at every state whose gradient is zero
or not tiny at each quadrature point. -/
theorem C122_mesh_sensitivity_partial {n m : ℕ} (μ : Motion n dim m) (w : ℕ → ℝ)
    (dshape : ℕ → Mat ndof dim) (alpha : ℝ) (nu dnu : ℕ → ℝ → ℝ)
    (hnu : ∀ i < n, ∀ s, HasDerivAt (nu i) (dnu i s) s) (u psi : Vec ndof)
    (hJ : ∀ i < n, μ.J i 0 ≠ 0)
    (hu : ∀ i < n, norm2 (mulTV (μ.pts w dshape 0 i).dxt u) = 0 ∨
      1 / 10 ^ 14 < norm2 (mulTV (μ.pts w dshape 0 i).dxt u)) :
    HasDerivAt (fun t => dotv psi (elemVec alpha nu n (μ.pts w dshape t) u))
      (∑ q ∈ range (dim * m),
        meshSens alpha nu dnu n m (μ.pts w dshape 0) μ.adjRev μ.wRev u psi q * μ.δ q) 0 := by
  have hs : ∑ q ∈ range (dim * m),
      meshSens alpha nu dnu n m (μ.pts w dshape 0) μ.adjRev μ.wRev u psi q * μ.δ q =
      ∑ i ∈ range n, (frob (revPoint alpha (nu i) (dnu i) (μ.pts w dshape 0 i) u psi).1 (μ.adj' i) +
        (revPoint alpha (nu i) (dnu i) (μ.pts w dshape 0 i) u psi).2 * μ.J' i) := by
    refine (scatter_loop_dot n m dim (fun i k j =>
      0 + μ.adjRev i (revPoint alpha (nu i) (dnu i) (μ.pts w dshape 0 i) u psi).1 k j +
        μ.wRev i (revPoint alpha (nu i) (dnu i) (μ.pts w dshape 0 i) u psi).2 k j) μ.δ).trans ?_
    exact sum_congr rfl fun i hi => μ.point i (mem_range.1 hi) _ _
  rw [hs]
  have hv : ∀ t, dotv psi (elemVec alpha nu n (μ.pts w dshape t) u) = ∑ i ∈ range n,
      alpha * w i / μ.J i t * nu i (norm2 (mulTV (μ.pts w dshape t i).dxt u) / μ.J i t) *
        dotv (mulTV (μ.pts w dshape t i).dxt psi) (mulTV (μ.pts w dshape t i).dxt u) := by
    intro t
    have h : elemVec alpha nu n (μ.pts w dshape t) u = fun r => ∑ i ∈ range n,
        mulV (μ.pts w dshape t i).dxt (scale (alpha * w i / μ.J i t *
          nu i (norm2 (mulTV (μ.pts w dshape t i).dxt u) / μ.J i t))
          (mulTV (μ.pts w dshape t i).dxt u)) r := by
      funext r; exact elemVec_apply alpha nu n (μ.pts w dshape t) u r
    rw [h, dotv_sum_right]
    refine sum_congr rfl fun i _ => ?_
    rw [dotv_mulV]
    have e : ∀ (c : ℝ) (a b : Vec dim), dotv a (scale c b) = c * dotv a b := by
      intro c a b; rw [← dotv_smul_right]; congr 1; funext k; simp [scale]; ring
    rw [e]
  simp only [hv]
  exact HasDerivAt.fun_sum fun i hi =>
    have hi := mem_range.1 hi
    point_hasDerivAt μ w dshape alpha (nu i) (dnu i) (hnu i hi) u psi i hi (hJ i hi) (hu i hi)

/-- The residual and its mesh sensitivity use the same quadrature rule for every space but the refined
tensor-product one. -/
theorem C122_same_rule (s : Space) (order dim : ℕ) (h : s ≠ .rQk) :
    sensRule s order dim = vecRule s order dim := by
  simp [sensRule, vecRule, h]

/-- **Violation.**  On refined tensor-product (`rQk`) elements the mesh sensitivity is assembled with a
different rule than the residual. -/
theorem C122_rule_false (order dim : ℕ) : sensRule .rQk order dim ≠ vecRule .rQk order dim := by
  simp [sensRule, vecRule]

/-- Non-vacuity of C121/C122: a quadrilateral with bilinear shape functions at a point, moved. -/
example : ∃ (μ : Motion 1 2 4) (dshape : ℕ → Mat 4 2) (u : Vec 4),
    μ.J 0 0 = 4 ∧ μ.J' 0 = 2 ∧ 1 / 10 ^ 14 < norm2 (mulTV (μ.pts (fun _ => 1) dshape 0 0).dxt u) ∧
      (∀ l, ∑ r, dshape 0 r l = 0) := by
  let dN : ℕ → ℕ → Fin 2 → ℝ := fun _ j l =>
    if l = 0 then (if j = 0 then -1/2 else if j = 1 then 1/2 else if j = 2 then 1/2 else -1/2)
    else (if j = 0 then -1/2 else if j = 1 then -1/2 else if j = 2 then 1/2 else 1/2)
  let X : ℕ → ℝ := fun q => if q = 1 ∨ q = 2 ∨ q = 6 ∨ q = 7 then 2 else 0
  let δ : ℕ → ℝ := fun q => if q = 1 ∨ q = 2 then 1 else 0
  refine ⟨isoMotion 1 4 dN X δ, fun _ r l => dN 0 r l, fun r => if r = (0 : Fin 4) then 1 else 0, ?_, ?_, ?_, ?_⟩
  · simp [isoMotion, det2, isoJac, dN, X, sum_range_succ]; norm_num
  · simp [isoMotion, isoJac, dN, X, δ, sum_range_succ]; norm_num
  · have : norm2 (mulTV ((isoMotion 1 4 dN X δ).pts (fun _ => 1) (fun _ r l => dN 0 r l) 0 0).dxt
        (fun r => if r = (0 : Fin 4) then 1 else 0)) = √2 := by
      unfold norm2
      congr 1
      simp [dotv, mulTV, Motion.pts, QPt.dxt, mulM, isoMotion, isoJac, adj2, dN, X, sum_range_succ,
        Fin.sum_univ_two]
      norm_num
    rw [this]
    have : (1 : ℝ) ≤ √2 := by rw [Real.one_le_sqrt]; norm_num
    exact lt_of_lt_of_le (by norm_num) this
  · intro l
    fin_cases l <;> simp [dN, Fin.sum_univ_four] <;> norm_num

/-! ### C123 -/

theorem energy_eq (n : ℕ) (x w : ℕ → ℝ) (nu : ℝ → ℝ) (B : ℝ) :
    energy n x w nu B = (∑ j ∈ range n, w j * (x j * B) * nu (x j * B)) * B := by
  unfold energy; rw [forN_sum, zero_add]

theorem energyDot_eq (n : ℕ) (x w : ℕ → ℝ) (nu dnu : ℝ → ℝ) (B : ℝ) :
    energyDot n x w nu dnu B =
      (∑ j ∈ range n, w j * (nu (x j * B) + x j * B * dnu (x j * B)) * x j) * B +
        ∑ j ∈ range n, w j * (x j * B) * nu (x j * B) := by
  have h : ∀ N, forN N (fun j (s : ℝ × ℝ) =>
      (s.1 + w j * (x j * B) * nu (x j * B), s.2 + w j * (nu (x j * B) + x j * B * dnu (x j * B)) * x j)) (0, 0) =
      (∑ j ∈ range N, w j * (x j * B) * nu (x j * B),
        ∑ j ∈ range N, w j * (nu (x j * B) + x j * B * dnu (x j * B)) * x j) := by
    intro N
    induction N with
    | zero => simp [forN]
    | succ N ih => rw [forN, ih, sum_range_succ, sum_range_succ]
  unfold energyDot
  simp only
  rw [h]

theorem energyDoubleDot_eq (n : ℕ) (x w : ℕ → ℝ) (nu dnu d2nu : ℝ → ℝ) (B : ℝ) :
    energyDoubleDot n x w nu dnu d2nu B = ∑ j ∈ range n, w j * (2 * ((x j * nu (x j * B)) +
      (x j * B * dnu (x j * B) * x j) + (x j * x j * dnu (x j * B) * B)) +
      x j * B * d2nu (x j * B) * x j * x j * B) := by
  unfold energyDoubleDot
  simp only
  rw [forN_sum, zero_add]

theorem comp_scale {f f' : ℝ → ℝ} (h : ∀ s, HasDerivAt f (f' s) s) (x B : ℝ) :
    HasDerivAt (fun b => f (x * b)) (f' (x * B) * x) B :=
  (HasDerivAt.comp_of_eq B (h (x * B)) (((hasDerivAt_id' B).const_mul x)) rfl).congr_deriv (by ring)

/-- **First derivative.**  `calcMagneticEnergyDot` is the derivative of `calcMagneticEnergy` in the flux
magnitude, for every segment rule and every differentiable reluctivity. -/
theorem C123_first_derivative (n : ℕ) (x w : ℕ → ℝ) (nu dnu : ℝ → ℝ) (hnu : ∀ s, HasDerivAt nu (dnu s) s)
    (B : ℝ) : HasDerivAt (energy n x w nu) (energyDot n x w nu dnu B) B := by
  rw [energyDot_eq]
  have h : HasDerivAt (fun B => ∑ j ∈ range n, w j * (x j * B) * nu (x j * B))
      (∑ j ∈ range n, w j * (nu (x j * B) + x j * B * dnu (x j * B)) * x j) B := by
    refine HasDerivAt.fun_sum fun j _ => ?_
    exact ((((hasDerivAt_id' B).const_mul (x j)).const_mul (w j)).fun_mul (comp_scale hnu (x j) B)).congr_deriv
      (by ring)
  refine ((h.fun_mul (hasDerivAt_id' B)).congr_of_eventuallyEq
    (Filter.Eventually.of_forall fun b => energy_eq n x w nu b)).congr_deriv (by ring)

/-- **Second derivative.** -/
theorem C123_second_derivative (n : ℕ) (x w : ℕ → ℝ) (nu dnu d2nu : ℝ → ℝ)
    (hnu : ∀ s, HasDerivAt nu (dnu s) s) (hdnu : ∀ s, HasDerivAt dnu (d2nu s) s) (B : ℝ) :
    HasDerivAt (energyDot n x w nu dnu) (energyDoubleDot n x w nu dnu d2nu B) B := by
  rw [energyDoubleDot_eq]
  have h1 : HasDerivAt (fun B => ∑ j ∈ range n, w j * (x j * B) * nu (x j * B))
      (∑ j ∈ range n, w j * (nu (x j * B) + x j * B * dnu (x j * B)) * x j) B := by
    refine HasDerivAt.fun_sum fun j _ => ?_
    exact ((((hasDerivAt_id' B).const_mul (x j)).const_mul (w j)).fun_mul (comp_scale hnu (x j) B)).congr_deriv
      (by ring)
  have h2 : HasDerivAt (fun B => ∑ j ∈ range n, w j * (nu (x j * B) + x j * B * dnu (x j * B)) * x j)
      (∑ j ∈ range n, w j * (2 * dnu (x j * B) * x j + x j * B * d2nu (x j * B) * x j) * x j) B := by
    refine HasDerivAt.fun_sum fun j _ => ?_
    refine ((((comp_scale hnu (x j) B).fun_add
      (((hasDerivAt_id' B).const_mul (x j)).fun_mul (comp_scale hdnu (x j) B))).const_mul (w j)).mul_const
      (x j)).congr_deriv (by ring)
  refine (((h2.fun_mul (hasDerivAt_id' B)).fun_add h1).congr_of_eventuallyEq
    (Filter.Eventually.of_forall fun b => energyDot_eq n x w nu dnu b)).congr_deriv ?_
  rw [sum_mul, mul_one, ← sum_add_distrib, ← sum_add_distrib]
  exact sum_congr rfl fun j _ => by ring

/-- A segment rule that integrates polynomials of degree at most `D` exactly. -/
def ExactTo (D n : ℕ) (x w : ℕ → ℝ) : Prop := ∀ k ≤ D, ∑ j ∈ range n, w j * x j ^ k = 1 / (k + 1)

/-- **Constitutive law.**  If the reluctivity is a polynomial of degree `d` and the rule is exact to
degree `d + 1` (the rule used is exact to degree 20) then the energy is the integral of `ν(b) b` from
`0` to `B`; its reported derivative is the field intensity `ν(B) B` - so the linear case gives
`ν B²/2`. -/
theorem C123_field_intensity (d n : ℕ) (x w : ℕ → ℝ) (hx : ExactTo (d + 1) n x w) (c : ℕ → ℝ) (B : ℝ) :
    energy n x w (fun s => ∑ k ∈ range (d + 1), c k * s ^ k) B =
        ∑ k ∈ range (d + 1), c k * B ^ (k + 2) / (k + 2) ∧
    energyDot n x w (fun s => ∑ k ∈ range (d + 1), c k * s ^ k)
        (fun s => ∑ k ∈ range (d + 1), c k * (k * s ^ (k - 1))) B =
      (∑ k ∈ range (d + 1), c k * B ^ k) * B := by
  have he : ∀ B, energy n x w (fun s => ∑ k ∈ range (d + 1), c k * s ^ k) B =
      ∑ k ∈ range (d + 1), c k * B ^ (k + 2) / (k + 2) := by
    intro B
    rw [energy_eq, sum_mul]
    have : ∀ j, w j * (x j * B) * (∑ k ∈ range (d + 1), c k * (x j * B) ^ k) * B =
        ∑ k ∈ range (d + 1), c k * B ^ (k + 2) * (w j * x j ^ (k + 1)) := by
      intro j
      rw [mul_sum, sum_mul]
      exact sum_congr rfl fun k _ => by ring
    rw [sum_congr rfl fun j _ => this j, sum_comm]
    refine sum_congr rfl fun k hk => ?_
    rw [← mul_sum, hx (k + 1) (by have := mem_range.1 hk; omega)]
    push_cast
    ring
  refine ⟨he B, ?_⟩
  have hd : ∀ s : ℝ, HasDerivAt (fun s => ∑ k ∈ range (d + 1), c k * s ^ k)
      (∑ k ∈ range (d + 1), c k * (k * s ^ (k - 1))) s := fun s =>
    HasDerivAt.fun_sum fun k _ => (hasDerivAt_pow k s).const_mul _
  have h1 := C123_first_derivative n x w _ _ hd B
  have h2 : HasDerivAt (energy n x w (fun s => ∑ k ∈ range (d + 1), c k * s ^ k))
      ((∑ k ∈ range (d + 1), c k * B ^ k) * B) B := by
    have : HasDerivAt (fun B : ℝ => ∑ k ∈ range (d + 1), c k * B ^ (k + 2) / (k + 2))
        ((∑ k ∈ range (d + 1), c k * B ^ k) * B) B := by
      rw [sum_mul]
      refine HasDerivAt.fun_sum fun k _ => ?_
      refine (((hasDerivAt_pow (k + 2) B).const_mul (c k)).div_const _).congr_deriv ?_
      push_cast
      have : (k : ℝ) + 2 ≠ 0 := by positivity
      field_simp
      ring
    exact this.congr_of_eventuallyEq (Filter.Eventually.of_forall fun b => he b)
  exact h1.unique h2

/-- Non-vacuity: the midpoint rule is exact to degree one. -/
example : ExactTo (0 + 1) 1 (fun _ => 1 / 2) (fun _ => 1) := by
  intro k hk
  interval_cases k <;> norm_num

/-- **No energy without field, and a positive energy otherwise**, for rules with positive weights and
points inside the segment. -/
theorem C123_positive (n : ℕ) (hn : 0 < n) (x w : ℕ → ℝ) (hx : ∀ j < n, 0 < x j) (hw : ∀ j < n, 0 < w j)
    (nu : ℝ → ℝ) (hnu : ∀ s, 0 ≤ s → 0 < nu s) (B : ℝ) (hB : 0 < B) :
    energy n x w nu 0 = 0 ∧ 0 < energy n x w nu B := by
  refine ⟨by rw [energy_eq, mul_zero], ?_⟩
  rw [energy_eq]
  refine mul_pos (sum_pos (fun j hj => ?_) ⟨0, mem_range.2 hn⟩) hB
  have hj := mem_range.1 hj
  have := hx j hj; have := hw j hj
  have := hnu (x j * B) (by positivity)
  positivity

end Verif.Diffusion
