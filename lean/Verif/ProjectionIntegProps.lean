import Verif.ProjectionInteg
import Verif.ThermalFaceProps
import Mathlib.Analysis.Calculus.LocalExtr.Basic

/-!
Property C226: the L2 projection residual, its Jacobian and its mesh sensitivity; the test boundary term.
-/

namespace Verif.ProjectionInteg
open Finset Verif.Sbp Verif.Dense Verif.Diffusion Verif.DGDiffusion Verif.Losses Verif.ThermalFaces

set_option linter.unusedSectionVars false

variable {nd dim mf : ℕ}

/-! ### Specification -/

/-- The quadrature of the squared distance of the field with coefficients `v` from the desired values. -/
def dist (r : BRule nd) (g : ℕ → ℝ) (v : Vec nd) : ℝ :=
  ∑ i ∈ range r.n, (r.pt i).w * (r.pt i).J * (field (r.pt i).shape v - g i) ^ 2

/-- The desired value while the mesh moves along the direction of `W`, and the contract of the coefficient's `EvalRevDiff`. -/
structure GMotion (W : WMotion dim mf) where
  g : ℕ → ℕ → ℝ → ℝ
  g' : ℕ → ℕ → ℝ
  hg : ∀ o i, HasDerivAt (g o i) (g' o i) 0
  rev : ℕ → ℕ → ℝ → ℕ → ℕ → ℝ
  hrev : ∀ o i x, ∑ k ∈ range dim, ∑ j ∈ range mf, rev o i x k j * W.δ (k * mf + j) = x * g' o i

/-! ### Lemmas -/

theorem l2Vec_apply (alpha : ℝ) (R : ℕ → BRule nd) (g : ℕ → ℕ → ℝ) (p ow : ℕ) (u : Vec nd) (r : Fin nd) :
    l2Vec alpha R g p ow u r = ∑ i ∈ range (R (2 * p + ow)).n,
      alpha * ((R (2 * p + ow)).pt i).w * ((R (2 * p + ow)).pt i).J *
        (field ((R (2 * p + ow)).pt i).shape u - g (2 * p + ow) i) * ((R (2 * p + ow)).pt i).shape r := by
  refine (forN_vec _ _ (fun i r => alpha * ((R (2 * p + ow)).pt i).w * ((R (2 * p + ow)).pt i).J *
        (field ((R (2 * p + ow)).pt i).shape u - g (2 * p + ow) i) * ((R (2 * p + ow)).pt i).shape r)
        (fun i v r => ?_) zeroV r).trans ?_
  · simp only [axpy, dot_field, l2Order]
  · simp [zeroV, l2Order]

theorem testVec_apply (R : ℕ → BRule nd) (p ow : ℕ) (u : Vec nd) (r : Fin nd) :
    testVec R p ow u r = ∑ i ∈ range (R (2 * p + ow)).n,
      field ((R (2 * p + ow)).pt i).shape u * (((R (2 * p + ow)).pt i).w * ((R (2 * p + ow)).pt i).J) *
        ((R (2 * p + ow)).pt i).shape r := by
  have ho : bcOrder p ow = 2 * p + ow := by unfold bcOrder; ring
  unfold testVec
  rw [ho]
  refine (forN_vec _ _ (fun i r => field ((R (2 * p + ow)).pt i).shape u * (((R (2 * p + ow)).pt i).w * ((R (2 * p + ow)).pt i).J) *
        ((R (2 * p + ow)).pt i).shape r) (fun i v r => ?_) zeroV r).trans ?_
  · simp only [axpy, dot_field]
  · simp [zeroV]

theorem field_sub (s u v : Vec nd) : field s (fun r => u r - v r) = field s u - field s v := by
  unfold field; rw [← sum_sub_distrib]; exact sum_congr rfl fun r _ => by ring

/-! ### C226 -/

/-- **C226** Tested with `ψ` the residual is `α ∫ (u - g) ψ`; the boundary term is `∫ u ψ`. -/
theorem C226_weak_form (alpha : ℝ) (R : ℕ → BRule nd) (g : ℕ → ℕ → ℝ) (p ow : ℕ) (u psi : Vec nd) :
    dotv psi (l2Vec alpha R g p ow u) = alpha * ∑ i ∈ range (R (2 * p + ow)).n,
      ((R (2 * p + ow)).pt i).w * ((R (2 * p + ow)).pt i).J *
        ((field ((R (2 * p + ow)).pt i).shape u - g (2 * p + ow) i) * field ((R (2 * p + ow)).pt i).shape psi) ∧
    dotv psi (testVec R p ow u) = (R (2 * p + ow)).integral fun q => field q.shape u * field q.shape psi := by
  constructor
  · rw [sum_field _ _ _ psi _ (l2Vec_apply alpha R g p ow u), mul_sum]
    exact sum_congr rfl fun i _ => by ring
  · rw [sum_field _ _ _ psi _ (testVec_apply R p ow u)]
    exact sum_congr rfl fun i _ => by ring

/-- **C226** The residual is the gradient of `α/2 ∫ (u - g)²`: its product with any direction is the derivative along it. -/
theorem C226_gradient (alpha : ℝ) (R : ℕ → BRule nd) (g : ℕ → ℕ → ℝ) (p ow : ℕ) (u x : Vec nd) :
    HasDerivAt (fun t => alpha / 2 * dist (R (2 * p + ow)) (g (2 * p + ow)) (fun r => u r + t * x r))
      (dotv x (l2Vec alpha R g p ow u)) 0 := by
  rw [(C226_weak_form alpha R g p ow u x).1]
  simp only [dist, field_lin]
  have h : ∀ i ∈ range (R (2 * p + ow)).n, HasDerivAt (fun t => ((R (2 * p + ow)).pt i).w * ((R (2 * p + ow)).pt i).J *
      (field ((R (2 * p + ow)).pt i).shape u + t * field ((R (2 * p + ow)).pt i).shape x - g (2 * p + ow) i) ^ 2)
      (((R (2 * p + ow)).pt i).w * ((R (2 * p + ow)).pt i).J *
        (2 * (field ((R (2 * p + ow)).pt i).shape u - g (2 * p + ow) i) * field ((R (2 * p + ow)).pt i).shape x)) 0 := by
    intro i _
    refine HasDerivAt.const_mul _ ?_
    have h1 : HasDerivAt (fun t : ℝ => field ((R (2 * p + ow)).pt i).shape u + t * field ((R (2 * p + ow)).pt i).shape x - g (2 * p + ow) i)
        (field ((R (2 * p + ow)).pt i).shape x) 0 :=
      (((hasDerivAt_id (0 : ℝ)).mul_const _).const_add _ |>.sub_const _).congr_deriv (by simp)
    refine (h1.fun_pow 2).congr_deriv ?_
    simp
  refine ((HasDerivAt.fun_sum h).const_mul (alpha / 2)).congr_deriv ?_
  rw [mul_sum, mul_sum]
  exact sum_congr rfl fun i _ => by ring

/-- **C226** With positive weights and `α ≠ 0`, a state annuls the residual exactly if no other is closer to the desired values. -/
theorem C226_best (alpha : ℝ) (ha : alpha ≠ 0) (R : ℕ → BRule nd) (g : ℕ → ℕ → ℝ) (p ow : ℕ) (hR : (R (2 * p + ow)).Pos) (u : Vec nd) :
    (∀ r, l2Vec alpha R g p ow u r = 0) ↔ ∀ v, dist (R (2 * p + ow)) (g (2 * p + ow)) u ≤ dist (R (2 * p + ow)) (g (2 * p + ow)) v := by
  constructor
  · intro h v
    have h0 := (C226_weak_form alpha R g p ow u (fun r => v r - u r)).1
    have hz : dotv (fun r => v r - u r) (l2Vec alpha R g p ow u) = 0 := by
      rw [show l2Vec alpha R g p ow u = fun _ => 0 from funext h]; simp [dotv]
    rw [hz] at h0
    have h1 := (mul_eq_zero.1 h0.symm).resolve_left ha
    have e : dist (R (2 * p + ow)) (g (2 * p + ow)) v = dist (R (2 * p + ow)) (g (2 * p + ow)) u +
        (2 * ∑ i ∈ range (R (2 * p + ow)).n, ((R (2 * p + ow)).pt i).w * ((R (2 * p + ow)).pt i).J *
        ((field ((R (2 * p + ow)).pt i).shape u - g (2 * p + ow) i) * field ((R (2 * p + ow)).pt i).shape fun r => v r - u r)) +
        ∑ i ∈ range (R (2 * p + ow)).n, ((R (2 * p + ow)).pt i).w * ((R (2 * p + ow)).pt i).J *
          (field ((R (2 * p + ow)).pt i).shape v - field ((R (2 * p + ow)).pt i).shape u) ^ 2 := by
      unfold dist
      rw [mul_sum, ← sum_add_distrib, ← sum_add_distrib]
      exact sum_congr rfl fun i _ => by rw [field_sub]; ring
    rw [e, h1]
    have : 0 ≤ ∑ i ∈ range (R (2 * p + ow)).n, ((R (2 * p + ow)).pt i).w * ((R (2 * p + ow)).pt i).J *
          (field ((R (2 * p + ow)).pt i).shape v - field ((R (2 * p + ow)).pt i).shape u) ^ 2 :=
      sum_nonneg fun i hi => mul_nonneg (hR i (mem_range.1 hi)).le (sq_nonneg _)
    linarith
  · intro h r
    have hd := C226_gradient alpha R g p ow u (fun s => if s = r then 1 else 0)
    have hmin : IsLocalMin (fun t => dist (R (2 * p + ow)) (g (2 * p + ow)) (fun s => u s + t * (if s = r then 1 else 0))) 0 := by
      refine Filter.Eventually.of_forall fun t => ?_
      simpa using h _
    have hd2 : HasDerivAt (fun t => dist (R (2 * p + ow)) (g (2 * p + ow)) (fun s => u s + t * (if s = r then 1 else 0)))
        ((alpha / 2)⁻¹ * dotv (fun s => if s = r then 1 else 0) (l2Vec alpha R g p ow u)) 0 := by
      refine (hd.const_mul (alpha / 2)⁻¹).congr_of_eventuallyEq (Filter.Eventually.of_forall fun t => ?_)
      simp only
      rw [inv_mul_cancel_left₀ (by simpa using ha)]
    have h0 := hmin.hasDerivAt_eq_zero hd2
    have := (mul_eq_zero.1 h0).resolve_left (by simpa using ha)
    simpa [dotv] using this

/-- **C226** The Jacobian is the derivative of the residual, symmetric, and positive semidefinite for `α ≥ 0`. -/
theorem C226_jacobian (alpha : ℝ) (R : ℕ → BRule nd) (g : ℕ → ℕ → ℝ) (p ow : ℕ) (u x : Vec nd) :
    (∀ j, HasDerivAt (fun t => l2Vec alpha R g p ow (fun r => u r + t * x r) j) (∑ k, l2Grad alpha R p ow j k * x k) 0) ∧
    (∀ j k, l2Grad alpha R p ow j k = l2Grad alpha R p ow k j) ∧
    (0 ≤ alpha → (R (2 * p + ow)).Pos → 0 ≤ ∑ j, x j * ∑ k, l2Grad alpha R p ow j k * x k) := by
  have hg : ∀ j k, l2Grad alpha R p ow j k = ∑ i ∈ range (R (2 * p + ow)).n,
      alpha * ((R (2 * p + ow)).pt i).w * ((R (2 * p + ow)).pt i).J *
        (((R (2 * p + ow)).pt i).shape j * ((R (2 * p + ow)).pt i).shape k) := by
    intro j k
    refine (forN_mat _ _ (fun i j k => alpha * ((R (2 * p + ow)).pt i).w * ((R (2 * p + ow)).pt i).J *
        (((R (2 * p + ow)).pt i).shape j * ((R (2 * p + ow)).pt i).shape k)) (fun i v j k => ?_) zeroM j k).trans ?_
    · simp only [addVWt, l2Order]
    · simp [zeroM, l2Order]
  have hx : ∀ j, ∑ k, l2Grad alpha R p ow j k * x k = l2Vec alpha R (fun _ _ => 0) p ow x j := by
    intro j
    rw [l2Vec_apply]
    simp only [hg, sum_mul]
    rw [sum_comm]
    refine sum_congr rfl fun i _ => ?_
    unfold field
    rw [sub_zero, mul_sum, sum_mul]
    exact sum_congr rfl fun k _ => by ring
  refine ⟨fun j => ?_, fun j k => ?_, fun hah hR => ?_⟩
  · rw [hx]
    refine lin_hasDerivAt (a := l2Vec alpha R g p ow u j) fun t => ?_
    simp only [l2Vec_apply]
    rw [mul_sum, ← sum_add_distrib]
    exact sum_congr rfl fun i _ => by rw [field_lin]; ring
  · rw [hg, hg]; exact sum_congr rfl fun i _ => by ring
  · simp only [hx]
    refine le_of_le_of_eq ?_ (C226_weak_form alpha R (fun _ _ => 0) p ow x x).1.symm
    refine mul_nonneg hah (sum_nonneg fun i hi => mul_nonneg (hR i (mem_range.1 hi)).le ?_)
    rw [sub_zero]; exact mul_self_nonneg _

/-- **C226** The mesh sensitivities are exact for every motion of the mesh nodes, including the motion of the desired values. -/
theorem C226_mesh (alpha : ℝ) (R : ℕ → BRule nd) (p ow : ℕ) (W : WMotion dim mf) (G : GMotion W) (u psi : Vec nd) :
    HasDerivAt (fun t => dotv psi (l2Vec alpha (W.brules R t) (fun o i => G.g o i t) p ow u))
      (∑ q ∈ range (dim * mf), l2Mesh alpha (W.brules R 0) (fun o i => G.g o i 0) p ow dim mf W.rev G.rev u psi q * W.δ q) 0 ∧
    HasDerivAt (fun t => dotv psi (testVec (W.brules R t) p ow u))
      (∑ q ∈ range (dim * mf), testMesh (W.brules R 0) p ow dim mf W.rev u psi q * W.δ q) 0 := by
  simp only [fun t => (C226_weak_form alpha (W.brules R t) (fun o i => G.g o i t) p ow u psi).1,
    fun t => (C226_weak_form alpha (W.brules R t) (fun o i => G.g o i t) p ow u psi).2, BRule.integral]
  constructor
  · have e : ∑ q ∈ range (dim * mf), l2Mesh alpha (W.brules R 0) (fun o i => G.g o i 0) p ow dim mf W.rev G.rev u psi q * W.δ q =
        ∑ i ∈ range (R (2 * p + ow)).n, (alpha * ((R (2 * p + ow)).pt i).w *
          ((field ((R (2 * p + ow)).pt i).shape u - G.g (2 * p + ow) i 0) * field ((R (2 * p + ow)).pt i).shape psi) *
          W.J' (2 * p + ow) i - alpha * ((R (2 * p + ow)).pt i).w * W.J (2 * p + ow) i 0 *
          field ((R (2 * p + ow)).pt i).shape psi * G.g' (2 * p + ow) i) := by
      unfold l2Mesh
      simp only
      rw [scatter_loop_dot]
      refine sum_congr rfl fun i _ => ?_
      simp only [zero_add, add_mul, sum_add_distrib, W.hrev, G.hrev, dot_field, l2Order, WMotion.brules]
      ring
    rw [e]
    simp only [WMotion.brules]
    refine ((HasDerivAt.fun_sum fun i _ => ((W.hJ (2 * p + ow) i).const_mul (((R (2 * p + ow)).pt i).w)).fun_mul
      (((G.hg (2 * p + ow) i).const_sub (field ((R (2 * p + ow)).pt i).shape u)).mul_const
        (field ((R (2 * p + ow)).pt i).shape psi))).const_mul alpha).congr_deriv ?_
    rw [mul_sum]
    exact sum_congr rfl fun i _ => by ring
  · have e : ∑ q ∈ range (dim * mf), testMesh (W.brules R 0) p ow dim mf W.rev u psi q * W.δ q =
        ∑ i ∈ range (R (2 * p + ow)).n, ((R (2 * p + ow)).pt i).w *
          (field ((R (2 * p + ow)).pt i).shape u * field ((R (2 * p + ow)).pt i).shape psi) * W.J' (2 * p + ow) i := by
      unfold testMesh
      simp only
      rw [scatter_loop_dot]
      refine sum_congr rfl fun i _ => ?_
      rw [W.point]
      simp only [dot_field, bcSensOrder, WMotion.brules]
      ring
    rw [e]
    simp only [WMotion.brules]
    refine (HasDerivAt.fun_sum fun i _ => ((W.hJ (2 * p + ow) i).const_mul _).mul_const _).congr_deriv ?_
    exact sum_congr rfl fun i _ => by ring

/-! ### Non-vacuity -/

/-- Midpoint rule on an element with one constant and one linear function. -/
noncomputable def sampleRule : ℕ → BRule 2 := fun _ => ⟨1, fun _ => ⟨1, 2, ![1, 1 / 2]⟩⟩

example : (sampleRule 2).Pos := by intro i _; norm_num [sampleRule]

/-- The projection of the value 3. -/
example : ∀ r, l2Vec 1 sampleRule (fun _ _ => 3) 1 0 ![3, 0] r = 0 := by
  intro r
  rw [l2Vec_apply]
  simp [sampleRule, field]

end Verif.ProjectionInteg
