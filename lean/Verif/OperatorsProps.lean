import Verif.Operators
import Mathlib.Analysis.Calculus.Deriv.Basic
import Mathlib.Analysis.Calculus.Deriv.Add
import Mathlib.Analysis.Calculus.Deriv.Mul
import Mathlib.Analysis.Calculus.Deriv.Pi
import Mathlib.Tactic.Ring
import Mathlib.Tactic.Linarith
import Mathlib.Tactic.Positivity
import Mathlib.Tactic.FieldSimp

/-!
# Matrix-free operators: property theorems (C30, C31, C32)
-/

namespace Verif.Operators

open Matrix

variable {n : ℕ}

/-! ### C30 -/

/-- **C30 (part)** If neither coefficient is negligible, the result is `a'·A(x) + b'·B(x)` with coefficients within `1e-16` of the given ones
(exactly the given ones unless they are within `1e-16` of 1), independent of the previous contents of the work and result vectors.  Missing: negligible
coefficients, see `C30_false_*`. -/
theorem C30_sum_partial (a b : ℝ) (A B : Vec n → Vec n) (ha : tiny < |a|) (hb : tiny < |b|) :
    ∃ a' b' : ℝ, |a' - a| ≤ tiny ∧ |b' - b| ≤ tiny ∧ (tiny < |a - 1| → a' = a) ∧ (tiny < |b - 1| → b' = b) ∧
      ∀ work x y, (sumMult a b A B work x y).2 = a' • A x + b' • B x := by
  have ht : (0 : ℝ) ≤ tiny := by unfold tiny; positivity
  refine ⟨if |a - 1| > tiny then a else 1, if |b - 1| > tiny then b else 1, ?_, ?_, ?_, ?_, ?_⟩
  · split_ifs with h
    · simpa using ht
    · rw [abs_sub_comm]; exact not_lt.mp h
  · split_ifs with h
    · simpa using ht
    · rw [abs_sub_comm]; exact not_lt.mp h
  · intro h; rw [if_pos h]
  · intro h; rw [if_pos h]
  · intro work x y
    simp only [sumMult, gt_iff_lt, ha, hb, if_true]
    split_ifs <;> simp [add_comm]

/-- **C30 (violated)** With a negligible first coefficient the result contains whatever the work vector held: a second product with `a = 0` adds the
previous call's `A(x)`. -/
theorem C30_false_stale_work (b : ℝ) (A B : Vec n → Vec n) (work x y : Vec n) :
    (sumMult 0 b A B work x y).2 = (sumMult 0 b A B 0 x y).2 + work := by
  have : ¬ (|(0 : ℝ)| > tiny) := by simp [tiny]
  simp only [sumMult, this, if_false, add_zero]

/-- **C30 (violated)** With a negligible second coefficient the result contains the previous content of the result vector. -/
theorem C30_false_stale_result (a : ℝ) (A B : Vec n → Vec n) (work x y : Vec n) :
    (sumMult a 0 A B work x y).2 = (sumMult a 0 A B work x 0).2 + y := by
  have : ¬ (|(0 : ℝ)| > tiny) := by simp [tiny]
  simp only [sumMult, this, if_false, zero_add]
  rw [add_comm]

/-- A concrete violation: `0·A + 1·B` applied to 1 after a work vector of 5 was left behind. -/
example : (sumMult (n := 1) 0 1 (fun x => x) (fun x => x) (fun _ => 5) (fun _ => 1) 0).2 = fun _ => 6 := by
  have h0 : ¬ (|(0 : ℝ)| > tiny) := by simp [tiny]
  have h1 : |(1 : ℝ)| > tiny := by norm_num [tiny]
  have h2 : ¬ (|(1 : ℝ) - 1| > tiny) := by simp [tiny]
  simp only [sumMult, h0, h1, h2, if_false, if_true]
  funext i; simp; norm_num

example : tiny < |(2 : ℝ)| ∧ tiny < |(1 : ℝ)| := by constructor <;> norm_num [tiny]

/-! ### C31 -/

private theorem stepSize_pos (x : Vec n) : 0 < stepSize x := by
  unfold stepSize
  simp only
  split_ifs with h
  · apply Real.sqrt_pos.mpr
    have : (0 : ℝ) < ∑ i, x i * x i := lt_trans (by norm_num) h
    positivity
  · norm_num

/-- **C31** The finite-difference perturbation is never zero and never large: the perturbation `eps·x` has Euclidean norm at most `1e-5` for every direction. -/
theorem C31_step_bounded (x : Vec n) :
    0 < stepSize x ∧ stepSize x ^ 2 * ∑ i, x i * x i ≤ (1 / 10 ^ 5) ^ 2 := by
  refine ⟨stepSize_pos x, ?_⟩
  unfold stepSize
  simp only
  split_ifs with h
  · have hp : (0 : ℝ) < ∑ i, x i * x i := lt_trans (by norm_num) h
    rw [Real.sq_sqrt (by positivity), div_mul_cancel₀ _ hp.ne']
    norm_num
  · push Not at h
    calc (1 / 10 ^ 7 : ℝ) ^ 2 * ∑ i, x i * x i ≤ (1 / 10 ^ 7) ^ 2 * (1 / 10 ^ 6) := by
          apply mul_le_mul_of_nonneg_left h (by positivity)
      _ ≤ (1 / 10 ^ 5) ^ 2 := by norm_num

/-- The coefficient actually applied: `scale`, or 1 if `scale` is within `1e-16` of 1. -/
noncomputable def effScale (s : ℝ) : ℝ := if |s - 1| > tiny then s else 1

theorem effScale_close (s : ℝ) : |effScale s - s| ≤ tiny := by
  have ht : (0 : ℝ) ≤ tiny := by unfold tiny; positivity
  unfold effScale
  split_ifs with h
  · simpa using ht
  · rw [abs_sub_comm]; exact not_lt.mp h

private theorem mult_eq (j : JF n) (u x y : Vec n) (hs : tiny < |j.scale|) :
    (j.setState u).mult x y = effScale j.scale • ((1 / stepSize x) • (j.res (u + stepSize x • x) - j.res u)) +
      (match j.explicit with | some E => E x | none => 0) := by
  simp only [JF.mult, JF.setState, gt_iff_lt, hs, if_true, effScale]
  cases j.explicit with
  | none => split_ifs <;> simp
  | some E => split_ifs <;> simp

/-- **C31** For an affine residual `R(u) = A u + c` the product is exact: `scale·A x` plus the explicit part, for every baseline, direction and prior content of the result
(if `scale` is not negligible). -/
theorem C31_affine_exact_partial (j : JF n) (A : Matrix (Fin n) (Fin n) ℝ) (c : Vec n)
    (hR : ∀ u, j.res u = A *ᵥ u + c) (hs : tiny < |j.scale|) (u x y : Vec n) :
    (j.setState u).mult x y = effScale j.scale • (A *ᵥ x) +
      (match j.explicit with | some E => E x | none => 0) := by
  rw [mult_eq j u x y hs]
  congr 2
  rw [hR, hR, mulVec_add, mulVec_smul]
  have : A *ᵥ u + stepSize x • A *ᵥ x + c - (A *ᵥ u + c) = stepSize x • (A *ᵥ x) := by abel
  rw [this, smul_smul, one_div, inv_mul_cancel₀ (stepSize_pos x).ne', one_smul]

/-- **C31** For a general residual with Jacobian `J` at the baseline and curvature at most `C` along the direction, the unscaled product differs from `J x` by at most
`C·eps/2` in every component. -/
theorem C31_forward_difference_partial (j : JF n) (hexp : j.explicit = none) (h1 : j.scale = 1) (u x y Jx : Vec n) (C : ℝ)
    (hT : ∀ i, |j.res (u + stepSize x • x) i - j.res u i - stepSize x * Jx i| ≤ C / 2 * stepSize x ^ 2) (i : Fin n) :
    |(j.setState u).mult x y i - Jx i| ≤ C / 2 * stepSize x := by
  have hs : tiny < |j.scale| := by rw [h1]; norm_num [tiny]
  have he : effScale j.scale = 1 := by rw [h1]; simp [effScale, tiny]
  rw [mult_eq j u x y hs, hexp, he]
  simp only [one_smul, add_zero, Pi.smul_apply, Pi.sub_apply, smul_eq_mul]
  have hp := stepSize_pos x
  have e : 1 / stepSize x * (j.res (u + stepSize x • x) i - j.res u i) - Jx i =
      (j.res (u + stepSize x • x) i - j.res u i - stepSize x * Jx i) / stepSize x := by
    field_simp
  rw [e, abs_div, abs_of_pos hp, div_le_iff₀ hp]
  have := hT i
  nlinarith

/-- **C31 (violated)** With scale 0 the product is not `0 + explicit part`: the previous content of the result vector survives. -/
theorem C31_false_zero_scale (j : JF n) (hs : j.scale = 0) (u x y : Vec n) :
    (j.setState u).mult x y = y + (match j.explicit with | some E => E x | none => 0) := by
  have h0 : ¬ (|(0 : ℝ)| > tiny) := by simp [tiny]
  simp only [JF.mult, JF.setState, hs, h0, if_false]
  cases j.explicit <;> simp

/-- An instance of the affine theorem: the residual `2u + 1`, scale 3. -/
example : ∃ j : JF 1, (∀ u, j.res u = (2 : Matrix (Fin 1) (Fin 1) ℝ) *ᵥ u + 1) ∧ tiny < |j.scale| :=
  ⟨⟨fun u => (2 : Matrix (Fin 1) (Fin 1) ℝ) *ᵥ u + 1, none, 3, 0, 0⟩, fun _ => rfl, by norm_num [tiny]⟩

/-! ### C32 -/

/-- Specification: `L` is the derivative of `F` at `k` in every direction. -/
def JacobianOf (F : Vec n → Vec n) (k : Vec n) (L : Vec n → Vec n) : Prop :=
  ∀ v, HasDerivAt (fun t : ℝ => F (k + t • v)) (L v) 0

/-- **C32** The time-dependent residual is `M k + R(u + dt k)`, also for `dt = 0`. -/
theorem C32_residual_formula (R M : Vec n → Vec n) (dt : ℝ) (u k : Vec n) :
    tdEvaluate R M dt u k = M k + R (u + dt • k) := by
  unfold tdEvaluate
  split_ifs with h
  · rw [h, zero_smul, add_zero, add_comm]
  · rw [add_comm]

private theorem mulVec_line (A : Matrix (Fin n) (Fin n) ℝ) (k v : Vec n) :
    HasDerivAt (fun t : ℝ => A *ᵥ (k + t • v)) (A *ᵥ v) 0 := by
  have : (fun t : ℝ => A *ᵥ (k + t • v)) = fun t => A *ᵥ k + t • (A *ᵥ v) := by
    funext t; rw [mulVec_add, mulVec_smul]
  rw [this]
  simpa using ((hasDerivAt_id (0 : ℝ)).smul_const (A *ᵥ v)).const_add (A *ᵥ k)

/-- Derivative of the time-dependent residual with respect to `k`. -/
private theorem td_deriv (R : Vec n → Vec n) (J : Vec n → Matrix (Fin n) (Fin n) ℝ) (M : Matrix (Fin n) (Fin n) ℝ)
    (hJ : ∀ u, JacobianOf R u (fun v => J u *ᵥ v)) (dt : ℝ) (u k : Vec n) :
    JacobianOf (fun k => tdEvaluate R (fun x => M *ᵥ x) dt u k) k
      (fun v => (M + dt • J (u + dt • k)) *ᵥ v) := by
  intro v
  have h1 := hJ (u + dt • k) (dt • v)
  have e : (fun t : ℝ => tdEvaluate R (fun x => M *ᵥ x) dt u (k + t • v))
      = fun t => M *ᵥ (k + t • v) + R (u + dt • k + t • dt • v) := by
    funext t
    rw [C32_residual_formula]
    congr 2
    rw [smul_add, smul_comm dt t v, add_assoc]
  rw [e]
  refine ((mulVec_line M k v).add h1).congr_deriv ?_
  show M *ᵥ v + J (u + dt • k) *ᵥ (dt • v) = (M + dt • J (u + dt • k)) *ᵥ v
  rw [add_mulVec, smul_mulVec, mulVec_smul]

/-- Supported combinations of mass matrix and spatial Jacobian when the Jacobian is stored. -/
def Supported (massKind spatialKind : Kind) (M : Matrix (Fin n) (Fin n) ℝ) : Prop :=
  (massKind = .hypre ∧ spatialKind = .hypre) ∨ (massKind = .identity ∧ spatialKind = .dense ∧ M = 1)

/-- **C32** With an assembled Jacobian of a supported kind, the operator returned is the exact derivative of the residual with respect to `k`, for
every `dt` (including 0), state and slope, and whatever the Jacobian storage held before. -/
theorem C32_assembled_jacobian_exact (R : Vec n → Vec n) (J : Vec n → Matrix (Fin n) (Fin n) ℝ)
    (M C : Matrix (Fin n) (Fin n) ℝ) (hJ : ∀ u, JacobianOf R u (fun v => J u *ᵥ v))
    (mk sk k' : Kind) (hk : Supported mk sk M) (dt : ℝ) (u k : Vec n) :
    ∃ D, tdJacobian J mk sk M (.mat k' C) dt u k = .mat D ∧
      JacobianOf (fun k => tdEvaluate R (fun x => M *ᵥ x) dt u k) k (fun v => D *ᵥ v) := by
  have h := td_deriv R J M hJ dt u k
  unfold tdJacobian
  by_cases h0 : dt = 0
  · refine ⟨M, by simp [h0], ?_⟩
    simpa [h0] using h
  · refine ⟨M + dt • J (u + dt • k), ?_, h⟩
    simp only [if_neg h0, addJacobians]
    rcases hk with ⟨rfl, rfl⟩ | ⟨rfl, rfl, rfl⟩ <;> simp

/-- **C32** The same for the operator as constructed, at its first use: for the supported kinds the constructor
allocates storage for which the returned operator is the exact derivative, whatever fresh memory holds. -/
theorem C32_constructed_jacobian_exact (R : Vec n → Vec n) (J : Vec n → Matrix (Fin n) (Fin n) ℝ)
    (M junk : Matrix (Fin n) (Fin n) ℝ) (hJ : ∀ u, JacobianOf R u (fun v => J u *ᵥ v))
    (mk sk : Kind) (hk : Supported mk sk M) (dt : ℝ) (u k : Vec n) :
    ∃ D, tdJacobian J mk sk M (allocJac R mk M junk) dt u k = .mat D ∧
      JacobianOf (fun k => tdEvaluate R (fun x => M *ᵥ x) dt u k) k (fun v => D *ᵥ v) := by
  have := fun k' C => C32_assembled_jacobian_exact R J M C hJ mk sk k' hk dt u k
  rcases hk with ⟨rfl, rfl⟩ | ⟨rfl, rfl, rfl⟩
  · exact this .hypre M
  · exact this .dense junk

/-- **C32** With a block mass matrix the operator returned is Jacobian-free; for an affine spatial residual (and `dt` not negligible, nor within `1e-16` of 1)
its product is the exact derivative applied to the direction. -/
theorem C32_jacobian_free_affine (A M : Matrix (Fin n) (Fin n) ℝ) (c : Vec n) (dt : ℝ) (hdt : tiny < |dt|)
    (hdt1 : tiny < |dt - 1|) (sk : Kind) (junk : Matrix (Fin n) (Fin n) ℝ) (u k x y : Vec n) :
    ∃ j, tdJacobian (fun _ => A) .block sk M (allocJac (fun u => A *ᵥ u + c) .block M junk) dt u k = .free j ∧
      j.mult x y = (M + dt • A) *ᵥ x := by
  have h0 : dt ≠ 0 := by
    rintro rfl
    have : (0 : ℝ) ≤ tiny := by unfold tiny; positivity
    simp at hdt; linarith
  refine ⟨_, by simp only [tdJacobian, if_neg h0, allocJac]; rfl, ?_⟩
  have := C31_affine_exact_partial
    ((⟨fun u => A *ᵥ u + c, some (fun x => M *ᵥ x), 1, 0, 0⟩ : JF n).setScaling dt) A c
    (fun _ => rfl) hdt (u + dt • k) x y
  rw [this]
  have he : effScale dt = dt := if_pos hdt1
  show effScale dt • (A *ᵥ x) + M *ᵥ x = (M + dt • A) *ᵥ x
  rw [he, add_mulVec, smul_mulVec, add_comm]

/-- **C32 (violated for other combinations)** If mass matrix and spatial Jacobian are of any other combination of kinds the returned matrix is whatever the storage held
before — in particular, right after construction with a hypre mass matrix and a spatial Jacobian of another kind, the mass matrix alone. -/
theorem C32_false_unsupported_kinds (J : Vec n → Matrix (Fin n) (Fin n) ℝ) (M C : Matrix (Fin n) (Fin n) ℝ)
    (mk sk k' : Kind) (h1 : ¬ (mk = .hypre ∧ sk = .hypre)) (h2 : ¬ (mk = .identity ∧ sk = .dense)) (dt : ℝ)
    (h0 : dt ≠ 0) (u k : Vec n) :
    tdJacobian J mk sk M (.mat k' C) dt u k = .mat C := by
  simp [tdJacobian, h0, addJacobians, h1, h2]

/-- **C32 (hazard)** A mass matrix that is neither hypre, identity nor block leaves the Jacobian unallocated: an implicit step dereferences a null pointer. -/
theorem C32_false_dense_mass_is_ub (R : Vec n → Vec n) (J : Vec n → Matrix (Fin n) (Fin n) ℝ) (M junk : Matrix (Fin n) (Fin n) ℝ)
    (sk : Kind) (dt : ℝ) (h0 : dt ≠ 0) (u k : Vec n) :
    tdJacobian J .dense sk M (allocJac R .dense M junk) dt u k = .ub := by
  simp [tdJacobian, h0, allocJac]

/-- The differentiability hypothesis is met, e.g., by affine residuals. -/
example (A : Matrix (Fin n) (Fin n) ℝ) (c : Vec n) (u : Vec n) :
    JacobianOf (fun u => A *ᵥ u + c) u (fun v => A *ᵥ v) := by
  intro v
  simpa using (mulVec_line A u v).add_const c

end Verif.Operators
