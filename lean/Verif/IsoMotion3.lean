import Verif.ForceMeshProps

/-!
The three-dimensional isoparametric mapping meets the contract `FMotion` of the mesh-sensitivity
properties (as `isoFMotion` shows for two dimensions).
-/

namespace Verif.Force
open Finset Verif.Sbp Verif.Dense Verif.Diffusion Verif.Losses

set_option linter.unusedSimpArgs false
set_option linter.unusedSectionVars false

/-- Jacobian matrix `∂x_a/∂ξ_b = Σ_j X_a(j) ∂N_j/∂ξ_b` of a three-dimensional isoparametric mapping. MFEM (not in /repo): `ElementTransformation::Jacobian`, used by every integrator, e.g. electromag_integ.cpp:10263-10271. -/
def isoJac3 (m : ℕ) (dN : ℕ → Fin 3 → ℝ) (X : ℕ → ℝ) : Mat 3 3 := fun a b =>
  ∑ j ∈ range m, X (a * m + j) * dN j b

theorem isoJac3_line (m : ℕ) (dN : ℕ → Fin 3 → ℝ) (X δ : ℕ → ℝ) (t : ℝ) :
    isoJac3 m dN (fun q => X q + t * δ q) = fun a b => isoJac3 m dN X a b + t * isoJac3 m dN δ a b := by
  funext a b
  unfold isoJac3
  rw [mul_sum, ← sum_add_distrib]
  exact sum_congr rfl fun j _ => by ring

/-- Derivative of the 3x3 adjugate at `M` in direction `Y`. MFEM (not in /repo): `AdjugateJacobianRevDiff`, called at electromag_integ.cpp:10553. -/
def adj3D (M Y : Mat 3 3) : Mat 3 3 := fun i j =>
  Y (j + 1) (i + 1) * M (j + 2) (i + 2) + M (j + 1) (i + 1) * Y (j + 2) (i + 2) -
    (Y (j + 1) (i + 2) * M (j + 2) (i + 1) + M (j + 1) (i + 2) * Y (j + 2) (i + 1))

theorem adj3_line (M Y : Mat 3 3) (i j : Fin 3) :
    HasDerivAt (fun s => adj3 (fun a b => M a b + s * Y a b) i j) (adj3D M Y i j) 0 := by
  have h := fun a b => hasDerivAt_line (M a b) (Y a b)
  unfold adj3
  refine (((h _ _).fun_mul (h _ _)).fun_sub ((h _ _).fun_mul (h _ _))).congr_deriv ?_
  unfold adj3D
  ring

/-- `adj3D` is linear in the direction: it is determined by the elementary directions. -/
theorem adj3D_sum (M A : Mat 3 3) (m : ℕ) (dN : ℕ → Fin 3 → ℝ) (δ : ℕ → ℝ) :
    ∑ k ∈ range 3, ∑ j ∈ range m, frob A (adj3D M fun a b => if (a : ℕ) = k then dN j b else 0) * δ (k * m + j) =
      frob A (adj3D M (isoJac3 m dN δ)) := by
  simp only [sum_range_succ, range_zero, sum_empty, zero_add]
  simp only [isoJac3, frob, adj3D, Fin.sum_univ_three, Fin.isValue, Fin.reduceAdd, zero_add, Fin.val_zero, Fin.val_one,
    Fin.val_two, if_true, OfNat.ofNat_ne_zero, OfNat.zero_ne_ofNat, one_ne_zero, zero_ne_one, OfNat.one_ne_ofNat,
    OfNat.ofNat_ne_one, if_false, zero_mul, mul_zero, add_zero, one_mul, sub_zero, zero_sub]
  simp only [mul_sum, sum_mul, ← sum_add_distrib, ← sum_sub_distrib, mul_add, mul_sub]
  refine sum_congr rfl fun j _ => ?_
  ring

theorem inv3_identity (M Y : Mat 3 3) (a b : Fin 3) :
    adj3D M Y a b * det3 M - adj3 M a b * frob (transpose (adj3 M)) Y =
      -mulM (mulM (adj3 M) Y) (adj3 M) a b := by
  fin_cases a <;> fin_cases b <;>
  · simp [mulM, adj3, adj3D, det3, frob, transpose, Fin.sum_univ_three]
    ring

/-- A motion of the nodes of a three-dimensional isoparametric mesh element. The direction behind the mesh sensitivities, e.g. electromag_integ.cpp:10159-10569. -/
noncomputable def isoFMotion3 (npt m : ℕ) (dN : ℕ → ℕ → Fin 3 → ℝ) (X δ : ℕ → ℝ)
    (hdet : ∀ i < npt, det3 (isoJac3 m (dN i) X) ≠ 0) : FMotion npt 3 m where
  δ := δ
  adj := fun i t => adj3 (isoJac3 m (dN i) fun q => X q + t * δ q)
  J := fun i t => det3 (isoJac3 m (dN i) fun q => X q + t * δ q)
  adj' := fun i => adj3D (isoJac3 m (dN i) X) (isoJac3 m (dN i) δ)
  J' := fun i => frob (transpose (adj3 (isoJac3 m (dN i) X))) (isoJac3 m (dN i) δ)
  hadj := by
    intro i _ a b
    simp only [isoJac3_line]
    exact adj3_line _ _ a b
  hJ := by
    intro i _
    simp only [isoJac3_line]
    exact det3_line _ _
  adjRev := fun i A k j => frob A (adj3D (isoJac3 m (dN i) X) fun a b => if (a : ℕ) = k then dN i j b else 0)
  wRev := fun i x k j => x * frob (transpose (adj3 (isoJac3 m (dN i) X)))
    (fun a b => if (a : ℕ) = k then dN i j b else 0)
  hadjRev := fun i _ A => adj3D_sum _ A m (dN i) δ
  hwRev := by
    intro i _ x
    generalize transpose (adj3 (isoJac3 m (dN i) X)) = B
    simp only [sum_range_succ, range_zero, sum_empty, zero_add]
    simp only [isoJac3, frob, Fin.sum_univ_three, Fin.isValue, Fin.val_zero, Fin.val_one,
      Fin.val_two, if_true, OfNat.ofNat_ne_zero, OfNat.zero_ne_ofNat, one_ne_zero, zero_ne_one, OfNat.one_ne_ofNat,
      OfNat.ofNat_ne_one, if_false, zero_mul, mul_zero, add_zero, one_mul, zero_add]
    simp only [mul_sum, sum_mul, ← sum_add_distrib, mul_add]
    exact sum_congr rfl fun j _ => by ring
  jac := fun i t => isoJac3 m (dN i) fun q => X q + t * δ q
  jac' := fun i => isoJac3 m (dN i) δ
  inv := fun i t a b => adj3 (isoJac3 m (dN i) fun q => X q + t * δ q) a b /
    det3 (isoJac3 m (dN i) fun q => X q + t * δ q)
  hjac := by
    intro i _ a b
    simp only [isoJac3_line]
    exact hasDerivAt_line _ _
  hinv := by
    intro i hi a b
    have hd := hdet i hi
    simp only [isoJac3_line, zero_mul, add_zero]
    refine ((adj3_line (isoJac3 m (dN i) X) (isoJac3 m (dN i) δ) a b).fun_div (det3_line _ _) (by simpa using hd)).congr_deriv ?_
    simp only [zero_mul, add_zero]
    rw [inv3_identity]
    unfold mulM
    simp only [sum_mul, ← sum_neg_distrib, sum_div]
    exact sum_congr rfl fun _ _ => sum_congr rfl fun _ _ => by field_simp
  jacRev := fun i A k j => frob A (fun a b => if (a : ℕ) = k then dN i j b else 0)
  hjacRev := by
    intro i _ A
    simp only [sum_range_succ, range_zero, sum_empty, zero_add]
    simp only [isoJac3, frob, Fin.sum_univ_three, Fin.isValue, Fin.val_zero, Fin.val_one,
      Fin.val_two, if_true, OfNat.ofNat_ne_zero, OfNat.zero_ne_ofNat, one_ne_zero, zero_ne_one, OfNat.one_ne_ofNat,
      OfNat.ofNat_ne_one, if_false, zero_mul, mul_zero, add_zero, one_mul, zero_add]
    simp only [mul_sum, sum_mul, ← sum_add_distrib, mul_add]
    exact sum_congr rfl fun j _ => by ring

end Verif.Force
