import Verif.Diffusion
import Verif.DenseLemmas
import Verif.InviscidIntegLemmas

/-!
Specification of a moving mesh, shared by all mesh-sensitivity properties: the mesh nodes move along
a straight line with direction `δ`; what MFEM's `AdjugateJacobianRevDiff`/`WeightRevDiff` must return
(they are in MFEM, not in the repository) is that they are the adjoints of the derivatives of the
adjugate Jacobian and the Jacobian determinant.  `isoMotion` shows that the two-dimensional
isoparametric mapping meets this contract.
-/

namespace Verif.Diffusion
open Finset Verif.Sbp Verif.Dense Verif.Inviscid

set_option linter.unusedSectionVars false

variable {ndof dim m n k : ℕ}

/-- Frobenius product. Pairing of a bar with a direction in the mesh sensitivities, e.g. electromag_integ.cpp:10324-10557. -/
def frob (A B : Mat m n) : ℝ := ∑ i, ∑ j, A i j * B i j

/-- The effect of a motion of the mesh nodes in direction `δ` (`m` nodes, `dim` coordinates, node-major
blocks as in `mesh_coords_bar`) on the mapping at `npt` quadrature points. MFEM mesh coordinates (not in /repo) as seen by the mesh sensitivities, e.g. electromag_integ.cpp:10159-10569. -/
structure Motion (npt dim m : ℕ) where
  /-- direction of the motion of the mesh coordinates -/
  δ : ℕ → ℝ
  /-- adjugate Jacobian at point `i` after motion by `t δ` -/
  adj : ℕ → ℝ → Mat dim dim
  /-- Jacobian determinant at point `i` after motion by `t δ` -/
  J : ℕ → ℝ → ℝ
  adj' : ℕ → Mat dim dim
  J' : ℕ → ℝ
  hadj : ∀ i < npt, ∀ a b, HasDerivAt (fun t => adj i t a b) (adj' i a b) 0
  hJ : ∀ i < npt, HasDerivAt (J i) (J' i) 0
  /-- MFEM's `AdjugateJacobianRevDiff` -/
  adjRev : ℕ → Mat dim dim → ℕ → ℕ → ℝ
  /-- MFEM's `WeightRevDiff` -/
  wRev : ℕ → ℝ → ℕ → ℕ → ℝ
  hadjRev : ∀ i < npt, ∀ A : Mat dim dim,
    ∑ k ∈ range dim, ∑ j ∈ range m, adjRev i A k j * δ (k * m + j) = frob A (adj' i)
  hwRev : ∀ i < npt, ∀ x : ℝ,
    ∑ k ∈ range dim, ∑ j ∈ range m, wRev i x k j * δ (k * m + j) = x * J' i

/-- `scatter` adds the point contribution, so its product with a direction is that of the point. -/
theorem scatter_dot (m dim : ℕ) (P : ℕ → ℕ → ℝ) (bar δ : ℕ → ℝ) :
    ∑ q ∈ range (dim * m), scatter m dim P bar q * δ q =
      ∑ q ∈ range (dim * m), bar q * δ q + ∑ k ∈ range dim, ∑ j ∈ range m, P k j * δ (k * m + j) := by
  have hs : Adds (forN m (fun j => forN dim (fun k => addAt (k * m + j) (P k j))))
      (∑ j ∈ range m, ∑ k ∈ range dim, fun p => if p = k * m + j then P k j else 0) :=
    Adds.forN fun _ _ => Adds.forN fun _ _ => adds_addAt _ _
  unfold scatter
  rw [hs.apply]
  simp only [Pi.add_apply, add_mul, sum_add_distrib]
  congr 1
  simp only [Finset.sum_apply, sum_mul]
  rw [sum_comm, sum_comm (s := range dim)]
  refine sum_congr rfl fun j hj => ?_
  rw [sum_comm]
  refine sum_congr rfl fun k hk => ?_
  rw [mem_range] at hj hk
  rw [sum_eq_single (k * m + j)]
  · simp
  · intro q _ hq; rw [if_neg hq, zero_mul]
  · intro h; exact absurd (mem_range.2 (flat_lt hj hk)) h

/-- The product of the accumulated mesh sensitivity with the direction of motion. -/
theorem scatter_loop_dot (npt m dim : ℕ) (P : ℕ → ℕ → ℕ → ℝ) (δ : ℕ → ℝ) :
    ∑ q ∈ range (dim * m), forN npt (fun i bar => scatter m dim (P i) bar) (fun _ => 0) q * δ q =
      ∑ i ∈ range npt, ∑ k ∈ range dim, ∑ j ∈ range m, P i k j * δ (k * m + j) := by
  induction npt with
  | zero => simp [forN]
  | succ N ih =>
    rw [forN, scatter_dot, ih, sum_range_succ]

/-- A point contribution made of an adjugate and a weight part. -/
theorem Motion.point (μ : Motion n dim m) (i : ℕ) (hi : i < n) (A : Mat dim dim) (x : ℝ) :
    ∑ k ∈ range dim, ∑ j ∈ range m, (0 + μ.adjRev i A k j + μ.wRev i x k j) * μ.δ (k * m + j) =
      frob A (μ.adj' i) + x * μ.J' i := by
  rw [← μ.hadjRev i hi A, ← μ.hwRev i hi x, ← sum_add_distrib]
  refine sum_congr rfl fun k _ => ?_
  rw [← sum_add_distrib]
  exact sum_congr rfl fun j _ => by ring

/-- A point contribution made of a weight part only. -/
theorem Motion.pointW (μ : Motion n dim m) (i : ℕ) (hi : i < n) (x : ℝ) :
    ∑ k ∈ range dim, ∑ j ∈ range m, (0 + μ.wRev i x k j) * μ.δ (k * m + j) = x * μ.J' i := by
  rw [← μ.hwRev i hi x]
  exact sum_congr rfl fun k _ => sum_congr rfl fun j _ => by ring

theorem frob_add (A B C : Mat m n) : frob (fun i j => A i j + B i j) C = frob A C + frob B C := by
  unfold frob
  rw [← sum_add_distrib]
  refine sum_congr rfl fun i _ => ?_
  rw [← sum_add_distrib]
  exact sum_congr rfl fun j _ => by ring

/-- `⟨SᵀB, A⟩ = ⟨B, S A⟩`. -/
theorem frob_mulAtB (S : Mat k m) (B : Mat k n) (A : Mat m n) :
    frob (mulAtB S B) A = frob B (mulM S A) := by
  unfold frob mulAtB mulM
  simp only [sum_mul, mul_sum]
  calc ∑ i, ∑ j, ∑ l, S l i * B l j * A i j = ∑ i, ∑ l, ∑ j, S l i * B l j * A i j :=
        sum_congr rfl fun i _ => sum_comm
    _ = ∑ l, ∑ i, ∑ j, S l i * B l j * A i j := sum_comm
    _ = ∑ l, ∑ j, ∑ i, S l i * B l j * A i j := sum_congr rfl fun l _ => sum_comm
    _ = _ := sum_congr rfl fun l _ => sum_congr rfl fun j _ => sum_congr rfl fun i _ => by ring

/-- `⟨v wᵀ, A⟩ = w·(Aᵀ v)`. -/
theorem frob_outer (v : Vec m) (w : Vec n) (A : Mat m n) :
    frob (fun i j => v i * w j) A = dotv w (mulTV A v) := by
  unfold frob dotv mulTV
  simp only [mul_sum]
  rw [sum_comm]
  exact sum_congr rfl fun i _ => sum_congr rfl fun j _ => by ring

/-- Derivative of a reference-scaled gradient under mesh motion. -/
theorem Motion.hasDerivAt_flux (μ : Motion n dim m) (i : ℕ) (hi : i < n) (S : Mat ndof dim)
    (u : Vec ndof) (k : Fin dim) :
    HasDerivAt (fun t => mulTV (mulM S (μ.adj i t)) u k) (mulTV (mulM S (μ.adj' i)) u k) 0 := by
  unfold mulTV mulM
  refine HasDerivAt.fun_sum fun r _ => HasDerivAt.mul_const ?_ _
  exact HasDerivAt.fun_sum fun l _ => (μ.hadj i hi l k).const_mul _

/-! ### The two-dimensional isoparametric mapping meets the contract -/

/-- Jacobian matrix `∂x_a/∂ξ_b = Σ_j X_a(j) ∂N_j/∂ξ_b` of an isoparametric mapping. MFEM (not in /repo): `ElementTransformation::Jacobian`, used e.g. at electromag_integ.cpp:10263-10271. -/
def isoJac (m : ℕ) (dN : ℕ → Fin 2 → ℝ) (X : ℕ → ℝ) (a b : Fin 2) : ℝ :=
  ∑ j ∈ range m, X (a * m + j) * dN j b

/-- Adjugate of a 2x2 matrix. MFEM (not in /repo): `AdjugateJacobian`, used e.g. at electromag_integ.cpp:10263-10271. -/
def adj2 (M : Fin 2 → Fin 2 → ℝ) : Mat 2 2 := fun a b =>
  if a = b then (if a = 0 then M 1 1 else M 0 0) else -M a b

/-- Determinant of a 2x2 matrix. MFEM (not in /repo): `Weight`, used e.g. at electromag_integ.cpp:10263-10271. -/
def det2 (M : Fin 2 → Fin 2 → ℝ) : ℝ := M 0 0 * M 1 1 - M 0 1 * M 1 0

theorem isoJac_hasDerivAt (m : ℕ) (dN : ℕ → Fin 2 → ℝ) (X δ : ℕ → ℝ) (a b : Fin 2) :
    HasDerivAt (fun t => isoJac m dN (fun q => X q + t * δ q) a b) (isoJac m dN δ a b) 0 := by
  unfold isoJac
  refine HasDerivAt.fun_sum fun j _ => HasDerivAt.mul_const ?_ _
  exact (((hasDerivAt_id' (0 : ℝ)).mul_const _).const_add _).congr_deriv (by ring)

/-- A motion of the nodes of a two-dimensional isoparametric mesh element. The direction behind the mesh sensitivities, e.g. electromag_integ.cpp:10159-10569. -/
noncomputable def isoMotion (npt m : ℕ) (dN : ℕ → ℕ → Fin 2 → ℝ) (X δ : ℕ → ℝ) : Motion npt 2 m where
  δ := δ
  adj := fun i t => adj2 (isoJac m (dN i) fun q => X q + t * δ q)
  J := fun i t => det2 (isoJac m (dN i) fun q => X q + t * δ q)
  adj' := fun i => adj2 (isoJac m (dN i) δ)
  J' := fun i => isoJac m (dN i) δ 0 0 * isoJac m (dN i) X 1 1 +
    isoJac m (dN i) X 0 0 * isoJac m (dN i) δ 1 1 -
    (isoJac m (dN i) δ 0 1 * isoJac m (dN i) X 1 0 + isoJac m (dN i) X 0 1 * isoJac m (dN i) δ 1 0)
  hadj := by
    intro i _ a b
    have h := isoJac_hasDerivAt m (dN i) X δ
    unfold adj2
    split_ifs
    · exact h 1 1
    · exact h 0 0
    · exact (h a b).fun_neg
  hJ := by
    intro i _
    have h := isoJac_hasDerivAt m (dN i) X δ
    unfold det2
    exact (((h 0 0).fun_mul (h 1 1)).fun_sub ((h 0 1).fun_mul (h 1 0))).congr_deriv (by simp)
  adjRev := fun i A k j => if k = 0 then A 1 1 * dN i j 0 - A 0 1 * dN i j 1
    else A 0 0 * dN i j 1 - A 1 0 * dN i j 0
  wRev := fun i x k j => x * if k = 0 then dN i j 0 * isoJac m (dN i) X 1 1 - dN i j 1 * isoJac m (dN i) X 1 0
    else dN i j 1 * isoJac m (dN i) X 0 0 - dN i j 0 * isoJac m (dN i) X 0 1
  hadjRev := by
    intro i _ A
    simp only [sum_range_succ, range_zero, sum_empty, zero_add, if_true, if_neg one_ne_zero]
    simp only [frob, Fin.sum_univ_two, adj2, isoJac, if_true, Fin.reduceEq, if_false, zero_mul, zero_add, one_mul,
      Fin.val_zero, Fin.val_one, mul_sum, mul_neg]
    simp only [← sum_neg_distrib, ← sum_add_distrib]
    exact sum_congr rfl fun j _ => by ring
  hwRev := by
    intro i _ x
    simp only [sum_range_succ, range_zero, sum_empty, zero_add, if_true, if_neg one_ne_zero]
    set A := isoJac m (dN i) X
    simp only [isoJac, zero_mul, zero_add, one_mul, Fin.val_zero, Fin.val_one, mul_sum, sum_mul]
    simp only [← sum_add_distrib, ← sum_sub_distrib, mul_sum]
    exact sum_congr rfl fun j _ => by ring

end Verif.Diffusion
