import Verif.ForceProps

/-!
Properties C134 (mesh sensitivity of the force) and C135 (rigid motion, linearity, torque field).
-/

namespace Verif.Force
open Finset Verif.Sbp Verif.Dense Verif.Diffusion Verif.Losses

set_option linter.unusedSimpArgs false
set_option linter.unusedSectionVars false

variable {ndof dim m n : ℕ}

/-! ### C134 -/

/-- Specification: a motion of the mesh nodes together with the Jacobian matrix and its inverse, and what
MFEM's `JacobianRevDiff` must return. -/
structure FMotion (npt dim m : ℕ) extends Motion npt dim m where
  jac : ℕ → ℝ → Mat dim dim
  jac' : ℕ → Mat dim dim
  inv : ℕ → ℝ → Mat dim dim
  hjac : ∀ i < npt, ∀ a b, HasDerivAt (fun t => jac i t a b) (jac' i a b) 0
  /-- derivative of the inverse of a matrix -/
  hinv : ∀ i < npt, ∀ a b, HasDerivAt (fun t => inv i t a b)
    (-mulM (mulM (inv i 0) (jac' i)) (inv i 0) a b) 0
  /-- MFEM's `JacobianRevDiff` -/
  jacRev : ℕ → Mat dim dim → ℕ → ℕ → ℝ
  hjacRev : ∀ i < npt, ∀ A : Mat dim dim,
    ∑ k ∈ range dim, ∑ j ∈ range m, jacRev i A k j * δ (k * m + j) = frob A (jac' i)

/-- Specification: the quadrature points after a motion by `t`. -/
noncomputable def FMotion.pts (μ : FMotion n dim m) (w : ℕ → ℝ) (cs : ℕ → Mat ndof dim) (dshape : ℕ → Mat m dim)
    (t : ℝ) (i : ℕ) : FPt ndof dim m :=
  ⟨w i, cs i, μ.jac i t, μ.adj i t, μ.inv i t, μ.J i t, dshape i⟩

theorem trace_diag (c : ℝ) (A Y C : Mat dim dim) :
    frob (fun i j => zeroM i j + (-1) * mulABt (mulAtB A (mulABt (fun i j => if i = j then c else 0) Y)) A i j) C =
      c * trace (mulM (fun a b => -mulM (mulM A C) A a b) Y) := by
  have e1 : mulABt (fun i j : Fin dim => if i = j then c else 0) Y = fun i j => c * Y j i := by
    funext i j
    unfold mulABt
    simp
  rw [e1]
  unfold frob mulABt mulAtB trace mulM zeroM
  simp only [zero_add, mul_sum, sum_mul, neg_mul, ← sum_neg_distrib, mul_neg, one_mul]
  calc ∑ i, ∑ j, ∑ l, ∑ q, -(A q i * (c * Y l q) * A j l * C i j)
      = ∑ i, ∑ j, ∑ q, ∑ l, -(A q i * (c * Y l q) * A j l * C i j) :=
        sum_congr rfl fun _ _ => sum_congr rfl fun _ _ => sum_comm
    _ = ∑ i, ∑ q, ∑ j, ∑ l, -(A q i * (c * Y l q) * A j l * C i j) := sum_congr rfl fun _ _ => sum_comm
    _ = ∑ q, ∑ i, ∑ j, ∑ l, -(A q i * (c * Y l q) * A j l * C i j) := sum_comm
    _ = ∑ q, ∑ i, ∑ l, ∑ j, -(A q i * (c * Y l q) * A j l * C i j) :=
        sum_congr rfl fun _ _ => sum_congr rfl fun _ _ => sum_comm
    _ = ∑ q, ∑ l, ∑ i, ∑ j, -(A q i * (c * Y l q) * A j l * C i j) := sum_congr rfl fun _ _ => sum_comm
    _ = ∑ q, ∑ l, ∑ j, ∑ i, -(A q i * (c * Y l q) * A j l * C i j) :=
        sum_congr rfl fun _ _ => sum_congr rfl fun _ _ => sum_comm
    _ = _ := sum_congr rfl fun _ _ => sum_congr rfl fun _ _ => sum_congr rfl fun _ _ => sum_congr rfl fun _ _ => by
        ring

theorem mulM_vwt {a b k : ℕ} (x : Vec a) (u : Vec b) (S : Mat b k) : mulM (vwt x u) S = vwt x (mulTV S u) := by
  funext i j
  unfold mulM vwt mulTV
  rw [mul_sum]
  exact sum_congr rfl fun _ _ => by ring

/-- Product of the point's reverse pass with the derivatives of the mapping. -/
noncomputable def meshDot (E : En) (X : Mat m dim) (p : FPt ndof dim m) (u : Vec ndof) (A' K' : Mat dim dim)
    (J' : ℝ) : ℝ :=
  frob (meshPoint E X p u).adj A' + (meshPoint E X p u).J * J' + frob (meshPoint E X p u).jac K'

theorem meshDot_three (hd : dim = 3) (E : En) (X : Mat m dim) (p : FPt ndof dim m) (u : Vec ndof)
    (A' K' : Mat dim dim) (J' : ℝ) :
    meshDot E X p u A' K' J' =
      -(p.w * p.J) * E.e (p.bmag u) * trace (mulM (fun a b => -mulM (mulM p.inv K') p.inv a b) (p.dJds X)) +
      (-(p.w * p.J * E.e1 (p.bmag u)) * bil (p.dJds X) (mulV K' (mulTV p.cs u)) (mulTV p.cs u) /
          (norm2 (p.bvec u) * p.J) +
        (-(-(p.w * p.J * E.e1 (p.bmag u)) * bil (p.dJds X) (p.bvec u) (mulTV p.cs u) /
          (norm2 (p.bvec u) ^ 2 * p.J)) -
        -(p.w * p.J * E.e1 (p.bmag u)) * frob (transpose p.adj) (p.dJds X) / p.J ^ 2 +
        bmagBar E p u X / p.J) / norm2 (p.bvec u) * dotv (p.bvec u) (mulV K' (mulTV p.cs u))) +
      -norm2 (p.bvec u) / p.J ^ 2 * -(p.w * p.J * E.e1 (p.bmag u)) * frob (transpose A') (p.dJds X) +
      (-(-(p.w * p.J * E.e1 (p.bmag u)) * bil (p.dJds X) (p.bvec u) (mulTV p.cs u) /
          (norm2 (p.bvec u) * p.J ^ 2)) +
        2 * -(p.w * p.J * E.e1 (p.bmag u)) * norm2 (p.bvec u) * frob (transpose p.adj) (p.dJds X) / p.J ^ 3 -
        bmagBar E p u X * norm2 (p.bvec u) / p.J ^ 2 -
        (p.dBds u X * E.e1 (p.bmag u) + E.e (p.bmag u) * p.tr X) * p.w) * J' := by
  unfold meshDot meshPoint
  simp only [if_pos hd]
  rw [frob_add (fun i j => zeroM i j + (-1) * _), trace_diag, dbdJBar_eq, mulM_vwt, frob_vwt]
  generalize hc : -(p.w * p.J * E.e1 (p.bmag u)) = c
  generalize p.bvec u = b
  generalize mulTV p.cs u = h at *
  generalize p.dJds X = Y at *
  have e1 : ∀ z : ℝ, ∑ j, ∑ k, c * Y j k * vwt b h j k / z = c * bil Y b h / z := by
    intro z
    rw [bil_eq]
    unfold vwt
    simp only [mul_sum, sum_div]
    exact sum_congr rfl fun _ _ => sum_congr rfl fun _ _ => by ring
  have e2 : ∑ j, ∑ k, transpose (fun i j => c * Y i j) j k * p.adj j k / p.J ^ 2 =
      c * frob (transpose p.adj) Y / p.J ^ 2 := by
    rw [frob_transpose]
    unfold frob transpose
    simp only [mul_sum, sum_div]
    exact sum_congr rfl fun _ _ => sum_congr rfl fun _ _ => by ring
  have e3 : ∑ j, ∑ k, 2 * transpose (fun i j => c * Y i j) j k * norm2 b * p.adj j k / p.J ^ 3 =
      2 * c * norm2 b * frob (transpose p.adj) Y / p.J ^ 3 := by
    rw [frob_transpose]
    unfold frob transpose
    simp only [mul_sum, sum_div]
    exact sum_congr rfl fun _ _ => sum_congr rfl fun _ _ => by ring
  have e4 : frob (addM (-norm2 b / p.J ^ 2) (transpose fun i j => c * Y i j) zeroM) A' =
      -norm2 b / p.J ^ 2 * c * frob (transpose A') Y := by
    rw [frob_transpose]
    unfold frob addM transpose zeroM
    simp only [mul_sum]
    exact sum_congr rfl fun _ _ => sum_congr rfl fun _ _ => by ring
  have e5 : ∀ x : ℝ, dotv (axpy x b (mulV (addM (1 / (norm2 b * p.J)) (fun i j => c * Y i j) zeroM) h)) (mulV K' h) =
      c / (norm2 b * p.J) * bil Y (mulV K' h) h + x * dotv b (mulV K' h) := by
    intro x
    have : axpy x b (mulV (addM (1 / (norm2 b * p.J)) (fun i j => c * Y i j) zeroM) h) =
        fun i => c / (norm2 b * p.J) * mulV Y h i + x * b i := by
      funext i
      unfold axpy mulV addM zeroM
      rw [mul_sum]
      congr 1
      exact sum_congr rfl fun _ _ => by ring
    rw [this, dotv_add_left, dotv_smul_left, dotv_smul_left, bil, dotv_comm (mulV K' h)]
  rw [e1, e1, e2, e3, e4]
  unfold bil at e5 ⊢
  rw [e5]
  ring

theorem meshDot_two (hd : dim ≠ 3) (E : En) (X : Mat m dim) (p : FPt ndof dim m) (u : Vec ndof)
    (A' K' : Mat dim dim) (J' : ℝ) (hJ : p.J ≠ 0) (hn : norm2 (p.bvec u) ≠ 0) :
    meshDot E X p u A' K' J' =
      -(p.w * p.J) * E.e (p.bmag u) * trace (mulM (fun a b => -mulM (mulM p.inv K') p.inv a b) (p.dJds X)) +
      (-(p.w * p.J * E.e1 (p.bmag u)) * (-1 / (norm2 (p.bvec u) * p.J ^ 2)) *
        (bil (p.dJds X) (mulTV (mulM p.cs A') u) (mulV p.adj (p.bvec u)) +
          bil (p.dJds X) (p.bvec u) (mulV p.adj (mulTV (mulM p.cs A') u)) +
          bil (p.dJds X) (p.bvec u) (mulV A' (p.bvec u))) +
      (-(p.w * p.J * E.e1 (p.bmag u)) * bil (p.dJds X) (p.bvec u) (mulV p.adj (p.bvec u)) /
          (norm2 (p.bvec u) * p.J) ^ 2 +
        bmagBar E p u X / p.J) / norm2 (p.bvec u) * dotv (p.bvec u) (mulTV (mulM p.cs A') u)) +
      (2 * (-(p.w * p.J * E.e1 (p.bmag u)) * bil (p.dJds X) (p.bvec u) (mulV p.adj (p.bvec u))) /
          (norm2 (p.bvec u) * p.J ^ 3) -
        bmagBar E p u X * norm2 (p.bvec u) / p.J ^ 2 -
        (p.dBds u X * E.e1 (p.bmag u) + E.e (p.bmag u) * p.tr X) * p.w) * J' := by
  unfold meshDot meshPoint
  simp only [if_neg hd]
  have ea : (∑ j, ∑ k, dbdJBar E p u X j k * p.dbdJ u j k) / (-1 / (norm2 (p.bvec u) * p.J ^ 2)) =
      -(p.w * p.J * E.e1 (p.bmag u)) * bil (p.dJds X) (p.bvec u) (mulV p.adj (p.bvec u)) := by
    have h1 : (∑ j, ∑ k, dbdJBar E p u X j k * p.dbdJ u j k) =
        -(p.w * p.J * E.e1 (p.bmag u)) * p.dBds u X := by
      rw [dBds_eq, frob_comm, ← frob_smul, dbdJBar_eq]
      rfl
    rw [h1, dBds_two hd]
    field_simp
  rw [ea, frob_add (vwt _ _), trace_diag, frob_mulAtB, frob_vwt, frob_vwt, dbdJBar_eq]
  have eb : ∀ x : Vec dim, bil (mulM p.cs A') u x = dotv x (mulTV (mulM p.cs A') u) := by
    intro x; rw [bil_eq', dotv_comm]
  rw [eb]
  generalize hc : -(p.w * p.J * E.e1 (p.bmag u)) = c
  generalize p.dJds X = Y at *
  generalize p.bvec u = b at hn ⊢
  obtain ⟨a', ha'⟩ : ∃ a', a' = -1 / (norm2 b * p.J ^ 2) := ⟨_, rfl⟩
  rw [← ha']
  have e0 : (fun j => zeroV j + a' * mulTV (fun i j => c * Y i j) b j) = fun j => (c * a') * mulTV Y b j := by
    funext j
    unfold mulTV; simp only [mul_sum, zero_add, zeroV]; exact sum_congr rfl fun _ _ => by ring
  rw [e0]
  have e1 : bil A' (fun j => c * a' * mulTV Y b j) b = c * a' * bil Y b (mulV A' b) := by
    rw [bil, dotv_smul_left, bil_eq']
  generalize mulTV (mulM p.cs A') u = bv at *
  have e4 : ∀ x : ℝ, dotv (axpy x b (addMulTV p.adj (fun j => c * a' * mulTV Y b j)
      (addMulV (fun i j => c * Y i j) a' (mulV p.adj b) zeroV))) bv =
      c * a' * (bil Y bv (mulV p.adj b) + bil Y b (mulV p.adj bv)) + x * dotv b bv := by
    intro x
    have : axpy x b (addMulTV p.adj (fun j => c * a' * mulTV Y b j)
        (addMulV (fun i j => c * Y i j) a' (mulV p.adj b) zeroV)) =
        fun i => ((c * a') * mulV Y (mulV p.adj b) i + (c * a') * mulTV p.adj (mulTV Y b) i) + x * b i := by
      funext i
      unfold axpy addMulTV addMulV zeroV
      have e1 : mulV (fun i j => c * Y i j) (mulV p.adj b) i = c * mulV Y (mulV p.adj b) i := by
        unfold mulV; rw [mul_sum]; exact sum_congr rfl fun _ _ => by ring
      rw [e1, mulTV_smul]; ring
    rw [this, dotv_add_left, dotv_add_left, dotv_smul_left, dotv_smul_left, dotv_smul_left]
    rw [bil, bil_eq', dotv_comm bv, dotv_mulV p.adj bv (mulTV Y b)]
    ring
  rw [e1, e4]
  ring

/-- The reverse pass at one quadrature point is the derivative of what that point contributes. -/
theorem point_mesh (μ : FMotion n dim m) (w : ℕ → ℝ) (cs : ℕ → Mat ndof dim) (dshape : ℕ → Mat m dim) (E : En)
    (hE : E.Smooth) (X : Mat m dim) (u : Vec ndof) (i : ℕ) (hi : i < n) (hJ0 : μ.J i 0 ≠ 0)
    (hn : norm2 ((μ.pts w cs dshape 0 i).bvec u) ≠ 0) :
    HasDerivAt (fun t => -(((μ.pts w cs dshape t i).dBds u X *
        E.e1 (norm2 ((μ.pts w cs dshape t i).bvec u) / (μ.pts w cs dshape t i).J) +
        E.e (norm2 ((μ.pts w cs dshape t i).bvec u) / (μ.pts w cs dshape t i).J) *
          (μ.pts w cs dshape t i).tr X) * (w i * (μ.pts w cs dshape t i).J)))
      (meshDot E X (μ.pts w cs dshape 0 i) u (μ.adj' i) (μ.jac' i) (μ.J' i)) 0 := by
  have hJ : HasDerivAt (fun t => (μ.pts w cs dshape t i).J) (μ.J' i) 0 := μ.hJ i hi
  have hA : ∀ a b, HasDerivAt (fun t => (μ.pts w cs dshape t i).adj a b) (μ.adj' i a b) 0 := μ.hadj i hi
  have hT : HasDerivAt (fun t => (μ.pts w cs dshape t i).tr X)
      (trace (mulM (fun a b => -mulM (mulM (μ.inv i 0) (μ.jac' i)) (μ.inv i 0) a b) (mulAtB X (dshape i)))) 0 := by
    unfold FPt.tr trace
    refine HasDerivAt.fun_sum fun a _ => ?_
    show HasDerivAt (fun t => ∑ b, μ.inv i t a b * mulAtB X (dshape i) b a)
      (∑ b, -mulM (mulM (μ.inv i 0) (μ.jac' i)) (μ.inv i 0) a b * mulAtB X (dshape i) b a) 0
    exact HasDerivAt.fun_sum fun b _ => (μ.hinv i hi a b).mul_const _
  by_cases hd : dim = 3
  · have hx : ∀ k, HasDerivAt (fun t => (μ.pts w cs dshape t i).bvec u k)
        (mulV (μ.jac' i) (mulTV (cs i) u) k) 0 := by
      intro k
      have e : ∀ t, (μ.pts w cs dshape t i).bvec u k = mulV (μ.jac i t) (mulTV (cs i) u) k := by
        intro t
        unfold FPt.bvec FPt.cdft FMotion.pts
        simp only [if_pos hd]
        unfold mulTV mulABt mulV
        simp only [sum_mul, mul_sum]
        rw [sum_comm]
        exact sum_congr rfl fun _ _ => sum_congr rfl fun _ _ => by ring
      simp only [e]
      unfold mulV
      exact HasDerivAt.fun_sum fun l _ => (μ.hjac i hi k l).mul_const _
    have hN := hasDerivAt_norm2 (fun t => (μ.pts w cs dshape t i).bvec u) _ 0 hx hn
    have hB := hasDerivAt_beta3 (mulAtB X (dshape i)) (fun t => (μ.pts w cs dshape t i).bvec u)
      (fun _ => mulTV (cs i) u) (fun t => (μ.pts w cs dshape t i).adj) (fun t => (μ.pts w cs dshape t i).J)
      (mulV (μ.jac' i) (mulTV (cs i) u)) zeroV (μ.adj' i) (μ.J' i) hx (fun k => hasDerivAt_const _ _) hA hJ hJ0 hn
    have hB' := hB.congr_of_eventuallyEq (f₁ := fun t => (μ.pts w cs dshape t i).dBds u X)
      (Filter.Eventually.of_forall fun t => dBds_three hd _ _ X)
    refine (hasDerivAt_pointForce E (w i) _ _ _ _ _ _ _ _ hE.1 hE.2 hB' hN hJ hT hJ0).congr_deriv ?_
    rw [meshDot_three hd]
    have ez : bil (mulAtB X (dshape i)) ((μ.pts w cs dshape 0 i).bvec u) (zeroV : Vec dim) = 0 := by
      simp [bil_eq, zeroV]
    rw [ez]
    have hJ0' : (μ.pts w cs dshape 0 i).J ≠ 0 := hJ0
    have ew : w i = (μ.pts w cs dshape 0 i).w := rfl
    have ei : μ.inv i 0 = (μ.pts w cs dshape 0 i).inv := rfl
    have ec : cs i = (μ.pts w cs dshape 0 i).cs := rfl
    have ed : mulAtB X (dshape i) = (μ.pts w cs dshape 0 i).dJds X := rfl
    rw [ew, ei, ec, ed]
    generalize μ.pts w cs dshape 0 i = p at *
    unfold bmagBar FPt.bmag
    field_simp
    ring
  · have hx : ∀ k, HasDerivAt (fun t => (μ.pts w cs dshape t i).bvec u k)
        (mulTV (mulM (cs i) (μ.adj' i)) u k) 0 := by
      intro k
      unfold FPt.bvec FPt.cdft FMotion.pts
      simp only [if_neg hd]
      exact μ.hasDerivAt_flux i hi (cs i) u k
    have hN := hasDerivAt_norm2 (fun t => (μ.pts w cs dshape t i).bvec u) _ 0 hx hn
    have hB := hasDerivAt_beta2 (mulAtB X (dshape i)) (fun t => (μ.pts w cs dshape t i).bvec u)
      (fun t => (μ.pts w cs dshape t i).adj) (fun t => (μ.pts w cs dshape t i).J)
      (mulTV (mulM (cs i) (μ.adj' i)) u) (μ.adj' i) (μ.J' i) hx hA hJ hJ0 hn
    have hB' := hB.congr_of_eventuallyEq (f₁ := fun t => (μ.pts w cs dshape t i).dBds u X)
      (Filter.Eventually.of_forall fun t => dBds_two hd _ _ X)
    refine (hasDerivAt_pointForce E (w i) _ _ _ _ _ _ _ _ hE.1 hE.2 hB' hN hJ hT hJ0).congr_deriv ?_
    rw [meshDot_two hd]
    have hJ0' : (μ.pts w cs dshape 0 i).J ≠ 0 := hJ0
    have ew : w i = (μ.pts w cs dshape 0 i).w := rfl
    have ei : μ.inv i 0 = (μ.pts w cs dshape 0 i).inv := rfl
    have ec : cs i = (μ.pts w cs dshape 0 i).cs := rfl
    have ed : mulAtB X (dshape i) = (μ.pts w cs dshape 0 i).dJds X := rfl
    rw [ew, ei, ec, ed]
    generalize μ.pts w cs dshape 0 i = p at *
    unfold bmagBar FPt.bmag
    field_simp
    ring
    · exact hJ0
    · exact hn

/-- **C134** The assembled mesh sensitivity, multiplied with any motion of the mesh nodes, is the
derivative of the element's force contribution under that motion (virtual displacement and state held
fixed) - in two and three dimensions.  (Missing: points of zero flux density, where the code divides by
zero.) -/
theorem C134_mesh_sensitivity_partial (inBody : Bool) (μ : FMotion n dim m) (w : ℕ → ℝ) (cs : ℕ → Mat ndof dim)
    (dshape : ℕ → Mat m dim) (E : ℕ → En) (hE : ∀ i < n, (E i).Smooth) (X : Mat m dim) (u : Vec ndof)
    (hJ : ∀ i < n, μ.J i 0 ≠ 0) (hn : ∀ i < n, (μ.pts w cs dshape 0 i).bvec u ≠ 0) :
    HasDerivAt (fun t => force inBody n E (μ.pts w cs dshape t) X u)
      (∑ q ∈ range (dim * m),
        meshSens inBody n E (μ.pts w cs dshape 0) μ.adjRev μ.wRev μ.jacRev X u q * μ.δ q) 0 := by
  cases inBody with
  | true =>
    simp only [force, meshSens, if_true, zero_mul, sum_const_zero]
    exact hasDerivAt_const _ _
  | false =>
    by_cases hX : tiny X
    · simp only [force, meshSens, if_pos hX, ite_self, zero_mul, sum_const_zero]
      exact hasDerivAt_const _ _
    · simp only [force_eq _ _ _ _ _ hX]
      unfold meshSens
      rw [if_neg (by simp), if_neg hX]
      rw [scatterLoop3 (D := fun i => meshDot (E i) X (μ.pts w cs dshape 0 i) u (μ.adj' i) (μ.jac' i) (μ.J' i))]
      · refine HasDerivAt.fun_sum fun i hi => ?_
        have hi := mem_range.1 hi
        refine point_mesh μ w cs dshape (E i) (hE i hi) X u i hi (hJ i hi) ?_
        intro h
        apply hn i hi
        funext k; exact (norm2_eq_zero _).1 h k
      · intro i hi
        unfold meshDot
        rw [← μ.hadjRev i hi, ← μ.hwRev i hi, ← μ.hjacRev i hi]
        simp only [← sum_add_distrib]
        exact sum_congr rfl fun k _ => sum_congr rfl fun j _ => by ring

/-- The two-dimensional isoparametric mapping meets the contract of `FMotion`. -/
noncomputable def isoFMotion (npt m : ℕ) (dN : ℕ → ℕ → Fin 2 → ℝ) (X δ : ℕ → ℝ)
    (hdet : ∀ i < npt, det2 (isoJac m (dN i) X) ≠ 0) : FMotion npt 2 m where
  toMotion := isoMotion npt m dN X δ
  jac := fun i t => isoJac m (dN i) fun q => X q + t * δ q
  jac' := fun i => isoJac m (dN i) δ
  inv := fun i t a b => adj2 (isoJac m (dN i) fun q => X q + t * δ q) a b /
    det2 (isoJac m (dN i) fun q => X q + t * δ q)
  hjac := fun i _ a b => isoJac_hasDerivAt m (dN i) X δ a b
  hinv := by
    intro i hi a b
    have hd := hdet i hi
    have ha := (isoMotion npt m dN X δ).hadj i hi a b
    have hJ := (isoMotion npt m dN X δ).hJ i hi
    have e0 : (fun q => X q + 0 * δ q) = X := by funext q; ring
    simp only [isoMotion] at ha hJ
    refine (ha.fun_div hJ (by rw [e0]; exact hd)).congr_deriv ?_
    simp only [e0]
    generalize isoJac m (dN i) X = M at hd ⊢
    generalize isoJac m (dN i) δ = Y
    have hd' : M 0 0 * M 1 1 - M 0 1 * M 1 0 ≠ 0 := hd
    fin_cases a <;> fin_cases b <;>
    · simp [mulM, adj2, det2, Fin.sum_univ_two]
      field_simp
      ring
  jacRev := fun i A k j => if k = 0 then A 0 0 * dN i j 0 + A 0 1 * dN i j 1
    else A 1 0 * dN i j 0 + A 1 1 * dN i j 1
  hjacRev := by
    intro i _ A
    simp only [isoMotion, sum_range_succ, range_zero, sum_empty, zero_add, if_true, if_neg one_ne_zero]
    simp only [frob, Fin.sum_univ_two, isoJac, zero_mul, zero_add, one_mul, Fin.val_zero, Fin.val_one, mul_sum]
    simp only [← sum_add_distrib]
    exact sum_congr rfl fun j _ => by ring

/-! ### C135: linearity, rigid motion, displacement fields -/

theorem dJds_lin (p : FPt ndof dim m) (c : ℝ) (V W : Mat m dim) :
    p.dJds (fun j k => V j k + c * W j k) = fun a b => p.dJds V a b + c * p.dJds W a b := by
  funext a b
  unfold FPt.dJds mulAtB
  rw [mul_sum, ← sum_add_distrib]
  exact sum_congr rfl fun _ _ => by ring

/-- **C135** The force is linear in the virtual displacement, as long as none of the displacements is
below the `1e-14` threshold. -/
theorem C135_linear (E : ℕ → En) (pt : ℕ → FPt ndof dim m) (c : ℝ) (V W : Mat m dim) (u : Vec ndof)
    (hV : ¬ tiny V) (hW : ¬ tiny W) (hVW : ¬ tiny (fun j k => V j k + c * W j k)) :
    force false n E pt (fun j k => V j k + c * W j k) u =
      force false n E pt V u + c * force false n E pt W u := by
  rw [force_eq _ _ _ _ _ hV, force_eq _ _ _ _ _ hW, force_eq _ _ _ _ _ hVW, mul_sum, ← sum_add_distrib]
  refine sum_congr rfl fun i _ => ?_
  have h1 : (pt i).dBds u (fun j k => V j k + c * W j k) = (pt i).dBds u V + c * (pt i).dBds u W := by
    rw [dBds_eq, dBds_eq, dBds_eq, dJds_lin, frob_comm, frob_add, frob_smul, frob_comm,
      frob_comm ((pt i).dJds W)]
  have h2 : (pt i).tr (fun j k => V j k + c * W j k) = (pt i).tr V + c * (pt i).tr W := by
    unfold FPt.tr
    rw [dJds_lin]
    unfold trace mulM
    rw [mul_sum, ← sum_add_distrib]
    refine sum_congr rfl fun a _ => ?_
    rw [mul_sum, ← sum_add_distrib]
    exact sum_congr rfl fun _ _ => by ring
  rw [h1, h2]
  ring

/-- Specification: the displacement `V` of the nodes `X` is an infinitesimal rigid motion: a translation
plus a rotation about `c` with skew-symmetric rate `Ω`. -/
def Rigid (X V : Mat m dim) (t c : Vec dim) (Ω : Mat dim dim) : Prop :=
  (∀ a b, Ω a b = -Ω b a) ∧ ∀ j a, V j a = t a + ∑ b, Ω a b * (X j b - c b)

theorem jacOf_rigid (dshape X V : Mat m dim) (t c : Vec dim) (Ω : Mat dim dim) (hV : Rigid X V t c Ω)
    (hs : ∀ b, ∑ j, dshape j b = 0) : jacOf dshape V = mulM Ω (jacOf dshape X) := by
  funext a b
  unfold jacOf mulM
  have e : ∀ j, V j a * dshape j b = (t a - ∑ l, Ω a l * c l) * dshape j b + ∑ l, Ω a l * (X j l * dshape j b) := by
    intro j
    rw [hV.2]
    simp only [mul_sub, sum_sub_distrib]
    rw [add_mul, sub_mul, sub_mul, sum_mul (f := fun b => Ω a b * X j b)]
    have : ∀ l, Ω a l * X j l * dshape j b = Ω a l * (X j l * dshape j b) := fun l => by ring
    simp only [this]
    ring
  rw [sum_congr rfl fun j _ => e j, sum_add_distrib, ← mul_sum, hs, mul_zero, zero_add, sum_comm]
  exact sum_congr rfl fun l _ => by rw [mul_sum]

/-- **C135** An element that moves rigidly contributes nothing, in two dimensions: leaving out the
elements of the body itself, which move with it, does not change the force or torque. -/
theorem C135_rigid_2d (E : ℕ → En) (w : ℕ → ℝ) (cs : ℕ → Mat ndof 2) (dshape : ℕ → Mat m 2) (X V : Mat m 2)
    (u : Vec ndof) (t c : Vec 2) (Ω : Mat 2 2) (hV : Rigid X V t c Ω) (hs : ∀ i < n, ∀ b, ∑ j, dshape i j b = 0) :
    force false n E (elem2 w cs dshape X) V u = 0 := by
  by_cases hX : tiny V
  · simp [force, hX]
  rw [force_eq _ _ _ _ _ hX]
  refine sum_eq_zero fun i hi => ?_
  have hi := mem_range.1 hi
  have hY : (elem2 w cs dshape X i).dJds V = mulM Ω (jacOf (dshape i) X) :=
    jacOf_rigid (dshape i) X V t c Ω hV (hs i hi)
  have h00 : Ω 0 0 = 0 := by have := hV.1 0 0; linarith
  have h11 : Ω 1 1 = 0 := by have := hV.1 1 1; linarith
  have h10 : Ω 1 0 = -Ω 0 1 := hV.1 1 0
  have hB : (elem2 w cs dshape X i).dBds u V = 0 := by
    rw [dBds_two (by decide), hY, bil_eq]
    have : ∑ a, ∑ b, (elem2 w cs dshape X i).bvec u a * mulM Ω (jacOf (dshape i) X) a b *
        mulV (elem2 w cs dshape X i).adj ((elem2 w cs dshape X i).bvec u) b = 0 := by
      have ea : (elem2 w cs dshape X i).adj = adj2 (jacOf (dshape i) X) := rfl
      rw [ea]
      generalize (elem2 w cs dshape X i).bvec u = b
      generalize jacOf (dshape i) X = M
      simp [mulM, mulV, adj2, Fin.sum_univ_two, h00, h11, h10]
      ring
    rw [this]; simp
  have hT : (elem2 w cs dshape X i).tr V = 0 := by
    unfold FPt.tr
    rw [hY]
    change trace (mulM (fun a b => adj2 (jacOf (dshape i) X) a b / det2 (jacOf (dshape i) X)) _) = 0
    generalize jacOf (dshape i) X = M
    simp [trace, mulM, adj2, Fin.sum_univ_two, h00, h11, h10]
    ring
  rw [hB, hT]; ring

/-- **C135** The same in three dimensions. -/
theorem C135_rigid_3d (E : ℕ → En) (w : ℕ → ℝ) (cs : ℕ → Mat ndof 3) (dshape : ℕ → Mat m 3) (X V : Mat m 3)
    (u : Vec ndof) (t c : Vec 3) (Ω : Mat 3 3) (hV : Rigid X V t c Ω) (hs : ∀ i < n, ∀ b, ∑ j, dshape i j b = 0) :
    force false n E (elem3 w cs dshape X) V u = 0 := by
  by_cases hX : tiny V
  · simp [force, hX]
  rw [force_eq _ _ _ _ _ hX]
  refine sum_eq_zero fun i hi => ?_
  have hi := mem_range.1 hi
  have hY : (elem3 w cs dshape X i).dJds V = mulM Ω (jacOf (dshape i) X) :=
    jacOf_rigid (dshape i) X V t c Ω hV (hs i hi)
  have h00 : Ω 0 0 = 0 := by have := hV.1 0 0; linarith
  have h11 : Ω 1 1 = 0 := by have := hV.1 1 1; linarith
  have h22 : Ω 2 2 = 0 := by have := hV.1 2 2; linarith
  have h10 : Ω 1 0 = -Ω 0 1 := hV.1 1 0
  have h20 : Ω 2 0 = -Ω 0 2 := hV.1 2 0
  have h21 : Ω 2 1 = -Ω 1 2 := hV.1 2 1
  have hadj : frob (transpose (adj3 (jacOf (dshape i) X))) (mulM Ω (jacOf (dshape i) X)) = 0 := by
    generalize jacOf (dshape i) X = M
    simp [frob, transpose, mulM, adj3, Fin.sum_univ_three, h00, h11, h22, h10, h20, h21]
    ring
  have hB : (elem3 w cs dshape X i).dBds u V = 0 := by
    rw [dBds_three (by decide), hY]
    have ea : (elem3 w cs dshape X i).adj = adj3 (jacOf (dshape i) X) := rfl
    have ec : (elem3 w cs dshape X i).cs = cs i := rfl
    rw [ea, ec, hadj]
    have hb := bvec3_eq w cs dshape X i u
    have : bil (mulM Ω (jacOf (dshape i) X)) ((elem3 w cs dshape X i).bvec u) (mulTV (cs i) u) = 0 := by
      have h1 : bil (mulM Ω (jacOf (dshape i) X)) ((elem3 w cs dshape X i).bvec u) (mulTV (cs i) u) =
          bil Ω ((elem3 w cs dshape X i).bvec u) ((elem3 w cs dshape X i).bvec u) := by
        unfold bil
        congr 1; funext a
        unfold mulV mulM
        simp only [hb, sum_mul, mul_sum]
        rw [sum_comm]
        exact sum_congr rfl fun _ _ => sum_congr rfl fun _ _ => by ring
      rw [h1, bil_eq]
      generalize (elem3 w cs dshape X i).bvec u = b
      simp [Fin.sum_univ_three, h00, h11, h22, h10, h20, h21]
      ring
    rw [this]; simp
  have hT : (elem3 w cs dshape X i).tr V = 0 := by
    unfold FPt.tr
    rw [hY]
    change trace (mulM (fun a b => adj3 (jacOf (dshape i) X) a b / det3 (jacOf (dshape i) X)) _) = 0
    rw [trace_mulM]
    rw [frob_transpose] at hadj
    have : frob (fun a b => adj3 (jacOf (dshape i) X) a b / det3 (jacOf (dshape i) X))
        (transpose (mulM Ω (jacOf (dshape i) X))) =
        frob (adj3 (jacOf (dshape i) X)) (transpose (mulM Ω (jacOf (dshape i) X))) / det3 (jacOf (dshape i) X) := by
      unfold frob
      simp only [sum_div]
      exact sum_congr rfl fun _ _ => sum_congr rfl fun _ _ => by ring
    rw [this, hadj, zero_div]
  rw [hB, hT]; ring

/-- **C135** The torque field is the velocity of a rotation about the axis: perpendicular to the axis and
to the lever arm, of magnitude axis length times distance to the axis, and zero on the axis. -/
theorem C135_torque_field (axis about x : ℕ → ℝ) :
    let v := torqueField 3 axis about x
    let r := fun i => x i - about i
    v 0 * axis 0 + v 1 * axis 1 + v 2 * axis 2 = 0 ∧
    v 0 * r 0 + v 1 * r 1 + v 2 * r 2 = 0 ∧
    v 0 ^ 2 + v 1 ^ 2 + v 2 ^ 2 = (axis 0 ^ 2 + axis 1 ^ 2 + axis 2 ^ 2) * (r 0 ^ 2 + r 1 ^ 2 + r 2 ^ 2) -
      (axis 0 * r 0 + axis 1 * r 1 + axis 2 * r 2) ^ 2 ∧
    (∀ s : ℝ, (∀ i < 3, x i = about i + s * axis i) → ∀ i < 3, v i = 0) := by
  refine ⟨?_, ?_, ?_, ?_⟩
  · simp [torqueField]; ring
  · simp [torqueField]; ring
  · simp [torqueField]; ring
  · intro s hs i hi
    have h0 := hs 0 (by decide); have h1 := hs 1 (by decide); have h2 := hs 2 (by decide)
    interval_cases i <;> simp [torqueField, h0, h1, h2] <;> ring

/-- **C135** It is right-handed: rotating about the `z` axis moves a point on the `x` axis towards `y`, and
the two-dimensional field is the planar restriction of the three-dimensional one. -/
theorem C135_torque_plane (axis about x : ℕ → ℝ) (h0 : axis 0 = 0) (h1 : axis 1 = 0) :
    (∀ i < 2, torqueField 2 axis about x i = torqueField 3 axis about x i) ∧
      torqueField 3 axis about x 2 = 0 ∧
      (x 1 = about 1 → torqueField 2 axis about x 0 = 0 ∧
        torqueField 2 axis about x 1 = axis 2 * (x 0 - about 0)) := by
  refine ⟨?_, ?_, ?_⟩
  · intro i hi
    interval_cases i <;> simp [torqueField, h0, h1]
  · simp [torqueField, h0, h1]
  · intro h
    simp [torqueField, h]

/-- **C135** The length of the axis given to the torque output does not matter, only its direction; the
axis used has length one. -/
theorem C135_axis_direction (axis : ℕ → ℝ) (c : ℝ) (hc : 0 < c) (i : ℕ) :
    unitAxis (fun i => c * axis i) i = unitAxis axis i ∧
      (axis 0 ^ 2 + axis 1 ^ 2 + axis 2 ^ 2 ≠ 0 →
        unitAxis axis 0 ^ 2 + unitAxis axis 1 ^ 2 + unitAxis axis 2 ^ 2 = 1) := by
  constructor
  · unfold unitAxis
    have : (c * axis 0) ^ 2 + (c * axis 1) ^ 2 + (c * axis 2) ^ 2 =
        c ^ 2 * (axis 0 ^ 2 + axis 1 ^ 2 + axis 2 ^ 2) := by ring
    rw [this, Real.sqrt_mul (by positivity), Real.sqrt_sq hc.le, mul_div_mul_left _ _ hc.ne']
  · intro h
    unfold unitAxis
    simp only [div_pow]
    rw [Real.sq_sqrt (by positivity)]
    field_simp

/-- **C135** The torque field is a rigid motion of the nodes, in three dimensions (about a fixed axis) ... -/
theorem C135_torque_rigid_3d (axis about : ℕ → ℝ) (X : Mat m 3) :
    Rigid X (fun j a => torqueField 3 axis about (fun i => if h : i < 3 then X j ⟨i, h⟩ else 0) a) zeroV
      (fun a => about a)
      (fun a b => if a = 0 ∧ b = 1 then -axis 2 else if a = 1 ∧ b = 0 then axis 2 else
        if a = 0 ∧ b = 2 then axis 1 else if a = 2 ∧ b = 0 then -axis 1 else
        if a = 1 ∧ b = 2 then -axis 0 else if a = 2 ∧ b = 1 then axis 0 else 0) := by
  constructor
  · intro a b
    fin_cases a <;> fin_cases b <;> simp
  · intro j a
    fin_cases a <;> simp [torqueField, zeroV, Fin.sum_univ_three] <;> ring

/-- **C135** ... and in two. -/
theorem C135_torque_rigid_2d (axis about : ℕ → ℝ) (X : Mat m 2) :
    Rigid X (fun j a => torqueField 2 axis about (fun i => if h : i < 2 then X j ⟨i, h⟩ else 0) a) zeroV
      (fun a => about a)
      (fun a b => if a = 0 ∧ b = 1 then -axis 2 else if a = 1 ∧ b = 0 then axis 2 else 0) := by
  constructor
  · intro a b
    fin_cases a <;> fin_cases b <;> simp
  · intro j a
    fin_cases a <;> simp [torqueField, zeroV, Fin.sum_univ_two]

theorem foldl_update {α : Type} (f : α → ℕ → ℝ) (x : ℕ → α) (l : List ℕ) (v : ℕ → ℕ → ℝ) (j : ℕ) :
    l.foldl (fun v j => Function.update v j (f (x j))) v j = if j ∈ l then f (x j) else v j := by
  induction l generalizing v with
  | nil => simp
  | cons a l ih =>
    rw [List.foldl_cons, ih]
    by_cases h : j ∈ l
    · simp [h]
    · by_cases ha : j = a
      · subst ha; simp
      · simp [h, ha]

/-- **C135** The virtual displacement is the prescribed field at exactly the nodes of the listed
attributes, and zero at all others. -/
theorem C135_projection {α : Type} (f : α → ℕ → ℝ) (x : ℕ → α) (nodesOf : ℕ → List ℕ) (attrs : List ℕ) (j : ℕ) :
    projectAttrs f x nodesOf attrs j = if ∃ a ∈ attrs, j ∈ nodesOf a then f (x j) else fun _ => 0 := by
  unfold projectAttrs
  have : ∀ v : ℕ → ℕ → ℝ, attrs.foldl (fun v attr => (nodesOf attr).foldl
      (fun v j => Function.update v j (f (x j))) v) v j =
      if ∃ a ∈ attrs, j ∈ nodesOf a then f (x j) else v j := by
    induction attrs with
    | nil => intro v; simp
    | cons a l ih =>
      intro v
      rw [List.foldl_cons, ih, foldl_update]
      by_cases h : ∃ a ∈ l, j ∈ nodesOf a
      · rw [if_pos h, if_pos]
        obtain ⟨b, hb, hj⟩ := h
        exact ⟨b, List.mem_cons_of_mem _ hb, hj⟩
      · rw [if_neg h]
        by_cases ha : j ∈ nodesOf a
        · rw [if_pos ha, if_pos ⟨a, List.mem_cons_self .., ha⟩]
        · rw [if_neg ha, if_neg]
          rintro ⟨b, hb, hj⟩
          rcases List.mem_cons.1 hb with rfl | hb
          · exact ha hj
          · exact h ⟨b, hb, hj⟩
  exact this _

/-- **C135** An element none of whose nodes moves contributes nothing. -/
theorem C135_still (inBody : Bool) (E : ℕ → En) (pt : ℕ → FPt ndof dim m) (u : Vec ndof) :
    force inBody n E pt (fun _ _ => 0) u = 0 := by
  have : tiny (fun (_ : Fin m) (_ : Fin dim) => (0 : ℝ)) := by
    intro j k; rw [abs_zero]; positivity
  unfold force
  rw [if_pos this]; split <;> rfl

/-! ### Non-vacuity -/

/-- A unit right triangle with one quadrature point, linear potential and constant reluctivity. -/
def triSh : Mat 3 2 := ![![-1, -1], ![1, 0], ![0, 1]]
/-- Its nodes. -/
def triX : Mat 3 2 := ![![0, 0], ![1, 0], ![0, 1]]

theorem tri_jac : jacOf triSh triX = fun a b => if a = b then 1 else 0 := by
  funext a b
  fin_cases a <;> fin_cases b <;> simp [jacOf, triSh, triX, Fin.sum_univ_three]

/-- Quadratic energy density. -/
noncomputable def quadEn : En := ⟨fun b => b ^ 2 / 2, fun b => b, fun _ => 1⟩

theorem quadEn_smooth : quadEn.Smooth := by
  refine ⟨fun s => ?_, fun s => hasDerivAt_id' s⟩
  exact (((hasDerivAt_id' s).fun_pow 2).div_const 2).congr_deriv (by norm_num [quadEn])

/-- The hypotheses of C132 are met by a non-trivial case, stretching a triangle in `x` at the
potential `A = x`. -/
example : HasDerivAt (fun s => -energy2 1 (fun _ => quadEn) (fun _ => 1) (fun _ => triSh) (fun _ => triSh)
      ![0, 1, 0] (displaced triX ![![0, 0], ![1, 0], ![0, 0]] s))
    (force false 1 (fun _ => quadEn) (elem2 (fun _ => 1) (fun _ => triSh) (fun _ => triSh) triX)
      ![![0, 0], ![1, 0], ![0, 0]] ![0, 1, 0]) 0 := by
  apply C132_virtual_work_2d_partial
  · exact fun _ _ => quadEn_smooth
  · exact ⟨1, 0, by simp; norm_num⟩
  · intro i _; rw [tri_jac]; simp [det2]
  · intro i _ h
    have := congrFun h 0
    rw [tri_jac] at this
    simp [flux2, triSh, adj2, det2, Fin.sum_univ_three, Fin.sum_univ_two] at this

/-- The force in that case is `1/2`: stretching lowers the magnetic energy. -/
example : force false 1 (fun _ => quadEn) (elem2 (fun _ => 1) (fun _ => triSh) (fun _ => triSh) triX)
      ![![0, 0], ![1, 0], ![0, 0]] ![0, 1, 0] = 1 / 2 := by
  have ht : ¬ tiny (![![0, 0], ![1, 0], ![0, 0]] : Mat 3 2) := by
    intro h; have := h 1 0; simp at this; norm_num at this
  rw [force_eq _ _ _ _ _ ht]
  have hb : (elem2 (fun _ => 1) (fun _ => triSh) (fun _ => triSh) triX 0).bvec ![0, 1, 0] = ![1, 0] := by
    funext k
    rw [bvec2_eq, tri_jac]
    fin_cases k <;> simp [adj2, mulTV, triSh, Fin.sum_univ_three, Fin.sum_univ_two]
  have hn : norm2 (![1, 0] : Vec 2) = 1 := by simp [norm2, dotv, Fin.sum_univ_two]
  have hJ : (elem2 (fun _ => 1) (fun _ => triSh) (fun _ => triSh) triX 0).J = 1 := by
    change det2 (jacOf triSh triX) = 1
    rw [tri_jac]; simp [det2]
  have hY : (elem2 (fun _ => 1) (fun _ => triSh) (fun _ => triSh) triX 0).dJds
      (![![0, 0], ![1, 0], ![0, 0]] : Mat 3 2) = fun a b => if a = 0 ∧ b = 0 then 1 else 0 := by
    funext a b
    fin_cases a <;> fin_cases b <;> simp [FPt.dJds, mulAtB, elem2, triSh, Fin.sum_univ_three]
  rw [sum_range_one, dBds_two (by decide), hb, hn, hJ]
  unfold FPt.tr
  rw [hY]
  have ha : (elem2 (fun _ => 1) (fun _ => triSh) (fun _ => triSh) triX 0).adj = fun a b => if a = b then 1 else 0 := by
    change adj2 (jacOf triSh triX) = _
    rw [tri_jac]; funext a b
    fin_cases a <;> fin_cases b <;> simp [adj2]
  have hi : (elem2 (fun _ => 1) (fun _ => triSh) (fun _ => triSh) triX 0).inv = fun a b => if a = b then 1 else 0 := by
    change (fun a b => adj2 (jacOf triSh triX) a b / det2 (jacOf triSh triX)) = _
    rw [tri_jac]; funext a b
    fin_cases a <;> fin_cases b <;> simp [adj2, det2]
  rw [ha, hi]
  simp [bil_eq, mulV, trace, mulM, quadEn, elem2, Fin.sum_univ_two]
  norm_num

/-- Moving node 1 of that triangle in direction `x`. -/
noncomputable def triMotion : FMotion 1 2 3 :=
  isoFMotion 1 3 (fun _ j b => if h : j < 3 then triSh ⟨j, h⟩ b else 0)
    (fun q => if q = 1 then 1 else if q = 5 then 1 else 0) (fun q => if q = 1 then 1 else 0)
    (by intro i _; simp [det2, isoJac, triSh, sum_range_succ])

/-- The hypotheses of C134 are met by that motion. -/
example : HasDerivAt (fun t => force false 1 (fun _ => quadEn)
      (triMotion.pts (fun _ => 1) (fun _ => triSh) (fun _ => triSh) t) ![![0, 0], ![1, 0], ![0, 0]] ![0, 1, 0])
    (∑ q ∈ range (2 * 3), meshSens false 1 (fun _ => quadEn)
      (triMotion.pts (fun _ => 1) (fun _ => triSh) (fun _ => triSh) 0) triMotion.adjRev triMotion.wRev
      triMotion.jacRev ![![0, 0], ![1, 0], ![0, 0]] ![0, 1, 0] q * triMotion.δ q) 0 := by
  apply C134_mesh_sensitivity_partial
  · exact fun _ _ => quadEn_smooth
  · intro i _; simp [triMotion, isoFMotion, isoMotion, det2, isoJac, triSh, sum_range_succ]
  · intro i _ h
    have := congrFun h 0
    simp [triMotion, FMotion.pts, FPt.bvec, FPt.cdft, isoFMotion, isoMotion, adj2, isoJac, triSh, sum_range_succ,
      mulTV, mulM, Fin.sum_univ_three, Fin.sum_univ_two] at this

/-- The hypotheses of C133 are met by the same element. -/
example (v : Vec 3) : HasDerivAt (fun t => force false 1 (fun _ => quadEn)
      (elem2 (fun _ => 1) (fun _ => triSh) (fun _ => triSh) triX) ![![0, 0], ![1, 0], ![0, 0]]
      (fun r => ![0, 1, 0] r + t * v r))
    (dotv (stateSens false 1 (fun _ => quadEn) (elem2 (fun _ => 1) (fun _ => triSh) (fun _ => triSh) triX)
      ![![0, 0], ![1, 0], ![0, 0]] ![0, 1, 0]) v) 0 := by
  apply C133_state_gradient_partial
  · exact fun _ _ => quadEn_smooth
  · intro i _
    change det2 (jacOf triSh triX) ≠ 0
    rw [tri_jac]; simp [det2]
  · intro i _ h
    have := congrFun h 0
    rw [bvec2_eq, tri_jac] at this
    simp [adj2, mulTV, triSh, Fin.sum_univ_three, Fin.sum_univ_two] at this

/-- Reference gradients of the linear shape functions of a tetrahedron. -/
def tetSh : Mat 4 3 := ![![-1, -1, -1], ![1, 0, 0], ![0, 1, 0], ![0, 0, 1]]
/-- Nodes of the unit tetrahedron. -/
def tetX : Mat 4 3 := ![![0, 0, 0], ![1, 0, 0], ![0, 1, 0], ![0, 0, 1]]

/-- The hypotheses of the three-dimensional C132 are met by a tetrahedron with a uniform field. -/
example (V : Mat 4 3) (hV : V 1 0 = 1) :
    HasDerivAt (fun s => -energy3 1 (fun _ => quadEn) (fun _ => 1) (fun _ => (![![0, 0, 1]] : Mat 1 3)) (fun _ => tetSh)
      ![2] (displaced tetX V s))
    (force false 1 (fun _ => quadEn) (elem3 (fun _ => 1) (fun _ => ![![0, 0, 1]]) (fun _ => tetSh) tetX) V ![2]) 0 := by
  have hj : jacOf tetSh tetX = fun a b => if a = b then 1 else 0 := by
    funext a b
    fin_cases a <;> fin_cases b <;> simp [jacOf, tetSh, tetX, Fin.sum_univ_four]
  apply C132_virtual_work_3d_partial
  · exact fun _ _ => quadEn_smooth
  · exact ⟨1, 0, by rw [hV]; norm_num⟩
  · intro i _; rw [hj]; simp [det3]
  · intro i _ h
    have := congrFun h 2
    rw [hj] at this
    simp [flux3, det3, Fin.sum_univ_three] at this

/-- The hypotheses of C135's rigid-motion theorem are met: rotating the triangle by the torque field. -/
example (u : Vec 3) : force false 1 (fun _ => quadEn) (elem2 (fun _ => 1) (fun _ => triSh) (fun _ => triSh) triX)
    (fun j a => torqueField 2 (fun i => if i = 2 then 1 else 0) (fun _ => 5)
      (fun i => if h : i < 2 then triX j ⟨i, h⟩ else 0) a) u = 0 := by
  refine C135_rigid_2d _ _ _ _ _ _ u _ _ _ (C135_torque_rigid_2d _ _ triX) ?_
  intro i _ b
  fin_cases b <;> simp [triSh, Fin.sum_univ_three]

end Verif.Force
