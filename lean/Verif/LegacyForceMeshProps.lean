import Verif.LegacyForceMesh
import Verif.LegacyForceProps
import Verif.IsoMotion3

/-! # Mesh sensitivity of the older force integrator: property theorems (C235) -/

namespace Verif.Force
open Finset Verif.Sbp Verif.Dense Verif.Diffusion Verif.Losses

set_option linter.unusedSimpArgs false
set_option linter.unusedSectionVars false

variable {ndof dim m n : ℕ}

/-- The directional derivative of the flux magnitude, three dimensions. -/
theorem dBdsOld_form (hd : dim = 3) (p : FPt ndof dim m) (u : Vec ndof) (X : Mat m dim) :
    p.dBdsOld u X = bil (p.dJds X) (p.bvec u) (mulTV p.cs u) / (p.J * norm2 (p.bvec u)) -
      norm2 (p.bvec u) / p.J * p.tr X := by
  have ht : p.tr X = frob (transpose p.inv) (p.dJds X) := by
    unfold FPt.tr trace mulM frob transpose
    exact sum_comm
  rw [dBdsOld_eq, ht]
  unfold FPt.dbdJOld
  simp only [if_pos hd]
  rw [← frob_vwt]
  unfold frob
  simp only [mul_sum, sum_div, ← sum_sub_distrib]
  exact sum_congr rfl fun i _ => sum_congr rfl fun j _ => by ring

/-- Two ways of writing the derivative of a trace of a product with an inverse. -/
theorem inv_pull (A Y C : Mat dim dim) :
    frob (fun i j => mulM (transpose A) (fun i j => mulM (transpose Y) (transpose A) i j * (-1)) i j) C =
      trace (mulM (fun a b => -mulM (mulM A C) A a b) Y) := by
  unfold frob mulM trace transpose
  simp only [mul_sum, sum_mul, neg_mul, ← sum_neg_distrib, mul_neg, mul_one]
  calc ∑ i, ∑ j, ∑ l, ∑ q, -(A l i * (Y q l * A j q) * C i j)
      = ∑ i, ∑ j, ∑ q, ∑ l, -(A l i * (Y q l * A j q) * C i j) :=
        sum_congr rfl fun _ _ => sum_congr rfl fun _ _ => sum_comm
    _ = ∑ i, ∑ q, ∑ j, ∑ l, -(A l i * (Y q l * A j q) * C i j) := sum_congr rfl fun _ _ => sum_comm
    _ = ∑ i, ∑ q, ∑ l, ∑ j, -(A l i * (Y q l * A j q) * C i j) :=
        sum_congr rfl fun _ _ => sum_congr rfl fun _ _ => sum_comm
    _ = ∑ i, ∑ l, ∑ q, ∑ j, -(A l i * (Y q l * A j q) * C i j) := sum_congr rfl fun _ _ => sum_comm
    _ = ∑ l, ∑ i, ∑ q, ∑ j, -(A l i * (Y q l * A j q) * C i j) := sum_comm
    _ = ∑ l, ∑ q, ∑ i, ∑ j, -(A l i * (Y q l * A j q) * C i j) := sum_congr rfl fun _ _ => sum_comm
    _ = ∑ l, ∑ q, ∑ j, ∑ i, -(A l i * (Y q l * A j q) * C i j) :=
        sum_congr rfl fun _ _ => sum_congr rfl fun _ _ => sum_comm
    _ = _ := sum_congr rfl fun _ _ => sum_congr rfl fun _ _ => sum_congr rfl fun _ _ => sum_congr rfl fun _ _ => by
        ring

/-- The trace term of the reverse pass. -/
theorem trace_pull (c : ℝ) (A Y C : Mat dim dim) :
    frob (fun i j => mulABt (mulM (transpose A) (fun i j => if i = j then c else 0)) (mulM A Y) i j * (-1)) C =
      c * trace (mulM (fun a b => -mulM (mulM A C) A a b) Y) := by
  rw [← inv_pull, ← frob_smul]
  congr 1
  funext i j
  have e1 : mulM (transpose A) (fun i j : Fin dim => if i = j then c else 0) = fun i j => A j i * c := by
    funext i j
    unfold mulM transpose
    simp
  rw [e1]
  unfold mulABt mulM transpose
  simp only [sum_mul, mul_sum]
  exact sum_congr rfl fun _ _ => sum_congr rfl fun _ _ => by ring

/-- Product of the point's reverse pass with the derivatives of the mapping. -/
noncomputable def meshDotOld (E : En) (X : Mat m dim) (p : FPt ndof dim m) (u : Vec ndof) (K' : Mat dim dim) (J' : ℝ) : ℝ :=
  (meshPointOld E X p u).2 * J' + frob (meshPointOld E X p u).1 K'

theorem meshDotOld_form (hd : dim = 3) (E : En) (X : Mat m dim) (p : FPt ndof dim m) (u : Vec ndof) (K' : Mat dim dim) (J' : ℝ)
    (hJ : p.J ≠ 0) (hn : norm2 (p.bvec u) ≠ 0) :
    let N := norm2 (p.bvec u)
    let c := -(p.w * p.J * E.e1 (N / p.J))
    let T' := trace (mulM (fun a b => -mulM (mulM p.inv K') p.inv a b) (p.dJds X))
    let β := bil (p.dJds X) (p.bvec u) (mulTV p.cs u)
    let β' := bil (p.dJds X) (mulV K' (mulTV p.cs u)) (mulTV p.cs u)
    let N' := dotv (p.bvec u) (mulV K' (mulTV p.cs u)) / N
    let mb := -(p.w * p.J) * p.tr X * E.e1 (N / p.J) + -(p.w * p.J) * p.dBdsOld u X * E.e2 (N / p.J)
    meshDotOld E X p u K' J' =
      -(p.w * p.J) * E.e (N / p.J) * T' + c * (β' / (p.J * N) - N / p.J * T') +
      (-(c * (β / (p.J * N ^ 2) + p.tr X / p.J)) + mb / p.J) * N' +
      (-(c * (β / (p.J ^ 2 * N) - p.tr X * N / p.J ^ 2)) - mb * N / p.J ^ 2 -
        (p.dBdsOld u X * E.e1 (N / p.J) + E.e (N / p.J) * p.tr X) * p.w) * J' := by
  intro N c T' β β' N' mb
  have hB : (∑ j, ∑ k, (addABt (fun i j => 1 / (p.J * N) * vwt (p.bvec u) (mulTV p.cs u) i j + -N / p.J * transpose p.inv i j)
      p.dshape zeroM : Mat dim m) k j * X j k) = p.dBdsOld u X := by
    unfold FPt.dBdsOld FPt.dbdJOld
    simp only [if_pos hd]
    rfl
  have hD : ∀ i j, zeroM i j + mulM (fun (k : Fin dim) j => 0 + (0 - 1 * (p.w * p.J)) * E.e1 (N / p.J) * X j k) p.dshape i j =
      c * p.dJds X i j := by
    intro i j
    unfold mulM FPt.dJds mulAtB zeroM
    simp only [mul_sum, zero_add]
    exact sum_congr rfl fun l _ => by simp only [c]; ring
  have ht : p.tr X = frob (transpose p.inv) (p.dJds X) := by
    unfold FPt.tr trace mulM frob transpose
    exact sum_comm
  have ht' : trace (mulM p.inv (mulAtB X p.dshape)) = p.tr X := rfl
  unfold meshDotOld meshPointOld
  simp only
  rw [show norm2 (p.bvec u) = N from rfl, hB, ht']
  simp only [hD]
  rw [frob_add (fun i j => mulABt _ _ i j * (-1) + _), frob_add (fun i j => mulABt _ _ i j * (-1)), trace_pull, mulM_vwt, frob_vwt]
  have e1 : ∑ j, ∑ k, c * p.dJds X j k * (vwt (p.bvec u) (mulTV p.cs u) j k / (p.J * N ^ 2) + transpose p.inv j k / p.J) =
      c * (β / (p.J * N ^ 2) + p.tr X / p.J) := by
    rw [ht]
    simp only [β]
    rw [bil_eq]
    unfold vwt frob
    simp only [mul_sum, sum_div, ← sum_add_distrib]
    exact sum_congr rfl fun _ _ => sum_congr rfl fun _ _ => by ring
  have e2 : ∑ j, ∑ k, c * p.dJds X j k * (vwt (p.bvec u) (mulTV p.cs u) j k / (p.J ^ 2 * N) - transpose p.inv j k * N / p.J ^ 2) =
      c * (β / (p.J ^ 2 * N) - p.tr X * N / p.J ^ 2) := by
    rw [ht]
    simp only [β]
    rw [bil_eq]
    unfold vwt frob
    simp only [mul_sum, sum_mul, sum_div, ← sum_sub_distrib]
    exact sum_congr rfl fun _ _ => sum_congr rfl fun _ _ => by ring
  have e3 : frob (fun i j => mulM (transpose p.inv) (fun i j => mulM (transpose fun i j => c * p.dJds X i j * (-N / p.J))
      (transpose p.inv) i j * (-1)) i j) K' = -(c * (N / p.J)) * T' := by
    have := inv_pull p.inv (fun i j => c * p.dJds X i j * (-N / p.J)) K'
    rw [this]
    simp only [T']
    unfold trace mulM
    simp only [mul_sum]
    exact sum_congr rfl fun _ _ => sum_congr rfl fun _ _ => by ring
  have e4 : ∀ x : ℝ, bil K' (axpy x (p.bvec u) (mulV (fun i j => c * p.dJds X i j * (1 / (p.J * N))) (mulTV p.cs u))) (mulTV p.cs u) =
      c / (p.J * N) * β' + x * dotv (p.bvec u) (mulV K' (mulTV p.cs u)) := by
    intro x
    have : axpy x (p.bvec u) (mulV (fun i j => c * p.dJds X i j * (1 / (p.J * N))) (mulTV p.cs u)) =
        fun i => c / (p.J * N) * mulV (p.dJds X) (mulTV p.cs u) i + x * p.bvec u i := by
      funext i
      unfold axpy mulV
      rw [mul_sum]
      congr 1
      exact sum_congr rfl fun _ _ => by ring
    simp only [β']
    rw [this]
    unfold bil
    rw [dotv_add_left, dotv_smul_left, dotv_smul_left, dotv_comm (mulV K' (mulTV p.cs u))]
  rw [e1, e2, e3, e4]
  simp only [N', mb]
  rw [show mulAtB X p.dshape = p.dJds X from rfl, show trace (mulM (fun a b => -mulM (mulM p.inv K') p.inv a b) (p.dJds X)) = T' from rfl]
  have hn' : N ≠ 0 := hn
  field_simp
  ring

/-- The reverse pass at one quadrature point is the derivative of what that point contributes. -/
theorem point_mesh_old (hd : dim = 3) (μ : FMotion n dim m) (w : ℕ → ℝ) (cs : ℕ → Mat ndof dim) (dshape : ℕ → Mat m dim) (E : En)
    (hE : E.Smooth) (X : Mat m dim) (u : Vec ndof) (i : ℕ) (hi : i < n) (hJ0 : μ.J i 0 ≠ 0)
    (hn : norm2 ((μ.pts w cs dshape 0 i).bvec u) ≠ 0) :
    HasDerivAt (fun t => -(((μ.pts w cs dshape t i).dBdsOld u X *
        E.e1 (norm2 ((μ.pts w cs dshape t i).bvec u) / (μ.pts w cs dshape t i).J) +
        E.e (norm2 ((μ.pts w cs dshape t i).bvec u) / (μ.pts w cs dshape t i).J) *
          (μ.pts w cs dshape t i).tr X) * (w i * (μ.pts w cs dshape t i).J)))
      (meshDotOld E X (μ.pts w cs dshape 0 i) u (μ.jac' i) (μ.J' i)) 0 := by
  have hJ : HasDerivAt (fun t => (μ.pts w cs dshape t i).J) (μ.J' i) 0 := μ.hJ i hi
  have hT : HasDerivAt (fun t => (μ.pts w cs dshape t i).tr X)
      (trace (mulM (fun a b => -mulM (mulM (μ.inv i 0) (μ.jac' i)) (μ.inv i 0) a b) (mulAtB X (dshape i)))) 0 := by
    unfold FPt.tr trace
    refine HasDerivAt.fun_sum fun a _ => ?_
    show HasDerivAt (fun t => ∑ b, μ.inv i t a b * mulAtB X (dshape i) b a)
      (∑ b, -mulM (mulM (μ.inv i 0) (μ.jac' i)) (μ.inv i 0) a b * mulAtB X (dshape i) b a) 0
    exact HasDerivAt.fun_sum fun b _ => (μ.hinv i hi a b).mul_const _
  have hx : ∀ k, HasDerivAt (fun t => (μ.pts w cs dshape t i).bvec u k) (mulV (μ.jac' i) (mulTV (cs i) u) k) 0 := by
    intro k
    have e : ∀ t, (μ.pts w cs dshape t i).bvec u k = mulV (μ.jac i t) (mulTV (cs i) u) k := by
      intro t
      unfold FPt.bvec FPt.cdft FMotion.pts
      simp only [if_pos hd]
      unfold mulTV mulABt mulV
      simp only [sum_mul, mul_sum]
      rw [sum_comm]
      exact sum_congr rfl fun _ _ => sum_congr rfl fun _ _ => by ring
    simp only [e]
    unfold mulV
    exact HasDerivAt.fun_sum fun l _ => (μ.hjac i hi k l).mul_const _
  have hN := hasDerivAt_norm2 (fun t => (μ.pts w cs dshape t i).bvec u) _ 0 hx hn
  have hb := hasDerivAt_bil (mulAtB X (dshape i)) (fun t => (μ.pts w cs dshape t i).bvec u) (fun _ => mulTV (cs i) u) _ zeroV
    hx (fun k => hasDerivAt_const _ _)
  have hB := (hb.fun_div (hJ.fun_mul hN) (mul_ne_zero hJ0 hn)).fun_sub ((hN.fun_div hJ hJ0).fun_mul hT)
  have hB' := hB.congr_of_eventuallyEq (f₁ := fun t => (μ.pts w cs dshape t i).dBdsOld u X)
    (Filter.Eventually.of_forall fun t => dBdsOld_form hd _ _ X)
  refine (hasDerivAt_pointForce E (w i) _ _ _ _ _ _ _ _ hE.1 hE.2 hB' hN hJ hT hJ0).congr_deriv ?_
  rw [meshDotOld_form hd _ _ _ _ _ _ hJ0 hn]
  have ez : bil (mulAtB X (dshape i)) ((μ.pts w cs dshape 0 i).bvec u) (zeroV : Vec dim) = 0 := by
    simp [bil_eq, zeroV]
  rw [ez]
  have hJ0' : (μ.pts w cs dshape 0 i).J ≠ 0 := hJ0
  have ew : w i = (μ.pts w cs dshape 0 i).w := rfl
  have ei : μ.inv i 0 = (μ.pts w cs dshape 0 i).inv := rfl
  have ec : cs i = (μ.pts w cs dshape 0 i).cs := rfl
  have ed : mulAtB X (dshape i) = (μ.pts w cs dshape 0 i).dJds X := rfl
  rw [ew, ei, ec, ed]
  generalize μ.pts w cs dshape 0 i = p at *
  field_simp
  ring

/-- **C235** In three dimensions the mesh sensitivity of the older force integrator, multiplied with any motion of the mesh nodes, is the
derivative of the element's force contribution under that motion (virtual displacement and state held fixed).  (Missing: points of zero
flux density, where the code divides by zero; and two dimensions.) -/
theorem C235_mesh_sensitivity_partial (inBody : Bool) (μ : FMotion n 3 m) (w : ℕ → ℝ) (cs : ℕ → Mat ndof 3)
    (dshape : ℕ → Mat m 3) (E : ℕ → En) (hE : ∀ i < n, (E i).Smooth) (X : Mat m 3) (u : Vec ndof)
    (hJ : ∀ i < n, μ.J i 0 ≠ 0) (hn : ∀ i < n, (μ.pts w cs dshape 0 i).bvec u ≠ 0) :
    HasDerivAt (fun t => forceOld inBody n E (μ.pts w cs dshape t) X u)
      (∑ q ∈ range (3 * m), meshSensOld inBody n E (μ.pts w cs dshape 0) μ.wRev μ.jacRev X u q * μ.δ q) 0 := by
  cases inBody with
  | true =>
    simp only [forceOld, meshSensOld, if_true, zero_mul, sum_const_zero]
    exact hasDerivAt_const _ _
  | false =>
    by_cases hX : tiny X
    · simp only [forceOld, meshSensOld, if_pos hX, ite_self, zero_mul, sum_const_zero]
      exact hasDerivAt_const _ _
    · simp only [forceOld_eq _ _ _ _ _ hX]
      unfold meshSensOld
      rw [if_neg (by simp), if_neg hX]
      rw [scatterLoop3 (D := fun i => meshDotOld (E i) X (μ.pts w cs dshape 0 i) u (μ.jac' i) (μ.J' i))]
      · refine HasDerivAt.fun_sum fun i hi => ?_
        have hi := mem_range.1 hi
        refine point_mesh_old rfl μ w cs dshape (E i) (hE i hi) X u i hi (hJ i hi) ?_
        intro h
        apply hn i hi
        funext k; exact (norm2_eq_zero _).1 h k
      · intro i hi
        have h1 := μ.hwRev i hi 1
        unfold meshDotOld
        rw [← μ.hjacRev i hi, ← one_mul (μ.J' i), ← h1]
        simp only [mul_sum, ← sum_add_distrib]
        exact sum_congr rfl fun k _ => sum_congr rfl fun j _ => by ring

/-- **C235** In three dimensions the older and the current integrator give the same directional derivative with respect to the mesh. -/
theorem C235_same_as_current (inBody : Bool) (μ : FMotion n 3 m) (w : ℕ → ℝ) (cs : ℕ → Mat ndof 3)
    (dshape : ℕ → Mat m 3) (E : ℕ → En) (hE : ∀ i < n, (E i).Smooth) (X : Mat m 3) (u : Vec ndof)
    (hJ : ∀ i < n, μ.J i 0 ≠ 0) (hn : ∀ i < n, (μ.pts w cs dshape 0 i).bvec u ≠ 0)
    (hi : ∀ i < n, ∀ t a b, μ.inv i t a b = μ.adj i t a b / μ.J i t) :
    ∑ q ∈ range (3 * m), meshSensOld inBody n E (μ.pts w cs dshape 0) μ.wRev μ.jacRev X u q * μ.δ q =
    ∑ q ∈ range (3 * m), meshSens inBody n E (μ.pts w cs dshape 0) μ.adjRev μ.wRev μ.jacRev X u q * μ.δ q := by
  have h1 := C235_mesh_sensitivity_partial inBody μ w cs dshape E hE X u hJ hn
  have h2 := C134_mesh_sensitivity_partial inBody μ w cs dshape E hE X u hJ hn
  have e : ∀ t, forceOld inBody n E (μ.pts w cs dshape t) X u = force inBody n E (μ.pts w cs dshape t) X u := by
    intro t
    refine (C232_same_in_3d inBody E (μ.pts w cs dshape t) X u ?_).1
    intro i hi' a b
    exact hi i hi' t a b
  simp only [e] at h1
  exact h1.unique h2

/-! ### Non-vacuity -/

/-- Moving node 1 of the unit tetrahedron in direction `x`. -/
noncomputable def tetMotion : FMotion 1 3 4 :=
  isoFMotion3 1 4 (fun _ j b => if h : j < 4 then tetSh ⟨j, h⟩ b else 0)
    (fun q => if q = 1 ∨ q = 6 ∨ q = 11 then 1 else 0) (fun q => if q = 1 then 1 else 0)
    (by intro i _; simp [det3, isoJac3, tetSh, sum_range_succ])

/-- The hypotheses of C235 are met by that motion, with a uniform field and the virtual displacement of node 1. -/
example : HasDerivAt (fun t => forceOld false 1 (fun _ => quadEn)
      (tetMotion.pts (fun _ => 1) (fun _ => (![![0, 0, 1]] : Mat 1 3)) (fun _ => tetSh) t)
      ![![0, 0, 0], ![1, 0, 0], ![0, 0, 0], ![0, 0, 0]] ![2])
    (∑ q ∈ range (3 * 4), meshSensOld false 1 (fun _ => quadEn)
      (tetMotion.pts (fun _ => 1) (fun _ => (![![0, 0, 1]] : Mat 1 3)) (fun _ => tetSh) 0) tetMotion.wRev
      tetMotion.jacRev ![![0, 0, 0], ![1, 0, 0], ![0, 0, 0], ![0, 0, 0]] ![2] q * tetMotion.δ q) 0 := by
  apply C235_mesh_sensitivity_partial
  · exact fun _ _ => quadEn_smooth
  · intro i _; simp [tetMotion, isoFMotion3, det3, isoJac3, tetSh, sum_range_succ]
  · intro i _ h
    have := congrFun h 2
    simp [tetMotion, FMotion.pts, FPt.bvec, FPt.cdft, isoFMotion3, isoJac3, tetSh, sum_range_succ,
      mulTV, mulABt, Fin.sum_univ_three] at this

/-- Its mapping has the inverse C235's comparison asks for. -/
example : ∀ i < 1, ∀ t a b, tetMotion.inv i t a b = tetMotion.adj i t a b / tetMotion.J i t := fun _ _ _ _ _ => rfl

end Verif.Force
