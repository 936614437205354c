import Verif.ProjInteg
import Verif.DiffusionSensProps
import Verif.LossesIntegProps

/-!
Properties C183 (mesh sensitivities of the projector's and the current load's bilinear forms) and C184 (of the
loads).
-/

namespace Verif.ProjInteg
open Finset Verif.Sbp Verif.Dense Verif.Diffusion Verif.Losses

set_option linter.unusedSectionVars false

variable {nu nv ndof dim n m : ℕ}

/-! ### Specification -/

/-- The physical value at a quadrature point of a field with coefficients `u`: gradients of H1 functions and
Nédélec fields are both mapped by `J⁻ᵀ`, i.e. `Σ_r u_r Σ_l S_rl adj_lk / J`. -/
noncomputable def phys {nd : ℕ} (S : Mat nd dim) (adj : Mat dim dim) (J : ℝ) (u : Vec nd) : Vec dim := fun k =>
  ∑ r, u r * ∑ l, S r l * (adj l k / J)

/-- The quadrature of `∫ u·ψ` for two fields mapped by `J⁻ᵀ`. -/
noncomputable def inner (n : ℕ) (pt : ℕ → BPt nu nv dim) (u : Vec nu) (psi : Vec nv) : ℝ :=
  ∑ i ∈ range n, (pt i).w * (pt i).J *
    dotv (phys (pt i).su (pt i).adj (pt i).J u) (phys (pt i).sv (pt i).adj (pt i).J psi)

/-- The quadrature points after a motion of the mesh by `t`. -/
noncomputable def bpts (μ : Motion n dim m) (w : ℕ → ℝ) (su : ℕ → Mat nu dim) (sv : ℕ → Mat nv dim) (t : ℝ) (i : ℕ) :
    BPt nu nv dim := ⟨w i, su i, sv i, μ.adj i t, μ.J i t⟩

/-! ### Lemmas -/

theorem phys_eq {nd : ℕ} (S : Mat nd dim) (adj : Mat dim dim) (J : ℝ) (u : Vec nd) :
    phys S adj J u = fun k => mulTV (mulM S adj) u k / J := by
  funext k
  unfold phys mulTV mulM
  rw [sum_div]
  refine sum_congr rfl fun r _ => ?_
  rw [sum_mul, mul_sum, sum_div]
  exact sum_congr rfl fun l _ => by ring

theorem inner_eq (pt : ℕ → BPt nu nv dim) (u : Vec nu) (psi : Vec nv) (hJ : ∀ i < n, (pt i).J ≠ 0) :
    inner n pt u psi = ∑ i ∈ range n, (pt i).w / (pt i).J * dotv (mulTV (pt i).dxu u) (mulTV (pt i).dxv psi) := by
  unfold inner
  refine sum_congr rfl fun i hi => ?_
  have h := hJ i (mem_range.1 hi)
  rw [phys_eq, phys_eq]
  unfold dotv BPt.dxu BPt.dxv
  rw [mul_sum, mul_sum]
  refine sum_congr rfl fun k _ => ?_
  field_simp

theorem dot_axpy (c : ℝ) (a y : Vec dim) : dotv (axpy c a zeroV) y = c * dotv a y := by
  rw [← dotv_smul_left]
  congr 1; funext i; simp [axpy, zeroV]

theorem addVWt_zero (v : Vec nu) (w : Vec dim) : addVWt 1 v w (zeroM : Mat nu dim) = fun i j => v i * w j := by
  funext i j; simp [addVWt, zeroM]

theorem addVWt_two (v v' : Vec nu) (w w' : Vec dim) :
    addVWt 1 v' w' (addVWt 1 v w (zeroM : Mat nu dim)) = fun i j => v i * w j + v' i * w' j := by
  funext i j; simp [addVWt, zeroM]

theorem eventually_J (μ : Motion n dim m) (hJ : ∀ i < n, μ.J i 0 ≠ 0) :
    ∀ᶠ t : ℝ in nhds 0, ∀ i < n, μ.J i t ≠ 0 := by
  have h : ∀ i ∈ range n, ∀ᶠ t : ℝ in nhds 0, μ.J i t ≠ 0 := fun i hi =>
    (μ.hJ i (mem_range.1 hi)).continuousAt.eventually_ne (hJ i (mem_range.1 hi))
  filter_upwards [(Filter.eventually_all_finset (range n)).2 h] with t ht i hi
  exact ht i (mem_range.2 hi)

/-- What a point must contribute. -/
def PointOK (c : ℝ) (p : BPt nu nv dim) (u : Vec nu) (psi : Vec nv) (r : Mat dim dim × ℝ) : Prop :=
  ∀ (A' : Mat dim dim) (J' : ℝ), frob r.1 A' + r.2 * J' =
    c * (p.w / p.J) * (dotv (mulTV (mulM p.su A') u) (mulTV p.dxv psi) +
      dotv (mulTV p.dxu u) (mulTV (mulM p.sv A') psi)) -
      c * p.w * J' / p.J ^ 2 * dotv (mulTV p.dxu u) (mulTV p.dxv psi)

theorem diffRev_ok (p : QPt ndof dim) (u psi : Vec ndof) : PointOK 1 (same p) u psi (diffRev p u psi) := by
  intro A' J'
  unfold diffRev
  simp only
  rw [frob_mulAtB, addVWt_two, frob_add, frob_outer, frob_outer, dot_axpy, dot_axpy]
  change _ = 1 * (p.w / p.J) * (dotv (mulTV (mulM p.dshape A') u) (mulTV p.dxt psi) +
    dotv (mulTV p.dxt u) (mulTV (mulM p.dshape A') psi)) - 1 * p.w * J' / p.J ^ 2 * dotv (mulTV p.dxt u) (mulTV p.dxt psi)
  rw [dotv_comm (mulTV (mulM p.dshape A') u)]
  ring

theorem massRev_ok (p : QPt ndof dim) (u psi : Vec ndof) : PointOK 1 (same p) u psi (massRev 1 p u psi) := by
  have : massRev 1 p u psi = diffRev p u psi := by unfold massRev diffRev; simp only [one_mul]
  rw [this]; exact diffRev_ok p u psi

theorem wdivRev_ok (p : BPt nu nv dim) (u : Vec nu) (psi : Vec nv) : PointOK (-1) p u psi (wdivRev p u psi) := by
  intro A' J'
  unfold wdivRev
  simp only
  rw [frob_add, frob_mulAtB, frob_mulAtB, addVWt_zero, addVWt_zero, frob_outer, frob_outer, dot_axpy, dot_axpy]
  rw [dotv_comm (mulTV (mulM p.su A') u)]
  ring

/-- A correct point pass gives the derivative of the form. -/
theorem assemble_hasDerivAt (c : ℝ) (μ : Motion n dim m) (w : ℕ → ℝ) (su : ℕ → Mat nu dim) (sv : ℕ → Mat nv dim)
    (u : Vec nu) (psi : Vec nv) (rev : ℕ → Mat dim dim × ℝ)
    (hrev : ∀ i < n, PointOK c (bpts μ w su sv 0 i) u psi (rev i)) (hJ : ∀ i < n, μ.J i 0 ≠ 0) :
    HasDerivAt (fun t => c * inner n (bpts μ w su sv t) u psi)
      (∑ q ∈ range (dim * m), assemble n m rev μ.adjRev μ.wRev q * μ.δ q) 0 := by
  have hv : (fun t => c * inner n (bpts μ w su sv t) u psi) =ᶠ[nhds 0] fun t => ∑ i ∈ range n, c * (w i / μ.J i t *
      dotv (mulTV (mulM (su i) (μ.adj i t)) u) (mulTV (mulM (sv i) (μ.adj i t)) psi)) := by
    filter_upwards [eventually_J μ hJ] with t ht
    rw [inner_eq _ _ _ (fun i hi => ht i hi), mul_sum]
    rfl
  refine HasDerivAt.congr_of_eventuallyEq ?_ hv
  unfold assemble
  rw [scatterLoop3 (D := fun i => frob (rev i).1 (μ.adj' i) + (rev i).2 * μ.J' i)]
  · refine HasDerivAt.fun_sum fun i hi => ?_
    have hi := mem_range.1 hi
    have hu := fun k => μ.hasDerivAt_flux i hi (su i) u k
    have hp := fun k => μ.hasDerivAt_flux i hi (sv i) psi k
    have hd := hasDerivAt_dotv (fun t => mulTV (mulM (su i) (μ.adj i t)) u)
      (fun t => mulTV (mulM (sv i) (μ.adj i t)) psi) _ _ 0 hu hp
    have hw : HasDerivAt (fun t => w i / μ.J i t) (-(w i * μ.J' i) / μ.J i 0 ^ 2) 0 :=
      ((hasDerivAt_const (0 : ℝ) (w i)).fun_div (μ.hJ i hi) (hJ i hi)).congr_deriv (by ring)
    refine ((hw.fun_mul hd).const_mul c).congr_deriv ?_
    rw [hrev i hi]
    change _ = c * (w i / μ.J i 0) * (_ + _) - c * w i * μ.J' i / μ.J i 0 ^ 2 * dotv (mulTV (mulM (su i) (μ.adj i 0)) u)
      (mulTV (mulM (sv i) (μ.adj i 0)) psi)
    change _ = c * (w i / μ.J i 0) * (dotv (mulTV (mulM (su i) (μ.adj' i)) u) (mulTV (mulM (sv i) (μ.adj i 0)) psi) +
      dotv (mulTV (mulM (su i) (μ.adj i 0)) u) (mulTV (mulM (sv i) (μ.adj' i)) psi)) - _
    ring
  · intro i hi
    have h1 := μ.hwRev i hi 1
    rw [← μ.hadjRev i hi, ← one_mul (μ.J' i), ← h1, mul_sum, ← sum_add_distrib]
    refine sum_congr rfl fun k _ => ?_
    rw [mul_sum, ← sum_add_distrib]
    exact sum_congr rfl fun j _ => by ring

/-! ### C183 -/

/-- **C183** The diffusion sensitivity is the derivative of `ψᵀ D φ = ∫ ∇φ·∇ψ` under every motion of the nodes. -/
theorem C183_diffusion (μ : Motion n dim m) (w : ℕ → ℝ) (dshape : ℕ → Mat ndof dim) (u psi : Vec ndof)
    (hJ : ∀ i < n, μ.J i 0 ≠ 0) :
    HasDerivAt (fun t => inner n (bpts μ w dshape dshape t) u psi)
      (∑ q ∈ range (dim * m), diffMesh n m (μ.pts w dshape 0) μ.adjRev μ.wRev u psi q * μ.δ q) 0 := by
  have h := assemble_hasDerivAt 1 μ w dshape dshape u psi (fun i => diffRev (μ.pts w dshape 0 i) u psi)
    (fun i _ => diffRev_ok _ u psi) hJ
  simp only [one_mul] at h
  exact h

/-- **C183** The weak-divergence sensitivity is the derivative of `ψᵀ W x = -∫ x·∇ψ`. -/
theorem C183_weak_divergence (μ : Motion n dim m) (w : ℕ → ℝ) (vshape : ℕ → Mat nu dim) (dshape : ℕ → Mat nv dim)
    (x : Vec nu) (psi : Vec nv) (hJ : ∀ i < n, μ.J i 0 ≠ 0) :
    HasDerivAt (fun t => -inner n (bpts μ w vshape dshape t) x psi)
      (∑ q ∈ range (dim * m), wdivMesh n m (bpts μ w vshape dshape 0) μ.adjRev μ.wRev x psi q * μ.δ q) 0 := by
  have h := assemble_hasDerivAt (-1) μ w vshape dshape x psi (fun i => wdivRev (bpts μ w vshape dshape 0 i) x psi)
    (fun i _ => wdivRev_ok _ x psi) hJ
  simp only [neg_mul, one_mul] at h
  exact h

/-- **C183** The mass sensitivity, as the current load constructs it (`alpha = 1`), is the derivative of
`ψᵀ M x = ∫ x·ψ`. -/
theorem C183_mass_partial (μ : Motion n dim m) (w : ℕ → ℝ) (vshape : ℕ → Mat ndof dim) (x psi : Vec ndof)
    (hJ : ∀ i < n, μ.J i 0 ≠ 0) :
    HasDerivAt (fun t => inner n (bpts μ w vshape vshape t) x psi)
      (∑ q ∈ range (dim * m), massMesh 1 n m (μ.pts w vshape 0) μ.adjRev μ.wRev x psi q * μ.δ q) 0 := by
  have h := assemble_hasDerivAt 1 μ w vshape vshape x psi (fun i => massRev 1 (μ.pts w vshape 0 i) x psi)
    (fun i _ => massRev_ok _ x psi) hJ
  simp only [one_mul] at h
  exact h

/-- The uniformly growing square: the nodes `(0,0), (1,0), (0,1)` of an affine triangle moved outwards. -/
noncomputable def growTri : Motion 1 2 3 :=
  isoMotion 1 3 (fun _ j l => if j = 0 then -1 else if j = (l : ℕ) + 1 then 1 else 0)
    (fun q => if q = 1 ∨ q = 5 then 1 else 0) (fun q => if q = 1 ∨ q = 5 then 1 else 0)

theorem growTri_jac (t : ℝ) : isoJac 3 (fun j (l : Fin 2) => if j = 0 then -1 else if j = (l : ℕ) + 1 then 1 else 0)
    (fun q => (if q = 1 ∨ q = 5 then 1 else 0) + t * (if q = 1 ∨ q = 5 then 1 else 0)) =
      fun a b => if a = b then 1 + t else 0 := by
  funext a b
  fin_cases a <;> fin_cases b <;> simp [isoJac, sum_range_succ]

theorem growTri_adj (t : ℝ) : growTri.adj 0 t = fun a b => if a = b then 1 + t else 0 := by
  change adj2 (isoJac 3 _ _) = _
  rw [growTri_jac]
  funext a b
  unfold adj2
  fin_cases a <;> fin_cases b <;> simp

theorem growTri_J (t : ℝ) : growTri.J 0 t = (1 + t) ^ 2 := by
  change det2 (isoJac 3 _ _) = _
  rw [growTri_jac]
  unfold det2
  simp; ring

theorem growTri_J' : growTri.J' 0 = 2 := by
  have h := growTri.hJ 0 (by norm_num)
  have e : growTri.J 0 = fun t => (1 + t) ^ 2 := by funext t; exact growTri_J t
  rw [e] at h
  have h2 : HasDerivAt (fun t : ℝ => (1 + t) ^ 2) 2 0 :=
    ((((hasDerivAt_id' (0 : ℝ)).const_add 1).fun_pow 2)).congr_deriv (by norm_num)
  exact h.unique h2

theorem growTri_adj' : growTri.adj' 0 = fun a b => if a = b then 1 else 0 := by
  funext a b
  have h := growTri.hadj 0 (by norm_num) a b
  have e : (fun t => growTri.adj 0 t a b) = fun t => if a = b then 1 + t else 0 := by
    funext t; rw [growTri_adj]
  rw [e] at h
  refine h.unique ?_
  by_cases hab : a = b
  · simp only [hab, if_true]
    exact ((hasDerivAt_id' (0 : ℝ)).const_add 1)
  · simp only [hab, if_false]
    exact hasDerivAt_const _ _

/-- **C183, violation** With any other factor than `1` the mass sensitivity is wrong: on a growing triangle
`alpha ∫ x·ψ` of fields mapped by `J⁻ᵀ` does not change in two dimensions, but the sensitivity reports
`2 alpha - 2` (the weight term lacks the factor). -/
theorem C183_mass_alpha_false (alpha : ℝ) (ha : alpha ≠ 1) :
    ∃ (w : ℕ → ℝ) (vshape : ℕ → Mat 1 2) (x psi : Vec 1),
      HasDerivAt (fun t => alpha * inner 1 (bpts growTri w vshape vshape t) x psi) 0 0 ∧
      ∑ q ∈ range (2 * 3), massMesh alpha 1 3 (growTri.pts w vshape 0) growTri.adjRev growTri.wRev x psi q * growTri.δ q =
        2 * alpha - 2 ∧ 2 * alpha - 2 ≠ 0 := by
  refine ⟨fun _ => 1, fun _ _ l => if l = 0 then 1 else 0, fun _ => 1, fun _ => 1, ?_, ?_, ?_⟩
  · have hnear : ∀ᶠ t : ℝ in nhds 0, (1 + t) ≠ 0 := by
      have : ContinuousAt (fun t : ℝ => 1 + t) 0 := by fun_prop
      exact this.eventually_ne (by norm_num)
    refine (hasDerivAt_const (0 : ℝ) alpha).congr_of_eventuallyEq ?_
    filter_upwards [hnear] with t ht
    simp only [inner, range_one, sum_singleton, bpts, phys, growTri_adj, growTri_J, dotv, Fin.sum_univ_two,
      Fin.sum_univ_one]
    simp
    field_simp
  · unfold massMesh assemble
    rw [scatterLoop3 (D := fun i => frob (massRev alpha (growTri.pts (fun _ => 1)
      (fun _ => (fun _ l => if l = 0 then 1 else 0 : Mat 1 2)) 0 i) (fun _ => 1 : Vec 1) (fun _ => 1 : Vec 1)).1 (growTri.adj' i) +
      (massRev alpha (growTri.pts (fun _ => 1) (fun _ => (fun _ l => if l = 0 then 1 else 0 : Mat 1 2)) 0 i)
      (fun _ => 1 : Vec 1) (fun _ => 1 : Vec 1)).2 * growTri.J' i)]
    · simp only [range_one, sum_singleton, growTri_adj', growTri_J', massRev, Motion.pts, growTri_adj, growTri_J,
        QPt.dxt, frob, mulAtB, addVWt, axpy, zeroM, zeroV, mulTV, mulM, dotv, Fin.sum_univ_two, Fin.sum_univ_one]
      simp
      ring
    · intro i hi
      have h1 := growTri.hwRev i hi 1
      rw [one_mul] at h1
      rw [← growTri.hadjRev i hi, ← h1, mul_sum, ← sum_add_distrib]
      refine sum_congr rfl fun k _ => ?_
      rw [mul_sum, ← sum_add_distrib]
      refine sum_congr rfl fun j _ => ?_
      ring
  · intro h; apply ha; linarith

/-- **C183, violation** The projector sets its quadrature rule on the two forms but not on their sensitivities: the
orders differ for every degree, on simplices and (in three dimensions, on meshes of degree at least two) on tensor-product elements, so the
product with respect to the mesh coordinates is that of forms integrated by another rule. -/
theorem C183_rule_false (ow p : ℕ) (hp : 0 < p) :
    diffSensRule .Pk p 3 ≠ projRule ow p ∧ wdivSensRule .Pk p p 3 ≠ projRule ow p ∧
      (2 < ow → diffSensRule .Qk p 3 ≠ projRule ow p ∧ wdivSensRule .Qk p p 3 ≠ projRule ow p) := by
  simp [diffSensRule, wdivSensRule, projRule]
  omega

/-- **C183** The mass matrix and its sensitivity are integrated with the same rule. -/
theorem C183_mass_same_rule (ow p : ℕ) : massSensRule ow p = projRule ow p := rfl

/-- Non-vacuity of C183: the growing triangle with a gradient and a Nédélec-like field whose form does change. -/
example : (∀ i < 1, growTri.J i 0 ≠ 0) ∧ growTri.J' 0 = 2 ∧ ∃ (x psi : Vec 3),
    inner 1 (bpts growTri (fun _ => 1) (fun _ => fun r l => if (r : ℕ) = l + 1 then 1 else 0)
      (fun _ => fun r l => if (r : ℕ) = l + 1 then 1 else 0) 0) x psi = 1 := by
  refine ⟨fun i hi => ?_, growTri_J', fun r => if r = 1 then 1 else 0, fun r => if r = 1 then 1 else 0, ?_⟩
  · obtain rfl : i = 0 := by omega
    rw [growTri_J]; norm_num
  · simp [inner, bpts, phys, growTri_adj, growTri_J, dotv, Fin.sum_univ_two]

/-! ### C184 -/

/-- **C184** Vector load: the sensitivity is the derivative of `alpha ∫ F·ψ` under every motion of the nodes,
including the dependence of the coefficient on position (`F.EvalRevDiff` being its adjoint). -/
theorem C184_vector_load (alpha : ℝ) (μ : Motion n dim m) (w : ℕ → ℝ) (vshape : ℕ → Mat ndof dim)
    (F : ℝ → ℕ → Vec dim) (F' : ℕ → Vec dim) (hF : ∀ i < n, ∀ k, HasDerivAt (fun t => F t i k) (F' i k) 0)
    (fRev : ℕ → Vec dim → ℕ → ℕ → ℝ)
    (hfRev : ∀ i < n, ∀ vbar, ∑ k ∈ range dim, ∑ j ∈ range m, fRev i vbar k j * μ.δ (k * m + j) = dotv vbar (F' i))
    (psi : Vec ndof) (hJ : ∀ i < n, μ.J i 0 ≠ 0) :
    HasDerivAt (fun t => alpha * ∑ i ∈ range n, w i * μ.J i t *
        dotv (F t i) (phys (vshape i) (μ.adj i t) (μ.J i t) psi))
      (∑ q ∈ range (dim * m), lfMesh alpha n m (μ.pts w vshape 0) (F 0) fRev μ.adjRev psi q * μ.δ q) 0 := by
  have hv : (fun t => alpha * ∑ i ∈ range n, w i * μ.J i t *
      dotv (F t i) (phys (vshape i) (μ.adj i t) (μ.J i t) psi)) =ᶠ[nhds 0]
      fun t => ∑ i ∈ range n, w i * alpha * dotv (F t i) (mulTV (mulM (vshape i) (μ.adj i t)) psi) := by
    filter_upwards [eventually_J μ hJ] with t ht
    rw [mul_sum]
    refine sum_congr rfl fun i hi => ?_
    have h := ht i (mem_range.1 hi)
    rw [phys_eq]
    unfold dotv
    rw [mul_sum, mul_sum, mul_sum]
    refine sum_congr rfl fun k _ => ?_
    field_simp
  refine HasDerivAt.congr_of_eventuallyEq ?_ hv
  unfold lfMesh
  rw [scatterLoop3 (D := fun i => dotv (lfRev alpha (μ.pts w vshape 0 i) (F 0 i) psi).1 (F' i) +
    frob (lfRev alpha (μ.pts w vshape 0 i) (F 0 i) psi).2 (μ.adj' i))]
  · refine HasDerivAt.fun_sum fun i hi => ?_
    have hi := mem_range.1 hi
    have hp := fun k => μ.hasDerivAt_flux i hi (vshape i) psi k
    have hd := hasDerivAt_dotv (fun t => F t i) (fun t => mulTV (mulM (vshape i) (μ.adj i t)) psi) _ _ 0 (hF i hi) hp
    refine (hd.const_mul (w i * alpha)).congr_deriv ?_
    unfold lfRev
    simp only
    rw [frob_mulAtB, addVWt_zero, frob_outer, dot_axpy, dot_axpy]
    change _ = 1 * (w i * alpha) * dotv (mulTV (mulM (vshape i) (μ.adj i 0)) psi) (F' i) +
      1 * (w i * alpha) * dotv (F 0 i) (mulTV (mulM (vshape i) (μ.adj' i)) psi)
    rw [dotv_comm (mulTV (mulM (vshape i) (μ.adj i 0)) psi)]
    ring
  · intro i hi
    rw [← μ.hadjRev i hi, ← hfRev i hi]
    simp only [← sum_add_distrib]
    exact sum_congr rfl fun k _ => sum_congr rfl fun j _ => by ring

/-- **C184** Curl load (magnets in three dimensions): the sensitivity is the derivative of `alpha ∫ F·curl ψ`; `C t i`
are the physical curls of the shape functions and `CalcPhysCurlShapeRevDiff` is the adjoint of their derivative. -/
theorem C184_curl_load (alpha : ℝ) (μ : Motion n dim m) (w : ℕ → ℝ) (C : ℝ → ℕ → Mat ndof dim) (C' : ℕ → Mat ndof dim)
    (hC : ∀ i < n, ∀ r k, HasDerivAt (fun t => C t i r k) (C' i r k) 0)
    (F : ℝ → ℕ → Vec dim) (F' : ℕ → Vec dim) (hF : ∀ i < n, ∀ k, HasDerivAt (fun t => F t i k) (F' i k) 0)
    (fRev : ℕ → Vec dim → ℕ → ℕ → ℝ)
    (hfRev : ∀ i < n, ∀ vbar, ∑ k ∈ range dim, ∑ j ∈ range m, fRev i vbar k j * μ.δ (k * m + j) = dotv vbar (F' i))
    (cRev : ℕ → Mat ndof dim → ℕ → ℕ → ℝ)
    (hcRev : ∀ i < n, ∀ B, ∑ k ∈ range dim, ∑ j ∈ range m, cRev i B k j * μ.δ (k * m + j) = frob B (C' i))
    (psi : Vec ndof) :
    HasDerivAt (fun t => alpha * ∑ i ∈ range n, w i * μ.J i t * dotv (F t i) (fun k => ∑ r, psi r * C t i r k))
      (∑ q ∈ range (dim * m), curlLfMesh alpha n m (fun i => ⟨w i, C 0 i, μ.J i 0⟩) (F 0) fRev cRev μ.wRev psi q * μ.δ q)
      0 := by
  have hcv : ∀ t i, (fun k => ∑ r, psi r * C t i r k) = mulTV (C t i) psi := by
    intro t i; funext k; unfold mulTV; exact sum_congr rfl fun r _ => mul_comm _ _
  have hv : ∀ t, alpha * ∑ i ∈ range n, w i * μ.J i t * dotv (F t i) (fun k => ∑ r, psi r * C t i r k) =
      ∑ i ∈ range n, (w i * alpha) * (μ.J i t * dotv (F t i) (mulTV (C t i) psi)) := by
    intro t
    rw [mul_sum]
    exact sum_congr rfl fun i _ => by rw [hcv]; ring
  simp only [hv]
  unfold curlLfMesh
  rw [scatterLoop3 (D := fun i => dotv (curlLfRev alpha ⟨w i, C 0 i, μ.J i 0⟩ (F 0 i) psi).1 (F' i) +
    frob (curlLfRev alpha ⟨w i, C 0 i, μ.J i 0⟩ (F 0 i) psi).2.1 (C' i) +
    (curlLfRev alpha ⟨w i, C 0 i, μ.J i 0⟩ (F 0 i) psi).2.2 * μ.J' i)]
  · refine HasDerivAt.fun_sum fun i hi => ?_
    have hi := mem_range.1 hi
    have hp : ∀ k, HasDerivAt (fun t => mulTV (C t i) psi k) (mulTV (C' i) psi k) 0 := fun k => by
      unfold mulTV
      exact HasDerivAt.fun_sum fun r _ => (hC i hi r k).mul_const _
    have hd := hasDerivAt_dotv (fun t => F t i) (fun t => mulTV (C t i) psi) _ _ 0 (hF i hi) hp
    refine (((μ.hJ i hi).fun_mul hd).const_mul (w i * alpha)).congr_deriv ?_
    unfold curlLfRev
    simp only
    rw [addVWt_zero, frob_outer, dot_axpy, dot_axpy, dotv_comm (mulTV (C 0 i) psi) (F' i),
      dotv_comm (mulTV (C 0 i) psi) (F 0 i)]
    ring
  · intro i hi
    rw [← μ.hwRev i hi, ← hfRev i hi, ← hcRev i hi]
    simp only [← sum_add_distrib]
    exact sum_congr rfl fun k _ => sum_congr rfl fun j _ => by ring

/-- **C184** Scalar load (currents in two dimensions): the sensitivity is the derivative of `alpha ∫ F ψ`, with
position-dependent coefficient and basis (the latter constant for H1 elements: `S'` zero). -/
theorem C184_scalar_load (alpha : ℝ) (μ : Motion n dim m) (w : ℕ → ℝ) (S : ℝ → ℕ → Vec ndof) (S' : ℕ → Vec ndof)
    (hS : ∀ i < n, ∀ r, HasDerivAt (fun t => S t i r) (S' i r) 0)
    (F : ℝ → ℕ → ℝ) (F' : ℕ → ℝ) (hF : ∀ i < n, HasDerivAt (fun t => F t i) (F' i) 0)
    (fRev : ℕ → ℝ → ℕ → ℕ → ℝ)
    (hfRev : ∀ i < n, ∀ v, ∑ k ∈ range dim, ∑ j ∈ range m, fRev i v k j * μ.δ (k * m + j) = v * F' i)
    (sRev : ℕ → Vec ndof → ℕ → ℕ → ℝ)
    (hsRev : ∀ i < n, ∀ s, ∑ k ∈ range dim, ∑ j ∈ range m, sRev i s k j * μ.δ (k * m + j) = dotv s (S' i))
    (psi : Vec ndof) :
    HasDerivAt (fun t => alpha * ∑ i ∈ range n, w i * μ.J i t * (F t i * ∑ r, psi r * S t i r))
      (∑ q ∈ range (dim * m), scalMesh alpha n m dim (fun i => ⟨w i, S 0 i, μ.J i 0⟩) (F 0) sRev fRev μ.wRev psi q * μ.δ q)
      0 := by
  have hv : ∀ t, alpha * ∑ i ∈ range n, w i * μ.J i t * (F t i * ∑ r, psi r * S t i r) =
      ∑ i ∈ range n, (alpha * w i) * (μ.J i t * (F t i * dotv psi (S t i))) := by
    intro t
    rw [mul_sum]
    exact sum_congr rfl fun i _ => by unfold dotv; ring
  simp only [hv]
  unfold scalMesh
  rw [scatterLoop3 (D := fun i => dotv (scalRev alpha ⟨w i, S 0 i, μ.J i 0⟩ (F 0 i) psi).2.1 (S' i) +
    (scalRev alpha ⟨w i, S 0 i, μ.J i 0⟩ (F 0 i) psi).1 * F' i +
    (scalRev alpha ⟨w i, S 0 i, μ.J i 0⟩ (F 0 i) psi).2.2 * μ.J' i)]
  · refine HasDerivAt.fun_sum fun i hi => ?_
    have hi := mem_range.1 hi
    have hd := hasDerivAt_dotv (fun _ => psi) (fun t => S t i) (fun _ => 0) _ 0
      (fun r => hasDerivAt_const _ _) (hS i hi)
    refine (((μ.hJ i hi).fun_mul ((hF i hi).fun_mul hd)).const_mul (alpha * w i)).congr_deriv ?_
    have hz : dotv (fun _ => 0) (S 0 i) = 0 := by simp [dotv]
    rw [hz]
    unfold scalRev
    simp only
    rw [dot_axpy]
    ring
  · intro i hi
    rw [← μ.hwRev i hi, ← hfRev i hi, ← hsRev i hi]
    simp only [← sum_add_distrib]
    exact sum_congr rfl fun k _ => sum_congr rfl fun j _ => by ring

/-- **C184** On simplices the scalar load and its sensitivity use the same rule... -/
theorem C184_scalar_same_rule (p dim : ℕ) : scalSensRule .Pk p dim = scalRule p := by
  simp [scalSensRule, scalRule]

/-- **C184, violation** ...but not on tensor-product elements (in any dimension). -/
theorem C184_scalar_rule_false (p dim : ℕ) (hp : 0 < p) (hd : 0 < dim) :
    scalSensRule .Qk p dim ≠ scalRule p := by
  simp [scalSensRule, scalRule]; omega

/-- Non-vacuity of C184: on the growing triangle a coefficient proportional to the coordinate `x` at the node
`(1+t, 0)`, whose `EvalRevDiff` is the derivative. -/
example : ∃ (F : ℝ → ℕ → Vec 2) (F' : ℕ → Vec 2) (fRev : ℕ → Vec 2 → ℕ → ℕ → ℝ),
    (∀ i < 1, ∀ k, HasDerivAt (fun t => F t i k) (F' i k) 0) ∧
    (∀ i < 1, ∀ vbar, ∑ k ∈ range 2, ∑ j ∈ range 3, fRev i vbar k j * growTri.δ (k * 3 + j) = dotv vbar (F' i)) ∧
    F' 0 0 = 1 := by
  refine ⟨fun t _ k => if k = 0 then 1 + t else 0, fun _ k => if k = 0 then 1 else 0,
    fun _ v k j => if k = 0 ∧ j = 1 then v 0 else 0, ?_, ?_, by simp⟩
  · intro i _ k
    by_cases hk : k = 0
    · simp only [hk, if_true]; exact (hasDerivAt_id' (0 : ℝ)).const_add 1
    · simp only [hk, if_false]; exact hasDerivAt_const _ _
  · intro i _ v
    simp [growTri, isoMotion, sum_range_succ, dotv]

end Verif.ProjInteg
