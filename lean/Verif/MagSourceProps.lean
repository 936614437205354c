import Verif.MagSource
import Verif.IsoMotion3
import Verif.CurlCurlProps

/-!
Properties C138 (magnetic energy output and its derivatives) and C139 (permanent-magnet source of the
two-dimensional magnetostatic residual and its derivatives).
-/

namespace Verif.MagSource
open Finset Verif.Sbp Verif.Dense Verif.Diffusion Verif.Force Verif.Losses

set_option linter.unusedSimpArgs false
set_option linter.unusedSectionVars false

variable {ndof dim m n nt : ℕ}

/-! ### C138 -/

theorem addMulTV_zero {a b : ℕ} (A : Mat a b) (x : Vec a) : addMulTV A x zeroV = mulTV A x := by
  funext k; simp [addMulTV, zeroV]

theorem energy_eq (E : ℕ → En) (pt : ℕ → FPt ndof dim m) (u : Vec ndof) :
    energy n E pt u = ∑ i ∈ range n, (E i).e (norm2 ((pt i).bvec u) / (pt i).J) * ((pt i).w * (pt i).J) := by
  unfold energy
  simp only [addMulTV_zero]
  rw [forN_real, zero_add]
  rfl

/-- **C138** The output is the quadrature of the energy density `e(|B|)` over the element, in two
dimensions; `energy2` is the energy whose derivative C132 relates to the force. -/
theorem C138_value_2d (E : ℕ → En) (w : ℕ → ℝ) (cs : ℕ → Mat ndof 2) (dshape : ℕ → Mat m 2) (X : Mat m 2)
    (u : Vec ndof) (hd : ∀ i < n, 0 < det2 (jacOf (dshape i) X)) :
    energy n E (elem2 w cs dshape X) u = energy2 n E w cs dshape u X := by
  rw [energy_eq]
  unfold energy2
  refine sum_congr rfl fun i hi => ?_
  rw [flux2_norm w cs dshape X i u (hd i (mem_range.1 hi))]
  change _ * (w i * det2 (jacOf (dshape i) X)) = _
  rw [mul_comm]; rfl

/-- **C138** The same in three dimensions. -/
theorem C138_value_3d (E : ℕ → En) (w : ℕ → ℝ) (cs : ℕ → Mat ndof 3) (dshape : ℕ → Mat m 3) (X : Mat m 3)
    (u : Vec ndof) (hd : ∀ i < n, 0 < det3 (jacOf (dshape i) X)) :
    energy n E (elem3 w cs dshape X) u = energy3 n E w cs dshape u X := by
  rw [energy_eq]
  unfold energy3
  refine sum_congr rfl fun i hi => ?_
  rw [flux3_norm w cs dshape X i u (hd i (mem_range.1 hi))]
  change _ * (w i * det3 (jacOf (dshape i) X)) = _
  rw [mul_comm]; rfl

theorem bvec_lin (p : FPt ndof dim m) (u δ : Vec ndof) (t : ℝ) (k : Fin dim) :
    p.bvec (fun q => u q + t * δ q) k = p.bvec u k + t * p.bvec δ k := by
  unfold FPt.bvec
  rw [mulTV_add p.cdft u (fun q => t * δ q), mulTV_smul]

theorem bBar_dot (E : En) (p : FPt ndof dim m) (u : Vec ndof) (x : Vec dim) :
    dotv (bBar E p u) x = p.w * p.J * E.e1 (norm2 (p.bvec u) / p.J) / p.J / norm2 (p.bvec u) * dotv (p.bvec u) x := by
  unfold bBar
  simp only [addMulTV_zero, zero_add, one_mul]
  rw [← dotv_smul_left]
  congr 1
  funext k
  simp only [axpy, zeroV, zero_add, FPt.bvec]

theorem energyState_dot (E : ℕ → En) (pt : ℕ → FPt ndof dim m) (u δ : Vec ndof) :
    dotv (energyState n E pt u) δ = ∑ i ∈ range n, dotv (bBar (E i) (pt i) u) ((pt i).bvec δ) := by
  have e : energyState n E pt u = fun r => ∑ i ∈ range n, mulV (pt i).cdft (bBar (E i) (pt i) u) r := by
    funext r
    unfold energyState
    refine (forN_vec n (fun i bar => addMulV (pt i).cdft 1 (bBar (E i) (pt i) u) bar)
      (fun i r => mulV (pt i).cdft (bBar (E i) (pt i) u) r) (fun i v r => by simp [addMulV]) zeroV r).trans ?_
    simp [zeroV]
  rw [e, dotv_comm, dotv_sum_right]
  refine sum_congr rfl fun i _ => ?_
  rw [dotv_mulV, dotv_comm]; rfl

/-- **C138** The state gradient is the gradient of the energy with respect to the potential, at every
state with non-zero flux density at each quadrature point (where it is zero the code divides by zero). -/
theorem C138_state_gradient_partial (E : ℕ → En) (hE : ∀ i < n, (E i).Smooth) (pt : ℕ → FPt ndof dim m)
    (u δ : Vec ndof) (hb : ∀ i < n, (pt i).bvec u ≠ 0) :
    HasDerivAt (fun t => energy n E pt fun q => u q + t * δ q) (dotv (energyState n E pt u) δ) 0 := by
  simp only [energy_eq]
  rw [energyState_dot]
  refine HasDerivAt.fun_sum fun i hi => ?_
  have hi := mem_range.1 hi
  have hg : ∀ k, HasDerivAt (fun t => (pt i).bvec (fun q => u q + t * δ q) k) ((pt i).bvec δ k) 0 := by
    intro k
    simp only [bvec_lin]
    exact hasDerivAt_line _ _
  have h0 : (pt i).bvec (fun q => u q + 0 * δ q) = (pt i).bvec u := by
    funext k; rw [bvec_lin]; ring
  have hne : norm2 ((pt i).bvec u) ≠ 0 := by
    intro h; apply hb i hi; funext k; exact (norm2_eq_zero _).1 h k
  have hn := hasDerivAt_norm2 (fun t => (pt i).bvec (fun q => u q + t * δ q)) _ 0 hg (by rw [h0]; exact hne)
  have hc := HasDerivAt.comp_of_eq (0 : ℝ) ((hE i hi).1 (norm2 ((pt i).bvec u) / (pt i).J))
    (hn.div_const (pt i).J) (by rw [h0])
  refine (hc.mul_const _).congr_deriv ?_
  rw [h0, bBar_dot]
  ring

/-- **C138** The state gradient of the energy is the residual of the two-dimensional magnetostatic problem
on the same quadrature points, if the derivative of the energy density is the field intensity `ν(B) B`
(C123): a stationary point of the energy is a solution. -/
theorem C138_residual_is_gradient_2d (E : ℕ → En) (nu : ℕ → ℝ → ℝ) (w : ℕ → ℝ) (cs : ℕ → Mat ndof 2)
    (dshape : ℕ → Mat m 2) (X : Mat m 2) (u : Vec ndof) (hH : ∀ i < n, ∀ s, (E i).e1 s = nu i s * s)
    (hd : ∀ i < n, 0 < det2 (jacOf (dshape i) X)) :
    energyState n E (elem2 w cs dshape X) u =
      elemVec 1 nu n (fun i => ⟨w i, cs i, adj2 (jacOf (dshape i) X), det2 (jacOf (dshape i) X)⟩) u := by
  funext r
  unfold energyState
  refine (forN_vec n (fun i bar => addMulV (elem2 w cs dshape X i).cdft 1 (bBar (E i) (elem2 w cs dshape X i) u) bar)
      (fun i r => mulV (elem2 w cs dshape X i).cdft (bBar (E i) (elem2 w cs dshape X i) u) r)
      (fun i v r => by simp [addMulV]) zeroV r).trans ?_
  rw [elemVec_apply]
  simp only [zeroV, zero_add]
  refine sum_congr rfl fun i hi => ?_
  have hi := mem_range.1 hi
  have hdi := hd i hi
  have ec : (elem2 w cs dshape X i).cdft = mulM (cs i) (adj2 (jacOf (dshape i) X)) := by
    unfold FPt.cdft elem2
    simp only [if_neg (by decide : ¬ (2 : ℕ) = 3)]
  have ed : QPt.dxt (⟨w i, cs i, adj2 (jacOf (dshape i) X), det2 (jacOf (dshape i) X)⟩ : QPt ndof 2) =
      mulM (cs i) (adj2 (jacOf (dshape i) X)) := rfl
  unfold bBar
  simp only [addMulTV_zero, ed, ec]
  unfold mulV
  refine sum_congr rfl fun k _ => ?_
  change _ * (_ + _ / _ * _) = _
  rw [hH i hi]
  have eJ : (elem2 w cs dshape X i).J = det2 (jacOf (dshape i) X) := rfl
  have ew : (elem2 w cs dshape X i).w = w i := rfl
  rw [eJ, ew]
  simp only [zeroV, scale]
  have hne := hdi.ne'
  by_cases hz : norm2 (mulTV (mulM (cs i) (adj2 (jacOf (dshape i) X))) u) = 0
  · rw [(norm2_eq_zero _).1 hz k]; ring
  · generalize nu i _ = N
    field_simp
    ring

/-- **C138** The same in three dimensions, with the curl-curl element. -/
theorem C138_residual_is_gradient_3d (E : ℕ → En) (nu : ℕ → ℝ → ℝ) (w : ℕ → ℝ) (cs : ℕ → Mat ndof 3)
    (dshape : ℕ → Mat m 3) (X : Mat m 3) (u : Vec ndof) (hH : ∀ i < n, ∀ s, (E i).e1 s = nu i s * s)
    (hd : ∀ i < n, 0 < det3 (jacOf (dshape i) X)) :
    energyState n E (elem3 w cs dshape X) u =
      CurlCurl.elemVec 1 nu n (fun i => ⟨w i, cs i, jacOf (dshape i) X, det3 (jacOf (dshape i) X)⟩) u := by
  funext r
  unfold energyState
  refine (forN_vec n (fun i bar => addMulV (elem3 w cs dshape X i).cdft 1 (bBar (E i) (elem3 w cs dshape X i) u) bar)
      (fun i r => mulV (elem3 w cs dshape X i).cdft (bBar (E i) (elem3 w cs dshape X i) u) r)
      (fun i v r => by simp [addMulV]) zeroV r).trans ?_
  rw [CurlCurl.elemVec_eq, elemVec_apply]
  simp only [zeroV, zero_add]
  refine sum_congr rfl fun i hi => ?_
  have hi := mem_range.1 hi
  have hdi := hd i hi
  have ec : (elem3 w cs dshape X i).cdft = mulABt (cs i) (jacOf (dshape i) X) := by
    unfold FPt.cdft elem3
    simp only [if_true]
  have ed : QPt.dxt (CurlCurl.CPt.toQ (⟨w i, cs i, jacOf (dshape i) X, det3 (jacOf (dshape i) X)⟩ : CurlCurl.CPt ndof)) =
      mulABt (cs i) (jacOf (dshape i) X) := rfl
  unfold bBar
  simp only [addMulTV_zero, ed, ec]
  unfold mulV
  refine sum_congr rfl fun k _ => ?_
  change _ * (_ + _ / _ * _) = _
  rw [hH i hi]
  have eJ : (elem3 w cs dshape X i).J = det3 (jacOf (dshape i) X) := rfl
  have ew : (elem3 w cs dshape X i).w = w i := rfl
  rw [eJ, ew]
  simp only [zeroV, scale]
  change _ = _ * (_ * (1 * w i / det3 (jacOf (dshape i) X) * nu i (_ / det3 (jacOf (dshape i) X))))
  have hne := hdi.ne'
  by_cases hz : norm2 (mulTV (mulABt (cs i) (jacOf (dshape i) X)) u) = 0
  · rw [(norm2_eq_zero _).1 hz k]; ring
  · generalize nu i _ = N
    field_simp
    ring

theorem mesh_point_dot (E : En) (p : FPt ndof dim m) (u : Vec ndof) (A' K' : Mat dim dim) :
    frob (jacBar E p u) K' = dotv (bBar E p u) (mulV K' (mulTV p.cs u)) ∧
    frob (adjBar E p u) A' = dotv (bBar E p u) (mulTV (mulM p.cs A') u) := by
  constructor
  · unfold jacBar
    simp only [mulM_vwt]
    have : (fun a b => (zeroM : Mat dim dim) a b + vwt (bBar E p u) (mulTV p.cs u) a b) =
        vwt (bBar E p u) (mulTV p.cs u) := by funext a b; simp [zeroM]
    rw [this, frob_vwt]; rfl
  · unfold adjBar
    rw [frob_mulAtB, frob_vwt, bil_eq', dotv_comm]

/-- **C138** Multiplied with any motion of the mesh nodes, the mesh sensitivity is the derivative of the
energy under that motion (two and three dimensions, non-zero flux density at each point). -/
theorem C138_mesh_sensitivity_partial (μ : FMotion n dim m) (w : ℕ → ℝ) (cs : ℕ → Mat ndof dim)
    (dshape : ℕ → Mat m dim) (E : ℕ → En) (hE : ∀ i < n, (E i).Smooth) (u : Vec ndof)
    (hJ : ∀ i < n, μ.J i 0 ≠ 0) (hb : ∀ i < n, (μ.pts w cs dshape 0 i).bvec u ≠ 0) :
    HasDerivAt (fun t => energy n E (μ.pts w cs dshape t) u)
      (∑ q ∈ range (dim * m), energyMesh n m E (μ.pts w cs dshape 0) μ.adjRev μ.wRev μ.jacRev u q * μ.δ q) 0 := by
  simp only [energy_eq]
  unfold energyMesh
  rw [scatterLoop3 (D := fun i => (if dim = 3 then frob (jacBar (E i) (μ.pts w cs dshape 0 i) u) (μ.jac' i)
    else frob (adjBar (E i) (μ.pts w cs dshape 0 i) u) (μ.adj' i)) + jBar (E i) (μ.pts w cs dshape 0 i) u * μ.J' i)]
  · refine HasDerivAt.fun_sum fun i hi => ?_
    have hi := mem_range.1 hi
    have hJ0 := hJ i hi
    have hJd : HasDerivAt (fun t => (μ.pts w cs dshape t i).J) (μ.J' i) 0 := μ.hJ i hi
    have hne : norm2 ((μ.pts w cs dshape 0 i).bvec u) ≠ 0 := by
      intro h; apply hb i hi; funext k; exact (norm2_eq_zero _).1 h k
    obtain ⟨b', hb', hx⟩ : ∃ b' : Vec dim, (if dim = 3 then frob (jacBar (E i) (μ.pts w cs dshape 0 i) u) (μ.jac' i)
        else frob (adjBar (E i) (μ.pts w cs dshape 0 i) u) (μ.adj' i)) =
          dotv (bBar (E i) (μ.pts w cs dshape 0 i) u) b' ∧
        ∀ k, HasDerivAt (fun t => (μ.pts w cs dshape t i).bvec u k) (b' k) 0 := by
      by_cases hd : dim = 3
      · refine ⟨mulV (μ.jac' i) (mulTV (cs i) u), ?_, ?_⟩
        · rw [if_pos hd, (mesh_point_dot (E i) _ u (μ.adj' i) (μ.jac' i)).1]; rfl
        · intro k
          have e : ∀ t, (μ.pts w cs dshape t i).bvec u k = mulV (μ.jac i t) (mulTV (cs i) u) k := by
            intro t
            unfold FPt.bvec FPt.cdft FMotion.pts
            simp only [if_pos hd]
            unfold mulTV mulABt mulV
            simp only [sum_mul, mul_sum]
            rw [sum_comm]
            exact sum_congr rfl fun _ _ => sum_congr rfl fun _ _ => by ring
          simp only [e]
          unfold mulV
          exact HasDerivAt.fun_sum fun l _ => (μ.hjac i hi k l).mul_const _
      · refine ⟨mulTV (mulM (cs i) (μ.adj' i)) u, ?_, ?_⟩
        · rw [if_neg hd, (mesh_point_dot (E i) _ u (μ.adj' i) (μ.jac' i)).2]; rfl
        · intro k
          unfold FPt.bvec FPt.cdft FMotion.pts
          simp only [if_neg hd]
          exact μ.hasDerivAt_flux i hi (cs i) u k
    have hn := hasDerivAt_norm2 (fun t => (μ.pts w cs dshape t i).bvec u) _ 0 hx hne
    have hc := HasDerivAt.comp_of_eq (0 : ℝ) ((hE i hi).1 (norm2 ((μ.pts w cs dshape 0 i).bvec u) /
      (μ.pts w cs dshape 0 i).J)) (hn.fun_div hJd hJ0) rfl
    refine (hc.fun_mul (hJd.const_mul (w i))).congr_deriv ?_
    rw [hb', bBar_dot]
    unfold jBar
    simp only [addMulTV_zero, Function.comp]
    have ew : (μ.pts w cs dshape 0 i).w = w i := rfl
    have eb : mulTV (μ.pts w cs dshape 0 i).cdft u = (μ.pts w cs dshape 0 i).bvec u := rfl
    have hJ1 : (μ.pts w cs dshape 0 i).J ≠ 0 := hJ0
    rw [eb, ew]
    generalize μ.pts w cs dshape 0 i = p at *
    generalize dotv (p.bvec u) b' = d
    generalize norm2 (p.bvec u) = N at *
    generalize (E i).e1 _ = e1
    generalize (E i).e _ = e
    field_simp
    ring
  · intro i hi
    by_cases hd : dim = 3
    · simp only [if_pos hd]
      rw [← μ.hjacRev i hi, ← μ.hwRev i hi]
      simp only [← sum_add_distrib]
      exact sum_congr rfl fun k _ => sum_congr rfl fun j _ => by ring
    · simp only [if_neg hd]
      rw [← μ.hadjRev i hi, ← μ.hwRev i hi]
      simp only [← sum_add_distrib]
      exact sum_congr rfl fun k _ => sum_congr rfl fun j _ => by ring

/-- **C138** The force output is minus the derivative of the energy output along the virtual displacement
of the nodes, on the same quadrature points. -/
theorem C138_force_is_energy_derivative_partial (E : ℕ → En) (hE : ∀ i < n, (E i).Smooth) (w : ℕ → ℝ)
    (cs : ℕ → Mat ndof 2) (dshape : ℕ → Mat m 2) (X V : Mat m 2) (u : Vec ndof) (hV : ∃ j k, 1 / 10 ^ 14 ≤ |V j k|)
    (hd : ∀ i < n, 0 < det2 (jacOf (dshape i) X)) (hb : ∀ i < n, flux2 (cs i) (jacOf (dshape i) X) u ≠ 0) :
    HasDerivAt (fun s => -energy n E (elem2 w cs dshape (displaced X V s)) u)
      (force false n E (elem2 w cs dshape X) V u) 0 := by
  refine (C132_virtual_work_2d_partial E hE w cs dshape X V u hV hd hb).congr_of_eventuallyEq ?_
  have hpos : ∀ i ∈ range n, ∀ᶠ s in nhds (0 : ℝ), 0 < det2 (jacOf (dshape i) (displaced X V s)) := by
    intro i hi
    have hJ := det2_line (jacOf (dshape i) X) (jacOf (dshape i) V)
    have hJ' : HasDerivAt (fun s => det2 (jacOf (dshape i) (displaced X V s)))
        (frob (transpose (adj2 (jacOf (dshape i) X))) (jacOf (dshape i) V)) 0 := by
      simpa only [jacOf_displaced] using hJ
    have e0 : displaced X V 0 = X := by funext j a; simp [displaced]
    exact hJ'.continuousAt.eventually (lt_mem_nhds (by beta_reduce; rw [e0]; exact hd i (mem_range.1 hi)))
  filter_upwards [(Filter.eventually_all_finset (range n)).2 hpos] with s hs
  rw [C138_value_2d E w cs dshape _ u (fun i hi => hs i (mem_range.2 hi))]

/-- **C138, violation** Residual and energy are assembled with different default quadrature rules on
triangles (and the same or different ones elsewhere), so that the residual assembled by the code is not
in general the gradient of the energy output. -/
theorem C138_rule_false (order : ℕ) (h : 0 < order) :
    energyRule .Pk order ≠ vecRule .Pk order 2 ∧ energyRule .Pk order ≠ CurlCurl.rule .Pk order := by
  constructor
  · simp [energyRule, vecRule]; omega
  · simp [energyRule, CurlCurl.rule]; omega

/-! ### C139 -/

/-- Specification: the curl `(∂N/∂y, -∂N/∂x)` of the out-of-plane potential with coefficients `u`: its
flux density. -/
noncomputable def curl2 (p : QPt ndof 2) (u : Vec ndof) : Vec 2 := fun k =>
  if k = 0 then grad p u 1 else -grad p u 0

theorem src_apply (alpha : ℝ) (M : ℕ → ℝ → Vec 2) (pt : ℕ → SPt ndof nt) (temp : Vec nt) (r : Fin ndof) :
    src alpha n M pt temp r = ∑ i ∈ range n, alpha * (pt i).w *
      (M i (dotv (pt i).tshape temp) 1 * (pt i).dxt r 0 - M i (dotv (pt i).tshape temp) 0 * (pt i).dxt r 1) := by
  unfold src
  refine (forN_vec n (fun i => srcBody alpha (M i) (pt i) temp) (fun i r => alpha * (pt i).w *
      (M i (dotv (pt i).tshape temp) 1 * (pt i).dxt r 0 - M i (dotv (pt i).tshape temp) 0 * (pt i).dxt r 1))
      (fun i v r => ?_) zeroV r).trans ?_
  · unfold srcBody axpy zeroV
    ring
  · simp [zeroV]

theorem src_dot (alpha : ℝ) (M : ℕ → ℝ → Vec 2) (pt : ℕ → SPt ndof nt) (temp : Vec nt) (psi : Vec ndof) :
    dotv psi (src alpha n M pt temp) = ∑ i ∈ range n, alpha * (pt i).w *
      (M i (dotv (pt i).tshape temp) 1 * mulTV (pt i).dxt psi 0 -
        M i (dotv (pt i).tshape temp) 0 * mulTV (pt i).dxt psi 1) := by
  have e : src alpha n M pt temp = fun r => ∑ i ∈ range n, alpha * (pt i).w *
      (M i (dotv (pt i).tshape temp) 1 * (pt i).dxt r 0 - M i (dotv (pt i).tshape temp) 0 * (pt i).dxt r 1) :=
    funext fun r => src_apply alpha M pt temp r
  rw [e, dotv_sum_right]
  refine sum_congr rfl fun i _ => ?_
  unfold dotv mulTV
  simp only [mul_sub, mul_sum, ← sum_sub_distrib]
  exact sum_congr rfl fun r _ => by ring

/-- **C139** Weak form: tested with `ψ` the source is `-∫ M·curl ψ`, with `M` at the local temperature. -/
theorem C139_weak_form (alpha : ℝ) (M : ℕ → ℝ → Vec 2) (pt : ℕ → SPt ndof nt) (temp : Vec nt) (psi : Vec ndof)
    (hJ : ∀ i < n, (pt i).J ≠ 0) :
    dotv psi (src alpha n M pt temp) = -∑ i ∈ range n, alpha * (pt i).w * (pt i).J *
      dotv (M i (dotv (pt i).tshape temp)) (curl2 (pt i).toQPt psi) := by
  rw [src_dot, ← sum_neg_distrib]
  refine sum_congr rfl fun i hi => ?_
  have hJi := hJ i (mem_range.1 hi)
  simp only [dotv, Fin.sum_univ_two, curl2, if_true, if_neg (by decide : ¬ (1 : Fin 2) = 0), grad_eq]
  field_simp
  ring

/-- **C139** The source injects no net current: its entries sum to zero. -/
theorem C139_no_net_current (alpha : ℝ) (M : ℕ → ℝ → Vec 2) (pt : ℕ → SPt ndof nt) (temp : Vec nt)
    (hpu : ∀ i < n, ∀ l, ∑ r, (pt i).dshape r l = 0) : ∑ r, src alpha n M pt temp r = 0 := by
  have h := src_dot (n := n) alpha M pt temp (fun _ => 1)
  simp only [dotv, one_mul] at h
  rw [h]
  refine sum_eq_zero fun i hi => ?_
  have h0 : ∀ k, mulTV (pt i).dxt (fun _ => 1) k = 0 := by
    intro k
    unfold mulTV QPt.dxt mulM
    simp only [mul_one]
    rw [sum_comm]
    exact sum_eq_zero fun l _ => by rw [← sum_mul, hpu i (mem_range.1 hi) l, zero_mul]
  rw [h0, h0]; ring

/-- **C139** Together with the diffusion element the residual of a magnet region is
`∫ (ν(|B|) B - s)·curl ψ` where `s` is the source coefficient: the field `H = ν B - s` has no curl in the
weak sense. -/
theorem C139_total_weak_form (nu : ℕ → ℝ → ℝ) (S : ℕ → ℝ → Vec 2) (pt : ℕ → SPt ndof nt) (temp : Vec nt)
    (u psi : Vec ndof) (hJ : ∀ i < n, 0 < (pt i).J) :
    dotv psi (fun r => elemVec 1 nu n (fun i => (pt i).toQPt) u r + src 1 n S pt temp r) =
      ∑ i ∈ range n, (pt i).w * (pt i).J * dotv (fun k => nu i (norm2 (curl2 (pt i).toQPt u)) *
        curl2 (pt i).toQPt u k - S i (dotv (pt i).tshape temp) k) (curl2 (pt i).toQPt psi) := by
  rw [dotv_add_right (elemVec 1 nu n (fun i => (pt i).toQPt) u), C121_weak_form _ _ _ _ hJ,
    C139_weak_form _ _ _ _ _ (fun i hi => (hJ i hi).ne'), ← sum_neg_distrib, ← sum_add_distrib]
  refine sum_congr rfl fun i _ => ?_
  have hn : norm2 (curl2 (pt i).toQPt u) = norm2 (grad (pt i).toQPt u) := by
    unfold norm2
    congr 1
    simp [dotv, curl2, Fin.sum_univ_two]
    ring
  rw [hn]
  simp only [dotv, Fin.sum_univ_two, curl2, if_true, if_neg (by decide : ¬ (1 : Fin 2) = 0)]
  ring

/-- **C139** With a constant reluctivity `ν₀` in the magnet the coefficient the residual builds is
`ν₀ M(T)`, so that the residual is `∫ ν₀ (B - M)·curl ψ`: it vanishes when the flux density equals the
remanent one. -/
theorem C139_magnet_constant_reluctivity (nu0 : ℝ) (M : ℕ → ℝ → Vec 2) (pt : ℕ → SPt ndof nt) (temp : Vec nt)
    (u psi : Vec ndof) (hJ : ∀ i < n, 0 < (pt i).J) :
    dotv psi (fun r => elemVec 1 (fun _ _ => nu0) n (fun i => (pt i).toQPt) u r +
        src 1 n (fun i => nuM (fun _ => nu0) (M i)) pt temp r) =
      ∑ i ∈ range n, (pt i).w * (pt i).J * (nu0 * dotv (fun k => curl2 (pt i).toQPt u k -
        M i (dotv (pt i).tshape temp) k) (curl2 (pt i).toQPt psi)) := by
  rw [C139_total_weak_form _ _ _ _ _ _ hJ]
  refine sum_congr rfl fun i _ => ?_
  congr 1
  rw [← dotv_smul_left]
  congr 1
  funext k
  unfold nuM; ring

/-- **C139, violation** With a reluctivity that depends on the flux density the residual of a magnet is not
`∫ ν(|B|) (B - M)·curl ψ`: the code evaluates the reluctivity in the source at the temperature instead of
the flux density. -/
theorem C139_magnet_reluctivity_false :
    ¬ ∀ (nu : ℝ → ℝ) (M : ℝ → Vec 2) (pt : SPt 1 1) (temp : Vec 1) (u psi : Vec 1), 0 < pt.J →
      dotv psi (fun r => elemVec 1 (fun _ => nu) 1 (fun _ => pt.toQPt) u r +
          src 1 1 (fun _ => nuM nu M) (fun _ => pt) temp r) =
        pt.w * pt.J * (nu (norm2 (curl2 pt.toQPt u)) * dotv (fun k => curl2 pt.toQPt u k -
          M (dotv pt.tshape temp) k) (curl2 pt.toQPt psi)) := by
  intro h
  have h1 := h (fun s => s) (fun _ k => if k = 0 then 1 else 0)
    ⟨⟨1, fun _ l => if l = 1 then 1 else 0, fun a b => if a = b then 1 else 0, 1⟩, fun _ => 1⟩
    (fun _ => 300) (fun _ => 1) (fun _ => 1) (by norm_num)
  rw [dotv_add_right (elemVec _ _ _ _ _), src_dot, C121_weak_form 1 _ 1 _ (by intro i _; norm_num)] at h1
  simp [dotv, Fin.sum_univ_two, nuM, curl2, grad_eq, mulTV, QPt.dxt, mulM, norm2] at h1
  norm_num at h1

theorem magFluxBar_dot (alpha : ℝ) (p : SPt ndof nt) (psi : Vec ndof) (y : Vec 2) :
    dotv (magFluxBar alpha p psi) y = alpha * p.w * (y 1 * mulTV p.dxt psi 0 - y 0 * mulTV p.dxt psi 1) := by
  unfold magFluxBar
  simp only [dotv, Fin.sum_univ_two, if_true, if_neg (by decide : ¬ (1 : Fin 2) = 0)]
  have e : ∀ k, ∑ r, p.dxt r k * axpy (1 * (alpha * p.w)) psi zeroV r = alpha * p.w * mulTV p.dxt psi k := by
    intro k
    unfold mulTV axpy zeroV
    rw [mul_sum]
    exact sum_congr rfl fun r _ => by ring
  rw [e, e]
  ring

/-- **C139** Temperature sensitivity: the derivative of the adjoint-weighted source with respect to the
element temperatures. -/
theorem C139_temperature_sensitivity (alpha : ℝ) (M dM : ℕ → ℝ → Vec 2)
    (hM : ∀ i < n, ∀ T k, HasDerivAt (fun s => M i s k) (dM i T k) T) (pt : ℕ → SPt ndof nt) (temp v : Vec nt)
    (psi : Vec ndof) :
    HasDerivAt (fun t => dotv psi (src alpha n M pt fun j => temp j + t * v j))
      (dotv (srcTemp alpha n dM pt temp psi) v) 0 := by
  unfold srcTemp
  rw [dotv_axpys]
  simp only [src_dot]
  refine HasDerivAt.fun_sum fun i hi => ?_
  have hi := mem_range.1 hi
  have h := fun k => hasDerivAt_sigma_line (fun s => M i s k) (fun s => dM i s k) (fun T => hM i hi T k)
    (pt i).tshape temp v
  refine ((((h 1).mul_const (mulTV (pt i).dxt psi 0)).fun_sub ((h 0).mul_const (mulTV (pt i).dxt psi 1))).const_mul
    (alpha * (pt i).w)).congr_deriv ?_
  rw [magFluxBar_dot]
  ring

/-- **C139** The state derivative of the product coefficient is the derivative of what its evaluation
returns. -/
theorem C139_coefficient_derivative (nu dnu : ℝ → ℝ) (M dM : ℝ → Vec 2) (hnu : ∀ T, HasDerivAt nu (dnu T) T)
    (hM : ∀ T k, HasDerivAt (fun s => M s k) (dM T k) T) (T : ℝ) (k : Fin 2) :
    HasDerivAt (fun s => nuM nu M s k) (nuMDeriv nu dnu M dM T k) T := by
  unfold nuM nuMDeriv
  exact ((hM T k).fun_mul (hnu T)).congr_deriv (by ring)

/-- Specification: the quadrature points of a magnet element after a motion of the mesh nodes by `t`. -/
noncomputable def spts (μ : Motion n 2 m) (w : ℕ → ℝ) (dshape : ℕ → Mat ndof 2) (tsh : ℕ → Vec nt) (t : ℝ) (i : ℕ) :
    SPt ndof nt := ⟨⟨w i, dshape i, μ.adj i t, μ.J i t⟩, tsh i⟩

theorem srcAdjBar_dot (alpha : ℝ) (M : ℝ → Vec 2) (p : SPt ndof nt) (temp : Vec nt) (psi : Vec ndof) (A' : Mat 2 2) :
    frob (srcAdjBar alpha M p temp psi) A' = alpha * p.w *
      (M (dotv p.tshape temp) 1 * mulTV (mulM p.dshape A') psi 0 -
        M (dotv p.tshape temp) 0 * mulTV (mulM p.dshape A') psi 1) := by
  unfold srcAdjBar
  rw [frob_mulAtB]
  unfold frob
  simp only [Fin.sum_univ_two, if_true, if_neg (by decide : ¬ (1 : Fin 2) = 0), zeroM, axpy, zeroV]
  unfold mulTV
  simp only [mul_sub, mul_sum, ← sum_sub_distrib]
  exact sum_congr rfl fun r _ => by ring

/-- **C139** Mesh sensitivity: multiplied with any motion of the mesh nodes it is the derivative of the
adjoint-weighted source, including the dependence of the magnetisation on position. -/
theorem C139_mesh_sensitivity (alpha : ℝ) (μ : Motion n 2 m) (w : ℕ → ℝ) (dshape : ℕ → Mat ndof 2)
    (tsh : ℕ → Vec nt) (M : ℝ → ℕ → ℝ → Vec 2) (M' : ℕ → ℝ → Vec 2)
    (hM : ∀ i < n, ∀ T k, HasDerivAt (fun t => M t i T k) (M' i T k) 0)
    (mRev : ℕ → Vec 2 → ℝ → ℕ → ℕ → ℝ)
    (hmRev : ∀ i < n, ∀ vbar T, ∑ k ∈ range 2, ∑ j ∈ range m, mRev i vbar T k j * μ.δ (k * m + j) =
      dotv vbar (M' i T)) (temp : Vec nt) (psi : Vec ndof) :
    HasDerivAt (fun t => dotv psi (src alpha n (M t) (spts μ w dshape tsh t) temp))
      (∑ q ∈ range (2 * m), srcMesh alpha n m (M 0) (spts μ w dshape tsh 0) μ.adjRev mRev temp psi q * μ.δ q) 0 := by
  simp only [src_dot]
  unfold srcMesh
  rw [scatterLoop3 (D := fun i => dotv (magFluxBar alpha (spts μ w dshape tsh 0 i) psi) (M' i (dotv (tsh i) temp)) +
    frob (srcAdjBar alpha (M 0 i) (spts μ w dshape tsh 0 i) temp psi) (μ.adj' i))]
  · refine HasDerivAt.fun_sum fun i hi => ?_
    have hi := mem_range.1 hi
    have hf : ∀ k, HasDerivAt (fun t => mulTV (spts μ w dshape tsh t i).dxt psi k)
        (mulTV (mulM (dshape i) (μ.adj' i)) psi k) 0 := fun k => μ.hasDerivAt_flux i hi (dshape i) psi k
    have h := fun k => hM i hi (dotv (tsh i) temp) k
    change HasDerivAt (fun t => alpha * w i * (M t i (dotv (tsh i) temp) 1 * _ - M t i (dotv (tsh i) temp) 0 * _)) _ 0
    refine ((((h 1).fun_mul (hf 0)).fun_sub ((h 0).fun_mul (hf 1))).const_mul (alpha * w i)).congr_deriv ?_
    rw [magFluxBar_dot, srcAdjBar_dot]
    change _ = alpha * w i * _ + alpha * w i * _
    have e : dotv (spts μ w dshape tsh 0 i).tshape temp = dotv (tsh i) temp := rfl
    have e2 : (spts μ w dshape tsh 0 i).dshape = dshape i := rfl
    rw [e, e2]
    ring
  · intro i hi
    rw [← μ.hadjRev i hi, ← hmRev i hi]
    simp only [← sum_add_distrib]
    refine sum_congr rfl fun k _ => sum_congr rfl fun j _ => ?_
    have e : dotv (spts μ w dshape tsh 0 i).tshape temp = dotv (tsh i) temp := rfl
    rw [e]
    ring

/-! ### Concrete cases -/

/-- Non-vacuity of C138: the growing tetrahedron of C137 with a non-zero flux density. -/
example : ∃ (μ : FMotion 1 3 3) (cs : ℕ → Mat 1 3) (dshape : ℕ → Mat 3 3) (u : Vec 1) (E : ℕ → En),
    (∀ i < 1, (E i).Smooth) ∧ (∀ i < 1, μ.J i 0 ≠ 0) ∧
    (∀ i < 1, (μ.pts (fun _ => 1) cs dshape 0 i).bvec u ≠ 0) := by
  refine ⟨CurlCurl.tetGrow, CurlCurl.oneCurl, fun _ _ _ => 0, fun _ => 1,
    fun _ => En.ofNu 1 (fun _ => 1 / 2) (fun _ => 1) (fun _ => 1) (fun _ => 0) (fun _ => 0),
    fun i _ => En.ofNu_smooth _ _ _ _ _ _ (fun s => hasDerivAt_const _ _) (fun s => hasDerivAt_const _ _), ?_, ?_⟩
  · intro i hi; have : i = 0 := by omega
    rw [this, CurlCurl.tetGrow_J]; norm_num
  · intro i hi hc; have : i = 0 := by omega
    rw [this] at hc
    have h := congrFun hc 0
    have e : (CurlCurl.tetGrow.pts (fun _ => 1) CurlCurl.oneCurl (fun _ _ _ => 0) 0 0).bvec (fun _ => 1) 0 =
        mulTV (CurlCurl.pts CurlCurl.tetGrow (fun _ => 1) CurlCurl.oneCurl 0 0).cdft (fun _ => 1) 0 := by
      unfold FPt.bvec FPt.cdft
      simp only [if_true]
      rfl
    rw [e, CurlCurl.one_curl] at h
    simp at h

/-- Non-vacuity of C139: a triangle with a magnetisation that decreases with temperature. -/
example : ∃ (pt : SPt 3 3) (temp : Vec 3) (M dM : ℝ → Vec 2), 0 < pt.J ∧ (∀ l, ∑ r, pt.dshape r l = 0) ∧
    (∀ T k, HasDerivAt (fun s => M s k) (dM T k) T) ∧ src 1 1 (fun _ => M) (fun _ => pt) temp 1 ≠ 0 := by
  refine ⟨⟨⟨1, fun r l => if r = 0 then -1 else if (r : ℕ) = l + 1 then 1 else 0, fun a b => if a = b then 1 else 0, 1⟩,
    fun _ => 1/3⟩, fun _ => 300, fun T _ => 1 - T / 1000, fun _ _ => -1 / 1000, by norm_num, ?_, ?_, ?_⟩
  · intro l; fin_cases l <;> simp [Fin.sum_univ_three]
  · intro T k
    exact (((hasDerivAt_id' T).div_const 1000).const_sub 1).congr_deriv (by ring)
  · rw [src_apply]
    simp [QPt.dxt, mulM, dotv, Fin.sum_univ_two, Fin.sum_univ_three]
    norm_num

end Verif.MagSource
