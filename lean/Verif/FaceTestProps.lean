import Verif.FaceTest
import Verif.DGDiffusionSensProps

/-! # Checked face integrators and their mesh sensitivities: property theorems (C236) -/

namespace Verif.DGDiffusion
open Finset Verif.Sbp Verif.Dense Verif.Diffusion

set_option linter.unusedSectionVars false
set_option linter.unusedSimpArgs false

variable {P : Type*} {nd nd1 nd2 dim n m m1 m2 mf : ℕ}

/-! ### Lemmas -/

theorem forN_dot (psi : Vec nd) (F : ℕ → Vec nd → Vec nd) (c : ℕ → ℝ) (h : ∀ i v, dotv psi (F i v) = dotv psi v + c i) :
    dotv psi (forN n F zeroV) = ∑ i ∈ range n, c i := by
  induction n with
  | zero => simp [forN, dotv, zeroV]
  | succ n ih => rw [forN, h, ih, sum_range_succ]

theorem forN_dot2 (psi1 : Vec nd1) (psi2 : Vec nd2) (F : ℕ → Vec nd1 × Vec nd2 → Vec nd1 × Vec nd2) (c : ℕ → ℝ)
    (h : ∀ i v, dotv psi1 (F i v).1 + dotv psi2 (F i v).2 = dotv psi1 v.1 + dotv psi2 v.2 + c i) :
    dotv psi1 (forN n F (zeroV, zeroV)).1 + dotv psi2 (forN n F (zeroV, zeroV)).2 = ∑ i ∈ range n, c i := by
  induction n with
  | zero => simp [forN, dotv, zeroV]
  | succ n ih => rw [forN, h, ih, sum_range_succ]

theorem dotv_axpy' (c : ℝ) (x y z : Vec nd) : dotv z (axpy c x y) = dotv z y + c * dotv z x := by
  rw [dotv_comm, dotv_axpy, dotv_comm y, dotv_comm x]

theorem frob_side' (S : Mat nd dim) (A' : Mat dim dim) (c d : ℝ) (u psi : Vec nd) (nor : Vec dim) :
    frob (mulAtB S (addVWt 1 (axpy c u (axpy d psi zeroV)) nor zeroM)) A' =
      d * dotv (mulTV (mulM S A') psi) nor + c * dotv (mulTV (mulM S A') u) nor := by
  have h := frob_side S A' c d u psi nor zeroV
  have e : addVWt 1 u zeroV (addVWt 1 (axpy c u (axpy d psi zeroV)) nor (zeroM : Mat nd dim)) =
      addVWt 1 (axpy c u (axpy d psi zeroV)) nor zeroM := by
    funext i j; simp [addVWt, zeroV]
  rw [e, dotv_zeroV, add_zero] at h
  exact h

/-! ### C236: values -/

/-- **C236** The boundary term, tested with any function: minus the normal derivative times the test function, its transpose, and the
product of the traces weighted with the squared normal. -/
theorem C236_boundary_form (alpha : ℝ) (n : ℕ) (f : ℕ → FaceP P dim) (s : ℕ → Side P nd dim) (u psi : Vec nd) :
    dotv psi (tBndVec alpha n f s u) = ∑ i ∈ range n, alpha * (f i).w / (s i).W *
      (-((s i).normalD (f i).nor u) * (s i).trace psi - (s i).trace u * (s i).normalD (f i).nor psi +
        dotv (f i).nor (f i).nor * (s i).trace u * (s i).trace psi) := by
  refine forN_dot psi _ _ fun i v => ?_
  unfold tBndBody
  simp only [dotv_axpy', dot_shape, dot_dn, shape_dot, dn_dot]
  ring

/-- **C236** The boundary term is symmetric. -/
theorem C236_boundary_symmetric (alpha : ℝ) (n : ℕ) (f : ℕ → FaceP P dim) (s : ℕ → Side P nd dim) (u psi : Vec nd) :
    dotv psi (tBndVec alpha n f s u) = dotv u (tBndVec alpha n f s psi) := by
  rw [C236_boundary_form, C236_boundary_form]
  exact sum_congr rfl fun i _ => by ring

/-- **C236** The interface terms, tested with any pair of functions. -/
theorem C236_interior_form (alpha : ℝ) (n : ℕ) (f : ℕ → FaceP P dim) (s1 : ℕ → Side P nd1 dim) (s2 : ℕ → Side P nd2 dim)
    (u1 psi1 : Vec nd1) (u2 psi2 : Vec nd2) :
    dotv psi1 (tIntVec alpha n f s1 s2 u1 u2).1 + dotv psi2 (tIntVec alpha n f s1 s2 u1 u2).2 =
      ∑ i ∈ range n, alpha * (f i).w *
        (-((s1 i).normalD (f i).nor u1 + (s2 i).normalD (f i).nor u2) *
            ((s1 i).trace psi1 / (s1 i).W - (s2 i).trace psi2 / (s2 i).W) -
          ((s1 i).trace u1 - (s2 i).trace u2) *
            ((s1 i).normalD (f i).nor psi1 / (s1 i).W + (s2 i).normalD (f i).nor psi2 / (s2 i).W) +
          dotv (f i).nor (f i).nor * ((s1 i).trace u1 - (s2 i).trace u2) *
            ((s1 i).trace psi1 / (s1 i).W - (s2 i).trace psi2 / (s2 i).W)) := by
  refine forN_dot2 psi1 psi2 _ _ fun i v => ?_
  unfold tIntBody
  simp only [dotv_axpy', dot_shape, dot_dn, shape_dot, dn_dot]
  ring

/-! ### C236: mesh sensitivities -/

/-- **C236** The two vectors assembled for a boundary face — one on the nodes of the face, one on the nodes of the element — multiplied with
the same motion of the mesh, add up to the derivative of the tested boundary term (same quadrature rule; `inv` is the adjugate). -/
theorem C236_boundary_sensitivity (alpha : ℝ) (f : ℕ → FaceP P dim) (s : ℕ → Side P nd dim) (μ : SideMotion n dim m)
    (ν : NorMotion n dim mf) (u psi : Vec nd) :
    HasDerivAt (fun t => dotv psi (tBndVec alpha n (ν.face f t) (μ.side s t) u))
      (∑ q ∈ range (dim * mf), tBndFaceSens alpha n mf (ν.face f 0) (μ.side s 0) ν.rev u psi q * ν.δ q +
        ∑ q ∈ range (dim * m), tBndElemSens alpha n m (ν.face f 0) (μ.side s 0) μ.rev u psi q * μ.δ q) 0 := by
  have hs : ∑ q ∈ range (dim * mf), tBndFaceSens alpha n mf (ν.face f 0) (μ.side s 0) ν.rev u psi q * ν.δ q +
        ∑ q ∈ range (dim * m), tBndElemSens alpha n m (ν.face f 0) (μ.side s 0) μ.rev u psi q * μ.δ q =
      ∑ i ∈ range n, (dotv (tBndRev alpha (ν.face f 0 i) (μ.side s 0 i) u psi).2.2 (ν.nor' i) +
        (frob (tBndRev alpha (ν.face f 0 i) (μ.side s 0 i) u psi).1 (μ.inv' i) +
          (tBndRev alpha (ν.face f 0 i) (μ.side s 0 i) u psi).2.1 * μ.W' i)) := by
    unfold tBndFaceSens tBndElemSens
    rw [scatter_loop_dot, scatter_loop_dot, ← sum_add_distrib]
    exact sum_congr rfl fun i hi => by rw [μ.point i (mem_range.1 hi), ν.point i (mem_range.1 hi)]
  rw [hs]
  simp only [C236_boundary_form]
  refine HasDerivAt.fun_sum fun i hi => ?_
  have hi := mem_range.1 hi
  have h1 := nd_motion μ ν s i hi u
  have h2 := nd_motion μ ν s i hi psi
  have hn := nn_motion ν i hi
  have hW := (hasDerivAt_const (0 : ℝ) (alpha * (f i).w)).fun_div (μ.hW i hi) (μ.hW0 i hi)
  have hT : ∀ (t : ℝ) (v : Vec nd), (μ.side s t i).trace v = (s i).trace v := fun _ _ => rfl
  have hF : ∀ t, (ν.face f t i).nor = ν.nor i t := fun _ => rfl
  have hw : ∀ t, (ν.face f t i).w = (f i).w := fun _ => rfl
  have hWW : ∀ t, (μ.side s t i).W = μ.W i t := fun _ => rfl
  simp only [hT, hF, hw, hWW]
  have hfin := hW.fun_mul (((h1.fun_neg.mul_const ((s i).trace psi)).fun_sub (h2.const_mul ((s i).trace u))).fun_add
    ((hn.mul_const ((s i).trace u)).mul_const ((s i).trace psi)))
  refine hfin.congr_deriv ?_
  unfold tBndRev
  simp only [frob_side', dotv_addMulTV, dotv_axpy, dotv_zeroV, mulTV_axpy, dot_shape, dot_dn, hT, hF, hw, hWW]
  have e1 : ∀ v, mulTV (μ.side s 0 i).dxt v = (μ.side s 0 i).gradU v := fun v => flux_eq _ v
  have d1 : (μ.side s 0 i).dshape = (s i).dshape := rfl
  have g1 : ∀ v, mulTV (mulM (s i).dshape (μ.inv' i)) v = μ.grad' s i v := fun _ => rfl
  simp only [e1, d1, g1]
  have w1 := μ.hW0 i hi
  field_simp
  ring

/-- **C236** Residual and sensitivity of the boundary term use the same rule on simplices. -/
theorem C236_rule_partial (order dim : ℤ) : tBndSensRuleOrder .Pk order dim = tBndRuleOrder .Pk order dim := by
  simp [tBndSensRuleOrder, tBndRuleOrder]

/-- **C236, violation** On tensor-product elements they do not, in any positive dimension: the sensitivity is that of another sum. -/
theorem C236_rule_false (order dim : ℤ) (hd : 0 < dim) : tBndSensRuleOrder .Qk order dim < tBndRuleOrder .Qk order dim := by
  simp [tBndSensRuleOrder, tBndRuleOrder]; omega

/-- **C236** The two vectors assembled for an interface, multiplied with any motion of the nodes of the two elements (the face moving with
the first), add up to the derivative of the tested interface terms. -/
theorem C236_interior_sensitivity (alpha : ℝ) (f : ℕ → FaceP P dim) (s1 : ℕ → Side P nd1 dim) (s2 : ℕ → Side P nd2 dim)
    (μ1 : SideMotion n dim m1) (μ2 : SideMotion n dim m2) (ν : NorMotion n dim mf) (find : ℕ → Option ℕ)
    (hatt : Attached dim m1 mf μ1.δ ν.δ find) (u1 psi1 : Vec nd1) (u2 psi2 : Vec nd2) :
    HasDerivAt (fun t =>
        dotv psi1 (tIntVec alpha n (ν.face f t) (μ1.side s1 t) (μ2.side s2 t) u1 u2).1 +
        dotv psi2 (tIntVec alpha n (ν.face f t) (μ1.side s1 t) (μ2.side s2 t) u1 u2).2)
      (∑ q ∈ range (dim * m1), (tIntSens alpha n m1 m2 mf (ν.face f 0) (μ1.side s1 0) (μ2.side s2 0)
          μ1.rev μ2.rev ν.rev find u1 psi1 u2 psi2).1 q * μ1.δ q +
        ∑ q ∈ range (dim * m2), (tIntSens alpha n m1 m2 mf (ν.face f 0) (μ1.side s1 0) (μ2.side s2 0)
          μ1.rev μ2.rev ν.rev find u1 psi1 u2 psi2).2 q * μ2.δ q) 0 := by
  set r := fun i => tIntRev alpha (ν.face f 0 i) (μ1.side s1 0 i) (μ2.side s2 0 i) u1 psi1 u2 psi2 with hr
  have hs : ∑ q ∈ range (dim * m1), (tIntSens alpha n m1 m2 mf (ν.face f 0) (μ1.side s1 0) (μ2.side s2 0)
          μ1.rev μ2.rev ν.rev find u1 psi1 u2 psi2).1 q * μ1.δ q +
        ∑ q ∈ range (dim * m2), (tIntSens alpha n m1 m2 mf (ν.face f 0) (μ1.side s1 0) (μ2.side s2 0)
          μ1.rev μ2.rev ν.rev find u1 psi1 u2 psi2).2 q * μ2.δ q =
      ∑ i ∈ range n, (frob (r i).1.1 (μ1.inv' i) + (r i).1.2 * μ1.W' i + dotv (r i).2.2 (ν.nor' i) +
        (frob (r i).2.1.1 (μ2.inv' i) + (r i).2.1.2 * μ2.W' i)) := by
    unfold tIntSens
    simp only
    rw [insertFace_dot μ1.δ ν.δ find (dim * m1) (dim * mf) hatt, scatter_loop_dot, scatter_loop_dot,
      scatter_loop_dot, ← sum_add_distrib, ← sum_add_distrib]
    refine sum_congr rfl fun i hi => ?_
    have hi := mem_range.1 hi
    rw [μ1.point i hi, μ2.point i hi, ν.point i hi]
  rw [hs]
  simp only [C236_interior_form]
  refine HasDerivAt.fun_sum fun i hi => ?_
  have hi := mem_range.1 hi
  have n1 := nd_motion μ1 ν s1 i hi u1
  have n2 := nd_motion μ2 ν s2 i hi u2
  have p1 := nd_motion μ1 ν s1 i hi psi1
  have p2 := nd_motion μ2 ν s2 i hi psi2
  have hn := nn_motion ν i hi
  have hT1 : ∀ (t : ℝ) (v : Vec nd1), (μ1.side s1 t i).trace v = (s1 i).trace v := fun _ _ => rfl
  have hT2 : ∀ (t : ℝ) (v : Vec nd2), (μ2.side s2 t i).trace v = (s2 i).trace v := fun _ _ => rfl
  have hF : ∀ t, (ν.face f t i).nor = ν.nor i t := fun _ => rfl
  have hw : ∀ t, (ν.face f t i).w = (f i).w := fun _ => rfl
  have hW1 : ∀ t, (μ1.side s1 t i).W = μ1.W i t := fun _ => rfl
  have hW2 : ∀ t, (μ2.side s2 t i).W = μ2.W i t := fun _ => rfl
  simp only [hT1, hT2, hF, hw, hW1, hW2]
  have a1 := (hasDerivAt_const (0 : ℝ) ((s1 i).trace psi1)).fun_div (μ1.hW i hi) (μ1.hW0 i hi)
  have a2 := (hasDerivAt_const (0 : ℝ) ((s2 i).trace psi2)).fun_div (μ2.hW i hi) (μ2.hW0 i hi)
  have b1 := p1.fun_div (μ1.hW i hi) (μ1.hW0 i hi)
  have b2 := p2.fun_div (μ2.hW i hi) (μ2.hW0 i hi)
  have hfin := ((((n1.fun_add n2).fun_neg.fun_mul (a1.fun_sub a2)).fun_sub
      ((b1.fun_add b2).const_mul ((s1 i).trace u1 - (s2 i).trace u2))).fun_add
      ((hn.mul_const ((s1 i).trace u1 - (s2 i).trace u2)).fun_mul (a1.fun_sub a2))).const_mul (alpha * (f i).w)
  refine hfin.congr_deriv ?_
  rw [hr]
  unfold tIntRev
  simp only [frob_side', dotv_addMulTV, dotv_axpy, dotv_zeroV, mulTV_axpy, dot_shape, dot_dn, dn_dot, hT1, hT2, hF, hw, hW1, hW2]
  have e1 : ∀ v, mulTV (μ1.side s1 0 i).dxt v = (μ1.side s1 0 i).gradU v := fun v => flux_eq _ v
  have e2 : ∀ v, mulTV (μ2.side s2 0 i).dxt v = (μ2.side s2 0 i).gradU v := fun v => flux_eq _ v
  have d1 : (μ1.side s1 0 i).dshape = (s1 i).dshape := rfl
  have d2 : (μ2.side s2 0 i).dshape = (s2 i).dshape := rfl
  have g1 : ∀ v, mulTV (mulM (s1 i).dshape (μ1.inv' i)) v = μ1.grad' s1 i v := fun _ => rfl
  have g2 : ∀ v, mulTV (mulM (s2 i).dshape (μ2.inv' i)) v = μ2.grad' s2 i v := fun _ => rfl
  simp only [e1, e2, d1, d2, g1, g2]
  have w1 := μ1.hW0 i hi
  have w2 := μ2.hW0 i hi
  field_simp
  ring

/-! ### Non-vacuity -/

/-- The contract with the adjugate is met by every motion of an element's mapping with non-zero determinant. -/
noncomputable def adjOfMotion (μ : Motion n dim m) (h0 : ∀ i < n, μ.J i 0 ≠ 0) : SideMotion n dim m where
  δ := μ.δ
  inv := μ.adj
  W := μ.J
  inv' := μ.adj'
  W' := μ.J'
  hinv := μ.hadj
  hW := μ.hJ
  hW0 := h0
  rev := ⟨μ.adjRev, μ.wRev⟩
  hinvRev := μ.hadjRev
  hwRev := μ.hwRev

/-- Two triangles sharing the edge between the nodes 0 and 1 of the first, any motion of the nodes, non-trivial data. -/
example (δ1 δ2 : ℕ → ℝ) (dN : ℕ → ℕ → Fin 2 → ℝ) (X1 X2 : ℕ → ℝ) (h1 : ∀ i < 2, det2 (isoJac 3 (dN i) X1) ≠ 0)
    (h2 : ∀ i < 2, det2 (isoJac 3 (dN i) X2) ≠ 0) :
    ∃ (μ1 μ2 : SideMotion 2 2 3) (ν : NorMotion 2 2 2) (find : ℕ → Option ℕ), μ1.δ = δ1 ∧ μ2.δ = δ2 ∧
      Attached 2 3 2 μ1.δ ν.δ find := by
  refine ⟨adjOfMotion (isoMotion 2 3 dN X1 δ1) ?_, adjOfMotion (isoMotion 2 3 dN X2 δ2) ?_,
    edgeMotion 2 (fun j => X1 (if j < 2 then j else j + 1)) (fun j => δ1 (if j < 2 then j else j + 1)),
    fun j => some (if j < 2 then j else j + 1), rfl, rfl, ?_⟩
  · intro i hi; simpa [isoMotion] using h1 i hi
  · intro i hi; simpa [isoMotion] using h2 i hi
  · intro j hj
    refine ⟨_, ?_, rfl, rfl⟩
    split_ifs <;> omega

end Verif.DGDiffusion
