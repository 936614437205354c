import Verif.ViscousIntegLemmas
import Verif.InviscidIntegProps
import Verif.SbpProps
import Mathlib.Tactic.IntervalCases

/-!
Properties C109-C112 of the second-derivative (viscous) SBP integrators.

Specification: `Dx e wt adj d f i` is the physical-space SBP derivative of the nodal field `f` in
direction `d` at node `i`, and `ExactJacDw` says that two families of matrices are the Jacobians of a
function of a state and of a gradient.
-/

namespace Verif.ViscousInteg
open Finset Verif.Sbp Verif.Inviscid

set_option linter.unusedSectionVars false

variable {K : Type*} [Field K]

/-- The physical derivative operator, written with the metric terms:
`(1/(H_i J_i)) Σ_j ½ Σ_k (adjJ_i + adjJ_j)(k, d) Q_k(i, j) f_j`. -/
def Dx (e : Elem K) (wt : ℕ → K) (adj : ℕ → ℕ → ℕ → K) (d : ℕ) (f : ℕ → K) (i : ℕ) : K :=
  (∑ j ∈ range e.dof, (1 / 2 * ∑ k ∈ range e.dim, (adj i k d + adj j k d) * Qm e k i j) * f j) /
    (e.H i * wt i)

/-- The boundary operator of every reference direction is diagonal: `Q_k + Q_kᵀ` has no off-diagonal
entries (true of the diagonal-E operators, see C89). -/
def DiagE (e : Elem K) : Prop :=
  ∀ k < e.dim, ∀ i < e.dof, ∀ j < e.dof, i ≠ j → Qm e k j i = - Qm e k i j

/-- The derivative of a constant is zero in reference space, and the metric identities hold at the
nodes. -/
def Metric (e : Elem K) (adj : ℕ → ℕ → ℕ → K) : Prop :=
  (∀ k < e.dim, ∀ i < e.dof, ∑ j ∈ range e.dof, Qm e k i j = 0) ∧
  ∀ d < e.dim, ∀ i < e.dof, ∑ k ∈ range e.dim, ∑ j ∈ range e.dof, Qm e k i j * adj j k d = 0

theorem wk_eq [CharZero K] (e : Elem K) (hE : DiagE e) (adj : ℕ → ℕ → ℕ → K) (d : ℕ) (f : ℕ → K)
    (i : ℕ) (hi : i < e.dof) :
    wk e adj d f i = ∑ j ∈ range e.dof,
      (1 / 2 * ∑ k ∈ range e.dim, (adj i k d + adj j k d) * Qm e k i j) * f j := by
  refine sum_congr rfl fun j hj => ?_
  rw [mem_range] at hj
  rw [C85_qentry e d i j (adj i) (adj j) (fun h => by rw [h]) (fun k hk hij => hE k hk i hi j hj hij)]
  rfl

theorem wk_Dx [CharZero K] (e : Elem K) (hE : DiagE e) (wt : ℕ → K) (adj : ℕ → ℕ → ℕ → K) (d : ℕ)
    (f : ℕ → K) (i : ℕ) (hi : i < e.dof) :
    wk e adj d f i * hinv e wt i = Dx e wt adj d f i := by
  rw [wk_eq e hE adj d f i hi, Dx, hinv]; ring

/-! ### C109: the derivative that the viscous terms use -/

/-- The gradient handed to the viscous flux functions is the SBP derivative of the converted
variables, for every state, curved mapping and number of nodes. -/
theorem C109_gradient_value [CharZero K] (e : Elem K) (hE : DiagE e) (ns : ℕ) (wt : ℕ → K)
    (adj : ℕ → ℕ → ℕ → K) (convert : (ℕ → K) → (ℕ → K)) (u : ℕ → K) (i s d : ℕ) (hi : i < e.dof)
    (hs : s < ns) (hd : d < e.dim) :
    calcDw e ns wt adj convert u i s d =
      Dx e wt adj d (fun j => convert (fun n => u (n * e.dof + j)) s) i := by
  rw [calcDw_eq e ns wt adj convert u i s d hs hd, wk_Dx e hE wt adj d _ i hi]
  rfl

theorem Dx_const [CharZero K] (e : Elem K) (wt : ℕ → K) (adj : ℕ → ℕ → ℕ → K)
    (hM : Metric e adj) (d : ℕ) (hd : d < e.dim) (c : K) (i : ℕ) (hi : i < e.dof) :
    Dx e wt adj d (fun _ => c) i = 0 := by
  rw [Dx, ← sum_mul]
  have h : ∑ j ∈ range e.dof, (1 / 2 * ∑ k ∈ range e.dim, (adj i k d + adj j k d) * Qm e k i j) =
      1 / 2 * ((∑ k ∈ range e.dim, adj i k d * ∑ j ∈ range e.dof, Qm e k i j) +
        ∑ k ∈ range e.dim, ∑ j ∈ range e.dof, Qm e k i j * adj j k d) := by
    rw [← mul_sum, sum_comm, ← sum_add_distrib]
    congr 1
    refine sum_congr rfl fun k _ => ?_
    rw [mul_sum, ← sum_add_distrib]
    exact sum_congr rfl fun j _ => by ring
  rw [h, hM.2 d hd i hi, sum_eq_zero fun k hk => by rw [hM.1 k (mem_range.1 hk) i hi, mul_zero]]
  simp

theorem Dx_linear [CharZero K] (e : Elem K) (A J : ℕ → ℕ → K) (det : K)
    (hdet : det ≠ 0) (b : ℕ → K) (xi : ℕ → ℕ → K)
    (hH : ∀ i < e.dof, e.H i ≠ 0)
    (hA : ∀ m < e.dim, ∀ d < e.dim, ∑ l ∈ range e.dim, J m l * A l d = if m = d then det else 0)
    (h0 : ∀ k < e.dim, ∀ i < e.dof, ∑ j ∈ range e.dof, Qm e k i j = 0)
    (h1 : ∀ k < e.dim, ∀ l < e.dim, ∀ i < e.dof,
      ∑ j ∈ range e.dof, Qm e k i j * xi l j = if k = l then e.H i else 0)
    (g : ℕ → K) (c : K) (d : ℕ) (hd : d < e.dim) (i : ℕ) (hi : i < e.dof) :
    Dx e (fun _ => det) (fun _ => A) d
      (fun j => c + ∑ m ∈ range e.dim, g m * (b m + ∑ l ∈ range e.dim, J m l * xi l j)) i = g d := by
  have h2 : ∀ k < e.dim, ∑ j ∈ range e.dof, Qm e k i j *
      (c + ∑ m ∈ range e.dim, g m * (b m + ∑ l ∈ range e.dim, J m l * xi l j)) =
      e.H i * ∑ m ∈ range e.dim, g m * J m k := by
    intro k hk
    simp only [mul_add, sum_add_distrib]
    rw [← sum_mul, ← sum_mul, h0 k hk i hi, zero_mul, zero_mul, zero_add, zero_add, mul_sum]
    simp only [mul_sum]
    rw [sum_comm]
    refine sum_congr rfl fun m _ => ?_
    rw [sum_comm]
    have h3 : ∀ l ∈ range e.dim, ∑ j ∈ range e.dof, Qm e k i j * (g m * (J m l * xi l j)) =
        if k = l then e.H i * (g m * J m k) else 0 := by
      intro l hl
      have : ∀ j, Qm e k i j * (g m * (J m l * xi l j)) = g m * J m l * (Qm e k i j * xi l j) :=
        fun j => by ring
      simp only [this]
      rw [← mul_sum, h1 k hk l (mem_range.1 hl) i hi]
      split_ifs with h
      · rw [h]; ring
      · ring
    rw [sum_congr rfl h3, sum_ite_eq, if_pos (mem_range.2 hk)]
  have h4 : ∑ j ∈ range e.dof, (1 / 2 * ∑ k ∈ range e.dim, (A k d + A k d) * Qm e k i j) *
      (c + ∑ m ∈ range e.dim, g m * (b m + ∑ l ∈ range e.dim, J m l * xi l j)) =
      ∑ k ∈ range e.dim, A k d * ∑ j ∈ range e.dof, Qm e k i j *
      (c + ∑ m ∈ range e.dim, g m * (b m + ∑ l ∈ range e.dim, J m l * xi l j)) := by
    have : ∀ k ∈ range e.dim, A k d * ∑ j ∈ range e.dof, Qm e k i j *
      (c + ∑ m ∈ range e.dim, g m * (b m + ∑ l ∈ range e.dim, J m l * xi l j)) =
      ∑ j ∈ range e.dof, A k d * Qm e k i j *
      (c + ∑ m ∈ range e.dim, g m * (b m + ∑ l ∈ range e.dim, J m l * xi l j)) := by
      intro k _; rw [mul_sum]; exact sum_congr rfl fun j _ => by ring
    rw [sum_congr rfl this, sum_comm]
    refine sum_congr rfl fun j _ => ?_
    rw [← sum_mul]
    congr 1
    rw [mul_sum]
    exact sum_congr rfl fun k _ => by ring
  rw [Dx, h4, sum_congr rfl fun k hk => by rw [h2 k (mem_range.1 hk)]]
  have h5 : ∑ k ∈ range e.dim, A k d * (e.H i * ∑ m ∈ range e.dim, g m * J m k) =
      e.H i * ∑ m ∈ range e.dim, g m * ∑ l ∈ range e.dim, J m l * A l d := by
    simp only [mul_sum]
    rw [sum_comm]
    exact sum_congr rfl fun m _ => sum_congr rfl fun k _ => by ring
  rw [h5, sum_congr rfl fun m hm => by rw [hA m (mem_range.1 hm) d hd]]
  simp only [mul_ite, mul_zero, sum_ite_eq', mem_range, hd, if_true]
  have := hH i hi
  field_simp

/-- A uniform state has zero gradient at every node, on every mapping that satisfies the metric
identities. -/
theorem C109_uniform [CharZero K] (e : Elem K) (hE : DiagE e) (ns : ℕ) (wt : ℕ → K)
    (adj : ℕ → ℕ → ℕ → K) (hM : Metric e adj) (convert : (ℕ → K) → (ℕ → K)) (u q : ℕ → K)
    (hu : ∀ j < e.dof, (fun n => u (n * e.dof + j)) = q) (i s d : ℕ) (hi : i < e.dof)
    (hs : s < ns) (hd : d < e.dim) : calcDw e ns wt adj convert u i s d = 0 := by
  rw [C109_gradient_value e hE ns wt adj convert u i s d hi hs hd,
    ← Dx_const e wt adj hM d hd (convert q s) i hi]
  unfold Dx
  congr 1
  refine sum_congr rfl fun j hj => ?_
  beta_reduce
  rw [hu j (mem_range.1 hj)]

/-- On an affine element the gradient is exact whenever the converted variables are linear in the
physical coordinates: the reference operators differentiate the reference coordinates `xi l` exactly,
the mapping is `x_m = b_m + Σ_l J(m,l) xi_l`, the adjugate satisfies `J adj = det I` and `Weight()` is
the determinant. -/
theorem C109_linear_exact [CharZero K] (e : Elem K) (hE : DiagE e) (ns : ℕ)
    (convert : (ℕ → K) → (ℕ → K)) (u : ℕ → K) (A J : ℕ → ℕ → K) (det : K)
    (hdet : det ≠ 0) (b : ℕ → K) (xi : ℕ → ℕ → K)
    (hH : ∀ i < e.dof, e.H i ≠ 0)
    (hA : ∀ m < e.dim, ∀ d < e.dim, ∑ l ∈ range e.dim, J m l * A l d = if m = d then det else 0)
    (h0 : ∀ k < e.dim, ∀ i < e.dof, ∑ j ∈ range e.dof, Qm e k i j = 0)
    (h1 : ∀ k < e.dim, ∀ l < e.dim, ∀ i < e.dof,
      ∑ j ∈ range e.dof, Qm e k i j * xi l j = if k = l then e.H i else 0)
    (c : ℕ → K) (g : ℕ → ℕ → K)
    (hw : ∀ j < e.dof, ∀ s < ns, convert (fun n => u (n * e.dof + j)) s =
      c s + ∑ m ∈ range e.dim, g s m * (b m + ∑ l ∈ range e.dim, J m l * xi l j))
    (i s d : ℕ) (hi : i < e.dof) (hs : s < ns) (hd : d < e.dim) :
    calcDw e ns (fun _ => det) (fun _ => A) convert u i s d = g s d := by
  rw [C109_gradient_value e hE ns _ _ convert u i s d hi hs hd,
    ← Dx_linear e A J det hdet b xi hH hA h0 h1 (g s) (c s) d hd i hi]
  unfold Dx
  congr 1
  refine sum_congr rfl fun j hj => ?_
  beta_reduce
  rw [hw j (mem_range.1 hj) s hs]

/-! #### A concrete element: the two-node segment mapped to an interval of length 3 -/

/-- Two-node segment. -/
def seg2 : Elem ℚ :=
  ⟨1, 2, fun _ => 1 / 2, fun _ j _ => if j = 1 then 1 / 2 else -1 / 2, fun _ _ => 0, 0,
    fun _ _ => 0⟩

example : DiagE seg2 := by
  intro k _ i hi j hj h
  have hi' : i < 2 := hi
  have hj' : j < 2 := hj
  interval_cases i <;> interval_cases j <;> simp_all [Qm_eq, seg2] <;> norm_num

example : Metric seg2 (fun _ _ _ => 1) := by
  constructor
  · intro k _ i _; simp [Qm_eq, seg2, sum_range_succ]; norm_num
  · intro d _ i _; simp [Qm_eq, seg2, sum_range_succ]; norm_num

example : (∀ k < seg2.dim, ∀ l < seg2.dim, ∀ i < seg2.dof,
    ∑ j ∈ range seg2.dof, Qm seg2 k i j * (j : ℚ) = if k = l then seg2.H i else 0) ∧
    ∀ m < seg2.dim, ∀ d < seg2.dim, ∑ _l ∈ range seg2.dim, (3 : ℚ) * 1 = if m = d then 3 else 0 := by
  constructor
  · intro k hk l hl i _
    have : k = l := by have h1 : k < 1 := hk; have h2 : l < 1 := hl; omega
    simp [this, Qm_eq, seg2, sum_range_succ]
  · intro m hm d hd
    have : m = d := by have h1 : m < 1 := hm; have h2 : d < 1 := hd; omega
    simp [this, seg2]

/-- A non-uniform state: `w = u` goes from 1 to 7 over an interval of length 3, the gradient is 2. -/
example : calcDw seg2 1 (fun _ => 3) (fun _ _ _ => 1) (fun u => u)
    (fun p => if p = 0 then 1 else 7) 0 0 0 = 2 := by decide +kernel

/-! ### C110: symmetric viscous volume integrator -/

/-- **Weak form.**  Testing the residual with any nodal vector `v` gives `alpha` times the quadrature
of `Σ_d (D_d v) · C_d(u, Dw)`. -/
theorem C110_weak_form [CharZero K] (e : Elem K) (hE : DiagE e) (ns : ℕ) (alpha : K) (wt : ℕ → K)
    (hH : ∀ i < e.dof, e.H i * wt i ≠ 0) (adj : ℕ → ℕ → ℕ → K) (x : ℕ → ℕ → K)
    (convert : (ℕ → K) → (ℕ → K))
    (scale : ℕ → (ℕ → K) → (ℕ → K) → (ℕ → ℕ → K) → (ℕ → K)) (u v : ℕ → K) :
    ∑ s ∈ range ns, ∑ i ∈ range e.dof, v (s * e.dof + i) *
        symVec e ns alpha wt adj x convert scale u (s * e.dof + i) =
      alpha * ∑ i ∈ range e.dof, e.H i * wt i * ∑ d ∈ range e.dim, ∑ s ∈ range ns,
        Dx e wt adj d (fun k => v (s * e.dof + k)) i *
          scale d (x i) (fun n => u (n * e.dof + i)) (calcDw e ns wt adj convert u i) s := by
  rw [← dotV_flat, symVec_dot]
  congr 1
  refine sum_congr rfl fun i hi => ?_
  rw [mem_range] at hi
  rw [mul_sum]
  refine sum_congr rfl fun d _ => ?_
  rw [mul_sum]
  refine sum_congr rfl fun s _ => ?_
  rw [← wk_Dx e hE wt adj d _ i hi, hinv]
  have h3 := left_ne_zero_of_mul (hH i hi)
  have h4 := right_ne_zero_of_mul (hH i hi)
  have h2 : row u e.dof i = fun n => u (n * e.dof + i) := rfl
  rw [h2]
  field_simp

/-- The element's entropy change is its residual tested with the converted variables. -/
theorem C110_energy_is_tested_residual (e : Elem K) (ns : ℕ) (alpha : K) (wt : ℕ → K)
    (adj : ℕ → ℕ → ℕ → K) (x : ℕ → ℕ → K) (convert : (ℕ → K) → (ℕ → K))
    (scale : ℕ → (ℕ → K) → (ℕ → K) → (ℕ → ℕ → K) → (ℕ → K)) (u : ℕ → K) :
    symEnergy e ns alpha wt adj x convert scale u =
      ∑ i ∈ range e.dof, ∑ s ∈ range ns, convert (fun n => u (n * e.dof + i)) s *
        symVec e ns alpha wt adj x convert scale u (s * e.dof + i) :=
  symEnergy_eq e ns alpha wt adj x convert scale u

/-- **Dissipation.**  The entropy change is `alpha` times the quadrature of `Σ_d Dw_d · C_d(u, Dw)`. -/
theorem C110_dissipation [CharZero K] (e : Elem K) (hE : DiagE e) (ns : ℕ) (alpha : K) (wt : ℕ → K)
    (hH : ∀ i < e.dof, e.H i * wt i ≠ 0) (adj : ℕ → ℕ → ℕ → K) (x : ℕ → ℕ → K)
    (convert : (ℕ → K) → (ℕ → K))
    (scale : ℕ → (ℕ → K) → (ℕ → K) → (ℕ → ℕ → K) → (ℕ → K)) (u : ℕ → K) :
    symEnergy e ns alpha wt adj x convert scale u =
      alpha * ∑ i ∈ range e.dof, e.H i * wt i * ∑ d ∈ range e.dim, ∑ s ∈ range ns,
        calcDw e ns wt adj convert u i s d *
          scale d (x i) (fun n => u (n * e.dof + i)) (calcDw e ns wt adj convert u i) s := by
  rw [symEnergy_dot, dotV_flat, C110_weak_form e hE ns alpha wt hH adj x convert scale u]
  congr 1
  refine sum_congr rfl fun i hi => ?_
  rw [mem_range] at hi
  congr 1
  refine sum_congr rfl fun d hd => sum_congr rfl fun s hs => ?_
  rw [C109_gradient_value e hE ns wt adj convert u i s d hi (mem_range.1 hs) (mem_range.1 hd)]
  congr 1
  unfold Dx
  congr 1
  refine sum_congr rfl fun k hk => ?_
  beta_reduce
  rw [convVec_flat _ _ _ _ _ (mem_range.1 hk)]; rfl

/-- **Entropy stability.**  If the point-wise quadratic form is non-negative (for the Navier-Stokes
scaling: C104), so is the element's entropy change, for every state and every mapping with positive
weights. -/
theorem C110_stable {K : Type*} [Field K] [LinearOrder K] [IsStrictOrderedRing K] (e : Elem K)
    (hE : DiagE e) (ns : ℕ) (alpha : K) (ha : 0 ≤ alpha) (wt : ℕ → K)
    (hH : ∀ i < e.dof, 0 < e.H i * wt i) (adj : ℕ → ℕ → ℕ → K) (x : ℕ → ℕ → K)
    (convert : (ℕ → K) → (ℕ → K))
    (scale : ℕ → (ℕ → K) → (ℕ → K) → (ℕ → ℕ → K) → (ℕ → K)) (u : ℕ → K)
    (hC : ∀ i < e.dof, ∀ Dw : ℕ → ℕ → K, 0 ≤ ∑ d ∈ range e.dim, ∑ s ∈ range ns,
      Dw s d * scale d (x i) (fun n => u (n * e.dof + i)) Dw s) :
    0 ≤ symEnergy e ns alpha wt adj x convert scale u := by
  rw [C110_dissipation e hE ns alpha wt (fun i hi => (hH i hi).ne') adj x convert scale u]
  refine mul_nonneg ha (sum_nonneg fun i hi => ?_)
  rw [mem_range] at hi
  exact mul_nonneg (hH i hi).le (hC i hi _)

/-- **Conservation.**  On a mapping that satisfies the metric identities the residual of every
equation sums to zero over the element's nodes, whatever the state and the scaling. -/
theorem C110_conservation [CharZero K] (e : Elem K) (hE : DiagE e) (ns : ℕ) (alpha : K) (wt : ℕ → K)
    (hH : ∀ i < e.dof, e.H i * wt i ≠ 0) (adj : ℕ → ℕ → ℕ → K) (hM : Metric e adj) (x : ℕ → ℕ → K)
    (convert : (ℕ → K) → (ℕ → K))
    (scale : ℕ → (ℕ → K) → (ℕ → K) → (ℕ → ℕ → K) → (ℕ → K)) (u : ℕ → K) (s : ℕ) (hs : s < ns) :
    ∑ i ∈ range e.dof, symVec e ns alpha wt adj x convert scale u (s * e.dof + i) = 0 := by
  have h := C110_weak_form e hE ns alpha wt hH adj x convert scale u
    (fun p => if p / e.dof = s then 1 else 0)
  have h1 : ∀ s' ∈ range ns, ∑ i ∈ range e.dof,
      (fun p => if p / e.dof = s then (1 : K) else 0) (s' * e.dof + i) *
        symVec e ns alpha wt adj x convert scale u (s' * e.dof + i) =
      if s' = s then ∑ i ∈ range e.dof, symVec e ns alpha wt adj x convert scale u (s * e.dof + i)
      else 0 := by
    intro s' _
    split_ifs with h
    · refine sum_congr rfl fun i hi => ?_
      beta_reduce
      rw [flat_div (mem_range.1 hi), if_pos h, one_mul, h]
    · refine sum_eq_zero fun i hi => ?_
      beta_reduce
      rw [flat_div (mem_range.1 hi), if_neg h, zero_mul]
  rw [sum_congr rfl h1, sum_ite_eq', if_pos (mem_range.2 hs)] at h
  rw [h]
  refine mul_eq_zero_of_right _ (sum_eq_zero fun i hi => mul_eq_zero_of_right _
    (sum_eq_zero fun d hd => sum_eq_zero fun s' _ => mul_eq_zero_of_left ?_ _))
  rw [mem_range] at hi hd
  refine Eq.trans ?_ (Dx_const e wt adj hM d hd (if s' = s then 1 else 0) i hi)
  unfold Dx
  congr 1
  refine sum_congr rfl fun k hk => ?_
  beta_reduce
  rw [flat_div (mem_range.1 hk)]

/-- A uniform flow has no viscous residual, provided the scaling maps a zero gradient to zero. -/
theorem C110_uniform [CharZero K] (e : Elem K) (hE : DiagE e) (ns : ℕ) (alpha : K) (wt : ℕ → K)
    (adj : ℕ → ℕ → ℕ → K) (hM : Metric e adj) (x : ℕ → ℕ → K) (convert : (ℕ → K) → (ℕ → K))
    (scale : ℕ → (ℕ → K) → (ℕ → K) → (ℕ → ℕ → K) → (ℕ → K)) (u q : ℕ → K)
    (hu : ∀ j < e.dof, (fun n => u (n * e.dof + j)) = q)
    (h0 : ∀ d < e.dim, ∀ i < e.dof, ∀ Dw : ℕ → ℕ → K, (∀ s < ns, ∀ d < e.dim, Dw s d = 0) →
      ∀ s < ns, scale d (x i) q Dw s = 0) (p : ℕ) (hp : p < ns * e.dof) :
    symVec e ns alpha wt adj x convert scale u p = 0 := by
  have h := symVec_dot e ns alpha wt adj x convert scale u (fun r => if r = p then 1 else 0)
  rw [dotV_indicator _ _ hp] at h
  rw [h]
  refine mul_eq_zero_of_right _ (sum_eq_zero fun i hi => sum_eq_zero fun d hd =>
    sum_eq_zero fun s hs => mul_eq_zero_of_right _ ?_)
  rw [mem_range] at hi hd hs
  have hr : row u e.dof i = q := hu i hi
  rw [hr]
  exact h0 d hd i hi _ (fun s' hs' d' hd' =>
    C109_uniform e hE ns wt adj hM convert u q hu i s' d' hi hs' hd') s hs

/-- `Jq`, `JD` are the exact Jacobians of `F(q, Dw)` with respect to the state and to each column of
the gradient. -/
def ExactJacDw (ns dim : ℕ) (F : (ℕ → ℝ) → (ℕ → ℕ → ℝ) → (ℕ → ℝ)) (Jq : ℕ → ℕ → ℝ)
    (JD : ℕ → ℕ → ℕ → ℝ) (q : ℕ → ℝ) (Dw : ℕ → ℕ → ℝ) : Prop :=
  ∀ (c : ℝ → ℕ → ℝ) (D : ℝ → ℕ → ℕ → ℝ) (v : ℕ → ℝ) (V : ℕ → ℕ → ℝ), c 0 = q → D 0 = Dw →
    (∀ m < ns, HasDerivAt (fun t => c t m) (v m) 0) →
    (∀ m < ns, ∀ d < dim, HasDerivAt (fun t => D t m d) (V m d) 0) →
    ∀ n < ns, HasDerivAt (fun t => F (c t) (D t) n)
      ((∑ m ∈ range ns, Jq n m * v m) + ∑ d ∈ range dim, ∑ m ∈ range ns, JD d n m * V m d) 0

/-- Derivative of the computed gradient along a curve of states. -/
theorem calcDw_deriv (e : Elem ℝ) (ns : ℕ) (wt : ℕ → ℝ) (adj : ℕ → ℕ → ℕ → ℝ)
    (convert : (ℕ → ℝ) → (ℕ → ℝ)) (convJac : (ℕ → ℝ) → (ℕ → ℕ → ℝ)) (u : ℕ → ℝ)
    (hconv : ∀ j < e.dof, ExactJac ns convert (convJac (row u e.dof j)) (row u e.dof j))
    (c : ℝ → ℕ → ℝ) (w : ℕ → ℝ) (h0 : c 0 = u)
    (hc : ∀ m < ns * e.dof, HasDerivAt (fun t => c t m) (w m) 0) (i s d : ℕ) (hs : s < ns)
    (hd : d < e.dim) :
    HasDerivAt (fun t => calcDw e ns wt adj convert (c t) i s d)
      (wk e adj d (fun j => ∑ q ∈ range ns, convJac (row u e.dof j) s q * w (q * e.dof + j)) i *
        hinv e wt i) 0 := by
  have e1 : ∀ t, calcDw e ns wt adj convert (c t) i s d = _ := fun t =>
    calcDw_eq e ns wt adj convert (c t) i s d hs hd
  simp only [e1]
  refine HasDerivAt.mul_const ?_ _
  unfold wk
  refine HasDerivAt.fun_sum fun j hj => HasDerivAt.const_mul _ ?_
  rw [mem_range] at hj
  exact hconv j hj (fun t => row (c t) e.dof j) (row w e.dof j) (by rw [h0])
    (fun m hm => hc _ (flat_lt hj hm)) s hs

/-- **Gradient.**  The assembled matrix is the exact Jacobian of the assembled residual whenever the
point-wise Jacobians (computed by Adept) are exact. -/
theorem C110_gradient (e : Elem ℝ) (ns : ℕ) (alpha : ℝ) (wt : ℕ → ℝ) (adj : ℕ → ℕ → ℕ → ℝ)
    (x : ℕ → ℕ → ℝ) (convert : (ℕ → ℝ) → (ℕ → ℝ)) (convJac : (ℕ → ℝ) → (ℕ → ℕ → ℝ))
    (scale : ℕ → (ℕ → ℝ) → (ℕ → ℝ) → (ℕ → ℕ → ℝ) → (ℕ → ℝ))
    (scaleJac : ℕ → (ℕ → ℝ) → (ℕ → ℝ) → (ℕ → ℕ → ℝ) → (ℕ → ℕ → ℝ))
    (scaleJacDw : ℕ → (ℕ → ℝ) → (ℕ → ℝ) → (ℕ → ℕ → ℝ) → (ℕ → ℕ → ℕ → ℝ)) (u : ℕ → ℝ)
    (hconv : ∀ j < e.dof, ExactJac ns convert (convJac (row u e.dof j)) (row u e.dof j))
    (hscale : ∀ d < e.dim, ∀ i < e.dof, ExactJacDw ns e.dim (scale d (x i))
      (scaleJac d (x i) (row u e.dof i) (calcDw e ns wt adj convert u i))
      (scaleJacDw d (x i) (row u e.dof i) (calcDw e ns wt adj convert u i))
      (row u e.dof i) (calcDw e ns wt adj convert u i)) :
    ExactJac (ns * e.dof) (symVec e ns alpha wt adj x convert scale)
      (symGrad e ns alpha wt adj x convert convJac scaleJac scaleJacDw u) u := by
  intro c w h0 hc p hp
  have e1 : ∀ t, symVec e ns alpha wt adj x convert scale (c t) p = _ := fun t => by
    rw [← dotV_indicator (ns * e.dof) p hp (symVec e ns alpha wt adj x convert scale (c t)),
      symVec_dot]
  simp only [e1]
  rw [← bil_indicator _ p hp, symGrad_bil]
  refine HasDerivAt.const_mul _ (HasDerivAt.fun_sum fun i hi => HasDerivAt.fun_sum fun d hd =>
    HasDerivAt.fun_sum fun s hs => HasDerivAt.const_mul _ ?_)
  rw [mem_range] at hi hd hs
  refine hscale d hd i hi (fun t => row (c t) e.dof i)
    (fun t => calcDw e ns wt adj convert (c t) i) (row w e.dof i) (fun m d2 =>
      wk e adj d2 (fun j => ∑ q ∈ range ns, convJac (row u e.dof j) m q * w (q * e.dof + j)) i *
        hinv e wt i) (by rw [h0]) (by rw [h0]) (fun m hm => hc _ (flat_lt hi hm))
    (fun m hm d2 hd2 => calcDw_deriv e ns wt adj convert convJac u hconv c w h0 hc i m d2 hm hd2) s hs

/-- Point-wise Jacobians that satisfy the hypotheses: `F(q, Dw) = q_n Dw_{n,d}` (a state-dependent
viscosity). -/
theorem exactDw_quad (ns dim d : ℕ) (hd : d < dim) (q : ℕ → ℝ) (Dw : ℕ → ℕ → ℝ) :
    ExactJacDw ns dim (fun q Dw n => q n * Dw n d) (fun n m => if m = n then Dw n d else 0)
      (fun d2 n m => if d2 = d then (if m = n then q n else 0) else 0) q Dw := by
  intro c D v V hc hD hv hV n hn
  refine ((hv n hn).fun_mul (hV n hn d hd)).congr_deriv ?_
  simp only [ite_mul, zero_mul, sum_ite_eq', mem_range, hn, if_true, hc, hD]
  rw [sum_eq_single d]
  · simp [hn]; ring
  · intro b _ hb; simp [hb]
  · intro h; exact absurd (mem_range.2 hd) h

example (e : Elem ℝ) (ns : ℕ) (alpha : ℝ) (wt : ℕ → ℝ) (adj : ℕ → ℕ → ℕ → ℝ) (u : ℕ → ℝ) :
    ExactJac (ns * e.dof)
      (symVec e ns alpha wt adj (fun _ _ => 0) (fun q n => 1 * q n ^ 2 / 2)
        (fun d _ q Dw n => q n * Dw n d))
      (symGrad e ns alpha wt adj (fun _ _ => 0) (fun q n => 1 * q n ^ 2 / 2)
        (fun q n m => if m = n then 1 * q n else 0)
        (fun d _ _ Dw n m => if m = n then Dw n d else 0)
        (fun d _ q _ d2 n m => if d2 = d then (if m = n then q n else 0) else 0) u) u :=
  C110_gradient e ns alpha wt adj (fun _ _ => 0) (fun q n => 1 * q n ^ 2 / 2)
    (fun q n m => if m = n then 1 * q n else 0) (fun d _ q Dw n => q n * Dw n d)
    (fun d _ _ Dw n m => if m = n then Dw n d else 0)
    (fun d _ q _ d2 n m => if d2 = d then (if m = n then q n else 0) else 0) u
    (fun _ _ => exact_burgers ns 1 _) (fun d hd _ _ => exactDw_quad ns e.dim d hd _ _)

/-! ### C111: viscous boundary integrators -/

/-- The boundary functional is the weighted sum of the point functional over the face nodes, with the
state and gradient of the element node that carries each face node. -/
theorem C111_functional (f : Face K) (e : Elem K) (ns : ℕ) (alpha : K)
    (wt : ℕ → K) (adj : ℕ → ℕ → ℕ → K) (convert : (ℕ → K) → (ℕ → K))
    (bfun : (ℕ → K) → (ℕ → K) → K → (ℕ → K) → (ℕ → ℕ → K) → K) (u : ℕ → K) :
    vbEnergy f e ns alpha wt adj convert bfun u =
      alpha * ∑ k ∈ range f.n, f.w k * bfun (f.x k) (f.nrm k) (wt (f.left k))
        (fun n => u (n * e.dof + f.left k)) (calcDw e ns wt adj convert u (f.left k)) := by
  rw [vbEnergy, forN_sum, zero_add, mul_sum]
  exact sum_congr rfl fun k _ => by unfold row; ring

/-- **Weak form on the boundary.**  The residual tested with `v` is the face quadrature of
`alpha v · F + Σ_d (D_d v) · G_d`: note that `alpha` does not multiply the second term. -/
theorem C111_weak_form [CharZero K] (f : Face K) (e : Elem K) (hE : DiagE e) (ns : ℕ) (alpha : K)
    (wt : ℕ → K) (adj : ℕ → ℕ → ℕ → K) (convert : (ℕ → K) → (ℕ → K))
    (flux : (ℕ → K) → (ℕ → K) → K → (ℕ → K) → (ℕ → ℕ → K) → (ℕ → K))
    (fluxDv : (ℕ → K) → (ℕ → K) → (ℕ → K) → (ℕ → ℕ → K)) (u v : ℕ → K)
    (hl : ∀ k < f.n, f.left k < e.dof) :
    ∑ s ∈ range ns, ∑ i ∈ range e.dof, v (s * e.dof + i) *
        vbVec f e ns alpha wt adj convert flux fluxDv u (s * e.dof + i) =
      ∑ k ∈ range f.n, f.w k *
        (alpha * (∑ s ∈ range ns, v (s * e.dof + f.left k) * flux (f.x k) (f.nrm k) (wt (f.left k))
            (fun n => u (n * e.dof + f.left k)) (calcDw e ns wt adj convert u (f.left k)) s) +
          ∑ d ∈ range e.dim, ∑ s ∈ range ns,
            Dx e wt adj d (fun j => v (s * e.dof + j)) (f.left k) *
              fluxDv (f.x k) (f.nrm k) (fun n => u (n * e.dof + f.left k)) s d) := by
  rw [← dotV_flat, vbVec_dot _ _ _ _ _ _ _ _ _ _ _ hl]
  refine sum_congr rfl fun k hk => ?_
  have hi := hl k (mem_range.1 hk)
  rw [mul_add]
  congr 1
  · rw [← mul_assoc, mul_comm alpha]; rfl
  · congr 1
    refine sum_congr rfl fun d _ => sum_congr rfl fun s _ => ?_
    rw [wk_Dx e hE wt adj d _ _ hi]; rfl

/-- When the boundary function is the flux tested with the converted variables and there is no
derivative-tested flux (all the boundary conditions of the code), the functional is the residual
tested with the converted variables. -/
theorem C111_energy_is_tested_residual [CharZero K] (f : Face K) (e : Elem K) (hE : DiagE e) (ns : ℕ)
    (alpha : K) (wt : ℕ → K) (adj : ℕ → ℕ → ℕ → K) (convert : (ℕ → K) → (ℕ → K))
    (flux : (ℕ → K) → (ℕ → K) → K → (ℕ → K) → (ℕ → ℕ → K) → (ℕ → K)) (u : ℕ → K)
    (hl : ∀ k < f.n, f.left k < e.dof) :
    vbEnergy f e ns alpha wt adj convert
        (fun x nrm jac q Dw => ∑ s ∈ range ns, convert q s * flux x nrm jac q Dw s) u =
      ∑ s ∈ range ns, ∑ i ∈ range e.dof, convert (fun n => u (n * e.dof + i)) s *
        vbVec f e ns alpha wt adj convert flux (fun _ _ _ _ _ => 0) u (s * e.dof + i) := by
  have h := C111_weak_form f e hE ns alpha wt adj convert flux (fun _ _ _ _ _ => 0) u
    (convVec e.dof convert u) hl
  have h1 : ∀ s ∈ range ns, ∑ i ∈ range e.dof, convVec e.dof convert u (s * e.dof + i) *
      vbVec f e ns alpha wt adj convert flux (fun _ _ _ _ _ => 0) u (s * e.dof + i) =
      ∑ i ∈ range e.dof, convert (fun n => u (n * e.dof + i)) s *
        vbVec f e ns alpha wt adj convert flux (fun _ _ _ _ _ => 0) u (s * e.dof + i) := by
    intro s _
    refine sum_congr rfl fun i hi => ?_
    rw [convVec_flat _ _ _ _ _ (mem_range.1 hi)]; rfl
  rw [sum_congr rfl h1] at h
  rw [h, C111_functional f e, mul_sum]
  refine sum_congr rfl fun k hk => ?_
  simp only [mul_zero, sum_const_zero, add_zero]
  rw [mul_left_comm]
  congr 2
  refine sum_congr rfl fun s _ => ?_
  rw [convVec_flat _ _ _ _ _ (hl k (mem_range.1 hk))]; rfl

/-- **Boundary gradient, `alpha = 1`.**  The assembled matrix is the exact Jacobian of the assembled
boundary residual when `alpha = 1` (the value used by every caller). -/
theorem C111_gradient_partial (f : Face ℝ) (e : Elem ℝ) (ns : ℕ) (wt : ℕ → ℝ)
    (adj : ℕ → ℕ → ℕ → ℝ) (convert : (ℕ → ℝ) → (ℕ → ℝ)) (convJac : (ℕ → ℝ) → (ℕ → ℕ → ℝ))
    (flux : (ℕ → ℝ) → (ℕ → ℝ) → ℝ → (ℕ → ℝ) → (ℕ → ℕ → ℝ) → (ℕ → ℝ))
    (fluxDv : (ℕ → ℝ) → (ℕ → ℝ) → (ℕ → ℝ) → (ℕ → ℕ → ℝ))
    (fluxJac : (ℕ → ℝ) → (ℕ → ℝ) → ℝ → (ℕ → ℝ) → (ℕ → ℕ → ℝ) → (ℕ → ℕ → ℝ))
    (fluxJacDw : (ℕ → ℝ) → (ℕ → ℝ) → ℝ → (ℕ → ℝ) → (ℕ → ℕ → ℝ) → (ℕ → ℕ → ℕ → ℝ))
    (fluxDvJac : (ℕ → ℝ) → (ℕ → ℝ) → (ℕ → ℝ) → (ℕ → ℕ → ℕ → ℝ)) (u : ℕ → ℝ)
    (hl : ∀ k < f.n, f.left k < e.dof)
    (hconv : ∀ j < e.dof, ExactJac ns convert (convJac (row u e.dof j)) (row u e.dof j))
    (hflux : ∀ k < f.n, ExactJacDw ns e.dim (flux (f.x k) (f.nrm k) (wt (f.left k)))
      (fluxJac (f.x k) (f.nrm k) (wt (f.left k)) (row u e.dof (f.left k))
        (calcDw e ns wt adj convert u (f.left k)))
      (fluxJacDw (f.x k) (f.nrm k) (wt (f.left k)) (row u e.dof (f.left k))
        (calcDw e ns wt adj convert u (f.left k)))
      (row u e.dof (f.left k)) (calcDw e ns wt adj convert u (f.left k)))
    (hDv : ∀ k < f.n, ∀ d < e.dim, ExactJac ns (fun q s => fluxDv (f.x k) (f.nrm k) q s d)
      (fluxDvJac (f.x k) (f.nrm k) (row u e.dof (f.left k)) d) (row u e.dof (f.left k))) :
    ExactJac (ns * e.dof) (vbVec f e ns 1 wt adj convert flux fluxDv)
      (vbGrad f e ns wt adj convert convJac fluxJac fluxJacDw fluxDvJac u) u := by
  intro c w h0 hc p hp
  have e1 : ∀ t, vbVec f e ns 1 wt adj convert flux fluxDv (c t) p = _ := fun t => by
    rw [← dotV_indicator (ns * e.dof) p hp (vbVec f e ns 1 wt adj convert flux fluxDv (c t)),
      vbVec_dot _ _ _ _ _ _ _ _ _ _ _ hl]
  simp only [e1]
  rw [← bil_indicator _ p hp, vbGrad_bil _ _ _ _ _ _ _ _ _ _ _ _ _ hl]
  refine HasDerivAt.fun_sum fun k hk => HasDerivAt.fun_add ?_ ?_
  · rw [mem_range] at hk
    have hi := hl k hk
    simp only [one_mul]
    refine HasDerivAt.const_mul _ (HasDerivAt.fun_sum fun s hs => HasDerivAt.const_mul _ ?_)
    rw [mem_range] at hs
    exact hflux k hk (fun t => row (c t) e.dof (f.left k))
      (fun t => calcDw e ns wt adj convert (c t) (f.left k)) (row w e.dof (f.left k)) (fun m d2 =>
        wk e adj d2 (fun j => ∑ q ∈ range ns, convJac (row u e.dof j) m q * w (q * e.dof + j))
          (f.left k) * hinv e wt (f.left k)) (by rw [h0]) (by rw [h0])
      (fun m hm => hc _ (flat_lt hi hm))
      (fun m hm d2 hd2 => calcDw_deriv e ns wt adj convert convJac u hconv c w h0 hc _ m d2 hm hd2) s
      hs
  · rw [mem_range] at hk
    have hi := hl k hk
    refine HasDerivAt.const_mul _ (HasDerivAt.fun_sum fun d hd => HasDerivAt.fun_sum fun s hs =>
      HasDerivAt.const_mul _ ?_)
    rw [mem_range] at hs hd
    exact hDv k hk d hd (fun t => row (c t) e.dof (f.left k)) (row w e.dof (f.left k)) (by rw [h0])
      (fun m hm => hc _ (flat_lt hi hm)) s hs

/-- One-node face at the left end of the two-node segment. -/
def ptF (K : Type*) [Field K] : Face K :=
  ⟨1, fun _ => 1, fun _ _ => -1, fun _ _ => 0, fun _ => 0, fun _ => 0⟩

/-- One-node "element" with unit norm: enough to exercise the loops. -/
def oneNode (K : Type*) [Field K] : Elem K :=
  ⟨1, 1, fun _ => 1, fun _ _ _ => 0, fun _ _ => 0, 0, fun _ _ => 0⟩

/-- The full property, for every `alpha`, is false: the matrix ignores `alpha`.  With flux `F(q) = q`
and `alpha = 2` the residual has slope 2, the matrix says 1. -/
theorem C111_gradient_alpha_false :
    ¬ ∀ (f : Face ℝ) (e : Elem ℝ) (ns : ℕ) (alpha : ℝ) (wt : ℕ → ℝ) (adj : ℕ → ℕ → ℕ → ℝ)
      (convert : (ℕ → ℝ) → (ℕ → ℝ)) (convJac : (ℕ → ℝ) → (ℕ → ℕ → ℝ))
      (flux : (ℕ → ℝ) → (ℕ → ℝ) → ℝ → (ℕ → ℝ) → (ℕ → ℕ → ℝ) → (ℕ → ℝ))
      (fluxJac : (ℕ → ℝ) → (ℕ → ℝ) → ℝ → (ℕ → ℝ) → (ℕ → ℕ → ℝ) → (ℕ → ℕ → ℝ))
      (fluxJacDw : (ℕ → ℝ) → (ℕ → ℝ) → ℝ → (ℕ → ℝ) → (ℕ → ℕ → ℝ) → (ℕ → ℕ → ℕ → ℝ)) (u : ℕ → ℝ),
      (∀ k < f.n, f.left k < e.dof) →
      (∀ j < e.dof, ExactJac ns convert (convJac (row u e.dof j)) (row u e.dof j)) →
      (∀ k < f.n, ExactJacDw ns e.dim (flux (f.x k) (f.nrm k) (wt (f.left k)))
        (fluxJac (f.x k) (f.nrm k) (wt (f.left k)) (row u e.dof (f.left k))
          (calcDw e ns wt adj convert u (f.left k)))
        (fluxJacDw (f.x k) (f.nrm k) (wt (f.left k)) (row u e.dof (f.left k))
          (calcDw e ns wt adj convert u (f.left k)))
        (row u e.dof (f.left k)) (calcDw e ns wt adj convert u (f.left k))) →
      ExactJac (ns * e.dof) (vbVec f e ns alpha wt adj convert flux (fun _ _ _ _ _ => 0))
        (vbGrad f e ns wt adj convert convJac fluxJac fluxJacDw (fun _ _ _ _ _ _ => 0) u) u := by
  intro h
  have h1 := h (ptF ℝ) (oneNode ℝ) 1 2 (fun _ => 1) (fun _ _ _ => 1) (fun q => q)
    (fun _ n m => if m = n then 1 else 0) (fun _ _ _ q _ => q)
    (fun _ _ _ _ _ n m => if m = n then 1 else 0) (fun _ _ _ _ _ _ _ _ => 0) (fun _ => 0)
    (fun _ _ => by simp [ptF, oneNode])
    (fun _ _ c w _ hc n hn => by
      obtain rfl : n = 0 := by omega
      simpa using hc 0 hn)
    (fun _ _ c D v V _ _ hc _ n hn => by
      obtain rfl : n = 0 := by omega
      simpa using hc 0 hn)
  have h2 := h1.partial_deriv 0 0 (by simp [oneNode]) (by simp [oneNode])
  have e1 : (fun t : ℝ => vbVec (ptF ℝ) (oneNode ℝ) 1 2 (fun _ => 1) (fun _ _ _ => 1) (fun q => q)
      (fun _ _ _ q _ => q) (fun _ _ _ _ _ => 0) (fun k => if k = 0 then (0 : ℝ) + t else 0) 0) =
      fun t => 2 * t := by
    funext t
    simp [vbVec, vbVecBody, forN, addAt, ptF, oneNode, row]
  rw [e1] at h2
  have e2 : vbGrad (ptF ℝ) (oneNode ℝ) 1 (fun _ => 1) (fun _ _ _ => 1) (fun q => q)
      (fun _ n m => if m = n then 1 else 0) (fun _ _ _ _ _ n m => if m = n then 1 else 0)
      (fun _ _ _ _ _ _ _ _ => 0) (fun _ _ _ _ _ _ => 0) (fun _ => 0) 0 0 = 1 := by
    simp [vbGrad, vbGradBody, forN, addAt2, ptF, oneNode, matMul]
  rw [e2] at h2
  have h3 : HasDerivAt (fun t : ℝ => 2 * t) 2 0 := by
    simpa using (hasDerivAt_id' (0 : ℝ)).const_mul 2
  exact absurd (h3.unique h2) (by norm_num)

/-! ### C112: derivative of the surface-force functional -/

/-- `g` is the gradient of the functional `F` at `u`: along every curve of states the functional's
derivative is `Σ g_p u'_p`. -/
def ExactGrad (len : ℕ) (F : (ℕ → ℝ) → ℝ) (g : ℕ → ℝ) (u : ℕ → ℝ) : Prop :=
  ∀ (c : ℝ → ℕ → ℝ) (w : ℕ → ℝ), c 0 = u → (∀ m < len, HasDerivAt (fun t => c t m) (w m) 0) →
    HasDerivAt (fun t => F (c t)) (∑ p ∈ range len, g p * w p) 0

/-- `gq`, `gD` are the partial gradients of the point functional `F(q, Dw)`. -/
def ExactGradDw (ns dim : ℕ) (F : (ℕ → ℝ) → (ℕ → ℕ → ℝ) → ℝ) (gq : ℕ → ℝ) (gD : ℕ → ℕ → ℝ)
    (q : ℕ → ℝ) (Dw : ℕ → ℕ → ℝ) : Prop :=
  ∀ (c : ℝ → ℕ → ℝ) (D : ℝ → ℕ → ℕ → ℝ) (v : ℕ → ℝ) (V : ℕ → ℕ → ℝ), c 0 = q → D 0 = Dw →
    (∀ m < ns, HasDerivAt (fun t => c t m) (v m) 0) →
    (∀ m < ns, ∀ d < dim, HasDerivAt (fun t => D t m d) (V m d) 0) →
    HasDerivAt (fun t => F (c t) (D t))
      ((∑ m ∈ range ns, gq m * v m) + ∑ d ∈ range dim, ∑ m ∈ range ns, gD m d * V m d) 0

/-- With `alpha = 1` the assembled vector is the exact gradient of the surface-force functional with
respect to every nodal state (through the wall state and through the gradient). -/
theorem C112_gradient_partial (f : Face ℝ) (e : Elem ℝ) (ns : ℕ) (wt : ℕ → ℝ)
    (adj : ℕ → ℕ → ℕ → ℝ) (convert : (ℕ → ℝ) → (ℕ → ℝ)) (convJac : (ℕ → ℝ) → (ℕ → ℕ → ℝ))
    (bfun : (ℕ → ℝ) → (ℕ → ℝ) → ℝ → (ℕ → ℝ) → (ℕ → ℕ → ℝ) → ℝ)
    (funJac : (ℕ → ℝ) → (ℕ → ℝ) → ℝ → (ℕ → ℝ) → (ℕ → ℕ → ℝ) → (ℕ → ℝ))
    (funJacDw : (ℕ → ℝ) → (ℕ → ℝ) → ℝ → (ℕ → ℝ) → (ℕ → ℕ → ℝ) → (ℕ → ℕ → ℝ)) (u : ℕ → ℝ)
    (hl : ∀ k < f.n, f.left k < e.dof)
    (hconv : ∀ j < e.dof, ExactJac ns convert (convJac (row u e.dof j)) (row u e.dof j))
    (hfun : ∀ k < f.n, ExactGradDw ns e.dim (bfun (f.x k) (f.nrm k) (wt (f.left k)))
      (funJac (f.x k) (f.nrm k) (wt (f.left k)) (row u e.dof (f.left k))
        (calcDw e ns wt adj convert u (f.left k)))
      (funJacDw (f.x k) (f.nrm k) (wt (f.left k)) (row u e.dof (f.left k))
        (calcDw e ns wt adj convert u (f.left k)))
      (row u e.dof (f.left k)) (calcDw e ns wt adj convert u (f.left k))) :
    ExactGrad (ns * e.dof) (vbEnergy f e ns 1 wt adj convert bfun)
      (sfVec f e ns 1 wt adj convert convJac funJac funJacDw u) u := by
  intro c w h0 hc
  have e1 : ∀ t, vbEnergy f e ns 1 wt adj convert bfun (c t) = _ := fun t =>
    C111_functional f e ns 1 wt adj convert bfun (c t)
  simp only [e1, one_mul]
  have e2 : ∑ p ∈ range (ns * e.dof), sfVec f e ns 1 wt adj convert convJac funJac funJacDw u p * w p
      = dotV (ns * e.dof) w (sfVec f e ns 1 wt adj convert convJac funJac funJacDw u) := by
    unfold dotV; exact sum_congr rfl fun p _ => mul_comm _ _
  rw [e2, sfVec_dot _ _ _ _ _ _ _ _ _ _ _ _ hl]
  refine HasDerivAt.fun_sum fun k hk => ?_
  rw [mem_range] at hk
  have hi := hl k hk
  rw [one_mul, ← mul_add]
  refine HasDerivAt.const_mul _ ?_
  exact hfun k hk (fun t => row (c t) e.dof (f.left k))
    (fun t => calcDw e ns wt adj convert (c t) (f.left k)) (row w e.dof (f.left k)) (fun m d2 =>
      wk e adj d2 (fun j => ∑ q ∈ range ns, convJac (row u e.dof j) m q * w (q * e.dof + j))
        (f.left k) * hinv e wt (f.left k)) (by rw [h0]) (by rw [h0])
    (fun m hm => hc _ (flat_lt hi hm))
    (fun m hm d2 hd2 => calcDw_deriv e ns wt adj convert convJac u hconv c w h0 hc _ m d2 hm hd2)

/-- For other values of `alpha` (the constructor takes any) it is not: only one of the two terms is
scaled.  Two nodes, `F(q, Dw) = Dw`, `alpha = 2`. -/
theorem C112_gradient_alpha_false :
    ¬ ∀ (f : Face ℝ) (e : Elem ℝ) (ns : ℕ) (alpha : ℝ) (wt : ℕ → ℝ)
      (adj : ℕ → ℕ → ℕ → ℝ) (convert : (ℕ → ℝ) → (ℕ → ℝ)) (convJac : (ℕ → ℝ) → (ℕ → ℕ → ℝ))
      (bfun : (ℕ → ℝ) → (ℕ → ℝ) → ℝ → (ℕ → ℝ) → (ℕ → ℕ → ℝ) → ℝ)
      (funJac : (ℕ → ℝ) → (ℕ → ℝ) → ℝ → (ℕ → ℝ) → (ℕ → ℕ → ℝ) → (ℕ → ℝ))
      (funJacDw : (ℕ → ℝ) → (ℕ → ℝ) → ℝ → (ℕ → ℝ) → (ℕ → ℕ → ℝ) → (ℕ → ℕ → ℝ)) (u : ℕ → ℝ),
      (∀ k < f.n, f.left k < e.dof) →
      (∀ j < e.dof, ExactJac ns convert (convJac (row u e.dof j)) (row u e.dof j)) →
      (∀ k < f.n, ExactGradDw ns e.dim (bfun (f.x k) (f.nrm k) (wt (f.left k)))
        (funJac (f.x k) (f.nrm k) (wt (f.left k)) (row u e.dof (f.left k))
          (calcDw e ns wt adj convert u (f.left k)))
        (funJacDw (f.x k) (f.nrm k) (wt (f.left k)) (row u e.dof (f.left k))
          (calcDw e ns wt adj convert u (f.left k)))
        (row u e.dof (f.left k)) (calcDw e ns wt adj convert u (f.left k))) →
      ExactGrad (ns * e.dof) (vbEnergy f e ns alpha wt adj convert bfun)
        (sfVec f e ns alpha wt adj convert convJac funJac funJacDw u) u := by
  intro h
  let seg : Elem ℝ := ⟨1, 2, fun _ => 1 / 2, fun _ j _ => if j = 1 then 1 / 2 else -1 / 2,
    fun _ _ => 0, 0, fun _ _ => 0⟩
  have h1 := h (ptF ℝ) seg 1 2 (fun _ => 1) (fun _ _ _ => 1) (fun q => q)
    (fun _ n m => if m = n then 1 else 0) (fun _ _ _ _ Dw => Dw 0 0)
    (fun _ _ _ _ _ _ => 0) (fun _ _ _ _ _ _ _ => 1) (fun _ => 0)
    (fun _ _ => by simp [ptF, seg])
    (fun _ _ c w _ hc n hn => by
      obtain rfl : n = 0 := by omega
      simpa using hc 0 hn)
    (fun _ _ c D v V _ _ _ hD => by simpa [seg] using hD 0 (by norm_num) 0 (by simp [seg]))
    (fun t p => if p = 1 then t else 0) (fun p => if p = 1 then 1 else 0)
    (by funext p; simp)
    (fun m _ => by
      by_cases hm : m = 1
      · simp only [hm, if_true]; exact hasDerivAt_id' 0
      · simp only [hm, if_false]; exact hasDerivAt_const _ _)
  have e1 : (fun t : ℝ => vbEnergy (ptF ℝ) seg 1 2 (fun _ => 1) (fun _ _ _ => 1) (fun q => q)
      (fun _ _ _ _ Dw => Dw 0 0) (fun p => if p = 1 then t else 0)) = fun t => 2 * t := by
    funext t
    simp [vbEnergy, forN, calcDw, hinv, addAt2, ptF, seg, row, getQEntry, getSymEntry, getSkewEntry]
    ring
  have e2 : ∑ p ∈ range (1 * seg.dof), sfVec (ptF ℝ) seg 1 2 (fun _ => 1) (fun _ _ _ => 1)
      (fun q => q) (fun _ n m => if m = n then 1 else 0) (fun _ _ _ _ _ _ => 0)
      (fun _ _ _ _ _ _ _ => 1) (fun _ => 0) p * (if p = 1 then (1 : ℝ) else 0) = 1 := by
    simp [sfVec, sfVecBody, forN, hinv, addAt, ptF, seg, getQEntry, getSymEntry, getSkewEntry]
    try norm_num
  rw [e1, e2] at h1
  have h3 : HasDerivAt (fun t : ℝ => 2 * t) 2 0 := by
    simpa using (hasDerivAt_id' (0 : ℝ)).const_mul 2
  exact absurd (h3.unique h1) (by norm_num)

end Verif.ViscousInteg
