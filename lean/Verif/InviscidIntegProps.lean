import Verif.InviscidIntegLemmas
import Mathlib.Algebra.Order.BigOperators.Group.Finset
import Mathlib.Algebra.Order.BigOperators.Ring.Finset
import Mathlib.Data.Rat.Floor

/-!
Properties C90-C96 of the SBP nonlinear-form integrators.

`ExactJac len F J q` is the specification of "`J` is the Jacobian matrix of `F` at `q`": along every
curve of arguments through `q`, component `n` of `F` has the derivative `Σ_m J(n,m) q'(m)` (the
chain rule).  It is used both for what is assumed of the pointwise flux Jacobians, which the code
obtains from Adept, and for what is concluded about the assembled element matrices.
-/

namespace Verif.Inviscid
open Finset Verif.Sbp

set_option linter.unusedSectionVars false

/-- `J` is the exact Jacobian of the first `len` components of `F` with respect to its first `len`
arguments, at `q`. -/
def ExactJac (len : ℕ) (F : (ℕ → ℝ) → (ℕ → ℝ)) (J : ℕ → ℕ → ℝ) (q : ℕ → ℝ) : Prop :=
  ∀ (c : ℝ → ℕ → ℝ) (w : ℕ → ℝ), c 0 = q → (∀ m < len, HasDerivAt (fun t => c t m) (w m) 0) →
    ∀ n < len, HasDerivAt (fun t => F (c t) n) (∑ m ∈ range len, J n m * w m) 0

/-- `JL`, `JR` are the exact Jacobians of `F` with respect to its two arguments at `(qL, qR)`. -/
def ExactJac2 (len : ℕ) (F : (ℕ → ℝ) → (ℕ → ℝ) → (ℕ → ℝ)) (JL JR : ℕ → ℕ → ℝ)
    (qL qR : ℕ → ℝ) : Prop :=
  ∀ (a b : ℝ → ℕ → ℝ) (v w : ℕ → ℝ), a 0 = qL → b 0 = qR →
    (∀ m < len, HasDerivAt (fun t => a t m) (v m) 0) →
    (∀ m < len, HasDerivAt (fun t => b t m) (w m) 0) →
    ∀ n < len, HasDerivAt (fun t => F (a t) (b t) n)
      (∑ m ∈ range len, (JL n m * v m + JR n m * w m)) 0

/-- The entries of an exact Jacobian are the partial derivatives. -/
theorem ExactJac.partial_deriv {len : ℕ} {F : (ℕ → ℝ) → (ℕ → ℝ)} {J : ℕ → ℕ → ℝ} {q : ℕ → ℝ}
    (h : ExactJac len F J q) (n m : ℕ) (hn : n < len) (hm : m < len) :
    HasDerivAt (fun t => F (fun k => if k = m then q k + t else q k) n) (J n m) 0 := by
  refine (h (fun t k => if k = m then q k + t else q k) (fun k => if k = m then 1 else 0) ?_ ?_ n
    hn).congr_deriv ?_
  · funext k; split_ifs <;> simp
  · intro k _
    by_cases hk : k = m
    · simp only [hk, if_true]; exact (hasDerivAt_id' (0 : ℝ)).const_add _
    · simp only [hk, if_false]; exact hasDerivAt_const _ _
  · simp [hm]

/-- A linear map is its own exact Jacobian. -/
theorem exact_linear (len : ℕ) (A : ℕ → ℕ → ℝ) (q : ℕ → ℝ) :
    ExactJac len (fun q n => ∑ m ∈ range len, A n m * q m) A q := by
  intro c w _ hc n _
  exact HasDerivAt.fun_sum fun m hm => (hc m (mem_range.1 hm)).const_mul (A n m)

/-- A nonlinear example (Burgers flux in every component, scaled by the direction). -/
theorem exact_burgers (len : ℕ) (d : ℝ) (q : ℕ → ℝ) :
    ExactJac len (fun q n => d * q n ^ 2 / 2) (fun n m => if m = n then d * q n else 0) q := by
  intro c w h0 hc n hn
  refine ((((hc n hn).fun_pow 2).const_mul d).div_const 2).congr_deriv ?_
  simp only [ite_mul, zero_mul, sum_ite_eq', mem_range, hn, if_true, h0]
  push_cast; ring

/-- The symmetric two-point Burgers flux `(a² + ab + b²)/6`. -/
theorem exact_burgers2 (len : ℕ) (qL qR : ℕ → ℝ) :
    ExactJac2 len (fun a b n => (a n ^ 2 + a n * b n + b n ^ 2) / 6)
      (fun n m => if m = n then (2 * qL n + qR n) / 6 else 0)
      (fun n m => if m = n then (qL n + 2 * qR n) / 6 else 0) qL qR := by
  intro a b v w ha hb hv hw n hn
  refine ((((((hv n hn).fun_pow 2).fun_add ((hv n hn).fun_mul (hw n hn))).fun_add
    ((hw n hn).fun_pow 2))).div_const 6).congr_deriv ?_
  simp only [sum_add_distrib, ite_mul, zero_mul, sum_ite_eq', mem_range, hn, if_true, ha, hb]
  push_cast; ring

variable {K : Type*} [Field K]

/-- The derivative operator in the indexing of the mathematics: `Q_di(i, j)`. -/
def Qm (e : Elem K) (di i j : ℕ) : K := getQ e di i j

theorem Qm_eq (e : Elem K) (di i j : ℕ) : Qm e di i j = e.Q di j i := rfl

/-! ### C90: one-point (weak-form) integrator -/

/-- The residual is `-alpha Σ_di Q_diᵀ f_di`, the weak form of the divergence. -/
theorem C90_residual (e : Elem K) (ns : ℕ) (alpha : K) (flux : (ℕ → K) → (ℕ → K) → (ℕ → K))
    (adj : ℕ → ℕ → ℕ → K) (u : ℕ → K) (n i : ℕ) (hn : n < ns) (hi : i < e.dof) :
    weakVec e ns alpha flux adj u (n * e.dof + i) =
      -(alpha * ∑ di ∈ range e.dim, ∑ j ∈ range e.dof,
        Qm e di j i * flux (adj j di) (fun m => u (m * e.dof + j)) n) :=
  weakVec_eq e ns alpha flux adj u n i hn hi

/-- The element functional is `alpha` times the quadrature sum of the point values: node weight times
mapping weight, each node once. -/
theorem C90_functional (e : Elem K) (alpha : K) (volFun : ℕ → (ℕ → K) → K) (w u : ℕ → K) :
    weakEnergy e alpha volFun w u =
      alpha * ∑ i ∈ range e.dof, e.H i * w i * volFun i (fun n => u (n * e.dof + i)) := by
  rw [weakEnergy, forN_sum, zero_add, mul_comm]
  congr 1
  exact sum_congr rfl fun i _ => by unfold row; ring

/-- A functional equal to 1 everywhere returns `alpha` times the element's measure. -/
theorem C90_functional_measure (e : Elem K) (alpha : K) (w u : ℕ → K) :
    weakEnergy e alpha (fun _ _ => 1) w u = alpha * ∑ i ∈ range e.dof, e.H i * w i := by
  rw [C90_functional]; simp

/-- Conservation: if the derivative of a constant is zero, the residual of every equation sums to
zero over the element, whatever the flux function and the state. -/
theorem C90_conservation (e : Elem K) (ns : ℕ) (alpha : K)
    (flux : (ℕ → K) → (ℕ → K) → (ℕ → K)) (adj : ℕ → ℕ → ℕ → K) (u : ℕ → K)
    (hQ : ∀ di < e.dim, ∀ j < e.dof, ∑ i ∈ range e.dof, Qm e di j i = 0) (n : ℕ) (hn : n < ns) :
    ∑ i ∈ range e.dof, weakVec e ns alpha flux adj u (n * e.dof + i) = 0 := by
  rw [sum_congr rfl fun i hi => C90_residual e ns alpha flux adj u n i hn (mem_range.1 hi)]
  rw [sum_neg_distrib, ← mul_sum, sum_comm]
  rw [sum_eq_zero fun di hdi => ?_, mul_zero, neg_zero]
  rw [sum_comm]
  refine sum_eq_zero fun j hj => ?_
  rw [← sum_mul, hQ di (mem_range.1 hdi) j (mem_range.1 hj), zero_mul]

theorem weakGrad_mulVec (e : Elem K) (alpha : K)
    (J : (ℕ → K) → (ℕ → K) → (ℕ → ℕ → K)) (adj : ℕ → ℕ → ℕ → K) (u v : ℕ → K) (n i : ℕ)
    (hn : n < e.dim + 2) (hi : i < e.dof) :
    mulVec ((e.dim + 2) * e.dof) (weakGrad e alpha J adj u) v (n * e.dof + i) =
      -(alpha * ∑ di ∈ range e.dim, ∑ j ∈ range e.dof, Qm e di j i *
        ∑ m ∈ range (e.dim + 2), J (adjRow adj j di) (row u e.dof j) n m * v (m * e.dof + j)) := by
  have h : Adds (forN e.dim (fun di => forN e.dof (fun i => forN e.dof (fun j =>
      forN (e.dim + 2) (fun n => forN (e.dim + 2) (fun m =>
        addAt2 (m * e.dof + j) (n * e.dof + i)
          (-(alpha * getQ e di i j * J (adjRow adj i di) (row u e.dof i) m n))))))))
      (∑ di ∈ range e.dim, ∑ i ∈ range e.dof, ∑ j ∈ range e.dof, ∑ n ∈ range (e.dim + 2),
        ∑ m ∈ range (e.dim + 2), fun p q => if p = m * e.dof + j ∧ q = n * e.dof + i then
          (-(alpha * getQ e di i j * J (adjRow adj i di) (row u e.dof i) m n)) else 0) :=
    Adds.forN fun _ _ => Adds.forN fun _ _ => Adds.forN fun _ _ => Adds.forN fun _ _ =>
      Adds.forN fun _ _ => adds_addAt2 _ _ _
  rw [weakGrad, h.apply, fun_zero_eq2, zero_add, mulVec_sum, mul_sum, ← sum_neg_distrib]
  refine sum_congr rfl fun di _ => ?_
  rw [mulVec_sum, mul_sum, ← sum_neg_distrib]
  refine sum_congr rfl fun j hj => ?_
  rw [mem_range] at hj
  rw [mulVec_sum, sum_eq_single i]
  · rw [mulVec_sum, mul_sum, mul_sum, ← sum_neg_distrib]
    refine sum_congr rfl fun m hm => ?_
    rw [mem_range] at hm
    rw [mulVec_sum, sum_eq_single n]
    · rw [mulVec_single _ _ _ (flat_lt hj hm), if_pos rfl, Qm]; ring
    · intro b _ hb
      rw [mulVec_single _ _ _ (flat_lt hj hm), if_neg]
      rw [flat_iff hi hi]; exact fun h => hb h.1.symm
    · intro h; exact absurd (mem_range.2 hn) h
  · intro b hb hb'
    rw [mem_range] at hb
    rw [mulVec_sum]
    refine sum_eq_zero fun m hm => ?_
    rw [mem_range] at hm
    rw [mulVec_sum]
    refine sum_eq_zero fun n' _ => ?_
    rw [mulVec_single _ _ _ (flat_lt hj hm), if_neg]
    rw [flat_iff hi hb]; exact fun h => hb' h.2.symm
  · intro h; exact absurd (mem_range.2 hi) h

/-- The assembled matrix is the exact Jacobian of the assembled residual when there are `dim + 2`
states (the only case instantiated by the compressible-flow code). -/
theorem C90_gradient_partial (e : Elem ℝ) (alpha : ℝ) (flux : (ℕ → ℝ) → (ℕ → ℝ) → (ℕ → ℝ))
    (J : (ℕ → ℝ) → (ℕ → ℝ) → (ℕ → ℕ → ℝ)) (adj : ℕ → ℕ → ℕ → ℝ) (u : ℕ → ℝ)
    (hJ : ∀ di < e.dim, ∀ i < e.dof, ExactJac (e.dim + 2) (flux (adjRow adj i di))
      (J (adjRow adj i di) (row u e.dof i)) (row u e.dof i)) :
    ExactJac ((e.dim + 2) * e.dof) (weakVec e (e.dim + 2) alpha flux adj)
      (weakGrad e alpha J adj u) u := by
  intro c w h0 hc p hp
  obtain ⟨n, i, hn, hi, rfl⟩ := flat_surj hp
  have e1 : ∀ t, weakVec e (e.dim + 2) alpha flux adj (c t) (n * e.dof + i) = _ :=
    fun t => weakVec_eq e (e.dim + 2) alpha flux adj (c t) n i hn hi
  simp only [e1]
  have key := weakGrad_mulVec e alpha J adj u w n i hn hi
  rw [mulVec] at key
  rw [key]
  refine HasDerivAt.fun_neg (HasDerivAt.const_mul _ (HasDerivAt.fun_sum fun di hdi =>
    HasDerivAt.fun_sum fun j hj => HasDerivAt.const_mul _ ?_))
  rw [mem_range] at hdi hj
  refine hJ di hdi j hj (fun t => row (c t) e.dof j) (row w e.dof j) (by rw [h0]) ?_ n hn
  intro m hm
  exact hc _ (flat_lt hj hm)

/-- The full property, for any number of states, is false: with one state in one dimension the
loops of the gradient run over three states and so touch entries outside the `num_states*num_nodes`
square matrix (here row 2 of a 2 x 2 matrix), which the exact Jacobian never has. -/
theorem C90_gradient_any_states_false :
    ¬ ∀ (e : Elem ℚ) (ns : ℕ) (alpha : ℚ) (J : (ℕ → ℚ) → (ℕ → ℚ) → (ℕ → ℕ → ℚ))
      (adj : ℕ → ℕ → ℕ → ℚ) (u : ℕ → ℚ) (p q : ℕ), ns * e.dof ≤ p →
        weakGrad e alpha J adj u p q = 0 := by
  intro h
  have := h ⟨1, 2, fun _ => 1, fun _ i j => if i = 0 ∧ j = 0 then -1/2 else 1/2, fun _ _ => 0, 0,
    fun _ _ => 0⟩ 1 1 (fun _ _ _ _ => 1) (fun _ _ _ => 1) (fun _ => 1) 2 0 (by decide)
  exact absurd this (by decide +kernel)

/-- With more than `dim + 2` states the coupling to the extra states is missing. -/
theorem C90_gradient_more_states_false :
    ¬ ∀ (e : Elem ℝ) (ns : ℕ) (alpha : ℝ) (flux : (ℕ → ℝ) → (ℕ → ℝ) → (ℕ → ℝ))
      (J : (ℕ → ℝ) → (ℕ → ℝ) → (ℕ → ℕ → ℝ)) (adj : ℕ → ℕ → ℕ → ℝ) (u : ℕ → ℝ),
      (∀ di < e.dim, ∀ i < e.dof, ExactJac ns (flux (adjRow adj i di))
        (J (adjRow adj i di) (row u e.dof i)) (row u e.dof i)) →
      ExactJac (ns * e.dof) (weakVec e ns alpha flux adj) (weakGrad e alpha J adj u) u := by
  intro h
  have h1 := h ⟨1, 1, fun _ => 1, fun _ _ _ => 1, fun _ _ => 0, 0, fun _ _ => 0⟩ 4 1
    (fun _ q n => ∑ m ∈ range 4, (if n = m then 1 else 0) * q m)
    (fun _ _ n m => if n = m then 1 else 0) (fun _ _ _ => 1) (fun _ => 0)
    (fun di _ i _ => exact_linear 4 _ _)
  have h2 := h1.partial_deriv 3 3 (by decide) (by decide)
  have e1 : ∀ t : ℝ, weakVec ⟨1, 1, fun _ => 1, fun _ _ _ => 1, fun _ _ => 0, 0, fun _ _ => 0⟩ 4
      (1 : ℝ) (fun _ q n => ∑ m ∈ range 4, (if n = m then 1 else 0) * q m) (fun _ _ _ => 1)
      (fun k => if k = 3 then 0 + t else 0) 3 = -t := by
    intro t
    have := weakVec_eq (K := ℝ)
      ⟨1, 1, fun _ => 1, fun _ _ _ => 1, fun _ _ => 0, 0, fun _ _ => 0⟩ 4
      (1 : ℝ) (fun _ q n => ∑ m ∈ range 4, (if n = m then 1 else 0) * q m) (fun _ _ _ => 1)
      (fun k => if k = 3 then 0 + t else 0) 3 0 (by decide) (by decide)
    simp only [mul_one, add_zero] at this
    rw [this]
    simp [row, sum_range_succ]
  simp only [e1] at h2
  have h3 : HasDerivAt (fun t : ℝ => -t) (-1) 0 := (hasDerivAt_id' (0 : ℝ)).fun_neg
  have h4 := h2.unique h3
  have h5 : weakGrad (K := ℝ) ⟨1, 1, fun _ => 1, fun _ _ _ => 1, fun _ _ => 0, 0, fun _ _ => 0⟩ 1
      (fun _ _ n m => if n = m then 1 else 0) (fun _ _ _ => 1) (fun _ => 0) 3 3 = 0 := by
    simp [weakGrad, forN, addAt2]
  rw [h5] at h4
  norm_num at h4

/-- The hypotheses of the gradient theorem are met by the Burgers flux on any element. -/
example (e : Elem ℝ) (adj : ℕ → ℕ → ℕ → ℝ) (u : ℕ → ℝ) :
    ∀ di < e.dim, ∀ i < e.dof, ExactJac (e.dim + 2)
      ((fun d q n => d 0 * q n ^ 2 / 2 : (ℕ → ℝ) → (ℕ → ℝ) → (ℕ → ℝ)) (adjRow adj i di))
      ((fun d q n m => if m = n then d 0 * q n else 0 : (ℕ → ℝ) → (ℕ → ℝ) → (ℕ → ℕ → ℝ))
        (adjRow adj i di) (row u e.dof i)) (row u e.dof i) :=
  fun _ _ _ _ => exact_burgers _ _ _

/-! ### C91: two-point (dyadic) flux integrator -/

/-- The two-point operator of the mathematics: `S_di(i, j) = Σ_k (adj_i(k,di) Q_k(i,j) -
adj_j(k,di) Q_k(j,i))`. -/
def skewSpec (e : Elem K) (adj : ℕ → ℕ → ℕ → K) (di i j : ℕ) : K :=
  ∑ k ∈ range e.dim, (adj i k di * Qm e k i j - adj j k di * Qm e k j i)

theorem skew_eq_spec (e : Elem K) (adj : ℕ → ℕ → ℕ → K) (di i j : ℕ) :
    getSkewEntry e di i j (adj i) (adj j) = skewSpec e adj di i j := by
  rw [getSkewEntry_eq]; rfl

theorem skewSpec_neg (e : Elem K) (adj : ℕ → ℕ → ℕ → K) (di i j : ℕ) :
    skewSpec e adj di j i = -skewSpec e adj di i j := by
  unfold skewSpec; rw [← sum_neg_distrib]; exact sum_congr rfl fun k _ => by ring

theorem skewSpec_self (e : Elem K) (adj : ℕ → ℕ → ℕ → K) (di i : ℕ) :
    skewSpec e adj di i i = 0 := by
  unfold skewSpec; exact sum_eq_zero fun k _ => by ring

/-- The residual is `alpha Σ_di Σ_j S_di(i,j) F_di(u_i, u_j)` for every two-point flux that is
symmetric at the node pairs of the element. -/
theorem C91_residual (e : Elem K) (ns : ℕ) (alpha : K)
    (flux : ℕ → (ℕ → K) → (ℕ → K) → (ℕ → K)) (adj : ℕ → ℕ → ℕ → K) (u : ℕ → K)
    (hsym : ∀ di < e.dim, ∀ i < e.dof, ∀ j < e.dof,
      flux di (row u e.dof i) (row u e.dof j) = flux di (row u e.dof j) (row u e.dof i))
    (n a : ℕ) (hn : n < ns) (ha : a < e.dof) :
    dyadicVec e ns alpha flux adj u (n * e.dof + a) =
      alpha * ∑ di ∈ range e.dim, ∑ j ∈ range e.dof, skewSpec e adj di a j *
        flux di (fun m => u (m * e.dof + a)) (fun m => u (m * e.dof + j)) n := by
  rw [← dotV_indicator (ns * e.dof) _ (flat_lt ha hn) (dyadicVec e ns alpha flux adj u), dyadic_dot]
  set G : ℕ → ℕ → K := fun i j => if i = a then
    alpha * ∑ di ∈ range e.dim, skewSpec e adj di i j * flux di (row u e.dof i) (row u e.dof j) n
    else 0 with hG
  have h1 : ∀ i ∈ range e.dof, ∀ j ∈ Ico (i + 1) e.dof, (∑ di ∈ range e.dim, ∑ m ∈ range ns,
      ((if m * e.dof + i = n * e.dof + a then (1 : K) else 0) -
        if m * e.dof + j = n * e.dof + a then 1 else 0) *
      (getSkewEntry e di i j (adj i) (adj j) * alpha *
        flux di (row u e.dof i) (row u e.dof j) m)) = G i j + G j i := by
    intro i hi j hj
    rw [mem_range] at hi; rw [mem_Ico] at hj
    have h2 : ∀ di, (∑ m ∈ range ns, ((if m * e.dof + i = n * e.dof + a then (1 : K) else 0) -
        if m * e.dof + j = n * e.dof + a then 1 else 0) *
      (getSkewEntry e di i j (adj i) (adj j) * alpha *
        flux di (row u e.dof i) (row u e.dof j) m)) =
        ((if i = a then 1 else 0) - if j = a then 1 else 0) *
      (getSkewEntry e di i j (adj i) (adj j) * alpha *
        flux di (row u e.dof i) (row u e.dof j) n) := by
      intro di
      rw [sum_eq_single n]
      · simp only [flat_iff hi ha, flat_iff hj.2 ha, true_and]
      · intro b _ hb
        simp only [flat_iff hi ha, flat_iff hj.2 ha, hb, false_and, if_false, sub_zero, zero_mul]
      · intro h; exact absurd (mem_range.2 hn) h
    simp only [h2, hG]
    by_cases hia : i = a
    · have hja : ¬ j = a := by omega
      simp only [hia, hja, if_true, if_false, sub_zero, one_mul, add_zero]
      rw [mul_sum]
      refine sum_congr rfl fun di _ => ?_
      rw [← hia, skew_eq_spec]; ring
    · by_cases hja : j = a
      · simp only [hia, hja, if_true, if_false, zero_sub, zero_add]
        rw [mul_sum]
        refine sum_congr rfl fun di hdi => ?_
        rw [← hja, skew_eq_spec, skewSpec_neg, hsym di (mem_range.1 hdi) j hj.2 i hi]; ring
      · simp [hia, hja]
  rw [sum_congr rfl fun i hi => sum_congr rfl (h1 i hi), sum_strict_upper, sum_eq_single a]
  · rw [sum_comm, mul_sum]
    refine sum_congr rfl fun j _ => ?_
    by_cases hj : a = j
    · rw [if_pos hj, ← hj]; simp [skewSpec_self]
    · rw [if_neg hj, hG]; simp only [if_true]; rfl
  · intro b _ hb
    refine sum_eq_zero fun j _ => ?_
    simp [hG, hb]
  · intro h; exact absurd (mem_range.2 ha) h

/-- Conservation: every equation's residual sums to zero over the element, for every flux
function (symmetric or not), operator, mapping and state. -/
theorem C91_conservation (e : Elem K) (ns : ℕ) (alpha : K)
    (flux : ℕ → (ℕ → K) → (ℕ → K) → (ℕ → K)) (adj : ℕ → ℕ → ℕ → K) (u : ℕ → K) (n : ℕ)
    (hn : n < ns) :
    ∑ i ∈ range e.dof, dyadicVec e ns alpha flux adj u (n * e.dof + i) = 0 := by
  have h := dyadic_dot e ns alpha flux adj u (fun p => if p / e.dof = n then 1 else 0)
  rw [dotV_flat, sum_eq_single n] at h
  · rw [sum_congr rfl fun i hi => ?_, h]
    · refine sum_eq_zero fun i hi => sum_eq_zero fun j hj => sum_eq_zero fun di _ =>
        sum_eq_zero fun m _ => ?_
      rw [mem_range] at hi; rw [mem_Ico] at hj
      rw [flat_div hi, flat_div hj.2, sub_self, zero_mul]
    · rw [flat_div (mem_range.1 hi), if_pos rfl, one_mul]
  · intro b _ hb
    refine sum_eq_zero fun i hi => ?_
    rw [flat_div (mem_range.1 hi), if_neg hb, zero_mul]
  · intro h; exact absurd (mem_range.2 hn) h

/-- Testing with any variables `w` (the entropy variables): only differences between nodes
matter. -/
theorem C91_tested (e : Elem K) (ns : ℕ) (alpha : K)
    (flux : ℕ → (ℕ → K) → (ℕ → K) → (ℕ → K)) (adj : ℕ → ℕ → ℕ → K) (u : ℕ → K)
    (w : ℕ → ℕ → K) :
    ∑ n ∈ range ns, ∑ i ∈ range e.dof, w i n * dyadicVec e ns alpha flux adj u (n * e.dof + i) =
      alpha * ∑ i ∈ range e.dof, ∑ j ∈ Ico (i + 1) e.dof, ∑ di ∈ range e.dim,
        skewSpec e adj di i j * ∑ n ∈ range ns, (w i n - w j n) *
          flux di (row u e.dof i) (row u e.dof j) n := by
  have h := dyadic_dot e ns alpha flux adj u (fun p => w (p % e.dof) (p / e.dof))
  have h1 : ∑ n ∈ range ns, ∑ i ∈ range e.dof,
      w i n * dyadicVec e ns alpha flux adj u (n * e.dof + i) =
      dotV (ns * e.dof) (fun p => w (p % e.dof) (p / e.dof)) (dyadicVec e ns alpha flux adj u) := by
    rw [dotV_flat]
    refine sum_congr rfl fun n _ => sum_congr rfl fun i hi => ?_
    rw [flat_div (mem_range.1 hi), flat_mod (mem_range.1 hi)]
  rw [h1, h, mul_sum]
  refine sum_congr rfl fun i hi => ?_
  rw [mul_sum]
  refine sum_congr rfl fun j hj => ?_
  rw [mem_range] at hi; rw [mem_Ico] at hj
  rw [mul_sum]
  refine sum_congr rfl fun di _ => ?_
  rw [mul_sum, mul_sum]
  refine sum_congr rfl fun n _ => ?_
  rw [flat_div hi, flat_mod hi, flat_div hj.2, flat_mod hj.2, skew_eq_spec]
  ring

/-- **Entropy balance.**  Let `w` be node values of entropy variables and `psi` of the potential.
If the derivative of constants is zero and the discrete metric identities hold, the tested residual
equals the boundary term `-alpha Σ_di Σ_i psi_di(i) Σ_k,j (Q_k + Q_kᵀ)(i,j) adj_j(k,di)` plus the
contributions of the flux's entropy production defect.  No smallness is assumed. -/
theorem C91_entropy_balance (e : Elem K) (ns : ℕ) (alpha : K)
    (flux : ℕ → (ℕ → K) → (ℕ → K) → (ℕ → K)) (adj : ℕ → ℕ → ℕ → K) (u : ℕ → K)
    (w : ℕ → ℕ → K) (psi : ℕ → ℕ → K)
    (hQ : ∀ k < e.dim, ∀ i < e.dof, ∑ j ∈ range e.dof, Qm e k i j = 0)
    (hM : ∀ di < e.dim, ∀ i < e.dof,
      ∑ k ∈ range e.dim, ∑ j ∈ range e.dof, Qm e k i j * adj j k di = 0) :
    ∑ n ∈ range ns, ∑ i ∈ range e.dof, w i n * dyadicVec e ns alpha flux adj u (n * e.dof + i) =
      -(alpha * ∑ di ∈ range e.dim, ∑ i ∈ range e.dof, psi di i *
          ∑ k ∈ range e.dim, ∑ j ∈ range e.dof, (Qm e k i j + Qm e k j i) * adj j k di) +
      alpha * ∑ i ∈ range e.dof, ∑ j ∈ Ico (i + 1) e.dof, ∑ di ∈ range e.dim,
        skewSpec e adj di i j * ((∑ n ∈ range ns, (w i n - w j n) *
          flux di (row u e.dof i) (row u e.dof j) n) - (psi di i - psi di j)) := by
  rw [C91_tested]
  have hrow : ∀ di ∈ range e.dim, ∀ i ∈ range e.dof, ∑ j ∈ range e.dof, skewSpec e adj di i j =
      -∑ k ∈ range e.dim, ∑ j ∈ range e.dof, (Qm e k i j + Qm e k j i) * adj j k di := by
    intro di hdi i hi
    rw [mem_range] at hdi hi
    unfold skewSpec
    rw [sum_comm, ← sum_neg_distrib]
    have h1 : ∀ k ∈ range e.dim, ∑ j ∈ range e.dof, (adj i k di * Qm e k i j -
        adj j k di * Qm e k j i) = (∑ j ∈ range e.dof, Qm e k i j * adj j k di) +
        -∑ j ∈ range e.dof, (Qm e k i j + Qm e k j i) * adj j k di := by
      intro k hk
      rw [sum_sub_distrib, ← mul_sum, hQ k (mem_range.1 hk) i hi, mul_zero, zero_sub,
        ← sum_neg_distrib, ← sum_neg_distrib, ← sum_add_distrib]
      exact sum_congr rfl fun j _ => by ring
    rw [sum_congr rfl h1, sum_add_distrib, hM di hdi i hi, zero_add]
  have hpsi : ∑ i ∈ range e.dof, ∑ j ∈ Ico (i + 1) e.dof, ∑ di ∈ range e.dim,
      skewSpec e adj di i j * (psi di i - psi di j) =
      -∑ di ∈ range e.dim, ∑ i ∈ range e.dof, psi di i *
          ∑ k ∈ range e.dim, ∑ j ∈ range e.dof, (Qm e k i j + Qm e k j i) * adj j k di := by
    have h2 : ∀ i ∈ range e.dof, ∀ j ∈ Ico (i + 1) e.dof, ∑ di ∈ range e.dim,
        skewSpec e adj di i j * (psi di i - psi di j) =
        (∑ di ∈ range e.dim, skewSpec e adj di i j * psi di i) +
        ∑ di ∈ range e.dim, skewSpec e adj di j i * psi di j := by
      intro i _ j _
      rw [← sum_add_distrib]
      refine sum_congr rfl fun di _ => ?_
      rw [skewSpec_neg e adj di i j]; ring
    rw [sum_congr rfl fun i hi => sum_congr rfl (h2 i hi),
      sum_strict_upper e.dof (fun i j => ∑ di ∈ range e.dim, skewSpec e adj di i j * psi di i)]
    have h3 : ∀ i ∈ range e.dof, ∀ j ∈ range e.dof, (if i = j then 0 else
        ∑ di ∈ range e.dim, skewSpec e adj di i j * psi di i) =
        ∑ di ∈ range e.dim, skewSpec e adj di i j * psi di i := by
      intro i _ j _
      split_ifs with h
      · subst h; simp [skewSpec_self]
      · rfl
    rw [sum_congr rfl fun i hi => sum_congr rfl (h3 i hi)]
    rw [sum_congr rfl fun i _ => sum_comm, sum_comm, ← sum_neg_distrib]
    refine sum_congr rfl fun di hdi => ?_
    rw [← sum_neg_distrib]
    refine sum_congr rfl fun i hi => ?_
    rw [← sum_mul, hrow di hdi i hi]; ring
  have hsplit : ∑ i ∈ range e.dof, ∑ j ∈ Ico (i + 1) e.dof, ∑ di ∈ range e.dim,
        skewSpec e adj di i j * (∑ n ∈ range ns, (w i n - w j n) *
          flux di (row u e.dof i) (row u e.dof j) n) =
      (∑ i ∈ range e.dof, ∑ j ∈ Ico (i + 1) e.dof, ∑ di ∈ range e.dim,
        skewSpec e adj di i j * (psi di i - psi di j)) +
      ∑ i ∈ range e.dof, ∑ j ∈ Ico (i + 1) e.dof, ∑ di ∈ range e.dim,
        skewSpec e adj di i j * ((∑ n ∈ range ns, (w i n - w j n) *
          flux di (row u e.dof i) (row u e.dof j) n) - (psi di i - psi di j)) := by
    simp only [← sum_add_distrib]
    exact sum_congr rfl fun i _ => sum_congr rfl fun j _ => sum_congr rfl fun di _ => by ring
  rw [hsplit, hpsi]; ring

/-- With an exactly entropy-conservative flux (Tadmor's condition at the element's node pairs) the
element conserves entropy up to the boundary potential. -/
theorem C91_entropy_conservation (e : Elem K) (ns : ℕ) (alpha : K)
    (flux : ℕ → (ℕ → K) → (ℕ → K) → (ℕ → K)) (adj : ℕ → ℕ → ℕ → K) (u : ℕ → K)
    (w : ℕ → ℕ → K) (psi : ℕ → ℕ → K)
    (hQ : ∀ k < e.dim, ∀ i < e.dof, ∑ j ∈ range e.dof, Qm e k i j = 0)
    (hM : ∀ di < e.dim, ∀ i < e.dof,
      ∑ k ∈ range e.dim, ∑ j ∈ range e.dof, Qm e k i j * adj j k di = 0)
    (hT : ∀ di < e.dim, ∀ i < e.dof, ∀ j < e.dof, ∑ n ∈ range ns, (w i n - w j n) *
      flux di (row u e.dof i) (row u e.dof j) n = psi di i - psi di j) :
    ∑ n ∈ range ns, ∑ i ∈ range e.dof, w i n * dyadicVec e ns alpha flux adj u (n * e.dof + i) =
      -(alpha * ∑ di ∈ range e.dim, ∑ i ∈ range e.dof, psi di i *
          ∑ k ∈ range e.dim, ∑ j ∈ range e.dof, (Qm e k i j + Qm e k j i) * adj j k di) := by
  rw [C91_entropy_balance e ns alpha flux adj u w psi hQ hM, add_eq_left]
  rw [sum_eq_zero, mul_zero]
  intro i hi
  refine sum_eq_zero fun j hj => sum_eq_zero fun di hdi => ?_
  rw [mem_Ico] at hj
  rw [hT di (mem_range.1 hdi) i (mem_range.1 hi) j hj.2, sub_self, mul_zero]

/-- Free-stream preservation: on a uniform state the residual of any two-point flux is the boundary
term only (zero in the interior where `Q + Qᵀ` vanishes). -/
theorem C91_uniform (e : Elem K) (ns : ℕ) (alpha : K)
    (flux : ℕ → (ℕ → K) → (ℕ → K) → (ℕ → K)) (adj : ℕ → ℕ → ℕ → K) (u q : ℕ → K)
    (hQ : ∀ k < e.dim, ∀ i < e.dof, ∑ j ∈ range e.dof, Qm e k i j = 0)
    (hM : ∀ di < e.dim, ∀ i < e.dof,
      ∑ k ∈ range e.dim, ∑ j ∈ range e.dof, Qm e k i j * adj j k di = 0)
    (hu : ∀ i < e.dof, (fun m => u (m * e.dof + i)) = q) (n a : ℕ) (hn : n < ns)
    (ha : a < e.dof) :
    dyadicVec e ns alpha flux adj u (n * e.dof + a) =
      -(alpha * ∑ di ∈ range e.dim, flux di q q n *
        ∑ k ∈ range e.dim, ∑ j ∈ range e.dof, (Qm e k a j + Qm e k j a) * adj j k di) := by
  have hrow : ∀ i < e.dof, row u e.dof i = q := hu
  rw [C91_residual e ns alpha flux adj u (fun di _ i hi j hj => by rw [hrow i hi, hrow j hj]) n a
    hn ha, ← mul_neg, ← sum_neg_distrib]
  congr 1
  refine sum_congr rfl fun di hdi => ?_
  rw [sum_congr rfl fun j hj => by rw [hu a ha, hu j (mem_range.1 hj)], ← sum_mul]
  have : ∑ j ∈ range e.dof, skewSpec e adj di a j =
      -∑ k ∈ range e.dim, ∑ j ∈ range e.dof, (Qm e k a j + Qm e k j a) * adj j k di := by
    unfold skewSpec
    rw [sum_comm, ← sum_neg_distrib]
    have h1 : ∀ k ∈ range e.dim, ∑ j ∈ range e.dof, (adj a k di * Qm e k a j -
        adj j k di * Qm e k j a) = (∑ j ∈ range e.dof, Qm e k a j * adj j k di) +
        -∑ j ∈ range e.dof, (Qm e k a j + Qm e k j a) * adj j k di := by
      intro k hk
      rw [sum_sub_distrib, ← mul_sum, hQ k (mem_range.1 hk) a ha, mul_zero, zero_sub,
        ← sum_neg_distrib, ← sum_neg_distrib, ← sum_add_distrib]
      exact sum_congr rfl fun j _ => by ring
    rw [sum_congr rfl h1, sum_add_distrib, hM di (mem_range.1 hdi) a ha, zero_add]
  rw [this]; ring

/-! ### C92: the dyadic gradient -/

theorem adds_dyadicGradUpd (N i j n m : ℕ) (S ji jj : K) :
    Adds (dyadicGradUpd N i j n m S ji jj)
      ((((fun p q => if p = n * N + i ∧ q = m * N + i then S * ji else 0) +
        fun p q => if p = n * N + i ∧ q = m * N + j then S * jj else 0) +
        fun p q => if p = n * N + j ∧ q = m * N + i then -(S * ji) else 0) +
        fun p q => if p = n * N + j ∧ q = m * N + j then -(S * jj) else 0) :=
  (((adds_addAt2 _ _ _).comp (adds_addAt2 _ _ _)).comp (adds_addAt2 _ _ _)).comp
    (adds_addAt2 _ _ _)

theorem dyadicVec_eq (e : Elem K) (ns : ℕ) (alpha : K)
    (flux : ℕ → (ℕ → K) → (ℕ → K) → (ℕ → K)) (adj : ℕ → ℕ → ℕ → K) (u : ℕ → K) (p : ℕ) :
    dyadicVec e ns alpha flux adj u p =
      ∑ i ∈ range e.dof, ∑ j ∈ Ico (i + 1) e.dof, ∑ di ∈ range e.dim, ∑ n ∈ range ns,
        ((if p = n * e.dof + i then 1 else 0) + if p = n * e.dof + j then -1 else 0) *
          (getSkewEntry e di i j (adj i) (adj j) * alpha *
            flux di (row u e.dof i) (row u e.dof j) n) := by
  rw [dyadicVec, (dyadic_loops e ns _).apply, fun_zero_eq, zero_add]
  simp only [Finset.sum_apply, Pi.add_apply]
  refine sum_congr rfl fun i _ => sum_congr rfl fun j _ => sum_congr rfl fun di _ =>
    sum_congr rfl fun n _ => ?_
  split_ifs <;> ring

theorem dyadicGrad_mulVec (e : Elem K) (ns : ℕ) (alpha : K)
    (jacL jacR : ℕ → (ℕ → K) → (ℕ → K) → (ℕ → ℕ → K)) (adj : ℕ → ℕ → ℕ → K) (u v : ℕ → K)
    (p : ℕ) :
    mulVec (ns * e.dof) (dyadicGrad e ns alpha jacL jacR adj u) v p =
      ∑ i ∈ range e.dof, ∑ j ∈ Ico (i + 1) e.dof, ∑ di ∈ range e.dim, ∑ n ∈ range ns,
        ((if p = n * e.dof + i then 1 else 0) + if p = n * e.dof + j then -1 else 0) *
          (getSkewEntry e di i j (adj i) (adj j) * alpha * ∑ m ∈ range ns,
            (jacL di (row u e.dof i) (row u e.dof j) n m * v (m * e.dof + i) +
             jacR di (row u e.dof i) (row u e.dof j) n m * v (m * e.dof + j))) := by
  have h : Adds (forN e.dim (fun di => forN e.dof (fun i => forFromTo (i + 1) e.dof (fun j =>
      forN ns (fun n => forN ns (fun m => dyadicGradUpd e.dof i j n m
        (getSkewEntry e di i j (adj i) (adj j) * alpha)
        (jacL di (row u e.dof i) (row u e.dof j) n m)
        (jacR di (row u e.dof i) (row u e.dof j) n m))))))) _ :=
    Adds.forN fun di _ => Adds.forN fun i _ => Adds.forFromTo fun j _ _ => Adds.forN fun n _ =>
      Adds.forN fun m _ => adds_dyadicGradUpd e.dof i j n m _ _ _
  rw [dyadicGrad, h.apply, fun_zero_eq2, zero_add, mulVec_sum]
  symm
  rw [sum_congr rfl fun i _ => sum_comm, sum_comm]
  refine sum_congr rfl fun di _ => ?_
  rw [mulVec_sum]
  refine sum_congr rfl fun i hi => ?_
  rw [mulVec_sum]
  refine sum_congr rfl fun j hj => ?_
  rw [mulVec_sum]
  refine sum_congr rfl fun n _ => ?_
  rw [mulVec_sum, mul_sum, mul_sum]
  refine sum_congr rfl fun m hm => ?_
  rw [mem_range] at hi hm; rw [mem_Ico] at hj
  rw [mulVec_add, mulVec_add, mulVec_add, mulVec_single _ _ _ (flat_lt hi hm),
    mulVec_single _ _ _ (flat_lt hj.2 hm), mulVec_single _ _ _ (flat_lt hi hm),
    mulVec_single _ _ _ (flat_lt hj.2 hm)]
  split_ifs <;> ring

/-- The assembled matrix is the exact Jacobian of the assembled residual, for every two-point flux
with exact Jacobians at the element's node pairs. -/
theorem C92_gradient (e : Elem ℝ) (ns : ℕ) (alpha : ℝ)
    (flux : ℕ → (ℕ → ℝ) → (ℕ → ℝ) → (ℕ → ℝ)) (jacL jacR : ℕ → (ℕ → ℝ) → (ℕ → ℝ) → (ℕ → ℕ → ℝ))
    (adj : ℕ → ℕ → ℕ → ℝ) (u : ℕ → ℝ)
    (hJ : ∀ di < e.dim, ∀ i j, i < j → j < e.dof → ExactJac2 ns (flux di)
      (jacL di (row u e.dof i) (row u e.dof j)) (jacR di (row u e.dof i) (row u e.dof j))
      (row u e.dof i) (row u e.dof j)) :
    ExactJac (ns * e.dof) (dyadicVec e ns alpha flux adj)
      (dyadicGrad e ns alpha jacL jacR adj u) u := by
  intro c w h0 hc p _
  have e1 : ∀ t, dyadicVec e ns alpha flux adj (c t) p = _ :=
    fun t => dyadicVec_eq e ns alpha flux adj (c t) p
  simp only [e1]
  have key := dyadicGrad_mulVec e ns alpha jacL jacR adj u w p
  rw [mulVec] at key
  rw [key]
  refine HasDerivAt.fun_sum fun i hi => HasDerivAt.fun_sum fun j hj => HasDerivAt.fun_sum
    fun di hdi => HasDerivAt.fun_sum fun n hn => HasDerivAt.const_mul _ (HasDerivAt.const_mul _ ?_)
  rw [mem_range] at hi hdi hn; rw [mem_Ico] at hj
  refine hJ di hdi i j hj.1 hj.2 (fun t => row (c t) e.dof i) (fun t => row (c t) e.dof j)
    (row w e.dof i) (row w e.dof j) (by rw [h0]) (by rw [h0]) ?_ ?_ n hn
  · intro m hm; exact hc _ (flat_lt hi hm)
  · intro m hm; exact hc _ (flat_lt hj.2 hm)

/-- The Burgers two-point flux meets the hypotheses of `C92_gradient` and `C91_residual`, and
Tadmor's condition with entropy `u²/2` and potential `u³/6`. -/
example (e : Elem ℝ) (u : ℕ → ℝ) :
    (∀ di < e.dim, ∀ i j, i < j → j < e.dof → ExactJac2 1
      ((fun _ a b n => (a n ^ 2 + a n * b n + b n ^ 2) / 6 :
        ℕ → (ℕ → ℝ) → (ℕ → ℝ) → (ℕ → ℝ)) di)
      (fun n m => if m = n then (2 * row u e.dof i n + row u e.dof j n) / 6 else 0)
      (fun n m => if m = n then (row u e.dof i n + 2 * row u e.dof j n) / 6 else 0)
      (row u e.dof i) (row u e.dof j)) ∧
    (∀ di < e.dim, ∀ i < e.dof, ∀ j < e.dof, ∑ n ∈ range 1, (row u e.dof i n - row u e.dof j n) *
      (fun _ a b n => (a n ^ 2 + a n * b n + b n ^ 2) / 6 :
        ℕ → (ℕ → ℝ) → (ℕ → ℝ) → (ℕ → ℝ)) di (row u e.dof i) (row u e.dof j) n =
      row u e.dof i 0 ^ 3 / 6 - row u e.dof j 0 ^ 3 / 6) := by
  refine ⟨fun _ _ i j _ _ => exact_burgers2 _ _ _, fun di _ i _ j _ => ?_⟩
  simp only [sum_range_one]; ring

/-- Metric identities and vanishing row sums are met by a two-node segment with a constant
mapping. -/
example : (∀ k < 1, ∀ i < 2, ∑ j ∈ range 2, Qm (K := ℚ) ⟨1, 2, fun _ => 1/2,
      fun _ r c => if c = 0 then (if r = 0 then -1/2 else 1/2) else (if r = 0 then -1/2 else 1/2),
      fun _ _ => 0, 0, fun _ _ => 0⟩ k i j = 0) ∧
    (∀ di < 1, ∀ i < 2, ∑ k ∈ range 1, ∑ j ∈ range 2, Qm (K := ℚ) ⟨1, 2, fun _ => 1/2,
      fun _ r c => if c = 0 then (if r = 0 then -1/2 else 1/2) else (if r = 0 then -1/2 else 1/2),
      fun _ _ => 0, 0, fun _ _ => 0⟩ k i j * (fun _ _ _ => 1 : ℕ → ℕ → ℕ → ℚ) j k di = 0) := by
  constructor <;> decide +kernel

end Verif.Inviscid
