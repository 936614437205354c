import Verif.SbpLemmas
import Mathlib.Algebra.Order.Field.Basic
import Mathlib.Algebra.Order.BigOperators.Ring.Finset
import Mathlib.Tactic.NormNum
import Mathlib.Tactic.FieldSimp

/-!
Properties C85 (derivative operators) and C86 (projection operator) of the SBP elements.
-/

namespace Verif.Sbp
open Finset

variable {K : Type*} [Field K]

/-! ### C85: all the derivative interfaces describe one operator -/

/-- Specification: the weak derivative of one scalar field, in terms of the matrix handed out by
`getWeakOperator(di, Q)`. -/
def weakSpec (e : Elem K) (di : ℕ) (f : ℕ → K) (i : ℕ) : K :=
  ∑ j ∈ range e.dof, getWeakOperator e di false i j * f j

/-- `multWeakOperator` adds `Q u`, state by state. -/
theorem C85_mult_weak (e : Elem K) (ns di : ℕ) (u Qu : ℕ → ℕ → K) (n i : ℕ) (hn : n < ns)
    (hi : i < e.dof) :
    multWeakOperator e ns di false u Qu n i = Qu n i + weakSpec e di (u n) i := by
  rw [multWeak_eq e ns di u Qu n i hn hi]; rfl

/-- With `trans` it adds `-Q^T u` -- **minus** the transposed operator. -/
theorem C85_mult_weak_trans (e : Elem K) (ns di : ℕ) (u Qu : ℕ → ℕ → K) (n i : ℕ) (hn : n < ns)
    (hi : i < e.dof) :
    multWeakOperator e ns di true u Qu n i =
      Qu n i - ∑ j ∈ range e.dof, getWeakOperator e di true i j * u n j := by
  rw [multWeakT_eq e ns di u Qu n i hn hi]; rfl

theorem C85_trans_is_transpose (e : Elem K) (di i j : ℕ) :
    getWeakOperator e di true i j = getWeakOperator e di false j i ∧
    getStrongOperator e di true i j = getStrongOperator e di false j i := by
  simp [getWeakOperator, getStrongOperator]

/-- Entry, one-node and strong-form interfaces agree with the matrix. -/
theorem C85_interfaces_agree (e : Elem K) (ns di i : ℕ) (u : ℕ → ℕ → K) (n : ℕ) (hn : n < ns) :
    (∀ j, getQ e di i j = getWeakOperator e di false i j) ∧
    multWeakNode e ns di i u n = weakSpec e di (u n) i ∧
    multStrongNode e ns di i u n = weakSpec e di (u n) i / e.H i ∧
    multStrongNode e ns di i u n = ∑ j ∈ range e.dof, getStrongRow e di i j * u n j ∧
    (∀ j, getStrongRow e di i j = getStrongOperator e di false i j) ∧
    (∀ j, getStrongRow e di i j = getQ e di i j / e.H i) := by
  have h : multWeakNode e ns di i u n = weakSpec e di (u n) i := by
    rw [multWeakNode_eq e ns di i u n hn]; rfl
  refine ⟨fun j => rfl, h, ?_, ?_, ?_, ?_⟩
  · rw [multStrongNode, h]; ring
  · rw [multStrongNode, h, weakSpec, sum_mul]
    refine sum_congr rfl fun j _ => ?_
    simp [getWeakOperator, getStrongRow]; ring
  · intro j; simp [getStrongRow, getStrongOperator]; ring
  · intro j; simp [getStrongRow, getQ]; ring

/-- `multNormMatrix` and `multNormMatrixInv` are mutually inverse. -/
theorem C85_norm_inverse (e : Elem K) (ns : ℕ) (u a b : ℕ → ℕ → K) (n i : ℕ) (hn : n < ns)
    (hi : i < e.dof) (hH : e.H i ≠ 0) :
    multNormMatrixInv e ns (multNormMatrix e ns u a) b n i = u n i ∧
    multNormMatrix e ns u a n i = e.H i * u n i := by
  simp [multNormMatrixInv, multNormMatrix, hn, hi]; field_simp

/-- Discrete adjointness: pairing `v` with `Q u` equals minus pairing the `trans` product of `v`
with `u`. -/
theorem C85_adjoint (e : Elem K) (ns di : ℕ) (u v : ℕ → ℕ → K) (n : ℕ) (hn : n < ns) :
    ∑ i ∈ range e.dof, v n i * multWeakOperator e ns di false u 0 n i =
      - ∑ i ∈ range e.dof, multWeakOperator e ns di true v 0 n i * u n i := by
  have h1 : ∀ i ∈ range e.dof, v n i * multWeakOperator e ns di false u 0 n i =
      ∑ j ∈ range e.dof, v n i * (e.Q di j i * u n j) := fun i hi => by
    rw [multWeak_eq e ns di u 0 n i hn (mem_range.1 hi), mul_add, mul_sum]; simp
  have h2 : ∀ i ∈ range e.dof, multWeakOperator e ns di true v 0 n i * u n i =
      - ∑ j ∈ range e.dof, e.Q di i j * v n j * u n i := fun i hi => by
    rw [multWeakT_eq e ns di v 0 n i hn (mem_range.1 hi), sub_mul, sum_mul]; simp
  rw [sum_congr rfl h1, sum_congr rfl h2, sum_neg_distrib, neg_neg, sum_comm]
  exact sum_congr rfl fun i _ => sum_congr rfl fun j _ => by ring

/-- Summation by parts: if `Q + Q^T = E` then
`(v, D u)_H + (D v, u)_H = v^T E u` for all `u`, `v`, with `D` the strong operator. -/
theorem C85_summation_by_parts (e : Elem K) (ns di : ℕ) (E : ℕ → ℕ → K)
    (hE : ∀ i j, i < e.dof → j < e.dof →
      getWeakOperator e di false i j + getWeakOperator e di false j i = E i j)
    (hH : ∀ i, i < e.dof → e.H i ≠ 0) (u v : ℕ → ℕ → K) (n : ℕ) (hn : n < ns) :
    ∑ i ∈ range e.dof, v n i * e.H i * multStrongNode e ns di i u n +
      ∑ i ∈ range e.dof, multStrongNode e ns di i v n * e.H i * u n i =
      ∑ i ∈ range e.dof, ∑ j ∈ range e.dof, v n i * E i j * u n j := by
  have h1 : ∀ i ∈ range e.dof, v n i * e.H i * multStrongNode e ns di i u n =
      ∑ j ∈ range e.dof, v n i * getWeakOperator e di false i j * u n j := fun i hi => by
    rw [(C85_interfaces_agree e ns di i u n hn).2.2.1, weakSpec, mul_assoc,
      mul_div_cancel₀ _ (hH i (mem_range.1 hi)), mul_sum]
    exact sum_congr rfl fun j _ => by ring
  have h2 : ∀ i ∈ range e.dof, multStrongNode e ns di i v n * e.H i * u n i =
      ∑ j ∈ range e.dof, v n j * getWeakOperator e di false i j * u n i := fun i hi => by
    rw [(C85_interfaces_agree e ns di i v n hn).2.2.1, weakSpec,
      div_mul_cancel₀ _ (hH i (mem_range.1 hi)), sum_mul]
    exact sum_congr rfl fun j _ => by ring
  rw [sum_congr rfl h1, sum_congr rfl h2, sum_comm (s := range e.dof) (t := range e.dof)
    (f := fun i j => v n j * getWeakOperator e di false i j * u n i), ← sum_add_distrib]
  refine sum_congr rfl fun i hi => ?_
  rw [← sum_add_distrib]
  refine sum_congr rfl fun j hj => ?_
  rw [← hE i j (mem_range.1 hi) (mem_range.1 hj)]; ring

/-- The degree-1 segment element of the code: `p1Qx_seg` (sbp_operators.hpp:10-18, with the
decimals replaced by the fractions they approximate), Lobatto weights 1/6, 1/6, 2/3, nodes 0, 1,
1/2. -/
def seg1 : Elem ℚ where
  dim := 1
  dof := 3
  H := fun i => [1/6, 1/6, 2/3].getD i 0
  Q := fun _ r c => ([[-1/2, 1/6, -2/3], [-1/6, 1/2, 2/3], [2/3, -2/3, 0]].getD r []).getD c 0
  V := fun _ _ => 0
  nv := 0
  x := fun i _ => [0, 1, 1/2].getD i 0

/-- The hypotheses of `C85_summation_by_parts` hold for it, with `E = diag(-1, 1, 0)`, and its
strong operator differentiates `x ↦ x` exactly. -/
example : (∀ i j, i < seg1.dof → j < seg1.dof →
      getWeakOperator seg1 0 false i j + getWeakOperator seg1 0 false j i =
        if i = j then [-1, 1, 0].getD i 0 else 0) ∧
    (∀ i, i < seg1.dof → seg1.H i ≠ 0) ∧
    ∀ i, i < seg1.dof → multStrongNode seg1 1 0 i (fun _ j => seg1.x j 0) 0 = 1 := by
  refine ⟨?_, ?_, ?_⟩
  · have : ∀ i < 3, ∀ j < 3, getWeakOperator seg1 0 false i j + getWeakOperator seg1 0 false j i =
        if i = j then [-1, 1, 0].getD i 0 else 0 := by decide +kernel
    exact fun i j hi hj => this i hi j hj
  · have : ∀ i < 3, seg1.H i ≠ 0 := by decide +kernel
    exact this
  · have : ∀ i < 3, multStrongNode seg1 1 0 i (fun _ j => seg1.x j 0) 0 = 1 := by decide +kernel
    exact this

/-- **Violation.**  `CalcDShape` is documented to return row `ip` of the derivative operator, but
it divides entry `j` by `H(j)` rather than by `H(ip)`: on the degree-1 segment element it does not
even give derivative 1 for `x ↦ x` at the left end (it gives 1/2). -/
theorem C85_dshape_false :
    ¬ ∀ (e : Elem ℚ) (ip di : ℕ), ip < e.dof → (∀ i < e.dof, e.H i ≠ 0) →
      ∀ j, j < e.dof → calcDShape e ip j di = getStrongRow e di ip j := by
  intro h
  have := h seg1 0 0 (by decide) (by decide +kernel) 2 (by decide)
  exact absurd this (by decide +kernel)

theorem C85_dshape_linear_false :
    ∑ j ∈ range seg1.dof, calcDShape seg1 0 j 0 * seg1.x j 0 ≠ 1 ∧
    ∑ j ∈ range seg1.dof, getStrongRow seg1 0 0 j * seg1.x j 0 = 1 := by
  constructor <;> decide +kernel

/-- What does hold: `CalcDShape` is right for elements whose weights are all equal (degree 0). -/
theorem C85_dshape_equal_weights_partial (e : Elem K) (ip di : ℕ)
    (hw : ∀ j < e.dof, e.H j = e.H ip) (j : ℕ) (hj : j < e.dof) :
    calcDShape e ip j di = getStrongRow e di ip j := by
  rw [calcDShape, getStrongRow, hw j hj]; ring

/-- What `CalcDShape` computes in general: the true row times `H(ip)/H(j)`. -/
theorem C85_dshape_value_partial (e : Elem K) (ip di j : ℕ) (h : e.H ip ≠ 0) (hj : e.H j ≠ 0) :
    calcDShape e ip j di = getStrongRow e di ip j * (e.H ip / e.H j) := by
  rw [calcDShape, getStrongRow]; field_simp

/-- `getSkewEntry` is skew-symmetric under exchanging the two nodes. -/
theorem C85_skew (e : Elem K) (di i j : ℕ) (a b : ℕ → ℕ → K) :
    getSkewEntry e di i j a b = - getSkewEntry e di j i b a := by
  rw [getSkewEntry_eq, getSkewEntry_eq, ← sum_neg_distrib]
  exact sum_congr rfl fun k _ => by ring

/-- It is the physical-space `Q - Q^T`: `Σ_k adjJ_i(k,di) Q_k(i,j) - adjJ_j(k,di) Q_k(j,i)`. -/
theorem C85_skew_value (e : Elem K) (di i j : ℕ) (a b : ℕ → ℕ → K) :
    getSkewEntry e di i j a b =
      ∑ k ∈ range e.dim, (a k di * getQ e k i j - b k di * getQ e k j i) := by
  rw [getSkewEntry_eq]; rfl

/-- `getQEntry` returns the physical-space weak operator
`½ Σ_k (adjJ_i + adjJ_j)(k,di) Q_k(i,j)` for every element whose boundary operator is diagonal
(`Q_k(i,j) = -Q_k(j,i)` off the diagonal). -/
theorem C85_qentry [CharZero K] (e : Elem K) (di i j : ℕ) (a b : ℕ → ℕ → K) (hij : i = j → a = b)
    (hE : ∀ k < e.dim, i ≠ j → getQ e k j i = - getQ e k i j) :
    getQEntry e di i j a b = 1 / 2 * ∑ k ∈ range e.dim, (a k di + b k di) * getQ e k i j := by
  rw [getQEntry]
  split_ifs with h
  · rw [getSymEntry_eq, mul_sum]
    refine sum_congr rfl fun k _ => ?_
    rw [← hij h, ← h]; simp only [getQ]; ring
  · rw [C85_skew_value]
    congr 1
    refine sum_congr rfl fun k hk => ?_
    rw [hE k (mem_range.1 hk) h]; ring

example : (∀ k < seg1.dim, (0 : ℕ) ≠ 1 → getQ seg1 k 1 0 = - getQ seg1 k 0 1) := by decide +kernel

/-- The reverse-mode derivative of `getSkewEntry`: adding `Sbar * ∂S/∂adjJ` to the two adjoints,
i.e. pairing the increments with perturbations `da`, `db` gives `Sbar * S(da, db)`. -/
theorem C85_skew_rev_diff (e : Elem K) (di i j : ℕ) (Sbar : K) (a0 b0 da db : ℕ → ℕ → K) :
    (∑ k ∈ range e.dim,
      (((getSkewEntryRevDiff e di i j Sbar (a0, b0)).1 k di - a0 k di) * da k di +
       ((getSkewEntryRevDiff e di i j Sbar (a0, b0)).2 k di - b0 k di) * db k di)) =
      Sbar * getSkewEntry e di i j da db := by
  have h : ∀ n, getSkewEntryRevDiff { e with dim := n } di i j Sbar (a0, b0) =
      (fun p q => a0 p q + if p < n ∧ q = di then Sbar * e.Q p j i else 0,
       fun p q => b0 p q + if p < n ∧ q = di then -(Sbar * e.Q p i j) else 0) := by
    intro n
    induction n with
    | zero => simp [getSkewEntryRevDiff, forN]
    | succ n ih =>
      have : getSkewEntryRevDiff { e with dim := n + 1 } di i j Sbar (a0, b0) =
        (addAt2 n di (Sbar * e.Q n j i) (getSkewEntryRevDiff { e with dim := n } di i j Sbar (a0, b0)).1,
         addAt2 n di (-(Sbar * e.Q n i j)) (getSkewEntryRevDiff { e with dim := n } di i j Sbar (a0, b0)).2) := rfl
      rw [this, ih]
      ext p q
      · simp only [addAt2]
        rcases eq_or_ne p n with rfl | hp
        · by_cases hq : q = di <;> simp [hq]
        · have : p < n + 1 ↔ p < n := by omega
          simp [hp, this]
      · simp only [addAt2]
        rcases eq_or_ne p n with rfl | hp
        · by_cases hq : q = di <;> simp [hq]
        · have : p < n + 1 ↔ p < n := by omega
          simp [hp, this]
  have h' := h e.dim
  rw [show ({ e with dim := e.dim } : Elem K) = e from rfl] at h'
  rw [h', getSkewEntry_eq, mul_sum]
  refine sum_congr rfl fun k hk => ?_
  simp only [mem_range.1 hk, true_and, if_true]; ring

/-! ### C86: the local projection operator -/

/-- Discrete orthonormality of the columns of `V` in the norm `H`: `V^T H V = I`. -/
def Orthonormal (e : Elem K) : Prop :=
  ∀ k l, k < e.nv → l < e.nv →
    ∑ i ∈ range e.dof, e.V i k * e.H i * e.V i l = if k = l then 1 else 0

/-- Specification of the projection of one scalar field: subtract the `H`-orthogonal projection
onto the span of the columns of `V`. -/
def projSpec (e : Elem K) (f : ℕ → K) (i : ℕ) : K :=
  f i - ∑ k ∈ range e.nv, e.V i k * ∑ j ∈ range e.dof, e.V j k * e.H j * f j

theorem C86_entry_eq_matrix (e : Elem K) (i j : ℕ) :
    getProjOperatorEntry e i j = getProjOperator e i j := by
  rw [getProjOperatorEntry_eq, getProjOperator, forN_sum, zero_add, sum_mul, sum_mul]
  have : ∑ k ∈ range e.nv, e.V i k * e.V j k * e.H j * -1 =
    - ∑ k ∈ range e.nv, e.V i k * e.V j k * e.H j := by
    rw [← sum_neg_distrib]; exact sum_congr rfl fun k _ => by ring
  rw [this]; ring

/-- Applying the operator, the matrix and the entries all agree, in both directions. -/
theorem C86_mult (e : Elem K) (ns : ℕ) (u : ℕ → ℕ → K) (n i : ℕ) (hn : n < ns) (hi : i < e.dof) :
    multProjOperator e ns false u n i = ∑ j ∈ range e.dof, getProjOperator e i j * u n j ∧
    multProjOperator e ns true u n i = ∑ j ∈ range e.dof, getProjOperator e j i * u n j ∧
    multProjOperator e ns false u n i = projSpec e (u n) i := by
  refine ⟨?_, ?_, ?_⟩
  · rw [multProj_eq e ns u n i hn hi]
    exact sum_congr rfl fun j _ => by rw [C86_entry_eq_matrix]
  · rw [multProjT_eq e ns u n i hn hi]
    exact sum_congr rfl fun j _ => by rw [C86_entry_eq_matrix]
  · rw [multProj_raw e ns false u n i hn hi]
    simp [projSpec, projProd_eq e ns false u _ n hn]

/-- The transposed product is the adjoint. -/
theorem C86_adjoint (e : Elem K) (ns : ℕ) (u v : ℕ → ℕ → K) (n : ℕ) (hn : n < ns) :
    ∑ i ∈ range e.dof, v n i * multProjOperator e ns false u n i =
      ∑ i ∈ range e.dof, multProjOperator e ns true v n i * u n i := by
  have h1 : ∀ i ∈ range e.dof, v n i * multProjOperator e ns false u n i =
      ∑ j ∈ range e.dof, v n i * (getProjOperatorEntry e i j * u n j) := fun i hi => by
    rw [multProj_eq e ns u n i hn (mem_range.1 hi), mul_sum]
  have h2 : ∀ i ∈ range e.dof, multProjOperator e ns true v n i * u n i =
      ∑ j ∈ range e.dof, getProjOperatorEntry e j i * v n j * u n i := fun i hi => by
    rw [multProjT_eq e ns v n i hn (mem_range.1 hi), sum_mul]
  rw [sum_congr rfl h1, sum_congr rfl h2, sum_comm]
  exact sum_congr rfl fun i _ => sum_congr rfl fun j _ => by ring

/-- Polynomials (combinations of the columns of `V`) are annihilated. -/
theorem C86_annihilates (e : Elem K) (hV : Orthonormal e) (ns : ℕ) (u : ℕ → ℕ → K) (n : ℕ)
    (hn : n < ns) (c : ℕ → K) (hu : ∀ j < e.dof, u n j = ∑ k ∈ range e.nv, c k * e.V j k)
    (i : ℕ) (hi : i < e.dof) : multProjOperator e ns false u n i = 0 := by
  rw [(C86_mult e ns u n i hn hi).2.2, projSpec, hu i hi, sub_eq_zero]
  refine sum_congr rfl fun k hk => ?_
  have : ∑ j ∈ range e.dof, e.V j k * e.H j * u n j = c k := by
    calc ∑ j ∈ range e.dof, e.V j k * e.H j * u n j
        = ∑ j ∈ range e.dof, ∑ l ∈ range e.nv, c l * (e.V j k * e.H j * e.V j l) :=
          sum_congr rfl fun j hj => by
            rw [hu j (mem_range.1 hj), mul_sum]; exact sum_congr rfl fun l _ => by ring
      _ = ∑ l ∈ range e.nv, c l * ∑ j ∈ range e.dof, e.V j k * e.H j * e.V j l := by
          rw [sum_comm]; exact sum_congr rfl fun l _ => by rw [mul_sum]
      _ = ∑ l ∈ range e.nv, c l * (if k = l then 1 else 0) :=
          sum_congr rfl fun l hl => by rw [hV k l (mem_range.1 hk) (mem_range.1 hl)]
      _ = c k := by
          have hk' := mem_range.1 hk
          simp [hk']
  rw [this]; ring

/-- Projecting twice is projecting once. -/
theorem C86_idempotent (e : Elem K) (hV : Orthonormal e) (ns : ℕ) (u : ℕ → ℕ → K) (n i : ℕ)
    (hn : n < ns) (hi : i < e.dof) :
    multProjOperator e ns false (multProjOperator e ns false u) n i =
      multProjOperator e ns false u n i := by
  have hlin : ∀ (a b : ℕ → ℕ → K), (∀ j < e.dof, b n j = u n j - a n j) →
      multProjOperator e ns false b n i =
        multProjOperator e ns false u n i - multProjOperator e ns false a n i := by
    intro a b hab
    rw [multProj_eq e ns b n i hn hi, multProj_eq e ns u n i hn hi, multProj_eq e ns a n i hn hi,
      ← sum_sub_distrib]
    exact sum_congr rfl fun j hj => by rw [hab j (mem_range.1 hj)]; ring
  set c : ℕ → K := fun k => ∑ j ∈ range e.dof, e.V j k * e.H j * u n j with hc
  set a : ℕ → ℕ → K := fun _ j => ∑ k ∈ range e.nv, c k * e.V j k with ha
  rw [hlin a (multProjOperator e ns false u), C86_annihilates e hV ns a n hn c (fun j _ => rfl) i hi,
    sub_zero]
  intro j hj
  rw [(C86_mult e ns u n j hn hj).2.2, projSpec]
  congr 1
  exact sum_congr rfl fun k _ => by rw [hc]; ring

/-- `H P = P^T H`: applying the norm and then the transposed projection is the same as projecting
and then applying the norm. -/
theorem C86_self_adjoint (e : Elem K) (i j : ℕ) :
    e.H i * getProjOperatorEntry e i j = getProjOperatorEntry e j i * e.H j := by
  rw [getProjOperatorEntry_eq, getProjOperatorEntry_eq]
  rcases eq_or_ne i j with rfl | h
  · ring
  · rw [if_neg h, if_neg h.symm, zero_sub, zero_sub, mul_neg, neg_mul, mul_sum, sum_mul]
    congr 1
    exact sum_congr rfl fun k _ => by ring

/-- The transposed projection of anything sums to zero when constants are in the span of `V`: the
stabilisation cannot create or destroy conserved quantities. -/
theorem C86_conserves (e : Elem K) (hV : Orthonormal e) (ns : ℕ) (v : ℕ → ℕ → K) (n : ℕ)
    (hn : n < ns) (c : ℕ → K) (hc : ∀ j < e.dof, ∑ k ∈ range e.nv, c k * e.V j k = 1) :
    ∑ i ∈ range e.dof, multProjOperator e ns true v n i = 0 := by
  have h := C86_adjoint e ns (fun _ _ => 1) v n hn
  simp only [mul_one] at h
  rw [← h]
  refine sum_eq_zero fun i hi => ?_
  rw [C86_annihilates e hV ns (fun _ _ => 1) n hn c (fun j hj => (hc j hj).symm) i
    (mem_range.1 hi), mul_zero]

/-- The projection does not increase the `H` norm. -/
theorem C86_contraction {K : Type*} [Field K] [LinearOrder K] [IsStrictOrderedRing K] (e : Elem K)
    (hV : Orthonormal e) (ns : ℕ) (u : ℕ → ℕ → K) (n : ℕ)
    (hn : n < ns) :
    ∑ i ∈ range e.dof, e.H i * multProjOperator e ns false u n i ^ 2 ≤
      ∑ i ∈ range e.dof, e.H i * u n i ^ 2 := by
  set P := multProjOperator e ns false u with hP
  set c : ℕ → K := fun k => ∑ j ∈ range e.dof, e.V j k * e.H j * u n j with hc
  have hPi : ∀ i < e.dof, P n i = u n i - ∑ k ∈ range e.nv, e.V i k * c k := fun i hi => by
    rw [hP, (C86_mult e ns u n i hn hi).2.2]; rfl
  -- (V_k, P u)_H = 0
  have horth : ∀ k < e.nv, ∑ i ∈ range e.dof, e.V i k * e.H i * P n i = 0 := by
    intro k hk
    have : ∑ i ∈ range e.dof, e.V i k * e.H i * P n i =
        c k - ∑ l ∈ range e.nv, c l * ∑ i ∈ range e.dof, e.V i k * e.H i * e.V i l := by
      rw [hc]; simp only [mul_sum]
      rw [sum_comm (s := range e.nv), ← sum_sub_distrib]
      refine sum_congr rfl fun i hi => ?_
      rw [hPi i (mem_range.1 hi), mul_sub, mul_sum]
      congr 1
      exact sum_congr rfl fun l _ => by ring
    rw [this, sum_congr rfl (fun l hl => by rw [hV k l hk (mem_range.1 hl)])]
    simp [hk]
  have key : ∑ i ∈ range e.dof, e.H i * u n i ^ 2 =
      ∑ i ∈ range e.dof, e.H i * P n i ^ 2 + ∑ k ∈ range e.nv, c k ^ 2 := by
    have e1 : ∑ i ∈ range e.dof, e.H i * P n i ^ 2 =
        ∑ i ∈ range e.dof, e.H i * u n i * P n i := by
      have : ∀ i ∈ range e.dof, e.H i * P n i ^ 2 = e.H i * u n i * P n i -
          ∑ k ∈ range e.nv, c k * (e.V i k * e.H i * P n i) := fun i hi => by
        have h1 : ∑ k ∈ range e.nv, c k * (e.V i k * e.H i * P n i) =
            (∑ k ∈ range e.nv, e.V i k * c k) * (e.H i * P n i) := by
          rw [sum_mul]; exact sum_congr rfl fun k _ => by ring
        have h2 : ∑ k ∈ range e.nv, e.V i k * c k = u n i - P n i := by
          rw [hPi i (mem_range.1 hi)]; ring
        rw [h1, h2]; ring
      rw [sum_congr rfl this, sum_sub_distrib, sum_comm]
      have : ∑ y ∈ range e.nv, ∑ x ∈ range e.dof, c y * (e.V x y * e.H x * P n x) = 0 :=
        sum_eq_zero fun k hk => by rw [← mul_sum, horth k (mem_range.1 hk), mul_zero]
      rw [this, sub_zero]
    have e2 : ∑ i ∈ range e.dof, e.H i * u n i ^ 2 =
        ∑ i ∈ range e.dof, e.H i * u n i * P n i + ∑ k ∈ range e.nv, c k ^ 2 := by
      have h3 : ∑ k ∈ range e.nv, c k ^ 2 =
          ∑ i ∈ range e.dof, e.H i * u n i * ∑ k ∈ range e.nv, e.V i k * c k := by
        simp only [mul_sum]
        rw [sum_comm]
        refine sum_congr rfl fun k _ => ?_
        rw [sq]; conv_lhs => rw [hc]
        rw [sum_mul]
        exact sum_congr rfl fun i _ => by ring
      rw [h3, ← sum_add_distrib]
      refine sum_congr rfl fun i hi => ?_
      rw [hPi i (mem_range.1 hi)]; ring
    rw [e2, e1]
  rw [key]
  have : 0 ≤ ∑ k ∈ range e.nv, c k ^ 2 := sum_nonneg fun k _ => sq_nonneg _
  linarith

/-- Degree-0 segment: two nodes, weights 1/2, `V = 1`. -/
def seg0 : Elem ℚ where
  dim := 1
  dof := 2
  H := fun _ => 1/2
  Q := fun _ r c => ([[-1/2, -1/2], [1/2, 1/2]].getD r []).getD c 0
  V := fun _ _ => 1
  nv := 1
  x := fun i _ => [0, 1].getD i 0

example : Orthonormal seg0 ∧ ∀ j < seg0.dof, ∑ k ∈ range seg0.nv, (1 : ℚ) * seg0.V j k = 1 := by
  constructor
  · intro k l hk hl
    simp only [seg0] at hk hl
    obtain rfl : k = 0 := by omega
    obtain rfl : l = 0 := by omega
    decide +kernel
  · decide +kernel

/-- and the projection there removes the mean and keeps the rest. -/
example : multProjOperator seg0 1 false (fun _ i => [3, 5].getD i 0) 0 0 = -1 ∧
    multProjOperator seg0 1 false (fun _ i => [3, 5].getD i 0) 0 1 = 1 := by decide +kernel

end Verif.Sbp
