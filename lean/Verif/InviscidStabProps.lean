import Verif.InviscidIntegProps
import Verif.SbpProps

/-!
Properties C93-C96: the local-projection stabilisation, boundary, interior-face and mass
integrators.
-/

namespace Verif.Inviscid
open Finset Verif.Sbp

set_option linter.unusedSectionVars false

variable {K : Type*} [Field K]

/-! ### C93: local projection stabilisation -/

/-- Node `k` of the projected variables: `(P w)(k)`. -/
def projNode (e : Elem K) (ns : ℕ) (convert : (ℕ → K) → (ℕ → K)) (u : ℕ → K) (k : ℕ) : ℕ → K :=
  fun m => lpsPw e ns convert u m k

/-- The projected variables are `w - Σ V (Vᵀ H w)` at every node. -/
theorem C93_projected (e : Elem K) (ns : ℕ) (convert : (ℕ → K) → (ℕ → K)) (u : ℕ → K) (n k : ℕ)
    (hn : n < ns) (hk : k < e.dof) :
    projNode e ns convert u k n =
      projSpec e (fun j => convert (fun m => u (m * e.dof + j)) n) k :=
  (C86_mult e ns (fun n i => convert (row u e.dof i) n) n k hn hk).2.2

/-- Testing the stabilisation with the converted variables gives the weighted sum of the quadratic
forms of the scaling matrices at the projected variables. -/
theorem C93_tested (e : Elem K) (ns : ℕ) (alpha lps : K) (convert : (ℕ → K) → (ℕ → K))
    (scale : ℕ → (ℕ → K) → (ℕ → K) → (ℕ → K)) (u : ℕ → K) :
    ∑ n ∈ range ns, ∑ i ∈ range e.dof, convert (fun m => u (m * e.dof + i)) n *
        lpsVec e ns alpha lps convert scale u (n * e.dof + i) =
      alpha * lps * ∑ k ∈ range e.dof, e.H k * ∑ n ∈ range ns, projNode e ns convert u k n *
        scale k (row u e.dof k) (projNode e ns convert u k) n := by
  have h1 : ∀ n ∈ range ns, ∑ i ∈ range e.dof, convert (fun m => u (m * e.dof + i)) n *
        lpsVec e ns alpha lps convert scale u (n * e.dof + i) =
      ∑ k ∈ range e.dof, alpha * lps * (e.H k * (projNode e ns convert u k n *
        scale k (row u e.dof k) (projNode e ns convert u k) n)) := by
    intro n hn
    rw [mem_range] at hn
    have h2 : ∀ i ∈ range e.dof, convert (fun m => u (m * e.dof + i)) n *
        lpsVec e ns alpha lps convert scale u (n * e.dof + i) =
        ∑ k ∈ range e.dof, alpha * lps * (e.H k * (getProjOperatorEntry e k i *
          convert (row u e.dof i) n * scale k (row u e.dof k) (projNode e ns convert u k) n)) := by
      intro i hi
      rw [lpsVec_eq e ns alpha lps convert scale u n i hn (mem_range.1 hi), mul_sum, mul_sum]
      refine sum_congr rfl fun k _ => ?_
      show convert (row u e.dof i) n * _ = _
      rw [show (fun m => lpsPw e ns convert u m k) = projNode e ns convert u k from rfl]
      ring
    rw [sum_congr rfl h2, sum_comm]
    refine sum_congr rfl fun k hk => ?_
    rw [← mul_sum, ← mul_sum, ← sum_mul]
    congr 3
    exact (lpsPw_eq e ns convert u n k hn (mem_range.1 hk)).symm
  rw [sum_congr rfl h1, sum_comm, mul_sum]
  refine sum_congr rfl fun k _ => ?_
  rw [← mul_sum, ← mul_sum]

/-- **Dissipation.**  With non-negative coefficients and weights and positive semi-definite
scaling, the stabilisation tested with the converted variables is non-negative: it can only remove
(mathematical) entropy. -/
theorem C93_dissipation {K : Type*} [Field K] [LinearOrder K] [IsStrictOrderedRing K] (e : Elem K)
    (ns : ℕ) (alpha lps : K) (convert : (ℕ → K) → (ℕ → K))
    (scale : ℕ → (ℕ → K) → (ℕ → K) → (ℕ → K)) (u : ℕ → K) (ha : 0 ≤ alpha) (hl : 0 ≤ lps)
    (hH : ∀ k < e.dof, 0 ≤ e.H k)
    (hS : ∀ k < e.dof, ∀ v : ℕ → K, 0 ≤ ∑ n ∈ range ns, v n * scale k (row u e.dof k) v n) :
    0 ≤ ∑ n ∈ range ns, ∑ i ∈ range e.dof, convert (fun m => u (m * e.dof + i)) n *
        lpsVec e ns alpha lps convert scale u (n * e.dof + i) := by
  rw [C93_tested]
  refine mul_nonneg (mul_nonneg ha hl) (sum_nonneg fun k hk => ?_)
  rw [mem_range] at hk
  exact mul_nonneg (hH k hk) (hS k hk _)

/-- **Conservation.**  When constants are in the span of the polynomial basis the stabilisation
sums to zero for every equation. -/
theorem C93_conservation (e : Elem K) (hV : Orthonormal e) (ns : ℕ) (alpha lps : K)
    (convert : (ℕ → K) → (ℕ → K)) (scale : ℕ → (ℕ → K) → (ℕ → K) → (ℕ → K)) (u : ℕ → K)
    (c : ℕ → K) (hc : ∀ j < e.dof, ∑ k ∈ range e.nv, c k * e.V j k = 1) (n : ℕ) (hn : n < ns) :
    ∑ i ∈ range e.dof, lpsVec e ns alpha lps convert scale u (n * e.dof + i) = 0 := by
  have hP : ∀ k < e.dof, ∑ i ∈ range e.dof, getProjOperatorEntry e k i = 0 := by
    intro k hk
    have := C86_annihilates e hV 1 (fun _ _ => 1) 0 (by omega) c (fun j hj => (hc j hj).symm) k hk
    rw [multProj_eq _ _ _ _ _ (by omega) hk] at this
    simpa using this
  rw [sum_congr rfl fun i hi => lpsVec_eq e ns alpha lps convert scale u n i hn (mem_range.1 hi),
    ← mul_sum, sum_comm, sum_eq_zero fun k hk => ?_, mul_zero]
  rw [← sum_mul, hP k (mem_range.1 hk), zero_mul]

/-- **Consistency.**  If the converted variables are polynomials of the element's degree, the
stabilisation vanishes (for any scaling that maps zero to zero). -/
theorem C93_consistency (e : Elem K) (hV : Orthonormal e) (ns : ℕ) (alpha lps : K)
    (convert : (ℕ → K) → (ℕ → K)) (scale : ℕ → (ℕ → K) → (ℕ → K) → (ℕ → K)) (u : ℕ → K)
    (hS : ∀ k q v, (∀ n < ns, v n = 0) → ∀ n < ns, scale k q v n = 0)
    (c : ℕ → ℕ → K) (hw : ∀ n < ns, ∀ j < e.dof,
      convert (fun m => u (m * e.dof + j)) n = ∑ k ∈ range e.nv, c n k * e.V j k)
    (n i : ℕ) (hn : n < ns) (hi : i < e.dof) :
    lpsVec e ns alpha lps convert scale u (n * e.dof + i) = 0 := by
  rw [lpsVec_eq e ns alpha lps convert scale u n i hn hi, sum_eq_zero, mul_zero]
  intro k hk
  rw [mem_range] at hk
  rw [hS k _ _ ?_ n hn]
  · ring
  · intro m hm
    exact C86_annihilates e hV ns _ m hm (c m) (fun j hj => hw m hm j hj) k hk

/-! #### gradient -/

theorem lpsL_eq (e : Elem K) (JV : ℕ → (ℕ → K) → (ℕ → ℕ → K)) (u : ℕ → K) (i j n m : ℕ) :
    lpsL e JV u i j n m = ∑ k ∈ range e.dof, getProjOperatorEntry e k i * e.H k *
      getProjOperatorEntry e k j * JV k (row u e.dof k) n m := by
  have h : Adds (forN e.dof (fun k (L : ℕ → ℕ → K) => fun n m => L n m +
      getProjOperatorEntry e k i * e.H k * getProjOperatorEntry e k j *
        JV k (row u e.dof k) n m))
      (∑ k ∈ range e.dof, fun n m => getProjOperatorEntry e k i * e.H k *
        getProjOperatorEntry e k j * JV k (row u e.dof k) n m) :=
    Adds.forN fun k _ s => rfl
  rw [lpsL, h.apply]
  simp [Finset.sum_apply]

theorem lpsL_symm (e : Elem K) (JV : ℕ → (ℕ → K) → (ℕ → ℕ → K)) (u : ℕ → K) (i j : ℕ) :
    lpsL e JV u i j = lpsL e JV u j i := by
  funext n m
  rw [lpsL_eq, lpsL_eq]
  exact sum_congr rfl fun k _ => by ring

theorem lpsNode_eq (e : Elem K) (ns : ℕ) (JV : ℕ → (ℕ → K) → (ℕ → ℕ → K))
    (C : (ℕ → K) → (ℕ → ℕ → K)) (u : ℕ → K) (i j c n m : ℕ) :
    lpsNode e ns JV C u i j c n m =
      ∑ k ∈ range ns, lpsL e JV u i j n k * C (row u e.dof c) k m := by
  rw [lpsNode, matMul, forN_sum, zero_add]

/-- One block of updates `elmat(n*N+a, m*N+b) += x(n,m)`. -/
theorem adds_block (ns N a b : ℕ) (x : ℕ → ℕ → K) :
    Adds (forN ns (fun n => forN ns (fun m => addAt2 (n * N + a) (m * N + b) (x n m))))
      (∑ n ∈ range ns, ∑ m ∈ range ns,
        fun p q => if p = n * N + a ∧ q = m * N + b then x n m else 0) :=
  Adds.forN fun _ _ => Adds.forN fun _ _ => adds_addAt2 _ _ _

theorem mulVec_block (ns N a b : ℕ) (x : ℕ → ℕ → K) (v : ℕ → K) (n i : ℕ) (hn : n < ns)
    (hi : i < N) (ha : a < N) (hb : b < N) :
    mulVec (ns * N) (∑ n ∈ range ns, ∑ m ∈ range ns,
        fun p q => if p = n * N + a ∧ q = m * N + b then x n m else 0) v (n * N + i) =
      if i = a then ∑ m ∈ range ns, x n m * v (m * N + b) else 0 := by
  rw [mulVec_sum, sum_eq_single n]
  · rw [mulVec_sum]
    by_cases h : i = a
    · rw [if_pos h]
      refine sum_congr rfl fun m hm => ?_
      rw [mulVec_single _ _ _ (flat_lt hb (mem_range.1 hm)), if_pos (by rw [h])]
    · rw [if_neg h]
      refine sum_eq_zero fun m hm => ?_
      rw [mulVec_single _ _ _ (flat_lt hb (mem_range.1 hm)), if_neg]
      rw [flat_iff hi ha]; exact fun h' => h h'.2
  · intro k _ hk
    rw [mulVec_sum]
    refine sum_eq_zero fun m hm => ?_
    rw [mulVec_single _ _ _ (flat_lt hb (mem_range.1 hm)), if_neg]
    rw [flat_iff hi ha]; exact fun h' => hk h'.1.symm
  · intro h; exact absurd (mem_range.2 hn) h

theorem mulVec_zero (len : ℕ) (v : ℕ → K) (p : ℕ) : mulVec len (0 : ℕ → ℕ → K) v p = 0 := by
  simp [mulVec]

theorem adds_lpsGradBody (e : Elem K) (ns : ℕ) (convert : (ℕ → K) → (ℕ → K))
    (C : (ℕ → K) → (ℕ → ℕ → K)) (JS : ℕ → (ℕ → K) → (ℕ → K) → (ℕ → ℕ → K))
    (JV : ℕ → (ℕ → K) → (ℕ → ℕ → K)) (u : ℕ → K) (i : ℕ) :
    Adds (lpsGradBody e ns convert C JS JV u i)
      ((∑ j ∈ range e.dof, ∑ n ∈ range ns, ∑ m ∈ range ns,
        fun p q => if p = n * e.dof + j ∧ q = m * e.dof + i then
          e.H i * getProjOperatorEntry e i j *
            JS i (row u e.dof i) (projNode e ns convert u i) n m else 0) +
      ∑ j ∈ Ico i e.dof, ((∑ n ∈ range ns, ∑ m ∈ range ns,
        fun p q => if p = n * e.dof + i ∧ q = m * e.dof + j then
          lpsNode e ns JV C u i j j n m else 0) +
        if i = j then 0 else ∑ n ∈ range ns, ∑ m ∈ range ns,
        fun p q => if p = n * e.dof + j ∧ q = m * e.dof + i then
          lpsNode e ns JV C u i j i n m else 0)) := by
  have h1 : Adds (forN e.dof (fun j => forN ns (fun n => forN ns (fun m =>
    addAt2 (n * e.dof + j) (m * e.dof + i) (e.H i * getProjOperatorEntry e i j *
      JS i (row u e.dof i) (projNode e ns convert u i) n m))))) _ :=
    Adds.forN fun j _ => adds_block ns e.dof j i _
  have h2 : Adds (forFromTo i e.dof (fun j M =>
    let M2 := forN ns (fun n => forN ns (fun m => addAt2 (n * e.dof + i) (m * e.dof + j)
      (lpsNode e ns JV C u i j j n m))) M
    if i = j then M2
    else forN ns (fun n => forN ns (fun m => addAt2 (n * e.dof + j) (m * e.dof + i)
      (lpsNode e ns JV C u i j i n m))) M2))
      (∑ j ∈ Ico i e.dof, ((∑ n ∈ range ns, ∑ m ∈ range ns,
        fun p q => if p = n * e.dof + i ∧ q = m * e.dof + j then
          lpsNode e ns JV C u i j j n m else 0) +
        if i = j then 0 else ∑ n ∈ range ns, ∑ m ∈ range ns,
        fun p q => if p = n * e.dof + j ∧ q = m * e.dof + i then
          lpsNode e ns JV C u i j i n m else 0)) := by
    refine Adds.forFromTo (f := fun j => (∑ n ∈ range ns, ∑ m ∈ range ns,
        fun p q => if p = n * e.dof + i ∧ q = m * e.dof + j then
          lpsNode e ns JV C u i j j n m else 0) +
        if i = j then 0 else ∑ n ∈ range ns, ∑ m ∈ range ns,
        fun p q => if p = n * e.dof + j ∧ q = m * e.dof + i then
          lpsNode e ns JV C u i j i n m else 0) fun j _ _ => ?_
    intro M
    have hb := adds_block ns e.dof i j (lpsNode e ns JV C u i j j)
    have hc := adds_block ns e.dof j i (lpsNode e ns JV C u i j i)
    by_cases hij : i = j
    · simp only [if_pos hij, add_zero]; exact hb M
    · simp only [if_neg hij]; rw [hc, hb, add_assoc]
  exact h1.comp h2

theorem lpsGrad_mulVec (e : Elem K) (ns : ℕ) (alpha : K) (convert : (ℕ → K) → (ℕ → K))
    (C : (ℕ → K) → (ℕ → ℕ → K)) (JS : ℕ → (ℕ → K) → (ℕ → K) → (ℕ → ℕ → K))
    (JV : ℕ → (ℕ → K) → (ℕ → ℕ → K)) (u v : ℕ → K) (n i : ℕ) (hn : n < ns) (hi : i < e.dof) :
    mulVec (ns * e.dof) (lpsGrad e ns alpha convert C JS JV u) v (n * e.dof + i) =
      alpha * ∑ k ∈ range e.dof, getProjOperatorEntry e k i * (e.H k *
        ∑ m ∈ range ns, (JS k (row u e.dof k) (projNode e ns convert u k) n m * v (m * e.dof + k) +
          JV k (row u e.dof k) n m * ∑ l ∈ range e.dof, getProjOperatorEntry e k l *
            ∑ r ∈ range ns, C (row u e.dof l) m r * v (r * e.dof + l))) := by
  have h : Adds (forN e.dof (lpsGradBody e ns convert C JS JV u)) _ :=
    Adds.forN fun k _ => adds_lpsGradBody e ns convert C JS JV u k
  have h0 : lpsGrad e ns alpha convert C JS JV u = fun p q => (forN e.dof
    (lpsGradBody e ns convert C JS JV u) (fun _ _ => 0)) p q * alpha := rfl
  rw [h0, mulVec_smul, h.apply, fun_zero_eq2, zero_add, mul_comm, mulVec_sum]
  congr 1
  have h1 : ∀ k ∈ range e.dof, mulVec (ns * e.dof)
      ((∑ j ∈ range e.dof, ∑ n ∈ range ns, ∑ m ∈ range ns,
        fun p q => if p = n * e.dof + j ∧ q = m * e.dof + k then
          e.H k * getProjOperatorEntry e k j *
            JS k (row u e.dof k) (projNode e ns convert u k) n m else 0) +
      ∑ j ∈ Ico k e.dof, ((∑ n ∈ range ns, ∑ m ∈ range ns,
        fun p q => if p = n * e.dof + k ∧ q = m * e.dof + j then
          lpsNode e ns JV C u k j j n m else 0) +
        if k = j then 0 else ∑ n ∈ range ns, ∑ m ∈ range ns,
        fun p q => if p = n * e.dof + j ∧ q = m * e.dof + k then
          lpsNode e ns JV C u k j k n m else 0)) v (n * e.dof + i) =
      (getProjOperatorEntry e k i * (e.H k * ∑ m ∈ range ns,
        JS k (row u e.dof k) (projNode e ns convert u k) n m * v (m * e.dof + k))) +
      ∑ j ∈ Ico k e.dof, ((fun k j => if i = k then ∑ m ∈ range ns,
        lpsNode e ns JV C u k j j n m * v (m * e.dof + j) else 0) k j +
        if k = j then 0 else (fun k j => if i = k then ∑ m ∈ range ns,
        lpsNode e ns JV C u k j j n m * v (m * e.dof + j) else 0) j k) := by
    intro k hk
    rw [mem_range] at hk
    rw [mulVec_add, mulVec_sum, mulVec_sum]
    congr 1
    · rw [sum_eq_single i]
      · rw [mulVec_block ns e.dof i k _ v n i hn hi hi hk, if_pos rfl, mul_sum, mul_sum]
        exact sum_congr rfl fun m _ => by ring
      · intro j hj hji
        rw [mulVec_block ns e.dof j k _ v n i hn hi (mem_range.1 hj) hk, if_neg (Ne.symm hji)]
      · intro h; exact absurd (mem_range.2 hi) h
    · refine sum_congr rfl fun j hj => ?_
      rw [mem_Ico] at hj
      rw [mulVec_add, mulVec_block ns e.dof k j _ v n i hn hi hk hj.2]
      congr 1
      by_cases hkj : k = j
      · rw [if_pos hkj, if_pos hkj]; exact mulVec_zero _ _ _
      · rw [if_neg hkj, if_neg hkj, mulVec_block ns e.dof j k _ v n i hn hi hj.2 hk]
        by_cases h2 : i = j
        · rw [if_pos h2]
          simp only [if_pos h2]
          refine sum_congr rfl fun m _ => ?_
          rw [lpsNode, lpsL_symm, ← lpsNode]
        · simp only [if_neg h2]
  rw [sum_congr rfl h1, sum_add_distrib, sum_upper]
  have h2 : ∑ k ∈ range e.dof, ∑ j ∈ range e.dof, (if i = k then ∑ m ∈ range ns,
        lpsNode e ns JV C u k j j n m * v (m * e.dof + j) else 0) =
      ∑ k ∈ range e.dof, getProjOperatorEntry e k i * (e.H k * ∑ m ∈ range ns,
        JV k (row u e.dof k) n m * ∑ l ∈ range e.dof, getProjOperatorEntry e k l *
            ∑ r ∈ range ns, C (row u e.dof l) m r * v (r * e.dof + l)) := by
    rw [sum_eq_single i]
    · simp only [if_true, lpsNode_eq, lpsL_eq, sum_mul, mul_sum]
      -- left: j, m(r), k'(m), k ; right: k, m, l, r
      have e1 : ∀ j ∈ range e.dof, ∑ r ∈ range ns, ∑ m ∈ range ns, ∑ k ∈ range e.dof,
          getProjOperatorEntry e k i * e.H k * getProjOperatorEntry e k j *
            JV k (row u e.dof k) n m * C (row u e.dof j) m r * v (r * e.dof + j) =
          ∑ k ∈ range e.dof, ∑ m ∈ range ns, ∑ r ∈ range ns, getProjOperatorEntry e k i * (e.H k *
            (JV k (row u e.dof k) n m * (getProjOperatorEntry e k j *
              (C (row u e.dof j) m r * v (r * e.dof + j))))) := by
        intro j _
        rw [sum_comm, sum_congr rfl fun m _ => sum_comm, sum_comm]
        exact sum_congr rfl fun k _ => sum_congr rfl fun m _ => sum_congr rfl fun r _ => by ring
      rw [sum_congr rfl e1, sum_comm]
      refine sum_congr rfl fun k _ => ?_
      rw [sum_comm]
    · intro b _ hb; exact sum_eq_zero fun j _ => if_neg (Ne.symm hb)
    · intro h; exact absurd (mem_range.2 hi) h
  rw [h2, ← sum_add_distrib]
  refine sum_congr rfl fun k _ => ?_
  rw [← mul_add, ← mul_add, ← sum_add_distrib]

/-- The matrix, multiplied by the LPS coefficient, is the exact Jacobian of the residual. -/
theorem C93_gradient_value (e : Elem ℝ) (ns : ℕ) (alpha lps : ℝ) (convert : (ℕ → ℝ) → (ℕ → ℝ))
    (C : (ℕ → ℝ) → (ℕ → ℕ → ℝ)) (scale : ℕ → (ℕ → ℝ) → (ℕ → ℝ) → (ℕ → ℝ))
    (JS : ℕ → (ℕ → ℝ) → (ℕ → ℝ) → (ℕ → ℕ → ℝ)) (JV : ℕ → (ℕ → ℝ) → (ℕ → ℕ → ℝ)) (u : ℕ → ℝ)
    (hC : ∀ i < e.dof, ExactJac ns convert (C (row u e.dof i)) (row u e.dof i))
    (hS : ∀ k < e.dof, ExactJac2 ns (scale k) (JS k (row u e.dof k) (projNode e ns convert u k))
      (JV k (row u e.dof k)) (row u e.dof k) (projNode e ns convert u k)) :
    ExactJac (ns * e.dof) (lpsVec e ns alpha lps convert scale)
      (fun p q => lps * lpsGrad e ns alpha convert C JS JV u p q) u := by
  intro c w h0 hc p hp
  obtain ⟨n, i, hn, hi, rfl⟩ := flat_surj hp
  have e1 : ∀ t, lpsVec e ns alpha lps convert scale (c t) (n * e.dof + i) = _ :=
    fun t => lpsVec_eq e ns alpha lps convert scale (c t) n i hn hi
  simp only [e1]
  have key := lpsGrad_mulVec e ns alpha convert C JS JV u w n i hn hi
  rw [mulVec] at key
  simp only [mul_assoc lps]
  rw [← mul_sum, key]
  have e2 : ∀ x : ℝ, lps * (alpha * x) = alpha * (lps * x) := fun x => by ring
  rw [e2, mul_sum]
  refine HasDerivAt.const_mul _ (HasDerivAt.fun_sum fun k hk => ?_)
  rw [mem_range] at hk
  have e3 : ∀ a b x : ℝ, lps * (a * (b * x)) = a * (b * (x * lps)) := fun a b x => by ring
  rw [e3]
  refine HasDerivAt.const_mul _ (HasDerivAt.const_mul _ (HasDerivAt.mul_const ?_ _))
  refine hS k hk (fun t => row (c t) e.dof k) (fun t => projNode e ns convert (c t) k)
    (row w e.dof k) (fun m => ∑ l ∈ range e.dof, getProjOperatorEntry e k l *
            ∑ r ∈ range ns, C (row u e.dof l) m r * w (r * e.dof + l))
    (by rw [h0]) (by rw [h0]) (fun m hm => hc _ (flat_lt hk hm)) ?_ n hn
  intro m hm
  have e4 : ∀ t, projNode e ns convert (c t) k m = _ :=
    fun t => lpsPw_eq e ns convert (c t) m k hm hk
  simp only [e4]
  refine HasDerivAt.fun_sum fun l hl => HasDerivAt.const_mul _ ?_
  rw [mem_range] at hl
  exact hC l hl (fun t => row (c t) e.dof l) (row w e.dof l) (by rw [h0])
    (fun r hr => hc _ (flat_lt hl hr)) m hm

/-- Hence the matrix is the exact Jacobian when the LPS coefficient is 1 ... -/
theorem C93_gradient_partial (e : Elem ℝ) (ns : ℕ) (alpha : ℝ) (convert : (ℕ → ℝ) → (ℕ → ℝ))
    (C : (ℕ → ℝ) → (ℕ → ℕ → ℝ)) (scale : ℕ → (ℕ → ℝ) → (ℕ → ℝ) → (ℕ → ℝ))
    (JS : ℕ → (ℕ → ℝ) → (ℕ → ℝ) → (ℕ → ℕ → ℝ)) (JV : ℕ → (ℕ → ℝ) → (ℕ → ℕ → ℝ)) (u : ℕ → ℝ)
    (hC : ∀ i < e.dof, ExactJac ns convert (C (row u e.dof i)) (row u e.dof i))
    (hS : ∀ k < e.dof, ExactJac2 ns (scale k) (JS k (row u e.dof k) (projNode e ns convert u k))
      (JV k (row u e.dof k)) (row u e.dof k) (projNode e ns convert u k)) :
    ExactJac (ns * e.dof) (lpsVec e ns alpha 1 convert scale)
      (lpsGrad e ns alpha convert C JS JV u) u := by
  have := C93_gradient_value e ns alpha 1 convert C scale JS JV u hC hS
  simpa only [one_mul] using this

/-- ... **but not otherwise**: the residual is multiplied by the LPS coefficient and the matrix is
not, so for `lps-coeff = 2` (option `space-dis / lps-coeff` of the Euler solver) Newton's method is
given half the true Jacobian. -/
theorem C93_gradient_false :
    ¬ ∀ (e : Elem ℝ) (ns : ℕ) (alpha lps : ℝ) (convert : (ℕ → ℝ) → (ℕ → ℝ))
      (C : (ℕ → ℝ) → (ℕ → ℕ → ℝ)) (scale : ℕ → (ℕ → ℝ) → (ℕ → ℝ) → (ℕ → ℝ))
      (JS : ℕ → (ℕ → ℝ) → (ℕ → ℝ) → (ℕ → ℕ → ℝ)) (JV : ℕ → (ℕ → ℝ) → (ℕ → ℕ → ℝ)) (u : ℕ → ℝ),
      (∀ i < e.dof, ExactJac ns convert (C (row u e.dof i)) (row u e.dof i)) →
      (∀ k < e.dof, ExactJac2 ns (scale k) (JS k (row u e.dof k) (projNode e ns convert u k))
        (JV k (row u e.dof k)) (row u e.dof k) (projNode e ns convert u k)) →
      ExactJac (ns * e.dof) (lpsVec e ns alpha lps convert scale)
        (lpsGrad e ns alpha convert C JS JV u) u := by
  intro h
  set e : Elem ℝ := ⟨1, 1, fun _ => 1, fun _ _ _ => 0, fun _ _ => 0, 0, fun _ _ => 0⟩ with he
  have hC : ∀ i < e.dof, ExactJac 1 (fun q n => ∑ m ∈ range 1, (1 : ℝ) * q m)
      (fun _ _ => 1) (row (fun _ => 0) e.dof i) := fun _ _ => exact_linear 1 (fun _ _ => 1) _
  have hS : ∀ k < e.dof, ExactJac2 1 (fun _ v n => v n) (fun _ _ => 0)
      (fun n m => if m = n then 1 else 0) (row (fun _ => 0) e.dof k)
      (projNode e 1 (fun q n => ∑ m ∈ range 1, (1 : ℝ) * q m) (fun _ => 0) k) := by
    intro k _ a b v w _ _ _ hb n hn
    obtain rfl : n = 0 := by omega
    simpa using hb 0 hn
  have h1 := h e 1 1 2 (fun q n => ∑ m ∈ range 1, (1 : ℝ) * q m) (fun _ _ _ => 1)
    (fun _ _ v n => v n) (fun _ _ _ _ _ => 0) (fun _ _ n m => if m = n then 1 else 0) (fun _ => 0)
    hC hS
  have h2 := C93_gradient_value e 1 1 2 (fun q n => ∑ m ∈ range 1, (1 : ℝ) * q m) (fun _ _ _ => 1)
    (fun _ _ v n => v n) (fun _ _ _ _ _ => 0) (fun _ _ n m => if m = n then 1 else 0) (fun _ => 0)
    hC hS
  have h3 := (h1.partial_deriv 0 0 (by simp [he]) (by simp [he])).unique
    (h2.partial_deriv 0 0 (by simp [he]) (by simp [he]))
  have h4 : lpsGrad e 1 1 (fun q n => ∑ m ∈ range 1, (1 : ℝ) * q m) (fun _ _ _ => 1)
    (fun _ _ _ _ _ => 0) (fun _ _ n m => if m = n then 1 else 0) (fun _ => 0) 0 0 = 1 := by
    simp [lpsGrad, lpsGradBody, forN, forFromTo, addAt2, lpsNode, matMul, lpsL, he,
      getProjOperatorEntry]
  rw [h4] at h3
  norm_num at h3

/-- A nonlinear scaling that meets the hypotheses of the LPS theorems: `scale(q, v) = q_0² v`. -/
example (ns : ℕ) (hns : 0 < ns) (q v : ℕ → ℝ) :
    ExactJac2 ns (fun q v n => q 0 ^ 2 * v n) (fun n m => if m = 0 then 2 * q 0 * v n else 0)
      (fun n m => if m = n then q 0 ^ 2 else 0) q v ∧
    (0 ≤ ∑ n ∈ range ns, v n * (q 0 ^ 2 * v n)) ∧
    ((∀ n < ns, v n = 0) → ∀ n < ns, q 0 ^ 2 * v n = 0) := by
  refine ⟨?_, sum_nonneg fun n _ => ?_, fun h n hn => by rw [h n hn, mul_zero]⟩
  · intro a b x y ha hb hx hy n hn
    refine (((hx 0 hns).fun_pow 2).fun_mul (hy n hn)).congr_deriv ?_
    simp only [sum_add_distrib, ite_mul, zero_mul, sum_ite_eq', mem_range, hn, hns, if_true, ha, hb]
    push_cast; ring
  · have : v n * (q 0 ^ 2 * v n) = (q 0 * v n) ^ 2 := by ring
    rw [this]; positivity

/-! ### C94: boundary integrator -/

/-- The residual at element node `a` is the quadrature of the flux over the face nodes that lie on
`a`; other entries are zero. -/
theorem C94_residual (f : Face K) (N ns : ℕ) (alpha : K)
    (flux : (ℕ → K) → (ℕ → K) → (ℕ → K) → (ℕ → K)) (u : ℕ → K)
    (hl : ∀ i < f.n, f.left i < N) (n a : ℕ) (hn : n < ns) (ha : a < N) :
    bndVec f N ns alpha flux u (n * N + a) =
      alpha * ∑ i ∈ range f.n, if f.left i = a then
        f.w i * flux (f.x i) (f.nrm i) (fun m => u (m * N + a)) n else 0 := by
  rw [← dotV_indicator (ns * N) _ (flat_lt ha hn) (bndVec f N ns alpha flux u),
    bnd_dot f N ns alpha flux u _ hl]
  congr 1
  refine sum_congr rfl fun i hi => ?_
  rw [mem_range] at hi
  rw [sum_eq_single n]
  · simp only [flat_iff (hl i hi) ha, true_and, ite_mul, one_mul, zero_mul]
    split_ifs with h
    · rw [h]; rfl
    · rw [mul_zero]
  · intro b _ hb
    rw [if_neg, zero_mul]
    rw [flat_iff (hl i hi) ha]; exact fun h => hb h.1
  · intro h; exact absurd (mem_range.2 hn) h

/-- The residual of equation `n` sums to the quadrature of flux component `n` over the face. -/
theorem C94_total_flux (f : Face K) (N ns : ℕ) (alpha : K)
    (flux : (ℕ → K) → (ℕ → K) → (ℕ → K) → (ℕ → K)) (u : ℕ → K)
    (hl : ∀ i < f.n, f.left i < N) (n : ℕ) (hn : n < ns) :
    ∑ a ∈ range N, bndVec f N ns alpha flux u (n * N + a) =
      alpha * ∑ i ∈ range f.n, f.w i *
        flux (f.x i) (f.nrm i) (fun m => u (m * N + f.left i)) n := by
  rw [sum_congr rfl fun a ha => C94_residual f N ns alpha flux u hl n a hn (mem_range.1 ha),
    ← mul_sum, sum_comm]
  congr 1
  refine sum_congr rfl fun i hi => ?_
  rw [sum_ite_eq, if_pos (mem_range.2 (hl i (mem_range.1 hi)))]

/-- The face functional is the quadrature of the point functional, and equals the residual tested
with `wv` whenever the point functional is `wv(q) · flux(q)` at the face nodes. -/
theorem C94_energy (f : Face K) (N ns : ℕ) (alpha : K)
    (flux : (ℕ → K) → (ℕ → K) → (ℕ → K) → (ℕ → K)) (wv : (ℕ → K) → (ℕ → K))
    (bfun : (ℕ → K) → (ℕ → K) → (ℕ → K) → K) (u : ℕ → K)
    (hb : ∀ i < f.n, bfun (f.x i) (f.nrm i) (row u N (f.left i)) =
      ∑ n ∈ range ns, wv (row u N (f.left i)) n * flux (f.x i) (f.nrm i) (row u N (f.left i)) n)
    (hl : ∀ i < f.n, f.left i < N) :
    bndEnergy f N alpha bfun u =
      ∑ n ∈ range ns, ∑ a ∈ range N, wv (fun m => u (m * N + a)) n *
        bndVec f N ns alpha flux u (n * N + a) := by
  have h := bnd_dot f N ns alpha flux u (fun p => wv (row u N (p % N)) (p / N)) hl
  rw [dotV_flat] at h
  have h1 : ∑ n ∈ range ns, ∑ a ∈ range N, wv (fun m => u (m * N + a)) n *
        bndVec f N ns alpha flux u (n * N + a) =
      ∑ n ∈ range ns, ∑ i ∈ range N, wv (row u N ((n * N + i) % N)) ((n * N + i) / N) *
        bndVec f N ns alpha flux u (n * N + i) := by
    refine sum_congr rfl fun n _ => sum_congr rfl fun a ha => ?_
    rw [flat_div (mem_range.1 ha), flat_mod (mem_range.1 ha)]; rfl
  rw [h1, h, bndEnergy, forN_sum, zero_add, mul_sum]
  refine sum_congr rfl fun i hi => ?_
  rw [mem_range] at hi
  rw [hb i hi, sum_mul, sum_mul, mul_sum, mul_sum]
  refine sum_congr rfl fun n _ => ?_
  rw [flat_div (hl i hi), flat_mod (hl i hi)]; ring

theorem bndGrad_mulVec (f : Face K) (N ns : ℕ) (alpha : K)
    (J : (ℕ → K) → (ℕ → K) → (ℕ → K) → (ℕ → ℕ → K)) (u v : ℕ → K)
    (hl : ∀ i < f.n, f.left i < N) (n a : ℕ) (hn : n < ns) (ha : a < N) :
    mulVec (ns * N) (bndGrad f N ns alpha J u) v (n * N + a) =
      alpha * ∑ i ∈ range f.n, if f.left i = a then f.w i * ∑ m ∈ range ns,
        J (f.x i) (f.nrm i) (row u N (f.left i)) n m * v (m * N + f.left i) else 0 := by
  have h : Adds (forN f.n (fun i => forN ns (fun n => forN ns (fun m =>
      addAt2 (m * N + f.left i) (n * N + f.left i)
      (alpha * (J (f.x i) (f.nrm i) (row u N (f.left i)) m n * f.w i)))))) _ :=
    Adds.forN fun i _ => Adds.forN fun n _ => Adds.forN fun m _ => adds_addAt2 _ _ _
  rw [bndGrad, h.apply, fun_zero_eq2, zero_add, mulVec_sum, mul_sum]
  refine sum_congr rfl fun i hi => ?_
  rw [mem_range] at hi
  have h2 := mulVec_block ns N (f.left i) (f.left i) (fun n m => alpha * (J (f.x i) (f.nrm i)
    (row u N (f.left i)) n m * f.w i)) v n a hn ha (hl i hi) (hl i hi)
  rw [sum_comm, h2]
  by_cases hc : a = f.left i
  · rw [if_pos hc, if_pos hc.symm, mul_sum, mul_sum]
    exact sum_congr rfl fun m _ => by ring
  · rw [if_neg hc, if_neg (Ne.symm hc), mul_zero]

/-- The boundary matrix is the exact Jacobian of the boundary residual. -/
theorem C94_gradient (f : Face ℝ) (N ns : ℕ) (alpha : ℝ)
    (flux : (ℕ → ℝ) → (ℕ → ℝ) → (ℕ → ℝ) → (ℕ → ℝ))
    (J : (ℕ → ℝ) → (ℕ → ℝ) → (ℕ → ℝ) → (ℕ → ℕ → ℝ)) (u : ℕ → ℝ)
    (hl : ∀ i < f.n, f.left i < N)
    (hJ : ∀ i < f.n, ExactJac ns (flux (f.x i) (f.nrm i))
      (J (f.x i) (f.nrm i) (row u N (f.left i))) (row u N (f.left i))) :
    ExactJac (ns * N) (bndVec f N ns alpha flux) (bndGrad f N ns alpha J u) u := by
  intro c w h0 hc p hp
  obtain ⟨n, a, hn, ha, rfl⟩ := flat_surj hp
  have e1 : ∀ t, bndVec f N ns alpha flux (c t) (n * N + a) = _ :=
    fun t => C94_residual f N ns alpha flux (c t) hl n a hn ha
  simp only [e1]
  have key := bndGrad_mulVec f N ns alpha J u w hl n a hn ha
  rw [mulVec] at key
  rw [key]
  refine HasDerivAt.const_mul _ (HasDerivAt.fun_sum fun i hi => ?_)
  rw [mem_range] at hi
  by_cases h : f.left i = a
  · simp only [if_pos h]
    refine HasDerivAt.const_mul _ ?_
    rw [← h]
    exact hJ i hi (fun t => row (c t) N (f.left i)) (row w N (f.left i)) (by rw [h0])
      (fun m hm => hc _ (flat_lt (hl i hi) hm)) n hn
  · simp only [if_neg h]; exact hasDerivAt_const _ _

/-! ### C95: interior-face integrator -/

/-- Conservation across a face: what leaves the left element enters the right one, for every
equation, flux function and state. -/
theorem C95_conservation (f : Face K) (NL NR ns : ℕ) (alpha : K)
    (flux : (ℕ → K) → (ℕ → K) → (ℕ → K) → (ℕ → K)) (u : ℕ → K)
    (hl : ∀ i < f.n, f.left i < NL) (hr : ∀ i < f.n, f.right i < NR) (n : ℕ) (hn : n < ns) :
    (∑ a ∈ range NL, faceVec f NL NR ns alpha flux u (n * NL + a)) +
      ∑ a ∈ range NR, faceVec f NL NR ns alpha flux u (NL * ns + (n * NR + a)) = 0 := by
  set wt : ℕ → K := fun p => if p < NL * ns then (if p / NL = n then 1 else 0) else
    if (p - NL * ns) / NR = n then 1 else 0 with hw
  have hwl : ∀ m a, m < ns → a < NL → wt (m * NL + a) = if m = n then 1 else 0 := by
    intro m a hm ha
    have := flat_lt ha hm
    rw [hw]; simp only
    rw [if_pos (by rw [mul_comm NL]; exact this), flat_div ha]
  have hwr : ∀ m a, m < ns → a < NR → wt (NL * ns + (m * NR + a)) = if m = n then 1 else 0 := by
    intro m a hm ha
    rw [hw]; simp only
    rw [if_neg (by omega), Nat.add_sub_cancel_left, flat_div ha]
  have h := face_dot f NL NR ns alpha flux u wt hl hr
  have hz : ∑ i ∈ range f.n, ∑ m ∈ range ns,
      (wt (m * NL + f.left i) - wt (NL * ns + (m * NR + f.right i))) *
        flux (scaleNrm (f.w i) (f.nrm i)) (row u NL (f.left i))
          (rowRight u ns NL NR (f.right i)) m = 0 := by
    refine sum_eq_zero fun i hi => sum_eq_zero fun m hm => ?_
    rw [mem_range] at hi hm
    rw [hwl m _ hm (hl i hi), hwr m _ hm (hr i hi), sub_self, zero_mul]
  rw [hz, mul_zero] at h
  have hsplit : dotV (ns * (NL + NR)) wt (faceVec f NL NR ns alpha flux u) =
      (∑ m ∈ range ns, ∑ a ∈ range NL, wt (m * NL + a) *
        faceVec f NL NR ns alpha flux u (m * NL + a)) +
      ∑ m ∈ range ns, ∑ a ∈ range NR, wt (NL * ns + (m * NR + a)) *
        faceVec f NL NR ns alpha flux u (NL * ns + (m * NR + a)) := by
    rw [dotV, mul_add, sum_range_add, sum_flat ns NL, sum_flat ns NR, mul_comm ns NL]
  rw [hsplit] at h
  rw [← h]
  congr 1
  · symm
    rw [sum_eq_single n]
    · exact sum_congr rfl fun a ha => by rw [hwl n a hn (mem_range.1 ha), if_pos rfl, one_mul]
    · intro b hb hbn
      exact sum_eq_zero fun a ha => by
        rw [hwl b a (mem_range.1 hb) (mem_range.1 ha), if_neg hbn, zero_mul]
    · intro h; exact absurd (mem_range.2 hn) h
  · symm
    rw [sum_eq_single n]
    · exact sum_congr rfl fun a ha => by rw [hwr n a hn (mem_range.1 ha), if_pos rfl, one_mul]
    · intro b hb hbn
      exact sum_eq_zero fun a ha => by
        rw [hwr b a (mem_range.1 hb) (mem_range.1 ha), if_neg hbn, zero_mul]
    · intro h; exact absurd (mem_range.2 hn) h

/-- The residual tested with node values `wL`, `wR` on the two elements. -/
def faceTested (NL NR ns : ℕ) (wL wR : ℕ → ℕ → K) (res : ℕ → K) : K :=
  (∑ n ∈ range ns, ∑ a ∈ range NL, wL a n * res (n * NL + a)) +
    ∑ n ∈ range ns, ∑ a ∈ range NR, wR a n * res (NL * ns + (n * NR + a))

theorem C95_tested (f : Face K) (NL NR ns : ℕ) (alpha : K)
    (flux : (ℕ → K) → (ℕ → K) → (ℕ → K) → (ℕ → K)) (u : ℕ → K) (wL wR : ℕ → ℕ → K)
    (hl : ∀ i < f.n, f.left i < NL) (hr : ∀ i < f.n, f.right i < NR) :
    faceTested NL NR ns wL wR (faceVec f NL NR ns alpha flux u) =
      alpha * ∑ i ∈ range f.n, ∑ n ∈ range ns, (wL (f.left i) n - wR (f.right i) n) *
        flux (fun d => f.nrm i d * f.w i) (fun m => u (m * NL + f.left i))
          (fun m => u (NL * ns + (m * NR + f.right i))) n := by
  set wt : ℕ → K := fun p => if p < NL * ns then wL (p % NL) (p / NL) else
    wR ((p - NL * ns) % NR) ((p - NL * ns) / NR) with hw
  have hwl : ∀ m a, m < ns → a < NL → wt (m * NL + a) = wL a m := by
    intro m a hm ha
    have := flat_lt ha hm
    rw [hw]; simp only
    rw [if_pos (by rw [mul_comm NL]; exact this), flat_div ha, flat_mod ha]
  have hwr : ∀ m a, m < ns → a < NR → wt (NL * ns + (m * NR + a)) = wR a m := by
    intro m a hm ha
    rw [hw]; simp only
    rw [if_neg (by omega), Nat.add_sub_cancel_left, flat_div ha, flat_mod ha]
  have h := face_dot f NL NR ns alpha flux u wt hl hr
  have hsplit : dotV (ns * (NL + NR)) wt (faceVec f NL NR ns alpha flux u) =
      faceTested NL NR ns wL wR (faceVec f NL NR ns alpha flux u) := by
    rw [dotV, mul_add, sum_range_add, sum_flat ns NL, sum_flat ns NR, mul_comm ns NL, faceTested]
    congr 1
    · exact sum_congr rfl fun n hn => sum_congr rfl fun a ha => by
        rw [hwl n a (mem_range.1 hn) (mem_range.1 ha)]
    · exact sum_congr rfl fun n hn => sum_congr rfl fun a ha => by
        rw [hwr n a (mem_range.1 hn) (mem_range.1 ha)]
  rw [← hsplit, h]
  congr 1
  refine sum_congr rfl fun i hi => sum_congr rfl fun n hn => ?_
  rw [hwl n _ (mem_range.1 hn) (hl i (mem_range.1 hi)),
    hwr n _ (mem_range.1 hn) (hr i (mem_range.1 hi))]
  rfl

/-- The face functional ignores `alpha`: it is the tested residual divided by `alpha`. -/
theorem C95_energy (f : Face K) (NL NR ns : ℕ) (alpha : K)
    (flux : (ℕ → K) → (ℕ → K) → (ℕ → K) → (ℕ → K)) (wv : (ℕ → K) → (ℕ → K))
    (ifun : (ℕ → K) → (ℕ → K) → (ℕ → K) → K) (u : ℕ → K)
    (hi : ∀ i < f.n, ifun (scaleNrm (f.w i) (f.nrm i)) (row u NL (f.left i))
        (rowRight u ns NL NR (f.right i)) = ∑ n ∈ range ns,
      (wv (row u NL (f.left i)) n - wv (rowRight u ns NL NR (f.right i)) n) *
        flux (scaleNrm (f.w i) (f.nrm i)) (row u NL (f.left i))
          (rowRight u ns NL NR (f.right i)) n)
    (hl : ∀ i < f.n, f.left i < NL) (hr : ∀ i < f.n, f.right i < NR) :
    faceTested NL NR ns (fun a => wv (row u NL a)) (fun a => wv (rowRight u ns NL NR a))
      (faceVec f NL NR ns alpha flux u) = alpha * faceEnergy f NL NR ns ifun u := by
  rw [C95_tested f NL NR ns alpha flux u _ _ hl hr, faceEnergy, forN_sum, zero_add]
  congr 1
  refine sum_congr rfl fun i hin => ?_
  rw [hi i (mem_range.1 hin)]; rfl

theorem adds_faceGradUpd (NL NR ns l r n m : ℕ) (jl jr : K) :
    Adds (faceGradUpd NL NR ns l r n m jl jr)
      ((((fun p q => if p = n * NL + l ∧ q = m * NL + l then jl else 0) +
        fun p q => if p = n * NL + l ∧ q = ns * NL + (m * NR + r) then jr else 0) +
        fun p q => if p = ns * NL + (n * NR + r) ∧ q = m * NL + l then -jl else 0) +
        fun p q => if p = ns * NL + (n * NR + r) ∧ q = ns * NL + (m * NR + r) then -jr else 0) :=
  (((adds_addAt2 _ _ _).comp (adds_addAt2 _ _ _)).comp (adds_addAt2 _ _ _)).comp
    (adds_addAt2 _ _ _)

theorem faceVec_eq (f : Face K) (NL NR ns : ℕ) (alpha : K)
    (flux : (ℕ → K) → (ℕ → K) → (ℕ → K) → (ℕ → K)) (u : ℕ → K) (p : ℕ) :
    faceVec f NL NR ns alpha flux u p = ∑ i ∈ range f.n, ∑ n ∈ range ns,
      ((if p = n * NL + f.left i then 1 else 0) +
        if p = NL * ns + (n * NR + f.right i) then -1 else 0) *
      (alpha * flux (scaleNrm (f.w i) (f.nrm i)) (row u NL (f.left i))
        (rowRight u ns NL NR (f.right i)) n) := by
  have h := (faceVec_loops f NL NR ns (fun i n => alpha * flux (scaleNrm (f.w i) (f.nrm i))
    (row u NL (f.left i)) (rowRight u ns NL NR (f.right i)) n)).apply (fun _ => 0)
  have h2 : faceVec f NL NR ns alpha flux u = _ := h
  rw [h2, fun_zero_eq, zero_add]
  simp only [Finset.sum_apply, Pi.add_apply]
  refine sum_congr rfl fun i _ => sum_congr rfl fun n _ => ?_
  split_ifs <;> ring

theorem faceGrad_mulVec (f : Face K) (NL NR ns : ℕ) (alpha : K)
    (jacL jacR : (ℕ → K) → (ℕ → K) → (ℕ → K) → (ℕ → ℕ → K)) (u v : ℕ → K)
    (hl : ∀ i < f.n, f.left i < NL) (hr : ∀ i < f.n, f.right i < NR) (p : ℕ) :
    mulVec (ns * (NL + NR)) (faceGrad f NL NR ns alpha jacL jacR u) v p =
      ∑ i ∈ range f.n, ∑ n ∈ range ns,
      ((if p = n * NL + f.left i then 1 else 0) +
        if p = NL * ns + (n * NR + f.right i) then -1 else 0) *
      ∑ m ∈ range ns, (jacL (scaleNrm (alpha * f.w i) (f.nrm i)) (row u NL (f.left i))
          (rowRight u ns NL NR (f.right i)) n m * v (m * NL + f.left i) +
        jacR (scaleNrm (alpha * f.w i) (f.nrm i)) (row u NL (f.left i))
          (rowRight u ns NL NR (f.right i)) n m * v (NL * ns + (m * NR + f.right i))) := by
  have h : Adds (forN f.n (fun i => forN ns (fun n => forN ns (fun m =>
    faceGradUpd NL NR ns (f.left i) (f.right i) n m
      (jacL (scaleNrm (alpha * f.w i) (f.nrm i)) (row u NL (f.left i))
        (rowRight u ns NL NR (f.right i)) n m)
      (jacR (scaleNrm (alpha * f.w i) (f.nrm i)) (row u NL (f.left i))
        (rowRight u ns NL NR (f.right i)) n m))))) _ :=
    Adds.forN fun i _ => Adds.forN fun n _ => Adds.forN fun m _ =>
      adds_faceGradUpd NL NR ns (f.left i) (f.right i) n m _ _
  rw [faceGrad, h.apply, fun_zero_eq2, zero_add, mulVec_sum]
  refine sum_congr rfl fun i hi => ?_
  rw [mulVec_sum]
  refine sum_congr rfl fun n _ => ?_
  rw [mulVec_sum, mul_sum]
  refine sum_congr rfl fun m hm => ?_
  rw [mem_range] at hi hm
  have h1 := left_lt (NR := NR) (hl i hi) hm
  have h2 := right_lt (NL := NL) (hr i hi) hm
  rw [mul_comm NL] at h2 ⊢
  rw [mulVec_add, mulVec_add, mulVec_add, mulVec_single _ _ _ h1, mulVec_single _ _ _ h2,
    mulVec_single _ _ _ h1, mulVec_single _ _ _ h2]
  split_ifs <;> ring

/-- The face matrix is the exact Jacobian of the face residual for `alpha ≥ 0` and every flux that
is positively homogeneous in the normal. -/
theorem C95_gradient_partial (f : Face ℝ) (NL NR ns : ℕ) (alpha : ℝ) (ha : 0 ≤ alpha)
    (flux : (ℕ → ℝ) → (ℕ → ℝ) → (ℕ → ℝ) → (ℕ → ℝ))
    (jacL jacR : (ℕ → ℝ) → (ℕ → ℝ) → (ℕ → ℝ) → (ℕ → ℕ → ℝ)) (u : ℕ → ℝ)
    (hl : ∀ i < f.n, f.left i < NL) (hr : ∀ i < f.n, f.right i < NR)
    (hhom : ∀ c : ℝ, 0 ≤ c → ∀ d a b n, flux (fun k => d k * c) a b n = c * flux d a b n)
    (hJ : ∀ i < f.n, ExactJac2 ns (flux fun k => f.nrm i k * (alpha * f.w i))
      (jacL (fun k => f.nrm i k * (alpha * f.w i)) (row u NL (f.left i)) (rowRight u ns NL NR (f.right i)))
      (jacR (fun k => f.nrm i k * (alpha * f.w i)) (row u NL (f.left i)) (rowRight u ns NL NR (f.right i)))
      (row u NL (f.left i)) (rowRight u ns NL NR (f.right i))) :
    ExactJac (ns * (NL + NR)) (faceVec f NL NR ns alpha flux)
      (faceGrad f NL NR ns alpha jacL jacR u) u := by
  intro c w h0 hc p _
  have e1 : ∀ t, faceVec f NL NR ns alpha flux (c t) p = _ :=
    fun t => faceVec_eq f NL NR ns alpha flux (c t) p
  simp only [e1]
  have key := faceGrad_mulVec f NL NR ns alpha jacL jacR u w hl hr p
  rw [mulVec] at key
  rw [key]
  refine HasDerivAt.fun_sum fun i hi => HasDerivAt.fun_sum fun n hn => HasDerivAt.const_mul _ ?_
  rw [mem_range] at hi hn
  have e2 : ∀ a b, alpha * flux (scaleNrm (f.w i) (f.nrm i)) a b n =
      flux (scaleNrm (alpha * f.w i) (f.nrm i)) a b n := by
    intro a b
    have : scaleNrm (alpha * f.w i) (f.nrm i) =
        fun k => scaleNrm (f.w i) (f.nrm i) k * alpha := by
      funext k; simp only [scaleNrm]; ring
    rw [this, hhom alpha ha]
  simp only [e2]
  refine hJ i hi (fun t => row (c t) NL (f.left i)) (fun t => rowRight (c t) ns NL NR (f.right i))
    (row w NL (f.left i)) (rowRight w ns NL NR (f.right i)) (by rw [h0]) (by rw [h0]) ?_ ?_ n hn
  · intro m hm; exact hc _ (left_lt (hl i hi) hm)
  · intro m hm; exact hc _ (right_lt (hr i hi) hm)

/-- **Violation for negative factors.**  The residual is `alpha * flux(n)` but the matrix is the
Jacobian of `flux(alpha * n)`: with `alpha = -1` and a dissipative (positively homogeneous) flux
`|n| (a - b)` they have opposite signs. -/
theorem C95_gradient_negative_alpha_false :
    ¬ ∀ (f : Face ℝ) (NL NR ns : ℕ) (alpha : ℝ) (flux : (ℕ → ℝ) → (ℕ → ℝ) → (ℕ → ℝ) → (ℕ → ℝ))
      (jacL jacR : (ℕ → ℝ) → (ℕ → ℝ) → (ℕ → ℝ) → (ℕ → ℕ → ℝ)) (u : ℕ → ℝ),
      (∀ i < f.n, f.left i < NL) → (∀ i < f.n, f.right i < NR) →
      (∀ c : ℝ, 0 ≤ c → ∀ d a b n, flux (fun k => d k * c) a b n = c * flux d a b n) →
      (∀ d : ℕ → ℝ, ∀ i < f.n, ExactJac2 ns (flux d)
        (jacL d (row u NL (f.left i)) (rowRight u ns NL NR (f.right i)))
        (jacR d (row u NL (f.left i)) (rowRight u ns NL NR (f.right i)))
        (row u NL (f.left i)) (rowRight u ns NL NR (f.right i))) →
      ExactJac (ns * (NL + NR)) (faceVec f NL NR ns alpha flux)
        (faceGrad f NL NR ns alpha jacL jacR u) u := by
  intro h
  have h1 := h ⟨1, fun _ => 1, fun _ _ => 1, fun _ _ => 0, fun _ => 0, fun _ => 0⟩ 1 1 1 (-1)
    (fun d a b n => |d 0| * (a n - b n)) (fun d _ _ n m => if m = n then |d 0| else 0)
    (fun d _ _ n m => if m = n then -|d 0| else 0) (fun _ => 0) (by simp) (by simp)
    (by intro c hc d a b n; simp only [abs_mul, abs_of_nonneg hc]; ring)
    (by
      intro d i _ a b v w _ _ hv hw n hn
      refine (((hv n hn).fun_sub (hw n hn)).const_mul _).congr_deriv ?_
      simp only [sum_add_distrib, ite_mul, zero_mul, sum_ite_eq', mem_range, hn, if_true]
      ring)
  have h2 := h1.partial_deriv 0 0 (by decide) (by decide)
  have h3 : HasDerivAt (fun t : ℝ => -t) (-1) 0 := (hasDerivAt_id' (0 : ℝ)).fun_neg
  have e1 : ∀ t : ℝ, faceVec (K := ℝ)
      ⟨1, fun _ => 1, fun _ _ => 1, fun _ _ => 0, fun _ => 0, fun _ => 0⟩ 1 1 1 (-1)
      (fun d a b n => |d 0| * (a n - b n)) (fun k => if k = 0 then 0 + t else 0) 0 = -t := by
    intro t
    simp [faceVec, forN, addAt, row, rowRight, scaleNrm]
  simp only [e1] at h2
  have h4 := h2.unique h3
  have h5 : faceGrad (K := ℝ) ⟨1, fun _ => 1, fun _ _ => 1, fun _ _ => 0, fun _ => 0, fun _ => 0⟩
      1 1 1 (-1) (fun d _ _ n m => if m = n then |d 0| else 0)
      (fun d _ _ n m => if m = n then -|d 0| else 0) (fun _ => 0) 0 0 = 1 := by
    simp [faceGrad, forN, faceGradUpd, addAt2, scaleNrm]
  rw [h5] at h4
  norm_num at h4

/-! ### C96: nonlinear mass integrator -/

theorem C96_residual (N ns : ℕ) (alpha : K) (w : ℕ → K) (convert : (ℕ → K) → (ℕ → K)) (u : ℕ → K)
    (n i : ℕ) (hn : n < ns) (hi : i < N) :
    massVec N ns alpha w convert u (n * N + i) =
      alpha * (w i * convert (fun m => u (m * N + i)) n) :=
  massVec_eq N ns alpha w convert u n i hn hi

theorem massGrad_mulVec (N ns : ℕ) (alpha : K) (w : ℕ → K) (C : (ℕ → K) → (ℕ → ℕ → K))
    (u v : ℕ → K) (n i : ℕ) (hn : n < ns) (hi : i < N) :
    mulVec (ns * N) (massGrad N ns alpha w C u) v (n * N + i) =
      alpha * (w i * ∑ m ∈ range ns, C (row u N i) n m * v (m * N + i)) := by
  have h : Adds (forN N (fun i => forN ns (fun n => forN ns (fun m =>
      addAt2 (n * N + i) (m * N + i) (w i * C (row u N i) n m))))) _ :=
    Adds.forN fun i _ => adds_block ns N i i _
  have h0 : massGrad N ns alpha w C u = fun p q => (forN N (fun i => forN ns (fun n =>
    forN ns (fun m => addAt2 (n * N + i) (m * N + i) (w i * C (row u N i) n m))))
    (fun _ _ => 0)) p q * alpha := rfl
  rw [h0, mulVec_smul, h.apply, fun_zero_eq2, zero_add, mulVec_sum, mul_comm, sum_eq_single i]
  · rw [mulVec_block ns N i i _ v n i hn hi hi hi, if_pos rfl, mul_sum, mul_sum, mul_sum]
    exact sum_congr rfl fun m _ => by ring
  · intro b hb hbi
    rw [mulVec_block ns N b b _ v n i hn hi (mem_range.1 hb) (mem_range.1 hb),
      if_neg (Ne.symm hbi)]
  · intro h; exact absurd (mem_range.2 hi) h

/-- The mass matrix is the exact Jacobian of the mass residual, and is block diagonal in the
nodes. -/
theorem C96_gradient (N ns : ℕ) (alpha : ℝ) (w : ℕ → ℝ) (convert : (ℕ → ℝ) → (ℕ → ℝ))
    (C : (ℕ → ℝ) → (ℕ → ℕ → ℝ)) (u : ℕ → ℝ)
    (hC : ∀ i < N, ExactJac ns convert (C (row u N i)) (row u N i)) :
    ExactJac (ns * N) (massVec N ns alpha w convert) (massGrad N ns alpha w C u) u := by
  intro c v h0 hc p hp
  obtain ⟨n, i, hn, hi, rfl⟩ := flat_surj hp
  have e1 : ∀ t, massVec N ns alpha w convert (c t) (n * N + i) = _ :=
    fun t => massVec_eq N ns alpha w convert (c t) n i hn hi
  simp only [e1]
  have key := massGrad_mulVec N ns alpha w C u v n i hn hi
  rw [mulVec] at key
  rw [key]
  refine HasDerivAt.const_mul _ (HasDerivAt.const_mul _ ?_)
  exact hC i hi (fun t => row (c t) N i) (row v N i) (by rw [h0])
    (fun m hm => hc _ (flat_lt hi hm)) n hn

end Verif.Inviscid
