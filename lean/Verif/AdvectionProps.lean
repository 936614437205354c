import Verif.Advection
import Verif.SbpProps

/-! # Linear advection: property theorems (C239) -/

namespace Verif.Advection
open Finset Verif.Sbp

/-! ### Specification -/

/-- `vᵀ A u` over the nodes of the element. -/
def form (n : ℕ) (A : ℕ → ℕ → ℝ) (v u : ℕ → ℝ) : ℝ := ∑ i ∈ range n, ∑ j ∈ range n, v i * A i j * u j

/-- The velocity in reference space: `adj(J) λ`. -/
def refVel (a : AElem) (i d : ℕ) : ℝ := ∑ k ∈ range a.e.dim, a.adj i d k * a.vel i k

/-- Derivative of `f` in direction `d` at node `j`, with the strong operator of the element. -/
noncomputable def deriv (e : Elem ℝ) (d : ℕ) (f : ℕ → ℝ) (j : ℕ) : ℝ := (∑ i ∈ range e.dof, getWeakOperator e d false j i * f i) / e.H j

/-- The derivative of a constant is zero. -/
def Consistent (e : Elem ℝ) : Prop := ∀ d < e.dim, ∀ i < e.dof, ∑ j ∈ range e.dof, getWeakOperator e d false i j = 0

/-! ### Closed forms -/

theorem velhat_eq (a : AElem) (i d : ℕ) : velhat a i d = refVel a i d := by
  rw [velhat, forN_sum, zero_add]; rfl

theorem forN_mat (n : ℕ) (f : ℕ → ℕ → ℕ → ℝ) (M : ℕ → ℕ → ℝ) (i j : ℕ) :
    forN n (fun d M i j => M i j + f d i j) M i j = M i j + ∑ d ∈ range n, f d i j := by
  induction n with
  | zero => simp [forN]
  | succ n ih => rw [forN_succ, ih, sum_range_succ]; ring

theorem advMat_eq (a : AElem) (alpha : ℝ) (i j : ℕ) :
    advMat a alpha i j = -alpha * ∑ d ∈ range a.e.dim, a.e.Q d i j * refVel a j d := by
  rw [advMat, forN_mat, zero_add, mul_sum]
  refine sum_congr rfl fun d _ => ?_
  rw [velhat_eq]; rfl

theorem lpsMat_eq (a : AElem) (alpha lps : ℝ) (i j : ℕ) : lpsMat a alpha lps i j =
    ∑ k ∈ range a.e.dof, getProjOperator a.e k i * lpsAH a alpha lps k * getProjOperator a.e k j := by
  unfold lpsMat
  simp only
  rw [forN_sum, zero_add]

/-! ### The advection term -/

/-- **C239** The advection matrix is the weak form: `vᵀ A u = -α ∫ (∇̂v · λ̂) u`, the integral being the element's norm and
the gradient its strong operator. -/
theorem C239_weak_form (a : AElem) (alpha : ℝ) (hH : ∀ i < a.e.dof, a.e.H i ≠ 0) (v u : ℕ → ℝ) :
    form a.e.dof (advMat a alpha) v u =
      -alpha * ∑ j ∈ range a.e.dof, a.e.H j * (∑ d ∈ range a.e.dim, deriv a.e d v j * refVel a j d) * u j := by
  unfold form
  rw [sum_comm, mul_sum]
  refine sum_congr rfl fun j hj => ?_
  have hj' := hH j (mem_range.1 hj)
  have e1 : a.e.H j * ∑ d ∈ range a.e.dim, deriv a.e d v j * refVel a j d
      = ∑ d ∈ range a.e.dim, (∑ i ∈ range a.e.dof, a.e.Q d i j * v i) * refVel a j d := by
    rw [mul_sum]
    refine sum_congr rfl fun d _ => ?_
    unfold deriv
    simp only [getWeakOperator, Bool.false_eq_true, if_false]
    field_simp
  rw [e1]
  simp only [advMat_eq]
  have e2 : ∑ i ∈ range a.e.dof, v i * (-alpha * ∑ d ∈ range a.e.dim, a.e.Q d i j * refVel a j d) * u j
      = -alpha * ((∑ i ∈ range a.e.dof, ∑ d ∈ range a.e.dim, a.e.Q d i j * v i * refVel a j d) * u j) := by
    rw [sum_mul, mul_sum]
    refine sum_congr rfl fun i _ => ?_
    simp only [mul_sum, sum_mul]
    exact sum_congr rfl fun d _ => by ring
  rw [e2, sum_comm]
  congr 2
  refine sum_congr rfl fun d _ => ?_
  rw [sum_mul]

/-- **C239** Each element conserves: the contributions of the advection matrix sum to zero, whatever the field, the
velocity and the mapping. -/
theorem C239_conserves (a : AElem) (alpha : ℝ) (hc : Consistent a.e) (u : ℕ → ℝ) :
    form a.e.dof (advMat a alpha) (fun _ => 1) u = 0 := by
  unfold form
  rw [sum_comm]
  refine sum_eq_zero fun j hj => ?_
  simp only [advMat_eq, one_mul]
  rw [← sum_mul, ← mul_sum, sum_comm]
  have : ∑ d ∈ range a.e.dim, ∑ i ∈ range a.e.dof, a.e.Q d i j * refVel a j d = 0 := by
    refine sum_eq_zero fun d hd => ?_
    rw [← sum_mul]
    have := hc d (mem_range.1 hd) j (mem_range.1 hj)
    simp only [getWeakOperator, Bool.false_eq_true, if_false] at this
    rw [this, zero_mul]
  rw [this, mul_zero, zero_mul]

/-- **C239** Where the velocity in reference space is constant, the energy of an element changes only through its boundary:
`uᵀ A u = -α/2 Σ_d λ̂_d uᵀ E_d u`, with `E` the boundary operator of the element. -/
theorem C239_energy (a : AElem) (alpha : ℝ) (E : ℕ → ℕ → ℕ → ℝ)
    (hE : ∀ d < a.e.dim, ∀ i < a.e.dof, ∀ j < a.e.dof, getWeakOperator a.e d false i j + getWeakOperator a.e d false j i = E d i j)
    (c : ℕ → ℝ) (hc : ∀ i < a.e.dof, ∀ d < a.e.dim, refVel a i d = c d) (u : ℕ → ℝ) :
    form a.e.dof (advMat a alpha) u u = -alpha / 2 * ∑ d ∈ range a.e.dim, c d * form a.e.dof (E d) u u := by
  have e1 : form a.e.dof (advMat a alpha) u u = -alpha * ∑ d ∈ range a.e.dim, c d * form a.e.dof (a.e.Q d) u u := by
    unfold form
    simp only [mul_sum]
    rw [sum_comm (s := range a.e.dim)]
    refine sum_congr rfl fun i _ => ?_
    rw [sum_comm (s := range a.e.dim)]
    refine sum_congr rfl fun j hj => ?_
    rw [advMat_eq, mul_sum, mul_sum, sum_mul]
    refine sum_congr rfl fun d hd => ?_
    rw [hc j (mem_range.1 hj) d (mem_range.1 hd)]
    ring
  have e2 : ∀ d ∈ range a.e.dim, form a.e.dof (E d) u u = 2 * form a.e.dof (a.e.Q d) u u := by
    intro d hd
    have s1 : form a.e.dof (E d) u u = form a.e.dof (fun i j => a.e.Q d j i) u u + form a.e.dof (a.e.Q d) u u := by
      unfold form
      rw [← sum_add_distrib]
      refine sum_congr rfl fun i hi => ?_
      rw [← sum_add_distrib]
      refine sum_congr rfl fun j hj => ?_
      rw [← hE d (mem_range.1 hd) i (mem_range.1 hi) j (mem_range.1 hj)]
      simp only [getWeakOperator, Bool.false_eq_true, if_false]
      ring
    have s2 : form a.e.dof (fun i j => a.e.Q d j i) u u = form a.e.dof (a.e.Q d) u u := by
      unfold form
      rw [sum_comm]
      exact sum_congr rfl fun i _ => sum_congr rfl fun j _ => by ring
    rw [s1, s2]; ring
  rw [e1, mul_sum, mul_sum]
  refine sum_congr rfl fun d hd => ?_
  rw [e2 d hd]
  ring

/-! ### The stabilisation -/

/-- **C239** The stabilisation is symmetric, and its energy is the speed-weighted square of what the projection leaves of
the field. -/
theorem C239_lps (a : AElem) (alpha lps : ℝ) (v u : ℕ → ℝ) :
    (∀ i j, lpsMat a alpha lps i j = lpsMat a alpha lps j i) ∧
    form a.e.dof (lpsMat a alpha lps) v u = alpha * lps * ∑ k ∈ range a.e.dof, a.e.H k * √(∑ d ∈ range a.e.dim, refVel a k d ^ 2) *
      (projSpec a.e v k * projSpec a.e u k) := by
  refine ⟨fun i j => ?_, ?_⟩
  · rw [lpsMat_eq, lpsMat_eq]
    exact sum_congr rfl fun k _ => by ring
  · have hsp : ∀ k, speed a k = √(∑ d ∈ range a.e.dim, refVel a k d ^ 2) := fun k => by
      rw [speed, forN_sum, zero_add]
      congr 1
      exact sum_congr rfl fun d _ => by rw [velhat_eq, sq]
    have hP : ∀ (w : ℕ → ℝ), ∀ k ∈ range a.e.dof, projSpec a.e w k = ∑ j ∈ range a.e.dof, getProjOperator a.e k j * w j := by
      intro w k hk
      have h := C86_mult a.e 1 (fun _ => w) 0 k Nat.one_pos (mem_range.1 hk)
      rw [← h.2.2, h.1]
    have e : ∀ k ∈ range a.e.dof, a.e.H k * √(∑ d ∈ range a.e.dim, refVel a k d ^ 2) * (projSpec a.e v k * projSpec a.e u k)
        = ∑ i ∈ range a.e.dof, ∑ j ∈ range a.e.dof, a.e.H k * speed a k * (getProjOperator a.e k i * v i * (getProjOperator a.e k j * u j)) := by
      intro k hk
      rw [hP v k hk, hP u k hk, sum_mul_sum, mul_sum, hsp]
      exact sum_congr rfl fun i _ => by rw [mul_sum]
    rw [sum_congr rfl e, mul_sum]
    unfold form
    simp only [lpsMat_eq, mul_sum, sum_mul]
    symm
    rw [sum_comm]
    refine sum_congr rfl fun i _ => ?_
    rw [sum_comm]
    refine sum_congr rfl fun j _ => sum_congr rfl fun k _ => ?_
    unfold lpsAH
    ring

/-- **C239** With a nonnegative coefficient the stabilisation that the solver adds takes energy out of the element, none out
of a polynomial of the element's degree, and conserves. -/
theorem C239_lps_dissipates (a : AElem) (lps : ℝ) (hl : 0 ≤ lps) (hH : ∀ i < a.e.dof, 0 ≤ a.e.H i) (u : ℕ → ℝ) :
    form a.e.dof (lpsMat a (-1) lps) u u ≤ 0 ∧
    (Orthonormal a.e → ∀ (c p v : ℕ → ℝ), (∀ j < a.e.dof, p j = ∑ k ∈ range a.e.nv, c k * a.e.V j k) →
      form a.e.dof (lpsMat a (-1) lps) p v = 0 ∧ form a.e.dof (lpsMat a (-1) lps) v p = 0) := by
  refine ⟨?_, fun hV c p v hp => ?_⟩
  · rw [(C239_lps a (-1) lps u u).2]
    have : 0 ≤ ∑ k ∈ range a.e.dof, a.e.H k * √(∑ d ∈ range a.e.dim, refVel a k d ^ 2) * (projSpec a.e u k * projSpec a.e u k) :=
      sum_nonneg fun k hk => mul_nonneg (mul_nonneg (hH k (mem_range.1 hk)) (Real.sqrt_nonneg _)) (mul_self_nonneg _)
    nlinarith [mul_nonneg hl this]
  · have z : ∀ k ∈ range a.e.dof, projSpec a.e p k = 0 := fun k hk => by
      have h := C86_annihilates a.e hV 1 (fun _ => p) 0 Nat.one_pos c hp k (mem_range.1 hk)
      rwa [(C86_mult a.e 1 (fun _ => p) 0 k Nat.one_pos (mem_range.1 hk)).2.2] at h
    rw [(C239_lps a (-1) lps p v).2, (C239_lps a (-1) lps v p).2]
    constructor
    · rw [sum_eq_zero fun k hk => by rw [z k hk]; ring, mul_zero]
    · rw [sum_eq_zero fun k hk => by rw [z k hk]; ring, mul_zero]

/-- **C239** Both terms together, as `AdvectionSolver` adds them: with a constant velocity in reference space the energy of
an element grows by no more than what its boundary lets in. -/
theorem C239_stiffness (a : AElem) (lps : ℝ) (hl : 0 ≤ lps) (hH : ∀ i < a.e.dof, 0 ≤ a.e.H i) (E : ℕ → ℕ → ℕ → ℝ)
    (hE : ∀ d < a.e.dim, ∀ i < a.e.dof, ∀ j < a.e.dof, getWeakOperator a.e d false i j + getWeakOperator a.e d false j i = E d i j)
    (c : ℕ → ℝ) (hc : ∀ i < a.e.dof, ∀ d < a.e.dim, refVel a i d = c d) (u : ℕ → ℝ) :
    form a.e.dof (stiffness a lps) u u ≤ 1 / 2 * ∑ d ∈ range a.e.dim, c d * form a.e.dof (E d) u u := by
  have e : form a.e.dof (stiffness a lps) u u = form a.e.dof (advMat a (-1)) u u + form a.e.dof (lpsMat a (-1) lps) u u := by
    unfold form stiffness
    rw [← sum_add_distrib]
    refine sum_congr rfl fun i _ => ?_
    rw [← sum_add_distrib]
    exact sum_congr rfl fun j _ => by ring
  rw [e, C239_energy a (-1) E hE c hc u]
  have := (C239_lps_dissipates a lps hl hH u).1
  linarith

/-! ### The term the matrix leaves out -/

/-- An element of two nodes on the unit segment, with a velocity of one: `Q = ½ [[-1, 1], [-1, 1]]`. -/
noncomputable def seg : AElem where
  e := { dim := 1, dof := 2, H := fun _ => 1 / 2, Q := fun _ r _ => if r = 0 then -1 / 2 else 1 / 2,
         V := fun _ _ => 1, nv := 1, x := fun i _ => i }
  adj := fun _ _ _ => 1
  vel := fun _ _ => 1

/-- **C239** The matrix is the volume term only: a constant field in a constant velocity has no rate of change, but the two
nodes of an element on the segment get `-1` and `1`.  `AdvectionSolver` adds no flux over the boundary of the domain. -/
theorem C239_constant_false : ¬∀ (a : AElem) (lps : ℝ) (c : ℕ → ℝ), Consistent a.e → (∀ i < a.e.dof, ∀ d < a.e.dim, refVel a i d = c d) →
    ∀ i < a.e.dof, ∑ j ∈ range a.e.dof, stiffness a lps i j = 0 := by
  intro H
  have h := H seg 0 (fun _ => 1) ?_ ?_ 0 (by simp [seg])
  · simp only [stiffness, advMat_eq, lpsMat_eq, lpsAH] at h
    simp [seg, refVel] at h
  · intro d hd i hi
    simp [seg, getWeakOperator, sum_range_succ]
    norm_num
  · intro i hi d hd
    simp only [seg] at hd
    simp [seg, refVel]

/-- The segment meets the hypotheses of the theorems above. -/
example : Consistent seg.e ∧ Orthonormal seg.e ∧ (∀ i < seg.e.dof, 0 ≤ seg.e.H i) ∧ (∀ i < seg.e.dof, ∀ d < seg.e.dim, refVel seg i d = 1) := by
  refine ⟨?_, ?_, ?_, ?_⟩
  · intro d hd i hi
    simp [seg, getWeakOperator, sum_range_succ]
    norm_num
  · intro k l hk hl
    simp only [seg] at hk hl
    have : k = 0 := by omega
    have : l = 0 := by omega
    subst k l
    simp [seg]
  · intro i hi; simp [seg]
  · intro i hi d hd
    simp only [seg] at hd
    simp [seg, refVel]

end Verif.Advection
