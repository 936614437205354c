import Verif.SbpShape
import Verif.SbpProps
import Verif.OrthoPolyProps

/-!
Properties C87 (evaluation of a solution away from the nodes) and C88 (node lookup).
-/

namespace Verif.Sbp
open Finset Verif.OrthoPoly

/-! ### C87 -/

theorem calcShapeOff_eq {K : Type*} [Field K] (e : Elem K) (c : K) (poly : ℕ → K) (k : ℕ)
    (hk : k < e.dof) :
    calcShapeOff e c poly k = ∑ p ∈ range e.nv, poly p * c * e.V k p * e.H k := by
  have : Adds (forN e.nv (fun ptr => forN e.dof (fun k =>
      addAt k (poly ptr * c * e.V k ptr * e.H k))))
      (∑ p ∈ range e.nv, ∑ k ∈ range e.dof,
        fun q => if q = k then poly p * c * e.V k p * e.H k else 0) :=
    Adds.forN fun p _ => Adds.forN fun k _ => adds_addAt k _
  rw [calcShapeOff, this.apply]
  simp only [Pi.add_apply, Finset.sum_apply, zero_add]
  exact sum_congr rfl fun p _ => sum_single e.dof k hk (fun k => poly p * c * e.V k p * e.H k)

/-- Interpolating a combination of the columns of `V`. -/
theorem interp_V {K : Type*} [Field K] (e : Elem K) (hV : Orthonormal e) (c : K)
    (poly coef : ℕ → K) :
    ∑ k ∈ range e.dof, calcShapeOff e c poly k * ∑ l ∈ range e.nv, coef l * e.V k l =
      c * ∑ l ∈ range e.nv, coef l * poly l := by
  have e1 : ∀ k ∈ range e.dof, calcShapeOff e c poly k * ∑ l ∈ range e.nv, coef l * e.V k l =
      ∑ p ∈ range e.nv, ∑ l ∈ range e.nv, (poly p * c * coef l) * (e.V k p * e.H k * e.V k l) :=
    fun k hk => by
      rw [calcShapeOff_eq e c poly k (mem_range.1 hk), sum_mul]
      refine sum_congr rfl fun p _ => ?_
      rw [mul_sum]
      exact sum_congr rfl fun l _ => by ring
  rw [sum_congr rfl e1, sum_comm, mul_sum]
  refine sum_congr rfl fun p hp => ?_
  rw [sum_comm, sum_congr rfl (fun l hl => by
    rw [← mul_sum, hV p l (mem_range.1 hp) (mem_range.1 hl)])]
  have hp' := mem_range.1 hp
  simp [hp']; ring

theorem interp_scaled {K : Type*} [Field K] (e : Elem K) (hV : Orthonormal e) (c s : K)
    (hs : s ≠ 0) (phi : ℕ → ℕ → K) (hphi : ∀ k < e.dof, ∀ l < e.nv, e.V k l = phi k l * s)
    (poly coef : ℕ → K) :
    ∑ k ∈ range e.dof, calcShapeOff e c poly k * ∑ l ∈ range e.nv, coef l * phi k l =
      c / s * ∑ l ∈ range e.nv, coef l * poly l := by
  have h := interp_V e hV c poly (fun l => coef l / s)
  have e1 : ∀ k ∈ range e.dof, ∑ l ∈ range e.nv, coef l / s * e.V k l =
      ∑ l ∈ range e.nv, coef l * phi k l := fun k hk =>
    sum_congr rfl fun l hl => by
      rw [hphi k (mem_range.1 hk) l (mem_range.1 hl)]; field_simp
  rw [sum_congr rfl (fun k hk => by rw [e1 k hk])] at h
  rw [h, mul_sum, mul_sum]
  exact sum_congr rfl fun l _ => by field_simp

theorem triShapeCols_eq (d : ℕ) : triShapeCols d = triCols d := rfl

theorem tetShapeCols_eq (d : ℕ) : tetShapeCols d = tetCols d := by
  unfold tetShapeCols tetCols
  congr 1; funext r; unfold tetRow; congr 1; funext j; congr 1; funext k
  rw [Nat.sub_right_comm]

/-- On a triangle, evaluating a polynomial solution (given by its nodal values) at **any** point
that is not a node returns the polynomial's value there. -/
theorem C87_triangle (d dof : ℕ) (H : ℕ → ℝ) (Q : ℕ → ℕ → ℕ → ℝ) (x : ℕ → ℕ → ℝ)
    (hV : Orthonormal (triElem d dof H Q x)) (px py : ℝ) (coef : ℕ → ℝ) :
    ∑ k ∈ range dof, triShape (triElem d dof H Q x) d px py k *
        ∑ l ∈ range ((d + 1) * (d + 2) / 2), coef l * triPoly d (x k 0) (x k 1) l =
      ∑ l ∈ range ((d + 1) * (d + 2) / 2), coef l * triPoly d px py l := by
  have := interp_scaled (triElem d dof H Q x) hV 2 2 (by norm_num)
    (fun k l => triPoly d (x k 0) (x k 1) l) (fun k _ l _ => rfl) (triPoly d px py) coef
  rw [div_self (by norm_num), one_mul] at this
  unfold triShape; rw [triShapeCols_eq]
  exact this

/-- The same on a tetrahedron. -/
theorem C87_tetrahedron (d dof : ℕ) (H : ℕ → ℝ) (Q : ℕ → ℕ → ℕ → ℝ) (x : ℕ → ℕ → ℝ)
    (hV : Orthonormal (tetElem d dof H Q x)) (px py pz : ℝ) (coef : ℕ → ℝ) :
    ∑ k ∈ range dof, tetShape (tetElem d dof H Q x) d px py pz k *
        ∑ l ∈ range ((d + 1) * (d + 2) * (d + 3) / 6),
          coef l * tetPoly d (x k 0) (x k 1) (x k 2) l =
      ∑ l ∈ range ((d + 1) * (d + 2) * (d + 3) / 6), coef l * tetPoly d px py pz l := by
  have h2 : (2 * √2 : ℝ) ≠ 0 := by positivity
  have := interp_scaled (tetElem d dof H Q x) hV (2 * √2) (2 * √2) h2
    (fun k l => tetPoly d (x k 0) (x k 1) (x k 2) l) (fun k _ l _ => rfl) (tetPoly d px py pz) coef
  rw [div_self h2, one_mul] at this
  unfold tetShape; rw [tetShapeCols_eq]
  exact this

/-- On a segment the value is off by the factor `√2`: the shape function scales the basis by 2
although `V` was scaled by `√2`. -/
theorem C87_segment_value_partial (d dof : ℕ) (H : ℕ → ℝ) (Q : ℕ → ℕ → ℕ → ℝ) (x : ℕ → ℕ → ℝ)
    (hV : Orthonormal (segElem d dof H Q x)) (px : ℝ) (coef : ℕ → ℝ) :
    ∑ k ∈ range dof, segShape (segElem d dof H Q x) px k *
        ∑ l ∈ range (d + 1), coef l * segPoly (x k 0) l =
      √2 * ∑ l ∈ range (d + 1), coef l * segPoly px l := by
  have h2 : (√2 : ℝ) ≠ 0 := by positivity
  have := interp_scaled (segElem d dof H Q x) hV 2 √2 h2
    (fun k l => segPoly (x k 0) l) (fun k _ l _ => rfl) (segPoly px) coef
  have h3 : (2 : ℝ) / √2 = √2 := by
    rw [div_eq_iff h2]; exact (Real.mul_self_sqrt (by norm_num)).symm
  rw [h3] at this
  exact this

/-- The degree-0 segment element of the code: two end nodes with weight 1/2. -/
noncomputable def seg0R : Elem ℝ := segElem 0 2 (fun _ => 1 / 2)
  (fun _ r c => ([[-1/2, -1/2], [1/2, 1/2]].getD r []).getD c 0) (fun i _ => if i = 0 then 0 else 1)

theorem segPoly_zero (x : ℝ) : segPoly x 0 * √2 = 1 := by
  have : segPoly x 0 = 1 / √2 := by
    simp [segPoly, jacobiPoly, poly0, gamma0, Real.Gamma_one]
  rw [this]; field_simp

theorem seg0R_orthonormal : Orthonormal seg0R := by
  intro k l hk hl
  simp only [seg0R, segElem] at hk hl
  obtain rfl : k = 0 := by omega
  obtain rfl : l = 0 := by omega
  simp only [seg0R, segElem, if_true, segPoly_zero]
  rw [sum_range_succ, sum_range_succ]; simp; norm_num

/-- **Violation.**  On the degree-0 segment element the constant solution 1 evaluates to `√2` at
every interior point. -/
theorem C87_segment_false (px : ℝ) :
    ∑ k ∈ range 2, segShape seg0R px k * (1 : ℝ) = √2 ∧ (√2 : ℝ) ≠ 1 := by
  constructor
  · have h := C87_segment_value_partial 0 2 (fun _ => 1 / 2) _ _ seg0R_orthonormal px (fun _ => √2)
    have e1 : ∀ y : ℝ, ∑ l ∈ range (0 + 1), √2 * segPoly y l = 1 := fun y => by
      simp only [zero_add, range_one, sum_singleton]; rw [mul_comm]; exact segPoly_zero y
    simp only [e1, mul_one] at h
    simpa [seg0R] using h
  · intro h
    have : (√2 : ℝ) * √2 = 2 := Real.mul_self_sqrt (by norm_num)
    rw [h] at this; norm_num at this

/-- The orthonormality hypothesis of the triangle theorem is satisfiable: the degree-0 triangle
element (three vertices, weights 1/6). -/
theorem triPoly_zero (x y : ℝ) : triPoly 0 x y 0 * 2 = √2 := by
  have h : triPoly 0 x y 0 = √2 * poly0 0 0 * poly0 1 0 := by
    simp [triPoly, triCols, prorio2, jacobiPoly]
  have e1 : poly0 0 0 = 1 / √2 := by simp [poly0, gamma0, Real.Gamma_one]
  have e2 : poly0 1 0 = 1 / √2 := by
    have : gamma0 1 0 = 2 := by
      have h2 : Real.Gamma (1 + 1) = 1 := by
        have := Real.Gamma_nat_eq_factorial 1
        simpa using this
      simp [gamma0, h2, Real.Gamma_one]
      norm_num
    rw [poly0, this]
  rw [h, e1, e2]
  have : (√2 : ℝ) * √2 = 2 := Real.mul_self_sqrt (by norm_num)
  field_simp; linarith

example : Orthonormal (triElem 0 3 (fun _ => 1 / 6) (fun _ _ _ => 0)
    (fun i di => if i = di + 1 then 1 else 0)) := by
  intro k l hk hl
  simp only [triElem] at hk hl
  obtain rfl : k = 0 := by omega
  obtain rfl : l = 0 := by omega
  simp only [triElem, if_true, triPoly_zero]
  have : (√2 : ℝ) * √2 = 2 := Real.mul_self_sqrt (by norm_num)
  rw [sum_range_succ, sum_range_succ, sum_range_succ]; simp; linarith

/-! ### C87 at the stored nodes -/

/-- At a stored node (identified by its address) the solution evaluates to its nodal value, for
**every** nodal vector. -/
theorem C87_at_stored_node {K : Type*} [Field K] (e : Elem K) (c : K) (poly : ℕ → K) (ip : ℕ)
    (hip : ip < e.dof) (u : ℕ → K) :
    ∑ k ∈ range e.dof, calcShape e c poly (some ip) k * u k = u ip := by
  simp only [calcShape, calcShapeNode, ite_mul, one_mul, zero_mul]
  rw [sum_ite_eq' (range e.dof) ip]; simp [hip]

/-- On a triangle, a copy of a stored node (same coordinates, different address) gives the same
value as the node for polynomial solutions. -/
theorem C87_triangle_copy_agrees (d dof : ℕ) (H : ℕ → ℝ) (Q : ℕ → ℕ → ℕ → ℝ) (x : ℕ → ℕ → ℝ)
    (hV : Orthonormal (triElem d dof H Q x)) (ip : ℕ) (hip : ip < dof) (coef : ℕ → ℝ) :
    ∑ k ∈ range dof, triShape (triElem d dof H Q x) d (x ip 0) (x ip 1) k *
        ∑ l ∈ range ((d + 1) * (d + 2) / 2), coef l * triPoly d (x k 0) (x k 1) l =
    ∑ k ∈ range dof, calcShape (triElem d dof H Q x) 2 (fun _ => 0) (some ip) k *
        ∑ l ∈ range ((d + 1) * (d + 2) / 2), coef l * triPoly d (x k 0) (x k 1) l := by
  rw [C87_triangle d dof H Q x hV]
  exact (C87_at_stored_node (triElem d dof H Q x) 2 (fun _ => 0) ip hip
    (fun k => ∑ l ∈ range ((d + 1) * (d + 2) / 2), coef l * triPoly d (x k 0) (x k 1) l)).symm

/-- **Violation**: on the degree-0 segment element a copy of the stored left end node evaluates the
constant solution 1 to `√2`, the stored node itself to 1. -/
theorem C87_segment_copy_false :
    ∑ k ∈ range 2, segShape seg0R 0 k * (1 : ℝ) = √2 ∧
    ∑ k ∈ range 2, calcShape seg0R 2 (segPoly 0) (some 0) k * (1 : ℝ) = 1 :=
  ⟨(C87_segment_false 0).1, by simp [calcShape, calcShapeNode, sum_range_succ]⟩

/-! ### C88: looking up a node by its coordinates -/

set_option linter.unusedSectionVars false
section
variable {K : Type*} [Field K] [LinearOrder K] [IsStrictOrderedRing K]

/-- Specification: squared Euclidean distance between a point and node `i`. -/
def nodeDist2 (e : Elem K) (p : ℕ → K) (i : ℕ) : K := ∑ d ∈ range e.dim, (p d - e.x i d) ^ 2

theorem dist2_eq (e : Elem K) (p : ℕ → K) (i : ℕ) (h1 : 1 ≤ e.dim) (h3 : e.dim ≤ 3) :
    dist2 e p i = nodeDist2 e p i := by
  unfold dist2 nodeDist2
  have : e.dim = 1 ∨ e.dim = 2 ∨ e.dim = 3 := by omega
  rcases this with h | h | h <;> simp [h, sum_range_succ]

theorem indexFrom_spec (e : Elem K) (t : K) (p : ℕ → K) (fuel i0 : ℕ) :
    (∀ i, indexFrom e t p fuel i0 = some i ↔
      (i0 ≤ i ∧ i < i0 + fuel ∧ dist2 e p i < t ∧ ∀ j, i0 ≤ j → j < i → ¬ dist2 e p j < t)) := by
  induction fuel generalizing i0 with
  | zero => intro i; simp [indexFrom]; omega
  | succ f ih =>
    intro i
    rw [indexFrom]
    split_ifs with h
    · constructor
      · rintro ⟨⟩; exact ⟨le_rfl, by omega, h, fun j hj hj' => by omega⟩
      · rintro ⟨ha, hb, hc, hd⟩
        rcases eq_or_ne i i0 with rfl | hne
        · rfl
        · exact absurd h (hd i0 le_rfl (by omega))
    · rw [ih]
      constructor
      · rintro ⟨ha, hb, hc, hd⟩
        refine ⟨by omega, by omega, hc, fun j hj hj' => ?_⟩
        rcases eq_or_ne j i0 with rfl | hne
        · exact h
        · exact hd j (by omega) hj'
      · rintro ⟨ha, hb, hc, hd⟩
        have : i ≠ i0 := by rintro rfl; exact h hc
        exact ⟨by omega, by omega, hc, fun j hj hj' => hd j (by omega) hj'⟩

/-- The lookup returns exactly the first node within `1e-12` of the point. -/
theorem C88_lookup_first (e : Elem K) (h1 : 1 ≤ e.dim) (h3 : e.dim ≤ 3) (p : ℕ → K) (i : ℕ) :
    getIntegrationPointIndex e p = some i ↔
      (i < e.dof ∧ nodeDist2 e p i < (1 / 10 ^ 12) ^ 2 ∧
        ∀ j < i, ¬ nodeDist2 e p j < (1 / 10 ^ 12) ^ 2) := by
  rw [getIntegrationPointIndex, indexFrom_spec]
  simp only [Nat.zero_le, zero_add, true_and, forall_const, dist2_eq e p _ h1 h3]

/-- It throws exactly when no node is within the tolerance. -/
theorem C88_lookup_throws (e : Elem K) (h1 : 1 ≤ e.dim) (h3 : e.dim ≤ 3) (p : ℕ → K) :
    getIntegrationPointIndex e p = none ↔
      ∀ i < e.dof, ¬ nodeDist2 e p i < (1 / 10 ^ 12) ^ 2 := by
  constructor
  · intro hn i
    induction i using Nat.strong_induction_on with
    | _ i ih =>
      intro hi hlt
      have := (C88_lookup_first e h1 h3 p i).2 ⟨hi, hlt, fun j hj => ih j hj (by omega)⟩
      rw [hn] at this; cases this
  · intro h
    cases hc : getIntegrationPointIndex e p with
    | none => rfl
    | some i =>
      have := (C88_lookup_first e h1 h3 p i).1 hc
      exact absurd this.2.1 (h i this.1)

/-- At a node of an element whose nodes are pairwise at least `1e-12` apart, the lookup returns
that node. -/
theorem C88_lookup_node (e : Elem K) (h1 : 1 ≤ e.dim) (h3 : e.dim ≤ 3) (i : ℕ) (hi : i < e.dof)
    (hsep : ∀ j < e.dof, j ≠ i → (1 / 10 ^ 12) ^ 2 ≤ nodeDist2 e (e.x i) j) :
    getIntegrationPointIndex e (e.x i) = some i := by
  rw [C88_lookup_first e h1 h3]
  refine ⟨hi, ?_, fun j hj => not_lt.2 (hsep j (by omega) (by omega))⟩
  simp only [nodeDist2, sub_self]
  rw [sum_eq_zero (fun _ _ => by simp)]
  positivity

/-- The derivative evaluation at a point that is not a stored node uses the first node within
distance `1e-12` on a segment, but within distance `1e-6` on triangles and tetrahedra. -/
theorem C88_derivative_lookup_partial (e : Elem K) (h1 : 1 ≤ e.dim) (h3 : e.dim ≤ 3) (p : ℕ → K) (i : ℕ) :
    dshapeIndex e p = some i ↔
      (i < e.dof ∧ nodeDist2 e p i < (if e.dim = 1 then (1 / 10 ^ 12) ^ 2 else (1 / 10 ^ 6) ^ 2) ∧
        ∀ j < i, ¬ nodeDist2 e p j < (if e.dim = 1 then (1 / 10 ^ 12) ^ 2 else (1 / 10 ^ 6) ^ 2)) := by
  have hh : (if e.dim = 1 then (1 / 10 ^ 12) ^ 2 else 1 / 10 ^ 12 : K) =
      if e.dim = 1 then (1 / 10 ^ 12) ^ 2 else (1 / 10 ^ 6) ^ 2 := by
    split_ifs <;> ring
  rw [dshapeIndex, hh, indexFrom_spec]
  simp only [Nat.zero_le, zero_add, true_and, forall_const, dist2_eq e p _ h1 h3]

/-- A stored node (by address) or a point within `1e-12` of exactly one node: the derivative matrix
is the one of that node. -/
theorem C88_derivative_at_node (e : Elem K) (h1 : 1 ≤ e.dim) (h3 : e.dim ≤ 3) (i : ℕ) (hi : i < e.dof)
    (hsep : ∀ j < e.dof, j ≠ i → (1 / 10 ^ 6) ^ 2 ≤ nodeDist2 e (e.x i) j) :
    calcDShapeFull e (some i) (e.x i) = some (calcDShape e i) ∧
      calcDShapeFull e none (e.x i) = some (calcDShape e i) := by
  refine ⟨rfl, ?_⟩
  have h : dshapeIndex e (e.x i) = some i := by
    rw [C88_derivative_lookup_partial e h1 h3]
    have ht : (0 : K) < (if e.dim = 1 then (1 / 10 ^ 12) ^ 2 else (1 / 10 ^ 6) ^ 2) := by
      split_ifs <;> positivity
    refine ⟨hi, ?_, fun j hj => not_lt.2 (le_trans ?_ (hsep j (by omega) (by omega)))⟩
    · simp only [nodeDist2, sub_self]
      rw [sum_eq_zero (fun _ _ => by simp)]
      exact ht
    · split_ifs
      · norm_num
      · exact le_rfl
  simp [calcDShapeFull, h]

/-- **Violation**: at any point away from the nodes the derivative evaluation reads column `-1` of
the operator (no exception, no value). -/
theorem C88_derivative_off_node_false (e : Elem K) (h1 : 1 ≤ e.dim) (h3 : e.dim ≤ 3) (p : ℕ → K)
    (hp : ∀ i < e.dof, (1 / 10 ^ 6) ^ 2 ≤ nodeDist2 e p i) : calcDShapeFull e none p = none := by
  have : dshapeIndex e p = none := by
    cases hc : dshapeIndex e p with
    | none => rfl
    | some i =>
      have h := (C88_derivative_lookup_partial e h1 h3 p i).1 hc
      have := hp i h.1
      exfalso
      refine absurd h.2.1 (not_lt.2 (le_trans ?_ this))
      split_ifs
      · norm_num
      · exact le_rfl
  simp [calcDShapeFull, this]

end

example : dshapeIndex seg1 (fun _ => 1 / 2) = some 2 ∧ dshapeIndex seg1 (fun _ => 1 / 3) = none ∧
    (∀ i < seg1.dof, (1 / 10 ^ 6) ^ 2 ≤ nodeDist2 seg1 (fun _ => 1 / 3) i) := by decide +kernel

example : getIntegrationPointIndex seg1 (fun _ => 1 / 2) = some 2 ∧
    getIntegrationPointIndex seg1 (fun _ => 1 / 3) = none := by decide +kernel

end Verif.Sbp
