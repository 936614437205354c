import Verif.SbpDataCheck
import Mathlib.Algebra.MvPolynomial.PDeriv
import Mathlib.Analysis.SpecialFunctions.Integrals.Basic
import Mathlib.Analysis.SpecialFunctions.Integrability.Basic
import Mathlib.Topology.Algebra.MvPolynomial
import Mathlib.Tactic.FinCases

/-!
Property C89: the shipped SBP operators differentiate and integrate every polynomial of the
advertised degree (up to the rounding of the tabulated decimals), have positive weights and the
skew-symmetry the two-point fluxes rely on.
-/

namespace Verif.Sbp
open Finset
set_option linter.unusedSectionVars false

variable {K : Type*} [Field K] [LinearOrder K] [IsStrictOrderedRing K]

/-! ### From the integer checks to the field -/

theorem dotZ_eq (l m : List ℤ) (n : ℕ) (hl : l.length = n) (hm : m.length = n) :
    dotZ l m = ∑ j ∈ range n, l.getD j 0 * m.getD j 0 := by
  induction l generalizing m n with
  | nil =>
    obtain rfl : n = 0 := by simpa using hl.symm
    simp [dotZ]
  | cons a l ih =>
    cases m with
    | nil => simp at hl hm; omega
    | cons b m =>
      obtain ⟨n, rfl⟩ : ∃ k, n = k + 1 := ⟨l.length, by simpa using hl.symm⟩
      rw [dotZ, sum_range_succ', ih m n (by simpa using hl) (by simpa using hm)]
      simp [add_comm]

/-- monomial value at node `i` -/
def monoK (t : Table) (K : Type*) [Field K] (a : ℕ → ℕ) (i : ℕ) : K :=
  ∏ d ∈ range t.dim, (t.elem K).x i d ^ a d

theorem monoK_eq (t : Table) (a : ℕ → ℕ) (i : ℕ) :
    monoK t K a i = (monoZ t a i t.dim : K) / 10 ^ (19 * degN a t.dim) := by
  have : ∀ n, ∏ d ∈ range n, (t.elem K).x i d ^ a d =
      (monoZ t a i n : K) / 10 ^ (19 * degN a n) := by
    intro n
    induction n with
    | zero => simp [monoZ, degN]
    | succ n ih =>
      rw [prod_range_succ, ih]
      simp only [monoZ, degN, Table.elem, Int.cast_mul, Int.cast_pow, div_pow, mul_add, pow_add,
        pow_mul]
      rw [div_mul_div_comm]
  exact this t.dim

theorem monoList_getD (t : Table) (a : ℕ → ℕ) (j : ℕ) (hj : j < t.n) :
    (monoList t a).getD j 0 = monoZ t a j t.dim := by
  simp [monoList, List.getD_eq_getElem?_getD, hj]

theorem degN_eq (a : ℕ → ℕ) (n : ℕ) : degN a n = ∑ d ∈ range n, a d := by
  induction n with
  | zero => rfl
  | succ n ih => rw [degN, ih, sum_range_succ]

theorem degN_lower (a : ℕ → ℕ) (di n : ℕ) (h : di < n) (ha : 0 < a di) :
    degN (lower a di) n + 1 = degN a n := by
  have hm : di ∈ range n := mem_range.2 h
  rw [degN_eq, degN_eq, ← add_sum_erase _ _ hm, ← add_sum_erase _ a hm]
  have : ∑ x ∈ (range n).erase di, lower a di x = ∑ x ∈ (range n).erase di, a x :=
    sum_congr rfl fun x hx => by
      rw [lower, if_neg (ne_of_mem_erase hx)]
  rw [this, lower, if_pos rfl]; omega

theorem deriv_mono (t : Table) (hs : sizesOK t = true) (di : ℕ) (hdi : di < t.dim) (a : ℕ → ℕ)
    (h : derivOK t di a = true) (i : ℕ) (hi : i < t.n) :
    |∑ j ∈ range t.n, getWeakOperator (t.elem K) di false i j * monoK t K a j -
      (t.elem K).H i * (a di * monoK t K (lower a di) i)| ≤ 2 / 10 ^ 15 := by
  have hlen : ((t.q.getD di []).getD i []).length = t.n := by
    have := allBelow_spec (allBelow_spec hs di hdi) i hi
    simpa using this
  have hc := allBelow_spec h i hi
  rw [decide_eq_true_eq, dotZ_eq _ _ t.n hlen (by simp [monoList])] at hc
  have e1 : ∑ j ∈ range t.n, getWeakOperator (t.elem K) di false i j * monoK t K a j =
      ((∑ j ∈ range t.n, ((t.q.getD di []).getD i []).getD j 0 * (monoList t a).getD j 0 : ℤ) : K) /
        (10 ^ 34 * 10 ^ (19 * degN a t.dim)) := by
    rw [Int.cast_sum, sum_div]
    refine sum_congr rfl fun j hj => ?_
    rw [monoK_eq, monoList_getD t a j (mem_range.1 hj)]
    simp only [getWeakOperator, Table.elem, Bool.false_eq_true, if_false, Int.cast_mul]
    rw [div_mul_div_comm]
  have e2 : (t.elem K).H i * (a di * monoK t K (lower a di) i) =
      ((10 ^ 34 * (t.w.getD i 0) * (a di) * monoZ t (lower a di) i t.dim : ℤ) : K) /
        (10 ^ 34 * 10 ^ (19 * degN a t.dim)) := by
    rcases Nat.eq_zero_or_pos (a di) with h0 | h0
    · simp [h0]
    · rw [monoK_eq, ← degN_lower a di t.dim hdi h0]
      simp only [Table.elem, mul_add, pow_add, Int.cast_mul, Int.cast_pow, Int.cast_natCast,
        Int.cast_ofNat, mul_one]
      field_simp
  rw [e1, e2, ← sub_div, abs_div, div_le_div_iff₀ (by positivity) (by positivity),
    abs_of_pos (by positivity : (0 : K) < 10 ^ 34 * 10 ^ (19 * degN a t.dim)),
    ← Int.cast_sub, ← Int.cast_abs]
  have hc' : ((|∑ j ∈ range t.n, ((t.q.getD di []).getD i []).getD j 0 * (monoList t a).getD j 0 -
      10 ^ 34 * (t.w.getD i 0) * (a di) * monoZ t (lower a di) i t.dim| : ℤ) : K) ≤
      ((2 * 10 ^ 19 * 10 ^ (19 * degN a t.dim) : ℤ) : K) := Int.cast_le.2 hc
  calc _ ≤ ((2 * 10 ^ 19 * 10 ^ (19 * degN a t.dim) : ℤ) : K) * 10 ^ 15 :=
        mul_le_mul_of_nonneg_right hc' (by positivity)
    _ = _ := by push_cast; ring

theorem quad_mono (t : Table) (hw : t.w.length = t.n) (a : ℕ → ℕ)
    (h : quadOK t a = true) :
    |∑ i ∈ range t.n, (t.elem K).H i * monoK t K a i -
      (expProd a t.dim : K) / (degN a t.dim + t.dim).factorial| ≤ 1 / 10 ^ 15 := by
  have hc := h
  rw [quadOK, decide_eq_true_eq, dotZ_eq _ _ t.n hw (by simp [monoList])] at hc
  have hf : (0 : K) < (degN a t.dim + t.dim).factorial := by
    exact_mod_cast Nat.factorial_pos _
  set f : ℕ := (degN a t.dim + t.dim).factorial with hfd
  have e1 : ∑ i ∈ range t.n, (t.elem K).H i * monoK t K a i =
      ((∑ j ∈ range t.n, t.w.getD j 0 * (monoList t a).getD j 0 : ℤ) : K) /
        (10 ^ (19 * (degN a t.dim + 1))) := by
    rw [Int.cast_sum, sum_div]
    refine sum_congr rfl fun j hj => ?_
    rw [monoK_eq, monoList_getD t a j (mem_range.1 hj)]
    simp only [Table.elem, Int.cast_mul]
    rw [div_mul_div_comm, mul_add, pow_add, mul_one, mul_comm (10 ^ 19)]
  rw [e1, div_sub_div _ _ (by positivity) hf.ne', abs_div,
    div_le_div_iff₀ (abs_pos.2 (by positivity)) (by positivity),
    abs_of_pos (by positivity : (0 : K) < 10 ^ (19 * (degN a t.dim + 1)) * f)]
  have hc' : ((|(∑ j ∈ range t.n, t.w.getD j 0 * (monoList t a).getD j 0) * (f : ℤ) -
      ((expProd a t.dim : ℕ) : ℤ) * 10 ^ (19 * (degN a t.dim + 1))| * 10 ^ 15 : ℤ) : K) ≤
      (((f : ℤ) * 10 ^ (19 * (degN a t.dim + 1)) : ℤ) : K) := Int.cast_le.2 hc
  push_cast at hc'
  push_cast
  rw [one_mul, mul_comm ((10 : K) ^ (19 * (degN a t.dim + 1))) (f : K),
    mul_comm ((10 : K) ^ (19 * (degN a t.dim + 1))) ((expProd a t.dim : ℕ) : K)]
  norm_num at hc' ⊢
  exact hc'

/-! ### Congruence and enumeration of the exponents -/

theorem monoZ_congr (t : Table) {a b : ℕ → ℕ} (i n : ℕ) (h : ∀ d < n, a d = b d) :
    monoZ t a i n = monoZ t b i n := by
  induction n with
  | zero => rfl
  | succ n ih => rw [monoZ, monoZ, ih (fun d hd => h d (by omega)), h n (by omega)]

theorem degN_congr {a b : ℕ → ℕ} (n : ℕ) (h : ∀ d < n, a d = b d) : degN a n = degN b n := by
  rw [degN_eq, degN_eq]; exact sum_congr rfl fun d hd => h d (mem_range.1 hd)

theorem derivOK_congr (t : Table) (di : ℕ) (hdi : di < t.dim) {a b : ℕ → ℕ}
    (h : ∀ d < t.dim, a d = b d) : derivOK t di a = derivOK t di b := by
  have e1 : monoList t a = monoList t b := by
    unfold monoList; exact List.map_congr_left fun i _ => monoZ_congr t i t.dim h
  have e2 : ∀ i, monoZ t (lower a di) i t.dim = monoZ t (lower b di) i t.dim := fun i =>
    monoZ_congr t i t.dim fun d hd => by simp [lower, h d hd]
  simp only [derivOK, e1, e2, degN_congr t.dim h, h di hdi]

theorem expProd_congr {a b : ℕ → ℕ} (n : ℕ) (h : ∀ d < n, a d = b d) :
    expProd a n = expProd b n := by
  induction n with
  | zero => rfl
  | succ n ih => rw [expProd, expProd, ih (fun d hd => h d (by omega)), h n (by omega)]

theorem quadOK_congr (t : Table) {a b : ℕ → ℕ} (h : ∀ d < t.dim, a d = b d) :
    quadOK t a = quadOK t b := by
  have e1 : monoList t a = monoList t b := by
    unfold monoList; exact List.map_congr_left fun i _ => monoZ_congr t i t.dim h
  simp only [quadOK, e1, degN_congr t.dim h, expProd_congr t.dim h]

theorem allExpo_spec {dim p : ℕ} {f : (ℕ → ℕ) → Bool} (h : allExpo dim p f = true)
    (hd1 : 1 ≤ dim) (hd3 : dim ≤ 3)
    (hf : ∀ a b : ℕ → ℕ, (∀ d < dim, a d = b d) → f a = f b) (a : ℕ → ℕ)
    (ha : degN a dim ≤ p) : f a = true := by
  have hd : dim = 1 ∨ dim = 2 ∨ dim = 3 := by omega
  rcases hd with rfl | rfl | rfl
  · rw [hf a (expo (a 0) 0 0) (fun d hd => by simp [expo, show d = 0 by omega])]
    simp only [degN] at ha
    exact allBelow_spec (allBelow_spec (allBelow_spec h (a 0) (by omega)) 0 (by simp)) 0 (by simp)
  · rw [hf a (expo (a 0) (a 1) 0) (fun d hd => by
      have : d = 0 ∨ d = 1 := by omega
      rcases this with rfl | rfl <;> simp [expo])]
    simp only [degN] at ha
    exact allBelow_spec (allBelow_spec (allBelow_spec h (a 0) (by omega)) (a 1)
      (by simp; omega)) 0 (by simp)
  · rw [hf a (expo (a 0) (a 1) (a 2)) (fun d hd => by
      have : d = 0 ∨ d = 1 ∨ d = 2 := by omega
      rcases this with rfl | rfl | rfl <;> simp [expo])]
    simp only [degN] at ha
    exact allBelow_spec (allBelow_spec (allBelow_spec h (a 0) (by omega)) (a 1)
      (by simp; omega)) (a 2) (by simp; omega)

/-! ### C89: statements about all polynomials -/

/-- The point of node `i` as an argument for a polynomial in `dim` variables. -/
def nodePt (t : Table) (K : Type*) [Field K] (i : ℕ) : Fin t.dim → K := fun d => (t.elem K).x i d

/-- exponents as a function on `ℕ` -/
def expOf {n : ℕ} (m : Fin n →₀ ℕ) : ℕ → ℕ := fun d => if h : d < n then m ⟨d, h⟩ else 0

theorem prod_expOf {n : ℕ} (m : Fin n →₀ ℕ) (y : ℕ → K) :
    ∏ d : Fin n, y d ^ m d = ∏ d ∈ range n, y d ^ expOf m d := by
  rw [← Fin.prod_univ_eq_prod_range (fun d => y d ^ expOf m d) n]
  exact prod_congr rfl fun d _ => by simp [expOf]

theorem degN_expOf {n : ℕ} (m : Fin n →₀ ℕ) : degN (expOf m) n = m.sum fun _ k => k := by
  rw [degN_eq, ← Fin.sum_univ_eq_sum_range (fun d => expOf m d) n, Finsupp.sum_fintype _ _ (by simp)]
  exact sum_congr rfl fun d _ => by simp [expOf]

open MvPolynomial

theorem eval_monomial_node (t : Table) (m : Fin t.dim →₀ ℕ) (c : K) (i : ℕ) :
    eval (nodePt t K i) (monomial m c) = c * monoK t K (expOf m) i := by
  rw [eval_monomial, monoK, Finsupp.prod_fintype _ _ (by simp)]
  congr 1
  exact prod_expOf m (fun d => (t.elem K).x i d)

theorem eval_pderiv_monomial (t : Table) (m : Fin t.dim →₀ ℕ) (c : K) (di : Fin t.dim) (i : ℕ) :
    eval (nodePt t K i) (pderiv di (monomial m c)) =
      c * (expOf m di * monoK t K (lower (expOf m) di) i) := by
  rw [pderiv_monomial, eval_monomial_node, mul_assoc]
  have e1 : expOf m di = m di := by simp [expOf]
  rw [e1]
  congr 2
  unfold monoK
  refine prod_congr rfl fun d hd => ?_
  have hd' := mem_range.1 hd
  congr 1
  simp only [expOf, hd', dif_pos, lower, Finsupp.coe_tsub, Pi.sub_apply, Finsupp.single_apply]
  by_cases h : d = di
  · subst h; simp
  · have : di ≠ ⟨d, hd'⟩ := by rintro rfl; exact h rfl
    simp [h, this]

/-- Sum of the absolute values of the coefficients. -/
noncomputable def coefSum {n : ℕ} (P : MvPolynomial (Fin n) K) : K :=
  ∑ m ∈ P.support, |P.coeff m|

theorem linear_bound {n p : ℕ} (P : MvPolynomial (Fin n) K) (hP : P.totalDegree ≤ p)
    (L : MvPolynomial (Fin n) K →+ K) (eps : K)
    (hL : ∀ m : Fin n →₀ ℕ, (m.sum fun _ k => k) ≤ p → ∀ c, |L (monomial m c)| ≤ eps * |c|) :
    |L P| ≤ eps * coefSum P := by
  conv_lhs => rw [P.as_sum, map_sum]
  rw [coefSum, mul_sum]
  refine (abs_sum_le_sum_abs _ _).trans (sum_le_sum fun m hm => hL m ?_ _)
  exact (le_totalDegree hm).trans hP

theorem derivative_bound (t : Table) (p : ℕ) (h1 : 1 ≤ t.dim) (h3 : t.dim ≤ 3)
    (hs : sizesOK t = true)
    (hd : (allBelow t.dim fun di => allExpo t.dim p (derivOK t di)) = true)
    (P : MvPolynomial (Fin t.dim) K) (hP : P.totalDegree ≤ p) (di : Fin t.dim) (i : ℕ)
    (hi : i < t.n) :
    |∑ j ∈ range t.n, getWeakOperator (t.elem K) di false i j * eval (nodePt t K j) P -
      (t.elem K).H i * eval (nodePt t K i) (pderiv di P)| ≤ 2 / 10 ^ 15 * coefSum P := by
  let L : MvPolynomial (Fin t.dim) K →+ K :=
    { toFun := fun P => ∑ j ∈ range t.n, getWeakOperator (t.elem K) di false i j *
          eval (nodePt t K j) P - (t.elem K).H i * eval (nodePt t K i) (pderiv di P)
      map_zero' := by simp
      map_add' := fun x y => by
        simp only [map_add, mul_add, sum_add_distrib]; ring }
  refine linear_bound P hP L _ fun m hm c => ?_
  have hb := deriv_mono (K := K) t hs di di.2 (expOf m) (allExpo_spec
    (allBelow_spec hd di di.2) h1 h3 (fun a b hab => derivOK_congr t di di.2 hab) (expOf m)
    (by rw [degN_expOf]; exact hm)) i hi
  have : L (monomial m c) = c * (∑ j ∈ range t.n, getWeakOperator (t.elem K) di false i j *
      monoK t K (expOf m) j - (t.elem K).H i * (expOf m di * monoK t K (lower (expOf m) di) i)) := by
    show ∑ j ∈ range t.n, getWeakOperator (t.elem K) di false i j *
          eval (nodePt t K j) (monomial m c) -
          (t.elem K).H i * eval (nodePt t K i) (pderiv di (monomial m c)) = _
    simp only [eval_monomial_node, eval_pderiv_monomial]
    rw [mul_sub, mul_sum]
    congr 1
    · exact sum_congr rfl fun j _ => by ring
    · ring
  rw [this, abs_mul, mul_comm (2 / 10 ^ 15)]
  exact mul_le_mul_of_nonneg_left hb (abs_nonneg c)

/-- The tables shipped with the code and the degree each one is advertised for. -/
def shipped : List (Table × ℕ) :=
  [(tri0, 0), (tri1, 1), (tri2, 2), (tri3, 3), (tri4, 4), (tet0, 0), (tet1, 1)]

theorem shipped_ok : ∀ tp ∈ shipped, elemOK tp.1 tp.2 = true ∧ 1 ≤ tp.1.dim ∧ tp.1.dim ≤ 3 ∧
    tp.1.w.length = tp.1.n := by
  intro tp h
  simp only [shipped, List.mem_cons, List.not_mem_nil, or_false] at h
  rcases h with rfl | rfl | rfl | rfl | rfl | rfl | rfl
  · exact ⟨tri0_ok, by decide, by decide, by decide⟩
  · exact ⟨tri1_ok, by decide, by decide, by decide⟩
  · exact ⟨tri2_ok, by decide, by decide, by decide⟩
  · exact ⟨tri3_ok, by decide, by decide, by decide⟩
  · exact ⟨tri4_ok, by decide, by decide, by decide⟩
  · exact ⟨tet0_ok, by decide, by decide, by decide⟩
  · exact ⟨tet1_ok, by decide, by decide, by decide⟩

/-- **Derivative accuracy.**  On every shipped triangle and tetrahedron element, for every
polynomial up to the element's degree, every direction and every node, the weak operator gives
`H` times the exact derivative up to `2e-15` times the sum of the absolute coefficients. -/
theorem C89_derivative (t : Table) (p : ℕ) (ht : (t, p) ∈ shipped)
    (P : MvPolynomial (Fin t.dim) K) (hP : P.totalDegree ≤ p) (di : Fin t.dim) (i : ℕ)
    (hi : i < t.n) :
    |weakSpec (t.elem K) di (fun j => eval (nodePt t K j) P) i -
      (t.elem K).H i * eval (nodePt t K i) (pderiv di P)| ≤ 2 / 10 ^ 15 * coefSum P := by
  obtain ⟨h, h1, h3, -⟩ := shipped_ok _ ht
  simp only [elemOK, Bool.and_eq_true] at h
  exact derivative_bound t p h1 h3 h.1.1.1 h.1.1.2 P hP di i hi

/-- The degree-0 triangle is in fact exact for linear functions. -/
theorem C89_derivative_tri0 (P : MvPolynomial (Fin tri0.dim) K) (hP : P.totalDegree ≤ 1)
    (di : Fin tri0.dim) (i : ℕ) (hi : i < tri0.n) :
    |weakSpec (tri0.elem K) di (fun j => eval (nodePt tri0 K j) P) i -
      (tri0.elem K).H i * eval (nodePt tri0 K i) (pderiv di P)| ≤ 2 / 10 ^ 15 * coefSum P := by
  have h := tri0_ok
  simp only [elemOK, Bool.and_eq_true] at h
  exact derivative_bound tri0 1 (by decide) (by decide) h.1.1.1 tri0_ok1 P hP di i hi

/-- Constants are differentiated to zero (row sums), the condition for conservation. -/
theorem C89_row_sums (t : Table) (p : ℕ) (ht : (t, p) ∈ shipped) (di i : ℕ) (hdi : di < t.dim)
    (hi : i < t.n) :
    |∑ j ∈ range t.n, getWeakOperator (t.elem K) di false i j| ≤ 2 / 10 ^ 15 := by
  have h := C89_derivative (K := K) t p ht (C 1) (by simp) ⟨di, hdi⟩ i hi
  have hc : coefSum (C 1 : MvPolynomial (Fin t.dim) K) = 1 := by
    have : (C 1 : MvPolynomial (Fin t.dim) K).support = {0} := by
      rw [C_1, ← C_1, support_C]; simp
    rw [coefSum, this, sum_singleton]; simp
  rw [hc] at h
  show |∑ j ∈ range (t.elem K).dof, getWeakOperator (t.elem K) di false i j| ≤ 2 / 10 ^ 15
  simpa [weakSpec] using h

/-- Weights are positive on every shipped element. -/
theorem C89_weights_positive (t : Table) (p : ℕ) (ht : (t, p) ∈ shipped) (i : ℕ) (hi : i < t.n) :
    0 < (t.elem K).H i := by
  obtain ⟨h, -⟩ := shipped_ok _ ht
  simp only [elemOK, Bool.and_eq_true] at h
  have := allBelow_spec h.2 i hi
  rw [decide_eq_true_eq] at this
  simp only [Table.elem]
  have h2 : (0 : K) < (t.w.getD i 0 : ℤ) := by exact_mod_cast this
  positivity

set_option maxRecDepth 100000 in
theorem skew_ok : ∀ t ∈ [tri1, tri2, tri3, tri4, tet0, tet1], skewOK t = true := by
  decide +kernel

/-- The off-diagonal part of every shipped operator except the degree-0 triangle's is **exactly**
skew-symmetric, i.e. the boundary operator `Q + Q^T` is diagonal; this is the hypothesis of
`C85_qentry`. -/
theorem C89_diagonal_boundary (t : Table) (ht : t ∈ [tri1, tri2, tri3, tri4, tet0, tet1])
    (di i j : ℕ) (hdi : di < t.dim) (hi : i < t.n) (hj : j < t.n) (hij : i ≠ j) :
    getQ (t.elem K) di i j = - getQ (t.elem K) di j i := by
  have key : ∀ i j, i < t.n → j < i → getQ (t.elem K) di i j = - getQ (t.elem K) di j i := by
    intro i j hi hj
    have := allBelow_spec (allBelow_spec (allBelow_spec (skew_ok t ht) di hdi) i hi) j hj
    rw [decide_eq_true_eq] at this
    simp only [getQ, Table.elem, this]; push_cast; ring
  rcases lt_or_gt_of_ne hij with h | h
  · rw [key j i hj h, neg_neg]
  · exact key i j hi h

/-- **Violation.**  The degree-0 triangle's `Q + Q^T` has off-diagonal entries (about 1/6), so on
the reference element itself (identity mapping) `getQEntry` does not return the operator: entry
(2, 0) of the x operator is about -1/6 but `getQEntry` returns about -1/12. -/
theorem C89_tri0_false :
    ¬ ∀ (di i j : ℕ), di < 2 → i < 3 → j < 3 →
      |getQEntry (tri0.elem ℚ) di i j (fun k l => if k = l then 1 else 0)
        (fun k l => if k = l then 1 else 0) - getQ (tri0.elem ℚ) di i j| ≤ 1 / 100 := by
  intro h
  have := h 0 2 0 (by decide) (by decide) (by decide)
  exact absurd this (by decide +kernel)

/-- Segment operators: for every shipped degree the off-diagonal part is exactly skew-symmetric,
the diagonal is `-1/2` at the left end node (index 0), `1/2` at the right end node (index 1) and 0
inside, and constants are differentiated to zero, each up to `2e-14`. -/
theorem C89_segment (l : List (List ℤ)) (hl : l ∈ [seg0Q, seg1Q, seg2Q, seg3Q, seg4Q]) :
    (∀ i < l.length, ∀ j < l.length, i ≠ j → (l.getD i []).getD j 0 = - (l.getD j []).getD i 0) ∧
    (∀ i < l.length, |(((l.getD i []).getD i 0 : ℤ) : K) / 10 ^ 34 -
      (if i = 0 then -(1 / 2) else if i = 1 then 1 / 2 else 0)| ≤ 2 / 10 ^ 14) ∧
    (∀ i < l.length, |(((l.getD i []).sum : ℤ) : K) / 10 ^ 34| ≤ 2 / 10 ^ 14) := by
  have h : ∀ l ∈ [seg0Q, seg1Q, seg2Q, seg3Q, seg4Q],
      (∀ i < l.length, ∀ j < l.length, i ≠ j → (l.getD i []).getD j 0 = - (l.getD j []).getD i 0) ∧
      (∀ i < l.length, |2 * (l.getD i []).getD i 0 -
        10 ^ 34 * (if i = 0 then -1 else if i = 1 then 1 else 0)| ≤ 4 * 10 ^ 20) ∧
      (∀ i < l.length, |(l.getD i []).sum| ≤ 2 * 10 ^ 20) := by decide +kernel
  obtain ⟨h1, h2, h3⟩ := h l hl
  refine ⟨h1, fun i hi => ?_, fun i hi => ?_⟩
  · have h := (Int.cast_le (R := K)).2 (h2 i hi)
    push_cast at h
    have e : (((l.getD i []).getD i 0 : ℤ) : K) / 10 ^ 34 -
        (if i = 0 then -(1 / 2) else if i = 1 then 1 / 2 else 0) =
        (2 * (((l.getD i []).getD i 0 : ℤ) : K) - 10 ^ 34 *
          (if i = 0 then -1 else if i = 1 then 1 else 0)) / (2 * 10 ^ 34) := by
      split_ifs <;> field_simp <;> ring
    rw [e, abs_div, abs_of_pos (by positivity : (0 : K) < 2 * 10 ^ 34), div_le_div_iff₀
      (by positivity) (by positivity)]
    have e2 : (2 * (((l.getD i []).getD i 0 : ℤ) : K) - 10 ^ 34 *
          (if i = 0 then -1 else if i = 1 then 1 else 0)) =
        2 * (((l.getD i []).getD i 0 : ℤ) : K) - 10 ^ 34 *
          ((if i = 0 then -1 else if i = 1 then 1 else 0 : ℤ) : K) := by
      split_ifs <;> simp
    rw [e2]
    push_cast
    norm_num at h ⊢
    linarith
  · have h := (Int.cast_le (R := K)).2 (h3 i hi)
    rw [abs_div, abs_of_pos (by positivity : (0 : K) < 10 ^ 34), div_le_div_iff₀
      (by positivity) (by positivity), ← Int.cast_abs]
    push_cast at h ⊢
    norm_num at h ⊢
    linarith

/-! ### Quadrature -/

/-- `∫_0^L y^b (L - y)^c dy = L^(b+c+1) b! c! / (b+c+1)!` -/
theorem beta_integral (L : ℝ) (b c : ℕ) :
    ∫ y in (0 : ℝ)..L, y ^ b * (L - y) ^ c =
      L ^ (b + c + 1) * (b.factorial * c.factorial / (b + c + 1).factorial) := by
  induction c generalizing b with
  | zero =>
    simp only [pow_zero, mul_one, integral_pow, add_zero, Nat.factorial_zero, Nat.cast_one]
    have : (b.factorial : ℝ) / (b + 1).factorial = 1 / (b + 1) := by
      rw [Nat.factorial_succ]; push_cast
      have : (b.factorial : ℝ) ≠ 0 := by exact_mod_cast b.factorial_ne_zero
      field_simp
    rw [this]; simp; ring
  | succ c ih =>
    have hd : ∀ y : ℝ, HasDerivAt (fun y => y ^ (b + 1) * (L - y) ^ (c + 1))
        ((b + 1) * (y ^ b * (L - y) ^ (c + 1)) - (c + 1) * (y ^ (b + 1) * (L - y) ^ c)) y := by
      intro y
      have h1 := (hasDerivAt_id' y).fun_pow (b + 1)
      have h2 := ((hasDerivAt_id' y).const_sub L).fun_pow (c + 1)
      refine (h1.fun_mul h2).congr_deriv ?_
      push_cast; simp; ring
    have hi : ∀ f : ℝ → ℝ, Continuous f → IntervalIntegrable f MeasureTheory.volume 0 L :=
      fun f hf => hf.intervalIntegrable _ _
    have hint := intervalIntegral.integral_eq_sub_of_hasDerivAt (a := 0) (b := L)
      (fun y _ => hd y) (hi _ (by fun_prop))
    rw [intervalIntegral.integral_sub (hi _ (by fun_prop)) (hi _ (by fun_prop)),
      intervalIntegral.integral_const_mul, intervalIntegral.integral_const_mul, ih (b + 1)] at hint
    have hb : ((b : ℝ) + 1) ≠ 0 := by positivity
    have h0 : (b + 1 : ℝ) * ∫ y in (0 : ℝ)..L, y ^ b * (L - y) ^ (c + 1) =
        (c + 1) * (L ^ (b + 1 + c + 1) * ((b + 1).factorial * c.factorial /
          (b + 1 + c + 1).factorial)) := by
      have : L ^ (b + 1) * (L - L) ^ (c + 1) - 0 ^ (b + 1) * (L - 0) ^ (c + 1) = 0 := by simp
      linarith
    have h3 : b + 1 + c + 1 = b + (c + 1) + 1 := by ring
    rw [h3] at h0
    refine mul_left_cancel₀ hb (h0.trans ?_)
    rw [Nat.factorial_succ b, Nat.factorial_succ c]; push_cast; ring

/-- Specification: integral over the unit triangle. -/
noncomputable def triInt01 (f : ℝ → ℝ → ℝ) : ℝ := ∫ x in (0 : ℝ)..1, ∫ y in (0 : ℝ)..(1 - x), f x y

/-- Specification: integral over the unit tetrahedron. -/
noncomputable def tetInt01 (f : ℝ → ℝ → ℝ → ℝ) : ℝ :=
  ∫ x in (0 : ℝ)..1, ∫ y in (0 : ℝ)..(1 - x), ∫ z in (0 : ℝ)..(1 - x - y), f x y z

theorem triInt01_mono (c : ℝ) (a b : ℕ) : triInt01 (fun x y => c * (x ^ a * y ^ b)) =
    c * (a.factorial * b.factorial / (a + b + 2).factorial) := by
  unfold triInt01
  have e1 : ∀ x : ℝ, ∫ y in (0 : ℝ)..(1 - x), c * (x ^ a * y ^ b) =
      c / (b + 1) * (x ^ a * (1 - x) ^ (b + 1)) := fun x => by
    have : (fun y : ℝ => c * (x ^ a * y ^ b)) = fun y => (c * x ^ a) * y ^ b := by
      funext y; ring
    rw [this, intervalIntegral.integral_const_mul, integral_pow]; simp; ring
  simp only [e1]
  rw [intervalIntegral.integral_const_mul, beta_integral 1 a (b + 1), one_pow, one_mul,
    Nat.factorial_succ b, ← add_assoc]
  push_cast
  field_simp

theorem tetInt01_mono (k : ℝ) (a b c : ℕ) :
    tetInt01 (fun x y z => k * (x ^ a * y ^ b * z ^ c)) =
    k * (a.factorial * b.factorial * c.factorial / (a + b + c + 3).factorial) := by
  unfold tetInt01
  have e1 : ∀ x y : ℝ, ∫ z in (0 : ℝ)..(1 - x - y), k * (x ^ a * y ^ b * z ^ c) =
      k / (c + 1) * x ^ a * (y ^ b * (1 - x - y) ^ (c + 1)) := fun x y => by
    have : (fun z : ℝ => k * (x ^ a * y ^ b * z ^ c)) = fun z => (k * x ^ a * y ^ b) * z ^ c := by
      funext z; ring
    rw [this, intervalIntegral.integral_const_mul, integral_pow]; simp; ring
  simp only [e1]
  have e2 : ∀ x : ℝ, ∫ y in (0 : ℝ)..(1 - x), k / (c + 1) * x ^ a * (y ^ b * (1 - x - y) ^ (c + 1)) =
      k / (c + 1) * (b.factorial * (c + 1).factorial / (b + (c + 1) + 1).factorial) *
        (x ^ a * (1 - x) ^ (b + (c + 1) + 1)) := fun x => by
    rw [intervalIntegral.integral_const_mul, beta_integral (1 - x) b (c + 1)]; ring
  simp only [e2]
  rw [intervalIntegral.integral_const_mul, beta_integral 1 a (b + (c + 1) + 1), one_pow, one_mul,
    Nat.factorial_succ c, show a + (b + (c + 1) + 1) + 1 = a + b + c + 3 by ring]
  have : ((b + (c + 1) + 1).factorial : ℝ) ≠ 0 := by exact_mod_cast Nat.factorial_ne_zero _
  push_cast
  field_simp

theorem quadrature_bound (t : Table) (p : ℕ) (ht : (t, p) ∈ shipped) (a : ℕ → ℕ)
    (ha : degN a t.dim ≤ 2 * p) :
    |∑ i ∈ range t.n, (t.elem K).H i * monoK t K a i -
      (expProd a t.dim : K) / (degN a t.dim + t.dim).factorial| ≤ 1 / 10 ^ 15 := by
  obtain ⟨h, h1, h3, hw⟩ := shipped_ok _ ht
  simp only [elemOK, Bool.and_eq_true] at h
  exact quad_mono t hw a (allExpo_spec h.1.2 h1 h3 (fun a b hab => quadOK_congr t hab) a ha)

/-- The point with coordinates `x, y(, z)` as an argument of a polynomial in `n ≤ 3` variables. -/
def pt {n : ℕ} (x y z : ℝ) : Fin n → ℝ :=
  fun d => if (d : ℕ) = 0 then x else if (d : ℕ) = 1 then y else z

/-- Specification: integral of a polynomial over the reference element (unit triangle or unit
tetrahedron). -/
noncomputable def refInt (n : ℕ) (P : MvPolynomial (Fin n) ℝ) : ℝ :=
  if n = 2 then triInt01 fun x y => eval (pt x y 0) P
  else tetInt01 fun x y z => eval (pt x y z) P

theorem triInt01_cont {f g : ℝ → ℝ → ℝ} (hf : Continuous fun q : ℝ × ℝ => f q.1 q.2)
    (hg : Continuous fun q : ℝ × ℝ => g q.1 q.2) :
    triInt01 (fun x y => f x y + g x y) = triInt01 f + triInt01 g := by
  have c1 : ∀ h : ℝ → ℝ → ℝ, (Continuous fun q : ℝ × ℝ => h q.1 q.2) → ∀ x a b,
      IntervalIntegrable (h x) MeasureTheory.volume a b := fun h hh x a b =>
    (hh.comp (Continuous.prodMk_right x)).intervalIntegrable _ _
  have c2 : ∀ h : ℝ → ℝ → ℝ, (Continuous fun q : ℝ × ℝ => h q.1 q.2) →
      Continuous fun x => ∫ y in (0 : ℝ)..(1 - x), h x y := fun h hh =>
    intervalIntegral.continuous_parametric_intervalIntegral_of_continuous hh (by fun_prop)
  unfold triInt01
  simp only [fun x => intervalIntegral.integral_add (c1 f hf x 0 (1 - x)) (c1 g hg x 0 (1 - x))]
  exact intervalIntegral.integral_add ((c2 f hf).intervalIntegrable _ _)
    ((c2 g hg).intervalIntegrable _ _)

theorem tetInt01_cont {f g : ℝ → ℝ → ℝ → ℝ} (hf : Continuous fun q : ℝ × ℝ × ℝ => f q.1 q.2.1 q.2.2)
    (hg : Continuous fun q : ℝ × ℝ × ℝ => g q.1 q.2.1 q.2.2) :
    tetInt01 (fun x y z => f x y z + g x y z) = tetInt01 f + tetInt01 g := by
  have c1 : ∀ h : ℝ → ℝ → ℝ → ℝ, (Continuous fun q : ℝ × ℝ × ℝ => h q.1 q.2.1 q.2.2) → ∀ x y a b,
      IntervalIntegrable (h x y) MeasureTheory.volume a b := fun h hh x y a b =>
    (hh.comp (by fun_prop : Continuous fun z : ℝ => (x, y, z))).intervalIntegrable _ _
  have c2 : ∀ h : ℝ → ℝ → ℝ → ℝ, (Continuous fun q : ℝ × ℝ × ℝ => h q.1 q.2.1 q.2.2) →
      Continuous fun q : ℝ × ℝ => ∫ z in (0 : ℝ)..(1 - q.1 - q.2), h q.1 q.2 z := fun h hh =>
    intervalIntegral.continuous_parametric_intervalIntegral_of_continuous
      (f := fun (q : ℝ × ℝ) z => h q.1 q.2 z)
      (hh.comp (by fun_prop : Continuous fun r : (ℝ × ℝ) × ℝ => (r.1.1, r.1.2, r.2))) (by fun_prop)
  have e : ∀ h, tetInt01 h = triInt01 fun x y => ∫ z in (0 : ℝ)..(1 - x - y), h x y z :=
    fun h => rfl
  rw [e, e, e, ← triInt01_cont (c2 f hf) (c2 g hg)]
  congr 1; funext x y
  exact intervalIntegral.integral_add (c1 f hf x y 0 _) (c1 g hg x y 0 _)

theorem continuous_eval_pt {n : ℕ} (P : MvPolynomial (Fin n) ℝ) :
    Continuous fun q : ℝ × ℝ × ℝ => eval (pt q.1 q.2.1 q.2.2) P := by
  have : Continuous fun q : ℝ × ℝ × ℝ => (pt q.1 q.2.1 q.2.2 : Fin n → ℝ) := by
    refine continuous_pi fun d => ?_
    unfold pt
    split_ifs <;> fun_prop
  exact (MvPolynomial.continuous_eval P).comp this

theorem continuous_eval_pt2 {n : ℕ} (P : MvPolynomial (Fin n) ℝ) :
    Continuous fun q : ℝ × ℝ => eval (pt q.1 q.2 0) P := by
  have : Continuous fun q : ℝ × ℝ => (pt q.1 q.2 0 : Fin n → ℝ) := by
    refine continuous_pi fun d => ?_
    unfold pt
    split_ifs <;> fun_prop
  exact (MvPolynomial.continuous_eval P).comp this

theorem refInt_add (n : ℕ) (P R : MvPolynomial (Fin n) ℝ) :
    refInt n (P + R) = refInt n P + refInt n R := by
  unfold refInt
  split_ifs
  · rw [← triInt01_cont (f := fun x y => eval (pt x y 0) P) (g := fun x y => eval (pt x y 0) R)
      (continuous_eval_pt2 P) (continuous_eval_pt2 R)]
    congr 1; funext x y; rw [map_add]
  · rw [← tetInt01_cont (f := fun x y z => eval (pt x y z) P) (g := fun x y z => eval (pt x y z) R)
      (continuous_eval_pt P) (continuous_eval_pt R)]
    congr 1; funext x y z; rw [map_add]

theorem refInt_monomial (n : ℕ) (hn : n = 2 ∨ n = 3) (m : Fin n →₀ ℕ) (c : ℝ) :
    refInt n (monomial m c) =
      c * ((expProd (expOf m) n : ℝ) / (degN (expOf m) n + n).factorial) := by
  rcases hn with rfl | rfl
  · have e : (fun x y : ℝ => eval (pt x y 0) (monomial m c)) =
        fun x y => c * (x ^ m 0 * y ^ m 1) := by
      funext x y
      rw [eval_monomial, Finsupp.prod_fintype _ _ (by simp), Fin.prod_univ_two]; simp [pt]
    simp only [refInt, if_true, e]
    rw [triInt01_mono]; simp [expProd, degN, expOf]
  · have e : (fun x y z : ℝ => eval (pt x y z) (monomial m c)) =
        fun x y z => c * (x ^ m 0 * y ^ m 1 * z ^ m 2) := by
      funext x y z
      rw [eval_monomial, Finsupp.prod_fintype _ _ (by simp), Fin.prod_univ_three]; simp [pt]
    simp only [refInt, show ¬ (3 = 2) by decide, if_false, e]
    rw [tetInt01_mono]; simp [expProd, degN, expOf]

/-- **Quadrature accuracy.**  On every shipped triangle and tetrahedron element, the nodes and
weights integrate every polynomial of degree up to twice the element's degree over the reference
element, up to `1e-15` times the sum of the absolute coefficients. -/
theorem C89_quadrature (t : Table) (p : ℕ) (ht : (t, p) ∈ shipped)
    (P : MvPolynomial (Fin t.dim) ℝ) (hP : P.totalDegree ≤ 2 * p) :
    |∑ i ∈ range t.n, (t.elem ℝ).H i * eval (nodePt t ℝ i) P - refInt t.dim P| ≤
      1 / 10 ^ 15 * coefSum P := by
  have hdim : t.dim = 2 ∨ t.dim = 3 := by
    simp only [shipped, List.mem_cons, Prod.mk.injEq, List.not_mem_nil, or_false] at ht
    rcases ht with h | h | h | h | h | h | h <;> obtain ⟨rfl, -⟩ := h <;> decide
  let L : MvPolynomial (Fin t.dim) ℝ →+ ℝ :=
    { toFun := fun P => ∑ i ∈ range t.n, (t.elem ℝ).H i * eval (nodePt t ℝ i) P - refInt t.dim P
      map_zero' := by
        have := refInt_monomial t.dim hdim 0 0
        rw [monomial_zero] at this
        simp [this]
      map_add' := fun x y => by
        rw [refInt_add]
        simp only [map_add, mul_add, sum_add_distrib]; ring }
  refine linear_bound P hP L _ fun m hm c => ?_
  have hb := quadrature_bound (K := ℝ) t p ht (expOf m) (by rw [degN_expOf]; exact hm)
  have : L (monomial m c) = c * (∑ i ∈ range t.n, (t.elem ℝ).H i * monoK t ℝ (expOf m) i -
      (expProd (expOf m) t.dim : ℝ) / (degN (expOf m) t.dim + t.dim).factorial) := by
    show ∑ i ∈ range t.n, (t.elem ℝ).H i * eval (nodePt t ℝ i) (monomial m c) -
      refInt t.dim (monomial m c) = _
    rw [refInt_monomial t.dim hdim]
    simp only [eval_monomial_node]
    rw [mul_sub, mul_sum]
    congr 1
    exact sum_congr rfl fun j _ => by ring
  rw [this, abs_mul, mul_comm (1 / 10 ^ 15)]
  exact mul_le_mul_of_nonneg_left hb (abs_nonneg c)

/-- The hypotheses are met by, e.g., the polynomial `x y` on the degree-2 triangle, whose
derivative at node 1 = (1, 0) in direction 1 is 1. -/
example : (tri2, 2) ∈ shipped ∧
    (X 0 * X 1 : MvPolynomial (Fin 2) ℝ).totalDegree ≤ 2 ∧
    eval (fun d : Fin 2 => (tri2.elem ℝ).x 1 d) (pderiv (1 : Fin 2) (X 0 * X 1 : MvPolynomial (Fin 2) ℝ)) = 1 := by
  have h0 : (fun d : Fin 2 => (tri2.elem ℝ).x 1 d) 0 = 1 := by
    have : (tri2.x.getD 0 []).getD 1 0 = 10 ^ 19 := by decide
    show (((tri2.x.getD 0 []).getD 1 0 : ℤ) : ℝ) / 10 ^ 19 = 1
    rw [this]; norm_num
  refine ⟨by simp [shipped], (totalDegree_mul _ _).trans (by simp [totalDegree_X]), ?_⟩
  generalize (fun d : Fin 2 => (tri2.elem ℝ).x 1 d) = v at h0
  simp [Derivation.leibniz, pderiv_X_of_ne (show (0 : Fin 2) ≠ 1 by decide), h0]

end Verif.Sbp
