import Mathlib.Algebra.MvPolynomial.Degrees
import Mathlib.LinearAlgebra.Matrix.ToLin
import Mathlib.LinearAlgebra.Matrix.DotProduct
import Mathlib.LinearAlgebra.FiniteDimensional.Basic
import Mathlib.Algebra.Order.BigOperators.Group.Finset
import Mathlib.Algebra.Order.BigOperators.Ring.Finset
import Mathlib.Tactic.Linarith
import Mathlib.Tactic.Ring
import Mathlib.Algebra.MvPolynomial.Funext
import Mathlib.Algebra.CharZero.Infinite
import Mathlib.Data.Real.Basic
import Mathlib.Tactic.FinCases
import Mathlib.Data.List.Nodup
import Verif.Reconstruct

/-!
# C218: the patch reconstructions are exact on polynomials, of minimum norm / least squares

Polynomials are Mathlib's `MvPolynomial (Fin d) ℝ` with their total degree: nothing of the code's
monomial bookkeeping enters the statements.
-/

namespace Verif.Reconstruct
open Finset MvPolynomial Matrix

/-- The centres determine polynomials of degree at most `k`. -/
def Unisolvent {d : ℕ} (k n : ℕ) (xc : ℕ → Fin d → ℝ) : Prop :=
  ∀ p : MvPolynomial (Fin d) ℝ, p.totalDegree ≤ k → (∀ j < n, eval (xc j) p = 0) → p = 0

/-- The weights `w` on `n` centres reproduce every polynomial of degree at most `k` at `x`. -/
def Exact {d : ℕ} (k n : ℕ) (xc : ℕ → Fin d → ℝ) (x : Fin d → ℝ) (w : Fin n → ℝ) : Prop :=
  ∀ p : MvPolynomial (Fin d) ℝ, p.totalDegree ≤ k → ∑ j, w j * eval (xc j) p = eval x p

/-- Contract of LAPACK's `dgels` with `trans = 'N'` on matrices of full rank: the minimum-norm solution
of an underdetermined system, the least-squares solution (normal equations) of an overdetermined one. -/
structure IsDgels (dgels : Lapack) : Prop where
  under : ∀ m n (A : Matrix (Fin m) (Fin n) ℝ) b, m ≤ n → (∀ y, Aᵀ *ᵥ y = 0 → y = 0) →
    A *ᵥ dgels m n A b = b ∧ ∀ x, A *ᵥ x = b → ∑ j, dgels m n A b j ^ 2 ≤ ∑ j, x j ^ 2
  over : ∀ m n (A : Matrix (Fin m) (Fin n) ℝ) b, n ≤ m → (∀ y, A *ᵥ y = 0 → y = 0) →
    Aᵀ *ᵥ (A *ᵥ dgels m n A b - b) = 0

/-! ### Shifted monomials span the polynomials -/

variable {d k : ℕ}

/-- `p(x + c)`. -/
noncomputable def shift (c : Fin d → ℝ) (p : MvPolynomial (Fin d) ℝ) : MvPolynomial (Fin d) ℝ :=
  aeval (fun i => X i + C (c i)) p

theorem eval_shift (c x : Fin d → ℝ) (p : MvPolynomial (Fin d) ℝ) :
    eval x (shift c p) = eval (fun i => x i + c i) p := by
  have : (eval x : MvPolynomial (Fin d) ℝ →+* ℝ) (shift c p) = eval₂ (RingHom.id ℝ) (fun i => x i + c i) p := by
    unfold shift
    rw [aeval_def, MvPolynomial.hom_eval₂]
    congr 1
    · ext; simp
    · funext i; simp
  rw [this]; rfl

theorem totalDegree_X_add_C (c : Fin d → ℝ) (i : Fin d) : (X i + C (c i) : MvPolynomial (Fin d) ℝ).totalDegree ≤ 1 :=
  (totalDegree_add _ _).trans (by simp)

theorem totalDegree_prodPow (e : Fin d → ℕ) (f : Fin d → MvPolynomial (Fin d) ℝ) (hf : ∀ i, (f i).totalDegree ≤ 1) :
    (∏ i, f i ^ e i).totalDegree ≤ ∑ i, e i := by
  refine (totalDegree_finsetProd _ _).trans (sum_le_sum fun i _ => ?_)
  exact (totalDegree_pow _ _).trans (by simpa using Nat.mul_le_mul_left (e i) (hf i))

theorem shift_degree (c : Fin d → ℝ) (p : MvPolynomial (Fin d) ℝ) : (shift c p).totalDegree ≤ p.totalDegree := by
  unfold shift
  rw [aeval_def, eval₂_eq']
  refine totalDegree_finsetSum_le fun m hm => ?_
  refine (totalDegree_mul _ _).trans ?_
  have h1 := totalDegree_prodPow m (fun i => X i + C (c i)) (totalDegree_X_add_C c)
  have h2 : ((algebraMap ℝ (MvPolynomial (Fin d) ℝ)) (coeff m p)).totalDegree = 0 := totalDegree_C _
  rw [h2, zero_add]
  refine h1.trans ?_
  have := le_totalDegree hm
  rwa [Finsupp.sum_fintype _ _ (fun _ => rfl)] at this

/-- The multi-index of an exponent array. -/
noncomputable def fs (e : Fin d → ℕ) : Fin d →₀ ℕ := Finsupp.equivFunOnFinite.symm e

theorem fs_inj : Function.Injective (fs (d := d)) := Finsupp.equivFunOnFinite.symm.injective

variable (E : List (Fin d → ℕ)) (hE : E.Nodup) (hm : ∀ e, e ∈ E ↔ ∑ i, e i ≤ k)

include hE hm in
theorem eval_repr (p : MvPolynomial (Fin d) ℝ) (hp : p.totalDegree ≤ k) (x : Fin d → ℝ) :
    eval x p = ∑ a : Fin E.length, coeff (fs E[a.1]) p * mon E[a.1] x := by
  classical
  rw [Fin.sum_univ_fun_getElem E (fun e => coeff (fs e) p * mon e x), ← List.sum_toFinset _ hE, eval_eq']
  have hsub : p.support ⊆ E.toFinset.image fs := by
    intro m h
    rw [mem_image]
    refine ⟨m, ?_, Finsupp.equivFunOnFinite.symm_apply_apply m⟩
    rw [List.mem_toFinset, hm]
    have := le_totalDegree h
    rw [Finsupp.sum_fintype _ _ (fun _ => rfl)] at this
    exact this.trans hp
  rw [sum_subset hsub fun m _ h => by rw [notMem_support_iff.1 h, zero_mul], sum_image fun a _ b _ h => fs_inj h]
  rfl

/-- The polynomial with coefficients `y` in the shifted monomials. -/
noncomputable def polyOf (c : Fin d → ℝ) (y : Fin E.length → ℝ) : MvPolynomial (Fin d) ℝ :=
  ∑ a, C (y a) * ∏ i, (X i + C (-c i)) ^ E[a.1] i

theorem eval_polyOf (c : Fin d → ℝ) (y : Fin E.length → ℝ) (x : Fin d → ℝ) :
    eval x (polyOf E c y) = ∑ a, y a * mon E[a.1] (fun i => x i - c i) := by
  unfold polyOf mon
  simp [sub_eq_add_neg]

include hm in
theorem polyOf_degree (c : Fin d → ℝ) (y : Fin E.length → ℝ) : (polyOf E c y).totalDegree ≤ k := by
  unfold polyOf
  refine totalDegree_finsetSum_le fun a _ => (totalDegree_mul _ _).trans ?_
  rw [totalDegree_C, zero_add]
  exact (totalDegree_prodPow E[a.1] _ (totalDegree_X_add_C _)).trans ((hm _).1 (List.getElem_mem _))

include hE in
theorem polyOf_eq_zero (c : Fin d → ℝ) (y : Fin E.length → ℝ) (h : polyOf E c y = 0) : y = 0 := by
  classical
  have h1 : shift c (polyOf E c y) = ∑ a, monomial (fs E[a.1]) (y a) := by
    unfold shift polyOf
    rw [map_sum]
    refine sum_congr rfl fun a _ => ?_
    rw [monomial_eq, Finsupp.prod_fintype _ _ (fun _ => pow_zero _)]
    simp only [map_mul, map_prod, map_pow, map_add, aeval_X, aeval_C]
    congr 1
    refine prod_congr rfl fun i _ => ?_
    congr 1
    change X i + C (c i) + C (-c i) = X i
    rw [add_assoc, ← C_add]; simp
  funext b
  have h2 : coeff (fs E[b.1]) (shift c (polyOf E c y)) = y b := by
    rw [h1, coeff_sum, sum_eq_single b]
    · rw [coeff_monomial, if_pos rfl]
    · intro a _ hab
      rw [coeff_monomial, if_neg]
      intro he
      exact hab (Fin.ext ((hE.getElem_inj_iff).1 (fs_inj he)))
    · intro h; exact absurd (mem_univ _) h
  rw [← h2, h]; simp [shift]

include hE hm in
theorem indep {n : ℕ} {xc : ℕ → Fin d → ℝ} (hU : Unisolvent k n xc) (c : Fin d → ℝ) (y : Fin E.length → ℝ)
    (h : ∀ j < n, ∑ a, y a * mon E[a.1] (fun i => xc j i - c i) = 0) : y = 0 :=
  polyOf_eq_zero E hE c y (hU _ (polyOf_degree E hm c y) fun j hj => by rw [eval_polyOf]; exact h j hj)

include hE hm in
theorem eval_around (p : MvPolynomial (Fin d) ℝ) (hp : p.totalDegree ≤ k) (c x : Fin d → ℝ) :
    eval x p = ∑ a : Fin E.length, coeff (fs E[a.1]) (shift c p) * mon E[a.1] (fun i => x i - c i) := by
  rw [← eval_repr E hE hm (shift c p) ((shift_degree c p).trans hp), eval_shift]
  congr 2
  funext i; ring

/-! ### Minimum-norm reconstruction -/

include hE hm in
theorem interp_core {dgels : Lapack} (hd : IsDgels dgels) (h0 : E[0]? = some 0) {n : ℕ} {xc : ℕ → Fin d → ℝ}
    (hU : Unisolvent k n xc) (q : Fin d → ℝ) :
    E.length ≤ n ∧
    Exact k n xc q (dgels E.length n (interpMat E.length n E xc q) (fun row => if row.val = 0 then 1 else 0)) ∧
    ∀ w, Exact k n xc q w →
      ∑ j, dgels E.length n (interpMat E.length n E xc q) (fun row => if row.val = 0 then 1 else 0) j ^ 2 ≤ ∑ j, w j ^ 2 := by
  have hA : ∀ (a : Fin E.length) (j : Fin n), interpMat E.length n E xc q a j = mon E[a.1] (fun i => xc j i - q i) := by
    intro a j; unfold interpMat; rw [List.getElem?_eq_getElem a.2]
  have hlen : 0 < E.length := by
    by_contra h
    rw [List.getElem?_eq_none (by omega)] at h0; simp at h0
  have hE0 : E[0] = 0 := by rw [List.getElem?_eq_getElem hlen] at h0; exact Option.some.inj h0
  have hind : ∀ y, (interpMat E.length n E xc q)ᵀ *ᵥ y = 0 → y = 0 := by
    intro y hy
    refine indep E hE hm hU q y fun j hj => ?_
    have := congrFun hy ⟨j, hj⟩
    simp only [mulVec, dotProduct, transpose_apply, hA, Pi.zero_apply] at this
    rw [← this]
    exact sum_congr rfl fun a _ => mul_comm _ _
  have hle : E.length ≤ n := by
    have hinj : Function.Injective (interpMat E.length n E xc q)ᵀ.mulVecLin := by
      rw [← LinearMap.ker_eq_bot, LinearMap.ker_eq_bot']
      exact hind
    simpa using LinearMap.finrank_le_finrank_of_injective hinj
  obtain ⟨hsol, hmin⟩ := hd.under _ _ (interpMat E.length n E xc q) (fun row => if row.val = 0 then 1 else 0) hle hind
  have hmon0 : ∀ a : Fin E.length, mon E[a.1] (fun _ => (0 : ℝ)) = if a.1 = 0 then 1 else 0 := by
    intro a
    unfold mon
    by_cases h : a.1 = 0
    · have : E[a.1] = 0 := by rw [← hE0]; congr 1
      rw [if_pos h, this]; simp
    · rw [if_neg h]
      have : E[a.1] ≠ 0 := by
        intro he; apply h; exact (hE.getElem_inj_iff).1 (he.trans hE0.symm)
      obtain ⟨i, hi⟩ := Function.ne_iff.1 this
      exact prod_eq_zero (mem_univ i) (zero_pow hi)
  have hq : ∀ p : MvPolynomial (Fin d) ℝ, p.totalDegree ≤ k →
      eval q p = ∑ a : Fin E.length, coeff (fs E[a.1]) (shift q p) * if a.1 = 0 then 1 else 0 := by
    intro p hp
    rw [eval_around E hE hm p hp q q]
    simp only [sub_self, hmon0]
  refine ⟨hle, fun p hp => ?_, fun w hw => hmin w ?_⟩
  · rw [hq p hp]
    simp only [eval_around E hE hm p hp q (xc _)]
    simp only [mul_sum]
    rw [sum_comm]
    refine sum_congr rfl fun a _ => ?_
    have := congrFun hsol a
    simp only [mulVec, dotProduct, hA] at this
    rw [← this, mul_sum]
    exact sum_congr rfl fun j _ => by ring
  · funext a
    have := hw (polyOf E q (fun b => if b = a then 1 else 0)) (polyOf_degree E hm _ _)
    simp only [eval_polyOf, ite_mul, one_mul, zero_mul, sum_ite_eq', mem_univ, if_true, sub_self] at this
    rw [hmon0] at this
    rw [← this]
    simp only [mulVec, dotProduct, hA]
    exact sum_congr rfl fun j _ => mul_comm _ _

/-! ### Least-squares reconstruction -/

include hE hm in
theorem ls_core {dgels : Lapack} (hd : IsDgels dgels) {n : ℕ} {xc : ℕ → Fin d → ℝ} (hU : Unisolvent k n xc) :
    E.length ≤ n ∧ ∀ f : Fin n → ℝ, ∃ P : MvPolynomial (Fin d) ℝ, P.totalDegree ≤ k ∧
      (∀ x, ∑ i, (∑ col : Fin E.length, lsVal E xc x col *
        dgels n E.length (lsMat n E.length E xc) (fun r => if r = i then 1 else 0) col) * f i = eval x P) ∧
      ∀ Q : MvPolynomial (Fin d) ℝ, Q.totalDegree ≤ k →
        ∑ i : Fin n, (eval (xc i) P - f i) ^ 2 ≤ ∑ i : Fin n, (eval (xc i) Q - f i) ^ 2 := by
  have hv : ∀ x (a : Fin E.length), lsVal E xc x a = mon E[a.1] (fun i => x i - xc 0 i) := by
    intro x a; unfold lsVal; rw [List.getElem?_eq_getElem a.2]
  obtain ⟨V, hV⟩ : ∃ V : Matrix (Fin n) (Fin E.length) ℝ, V = lsMat n E.length E xc := ⟨_, rfl⟩
  have hVa : ∀ (y : Fin E.length → ℝ) (i : Fin n), (V *ᵥ y) i = ∑ a, y a * mon E[a.1] (fun t => xc i t - xc 0 t) := by
    intro y i
    simp only [mulVec, dotProduct, hV, lsMat, hv]
    exact sum_congr rfl fun a _ => mul_comm _ _
  have hind : ∀ y, V *ᵥ y = 0 → y = 0 := by
    intro y hy
    refine indep E hE hm hU (xc 0) y fun j hj => ?_
    rw [← hVa y ⟨j, hj⟩, hy]; rfl
  have hle : E.length ≤ n := by
    have hinj : Function.Injective V.mulVecLin := by
      rw [← LinearMap.ker_eq_bot, LinearMap.ker_eq_bot']
      exact hind
    simpa using LinearMap.finrank_le_finrank_of_injective hinj
  refine ⟨hle, fun f => ?_⟩
  obtain ⟨B, hB⟩ : ∃ B : Fin n → Fin E.length → ℝ, B = fun i => dgels n E.length V (fun r => if r = i then 1 else 0) := ⟨_, rfl⟩
  have hBn : ∀ i, Vᵀ *ᵥ (V *ᵥ B i - fun r => if r = i then 1 else 0) = 0 := by
    intro i; rw [hB]; exact hd.over _ _ V _ hle hind
  obtain ⟨c, hc⟩ : ∃ c : Fin E.length → ℝ, c = ∑ i, f i • B i := ⟨_, rfl⟩
  have hnorm : Vᵀ *ᵥ (V *ᵥ c - f) = 0 := by
    have hf : f = ∑ i, f i • fun r => if r = i then (1 : ℝ) else 0 := by
      funext r; simp [Finset.sum_apply]
    have : V *ᵥ c - f = ∑ i, f i • (V *ᵥ B i - fun r => if r = i then 1 else 0) := by
      simp only [smul_sub, sum_sub_distrib]
      rw [← hf, hc]
      congr 1
      change V.mulVecLin _ = _
      rw [map_sum]
      exact sum_congr rfl fun i _ => by rw [map_smul]; rfl
    rw [this]
    change Vᵀ.mulVecLin _ = _
    rw [map_sum]
    refine sum_eq_zero fun i _ => ?_
    rw [map_smul]
    change f i • (Vᵀ *ᵥ _) = 0
    rw [hBn, smul_zero]
  refine ⟨polyOf E (xc 0) c, polyOf_degree E hm _ _, fun x => ?_, fun Q hQ => ?_⟩
  · rw [eval_polyOf]
    simp only [← hV, hv]
    have : ∀ i, dgels n E.length V (fun r => if r = i then 1 else 0) = B i := by intro i; rw [hB]
    simp only [this]
    have hca : ∀ a, c a = ∑ i, f i * B i a := by intro a; rw [hc]; simp [Finset.sum_apply]
    simp only [hca, sum_mul]
    rw [sum_comm]
    exact sum_congr rfl fun a _ => sum_congr rfl fun i _ => by ring
  · have hP : ∀ i : Fin n, eval (xc i) (polyOf E (xc 0) c) = (V *ᵥ c) i := by
      intro i; rw [eval_polyOf, hVa]
    obtain ⟨b, hb⟩ : ∃ b : Fin E.length → ℝ, b = fun a => coeff (fs E[a.1]) (shift (xc 0) Q) := ⟨_, rfl⟩
    have hQv : ∀ i : Fin n, eval (xc i) Q = (V *ᵥ b) i := by
      intro i; rw [eval_around E hE hm Q hQ (xc 0), hVa, hb]
    simp only [hP, hQv]
    have horth : ∑ i, (V *ᵥ (b - c)) i * (V *ᵥ c - f) i = 0 := by
      have : (V *ᵥ (b - c)) ⬝ᵥ (V *ᵥ c - f) = (b - c) ⬝ᵥ (Vᵀ *ᵥ (V *ᵥ c - f)) := by
        rw [mulVec_transpose, dotProduct_comm, dotProduct_mulVec, dotProduct_comm]
      rw [hnorm, dotProduct_zero] at this
      exact this
    have hsplit : ∑ i, ((V *ᵥ b) i - f i) ^ 2 = ∑ i, ((V *ᵥ c) i - f i) ^ 2 + ∑ i, (V *ᵥ (b - c)) i ^ 2 +
        2 * ∑ i, (V *ᵥ (b - c)) i * (V *ᵥ c - f) i := by
      rw [mul_sum, ← sum_add_distrib, ← sum_add_distrib]
      refine sum_congr rfl fun i _ => ?_
      rw [mulVec_sub]
      simp only [Pi.sub_apply]
      ring
    rw [hsplit, horth]
    have : 0 ≤ ∑ i, (V *ᵥ (b - c)) i ^ 2 := sum_nonneg fun i _ => sq_nonneg _
    linarith

/-! ### The monomial lists of the code -/

theorem exps1_ext (e : Fin 1 → ℕ) : e = ![e 0] := by funext i; fin_cases i; rfl
theorem exps2_ext (e : Fin 2 → ℕ) : e = ![e 0, e 1] := by funext i; fin_cases i <;> rfl
theorem exps3_ext (e : Fin 3 → ℕ) : e = ![e 0, e 1, e 2] := by funext i; fin_cases i <;> rfl

theorem ls1_eq (k : ℕ) : interpExps1 k = lsExps1 k := by
  unfold interpExps1 lsExps1
  rw [List.range_succ_eq_map]
  simp [List.map_map, Function.comp_def]

theorem ls1_mem (k : ℕ) (e : Fin 1 → ℕ) : e ∈ lsExps1 k ↔ ∑ i, e i ≤ k := by
  unfold lsExps1
  simp only [List.mem_map, List.mem_range, Fin.sum_univ_one]
  constructor
  · rintro ⟨p, hp, rfl⟩; simp; omega
  · intro h; exact ⟨e 0, by omega, (exps1_ext e).symm⟩

theorem ls1_nodup (k : ℕ) : (lsExps1 k).Nodup :=
  List.nodup_range.map fun a b h => by simpa using congrFun h 0

theorem ls1_length (k : ℕ) : (lsExps1 k).length = k + 1 := by simp [lsExps1]

theorem interp2_mem (k : ℕ) (e : Fin 2 → ℕ) : e ∈ interpExps2 k ↔ ∑ i, e i ≤ k := by
  unfold interpExps2
  simp only [List.mem_cons, List.mem_flatMap, List.mem_map, List.mem_range, Fin.sum_univ_two]
  constructor
  · rintro (rfl | ⟨o, ho, t, ht, rfl⟩)
    · simp
    · simp; omega
  · intro h
    by_cases h0 : e 0 + e 1 = 0
    · left; rw [exps2_ext e]; congr 1 <;> [omega; (congr 1; omega)]
    · right
      refine ⟨e 0 + e 1 - 1, by omega, e 1, by omega, ?_⟩
      conv_rhs => rw [exps2_ext e]
      congr 1; omega

theorem ls2_mem (k : ℕ) (e : Fin 2 → ℕ) : e ∈ lsExps2 k ↔ ∑ i, e i ≤ k := by
  unfold lsExps2
  simp only [List.mem_flatMap, List.mem_map, List.mem_range, Fin.sum_univ_two]
  constructor
  · rintro ⟨p, hp, q, hq, rfl⟩; simp; omega
  · intro h
    refine ⟨e 0 + e 1, by omega, e 1, by omega, ?_⟩
    conv_rhs => rw [exps2_ext e]
    congr 1; omega

theorem ls3_mem (k : ℕ) (e : Fin 3 → ℕ) : e ∈ lsExps3 k ↔ ∑ i, e i ≤ k := by
  unfold lsExps3
  simp only [List.mem_flatMap, List.mem_map, List.mem_range, Fin.sum_univ_three]
  constructor
  · rintro ⟨p, hp, q, hq, r, hr, rfl⟩; simp; omega
  · intro h
    refine ⟨e 0 + e 1 + e 2, by omega, e 2, by omega, e 1, by omega, ?_⟩
    conv_rhs => rw [exps3_ext e]
    congr 1; omega

theorem ls2_nodup (k : ℕ) : (lsExps2 k).Nodup := by
  unfold lsExps2
  rw [List.nodup_flatMap]
  refine ⟨fun p _ => List.nodup_range.map fun a b h => by simpa using congrFun h 1, ?_⟩
  refine List.nodup_range.imp fun {a b} hab => ?_
  intro e h1 h2
  simp only [List.mem_map, List.mem_range] at h1 h2
  obtain ⟨q, hq, rfl⟩ := h1
  obtain ⟨r, hr, he⟩ := h2
  have e0 := congrFun he 0
  have e1 := congrFun he 1
  simp at e0 e1
  omega

theorem interp2_nodup (k : ℕ) : (interpExps2 k).Nodup := by
  unfold interpExps2
  rw [List.nodup_cons]
  refine ⟨?_, ?_⟩
  · simp only [List.mem_flatMap, List.mem_map, List.mem_range, not_exists, not_and]
    intro o _ t ht he
    have e0 := congrFun he 0
    have e1 := congrFun he 1
    simp at e0 e1
    omega
  rw [List.nodup_flatMap]
  refine ⟨fun p _ => List.nodup_range.map fun a b h => by simpa using congrFun h 1, ?_⟩
  refine List.nodup_range.imp fun {a b} hab => ?_
  intro e h1 h2
  simp only [List.mem_map, List.mem_range] at h1 h2
  obtain ⟨q, hq, rfl⟩ := h1
  obtain ⟨r, hr, he⟩ := h2
  have e0 := congrFun he 0
  have e1 := congrFun he 1
  simp at e0 e1
  omega

theorem ls3_nodup (k : ℕ) : (lsExps3 k).Nodup := by
  unfold lsExps3
  rw [List.nodup_flatMap]
  refine ⟨fun p _ => ?_, ?_⟩
  · rw [List.nodup_flatMap]
    refine ⟨fun q _ => List.nodup_range.map fun a b h => by simpa using congrFun h 1, ?_⟩
    refine List.nodup_range.imp fun {a b} hab => ?_
    intro e h1 h2
    simp only [List.mem_map, List.mem_range] at h1 h2
    obtain ⟨q, hq, rfl⟩ := h1
    obtain ⟨r, hr, he⟩ := h2
    have e2 := congrFun he 2
    simp at e2
    omega
  · refine List.nodup_range.imp fun {a b} hab => ?_
    intro e h1 h2
    simp only [List.mem_flatMap, List.mem_map, List.mem_range] at h1 h2
    obtain ⟨q, hq, r, hr, rfl⟩ := h1
    obtain ⟨q', hq', r', hr', he⟩ := h2
    have e0 := congrFun he 0
    have e1 := congrFun he 1
    have e2 := congrFun he 2
    simp at e0 e1 e2
    omega

theorem interp2_length (k : ℕ) : (interpExps2 k).length = (k + 1) * (k + 2) / 2 := by
  have h : 2 * (interpExps2 k).length = (k + 1) * (k + 2) := by
    unfold interpExps2
    induction k with
    | zero => simp
    | succ k ih =>
      rw [List.range_succ, List.flatMap_append]
      simp only [List.length_cons, List.length_append] at ih ⊢
      have : (List.flatMap (fun o => List.map (fun t => ![o + 1 - t, t]) (List.range (o + 2))) [k]).length = k + 2 := by simp
      rw [this]
      linarith
  omega

theorem ls2_length2 (k : ℕ) : 2 * (lsExps2 k).length = (k + 1) * (k + 2) := by
  unfold lsExps2
  induction k with
  | zero => simp
  | succ k ih =>
    rw [List.range_succ, List.flatMap_append, List.length_append]
    have : (List.flatMap (fun p => List.map (fun q => ![p - q, q]) (List.range (p + 1))) [k + 1]).length = k + 2 := by simp
    rw [this]
    linarith

theorem ls2_length (k : ℕ) : (lsExps2 k).length = (k + 1) * (k + 2) / 2 := by
  have := ls2_length2 k; omega

theorem inner3 (p : ℕ) : ∀ M ≤ p + 1, 2 * ((List.range M).map fun q => p - q + 1).sum + M * M = M * (2 * p + 3) := by
  intro M
  induction M with
  | zero => simp
  | succ M ih =>
    intro hM
    have := ih (by omega)
    rw [List.range_succ, List.map_append, List.sum_append]
    obtain ⟨r, hr⟩ : ∃ r, p = M + r := ⟨p - M, by omega⟩
    subst hr
    simp only [List.map_cons, List.map_nil, List.sum_cons, List.sum_nil, Nat.add_sub_cancel_left] at this ⊢
    nlinarith

theorem ls3_length (k : ℕ) : (lsExps3 k).length = (k + 1) * (k + 2) * (k + 3) / 6 := by
  have h : 6 * (lsExps3 k).length = (k + 1) * (k + 2) * (k + 3) := by
    unfold lsExps3
    induction k with
    | zero => simp
    | succ k ih =>
      rw [List.range_succ, List.flatMap_append, List.length_append]
      have h1 : (List.flatMap (fun p => (List.range (p + 1)).flatMap fun q => (List.range (p - q + 1)).map
          fun r => ![p - q - r, r, q]) [k + 1]).length = ((List.range (k + 2)).map fun q => k + 1 - q + 1).sum := by
        simp [List.length_flatMap]
      have h2 := inner3 (k + 1) (k + 2) le_rfl
      rw [h1]
      nlinarith
  omega

theorem interp_core' {d k : ℕ} (E : List (Fin d → ℕ)) (hE : E.Nodup) (hm : ∀ e, e ∈ E ↔ ∑ i, e i ≤ k) {dgels : Lapack} (hd : IsDgels dgels)
    (h0 : E[0]? = some 0) {m : ℕ} (hl : E.length = m) {n : ℕ} {xc : ℕ → Fin d → ℝ} (hU : Unisolvent k n xc) (q : Fin d → ℝ) :
    Exact k n xc q (dgels m n (interpMat m n E xc q) (fun row => if row.val = 0 then 1 else 0)) ∧
    ∀ w, Exact k n xc q w →
      ∑ j, dgels m n (interpMat m n E xc q) (fun row => if row.val = 0 then 1 else 0) j ^ 2 ≤ ∑ j, w j ^ 2 := by
  subst hl
  exact (interp_core E hE hm hd h0 hU q).2

theorem ls_core' {d k : ℕ} (E : List (Fin d → ℕ)) (hE : E.Nodup) (hm : ∀ e, e ∈ E ↔ ∑ i, e i ≤ k) {dgels : Lapack} (hd : IsDgels dgels)
    {m : ℕ} (hl : E.length = m) {n : ℕ} {xc : ℕ → Fin d → ℝ} (hU : Unisolvent k n xc) :
    ∀ f : Fin n → ℝ, ∃ P : MvPolynomial (Fin d) ℝ, P.totalDegree ≤ k ∧
      (∀ x, ∑ i, (∑ col : Fin m, lsVal E xc x col *
        dgels n m (lsMat n m E xc) (fun r => if r = i then 1 else 0) col) * f i = eval x P) ∧
      ∀ Q : MvPolynomial (Fin d) ℝ, Q.totalDegree ≤ k →
        ∑ i : Fin n, (eval (xc i) P - f i) ^ 2 ≤ ∑ i : Fin n, (eval (xc i) Q - f i) ^ 2 := by
  subst hl
  exact (ls_core E hE hm hd hU).2

/-! ### The theorems -/

/-- The running index of the code visits exactly the rows it allocated: no entry of the work matrices is
written out of range and none is left zero. -/
theorem C218_rows (dim degree : ℕ) :
    (∀ b, interpBasis dim degree = some b → b.2.length = b.1) ∧ (∀ b, lsBasis dim degree = some b → b.2.length = b.1) := by
  constructor
  · intro b hb
    rcases dim with _ | _ | _ | dim
    · simp [interpBasis] at hb
    · simp only [interpBasis, Option.some.injEq] at hb; subst hb; rw [ls1_eq]; exact ls1_length _
    · simp only [interpBasis, Option.some.injEq] at hb; subst hb; exact interp2_length _
    · simp [interpBasis] at hb
  · intro b hb
    rcases dim with _ | _ | _ | _ | dim
    · simp [lsBasis] at hb
    · simp only [lsBasis, Option.some.injEq] at hb; subst hb; exact ls1_length _
    · simp only [lsBasis, Option.some.injEq] at hb; subst hb; exact ls2_length _
    · simp only [lsBasis, Option.some.injEq] at hb; subst hb; exact ls3_length _
    · simp [lsBasis] at hb

/-- `buildInterpolation` in one and two dimensions: at every quadrature point the weights reproduce every
polynomial up to the degree, and among all weights that do, they have the least norm. -/
theorem C218_minimum_norm {dgels : Lapack} (hd : IsDgels dgels) (dim degree n : ℕ) (xc xq : ℕ → Fin dim → ℝ)
    (hU : Unisolvent degree n xc) {W : ℕ → Fin n → ℝ} (hW : buildInterpolation dgels dim degree n xc xq = some W) (i : ℕ) :
    Exact degree n xc (xq i) (W i) ∧ ∀ w, Exact degree n xc (xq i) w → ∑ j, W i j ^ 2 ≤ ∑ j, w j ^ 2 := by
  unfold buildInterpolation at hW
  rcases dim with _ | _ | _ | dim
  · simp [interpBasis] at hW
  · simp only [interpBasis, Option.map_some, Option.some.injEq] at hW
    subst hW
    have := interp_core' (m := degree + 1) (interpExps1 degree) (by rw [ls1_eq]; exact ls1_nodup degree) (by rw [ls1_eq]; exact ls1_mem degree) hd
      (by simp [interpExps1]) (by rw [ls1_eq]; exact ls1_length degree) hU (xq i)
    exact this
  · simp only [interpBasis, Option.map_some, Option.some.injEq] at hW
    subst hW
    exact interp_core' _ (interp2_nodup degree) (interp2_mem degree) hd (by simp [interpExps2]) (interp2_length degree) hU (xq i)
  · simp [interpBasis] at hW

/-- `buildInterpolation` serves one and two dimensions and raises for all others. -/
theorem C218_dimensions (dgels : Lapack) (dim degree n : ℕ) (xc xq : ℕ → Fin dim → ℝ) :
    ((buildInterpolation dgels dim degree n xc xq).isSome ↔ dim = 1 ∨ dim = 2) ∧
    ((buildLSInterpolation dgels dim degree n xc xq).isSome ↔ dim = 1 ∨ dim = 2 ∨ dim = 3) := by
  constructor
  · unfold buildInterpolation
    rcases dim with _ | _ | _ | dim <;> simp [interpBasis]
  · unfold buildLSInterpolation
    rcases dim with _ | _ | _ | _ | dim <;> simp [lsBasis]

/-- `buildLSInterpolation` in one, two and three dimensions: for any data on the centres the result at every
quadrature point is the value of one polynomial of the degree, the least-squares fit of the data. -/
theorem C218_least_squares {dgels : Lapack} (hd : IsDgels dgels) (dim degree n : ℕ) (xc xq : ℕ → Fin dim → ℝ)
    (hU : Unisolvent degree n xc) {W : ℕ → Fin n → ℝ} (hW : buildLSInterpolation dgels dim degree n xc xq = some W)
    (f : Fin n → ℝ) : ∃ P : MvPolynomial (Fin dim) ℝ, P.totalDegree ≤ degree ∧
      (∀ j, ∑ i, W j i * f i = eval (xq j) P) ∧
      ∀ Q : MvPolynomial (Fin dim) ℝ, Q.totalDegree ≤ degree →
        ∑ i : Fin n, (eval (xc i) P - f i) ^ 2 ≤ ∑ i : Fin n, (eval (xc i) Q - f i) ^ 2 := by
  unfold buildLSInterpolation at hW
  rcases dim with _ | _ | _ | _ | dim
  · simp [lsBasis] at hW
  · simp only [lsBasis, Option.map_some, Option.some.injEq] at hW
    subst hW
    obtain ⟨P, h1, h2, h3⟩ := ls_core' _ (ls1_nodup degree) (ls1_mem degree) hd (ls1_length degree) hU f
    exact ⟨P, h1, fun j => h2 (xq j), h3⟩
  · simp only [lsBasis, Option.map_some, Option.some.injEq] at hW
    subst hW
    obtain ⟨P, h1, h2, h3⟩ := ls_core' _ (ls2_nodup degree) (ls2_mem degree) hd (ls2_length degree) hU f
    exact ⟨P, h1, fun j => h2 (xq j), h3⟩
  · simp only [lsBasis, Option.map_some, Option.some.injEq] at hW
    subst hW
    obtain ⟨P, h1, h2, h3⟩ := ls_core' _ (ls3_nodup degree) (ls3_mem degree) hd (ls3_length degree) hU f
    exact ⟨P, h1, fun j => h2 (xq j), h3⟩
  · simp [lsBasis] at hW

/-- In particular the least-squares reconstruction reproduces every polynomial up to the degree. -/
theorem C218_least_squares_exact {dgels : Lapack} (hd : IsDgels dgels) (dim degree n : ℕ) (xc xq : ℕ → Fin dim → ℝ)
    (hU : Unisolvent degree n xc) {W : ℕ → Fin n → ℝ} (hW : buildLSInterpolation dgels dim degree n xc xq = some W)
    (j : ℕ) : Exact degree n xc (xq j) (W j) := by
  intro p hp
  obtain ⟨P, h1, h2, h3⟩ := C218_least_squares hd dim degree n xc xq hU hW (fun i => eval (xc i) p)
  have h4 := h3 p hp
  simp only [sub_self, ne_eq, OfNat.ofNat_ne_zero, not_false_eq_true, zero_pow, sum_const_zero] at h4
  have h5 : ∀ i : Fin n, eval (xc i) (P - p) = 0 := by
    intro i
    have h0 := (sum_eq_zero_iff_of_nonneg fun i _ => sq_nonneg _).1 (le_antisymm h4 (sum_nonneg fun i _ => sq_nonneg _))
      i (mem_univ i)
    rw [map_sub]
    exact pow_eq_zero_iff (two_ne_zero) |>.1 h0
  have h6 : P - p = 0 := hU _ ((totalDegree_sub _ _).trans (max_le h1 hp)) fun i hi => h5 ⟨i, hi⟩
  rw [h2 j, sub_eq_zero.1 h6]

/-- Either operator preserves constants: its rows sum to one. -/
theorem C218_partition_of_unity {dgels : Lapack} (hd : IsDgels dgels) (dim degree n : ℕ) (xc xq : ℕ → Fin dim → ℝ)
    (hU : Unisolvent degree n xc) {W : ℕ → Fin n → ℝ} (hW : buildInterpolation dgels dim degree n xc xq = some W ∨
      buildLSInterpolation dgels dim degree n xc xq = some W) (i : ℕ) : ∑ j, W i j = 1 := by
  have he : Exact degree n xc (xq i) (W i) := by
    rcases hW with h | h
    · exact (C218_minimum_norm hd dim degree n xc xq hU h i).1
    · exact C218_least_squares_exact hd dim degree n xc xq hU h i
  have := he (C 1) (by simp)
  simpa using this

theorem work_ok {a b : ℕ} (ha : 1 ≤ a) (hb : 1 ≤ b) : a + b ≤ 2 * a * b := by nlinarith

/-- The LAPACK call of either function is legal exactly when there are at least as many centres as basis
functions; otherwise it solves nothing (and the error flag is only looked at in debug builds). -/
theorem C218_enough_centres (m n : ℕ) (hm : 1 ≤ m) (hn : 1 ≤ n) :
    (dgelsArgsOk m n 1 n (2 * m * n) = true ↔ m ≤ n) ∧ (dgelsArgsOk n m n n (2 * n * m) = true ↔ m ≤ n) := by
  have h := work_ok hm hn
  have h' := work_ok hn hm
  have e1 : m ≤ m * n := Nat.le_mul_of_pos_right _ hn
  have e2 : n ≤ m * n := Nat.le_mul_of_pos_left _ hm
  have e3 : 2 * m * n = 2 * (m * n) := by ring
  have e4 : 2 * n * m = 2 * (m * n) := by ring
  unfold dgelsArgsOk
  simp only [Bool.and_eq_true, decide_eq_true_eq]
  constructor
  · constructor
    · intro h; omega
    · intro h; refine ⟨by omega, ?_⟩; rw [e3]; omega
  · constructor
    · intro h; omega
    · intro h; refine ⟨by omega, ?_⟩; rw [e4]; omega

/-- Unisolvent centres are always enough. -/
theorem C218_unisolvent_enough {dgels : Lapack} (hd : IsDgels dgels) (dim degree n : ℕ) (xc : ℕ → Fin dim → ℝ)
    (hU : Unisolvent degree n xc) : ∀ b, lsBasis dim degree = some b → b.1 ≤ n := by
  intro b hb
  rw [← (C218_rows dim degree).2 b hb]
  rcases dim with _ | _ | _ | _ | dim
  · simp [lsBasis] at hb
  · simp only [lsBasis, Option.some.injEq] at hb; subst hb
    exact (ls_core _ (ls1_nodup degree) (ls1_mem degree) hd hU).1
  · simp only [lsBasis, Option.some.injEq] at hb; subst hb
    exact (ls_core _ (ls2_nodup degree) (ls2_mem degree) hd hU).1
  · simp only [lsBasis, Option.some.injEq] at hb; subst hb
    exact (ls_core _ (ls3_nodup degree) (ls3_mem degree) hd hU).1
  · simp [lsBasis] at hb

/-! ### Non-vacuity -/

theorem gram_injective {m n : ℕ} (A : Matrix (Fin m) (Fin n) ℝ) (h : ∀ y, A *ᵥ y = 0 → y = 0) :
    ∀ y, (Aᵀ * A) *ᵥ y = 0 → y = 0 := by
  intro y hy
  apply h
  have : (A *ᵥ y) ⬝ᵥ (A *ᵥ y) = 0 := by
    rw [dotProduct_comm, dotProduct_mulVec, ← mulVec_transpose, mulVec_mulVec, hy, zero_dotProduct]
  exact dotProduct_self_eq_zero.1 this

theorem gram_solve {m n : ℕ} (A : Matrix (Fin m) (Fin n) ℝ) (h : ∀ y, A *ᵥ y = 0 → y = 0) (b : Fin n → ℝ) :
    ∃ y, (Aᵀ * A) *ᵥ y = b := by
  have hinj : Function.Injective (Aᵀ * A).mulVecLin := by
    rw [← LinearMap.ker_eq_bot, LinearMap.ker_eq_bot']
    exact gram_injective A h
  exact LinearMap.injective_iff_surjective.1 hinj b

/-- A solver meeting the contract exists. -/
theorem exists_dgels : ∃ dgels, IsDgels dgels := by
  classical
  have hex : ∀ m n (A : Matrix (Fin m) (Fin n) ℝ) (b : Fin m → ℝ), ∃ x : Fin n → ℝ,
      (m ≤ n → (∀ y, Aᵀ *ᵥ y = 0 → y = 0) → A *ᵥ x = b ∧ ∀ z, A *ᵥ z = b → ∑ j, x j ^ 2 ≤ ∑ j, z j ^ 2) ∧
      (n ≤ m → (∀ y, A *ᵥ y = 0 → y = 0) → Aᵀ *ᵥ (A *ᵥ x - b) = 0) := by
    intro m n A b
    by_cases h1 : ∀ y, Aᵀ *ᵥ y = 0 → y = 0
    · obtain ⟨y, hy⟩ := gram_solve Aᵀ h1 b
      rw [transpose_transpose, ← mulVec_mulVec] at hy
      refine ⟨Aᵀ *ᵥ y, fun _ _ => ⟨hy, fun z hz => ?_⟩, fun _ _ => by rw [hy, sub_self, mulVec_zero]⟩
      have ho : ∑ j, (Aᵀ *ᵥ y) j * (z - Aᵀ *ᵥ y) j = 0 := by
        change (Aᵀ *ᵥ y) ⬝ᵥ (z - Aᵀ *ᵥ y) = 0
        rw [mulVec_transpose, ← dotProduct_mulVec, mulVec_sub, ← mulVec_transpose, hy, hz, sub_self, dotProduct_zero]
      have : ∑ j, z j ^ 2 = ∑ j, (Aᵀ *ᵥ y) j ^ 2 + ∑ j, (z - Aᵀ *ᵥ y) j ^ 2 +
          2 * ∑ j, (Aᵀ *ᵥ y) j * (z - Aᵀ *ᵥ y) j := by
        rw [mul_sum, ← sum_add_distrib, ← sum_add_distrib]
        refine sum_congr rfl fun j _ => ?_
        simp only [Pi.sub_apply]; ring
      rw [this, ho]
      have : 0 ≤ ∑ j, (z - Aᵀ *ᵥ y) j ^ 2 := sum_nonneg fun j _ => sq_nonneg _
      linarith
    · by_cases h2 : ∀ y, A *ᵥ y = 0 → y = 0
      · obtain ⟨y, hy⟩ := gram_solve A h2 (Aᵀ *ᵥ b)
        refine ⟨y, fun _ h => absurd h h1, fun _ _ => ?_⟩
        rw [mulVec_sub, mulVec_mulVec, hy, sub_self]
      · exact ⟨0, fun _ h => absurd h h1, fun _ h => absurd h h2⟩
  choose f hf using hex
  exact ⟨f, ⟨fun m n A b => (hf m n A b).1, fun m n A b => (hf m n A b).2⟩⟩

/-- Three vertices of a triangle and one more point determine affine functions of two variables. -/
def tri4 : ℕ → Fin 2 → ℝ
  | 0 => ![0, 0]
  | 1 => ![1, 0]
  | 2 => ![0, 1]
  | _ => ![1, 1]

theorem tri4_unisolvent : Unisolvent 1 4 tri4 := by
  intro p hp h
  have hr : ∀ x, eval x p = ∑ a : Fin (lsExps2 1).length, coeff (fs (lsExps2 1)[a.1]) p * mon (lsExps2 1)[a.1] x :=
    fun x => eval_repr _ (ls2_nodup 1) (ls2_mem 1) p hp x
  have hr' : ∀ x, eval x p = coeff (fs ![0, 0]) p + coeff (fs ![1, 0]) p * x 0 + coeff (fs ![0, 1]) p * x 1 := by
    intro x
    rw [hr x, Fin.sum_univ_fun_getElem (lsExps2 1) (fun e => coeff (fs e) p * mon e x)]
    have : lsExps2 1 = [![0, 0], ![1, 0], ![0, 1]] := rfl
    rw [this]
    simp [mon, Fin.prod_univ_two]
    ring
  have h0 := h 0 (by norm_num)
  have h1 := h 1 (by norm_num)
  have h2 := h 2 (by norm_num)
  rw [hr'] at h0 h1 h2
  simp only [tri4, cons_val_zero, cons_val_one, mul_zero, mul_one, add_zero] at h0 h1 h2
  have c1 : coeff (fs ![1, 0]) p = 0 := by linarith
  have c2 : coeff (fs ![0, 1]) p = 0 := by linarith
  apply MvPolynomial.funext
  intro x
  rw [hr' x, h0, c1, c2]; simp

example : ∃ dgels W, IsDgels dgels ∧ buildInterpolation dgels 2 1 4 tri4 (fun _ => ![1 / 3, 1 / 2]) = some W ∧
    Exact 1 4 tri4 ![1 / 3, 1 / 2] (W 0) := by
  obtain ⟨dgels, hd⟩ := exists_dgels
  obtain ⟨W, hW⟩ := Option.isSome_iff_exists.1 ((C218_dimensions dgels 2 1 4 tri4 (fun _ => ![1 / 3, 1 / 2])).1.2 (by simp))
  exact ⟨dgels, W, hd, hW, (C218_minimum_norm hd 2 1 4 tri4 _ tri4_unisolvent hW 0).1⟩

end Verif.Reconstruct
