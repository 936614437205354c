import Verif.Dense
import Verif.SbpLemmas
import Mathlib.Analysis.SpecialFunctions.Sqrt
import Mathlib.Analysis.Calculus.Deriv.Mul
import Mathlib.Analysis.Calculus.Deriv.Add
import Mathlib.Analysis.Calculus.Deriv.Inv
import Mathlib.Analysis.Calculus.Deriv.Slope
import Mathlib.Algebra.Order.BigOperators.Ring.Finset
import Mathlib.Analysis.Real.Sqrt
import Mathlib.Algebra.BigOperators.Field

/-! Lemmas about the dense operations of `Dense.lean`. -/

namespace Verif.Dense
open Finset Verif.Sbp

variable {m n k : ℕ}

theorem forN_vec {ι : Type*} (N : ℕ) (body : ℕ → (ι → ℝ) → (ι → ℝ)) (f : ℕ → ι → ℝ)
    (h : ∀ i v r, body i v r = v r + f i r) (s : ι → ℝ) (r : ι) :
    forN N body s r = s r + ∑ i ∈ range N, f i r := by
  induction N with
  | zero => simp [forN]
  | succ N ih => rw [forN, h, ih, sum_range_succ]; ring

theorem forN_mat {ι κ : Type*} (N : ℕ) (body : ℕ → (ι → κ → ℝ) → (ι → κ → ℝ)) (f : ℕ → ι → κ → ℝ)
    (h : ∀ i v r c, body i v r c = v r c + f i r c) (s : ι → κ → ℝ) (r : ι) (c : κ) :
    forN N body s r c = s r c + ∑ i ∈ range N, f i r c := by
  induction N with
  | zero => simp [forN]
  | succ N ih => rw [forN, h, ih, sum_range_succ]; ring

theorem dotv_comm (a b : Vec n) : dotv a b = dotv b a := sum_congr rfl fun _ _ => mul_comm _ _

theorem dotv_add_left (a b c : Vec n) : dotv (fun i => a i + b i) c = dotv a c + dotv b c := by
  unfold dotv; rw [← sum_add_distrib]; exact sum_congr rfl fun _ _ => by ring

theorem dotv_sub_left (a b c : Vec n) : dotv (fun i => a i - b i) c = dotv a c - dotv b c := by
  unfold dotv; rw [← sum_sub_distrib]; exact sum_congr rfl fun _ _ => by ring

theorem dotv_smul_left (x : ℝ) (a b : Vec n) : dotv (fun i => x * a i) b = x * dotv a b := by
  unfold dotv; rw [mul_sum]; exact sum_congr rfl fun _ _ => by ring

theorem dotv_add_right (a b c : Vec n) : dotv c (fun i => a i + b i) = dotv c a + dotv c b := by
  unfold dotv; rw [← sum_add_distrib]; exact sum_congr rfl fun _ _ => by ring

theorem dotv_sub_right (a b c : Vec n) : dotv c (fun i => a i - b i) = dotv c a - dotv c b := by
  unfold dotv; rw [← sum_sub_distrib]; exact sum_congr rfl fun _ _ => by ring

theorem dotv_smul_right (x : ℝ) (a b : Vec n) : dotv a (fun i => x * b i) = x * dotv a b := by
  unfold dotv; rw [mul_sum]; exact sum_congr rfl fun _ _ => by ring

theorem dotv_self_nonneg (a : Vec n) : 0 ≤ dotv a a := sum_nonneg fun _ _ => mul_self_nonneg _

theorem dotv_self_eq_zero (a : Vec n) : dotv a a = 0 ↔ ∀ i, a i = 0 := by
  unfold dotv
  rw [sum_eq_zero_iff_of_nonneg fun _ _ => mul_self_nonneg _]
  simp

theorem dotv_sq_le (a b : Vec n) : dotv a b ^ 2 ≤ dotv a a * dotv b b := by
  unfold dotv
  have := sum_mul_sq_le_sq_mul_sq univ a b
  simpa [pow_two] using this

theorem dotv_sum_right {ι : Type*} (s : Finset ι) (a : Vec n) (f : ι → Vec n) :
    dotv a (fun r => ∑ i ∈ s, f i r) = ∑ i ∈ s, dotv a (f i) := by
  unfold dotv
  rw [sum_comm]
  exact sum_congr rfl fun _ _ => by rw [mul_sum]

theorem norm2_nonneg (a : Vec n) : 0 ≤ norm2 a := Real.sqrt_nonneg _

theorem norm2_sq (a : Vec n) : norm2 a ^ 2 = dotv a a := Real.sq_sqrt (dotv_self_nonneg a)

theorem norm2_eq_zero (a : Vec n) : norm2 a = 0 ↔ ∀ i, a i = 0 := by
  rw [norm2, Real.sqrt_eq_zero (dotv_self_nonneg a), dotv_self_eq_zero]

theorem norm2_div (a : Vec n) (x : ℝ) (hx : 0 < x) : norm2 (fun i => a i / x) = norm2 a / x := by
  have h : dotv (fun i => a i / x) (fun i => a i / x) = dotv a a / x ^ 2 := by
    unfold dotv
    rw [sum_div]
    exact sum_congr rfl fun _ _ => by rw [div_mul_div_comm, pow_two]
  rw [norm2, h, Real.sqrt_div (dotv_self_nonneg a), Real.sqrt_sq hx.le, norm2]

theorem dotv_le_norm (a b : Vec n) : dotv a b ≤ norm2 a * norm2 b := by
  have h := dotv_sq_le a b
  rw [← norm2_sq, ← norm2_sq, ← mul_pow] at h
  exact le_trans (le_abs_self _) (abs_le_of_sq_le_sq' h (mul_nonneg (norm2_nonneg _) (norm2_nonneg _)) |>
    abs_le.2)

theorem abs_dotv_le_norm (a b : Vec n) : |dotv a b| ≤ norm2 a * norm2 b := by
  have h := dotv_sq_le a b
  rw [← norm2_sq, ← norm2_sq, ← mul_pow] at h
  exact abs_le.2 (abs_le_of_sq_le_sq' h (mul_nonneg (norm2_nonneg _) (norm2_nonneg _)))

theorem mulTV_add (A : Mat m n) (x y : Vec m) (j : Fin n) :
    mulTV A (fun i => x i + y i) j = mulTV A x j + mulTV A y j := by
  unfold mulTV; rw [← sum_add_distrib]; exact sum_congr rfl fun _ _ => by ring

theorem mulTV_sub (A : Mat m n) (x y : Vec m) (j : Fin n) :
    mulTV A (fun i => x i - y i) j = mulTV A x j - mulTV A y j := by
  unfold mulTV; rw [← sum_sub_distrib]; exact sum_congr rfl fun _ _ => by ring

theorem mulTV_smul (A : Mat m n) (t : ℝ) (x : Vec m) (j : Fin n) :
    mulTV A (fun i => t * x i) j = t * mulTV A x j := by
  unfold mulTV; rw [mul_sum]; exact sum_congr rfl fun _ _ => by ring

/-- `ψ · (A x) = (Aᵀ ψ) · x`. -/
theorem dotv_mulV (A : Mat m n) (x : Vec n) (psi : Vec m) :
    dotv psi (mulV A x) = dotv (mulTV A psi) x := by
  unfold dotv mulV mulTV
  simp only [mul_sum, sum_mul]
  rw [sum_comm]
  exact sum_congr rfl fun _ _ => sum_congr rfl fun _ _ => by ring

theorem hasDerivAt_dotv (a b : ℝ → Vec n) (a' b' : Vec n) (t : ℝ)
    (ha : ∀ i, HasDerivAt (fun s => a s i) (a' i) t) (hb : ∀ i, HasDerivAt (fun s => b s i) (b' i) t) :
    HasDerivAt (fun s => dotv (a s) (b s)) (dotv a' (b t) + dotv (a t) b') t := by
  unfold dotv
  refine (HasDerivAt.fun_sum fun i _ => (ha i).fun_mul (hb i)).congr_deriv ?_
  rw [← sum_add_distrib]

theorem hasDerivAt_norm2 (a : ℝ → Vec n) (a' : Vec n) (t : ℝ)
    (ha : ∀ i, HasDerivAt (fun s => a s i) (a' i) t) (h0 : norm2 (a t) ≠ 0) :
    HasDerivAt (fun s => norm2 (a s)) (dotv (a t) a' / norm2 (a t)) t := by
  have h := hasDerivAt_dotv a a a' a' t ha ha
  have hne : dotv (a t) (a t) ≠ 0 := by
    intro h; apply h0; rw [norm2, h, Real.sqrt_zero]
  refine (h.sqrt hne).congr_deriv ?_
  rw [dotv_comm a' (a t), norm2]
  field_simp
  ring

theorem continuousAt_norm2 (a : ℝ → Vec n) (t : ℝ) (ha : ∀ i, ContinuousAt (fun s => a s i) t) :
    ContinuousAt (fun s => norm2 (a s)) t := by
  unfold norm2 dotv
  apply ContinuousAt.sqrt
  exact tendsto_finsetSum _ fun i _ => (ha i).mul (ha i)

/-- A product whose second factor vanishes only needs continuity of the first. -/
theorem hasDerivAt_mul_of_zero (f g : ℝ → ℝ) (g' t : ℝ) (hf : ContinuousAt f t)
    (hg : HasDerivAt g g' t) (h0 : g t = 0) : HasDerivAt (fun s => f s * g s) (f t * g') t := by
  rw [hasDerivAt_iff_tendsto_slope] at hg ⊢
  have h : slope (fun s => f s * g s) t = fun s => f s * slope g t s := by
    funext s
    simp only [slope_def_field, h0, mul_zero, sub_zero]
    ring
  rw [h]
  exact (hf.tendsto.mono_left nhdsWithin_le_nhds).mul hg

/-- `w · F(|g|)` along a curve through `g = 0`, for `F' (0) = 0`. -/
theorem hasDerivAt_comp_norm_of_zero (F : ℝ → ℝ) (g : ℝ → Vec n) (g' : Vec n) (t : ℝ)
    (hF : HasDerivAt F 0 0) (hg : ∀ i, HasDerivAt (fun s => g s i) (g' i) t) (h0 : norm2 (g t) = 0) :
    HasDerivAt (fun s => F (norm2 (g s))) 0 t := by
  have hg0 : ∀ i, g t i = 0 := (norm2_eq_zero _).1 h0
  rw [hasDerivAt_iff_isLittleO] at hF ⊢
  simp only [smul_zero, sub_zero, h0] at hF ⊢
  have hc : Filter.Tendsto (fun s => norm2 (g s)) (nhds t) (nhds 0) := by
    have := continuousAt_norm2 g t fun i => (hg i).continuousAt
    rw [ContinuousAt, h0] at this
    exact this
  refine (hF.comp_tendsto hc).trans_isBigO ?_
  -- |g(s)| = O(s - t)
  have hO : ∀ i, (fun s => g s i) =O[nhds t] fun s => s - t := by
    intro i
    have := (hg i).isBigO_sub
    simpa [hg0 i] using this
  have h1 : (fun s => ∑ i, |g s i|) =O[nhds t] fun s => s - t :=
    Asymptotics.IsBigO.fun_sum fun i _ => (hO i).abs_left
  refine Asymptotics.IsBigO.trans (Asymptotics.IsBigO.of_bound 1 ?_) h1
  refine Filter.Eventually.of_forall fun s => ?_
  have hs : 0 ≤ ∑ i, |g s i| := sum_nonneg fun _ _ => abs_nonneg _
  simp only [Function.comp, one_mul, Real.norm_eq_abs]
  rw [abs_of_nonneg (norm2_nonneg _), abs_of_nonneg hs, norm2]
  apply Real.sqrt_le_iff.2
  refine ⟨hs, ?_⟩
  unfold dotv
  calc ∑ i, g s i * g s i = ∑ i, |g s i| ^ 2 := sum_congr rfl fun i _ => by rw [sq_abs, pow_two]
    _ ≤ (∑ i, |g s i|) ^ 2 := sum_sq_le_sq_sum_of_nonneg fun _ _ => abs_nonneg _

end Verif.Dense
