import Verif.OrthoPolyProps
import Mathlib.Analysis.Calculus.Deriv.Mul
import Mathlib.Analysis.Calculus.Deriv.Add
import Mathlib.Analysis.Calculus.Deriv.Pow
import Mathlib.MeasureTheory.Integral.IntervalIntegral.FundThmCalculus
import Mathlib.Tactic.LinearCombination

/-! # Orthonormality of the polynomial bases as integrals (C83) -/

namespace Verif.OrthoPoly

open Real

section Rec
variable (α x : ℝ)

/-- Recurrence coefficients of the classical polynomials for `β = 0`. -/
noncomputable def cA (α : ℝ) (n : ℕ) : ℝ := (2 * n + α + 3) * (2 * n + α + 4) / (2 * (n + 2) * (n + 2 + α))
noncomputable def cB (α : ℝ) (n : ℕ) : ℝ := (2 * n + α + 3) * α ^ 2 / (2 * (n + 2) * (n + 2 + α) * (2 * n + α + 2))
noncomputable def cC (α : ℝ) (n : ℕ) : ℝ := (n + 1 + α) * (n + 1) * (2 * n + α + 4) / ((n + 2) * (n + 2 + α) * (2 * n + α + 2))

theorem P_rec (ha : 0 ≤ α) (n : ℕ) : P α 0 x (n + 2) = (cA α n * x + cB α n) * P α 0 x (n + 1) - cC α n * P α 0 x n := by
  have hn : (0 : ℝ) ≤ n := Nat.cast_nonneg n
  have h1 : (n : ℝ) + 2 ≠ 0 := by positivity
  have h2 : (n : ℝ) + 2 + α ≠ 0 := by positivity
  have h3 : 2 * (n : ℝ) + α + 2 ≠ 0 := by positivity
  rw [P]
  generalize P α 0 x (n + 1) = u
  generalize P α 0 x n = v
  unfold cA cB cC
  rw [show 2 * ((n : ℝ) + 2) + α + 0 - 2 = 2 * n + α + 2 by ring, add_zero]
  field_simp
  ring

/-- Derivative of the classical polynomial. -/
noncomputable def dP (α x : ℝ) : ℕ → ℝ
  | 0 => 0
  | 1 => (α + 2) / 2
  | n + 2 => cA α n * P α 0 x (n + 1) + (cA α n * x + cB α n) * dP α x (n + 1) - cC α n * dP α x n

theorem dP_hasDerivAt (ha : 0 ≤ α) (n : ℕ) : HasDerivAt (fun x => P α 0 x n) (dP α x n) x := by
  induction n using Nat.strong_induction_on with
  | _ n ih =>
    match n with
    | 0 => simpa [P, dP] using hasDerivAt_const x (1 : ℝ)
    | 1 =>
      have : (fun x => P α 0 x 1) = fun x : ℝ => ((α + 0 + 2) * x + (α - 0)) / 2 := by funext y; rw [P]
      rw [this]
      have h := ((((hasDerivAt_id' x).const_mul (α + 0 + 2)).add_const (α - 0)).div_const 2)
      exact h.congr_deriv (by simp only [dP]; ring)
    | n + 2 =>
      have : (fun x => P α 0 x (n + 2)) = fun x : ℝ => (cA α n * x + cB α n) * P α 0 x (n + 1) - cC α n * P α 0 x n := by
        funext y; exact P_rec α y ha n
      rw [this]
      have h1 := ih (n + 1) (by omega)
      have h0 := ih n (by omega)
      have h := ((((hasDerivAt_id' x).const_mul (cA α n)).add_const (cB α n)).mul h1).sub (h0.const_mul (cC α n))
      exact h.congr_deriv (by simp only [dP]; ring)

/-- The structure relation. -/
def Str (n : ℕ) : Prop := (1 - x ^ 2) * dP α x n = (-n * x + n * α / (2 * n + α)) * P α 0 x n + 2 * (n + α) * n / (2 * n + α) * P α 0 x (n - 1)

theorem str_step (ha : 0 ≤ α) (k : ℕ) (h1 : Str α x (k + 1)) (h2 : Str α x (k + 2)) : Str α x (k + 3) := by
  have hk : (0 : ℝ) ≤ k := Nat.cast_nonneg k
  have r1 := P_rec α x ha k
  have r2 := P_rec α x ha (k + 1)
  have rd : dP α x (k + 3) = cA α (k + 1) * P α 0 x (k + 2) + (cA α (k + 1) * x + cB α (k + 1)) * dP α x (k + 2) - cC α (k + 1) * dP α x (k + 1) := by
    rw [dP]
  unfold Str at *
  rw [show k + 3 - 1 = k + 2 from rfl]
  rw [show k + 2 - 1 = k + 1 from rfl] at h2
  rw [show k + 1 - 1 = k from rfl] at h1
  rw [show k + 1 + 2 = k + 3 from rfl, show k + 1 + 1 = k + 2 from rfl] at r2
  generalize dP α x (k + 3) = d3 at *
  generalize dP α x (k + 2) = d2 at *
  generalize dP α x (k + 1) = d1 at *
  generalize P α 0 x (k + 3) = p3 at *
  generalize P α 0 x (k + 2) = p2 at *
  generalize P α 0 x (k + 1) = p1 at *
  generalize P α 0 x k = p0 at *
  have e : (1 - x ^ 2) * d3 = cA α (k + 1) * (1 - x ^ 2) * p2 + (cA α (k + 1) * x + cB α (k + 1)) * ((1 - x ^ 2) * d2) - cC α (k + 1) * ((1 - x ^ 2) * d1) := by
    rw [rd]; ring
  rw [e, h1, h2, r2]
  have hC : p0 = ((cA α k * x + cB α k) * p1 - p2) / cC α k := by
    rw [r1]
    have : cC α k ≠ 0 := by unfold cC; positivity
    field_simp; ring
  rw [hC]
  unfold cA cB cC
  push_cast
  generalize (k : ℝ) = n at *
  have n1 : n + 1 ≠ 0 := by positivity
  have n2 : n + 2 ≠ 0 := by positivity
  have n3 : n + 3 ≠ 0 := by positivity
  have n4 : n + 2 + α ≠ 0 := by positivity
  have n5 : n + 3 + α ≠ 0 := by positivity
  have n6 : n + 1 + α ≠ 0 := by positivity
  have n7 : 2 * n + α + 2 ≠ 0 := by positivity
  have n8 : 2 * n + α + 4 ≠ 0 := by positivity
  have n9 : 2 * n + α + 6 ≠ 0 := by positivity
  rw [show n + 1 + 2 = n + 3 by ring, show 2 * (n + 1) + α + 2 = 2 * n + α + 4 by ring, show 2 * (n + 1) + α + 3 = 2 * n + α + 5 by ring,
    show 2 * (n + 1) + α + 4 = 2 * n + α + 6 by ring, show 2 * (n + 1) + α = 2 * n + α + 2 by ring, show 2 * (n + 2) + α = 2 * n + α + 4 by ring,
    show 2 * (n + 3) + α = 2 * n + α + 6 by ring]
  field_simp
  ring

theorem str_all (ha : 0 ≤ α) (n : ℕ) : Str α x n := by
  have s1 : Str α x 1 := by
    unfold Str; simp only [dP, P, show 1 - 1 = 0 from rfl]; push_cast
    have : 2 * (1 : ℝ) + α ≠ 0 := by positivity
    field_simp; ring
  have s2 : Str α x 2 := by
    unfold Str; rw [show (2 : ℕ) = 0 + 2 from rfl, P_rec α x ha 0]; simp only [dP, P, cA, cB, cC]; push_cast
    have h1 : α + 2 ≠ 0 := by positivity
    have h2 : α + 4 ≠ 0 := by positivity
    simp only [P, mul_zero, zero_add, add_zero, sub_zero]
    rw [show 2 * (2 : ℝ) + α = α + 4 by ring, show 2 + α = α + 2 by ring]
    field_simp; ring
  have key : ∀ n, Str α x (n + 1) ∧ Str α x (n + 2) := by
    intro n
    induction n with
    | zero => exact ⟨s1, s2⟩
    | succ n ih => exact ⟨ih.2, str_step α x ha n ih.1 ih.2⟩
  match n with
  | 0 => unfold Str; simp [dP]
  | n + 1 => exact (key n).1

end Rec

section Int
variable (a : ℕ)

theorem P_cont (α : ℝ) (ha : 0 ≤ α) (n : ℕ) : Continuous (fun x => P α 0 x n) :=
  continuous_iff_continuousAt.2 fun x => (dP_hasDerivAt α x ha n).continuousAt

/-- The weighted integral for natural `α = a`, `β = 0`. -/
noncomputable def L (a : ℕ) (f : ℝ → ℝ) : ℝ := ∫ x in (-1 : ℝ)..1, f x * (1 - x) ^ a

theorem L_add (f g : ℝ → ℝ) (hf : Continuous f) (hg : Continuous g) : L a (fun x => f x + g x) = L a f + L a g := by
  unfold L
  rw [← intervalIntegral.integral_add (by apply Continuous.intervalIntegrable; fun_prop) (by apply Continuous.intervalIntegrable; fun_prop)]
  simp only [add_mul]

theorem L_smul (c : ℝ) (f : ℝ → ℝ) : L a (fun x => c * f x) = c * L a f := by
  unfold L
  rw [← intervalIntegral.integral_const_mul]
  simp only [mul_assoc]

/-- Integration of the derivative of `(1-x)^(a+1) (1+x) P_n`. -/
theorem L_parts (n : ℕ) : L a (fun x => (1 - x ^ 2) * dP a x n - (a + (a + 2) * x) * P a 0 x n) = 0 := by
  have ha : (0 : ℝ) ≤ a := Nat.cast_nonneg a
  have hd : ∀ x : ℝ, HasDerivAt (fun x : ℝ => (1 - x) ^ (a + 1) * (1 + x) * P a 0 x n)
      (((1 - x ^ 2) * dP a x n - (a + (a + 2) * x) * P a 0 x n) * (1 - x) ^ a) x := by
    intro x
    have h1 : HasDerivAt (fun x : ℝ => 1 - x) (-1) x := by simpa using (hasDerivAt_id' x).const_sub 1
    have h2 : HasDerivAt (fun x : ℝ => 1 + x) 1 x := by simpa using (hasDerivAt_id' x).const_add 1
    have h := ((h1.pow (a + 1)).mul h2).mul (dP_hasDerivAt (a : ℝ) x ha n)
    refine h.congr_deriv ?_
    simp only [Pi.mul_apply, Pi.pow_apply, Nat.add_sub_cancel, pow_succ]
    push_cast
    ring
  have hc : Continuous (fun x : ℝ => ((1 - x ^ 2) * dP a x n - (a + (a + 2) * x) * P a 0 x n) * (1 - x) ^ a) := by
    have e : (fun x : ℝ => ((1 - x ^ 2) * dP a x n - (a + (a + 2) * x) * P a 0 x n) * (1 - x) ^ a) =
      fun x : ℝ => (((-n * x + n * a / (2 * n + a)) * P a 0 x n + 2 * (n + a) * n / (2 * n + a) * P a 0 x (n - 1)) - (a + (a + 2) * x) * P a 0 x n) * (1 - x) ^ a := by
      funext x
      have := str_all (a : ℝ) x ha n
      unfold Str at this
      rw [this]
    rw [e]
    have c1 := P_cont a ha n
    have c2 := P_cont a ha (n - 1)
    fun_prop
  unfold L
  rw [intervalIntegral.integral_eq_sub_of_hasDerivAt (fun x _ => hd x) (hc.intervalIntegrable _ _)]
  simp

/-- The classical polynomials of positive degree have weighted mean zero. -/
theorem L_P_zero (n : ℕ) : L a (fun x => P a 0 x (n + 1)) = 0 := by
  have ha : (0 : ℝ) ≤ a := Nat.cast_nonneg a
  have h0 : L a (fun x => P a 0 x 1) = 0 := by
    have h := L_parts a 0
    have e : (fun x : ℝ => (1 - x ^ 2) * dP a x 0 - (a + (a + 2) * x) * P a 0 x 0) = fun x => (-2) * P a 0 x 1 := by
      funext x; simp only [dP, P]; ring
    rw [e, L_smul] at h
    linarith
  have rel : ∀ n : ℕ, ∃ c d : ℝ, L a (fun x => P a 0 x (n + 2)) = c * L a (fun x => P a 0 x (n + 1)) + n * d * L a (fun x => P a 0 x n) := by
    intro n
    have hn : (0 : ℝ) ≤ n := Nat.cast_nonneg n
    have h := L_parts a (n + 1)
    have hA : cA a n ≠ 0 := by unfold cA; positivity
    have hden : 2 * (n : ℝ) + a + 2 ≠ 0 := by positivity
    refine ⟨cB a n + cA a n * ((n + 1) * a / (2 * n + a + 2) - a) / (n + a + 3), (n + 1 + a) * (n + 1) * (2 * n + a + 4) / ((n + 2) * (n + 2 + a) * (2 * n + a + 2) * (n + a + 3)), ?_⟩
    have e : (fun x : ℝ => (1 - x ^ 2) * dP a x (n + 1) - (a + (a + 2) * x) * P a 0 x (n + 1)) =
      fun x => (-(n + a + 3) / cA a n) * P a 0 x (n + 2) + (((n + a + 3) * cB a n / cA a n + ((n + 1) * a / (2 * n + a + 2) - a)) * P a 0 x (n + 1)
        + (-(n + a + 3) * cC a n / cA a n + 2 * (n + 1 + a) * (n + 1) / (2 * n + a + 2)) * P a 0 x n) := by
      funext x
      have hs := str_all (a : ℝ) x ha (n + 1)
      unfold Str at hs
      rw [show n + 1 - 1 = n from rfl] at hs
      rw [hs, P_rec (a : ℝ) x ha n]
      push_cast
      rw [show 2 * ((n : ℝ) + 1) + a = 2 * n + a + 2 by ring]
      field_simp
      ring
    rw [e, L_add a _ _ (by have := P_cont a ha (n + 2); fun_prop) (by have := P_cont a ha (n + 1); have := P_cont a ha n; fun_prop),
      L_add a _ _ (by have := P_cont a ha (n + 1); fun_prop) (by have := P_cont a ha n; fun_prop), L_smul, L_smul, L_smul] at h
    generalize L a (fun x => P a 0 x (n + 2)) = l2 at *
    generalize L a (fun x => P a 0 x (n + 1)) = l1 at *
    generalize L a (fun x => P a 0 x n) = l0 at *
    have : (n : ℝ) + a + 3 ≠ 0 := by positivity
    have e2 : l2 = (cB a n + cA a n * ((n + 1) * a / (2 * n + a + 2) - a) / (n + a + 3)) * l1 + (-cC a n + cA a n * (2 * (n + 1 + a) * (n + 1) / (2 * n + a + 2)) / (n + a + 3)) * l0 := by
      field_simp at h ⊢
      linarith
    rw [e2]
    congr 2
    unfold cA cC
    have n4 : (n : ℝ) + 2 + a ≠ 0 := by positivity
    have n5 : (n : ℝ) + 2 ≠ 0 := by positivity
    field_simp
    ring
  induction n using Nat.strong_induction_on with
  | _ n ih =>
    match n with
    | 0 => exact h0
    | 1 =>
      obtain ⟨c, d, h⟩ := rel 0
      rw [h, h0]; simp
    | n + 2 =>
      obtain ⟨c, d, h⟩ := rel (n + 1)
      rw [h, ih (n + 1) (by omega), ih n (by omega)]; simp

/-- A symmetric three-term recurrence with vanishing first row is orthogonal. -/
theorem favard (I : ℕ → ℕ → ℝ) (u v w h : ℕ → ℝ) (hu : ∀ m, u m ≠ 0) (hw : w 0 = 0)
    (hI : ∀ m n, u m * I (m + 1) n + v m * I m n + w m * I (m - 1) n = u n * I m (n + 1) + v n * I m n + w n * I m (n - 1))
    (h0 : ∀ n, I 0 (n + 1) = 0) (h00 : I 0 0 = h 0) (hh : ∀ m, h (m + 1) * u m = w (m + 1) * h m) :
    ∀ m n, m ≤ n → I m n = if m = n then h n else 0 := by
  intro m
  induction m using Nat.strong_induction_on with
  | _ m ih =>
    intro n hmn
    match m, n with
    | 0, 0 => simpa using h00
    | 0, n + 1 => simpa using h0 n
    | m + 1, 0 => omega
    | m + 1, n + 1 =>
      have hmn' : m ≤ n := by omega
      have key := hI m (n + 1)
      rw [show n + 1 - 1 = n from rfl, ih m (by omega) (n + 1 + 1) (by omega), ih m (by omega) (n + 1) (by omega), ih m (by omega) n hmn'] at key
      have hz : w m * I (m - 1) (n + 1) = 0 := by
        match m with
        | 0 => rw [hw, zero_mul]
        | m + 1 => rw [show m + 1 - 1 = m from rfl, ih m (by omega) (n + 1) (by omega), if_neg (by omega), mul_zero]
      rw [hz, if_neg (by omega : ¬ m = n + 1 + 1), if_neg (by omega : ¬ m = n + 1)] at key
      by_cases e : m = n
      · subst e
        simp only [if_true] at key ⊢
        have := hh m
        apply mul_left_cancel₀ (hu m)
        linarith
      · rw [if_neg e] at key
        rw [if_neg (by omega)]
        apply mul_left_cancel₀ (hu m)
        linarith

/-- Coefficients of `x P_n = u P_{n+1} + v P_n + w P_{n-1}`. -/
noncomputable def cu (a : ℕ) : ℕ → ℝ
  | 0 => 2 / (a + 2)
  | n + 1 => 1 / cA a n
noncomputable def cv (a : ℕ) : ℕ → ℝ
  | 0 => -a / (a + 2)
  | n + 1 => -cB a n / cA a n
noncomputable def cw (a : ℕ) : ℕ → ℝ
  | 0 => 0
  | n + 1 => cC a n / cA a n

theorem x_mul_P (x : ℝ) (n : ℕ) : x * P a 0 x n = cu a n * P a 0 x (n + 1) + cv a n * P a 0 x n + cw a n * P a 0 x (n - 1) := by
  have ha : (0 : ℝ) ≤ a := Nat.cast_nonneg a
  match n with
  | 0 =>
    have : (a : ℝ) + 2 ≠ 0 := by positivity
    simp only [P, cu, cv, cw]
    field_simp; ring
  | n + 1 =>
    have hA : cA a n ≠ 0 := by unfold cA; positivity
    rw [show n + 1 - 1 = n from rfl, show n + 1 + 1 = n + 2 from rfl, P_rec (a : ℝ) x ha n]
    simp only [cu, cv, cw]
    field_simp; ring

theorem L_sum3 (c₁ c₂ c₃ : ℝ) (f g k : ℝ → ℝ) (hf : Continuous f) (hg : Continuous g) (hk : Continuous k) :
    L a (fun x => c₁ * f x + c₂ * g x + c₃ * k x) = c₁ * L a f + c₂ * L a g + c₃ * L a k := by
  rw [L_add a (fun x => c₁ * f x + c₂ * g x) _ (by fun_prop) (by fun_prop), L_add a _ _ (by fun_prop) (by fun_prop), L_smul, L_smul, L_smul]

theorem L_one : L a (fun _ => 1) = hnorm a 0 0 := by
  have ha : (0 : ℝ) ≤ a := Nat.cast_nonneg a
  have hd : ∀ x : ℝ, HasDerivAt (fun x : ℝ => -(1 - x) ^ (a + 1) / (a + 1)) (1 * (1 - x) ^ a) x := by
    intro x
    have h1 : HasDerivAt (fun x : ℝ => 1 - x) (-1) x := by simpa using (hasDerivAt_id' x).const_sub 1
    refine (((h1.pow (a + 1)).neg).div_const ((a : ℝ) + 1)).congr_deriv ?_
    push_cast
    have : (a : ℝ) + 1 ≠ 0 := by positivity
    field_simp
  unfold L
  rw [intervalIntegral.integral_eq_sub_of_hasDerivAt (fun x _ => hd x) (by apply Continuous.intervalIntegrable; fun_prop)]
  have h3 : 0 < Gamma ((a : ℝ) + 1) := Gamma_pos_of_pos (by positivity)
  simp only [hnorm, Nat.cast_zero, mul_zero, zero_add, add_zero, Nat.factorial_zero, Nat.cast_one, one_mul, Gamma_one, sub_self, sub_neg_eq_add]
  rw [show (2 : ℝ) ^ ((a : ℝ) + 1) = 2 ^ (a + 1) by rw [← Real.rpow_natCast]; push_cast; rfl, mul_one, div_self h3.ne', zero_pow (by omega)]
  norm_num
  ring

theorem P_orthogonal (m n : ℕ) : L a (fun x => P a 0 x m * P a 0 x n) = if m = n then hnorm a 0 n else 0 := by
  have ha : (0 : ℝ) ≤ a := Nat.cast_nonneg a
  have hc := P_cont a ha
  have hc2 : ∀ i j : ℕ, Continuous (fun x => P a 0 x i * P a 0 x j) := fun i j => (hc i).mul (hc j)
  have main := favard (fun m n => L a (fun x => P a 0 x m * P a 0 x n)) (cu a) (cv a) (cw a) (hnorm a 0)
    (by intro m; cases m with
        | zero => simp only [cu]; positivity
        | succ m => have : cA a m ≠ 0 := by unfold cA; positivity
                    simp only [cu]; positivity)
    rfl
    (by
      intro m n
      have h1 : L a (fun x => x * (P a 0 x m * P a 0 x n)) = cu a m * L a (fun x => P a 0 x (m + 1) * P a 0 x n) + cv a m * L a (fun x => P a 0 x m * P a 0 x n) + cw a m * L a (fun x => P a 0 x (m - 1) * P a 0 x n) := by
        rw [← L_sum3 a _ _ _ _ _ _ (hc2 _ _) (hc2 _ _) (hc2 _ _)]
        congr 1; funext x
        linear_combination P a 0 x n * x_mul_P a x m
      have h2 : L a (fun x => x * (P a 0 x m * P a 0 x n)) = cu a n * L a (fun x => P a 0 x m * P a 0 x (n + 1)) + cv a n * L a (fun x => P a 0 x m * P a 0 x n) + cw a n * L a (fun x => P a 0 x m * P a 0 x (n - 1)) := by
        rw [← L_sum3 a _ _ _ _ _ _ (hc2 _ _) (hc2 _ _) (hc2 _ _)]
        congr 1; funext x
        linear_combination P a 0 x m * x_mul_P a x n
      exact h1.symm.trans h2)
    (by intro n; simp only [P, one_mul]; exact L_P_zero a n)
    (by simp only [P, one_mul]; exact L_one a)
    (by
      intro m
      rw [hnorm_succ (a : ℝ) 0 (by linarith) (by norm_num) (by linarith) m]
      cases m with
      | zero =>
        simp only [cu, cw, cA, cC]
        push_cast
        have n1 : (a : ℝ) + 1 ≠ 0 := by positivity
        have n2 : (a : ℝ) + 2 ≠ 0 := by positivity
        have n3 : (a : ℝ) + 3 ≠ 0 := by positivity
        have n4 : (a : ℝ) + 4 ≠ 0 := by positivity
        simp only [mul_zero, zero_add, add_zero]
        rw [show (2 : ℝ) + a = a + 2 by ring, show (1 : ℝ) + a = a + 1 by ring]
        field_simp
      | succ m =>
        have hm : (0 : ℝ) ≤ m := Nat.cast_nonneg m
        simp only [cu, cw, cA, cC]
        push_cast
        generalize (m : ℝ) = k at *
        simp only [add_zero]
        rw [show 2 * (k + 1) + (a : ℝ) + 1 = 2 * k + a + 3 by ring, show 2 * (k + 1) + (a : ℝ) + 3 = 2 * k + a + 5 by ring, show 2 * (k + 1) + (a : ℝ) + 4 = 2 * k + a + 6 by ring,
          show 2 * (k + 1) + (a : ℝ) + 2 = 2 * k + a + 4 by ring, show k + 1 + 2 = k + 3 by ring, show k + 1 + 1 = k + 2 by ring, show k + 1 + a + 1 = k + 2 + a by ring]
        have n1 : k + 2 ≠ 0 := by positivity
        have n2 : k + 2 + a ≠ 0 := by positivity
        have n3 : k + 3 ≠ 0 := by positivity
        have n4 : k + 3 + a ≠ 0 := by positivity
        have n5 : 2 * k + a + 3 ≠ 0 := by positivity
        have n6 : 2 * k + a + 4 ≠ 0 := by positivity
        have n7 : 2 * k + a + 5 ≠ 0 := by positivity
        have n8 : 2 * k + a + 6 ≠ 0 := by positivity
        field_simp)
  rcases le_total m n with h | h
  · exact main m n h
  · have := main n m h
    rw [show (fun x => P a 0 x m * P a 0 x n) = fun x => P a 0 x n * P a 0 x m from by funext x; ring]
    rw [this]
    by_cases e : m = n
    · subst e; rfl
    · rw [if_neg e, if_neg (fun h => e h.symm)]

/-- C83 (segment).  For every natural `α` and `β = 0` (every use in the code) the values returned by `jacobiPoly` are orthonormal on `[-1, 1]` for the weight `(1-x)^α`, for all degrees. -/
theorem C83_jacobi_orthonormal (m n : ℕ) :
    ∫ x in (-1 : ℝ)..1, jacobiPoly x a 0 m * jacobiPoly x a 0 n * (1 - x) ^ a = if m = n then 1 else 0 := by
  have ha : (0 : ℝ) ≤ a := Nat.cast_nonneg a
  have h := P_orthogonal a m n
  have hp := fun n => hnorm_pos (a : ℝ) 0 (by linarith) (by norm_num) (by linarith) n
  have e : (fun x : ℝ => jacobiPoly x a 0 m * jacobiPoly x a 0 n * (1 - x) ^ a) = fun x => (1 / (sqrt (hnorm a 0 m) * sqrt (hnorm a 0 n))) * (P a 0 x m * P a 0 x n) * (1 - x) ^ a := by
    funext x
    rw [C51_jacobi_orthonormal_partial _ _ (by linarith), C51_jacobi_orthonormal_partial _ _ (by linarith)]
    ring
  rw [e]
  change L a (fun x => (1 / (sqrt (hnorm a 0 m) * sqrt (hnorm a 0 n))) * (P a 0 x m * P a 0 x n)) = _
  rw [L_smul, h]
  by_cases e : m = n
  · subst e
    rw [if_pos rfl, if_pos rfl, Real.mul_self_sqrt (hp m).le]
    have := (hp m).ne'
    field_simp
  · rw [if_neg e, if_neg e, mul_zero]

end Int

/-! ## The bases of the triangle and the tetrahedron -/

/-- Specification: the integral over the reference triangle with vertices `(-1,-1)`, `(1,-1)`, `(-1,1)`. -/
noncomputable def triInt (f : ℝ → ℝ → ℝ) : ℝ := ∫ y in (-1 : ℝ)..1, ∫ x in (-1 : ℝ)..-y, f x y

/-- Specification: the integral over the reference tetrahedron with vertices `(-1,-1,-1)`, `(1,-1,-1)`, `(-1,1,-1)`, `(-1,-1,1)`. -/
noncomputable def tetInt (f : ℝ → ℝ → ℝ → ℝ) : ℝ := ∫ z in (-1 : ℝ)..1, ∫ y in (-1 : ℝ)..-z, ∫ x in (-1 : ℝ)..(-1 - y - z), f x y z

theorem legendre_int (i k : ℕ) : ∫ x in (-1 : ℝ)..1, jacobiPoly x 0 0 i * jacobiPoly x 0 0 k = if i = k then 1 else 0 := by
  have := C83_jacobi_orthonormal 0 i k
  simpa using this

theorem subst_int (f : ℝ → ℝ) (c b : ℝ) (hc : c ≠ 0) (hb : c * b + (c - 1) = 1) :
    ∫ x in (-1 : ℝ)..b, f (c * x + (c - 1)) = c⁻¹ * ∫ x in (-1 : ℝ)..1, f x := by
  have h := intervalIntegral.integral_comp_mul_add (a := -1) (b := b) f hc (c - 1)
  rw [h, hb, show c * -1 + (c - 1) = -1 by ring, smul_eq_mul]

/-- C83 (triangle).  The functions whose values fill the columns of the triangle's Vandermonde matrix are orthonormal on the reference triangle, for all degrees. -/
theorem C83_triangle_orthonormal (i j k l : ℕ) :
    triInt (fun x y => prorio2 x y i j * prorio2 x y k l) = if (i, j) = (k, l) then 1 else 0 := by
  have inner : ∀ y : ℝ, ∫ x in (-1 : ℝ)..-y, prorio2 x y i j * prorio2 x y k l =
      (if i = k then 1 else 0) * (jacobiPoly y (2 * i + 1) 0 j * jacobiPoly y (2 * k + 1) 0 l * (1 - y) ^ (i + k + 1)) := by
    intro y
    by_cases hy : y = 1
    · subst hy; simp
    · have h1 : 1 - y ≠ 0 := fun h => hy (by linarith)
      have e : (fun x => prorio2 x y i j * prorio2 x y k l) = fun x =>
          (2 * (jacobiPoly y (2 * i + 1) 0 j * jacobiPoly y (2 * k + 1) 0 l * (1 - y) ^ (i + k))) *
          (fun t => jacobiPoly t 0 0 i * jacobiPoly t 0 0 k) (2 / (1 - y) * x + (2 / (1 - y) - 1)) := by
        funext x
        have hx : 2 * (1 + x) / (1 - y) - 1 = 2 / (1 - y) * x + (2 / (1 - y) - 1) := by field_simp; ring
        simp only [prorio2, ne_eq, hy, not_false_eq_true, if_true, hx]
        have h2 : sqrt 2 * sqrt 2 = 2 := Real.mul_self_sqrt (by norm_num)
        rw [pow_add]
        linear_combination (jacobiPoly (2 / (1 - y) * x + (2 / (1 - y) - 1)) 0 0 i * jacobiPoly y (2 * ↑i + 1) 0 j * (1 - y) ^ i *
          (jacobiPoly (2 / (1 - y) * x + (2 / (1 - y) - 1)) 0 0 k * jacobiPoly y (2 * ↑k + 1) 0 l * (1 - y) ^ k)) * h2
      rw [e, intervalIntegral.integral_const_mul, subst_int (fun t => jacobiPoly t 0 0 i * jacobiPoly t 0 0 k) (2 / (1 - y)) (-y) (by positivity) (by field_simp; ring)]
      rw [legendre_int, inv_div, pow_succ]
      ring
  unfold triInt
  simp only [inner]
  rw [intervalIntegral.integral_const_mul]
  by_cases e : i = k
  · subst e
    have h := C83_jacobi_orthonormal (2 * i + 1) j l
    push_cast at h
    rw [show i + i + 1 = 2 * i + 1 by ring, h]
    simp
  · rw [if_neg e, zero_mul, if_neg]
    intro h; exact e (Prod.mk.inj h).1

/-- C83 (tetrahedron). -/
theorem C83_tetrahedron_orthonormal (i j k i' j' k' : ℕ) :
    tetInt (fun x y z => prorio3 x y z i j k * prorio3 x y z i' j' k') = if (i, j, k) = (i', j', k') then 1 else 0 := by
  -- innermost integral
  have inner : ∀ y z : ℝ, ∫ x in (-1 : ℝ)..(-1 - y - z), prorio3 x y z i j k * prorio3 x y z i' j' k' =
      (if i = i' then 1 else 0) * ((fun e => jacobiPoly e (2 * i + 1) 0 j * jacobiPoly e (2 * i' + 1) 0 j' * (1 - e) ^ (i + i')) (if z ≠ 1 then 2 * (1 + y) / (1 - z) - 1 else -1)
        * (jacobiPoly z (2 * i + 2 * j + 2) 0 k * jacobiPoly z (2 * i' + 2 * j' + 2) 0 k' * (1 - z) ^ (i + j + (i' + j'))) * (-4 * (y + z))) := by
    intro y z
    by_cases hyz : y + z = 0
    · have : -1 - y - z = -1 := by linarith
      rw [this, hyz]; simp
    · set e := (if z ≠ 1 then 2 * (1 + y) / (1 - z) - 1 else -1) with he
      have ef : (fun x => prorio3 x y z i j k * prorio3 x y z i' j' k') = fun x =>
          (8 * (jacobiPoly e (2 * i + 1) 0 j * jacobiPoly e (2 * i' + 1) 0 j' * (1 - e) ^ (i + i') * (jacobiPoly z (2 * i + 2 * j + 2) 0 k * jacobiPoly z (2 * i' + 2 * j' + 2) 0 k' * (1 - z) ^ (i + j + (i' + j'))))) *
          (fun t => jacobiPoly t 0 0 i * jacobiPoly t 0 0 i') ((-2 / (y + z)) * x + (-2 / (y + z) - 1)) := by
        funext x
        have hx : -2 * (1 + x) / (y + z) - 1 = (-2 / (y + z)) * x + (-2 / (y + z) - 1) := by field_simp; ring
        simp only [prorio3, ne_eq, hyz, not_false_eq_true, if_true, hx]
        simp only [ne_eq] at he
        rw [← he]
        have h2 : sqrt 8 * sqrt 8 = 8 := Real.mul_self_sqrt (by norm_num)
        generalize jacobiPoly ((-2 / (y + z)) * x + (-2 / (y + z) - 1)) 0 0 i = u1
        generalize jacobiPoly ((-2 / (y + z)) * x + (-2 / (y + z) - 1)) 0 0 i' = u2
        generalize jacobiPoly e (2 * ↑i + 1) 0 j = u3
        generalize jacobiPoly e (2 * ↑i' + 1) 0 j' = u4
        generalize jacobiPoly z (2 * ↑i + 2 * ↑j + 2) 0 k = u5
        generalize jacobiPoly z (2 * ↑i' + 2 * ↑j' + 2) 0 k' = u6
        rw [pow_add (1 - e), pow_add (1 - z) (i + j)]
        linear_combination (u1 * u3 * (1 - e) ^ i * u5 * (1 - z) ^ (i + j) * (u2 * u4 * (1 - e) ^ i' * u6 * (1 - z) ^ (i' + j'))) * h2
      rw [ef, intervalIntegral.integral_const_mul, subst_int (fun t => jacobiPoly t 0 0 i * jacobiPoly t 0 0 i') (-2 / (y + z)) (-1 - y - z) (div_ne_zero (by norm_num) hyz) (by field_simp; ring)]
      rw [legendre_int, inv_div]
      ring
  -- middle integral
  have middle : ∀ z : ℝ, ∫ y in (-1 : ℝ)..-z, ∫ x in (-1 : ℝ)..(-1 - y - z), prorio3 x y z i j k * prorio3 x y z i' j' k' =
      (if i = i' then (if j = j' then 1 else 0) else 0) * (jacobiPoly z (2 * i + 2 * j + 2) 0 k * jacobiPoly z (2 * i' + 2 * j' + 2) 0 k' * (1 - z) ^ (i + j + (i' + j') + 2)) := by
    intro z
    simp only [inner]
    rw [intervalIntegral.integral_const_mul]
    by_cases hi : i = i'
    · subst hi
      simp only [if_true, one_mul]
      by_cases hz : z = 1
      · subst hz; simp
      · have h1 : 1 - z ≠ 0 := fun h => hz (by linarith)
        have ef : (fun y : ℝ => (jacobiPoly (if z ≠ 1 then 2 * (1 + y) / (1 - z) - 1 else -1) (2 * i + 1) 0 j * jacobiPoly (if z ≠ 1 then 2 * (1 + y) / (1 - z) - 1 else -1) (2 * i + 1) 0 j' * (1 - (if z ≠ 1 then 2 * (1 + y) / (1 - z) - 1 else -1)) ^ (i + i))
            * (jacobiPoly z (2 * i + 2 * j + 2) 0 k * jacobiPoly z (2 * i + 2 * j' + 2) 0 k' * (1 - z) ^ (i + j + (i + j'))) * (-4 * (y + z))) = fun y : ℝ =>
            (2 * (1 - z) * (jacobiPoly z (2 * i + 2 * j + 2) 0 k * jacobiPoly z (2 * i + 2 * j' + 2) 0 k' * (1 - z) ^ (i + j + (i + j')))) *
            (fun e => jacobiPoly e (2 * i + 1) 0 j * jacobiPoly e (2 * i + 1) 0 j' * (1 - e) ^ (2 * i + 1)) (2 / (1 - z) * y + (2 / (1 - z) - 1)) := by
          funext y
          simp only [ne_eq, hz, not_false_eq_true, if_true]
          have hx : 2 * (1 + y) / (1 - z) - 1 = 2 / (1 - z) * y + (2 / (1 - z) - 1) := by field_simp; ring
          rw [hx]
          have hw : -4 * (y + z) = 2 * (1 - z) * (1 - (2 / (1 - z) * y + (2 / (1 - z) - 1))) := by field_simp; ring
          rw [hw]
          generalize 2 / (1 - z) * y + (2 / (1 - z) - 1) = e
          rw [show i + i = 2 * i by ring, pow_succ (1 - e)]
          ring
        rw [ef, intervalIntegral.integral_const_mul, subst_int (fun e => jacobiPoly e (2 * i + 1) 0 j * jacobiPoly e (2 * i + 1) 0 j' * (1 - e) ^ (2 * i + 1)) (2 / (1 - z)) (-z) (by positivity) (by field_simp; ring)]
        have h := C83_jacobi_orthonormal (2 * i + 1) j j'
        push_cast at h
        rw [h, inv_div, pow_add (1 - z) _ 2]
        ring
    · rw [if_neg hi, if_neg hi, zero_mul, zero_mul]
  unfold tetInt
  simp only [middle]
  rw [intervalIntegral.integral_const_mul]
  by_cases e : i = i'
  · subst e
    by_cases e2 : j = j'
    · subst e2
      have h := C83_jacobi_orthonormal (2 * i + 2 * j + 2) k k'
      push_cast at h
      rw [show i + j + (i + j) + 2 = 2 * i + 2 * j + 2 by ring, h]
      simp
    · rw [if_pos rfl, if_neg e2, zero_mul, if_neg]
      intro h; exact e2 (Prod.mk.inj (Prod.mk.inj h).2).1
  · rw [if_neg e, zero_mul, if_neg]
    intro h; exact e (Prod.mk.inj h).1

end Verif.OrthoPoly
