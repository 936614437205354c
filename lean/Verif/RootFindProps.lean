import Verif.RootFind
import Mathlib.Tactic.Linarith
import Mathlib.Tactic.FieldSimp
import Mathlib.Tactic.Ring
import Mathlib.Tactic.NormNum

/-! # Root finders: property theorems (C06–C09) -/

set_option linter.unusedSectionVars false

namespace Verif.RootFind

variable {K : Type} [Field K] [LinearOrder K] [IsStrictOrderedRing K]

/-- Specification: `x` is the midpoint of a sub-interval `[l,r]` of `[xl,xr]`, obtained by `k`
halvings, over which `f` changes sign. -/
def Bracketed (f : K → K) (xl xr : K) (k : ℕ) (l r x : K) : Prop :=
  xl ≤ l ∧ l ≤ r ∧ r ≤ xr ∧ f l * f r < 0 ∧ r - l = (xr - xl) / 2 ^ k ∧ x = (l + r) / 2

private theorem loop_spec (f : K → K) (ftol xtol a b : K) (hft : 0 ≤ ftol) :
    ∀ (fuel iter : ℕ) (xl xr : K),
      Bracketed f a b iter xl xr ((xl + xr) / 2) →
      ∀ x k, bisLoop f ftol xtol fuel iter xl (f xl) xr (f xr) ((xl + xr) / 2)
          (f ((xl + xr) / 2)) = .ret x k →
        k < iter + fuel ∧
        ∃ l r, Bracketed f a b k l r x ∧ (|f x| ≤ ftol ∨ r - l ≤ xtol) := by
  intro fuel
  induction fuel with
  | zero => intro iter xl xr _ x k h; simp [bisLoop] at h
  | succ n ih =>
    intro iter xl xr hb x k h
    obtain ⟨h1, h2, h3, h4, h5, -⟩ := hb
    unfold bisLoop at h
    simp only at h
    set m := (xl + xr) / 2 with hm
    have hmid : m * 2 = xl + xr := by rw [hm]; field_simp
    have hpow : (2 : K) ^ iter ≠ 0 := pow_ne_zero _ two_ne_zero
    split_ifs at h with hc hl hr hn
    · have hb' : Bracketed f a b (iter + 1) xl m ((xl + m) / 2) := by
        refine ⟨h1, by linarith, by linarith, by linarith [mul_comm (f m) (f xl)], ?_, rfl⟩
        rw [pow_succ, ← div_div, ← h5]; field_simp; linarith
      obtain ⟨hk, rest⟩ := ih (iter + 1) xl m hb' x k h
      exact ⟨by omega, rest⟩
    · have hb' : Bracketed f a b (iter + 1) m xr ((m + xr) / 2) := by
        refine ⟨by linarith, by linarith, h3, hr, ?_, rfl⟩
        rw [pow_succ, ← div_div, ← h5]; field_simp; linarith
      obtain ⟨hk, rest⟩ := ih (iter + 1) m xr hb' x k h
      exact ⟨by omega, rest⟩
    · -- the `break` branch is impossible when both end values are non-zero
      exfalso
      have hfm : f m ≠ 0 := by
        intro h0; rw [h0, abs_zero] at hc; exact absurd hc.1 (not_lt.mpr hft)
      have h6 : 0 ≤ f m * f xl := not_lt.mp hl
      have h7 : 0 ≤ f m * f xr := not_lt.mp hr
      have h8 : 0 ≤ (f m * f m) * (f xl * f xr) := by
        have := mul_nonneg h6 h7
        linarith [this, show f m * f xl * (f m * f xr) = (f m * f m) * (f xl * f xr) by ring]
      have h9 : 0 < f m * f m := mul_self_pos.mpr hfm
      exact absurd (mul_neg_of_pos_of_neg h9 h4) (not_lt.mpr h8)
    · injection h with hx hk
      subst hx; subst hk
      refine ⟨by omega, xl, xr, ⟨h1, h2, h3, h4, h5, rfl⟩, ?_⟩
      rcases not_and_or.mp hc with hc | hc
      · exact Or.inl (not_lt.mp hc)
      · right
        have := not_lt.mp hc
        rwa [abs_of_nonneg (by linarith)] at this

/-- **C06 (throw)** `bisection` throws whenever the end values have the same strict sign. -/
theorem C06_same_sign_throws (f : K → K) (xl xr ftol xtol : K) (maxiter : ℤ)
    (h : f xl * f xr > 0) : bisection f xl xr ftol xtol maxiter = .throw := by
  unfold bisection; simp only; rw [if_pos h]

/-- **C06 (partial)** Whenever `bisection` returns normally and neither end point is itself a
root, the result is the midpoint of a sign-changing sub-interval reached by `k < maxiter`
halvings, and the function value is within `ftol` or the sub-interval width within `xtol`.
Missing for the full property: the case where an end point is an exact root, for which the
property is false (`C06_false_endpoint_root`). -/
theorem C06_bisection_result_partial (f : K → K) (xl xr ftol xtol : K) (maxiter : ℤ)
    (hlr : xl ≤ xr) (hft : 0 ≤ ftol) (h0l : f xl ≠ 0) (h0r : f xr ≠ 0)
    {x : K} {k : ℕ} (h : bisection f xl xr ftol xtol maxiter = .ret x k) :
    (k : ℤ) < maxiter ∧ xl ≤ x ∧ x ≤ xr ∧
    ∃ l r, Bracketed f xl xr k l r x ∧ (|f x| ≤ ftol ∨ r - l ≤ xtol) := by
  unfold bisection at h
  simp only at h
  split_ifs at h with hs
  have hneg : f xl * f xr < 0 :=
    lt_of_le_of_ne (not_lt.mp hs) (mul_ne_zero h0l h0r)
  have hb : Bracketed f xl xr 0 xl xr ((xl + xr) / 2) :=
    ⟨le_refl _, hlr, le_refl _, hneg, by simp, rfl⟩
  obtain ⟨hk, l, r, hB, ht⟩ := loop_spec f ftol xtol xl xr hft _ 0 xl xr hb x k h
  obtain ⟨b1, b2, b3, _, _, b6⟩ := id hB
  refine ⟨by omega, ?_, ?_, l, r, hB, ht⟩
  · rw [b6, le_div_iff₀ two_pos]; linarith
  · rw [b6, div_le_iff₀ two_pos]; linarith

/-- **C06 is violated by the code** when an end point is an exact root: for `f x = x` on `[0,1]`
with zero tolerances `bisection` silently returns `1/2`, where `f` is not zero. -/
theorem C06_false_endpoint_root :
    bisection (fun x : ℚ => x) 0 1 0 0 100 = .ret (1 / 2) 1 ∧ (fun x : ℚ => x) 0 = 0 := by
  constructor
  · decide +kernel
  · rfl

private theorem loop_conv (f : K → K) (ftol xtol a b : K) :
    ∀ (fuel iter : ℕ) (xl xr : K), (b - a) / 2 ^ (iter + fuel) ≤ xtol →
      Bracketed f a b iter xl xr ((xl + xr) / 2) →
      ∃ x k, bisLoop f ftol xtol (fuel + 1) iter xl (f xl) xr (f xr) ((xl + xr) / 2)
          (f ((xl + xr) / 2)) = .ret x k := by
  intro fuel
  induction fuel with
  | zero =>
    intro iter xl xr hw hb
    obtain ⟨h1, h2, h3, h4, h5, -⟩ := hb
    unfold bisLoop
    rw [if_neg]
    · exact ⟨_, _, rfl⟩
    · rintro ⟨_, h⟩
      rw [abs_of_nonneg (by linarith)] at h
      rw [h5] at h
      exact absurd hw (not_le.mpr (by simpa using h))
  | succ n ih =>
    intro iter xl xr hw hb
    obtain ⟨h1, h2, h3, h4, h5, -⟩ := hb
    unfold bisLoop
    set m := (xl + xr) / 2 with hm
    have hmid : m * 2 = xl + xr := by rw [hm]; field_simp
    have hw' : (b - a) / 2 ^ (iter + 1 + n) ≤ xtol := by
      rwa [show iter + 1 + n = iter + (n + 1) by omega]
    split_ifs with hc hl hr hn
    · exact ih (iter + 1) xl m hw' ⟨h1, by linarith, by linarith,
        by linarith [mul_comm (f m) (f xl)], by
          rw [pow_succ, ← div_div, ← h5]; field_simp; linarith, rfl⟩
    · exact ih (iter + 1) m xr hw' ⟨by linarith, by linarith, h3, hr, by
          rw [pow_succ, ← div_div, ← h5]; field_simp; linarith, rfl⟩
    · exact hn.elim
    · exact ⟨_, _, rfl⟩
    · exact ⟨_, _, rfl⟩

/-- **C07 (partial)** If `j < maxiter` halvings make the interval narrower than `xtol`,
`bisection` returns normally, for every function (continuous or not) with a strict sign change.
Missing for the full property: `j = maxiter` (see `C07_false_at_limit`). -/
theorem C07_bisection_terminates_partial (f : K → K) (xl xr ftol xtol : K) (maxiter : ℤ)
    (hlr : xl ≤ xr) (hs : f xl * f xr < 0)
    (j : ℕ) (hj : (j : ℤ) < maxiter) (hw : (xr - xl) / 2 ^ j ≤ xtol) :
    ∃ x k, bisection f xl xr ftol xtol maxiter = .ret x k := by
  unfold bisection
  simp only
  rw [if_neg (not_lt.mpr hs.le)]
  obtain ⟨n, hn⟩ : ∃ n, maxiter.toNat = n + 1 := ⟨maxiter.toNat - 1, by omega⟩
  rw [hn]
  refine loop_conv f ftol xtol xl xr n 0 xl xr ?_ ⟨le_refl _, hlr, le_refl _, hs, by simp, rfl⟩
  refine le_trans ?_ hw
  rw [zero_add]
  apply div_le_div_of_nonneg_left (by linarith) (by positivity)
  exact pow_le_pow_right₀ (by norm_num) (by omega)

/-- **C07 is violated by the code at the boundary**: for `f x = x - 1/4` on `[0,1]` and `maxiter = 1`
the first halving lands exactly on the root, yet `bisection` throws; with `maxiter = 2` it
returns that very point after that one iteration. -/
theorem C07_false_at_limit :
    bisection (fun x : ℚ => x - 1 / 4) 0 1 0 0 1 = .throw ∧
    bisection (fun x : ℚ => x - 1 / 4) 0 1 0 0 2 = .ret (1 / 4) 1 ∧
    (fun x : ℚ => x - 1 / 4) (1 / 4) = 0 := by
  refine ⟨?_, ?_, by norm_num⟩ <;> decide +kernel

/-- Non-vacuity for C06/C07: `x² - 2` on `[1,2]`, `xtol = 1/4`, two halvings. -/
example : (1 : ℚ) ≤ 2 ∧ ((1 : ℚ) ^ 2 - 2) * (2 ^ 2 - 2) < 0 ∧ (2 - 1 : ℚ) / 2 ^ 2 ≤ 1 / 4 ∧
    bisection (fun x : ℚ => x ^ 2 - 2) 1 2 0 (1 / 4) 10 = .ret (11 / 8) 2 := by
  refine ⟨by norm_num, by norm_num, by norm_num, ?_⟩
  decide +kernel

/-! ### Secant -/

omit [IsStrictOrderedRing K] in
private theorem secLoop_iter (func : K → K) (ftol xtol : K) :
    ∀ (fuel iter : ℕ) (x1 f1 x2 f2 x f : K) {y : K} {k : ℕ},
      secLoop func ftol xtol fuel iter x1 f1 x2 f2 x f = some (y, k) → k ≤ iter + fuel := by
  intro fuel
  induction fuel with
  | zero => intro iter x1 f1 x2 f2 x f y k h; simp [secLoop] at h; omega
  | succ n ih =>
    intro iter x1 f1 x2 f2 x f y k h
    unfold secLoop at h
    simp only at h
    split_ifs at h with h1 h2 h3
    · simp at h; omega
    · have := ih _ _ _ _ _ _ _ h; omega
    · simp at h; omega

omit [IsStrictOrderedRing K] in
/-- **C08 is violated by the code**: for a non-negative iteration limit `secant` never throws,
whatever the function, even if the limit is exhausted. -/
theorem C08_false_never_throws (func : K → K) (x1 x2 ftol xtol : K) (maxiter : ℤ)
    (hm : 0 ≤ maxiter) : secant func x1 x2 ftol xtol maxiter ≠ .throw := by
  unfold secant
  simp only
  split
  · simp
  · next x iter h =>
    have : iter ≤ 0 + maxiter.toNat := by
      split_ifs at h
      · exact secLoop_iter _ _ _ _ _ _ _ _ _ _ _ h
      · exact secLoop_iter _ _ _ _ _ _ _ _ _ _ _ h
    rw [if_neg (by omega)]
    simp

/-- **C08 witness**: `f x = x² + 1` has no root, every value is at least 1, yet
`secant` with tolerance `1/2` and `maxiter = 2` returns normally. -/
theorem C08_false_witness :
    (∃ x, secant (fun x : ℚ => x ^ 2 + 1) 1 2 (1 / 2) (1 / 100) 2 = .ret x 2) ∧
    ∀ x : ℚ, ¬ |x ^ 2 + 1| ≤ 1 / 2 := by
  constructor
  · exact ⟨-1 / 2, by decide +kernel⟩
  · intro x h
    have : (0 : ℚ) ≤ x ^ 2 := sq_nonneg x
    rw [abs_of_pos (by linarith)] at h
    linarith

/-- `y` is obtained from `z` by one secant step through `w` and `z`, of length below `xtol`. -/
def ShortSecantStep (func : K → K) (xtol y : K) : Prop :=
  ∃ w z, func z ≠ func w ∧ y = z - func z * (z - w) / (func z - func w) ∧
    |func z * (z - w) / (func z - func w)| < xtol

private theorem secLoop_conv (func : K → K) (ftol xtol : K) :
    ∀ (fuel iter : ℕ) (x1 f1 x f : K) {y : K} {k : ℕ}, f1 = func x1 → f = func x →
      secLoop func ftol xtol fuel iter x1 f1 x f x f = some (y, k) → k < iter + fuel →
      |func y| ≤ ftol ∨ ShortSecantStep func xtol y := by
  intro fuel
  induction fuel with
  | zero => intro iter x1 f1 x f y k _ _ h hk; simp [secLoop] at h; omega
  | succ n ih =>
    intro iter x1 f1 x f y k hf1 hf h hk
    unfold secLoop at h
    simp only at h
    split_ifs at h with h1 h2 h3
    · simp only [Option.some.injEq, Prod.mk.injEq] at h
      subst hf hf1
      exact Or.inr ⟨x1, x, sub_ne_zero.mp h2, h.1.symm, h3⟩
    · exact ih _ _ _ _ _ hf rfl h (by omega)
    · simp only [Option.some.injEq, Prod.mk.injEq] at h
      rw [← h.1, ← hf]
      exact Or.inl (not_lt.mp h1)

/-- **C08 (partial)** If `secant` returns before exhausting `maxiter`, the returned point
meets `ftol` or was reached by a secant step shorter than `xtol`.  Missing: exhaustion is silent. -/
theorem C08_secant_early_return_partial (func : K → K) (x1 x2 ftol xtol : K) (maxiter : ℤ)
    {x : K} {k : ℕ} (h : secant func x1 x2 ftol xtol maxiter = .ret x k) (hk : (k : ℤ) < maxiter) :
    |func x| ≤ ftol ∨ ShortSecantStep func xtol x := by
  unfold secant at h
  simp only at h
  split at h
  · simp at h
  · next y it hy =>
    split_ifs at h
    injection h with h1 h2
    subst h1; subst h2
    split_ifs at hy
    · exact secLoop_conv _ _ _ _ _ _ _ _ _ rfl rfl hy (by omega)
    · exact secLoop_conv _ _ _ _ _ _ _ _ _ rfl rfl hy (by omega)

/-- **C08 (affine)** On an affine function with non-zero slope and distinct start points
`secant` returns the exact root, or a point already within `ftol`, using at most one iteration,
provided `maxiter ≥ 2`. -/
theorem C08_secant_affine_exact (m c x1 x2 ftol xtol : K) (hm : m ≠ 0) (hx : x1 ≠ x2)
    (hft : 0 ≤ ftol) (maxiter : ℤ) (hmax : 2 ≤ maxiter) :
    ∃ x k, secant (fun t => m * t + c) x1 x2 ftol xtol maxiter = .ret x k ∧ k ≤ 1 ∧
      (m * x + c = 0 ∨ |m * x + c| ≤ ftol) := by
  have key : ∀ a b : K, a ≠ b → ∃ x k,
      secLoop (fun t => m * t + c) ftol xtol maxiter.toNat 0 a (m * a + c) b (m * b + c) b
        (m * b + c) = some (x, k) ∧ k ≤ 1 ∧ (m * x + c = 0 ∨ |m * x + c| ≤ ftol) := by
    intro a b hab
    obtain ⟨n, hn⟩ : ∃ n, maxiter.toNat = n + 1 + 1 := ⟨maxiter.toNat - 2, by omega⟩
    rw [hn]
    unfold secLoop
    by_cases h1 : |m * b + c| > ftol
    · rw [if_pos h1]
      have hne : m * b + c - (m * a + c) ≠ 0 := by
        have : m * b + c - (m * a + c) = m * (b - a) := by ring
        rw [this]
        exact mul_ne_zero hm (sub_ne_zero.mpr hab.symm)
      have hne' : m * b - m * a ≠ 0 := by
        have : m * b - m * a = m * b + c - (m * a + c) := by ring
        rw [this]; exact hne
      rw [if_neg hne]
      simp only
      have hroot : m * (b - (m * b + c) * (b - a) / (m * b + c - (m * a + c))) + c = 0 := by
        have : m * b + c - (m * a + c) = m * (b - a) := by ring
        rw [this]
        have hba : b - a ≠ 0 := sub_ne_zero.mpr hab.symm
        field_simp
        ring
      split_ifs with h2
      · exact ⟨_, _, rfl, le_refl _, Or.inl hroot⟩
      · unfold secLoop
        rw [hroot, if_neg (by rw [abs_zero]; exact not_lt.mpr hft)]
        exact ⟨_, _, rfl, le_refl _, Or.inl hroot⟩
    · rw [if_neg h1]
      exact ⟨_, _, rfl, by omega, Or.inr (not_lt.mp h1)⟩
  unfold secant
  simp only
  split_ifs with h
  · obtain ⟨x, k, hx, hk, hr⟩ := key x2 x1 hx.symm
    rw [hx]
    refine ⟨x, k, ?_, hk, hr⟩
    simp only
    rw [if_neg (by omega)]
  · obtain ⟨x, k, hx, hk, hr⟩ := key x1 x2 hx
    rw [hx]
    refine ⟨x, k, ?_, hk, hr⟩
    simp only
    rw [if_neg (by omega)]

example : secant (fun x : ℚ => 2 * x - 3) 0 1 0 0 30 = .ret (3 / 2) 1 := by
  decide +kernel

/-- **C09** `quadInterp` returns the stationary point of the quadratic `a t² + b t + c` that matches
value and slope at `x0` and value at `x1`. -/
theorem C09_quadInterp_stationary (a b c x0 x1 : K) (hx : x0 ≠ x1) (ha : a ≠ 0) :
    2 * a * quadInterp x0 (a * x0 ^ 2 + b * x0 + c) (2 * a * x0 + b) x1 (a * x1 ^ 2 + b * x1 + c)
      + b = 0 := by
  have hd : x0 * x0 - 2 * x1 * x0 + x1 * x1 = (x0 - x1) ^ 2 := by ring
  have hne : (x0 - x1) ^ 2 ≠ 0 := pow_ne_zero _ (sub_ne_zero.mpr hx)
  have hs : x0 - x1 ≠ 0 := sub_ne_zero.mpr hx
  have hc2 : -(a * x0 ^ 2 + b * x0 + c - (a * x1 ^ 2 + b * x1 + c) - x0 * (2 * a * x0 + b) +
      x1 * (2 * a * x0 + b)) = a * (x0 - x1) ^ 2 := by ring
  have hc1 : (2 * x0 * (a * x0 ^ 2 + b * x0 + c) - 2 * x0 * (a * x1 ^ 2 + b * x1 + c) -
      x0 * x0 * (2 * a * x0 + b) + x1 * x1 * (2 * a * x0 + b)) = b * (x0 - x1) ^ 2 := by ring
  unfold quadInterp
  simp only
  rw [hc2, hc1, hd, mul_div_cancel_right₀ _ hne, mul_div_cancel_right₀ _ hne]
  field_simp
  ring

example : (0 : ℚ) ≠ 1 ∧ (3 : ℚ) ≠ 0 ∧ quadInterp (0 : ℚ) 1 (-2) 1 2 = 1 / 3 := by
  norm_num [quadInterp]

end Verif.RootFind
