import Verif.LineSearch
import Mathlib.Tactic.Linarith
import Mathlib.Tactic.FieldSimp
import Mathlib.Tactic.Ring
import Mathlib.Tactic.NormNum
import Mathlib.Tactic.LinearCombination
import Mathlib.Analysis.Real.Sqrt

/-! # Line search and relaxed Newton: property theorems (C10–C14) -/

set_option linter.unusedSectionVars false

namespace Verif.LineSearch

variable {K : Type} [Field K] [LinearOrder K] [IsStrictOrderedRing K]

/-- Specification: the sufficient-decrease (Armijo) condition. -/
def Armijo (mu : K) (phi : K → K) (phi0 dphi0 alpha : K) : Prop :=
  phi alpha ≤ phi0 + mu * alpha * dphi0

/-- Complete description of the loop. -/
private theorem loop_spec (sqrt : K → K) (eps : K) (P : Params K) (phi : K → K) (phi0 dphi0 : K) :
    ∀ (left iter : ℕ) (a1 p1 a2 : K) (r : K × List K),
      searchLoop sqrt eps P phi phi0 dphi0 left iter a1 p1 a2 (phi a2) = r →
      (r.1 = 0 ∧ r.2.length = left ∧ ∀ a ∈ a2 :: r.2, ¬ Armijo P.mu phi phi0 dphi0 a) ∨
      (r.2.length ≤ left ∧ (∃ pre, a2 :: r.2 = pre ++ [r.1] ∧
        Armijo P.mu phi phi0 dphi0 r.1 ∧ ∀ a ∈ pre, ¬ Armijo P.mu phi phi0 dphi0 a)) := by
  intro left
  induction left with
  | zero =>
    intro iter a1 p1 a2 r h
    unfold searchLoop at h
    simp only at h
    split_ifs at h with hc
    · subst h
      left
      refine ⟨rfl, rfl, ?_⟩
      intro a ha
      have : a = a2 := by simpa using ha
      subst this
      exact not_le.mpr hc
    · subst h
      right
      exact ⟨le_refl _, [], rfl, not_lt.mp hc, by simp⟩
  | succ n ih =>
    intro iter a1 p1 a2 r h
    unfold searchLoop at h
    split_ifs at h with hc hq
    · simp only at h
      rcases ih _ _ _ _ _ rfl with ⟨h1, h2, h3⟩ | ⟨h1, pre, h2, h3, h4⟩
      · left
        rw [← h]
        refine ⟨h1, by simp only [List.length_cons]; omega, ?_⟩
        intro a ha
        rcases List.mem_cons.mp ha with rfl | ha
        · exact not_le.mpr hc
        · exact h3 a ha
      · right
        rw [← h]
        refine ⟨by simp only [List.length_cons]; omega, a2 :: pre, ?_, h3, ?_⟩
        · simp only [List.cons_append]; rw [← h2]
        · intro a ha
          rcases List.mem_cons.mp ha with rfl | ha
          · exact not_le.mpr hc
          · exact h4 a ha
    · simp only at h
      rcases ih _ _ _ _ _ rfl with ⟨h1, h2, h3⟩ | ⟨h1, pre, h2, h3, h4⟩
      · left
        rw [← h]
        refine ⟨h1, by simp only [List.length_cons]; omega, ?_⟩
        intro a ha
        rcases List.mem_cons.mp ha with rfl | ha
        · exact not_le.mpr hc
        · exact h3 a ha
      · right
        rw [← h]
        refine ⟨by simp only [List.length_cons]; omega, a2 :: pre, ?_, h3, ?_⟩
        · simp only [List.cons_append]; rw [← h2]
        · intro a ha
          rcases List.mem_cons.mp ha with rfl | ha
          · exact not_le.mpr hc
          · exact h4 a ha
    · subst h
      right
      exact ⟨Nat.zero_le _, [], rfl, not_lt.mp hc, by simp⟩

/-- Consecutive trials shrink by a factor between `rhoLo` and `rhoHi`. -/
private theorem loop_chain (sqrt : K → K) (eps : K) (P : Params K) (phi : K → K) (phi0 dphi0 : K)
    (h0 : 0 < P.rhoLo) (hlh : P.rhoLo ≤ P.rhoHi) :
    ∀ (left iter : ℕ) (a1 p1 a2 p2 : K), 0 < a2 →
      List.IsChain (fun a b => a * P.rhoLo ≤ b ∧ b ≤ a * P.rhoHi ∧ 0 < b)
        (a2 :: (searchLoop sqrt eps P phi phi0 dphi0 left iter a1 p1 a2 p2).2) := by
  intro left
  induction left with
  | zero =>
    intro iter a1 p1 a2 p2 ha
    unfold searchLoop
    simp only
    split_ifs <;> simp
  | succ n ih =>
    intro iter a1 p1 a2 p2 ha
    have hlo : 0 < a2 * P.rhoLo := mul_pos ha h0
    have hle : a2 * P.rhoLo ≤ a2 * P.rhoHi := mul_le_mul_of_nonneg_left hlh ha.le
    unfold searchLoop
    split_ifs with hc hq
    · refine List.isChain_cons_cons.mpr ⟨⟨le_max_right _ _, max_le (min_le_right _ _) hle,
        lt_of_lt_of_le hlo (le_max_right _ _)⟩, ih _ _ _ _ _ (lt_of_lt_of_le hlo (le_max_right _ _))⟩
    · refine List.isChain_cons_cons.mpr ⟨⟨le_max_right _ _, max_le (min_le_right _ _) hle,
        lt_of_lt_of_le hlo (le_max_right _ _)⟩, ih _ _ _ _ _ (lt_of_lt_of_le hlo (le_max_right _ _))⟩
    · simp

private theorem chain_pos {lo hi : K} : ∀ (l : List K) (a : K), 0 < a →
    List.IsChain (fun a b => a * lo ≤ b ∧ b ≤ a * hi ∧ 0 < b) (a :: l) → ∀ x ∈ a :: l, 0 < x := by
  intro l
  induction l with
  | nil => intro a ha _ x hx; simp at hx; rwa [hx]
  | cons b l ih =>
    intro a ha h x hx
    obtain ⟨⟨_, _, hb⟩, h2⟩ := List.isChain_cons_cons.mp h
    rcases List.mem_cons.mp hx with rfl | hx
    · exact ha
    · exact ih b hb h2 x hx

private theorem chain_pow {lo hi : K} (hlo : 0 ≤ lo) (hhi : 0 ≤ hi) :
    ∀ (l : List K) (a0 a : K) (k : ℕ), 0 < a → a0 * lo ^ k ≤ a → a ≤ a0 * hi ^ k →
    List.IsChain (fun a b => a * lo ≤ b ∧ b ≤ a * hi ∧ 0 < b) (a :: l) →
    ∀ (j : ℕ) (x : K), (a :: l)[j]? = some x → a0 * lo ^ (k + j) ≤ x ∧ x ≤ a0 * hi ^ (k + j) := by
  intro l
  induction l with
  | nil =>
    intro a0 a k ha h1 h2 _ j x hx
    cases j with
    | zero => simp at hx; subst hx; exact ⟨h1, h2⟩
    | succ j => simp at hx
  | cons b l ih =>
    intro a0 a k ha h1 h2 hc j x hx
    obtain ⟨⟨c1, c2, hb⟩, hc'⟩ := List.isChain_cons_cons.mp hc
    cases j with
    | zero => simp at hx; subst hx; exact ⟨h1, h2⟩
    | succ j =>
      have hx' : (b :: l)[j]? = some x := by simpa using hx
      have := ih a0 b (k + 1) hb
        (by rw [pow_succ, ← mul_assoc]; exact (mul_le_mul_of_nonneg_right h1 hlo).trans c1)
        (by rw [pow_succ, ← mul_assoc]; exact c2.trans (mul_le_mul_of_nonneg_right h2 hhi)) hc' j x hx'
      rwa [show k + 1 + j = k + (j + 1) by omega] at this

/-- **C10** The value returned by the backtracking search is either exactly `0`, in which case
*every* trial step violated the Armijo condition and all `maxIter + 1` evaluations were spent,
or a positive step that satisfies the Armijo condition, namely the first trial that does. -/
theorem C10_armijo_or_zero (sqrt : K → K) (eps : K) (P : Params K) (phi : K → K)
    (phi0 dphi0 alpha : K) (ha : 0 < alpha) (h0 : 0 < P.rhoLo) (hlh : P.rhoLo ≤ P.rhoHi) :
    let r := search sqrt eps P phi phi0 dphi0 alpha
    (r.1 = 0 ∧ r.2.length = P.maxIter + 1 ∧ ∀ a ∈ r.2, ¬ Armijo P.mu phi phi0 dphi0 a) ∨
    (0 < r.1 ∧ Armijo P.mu phi phi0 dphi0 r.1 ∧
      ∃ pre, r.2 = pre ++ [r.1] ∧ ∀ a ∈ pre, ¬ Armijo P.mu phi phi0 dphi0 a) := by
  intro r
  have hch := loop_chain sqrt eps P phi phi0 dphi0 h0 hlh P.maxIter 0 alpha (phi alpha) alpha
    (phi alpha) ha
  rcases loop_spec sqrt eps P phi phi0 dphi0 P.maxIter 0 alpha (phi alpha) alpha _ rfl with
    ⟨h1, h2, h3⟩ | ⟨h1, pre, h2, h3, h4⟩
  · exact Or.inl ⟨h1, by show (_ :: _).length = _; simp only [List.length_cons]; omega, h3⟩
  · refine Or.inr ⟨?_, h3, pre, h2, h4⟩
    refine chain_pos _ _ ha hch _ ?_
    rw [h2]; simp [r, search]

/-- **C11** The `k`-th trial step lies between `rhoLo^k` and `rhoHi^k` times the initial step;
`phi` is evaluated at most `maxIter + 1` times; hence (for `rhoHi ≤ 1`) the returned step never
exceeds the initial step and a non-zero result is at least `rhoLo^maxIter` times it. -/
theorem C11_trial_bounds (sqrt : K → K) (eps : K) (P : Params K) (phi : K → K)
    (phi0 dphi0 alpha : K) (ha : 0 < alpha) (h0 : 0 < P.rhoLo) (hlh : P.rhoLo ≤ P.rhoHi) :
    let r := search sqrt eps P phi phi0 dphi0 alpha
    (∀ (k : ℕ) (x : K), r.2[k]? = some x →
      alpha * P.rhoLo ^ k ≤ x ∧ x ≤ alpha * P.rhoHi ^ k) ∧
    r.2.length ≤ P.maxIter + 1 ∧
    (P.rhoHi ≤ 1 → r.1 ≤ alpha ∧ (r.1 ≠ 0 → alpha * P.rhoLo ^ P.maxIter ≤ r.1)) := by
  intro r
  have hch := loop_chain sqrt eps P phi phi0 dphi0 h0 hlh P.maxIter 0 alpha (phi alpha) alpha
    (phi alpha) ha
  have hk : ∀ (k : ℕ) (x : K), r.2[k]? = some x →
      alpha * P.rhoLo ^ k ≤ x ∧ x ≤ alpha * P.rhoHi ^ k := by
    intro k x hx
    have := chain_pow h0.le (h0.le.trans hlh) _ alpha alpha 0 ha (by simp) (by simp) hch k x hx
    simpa using this
  have hlen : r.2.length ≤ P.maxIter + 1 := by
    show (_ :: _).length ≤ _
    rcases loop_spec sqrt eps P phi phi0 dphi0 P.maxIter 0 alpha (phi alpha) alpha _ rfl with
      ⟨_, h2, _⟩ | ⟨h1, _⟩ <;> simp only [List.length_cons] <;> omega
  refine ⟨hk, hlen, fun h1 => ?_⟩
  rcases C10_armijo_or_zero sqrt eps P phi phi0 dphi0 alpha ha h0 hlh with
    ⟨hz, _, _⟩ | ⟨hp, _, pre, hpre, _⟩
  · exact ⟨by rw [hz]; exact ha.le, fun h => absurd hz h⟩
  · have hx : r.2[pre.length]? = some r.1 := by
      show (search sqrt eps P phi phi0 dphi0 alpha).2[pre.length]? = _
      rw [hpre]; simp [r]
    obtain ⟨hl, hu⟩ := hk _ _ hx
    have hpl : pre.length ≤ P.maxIter := by
      have : r.2.length = pre.length + 1 := by
        show (search sqrt eps P phi phi0 dphi0 alpha).2.length = _
        rw [hpre]; simp
      omega
    constructor
    · refine hu.trans ?_
      have := pow_le_one₀ (n := pre.length) (h0.le.trans hlh) h1
      calc alpha * P.rhoHi ^ pre.length ≤ alpha * 1 := mul_le_mul_of_nonneg_left this ha.le
        _ = alpha := mul_one _
    · intro _
      refine le_trans (mul_le_mul_of_nonneg_left ?_ ha.le) hl
      exact pow_le_pow_of_le_one h0.le (hlh.trans h1) hpl

/-- Non-vacuity for C10/C11: default parameters satisfy the hypotheses, and on a concrete function
the search backtracks from 1 to a genuine Armijo point. -/
example : (0 : ℚ) < (Params.default (K := ℚ)).rhoLo ∧
    (Params.default (K := ℚ)).rhoLo ≤ (Params.default (K := ℚ)).rhoHi ∧
    (Params.default (K := ℚ)).rhoHi ≤ 1 ∧
    search id 0 (Params.default (K := ℚ)) (fun a => (1 - 4 * a) ^ 2) 1 (-8) 1 = (1 / 4, [1, 1 / 4]) := by
  refine ⟨by norm_num [Params.default], by norm_num [Params.default], by norm_num [Params.default], ?_⟩
  decide +kernel

/-- **C12 (quadratic)** `quadratic_interp` returns the stationary point of the quadratic
`a t² + dphi0 t + phi0`; for a failing Armijo trial with `dphi0 < 0`, `mu ≤ 1` it is its unique
minimiser (positive curvature). -/
theorem C12_quadratic_interp (a phi0 dphi0 alpha : K) (hal : alpha ≠ 0) (ha : a ≠ 0) :
    2 * a * quadraticInterp phi0 dphi0 (a * alpha ^ 2 + dphi0 * alpha + phi0) alpha + dphi0 = 0 := by
  unfold quadraticInterp
  simp only
  rw [show a * alpha ^ 2 + dphi0 * alpha + phi0 - dphi0 * alpha - phi0 = a * alpha ^ 2 by ring,
    mul_div_cancel_right₀ _ (pow_ne_zero 2 hal)]
  field_simp
  ring

/-- **C12 (quadratic, as used)** When the search calls it — the Armijo test with `mu ≤ 1` just
failed at `alpha > 0` along a descent direction — the interpolating quadratic is strictly convex and the
returned point is its strict global minimiser. -/
theorem C12_quadratic_interp_minimiser (mu phi0 dphi0 phia alpha : K) (hal : 0 < alpha)
    (hd : dphi0 < 0) (hmu : mu ≤ 1) (hfail : phia > phi0 + mu * alpha * dphi0) :
    ∃ a > 0, a * alpha ^ 2 + dphi0 * alpha + phi0 = phia ∧
      ∀ t, t ≠ quadraticInterp phi0 dphi0 phia alpha →
        a * quadraticInterp phi0 dphi0 phia alpha ^ 2 +
          dphi0 * quadraticInterp phi0 dphi0 phia alpha + phi0 < a * t ^ 2 + dphi0 * t + phi0 := by
  have hpos : 0 < phia - dphi0 * alpha - phi0 := by
    have : alpha * dphi0 ≤ mu * (alpha * dphi0) := by
      nlinarith [mul_neg_of_pos_of_neg hal hd]
    nlinarith
  refine ⟨(phia - dphi0 * alpha - phi0) / alpha ^ 2, div_pos hpos (pow_pos hal 2), ?_, ?_⟩
  · field_simp; ring
  · intro t ht
    set a := (phia - dphi0 * alpha - phi0) / alpha ^ 2 with hadef
    have hapos : 0 < a := div_pos hpos (pow_pos hal 2)
    set m := quadraticInterp phi0 dphi0 phia alpha with hm
    have hm' : 2 * a * m + dphi0 = 0 := by
      have h2 : (a * alpha ^ 2 + dphi0 * alpha + phi0) = phia := by
        rw [hadef]; field_simp; ring
      have := C12_quadratic_interp a phi0 dphi0 alpha hal.ne' hapos.ne'
      rwa [h2, ← hm] at this
    have hne : 0 < (t - m) ^ 2 := by
      have : t - m ≠ 0 := sub_ne_zero.mpr ht
      positivity
    have : a * t ^ 2 + dphi0 * t + phi0 - (a * m ^ 2 + dphi0 * m + phi0) = a * (t - m) ^ 2 := by
      linear_combination (t - m) * hm'
    have := mul_pos hapos hne
    linarith

/-- The coefficients recovered by `cubic_interp` are those of the interpolating cubic. -/
theorem cubic_coeffs (A B phi0 dphi0 a1 a2 : K) (h1 : a1 ≠ 0) (h2 : a2 ≠ 0) (h12 : a1 ≠ a2) :
    cubicA phi0 dphi0 (A * a1 ^ 3 + B * a1 ^ 2 + dphi0 * a1 + phi0) a1
      (A * a2 ^ 3 + B * a2 ^ 2 + dphi0 * a2 + phi0) a2 = A ∧
    cubicB phi0 dphi0 (A * a1 ^ 3 + B * a1 ^ 2 + dphi0 * a1 + phi0) a1
      (A * a2 ^ 3 + B * a2 ^ 2 + dphi0 * a2 + phi0) a2 = B := by
  have h : a2 - a1 ≠ 0 := sub_ne_zero.mpr h12.symm
  have hd : a1 ^ 2 * a2 ^ 2 * (a2 - a1) ≠ 0 :=
    mul_ne_zero (mul_ne_zero (pow_ne_zero _ h1) (pow_ne_zero _ h2)) h
  constructor
  · unfold cubicA; rw [div_eq_iff hd]; ring
  · unfold cubicB; rw [div_eq_iff hd]; ring

/-- **C12 (cubic, partial)** Away from the degenerate branch (`|A| ≥ eps`) and when the cubic
`A t³ + B t² + dphi0 t + phi0` has stationary points, `cubic_interp` returns its local minimiser:
first derivative zero, second derivative non-negative.  Missing for the full property: the
degenerate branch, which is wrong (`C12_false_degenerate_cubic`). -/
theorem C12_cubic_interp_partial (eps A B phi0 dphi0 a1 a2 : ℝ) (heps : 0 < eps)
    (h1 : a1 ≠ 0) (h2 : a2 ≠ 0) (h12 : a1 ≠ a2) (hA : eps ≤ |A|)
    (hdisc : 0 ≤ B ^ 2 - 3 * A * dphi0) :
    let m := cubicInterp Real.sqrt eps phi0 dphi0 (A * a1 ^ 3 + B * a1 ^ 2 + dphi0 * a1 + phi0) a1
      (A * a2 ^ 3 + B * a2 ^ 2 + dphi0 * a2 + phi0) a2
    3 * A * m ^ 2 + 2 * B * m + dphi0 = 0 ∧ 0 ≤ 6 * A * m + 2 * B := by
  obtain ⟨hcA, hcB⟩ := cubic_coeffs A B phi0 dphi0 a1 a2 h1 h2 h12
  have hA0 : A ≠ 0 := by
    rintro rfl; rw [abs_zero] at hA; linarith
  intro m
  have hm : m = (-B + Real.sqrt (B ^ 2 - 3 * A * dphi0)) / (3 * A) := by
    show cubicInterp _ _ _ _ _ _ _ _ = _
    unfold cubicInterp
    simp only [hcA, hcB]
    rw [if_neg (not_lt.mpr hA), max_eq_left hdisc]
  have hs := Real.mul_self_sqrt hdisc
  have hsn := Real.sqrt_nonneg (B ^ 2 - 3 * A * dphi0)
  set s := Real.sqrt (B ^ 2 - 3 * A * dphi0)
  have hm3 : 3 * A * m = -B + s := by rw [hm]; field_simp
  constructor
  · have h3 : 3 * A * (3 * A * m ^ 2 + 2 * B * m + dphi0) = 0 := by
      have : 3 * A * (3 * A * m ^ 2 + 2 * B * m + dphi0) =
          (3 * A * m) ^ 2 + 2 * B * (3 * A * m) + 3 * A * dphi0 := by ring
      rw [this, hm3]; linarith [hs]
    rcases mul_eq_zero.mp h3 with h | h
    · exact absurd h (mul_ne_zero three_ne_zero hA0)
    · exact h
  · nlinarith

/-- **C12 is violated by the code in the degenerate branch**: when the interpolant is exactly
quadratic (`A = 0`) with non-zero slope at 0, the returned point is never stationary (the sign is
wrong): its derivative there is `2 * dphi0`. -/
theorem C12_false_degenerate_cubic (eps B phi0 dphi0 a1 a2 : ℝ) (heps : 0 < eps)
    (h1 : a1 ≠ 0) (h2 : a2 ≠ 0) (h12 : a1 ≠ a2) (hB : B ≠ 0) (hd : dphi0 ≠ 0) :
    let m := cubicInterp Real.sqrt eps phi0 dphi0 (B * a1 ^ 2 + dphi0 * a1 + phi0) a1
      (B * a2 ^ 2 + dphi0 * a2 + phi0) a2
    2 * B * m + dphi0 = 2 * dphi0 ∧ 2 * B * m + dphi0 ≠ 0 := by
  have hc := cubic_coeffs 0 B phi0 dphi0 a1 a2 h1 h2 h12
  simp only [zero_mul, zero_add] at hc
  intro m
  have hm : m = dphi0 / (2 * B) := by
    show cubicInterp _ _ _ _ _ _ _ _ = _
    unfold cubicInterp
    simp only [hc.1, hc.2, abs_zero, if_pos heps]
  have : 2 * B * m = dphi0 := by rw [hm]; field_simp
  refine ⟨by linarith, ?_⟩
  rw [this]
  intro h
  exact hd (by linarith)

example : (2 : ℝ) ^ 2 - 3 * 1 * (-4) ≥ 0 ∧ (1 : ℝ) ≠ 1 / 2 := by norm_num

/-! ### Relaxed Newton -/

variable {V : Type} [AddCommGroup V] [Module K V]

/-- **C13 (one step)** Along a descent direction (`dphi0 ≤ 0`), the step length chosen by the relaxed
Newton solver is `0` or lies in `(0,1]` and does not increase the residual norm; it decreases it
strictly when `dphi0 < 0` and `mu > 0`. -/
theorem C13_step_no_increase (sqrt : K → K) (eps : K) (P : Params K) (p : Problem K V) (x c : V)
    (h0 : 0 < P.rhoLo) (hlh : P.rhoLo ≤ P.rhoHi) (h1 : P.rhoHi ≤ 1) (hmu : 0 ≤ P.mu)
    (hd : p.dphi0 x c ≤ 0) :
    let s := p.scaling sqrt eps P x c
    s = 0 ∨ (0 < s ∧ s ≤ 1 ∧ p.norm (p.res (x - s • c)) ≤ p.norm (p.res x) ∧
      (p.dphi0 x c < 0 → 0 < P.mu → p.norm (p.res (x - s • c)) < p.norm (p.res x))) := by
  intro s
  rcases C10_armijo_or_zero sqrt eps P (p.phi x c) (p.phi0 x) (p.dphi0 x c) 1 one_pos h0 hlh with
    ⟨hz, _⟩ | ⟨hp, ha, _⟩
  · exact Or.inl hz
  · right
    have hle := ((C11_trial_bounds sqrt eps P (p.phi x c) (p.phi0 x) (p.dphi0 x c) 1 one_pos h0
      hlh).2.2 h1).1
    refine ⟨hp, hle, ?_, ?_⟩
    · have : P.mu * s * p.dphi0 x c ≤ 0 := mul_nonpos_of_nonneg_of_nonpos (mul_nonneg hmu hp.le) hd
      have h2 : p.phi x c s ≤ p.phi0 x + P.mu * s * p.dphi0 x c := ha
      show p.phi x c s ≤ p.phi0 x
      linarith
    · intro hd' hmu'
      have : P.mu * s * p.dphi0 x c < 0 := mul_neg_of_pos_of_neg (mul_pos hmu' hp) hd'
      have h2 : p.phi x c s ≤ p.phi0 x + P.mu * s * p.dphi0 x c := ha
      show p.phi x c s < p.phi0 x
      linarith

/-- **C13** Over the whole Newton iteration the residual norms form a non-increasing sequence,
the convergence flag is set iff the last norm meets the goal, the iteration limit is respected
and the last recorded norm belongs to the returned state. -/
theorem C13_newton_monotone (sqrt : K → K) (eps : K) (P : Params K) (p : Problem K V) (goal : K)
    (h0 : 0 < P.rhoLo) (hlh : P.rhoLo ≤ P.rhoHi) (h1 : P.rhoHi ≤ 1) (hmu : 0 ≤ P.mu)
    (hd : ∀ x, p.dphi0 x (p.solve x (p.res x)) ≤ 0) :
    ∀ (left it : ℕ) (x : V),
      let r := newtonLoop sqrt eps P p goal left it x
      r.norms.Pairwise (fun a b => b ≤ a) ∧
      (r.converged = true ↔ p.norm (p.res r.x) ≤ goal) ∧
      r.finalIter ≤ it + left ∧
      r.norms.head? = some (p.norm (p.res x)) ∧ r.norms.getLast? = some (p.norm (p.res r.x)) := by
  intro left
  induction left with
  | zero =>
    intro it x
    unfold newtonLoop
    simp only
    split_ifs with h <;> simp [h]
  | succ n ih =>
    intro it x
    unfold newtonLoop
    simp only
    split_ifs with h hs
    · simp [h]
    · simp [h]
    · obtain ⟨i1, i2, i3, i4, i5⟩ := ih (it + 1)
        (x - p.scaling sqrt eps P x (p.solve x (p.res x)) • p.solve x (p.res x))
      refine ⟨?_, i2, by simp only; omega, rfl, ?_⟩
      · simp only
        rw [List.pairwise_cons]
        refine ⟨?_, i1⟩
        intro b hb
        have hstep := (C13_step_no_increase sqrt eps P p x _ h0 hlh h1 hmu (hd x)).resolve_left hs
        revert i1 i4 hb
        generalize (newtonLoop sqrt eps P p goal n (it + 1) _).norms = l
        intro i1 i4 hb
        cases l with
        | nil => simp at hb
        | cons a l =>
          have ha := Option.some.inj i4
          rw [List.pairwise_cons] at i1
          rcases List.mem_cons.mp hb with rfl | hb
          · rw [ha]; exact hstep.2.2.1
          · exact (i1.1 b hb).trans (by rw [ha]; exact hstep.2.2.1)
      · simp only
        revert i4 i5
        generalize newtonLoop sqrt eps P p goal n (it + 1) _ = r
        intro i4 i5
        cases hl : r.norms with
        | nil => rw [hl] at i4; simp at i4
        | cons a l => rw [hl] at i5; simpa using i5

/-- An exact Newton direction (`J c = r`) with an inner-product norm is always a descent
direction, so the hypothesis of C13 is met. -/
theorem exact_newton_is_descent (p : Problem K V) (x c : V) (hc : p.jac x c = p.res x)
    (hdot : p.dot (p.res x) (p.res x) = p.norm (p.res x) * p.norm (p.res x))
    (hn : 0 < p.norm (p.res x)) : p.dphi0 x c = -p.phi0 x := by
  unfold Problem.dphi0 Problem.phi0
  rw [hc, hdot]
  field_simp

/-- Non-vacuity of C13: the scalar equation `x² = 4` with exact Newton directions and the
default parameters: every direction is a descent direction and three steps from `x = 10`
produce strictly decreasing norms. -/
def sqProblem : Problem ℚ ℚ where
  res x := x ^ 2 - 4
  jac x v := 2 * x * v
  solve x r := r / (2 * x)
  norm r := |r|
  dot u v := u * v

example : ∀ x, sqProblem.dphi0 x (sqProblem.solve x (sqProblem.res x)) ≤ 0 := by
  intro x
  unfold Problem.dphi0 Problem.phi0 sqProblem
  simp only
  apply div_nonpos_of_nonpos_of_nonneg _ (abs_nonneg _)
  by_cases hx : x = 0
  · subst hx; simp
  · rw [mul_div_cancel₀ _ (mul_ne_zero two_ne_zero hx)]
    nlinarith [mul_self_nonneg (x ^ 2 - 4)]

example : (newtonLoop id 0 Params.default sqProblem (1 / 100) 3 0 10).norms.length = 4 := by
  decide +kernel

/-- **C14 is violated by the code**: two ranks with valid local data (each rank's `phi(0)` equals
its `phi0`, both slopes are exact Newton slopes `-phi0`) perform different numbers of collective
evaluations, so the parallel line search deadlocks. -/
theorem C14_false_ranks_diverge :
    let r0 : RankData ℚ := ⟨fun a => |1 - a|, 1, -1⟩
    let r1 : RankData ℚ := ⟨fun a => |1 - a + 3 * a ^ 2|, 1, -1⟩
    r0.phi 0 = r0.phi0 ∧ r1.phi 0 = r1.phi0 ∧
    parallelSearch id 0 Params.default [r0, r1] 1 = none ∧
    (search id 0 Params.default r0.phi r0.phi0 r0.dphi0 1).1 = 1 ∧
    (search id 0 Params.default r1.phi r1.phi0 r1.dphi0 1).1 < 1 := by
  refine ⟨by norm_num, by norm_num, ?_, ?_, ?_⟩ <;> decide +kernel

/-- **C14 (partial)** If on every rank the full step satisfies the rank-local Armijo test, all
ranks return the same step after one evaluation.  Missing: any run in which a rank backtracks. -/
theorem C14_full_step_agrees_partial (sqrt : K → K) (eps : K) (P : Params K)
    (ranks : List (RankData K)) (alpha : K)
    (h : ∀ r ∈ ranks, Armijo P.mu r.phi r.phi0 r.dphi0 alpha) :
    parallelSearch sqrt eps P ranks alpha = some (ranks.map fun _ => alpha) := by
  have hs : ∀ r ∈ ranks, search sqrt eps P r.phi r.phi0 r.dphi0 alpha = (alpha, [alpha]) := by
    intro r hr
    unfold search searchLoop
    rw [if_neg (not_lt.mpr (h r hr))]
  have hm : ranks.map (fun r => search sqrt eps P r.phi r.phi0 r.dphi0 alpha) =
      ranks.map (fun _ => (alpha, [alpha])) := List.map_congr_left hs
  unfold parallelSearch
  simp only [hm]
  cases ranks with
  | nil => rfl
  | cons r rs => simp

example : Armijo (1 / 10 ^ 4 : ℚ) (fun a => |1 - a|) 1 (-1) 1 := by norm_num [Armijo]

end Verif.LineSearch
