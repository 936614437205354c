import Verif.MatCoeffs
import Verif.CurlCurlProps
import Mathlib.Analysis.SpecialFunctions.ExpDeriv
import Mathlib.Analysis.Calculus.Deriv.ZPow
import Mathlib.Analysis.Calculus.Deriv.Inv
import Mathlib.Analysis.SpecialFunctions.Log.Basic
import Mathlib.Analysis.Calculus.Deriv.MeanValue

/-!
Properties C140 (CAL2 coefficients), C141 (demagnetization constraint), C142 (temperature laws),
C143 (reluctivity models) and C144 (construction from the options).
-/

namespace Verif.MatCoeffs
open Finset Verif.Sbp Filter Topology

set_option linter.unusedSimpArgs false

/-! ### Specification -/

/-- Specification: the polynomial `Σ cᵢ Bⁱ`. -/
noncomputable def poly (c : List ℝ) (B : ℝ) : ℝ := ∑ i ∈ range c.length, c.getD i 0 * B ^ i

/-- Specification: `d` is the derivative at `x` of a computed function, which is finite near `x`. -/
def DerivOf (F : ℝ → Option ℝ) (d : Option ℝ) (x : ℝ) : Prop :=
  ∃ (g : ℝ → ℝ) (d' : ℝ), (∀ᶠ y in 𝓝 x, F y = some (g y)) ∧ d = some d' ∧ HasDerivAt g d' x

/-! ### C140: CAL2 -/

theorem polyVal_eq (c : List ℝ) (B : ℝ) : polyVal c B = poly c B := by
  unfold polyVal poly
  generalize c.length = n
  induction n with
  | zero => rfl
  | succ n ih => rw [forN, ih, sum_range_succ]

theorem fsum_some (n : ℕ) (t : ℕ → ℝ) (term : ℕ → Option ℝ) (h : ∀ i < n, term i = some (t i)) :
    fsum n term = some (∑ i ∈ range n, t i) := by
  unfold fsum
  induction n with
  | zero => simp [forN]
  | succ n ih =>
    rw [forN, ih fun i hi => h i (by omega), h n (by omega), sum_range_succ]
    rfl

theorem fsum_none (n k : ℕ) (hk : k < n) (term : ℕ → Option ℝ) (h : term k = none) : fsum n term = none := by
  unfold fsum
  induction n with
  | zero => omega
  | succ n ih =>
    rw [forN]
    by_cases e : k = n
    · subst e
      rw [h]
      cases forN k _ _ <;> rfl
    · rw [ih (by omega)]
      rfl

theorem hasDerivAt_poly (c : List ℝ) (B : ℝ) :
    HasDerivAt (poly c) (∑ i ∈ range c.length, (i : ℝ) * c.getD i 0 * B ^ (i - 1)) B := by
  unfold poly
  refine HasDerivAt.fun_sum fun i _ => ?_
  refine ((hasDerivAt_pow i B).const_mul _).congr_deriv ?_
  ring

theorem zpow_pred (B : ℝ) (i : ℕ) (hi : i ≠ 0) : B ^ ((i : ℤ) - 1) = B ^ (i - 1) := by
  have : ((i : ℤ) - 1) = ((i - 1 : ℕ) : ℤ) := by omega
  rw [this, zpow_natCast]

theorem polyDeriv_some (c : List ℝ) (B : ℝ) (hB : B ≠ 0) :
    polyDeriv c B = some (∑ i ∈ range c.length, (i : ℝ) * c.getD i 0 * B ^ (i - 1)) := by
  unfold polyDeriv
  refine fsum_some _ _ _ fun i _ => ?_
  simp only [fpow, hB, false_and, if_false, Option.map_some]
  by_cases hi : i = 0
  · subst hi; simp
  · rw [zpow_pred B i hi]

theorem polyDeriv2_some (c : List ℝ) (B : ℝ) (hB : B ≠ 0) :
    polyDeriv2 c B = some (∑ i ∈ range c.length, (i : ℝ) * c.getD i 0 * (((i - 1 : ℕ) : ℝ) * B ^ (i - 1 - 1))) := by
  unfold polyDeriv2
  refine fsum_some _ _ _ fun i _ => ?_
  simp only [fpow, hB, false_and, if_false, Option.map_some]
  congr 1
  rcases i with _ | _ | i
  · simp
  · simp
  · have : (((i + 1 + 1 : ℕ) : ℤ) - 2) = ((i : ℕ) : ℤ) := by omega
    rw [this, zpow_natCast]
    simp only [Nat.add_sub_cancel]
    push_cast
    ring

/-- **C140** Where it is finite, a CAL2 coefficient interpolates linearly in the temperature between the
two fitted polynomials of the flux density; it does not depend on the frequency. -/
theorem C140_value (k : Cal2) (T f B : ℝ) (hT : k.T1 ≠ k.T0) (h0 : poly k.k0 B ≠ 0) :
    k.eval T f B = some ((k.T1 - T) / (k.T1 - k.T0) * poly k.k0 B + (T - k.T0) / (k.T1 - k.T0) * poly k.k1 B) := by
  have hT' : k.T1 - k.T0 ≠ 0 := sub_ne_zero.2 hT
  simp only [Cal2.eval, polyVal_eq, fdiv, mul_eq_zero, hT', h0, or_self, if_false, Option.map_some]
  congr 1
  field_simp
  ring

/-- **C140** It is finite exactly if the two temperatures differ and the first polynomial does not vanish. -/
theorem C140_finite_iff (k : Cal2) (T f B : ℝ) :
    (k.eval T f B).isSome ↔ k.T1 ≠ k.T0 ∧ poly k.k0 B ≠ 0 := by
  simp only [Cal2.eval, polyVal_eq, fdiv, mul_eq_zero, sub_eq_zero]
  by_cases h : k.T1 = k.T0 ∨ poly k.k0 B = 0
  · simp only [h, if_true, Option.map_none, Option.isSome_none, Bool.false_eq_true, false_iff, not_and_or, not_not]
  · simp only [h, if_false, Option.map_some, Option.isSome_some, true_iff]
    exact not_or.1 h

/-- **C140** At the reference temperatures it is the fitted polynomial. -/
theorem C140_reference_values (k : Cal2) (f B : ℝ) (hT : k.T1 ≠ k.T0) (h0 : poly k.k0 B ≠ 0) :
    k.eval k.T0 f B = some (poly k.k0 B) ∧ k.eval k.T1 f B = some (poly k.k1 B) := by
  have hT' : k.T1 - k.T0 ≠ 0 := sub_ne_zero.2 hT
  rw [C140_value k _ f B hT h0, C140_value k _ f B hT h0]
  constructor <;> congr 1 <;> field_simp <;> ring

/-- **C140** Between the reference temperatures, with nonnegative fit coefficients and flux density, it is
nonnegative. -/
theorem C140_nonneg (k : Cal2) (T f B v : ℝ) (hlt : k.T0 < k.T1) (hT : k.T0 ≤ T) (hT' : T ≤ k.T1) (hB : 0 ≤ B)
    (hk0 : ∀ x ∈ k.k0, 0 ≤ x) (hk1 : ∀ x ∈ k.k1, 0 ≤ x) (hv : k.eval T f B = some v) : 0 ≤ v := by
  have hp : ∀ c : List ℝ, (∀ x ∈ c, 0 ≤ x) → 0 ≤ poly c B := by
    intro c hc
    refine sum_nonneg fun i hi => mul_nonneg ?_ (pow_nonneg hB i)
    have hi := mem_range.1 hi
    simp only [List.getD_eq_getElem?_getD, List.getElem?_eq_getElem hi, Option.getD_some]
    exact hc _ (List.getElem_mem _)
  have hf := (C140_finite_iff k T f B).1 (by rw [hv]; rfl)
  rw [C140_value k T f B hf.1 hf.2] at hv
  injection hv with hv
  rw [← hv]
  have h1 : 0 < k.T1 - k.T0 := by linarith
  exact add_nonneg (mul_nonneg (div_nonneg (by linarith) h1.le) (hp _ hk0))
    (mul_nonneg (div_nonneg (by linarith) h1.le) (hp _ hk1))

theorem cal2_near (k : Cal2) (T f B : ℝ) (hT : k.T1 ≠ k.T0) (h0 : poly k.k0 B ≠ 0) :
    ∀ᶠ y in 𝓝 B, k.eval T f y =
      some ((k.T1 - T) / (k.T1 - k.T0) * poly k.k0 y + (T - k.T0) / (k.T1 - k.T0) * poly k.k1 y) := by
  have : ∀ᶠ y in 𝓝 B, poly k.k0 y ≠ 0 := (hasDerivAt_poly k.k0 B).continuousAt.eventually_ne h0
  exact this.mono fun y hy => C140_value k T f y hT hy

/-- **C140** `EvalDerivS1` is the derivative with respect to the temperature, wherever the coefficient is
finite. -/
theorem C140_temperature_derivative (k : Cal2) (T f B : ℝ) (hT : k.T1 ≠ k.T0) (h0 : poly k.k0 B ≠ 0) :
    DerivOf (fun T => k.eval T f B) (k.dT T f B) T := by
  have hT' : k.T1 - k.T0 ≠ 0 := sub_ne_zero.2 hT
  refine ⟨_, (poly k.k1 B - poly k.k0 B) / (k.T1 - k.T0),
    Eventually.of_forall fun y => C140_value k y f B hT h0, ?_, ?_⟩
  · simp only [Cal2.dT, polyVal_eq, fdiv, mul_eq_zero, hT', h0, or_self, if_false, Option.map_some]
    congr 1
    field_simp
  · refine (((((hasDerivAt_id' T).const_sub k.T1).div_const _).mul_const _).fun_add
      ((((hasDerivAt_id' T).sub_const k.T0).div_const _).mul_const _)).congr_deriv ?_
    ring

/-- **C140** `EvalDerivS2` is the derivative with respect to the frequency. -/
theorem C140_frequency_derivative (k : Cal2) (T f B : ℝ) (hT : k.T1 ≠ k.T0) (h0 : poly k.k0 B ≠ 0) :
    DerivOf (fun f => k.eval T f B) (k.df T f B) f :=
  ⟨_, 0, Eventually.of_forall fun y => C140_value k T y B hT h0, rfl, hasDerivAt_const _ _⟩

/-- **C140** (partial) `EvalDerivS3` is the derivative with respect to the flux density - for a nonzero
flux density. -/
theorem C140_flux_derivative_partial (k : Cal2) (T f B : ℝ) (hT : k.T1 ≠ k.T0) (h0 : poly k.k0 B ≠ 0)
    (hB : B ≠ 0) : DerivOf (fun B => k.eval T f B) (k.dB T f B) B := by
  have hT' : k.T1 - k.T0 ≠ 0 := sub_ne_zero.2 hT
  refine ⟨_, _, cal2_near k T f B hT h0, ?_, ((hasDerivAt_poly k.k0 B).const_mul _).fun_add
    ((hasDerivAt_poly k.k1 B).const_mul _)⟩
  simp only [Cal2.dB, polyDeriv_some _ B hB, fdiv, hT', if_false, Option.map_some, Option.bind_some]
  congr 1
  field_simp
  ring

/-- **C140** (counterexample) At zero flux density the flux derivative of every CAL2 coefficient is not
finite (`0 * pow(0, -1)`), although the coefficient is a polynomial there: the property that
`EvalDerivS3` is the derivative of `Eval` for every flux density is false. -/
theorem C140_flux_derivative_false :
    (∀ (k : Cal2) (T f : ℝ), k.k0 ≠ [] → k.dB T f 0 = none) ∧
    ¬ ∀ (k : Cal2) (T f B : ℝ), k.T1 ≠ k.T0 → poly k.k0 B ≠ 0 →
        DerivOf (fun B => k.eval T f B) (k.dB T f B) B := by
  have key : ∀ (k : Cal2) (T f : ℝ), k.k0 ≠ [] → k.dB T f 0 = none := by
    intro k T f h
    have : polyDeriv k.k0 0 = none := by
      unfold polyDeriv
      refine fsum_none _ 0 (List.length_pos_iff.2 h) _ ?_
      simp [fpow]
    simp only [Cal2.dB, this, Option.bind_none]
  refine ⟨key, fun h => ?_⟩
  obtain ⟨g, d, -, hd, -⟩ := h ⟨0, [1], 1, [2]⟩ 0 0 0 (by norm_num) (by norm_num [poly])
  rw [key ⟨0, [1], 1, [2]⟩ 0 0 (by simp)] at hd
  cases hd

/-- **C140** (counterexample) A fit without constant term has no finite value at zero flux density. -/
theorem C140_zero_flux_value_false (k : Cal2) (T f : ℝ) (h : k.k0.getD 0 0 = 0) : k.eval T f 0 = none := by
  have : poly k.k0 0 = 0 := by
    refine sum_eq_zero fun i _ => ?_
    rcases i with _ | i
    · rw [h]; simp
    · simp
  have h2 := (C140_finite_iff k T f 0).not.2 fun h => h.2 this
  cases e : k.eval T f 0 with
  | none => rfl
  | some v => rw [e] at h2; simp at h2

/-- **C140** (partial) The second derivatives are the derivatives of the first ones, for a nonzero flux
density: temperature-temperature, flux-flux, and the mixed one from both sides. -/
theorem C140_second_derivatives_partial (k : Cal2) (T f B : ℝ) (hT : k.T1 ≠ k.T0) (h0 : poly k.k0 B ≠ 0)
    (hB : B ≠ 0) :
    DerivOf (fun T => k.dT T f B) (k.dZero T f B) T ∧ DerivOf (fun B => k.dB T f B) (k.dBB T f B) B ∧
    DerivOf (fun B => k.dT T f B) (k.dTB T f B) B ∧ DerivOf (fun T => k.dB T f B) (k.dTB T f B) T ∧
    DerivOf (fun f => k.dT T f B) (k.dZero T f B) f ∧ DerivOf (fun f => k.dB T f B) (k.dZero T f B) f ∧
    DerivOf (fun f => k.df T f B) (k.dZero T f B) f ∧ DerivOf (fun T => k.df T f B) (k.dZero T f B) T ∧
    DerivOf (fun B => k.df T f B) (k.dZero T f B) B := by
  have hT' : k.T1 - k.T0 ≠ 0 := sub_ne_zero.2 hT
  have eT : ∀ (y b : ℝ) (f' : ℝ), poly k.k0 b ≠ 0 → k.dT y f' b = some ((poly k.k1 b - poly k.k0 b) / (k.T1 - k.T0)) := by
    intro y b f' hb
    simp only [Cal2.dT, polyVal_eq, fdiv, mul_eq_zero, hT', hb, or_self, if_false, Option.map_some]
    congr 1
    field_simp
  obtain ⟨D, hD⟩ : ∃ D : List ℝ → ℝ → ℝ, D = fun c b => ∑ i ∈ range c.length, (i : ℝ) * c.getD i 0 * b ^ (i - 1) := ⟨_, rfl⟩
  obtain ⟨D2, hD2⟩ : ∃ D2 : List ℝ → ℝ → ℝ, D2 = fun c b =>
    ∑ i ∈ range c.length, (i : ℝ) * c.getD i 0 * (((i - 1 : ℕ) : ℝ) * b ^ (i - 1 - 1)) := ⟨_, rfl⟩
  have p1 : ∀ c b, HasDerivAt (poly c) (D c b) b := fun c b => by rw [hD]; exact hasDerivAt_poly c b
  have p2 : ∀ c b, HasDerivAt (D c) (D2 c b) b := by
    intro c b
    rw [hD, hD2]
    exact HasDerivAt.fun_sum fun i _ => ((hasDerivAt_pow (i - 1) b).const_mul _)
  have eB : ∀ (y b f' : ℝ), b ≠ 0 → k.dB y f' b =
      some (D k.k0 b + (y - k.T0) / (k.T1 - k.T0) * (D k.k1 b - D k.k0 b)) := by
    intro y b f' hb
    simp only [Cal2.dB, polyDeriv_some _ b hb, fdiv, hT', if_false, Option.map_some, Option.bind_some, hD]
  have eBB : k.dBB T f B = some (D2 k.k0 B + (T - k.T0) / (k.T1 - k.T0) * (D2 k.k1 B - D2 k.k0 B)) := by
    simp only [Cal2.dBB, polyDeriv2_some _ B hB, fdiv, hT', if_false, Option.map_some, Option.bind_some, hD2]
  have eTB : k.dTB T f B = some ((D k.k1 B - D k.k0 B) / (k.T1 - k.T0)) := by
    simp only [Cal2.dTB, polyDeriv_some _ B hB, fdiv, hT', if_false, Option.bind_some, hD]
  have nz : ∀ᶠ y in 𝓝 B, y ≠ 0 := eventually_ne_nhds hB
  have np : ∀ᶠ y in 𝓝 B, poly k.k0 y ≠ 0 := (hasDerivAt_poly k.k0 B).continuousAt.eventually_ne h0
  refine ⟨⟨_, 0, Eventually.of_forall fun y => eT y B f h0, rfl, hasDerivAt_const _ _⟩,
    ⟨_, _, nz.mono fun y hy => eB T y f hy, eBB,
      (p2 k.k0 B).fun_add (((p2 k.k1 B).fun_sub (p2 k.k0 B)).const_mul _)⟩,
    ⟨_, _, np.mono fun y hy => eT T y f hy, eTB, ((p1 k.k1 B).fun_sub (p1 k.k0 B)).div_const _⟩,
    ⟨_, _, Eventually.of_forall fun y => eB y B f hB, eTB, ?_⟩,
    ⟨_, 0, Eventually.of_forall fun y => eT T B y h0, rfl, hasDerivAt_const _ _⟩,
    ⟨_, 0, Eventually.of_forall fun y => eB T B y hB, rfl, hasDerivAt_const _ _⟩,
    ⟨_, 0, Eventually.of_forall fun y => rfl, rfl, hasDerivAt_const _ 0⟩,
    ⟨_, 0, Eventually.of_forall fun y => rfl, rfl, hasDerivAt_const _ 0⟩,
    ⟨_, 0, Eventually.of_forall fun y => rfl, rfl, hasDerivAt_const _ 0⟩⟩
  refine (((((hasDerivAt_id' T).sub_const k.T0).div_const _).mul_const _).const_add _).congr_deriv ?_
  ring

/-- Non-vacuity: a CAL2 fit with two temperatures, evaluated between them. -/
example : (⟨20, [1, 2], 120, [3, 4, 1]⟩ : Cal2).eval 70 400 1 = some (11 / 2) ∧
    (⟨20, [1, 2], 120, [3, 4, 1]⟩ : Cal2).dB 70 400 1 = some 4 := by
  constructor
  · rw [C140_value _ _ _ _ (by norm_num) (by simp [poly, sum_range_succ]; norm_num)]
    simp [poly, sum_range_succ]
    norm_num
  · simp only [Cal2.dB, polyDeriv_some _ (1 : ℝ) one_ne_zero, fdiv]
    norm_num [sum_range_succ]

/-! ### C141: the demagnetization constraint -/

namespace Demag
variable (m : Demag)

/-- Specification: `H` on the line from the remnant point `(0, B_r)` to the knee point. -/
noncomputable def upperLine (B T : ℝ) : ℝ := m.Hknee T * (B - m.Br T) / (m.Bknee T - m.Br T)

/-- Specification: `H` on the line from the knee point to the coercive point `(H_ci, 0)`. -/
noncomputable def lowerLine (B T : ℝ) : ℝ := m.Hci T + (m.Hknee T - m.Hci T) * B / m.Bknee T

end Demag

/-- **C141** The constraint value is the horizontal distance between the two branches of the
demagnetization curve at the flux density `B`; it vanishes at the knee. -/
theorem C141_value (m : Demag) (B T : ℝ) (h1 : m.Bknee T ≠ m.Br T) (h2 : m.Bknee T ≠ 0) :
    m.eval B T = m.upperLine B T - m.lowerLine B T ∧ m.eval (m.Bknee T) T = 0 ∧
      m.eval B T = m.dB B T * (B - m.Bknee T) := by
  have h1' : m.Bknee T - m.Br T ≠ 0 := sub_ne_zero.2 h1
  unfold Demag.eval Demag.upperLine Demag.lowerLine Demag.dB
  refine ⟨?_, ?_, ?_⟩ <;> field_simp <;> ring

/-- **C141** As documented: if the upper branch is the steeper one (in `H` over `B`), the constraint is
positive above the knee (reversible) and negative below it (irreversible demagnetization). -/
theorem C141_sign (m : Demag) (B T : ℝ) (h1 : m.Bknee T ≠ m.Br T) (h2 : m.Bknee T ≠ 0)
    (hs : (m.Hknee T - m.Hci T) / m.Bknee T < m.Hknee T / (m.Bknee T - m.Br T)) :
    (0 < m.eval B T ↔ m.Bknee T < B) ∧ (m.eval B T < 0 ↔ B < m.Bknee T) := by
  have hd : 0 < m.dB B T := by unfold Demag.dB; linarith
  rw [(C141_value m B T h1 h2).2.2]
  constructor
  · constructor
    · intro h; have := (mul_pos_iff_of_pos_left hd).1 h; linarith
    · intro h; exact mul_pos hd (by linarith)
  · constructor
    · intro h; by_contra hc; have := mul_nonneg hd.le (by linarith : 0 ≤ B - m.Bknee T); linarith
    · intro h; exact mul_neg_of_pos_of_neg hd (by linarith)

theorem Demag.hBknee (m : Demag) (T : ℝ) : HasDerivAt m.Bknee m.alphaBknee T := by
  unfold Demag.Bknee
  exact (((hasDerivAt_id' T).const_mul _).add_const _).congr_deriv (by ring)

theorem Demag.hHknee (m : Demag) (T : ℝ) : HasDerivAt m.Hknee m.alphaHknee T := by
  unfold Demag.Hknee
  exact (((hasDerivAt_id' T).const_mul _).add_const _).congr_deriv (by ring)

theorem Demag.hBr (m : Demag) (T : ℝ) : HasDerivAt m.Br (m.Br0 * m.alphaBr / 100) T := by
  unfold Demag.Br
  exact (((((hasDerivAt_id' T).sub_const m.T0).const_mul (m.alphaBr / 100)).const_add 1).const_mul m.Br0).congr_deriv (by ring)

theorem Demag.hHci (m : Demag) (T : ℝ) : HasDerivAt m.Hci (m.Hci0 * m.alphaHci / 100) T := by
  unfold Demag.Hci
  exact (((((hasDerivAt_id' T).sub_const m.T0).const_mul (m.alphaHci / 100)).const_add 1).const_mul m.Hci0).congr_deriv (by ring)

theorem Demag.hsub2 (m : Demag) (T : ℝ) : HasDerivAt m.sub2 m.sub1 T :=
  ((m.hBknee T).fun_sub (m.hBr T)).congr_deriv rfl

/-- **C141** The derivatives of the constraint with respect to the flux density and the temperature, and
the second derivatives, are exact wherever the constraint is defined. -/
theorem C141_derivatives (m : Demag) (B T : ℝ) (h1 : m.Bknee T ≠ m.Br T) (h2 : m.Bknee T ≠ 0) (h3 : m.Br0 ≠ 0) :
    HasDerivAt (fun B => m.eval B T) (m.dB B T) B ∧ HasDerivAt (fun T => m.eval B T) (m.dT B T) T ∧
    HasDerivAt (fun B => m.dB B T) (m.dBB B T) B ∧ HasDerivAt (fun T => m.dB B T) (m.dBT B T) T ∧
    HasDerivAt (fun B => m.dT B T) (m.dBT B T) B ∧ HasDerivAt (fun T => m.dT B T) (m.dTT B T) T := by
  have h1' : m.sub2 T ≠ 0 := sub_ne_zero.2 h1
  have hb := m.hBknee T
  have hh := m.hHknee T
  have hr := m.hBr T
  have hc := m.hHci T
  have hs := m.hsub2 T
  have es : ∀ T, m.Bknee T - m.Br T = m.sub2 T := fun _ => rfl
  refine ⟨?_, ?_, ?_, ?_, ?_, ?_⟩
  · unfold Demag.eval Demag.dB
    exact (((hasDerivAt_id' B).const_mul _).sub_const _).congr_deriv (by ring)
  · simp only [Demag.eval, es]
    refine ((((hh.fun_div hs h1').fun_sub ((hh.fun_sub hc).fun_div hb h2)).mul_const B).fun_sub
      (hc.fun_add ((hr.fun_mul hh).fun_div hs h1'))).congr_deriv ?_
    simp only [Demag.dT, Demag.sub3]
    generalize m.sub2 T = s at *
    generalize m.Bknee T = b at *
    generalize m.Hknee T = h at *
    generalize m.Br T = r at *
    generalize m.Hci T = c at *
    field_simp
    ring
  · exact hasDerivAt_const _ _
  · simp only [Demag.dB, es]
    refine ((hh.fun_div hs h1').fun_sub ((hh.fun_sub hc).fun_div hb h2)).congr_deriv ?_
    simp only [Demag.dBT]
    generalize m.sub2 T = s at *
    generalize m.Bknee T = b at *
    generalize m.Hknee T = h at *
    generalize m.Hci T = c at *
    field_simp
    ring
  · unfold Demag.dT
    refine ((((((hasDerivAt_id' B).mul_const _).sub_const _).sub_const _).sub_const _).add_const _).congr_deriv ?_
    rw [one_mul, Demag.dBT]
  · have h3' : HasDerivAt m.sub3 (m.alphaBr / 100) T := by
      refine (hr.div_const m.Br0).congr_deriv ?_
      field_simp
    simp only [Demag.dT]
    have e1 := ((((hasDerivAt_const T m.alphaHknee).fun_div hs h1').fun_sub
        ((hasDerivAt_const T (m.alphaHknee - m.Hci0 * m.alphaHci / 100)).fun_div hb h2)).fun_sub
        ((hh.const_mul m.sub1).fun_div (hs.fun_pow 2) (pow_ne_zero 2 h1'))).fun_add
        (((hh.fun_sub hc).const_mul m.alphaBknee).fun_div (hb.fun_pow 2) (pow_ne_zero 2 h2))
    have e2 := (hh.const_mul (m.Br0 * m.alphaBr)).fun_div (hs.const_mul 100) (mul_ne_zero (by norm_num) h1')
    have e3 := (h3'.const_mul (m.Br0 * m.alphaHknee)).fun_div hs h1'
    have e4 := (((h3'.const_mul m.Br0).mul_const m.sub1).fun_mul hh).fun_div (hs.fun_pow 2) (pow_ne_zero 2 h1')
    refine (((((e1.const_mul B).sub_const (m.Hci0 * m.alphaHci / 100)).fun_sub e2).fun_sub e3).fun_add e4).congr_deriv ?_
    simp only [Demag.dTT]
    norm_num
    generalize m.sub3 T = q at *
    generalize m.sub2 T = s at *
    generalize m.Bknee T = b at *
    generalize m.Hknee T = h at *
    generalize m.Br T = r at *
    generalize m.Hci T = c at *
    generalize m.sub1 = u at *
    field_simp
    ring

/-- Non-vacuity: a magnet with the knee at 0.4 T, remnant flux 1.2 T, coercivity -1000, knee field -900. -/
example : ∃ m : Demag, m.Bknee 300 = 0.4 ∧ m.Br 300 = 1.2 ∧ m.eval 1 300 > 0 ∧ m.eval 0.1 300 < 0 ∧
    (m.Hknee 300 - m.Hci 300) / m.Bknee 300 < m.Hknee 300 / (m.Bknee 300 - m.Br 300) := by
  refine ⟨⟨300, -0.1, 1.2, -0.5, -1000, 0.001, 0.1, 1, -1200⟩, ?_, ?_, ?_, ?_, ?_⟩ <;>
    norm_num [Demag.Bknee, Demag.Br, Demag.eval, Demag.Hknee, Demag.Hci]

/-! ### C142: temperature laws -/

/-- **C142** The conductivity model: the resistivity is affine in the temperature with value `1/σ_ref` at
the reference temperature and relative slope `α`; the returned derivatives are exact. -/
theorem C142_conductivity (c : Cond) (T : ℝ) (h : 1 + c.alpha * (T - c.Tref) ≠ 0) :
    1 / c.eval T = (1 / c.sigmaRef) * (1 + c.alpha * (T - c.Tref)) ∧
    HasDerivAt c.eval (c.d T) T ∧ HasDerivAt c.d (c.dd T) T := by
  have hl : HasDerivAt (fun T => 1 + c.alpha * (T - c.Tref)) c.alpha T :=
    ((((hasDerivAt_id' T).sub_const c.Tref).const_mul c.alpha).const_add 1).congr_deriv (by ring)
  refine ⟨?_, ?_, ?_⟩
  · unfold Cond.eval; rw [one_div_div]; ring
  · refine ((hasDerivAt_const T c.sigmaRef).fun_div hl h).congr_deriv ?_
    unfold Cond.d; field_simp; ring
  · refine ((hasDerivAt_const T (-c.sigmaRef * c.alpha)).fun_div (hl.fun_pow 2) (pow_ne_zero 2 h)).congr_deriv ?_
    unfold Cond.dd; norm_num; field_simp

/-- **C142** With a positive temperature coefficient the conductivity is positive and decreases with the
temperature, as long as `1 + α (T - T_ref)` is positive. -/
theorem C142_conductivity_decreasing (c : Cond) (T T' : ℝ) (ha : 0 ≤ c.alpha) (hs : 0 < c.sigmaRef)
    (hT : 0 < 1 + c.alpha * (T - c.Tref)) (h : T ≤ T') : 0 < c.eval T' ∧ c.eval T' ≤ c.eval T := by
  have h2 : 1 + c.alpha * (T - c.Tref) ≤ 1 + c.alpha * (T' - c.Tref) := by nlinarith
  exact ⟨div_pos hs (by linarith), div_le_div_of_nonneg_left hs.le hT h2⟩

/-- **C142** Remnant flux and knee flux: affine in the temperature; the remnant flux changes by `α` percent
of its reference value per degree; the returned derivatives are exact. -/
theorem C142_fluxes (c : Remnant) (k : Knee) (T : ℝ) :
    c.eval c.Tref = c.BrRef ∧ (∀ ΔT, c.eval (T + ΔT) - c.eval T = c.BrRef * (c.alpha / 100) * ΔT) ∧
    HasDerivAt c.eval (c.d T) T ∧ HasDerivAt c.d (c.dd T) T ∧
    HasDerivAt k.eval (k.d T) T ∧ HasDerivAt k.d (k.dd T) T := by
  refine ⟨by simp [Remnant.eval], fun _ => by unfold Remnant.eval; ring, ?_, hasDerivAt_const _ _, ?_, hasDerivAt_const _ _⟩
  · unfold Remnant.eval
    exact (((((hasDerivAt_id' T).sub_const c.Tref).const_mul (c.alpha / 100)).const_add 1).const_mul c.BrRef).congr_deriv
      (by unfold Remnant.d; ring)
  · unfold Knee.eval
    exact (((hasDerivAt_id' T).const_mul _).add_const _).congr_deriv (by unfold Knee.d; ring)

/-- **C142** The knee flux coefficient is the knee flux of the demagnetization constraint, and the remnant
flux coefficient its remnant flux, for equal parameters. -/
theorem C142_consistent_with_constraint (m : Demag) (T : ℝ) :
    (⟨m.alphaBknee, m.betaBknee⟩ : Knee).eval T = m.Bknee T ∧
      (⟨m.alphaBr, m.T0, m.Br0⟩ : Remnant).eval T = m.Br T := ⟨rfl, rfl⟩

/-- **C142** The remnant flux takes each option that is given and the documented default for each that is
not, independently. -/
theorem C142_remnant_defaults (opt : String → Option ℝ) :
    (Remnant.construct opt).alpha = (match opt "alpha_B_r" with | some x => x | none => -0.12) ∧
    (Remnant.construct opt).Tref = (match opt "T_ref" with | some x => x | none => 293.15) ∧
    (Remnant.construct opt).BrRef = (match opt "B_r_T_ref" with | some x => x | none => 1.39) := by
  unfold Remnant.construct
  refine ⟨?_, ?_, ?_⟩ <;> simp only [] <;> split <;> simp_all

/-- Non-vacuity: copper. -/
example : 0 < 1 + (⟨0.00393, 293.15, 58.14e6⟩ : Cond).alpha * (373.15 - (⟨0.00393, 293.15, 58.14e6⟩ : Cond).Tref) := by
  norm_num

/-! ### C143: reluctivity -/

theorem mu0_pos : 0 < mu0 := mul_pos (by norm_num) Real.pi_pos
theorem nu0_pos : 0 < nu0 := div_pos one_pos mu0_pos

/-- **C143** The `lognu` model: the reluctivity is positive everywhere and that of vacuum above the last
knot. -/
theorem C143_lognu_positive (c : LogNu) (b : ℝ) : 0 < c.eval b ∧ (c.bmax < b → c.eval b = 1 / (4e-7 * Real.pi)) := by
  unfold LogNu.eval
  refine ⟨?_, fun h => by rw [if_neg (not_le.2 h)]; rfl⟩
  split
  · exact Real.exp_pos _
  · exact nu0_pos

/-- **C143** (partial) The returned first and second derivatives of the `lognu` reluctivity are exact away
from the last knot, given that the spline library differentiates correctly. -/
theorem C143_lognu_derivative_partial (c : LogNu) (b : ℝ) (hb : b ≠ c.bmax)
    (hs : b < c.bmax → HasDerivAt c.s (c.ds b) b) (hds : b < c.bmax → HasDerivAt c.ds (c.dds b) b) :
    HasDerivAt c.eval (c.d b) b ∧ HasDerivAt c.d (c.dd b) b := by
  rcases lt_or_gt_of_ne hb with h | h
  · have hn : ∀ᶠ y in 𝓝 b, y ≤ c.bmax := (eventually_lt_nhds h).mono fun _ => le_of_lt
    have he : HasDerivAt (fun y => Real.exp (c.s y)) (Real.exp (c.s b) * c.ds b) b := (hs h).exp
    constructor
    · refine (he.congr_of_eventuallyEq (hn.mono fun y hy => ?_)).congr_deriv ?_
      · simp only [LogNu.eval]; rw [if_pos hy]
      · simp only [LogNu.d]; rw [if_pos h.le]
    · refine ((he.fun_mul (hds h)).congr_of_eventuallyEq (hn.mono fun y hy => ?_)).congr_deriv ?_
      · simp only [LogNu.d]; rw [if_pos hy]
      · simp only [LogNu.dd]; rw [if_pos h.le]; ring
  · have hn : ∀ᶠ y in 𝓝 b, ¬ y ≤ c.bmax := (eventually_gt_nhds h).mono fun _ => not_le.2
    constructor
    · refine ((hasDerivAt_const b nu0).congr_of_eventuallyEq (hn.mono fun y hy => ?_)).congr_deriv ?_
      · simp only [LogNu.eval]; rw [if_neg hy]
      · simp only [LogNu.d]; rw [if_neg (not_le.2 h)]
    · refine ((hasDerivAt_const b (0 : ℝ)).congr_of_eventuallyEq (hn.mono fun y hy => ?_)).congr_deriv ?_
      · simp only [LogNu.d]; rw [if_neg hy]
      · simp only [LogNu.dd]; rw [if_neg (not_le.2 h)]

/-- **C143** The `lognu` reluctivity is continuous at the last knot exactly if the fit ends at the
reluctivity of vacuum. -/
theorem C143_lognu_continuous_iff (c : LogNu) (hs : ContinuousAt c.s c.bmax) :
    ContinuousAt c.eval c.bmax ↔ Real.exp (c.s c.bmax) = nu0 := by
  have ev : c.eval c.bmax = Real.exp (c.s c.bmax) := by unfold LogNu.eval; rw [if_pos le_rfl]
  constructor
  · intro h
    have h1 : Tendsto c.eval (𝓝[>] c.bmax) (𝓝 (c.eval c.bmax)) := h.tendsto.mono_left nhdsWithin_le_nhds
    have h2 : Tendsto c.eval (𝓝[>] c.bmax) (𝓝 nu0) := by
      refine tendsto_const_nhds.congr' ?_
      filter_upwards [self_mem_nhdsWithin] with y hy
      unfold LogNu.eval
      rw [if_neg (not_le.2 hy)]
    rw [← ev]
    exact tendsto_nhds_unique h1 h2
  · intro h
    have hc : ContinuousAt (fun y => Real.exp (c.s y)) c.bmax := hs.rexp
    rw [Metric.continuousAt_iff] at hc ⊢
    intro ε hε
    obtain ⟨δ, hδ, hd⟩ := hc ε hε
    refine ⟨δ, hδ, fun {y} hy => ?_⟩
    rw [ev]
    unfold LogNu.eval
    split
    · exact hd hy
    · rw [h, dist_self]; exact hε

/-- **C143** (partial) The `lognu` field strength `H = ν(B) B` does not decrease with `B` if
`1 + B (log ν)' ≥ 0` up to the last knot and the fit ends at or below the reluctivity of vacuum; the
magnetostatic residual is then a monotone operator. -/
theorem C143_lognu_monotone_partial (c : LogNu) (h0 : 0 ≤ c.bmax)
    (hs : ∀ b, 0 ≤ b → b ≤ c.bmax → HasDerivAt c.s (c.ds b) b)
    (hm : ∀ b, 0 ≤ b → b ≤ c.bmax → 0 ≤ 1 + b * c.ds b) (he : Real.exp (c.s c.bmax) ≤ nu0) :
    Verif.Diffusion.MonotoneFlux c.eval := by
  have hd : ∀ b, 0 ≤ b → b ≤ c.bmax →
      HasDerivAt (fun y => Real.exp (c.s y) * y) (Real.exp (c.s b) * (1 + b * c.ds b)) b := by
    intro b hb hb'
    exact ((hs b hb hb').exp.fun_mul (hasDerivAt_id' b)).congr_deriv (by ring)
  have mono : MonotoneOn (fun y => Real.exp (c.s y) * y) (Set.Icc 0 c.bmax) := by
    refine monotoneOn_of_deriv_nonneg (convex_Icc 0 c.bmax)
      (fun b hb => (hd b hb.1 hb.2).continuousAt.continuousWithinAt)
      (fun b hb => ?_) (fun b hb => ?_)
    · rw [interior_Icc] at hb
      exact (hd b hb.1.le hb.2.le).differentiableAt.differentiableWithinAt
    · rw [interior_Icc] at hb
      rw [(hd b hb.1.le hb.2.le).deriv]
      exact mul_nonneg (Real.exp_pos _).le (hm b hb.1.le hb.2.le)
  intro s t hs0 hst
  unfold LogNu.eval
  by_cases ht : t ≤ c.bmax
  · rw [if_pos ht, if_pos (hst.trans ht)]
    exact mono ⟨hs0, hst.trans ht⟩ ⟨hs0.trans hst, ht⟩ hst
  · rw [if_neg ht]
    have ht := not_le.1 ht
    split
    · rename_i hsb
      have h1 := mono ⟨hs0, hsb⟩ ⟨h0, le_rfl⟩ hsb
      simp only at h1
      have h2 : Real.exp (c.s c.bmax) * c.bmax ≤ nu0 * t :=
        mul_le_mul he ht.le h0 nu0_pos.le
      linarith
    · exact mul_le_mul_of_nonneg_left hst nu0_pos.le

/-- **C143** (counterexample) A `lognu` fit that ends above the reluctivity of vacuum - constant `log ν`, so
all spline derivatives are exact - has a jump at the last knot and a field strength that decreases with the
flux density there. -/
theorem C143_lognu_false : ∃ c : LogNu, (∀ b, HasDerivAt c.s (c.ds b) b) ∧ (∀ b, HasDerivAt c.ds (c.dds b) b) ∧
    ¬ ContinuousAt c.eval c.bmax ∧ ¬ Verif.Diffusion.MonotoneFlux c.eval := by
  refine ⟨⟨2, fun _ => Real.log (4 * nu0), fun _ => 0, fun _ => 0⟩, fun b => hasDerivAt_const _ _,
    fun b => hasDerivAt_const _ _, ?_, ?_⟩
  · rw [C143_lognu_continuous_iff _ continuousAt_const]
    simp only
    rw [Real.exp_log (by have := nu0_pos; positivity)]
    have := nu0_pos
    intro h
    linarith
  · intro h
    have h := h 2 3 (by norm_num) (by norm_num)
    unfold LogNu.eval at h
    rw [if_pos (by norm_num), if_neg (by norm_num)] at h
    simp only at h
    rw [Real.exp_log (by have := nu0_pos; positivity)] at h
    have := nu0_pos
    linarith

/-- **C143** The `bh` model reproduces the fitted curve: `ν(B) B = H(B)` up to the last knot, and
`H_max + ν₀ (B - B_max)` above it. -/
theorem C143_bh_curve (c : BH) (b : ℝ) (hb : 1e-14 < b) :
    (b ≤ c.bmax → c.eval b * b = c.h (b / c.bmax)) ∧
      (c.bmax < b → c.eval b * b = c.hmax + nu0 * (b - c.bmax)) := by
  have hb0 : b ≠ 0 := by intro h; rw [h] at hb; norm_num at hb
  unfold BH.eval
  rw [if_neg (not_le.2 hb)]
  constructor
  · intro h; rw [if_pos h]; field_simp
  · intro h; rw [if_neg (not_le.2 h)]; field_simp; ring

/-- **C143** (partial) The returned derivative of the `bh` reluctivity is exact for every flux density above
`1e-14` except at the last knot. -/
theorem C143_bh_derivative_partial (c : BH) (b : ℝ) (hb : 1e-14 < b) (hm : 1e-14 < c.bmax) (hne : b ≠ c.bmax)
    (hs : b < c.bmax → HasDerivAt c.h (c.dh (b / c.bmax)) (b / c.bmax)) :
    DerivOf (fun y => some (c.eval y)) (c.d b) b := by
  have hb0 : b ≠ 0 := by intro h; rw [h] at hb; norm_num at hb
  have hm0 : c.bmax ≠ 0 := by intro h; rw [h] at hm; norm_num at hm
  refine ⟨c.eval, (c.d b).getD 0, Eventually.of_forall fun _ => rfl, ?_, ?_⟩
  · unfold BH.d fdiv
    split <;> simp [hb0, hm0]
  have hn1 : ∀ᶠ y in 𝓝 b, ¬ y ≤ 1e-14 := (eventually_gt_nhds hb).mono fun _ => not_le.2
  rcases lt_or_gt_of_ne hne with h | h
  · have hn : ∀ᶠ y in 𝓝 b, y ≤ c.bmax := (eventually_lt_nhds h).mono fun _ => le_of_lt
    have hc : HasDerivAt (fun y => c.h (y / c.bmax)) (c.dh (b / c.bmax) * (1 / c.bmax)) b :=
      HasDerivAt.comp b (hs h) ((hasDerivAt_id' b).div_const c.bmax)
    refine ((hc.fun_div (hasDerivAt_id' b) hb0).congr_of_eventuallyEq
      ((hn.and hn1).mono fun y hy => ?_)).congr_deriv ?_
    · simp only [BH.eval]; rw [if_neg hy.2, if_pos hy.1]
    · unfold BH.d fdiv
      rw [if_pos h.le, if_neg (mul_ne_zero hb0 hm0), if_neg (pow_ne_zero 2 hb0)]
      simp only [Option.bind_some, Option.map_some, Option.getD_some]
      field_simp
  · have hn : ∀ᶠ y in 𝓝 b, ¬ y ≤ c.bmax := (eventually_gt_nhds h).mono fun _ => not_le.2
    refine ((((hasDerivAt_const b (c.hmax - nu0 * c.bmax)).fun_div (hasDerivAt_id' b) hb0).add_const
      nu0).congr_of_eventuallyEq ((hn.and hn1).mono fun y hy => ?_)).congr_deriv ?_
    · simp only [BH.eval]; rw [if_neg hy.2, if_neg hy.1]
    · unfold BH.d fdiv
      rw [if_neg (not_le.2 h), if_neg (pow_ne_zero 2 hb0)]
      simp only [Option.getD_some]
      ring

/-- **C143** (partial) Above `1e-14` the `bh` field strength does not decrease with the flux density, across
the last knot too, if the fit does not decrease and ends at its last control point. -/
theorem C143_bh_monotone_partial (c : BH) (hm : 1e-14 < c.bmax) (h1 : c.h 1 = c.hmax)
    (hmono : ∀ x y, 0 ≤ x → x ≤ y → y ≤ 1 → c.h x ≤ c.h y) (s t : ℝ) (hs : 1e-14 < s) (hst : s ≤ t) :
    c.eval s * s ≤ c.eval t * t := by
  have hm0 : 0 < c.bmax := by linarith [show (0 : ℝ) < 1e-14 by norm_num]
  have hs0 : 0 < s := by linarith [show (0 : ℝ) < 1e-14 by norm_num]
  have es := C143_bh_curve c s hs
  have et := C143_bh_curve c t (by linarith)
  by_cases ht : t ≤ c.bmax
  · rw [es.1 (hst.trans ht), et.1 ht]
    exact hmono _ _ (by positivity) (div_le_div_of_nonneg_right hst hm0.le) ((div_le_one hm0).2 ht)
  · have ht := not_le.1 ht
    rw [et.2 ht]
    by_cases hb : s ≤ c.bmax
    · rw [es.1 hb]
      have := hmono (s / c.bmax) 1 (by positivity) ((div_le_one hm0).2 hb) le_rfl
      have := mul_nonneg nu0_pos.le (sub_nonneg.2 ht.le)
      linarith
    · rw [es.2 (not_le.1 hb)]
      have := mul_le_mul_of_nonneg_left (sub_le_sub_right hst c.bmax) nu0_pos.le
      linarith

/-- **C143** (counterexample) The `bh` derivative is not finite at zero flux density, and below `1e-14` it is
not the derivative of the returned reluctivity (here `H(t) = t²`, `B_max = 1`). -/
theorem C143_bh_derivative_false :
    (∀ c : BH, 0 ≤ c.bmax → c.d 0 = none) ∧
    ∃ c : BH, (∀ y, HasDerivAt c.h (c.dh y) y) ∧ ∀ b, 0 < b → b < 1e-14 →
      ¬ DerivOf (fun y => some (c.eval y)) (c.d b) b := by
  refine ⟨fun c h => by unfold BH.d fdiv; rw [if_pos h]; simp, ⟨1, 1, fun y => y ^ 2, fun y => 2 * y⟩,
    fun y => ((hasDerivAt_pow 2 y)).congr_deriv (by norm_num), fun b hb hb' => ?_⟩
  rintro ⟨g, d', he, hd, hg⟩
  have hb1 : b ≤ 1 := by linarith [show (1e-14 : ℝ) < 1 by norm_num]
  have h1 : d' = 1 := by
    unfold BH.d fdiv at hd
    simp only [hb1, if_true, mul_one, div_one, hb.ne', if_false, pow_eq_zero_iff two_ne_zero, Option.bind_some,
      Option.map_some, Option.some.injEq] at hd
    rw [← hd]; field_simp; ring
  have hlt : ∀ᶠ y in 𝓝 b, y ≤ 1e-14 := (eventually_lt_nhds hb').mono fun _ => le_of_lt
  have h2 : HasDerivAt (fun y : ℝ => 2 * y) d' b := by
    refine hg.congr_of_eventuallyEq ((he.and hlt).mono fun y hy => ?_)
    have := hy.1
    simp only [BH.eval, hy.2, if_true, div_one, Option.some.injEq] at this
    exact this
  have h3 : HasDerivAt (fun y : ℝ => 2 * y) 2 b := ((hasDerivAt_id' b).const_mul 2).congr_deriv (by norm_num)
  have := h2.unique h3
  linarith

/-- Non-vacuity: a `lognu` fit that ends at the reluctivity of vacuum and meets the monotonicity
hypotheses, and a `bh` fit that meets those of the `bh` theorems. -/
example : (∃ c : LogNu, 0 < c.bmax ∧ (∀ b, HasDerivAt c.s (c.ds b) b) ∧ (∀ b, 0 ≤ b → b ≤ c.bmax → 0 ≤ 1 + b * c.ds b) ∧
      Real.exp (c.s c.bmax) ≤ nu0) ∧
    ∃ c : BH, 1e-14 < c.bmax ∧ c.h 1 = c.hmax ∧ (∀ y, HasDerivAt c.h (c.dh y) y) ∧
      ∀ x y, 0 ≤ x → x ≤ y → y ≤ 1 → c.h x ≤ c.h y := by
  refine ⟨⟨⟨2, fun b => Real.log nu0 + (b - 2), fun _ => 1, fun _ => 0⟩, by norm_num, fun b => ?_, fun b hb _ => ?_, ?_⟩,
    ⟨⟨5, 2, fun y => 5 * y, fun _ => 5⟩, by norm_num, by norm_num, fun y => ?_, fun x y _ h _ => ?_⟩⟩
  · exact ((hasDerivAt_id' b).sub_const 2).const_add _
  · simp only [mul_one]; linarith
  · simp only [sub_self, add_zero]; rw [Real.exp_log nu0_pos]
  · exact ((hasDerivAt_id' y).const_mul 5).congr_deriv (by norm_num)
  · simp only; linarith

/-! ### C144: construction -/

/-- Specification: the attributes a component names. -/
def Component.targets (c : Component) : List ℤ := if c.attr ≠ -1 then [c.attr] else c.attrs

theorem Res.bind_ok {α : Type} (r : Res α) : r.bind Res.ok = r := by cases r <;> rfl

theorem Res.bind_assoc {α β γ : Type} (r : Res α) (f : α → Res β) (g : β → Res γ) :
    (r.bind f).bind g = r.bind fun a => (f a).bind g := by cases r <;> rfl

theorem addAttrs_ok (b : Built) : ∀ (l : List ℤ) (m m' : Map), addAttrs (.ok b) l m = .ok m' →
    ∀ a, m'.lookup a = if a ∈ l then some b else m.lookup a
  | [], m, m', h, a => by
    simp only [addAttrs] at h; injection h with h; subst h; simp
  | x :: l, m, m', h, a => by
    simp only [addAttrs, Res.bind] at h
    unfold addCoeff at h
    cases e : m.lookup x with
    | some v => rw [e] at h; simp only [Res.bind] at h; cases h
    | none =>
      rw [e] at h
      simp only [Res.bind] at h
      rw [addAttrs_ok b l _ m' h a]
      by_cases ha : a ∈ l
      · simp [ha]
      · by_cases hx : a = x
        · subst hx; simp
        · have : (a == x) = false := by simpa using hx
          simp [ha, hx, List.lookup, this]

theorem addAttrs_not_ok (r : Res Built) (hr : ∀ b, r ≠ .ok b) (l : List ℤ) (hl : l ≠ []) (m m' : Map) :
    addAttrs r l m ≠ .ok m' := by
  cases l with
  | nil => exact absurd rfl hl
  | cons x l =>
    cases r with
    | ok b => exact absurd rfl (hr b)
    | miso => intro h; cases h
    | typeError => intro h; cases h
    | abort => intro h; cases h

theorem buildPlain_step (f : Component → Res Built) (c : Component) (l : List Component) (m : Map) :
    buildPlain f (c :: l) m = (addAttrs (f c) c.targets m).bind fun m' => buildPlain f l m' := by
  unfold Component.targets
  by_cases h : c.attr ≠ -1
  · rw [buildPlain, if_pos h, if_pos h]
    simp only [addAttrs]
    cases f c <;> try rfl
    simp only [Res.bind]
    cases addCoeff m c.attr _ <;> rfl
  · rw [buildPlain, if_neg h, if_neg h]

/-- **C144** A successful construction of a conductivity (or reluctivity) gives each attribute the
coefficient of the last component naming it - in fact of the only one - and leaves the others at the
default; whether a component names one attribute with `attr` or the same one with `attrs` makes no
difference. -/
theorem C144_plain_construction (f : Component → Res Built) :
    ∀ (cs : List Component) (m m' : Map), buildPlain f cs m = .ok m' →
      (∀ a b, m'.lookup a = some b → m.lookup a = some b ∨ ∃ c ∈ cs, a ∈ c.targets ∧ f c = .ok b) ∧
      (∀ c ∈ cs, ∀ a ∈ c.targets, ∃ b, f c = .ok b ∧ m'.lookup a = some b) ∧
      (∀ a b, m.lookup a = some b → m'.lookup a = some b)
  | [], m, m', h => by
    simp only [buildPlain] at h
    injection h with h
    subst h
    exact ⟨fun a b h => .inl h, fun c hc => absurd hc (by simp), fun _ _ h => h⟩
  | c :: cs, m, m', h => by
    rw [buildPlain_step] at h
    cases e : addAttrs (f c) c.targets m with
    | miso => rw [e] at h; cases h
    | typeError => rw [e] at h; cases h
    | abort => rw [e] at h; cases h
    | ok m1 =>
      rw [e] at h
      simp only [Res.bind] at h
      obtain ⟨i1, i2, i3⟩ := C144_plain_construction f cs m1 m' h
      by_cases ht : c.targets = []
      · rw [ht] at e
        simp only [addAttrs] at e
        injection e with e
        subst e
        refine ⟨fun a b hab => ?_, fun c' hc' a ha => ?_, i3⟩
        · rcases i1 a b hab with h | ⟨c', hc', h'⟩
          · exact .inl h
          · exact .inr ⟨c', List.mem_cons_of_mem _ hc', h'⟩
        · rcases List.mem_cons.1 hc' with rfl | hc'
          · rw [ht] at ha; cases ha
          · exact i2 c' hc' a ha
      · cases hf : f c with
        | miso => exact absurd (hf ▸ e) (addAttrs_not_ok _ (by intro b hb; cases hb) _ ht _ _)
        | typeError => exact absurd (hf ▸ e) (addAttrs_not_ok _ (by intro b hb; cases hb) _ ht _ _)
        | abort => exact absurd (hf ▸ e) (addAttrs_not_ok _ (by intro b hb; cases hb) _ ht _ _)
        | ok b0 =>
          rw [hf] at e
          have hl := addAttrs_ok b0 _ _ _ e
          have hdis : ∀ a ∈ c.targets, m.lookup a = none := by
            clear hl i1 i2 i3 h hf ht
            generalize c.targets = l at e
            induction l generalizing m with
            | nil => intro a ha; cases ha
            | cons x l ih =>
              simp only [addAttrs, Res.bind] at e
              unfold addCoeff at e
              cases ex : m.lookup x with
              | some v => rw [ex] at e; cases e
              | none =>
                rw [ex] at e
                simp only [Res.bind] at e
                intro a ha
                rcases List.mem_cons.1 ha with rfl | ha
                · exact ex
                · have := ih _ e a ha
                  by_cases hx : a = x
                  · subst hx; exact ex
                  · have hb : (a == x) = false := by simpa using hx
                    simpa [List.lookup, hb] using this
          refine ⟨fun a b hab => ?_, fun c' hc' a ha => ?_, fun a b hab => ?_⟩
          · rcases i1 a b hab with h1 | ⟨c', hc', h'⟩
            · rw [hl a] at h1
              by_cases ha : a ∈ c.targets
              · rw [if_pos ha] at h1
                injection h1 with h1
                exact .inr ⟨c, List.mem_cons_self, ha, by rw [hf, h1]⟩
              · rw [if_neg ha] at h1; exact .inl h1
            · exact .inr ⟨c', List.mem_cons_of_mem _ hc', h'⟩
          · rcases List.mem_cons.1 hc' with rfl | hc'
            · exact ⟨b0, hf, i3 a b0 (by rw [hl a, if_pos ha])⟩
            · exact i2 c' hc' a ha
          · refine i3 a b ?_
            rw [hl a, if_neg fun ha => ?_]
            · exact hab
            · rw [hdis a ha] at hab; cases hab

/-- **C144** (counterexample) The CAL2, knee flux and demagnetization coefficients cannot be constructed if
any component names its attribute with `attr`: the attempt ends in a JSON type error, a MISO exception or an
abort - while the same components with `attrs` work. -/
theorem C144_attr_form_false (f : Component → Res Built) :
    (∀ (cs : List Component) (m m' : Map), (∃ c ∈ cs, c.attr ≠ -1) → buildDefault f cs m ≠ .ok m') ∧
    (∀ (cs : List Component) (m : Map), (∀ c ∈ cs, c.attr = -1) → buildDefault f cs m = buildPlain f cs m) := by
  refine ⟨fun cs => ?_, fun cs => ?_⟩
  · induction cs with
    | nil => intro m m' h; obtain ⟨c, hc, -⟩ := h; cases hc
    | cons c cs ih =>
      intro m m' h
      rw [buildDefault]
      split
      · intro h; cases h
      · rename_i hc
        cases e : addAttrs (f c) c.attrs m with
        | miso => intro h; cases h
        | typeError => intro h; cases h
        | abort => intro h; cases h
        | ok m1 =>
          simp only [Res.bind]
          refine ih m1 m' ?_
          obtain ⟨c', hc', h'⟩ := h
          rcases List.mem_cons.1 hc' with rfl | hc'
          · exact absurd h' hc
          · exact ⟨c', hc', h'⟩
  · induction cs with
    | nil => intro m _; rfl
    | cons c cs ih =>
      intro m h
      have hc : ¬ c.attr ≠ -1 := not_not.2 (h c List.mem_cons_self)
      rw [buildDefault, buildPlain, if_neg hc, if_neg hc]
      congr 1
      funext m'
      exact ih m' fun c' hc' => h c' (List.mem_cons_of_mem _ hc')

/-- **C144** (partial) With `attrs` throughout, the successful construction of these coefficients gives each
attribute the coefficient of its component. -/
theorem C144_attrs_form_partial (f : Component → Res Built) (cs : List Component) (m' : Map)
    (ha : ∀ c ∈ cs, c.attr = -1) (h : buildDefault f cs [] = .ok m') :
    (∀ c ∈ cs, ∀ a ∈ c.attrs, ∃ b, f c = .ok b ∧ m'.lookup a = some b) ∧
    (∀ a, (∀ c ∈ cs, a ∉ c.attrs) → m'.lookup a = none) := by
  rw [(C144_attr_form_false f).2 cs [] ha] at h
  obtain ⟨i1, i2, -⟩ := C144_plain_construction f cs [] m' h
  have ht : ∀ c ∈ cs, c.targets = c.attrs := fun c hc => by
    unfold Component.targets; rw [if_neg (not_not.2 (ha c hc))]
  refine ⟨fun c hc a h => i2 c hc a (by rw [ht c hc]; exact h), fun a hno => ?_⟩
  cases e : m'.lookup a with
  | none => rfl
  | some b =>
    rcases i1 a b e with h | ⟨c, hc, h1, -⟩
    · cases h
    · rw [ht c hc] at h1
      exact absurd h1 (hno c hc)

/-- **C144** Every CAL2 parameter is taken from the component if it is given there, else from the library. -/
theorem C144_override (pre : String) (lib : Library) (c : Component) (s : String) (own : Obj)
    (hc : c.material = .obj s (some own)) (k : Cal2) (h : constructCal2 pre lib c = .ok (.cal2 k)) :
    (own "T0" = some (.num k.T0) ∨ own "T0" = none ∧ lib.block s "T0" = some (.num k.T0)) ∧
    (own (pre ++ "_T0") = some (.arr k.k0) ∨ own (pre ++ "_T0") = none ∧ lib.block s (pre ++ "_T0") = some (.arr k.k0)) ∧
    (own "T1" = some (.num k.T1) ∨ own "T1" = none ∧ lib.block s "T1" = some (.num k.T1)) ∧
    (own (pre ++ "_T1") = some (.arr k.k1) ∨ own (pre ++ "_T1") = none ∧ lib.block s (pre ++ "_T1") = some (.arr k.k1)) := by
  have num : ∀ key x, pickNum own (lib.block s) key = .ok x →
      own key = some (.num x) ∨ own key = none ∧ lib.block s key = some (.num x) := by
    intro key x h
    unfold pickNum pick at h
    cases e : own key with
    | some v =>
      rw [e] at h
      cases v <;> simp only [Res.bind, Val.num?] at h <;> cases h
      exact .inl rfl
    | none =>
      rw [e] at h
      cases e2 : lib.block s key with
      | none => rw [e2] at h; cases h
      | some v =>
        rw [e2] at h
        cases v <;> simp only [Res.bind, Val.num?] at h <;> cases h
        exact .inr ⟨rfl, rfl⟩
  have arr : ∀ key x, pickArr own (lib.block s) key = .ok x →
      own key = some (.arr x) ∨ own key = none ∧ lib.block s key = some (.arr x) := by
    intro key x h
    unfold pickArr pick at h
    cases e : own key with
    | some v =>
      rw [e] at h
      cases v <;> simp only [Res.bind, Val.arr?] at h <;> cases h
      exact .inl rfl
    | none =>
      rw [e] at h
      cases e2 : lib.block s key with
      | none => rw [e2] at h; cases h
      | some v =>
        rw [e2] at h
        cases v <;> simp only [Res.bind, Val.arr?] at h <;> cases h
        exact .inr ⟨rfl, rfl⟩
  unfold constructCal2 getCal2 at h
  rw [hc] at h
  simp only at h
  cases e1 : pickNum own (lib.block s) "T0" <;> rw [e1] at h <;> simp only [Res.bind] at h <;> try cases h
  cases e2 : pickArr own (lib.block s) (pre ++ "_T0") <;> rw [e2] at h <;> simp only [Res.bind] at h <;> try cases h
  cases e3 : pickNum own (lib.block s) "T1" <;> rw [e3] at h <;> simp only [Res.bind] at h <;> try cases h
  cases e4 : pickArr own (lib.block s) (pre ++ "_T1") <;> rw [e4] at h <;> simp only [Res.bind] at h <;> try cases h
  exact ⟨num _ _ e1, arr _ _ e2, num _ _ e3, arr _ _ e4⟩

theorem pickNum_ok (own lib : Obj) (key : String) (x : ℝ) (h : pickNum own lib key = .ok x) :
    own key = some (.num x) ∨ own key = none ∧ lib key = some (.num x) := by
  unfold pickNum pick at h
  cases e : own key with
  | some v =>
    rw [e] at h
    cases v <;> simp only [Res.bind, Val.num?] at h <;> cases h
    exact .inl rfl
  | none =>
    rw [e] at h
    cases e2 : lib key with
    | none => rw [e2] at h; cases h
    | some v =>
      rw [e2] at h
      cases v <;> simp only [Res.bind, Val.num?] at h <;> cases h
      exact .inr ⟨rfl, rfl⟩

/-- **C144** The same for the parameters of the knee flux density and of the linear conductivity. -/
theorem C144_override_linear (lib : Library) (c : Component) (s : String) (own : Obj) (hc : c.material = .obj s (some own)) :
    (∀ k, constructKnee lib c = .ok (.knee k) →
      (own "alpha_B_knee" = some (.num k.alpha) ∨ own "alpha_B_knee" = none ∧ lib.block s "alpha_B_knee" = some (.num k.alpha)) ∧
      (own "beta_B_knee" = some (.num k.beta) ∨ own "beta_B_knee" = none ∧ lib.block s "beta_B_knee" = some (.num k.beta))) ∧
    (∀ k, constructCond lib c = .ok (.cond k) → own "model" = some (.str "linear") ∧
      (own "alpha_resistivity" = some (.num k.alpha) ∨
        own "alpha_resistivity" = none ∧ lib.block s "alpha_resistivity" = some (.num k.alpha)) ∧
      (own "T_ref" = some (.num k.Tref) ∨ own "T_ref" = none ∧ lib.block s "T_ref" = some (.num k.Tref)) ∧
      (own "sigma_T_ref" = some (.num k.sigmaRef) ∨ own "sigma_T_ref" = none ∧ lib.block s "sigma_T_ref" = some (.num k.sigmaRef))) := by
  constructor
  · intro k h
    unfold constructKnee at h
    rw [hc] at h
    simp only at h
    cases e1 : pickNum own (lib.block s) "alpha_B_knee" <;> rw [e1] at h <;> simp only [Res.bind] at h <;> try cases h
    cases e2 : pickNum own (lib.block s) "beta_B_knee" <;> rw [e2] at h <;> simp only [Res.bind] at h <;> try cases h
    exact ⟨pickNum_ok _ _ _ _ e1, pickNum_ok _ _ _ _ e2⟩
  · intro k h
    unfold constructCond at h
    rw [hc] at h
    simp only at h
    cases e0 : own "model" with
    | none => simp [pick, e0, Res.bind] at h
    | some v =>
      cases v with
      | num x => simp [pick, e0, Res.bind, Val.str?] at h
      | arr x => simp [pick, e0, Res.bind, Val.str?] at h
      | str m =>
        simp only [pick, e0, Res.bind, Val.str?] at h
        by_cases h1 : m = "constant"
        · simp [h1] at h
        · by_cases h2 : m = "linear"
          · subst h2
            refine ⟨rfl, ?_⟩
            simp only [if_neg h1, if_true] at h
            cases e1 : pickNum own (lib.block s) "alpha_resistivity" <;> rw [e1] at h <;> simp only at h <;> try cases h
            cases e2 : pickNum own (lib.block s) "T_ref" <;> rw [e2] at h <;> simp only at h <;> try cases h
            cases e3 : pickNum own (lib.block s) "sigma_T_ref" <;> rw [e3] at h <;> simp only at h <;> try cases h
            exact ⟨pickNum_ok _ _ _ _ e1, pickNum_ok _ _ _ _ e2, pickNum_ok _ _ _ _ e3⟩
          · simp [h1, h2] at h

/-- **C144** fails for magnets given by the name of their material only: the knee flux density and the demagnetisation constraint are the constant 0, whatever the
library says about the material. -/
theorem C144_library_ignored_false (lib : Library) (attr : ℤ) (attrs : List ℤ) (s : String) :
    constructKnee lib ⟨attr, attrs, .name s⟩ = .ok (.const 0) ∧ constructDemag lib ⟨attr, attrs, .name s⟩ = .ok (.const 0) := ⟨rfl, rfl⟩

/-- Non-vacuity: two components over three attributes, one with its own `T1`. -/
example : ∃ (own : Obj) (lib : Library) (m : Map),
    buildDefault (constructCal2 "kh" lib) [⟨-1, [1, 2], .name "steel"⟩, ⟨-1, [3], .obj "hiperco" (some own)⟩] [] = .ok m ∧
    m.lookup 3 = some (.cal2 ⟨20, [1], 90, [2]⟩) ∧ m.lookup 1 = some (.const 1) := by
  refine ⟨fun k => if k = "T1" then some (.num 90) else none,
    ⟨fun _ => none, fun _ k => if k = "T0" then some (.num 20) else if k = "T1" then some (.num 200)
      else if k = "kh_T0" then some (.arr [1]) else if k = "kh_T1" then some (.arr [2]) else none⟩,
    [(3, .cal2 ⟨20, [1], 90, [2]⟩), (2, .const 1), (1, .const 1)], ?_, rfl, rfl⟩
  simp [buildDefault, addAttrs, addCoeff, Res.bind, constructCal2, getCal2, pickNum, pickArr, pick, Val.num?, Val.arr?, List.lookup]

end Verif.MatCoeffs
