import Mathlib.Tactic.Linarith
import Mathlib.Tactic.NormNum
import Mathlib.Tactic.Positivity
import Mathlib.Topology.Order.IntermediateValue
import Verif.LibData
import Verif.MatCoeffProps

/-!
# C219: where the shipped material data are physically admissible

A user selects the shipped data with a component whose material is `{"name": …, "core_loss": {}}` (or
`"Demag"`, `"conductivity": {"model": "linear"}`) and no overriding values.
-/

namespace Verif.LibData
open Verif.MatCoeffs Verif.CoreLoss Finset

/-- Specification: a component that asks for the model of its material and overrides nothing. -/
def Plain (s : String) (own : Obj) (c : Component) : Prop := c.material = .obj s (some own) ∧ ∀ k, k ≠ "model" → own k = none

/-! ### Core loss -/

/-- The data the two CAL2 coefficients of Hiperco 50 are built with. -/
noncomputable def khData : Cal2 :=
  ⟨293.15, [0.0997091541786544, -0.129193571991623, 0.0900090637806644, -0.0212834836667556], 473.15,
   [0.0895406177349016, -0.0810594723247055, 0.0377588555136910, -0.00511339186996760]⟩

noncomputable def keData : Cal2 :=
  ⟨293.15, [-5.93693970727006e-06, 0.000117138629373709, -0.000130355460369590, 4.10973552619398e-05], 473.15,
   [1.79301614571386e-05, 7.45159671115992e-07, -1.19410662547280e-06, 3.53133402660246e-07]⟩

theorem cal2_built (own : Obj) (c : Component) (h : Plain "hiperco50" own c) :
    constructCal2 "kh" cal2Lib c = .ok (.cal2 khData) ∧ constructCal2 "ke" cal2Lib c = .ok (.cal2 keData) := by
  obtain ⟨hm, ho⟩ := h
  unfold constructCal2
  rw [hm]
  have e1 : ("kh" ++ "_T0" : String) = "kh_T0" := by decide
  have e2 : ("kh" ++ "_T1" : String) = "kh_T1" := by decide
  have e3 : ("ke" ++ "_T0" : String) = "ke_T0" := by decide
  have e4 : ("ke" ++ "_T1" : String) = "ke_T1" := by decide
  simp only [getCal2, pickNum, pickArr, pick, e1, e2, e3, e4, ho "T0" (by decide), ho "T1" (by decide),
    ho "kh_T0" (by decide), ho "kh_T1" (by decide), ho "ke_T0" (by decide), ho "ke_T1" (by decide)]
  constructor <;> simp [cal2Lib, hiperco50Cal2, obj, List.lookup, Res.bind, Val.num?, Val.arr?, khData, keData]

theorem poly4 (a b c d B : ℝ) : poly [a, b, c, d] B = a + b * B + c * B ^ 2 + d * B ^ 3 := by
  simp [poly, sum_range_succ]

theorem kh0_pos {B : ℝ} (h0 : 0 ≤ B) (h1 : B ≤ 2.5) : 0 < poly khData.k0 B := by
  simp only [khData, poly4]
  norm_num at h1 ⊢
  nlinarith [mul_nonneg h0 (sub_nonneg.2 h1), mul_nonneg (mul_nonneg h0 h0) (sub_nonneg.2 h1), sq_nonneg (B - 1), sq_nonneg (B - 2),
    mul_nonneg (sub_nonneg.2 h1) (sq_nonneg (B - 1)), mul_nonneg (sub_nonneg.2 h1) (sq_nonneg (B - 1.2))]

theorem kh1_pos {B : ℝ} (h0 : 0 ≤ B) (h1 : B ≤ 2.5) : 0 < poly khData.k1 B := by
  simp only [khData, poly4]
  norm_num at h1 ⊢
  nlinarith [mul_nonneg h0 (sub_nonneg.2 h1), mul_nonneg (mul_nonneg h0 h0) (sub_nonneg.2 h1), sq_nonneg (B - 1), sq_nonneg (B - 2),
    mul_nonneg (sub_nonneg.2 h1) (sq_nonneg (B - 1)), mul_nonneg (sub_nonneg.2 h1) (sq_nonneg (B - 1.5))]

theorem ke0_pos {B : ℝ} (h0 : 0.054 ≤ B) : 0 < poly keData.k0 B := by
  simp only [keData, poly4]
  have hs : 0 ≤ B - 27 / 500 := by norm_num at h0; linarith
  norm_num
  nlinarith [mul_nonneg hs (sq_nonneg (B - 1.5)), mul_nonneg hs (sq_nonneg (B - 1.6)), hs, sq_nonneg (B - 1.5)]

theorem ke1_pos {B : ℝ} (h0 : 0 ≤ B) : 0 < poly keData.k1 B := by
  simp only [keData, poly4]
  norm_num
  nlinarith [mul_nonneg h0 (sq_nonneg (B - 1.5)), mul_nonneg h0 (sq_nonneg (B - 1.7)), h0, sq_nonneg (B - 1.5)]

theorem ke0_neg {B : ℝ} (h0 : 0 ≤ B) (h1 : B ≤ 0.05) : poly keData.k0 B < 0 := by
  simp only [keData, poly4]
  norm_num at h1 ⊢
  nlinarith [mul_nonneg h0 (sub_nonneg.2 h1), mul_nonneg (mul_nonneg h0 h0) (sub_nonneg.2 h1)]

/-- Weighted at `f = 16 kHz` (or less) the sum of the two fits stays positive. -/
theorem both0_pos {B f : ℝ} (h0 : 0 ≤ B) (h1 : B ≤ 2.5) (f0 : 0 ≤ f) (f1 : f ≤ 16000) :
    0 < poly khData.k0 B + f * poly keData.k0 B := by
  rcases le_or_gt 0 (poly keData.k0 B) with h | h
  · have := kh0_pos h0 h1
    have := mul_nonneg f0 h
    linarith
  · have h2 : 0 < poly khData.k0 B + 16000 * poly keData.k0 B := by
      have hB : B ≤ 0.054 := by
        by_contra hc
        exact absurd h (not_lt.2 (ke0_pos (not_le.1 hc).le).le)
      simp only [keData, khData, poly4]
      norm_num at hB ⊢
      nlinarith [mul_nonneg h0 (sub_nonneg.2 hB), mul_nonneg (mul_nonneg h0 h0) (sub_nonneg.2 hB)]
    nlinarith

theorem cvx_pos {T a b : ℝ} (hT : 293.15 ≤ T) (hT' : T ≤ 473.15) (ha : 0 < a) (hb : 0 < b) :
    0 < (473.15 - T) / (473.15 - 293.15) * a + (T - 293.15) / (473.15 - 293.15) * b := by
  have hd : (0 : ℝ) < 473.15 - 293.15 := by norm_num
  rw [div_mul_eq_mul_div, div_mul_eq_mul_div, ← add_div]
  refine div_pos ?_ hd
  rcases eq_or_lt_of_le hT with rfl | h
  · have := mul_pos hd ha; linarith
  · have := mul_pos (sub_pos.2 h) hb
    have := mul_nonneg (sub_nonneg.2 hT') ha.le
    linarith

theorem lookup_mem {α : Type} {l : List (String × α)} {s : String} {w : α} (h : l.lookup s = some w) : (s, w) ∈ l := by
  induction l with
  | nil => simp at h
  | cons p l ih =>
    obtain ⟨a, b⟩ := p
    rw [List.lookup_cons] at h
    by_cases hc : s = a
    · subst hc
      simp at h; subst h; simp
    · have : (s == a) = false := by simpa using hc
      rw [this] at h
      exact List.mem_cons_of_mem _ (ih h)

theorem den_pos {al T : ℝ} (h0 : 0 ≤ al) (h1 : al ≤ 5.67e-3) (hT : 117 ≤ T) : 0 < 1 + al * (T - 293.15) := by
  rcases le_or_gt 293.15 T with h | h
  · have := mul_nonneg h0 (sub_nonneg.2 h); linarith
  · have h2 : 0 ≤ (5.67e-3 - al) * (293.15 - T) := mul_nonneg (by linarith) (by linarith)
    norm_num at h2 ⊢
    nlinarith

/-- **C219** The hysteresis coefficient of Hiperco 50 is finite and positive for every flux density up to 2.5 T
between the reference temperatures. -/
theorem C219_hysteresis (own : Obj) (c : Component) (h : Plain "hiperco50" own c) :
    ∃ k, constructCal2 "kh" cal2Lib c = .ok (.cal2 k) ∧ ∀ T f B, 293.15 ≤ T → T ≤ 473.15 → 0 ≤ B → B ≤ 2.5 →
      ∃ v, k.eval T f B = some v ∧ 0 < v := by
  refine ⟨khData, (cal2_built own c h).1, fun T f B hT hT' h0 h1 => ⟨_, C140_value khData T f B (by norm_num [khData])
    (kh0_pos h0 h1).ne', ?_⟩⟩
  have a := kh0_pos h0 h1
  have b := kh1_pos h0 h1
  exact cvx_pos hT hT' a b

/-- **C219** Its eddy-current coefficient is finite and positive only from 0.054 T on. -/
theorem C219_eddy_partial (own : Obj) (c : Component) (h : Plain "hiperco50" own c) :
    ∃ k, constructCal2 "ke" cal2Lib c = .ok (.cal2 k) ∧ ∀ T f B, 293.15 ≤ T → T ≤ 473.15 → 0.054 ≤ B →
      ∃ v, k.eval T f B = some v ∧ 0 < v := by
  refine ⟨keData, (cal2_built own c h).2, fun T f B hT hT' h0 => ⟨_, C140_value keData T f B (by norm_num [keData])
    (ke0_pos h0).ne', ?_⟩⟩
  exact cvx_pos hT hT' (ke0_pos h0) (ke1_pos (by norm_num at h0; linarith))

/-- **C219** Below that the property fails: at 20 °C the coefficient is negative for all flux densities up to 0.05 T
(a negative loss), and between 0.05 T and 0.054 T there is a flux density at which, at every temperature, it is
not a number. -/
theorem C219_eddy_false (own : Obj) (c : Component) (h : Plain "hiperco50" own c) :
    ∃ k, constructCal2 "ke" cal2Lib c = .ok (.cal2 k) ∧
      (∀ f B, 0 ≤ B → B ≤ 0.05 → ∃ v, k.eval 293.15 f B = some v ∧ v < 0) ∧
      ∃ B, 0.05 < B ∧ B < 0.054 ∧ ∀ T f, k.eval T f B = none := by
  refine ⟨keData, (cal2_built own c h).2, fun f B h0 h1 => ?_, ?_⟩
  · exact ⟨_, (C140_reference_values keData f B (by norm_num [keData]) (ke0_neg h0 h1).ne).1, ke0_neg h0 h1⟩
  · have hc : ContinuousOn (fun B => poly keData.k0 B) (Set.Icc 0.05 0.054) := fun B _ =>
      (hasDerivAt_poly keData.k0 B).continuousAt.continuousWithinAt
    obtain ⟨B, hB, hz⟩ := intermediate_value_Icc (by norm_num : (0.05 : ℝ) ≤ 0.054) hc
      ⟨(ke0_neg (by norm_num) le_rfl).le, (ke0_pos le_rfl).le⟩
    refine ⟨B, lt_of_le_of_ne hB.1 ?_, lt_of_le_of_ne hB.2 ?_, fun T f => ?_⟩
    · rintro rfl
      exact absurd hz (ke0_neg (by norm_num) le_rfl).ne
    · rintro rfl
      exact absurd hz (ke0_pos le_rfl).ne'
    · have := mt (C140_finite_iff keData T f B).1 (fun hh => hh.2 hz)
      simpa using this

/-- The core of a Hiperco 50 component. -/
noncomputable def hipercoCore (kh ke : Cal2) : Core := ⟨hiperco50Rho, Tri.ofCal2 kh, Tri.ofCal2 ke⟩

/-- **C219** The loss density of Hiperco 50 is positive wherever it is a number, for flux densities up to 2.5 T,
temperatures between the references and frequencies up to 16 kHz. -/
theorem C219_loss_partial (own : Obj) (c : Component) (h : Plain "hiperco50" own c) :
    ∃ kh ke, constructCal2 "kh" cal2Lib c = .ok (.cal2 kh) ∧ constructCal2 "ke" cal2Lib c = .ok (.cal2 ke) ∧
      ∀ T f B v, 293.15 ≤ T → T ≤ 473.15 → 0 < B → B ≤ 2.5 → 0 < f → f ≤ 16000 →
        loss (hipercoCore kh ke) T f B = some v → 0 < v := by
  refine ⟨khData, keData, (cal2_built own c h).1, (cal2_built own c h).2, fun T f B v hT hT' h0 h1 f0 f1 hv => ?_⟩
  obtain ⟨a, ha⟩ : ∃ a, (hipercoCore khData keData).ke.eval T f B = some a := by
    unfold loss at hv
    rcases he : (hipercoCore khData keData).ke.eval T f B with _ | a
    · rw [he] at hv
      rcases (hipercoCore khData keData).kh.eval T f B with _ | b <;> simp at hv
    · exact ⟨a, rfl⟩
  have hk : poly keData.k0 B ≠ 0 := ((C140_finite_iff keData T f B).1 (by
    change (keData.eval T f B) = some a at ha
    rw [ha]; rfl)).2
  have e1 : (hipercoCore khData keData).kh.eval T f B = _ := C140_value khData T f B (by norm_num [khData]) (kh0_pos h0.le h1).ne'
  have e2 : (hipercoCore khData keData).ke.eval T f B = _ := C140_value keData T f B (by norm_num [keData]) hk
  unfold loss at hv
  rw [e1, e2] at hv
  simp only [Option.bind_some, Option.map_some, Option.some.injEq] at hv
  have p0 := both0_pos h0.le h1 f0.le f1
  have p1 : 0 < poly khData.k1 B + f * poly keData.k1 B :=
    add_pos (kh1_pos h0.le h1) (mul_pos f0 (ke1_pos h0.le))
  have p := cvx_pos hT hT' p0 p1
  have hr : (0 : ℝ) < hiperco50Rho := by norm_num [hiperco50Rho]
  have hfb : 0 < f * B ^ 2 := by positivity
  have hfin := mul_pos hr (mul_pos hfb p)
  rw [← hv]
  have t0 : khData.T0 = 293.15 ∧ khData.T1 = 473.15 ∧ keData.T0 = 293.15 ∧ keData.T1 = 473.15 ∧
      (hipercoCore khData keData).rho = hiperco50Rho := ⟨rfl, rfl, rfl, rfl, rfl⟩
  rw [t0.1, t0.2.1, t0.2.2.1, t0.2.2.2.1, t0.2.2.2.2]
  refine lt_of_lt_of_eq hfin ?_
  ring

/-- **C219** Beyond, it is not: at 20 kHz, 20 °C and 1 mT the density is negative. -/
theorem C219_loss_false (own : Obj) (c : Component) (h : Plain "hiperco50" own c) :
    ∃ kh ke v, constructCal2 "kh" cal2Lib c = .ok (.cal2 kh) ∧ constructCal2 "ke" cal2Lib c = .ok (.cal2 ke) ∧
      loss (hipercoCore kh ke) 293.15 20000 0.001 = some v ∧ v < 0 := by
  have n1 := kh0_pos (B := 0.001) (by norm_num) (by norm_num)
  have n2 := ke0_neg (B := 0.001) (by norm_num) (by norm_num)
  have e1 := (C140_reference_values khData 20000 0.001 (by norm_num [khData]) n1.ne').1
  have e2 := (C140_reference_values keData 20000 0.001 (by norm_num [keData]) n2.ne).1
  refine ⟨khData, keData, hiperco50Rho * (poly khData.k0 0.001 * 20000 * 0.001 ^ 2 +
    poly keData.k0 0.001 * 20000 ^ 2 * 0.001 ^ 2), (cal2_built own c h).1, (cal2_built own c h).2, ?_, ?_⟩
  · have e1' : (hipercoCore khData keData).kh.eval 293.15 20000 0.001 = _ := e1
    have e2' : (hipercoCore khData keData).ke.eval 293.15 20000 0.001 = _ := e2
    unfold loss
    rw [e1', e2']
    simp [hipercoCore]
  · simp only [khData, keData, poly4, hiperco50Rho]
    norm_num

/-- **C219** A component that only names the material does not get these data: both coefficients are the constant 1. -/
theorem C219_name_only (s : String) (c : Component) (h : c.material = .name s) :
    constructCal2 "kh" cal2Lib c = .ok (.const 1) ∧ constructCal2 "ke" cal2Lib c = .ok (.const 1) := by
  unfold constructCal2
  rw [h]
  simp [cal2Lib]

/-! ### The magnet -/

/-- The data of the demagnetization constraint of Nd2Fe14B. -/
noncomputable def ndData : Demag :=
  ⟨293.15, -0.12, 1.39, -0.57, -1273.0, 0.005522656, -1.4442405898, 5.548346445, -2571.4027913402⟩

theorem demag_built (own : Obj) (c : Component) (h : Plain "Nd2Fe14B" own c) :
    constructDemag demagLib c = .ok (.demag ndData) := by
  obtain ⟨hm, ho⟩ := h
  unfold constructDemag
  rw [hm]
  simp only [getDemag, pickNum, pick, ho "T0" (by decide), ho "alpha_B_r" (by decide), ho "B_r_T0" (by decide),
    ho "alpha_H_ci" (by decide), ho "H_ci_T0" (by decide), ho "alpha_B_knee" (by decide), ho "beta_B_knee" (by decide),
    ho "alpha_H_knee" (by decide), ho "beta_H_knee" (by decide)]
  simp [demagLib, ndDemag, obj, List.lookup, Res.bind, Val.num?, ndData]

theorem nd_order {T : ℝ} (h0 : 262 ≤ T) (h1 : T ≤ 462) : 0 < ndData.Bknee T ∧ ndData.Bknee T < ndData.Br T := by
  simp only [ndData, Demag.Bknee, Demag.Br]
  constructor <;> norm_num <;> linarith

/-- **C219** From 53 °C to 188 °C the shipped magnet's constraint has its documented sign: positive exactly above the
knee, negative exactly below. -/
theorem C219_magnet_partial (own : Obj) (c : Component) (h : Plain "Nd2Fe14B" own c) :
    ∃ m, constructDemag demagLib c = .ok (.demag m) ∧ ∀ T B, 326 ≤ T → T ≤ 462 →
      (0 < m.eval B T ↔ m.Bknee T < B) ∧ (m.eval B T < 0 ↔ B < m.Bknee T) := by
  refine ⟨ndData, demag_built own c h, fun T B h0 h1 => ?_⟩
  obtain ⟨hk, hr⟩ := nd_order (by linarith : (262 : ℝ) ≤ T) h1
  refine C141_sign ndData B T hr.ne hk.ne' ?_
  have hd : ndData.Bknee T - ndData.Br T < 0 := by linarith
  rw [div_lt_iff₀ hk, div_mul_eq_mul_div, lt_div_iff_of_neg hd]
  simp only [ndData, Demag.Bknee, Demag.Br, Demag.Hknee, Demag.Hci]
  norm_num
  nlinarith [mul_nonneg (sub_nonneg.2 h0) (sub_nonneg.2 h1)]

/-- **C219** From -11 °C to 51 °C it has the opposite sign: negative above the knee, where the magnet is safe, and
positive below it. -/
theorem C219_magnet_false (own : Obj) (c : Component) (h : Plain "Nd2Fe14B" own c) :
    ∃ m, constructDemag demagLib c = .ok (.demag m) ∧ ∀ T B, 262 ≤ T → T ≤ 324 →
      0 < m.Bknee T ∧ m.Bknee T < m.Br T ∧
      (0 < m.eval B T ↔ B < m.Bknee T) ∧ (m.eval B T < 0 ↔ m.Bknee T < B) := by
  refine ⟨ndData, demag_built own c h, fun T B h0 h1 => ?_⟩
  obtain ⟨hk, hr⟩ := nd_order h0 (by linarith : T ≤ 462)
  refine ⟨hk, hr, ?_⟩
  have hd : ndData.Bknee T - ndData.Br T < 0 := by linarith
  have hs : ndData.Hknee T / (ndData.Bknee T - ndData.Br T) < (ndData.Hknee T - ndData.Hci T) / ndData.Bknee T := by
    rw [lt_div_iff₀ hk, div_mul_eq_mul_div, div_lt_iff_of_neg hd]
    simp only [ndData, Demag.Bknee, Demag.Br, Demag.Hknee, Demag.Hci]
    norm_num
    nlinarith [mul_nonneg (sub_nonneg.2 h0) (sub_nonneg.2 h1)]
  have hn : ndData.dB B T < 0 := by unfold Demag.dB; linarith
  rw [(C141_value ndData B T hr.ne hk.ne').2.2]
  constructor
  · constructor
    · intro h; by_contra hc
      have := mul_nonpos_of_nonpos_of_nonneg hn.le (by linarith : 0 ≤ B - ndData.Bknee T); linarith
    · intro h; exact mul_pos_of_neg_of_neg hn (by linarith)
  · constructor
    · intro h; by_contra hc
      have := mul_nonneg_of_nonpos_of_nonpos hn.le (by linarith : B - ndData.Bknee T ≤ 0); linarith
    · intro h; exact mul_neg_of_neg_of_pos hn (by linarith)

/-- **C219** Below the magnet's maximum temperature there is a temperature at which the constraint divides by zero (knee
and remnant flux coincide), and another one near -11 °C (the knee flux vanishes). -/
theorem C219_magnet_singular (own : Obj) (c : Component) (h : Plain "Nd2Fe14B" own c) :
    ∃ m, constructDemag demagLib c = .ok (.demag m) ∧ (∃ T, 261 < T ∧ T < 262 ∧ m.Bknee T = 0) ∧
      ∃ T, 462 < T ∧ T < 463 ∧ T < ndMaxTemp ∧ m.Bknee T - m.Br T = 0 := by
  refine ⟨ndData, demag_built own c h, ⟨1.4442405898 / 0.005522656, ?_, ?_, ?_⟩,
    ⟨(1.4442405898 + 1.39 * (1 + 0.0012 * 293.15)) / (0.005522656 + 1.39 * 0.0012), ?_, ?_, ?_, ?_⟩⟩
  all_goals norm_num [ndData, Demag.Bknee, Demag.Br, ndMaxTemp]

/-! ### The wires -/

/-- **C219** With the linear model every shipped wire has a positive conductivity that decreases with the
temperature, from 117 K on. -/
theorem C219_wires (s : String) (w : Obj × ℝ) (hs : wires.lookup s = some w) (own : Obj) (c : Component)
    (h : Plain s own c) (hl : own "model" = some (.str "linear")) :
    ∃ k : Cond, constructCond condLib c = .ok (.cond k) ∧ k.Tref = 293.15 ∧ k.eval 293.15 = k.sigmaRef ∧
      (∀ T, 117 ≤ T → 0 < k.eval T) ∧ ∀ T T', 117 ≤ T → T < T' → k.eval T' < k.eval T := by
  have key : ∃ sg al, w.1 = linear sg 293.15 al ∧ 0 < sg ∧ 0 < al ∧ al ≤ 5.67e-3 := by
    have hm : (s, w) ∈ wires := lookup_mem hs
    simp only [wires, List.mem_cons, List.not_mem_nil, or_false, Prod.mk.injEq] at hm
    rcases hm with ⟨-, rfl⟩ | ⟨-, rfl⟩ | ⟨-, rfl⟩ | ⟨-, rfl⟩ | ⟨-, rfl⟩ <;>
      exact ⟨_, _, rfl, by norm_num, by norm_num, by norm_num⟩
  obtain ⟨sg, al, hw, hsg, hal, hal'⟩ := key
  obtain ⟨hm, ho⟩ := h
  refine ⟨⟨al, 293.15, sg⟩, ?_, rfl, ?_, ?_, ?_⟩
  · unfold constructCond
    rw [hm]
    have hb : condLib.block s = linear sg 293.15 al := by simp [condLib, hs, hw]
    simp only [pick, hl, Res.bind, Val.str?, pickNum, ho "alpha_resistivity" (by decide), ho "T_ref" (by decide),
      ho "sigma_T_ref" (by decide), hb]
    simp [linear, obj, List.lookup, Val.num?]
  · simp [Cond.eval]
  · intro T hT
    exact div_pos hsg (den_pos hal.le hal' hT)
  · intro T T' hT hT'
    have d1 := den_pos hal.le hal' hT
    exact div_lt_div_of_pos_left hsg d1 (by nlinarith)

/-- **C219** The constant model and the linear model agree at 20 °C for every wire but copper. -/
theorem C219_constant_model (s : String) (w : Obj × ℝ) (hs : wires.lookup s = some w) :
    (w.1 "sigma_T_ref" = some (.num w.2)) ↔ s ≠ "copperwire" := by
  have hm : (s, w) ∈ wires := lookup_mem hs
  simp only [wires, List.mem_cons, List.not_mem_nil, or_false, Prod.mk.injEq] at hm
  rcases hm with ⟨rfl, rfl⟩ | ⟨rfl, rfl⟩ | ⟨rfl, rfl⟩ | ⟨rfl, rfl⟩ | ⟨rfl, rfl⟩ <;>
    simp [linear, obj, List.lookup]
  norm_num

/-! ### Non-vacuity -/

example : Plain "hiperco50" (fun _ => none) ⟨-1, [1], .obj "hiperco50" (some fun _ => none)⟩ := ⟨rfl, fun _ _ => rfl⟩

example : ∃ w, wires.lookup "ironwire" = some w := ⟨(linear 1.03e7 293.15 5.67e-3, 1.03e7), by simp [wires, List.lookup]⟩

end Verif.LibData
