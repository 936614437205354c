import Verif.EulerFluxes
import Mathlib.Algebra.BigOperators.Field
import Mathlib.Tactic.Ring
import Mathlib.Tactic.FieldSimp
import Mathlib.Tactic.Linarith
import Mathlib.Tactic.Positivity
import Mathlib.Tactic.LinearCombination

/-! # Auxiliary facts about the Euler flux model -/

namespace Verif.EulerFluxes

variable {d : ℕ}

/-- Positive density and positive pressure `(γ-1)(E - |m|²/(2ρ))`, written out. -/
def Admissible (q : State d) : Prop :=
  0 < q.rho ∧ 0 < (7 / 5 - 1 : ℝ) * (q.ener - (∑ i, q.mom i ^ 2) / (2 * q.rho))

theorem gamma_eq : gamma = 7 / 5 := rfl
theorem gami_eq : gami = 2 / 5 := by unfold gami gamma; norm_num
theorem inv_gami_eq : 1 / gami = 5 / 2 := by rw [gami_eq]; norm_num

theorem dot_comm (a b : Fin d → ℝ) : dot a b = dot b a := by
  unfold dot; exact Finset.sum_congr rfl fun i _ => mul_comm _ _
theorem dot_add_left (a b c : Fin d → ℝ) : dot (a + b) c = dot a c + dot b c := by
  unfold dot; rw [← Finset.sum_add_distrib]
  exact Finset.sum_congr rfl fun i _ => by simp [add_mul]
theorem dot_smul_left (k : ℝ) (b c : Fin d → ℝ) : dot (k • b) c = k * dot b c := by
  unfold dot; rw [Finset.mul_sum]
  exact Finset.sum_congr rfl fun i _ => by simp [mul_assoc]
theorem dot_sub_left (a b c : Fin d → ℝ) : dot (a - b) c = dot a c - dot b c := by
  unfold dot; rw [← Finset.sum_sub_distrib]
  exact Finset.sum_congr rfl fun i _ => by simp [sub_mul]
theorem dot_neg_left (a c : Fin d → ℝ) : dot (-a) c = - dot a c := by
  unfold dot; rw [← Finset.sum_neg_distrib]
  exact Finset.sum_congr rfl fun i _ => by simp
theorem dot_add_right (a b c : Fin d → ℝ) : dot c (a + b) = dot c a + dot c b := by
  rw [dot_comm, dot_add_left, dot_comm a, dot_comm b]
theorem dot_sub_right (a b c : Fin d → ℝ) : dot c (a - b) = dot c a - dot c b := by
  rw [dot_comm, dot_sub_left, dot_comm a, dot_comm b]
theorem dot_neg_right (a c : Fin d → ℝ) : dot c (-a) = - dot c a := by
  rw [dot_comm, dot_neg_left, dot_comm a]
theorem dot_smul_right (k : ℝ) (b c : Fin d → ℝ) : dot c (k • b) = k * dot c b := by
  rw [dot_comm, dot_smul_left, dot_comm b]
theorem dot_self_nonneg (a : Fin d → ℝ) : 0 ≤ dot a a :=
  Finset.sum_nonneg fun _ _ => mul_self_nonneg _
theorem dot_self_eq_zero {a : Fin d → ℝ} : dot a a = 0 ↔ a = 0 := by
  unfold dot
  rw [Finset.sum_eq_zero_iff_of_nonneg fun i _ => mul_self_nonneg _]
  constructor
  · intro h; funext i; simpa using h i (Finset.mem_univ _)
  · intro h i _; simp [h]
theorem dot_self_pos {a : Fin d → ℝ} (h : a ≠ 0) : 0 < dot a a :=
  lt_of_le_of_ne (dot_self_nonneg a) fun e => h (dot_self_eq_zero.mp e.symm)

theorem pressure_eq (q : State d) :
    pressure q = (7 / 5 - 1 : ℝ) * (q.ener - (∑ i, q.mom i ^ 2) / (2 * q.rho)) := by
  unfold pressure dot
  rw [gami_eq]
  have : (∑ i, q.mom i * q.mom i) = ∑ i, q.mom i ^ 2 :=
    Finset.sum_congr rfl fun i _ => by ring
  rw [this]
  rcases eq_or_ne q.rho 0 with h | h
  · rw [h]; norm_num
  · field_simp; ring

theorem Admissible.rho_pos {q : State d} (h : Admissible q) : 0 < q.rho := h.1
theorem Admissible.press_pos {q : State d} (h : Admissible q) : 0 < pressure q := by
  rw [pressure_eq]; exact h.2
theorem admissible_iff (q : State d) : Admissible q ↔ 0 < q.rho ∧ 0 < pressure q := by
  rw [pressure_eq]; rfl

theorem ener_eq (q : State d) :
    q.ener = 5 / 2 * pressure q + 1 / 2 * dot q.mom q.mom / q.rho := by
  unfold pressure; rw [gami_eq]; ring

/-- Closed form of `calcEntropyVars`. -/
theorem entVars_eq (q : State d) (hr : q.rho ≠ 0) (hp : pressure q ≠ 0) :
    calcEntropyVars q =
      ⟨5 / 2 * (7 / 5 - Real.log (pressure q / q.rho ^ (7 / 5 : ℝ)))
        - 1 / 2 * dot q.mom q.mom / (q.rho * pressure q),
       (1 / pressure q) • q.mom, -q.rho / pressure q⟩ := by
  unfold calcEntropyVars
  have hu : dot (fun i => q.mom i / q.rho) (fun i => q.mom i / q.rho)
      = dot q.mom q.mom / q.rho ^ 2 := by
    unfold dot; rw [Finset.sum_div]; exact Finset.sum_congr rfl fun i _ => by field_simp
  ext i
  · simp only [hu, gamma_eq, gami_eq]; field_simp
  · simp; ring
  · simp only; field_simp

theorem log_s {r p : ℝ} (hr : 0 < r) (hp : 0 < p) :
    Real.log (p / r ^ (7 / 5 : ℝ)) = Real.log p - 7 / 5 * Real.log r := by
  rw [Real.log_div hp.ne' (Real.rpow_pos_of_pos hr _).ne', Real.log_rpow hr]

/-- Density of the conservative state, from entropy variables. -/
noncomputable def rhoOfW (w : State d) : ℝ :=
  (-Real.exp (-(7 / 5 + 2 / 5 * (1 / 2 * dot w.mom w.mom / w.ener - w.rho))) / w.ener)
    ^ (5 / 2 : ℝ)

theorem consVars_eq (w : State d) (hw : w.ener ≠ 0) :
    calcConservativeVars w =
      ⟨rhoOfW w, (-(rhoOfW w / w.ener)) • w.mom,
       -(5 / 2 * rhoOfW w / w.ener) + 1 / 2 * rhoOfW w * dot w.mom w.mom / w.ener ^ 2⟩ := by
  unfold calcConservativeVars
  have hu : (∑ i, -w.mom i / w.ener * (-w.mom i / w.ener)) = dot w.mom w.mom / w.ener ^ 2 := by
    unfold dot; rw [Finset.sum_div]; exact Finset.sum_congr rfl fun i _ => by field_simp
  have hr : (-Real.exp (-(gamma + gami * (1 / 2 * (dot w.mom w.mom / w.ener ^ 2) * w.ener
      - w.rho))) / w.ener) ^ (1 / gami) = rhoOfW w := by
    unfold rhoOfW
    rw [inv_gami_eq, gamma_eq, gami_eq]
    congr 6
    field_simp
  simp only [hu, hr]
  ext i
  · rfl
  · simp only [Pi.smul_apply, smul_eq_mul]; field_simp
  · simp only [gami_eq]; field_simp

theorem rhoOfW_pos (w : State d) (hw : w.ener < 0) : 0 < rhoOfW w := by
  unfold rhoOfW
  apply Real.rpow_pos_of_pos
  exact div_pos_of_neg_of_neg (neg_lt_zero.mpr (Real.exp_pos _)) hw

theorem log_rhoOfW (w : State d) (hw : w.ener < 0) :
    Real.log (rhoOfW w) =
      5 / 2 * (-(7 / 5 + 2 / 5 * (1 / 2 * dot w.mom w.mom / w.ener - w.rho))
        - Real.log (-w.ener)) := by
  unfold rhoOfW
  have e : -Real.exp (-(7 / 5 + 2 / 5 * (1 / 2 * dot w.mom w.mom / w.ener - w.rho))) / w.ener
      = Real.exp (-(7 / 5 + 2 / 5 * (1 / 2 * dot w.mom w.mom / w.ener - w.rho))) / (-w.ener) := by
    rw [neg_div, div_neg]
  rw [e, Real.log_rpow (div_pos (Real.exp_pos _) (by linarith)),
    Real.log_div (Real.exp_pos _).ne' (by linarith), Real.log_exp]

theorem pressure_cons (w : State d) (hw : w.ener < 0) :
    pressure (calcConservativeVars w) = -rhoOfW w / w.ener := by
  have hr := (rhoOfW_pos w hw).ne'
  rw [consVars_eq w hw.ne]
  have hwe := hw.ne
  unfold pressure
  simp only [dot_smul_left, dot_smul_right, gami_eq]
  field_simp
  ring

end Verif.EulerFluxes
