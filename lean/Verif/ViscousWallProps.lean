import Verif.ViscousProps

/-!
Properties C106 (adiabatic no-slip wall), C107 (the other viscous boundary fluxes), C108 (surface
force).
-/

namespace Verif.Viscous
open Verif.EulerFluxes Finset

variable {d : ℕ}

/-! ### helper facts -/

theorem red_entVars (q : State d) (hq : Admissible q) (k : Fin d) : red q (calcEntropyVars q) k = 0 := by
  have hr := hq.rho_pos.ne'; have hp := hq.press_pos.ne'
  rw [entVars_eq q hr hp]
  simp only [red, vel, Pi.smul_apply, smul_eq_mul]; field_simp; ring

/-- Testing a block with the entropy variables leaves the heat conduction only. -/
theorem Bij_entVars (mu Pr : ℝ) (q : State d) (hq : Admissible q) (i j : Fin d) (w : State d) :
    Bij mu Pr q i j (calcEntropyVars q) w =
      if i = j then temp q ^ 2 * (7 / 2) * mu / Pr * ((calcEntropyVars q).ener * w.ener) else 0 := by
  unfold Bij
  simp only [red_entVars q hq, zero_mul, sum_const_zero, mul_zero, ite_self, add_zero, sub_zero,
    zero_add]

theorem inner2_subS (v a b : State d) : inner2 v (subS a b) = inner2 v a - inner2 v b := by
  unfold subS inner2 State.map2
  have : (∑ i, v.mom i * (a.mom i - b.mom i)) = (∑ i, v.mom i * a.mom i) - ∑ i, v.mom i * b.mom i := by
    rw [← sum_sub_distrib]; exact sum_congr rfl fun i _ => by ring
  simp only [this]; ring

theorem inner2_addS (v a b : State d) : inner2 v (addS a b) = inner2 v a + inner2 v b := by
  unfold addS inner2 State.map2
  have : (∑ i, v.mom i * (a.mom i + b.mom i)) = (∑ i, v.mom i * a.mom i) + ∑ i, v.mom i * b.mom i := by
    rw [← sum_add_distrib]; exact sum_congr rfl fun i _ => by ring
  simp only [this]; ring

theorem inner2_scaleS (v : State d) (c : ℝ) (a : State d) : inner2 v (scaleS c a) = c * inner2 v a := by
  unfold scaleS inner2
  have : (∑ i, v.mom i * (a.mom i * c)) = c * ∑ i, v.mom i * a.mom i := by
    rw [mul_sum]; exact sum_congr rfl fun i _ => by ring
  simp only [this]; ring

theorem unit_sq (dir : Fin d → ℝ) (hdir : dir ≠ 0) : ∑ k, unitNrm dir k * unitNrm dir k = 1 := by
  have hpos := dot_self_pos hdir
  have hs : √(dot dir dir) * √(dot dir dir) = dot dir dir := Real.mul_self_sqrt hpos.le
  have : ∀ k, unitNrm dir k * unitNrm dir k = dir k * dir k * (1 / dot dir dir) := by
    intro k; unfold unitNrm
    have h2 : 1 / √(dot dir dir) * (1 / √(dot dir dir)) = 1 / dot dir dir := by
      rw [one_div_mul_one_div, hs]
    rw [← h2]; ring
  rw [sum_congr rfl fun k _ => this k, ← sum_mul]
  change dot dir dir * (1 / dot dir dir) = 1
  field_simp

theorem dir_unit (dir : Fin d → ℝ) (hdir : dir ≠ 0) (k : Fin d) :
    dir k = √(dot dir dir) * unitNrm dir k := by
  have hpos : 0 < √(dot dir dir) := Real.sqrt_pos.2 (dot_self_pos hdir)
  unfold unitNrm; field_simp

theorem inner2_adiabatic (dir : Fin d → ℝ) (mu Pr : ℝ) (q v : State d) (Dw : Fin d → State d) :
    inner2 v (adiabaticWallFlux dir mu Pr q Dw) = ∑ i, ∑ j, Bij (mu * dir i) Pr q i j v
      ⟨(Dw j).rho, (Dw j).mom,
        (Dw j).ener - (∑ k, (Dw k).ener * unitNrm dir k) * unitNrm dir j⟩ := by
  unfold adiabaticWallFlux
  rw [forDim_sum (fun s => inner2 v s) (fun i => ∑ j, Bij (mu * dir i) Pr q i j v
      ⟨(Dw j).rho, (Dw j).mom,
        (Dw j).ener - (∑ k, (Dw k).ener * unitNrm dir k) * unitNrm dir j⟩)]
  · rw [inner2_zeroS, zero_add]
  · intro s k
    rw [forDim_sum (fun s => inner2 v s) (fun j => Bij (mu * dir k) Pr q k j v
      ⟨(Dw j).rho, (Dw j).mom,
        (Dw j).ener - (∑ k, (Dw k).ener * unitNrm dir k) * unitNrm dir j⟩)]
    intro s j
    rw [inner2_addCij]

theorem Bij_scale (c mu Pr : ℝ) (q : State d) (i j : Fin d) (v w : State d) :
    Bij (mu * c) Pr q i j v w = c * Bij mu Pr q i j v w := by
  unfold Bij
  by_cases h : i = j
  · simp only [h, if_true]; ring
  · simp only [h, if_false]; ring

/-! ### C106: adiabatic no-slip wall -/

/-- The adiabatic wall flux carries no mass. -/
theorem C106_adiabatic_no_mass (dir : Fin d → ℝ) (mu Pr : ℝ) (q : State d) (Dw : Fin d → State d) :
    (adiabaticWallFlux dir mu Pr q Dw).rho = 0 := by
  have h := inner2_adiabatic dir mu Pr q ⟨1, fun _ => 0, 0⟩ Dw
  simp only [inner2, one_mul, zero_mul, sum_const_zero, add_zero] at h
  rw [h]
  refine sum_eq_zero fun i _ => sum_eq_zero fun j _ => ?_
  simp [Bij, red]

/-- The viscous part of the wall flux produces no entropy, whatever the gradient at the wall. -/
theorem C106_adiabatic_entropy_free (dir : Fin d → ℝ) (hdir : dir ≠ 0) (mu Pr : ℝ) (q : State d)
    (hq : Admissible q) (Dw : Fin d → State d) :
    inner2 (calcEntropyVars q) (adiabaticWallFlux dir mu Pr q Dw) = 0 := by
  rw [inner2_adiabatic]
  simp only [Bij_entVars _ Pr q hq, sum_ite_eq, mem_univ, if_true]
  set N := ∑ k, (Dw k).ener * unitNrm dir k with hN
  have : ∀ i, temp q ^ 2 * (7 / 2) * (mu * dir i) / Pr *
      ((calcEntropyVars q).ener * ((Dw i).ener - N * unitNrm dir i)) =
      temp q ^ 2 * (7 / 2) * mu / Pr * (calcEntropyVars q).ener * √(dot dir dir) *
        ((Dw i).ener * unitNrm dir i - N * (unitNrm dir i * unitNrm dir i)) := by
    intro i
    conv_lhs => rw [dir_unit dir hdir i]
    ring
  rw [sum_congr rfl fun i _ => this i, ← mul_sum, sum_sub_distrib, ← mul_sum, unit_sq dir hdir, ← hN]
  ring

/-- If the wall-normal derivative of the last entropy variable (the temperature) is zero, the
adiabatic flux is the viscous flux through the wall. -/
theorem C106_adiabatic_consistent (dir : Fin d → ℝ) (mu Pr : ℝ) (q : State d) (Dw : Fin d → State d)
    (hN : ∑ k, (Dw k).ener * dir k = 0) (v : State d) :
    inner2 v (adiabaticWallFlux dir mu Pr q Dw) =
      ∑ i, dir i * inner2 v (viscousScaling i mu Pr q Dw) := by
  have h0 : ∑ k, (Dw k).ener * unitNrm dir k = 0 := by
    have : ∀ k, (Dw k).ener * unitNrm dir k = (Dw k).ener * dir k * (1 / √(dot dir dir)) := by
      intro k; unfold unitNrm; ring
    rw [sum_congr rfl fun k _ => this k, ← sum_mul, hN, zero_mul]
  rw [inner2_adiabatic, h0]
  refine sum_congr rfl fun i _ => ?_
  rw [inner2_viscousScaling, mul_sum]
  refine sum_congr rfl fun j _ => ?_
  rw [Bij_scale, zero_mul, sub_zero]

/-- Specification: the penalty strength: mean stress coefficient at the reference state. -/
noncomputable def penCoef (dir : Fin d → ℝ) (Jac mu : ℝ) (qfs : State d) : ℝ :=
  √(∑ i, dir i ^ 2) / Jac * (temp qfs * mu * (d + 1 / 3))

theorem penalty_eq (fac mu Pr : ℝ) (qfs dw : State d) (hw : dw.ener = 0) :
    penalty fac mu Pr qfs dw =
      ⟨0, fun k => fac * (temp qfs * mu * (d + 1 / 3)) * dw.mom k, 0⟩ := by
  have key : ∀ v : State d, inner2 v (forDim d (fun fl dd => addCij dd dd mu Pr qfs dw fl) zeroS) =
      ∑ i, Bij mu Pr qfs i i v dw := by
    intro v
    rw [forDim_sum (fun s => inner2 v s) (fun i => Bij mu Pr qfs i i v dw)
      _ (fun s k => inner2_addCij k k mu Pr qfs v dw s), inner2_zeroS, zero_add]
  unfold penalty
  have h1 := key ⟨1, fun _ => 0, 0⟩
  simp only [inner2, one_mul, zero_mul, sum_const_zero, add_zero] at h1
  ext k
  · simp only; rw [h1]
    refine sum_eq_zero fun i _ => ?_
    simp [Bij, red]
  · have h2 := key ⟨0, fun j => if j = k then 1 else 0, 0⟩
    simp only [inner2, zero_mul, zero_add, add_zero, ite_mul, one_mul, sum_ite_eq', mem_univ,
      if_true] at h2
    simp only
    rw [h2]
    have : ∀ i, Bij mu Pr qfs i i ⟨0, fun j => if j = k then 1 else 0, 0⟩ dw =
        temp qfs * mu * dw.mom k + if i = k then temp qfs * mu * dw.mom k / 3 else 0 := by
      intro i
      have hr1 : ∀ j, red qfs (⟨0, fun j => if j = k then 1 else 0, 0⟩ : State d) j =
          if j = k then 1 else 0 := by intro j; simp [red]
      have hr2 : ∀ j, red qfs dw j = dw.mom j := by intro j; simp [red, hw]
      unfold Bij
      simp only [if_true, hr1, hr2, ite_mul, one_mul, zero_mul, sum_ite_eq', mem_univ]
      by_cases hi : i = k
      · subst hi; simp only [if_true]; ring
      · simp only [hi, if_false]; ring
    rw [sum_congr rfl fun i _ => this i, sum_add_distrib]
    simp only [sum_const, card_univ, Fintype.card_fin, nsmul_eq_mul, sum_ite_eq', mem_univ, if_true]
    ring
  · rfl

/-- The no-slip penalty is proportional to the wall momentum: mass and energy untouched. -/
theorem C106_penalty_value (dir : Fin d → ℝ) (Jac mu Pr : ℝ) (qfs q : State d) :
    noSlipPenaltyFlux dir Jac mu Pr qfs q =
      ⟨0, fun k => penCoef dir Jac mu qfs * (q.mom k / specP q), 0⟩ := by
  unfold noSlipPenaltyFlux
  rw [penalty_eq _ _ _ _ _ rfl, penCoef, sqsum, ← pressure_spec]

/-- The penalty dissipates entropy, and vanishes exactly when there is no slip. -/
theorem C106_penalty_dissipative (dir : Fin d → ℝ) (hdir : dir ≠ 0) (Jac mu Pr : ℝ) (hJ : 0 < Jac)
    (hmu : 0 < mu) (qfs q : State d) (hfs : Admissible qfs) (hq : Admissible q) :
    0 ≤ inner2 (calcEntropyVars q) (noSlipPenaltyFlux dir Jac mu Pr qfs q) ∧
    (inner2 (calcEntropyVars q) (noSlipPenaltyFlux dir Jac mu Pr qfs q) = 0 ↔ ∀ k, q.mom k = 0) := by
  have hr := hq.rho_pos.ne'; have hp := hq.press_pos
  have hT : 0 < temp qfs := by
    unfold temp; rw [← pressure_spec]; exact div_pos hfs.press_pos hfs.rho_pos
  have hA : 0 < √(dot dir dir) := Real.sqrt_pos.2 (dot_self_pos hdir)
  have hc : 0 < penCoef dir Jac mu qfs := by unfold penCoef; rw [sqsum]; positivity
  have e : inner2 (calcEntropyVars q) (noSlipPenaltyFlux dir Jac mu Pr qfs q) =
      penCoef dir Jac mu qfs / pressure q ^ 2 * ∑ k, q.mom k ^ 2 := by
    rw [C106_penalty_value, entVars_eq q hr hp.ne', ← pressure_spec]
    simp only [inner2, mul_zero, zero_add, add_zero, Pi.smul_apply, smul_eq_mul]
    rw [mul_sum]
    exact sum_congr rfl fun k _ => by field_simp
  have hpos : 0 < penCoef dir Jac mu qfs / pressure q ^ 2 := by positivity
  have hs : 0 ≤ ∑ k, q.mom k ^ 2 := sum_nonneg fun k _ => sq_nonneg _
  rw [e]
  refine ⟨mul_nonneg hpos.le hs, ?_⟩
  rw [mul_eq_zero, or_iff_right hpos.ne', sum_eq_zero_iff_of_nonneg fun k _ => sq_nonneg _]
  simp

/-- The whole no-slip adiabatic wall flux is entropy stable: `w·f ≥ ψ`, with equality exactly for
states without slip, for any gradient at the wall. -/
theorem C106_wall_entropy_stable (mu Re Pr : ℝ) (hRe : 0 < Re) (hmu : mu ≠ 0) (qfs : State d)
    (hfs : Admissible qfs) (dir : Fin d → ℝ) (hdir : dir ≠ 0) (jac : ℝ) (hJ : 0 < jac) (q : State d)
    (hq : Admissible q) (Dw : Fin d → State d) :
    psi dir q ≤ inner2 (calcEntropyVars q) (noSlipFlux mu Re Pr qfs dir jac q Dw) ∧
    (inner2 (calcEntropyVars q) (noSlipFlux mu Re Pr qfs dir jac q Dw) = psi dir q ↔
      ∀ k, q.mom k = 0) := by
  have hm : 0 < muRe mu Re q := by
    unfold muRe
    split_ifs with h
    · exact div_pos (C105_positive q hq) hRe
    · exact div_pos (lt_of_le_of_ne (not_lt.1 h) hmu.symm) hRe
  have h := C106_penalty_dissipative dir hdir jac (muRe mu Re q) Pr hJ hm qfs q hfs hq
  have e : inner2 (calcEntropyVars q) (noSlipFlux mu Re Pr qfs dir jac q Dw) =
      psi dir q + inner2 (calcEntropyVars q) (noSlipPenaltyFlux dir jac (muRe mu Re q) Pr qfs q) := by
    unfold noSlipFlux
    simp only
    rw [inner2_addS, inner2_subS, C59_slipwall_entropy dir q hq,
      C106_adiabatic_entropy_free dir hdir _ Pr q hq Dw, sub_zero]
  rw [e]
  exact ⟨by linarith [h.1], by rw [← h.2]; constructor <;> intro h' <;> linarith⟩

/-- The flux carries no mass and, at a state without slip and without wall-normal temperature
gradient, no energy: the wall is impermeable and adiabatic. -/
theorem C106_wall_impermeable (mu Re Pr : ℝ) (qfs : State d) (dir : Fin d → ℝ) (jac : ℝ) (q : State d)
    (Dw : Fin d → State d) : (noSlipFlux mu Re Pr qfs dir jac q Dw).rho = 0 := by
  have h1 := (C59_slipwall dir q).1
  have h2 := C106_adiabatic_no_mass dir (muRe mu Re q) Pr q Dw
  have h3 : (noSlipPenaltyFlux dir jac (muRe mu Re q) Pr qfs q).rho = 0 := by
    rw [C106_penalty_value]
  simp only [noSlipFlux, addS, subS, State.map2, h1, h2, h3]; ring

theorem C106_wall_adiabatic (mu Re Pr : ℝ) (qfs : State d) (dir : Fin d → ℝ) (hdir : dir ≠ 0) (jac : ℝ)
    (q : State d) (hm : ∀ k, q.mom k = 0) (Dw : Fin d → State d) :
    (noSlipFlux mu Re Pr qfs dir jac q Dw).ener = 0 := by
  have h1 := (C59_slipwall dir q).2.1
  have h3 : (noSlipPenaltyFlux dir jac (muRe mu Re q) Pr qfs q).ener = 0 := by
    rw [C106_penalty_value]
  have h2 : (adiabaticWallFlux dir (muRe mu Re q) Pr q Dw).ener = 0 := by
    have h := inner2_adiabatic dir (muRe mu Re q) Pr q ⟨0, fun _ => 0, 1⟩ Dw
    simp only [inner2, one_mul, zero_mul, sum_const_zero, zero_add] at h
    rw [h]
    have hred : ∀ k, red q (⟨0, fun _ => 0, 1⟩ : State d) k = 0 := by
      intro k; simp [red, vel, hm]
    set N := ∑ k, (Dw k).ener * unitNrm dir k with hN
    have : ∀ i j, Bij (muRe mu Re q * dir i) Pr q i j ⟨0, fun _ => 0, 1⟩
        ⟨(Dw j).rho, (Dw j).mom, (Dw j).ener - N * unitNrm dir j⟩ =
        if i = j then temp q ^ 2 * (7 / 2) * muRe mu Re q / Pr * √(dot dir dir) *
          ((Dw i).ener * unitNrm dir i - N * (unitNrm dir i * unitNrm dir i)) else 0 := by
      intro i j
      unfold Bij
      simp only [hred, zero_mul, sum_const_zero, mul_zero, ite_self, add_zero, sub_zero, zero_add,
        one_mul]
      by_cases hij : i = j
      · subst hij
        simp only [if_true]
        conv_lhs => rw [dir_unit dir hdir i]
        ring
      · simp only [hij, if_false]
    simp only [this, sum_ite_eq, mem_univ, if_true]
    rw [← mul_sum, sum_sub_distrib, ← mul_sum, unit_sq dir hdir, ← hN]
    ring
  simp only [noSlipFlux, addS, subS, State.map2, h1, h2, h3]; ring

/-- Non-vacuity. -/
example : ∃ dir : Fin 2 → ℝ, dir ≠ 0 ∧ Admissible q1 ∧ Admissible q2 :=
  ⟨fun _ => 1, fun h => one_ne_zero (congrFun h 0), q1_adm, q2_adm⟩

/-- The term for dual consistency is the exact adjoint of the adiabatic flux: testing the gradients
with it is testing `w - w_bc` with the wall flux of those gradients. -/
theorem C106_dual_consistent (dir : Fin d → ℝ) (mu Pr : ℝ) (q : State d) (Dv : Fin d → State d) :
    ∑ j, inner2 (Dv j) (noSlipDualFlux dir mu Pr q j) =
      -inner2 ⟨0, fun k => q.mom k / specP q, 0⟩ (adiabaticWallFlux dir mu Pr q Dv) := by
  set dw : State d := ⟨0, fun k => q.mom k / specP q, 0⟩ with hdw
  have h0 : ∀ j v, inner2 v (dualFlux0 dir mu Pr q j) = ∑ i, Bij (-mu * dir i) Pr q j i v dw := by
    intro j v
    unfold dualFlux0
    rw [forDim_sum (fun s => inner2 v s) (fun i => Bij (-mu * dir i) Pr q j i v dw)]
    · rw [inner2_zeroS, zero_add]
    · intro s k
      rw [inner2_addCij]
      simp only [hdw, pressure_spec]
  set N := ∑ k, (dualFlux0 dir mu Pr q k).ener * unitNrm dir k with hN
  set M := ∑ k, (Dv k).ener * unitNrm dir k with hM
  have h1 : ∑ j, inner2 (Dv j) (noSlipDualFlux dir mu Pr q j) =
      ∑ j, inner2 ⟨(Dv j).rho, (Dv j).mom, (Dv j).ener - M * unitNrm dir j⟩ (dualFlux0 dir mu Pr q j) := by
    have ea : ∀ j, inner2 (Dv j) (noSlipDualFlux dir mu Pr q j) =
        inner2 (Dv j) (dualFlux0 dir mu Pr q j) - N * ((Dv j).ener * unitNrm dir j) := by
      intro j; unfold noSlipDualFlux inner2; simp only [← hN]; ring
    have eb : ∀ j, inner2 ⟨(Dv j).rho, (Dv j).mom, (Dv j).ener - M * unitNrm dir j⟩
        (dualFlux0 dir mu Pr q j) = inner2 (Dv j) (dualFlux0 dir mu Pr q j)
          - M * ((dualFlux0 dir mu Pr q j).ener * unitNrm dir j) := by
      intro j; unfold inner2; simp only; ring
    rw [sum_congr rfl fun j _ => ea j, sum_congr rfl fun j _ => eb j, sum_sub_distrib,
      sum_sub_distrib, ← mul_sum, ← mul_sum, ← hN, ← hM]
    ring
  rw [h1, inner2_adiabatic, sum_congr rfl fun j _ => h0 j _, sum_comm, ← sum_neg_distrib]
  refine sum_congr rfl fun i _ => ?_
  rw [← sum_neg_distrib]
  refine sum_congr rfl fun j _ => ?_
  rw [Bij_symm, Bij_scale, Bij_scale]
  have : Bij (-mu) Pr q i j dw ⟨(Dv j).rho, (Dv j).mom, (Dv j).ener - M * unitNrm dir j⟩ =
      -Bij mu Pr q i j dw ⟨(Dv j).rho, (Dv j).mom, (Dv j).ener - M * unitNrm dir j⟩ := by
    have := Bij_scale (-1) mu Pr q i j dw ⟨(Dv j).rho, (Dv j).mom, (Dv j).ener - M * unitNrm dir j⟩
    rw [mul_neg_one] at this; rw [this]; ring
  rw [this]; ring

/-! ### C107: the other viscous boundary fluxes -/

/-- Removing the normal derivative: afterwards the normal derivative of every component is zero, the
tangential derivatives are unchanged, and doing it twice changes nothing more. -/
theorem C107_zero_normal_derivative (dir : Fin d → ℝ) (hdir : dir ≠ 0) (Dw : Fin d → State d) :
    (∑ i, (setZeroNormalDeriv dir Dw i).rho * dir i = 0) ∧
    (∀ k, ∑ i, (setZeroNormalDeriv dir Dw i).mom k * dir i = 0) ∧
    (∑ i, (setZeroNormalDeriv dir Dw i).ener * dir i = 0) ∧
    (∀ t : Fin d → ℝ, ∑ i, t i * dir i = 0 →
      (∑ i, (setZeroNormalDeriv dir Dw i).rho * t i = ∑ i, (Dw i).rho * t i) ∧
      (∀ k, ∑ i, (setZeroNormalDeriv dir Dw i).mom k * t i = ∑ i, (Dw i).mom k * t i) ∧
      (∑ i, (setZeroNormalDeriv dir Dw i).ener * t i = ∑ i, (Dw i).ener * t i)) ∧
    setZeroNormalDeriv dir (setZeroNormalDeriv dir Dw) = setZeroNormalDeriv dir Dw := by
  have hA : 0 < √(dot dir dir) := Real.sqrt_pos.2 (dot_self_pos hdir)
  have key : ∀ f : Fin d → ℝ, ∑ i, (f i - unitNrm dir i * ∑ j, f j * unitNrm dir j) * dir i = 0 := by
    intro f
    have : ∀ i, (f i - unitNrm dir i * ∑ j, f j * unitNrm dir j) * dir i =
        √(dot dir dir) * (f i * unitNrm dir i
          - (unitNrm dir i * unitNrm dir i) * ∑ j, f j * unitNrm dir j) := by
      intro i; conv_lhs => rw [dir_unit dir hdir i]
      ring
    rw [sum_congr rfl fun i _ => this i, ← mul_sum, sum_sub_distrib, ← sum_mul, unit_sq dir hdir]
    ring
  have keyn : ∀ f : Fin d → ℝ,
      ∑ i, (f i - unitNrm dir i * ∑ j, f j * unitNrm dir j) * unitNrm dir i = 0 := by
    intro f
    have h := key f
    have : ∀ i, (f i - unitNrm dir i * ∑ j, f j * unitNrm dir j) * dir i =
        √(dot dir dir) * ((f i - unitNrm dir i * ∑ j, f j * unitNrm dir j) * unitNrm dir i) := by
      intro i; conv_lhs => rw [dir_unit dir hdir i]
      ring
    rw [sum_congr rfl fun i _ => this i, ← mul_sum] at h
    exact (mul_eq_zero.1 h).resolve_left hA.ne'
  have keyt : ∀ (f t : Fin d → ℝ), ∑ i, t i * dir i = 0 →
      ∑ i, (f i - unitNrm dir i * ∑ j, f j * unitNrm dir j) * t i = ∑ i, f i * t i := by
    intro f t ht
    have h2 : ∑ i, unitNrm dir i * t i = 0 := by
      have : ∀ i, unitNrm dir i * t i = t i * dir i * (1 / √(dot dir dir)) := by
        intro i; unfold unitNrm; ring
      rw [sum_congr rfl fun i _ => this i, ← sum_mul, ht, zero_mul]
    have : ∀ i, (f i - unitNrm dir i * ∑ j, f j * unitNrm dir j) * t i =
        f i * t i - (unitNrm dir i * t i) * ∑ j, f j * unitNrm dir j := by intro i; ring
    rw [sum_congr rfl fun i _ => this i, sum_sub_distrib, ← sum_mul, h2]; ring
  refine ⟨key _, fun k => key fun i => (Dw i).mom k, key _, fun t ht =>
    ⟨keyt _ t ht, fun k => keyt (fun i => (Dw i).mom k) t ht, keyt _ t ht⟩, ?_⟩
  funext i
  ext k
  · simp only [setZeroNormalDeriv]
    rw [keyn fun i => (Dw i).rho]; ring
  · simp only [setZeroNormalDeriv]
    rw [keyn fun i => (Dw i).mom k]; ring
  · simp only [setZeroNormalDeriv]
    rw [keyn fun i => (Dw i).ener]; ring

theorem inner2_subNormal (dir : Fin d → ℝ) (m Pr : ℝ) (q v : State d) (Dw : Fin d → State d)
    (flux : State d) :
    inner2 v (subNormalViscous dir m Pr q Dw flux) =
      inner2 v flux - ∑ i, dir i * inner2 v (viscousScaling i m Pr q Dw) := by
  unfold subNormalViscous
  rw [forDim_sum (fun s => inner2 v s) (fun i => -(dir i * inner2 v (viscousScaling i m Pr q Dw)))]
  · rw [sum_neg_distrib, sub_eq_add_neg]
  · intro s k; rw [inner2_subS, inner2_scaleS, sub_eq_add_neg]

/-- Testing the normal viscous flux with the entropy variables gives only heat flux, which vanishes
if the normal temperature derivative does. -/
theorem entVars_normal_viscous (dir : Fin d → ℝ) (m Pr : ℝ) (q : State d) (hq : Admissible q)
    (Dw : Fin d → State d) (hN : ∑ i, (Dw i).ener * dir i = 0) :
    ∑ i, dir i * inner2 (calcEntropyVars q) (viscousScaling i m Pr q Dw) = 0 := by
  have : ∀ i, dir i * inner2 (calcEntropyVars q) (viscousScaling i m Pr q Dw) =
      temp q ^ 2 * (7 / 2) * m / Pr * (calcEntropyVars q).ener * ((Dw i).ener * dir i) := by
    intro i
    rw [inner2_viscousScaling]
    simp only [Bij_entVars _ Pr q hq, sum_ite_eq, mem_univ, if_true]
    ring
  rw [sum_congr rfl fun i _ => this i, ← mul_sum, hN, mul_zero]

/-- The viscous slip wall is exactly entropy conservative: `w·f = ψ` for every gradient. -/
theorem C107_viscous_slip_wall (mu Re Pr : ℝ) (dir : Fin d → ℝ) (hdir : dir ≠ 0) (q : State d)
    (hq : Admissible q) (Dw : Fin d → State d) :
    inner2 (calcEntropyVars q) (viscSlipFlux mu Re Pr dir q Dw) = psi dir q := by
  unfold viscSlipFlux
  rw [inner2_subNormal, C59_slipwall_entropy dir q hq,
    entVars_normal_viscous dir _ Pr q hq _ (C107_zero_normal_derivative dir hdir Dw).2.2.1, sub_zero]

/-- Inflow, outflow and far field: at the boundary state itself the flux is the inviscid flux. -/
theorem C107_inviscid_boundaries (dir : Fin d → ℝ) (hdir : dir ≠ 0) (q : State d) (hq : Admissible q) :
    viscBndFlux q dir q = physFlux dir q := by
  unfold viscBndFlux
  exact C56_boundary_consistent dir q hdir hq

/-- The exact-solution boundary is consistent when the normal derivatives of the solution vanish:
at the exact state the flux is the inviscid flux minus the viscous one. -/
theorem C107_exact_boundary_partial (mu Re Pr : ℝ) (dir : Fin d → ℝ) (hdir : dir ≠ 0) (q : State d)
    (hq : Admissible q) (Dw : Fin d → State d)
    (hN : (∑ i, (Dw i).rho * dir i = 0) ∧ (∀ k, ∑ i, (Dw i).mom k * dir i = 0) ∧
      ∑ i, (Dw i).ener * dir i = 0) (v : State d) :
    inner2 v (viscExactFlux mu Re Pr q dir q Dw) = inner2 v (physFlux dir q)
      - ∑ i, dir i * inner2 v (viscousScaling i (muRe mu Re q) Pr q Dw) := by
  have hz : setZeroNormalDeriv dir Dw = Dw := by
    have key : ∀ f : Fin d → ℝ, ∑ i, f i * dir i = 0 → ∑ i, f i * unitNrm dir i = 0 := by
      intro f hf
      have : ∀ i, f i * unitNrm dir i = f i * dir i * (1 / √(dot dir dir)) := by
        intro i; unfold unitNrm; ring
      rw [sum_congr rfl fun i _ => this i, ← sum_mul, hf, zero_mul]
    funext i
    ext k
    · simp only [setZeroNormalDeriv]; rw [key _ hN.1]; ring
    · simp only [setZeroNormalDeriv]; rw [key (fun i => (Dw i).mom k) (hN.2.1 k)]; ring
    · simp only [setZeroNormalDeriv]; rw [key _ hN.2.2]; ring
  unfold viscExactFlux
  rw [inner2_subNormal, hz]
  congr 2
  exact C56_boundary_consistent dir q hdir hq

/-- Where the imposed state leaves supersonically the imposed state has no influence on the
exact-solution boundary flux: it is the flux of the interior state. -/
theorem C107_exact_supersonic_outflow (mu Re Pr : ℝ) (dir : Fin d → ℝ) (hdir : dir ≠ 0)
    (qexact q : State d) (hb : Admissible qexact) (hq : Admissible q)
    (hout : √(∑ i, dir i ^ 2) * √(specA2 qexact) ≤ (∑ i, qexact.mom i * dir i) / qexact.rho)
    (v : State d) :
    inner2 v (viscExactFlux mu Re Pr qexact dir q fun _ => ⟨0, fun _ => 0, 0⟩) =
      inner2 v (physFlux dir q) := by
  have hz : setZeroNormalDeriv dir (fun _ => (⟨0, fun _ => 0, 0⟩ : State d)) =
      fun _ => ⟨0, fun _ => 0, 0⟩ := by
    funext i; ext k <;> simp [setZeroNormalDeriv]
  unfold viscExactFlux
  rw [inner2_subNormal, hz, C56_supersonic_outflow dir qexact q hdir hb hq hout]
  simp only [inner2_viscousScaling]
  simp [Bij, red]

/-- **Violation**: with a normal derivative the "exact" boundary flux is *not* the exact normal flux.
One-dimensional flow at rest with a temperature gradient: the heat flux is dropped. -/
theorem C107_exact_boundary_false :
    ∃ (q : State 1) (Dw : Fin 1 → State 1) (dir : Fin 1 → ℝ), Admissible q ∧ dir ≠ 0 ∧
      inner2 ⟨0, fun _ => 0, 1⟩ (viscExactFlux 1 1 1 q dir q Dw) ≠
        inner2 ⟨0, fun _ => 0, 1⟩ (physFlux dir q)
          - ∑ i, dir i * inner2 ⟨0, fun _ => 0, 1⟩ (viscousScaling i (muRe 1 1 q) 1 q Dw) := by
  have hA : Admissible (⟨1, fun _ => 0, 1⟩ : State 1) := by
    constructor <;> norm_num
  refine ⟨⟨1, fun _ => 0, 1⟩, fun _ => ⟨0, fun _ => 0, 1⟩, fun _ => 1, hA,
    fun h => one_ne_zero (congrFun h 0), ?_⟩
  have hz : setZeroNormalDeriv (fun _ : Fin 1 => (1 : ℝ)) (fun _ => (⟨0, fun _ => 0, 1⟩ : State 1)) =
      fun _ => ⟨0, fun _ => 0, 0⟩ := by
    funext i; ext k <;> simp [setZeroNormalDeriv, unitNrm, dot]
  unfold viscExactFlux
  rw [inner2_subNormal, hz]
  rw [C56_boundary_consistent _ _ (fun h => one_ne_zero (congrFun h 0)) hA]
  simp only [inner2_viscousScaling]
  simp [Bij, red, vel, temp, specP, muRe]
  norm_num
  intro h; linarith

/-- The control boundary: near the actuator the entropy balance is that of the inviscid control flux;
far from it there is in addition the (nonnegative) no-slip penalty. -/
theorem C107_control_entropy (mu Re Pr control scale : ℝ) (hRe : 0 < Re) (hmu : mu ≠ 0) (qfs : State d)
    (hfs : Admissible qfs) (dir : Fin d → ℝ) (hdir : dir ≠ 0) (jac : ℝ) (hJ : 0 < jac) (q : State d)
    (hq : Admissible q) (Dw : Fin d → State d) :
    psi dir q - control * scale * √(∑ i, dir i ^ 2) * specS q ≤
      inner2 (calcEntropyVars q) (viscControlFlux mu Re Pr control scale qfs dir jac q Dw) := by
  have hm : 0 < muRe mu Re q := by
    unfold muRe
    split_ifs with h
    · exact div_pos (C105_positive q hq) hRe
    · exact div_pos (lt_of_le_of_ne (not_lt.1 h) hmu.symm) hRe
  have hp := (C106_penalty_dissipative dir hdir jac (muRe mu Re q) Pr hJ hm qfs q hfs hq).1
  have hc := C77_control_entropy dir q (control * scale) hq
  unfold viscControlFlux
  simp only
  split_ifs with h
  · rw [inner2_addS, inner2_subS, C106_adiabatic_entropy_free dir hdir _ Pr q hq Dw]
    linarith
  · linarith

/-- With the actuator off and far away, the control boundary is the no-slip wall. -/
theorem C107_control_off (mu Re Pr scale : ℝ) (hs : scale < 1 / 10 ^ 4) (qfs : State d)
    (dir : Fin d → ℝ) (jac : ℝ) (q : State d) (Dw : Fin d → State d) :
    viscControlFlux mu Re Pr 0 scale qfs dir jac q Dw = noSlipFlux mu Re Pr qfs dir jac q Dw := by
  unfold viscControlFlux noSlipFlux
  simp only [hs, if_true, zero_mul, C77_control_zero]

/-- The control penalty vanishes exactly when the wall velocity is the control velocity along the
unit normal, and dissipates the difference of entropy variables otherwise. -/
theorem C107_control_penalty (dir : Fin d → ℝ) (hdir : dir ≠ 0) (Jac mu Pr uc : ℝ) (hJ : 0 < Jac)
    (hmu : 0 < mu) (qfs q : State d) (hfs : Admissible qfs) (hq : Admissible q) :
    let wbc : State d := ⟨(calcEntropyVars q).rho,
      fun k => q.rho * (uc * (dir k / √(∑ i, dir i ^ 2))) / specP q, (calcEntropyVars q).ener⟩
    let pen := controlPenaltyFlux dir Jac mu Pr uc qfs q
    0 ≤ inner2 (subS (calcEntropyVars q) wbc) pen ∧
      (inner2 (subS (calcEntropyVars q) wbc) pen = 0 ↔
        ∀ k, q.mom k / q.rho = uc * (dir k / √(∑ i, dir i ^ 2))) := by
  have hr := hq.rho_pos; have hp := hq.press_pos
  have hT : 0 < temp qfs := by
    unfold temp; rw [← pressure_spec]; exact div_pos hfs.press_pos hfs.rho_pos
  have hA : 0 < √(dot dir dir) := Real.sqrt_pos.2 (dot_self_pos hdir)
  have hc : 0 < √(dot dir dir) / Jac * (temp qfs * mu * (d + 1 / 3)) := by positivity
  intro wbc pen
  have e : inner2 (subS (calcEntropyVars q) wbc) pen =
      √(dot dir dir) / Jac * (temp qfs * mu * (d + 1 / 3)) * (q.rho ^ 2 / pressure q ^ 2) *
        ∑ k, (q.mom k / q.rho - uc * (dir k / √(∑ i, dir i ^ 2))) ^ 2 := by
    simp only [pen, wbc, controlPenaltyFlux]
    rw [penalty_eq _ _ _ _ _ rfl, entVars_eq q hr.ne' hp.ne', sqsum, ← pressure_spec]
    simp only [inner2, subS, State.map2, mul_zero, zero_add, add_zero, Pi.smul_apply, smul_eq_mul]
    rw [mul_sum]
    refine sum_congr rfl fun k _ => ?_
    field_simp
  have hpos : 0 < √(dot dir dir) / Jac * (temp qfs * mu * (d + 1 / 3)) *
      (q.rho ^ 2 / pressure q ^ 2) := by positivity
  rw [e]
  refine ⟨mul_nonneg hpos.le (sum_nonneg fun k _ => sq_nonneg _), ?_⟩
  rw [mul_eq_zero, or_iff_right hpos.ne', sum_eq_zero_iff_of_nonneg fun k _ => sq_nonneg _]
  constructor
  · intro h k
    have := pow_eq_zero_iff (two_ne_zero) |>.1 (h k (mem_univ _))
    linarith
  · intro h k _; rw [h k]; ring

/-! ### C108: surface force -/

/-- The surface-force functional is the projection on the force direction of the momentum part of
the no-slip wall flux that the residual uses (so functional and residual are consistent). -/
theorem C108_force_is_wall_momentum (mu Re Pr : ℝ) (qfs : State d) (f dir : Fin d → ℝ) (jac : ℝ)
    (q : State d) (Dw : Fin d → State d) :
    surfaceForce mu Re Pr qfs f dir jac q Dw =
      ∑ k, f k * (noSlipFlux mu Re Pr qfs dir jac q Dw).mom k := rfl

/-- For a flow field that satisfies no slip at the wall point, it is pressure minus viscous
traction: `f · (p n - τ n)`. -/
theorem C108_force_physical (mu Re Pr : ℝ) (qfs : State d) (f dir : Fin d → ℝ) (jac : ℝ)
    (q : (Fin d → ℝ) → State d) (x : Fin d → ℝ) (hD : Diff q x) (hq : Admissible (q x))
    (hm : ∀ k, (q x).mom k = 0) :
    surfaceForce mu Re Pr qfs f dir jac (q x) (gradW q x) =
      ∑ k, f k * (specP (q x) * dir k - ∑ i, dir i * stress (muRe mu Re (q x)) q x i k) := by
  rw [C108_force_is_wall_momentum]
  refine sum_congr rfl fun k _ => ?_
  congr 1
  have h1 := (C59_slipwall dir (q x)).2.2 k
  have h3 : (noSlipPenaltyFlux dir jac (muRe mu Re (q x)) Pr qfs (q x)).mom k = 0 := by
    rw [C106_penalty_value]; simp [hm]
  have h2 : (adiabaticWallFlux dir (muRe mu Re (q x)) Pr (q x) (gradW q x)).mom k =
      ∑ i, dir i * stress (muRe mu Re (q x)) q x i k := by
    set v : State d := ⟨0, fun j => if j = k then 1 else 0, 0⟩ with hv
    have hi : ∀ s : State d, inner2 v s = s.mom k := by intro s; simp [hv, inner2]
    rw [← hi, inner2_adiabatic]
    refine sum_congr rfl fun i _ => ?_
    have hn := C103_navier_stokes_flux (muRe mu Re (q x)) Pr q x hD hq i
    have : stress (muRe mu Re (q x)) q x i k =
        inner2 v (viscousScaling i (muRe mu Re (q x)) Pr (q x) (gradW q x)) := by
      rw [hn, hi]; rfl
    rw [this, inner2_viscousScaling, mul_sum]
    refine sum_congr rfl fun j _ => ?_
    rw [Bij_scale]
    congr 1
    have hu : ∀ k, vel (q x) k = 0 := by intro k; simp [vel, hm]
    unfold Bij red
    simp only [hu, zero_mul, add_zero, hv]
  simp only [noSlipFlux, addS, subS, State.map2, h1, h2, h3]; ring

/-- Non-vacuity: a shear flow over a wall at `x 1 = 0`. -/
example : Admissible ((fun y : Fin 2 → ℝ => (⟨1, ![y 1, 0], 3⟩ : State 2)) (fun _ => 0)) ∧
    ∀ k, ((fun y : Fin 2 → ℝ => (⟨1, ![y 1, 0], 3⟩ : State 2)) (fun _ => 0)).mom k = 0 := by
  constructor
  · constructor <;> norm_num [Fin.sum_univ_two]
  · intro k; fin_cases k <;> rfl

end Verif.Viscous
