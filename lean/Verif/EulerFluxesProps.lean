import Verif.EulerFluxesLemmas
import Mathlib.Analysis.SpecialFunctions.Log.Deriv
import Mathlib.Data.Fin.VecNotation
import Mathlib.Tactic.FinCases

/-!
# Euler fluxes: free stream, variable round trips, Ismail–Roe flux, Roe flux (C52–C56)
-/

namespace Verif.EulerFluxes

variable {d : ℕ}

/-! ## Specification -/

/-- Ideal-gas pressure, γ = 7/5. -/
noncomputable def specP (q : State d) : ℝ :=
  (7 / 5 - 1 : ℝ) * (q.ener - (∑ i, q.mom i ^ 2) / (2 * q.rho))

/-- The exact Euler flux `F(q)·n`. -/
noncomputable def physFlux (n : Fin d → ℝ) (q : State d) : State d :=
  let un := (∑ i, q.mom i * n i) / q.rho
  ⟨q.rho * un, fun i => q.mom i * un + n i * specP q, (q.ener + specP q) * un⟩

/-- The speed of a state. -/
noncomputable def speed (q : State d) : ℝ := √(∑ i, (q.mom i / q.rho) ^ 2)

theorem pressure_spec (q : State d) : pressure q = specP q := pressure_eq q

/-- A non-trivial admissible 2D state used as a witness. -/
noncomputable def q1 : State 2 := ⟨1, ![1, 1 / 2], 3⟩
/-- Another one. -/
noncomputable def q2 : State 2 := ⟨2, ![-1, 1], 5⟩
theorem q1_adm : Admissible q1 := by constructor <;> norm_num [q1, Fin.sum_univ_two]
theorem q2_adm : Admissible q2 := by constructor <;> norm_num [q2, Fin.sum_univ_two]

theorem C54_euler_flux (n : Fin d → ℝ) (q : State d) (hr : q.rho ≠ 0) :
    calcEulerFlux n q = physFlux n q := by
  unfold calcEulerFlux physFlux
  simp only [pressure_spec]
  ext i
  · simp [dot]; field_simp
  · rfl
  · rfl

/-! ## C52: free stream -/

theorem C52_freestream (hd : 2 ≤ d) (mach aoa : ℝ) (iroll ipitch : Fin d) (hne : iroll ≠ ipitch) :
    let q := getFreeStreamQ mach aoa iroll ipitch
    q.rho = 1 ∧ specP q = 1 / (7 / 5) ∧ speed q = |mach| ∧
    q.mom iroll / q.rho = mach * Real.cos aoa ∧ q.mom ipitch / q.rho = mach * Real.sin aoa ∧
    ∀ i, i ≠ iroll → i ≠ ipitch → q.mom i = 0 := by
  have hd1 : d ≠ 1 := by omega
  have hi : (getFreeStreamQ mach aoa iroll ipitch).mom iroll = mach * Real.cos aoa := by
    simp [getFreeStreamQ, hd1, Function.update_of_ne hne]
  have hj : (getFreeStreamQ mach aoa iroll ipitch).mom ipitch = mach * Real.sin aoa := by
    simp [getFreeStreamQ, hd1]
  have hk : ∀ i, i ≠ iroll → i ≠ ipitch → (getFreeStreamQ mach aoa iroll ipitch).mom i = 0 := by
    intro i h1 h2
    simp [getFreeStreamQ, hd1, Function.update_of_ne h1, Function.update_of_ne h2]
  have hr : (getFreeStreamQ mach aoa iroll ipitch).rho = 1 := rfl
  have hsum : ∑ i, (getFreeStreamQ mach aoa iroll ipitch).mom i ^ 2 = mach ^ 2 := by
    have hsub : ∑ i, (getFreeStreamQ mach aoa iroll ipitch).mom i ^ 2
        = ∑ i ∈ {iroll, ipitch}, (getFreeStreamQ mach aoa iroll ipitch).mom i ^ 2 := by
      symm
      apply Finset.sum_subset (Finset.subset_univ _)
      intro i _ hi'
      simp only [Finset.mem_insert, Finset.mem_singleton, not_or] at hi'
      rw [hk i hi'.1 hi'.2]; norm_num
    rw [hsub, Finset.sum_pair hne, hi, hj]
    have := Real.sin_sq_add_cos_sq aoa
    linear_combination mach ^ 2 * this
  refine ⟨hr, ?_, ?_, ?_, ?_, hk⟩
  · unfold specP
    rw [hsum, hr]
    simp only [getFreeStreamQ, gami_eq, gamma_eq]
    norm_num; ring
  · unfold speed
    simp only [hr, div_one]
    rw [hsum, Real.sqrt_sq_eq_abs]
  · rw [hi, hr, div_one]
  · rw [hj, hr, div_one]

theorem C52_freestream_1d (mach aoa : ℝ) (iroll ipitch : Fin 1) :
    let q := getFreeStreamQ mach aoa iroll ipitch
    q.rho = 1 ∧ specP q = 1 / (7 / 5) ∧ speed q = |mach| ∧ q.mom 0 = mach := by
  refine ⟨rfl, ?_, ?_, ?_⟩
  · unfold specP getFreeStreamQ
    simp [gami_eq, gamma_eq]; ring
  · unfold speed getFreeStreamQ
    simp [Real.sqrt_sq_eq_abs]
  · simp [getFreeStreamQ]

/-- If both axes are the same index (the option parser does not forbid it) the speed is wrong and
the energy no longer matches pressure `1/γ`. -/
theorem C52_equal_axes_wrong :
    ¬ ∀ (mach aoa : ℝ) (i j : Fin 2), specP (getFreeStreamQ mach aoa i j) = 1 / (7 / 5) := by
  intro h
  have := h 1 0 0 0
  unfold specP getFreeStreamQ at this
  simp [gami_eq, gamma_eq] at this
  norm_num at this

example : ∃ (i j : Fin 3), i ≠ j ∧ 2 ≤ 3 := ⟨0, 2, by decide, by norm_num⟩

/-! ## C53: entropy variables round trip -/

theorem C53_entvars_range (q : State d) (h : Admissible q) : (calcEntropyVars q).ener < 0 := by
  rw [entVars_eq q h.rho_pos.ne' h.press_pos.ne']
  exact div_neg_of_neg_of_pos (neg_lt_zero.mpr h.rho_pos) h.press_pos

theorem C53_roundtrip_cons (q : State d) (h : Admissible q) :
    calcConservativeVars (calcEntropyVars q) = q := by
  have hr := h.rho_pos
  have hp := h.press_pos
  have hneg := C53_entvars_range q h
  have hrho : rhoOfW (calcEntropyVars q) = q.rho := by
    apply Real.log_injOn_pos (Set.mem_Ioi.mpr (rhoOfW_pos _ hneg)) (Set.mem_Ioi.mpr hr)
    rw [log_rhoOfW _ hneg, entVars_eq q hr.ne' hp.ne']
    simp only [dot_smul_left, dot_smul_right]
    rw [log_s hr hp]
    have e : Real.log (-(-q.rho / pressure q)) = Real.log q.rho - Real.log (pressure q) := by
      rw [← neg_div, neg_neg, Real.log_div hr.ne' hp.ne']
    rw [e]
    field_simp
    ring
  rw [consVars_eq _ hneg.ne, hrho, entVars_eq q hr.ne' hp.ne']
  ext i
  · rfl
  · simp only [Pi.smul_apply, smul_eq_mul]
    have := hr.ne'; have := hp.ne'
    field_simp
  · simp only [dot_smul_left, dot_smul_right]
    have := hr.ne'; have := hp.ne'
    conv_rhs => rw [ener_eq q]
    field_simp

theorem C53_cons_admissible (w : State d) (hw : w.ener < 0) :
    Admissible (calcConservativeVars w) := by
  rw [admissible_iff, pressure_cons w hw, consVars_eq w hw.ne]
  have := rhoOfW_pos w hw
  exact ⟨this, div_pos_of_neg_of_neg (neg_lt_zero.mpr this) hw⟩

theorem C53_roundtrip_ent (w : State d) (hw : w.ener < 0) :
    calcEntropyVars (calcConservativeVars w) = w := by
  have ha := C53_cons_admissible w hw
  have hr := rhoOfW_pos w hw
  rw [entVars_eq _ ha.rho_pos.ne' ha.press_pos.ne', pressure_cons w hw, consVars_eq w hw.ne]
  have hwe := hw.ne
  have hrn := hr.ne'
  ext i
  · simp only [dot_smul_left, dot_smul_right]
    rw [log_s hr (div_pos_of_neg_of_neg (neg_lt_zero.mpr hr) hw)]
    have e : Real.log (-rhoOfW w / w.ener) = Real.log (rhoOfW w) - Real.log (-w.ener) := by
      rw [neg_div, ← div_neg, Real.log_div hrn (by linarith)]
    rw [e, log_rhoOfW w hw]
    field_simp
    ring
  · simp only [Pi.smul_apply, smul_eq_mul]; field_simp
  · simp only; field_simp

example : ∃ w : State 2, w.ener < 0 ∧ w.mom ≠ 0 :=
  ⟨⟨1, ![1, 2], -3⟩, by norm_num, fun h => by have := congrFun h 0; norm_num at this⟩
example : Admissible q1 := q1_adm

/-! ## C54: Ismail–Roe flux: symmetry, consistency, agreement of the four variants -/

theorem logavg_self (a : ℝ) (ha : 0 < a) : logavg a a = a := by
  unfold logavg
  have : a / a = 1 := div_self ha.ne'
  simp [this]

theorem logavg_symm (a b : ℝ) (ha : 0 < a) (hb : 0 < b) : logavg a b = logavg b a := by
  unfold logavg
  have hf : (a / b - 1) / (a / b + 1) = -((b / a - 1) / (b / a + 1)) := by
    have : a + b ≠ 0 := by positivity
    have : b + a ≠ 0 := by positivity
    field_simp; ring
  have hl : Real.log (a / b) = -Real.log (b / a) := by
    rw [← Real.log_inv, inv_div]
  simp only [hf, hl, neg_mul_neg, add_comm a b, neg_div, div_neg, neg_neg]

theorem logavg_pos (a b : ℝ) (ha : 0 < a) (hb : 0 < b) : 0 < logavg a b := by
  unfold logavg
  simp only
  apply div_pos (by positivity)
  apply mul_pos two_pos
  set f := (a / b - 1) / (a / b + 1) with hf
  split_ifs with hu
  · have : 0 ≤ f * f := mul_self_nonneg f
    positivity
  · have hx : 0 < a / b := div_pos ha hb
    have hne : a / b ≠ 1 := by
      intro h; apply hu; rw [hf, h]; norm_num
    rcases lt_or_gt_of_ne hne with h1 | h1
    · have hl := Real.log_neg hx h1
      have : f < 0 := div_neg_of_neg_of_pos (by linarith) (by linarith)
      exact div_pos_of_neg_of_neg (by linarith) this
    · have hl := Real.log_pos h1
      have : 0 < f := div_pos (by linarith) (by linarith)
      positivity

theorem zCons_rho_pos {q : State d} (h : Admissible q) : 0 < (zCons q).rho :=
  Real.sqrt_pos.mpr (div_pos h.rho_pos h.press_pos)
theorem zCons_ener_pos {q : State d} (h : Admissible q) : 0 < (zCons q).ener :=
  Real.sqrt_pos.mpr (mul_pos h.rho_pos h.press_pos)

theorem faceU_eq (dir : Fin d → ℝ) (qL qR : State d) :
    (∑ i, ((zCons qL).rho * qL.mom i / qL.rho + (zCons qR).rho * qR.mom i / qR.rho) * dir i
      / ((zCons qL).rho + (zCons qR).rho))
    = dot (uHat (zCons qL) (zCons qR)) dir := by
  unfold dot uHat zCons
  exact Finset.sum_congr rfl fun i _ => by ring

theorem rhoHat_symm {a b : State d} (ha : 0 < a.ener) (hb : 0 < b.ener) :
    rhoHat a b = rhoHat b a := by
  unfold rhoHat; rw [logavg_symm _ _ ha hb]; ring
theorem uHat_symm (a b : State d) : uHat a b = uHat b a := by
  unfold uHat; funext i; rw [add_comm (a.mom i), add_comm a.rho]
theorem p1Hat_symm (a b : State d) : p1Hat a b = p1Hat b a := by
  unfold p1Hat; rw [add_comm a.rho, add_comm a.ener]
theorem p2Hat_symm {a b : State d} (ha : 0 < a.ener) (hb : 0 < b.ener) (ha0 : 0 < a.rho)
    (hb0 : 0 < b.rho) : p2Hat a b = p2Hat b a := by
  unfold p2Hat
  rw [logavg_symm _ _ ha hb, logavg_symm _ _ ha0 hb0, add_comm a.rho, add_comm a.ener]
theorem hHat_symm {a b : State d} (ha : 0 < a.ener) (hb : 0 < b.ener) (ha0 : 0 < a.rho)
    (hb0 : 0 < b.rho) : hHat a b = hHat b a := by
  unfold hHat
  rw [p2Hat_symm ha hb ha0 hb0, rhoHat_symm ha hb, uHat_symm]

theorem C54_face_symmetric (dir : Fin d → ℝ) (qL qR : State d) (hL : Admissible qL)
    (hR : Admissible qR) :
    calcIsmailRoeFaceFlux dir qL qR = calcIsmailRoeFaceFlux dir qR qL := by
  unfold calcIsmailRoeFaceFlux
  simp only [faceU_eq, irFaceZ]
  have h1 := zCons_rho_pos hL; have h2 := zCons_rho_pos hR
  have h3 := zCons_ener_pos hL; have h4 := zCons_ener_pos hR
  rw [uHat_symm (zCons qL), rhoHat_symm h3 h4, p1Hat_symm (zCons qL), hHat_symm h3 h4 h1 h2]

theorem C54_coord_symmetric (di : Fin d) (qL qR : State d) (hL : Admissible qL)
    (hR : Admissible qR) :
    calcIsmailRoeFlux di qL qR = calcIsmailRoeFlux di qR qL := by
  have h1 := zCons_rho_pos hL; have h2 := zCons_rho_pos hR
  have h3 := zCons_ener_pos hL; have h4 := zCons_ener_pos hR
  unfold calcIsmailRoeFlux irFluxZ
  simp only
  rw [uHat_symm (zCons qL), rhoHat_symm h3 h4, p1Hat_symm (zCons qL), hHat_symm h3 h4 h1 h2,
    add_comm ((zCons qL).mom di), add_comm (zCons qL).rho]

theorem C54_face_homogeneous (c : ℝ) (dir : Fin d → ℝ) (qL qR : State d) :
    calcIsmailRoeFaceFlux (c • dir) qL qR =
      (let f := calcIsmailRoeFaceFlux dir qL qR; ⟨c * f.rho, c • f.mom, c * f.ener⟩) := by
  unfold calcIsmailRoeFaceFlux
  simp only [faceU_eq, irFaceZ, dot_smul_right]
  ext i
  · simp only; ring
  · simp only [Pi.smul_apply, smul_eq_mul]; ring
  · simp only; ring

/-- The coordinate flux is the face flux in the unit direction. -/
theorem C54_coord_eq_face (di : Fin d) (qL qR : State d) :
    calcIsmailRoeFlux di qL qR =
      calcIsmailRoeFaceFlux (fun i => if i = di then 1 else 0) qL qR := by
  unfold calcIsmailRoeFlux calcIsmailRoeFaceFlux
  simp only [faceU_eq]
  have hU : dot (uHat (zCons qL) (zCons qR)) (fun i => if i = di then 1 else 0)
      = ((zCons qL).mom di + (zCons qR).mom di) / ((zCons qL).rho + (zCons qR).rho) := by
    unfold dot; simp [uHat]
  rw [hU]
  unfold irFluxZ irFaceZ
  simp only
  ext i
  · rfl
  · simp only
    by_cases h : i = di
    · subst h; simp
    · simp [h]
  · rfl

theorem zCons_prod (q : State d) (h : Admissible q) :
    (zCons q).rho * (zCons q).ener = q.rho ∧ (zCons q).ener / (zCons q).rho = pressure q ∧
    (zCons q).rho ^ 2 = q.rho / pressure q := by
  have hr := h.rho_pos; have hp := h.press_pos
  unfold zCons
  simp only
  refine ⟨?_, ?_, ?_⟩
  · rw [← Real.sqrt_mul (div_pos hr hp).le]
    have : q.rho / pressure q * (q.rho * pressure q) = q.rho ^ 2 := by field_simp
    rw [this, Real.sqrt_sq hr.le]
  · rw [← Real.sqrt_div (mul_pos hr hp).le]
    have : q.rho * pressure q / (q.rho / pressure q) = pressure q ^ 2 := by field_simp
    rw [this, Real.sqrt_sq hp.le]
  · rw [Real.sq_sqrt (div_pos hr hp).le]

theorem C54_consistent (dir : Fin d → ℝ) (q : State d) (h : Admissible q) :
    calcIsmailRoeFaceFlux dir q q = physFlux dir q := by
  rw [← C54_euler_flux dir q h.rho_pos.ne']
  have hr := h.rho_pos; have hp := h.press_pos
  have h1 := zCons_rho_pos h; have h3 := zCons_ener_pos h
  obtain ⟨e1, e2, e3⟩ := zCons_prod q h
  have hu : uHat (zCons q) (zCons q) = (1 / q.rho) • q.mom := by
    funext i
    unfold uHat
    have : (zCons q).mom i = (zCons q).rho * q.mom i / q.rho := rfl
    rw [this]
    simp only [Pi.smul_apply, smul_eq_mul]
    field_simp
  have hrho : rhoHat (zCons q) (zCons q) = q.rho := by
    unfold rhoHat; rw [logavg_self _ h3, ← e1]; ring
  have hp1 : p1Hat (zCons q) (zCons q) = pressure q := by
    unfold p1Hat; rw [← e2]; field_simp
  have hp2 : p2Hat (zCons q) (zCons q) = pressure q := by
    unfold p2Hat; rw [logavg_self _ h3, logavg_self _ h1, ← e2, gamma_eq, gami_eq]
    field_simp; ring
  have hh : hHat (zCons q) (zCons q) = (q.ener + pressure q) / q.rho := by
    have hs : (∑ i, 1 / 2 * uHat (zCons q) (zCons q) i * uHat (zCons q) (zCons q) i)
        = 1 / 2 * dot (uHat (zCons q) (zCons q)) (uHat (zCons q) (zCons q)) := by
      unfold dot; rw [Finset.mul_sum]; exact Finset.sum_congr rfl fun i _ => by ring
    unfold hHat
    rw [hs, hp2, hrho, hu, ener_eq q, gamma_eq, gami_eq]
    simp only [dot_smul_left, dot_smul_right]
    field_simp; ring
  unfold calcIsmailRoeFaceFlux calcEulerFlux
  simp only [faceU_eq, irFaceZ]
  rw [hu, hrho, hp1, hh, dot_smul_left]
  ext i
  · simp only; field_simp
  · simp only [Pi.smul_apply, smul_eq_mul]; field_simp
  · simp only; field_simp

theorem C54_coord_consistent (di : Fin d) (q : State d) (h : Admissible q) :
    calcIsmailRoeFlux di q q = physFlux (fun i => if i = di then 1 else 0) q := by
  rw [C54_coord_eq_face, C54_consistent _ _ h]

/-- The parameter vectors of the two formulations coincide. -/
theorem zEnt_eq (q : State d) (h : Admissible q) : zEnt (calcEntropyVars q) = zCons q := by
  have hr := h.rho_pos; have hp := h.press_pos
  have hneg := C53_entvars_range q h
  have hrho : rhoOfW (calcEntropyVars q) = q.rho := by
    have := congrArg State.rho (C53_roundtrip_cons q h)
    rwa [consVars_eq _ hneg.ne] at this
  have hw : (calcEntropyVars q).ener = -q.rho / pressure q := by
    rw [entVars_eq q hr.ne' hp.ne']
  have hm : (calcEntropyVars q).mom = (1 / pressure q) • q.mom := by
    rw [entVars_eq q hr.ne' hp.ne']
  have hz : √(-(calcEntropyVars q).ener) = (zCons q).rho := by
    rw [hw, neg_div, neg_neg]; rfl
  have h1 := zCons_rho_pos h
  obtain ⟨e1, e2, e3⟩ := zCons_prod q h
  have hpow : (-Real.exp (-(gamma + gami * (1 / 2 * (∑ i, (calcEntropyVars q).mom i *
      (calcEntropyVars q).mom i) / (calcEntropyVars q).ener - (calcEntropyVars q).rho)))
      / (calcEntropyVars q).ener) ^ (1 / gami) = q.rho := by
    rw [← hrho, inv_gami_eq, gamma_eq, gami_eq]; rfl
  unfold zEnt
  simp only [hz, hpow]
  ext i
  · rfl
  · simp only [hm, hw, Pi.smul_apply, smul_eq_mul]
    show _ = (zCons q).rho * q.mom i / q.rho
    field_simp
  · simp only; rw [← e1]; field_simp

theorem C54_entvars_face (dir : Fin d → ℝ) (qL qR : State d) (hL : Admissible qL)
    (hR : Admissible qR) :
    calcIsmailRoeFaceFluxUsingEntVars dir (calcEntropyVars qL) (calcEntropyVars qR)
      = calcIsmailRoeFaceFlux dir qL qR := by
  unfold calcIsmailRoeFaceFluxUsingEntVars calcIsmailRoeFaceFlux
  simp only [zEnt_eq qL hL, zEnt_eq qR hR]
  rfl

theorem C54_entvars_coord (di : Fin d) (qL qR : State d) (hL : Admissible qL)
    (hR : Admissible qR) :
    calcIsmailRoeFluxUsingEntVars di (calcEntropyVars qL) (calcEntropyVars qR)
      = calcIsmailRoeFlux di qL qR := by
  unfold calcIsmailRoeFluxUsingEntVars calcIsmailRoeFlux
  rw [zEnt_eq qL hL, zEnt_eq qR hR]

example : Admissible q1 ∧ Admissible q2 ∧ q1 ≠ q2 :=
  ⟨q1_adm, q2_adm, fun h => by have := congrArg State.rho h; norm_num [q1, q2] at this⟩

end Verif.EulerFluxes
