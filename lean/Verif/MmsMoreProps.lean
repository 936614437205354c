import Verif.MmsProps

/-!
Properties C197 (viscosity option), C198 (three-dimensional viscous manufactured solution), C199 (inviscid manufactured
solution), C200 (source integrator).
-/

namespace Verif.Mms
open Verif.EulerFluxes Verif.Viscous Real
set_option linter.unusedSimpArgs false

/-! ### C197: the viscosity has to be the one of the flow -/

/-- The source built with one viscosity is not the divergence of the flux with another one: with `viscous-mms` the
option `mu` has to be 1. -/
theorem C197_viscosity_must_match (mu mu' Pr : ℝ) (junk : ℕ → ℝ)
    (h : HasDiv (flowFlux mu' Pr (fun y => viscousExact2 (arr y junk))) (fun _ => 0)
      (viscousSrc2 mu Pr (arr (fun _ : Fin 2 => 0) junk))) : mu' = mu := by
  have e := h.unique (C197_source_is_divergence mu' Pr junk _)
  have e1 := congrFun (congrArg State.mom e) 0
  rw [src2_eq, src2_eq] at e1
  simp only [Fin.sum_univ_two, R2, U2, r2, G2, H2, T2, Tg2, tau, if_true, one_ne_zero, zero_ne_one, if_false] at e1
  norm_num at e1
  linarith

/-! ### C198: the three-dimensional viscous solution -/

theorem HasPd.of_upd {d : ℕ} {f : (Fin d → ℝ) → ℝ} {c : ℝ} {x : Fin d → ℝ} {j : Fin d} {g : ℝ → ℝ}
    (hg : HasDerivAt g c (x j)) (e : ∀ t, f (Function.update x j t) = g t) : HasPd f c x j := by
  unfold HasPd
  rw [funext e]
  exact hg

theorem hs2 (t : ℝ) : HasDerivAt (fun t => sin (2 * π * t)) (2 * π * cos (2 * π * t)) t := by
  have := ((hasDerivAt_id t).const_mul (2 * π)).sin
  simpa [mul_comm] using this

/-- Density of the three-dimensional viscous solution. -/
noncomputable def r3 (y : Fin 3 → ℝ) : ℝ :=
  1 + 1 / 10 * (sin (2 * π * y 0) * sin (2 * π * y 1) * sin (2 * π * y 2))
/-- Its three (equal) velocity components. -/
noncomputable def w3 (y : Fin 3 → ℝ) : ℝ :=
  1 / 2 * ((y 0 ^ 3 / 3 - y 0 ^ 2 / 2) + (y 1 ^ 3 / 3 - y 1 ^ 2 / 2) + (y 2 ^ 3 / 3 - y 2 ^ 2 / 2))
/-- Derivatives of the density. -/
noncomputable def R3 (j : Fin 3) (y : Fin 3 → ℝ) : ℝ :=
  if j = 0 then 1 / 10 * (2 * π * cos (2 * π * y 0) * sin (2 * π * y 1) * sin (2 * π * y 2))
  else if j = 1 then 1 / 10 * (sin (2 * π * y 0) * (2 * π * cos (2 * π * y 1)) * sin (2 * π * y 2))
  else 1 / 10 * (sin (2 * π * y 0) * sin (2 * π * y 1) * (2 * π * cos (2 * π * y 2)))
/-- Derivatives of the velocity. -/
noncomputable def G3 (_k j : Fin 3) (y : Fin 3 → ℝ) : ℝ := 1 / 2 * (y j ^ 2 - y j)
/-- Second derivatives of the velocity. -/
noncomputable def H3 (x : Fin 3 → ℝ) (_k j l : Fin 3) : ℝ := if j = l then 1 / 2 * (2 * x j - 1) else 0

theorem hcub (t : ℝ) : HasDerivAt (fun t : ℝ => t ^ 3 / 3 - t ^ 2 / 2) (t ^ 2 - t) t := by
  refine (((hasDerivAt_pow 3 t).div_const 3).sub ((hasDerivAt_pow 2 t).div_const 2)).congr_deriv ?_
  norm_num

theorem upd3 (x : Fin 3 → ℝ) (j : Fin 3) (t : ℝ) (i : Fin 3) :
    Function.update x j t i = if i = j then t else x i := by
  by_cases h : i = j
  · subst h; simp
  · simp [h]

theorem prims3 (x : Fin 3 → ℝ) :
    Prims r3 (fun _ => w3) (fun _ => 1) R3 G3 (fun _ _ => 0) x (H3 x) (fun _ => 0) where
  pos y := by
    unfold r3
    have : -1 ≤ sin (2 * π * y 0) * sin (2 * π * y 1) * sin (2 * π * y 2) := by
      have h : |sin (2 * π * y 0) * sin (2 * π * y 1) * sin (2 * π * y 2)| ≤ 1 := by
        rw [abs_mul, abs_mul]
        have a := abs_sin_le_one (2 * π * y 0)
        have b := abs_sin_le_one (2 * π * y 1)
        have c := abs_sin_le_one (2 * π * y 2)
        have := mul_le_mul a b (abs_nonneg _) zero_le_one
        have := mul_le_mul this c (abs_nonneg _) (by norm_num)
        linarith
      exact (abs_le.1 h).1
    linarith
  tpos y := one_pos
  dr y j := by
    unfold HasPd r3 R3
    fin_cases j <;> simp only [upd3] <;> simp only [Fin.zero_eta, Fin.mk_one, Fin.reduceFinMk, Fin.isValue, Fin.reduceEq,
      zero_ne_one, one_ne_zero, if_true, if_false]
    · exact ((((hs2 _).mul_const _).mul_const _).const_mul _).const_add _
    · exact ((((hs2 _).const_mul _).mul_const _).const_mul _).const_add _
    · exact (((hs2 _).const_mul _).const_mul _).const_add _
  dU y k j := by
    unfold HasPd w3 G3
    fin_cases j <;> simp only [upd3] <;> simp only [Fin.zero_eta, Fin.mk_one, Fin.reduceFinMk, Fin.isValue, Fin.reduceEq,
      zero_ne_one, one_ne_zero, if_true, if_false]
    · exact (((hcub _).add_const _).add_const _).const_mul _
    · exact (((hcub _).const_add _).add_const _).const_mul _
    · exact ((hcub _).const_add _).const_mul _
  dT y j := hasDerivAt_const _ _
  dG k j l := by
    unfold HasPd G3 H3
    by_cases h : j = l
    · subst h
      simp only [upd3, if_true]
      refine HasDerivAt.const_mul _ (((hasDerivAt_pow 2 _).sub (hasDerivAt_id _)).congr_deriv ?_)
      norm_num
    · simp only [upd3, h, if_false]; exact hasDerivAt_const _ _
  dTg j := hasDerivAt_const _ _

/-- The array the three-dimensional exact solution would need: the third coordinate once more behind the point. -/
def dup (y : Fin 3 → ℝ) : ℕ → ℝ := arr y (fun _ => y 2)

theorem exact3_prim (y : Fin 3 → ℝ) : viscousExact3 (dup y) = prim (r3 y) (fun _ => w3 y) 1 := by
  unfold viscousExact3
  simp only [finish_eq]
  have e0 : dup y 0 = y 0 := rfl
  have e1 : dup y 1 = y 1 := rfl
  have e2 : dup y 2 = y 2 := rfl
  have e3 : dup y 3 = y 2 := rfl
  simp only [e0, e1, e2, e3, mul_one]
  congr 1
  · unfold r3; ring
  · funext k
    fin_cases k <;> simp [w3]

/-- The exact solution reads a fourth coordinate: at one and the same point it takes different values, depending on what
stands in memory behind the point. -/
theorem C198_exact_reads_past_end_false :
    ¬ ∀ (y : Fin 3 → ℝ) (junk junk' : ℕ → ℝ), viscousExact3 (arr y junk) = viscousExact3 (arr y junk') := by
  intro h
  have := congrArg State.rho (h (fun _ => 1 / 4) (fun _ => 0) (fun _ => 1 / 4))
  have a : ∀ j : ℕ → ℝ, arr (fun _ : Fin 3 => (1 / 4 : ℝ)) j 0 = 1 / 4 := fun _ => rfl
  have b : ∀ j : ℕ → ℝ, arr (fun _ : Fin 3 => (1 / 4 : ℝ)) j 1 = 1 / 4 := fun _ => rfl
  have c : ∀ j : ℕ → ℝ, arr (fun _ : Fin 3 => (1 / 4 : ℝ)) j 3 = j 3 := fun _ => rfl
  have e : 2 * π * (1 / 4) = π / 2 := by ring
  simp only [viscousExact3, finish, a, b, c, mul_one, e, mul_zero, sin_zero, sin_pi_div_two] at this
  norm_num at this

/-- The divergence for the three-dimensional viscous solution. -/
noncomputable def divS3 (mu Pr : ℝ) (x : Fin 3 → ℝ) : State 3 :=
  ⟨∑ j, (R3 j x * w3 x + r3 x * G3 j j x),
   fun i => ∑ j, ((R3 j x * w3 x + r3 x * G3 i j x) * w3 x + r3 x * w3 x * G3 j j x +
     (if i = j then R3 j x * 1 + r3 x * 0 else 0) - tau mu (fun k l => H3 x k l j) j i),
   ∑ j, ((R3 j x * (7 / 2 * 1 + 1 / 2 * ∑ _i : Fin 3, w3 x ^ 2) +
       r3 x * (7 / 2 * 0 + 1 / 2 * ∑ i, 2 * w3 x * G3 i j x)) * w3 x +
     r3 x * (7 / 2 * 1 + 1 / 2 * ∑ _i : Fin 3, w3 x ^ 2) * G3 j j x
     - ((∑ k, (G3 k j x * tau mu (fun k l => G3 k l x) j k + w3 x * tau mu (fun k l => H3 x k l j) j k)) +
       7 / 2 * mu / Pr * 0))⟩

theorem div3 (mu Pr : ℝ) (x : Fin 3 → ℝ) :
    HasDiv (flowFlux mu Pr (fun y => viscousExact3 (dup y))) x (divS3 mu Pr x) := by
  have e : (fun y => viscousExact3 (dup y)) = fun y => prim (r3 y) (fun k => w3 y) 1 := by
    funext y; exact exact3_prim y
  rw [e]
  exact (prims3 x).div mu Pr

/-- With the third coordinate in the place the code reads, the mass and momentum sources are the divergence of the flow
flux, at every point and for every viscosity, whatever stands behind the array the source is called with.  Missing:
the energy equation, and the exact solution as it is called (see `C198_exact_reads_past_end_false`,
`C198_energy_false`). -/
theorem C198_mass_momentum_partial (mu Pr : ℝ) (junk : ℕ → ℝ) (x : Fin 3 → ℝ) :
    ∃ s, HasDiv (flowFlux mu Pr (fun y => viscousExact3 (dup y))) x s ∧
      s.rho = (viscousSrc3 mu Pr (arr x junk)).rho ∧ s.mom = (viscousSrc3 mu Pr (arr x junk)).mom := by
  have e0 : arr x junk 0 = x 0 := rfl
  have e1 : arr x junk 1 = x 1 := rfl
  have e2 : arr x junk 2 = x 2 := rfl
  refine ⟨_, div3 mu Pr x, ?_, ?_⟩
  · simp only [divS3, viscousSrc3, viscousSrc3_0, e0, e1, e2, Fin.sum_univ_three, R3, w3, r3, G3, pow, mul_one, one_mul,
      Fin.isValue, Fin.reduceEq, if_true, if_false, one_ne_zero]
    ring
  · funext i
    fin_cases i
    · simp only [divS3, viscousSrc3, viscousSrc3_1, e0, e1, e2, Fin.sum_univ_three, R3, w3, r3, G3, H3, tau, pow, mul_one,
        one_mul, Fin.isValue, Fin.reduceEq, if_true, if_false, one_ne_zero, zero_ne_one, Fin.zero_eta,
        Matrix.cons_val_zero]
      ring
    · simp only [divS3, viscousSrc3, viscousSrc3_2, e0, e1, e2, Fin.sum_univ_three, R3, w3, r3, G3, H3, tau, pow, mul_one,
        one_mul, Fin.isValue, Fin.reduceEq, if_true, if_false, one_ne_zero, zero_ne_one, Fin.mk_one,
        Matrix.cons_val_one, Matrix.cons_val_zero]
      ring
    · simp only [divS3, viscousSrc3, viscousSrc3_3, e0, e1, e2, Fin.sum_univ_three, R3, w3, r3, G3, H3, tau, pow, mul_one,
        one_mul, Fin.isValue, Fin.reduceEq, if_true, if_false, one_ne_zero, zero_ne_one, Fin.reduceFinMk,
        Matrix.cons_val]
      ring

/-- The energy source is not the divergence of the energy flux, whatever the viscosity and Prandtl number (the velocity
component in the third direction was replaced by the third coordinate when the expression was generated). -/
theorem C198_energy_false (mu Pr : ℝ) (junk : ℕ → ℝ) :
    ¬ ∀ x : Fin 3 → ℝ, HasDiv1 (fun j y => (flowFlux mu Pr (fun y => viscousExact3 (dup y)) j y).ener) x
      (viscousSrc3 mu Pr (arr x junk)).ener := by
  intro h
  have e := (h (fun _ => 1 / 2)).unique (div3 mu Pr (fun _ => 1 / 2)).2.2
  have e0 : arr (fun _ : Fin 3 => (1 / 2 : ℝ)) junk 0 = 1 / 2 := rfl
  have e1 : arr (fun _ : Fin 3 => (1 / 2 : ℝ)) junk 1 = 1 / 2 := rfl
  have e2 : arr (fun _ : Fin 3 => (1 / 2 : ℝ)) junk 2 = 1 / 2 := rfl
  have ep : 2 * π * (1 / 2) = π := by ring
  simp only [divS3, viscousSrc3, viscousSrc3_4, e0, e1, e2, Fin.sum_univ_three, R3, w3, r3, G3, H3, tau, pow, mul_one,
    one_mul, Fin.isValue, Fin.reduceEq, if_true, if_false, one_ne_zero, zero_ne_one, ep, sin_pi, cos_pi, gamma_eq,
    mul_zero, zero_mul] at e
  ring_nf at e
  norm_num at e

/-! ### C199: the inviscid solution -/

/-- Specification: the flux of the Euler equations, the code's own point function. -/
noncomputable def inviscidFlux {d : ℕ} (q : (Fin d → ℝ) → State d) (j : Fin d) (y : Fin d → ℝ) : State d :=
  calcEulerFlux (Pi.single j 1) (q y)

/-- The divergence of the Euler flux of a field given by density, velocity and temperature. -/
theorem euler_div {d : ℕ} {r : (Fin d → ℝ) → ℝ} {U : Fin d → (Fin d → ℝ) → ℝ} {T : (Fin d → ℝ) → ℝ}
    {R : Fin d → ℝ} {G : Fin d → Fin d → ℝ} {Tg : Fin d → ℝ} {x : Fin d → ℝ} (hr : ∀ y, r y ≠ 0)
    (dr : ∀ j, HasPd r (R j) x j) (dU : ∀ k j, HasPd (U k) (G k j) x j) (dT : ∀ j, HasPd T (Tg j) x j) :
    HasDiv (inviscidFlux (fun y => prim (r y) (fun k => U k y) (T y))) x
      ⟨∑ j, (R j * U j x + r x * G j j),
       fun i => ∑ j, ((R j * U i x + r x * G i j) * U j x + r x * U i x * G j j +
         (if i = j then R j * T x + r x * Tg j else 0)),
       ∑ j, ((R j * (7 / 2 * T x + 1 / 2 * ∑ i, U i x ^ 2) +
           r x * (7 / 2 * Tg j + 1 / 2 * ∑ i, 2 * U i x * G i j)) * U j x +
         r x * (7 / 2 * T x + 1 / 2 * ∑ i, U i x ^ 2) * G j j)⟩ := by
  have ue : ∀ j, Function.update x j (x j) = x := fun j => Function.update_eq_self j x
  have hF : ∀ j y, inviscidFlux (fun y => prim (r y) (fun k => U k y) (T y)) j y = _ :=
    fun j y => prim_euler (hr y) (fun k => U k y) (T y) j
  refine ⟨⟨_, fun j => ?_, rfl⟩, fun i => ⟨_, fun j => ?_, rfl⟩, ⟨_, fun j => ?_, rfl⟩⟩
  · unfold HasPd
    simp only [hF]
    refine ((dr j).fun_mul (dU j j)).congr_deriv ?_
    simp only [ue]
  · unfold HasPd
    simp only [hF]
    refine HasDerivAt.fun_add (((dr j).fun_mul (dU i j)).fun_mul (dU j j) |>.congr_deriv ?_) ?_
    · simp only [ue]
    · by_cases e : i = j
      · simp only [e, if_true]
        refine ((dr j).fun_mul (dT j)).congr_deriv ?_
        simp only [ue]
      · simp only [e, if_false]; exact hasDerivAt_const _ _
  · unfold HasPd
    simp only [hF]
    have hs : HasDerivAt (fun t => ∑ i, U i (Function.update x j t) ^ 2)
        (∑ i, 2 * U i x * G i j) (x j) := by
      refine HasDerivAt.fun_sum fun i _ => ((dU i j).fun_pow 2).congr_deriv ?_
      simp only [ue]; norm_num
    refine (((dr j).fun_mul (((dT j).const_mul (7 / 2)).fun_add (hs.const_mul (1 / 2)))).fun_mul
      (dU j j)).congr_deriv ?_
    simp only [ue]

/-- Specification: the solution the inviscid source belongs to: as the code's exact solution, with `sin²(πx)`,
`sin²(2πx)` in place of `sin(πx²)`, `sin(2πx²)`. -/
noncomputable def inviscidMeant (y : Fin 3 → ℝ) : State 3 :=
  let rho := 1 + 1 / 10 * sin (π * y 0) ^ 2 * sin (π * y 1)
  let u := 4 * (1 / 10) * y 1 * (1 - y 1) + 1 / 10 * sin (2 * π * y 1) * sin (π * y 0) ^ 2
  let v := -(1 / 10) * sin (2 * π * y 0) ^ 2 * sin (π * y 1)
  let T := 1 + 1 / 10 * (y 0 ^ 4 - 2 * y 0 ^ 3 + y 0 ^ 2 + y 1 ^ 4 - 2 * y 1 ^ 3 + y 1 ^ 2)
  prim rho ![u, v, 0] T

/-- The first two coordinates. -/
def pr (y : Fin 3 → ℝ) : Fin 2 → ℝ := ![y 0, y 1]

theorem pr0 (x : Fin 3 → ℝ) (t : ℝ) : pr (Function.update x 0 t) = Function.update (pr x) 0 t := by
  funext k; fin_cases k <;> simp [pr]
theorem pr1 (x : Fin 3 → ℝ) (t : ℝ) : pr (Function.update x 1 t) = Function.update (pr x) 1 t := by
  funext k; fin_cases k <;> simp [pr]
theorem pr2 (x : Fin 3 → ℝ) (t : ℝ) : pr (Function.update x 2 t) = pr x := by
  funext k; fin_cases k <;> simp [pr]

theorem lift_pd {f : (Fin 2 → ℝ) → ℝ} {a b : ℝ} (x : Fin 3 → ℝ) (h0 : HasPd f a (pr x) 0)
    (h1 : HasPd f b (pr x) 1) (j : Fin 3) : HasPd (fun y => f (pr y)) (![a, b, 0] j) x j := by
  unfold HasPd at *
  fin_cases j
  · simp only [Fin.zero_eta, pr0]; exact h0
  · simp only [Fin.mk_one, pr1]; exact h1
  · simp only [Fin.reduceFinMk, pr2]; exact hasDerivAt_const _ _

/-- Velocity of the solution meant. -/
noncomputable def Ui (k : Fin 3) (y : Fin 3 → ℝ) : ℝ :=
  ![U2 (1 / 10) (4 / 10) 0 (pr y), U2 (1 / 10) (4 / 10) 1 (pr y), 0] k

theorem meant_prim (y : Fin 3 → ℝ) :
    inviscidMeant y = prim (r2 (1 / 10) (pr y)) (fun k => Ui k y) (T2 (1 / 10) (pr y)) := by
  unfold inviscidMeant
  have e0 : pr y 0 = y 0 := rfl
  have e1 : pr y 1 = y 1 := rfl
  simp only [sin2]
  congr 1
  · unfold r2; simp only [e0, e1]; ring
  · funext k
    fin_cases k
    · simp [Ui, U2, e0, e1]; ring
    · simp [Ui, U2, e0, e1]; ring
    · simp [Ui]
  · unfold T2; simp only [e0, e1]; ring

/-- Derivatives of the density. -/
noncomputable def Ri (x : Fin 3 → ℝ) : Fin 3 → ℝ := ![R2 (1 / 10) 0 (pr x), R2 (1 / 10) 1 (pr x), 0]
/-- Derivatives of the velocity. -/
noncomputable def Gi (x : Fin 3 → ℝ) : Fin 3 → Fin 3 → ℝ :=
  ![![G2 (1 / 10) (4 / 10) 0 0 (pr x), G2 (1 / 10) (4 / 10) 0 1 (pr x), 0],
    ![G2 (1 / 10) (4 / 10) 1 0 (pr x), G2 (1 / 10) (4 / 10) 1 1 (pr x), 0], ![0, 0, 0]]
/-- Derivatives of the temperature. -/
noncomputable def Ti (x : Fin 3 → ℝ) : Fin 3 → ℝ := ![Tg2 (1 / 10) 0 (pr x), Tg2 (1 / 10) 1 (pr x), 0]

/-- The divergence for the inviscid solution meant. -/
noncomputable def divSi (x : Fin 3 → ℝ) : State 3 :=
  ⟨∑ j, (Ri x j * Ui j x + r2 (1 / 10) (pr x) * Gi x j j),
   fun i => ∑ j, ((Ri x j * Ui i x + r2 (1 / 10) (pr x) * Gi x i j) * Ui j x + r2 (1 / 10) (pr x) * Ui i x * Gi x j j +
     (if i = j then Ri x j * T2 (1 / 10) (pr x) + r2 (1 / 10) (pr x) * Ti x j else 0)),
   ∑ j, ((Ri x j * (7 / 2 * T2 (1 / 10) (pr x) + 1 / 2 * ∑ i, Ui i x ^ 2) +
       r2 (1 / 10) (pr x) * (7 / 2 * Ti x j + 1 / 2 * ∑ i, 2 * Ui i x * Gi x i j)) * Ui j x +
     r2 (1 / 10) (pr x) * (7 / 2 * T2 (1 / 10) (pr x) + 1 / 2 * ∑ i, Ui i x ^ 2) * Gi x j j)⟩

theorem meant_div (x : Fin 3 → ℝ) : HasDiv (inviscidFlux inviscidMeant) x (divSi x) := by
  have e : inviscidMeant = fun y => prim (r2 (1 / 10) (pr y)) (fun k => Ui k y) (T2 (1 / 10) (pr y)) := by
    funext y; exact meant_prim y
  rw [e]
  have h := prims2 (1 / 10) (4 / 10) (by norm_num) (by norm_num) (pr x)
  refine euler_div (r := fun y => r2 (1 / 10) (pr y)) (U := Ui) (T := fun y => T2 (1 / 10) (pr y))
    (R := Ri x) (G := Gi x) (Tg := Ti x)
    (fun y => (h.pos (pr y)).ne') (lift_pd x (h.dr _ 0) (h.dr _ 1)) ?_ (lift_pd x (h.dT _ 0) (h.dT _ 1))
  intro k
  fin_cases k
  · exact lift_pd x (h.dU _ 0 0) (h.dU _ 0 1)
  · exact lift_pd x (h.dU _ 1 0) (h.dU _ 1 1)
  · intro j
    have : Gi x 2 j = 0 := by fin_cases j <;> rfl
    show HasPd (Ui 2) (Gi x 2 j) x j
    rw [this]
    exact hasDerivAt_const _ _

/-- At every point, the three-dimensional inviscid source is the divergence of the Euler flux of the solution with
squared sines.  Missing: it is not the divergence for the exact solution in the code
(`C199_inviscid3_false`). -/
theorem C199_inviscid3_partial (junk : ℕ → ℝ) (x : Fin 3 → ℝ) :
    HasDiv (inviscidFlux inviscidMeant) x (inviscidSrc3 (arr x junk)) := by
  refine (meant_div x).congr ?_
  have e0 : arr x junk 0 = x 0 := rfl
  have e1 : arr x junk 1 = x 1 := rfl
  have p0 : pr x 0 = x 0 := rfl
  have p1 : pr x 1 = x 1 := rfl
  ext i
  · simp only [divSi, Ri, Gi, Ti, inviscidSrc3, inviscidSrc3_0, e0, e1, p0, p1, Fin.sum_univ_three, R2, Ui, U2, r2, G2, if_true,
      one_ne_zero, if_false, pow, Matrix.cons_val, zero_add, add_zero, div_one, sin2]
    ring
  · fin_cases i
    · simp only [divSi, Ri, Gi, Ti, inviscidSrc3, inviscidSrc3_1, e0, e1, p0, p1, Fin.sum_univ_three, R2, Ui, U2, r2, G2, T2, Tg2, if_true,
        one_ne_zero, zero_ne_one, if_false, pow, Matrix.cons_val, zero_add, add_zero, div_one, sin2, cos2,
        Fin.zero_eta, Fin.isValue, Fin.reduceEq]
      ring
    · simp only [divSi, Ri, Gi, Ti, inviscidSrc3, inviscidSrc3_2, e0, e1, p0, p1, Fin.sum_univ_three, R2, Ui, U2, r2, G2, T2, Tg2, if_true,
        one_ne_zero, zero_ne_one, if_false, pow, Matrix.cons_val, zero_add, add_zero, div_one, sin2, cos2,
        Fin.mk_one, Fin.isValue, Fin.reduceEq]
      ring
    · simp [divSi, Ri, Gi, Ti, inviscidSrc3, inviscidSrc3_3, Fin.sum_univ_three, Ui]
  · simp only [divSi, Ri, Gi, Ti, inviscidSrc3, inviscidSrc3_4, e0, e1, p0, p1, Fin.sum_univ_three, R2, Ui, U2, r2, G2, T2, Tg2, if_true,
        one_ne_zero, zero_ne_one, if_false, pow, Matrix.cons_val, zero_add, add_zero, div_one, sin2, cos2,
        Fin.isValue, Fin.reduceEq, gamma_eq]
    ring

/-- The three-dimensional inviscid source is not the divergence of the Euler flux of the exact solution in the code,
which has the square inside the sine. -/
theorem C199_inviscid3_false (junk junk' : ℕ → ℝ) :
    ¬ ∀ x : Fin 3 → ℝ, HasDiv (inviscidFlux (fun y => inviscidExact3 (arr y junk))) x
      (inviscidSrc3 (arr x junk')) := by
  intro h
  obtain ⟨D, hD, hs⟩ := (h ![1, 1 / 2, 0]).1
  have hm : ∀ j y, (inviscidFlux (fun y => inviscidExact3 (arr y junk)) j y).rho =
      (inviscidExact3 (arr y junk)).mom j := by
    intro j y
    unfold inviscidFlux calcEulerFlux dot
    simp [Pi.single_apply]
  simp only [hm] at hD
  have a0 : ∀ y : Fin 3 → ℝ, arr y junk 0 = y 0 := fun _ => rfl
  have a1 : ∀ y : Fin 3 → ℝ, arr y junk 1 = y 1 := fun _ => rfl
  have b0 : arr (![1, 1 / 2, 0] : Fin 3 → ℝ) junk' 0 = 1 := rfl
  have b1 : arr (![1, 1 / 2, 0] : Fin 3 → ℝ) junk' 1 = 1 / 2 := rfl
  have hs0 : (inviscidSrc3 (arr (![1, 1 / 2, 0] : Fin 3 → ℝ) junk')).rho = 0 := by
    simp only [inviscidSrc3, inviscidSrc3_0, b0, b1, pow, zero_add, div_one, mul_one, sin_pi, sin_two_pi]
    ring
  -- the sine of the square and its derivative at 1
  have hsq : HasDerivAt (fun t : ℝ => sin (π * t ^ 2)) (-(2 * π)) 1 := by
    refine ((hasDerivAt_pow 2 (1 : ℝ)).const_mul π).sin.congr_deriv ?_
    norm_num; ring
  have hpi : sin (π * (1 / 2)) = 1 := by rw [show π * (1 / 2) = π / 2 by ring, sin_pi_div_two]
  have hpi2 : sin (2 * π * (1 / 2)) = 0 := by rw [show 2 * π * (1 / 2) = π by ring, sin_pi]
  have h0 : HasPd (fun y => (inviscidExact3 (arr y junk)).mom 0) (-(π / 50)) ![1, 1 / 2, 0] 0 := by
    refine HasPd.of_upd (g := fun t => (4 * (1 / 10) * (1 / 2) * (1 - 1 / 2) + 1 / 10 * 0 * sin (π * t ^ 2)) *
      (1 + 1 / 10 * sin (π * t ^ 2) * 1)) ?_ ?_
    · have := (((hsq.const_mul (1 / 10 * 0)).const_add (4 * (1 / 10) * (1 / 2) * (1 - 1 / 2 : ℝ)))).fun_mul
        (((hsq.const_mul (1 / 10)).mul_const 1).const_add 1)
      refine this.congr_deriv ?_
      norm_num; ring
    · intro t
      simp only [inviscidExact3, finish, a0, a1, upd3]
      norm_num [hpi, hpi2]
  have h1 : HasPd (fun y => (inviscidExact3 (arr y junk)).mom 1) 0 ![1, 1 / 2, 0] 1 := by
    refine HasPd.of_upd (g := fun _ => 0) (hasDerivAt_const _ _) ?_
    intro t
    simp only [inviscidExact3, finish, a0, a1, upd3]
    norm_num [sin_two_pi]
  have h2 : HasPd (fun y => (inviscidExact3 (arr y junk)).mom 2) 0 ![1, 1 / 2, 0] 2 := by
    refine HasPd.of_upd (g := fun _ => 0) (hasDerivAt_const _ _) ?_
    intro t
    simp [inviscidExact3, finish]
  rw [Fin.sum_univ_three, (hD 0).unique h0, (hD 1).unique h1, (hD 2).unique h2, hs0] at hs
  have := pi_pos
  linarith

/-- In two dimensions the inviscid source is zero and the exact solution is the vacuum: there is no manufactured
solution. -/
theorem C199_inviscid2_false (x : ℕ → ℝ) : ¬ Admissible (inviscidExactDefault x : State 2) ∧
    (inviscidSrcDefault x : State 2) = ⟨0, fun _ => 0, 0⟩ := by
  refine ⟨fun h => ?_, rfl⟩
  exact lt_irrefl _ h.1

/-! ### C200: the integrator -/

/-- The integrator adds the source at the nodes, times minus the quadrature weight, to the residual, whatever the
state. -/
theorem C200_vector {P : Type*} (src : P → ℕ → ℝ) (W w : ℕ → ℝ) (X : ℕ → P) (elfun : ℕ → ℕ → ℝ) (i n : ℕ) :
    mmsVector (-1) src W w X elfun i n = -(w i * W i * src (X i) n) := by
  unfold mmsVector; ring

/-- Tested with a field, the contribution is minus the quadrature of the field times the source; with the field 1 in one
equation, minus the quadrature of that source component. -/
theorem C200_quadrature {P : Type*} (N S : ℕ) (src : P → ℕ → ℝ) (W w : ℕ → ℝ) (X : ℕ → P) (elfun phi : ℕ → ℕ → ℝ) :
    ∑ i ∈ Finset.range N, ∑ n ∈ Finset.range S, phi i n * mmsVector (-1) src W w X elfun i n =
      -∑ i ∈ Finset.range N, w i * W i * ∑ n ∈ Finset.range S, phi i n * src (X i) n := by
  rw [← Finset.sum_neg_distrib]
  refine Finset.sum_congr rfl fun i _ => ?_
  rw [Finset.mul_sum, ← Finset.sum_neg_distrib]
  exact Finset.sum_congr rfl fun n _ => by rw [C200_vector]; ring

/-- The assembled element matrix is the derivative of the element vector with respect to every entry of the state. -/
theorem C200_jacobian {P : Type*} (alpha : ℝ) (src : P → ℕ → ℝ) (W w : ℕ → ℝ) (X : ℕ → P) (elfun : ℕ → ℕ → ℝ)
    (i n k l : ℕ) :
    HasDerivAt (fun t => mmsVector alpha src W w X
      (Function.update elfun k (Function.update (elfun k) l t)) i n) (mmsGrad elfun i n k l) (elfun k l) :=
  hasDerivAt_const _ _

/-- Non-vacuity: a source that does not vanish. -/
example : (viscousSrc2 1 1 (fun _ => 0)).mom 0 = 4 := by
  simp [viscousSrc2, viscousSrc2_1, pow]

end Verif.Mms
