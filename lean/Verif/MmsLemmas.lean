import Verif.Mms
import Verif.ViscousProps

/-!
Specification of the divergence of a flux, and the divergence of the Navier–Stokes flux of a field given by its
density, velocity and temperature.  Lemmas of the manufactured-solution properties C197-C200.
-/

namespace Verif.Mms
open Verif.EulerFluxes Verif.Viscous Finset

variable {d : ℕ}

/-- Specification: `c` is the partial derivative of `f` at `x` in direction `j`. -/
def HasPd (f : (Fin d → ℝ) → ℝ) (c : ℝ) (x : Fin d → ℝ) (j : Fin d) : Prop :=
  HasDerivAt (fun t => f (Function.update x j t)) c (x j)

/-- Specification: `s` is the divergence at `x` of the vector field with components `f j`. -/
def HasDiv1 (f : Fin d → (Fin d → ℝ) → ℝ) (x : Fin d → ℝ) (s : ℝ) : Prop :=
  ∃ D : Fin d → ℝ, (∀ j, HasPd (f j) (D j) x j) ∧ ∑ j, D j = s

/-- Specification: `s` is the divergence at `x` of the flux `F` (`F j y` is the flux through a unit area facing
direction `j` at the point `y`), equation by equation. -/
def HasDiv (F : Fin d → (Fin d → ℝ) → State d) (x : Fin d → ℝ) (s : State d) : Prop :=
  HasDiv1 (fun j y => (F j y).rho) x s.rho ∧ (∀ k, HasDiv1 (fun j y => (F j y).mom k) x (s.mom k)) ∧
    HasDiv1 (fun j y => (F j y).ener) x s.ener

theorem HasPd.unique {f : (Fin d → ℝ) → ℝ} {a b : ℝ} {x : Fin d → ℝ} {j : Fin d} (h : HasPd f a x j)
    (h' : HasPd f b x j) : a = b := HasDerivAt.unique h h'

theorem HasDiv1.unique {f : Fin d → (Fin d → ℝ) → ℝ} {a b : ℝ} {x : Fin d → ℝ} (h : HasDiv1 f x a)
    (h' : HasDiv1 f x b) : a = b := by
  obtain ⟨D, h1, rfl⟩ := h
  obtain ⟨D', h1', rfl⟩ := h'
  exact sum_congr rfl fun j _ => (h1 j).unique (h1' j)

/-- The divergence is unique. -/
theorem HasDiv.unique {F : Fin d → (Fin d → ℝ) → State d} {a b : State d} {x : Fin d → ℝ} (h : HasDiv F x a)
    (h' : HasDiv F x b) : a = b := by
  ext
  · exact h.1.unique h'.1
  · exact (h.2.1 _).unique (h'.2.1 _)
  · exact h.2.2.unique h'.2.2

/-- Specification: the flux the flow solver discretises, Euler flux minus viscous flux, of a flow field with
viscosity `mu` and Prandtl number `Pr`: the code's own point functions, the second applied to the gradient of the
entropy variables of the field. -/
noncomputable def flowFlux (mu Pr : ℝ) (q : (Fin d → ℝ) → State d) (j : Fin d) (y : Fin d → ℝ) : State d :=
  subS (calcEulerFlux (Pi.single j 1) (q y)) (viscousScaling j mu Pr (q y) (gradW q y))

/-- Specification: the flow field of density `r`, velocity `U`, temperature `T` (`p = ρ T`, `γ = 7/5`). -/
noncomputable def prim (r : ℝ) (U : Fin d → ℝ) (T : ℝ) : State d :=
  ⟨r, fun i => r * U i, 5 / 2 * (r * T) + 1 / 2 * r * ∑ i, U i ^ 2⟩

theorem finish_eq (r : ℝ) (U : Fin d → ℝ) (T : ℝ) : finish r U T = prim r U T := by
  unfold finish prim
  rw [gami_eq]
  ext
  · rfl
  · exact mul_comm _ _
  · simp only [pow_two]; ring

theorem prim_pressure {r : ℝ} (hr : r ≠ 0) (U : Fin d → ℝ) (T : ℝ) : pressure (prim r U T) = r * T := by
  unfold pressure prim dot
  rw [gami_eq]
  have : ∑ i, r * U i * (r * U i) = r ^ 2 * ∑ i, U i ^ 2 := by
    rw [mul_sum]; exact sum_congr rfl fun i _ => by ring
  simp only [this]
  field_simp
  ring

theorem prim_vel {r : ℝ} (hr : r ≠ 0) (U : Fin d → ℝ) (T : ℝ) (k : Fin d) : vel (prim r U T) k = U k := by
  unfold vel prim; field_simp

theorem prim_temp {r : ℝ} (hr : r ≠ 0) (U : Fin d → ℝ) (T : ℝ) : temp (prim r U T) = T := by
  unfold temp; rw [← pressure_spec, prim_pressure hr]; unfold prim; field_simp

theorem prim_adm {r T : ℝ} (hr : 0 < r) (hT : 0 < T) (U : Fin d → ℝ) : Admissible (prim r U T) := by
  rw [admissible_iff, prim_pressure hr.ne']
  exact ⟨hr, mul_pos hr hT⟩

theorem prim_euler {r : ℝ} (hr : r ≠ 0) (U : Fin d → ℝ) (T : ℝ) (j : Fin d) :
    calcEulerFlux (Pi.single j 1) (prim r U T) =
      ⟨r * U j, fun i => r * U i * U j + if i = j then r * T else 0,
        r * (7 / 2 * T + 1 / 2 * ∑ i, U i ^ 2) * U j⟩ := by
  unfold calcEulerFlux
  have e : dot (prim r U T).mom (Pi.single j 1) = r * U j := by
    unfold dot prim
    rw [sum_eq_single j]
    · simp
    · intro b _ hb; simp [hb]
    · intro h; exact absurd (mem_univ _) h
  simp only [e, prim_pressure hr]
  ext i
  · rfl
  · simp only [prim, Pi.single_apply]
    by_cases h : i = j
    · simp only [h, if_true]; field_simp
    · simp only [h, if_false]; field_simp; ring
  · simp only [prim]; field_simp; ring

/-- Fields given by density, velocity and temperature together with their partial derivatives: `R j = ∂_j ρ`,
`G k j = ∂_j U_k`, `Tg j = ∂_j T` everywhere; at the point `x`, `H k j l = ∂_l ∂_j U_k` and `Th j = ∂_j ∂_j T`. -/
structure Prims (r : (Fin d → ℝ) → ℝ) (U : Fin d → (Fin d → ℝ) → ℝ) (T : (Fin d → ℝ) → ℝ)
    (R : Fin d → (Fin d → ℝ) → ℝ) (G : Fin d → Fin d → (Fin d → ℝ) → ℝ) (Tg : Fin d → (Fin d → ℝ) → ℝ)
    (x : Fin d → ℝ) (H : Fin d → Fin d → Fin d → ℝ) (Th : Fin d → ℝ) : Prop where
  pos : ∀ y, 0 < r y
  tpos : ∀ y, 0 < T y
  dr : ∀ y j, HasPd r (R j y) y j
  dU : ∀ y k j, HasPd (U k) (G k j y) y j
  dT : ∀ y j, HasPd T (Tg j y) y j
  dG : ∀ k j l, HasPd (G k j) (H k j l) x l
  dTg : ∀ j, HasPd (Tg j) (Th j) x j

variable {r : (Fin d → ℝ) → ℝ} {U : Fin d → (Fin d → ℝ) → ℝ} {T : (Fin d → ℝ) → ℝ}
    {R : Fin d → (Fin d → ℝ) → ℝ} {G : Fin d → Fin d → (Fin d → ℝ) → ℝ} {Tg : Fin d → (Fin d → ℝ) → ℝ}
    {x : Fin d → ℝ} {H : Fin d → Fin d → Fin d → ℝ} {Th : Fin d → ℝ}

/-- The stress in terms of a velocity gradient. -/
noncomputable def tau (mu : ℝ) (G : Fin d → Fin d → ℝ) (j k : Fin d) : ℝ :=
  mu * (G k j + G j k - if j = k then 2 / 3 * ∑ i, G i i else 0)

theorem Prims.flux (h : Prims r U T R G Tg x H Th) (mu Pr : ℝ) (j : Fin d) (y : Fin d → ℝ) :
    flowFlux mu Pr (fun y => prim (r y) (fun k => U k y) (T y)) j y =
      ⟨r y * U j y,
       fun i => (r y * U i y * U j y + if i = j then r y * T y else 0) - tau mu (fun k l => G k l y) j i,
       r y * (7 / 2 * T y + 1 / 2 * ∑ i, U i y ^ 2) * U j y
         - ((∑ k, U k y * tau mu (fun k l => G k l y) j k) + 7 / 2 * mu / Pr * Tg j y)⟩ := by
  have hr := fun y => (h.pos y).ne'
  unfold flowFlux
  have hd : Viscous.Diff (fun y => prim (r y) (fun k => U k y) (T y)) y := by
    intro l
    have dr := (h.dr y l).differentiableAt
    have dU := fun k => (h.dU y k l).differentiableAt
    have dT := (h.dT y l).differentiableAt
    refine ⟨dr, fun k => dr.mul (dU k), ?_⟩
    unfold prim
    exact ((dr.mul dT).const_mul _).add ((dr.const_mul _).mul (DifferentiableAt.fun_sum fun k _ =>
      (dU k).pow 2))
  rw [C103_navier_stokes_flux mu Pr _ y hd (prim_adm (h.pos y) (h.tpos y) _), prim_euler (hr y)]
  have ev : ∀ k, (fun y => vel (prim (r y) (fun k => U k y) (T y)) k) = U k := fun k => by
    funext y; exact prim_vel (hr y) _ _ k
  have et : (fun y => temp (prim (r y) (fun k => U k y) (T y))) = T := by
    funext y; exact prim_temp (hr y) _ _
  have eg : ∀ k l, pd (U k) y l = G k l y := fun k l => (h.dU y k l).deriv
  have es : ∀ i k, stress mu (fun y => prim (r y) (fun k => U k y) (T y)) y i k =
      tau mu (fun k l => G k l y) i k := by
    intro i k
    unfold stress tau
    simp only [ev, eg]
  unfold nsFlux subS State.map2
  simp only [es, et, prim_vel (hr y)]
  have : pd T y j = Tg j y := (h.dT y j).deriv
  rw [this]
  ext <;> simp

/-- The divergence of the flow flux of a field given by density, velocity and temperature. -/
theorem Prims.div (h : Prims r U T R G Tg x H Th) (mu Pr : ℝ) :
    HasDiv (flowFlux mu Pr (fun y => prim (r y) (fun k => U k y) (T y))) x
      ⟨∑ j, (R j x * U j x + r x * G j j x),
       fun i => ∑ j, ((R j x * U i x + r x * G i j x) * U j x + r x * U i x * G j j x +
         (if i = j then R j x * T x + r x * Tg j x else 0) - tau mu (fun k l => H k l j) j i),
       ∑ j, ((R j x * (7 / 2 * T x + 1 / 2 * ∑ i, U i x ^ 2) +
           r x * (7 / 2 * Tg j x + 1 / 2 * ∑ i, 2 * U i x * G i j x)) * U j x +
         r x * (7 / 2 * T x + 1 / 2 * ∑ i, U i x ^ 2) * G j j x
         - ((∑ k, (G k j x * tau mu (fun k l => G k l x) j k + U k x * tau mu (fun k l => H k l j) j k)) +
           7 / 2 * mu / Pr * Th j))⟩ := by
  have ue : ∀ j, Function.update x j (x j) = x := fun j => Function.update_eq_self j x
  have dr := fun j => h.dr x j
  have dU := fun k j => h.dU x k j
  have dT := fun j => h.dT x j
  have dtau : ∀ j k, HasDerivAt (fun t => tau mu (fun k l => G k l (Function.update x j t)) j k)
      (tau mu (fun k l => H k l j) j k) (x j) := by
    intro j k
    unfold tau
    refine HasDerivAt.const_mul _ (((h.dG k j j).add (h.dG j k j)).sub ?_)
    by_cases e : j = k
    · simp only [e, if_true]
      exact HasDerivAt.const_mul _ (HasDerivAt.fun_sum fun i _ => h.dG i i k)
    · simp only [e, if_false]; exact hasDerivAt_const _ _
  have hF : ∀ j y, flowFlux mu Pr (fun y => prim (r y) (fun k => U k y) (T y)) j y = _ :=
    fun j y => h.flux mu Pr j y
  refine ⟨⟨_, fun j => ?_, rfl⟩, fun i => ⟨_, fun j => ?_, rfl⟩, ⟨_, fun j => ?_, rfl⟩⟩
  · unfold HasPd
    simp only [hF]
    refine ((dr j).fun_mul (dU j j)).congr_deriv ?_
    simp only [ue]
  · unfold HasPd
    simp only [hF]
    refine HasDerivAt.fun_sub ?_ (dtau j i)
    refine HasDerivAt.fun_add (((dr j).fun_mul (dU i j)).fun_mul (dU j j) |>.congr_deriv ?_) ?_
    · simp only [ue]
    · by_cases e : i = j
      · simp only [e, if_true]
        refine ((dr j).fun_mul (dT j)).congr_deriv ?_
        simp only [ue]
      · simp only [e, if_false]; exact hasDerivAt_const _ _
  · unfold HasPd
    simp only [hF]
    refine HasDerivAt.fun_sub ?_ (HasDerivAt.fun_add (HasDerivAt.fun_sum fun k _ => ?_)
      (HasDerivAt.const_mul _ (h.dTg j)))
    · have hs : HasDerivAt (fun t => ∑ i, U i (Function.update x j t) ^ 2)
          (∑ i, 2 * U i x * G i j x) (x j) := by
        refine HasDerivAt.fun_sum fun i _ => ((dU i j).fun_pow 2).congr_deriv ?_
        simp only [ue]; norm_num
      refine (((dr j).fun_mul (((dT j).const_mul (7 / 2)).fun_add (hs.const_mul (1 / 2)))).fun_mul
        (dU j j)).congr_deriv ?_
      simp only [ue]
    · refine ((dU k j).fun_mul (dtau j k)).congr_deriv ?_
      simp only [ue]

/-- Two of a field's coordinates after changing one. -/
theorem upd_same (x : Fin d → ℝ) (j : Fin d) (t : ℝ) : Function.update x j t j = t := Function.update_self ..

theorem upd_ne (x : Fin d → ℝ) {i j : Fin d} (h : i ≠ j) (t : ℝ) : Function.update x j t i = x i :=
  Function.update_of_ne h ..

end Verif.Mms
