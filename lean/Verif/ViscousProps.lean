import Verif.Viscous
import Verif.EulerStabilityProps
import Mathlib.Analysis.Calculus.Deriv.Pi

/-!
Properties C103 (the viscous flux is the Navier–Stokes flux), C104 (entropy-variable diffusion
matrices are symmetric and dissipative), C105 (Sutherland's law), C106 (adiabatic no-slip wall),
C107 (the remaining viscous boundary fluxes), C108 (surface force).
-/

namespace Verif.Viscous
open Verif.EulerFluxes Finset

variable {d : ℕ}

/-! ### loops over the space dimensions -/

theorem forDim_sum {σ : Type*} (φ : σ → ℝ) (g : Fin d → ℝ) (f : σ → Fin d → σ)
    (h : ∀ s k, φ (f s k) = φ s + g k) (s : σ) : φ (forDim d f s) = φ s + ∑ k, g k := by
  unfold forDim
  have : ∀ (l : List (Fin d)) (s : σ), φ (l.foldl f s) = φ s + (l.map g).sum := by
    intro l
    induction l with
    | nil => intro s; simp
    | cons a t ih => intro s; rw [List.foldl_cons, ih, h, List.map_cons, List.sum_cons]; ring
  rw [this, Fin.sum_univ_def]

theorem state_ext_inner {a b : State d} (h : ∀ v, inner2 v a = inner2 v b) : a = b := by
  have h1 := h ⟨1, fun _ => 0, 0⟩
  have h3 := h ⟨0, fun _ => 0, 1⟩
  simp only [inner2, one_mul, zero_mul, sum_const_zero, add_zero, zero_add] at h1 h3
  ext i
  · exact h1
  · have h2 := h ⟨0, fun j => if j = i then 1 else 0, 0⟩
    simpa [inner2] using h2
  · exact h3

theorem inner2_zeroS (v : State d) : inner2 v zeroS = 0 := by simp [inner2, zeroS]

/-! ### Specification: the velocity, temperature and the viscous bilinear forms -/

/-- Velocity of a state. -/
noncomputable def vel (q : State d) (k : Fin d) : ℝ := q.mom k / q.rho
/-- Temperature `p/ρ` of a state (nondimensional, gas constant 1). -/
noncomputable def temp (q : State d) : ℝ := specP q / q.rho

/-- `v_mom + u v_end`: for the derivative of the entropy variables this is `∂u / T`. -/
noncomputable def red (q v : State d) (k : Fin d) : ℝ := v.mom k + vel q k * v.ener

/-- The bilinear form of the block `C_ij`. -/
noncomputable def Bij (mu Pr : ℝ) (q : State d) (i j : Fin d) (v w : State d) : ℝ :=
  temp q * mu * ((if i = j then ∑ k, red q v k * red q w k else 0) + red q v j * red q w i
      - 2 / 3 * (red q v i * red q w j))
    + if i = j then temp q ^ 2 * (7 / 2) * mu / Pr * (v.ener * w.ener) else 0

theorem sum_update_mul (v m : Fin d → ℝ) (i : Fin d) (x : ℝ) :
    ∑ k, v k * Function.update m i (m i + x) k = (∑ k, v k * m k) + v i * x := by
  have : ∀ k, v k * Function.update m i (m i + x) k = v k * m k + if k = i then v i * x else 0 := by
    intro k
    by_cases hk : k = i
    · subst hk; simp; ring
    · simp [hk]
  rw [sum_congr rfl fun k _ => this k, sum_add_distrib]; simp

theorem inner2_addCij (i j : Fin d) (mu Pr : ℝ) (q v w mv : State d) :
    inner2 v (addCij i j mu Pr q w mv) = inner2 v mv + Bij mu Pr q i j v w := by
  unfold addCij Bij red vel temp
  rw [← pressure_spec]
  by_cases h : i = j
  · subst h
    simp only [if_true, inner2]
    rw [sum_update_mul]
    have e1 : ∑ k, v.mom k * (mv.mom k + pressure q / q.rho * mu *
          (w.mom k + q.mom k / q.rho * w.ener)) =
        (∑ k, v.mom k * mv.mom k) + pressure q / q.rho * mu *
          ∑ k, v.mom k * (w.mom k + q.mom k / q.rho * w.ener) := by
      rw [mul_sum, ← sum_add_distrib]; exact sum_congr rfl fun k _ => by ring
    have e2 : ∑ k, pressure q / q.rho * mu * (q.mom k / q.rho) *
          (w.mom k + q.mom k / q.rho * w.ener) = pressure q / q.rho * mu *
          ∑ k, (q.mom k / q.rho) * (w.mom k + q.mom k / q.rho * w.ener) := by
      rw [mul_sum]; exact sum_congr rfl fun k _ => by ring
    have e3 : ∑ k, (v.mom k + q.mom k / q.rho * v.ener) * (w.mom k + q.mom k / q.rho * w.ener) =
        (∑ k, v.mom k * (w.mom k + q.mom k / q.rho * w.ener)) +
          v.ener * ∑ k, (q.mom k / q.rho) * (w.mom k + q.mom k / q.rho * w.ener) := by
      rw [mul_sum, ← sum_add_distrib]; exact sum_congr rfl fun k _ => by ring
    rw [e1, e2, e3, gamma_eq, gami_eq]
    have : (pressure q / q.rho * (pressure q / q.rho) * (7 / 5) * mu / (2 / 5 * Pr)) =
        (pressure q / q.rho) ^ 2 * (7 / 2) * mu / Pr := by
      rcases eq_or_ne Pr 0 with hP | hP
      · simp [hP]
      · field_simp
    rw [this]
    generalize (∑ k, v.mom k * (w.mom k + q.mom k / q.rho * w.ener)) = A
    generalize (∑ k, (q.mom k / q.rho) * (w.mom k + q.mom k / q.rho * w.ener)) = B
    ring
  · simp only [h, if_false, inner2]
    have e0 : mv.mom i - 2 * (pressure q / q.rho * mu) * (w.mom j + q.mom j / q.rho * w.ener) / 3 =
        mv.mom i + -(2 * (pressure q / q.rho * mu) * (w.mom j + q.mom j / q.rho * w.ener) / 3) := by
      ring
    rw [e0, sum_update_mul, sum_update_mul]
    ring

/-! ### C104: symmetry and dissipation -/

theorem Bij_symm (mu Pr : ℝ) (q : State d) (i j : Fin d) (v w : State d) :
    Bij mu Pr q i j v w = Bij mu Pr q j i w v := by
  unfold Bij
  by_cases h : i = j
  · subst h
    simp only [if_true]
    rw [sum_congr rfl fun k _ => mul_comm (red q v k) (red q w k)]; ring
  · simp only [h, Ne.symm h, if_false]; ring

/-- The blocks returned by `applyCijMatrix` satisfy `C_ijᵀ = C_ji`. -/
theorem C104_blocks_symmetric (i j : Fin d) (mu Pr : ℝ) (q v w : State d) :
    inner2 v (addCij i j mu Pr q w zeroS) = inner2 w (addCij j i mu Pr q v zeroS) := by
  rw [inner2_addCij, inner2_addCij, Bij_symm]
  simp [inner2_zeroS]

theorem inner2_viscousScaling (i : Fin d) (mu Pr : ℝ) (q v : State d) (Dw : Fin d → State d) :
    inner2 v (viscousScaling i mu Pr q Dw) = ∑ j, Bij mu Pr q i j v (Dw j) := by
  unfold viscousScaling
  rw [forDim_sum (fun s => inner2 v s) (fun j => Bij mu Pr q i j v (Dw j))]
  · rw [inner2_zeroS, zero_add]
  · intro s k; exact inner2_addCij i k mu Pr q v (Dw k) s

/-- The whole diffusion tensor is symmetric. -/
theorem C104_symmetric (mu Pr : ℝ) (q : State d) (Dv Dw : Fin d → State d) :
    ∑ i, inner2 (Dv i) (viscousScaling i mu Pr q Dw) =
      ∑ i, inner2 (Dw i) (viscousScaling i mu Pr q Dv) := by
  simp only [inner2_viscousScaling]
  rw [sum_comm]
  exact sum_congr rfl fun i _ => sum_congr rfl fun j _ => Bij_symm _ _ _ _ _ _ _

/-- Exact value of the dissipation: `μT` times the squared deviatoric strain plus the squared
temperature gradient (all in entropy variables), in every dimension. -/
theorem C104_dissipation (mu Pr : ℝ) (q : State d) (Dw : Fin d → State d) :
    ∑ i, inner2 (Dw i) (viscousScaling i mu Pr q Dw) =
      temp q * mu * (1 / 2 * ∑ i, ∑ j, (red q (Dw i) j + red q (Dw j) i
          - if i = j then 2 / 3 * ∑ k, red q (Dw k) k else 0) ^ 2
        + 2 / 9 * (3 - d) * (∑ k, red q (Dw k) k) ^ 2)
      + temp q ^ 2 * (7 / 2) * mu / Pr * ∑ i, (Dw i).ener ^ 2 := by
  set V : Fin d → Fin d → ℝ := fun i j => red q (Dw i) j with hV
  set t := ∑ k, V k k with ht
  have h1 : ∀ i, inner2 (Dw i) (viscousScaling i mu Pr q Dw) =
      temp q * mu * ((∑ k, V i k * V i k) + (∑ j, V i j * V j i) - 2 / 3 * (V i i * t))
        + temp q ^ 2 * (7 / 2) * mu / Pr * (Dw i).ener ^ 2 := by
    intro i
    rw [inner2_viscousScaling]
    unfold Bij
    rw [sum_add_distrib, ← mul_sum]
    congr 1
    · congr 1
      rw [sum_sub_distrib, sum_add_distrib]
      congr 1
      · congr 1
        simp [hV]
      · rw [ht, mul_sum, mul_sum]
    · simp only [sum_ite_eq, mem_univ, if_true]; ring
  rw [sum_congr rfl fun i _ => h1 i, sum_add_distrib, ← mul_sum, ← mul_sum]
  congr 2
  have h2 : ∀ i, ∑ j, (V i j + V j i - if i = j then 2 / 3 * t else 0) ^ 2 =
      (∑ j, V i j * V i j) + 2 * (∑ j, V i j * V j i) + (∑ j, V j i * V j i)
        - 8 / 3 * (V i i * t) + 4 / 9 * t ^ 2 := by
    intro i
    have : ∀ j, (V i j + V j i - if i = j then 2 / 3 * t else 0) ^ 2 =
        V i j * V i j + 2 * (V i j * V j i) + V j i * V j i
          + if i = j then - (8 / 3 * (V i i * t)) + 4 / 9 * t ^ 2 else 0 := by
      intro j
      by_cases hij : i = j
      · subst hij; simp only [if_true]; ring
      · simp only [hij, if_false]; ring
    rw [sum_congr rfl fun j _ => this j, sum_add_distrib, sum_add_distrib, sum_add_distrib, ← mul_sum]
    simp; ring
  rw [sum_congr rfl fun i _ => h2 i]
  simp only [sum_add_distrib, sum_sub_distrib, ← mul_sum, ← sum_mul, sum_const, card_univ,
    Fintype.card_fin, nsmul_eq_mul]
  have h3 : ∑ i, ∑ j, V j i * V j i = ∑ i, ∑ j, V i j * V i j := sum_comm
  rw [h3, ← ht]
  ring

/-- In one, two and three dimensions the viscous terms never produce entropy: the quadratic form
is nonnegative for every admissible state and every gradient. -/
theorem C104_dissipative (hd : d ≤ 3) (mu Pr : ℝ) (hmu : 0 ≤ mu) (hPr : 0 < Pr) (q : State d)
    (hq : Admissible q) (Dw : Fin d → State d) :
    0 ≤ ∑ i, inner2 (Dw i) (viscousScaling i mu Pr q Dw) := by
  rw [C104_dissipation]
  have hT : 0 < temp q := by
    unfold temp; rw [← pressure_spec]; exact div_pos hq.press_pos hq.rho_pos
  have hd' : (0 : ℝ) ≤ 3 - d := by
    have : (d : ℝ) ≤ 3 := by exact_mod_cast hd
    linarith
  have hS : (0 : ℝ) ≤ ∑ i, ∑ j, (red q (Dw i) j + red q (Dw j) i
          - if i = j then 2 / 3 * ∑ k, red q (Dw k) k else 0) ^ 2 :=
    sum_nonneg fun i _ => sum_nonneg fun j _ => sq_nonneg _
  have hE : (0 : ℝ) ≤ ∑ i, (Dw i).ener ^ 2 := sum_nonneg fun i _ => sq_nonneg _
  positivity

/-- Conversely, for positive viscosity in three dimensions the dissipation vanishes only for
deviatorically strain-free, isothermal gradients. -/
theorem C104_null (hd : d ≤ 3) (mu Pr : ℝ) (hmu : 0 < mu) (hPr : 0 < Pr) (q : State d)
    (hq : Admissible q) (Dw : Fin d → State d)
    (h0 : ∑ i, inner2 (Dw i) (viscousScaling i mu Pr q Dw) = 0) :
    (∀ i j, red q (Dw i) j + red q (Dw j) i = if i = j then 2 / 3 * ∑ k, red q (Dw k) k else 0) ∧
      ∀ i, (Dw i).ener = 0 := by
  rw [C104_dissipation] at h0
  have hT : 0 < temp q := by
    unfold temp; rw [← pressure_spec]; exact div_pos hq.press_pos hq.rho_pos
  have hd' : (0 : ℝ) ≤ 3 - d := by
    have : (d : ℝ) ≤ 3 := by exact_mod_cast hd
    linarith
  have hS : (0 : ℝ) ≤ ∑ i, ∑ j, (red q (Dw i) j + red q (Dw j) i
          - if i = j then 2 / 3 * ∑ k, red q (Dw k) k else 0) ^ 2 :=
    sum_nonneg fun i _ => sum_nonneg fun j _ => sq_nonneg _
  have hE : (0 : ℝ) ≤ ∑ i, (Dw i).ener ^ 2 := sum_nonneg fun i _ => sq_nonneg _
  set S := ∑ i, ∑ j, (red q (Dw i) j + red q (Dw j) i
          - if i = j then 2 / 3 * ∑ k, red q (Dw k) k else 0) ^ 2 with hSdef
  have c1 : 0 < temp q * mu := by positivity
  have c2 : 0 < temp q ^ 2 * (7 / 2) * mu / Pr := by positivity
  have p1 : 0 ≤ 2 / 9 * (3 - (d : ℝ)) * (∑ k, red q (Dw k) k) ^ 2 := by positivity
  have z1 : S = 0 := by nlinarith [mul_nonneg c1.le p1, mul_nonneg c2.le hE, mul_nonneg c1.le hS]
  have z2 : ∑ i, (Dw i).ener ^ 2 = 0 := by
    nlinarith [mul_nonneg c1.le p1, mul_nonneg c2.le hE, mul_nonneg c1.le hS]
  constructor
  · intro i j
    rw [hSdef, sum_eq_zero_iff_of_nonneg fun i _ => sum_nonneg fun j _ => sq_nonneg _] at z1
    have := z1 i (mem_univ _)
    rw [sum_eq_zero_iff_of_nonneg fun j _ => sq_nonneg _] at this
    have := pow_eq_zero_iff (two_ne_zero) |>.1 (this j (mem_univ _))
    linarith
  · intro i
    rw [sum_eq_zero_iff_of_nonneg fun i _ => sq_nonneg _] at z2
    exact pow_eq_zero_iff (two_ne_zero) |>.1 (z2 i (mem_univ _))

/-- Non-vacuity: a genuine gradient (shear) at an admissible state has positive dissipation. -/
example : 0 < ∑ i, inner2 ((fun i => if i = 0 then ⟨0, ![0, 1], 0⟩ else zeroS : Fin 2 → State 2) i)
    (viscousScaling i 1 1 q1 (fun i => if i = 0 then ⟨0, ![0, 1], 0⟩ else zeroS)) := by
  rcases (C104_dissipative (by norm_num : 2 ≤ 3) 1 1 zero_le_one one_pos q1 q1_adm
    (fun i => if i = 0 then ⟨0, ![0, 1], 0⟩ else zeroS)).lt_or_eq with h | h
  · exact h
  · have := (C104_null (by norm_num : 2 ≤ 3) 1 1 one_pos one_pos q1 q1_adm _ h.symm).1 0 1
    simp [red, vel, zeroS] at this

/-! ### C103: the viscous flux is the Navier–Stokes flux -/

/-- Specification: partial derivative of a scalar field along coordinate `j`. -/
noncomputable def pd (f : (Fin d → ℝ) → ℝ) (x : Fin d → ℝ) (j : Fin d) : ℝ :=
  deriv (fun t => f (Function.update x j t)) (x j)

/-- Specification: the Newtonian stress `τ_ik = μ (∂_i u_k + ∂_k u_i - 2/3 δ_ik div u)` of a flow
field. -/
noncomputable def stress (mu : ℝ) (q : (Fin d → ℝ) → State d) (x : Fin d → ℝ) (i k : Fin d) : ℝ :=
  mu * (pd (fun y => vel (q y) k) x i + pd (fun y => vel (q y) i) x k
    - if i = k then 2 / 3 * ∑ j, pd (fun y => vel (q y) j) x j else 0)

/-- Specification: the viscous flux of the compressible Navier–Stokes equations in direction `i`,
with heat conductivity `γ μ / ((γ-1) Pr)`, `γ = 7/5`. -/
noncomputable def nsFlux (mu Pr : ℝ) (q : (Fin d → ℝ) → State d) (x : Fin d → ℝ) (i : Fin d) :
    State d :=
  ⟨0, fun k => stress mu q x i k,
    (∑ k, vel (q x) k * stress mu q x i k) + 7 / 2 * mu / Pr * pd (fun y => temp (q y)) x i⟩

/-- The gradient of the entropy variables of a flow field. -/
noncomputable def gradW (q : (Fin d → ℝ) → State d) (x : Fin d → ℝ) (j : Fin d) : State d :=
  ⟨pd (fun y => (calcEntropyVars (q y)).rho) x j,
   fun k => pd (fun y => (calcEntropyVars (q y)).mom k) x j,
   pd (fun y => (calcEntropyVars (q y)).ener) x j⟩

/-- Specification: the field has partial derivatives at `x`. -/
def Diff (q : (Fin d → ℝ) → State d) (x : Fin d → ℝ) : Prop :=
  ∀ j, DifferentiableAt ℝ (fun t => (q (Function.update x j t)).rho) (x j) ∧
    (∀ k, DifferentiableAt ℝ (fun t => (q (Function.update x j t)).mom k) (x j)) ∧
    DifferentiableAt ℝ (fun t => (q (Function.update x j t)).ener) (x j)

theorem diff_pressure {q : (Fin d → ℝ) → State d} {x : Fin d → ℝ} (h : Diff q x)
    (hr : (q x).rho ≠ 0) (j : Fin d) :
    DifferentiableAt ℝ (fun t => pressure (q (Function.update x j t))) (x j) := by
  obtain ⟨h1, h2, h3⟩ := h j
  unfold pressure dot
  refine DifferentiableAt.const_mul (h3.sub (((DifferentiableAt.fun_sum fun k _ =>
    (h2 k).mul (h2 k)).const_mul _).div h1 ?_)) _
  rwa [Function.update_eq_self]

/-- The two facts about the gradient of the entropy variables. -/
theorem gradW_facts {q : (Fin d → ℝ) → State d} {x : Fin d → ℝ} (h : Diff q x)
    (hq : Admissible (q x)) (j : Fin d) :
    (∀ k, temp (q x) * red (q x) (gradW q x j) k = pd (fun y => vel (q y) k) x j) ∧
      temp (q x) ^ 2 * (gradW q x j).ener = pd (fun y => temp (q y)) x j := by
  have hr := hq.rho_pos.ne'
  have hp := hq.press_pos.ne'
  obtain ⟨h1, h2, h3⟩ := h j
  have d1 := h1.hasDerivAt
  have dp := (diff_pressure h hr j).hasDerivAt
  set r' := deriv (fun t => (q (Function.update x j t)).rho) (x j)
  set p' := deriv (fun t => pressure (q (Function.update x j t))) (x j)
  have ue : Function.update x j (x j) = x := Function.update_eq_self j x
  have hr0 : (q (Function.update x j (x j))).rho ≠ 0 := by rwa [ue]
  have hp0 : pressure (q (Function.update x j (x j))) ≠ 0 := by rwa [ue]
  have we : (gradW q x j).ener =
      -r' * (1 / pressure (q x)) + (q x).rho * (p' / pressure (q x) ^ 2) := by
    have : HasDerivAt (fun t => (calcEntropyVars (q (Function.update x j t))).ener)
        (-r' * (1 / pressure (q x)) + (q x).rho * (p' / pressure (q x) ^ 2)) (x j) := by
      have hd := (d1.fun_neg.fun_mul ((hasDerivAt_const (x j) (1 : ℝ)).fun_div dp hp0))
      refine hd.congr_deriv ?_
      simp only [ue]; field_simp; ring
    exact this.deriv
  constructor
  · intro k
    have dk := (h2 k).hasDerivAt
    set m' := deriv (fun t => (q (Function.update x j t)).mom k) (x j)
    have wk : (gradW q x j).mom k =
        m' * (1 / pressure (q x)) - (q x).mom k * (p' / pressure (q x) ^ 2) := by
      have : HasDerivAt (fun t => (calcEntropyVars (q (Function.update x j t))).mom k)
          (m' * (1 / pressure (q x)) - (q x).mom k * (p' / pressure (q x) ^ 2)) (x j) := by
        have hd := (dk.fun_mul ((hasDerivAt_const (x j) (1 : ℝ)).fun_div dp hp0))
        refine hd.congr_deriv ?_
        simp only [ue]; field_simp; ring
      exact this.deriv
    have uk : pd (fun y => vel (q y) k) x j =
        (m' * (q x).rho - (q x).mom k * r') / (q x).rho ^ 2 := by
      have hd := dk.div d1 hr0
      rw [ue] at hd
      exact hd.deriv
    rw [uk]
    unfold red vel temp
    rw [we, wk, ← pressure_spec]
    field_simp
    ring
  · have tk : pd (fun y => temp (q y)) x j =
        (p' * (q x).rho - pressure (q x) * r') / (q x).rho ^ 2 := by
      have hd := dp.div d1 hr0
      rw [ue] at hd
      have e : (fun t => temp (q (Function.update x j t))) =
          fun t => pressure (q (Function.update x j t)) / (q (Function.update x j t)).rho := by
        funext t; unfold temp; rw [pressure_spec]
      unfold pd; rw [e]
      exact hd.deriv
    rw [tk, we]
    unfold temp
    rw [← pressure_spec]
    field_simp
    ring

/-- Applied to the gradient of the entropy variables of any differentiable admissible flow field, the
viscous scaling is the Navier–Stokes viscous flux, in every dimension. -/
theorem C103_navier_stokes_flux (mu Pr : ℝ) (q : (Fin d → ℝ) → State d) (x : Fin d → ℝ)
    (h : Diff q x) (hq : Admissible (q x)) (i : Fin d) :
    viscousScaling i mu Pr (q x) (gradW q x) = nsFlux mu Pr q x i := by
  apply state_ext_inner
  intro v
  rw [inner2_viscousScaling]
  have hf := fun j => gradW_facts h hq j
  unfold Bij nsFlux
  rw [sum_add_distrib]
  have e1 : ∀ j, temp (q x) * mu * ((if i = j then ∑ k, red (q x) v k * red (q x) (gradW q x j) k else 0)
      + red (q x) v j * red (q x) (gradW q x j) i - 2 / 3 * (red (q x) v i * red (q x) (gradW q x j) j)) =
      mu * ((if i = j then ∑ k, red (q x) v k * pd (fun y => vel (q y) k) x i else 0)
      + red (q x) v j * pd (fun y => vel (q y) i) x j
      - 2 / 3 * (red (q x) v i * pd (fun y => vel (q y) j) x j)) := by
    intro j
    rw [← (hf j).1 i, ← (hf j).1 j]
    by_cases hij : i = j
    · subst hij
      simp only [if_true]
      have : ∑ k, red (q x) v k * pd (fun y => vel (q y) k) x i =
          temp (q x) * ∑ k, red (q x) v k * red (q x) (gradW q x i) k := by
        rw [mul_sum]; exact sum_congr rfl fun k _ => by rw [← (hf i).1 k]; ring
      rw [this]; ring
    · simp only [hij, if_false]; ring
  rw [sum_congr rfl fun j _ => e1 j]
  simp only [sum_ite_eq, mem_univ, if_true]
  rw [← mul_sum, sum_sub_distrib, sum_add_distrib]
  simp only [sum_ite_eq, mem_univ, if_true]
  rw [← (hf i).2]
  unfold inner2
  have e2 : (∑ k, v.mom k * stress mu q x i k) + v.ener * ∑ k, vel (q x) k * stress mu q x i k =
      ∑ k, red (q x) v k * stress mu q x i k := by
    rw [mul_sum, ← sum_add_distrib]
    exact sum_congr rfl fun k _ => by unfold red; ring
  have e3 : ∑ k, red (q x) v k * stress mu q x i k =
      mu * ((∑ k, red (q x) v k * pd (fun y => vel (q y) k) x i)
        + (∑ k, red (q x) v k * pd (fun y => vel (q y) i) x k)
        - ∑ j, 2 / 3 * (red (q x) v i * pd (fun y => vel (q y) j) x j)) := by
    have : ∀ k, red (q x) v k * stress mu q x i k =
        mu * (red (q x) v k * pd (fun y => vel (q y) k) x i
          + red (q x) v k * pd (fun y => vel (q y) i) x k
          - if i = k then red (q x) v i * (2 / 3 * ∑ j, pd (fun y => vel (q y) j) x j) else 0) := by
      intro k
      unfold stress
      by_cases hk : i = k
      · subst hk; simp only [if_true]; ring
      · simp only [hk, if_false]; ring
    rw [sum_congr rfl fun k _ => this k, ← mul_sum, sum_sub_distrib, sum_add_distrib]
    simp only [sum_ite_eq, mem_univ, if_true]
    congr 2
    rw [mul_sum, mul_sum]; exact sum_congr rfl fun j _ => by ring
  rw [← e3, ← e2]
  ring

/-- Non-vacuity: a flow with non-constant velocity and temperature. -/
example : Diff (fun y : Fin 2 → ℝ => (⟨1, ![y 1, 0], 3 + y 0⟩ : State 2)) (fun _ => 0) ∧
    Admissible ((fun y : Fin 2 → ℝ => (⟨1, ![y 1, 0], 3 + y 0⟩ : State 2)) (fun _ => 0)) := by
  constructor
  · intro j
    have hu : ∀ k : Fin 2, DifferentiableAt ℝ
        (fun t : ℝ => Function.update (fun _ : Fin 2 => (0 : ℝ)) j t k) ((fun _ => 0 : Fin 2 → ℝ) j) := by
      intro k
      by_cases hk : k = j
      · subst hk; simp
      · simp [Function.update_of_ne hk]
    refine ⟨differentiableAt_const _, fun k => ?_, (hu 0).const_add 3⟩
    fin_cases k
    · exact hu 1
    · exact differentiableAt_const _
  · constructor <;> norm_num [Fin.sum_univ_two]

/-! ### C105: Sutherland's law -/

/-- Specification: Sutherland's law `θ^{3/2} (1+S)/(θ+S)`, `S = 198.6/460`, in terms of the
temperature ratio `θ = γ p/ρ` (1 in the free stream). -/
noncomputable def sutherlandLaw (th : ℝ) : ℝ := th * √th * (1 + 1986 / 4600) / (th + 1986 / 4600)

theorem C105_sutherland (q : State d) (hq : Admissible q) :
    sutherland q = sutherlandLaw (7 / 5 * temp q) := by
  have hp := hq.press_pos
  have hr := hq.rho_pos
  unfold sutherland sutherlandLaw temp ST
  rw [gamma_eq, ← pressure_spec]
  have e : 7 / 5 * pressure q / q.rho = 7 / 5 * (pressure q / q.rho) := by ring
  have h0 : 0 ≤ 7 / 5 * (pressure q / q.rho) := by positivity
  simp only [e, Real.mul_self_sqrt h0]
  norm_num

/-- The viscosity of the free stream is 1. -/
theorem C105_freestream (hd : 2 ≤ d) (mach aoa : ℝ) (iroll ipitch : Fin d) (hne : iroll ≠ ipitch) :
    sutherland (getFreeStreamQ mach aoa iroll ipitch) = 1 := by
  have hf := C52_freestream hd mach aoa iroll ipitch hne
  simp only at hf
  have hA : Admissible (getFreeStreamQ mach aoa iroll ipitch) := by
    rw [admissible_iff, pressure_spec, hf.2.1, hf.1]; norm_num
  rw [C105_sutherland _ hA]
  unfold temp sutherlandLaw
  rw [hf.2.1, hf.1]
  norm_num

/-- The viscosity is positive and strictly increasing with the temperature. -/
theorem C105_positive (q : State d) (hq : Admissible q) : 0 < sutherland q := by
  have : 0 < temp q := by unfold temp; rw [← pressure_spec]; exact div_pos hq.press_pos hq.rho_pos
  rw [C105_sutherland q hq]; unfold sutherlandLaw; positivity

theorem C105_monotone (q q' : State d) (hq : Admissible q) (hq' : Admissible q')
    (hlt : temp q < temp q') : sutherland q < sutherland q' := by
  have h0 : 0 < temp q := by unfold temp; rw [← pressure_spec]; exact div_pos hq.press_pos hq.rho_pos
  rw [C105_sutherland q hq, C105_sutherland q' hq']
  unfold sutherlandLaw
  set a := 7 / 5 * temp q
  set b := 7 / 5 * temp q'
  have ha : 0 < a := by positivity
  have hab : a < b := by simp only [a, b]; linarith
  have hs : √a < √b := Real.sqrt_lt_sqrt ha.le hab
  have hsa : 0 < √a := Real.sqrt_pos.2 ha
  rw [div_lt_div_iff₀ (by positivity) (by linarith [ha])]
  have e1 : a * b * √a < a * b * √b := mul_lt_mul_of_pos_left hs (by nlinarith)
  have e2 : a * √a < b * √b := by nlinarith
  nlinarith

/-- The constant is the documented ratio. -/
theorem C105_ratio : (ST : ℝ) = 198.6 / 460 := by unfold ST; norm_num

end Verif.Viscous
