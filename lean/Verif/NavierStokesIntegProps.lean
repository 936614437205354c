import Mathlib.Analysis.Complex.ExponentialBounds
import Verif.NavierStokesInteg
import Verif.EulerGlobalProps
import Verif.ViscousWallProps
import Verif.ViscousIntegProps

/-!
Properties C113 (the viscous volume term of the flow residual) and C114 (entropy stability of the
whole Navier–Stokes discretisation).
-/

namespace Verif.NavierStokes
open Finset Verif.EulerFluxes Verif.EulerInteg Verif.Sbp Verif.Inviscid Verif.Viscous
  Verif.ViscousInteg

set_option linter.unusedSectionVars false

variable {d : ℕ}

/-- Specification: the conservative state at node `i` of an element vector. -/
def stateAt (d : ℕ) (e : Elem ℝ) (u : ℕ → ℝ) (i : ℕ) : State d := toState d (row u e.dof i)

/-- Specification: the SBP gradient (direction `j`) at node `i` of the entropy variables of the nodal
states. -/
noncomputable def gradAt (d : ℕ) (e : Elem ℝ) (wt : ℕ → ℝ) (adj : ℕ → ℕ → ℕ → ℝ) (u : ℕ → ℝ) (i : ℕ) :
    Fin d → State d :=
  fun j => ⟨Dx e wt adj j (fun k => (calcEntropyVars (stateAt d e u k)).rho) i,
    fun c => Dx e wt adj j (fun k => (calcEntropyVars (stateAt d e u k)).mom c) i,
    Dx e wt adj j (fun k => (calcEntropyVars (stateAt d e u k)).ener) i⟩

theorem ofState_zero (s : State d) : ofState s 0 = s.rho := by simp [ofState]
theorem ofState_mom (s : State d) (c : Fin d) : ofState s (c.val + 1) = s.mom c := by simp [ofState]
theorem ofState_last (s : State d) : ofState s (d + 1) = s.ener := by simp [ofState]

theorem toDw_calcDw (e : Elem ℝ) (hdim : e.dim = d) (hE : DiagE e) (wt : ℕ → ℝ)
    (adj : ℕ → ℕ → ℕ → ℝ) (u : ℕ → ℝ) (i : ℕ) (hi : i < e.dof) :
    toDw d (calcDw e (d + 2) wt adj (nsConvert d) u i) = gradAt d e wt adj u i := by
  funext j
  have hj : j.val < e.dim := by rw [hdim]; exact j.2
  unfold toDw gradAt toState
  ext c
  · refine (C109_gradient_value e hE (d + 2) wt adj (nsConvert d) u i 0 j hi (by omega) hj).trans ?_
    simp only [nsConvert, ofState_zero]; rfl
  · have hc := c.2
    refine (C109_gradient_value e hE (d + 2) wt adj (nsConvert d) u i (c + 1) j hi (by omega)
      hj).trans ?_
    simp only [nsConvert, ofState_mom]; rfl
  · refine (C109_gradient_value e hE (d + 2) wt adj (nsConvert d) u i (d + 1) j hi (by omega)
      hj).trans ?_
    simp only [nsConvert, ofState_last]; rfl

theorem sum_mul_ofState (f : ℕ → ℝ) (a : State d) :
    ∑ n ∈ range (d + 2), f n * ofState a n = inner2 (toState d f) a := by
  rw [sum_congr rfl fun n _ => mul_comm (f n) _, sum_ofState]
  unfold inner2
  rw [sum_congr rfl fun i _ => mul_comm (a.mom i) _]; ring

/-! ### C113: the viscous volume term -/

/-- **Weak form.**  Testing the viscous residual with any nodal field `v` gives the quadrature of the
SBP gradient of `v` against the viscous fluxes computed from the SBP gradient of the entropy
variables. -/
theorem C113_weak_form (mu Re Pr : ℝ) (e : Elem ℝ) (hdim : e.dim = d) (hE : DiagE e) (alpha : ℝ)
    (wt : ℕ → ℝ) (hH : ∀ i < e.dof, e.H i * wt i ≠ 0) (adj : ℕ → ℕ → ℕ → ℝ) (x : ℕ → ℕ → ℝ)
    (u v : ℕ → ℝ) :
    ∑ i ∈ range e.dof, inner2 (stateAt d e v i)
        (toState d (row (esViscVec d mu Re Pr e alpha wt adj x u) e.dof i)) =
      alpha * ∑ i ∈ range e.dof, e.H i * wt i * ∑ dd : Fin d,
        inner2 ⟨Dx e wt adj dd (fun k => (stateAt d e v k).rho) i,
            fun c => Dx e wt adj dd (fun k => (stateAt d e v k).mom c) i,
            Dx e wt adj dd (fun k => (stateAt d e v k).ener) i⟩
          (viscousScaling dd (muRe mu Re (stateAt d e u i)) Pr (stateAt d e u i)
            (gradAt d e wt adj u i)) := by
  have h := C110_weak_form e hE (d + 2) alpha wt hH adj x (nsConvert d) (nsScale d mu Re Pr) u v
  rw [sum_comm] at h
  have h1 : ∀ i ∈ range e.dof, inner2 (stateAt d e v i)
        (toState d (row (esViscVec d mu Re Pr e alpha wt adj x u) e.dof i)) =
      ∑ s ∈ range (d + 2), v (s * e.dof + i) *
        symVec e (d + 2) alpha wt adj x (nsConvert d) (nsScale d mu Re Pr) u (s * e.dof + i) := by
    intro i _
    rw [stateAt, ← sum_ofState]
    refine sum_congr rfl fun s hs => ?_
    rw [ofState_toState _ _ (mem_range.1 hs)]
    rfl
  rw [sum_congr rfl h1, h, hdim]
  congr 1
  refine sum_congr rfl fun i hi => ?_
  rw [mem_range] at hi
  congr 1
  rw [sum_range]
  refine sum_congr rfl fun dd _ => ?_
  have hs : nsScale d mu Re Pr dd (x i) (fun n => u (n * e.dof + i))
      (calcDw e (d + 2) wt adj (nsConvert d) u i) =
      ofState (viscousScaling dd (muRe mu Re (stateAt d e u i)) Pr (stateAt d e u i)
            (gradAt d e wt adj u i)) := by
    unfold nsScale
    rw [dif_pos dd.2, toDw_calcDw e hdim hE wt adj u i hi]
    rfl
  rw [hs, sum_mul_ofState]
  rfl

/-- The entropy change of the element is its residual tested with the entropy variables. -/
theorem C113_energy (mu Re Pr : ℝ) (e : Elem ℝ) (alpha : ℝ) (wt : ℕ → ℝ)
    (adj : ℕ → ℕ → ℕ → ℝ) (x : ℕ → ℕ → ℝ) (u : ℕ → ℝ) :
    esViscEnergy d mu Re Pr e alpha wt adj x u = ∑ i ∈ range e.dof,
      inner2 (calcEntropyVars (stateAt d e u i))
        (toState d (row (esViscVec d mu Re Pr e alpha wt adj x u) e.dof i)) := by
  rw [esViscEnergy, C110_energy_is_tested_residual]
  refine sum_congr rfl fun i _ => ?_
  rw [nsConvert, sum_ofState]
  rfl

/-- **Dissipation.**  The entropy change reported by the viscous term is the quadrature of the
viscous dissipation of the discrete gradient: `μT` times the squared deviatoric strain plus the
squared temperature gradient (in entropy variables). -/
theorem C113_dissipation (mu Re Pr : ℝ) (e : Elem ℝ) (hdim : e.dim = d) (hE : DiagE e) (alpha : ℝ)
    (wt : ℕ → ℝ) (hH : ∀ i < e.dof, e.H i * wt i ≠ 0) (adj : ℕ → ℕ → ℕ → ℝ) (x : ℕ → ℕ → ℝ)
    (u : ℕ → ℝ) :
    esViscEnergy d mu Re Pr e alpha wt adj x u =
      alpha * ∑ i ∈ range e.dof, e.H i * wt i * ∑ dd : Fin d, inner2 (gradAt d e wt adj u i dd)
        (viscousScaling dd (muRe mu Re (stateAt d e u i)) Pr (stateAt d e u i)
          (gradAt d e wt adj u i)) := by
  rw [esViscEnergy, C110_dissipation e hE (d + 2) alpha wt hH, hdim]
  congr 1
  refine sum_congr rfl fun i hi => ?_
  rw [mem_range] at hi
  congr 1
  rw [sum_range]
  refine sum_congr rfl fun dd _ => ?_
  have hs : nsScale d mu Re Pr dd (x i) (fun n => u (n * e.dof + i))
      (calcDw e (d + 2) wt adj (nsConvert d) u i) =
      ofState (viscousScaling dd (muRe mu Re (stateAt d e u i)) Pr (stateAt d e u i)
            (gradAt d e wt adj u i)) := by
    unfold nsScale
    rw [dif_pos dd.2, toDw_calcDw e hdim hE wt adj u i hi]
    rfl
  rw [hs, sum_mul_ofState, ← toDw_calcDw e hdim hE wt adj u i hi]
  rfl

theorem muRe_nonneg (mu Re : ℝ) (hRe : 0 < Re) (q : State d) (hq : Admissible q) :
    0 ≤ muRe mu Re q := by
  unfold muRe
  split_ifs with h
  · exact (div_pos (C105_positive q hq) hRe).le
  · exact div_nonneg (not_lt.1 h) hRe.le

/-- **Entropy stability.**  For constant non-negative viscosity as well as Sutherland's law (negative
`mu`), every Reynolds and Prandtl number, in one, two or three dimensions, on every element with
positive weights, the viscous term never produces entropy. -/
theorem C113_entropy_stable (hd : d ≤ 3) (mu Re Pr : ℝ) (hRe : 0 < Re) (hPr : 0 < Pr) (e : Elem ℝ)
    (hdim : e.dim = d) (hE : DiagE e) (alpha : ℝ) (ha : 0 ≤ alpha) (wt : ℕ → ℝ)
    (hH : ∀ i < e.dof, 0 < e.H i * wt i) (adj : ℕ → ℕ → ℕ → ℝ) (x : ℕ → ℕ → ℝ) (u : ℕ → ℝ)
    (hu : ∀ i < e.dof, Admissible (stateAt d e u i)) :
    0 ≤ esViscEnergy d mu Re Pr e alpha wt adj x u := by
  rw [C113_dissipation mu Re Pr e hdim hE alpha wt (fun i hi => (hH i hi).ne')]
  refine mul_nonneg ha (sum_nonneg fun i hi => ?_)
  rw [mem_range] at hi
  exact mul_nonneg (hH i hi).le (C104_dissipative hd _ Pr (muRe_nonneg mu Re hRe _ (hu i hi)) hPr _
    (hu i hi) _)

/-- No mass diffusion: the continuity equation's entries of the viscous residual all vanish. -/
theorem C113_no_mass_diffusion (mu Re Pr : ℝ) (e : Elem ℝ) (alpha : ℝ)
    (wt : ℕ → ℝ) (adj : ℕ → ℕ → ℕ → ℝ) (x : ℕ → ℕ → ℝ) (u : ℕ → ℝ) (i : ℕ) (hi : i < e.dof) :
    esViscVec d mu Re Pr e alpha wt adj x u i = 0 := by
  have h := symVec_dot e (d + 2) alpha wt adj x (nsConvert d) (nsScale d mu Re Pr) u
    (fun r => if r = i then 1 else 0)
  have hlt : i < (d + 2) * e.dof := lt_of_lt_of_le hi (Nat.le_mul_of_pos_left _ (by omega))
  rw [dotV_indicator _ _ hlt] at h
  rw [esViscVec, h]
  refine mul_eq_zero_of_right _ (sum_eq_zero fun k _ => sum_eq_zero fun dd _ =>
    sum_eq_zero fun s hs => ?_)
  rw [mem_range] at hs
  by_cases h0 : s = 0
  · subst h0
    refine mul_eq_zero_of_right _ ?_
    unfold nsScale
    split_ifs with hdd
    · rw [ofState_zero]
      have h := inner2_viscousScaling (⟨dd, hdd⟩ : Fin d) (muRe mu Re (toState d (row u e.dof k))) Pr
        (toState d (row u e.dof k)) ⟨1, fun _ => 0, 0⟩
        (toDw d (calcDw e (d + 2) wt adj (nsConvert d) u k))
      simp only [inner2, one_mul, zero_mul, sum_const_zero, add_zero] at h
      refine h.trans (sum_eq_zero fun j _ => ?_)
      simp [Bij, red]
    · rfl
  · refine mul_eq_zero_of_left ?_ _
    unfold wk
    refine sum_eq_zero fun j hj => ?_
    rw [mem_range] at hj
    beta_reduce
    rw [if_neg, mul_zero]
    intro hc
    have : e.dof ≤ s * e.dof := Nat.le_mul_of_pos_left _ (Nat.pos_of_ne_zero h0)
    omega

/-- **Conservation.**  On a mapping satisfying the metric identities the viscous residual conserves
momentum and energy on the element: every component sums to zero over the nodes. -/
theorem C113_conservation (mu Re Pr : ℝ) (e : Elem ℝ) (hE : DiagE e) (alpha : ℝ)
    (wt : ℕ → ℝ) (hH : ∀ i < e.dof, e.H i * wt i ≠ 0) (adj : ℕ → ℕ → ℕ → ℝ) (hM : Metric e adj)
    (x : ℕ → ℕ → ℝ) (u : ℕ → ℝ) (s : ℕ) (hs : s < d + 2) :
    ∑ i ∈ range e.dof, esViscVec d mu Re Pr e alpha wt adj x u (s * e.dof + i) = 0 :=
  C110_conservation e hE (d + 2) alpha wt hH adj hM x _ _ u s hs

/-- **Uniform flow.**  A uniform flow has no viscous residual. -/
theorem C113_uniform (mu Re Pr : ℝ) (e : Elem ℝ) (hdim : e.dim = d) (hE : DiagE e) (alpha : ℝ)
    (wt : ℕ → ℝ) (adj : ℕ → ℕ → ℕ → ℝ) (hM : Metric e adj) (x : ℕ → ℕ → ℝ) (u q : ℕ → ℝ)
    (hu : ∀ j < e.dof, (fun n => u (n * e.dof + j)) = q) (p : ℕ) (hp : p < (d + 2) * e.dof) :
    esViscVec d mu Re Pr e alpha wt adj x u p = 0 := by
  refine C110_uniform e hE (d + 2) alpha wt adj hM x _ _ u q hu ?_ p hp
  intro dd hdd i _ Dw hDw s hs
  unfold nsScale
  rw [dif_pos (hdim ▸ hdd)]
  have hz : toDw d Dw = fun _ => zeroS := by
    funext j
    unfold toDw toState zeroS
    have hj : j.val < e.dim := by rw [hdim]; exact j.2
    ext c
    · exact hDw _ (by omega) _ hj
    · exact hDw _ (by have := c.2; omega) _ hj
    · exact hDw _ (by omega) _ hj
  have h0 : viscousScaling ⟨dd, hdim ▸ hdd⟩ (muRe mu Re (toState d q)) Pr (toState d q) (toDw d Dw) =
      zeroS := by
    apply state_ext_inner
    intro v
    rw [inner2_viscousScaling, inner2_zeroS, hz]
    exact sum_eq_zero fun j _ => by simp [Bij, red, zeroS]
  rw [h0]
  simp [ofState, zeroS]

theorem pd_affine (c : ℝ) (g : Fin d → ℝ) (x : Fin d → ℝ) (j : Fin d) :
    pd (fun y => c + ∑ m, g m * y m) x j = g j := by
  unfold pd
  have h : HasDerivAt (fun t => c + ∑ m, g m * Function.update x j t m) (g j) (x j) := by
    have h1 : ∀ m ∈ (univ : Finset (Fin d)), HasDerivAt (fun t => g m * Function.update x j t m)
        (if m = j then g j else 0) (x j) := by
      intro m _
      by_cases hm : m = j
      · subst hm
        simp only [Function.update_self, if_true]
        exact ((hasDerivAt_id' (x m)).const_mul (g m)).congr_deriv (mul_one _)
      · simp only [Function.update_of_ne hm, hm, if_false]
        exact hasDerivAt_const _ _
    have h2 := (HasDerivAt.fun_sum h1).const_add c
    refine h2.congr_deriv ?_
    simp
  exact h.deriv

/-- **Consistency.**  On an affine element whose operators differentiate the coordinates exactly, for
a flow whose entropy variables are linear in space, the tested residual is the quadrature of the test
gradient against the exact Navier–Stokes viscous flux of the flow at the nodes. -/
theorem C113_exact_flux (mu Re Pr : ℝ) (e : Elem ℝ) (hdim : e.dim = d) (hE : DiagE e) (alpha : ℝ)
    (A J : ℕ → ℕ → ℝ) (det : ℝ) (hdet : det ≠ 0) (b : ℕ → ℝ) (xi : ℕ → ℕ → ℝ)
    (hH : ∀ i < e.dof, e.H i ≠ 0)
    (hA : ∀ m < d, ∀ j < d, ∑ l ∈ range d, J m l * A l j = if m = j then det else 0)
    (h0 : ∀ k < d, ∀ i < e.dof, ∑ j ∈ range e.dof, Qm e k i j = 0)
    (h1 : ∀ k < d, ∀ l < d, ∀ i < e.dof,
      ∑ j ∈ range e.dof, Qm e k i j * xi l j = if k = l then e.H i else 0)
    (q : (Fin d → ℝ) → State d) (c : State d) (g : Fin d → State d) (U : Set (Fin d → ℝ))
    (hU : IsOpen U) (hw : ∀ y ∈ U, calcEntropyVars (q y) = ⟨c.rho + ∑ m, (g m).rho * y m,
      fun k => c.mom k + ∑ m, (g m).mom k * y m, c.ener + ∑ m, (g m).ener * y m⟩)
    (X : ℕ → Fin d → ℝ) (hX : ∀ i m, X i m = b m + ∑ l ∈ range d, J m l * xi l i)
    (hXU : ∀ i < e.dof, X i ∈ U)
    (u v : ℕ → ℝ) (x : ℕ → ℕ → ℝ) (hu : ∀ i < e.dof, stateAt d e u i = q (X i))
    (hq : ∀ i < e.dof, Diff q (X i) ∧ Admissible (q (X i))) :
    ∑ i ∈ range e.dof, inner2 (stateAt d e v i)
        (toState d (row (esViscVec d mu Re Pr e alpha (fun _ => det) (fun _ => A) x u) e.dof i)) =
      alpha * ∑ i ∈ range e.dof, e.H i * det * ∑ dd : Fin d,
        inner2 ⟨Dx e (fun _ => det) (fun _ => A) dd (fun k => (stateAt d e v k).rho) i,
            fun c => Dx e (fun _ => det) (fun _ => A) dd (fun k => (stateAt d e v k).mom c) i,
            Dx e (fun _ => det) (fun _ => A) dd (fun k => (stateAt d e v k).ener) i⟩
          (nsFlux (muRe mu Re (q (X i))) Pr q (X i) dd) := by
  rw [C113_weak_form mu Re Pr e hdim hE alpha (fun _ => det)
    (fun i hi => mul_ne_zero (hH i hi) hdet)]
  congr 1
  refine sum_congr rfl fun i hi => ?_
  rw [mem_range] at hi
  congr 1
  refine sum_congr rfl fun dd _ => ?_
  have hg : gradAt d e (fun _ => det) (fun _ => A) u i = gradW q (X i) := by
    have key : ∀ (c0 : ℝ) (g0 : Fin d → ℝ) (f : ℕ → ℝ)
        (_ : ∀ k < e.dof, f k = c0 + ∑ m, g0 m * X k m) (j : Fin d),
        Dx e (fun _ => det) (fun _ => A) j f i = g0 j := by
      intro c0 g0 f hf j
      have hj : j.val < e.dim := by rw [hdim]; exact j.2
      have hl := Dx_linear e A J det hdet b xi hH (by rw [hdim]; exact hA) (by rw [hdim]; exact h0)
        (by rw [hdim]; exact h1) (fun m => if h : m < d then g0 ⟨m, h⟩ else 0) c0 j hj i hi
      rw [dif_pos j.2] at hl
      rw [← hl]
      unfold Dx
      congr 1
      refine sum_congr rfl fun k hk => ?_
      congr 1
      beta_reduce
      rw [hf k (mem_range.1 hk), hdim, sum_range]
      congr 1
      refine sum_congr rfl fun m _ => ?_
      rw [dif_pos m.2, hX]
    have hpd : ∀ f f' : (Fin d → ℝ) → ℝ, (∀ y ∈ U, f y = f' y) → ∀ j, pd f (X i) j = pd f' (X i) j := by
      intro f f' hff j
      unfold pd
      refine Filter.EventuallyEq.deriv_eq ?_
      have hc : Continuous fun t : ℝ => Function.update (X i) j t :=
        continuous_const.update j continuous_id
      have hm : Function.update (X i) j (X i j) ∈ U := by
        rw [Function.update_eq_self]; exact hXU i hi
      filter_upwards [(hU.preimage hc).mem_nhds hm] with t ht
      exact hff _ ht
    funext j
    unfold gradAt gradW
    ext k
    · refine (key c.rho (fun m => (g m).rho) _ (fun k hk => ?_) j).trans ?_
      · rw [hu k hk, hw _ (hXU k hk)]
      · show _ = pd (fun y => (calcEntropyVars (q y)).rho) (X i) j
        refine (pd_affine (c.rho) (fun m => (g m).rho) (X i) j).symm.trans (hpd _ _ (fun y hy => ?_) j)
        rw [hw y hy]
    · refine (key (c.mom k) (fun m => (g m).mom k) _ (fun k hk => ?_) j).trans ?_
      · rw [hu k hk, hw _ (hXU k hk)]
      · show _ = pd (fun y => (calcEntropyVars (q y)).mom k) (X i) j
        refine (pd_affine (c.mom k) (fun m => (g m).mom k) (X i) j).symm.trans (hpd _ _ (fun y hy => ?_) j)
        rw [hw y hy]
    · refine (key c.ener (fun m => (g m).ener) _ (fun k hk => ?_) j).trans ?_
      · rw [hu k hk, hw _ (hXU k hk)]
      · show _ = pd (fun y => (calcEntropyVars (q y)).ener) (X i) j
        refine (pd_affine (c.ener) (fun m => (g m).ener) (X i) j).symm.trans (hpd _ _ (fun y hy => ?_) j)
        rw [hw y hy]
  rw [hg, hu i hi, C103_navier_stokes_flux _ Pr q (X i) (hq i hi).1 (hq i hi).2]

/-! #### A flow with linear entropy variables on the two-node segment -/

/-- A one-dimensional isentropic gas at rest with `ρ/p = 1 + y`. -/
noncomputable def gasAt (y : Fin 1 → ℝ) : State 1 :=
  ⟨(1 + y 0) ^ (-(5 / 2) : ℝ), fun _ => 0, 5 / 2 * (1 + y 0) ^ (-(7 / 2) : ℝ)⟩

theorem gasAt_pressure (y : Fin 1 → ℝ) : pressure (gasAt y) = (1 + y 0) ^ (-(7 / 2) : ℝ) := by
  simp [pressure, gasAt, dot, gami_eq]; ring

theorem gasAt_adm (y : Fin 1 → ℝ) (hy : -1 < y 0) : Admissible (gasAt y) := by
  rw [admissible_iff, gasAt_pressure]
  have : 0 < 1 + y 0 := by linarith
  exact ⟨Real.rpow_pos_of_pos this _, Real.rpow_pos_of_pos this _⟩

theorem gasAt_entVars (y : Fin 1 → ℝ) (hy : -1 < y 0) :
    calcEntropyVars (gasAt y) = ⟨7 / 2, fun _ => 0, -1 + ∑ m, (-1 : ℝ) * y m⟩ := by
  have h : 0 < 1 + y 0 := by linarith
  have ha := gasAt_adm y hy
  rw [entVars_eq _ ha.rho_pos.ne' ha.press_pos.ne', gasAt_pressure]
  have h1 : (1 + y 0) ^ (-(7 / 2) : ℝ) / ((1 + y 0) ^ (-(5 / 2) : ℝ)) ^ (7 / 5 : ℝ) = 1 := by
    rw [← Real.rpow_mul h.le]
    norm_num
    exact (Real.rpow_pos_of_pos h _).ne'
  have h2 : -(1 + y 0) ^ (-(5 / 2) : ℝ) / (1 + y 0) ^ (-(7 / 2) : ℝ) = -1 + ∑ m, (-1 : ℝ) * y m := by
    rw [neg_div, ← Real.rpow_sub h]
    norm_num
    ring
  have e1 : (gasAt y).rho = (1 + y 0) ^ (-(5 / 2) : ℝ) := rfl
  have e2 : (gasAt y).mom = fun _ => 0 := rfl
  rw [e1, e2, h1, h2]
  ext i
  · simp [dot]
  · simp
  · rfl

/-- The hypotheses of `C113_exact_flux` are met by this flow (with a non-zero temperature gradient) on
the two-node segment: `U = {y | -1 < y}`. -/
example : (∀ y ∈ {y : Fin 1 → ℝ | -1 < y 0}, calcEntropyVars (gasAt y) =
      ⟨7 / 2 + ∑ m, (0 : ℝ) * y m, fun _ => 0 + ∑ m, (0 : ℝ) * y m, -1 + ∑ m, (-1 : ℝ) * y m⟩) ∧
    IsOpen {y : Fin 1 → ℝ | -1 < y 0} ∧
    (∀ y ∈ {y : Fin 1 → ℝ | -1 < y 0}, Diff gasAt y ∧ Admissible (gasAt y)) := by
  refine ⟨fun y hy => ?_, isOpen_lt continuous_const (continuous_apply 0), fun y hy => ⟨?_, gasAt_adm y hy⟩⟩
  · rw [gasAt_entVars y hy]; simp
  · intro j
    have hj : j = 0 := Subsingleton.elim _ _
    subst hj
    have hy' : 1 + y 0 ≠ 0 := by have : -1 < y 0 := hy; linarith
    have hd : ∀ a : ℝ, DifferentiableAt ℝ (fun t => (1 + t) ^ a) (y 0) := fun a =>
      (differentiableAt_id.const_add 1).rpow_const (Or.inl hy')
    refine ⟨?_, fun k => ?_, ?_⟩
    · simpa [gasAt] using hd (-(5 / 2))
    · simp [gasAt]
    · simpa [gasAt] using (hd (-(7 / 2))).const_mul (5 / 2)

/-! #### Entropy variables -/

theorem segE_diagE : DiagE segE := by
  intro k _ i hi j hj h
  have hi' : i < 2 := hi
  have hj' : j < 2 := hj
  interval_cases i <;> interval_cases j <;> simp_all [Qm_eq, segE] <;> norm_num

/-- Energy residual at the second node of the two-node segment of length 2. -/
theorem seg_energy_residual (u : ℕ → ℝ) :
    esViscVec 1 1 1 1 segE 1 (fun _ => 1) (fun _ _ _ => 1) (fun _ _ => 0) u 5 =
      ∑ i ∈ range 2, 1 / 2 * (viscousScaling (0 : Fin 1) (muRe 1 1 (stateAt 1 segE u i)) 1
        (stateAt 1 segE u i) (gradAt 1 segE (fun _ => 1) (fun _ _ _ => 1) u i)).ener := by
  have h := C113_weak_form (d := 1) 1 1 1 segE rfl segE_diagE 1 (fun _ => 1)
    (fun i _ => by simp [segE]) (fun _ _ _ => 1) (fun _ _ => 0) u (fun p => if p = 5 then 1 else 0)
  have hdof : segE.dof = 2 := rfl
  rw [hdof] at h
  have hl : ∑ i ∈ range 2, inner2 (stateAt 1 segE (fun p => if p = 5 then 1 else 0) i)
        (toState 1 (row (esViscVec 1 1 1 1 segE 1 (fun _ => 1) (fun _ _ _ => 1) (fun _ _ => 0) u)
          2 i)) =
      esViscVec 1 1 1 1 segE 1 (fun _ => 1) (fun _ _ _ => 1) (fun _ _ => 0) u 5 := by
    simp [sum_range_succ, stateAt, inner2, toState, row, segE]
  rw [hl] at h
  rw [h, one_mul]
  refine sum_congr rfl fun i _ => ?_
  simp [inner2, Dx, stateAt, toState, row, segE, sum_range_succ, Qm_eq]
  norm_num

/-- Heat term at a node of a one-dimensional gas at rest. -/
theorem heat_ener (q : State 1) (hq : q.mom 0 = 0) (Dw : Fin 1 → State 1) :
    (viscousScaling (0 : Fin 1) (muRe 1 1 q) 1 q Dw).ener = temp q ^ 2 * (7 / 2) * (Dw 0).ener := by
  have h := inner2_viscousScaling (0 : Fin 1) (muRe 1 1 q) 1 q ⟨0, fun _ => 0, 1⟩ Dw
  have hl : inner2 (⟨0, fun _ => 0, 1⟩ : State 1) (viscousScaling (0 : Fin 1) (muRe 1 1 q) 1 q Dw) =
      (viscousScaling (0 : Fin 1) (muRe 1 1 q) 1 q Dw).ener := by simp [inner2]
  have hmu : muRe 1 1 q = 1 := by unfold muRe; norm_num
  rw [← hl, h, hmu]
  simp [Bij, red, vel, hq]

/-- Conservative states of the example: unit density at rest, pressures 1 and 4. -/
noncomputable def hotCold (p : ℕ) : ℝ :=
  if p = 0 then 1 else if p = 1 then 1 else if p = 4 then 5 / 2 else if p = 5 then 10 else 0

/-- The same states in entropy variables. -/
noncomputable def hotColdW (p : ℕ) : ℝ :=
  if p = 0 then 7 / 2 else if p = 1 then 7 / 2 - 5 * Real.log 2 else if p = 4 then -1
  else if p = 5 then -1 / 4 else 0

/-- **Entropy variables: refuted.**  When the residual's variables are the entropy variables the
viscous term should be that of the same flow.  It is not: the vector is read as if it were
conservative, and in the example (unit density, pressures 1 and 4) even the direction of the heat
flux is wrong. -/
theorem C113_entropy_variables_false :
    ¬ ∀ (e : Elem ℝ) (wt : ℕ → ℝ) (adj : ℕ → ℕ → ℕ → ℝ) (x : ℕ → ℕ → ℝ) (u w : ℕ → ℝ),
      e.dim = 1 → DiagE e → (∀ i < e.dof, 0 < e.H i * wt i) →
      (∀ i < e.dof, Admissible (stateAt 1 e u i)) →
      (∀ i < e.dof, stateAt 1 e w i = calcEntropyVars (stateAt 1 e u i)) →
      ∀ p < 3 * e.dof, esViscVec 1 1 1 1 e 1 wt adj x w p = esViscVec 1 1 1 1 e 1 wt adj x u p := by
  intro h
  have hdof : segE.dof = 2 := rfl
  have hu0 : stateAt 1 segE hotCold 0 = ⟨1, fun _ => 0, 5 / 2⟩ := by
    ext i
    · simp [stateAt, toState, row, segE, hotCold]
    · have : i = 0 := Subsingleton.elim _ _
      subst this; simp [stateAt, toState, row, segE, hotCold]
    · simp [stateAt, toState, row, segE, hotCold]
  have hu1 : stateAt 1 segE hotCold 1 = ⟨1, fun _ => 0, 10⟩ := by
    ext i
    · simp [stateAt, toState, row, segE, hotCold]
    · have : i = 0 := Subsingleton.elim _ _
      subst this; simp [stateAt, toState, row, segE, hotCold]
    · simp [stateAt, toState, row, segE, hotCold]
  have hw0 : stateAt 1 segE hotColdW 0 = ⟨7 / 2, fun _ => 0, -1⟩ := by
    ext i
    · simp [stateAt, toState, row, segE, hotColdW]
    · have : i = 0 := Subsingleton.elim _ _
      subst this; simp [stateAt, toState, row, segE, hotColdW]
    · simp [stateAt, toState, row, segE, hotColdW]
  have hw1 : stateAt 1 segE hotColdW 1 = ⟨7 / 2 - 5 * Real.log 2, fun _ => 0, -1 / 4⟩ := by
    ext i
    · simp [stateAt, toState, row, segE, hotColdW]
    · have : i = 0 := Subsingleton.elim _ _
      subst this; simp [stateAt, toState, row, segE, hotColdW]
    · simp [stateAt, toState, row, segE, hotColdW]
  have ha0 : Admissible (⟨1, fun _ => 0, 5 / 2⟩ : State 1) := by
    rw [admissible_iff]; simp [pressure, dot, gami_eq]
  have ha1 : Admissible (⟨1, fun _ => 0, 10⟩ : State 1) := by
    rw [admissible_iff]; simp [pressure, dot, gami_eq]
  have l4 : Real.log 4 = 2 * Real.log 2 := by
    rw [show (4 : ℝ) = 2 ^ 2 by norm_num, Real.log_pow]; norm_num
  have e0 : calcEntropyVars (⟨1, fun _ => 0, 5 / 2⟩ : State 1) = ⟨7 / 2, fun _ => 0, -1⟩ := by
    rw [entVars_eq _ ha0.rho_pos.ne' ha0.press_pos.ne']
    ext i <;> simp [pressure, dot, gami_eq] <;> norm_num
  have e1 : calcEntropyVars (⟨1, fun _ => 0, 10⟩ : State 1) =
      ⟨7 / 2 - 5 * Real.log 2, fun _ => 0, -1 / 4⟩ := by
    rw [entVars_eq _ ha1.rho_pos.ne' ha1.press_pos.ne']
    ext i
    · simp [pressure, dot, gami_eq]
      norm_num
      rw [l4]; ring
    · simp
    · simp [pressure, dot, gami_eq]; norm_num
  have hk := h segE (fun _ => 1) (fun _ _ _ => 1) (fun _ _ => 0) hotCold hotColdW rfl segE_diagE
    (fun i _ => by simp [segE])
    (fun i hi => by
      rw [hdof] at hi
      interval_cases i
      · rw [hu0]; exact ha0
      · rw [hu1]; exact ha1)
    (fun i hi => by
      rw [hdof] at hi
      interval_cases i
      · rw [hu0, hw0, e0]
      · rw [hu1, hw1, e1]) 5 (by rw [hdof]; norm_num)
  have hl1 := Real.log_two_gt_d9
  have hl2 := Real.log_two_lt_d9
  have f0 : (calcEntropyVars (⟨7 / 2, fun _ => 0, -1⟩ : State 1)).ener = 35 / 4 := by
    rw [entVars_eq _ (by norm_num) (by simp [pressure, dot, gami_eq])]
    simp [pressure, dot, gami_eq]
    norm_num
  have f1 : (calcEntropyVars (⟨7 / 2 - 5 * Real.log 2, fun _ => 0, -1 / 4⟩ : State 1)).ener =
      10 * (7 / 2 - 5 * Real.log 2) := by
    rw [entVars_eq _ (by simp only; linarith) (by simp [pressure, dot, gami_eq])]
    simp [pressure, dot, gami_eq]
    field_simp; ring
  have g : ∀ (v : ℕ → ℝ) (i : ℕ), i < 2 →
      (gradAt 1 segE (fun _ => 1) (fun _ _ _ => 1) v i 0).ener =
      1 / 2 * ((calcEntropyVars (stateAt 1 segE v 1)).ener -
        (calcEntropyVars (stateAt 1 segE v 0)).ener) := by
    intro v i hi
    simp only [gradAt]
    interval_cases i <;> simp [Dx, segE, sum_range_succ, Qm_eq] <;> ring
  rw [seg_energy_residual, seg_energy_residual, sum_range_succ, sum_range_one, sum_range_succ,
    sum_range_one, heat_ener _ (by rw [hw0]), heat_ener _ (by rw [hw1]), heat_ener _ (by rw [hu0]),
    heat_ener _ (by rw [hu1]), g _ _ (by norm_num), g _ _ (by norm_num), g _ _ (by norm_num),
    g _ _ (by norm_num), hw0, hw1, hu0, hu1, f0, f1, e0, e1] at hk
  have t0 : 0 < temp (⟨7 / 2, fun _ => 0, -1⟩ : State 1) ^ 2 := by
    have : temp (⟨7 / 2, fun _ => 0, -1⟩ : State 1) ≠ 0 := by
      unfold temp
      rw [← pressure_spec]
      simp [pressure, dot, gami_eq]
    positivity
  have t1 := sq_nonneg (temp (⟨7 / 2 - 5 * Real.log 2, fun _ => 0, -1 / 4⟩ : State 1))
  have t2 := sq_nonneg (temp (⟨1, fun _ => 0, 5 / 2⟩ : State 1))
  have t3 := sq_nonneg (temp (⟨1, fun _ => 0, 10⟩ : State 1))
  simp only at hk
  nlinarith

/-! ### C114: the whole discretisation -/

/-- Specification: the entropy a boundary condition supplies at a face node beyond the potential of
the outflow: nothing at slip and no-slip walls, the blowing rate times the wall entropy at control
boundaries, and whatever is imposed at far-field and exact-solution boundaries. -/
noncomputable def Bnd.supply (mu Re Pr : ℝ) (x dir : ℕ → ℝ) (q : State d) (Dw : Fin d → State d) :
    Bnd d → ℝ
  | .slipWall => 0
  | .noSlip _ => 0
  | .farField qfar => inner2 (calcEntropyVars q) (calcBoundaryFlux (toDir d dir) qfar q)
      - psi (toDir d dir) q
  | .exact qex => inner2 (calcEntropyVars q) (viscExactFlux mu Re Pr (qex x) (toDir d dir) q Dw)
      - psi (toDir d dir) q
  | .control _ c scale => -(c * scale x * √(∑ i, toDir d dir i ^ 2) * specS q)

/-- Specification: total supply through the boundary. -/
noncomputable def nsSupply (mu Re Pr : ℝ) (m : FlowMesh) (wt : ℕ → ℕ → ℝ) (bc : ℕ → Bnd d)
    (u : ℕ → ℕ → ℝ) : ℝ :=
  ∑ b ∈ range m.nb, ∑ a ∈ range (m.bface b).n, (m.bface b).w a *
    (bc b).supply mu Re Pr ((m.bface b).x a) ((m.bface b).nrm a)
      (stateAt d (m.elem (m.bE b)).e (u (m.bE b)) ((m.bface b).left a))
      (gradAt d (m.elem (m.bE b)).e (wt (m.bE b)) (m.elem (m.bE b)).adj (u (m.bE b))
        ((m.bface b).left a))

/-- Specification: the viscous dissipation of the discrete gradients, summed over the mesh. -/
noncomputable def nsDissipation (d : ℕ) (mu Re Pr : ℝ) (m : FlowMesh) (wt : ℕ → ℕ → ℝ)
    (u : ℕ → ℕ → ℝ) : ℝ :=
  ∑ k ∈ range m.ne, ∑ i ∈ range (m.elem k).e.dof, (m.elem k).e.H i * wt k i * ∑ dd : Fin d,
    inner2 (gradAt d (m.elem k).e (wt k) (m.elem k).adj (u k) i dd)
      (viscousScaling dd (muRe mu Re (stateAt d (m.elem k).e (u k) i)) Pr
        (stateAt d (m.elem k).e (u k) i) (gradAt d (m.elem k).e (wt k) (m.elem k).adj (u k) i))

/-- Reference states of walls and controls must be admissible. -/
def Bnd.refOk : Bnd d → Prop
  | .noSlip qref => Admissible qref
  | .control qref _ _ => Admissible qref
  | _ => True

theorem consAt_false (q : ℕ → ℝ) : consAt d false q = toState d q := by simp [consAt, consOf]

/-- Every boundary condition obeys its node-wise entropy bound. -/
theorem bnd_bound (mu Re Pr : ℝ) (hRe : 0 < Re) (hmu : mu ≠ 0) (f : Face ℝ) (e : Elem ℝ)
    (hdim : e.dim = d) (hE : DiagE e) (wt : ℕ → ℝ) (hwt : ∀ i < e.dof, 0 < wt i)
    (adj : ℕ → ℕ → ℕ → ℝ) (u : ℕ → ℝ) (b : Bnd d) (hb : b.refOk)
    (hl : ∀ a < f.n, f.left a < e.dof) (hw : ∀ a < f.n, 0 ≤ f.w a)
    (hn : ∀ a < f.n, toDir d (f.nrm a) ≠ 0) (hu : ∀ i < e.dof, Admissible (stateAt d e u i)) :
    ∑ a ∈ range f.n, f.w a * (b.supply mu Re Pr (f.x a) (f.nrm a) (stateAt d e u (f.left a))
        (gradAt d e wt adj u (f.left a)) + psi (toDir d (f.nrm a)) (stateAt d e u (f.left a))) ≤
      b.energy false mu Re Pr f e wt adj u := by
  have key : ∀ (b : Bnd d) (g : ℕ → State d), (∀ a < f.n, b.flux mu Re Pr (f.x a) (f.nrm a) (wt (f.left a))
        (row u e.dof (f.left a)) (calcDw e (d + 2) wt adj (nsConvert d) u (f.left a)) = some (g a)) →
      (∀ a < f.n, b.supply mu Re Pr (f.x a) (f.nrm a) (stateAt d e u (f.left a))
        (gradAt d e wt adj u (f.left a)) + psi (toDir d (f.nrm a)) (stateAt d e u (f.left a)) ≤
        inner2 (calcEntropyVars (stateAt d e u (f.left a))) (g a)) →
      ∑ a ∈ range f.n, f.w a * (b.supply mu Re Pr (f.x a) (f.nrm a) (stateAt d e u (f.left a))
        (gradAt d e wt adj u (f.left a)) + psi (toDir d (f.nrm a)) (stateAt d e u (f.left a))) ≤
      vbEnergy f e (d + 2) 1 wt adj (nsConvert d) (b.fn mu Re Pr) u := by
    intro b g hg hi
    rw [C111_functional, one_mul]
    refine sum_le_sum fun a ha => ?_
    rw [mem_range] at ha
    refine mul_le_mul_of_nonneg_left ((hi a ha).trans (le_of_eq ?_)) (hw a ha)
    unfold Bnd.fn
    have hga := hg a ha
    unfold row at hga
    rw [hga]
    simp only
    rw [nsConvert, vdot_ofState]
    rfl
  cases b with
  | slipWall =>
    refine key _ (fun a => viscSlipFlux mu Re Pr (toDir d (f.nrm a)) (stateAt d e u (f.left a))
      (gradAt d e wt adj u (f.left a))) (fun a ha => ?_) (fun a ha => ?_)
    · simp only [Bnd.flux, ← toDw_calcDw e hdim hE wt adj u _ (hl a ha)]; rfl
    · rw [C107_viscous_slip_wall _ _ _ _ (hn a ha) _ (hu _ (hl a ha))]
      simp [Bnd.supply]
  | noSlip qref =>
    refine key _ (fun a => noSlipFlux mu Re Pr qref (toDir d (f.nrm a)) (wt (f.left a))
      (stateAt d e u (f.left a)) (gradAt d e wt adj u (f.left a))) (fun a ha => ?_) (fun a ha => ?_)
    · simp only [Bnd.flux, ← toDw_calcDw e hdim hE wt adj u _ (hl a ha)]; rfl
    · have := (C106_wall_entropy_stable mu Re Pr hRe hmu qref hb (toDir d (f.nrm a)) (hn a ha) _
        (hwt _ (hl a ha)) _ (hu _ (hl a ha)) (gradAt d e wt adj u (f.left a))).1
      simpa [Bnd.supply] using this
  | farField qfar =>
    simp only [Bnd.energy]
    rw [bndEnergy, forN_sum, zero_add]
    refine sum_le_sum fun a ha => le_of_eq ?_
    simp only [Bnd.supply]
    rw [sub_add_cancel]
    simp [testedFlux, farFieldFlux, entVarsOf, stateAt]
    rw [vdot_ofState]
    simp [calcFarFieldFlux, consOf]
    ring
  | exact qex =>
    refine key _ (fun a => viscExactFlux mu Re Pr (qex (f.x a)) (toDir d (f.nrm a))
      (stateAt d e u (f.left a)) (gradAt d e wt adj u (f.left a))) (fun a ha => ?_) (fun a ha => ?_)
    · simp only [Bnd.flux, ← toDw_calcDw e hdim hE wt adj u _ (hl a ha)]; rfl
    · simp [Bnd.supply]
  | control qref c scale =>
    refine key _ (fun a => viscControlFlux mu Re Pr c (scale (f.x a)) qref (toDir d (f.nrm a))
      (wt (f.left a)) (stateAt d e u (f.left a)) (gradAt d e wt adj u (f.left a)))
      (fun a ha => ?_) (fun a ha => ?_)
    · simp only [Bnd.flux, ← toDw_calcDw e hdim hE wt adj u _ (hl a ha)]; rfl
    · have := C107_control_entropy mu Re Pr c (scale (f.x a)) hRe hmu qref hb (toDir d (f.nrm a))
        (hn a ha) _ (hwt _ (hl a ha)) _ (hu _ (hl a ha)) (gradAt d e wt adj u (f.left a))
      simp only [Bnd.supply]
      linarith

/-- The energy of a far-field face in either set of variables: the entropy variables of the nodal state
(the stored values themselves if the solver works in entropy variables) tested with the boundary flux
of the conservative state. -/
theorem C114_farfield_energy (mu Re Pr : ℝ) (f : Face ℝ) (e : Elem ℝ) (wt : ℕ → ℝ)
    (adj : ℕ → ℕ → ℕ → ℝ) (u : ℕ → ℝ) (qfar : State d) :
    (Bnd.farField qfar).energy false mu Re Pr f e wt adj u = ∑ a ∈ range f.n, f.w a *
      inner2 (calcEntropyVars (stateAt d e u (f.left a)))
        (calcBoundaryFlux (toDir d (f.nrm a)) qfar (stateAt d e u (f.left a))) ∧
    (Bnd.farField qfar).energy true mu Re Pr f e wt adj u = ∑ a ∈ range f.n, f.w a *
      inner2 (stateAt d e u (f.left a)) (calcBoundaryFlux (toDir d (f.nrm a)) qfar
        (calcConservativeVars (stateAt d e u (f.left a)))) := by
  constructor
  all_goals
    simp only [Bnd.energy]
    rw [bndEnergy, forN_sum, zero_add]
    refine sum_congr rfl fun a _ => ?_
    simp [testedFlux, farFieldFlux, entVarsOf, stateAt]
    rw [vdot_ofState]
    simp [calcFarFieldFlux, consOf]
    ring

/-- The pieces of the reported entropy change. -/
theorem ns_split (lpsCoeff mu Re Pr : ℝ) (entvar : Bool) (m : FlowMesh) (wt : ℕ → ℕ → ℝ)
    (x : ℕ → ℕ → ℕ → ℝ) (bc : ℕ → Bnd d) (u : ℕ → ℕ → ℝ) :
    nsEntropyChange d entvar lpsCoeff mu Re Pr m wt x bc u =
      (∑ k ∈ range m.ne, irEnergy d entvar (m.elem k).e 1 (m.elem k).adj (u k)) +
      (if 0 < lpsCoeff then
        ∑ k ∈ range m.ne, entLpsEnergy d entvar (m.elem k).e lpsCoeff 1 (m.elem k).adj (u k) else 0) +
      (∑ k ∈ range m.ne, esViscEnergy d mu Re Pr (m.elem k).e 1 (wt k) (m.elem k).adj (x k) (u k)) +
      ∑ b ∈ range m.nb, (bc b).energy entvar mu Re Pr (m.bface b) (m.elem (m.bE b)).e (wt (m.bE b))
        (m.elem (m.bE b)).adj (u (m.bE b)) := by
  unfold nsEntropyChange
  simp only
  rw [forN_sum, forN_sum]
  congr 2
  split_ifs
  · rw [forN_sum, forN_sum, zero_add]
  · rw [forN_sum, zero_add, add_zero]

/-- **Entropy stability of the Navier–Stokes discretisation.**  For every conforming mesh of
diagonal-norm elements, every admissible continuous state in conservative variables, constant
positive viscosity or Sutherland's law, positive Reynolds and Prandtl numbers, and every combination
of the boundary conditions: the entropy change reported by the flow residual is at least the viscous
dissipation of the discrete gradients (which is non-negative) plus what the boundary conditions
supply, up to `1e-16` of the mass fluxes. -/
theorem C114_entropy_stability (hd : d ≤ 3) (lpsCoeff mu Re Pr : ℝ) (hRe : 0 < Re) (hPr : 0 < Pr)
    (hmu : mu ≠ 0) (m : FlowMesh) (hc : Conforming d m) (hE : ∀ k < m.ne, DiagE (m.elem k).e)
    (wt : ℕ → ℕ → ℝ) (hwt : ∀ k < m.ne, ∀ i < (m.elem k).e.dof, 0 < wt k i)
    (hH : ∀ k < m.ne, ∀ i < (m.elem k).e.dof, 0 < (m.elem k).e.H i)
    (hfw : ∀ b < m.nb, ∀ a < (m.bface b).n, 0 ≤ (m.bface b).w a)
    (hfn : ∀ b < m.nb, ∀ a < (m.bface b).n, toDir d ((m.bface b).nrm a) ≠ 0)
    (x : ℕ → ℕ → ℕ → ℝ) (bc : ℕ → Bnd d) (hbc : ∀ b < m.nb, (bc b).refOk) (u : ℕ → ℕ → ℝ)
    (hu : ∀ k < m.ne, ∀ i < (m.elem k).e.dof, Admissible (stateAt d (m.elem k).e (u k) i))
    (hcont : ∀ f < m.nf, ∀ a < (m.face f).n,
      stateAt d (m.elem (m.fL f)).e (u (m.fL f)) ((m.face f).left a) =
        stateAt d (m.elem (m.fR f)).e (u (m.fR f)) ((m.face f).right a)) :
    0 ≤ nsDissipation d mu Re Pr m wt u ∧
    nsSupply mu Re Pr m wt bc u + nsDissipation d mu Re Pr m wt u -
        1 / 10 ^ 16 * volMass d false m u ≤
      nsEntropyChange d false lpsCoeff mu Re Pr m wt x bc u := by
  have hphys : AllPhysical d false m u := by
    intro k hk i hi
    have := hu k hk i hi
    simpa [Physical, node, stateAt] using this
  have hdis : ∑ k ∈ range m.ne,
      esViscEnergy d mu Re Pr (m.elem k).e 1 (wt k) (m.elem k).adj (x k) (u k) =
      nsDissipation d mu Re Pr m wt u := by
    unfold nsDissipation
    refine sum_congr rfl fun k hk => ?_
    rw [mem_range] at hk
    rw [C113_dissipation mu Re Pr _ (hc.dim k hk) (hE k hk) 1 (wt k)
      (fun i hi => (mul_pos (hH k hk i hi) (hwt k hk i hi)).ne'), one_mul]
  have hdpos : 0 ≤ nsDissipation d mu Re Pr m wt u := by
    rw [← hdis]
    refine sum_nonneg fun k hk => ?_
    rw [mem_range] at hk
    exact C113_entropy_stable hd mu Re Pr hRe hPr _ (hc.dim k hk) (hE k hk) 1 zero_le_one _
      (fun i hi => mul_pos (hH k hk i hi) (hwt k hk i hi)) _ _ _ (hu k hk)
  refine ⟨hdpos, ?_⟩
  have hb : nsSupply mu Re Pr m wt bc u +
      ∑ b ∈ range m.nb, facePsi d false m u (m.bface b) (m.bface b).left (m.bE b) ≤
      ∑ b ∈ range m.nb, (bc b).energy false mu Re Pr (m.bface b) (m.elem (m.bE b)).e (wt (m.bE b))
        (m.elem (m.bE b)).adj (u (m.bE b)) := by
    rw [nsSupply, ← sum_add_distrib]
    refine sum_le_sum fun b hb => ?_
    rw [mem_range] at hb
    have hk := hc.bE_lt b hb
    refine le_trans (le_of_eq ?_) (bnd_bound mu Re Pr hRe hmu (m.bface b) (m.elem (m.bE b)).e
      (hc.dim _ hk) (hE _ hk) (wt (m.bE b)) (hwt _ hk) (m.elem (m.bE b)).adj (u (m.bE b)) (bc b)
      (hbc b hb) (hc.bleft_lt b hb) (hfw b hb) (hfn b hb) (hu _ hk))
    rw [facePsi, ← sum_add_distrib]
    refine sum_congr rfl fun a _ => ?_
    rw [consAt_false, mul_add]
    rfl
  have hv := vol_bound false m hc u hphys
  rw [total_psi false m hc u] at hv
  have hz : ∑ f ∈ range m.nf, (facePsi d false m u (m.face f) (m.face f).left (m.fL f) -
        facePsi d false m u (m.face f) (m.face f).right (m.fR f)) = 0 := by
    refine sum_eq_zero fun f hf => ?_
    rw [mem_range] at hf
    rw [facePsi, facePsi, ← sum_sub_distrib]
    refine sum_eq_zero fun a ha => ?_
    rw [mem_range] at ha
    have h := hcont f hf a ha
    unfold stateAt at h
    rw [consAt_false, consAt_false, node, node, h, sub_self]
  rw [hz, zero_add, abs_le] at hv
  have hl : 0 ≤ (if 0 < lpsCoeff then ∑ k ∈ range m.ne,
      entLpsEnergy d false (m.elem k).e lpsCoeff 1 (m.elem k).adj (u k) else 0) := by
    split_ifs with h
    · refine sum_nonneg fun k hk => ?_
      rw [mem_range] at hk
      exact C98_dissipation false _ _ _ _ _ h.le zero_le_one (hc.norm k hk)
        (fun i hi => hphys k hk i hi)
    · exact le_rfl
  rw [ns_split, hdis]
  linarith [hv.1]

/-- **Closed box.**  With slip and no-slip walls only, the total entropy change reported is
non-negative (up to rounding): the flow cannot gain mathematical entropy. -/
theorem C114_walls (hd : d ≤ 3) (lpsCoeff mu Re Pr : ℝ) (hRe : 0 < Re) (hPr : 0 < Pr)
    (hmu : mu ≠ 0) (m : FlowMesh) (hc : Conforming d m) (hE : ∀ k < m.ne, DiagE (m.elem k).e)
    (wt : ℕ → ℕ → ℝ) (hwt : ∀ k < m.ne, ∀ i < (m.elem k).e.dof, 0 < wt k i)
    (hH : ∀ k < m.ne, ∀ i < (m.elem k).e.dof, 0 < (m.elem k).e.H i)
    (hfw : ∀ b < m.nb, ∀ a < (m.bface b).n, 0 ≤ (m.bface b).w a)
    (hfn : ∀ b < m.nb, ∀ a < (m.bface b).n, toDir d ((m.bface b).nrm a) ≠ 0)
    (x : ℕ → ℕ → ℕ → ℝ) (bc : ℕ → Bnd d)
    (hbc : ∀ b < m.nb, bc b = .slipWall ∨ ∃ q, Admissible q ∧ bc b = .noSlip q) (u : ℕ → ℕ → ℝ)
    (hu : ∀ k < m.ne, ∀ i < (m.elem k).e.dof, Admissible (stateAt d (m.elem k).e (u k) i))
    (hcont : ∀ f < m.nf, ∀ a < (m.face f).n,
      stateAt d (m.elem (m.fL f)).e (u (m.fL f)) ((m.face f).left a) =
        stateAt d (m.elem (m.fR f)).e (u (m.fR f)) ((m.face f).right a)) :
    -(1 / 10 ^ 16 * volMass d false m u) ≤
      nsEntropyChange d false lpsCoeff mu Re Pr m wt x bc u := by
  have hok : ∀ b < m.nb, (bc b).refOk := by
    intro b hb
    obtain h | ⟨q, hq, h⟩ := hbc b hb <;> rw [h]
    · trivial
    · exact hq
  have h := C114_entropy_stability hd lpsCoeff mu Re Pr hRe hPr hmu m hc hE wt hwt hH hfw hfn x bc
    hok u hu hcont
  have hz : nsSupply mu Re Pr m wt bc u = 0 := by
    refine sum_eq_zero fun b hb => sum_eq_zero fun a _ => ?_
    rw [mem_range] at hb
    obtain h | ⟨q, hq, h⟩ := hbc b hb <;> rw [h] <;> simp [Bnd.supply]
  rw [hz] at h
  linarith [h.1, h.2]

/-- The hypotheses of `C114_walls` are met by a continuous, non-uniform, moving gas on the two-element
mesh, with a slip wall on the left and a no-slip wall on the right. -/
example : ∃ u : ℕ → ℕ → ℝ,
    (∀ k < twoElems.ne, ∀ i < (twoElems.elem k).e.dof,
      Admissible (stateAt 1 (twoElems.elem k).e (u k) i)) ∧
    (∀ f < twoElems.nf, ∀ a < (twoElems.face f).n,
      stateAt 1 (twoElems.elem (twoElems.fL f)).e (u (twoElems.fL f)) ((twoElems.face f).left a) =
        stateAt 1 (twoElems.elem (twoElems.fR f)).e (u (twoElems.fR f)) ((twoElems.face f).right a)) ∧
    stateAt 1 segE (u 0) 0 ≠ stateAt 1 segE (u 0) 1 ∧
    -(1 / 10 ^ 16 * volMass 1 false twoElems u) ≤
      nsEntropyChange 1 false 1 1 10 (72 / 100) twoElems (fun _ _ => 1) (fun _ _ _ => 0)
        (fun b => if b = 0 then .slipWall else .noSlip ⟨1, fun _ => 0, 5 / 2⟩) u := by
  have hA : ∀ k < twoElems.ne, ∀ i < (twoElems.elem k).e.dof,
      Admissible (stateAt 1 (twoElems.elem k).e
        ((fun k p => if p / 2 = 0 then 1 + (k : ℝ) + (p % 2 : ℕ) else if p / 2 = 1 then 1 else 5) k)
          i) := by
    intro k hk i hi
    have hk' : k < 2 := hk
    have hi' : i < 2 := hi
    simp only [Admissible, toState, stateAt, row]
    interval_cases k <;> interval_cases i <;> simp [twoElems, segE] <;> norm_num
  have hC : ∀ f < twoElems.nf, ∀ a < (twoElems.face f).n,
      stateAt 1 (twoElems.elem (twoElems.fL f)).e
          ((fun k p => if p / 2 = 0 then 1 + (k : ℝ) + (p % 2 : ℕ) else if p / 2 = 1 then 1 else 5)
            (twoElems.fL f)) ((twoElems.face f).left a) =
        stateAt 1 (twoElems.elem (twoElems.fR f)).e
          ((fun k p => if p / 2 = 0 then 1 + (k : ℝ) + (p % 2 : ℕ) else if p / 2 = 1 then 1 else 5)
            (twoElems.fR f)) ((twoElems.face f).right a) := by
    intro f _ a _
    ext i <;> simp [stateAt, toState, row, twoElems, segE, ptFace]
  refine ⟨fun k p => if p / 2 = 0 then 1 + k + (p % 2 : ℕ) else if p / 2 = 1 then 1 else 5,
    hA, hC, ?_, ?_⟩
  · intro h
    have := congrArg State.rho h
    simp [stateAt, toState, row, segE] at this
  · refine C114_walls (by norm_num) _ _ _ _ (by norm_num) (by norm_num) (by norm_num) twoElems
      twoElems_conforming (fun k _ => segE_diagE) _ (fun _ _ _ _ => one_pos)
      (fun _ _ _ _ => one_pos) ?_ ?_ _ _ ?_ _ hA hC
    · intro b _ a _
      by_cases h : b = 0 <;> simp [twoElems, ptFace, h]
    · intro b _ a _ h0
      have := congrFun h0 0
      by_cases h : b = 0 <;> simp [twoElems, ptFace, h, toDir] at this
    · intro b _
      by_cases h : b = 0
      · left; simp [h]
      · right
        refine ⟨_, ?_, by simp [h]; rfl⟩
        rw [admissible_iff]; simp [pressure, dot, gami_eq]

end Verif.NavierStokes
