import Verif.EulerIntegProps
import Verif.EulerMoreProps
import Mathlib.Analysis.SpecialFunctions.Log.Basic

/-!
Properties C98-C101: Euler stabilisation, boundary conditions and functionals, interface terms.
-/

namespace Verif.EulerInteg
open Finset Verif.EulerFluxes Verif.Sbp Verif.Inviscid

set_option linter.unusedSectionVars false

variable {d : ℕ}

/-! ### C98: entropy-stable local projection -/

theorem sum_mul_ofState (v : ℕ → ℝ) (s : State d) :
    ∑ n ∈ range (d + 2), v n * ofState s n = inner2 (toState d v) s := by
  rw [← toState_ofState s, ← sum_ofState, toState_ofState]
  exact sum_congr rfl fun n hn => by rw [ofState_toState v n (mem_range.1 hn)]

theorem Physical.lps {entvar : Bool} {q : ℕ → ℝ} (_h : Physical d entvar q) (adjJ : ℕ → ℕ → ℝ)
    (v : ℕ → ℝ) : lpsScale d entvar adjJ q v =
      ofState (applyLPSScaling (fun i k => adjJ k i) (consAt d entvar q) (toState d v)) := by
  cases entvar <;> simp [lpsScale, consAt, consOf, applyLPSScalingUsingEntVars]

/-- The stabilisation never produces entropy: for all physical states, non-negative coefficients and
weights, the reported entropy change (which enters `dS/dt` with a minus sign) is non-negative. -/
theorem C98_dissipation (entvar : Bool) (e : Elem ℝ) (alpha lps : ℝ) (adj : ℕ → ℕ → ℕ → ℝ)
    (u : ℕ → ℝ) (ha : 0 ≤ alpha) (hl : 0 ≤ lps) (hH : ∀ k < e.dof, 0 ≤ e.H k)
    (hu : ∀ i < e.dof, Physical d entvar (row u e.dof i)) :
    0 ≤ entLpsEnergy d entvar e alpha lps adj u := by
  rw [entLpsEnergy, entropyChange_eq]
  refine C93_dissipation e (d + 2) alpha lps (lpsConvert d entvar) _ u ha hl hH fun k hk v => ?_
  rw [(hu k hk).lps, sum_mul_ofState]
  exact (C76_lps _ _ _ (hu k hk).adm).1

/-- The reported entropy change is the residual tested with the entropy variables. -/
theorem C98_energy_is_tested_residual (entvar : Bool) (e : Elem ℝ) (alpha lps : ℝ)
    (adj : ℕ → ℕ → ℕ → ℝ) (u : ℕ → ℝ) (hu : ∀ i < e.dof, Physical d entvar (row u e.dof i)) :
    entLpsEnergy d entvar e alpha lps adj u = ∑ i ∈ range e.dof,
      inner2 (calcEntropyVars (consAt d entvar (row u e.dof i)))
        (toState d (row (entLpsVec d entvar e alpha lps adj u) e.dof i)) := by
  rw [entLpsEnergy, entropyChange_eq, sum_comm]
  refine sum_congr rfl fun i hi => ?_
  rw [← (hu i (mem_range.1 hi)).w, ← sum_ofState]
  rfl

/-- Mass, momentum and energy are conserved when constants are in the element's polynomial space. -/
theorem C98_conservation (entvar : Bool) (e : Elem ℝ) (hV : Orthonormal e) (alpha lps : ℝ)
    (adj : ℕ → ℕ → ℕ → ℝ) (u : ℕ → ℝ) (c : ℕ → ℝ)
    (hc : ∀ j < e.dof, ∑ k ∈ range e.nv, c k * e.V j k = 1) (n : ℕ) (hn : n < d + 2) :
    ∑ i ∈ range e.dof, entLpsVec d entvar e alpha lps adj u (n * e.dof + i) = 0 :=
  C93_conservation e hV (d + 2) alpha lps _ _ u c hc n hn

theorem applyLPS_zero (adjJ : Fin d → Fin d → ℝ) (q : State d) :
    applyLPSScaling adjJ q ⟨0, fun _ => 0, 0⟩ = ⟨0, fun _ => 0, 0⟩ := by
  unfold applyLPSScaling calcdQdWProduct
  ext i <;> simp

/-- A uniform flow is not touched by the stabilisation (constants in the polynomial space). -/
theorem C98_freestream (entvar : Bool) (e : Elem ℝ) (hV : Orthonormal e) (alpha lps : ℝ)
    (adj : ℕ → ℕ → ℕ → ℝ) (u q : ℕ → ℝ) (c : ℕ → ℝ)
    (hc : ∀ j < e.dof, ∑ k ∈ range e.nv, c k * e.V j k = 1)
    (hu : ∀ i < e.dof, row u e.dof i = q) (n i : ℕ) (hn : n < d + 2) (hi : i < e.dof) :
    entLpsVec d entvar e alpha lps adj u (n * e.dof + i) = 0 := by
  refine C93_consistency e hV (d + 2) alpha lps _ _ u ?_
    (fun n k => lpsConvert d entvar q n * c k) ?_ n i hn hi
  · intro k q v hv n hn
    have hz : toState d v = ⟨0, fun _ => 0, 0⟩ := by
      unfold toState
      ext i
      · exact hv 0 (by omega)
      · exact hv _ (by have := i.2; omega)
      · exact hv _ (by omega)
    have : ∀ b : Bool, lpsScale d b (adj k) q v = ofState (⟨0, fun _ => 0, 0⟩ : State d) := by
      intro b
      cases b <;> simp [lpsScale, hz, applyLPSScalingUsingEntVars, applyLPS_zero]
    rw [this]
    unfold ofState
    split_ifs <;> rfl
  · intro n _ j hj
    have h1 : (fun m => u (m * e.dof + j)) = q := hu j hj
    have h2 : ∑ k ∈ range e.nv, lpsConvert d entvar q n * c k * e.V j k =
        lpsConvert d entvar q n * ∑ k ∈ range e.nv, c k * e.V j k := by
      rw [mul_sum]; exact sum_congr rfl fun k _ => by ring
    rw [h1, h2, hc j hj, mul_one]

/-- The documented scaling: `dQ/dW v` times the average spectral radius over the **rows** of the
adjugate (the contravariant directions). -/
noncomputable def specLpsScale (d : ℕ) (adjJ : ℕ → ℕ → ℝ) (q v : State d) : State d :=
  let spect := (∑ i : Fin d, calcSpectralRadius false (fun k : Fin d => adjJ i k) q) / (d : ℝ)
  ⟨spect * (calcdQdWProduct q v).rho, fun i => spect * (calcdQdWProduct q v).mom i,
    spect * (calcdQdWProduct q v).ener⟩

/-- For a symmetric adjugate the scaling is the documented one. -/
theorem C98_scaling_rows_partial (adjJ : ℕ → ℕ → ℝ) (hs : ∀ i k, adjJ i k = adjJ k i) (q v : State d) :
    toState d (lpsScale d false adjJ (ofState q) (ofState v)) = specLpsScale d adjJ q v := by
  simp only [lpsScale, Bool.false_eq_true, if_false, toState_ofState]
  unfold applyLPSScaling specLpsScale
  simp only [fun i k : Fin d => hs k i, mul_comm]

/-- For a sheared mapping it is not: the integrator passes the untransposed adjugate, so the spectral
radii are taken over its columns. -/
theorem C98_scaling_rows_false : ¬ ∀ (adjJ : ℕ → ℕ → ℝ) (q v : State 2), Admissible q →
    toState 2 (lpsScale 2 false adjJ (ofState q) (ofState v)) = specLpsScale 2 adjJ q v := by
  intro h
  have h1 := congrArg State.rho (h (fun i k => if i = 0 ∧ k = 1 then 0 else 1) ⟨1, ![1, 0], 3⟩
    ⟨1, ![0, 0], 0⟩ (by constructor <;> norm_num [Fin.sum_univ_two]))
  simp only [lpsScale, Bool.false_eq_true, if_false, toState_ofState] at h1
  simp [applyLPSScaling, specLpsScale, calcSpectralRadius, calcdQdWProduct, consOf, dot,
    Fin.sum_univ_two] at h1
  linarith

/-! ### C99: boundary conditions -/

/-- The slip wall adds exactly the entropy potential: no entropy is produced at the wall. -/
theorem C99_slipwall (entvar : Bool) (x dir q : ℕ → ℝ) (h : Physical d entvar q) :
    testedFlux d entvar (slipWallFlux d entvar) x dir q = psi (toDir d dir) (consAt d entvar q) := by
  unfold testedFlux slipWallFlux
  rw [vdot_ofState, h.w, ← C59_slipwall_entropy _ _ h.adm]
  cases entvar
  · simp [consAt, consOf]
  · rw [← C59_slipwall_entvars _ _ h.adm, ← h.w]
    simp [entVarsOf]

/-- The control boundary injects the entropy transported by the control velocity. -/
theorem C99_control (entvar : Bool) (control : ℝ) (scale : (ℕ → ℝ) → ℝ) (x dir q : ℕ → ℝ)
    (h : Physical d entvar q) :
    testedFlux d entvar (controlFlux d entvar control scale) x dir q =
      psi (toDir d dir) (consAt d entvar q) -
        control * scale x * √(∑ i, toDir d dir i ^ 2) * specS (consAt d entvar q) := by
  unfold testedFlux controlFlux
  rw [vdot_ofState, h.w]
  have := C77_control_entropy (toDir d dir) (consAt d entvar q) (control * scale x) h.adm
  rw [show consOf entvar (toState d q) = consAt d entvar q from rfl]
  linarith

theorem ecAliased_entropy (dir : Fin d → ℝ) (qbnd q : State d) (entflux : ℝ) (h : Admissible q) :
    inner2 (calcEntropyVars q) (calcBoundaryFluxECAliased dir qbnd q entflux)
      = psi dir q + entflux := by
  have hw : calcEntropyVars q ≠ ⟨0, fun _ => 0, 0⟩ := by
    intro e
    have := C53_entvars_range q h
    rw [e] at this; simp at this
  have hpos := C58_positive_definite q _ h hw
  unfold calcBoundaryFluxECAliased
  simp only [inner_map2]
  change inner2 _ _ - (inner2 _ _ - psi dir q - entflux) / inner2 _ _ * inner2 _ _ = _
  rw [div_mul_cancel₀ _ hpos.ne']
  ring

/-- The time-dependent entropy-conservative boundary injects exactly the entropy carried by the
boundary state; the point functional returns that value although it computes the flux into the
storage that also holds the boundary state. -/
theorem C99_entropy_conservative (entvar : Bool) (bc : (ℕ → ℝ) → State d) (x dir q : ℕ → ℝ)
    (h : Physical d entvar q) (hb : Admissible (bc x)) :
    ecBndryFun d entvar bc x dir q = psi (toDir d dir) (consAt d entvar q) +
        (∑ i, (bc x).mom i * toDir d dir i) / (bc x).rho * specS (bc x) ∧
    testedFlux d entvar (ecFlux d entvar bc) x dir q = ecBndryFun d entvar bc x dir q := by
  have h1 : ecBndryFun d entvar bc x dir q = psi (toDir d dir) (consAt d entvar q) +
      ecEntFlux (toDir d dir) (bc x) := by
    unfold ecBndryFun
    simp only
    rw [vdot_ofState, h.w, show consOf entvar (toState d q) = consAt d entvar q from rfl,
      ecAliased_entropy _ _ _ _ h.adm]
  refine ⟨?_, ?_⟩
  · rw [h1, ecEntFlux, C75_entropy_value _ hb]; rfl
  · rw [h1]
    unfold testedFlux ecFlux
    rw [vdot_ofState, h.w, show consOf entvar (toState d q) = consAt d entvar q from rfl,
      C57_prescribed_entropy_flux _ _ _ _ h.adm]

/-- The flux that the functional computes in aliased storage is nevertheless not the flux the
residual uses: only its entropy content is right. -/
theorem C99_aliased_flux_differs : ¬ ∀ (dir : Fin 1 → ℝ) (qb q : State 1), Admissible qb →
    Admissible q → dir ≠ 0 → calcBoundaryFluxAliased dir qb q = calcBoundaryFlux dir qb q := by
  intro h
  have h1 := congrArg State.rho (h ![1] ⟨1, ![0], 25 / 14⟩ ⟨2, ![1], 3⟩
    (by constructor <;> norm_num) (by constructor <;> norm_num)
    (fun h => by have := congrFun h 0; norm_num at this))
  have hs : √(1 : ℝ) = 1 := Real.sqrt_one
  simp [calcBoundaryFluxAliased, calcBoundaryFlux, addWaves, dot, State.map2, calcEulerFlux, gamma_eq,
    gami_eq, pressure] at h1
  norm_num at h1

/-- Each boundary condition's face functional is the assembled residual tested with the entropy
variables of the nodal states. -/
theorem C99_energy (entvar : Bool) (f : Face ℝ) (N : ℕ) (alpha : ℝ)
    (flux : (ℕ → ℝ) → (ℕ → ℝ) → (ℕ → ℝ) → (ℕ → ℝ)) (u : ℕ → ℝ) (hl : ∀ i < f.n, f.left i < N)
    (hu : ∀ a < N, Physical d entvar (row u N a)) :
    bndEnergy f N alpha (testedFlux d entvar flux) u = ∑ a ∈ range N,
      inner2 (calcEntropyVars (consAt d entvar (row u N a)))
        (toState d (row (bndVec f N (d + 2) alpha flux u) N a)) := by
  rw [C94_energy f N (d + 2) alpha flux (fun q => ofState (entVarsOf entvar (toState d q)))
    (testedFlux d entvar flux) u (fun i _ => vdot_eq _ _ _) hl, sum_comm]
  refine sum_congr rfl fun a ha => ?_
  rw [← (hu a (mem_range.1 ha)).w, ← sum_ofState]
  rfl

/-! ### C100: functionals -/

/-- The pressure force is `p (n · e)` at every wall point. -/
theorem C100_pressure_force (entvar : Bool) (e : Fin d → ℝ) (x dir q : ℕ → ℝ)
    (h : Physical d entvar q) :
    pressureForce d entvar e x dir q = specP (consAt d entvar q) * ∑ i, e i * toDir d dir i := by
  have hs : (calcSlipWallFlux entvar (toDir d dir) (toState d q)) =
      calcSlipWallFlux false (toDir d dir) (consAt d entvar q) := by
    cases entvar
    · simp [consAt, consOf]
    · rw [← C59_slipwall_entvars _ _ h.adm, ← h.w]; simp [entVarsOf]
  unfold pressureForce
  rw [hs, dot, mul_sum]
  refine sum_congr rfl fun i _ => ?_
  rw [(C59_slipwall _ _).2.2 i]; ring

/-- The entropy output integrates the mathematical entropy `-ρ s/(γ-1)` whatever the variables. -/
theorem C100_entropy (entvar : Bool) (x u : ℕ → ℝ) (h : Physical d entvar u) :
    entropyVolFun d entvar x u = specS (consAt d entvar u) := by
  unfold entropyVolFun entropyOf
  cases entvar
  · simpa [consAt, consOf] using C75_entropy_value _ h.adm
  · have h1 := C75_entropy_entvars _ h.adm
    rw [← h.w] at h1
    simp only [if_true]
    simpa [entVarsOf] using h1

/-- In conservative variables the boundary-entropy functional is the scaled entropy plus the scaled
relative pressure. -/
theorem C100_boundary_entropy_partial (scale : (ℕ → ℝ) → ℝ) (x dir q : ℕ → ℝ)
    (h : Physical d false q) :
    boundaryEntropy d false scale x dir q = scale x * (specS (toState d q) +
      rhoRef * (specP (toState d q) - pressRef) / pressRef) * √(∑ i, toDir d dir i ^ 2) := by
  have ha : Admissible (toState d q) := by simpa [Physical] using h
  unfold boundaryEntropy
  simp only [entropyOf, Bool.false_eq_true, if_false]
  rw [C75_entropy_value _ ha, pressure_spec, sqsum]

/-- In entropy variables it is wrong: the pressure is computed as if the entropy variables were
conservative, so the same flow gives a different value. -/
theorem C100_boundary_entropy_false : ¬ ∀ (q : State 1) (x dir : ℕ → ℝ), Admissible q →
    boundaryEntropy 1 true (fun _ => 1) x dir (ofState (calcEntropyVars q)) =
      boundaryEntropy 1 false (fun _ => 1) x dir (ofState q) := by
  intro h
  have ha : Admissible (⟨1, ![0], 5 / 2⟩ : State 1) := by constructor <;> norm_num
  have h1 := h ⟨1, ![0], 5 / 2⟩ (fun _ => 0) (fun _ => 1) ha
  unfold boundaryEntropy at h1
  simp only [toState_ofState, entropyOf, if_true, Bool.false_eq_true, if_false] at h1
  rw [C75_entropy_entvars _ ha, ← C75_entropy_value _ ha] at h1
  have hp : pressure (⟨1, ![0], 5 / 2⟩ : State 1) = 1 := by
    rw [pressure_spec]; norm_num [specP]
  have hp2 : pressure (calcEntropyVars (⟨1, ![0], 5 / 2⟩ : State 1)) = -(2 / 5) := by
    rw [entVars_eq _ (by norm_num) (by rw [hp]; norm_num)]
    rw [hp]
    simp [pressure, dot, gami_eq]
  rw [hp, hp2] at h1
  have hd : √(dot (toDir 1 fun _ => 1) (toDir 1 fun _ => 1)) = 1 := by simp [dot, toDir]
  rw [hd] at h1
  have hb : (0 : ℝ) < 1 + 1 / 2 * gami * (2 / 10) * (2 / 10) := by rw [gami_eq]; norm_num
  have hr : 0 < rhoRef := Real.rpow_pos_of_pos hb _
  have hq : 0 < pressRef := div_pos (Real.rpow_pos_of_pos hb _) (by rw [gamma_eq]; norm_num)
  have h2 : rhoRef * (-(2 / 5) - pressRef) / pressRef = rhoRef * (1 - pressRef) / pressRef := by
    linarith
  field_simp at h2
  linarith

/-- The far-field supply rate is defined for conservative variables only (it throws otherwise) and is
then minus the entropy production of the upwind flux. -/
theorem C100_supply_rate (qfs : State d) (x dir q : ℕ → ℝ) :
    supplyRate d true qfs x dir q = none ∧
    ∃ f, calcFarFieldFlux2 false (toDir d dir) qfs (toState d q) = some f ∧
      supplyRate d false qfs x dir q = some (psi (toDir d dir) (toState d q) -
        inner2 (calcEntropyVars (toState d q)) f) := by
  refine ⟨rfl, _, rfl, ?_⟩
  unfold supplyRate
  simp only [calcFarFieldFlux2, Bool.false_eq_true, if_false, Option.map_some, vdot_ofState, entVarsOf]
  congr 2
  exact dot_comm _ _

/-- It is not the entropy the far-field boundary condition actually exchanges: the boundary condition
uses a different flux. -/
theorem C100_supply_rate_false : ¬ ∀ (qfs : State 1) (x dir q : ℕ → ℝ), Admissible qfs →
    Physical 1 false q → supplyRate 1 false qfs x dir q =
      some (psi (toDir 1 dir) (toState 1 q) -
        testedFlux 1 false (farFieldFlux 1 false qfs) x dir q) := by
  intro h
  set qb : State 1 := ⟨1, ![10], 105 / 2⟩ with hqb
  set q : State 1 := ⟨1, ![0], 5 / 2 * Real.exp 1⟩ with hq
  have he := Real.exp_pos 1
  have hab : Admissible qb := by constructor <;> norm_num [hqb]
  have haq : Admissible q := by
    constructor
    · norm_num [hq]
    · simp [hq]; norm_num; exact he
  have hpq : pressure q = Real.exp 1 := by rw [pressure_spec]; simp [specP, hq]; ring
  have h1 := h qb (fun _ => 0) (fun _ => 1) (ofState q) hab
    (by simp [Physical, toState_ofState, haq])
  obtain ⟨-, f, hf, h2⟩ := C100_supply_rate qb (fun _ => 0) (fun _ => 1) (ofState q)
  rw [h2, Option.some_inj, toState_ofState] at h1
  rw [toState_ofState] at hf
  unfold testedFlux farFieldFlux at h1
  rw [vdot_ofState, toState_ofState] at h1
  have hdir : toDir 1 (fun _ => (1 : ℝ)) = fun _ => 1 := rfl
  rw [hdir] at h1 hf
  have hA : specA2 qb = 7 / 5 := by simp [specA2, specP, hqb]; norm_num
  have hsup := (C56_farfield_supersonic_outflow (fun _ => (1 : ℝ)) qb q
    (fun h => by have := congrFun h 0; norm_num at this) hab haq (by
      rw [hA]
      have h3 : √(7 / 5 : ℝ) ≤ 10 := Real.sqrt_le_iff.2 (by norm_num)
      simpa [hqb] using h3)).1
  rw [hsup] at h1
  have hpf : physFlux (fun _ => (1 : ℝ)) q = ⟨0, fun _ => Real.exp 1, 0⟩ := by
    rw [physFlux, ← pressure_spec, hpq]
    ext i <;> simp [hq]
  have hwq : calcEntropyVars q = ⟨1, fun _ => 0, -1 / Real.exp 1⟩ := by
    unfold calcEntropyVars
    rw [hpq, gamma_eq, gami_eq]
    ext i
    · simp [hq, dot]; norm_num
    · simp [hq]
    · simp [hq]; ring
  have hf2 : f = ⟨10, fun _ => Real.exp 1, 35 * Real.exp 1⟩ := by
    have h3 : calcFarFieldFlux2 false (fun _ => (1 : ℝ)) qb q =
        some ⟨10, fun _ => Real.exp 1, 35 * Real.exp 1⟩ := by
      unfold calcFarFieldFlux2
      simp only [Bool.false_eq_true, if_false, hpq]
      congr 1
      ext i
      · simp [hqb, hq, dot]; norm_num
      · simp [hqb, hq, dot]
      · simp [hqb, hq, dot]; ring
    rw [h3, Option.some_inj] at hf
    exact hf.symm
  rw [show entVarsOf false q = calcEntropyVars q from rfl, hpf, hf2, hwq] at h1
  simp only [inner2, univ_unique, sum_const] at h1
  have : (-1 / Real.exp 1) * (35 * Real.exp 1) = -35 := by field_simp
  rw [this] at h1
  norm_num at h1

/-- The entropy the control boundary injects is the control value times the boundary-entropy
functional, except for the reference-pressure term the functional adds. -/
theorem C100_control_supply_partial (control : ℝ) (scale : (ℕ → ℝ) → ℝ) (x dir q : ℕ → ℝ)
    (h : Physical d false q) :
    testedFlux d false (controlFlux d false control scale) x dir q =
      psi (toDir d dir) (toState d q) - control * (boundaryEntropy d false scale x dir q -
        scale x * (rhoRef * (specP (toState d q) - pressRef) / pressRef) *
          √(∑ i, toDir d dir i ^ 2)) := by
  rw [C99_control false control scale x dir q h, C100_boundary_entropy_partial scale x dir q h]
  simp only [consAt, consOf, Bool.false_eq_true, if_false]
  ring

/-- So the supply-rate identity `dS = -control * boundary-entropy` is false whenever the wall pressure
differs from the reference. -/
theorem C100_control_supply_false : ¬ ∀ (control : ℝ) (scale : (ℕ → ℝ) → ℝ) (x dir q : ℕ → ℝ),
    Physical 1 false q → testedFlux 1 false (controlFlux 1 false control scale) x dir q =
      psi (toDir 1 dir) (toState 1 q) - control * boundaryEntropy 1 false scale x dir q := by
  intro h
  have hb : (0 : ℝ) < 1 + 1 / 2 * gami * (2 / 10) * (2 / 10) := by rw [gami_eq]; norm_num
  have hr : 0 < rhoRef := Real.rpow_pos_of_pos hb _
  have hp : 0 < pressRef := div_pos (Real.rpow_pos_of_pos hb _) (by rw [gamma_eq]; norm_num)
  set q : State 1 := ⟨1, ![0], 5 * pressRef⟩ with hq
  have hsp : specP q = 2 * pressRef := by simp [specP, hq]; ring
  have ha : Admissible q := by
    constructor
    · norm_num [hq]
    · have : (7 / 5 - 1 : ℝ) * (q.ener - (∑ i, q.mom i ^ 2) / (2 * q.rho)) = 2 * pressRef := hsp
      rw [this]; linarith
  have hph : Physical 1 false (ofState q) := by simp [Physical, toState_ofState, ha]
  have h1 := h 1 (fun _ => 1) (fun _ => 0) (fun _ => 1) (ofState q) hph
  rw [C100_control_supply_partial 1 (fun _ => 1) (fun _ => 0) (fun _ => 1) (ofState q) hph,
    toState_ofState, hsp] at h1
  have hd : √(∑ i, toDir 1 (fun _ => (1 : ℝ)) i ^ 2) = 1 := by simp [toDir]
  rw [hd] at h1
  have h2 : rhoRef * (2 * pressRef - pressRef) / pressRef = rhoRef := by field_simp; ring
  rw [h2] at h1
  linarith

/-- Non-vacuity: an element with two nodes and the constant projection, with two different states of a gas (density
`1` and `2` at the same velocity), meets the hypotheses of C98. -/
example : ∃ (e : Elem ℝ) (u : ℕ → ℝ) (c : ℕ → ℝ), e.dof = 2 ∧ Orthonormal e ∧ (∀ k < e.dof, 0 ≤ e.H k) ∧
    (∀ j < e.dof, ∑ k ∈ range e.nv, c k * e.V j k = 1) ∧
    (∀ i < e.dof, Physical 1 false (row u e.dof i)) ∧ row u e.dof 0 ≠ row u e.dof 1 := by
  refine ⟨{ dim := 1, dof := 2, H := fun _ => 1 / 2, Q := fun _ _ _ => 0, x := fun i _ => i, nv := 1, V := fun _ _ => 1 },
    fun n => if n = 0 then 1 else if n = 1 then 2 else if n < 4 then 1 else 9, fun _ => 1, rfl, ?_, ?_, ?_, ?_, ?_⟩
  · intro k l hk hl
    have hk' : k = 0 := Nat.lt_one_iff.1 hk
    have hl' : l = 0 := Nat.lt_one_iff.1 hl
    subst hk' hl'
    norm_num [sum_range_succ]
  · intro k _; norm_num
  · intro j _; simp
  · intro i hi
    have hi' : i < 2 := hi
    rcases (by omega : i = 0 ∨ i = 1) with rfl | rfl <;>
      norm_num [Physical, Admissible, toState, row]
  · intro h
    have := congrFun h 0
    norm_num [row] at this

end Verif.EulerInteg
