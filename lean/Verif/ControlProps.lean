import Mathlib.Tactic.Ring
import Mathlib.Tactic.FieldSimp
import Mathlib.Tactic.Linarith
import Mathlib.Tactic.Positivity
import Mathlib.Tactic.NormNum
import Mathlib.Algebra.Order.Field.Rat
import Verif.Control

/-! # Controller: property theorems (C65–C67, C72) -/

namespace Verif.Control

set_option linter.unusedSectionVars false

variable {K : Type} [Field K] [LinearOrder K] [IsStrictOrderedRing K]

/-! ### Specification: the control law -/

/-- Open-loop part of the law: `-x' = A x` with `q = β η Ti Td`, `s = β Ti + η Td`. -/
def openLoop (Td Ti eta beta : K) (x : K × K) : K × K :=
  (x.2 / (beta * eta * Ti * Td), -x.1 + (beta * Ti + eta * Td) * x.2 / (beta * eta * Ti * Td))

/-- Feedback term for the entropy error `e`. -/
def feedback (Kp Td Ti eta beta e : K) : K × K :=
  ((1 / (eta * beta) - 1) * (e * Kp / (eta * Ti * Td)),
   ((beta * Ti + eta * Td) / (eta * beta) - (Ti + Td)) * (e * Kp / (eta * Ti * Td)))

private theorem epsilon_pos : (0 : K) < epsilon := by unfold epsilon; positivity

private theorem epsilon_lt_one : (epsilon : K) < 1 := by
  unfold epsilon
  rw [div_lt_one (by positivity)]
  norm_num

private theorem setInputs_closed (c : Ctrl K) (i : Inp K) (h : i.closedLoop = none) : (c.setInputs i).1.closed = true := by
  unfold Ctrl.setInputs
  simp only [h, Option.getD_none, abs_one]
  rw [if_neg (not_lt.mpr epsilon_lt_one.le)]
  cases i.P with
  | none => rfl
  | some p => rfl

/-- **C65 (partial)** A stand-alone controller evaluated with `"closed-loop" = 0` *in that same call* uses the open-loop law; with a non-zero value or without the key it adds the feedback. -/
theorem C65_standalone_partial (c : Ctrl K) (i : Inp K) (ht : c.testOde = false) (hP : i.P = none) :
    let c' := (c.evaluate i).1
    let o := openLoop c'.Td c'.Ti c'.eta c'.beta c'.x
    let fb := feedback c'.Kp c'.Td c'.Ti c'.eta c'.beta (c'.target - c'.bndEnt)
    (i.closedLoop = some 0 → (c.evaluate i).2 = some o) ∧
    (i.closedLoop = some 1 ∨ i.closedLoop = none → (c.evaluate i).2 = some (o.1 + fb.1, o.2 + fb.2)) := by
  have key : ∀ d : Ctrl K, d.testOde = false → d.residual =
      (let o := openLoop d.Td d.Ti d.eta d.beta d.x
       let fb := feedback d.Kp d.Td d.Ti d.eta d.beta (d.target - d.bndEnt)
       if d.closed then (o.1 + fb.1, o.2 + fb.2) else o) := by
    intro d hd
    simp only [Ctrl.residual, hd, Bool.false_eq_true, if_false, openLoop, feedback]
    have e1 : 1 / (d.beta * d.eta * d.Ti * d.Td) * d.x.2 = d.x.2 / (d.beta * d.eta * d.Ti * d.Td) := by ring
    have e2 : 1 / (d.beta * d.eta * d.Ti * d.Td) * (d.beta * d.Ti + d.eta * d.Td) * d.x.2
        = (d.beta * d.Ti + d.eta * d.Td) * d.x.2 / (d.beta * d.eta * d.Ti * d.Td) := by ring
    rw [e1, e2]
  have ht' : (c.setInputs i).1.testOde = false := by
    unfold Ctrl.setInputs; simp only [hP]; exact ht
  have hno : (c.setInputs i).2 = false := by unfold Ctrl.setInputs; simp only [hP]
  refine ⟨fun h => ?_, fun h => ?_⟩
  · have hc : (c.setInputs i).1.closed = false := by
      unfold Ctrl.setInputs
      simp only [hP, h, Option.getD_some, abs_zero]
      rw [if_pos epsilon_pos]
    simp only [Ctrl.evaluate, hno, Bool.false_eq_true, if_false]
    rw [key _ ht']
    simp only [hc, Bool.false_eq_true, if_false]
  · have hc : (c.setInputs i).1.closed = true := by
      rcases h with h | h
      · unfold Ctrl.setInputs
        simp only [hP, h, Option.getD_some, abs_one]
        rw [if_neg (not_lt.mpr epsilon_lt_one.le)]
      · exact setInputs_closed c i h
    simp only [Ctrl.evaluate, hno, Bool.false_eq_true, if_false]
    rw [key _ ht']
    simp only [hc, if_true]

/-- **C65 (violated)** In the coupled flow-control residual the setting is never respected: whatever was set before and whatever the evaluation's own inputs say, the evaluation ends in closed-loop mode and
its result does not depend on the `"closed-loop"` input. -/
theorem C65_false_coupled_ignores_setting {S R : Type} (fl : Flow K S R) (c : Ctrl K) (i : CInp K S) (x0 : K × K) (v : Option K) :
    (coupledEvaluate fl c i x0).2 = (coupledEvaluate fl c { i with ctrl := { i.ctrl with closedLoop := v } } x0).2 ∧
    (((coupledEvaluate fl c i x0).2 = none) ∨ (coupledEvaluate fl c i x0).1.closed = true) := by
  constructor
  · unfold coupledEvaluate Ctrl.setInputs
    simp only
    cases i.ctrl.P with
    | none => rfl
    | some p =>
      obtain ⟨p0, p1, p2, p3⟩ := p
      simp only
      by_cases h : decide (|p1 - p2| > 10000 * epsilon) = true
      · rw [if_pos h, if_pos h]
      · rw [if_neg h, if_neg h]
  · unfold coupledEvaluate
    simp only
    split_ifs
    · left; rfl
    · right; exact setInputs_closed _ _ rfl

/-- **C65 (violated)** Also stand-alone: `setInputs({"closed-loop", 0})` followed by an evaluation whose inputs lack the key is closed-loop again, for every controller state. -/
theorem C65_false_reset (c : Ctrl K) (i : Inp K) (h : i.closedLoop = none) :
    let c1 := (c.setInputs { closedLoop := some 0 }).1
    c1.closed = false ∧ (c1.evaluate i).1.closed = true := by
  refine ⟨?_, setInputs_closed _ _ h⟩
  unfold Ctrl.setInputs
  simp only [Option.getD_some, abs_zero]
  rw [if_pos epsilon_pos]

/-- The modes give different residuals for actual data (gains 1, β = 2, error 1): the violation is observable. -/
example : ∃ c : Ctrl ℚ, c.testOde = false ∧ { c with closed := true }.residual ≠ { c with closed := false }.residual := by
  refine ⟨⟨false, 0, 0, (1, 1), 1, 1, 1, 1, 2, 1, true, (0, 0, 0, 0)⟩, rfl, by decide +kernel⟩

/-! ### C66 -/

/-- **C66** The controller residual is affine in its state with exactly the matrix returned by `getJacobian`, in both modes and both laws, for all states and increments. -/
theorem C66_jacobian_exact (c : Ctrl K) (x v : K × K) :
    { c with x := (x.1 + v.1, x.2 + v.2) }.residual =
      ({ c with x := x }.residual.1 + (c.jacobian.1 * v.1 + c.jacobian.2.1 * v.2),
       { c with x := x }.residual.2 + (c.jacobian.2.2.1 * v.1 + c.jacobian.2.2.2 * v.2)) := by
  unfold Ctrl.residual Ctrl.jacobian
  cases c.testOde <;> cases c.closed <;> simp <;> constructor <;> ring

/-- **C66** The Jacobian does not depend on the state, the boundary entropy, the target or the loop mode. -/
theorem C66_jacobian_constant (c : Ctrl K) (x : K × K) (b t : K) (m : Bool) :
    { c with x := x, bndEnt := b, target := t, closed := m }.jacobian = c.jacobian := rfl

/-- **C66** Splitting a coupled vector into control and flow parts loses nothing and puts the first `numControl` entries in the control part. -/
theorem C66_extract_states {α : Type} (n : ℕ) (l : List α) (h : n ≤ l.length) :
    (extractStates n l).1 ++ (extractStates n l).2 = l ∧ (extractStates n l).1.length = n := by
  simp [extractStates, h]

/-! ### C67 -/

/-- **C67** In test mode `x · res` is the product of the control velocity and the boundary entropy, so the controller energy `½ x·x` changes only through the exchange with the flow … -/
theorem C67_energy_exchange (c : Ctrl K) (h : c.testOde = true) :
    c.x.1 * c.residual.1 + c.x.2 * c.residual.2 = c.velocity * c.bndEnt ∧
    c.entropyChange (-c.residual.1, -c.residual.2) = c.velocity * c.bndEnt ∧
    c.entropy = 1 / 2 * (c.x.1 ^ 2 + c.x.2 ^ 2) := by
  simp only [Ctrl.residual, Ctrl.velocity, Ctrl.entropyChange, Ctrl.entropy, h, if_true]
  refine ⟨by ring, by ring, by ring⟩

/-- **C67** … and is conserved exactly when uncoupled. -/
theorem C67_conserves_uncoupled (c : Ctrl K) (h : c.testOde = true) (hb : c.bndEnt = 0) :
    c.x.1 * c.residual.1 + c.x.2 * c.residual.2 = 0 := by
  rw [(C67_energy_exchange c h).1, hb, mul_zero]

example : ∃ c : Ctrl ℚ, c.testOde = true ∧ c.bndEnt = 3 ∧ c.velocity * c.bndEnt = 6 :=
  ⟨{ Ctrl.init true ((1, 2) : ℚ × ℚ) with bndEnt := 3 }, rfl, rfl, by norm_num [Ctrl.velocity, Ctrl.init]⟩

/-! ### C72 -/

/-- The Lyapunov matrix documented in the source for given gains (`flow_control_residual.cpp:82-89`): `σ = -½(βTi + ηTd)`, `ρ = βηTiTd - σ(βTi + ηTd)`. -/
def lyapunovP (Td Ti eta beta : K) : K × K × K × K :=
  let sigma := -(1 / 2) * (beta * Ti + eta * Td)
  (beta * eta * Ti * Td - sigma * (beta * Ti + eta * Td), sigma, sigma, 1)

/-- **C72** With the documented `P` and positive gains the controller entropy is positive definite, and under the open-loop law it decays: the rate `xᵀP res` is `½ s (x₀² + x₁²/q)`. -/
theorem C72_open_loop_lyapunov (c : Ctrl K) (ht : c.testOde = false) (hc : c.closed = false)
    (h1 : 0 < c.Td) (h2 : 0 < c.Ti) (h3 : 0 < c.eta) (h4 : 0 < c.beta) (hP : c.P = lyapunovP c.Td c.Ti c.eta c.beta) :
    (c.x ≠ (0, 0) → 0 < c.entropy) ∧
    c.entropyChange (-c.residual.1, -c.residual.2) =
      1 / 2 * (c.beta * c.Ti + c.eta * c.Td) * (c.x.1 ^ 2 + c.x.2 ^ 2 / (c.beta * c.eta * c.Ti * c.Td)) ∧
    0 ≤ c.entropyChange (-c.residual.1, -c.residual.2) := by
  have hq : 0 < c.beta * c.eta * c.Ti * c.Td := by positivity
  have hs : 0 < c.beta * c.Ti + c.eta * c.Td := by positivity
  have hrate : c.entropyChange (-c.residual.1, -c.residual.2) =
      1 / 2 * (c.beta * c.Ti + c.eta * c.Td) * (c.x.1 ^ 2 + c.x.2 ^ 2 / (c.beta * c.eta * c.Ti * c.Td)) := by
    simp only [Ctrl.entropyChange, ht, Ctrl.innerP, hP, lyapunovP, Ctrl.residual, hc, Bool.false_eq_true, if_false]
    have := hq.ne'
    field_simp
    ring
  refine ⟨fun hx => ?_, hrate, ?_⟩
  · have he : c.entropy = 1 / 2 * ((c.x.2 - 1 / 2 * (c.beta * c.Ti + c.eta * c.Td) * c.x.1) ^ 2 +
        (c.beta * c.eta * c.Ti * c.Td + (c.beta * c.Ti + c.eta * c.Td) ^ 2 / 4) * c.x.1 ^ 2) := by
      simp only [Ctrl.entropy, ht, Ctrl.innerP, hP, lyapunovP, Bool.false_eq_true, if_false]
      ring
    rw [he]
    have hk : 0 < c.beta * c.eta * c.Ti * c.Td + (c.beta * c.Ti + c.eta * c.Td) ^ 2 / 4 := by positivity
    by_cases hx1 : c.x.1 = 0
    · have hx2 : c.x.2 ≠ 0 := fun h => hx (Prod.ext hx1 h)
      rw [hx1]
      have : 0 < c.x.2 ^ 2 := by positivity
      have e : (c.x.2 - 1 / 2 * (c.beta * c.Ti + c.eta * c.Td) * 0) ^ 2 = c.x.2 ^ 2 := by ring
      rw [e]
      linarith [mul_nonneg hk.le (sq_nonneg (0 : K))]
    · have h5 : 0 < (c.beta * c.eta * c.Ti * c.Td + (c.beta * c.Ti + c.eta * c.Td) ^ 2 / 4) * c.x.1 ^ 2 :=
        mul_pos hk (by positivity)
      have h6 := sq_nonneg (c.x.2 - 1 / 2 * (c.beta * c.Ti + c.eta * c.Td) * c.x.1)
      linarith
  · rw [hrate]
    have : 0 ≤ c.x.2 ^ 2 / (c.beta * c.eta * c.Ti * c.Td) := div_nonneg (sq_nonneg _) hq.le
    have := sq_nonneg c.x.1
    refine mul_nonneg (by linarith) (by linarith)

/-- **C72** The `P-matrix` input is stored as a symmetric matrix; an asymmetric one raises an exception, but is stored (symmetrised from its upper triangle) all the same. -/
theorem C72_p_matrix_symmetric (c : Ctrl K) (i : Inp K) (p0 p1 p2 p3 : K) (h : i.P = some (p0, p1, p2, p3)) :
    (c.setInputs i).1.P = (p0, p1, p1, p3) ∧ ((c.setInputs i).2 = true ↔ 10000 * epsilon < |p1 - p2|) := by
  unfold Ctrl.setInputs
  simp [h]

/-- Non-vacuity of C72. -/
example : ∃ c : Ctrl ℚ, c.testOde = false ∧ c.closed = false ∧ 0 < c.Td ∧ 0 < c.Ti ∧ 0 < c.eta ∧ 0 < c.beta ∧
    c.P = lyapunovP c.Td c.Ti c.eta c.beta ∧ c.x ≠ (0, 0) ∧ c.entropy = 3 :=
  ⟨⟨false, 0, 0, (1, 3), 1, 1, 1, 1, 1, 0, false, lyapunovP 1 1 1 1⟩, rfl, rfl, by norm_num, by norm_num, by norm_num, by norm_num, rfl,
    by decide, by norm_num [Ctrl.entropy, Ctrl.innerP, lyapunovP]⟩

/-! ### C82 -/

/-- Specification: the velocity the control law prescribes for control state `x` and boundary entropy `e`. -/
def lawVelocity (test : Bool) (Kp eta target e : K) (x : K × K) : K :=
  if test then x.2 else x.2 + Kp * (target - e) / eta

/-- **C82** A successful evaluation of the coupled residual applies to the flow exactly the control-law velocity for the control state
handed in and the boundary entropy of the flow state handed in, with each gain taken from the inputs if present and otherwise from
the last one set; the controller part is the closed-loop law for the same data. -/
theorem C82_coupled_uses_given_state {S R : Type} (fl : Flow K S R) (c c' : Ctrl K) (i : CInp K S) (x0 : K × K)
    (r : (K × K) × R) (h : coupledEvaluate fl c i x0 = (c', some r)) :
    let Kp := i.ctrl.Kp.getD c.Kp
    let eta := i.ctrl.eta.getD c.eta
    let beta := i.ctrl.beta.getD c.beta
    let Ti := i.ctrl.Ti.getD c.Ti
    let Td := i.ctrl.Td.getD c.Td
    let target := i.ctrl.target.getD c.target
    let e := fl.boundaryEntropy i.flow
    r.2 = fl.residual i.flow (lawVelocity c.testOde Kp eta target e x0) ∧
    (c.testOde = false → r.1 =
      ((openLoop Td Ti eta beta x0).1 + (feedback Kp Td Ti eta beta (target - e)).1,
       (openLoop Td Ti eta beta x0).2 + (feedback Kp Td Ti eta beta (target - e)).2)) ∧
    (c.testOde = true → r.1 = (-(5 / 100) * x0.2, 5 / 100 * x0.1 + e)) := by
  have hlt : ¬ |(1 : K)| < epsilon := by rw [abs_one]; exact not_lt.mpr epsilon_lt_one.le
  unfold coupledEvaluate at h
  simp only at h
  split_ifs at h with h0
  · exact absurd (congrArg Prod.snd h) (by simp)
  simp only [Prod.mk.injEq, Option.some.injEq] at h
  obtain ⟨-, rfl⟩ := h
  have key : ∀ d : Ctrl K, d.testOde = c.testOde → d.Kp = i.ctrl.Kp.getD c.Kp → d.eta = i.ctrl.eta.getD c.eta →
      d.beta = i.ctrl.beta.getD c.beta → d.Ti = i.ctrl.Ti.getD c.Ti → d.Td = i.ctrl.Td.getD c.Td →
      d.target = i.ctrl.target.getD c.target →
      let e := fl.boundaryEntropy i.flow
      let inner : Inp K := { state := some x0, bndEnt := some e }
      let d1 := (d.setInputs inner).1
      (d1.velocity = lawVelocity c.testOde d.Kp d.eta d.target e x0) ∧
      (c.testOde = false → (d1.setInputs inner).1.residual =
        ((openLoop d.Td d.Ti d.eta d.beta x0).1 + (feedback d.Kp d.Td d.Ti d.eta d.beta (d.target - e)).1,
         (openLoop d.Td d.Ti d.eta d.beta x0).2 + (feedback d.Kp d.Td d.Ti d.eta d.beta (d.target - e)).2)) ∧
      (c.testOde = true → (d1.setInputs inner).1.residual = (-(5 / 100) * x0.2, 5 / 100 * x0.1 + e)) := by
    intro d ht _ _ _ _ _ _
    refine ⟨?_, ?_, ?_⟩
    · simp only [Ctrl.setInputs, Ctrl.velocity, lawVelocity, Option.getD_none, Option.getD_some, hlt, if_false, if_true, ht]
    · intro hf
      rw [hf] at ht
      simp only [Ctrl.setInputs, Ctrl.residual, Option.getD_none, Option.getD_some, hlt, if_false, if_true, ht,
        Bool.false_eq_true, openLoop, feedback]
      ext
      · simp only; ring
      · simp only; ring
    · intro hf
      rw [hf] at ht
      simp only [Ctrl.setInputs, Ctrl.residual, Option.getD_none, Option.getD_some, if_true, ht]
  have hset : ∀ j : Inp K, (c.setInputs j).1.testOde = c.testOde ∧ (c.setInputs j).1.Kp = j.Kp.getD c.Kp ∧
      (c.setInputs j).1.eta = j.eta.getD c.eta ∧ (c.setInputs j).1.beta = j.beta.getD c.beta ∧
      (c.setInputs j).1.Ti = j.Ti.getD c.Ti ∧ (c.setInputs j).1.Td = j.Td.getD c.Td ∧
      (c.setInputs j).1.target = j.target.getD c.target := by
    intro j
    unfold Ctrl.setInputs
    rcases hP : j.P with _ | ⟨p0, p1, p2, p3⟩ <;> simp
  obtain ⟨a1, a2, a3, a4, a5, a6, a7⟩ := hset { i.ctrl with state := some x0 }
  have k := key _ a1 a2 a3 a4 a5 a6 a7
  simp only at k ⊢
  rw [a2, a3, a4, a5, a6, a7] at k
  exact ⟨by rw [k.1], k.2.1, k.2.2⟩

/-- **C82** Lowering the boundary entropy below the target raises the control velocity and vice versa (positive gains, outside the test mode). -/
theorem C82_feedback_direction (Kp eta target e e' : K) (x : K × K) (hK : 0 < Kp) (heta : 0 < eta) (h : e < e') :
    lawVelocity false Kp eta target e' x < lawVelocity false Kp eta target e x := by
  simp only [lawVelocity, Bool.false_eq_true, if_false]
  have : Kp * (target - e') / eta < Kp * (target - e) / eta := by
    apply div_lt_div_of_pos_right _ heta
    nlinarith
  linarith

example : (coupledEvaluate (⟨fun s => s, fun s v => s * v⟩ : Flow ℚ ℚ ℚ)
    (⟨false, 0, 0, (0, 0), 2, 1, 1, 1, 2, 5, true, (0, 0, 0, 0)⟩ : Ctrl ℚ) ⟨{}, 3⟩ (7, 1)).2.map Prod.snd = some 15 := by
  decide +kernel

end Verif.Control
