import Verif.FlowControl
import Verif.ControlProps

/-! # Coupled flow–control residual and solver: property theorems (C214, C215) -/

set_option linter.unusedSectionVars false

namespace Verif.FlowControl

open Verif.Control

variable {K : Type} [Field K] [LinearOrder K] [IsStrictOrderedRing K]

/-! ### Specification -/

/-- The gains in force: each from the inputs if present, otherwise the last one set. -/
def gain (i : Option K) (old : K) : K := i.getD old

/-- The controller's energy `½ xᵀ P x` for a matrix given by its four entries. -/
def energyP (P : K × K × K × K) (x : K × K) : K :=
  1 / 2 * (P.1 * x.1 * x.1 + (P.2.1 + P.2.2.1) * x.1 * x.2 + P.2.2.2 * x.2 * x.2)

/-- The rate `− ẋᵀ P x`. -/
def powerP (P : K × K × K × K) (x dx : K × K) : K :=
  -(dx.1 * (P.1 * x.1 + P.2.1 * x.2) + dx.2 * (P.2.2.1 * x.1 + P.2.2.2 * x.2))

/-- The velocity the closed-loop law of controller `c` prescribes at control state `x` and boundary entropy `e`. -/
def law (c : Ctrl K) (e : K) (x : K × K) : K := lawVelocity c.testOde c.Kp c.eta c.target e x

/-- Two controllers with the same parameters (they may differ in time, boundary entropy, state, loop switch). -/
def SameParams (c d : Ctrl K) : Prop :=
  c.testOde = d.testOde ∧ c.Kp = d.Kp ∧ c.Td = d.Td ∧ c.Ti = d.Ti ∧ c.eta = d.eta ∧ c.beta = d.beta ∧
    c.target = d.target ∧ c.P = d.P

private theorem eps_lt : (epsilon : K) < 1 := by
  unfold epsilon
  rw [div_lt_one (by positivity)]
  norm_num

private theorem hlt : ¬ |(1 : K)| < epsilon := by rw [abs_one]; exact not_lt.mpr eps_lt.le

private theorem set_plain (c : Ctrl K) (i : Inp K) (hP : i.P = none) (hK : i.Kp = none) (h1 : i.Td = none) (h2 : i.Ti = none)
    (h3 : i.eta = none) (h4 : i.beta = none) (h5 : i.target = none) (h6 : i.closedLoop = none) :
    (c.setInputs i).2 = false ∧ SameParams (c.setInputs i).1 c ∧ (c.setInputs i).1.closed = true ∧
    (c.setInputs i).1.x = i.state.getD c.x ∧ (c.setInputs i).1.bndEnt = i.bndEnt.getD c.bndEnt := by
  unfold Ctrl.setInputs
  simp [hP, hK, h1, h2, h3, h4, h5, h6, SameParams, hlt, -abs_one]

private theorem velocity_law (c : Ctrl K) (hc : c.closed = true) : c.velocity = law c c.bndEnt c.x := by
  unfold Ctrl.velocity law lawVelocity
  simp [hc]

private theorem law_same {c d : Ctrl K} (h : SameParams c d) (e : K) (x : K × K) : law c e x = law d e x := by
  obtain ⟨h1, h2, -, -, h3, -, h4, -⟩ := h
  unfold law
  rw [h1, h2, h3, h4]

private theorem couple_spec {S R : Type} (fl : FlowOps K S R) (o o' : Obj K) (x : K × K) (s : S) (e v : K)
    (h : o.couple fl x s = (o', some (e, v))) :
    fl.boundaryEntropy o.xAct s = some e ∧ v = law o.ctrl e x ∧ SameParams o'.ctrl o.ctrl ∧ o'.xAct = o.xAct ∧
      o'.bcX = o.bcX ∧ o'.entX = o.xAct ∧ o'.ctrl.x = x := by
  unfold Obj.couple at h
  simp only at h
  split at h
  · cases h
  · rename_i e' he
    obtain ⟨-, hs, hc, hx, hb⟩ := set_plain o.ctrl { state := some x, bndEnt := some e' } rfl rfl rfl rfl rfl rfl rfl rfl
    cases h
    refine ⟨he, ?_, hs, rfl, rfl, rfl, hx⟩
    rw [velocity_law _ hc, hb, hx]
    exact law_same hs _ _

private theorem setInputs_ctrl {S : Type} (o : Obj K) (i : CIn K S) :
    (o.setInputs i).1.ctrl.testOde = o.ctrl.testOde ∧ (o.setInputs i).1.ctrl.Kp = gain i.par.Kp o.ctrl.Kp ∧
    (o.setInputs i).1.ctrl.eta = gain i.par.eta o.ctrl.eta ∧ (o.setInputs i).1.ctrl.beta = gain i.par.beta o.ctrl.beta ∧
    (o.setInputs i).1.ctrl.Td = gain i.par.Td o.ctrl.Td ∧ (o.setInputs i).1.ctrl.Ti = gain i.par.Ti o.ctrl.Ti ∧
    (o.setInputs i).1.ctrl.target = gain i.par.target o.ctrl.target ∧
    (i.par.P = none → (o.setInputs i).1.ctrl.P = o.ctrl.P) ∧
    (∀ p0 p1 p2 p3, i.par.P = some (p0, p1, p2, p3) → (o.setInputs i).1.ctrl.P = (p0, p1, p1, p3)) := by
  unfold Obj.setInputs Ctrl.setInputs gain
  rcases i with ⟨⟨pt, pb, ps, pK, pTd, pTi, pe, pbe, ptg, pcl, _ | ⟨p0, p1, p2, p3⟩⟩, st, sd, dt, ct, xa⟩ <;>
  rcases st with _ | st <;> simp only <;> split_ifs <;> simp <;> intros <;> simp_all

private theorem setInputs_pos {S : Type} (o : Obj K) (i : CIn K S) (h : (o.setInputs i).2 = false) :
    (o.setInputs i).1.xAct = i.xAct.getD o.xAct ∧ (o.setInputs i).1.bcX = i.xAct.getD o.bcX ∧
    (o.setInputs i).1.bcControl = i.control.getD o.bcControl := by
  unfold Obj.setInputs at h ⊢
  simp only at h ⊢
  split_ifs at h ⊢ with h1
  exact ⟨rfl, rfl, rfl⟩

/-! ### C214: the coupled residual -/

/-- **C214** A successful evaluation: there is a boundary entropy `e`, measured at the actuator position in force on the flow
part of the given state; the flow residual is evaluated with the control-law velocity for `e` and the given control state, *at the same
position*; and afterwards the control boundary holds exactly that velocity and position. -/
theorem C214_evaluate {S R : Type} (fl : FlowOps K S R) (o o' : Obj K) (i : CIn K S) (x : K × K) (s : S) (r : (K × K) × R)
    (hst : i.state = some (x, s)) (h : o.evaluate fl i = (o', some r)) :
    ∃ e, fl.boundaryEntropy (i.xAct.getD o.xAct) s = some e ∧
      (let v := lawVelocity o.ctrl.testOde (gain i.par.Kp o.ctrl.Kp) (gain i.par.eta o.ctrl.eta)
          (gain i.par.target o.ctrl.target) e x
       fl.residual v (i.xAct.getD o.xAct) s = some r.2 ∧ o'.bcControl = v ∧ o'.bcX = i.xAct.getD o.xAct ∧
       o'.xAct = i.xAct.getD o.xAct ∧ law o'.ctrl e x = v ∧ o'.ctrl.testOde = o.ctrl.testOde ∧
       o'.ctrl.P = (o.setInputs i).1.ctrl.P) := by
  unfold Obj.evaluate at h
  simp only [hst] at h
  obtain ⟨a1, a2, a3, -, -, -, a7, -, -⟩ := setInputs_ctrl o i
  rcases hb : (o.setInputs i).2 with _ | _
  swap
  · rw [hb] at h; cases h
  rw [hb] at h
  obtain ⟨p1, p2, p3⟩ := setInputs_pos o i hb
  simp only at h
  rcases hc : (o.setInputs i).1.couple fl x s with ⟨o1, _ | ⟨e, v⟩⟩
  · rw [hc] at h; cases h
  rw [hc] at h
  obtain ⟨b1, b2, b3, b4, b5, b6, b7⟩ := couple_spec fl _ _ x s e v hc
  simp only at h
  rcases hr : fl.residual v o1.xAct s with _ | fr
  · rw [hr] at h; cases h
  rw [hr] at h
  simp only at h
  obtain ⟨q1, q2, q3, q4, q5⟩ := set_plain o1.ctrl { state := some x, bndEnt := some e } rfl rfl rfl rfl rfl rfl rfl rfl
  cases h
  rw [p1] at b1 b4
  have hv : v = lawVelocity o.ctrl.testOde (gain i.par.Kp o.ctrl.Kp) (gain i.par.eta o.ctrl.eta)
          (gain i.par.target o.ctrl.target) e x := by
    rw [b2, ← a1, ← a2, ← a3, ← a7]; rfl
  refine ⟨e, b1, ?_⟩
  rw [← hv]
  refine ⟨by rw [← b4]; exact hr, rfl, b4, b4, ?_, ?_, ?_⟩
  · show law _ e x = v
    rw [law_same q2, law_same b3, b2]
  · exact q2.1.trans (b3.1.trans a1)
  · exact q2.2.2.2.2.2.2.2.trans b3.2.2.2.2.2.2.2

/-- **C214** … and its controller part is the closed-loop law for the same boundary entropy and the given control state. -/
theorem C214_evaluate_control {S R : Type} (fl : FlowOps K S R) (o o' : Obj K) (i : CIn K S) (x : K × K) (s : S)
    (r : (K × K) × R) (hst : i.state = some (x, s)) (h : o.evaluate fl i = (o', some r)) (ht : o.ctrl.testOde = false) :
    ∃ e, fl.boundaryEntropy (i.xAct.getD o.xAct) s = some e ∧
      (let Td := gain i.par.Td o.ctrl.Td; let Ti := gain i.par.Ti o.ctrl.Ti
       let eta := gain i.par.eta o.ctrl.eta; let beta := gain i.par.beta o.ctrl.beta
       let fb := feedback (gain i.par.Kp o.ctrl.Kp) Td Ti eta beta (gain i.par.target o.ctrl.target - e)
       r.1 = ((openLoop Td Ti eta beta x).1 + fb.1, (openLoop Td Ti eta beta x).2 + fb.2)) := by
  unfold Obj.evaluate at h
  simp only [hst] at h
  obtain ⟨a1, a2, a3, a4, a5, a6, a7, -, -⟩ := setInputs_ctrl o i
  rcases hb : (o.setInputs i).2 with _ | _
  swap
  · rw [hb] at h; cases h
  rw [hb] at h
  obtain ⟨p1, p2, p3⟩ := setInputs_pos o i hb
  simp only at h
  rcases hc : (o.setInputs i).1.couple fl x s with ⟨o1, _ | ⟨e, v⟩⟩
  · rw [hc] at h; cases h
  rw [hc] at h
  obtain ⟨b1, -, b3, -⟩ := couple_spec fl _ _ x s e v hc
  simp only at h
  rcases hr : fl.residual v o1.xAct s with _ | fr
  · rw [hr] at h; cases h
  rw [hr] at h
  simp only at h
  obtain ⟨-, q2, q3, q4, q5⟩ := set_plain o1.ctrl { state := some x, bndEnt := some e } rfl rfl rfl rfl rfl rfl rfl rfl
  cases h
  obtain ⟨u1, u2, u3, u4, u5, u6, u7, -⟩ := q2
  obtain ⟨w1, w2, w3, w4, w5, w6, w7, -⟩ := b3
  rw [p1] at b1
  refine ⟨e, b1, ?_⟩
  unfold Ctrl.residual
  rw [u1, w1, a1, ht, q3, q4, q5, u2, w2, a2, u3, w3, a5, u4, w4, a6, u5, w5, a3, u6, w6, a4, u7, w7, a7]
  simp only [Bool.false_eq_true, if_false, if_true, Option.getD_some, openLoop, feedback]
  ext
  · simp only; ring
  · simp only; ring

/-- **C214** The coupled entropy is the flow entropy of the flow part plus the controller's energy of the control part (with the
matrix in force; outside the test mode). -/
theorem C214_entropy {S R : Type} (fl : FlowOps K S R) (o o' : Obj K) (i : CIn K S) (x : K × K) (s : S) (E : K)
    (hst : i.state = some (x, s)) (h : o.entropy fl i = (o', some E)) :
    (o.ctrl.testOde = false → i.par.P = none → E = fl.entropy s + energyP o.ctrl.P x) ∧
    (o.ctrl.testOde = false → ∀ p0 p1 p2 p3, i.par.P = some (p0, p1, p2, p3) →
      E = fl.entropy s + energyP (p0, p1, p1, p3) x) ∧
    (o.ctrl.testOde = true → E = fl.entropy s + 1 / 2 * (x.1 ^ 2 + x.2 ^ 2)) := by
  unfold Obj.entropy at h
  simp only [hst] at h
  obtain ⟨a1, -, -, -, -, -, -, a8, a9⟩ := setInputs_ctrl o i
  rcases hb : (o.setInputs i).2 with _ | _
  swap
  · rw [hb] at h; cases h
  rw [hb] at h
  obtain ⟨q1, q2, q3, q4, q5⟩ := set_plain (o.setInputs i).1.ctrl { state := some x } rfl rfl rfl rfl rfl rfl rfl rfl
  obtain ⟨t1, -, -, -, -, -, -, t8⟩ := q2
  cases h
  have hx : (Ctrl.setInputs (o.setInputs i).1.ctrl { state := some x }).1.x = x := q4
  refine ⟨fun ht hP => ?_, fun ht p0 p1 p2 p3 hP => ?_, fun ht => ?_⟩
  · unfold Ctrl.entropy Ctrl.innerP energyP
    rw [t1, a1, ht, hx, t8, a8 hP]
    simp only [Bool.false_eq_true, if_false]
    ring
  · unfold Ctrl.entropy Ctrl.innerP energyP
    rw [t1, a1, ht, hx, t8, a9 p0 p1 p2 p3 hP]
    simp only [Bool.false_eq_true, if_false]
    ring
  · unfold Ctrl.entropy
    rw [t1, a1, ht, hx]
    simp only [if_true]
    ring

/-- **C214** The entropy change: flow part with the control-law velocity for the given control state and the boundary entropy of the
given flow state, at time `t + dt`, plus the controller's `−ẋᵀPx`; all gains and the position are the ones in force. -/
theorem C214_entropy_change {S R : Type} (fl : FlowOps K S R) (o o' : Obj K) (i : CIn K S) (x dx : K × K) (s ds : S) (t dt E : K)
    (hst : i.state = some (x, s)) (hsd : i.stateDot = some (dx, ds)) (ht : i.par.time = some t) (hdt : i.dt = some dt)
    (h : o.entropyChange fl i = (o', some E)) :
    ∃ e fc, fl.boundaryEntropy o.xAct s = some e ∧ fl.entropyChange (law o.ctrl e x) o.bcX (t + dt) s = some fc ∧
      (o.ctrl.testOde = false → E = fc + powerP o.ctrl.P x dx) ∧
      (o.ctrl.testOde = true → E = fc - (x.1 * dx.1 + x.2 * dx.2)) := by
  unfold Obj.entropyChange at h
  simp only [hst, hsd, ht, hdt] at h
  rcases hc : o.couple fl x s with ⟨o1, _ | ⟨e, v⟩⟩
  · rw [hc] at h; cases h
  rw [hc] at h
  obtain ⟨b1, b2, b3, b4, b5, b6, b7⟩ := couple_spec fl _ _ x s e v hc
  simp only at h
  rcases hr : fl.entropyChange v o1.bcX (t + dt) s with _ | fc
  · rw [hr] at h; cases h
  rw [hr] at h
  simp only at h
  obtain ⟨q1, q2, q3, q4, q5⟩ := set_plain o1.ctrl { state := some x, time := some t } rfl rfl rfl rfl rfl rfl rfl rfl
  cases h
  have hx : (Ctrl.setInputs o1.ctrl { state := some x, time := some t }).1.x = x := q4
  refine ⟨e, fc, b1, by rw [← b2, ← b5]; exact hr, fun hf => ?_, fun hf => ?_⟩
  · unfold Ctrl.entropyChange Ctrl.innerP powerP
    rw [q2.1, b3.1, hf, hx, q2.2.2.2.2.2.2.2, b3.2.2.2.2.2.2.2]
    simp only [Bool.false_eq_true, if_false]
  · unfold Ctrl.entropyChange
    rw [q2.1, b3.1, hf, hx]
    simp only [if_true]
    ring

/-- **C214** Residual and entropy change agree on the coupling: the entropy change requested right after an evaluation at the same state is the
flow's at exactly the control value and position the evaluation used. -/
theorem C214_change_matches_evaluate {S R : Type} (fl : FlowOps K S R) (o o1 o2 : Obj K) (i j : CIn K S) (x dx : K × K) (s ds : S)
    (t dt E : K) (r : (K × K) × R) (hi : i.state = some (x, s)) (hst : j.state = some (x, s)) (hsd : j.stateDot = some (dx, ds))
    (ht : j.par.time = some t) (hdt : j.dt = some dt)
    (h1 : o.evaluate fl i = (o1, some r)) (h2 : o1.entropyChange fl j = (o2, some E)) :
    ∃ v p fc, fl.residual v p s = some r.2 ∧ fl.entropyChange v p (t + dt) s = some fc ∧
      (o.ctrl.testOde = false → E = fc + powerP o1.ctrl.P x dx) := by
  obtain ⟨e, he, hr, hb, hbx, hxa, hl, hto, -⟩ := C214_evaluate fl o o1 i x s r hi h1
  obtain ⟨e', fc, he', hfc, hE, -⟩ := C214_entropy_change fl o1 o2 j x dx s ds t dt E hst hsd ht hdt h2
  rw [hxa, he] at he'
  cases he'
  rw [hl, hbx] at hfc
  exact ⟨_, _, fc, hr, hfc, fun hf => hE (hto.trans hf)⟩

/-- **C214** Gains, boundary entropy, actuator position and control value handed to the entropy change are ignored: only the state, its rate,
time and `dt` count.  (Documented: "the variables needed to evaluate the entropy".) -/
theorem C214_false_change_ignores_parameters {S R : Type} (fl : FlowOps K S R) (o : Obj K) (i j : CIn K S)
    (h1 : i.state = j.state) (h2 : i.stateDot = j.stateDot) (h3 : i.par.time = j.par.time) (h4 : i.dt = j.dt) :
    o.entropyChange fl i = o.entropyChange fl j := by
  unfold Obj.entropyChange
  rw [h1, h2, h3, h4]

/-- **C214** The supply rate depends on the flow part of the state only. -/
theorem C214_supply_rate {S R : Type} (fl : FlowOps K S R) (o : Obj K) (i : CIn K S) (w : K) :
    o.supplyRate fl i = some w ↔
      ∃ x s, i.state = some (x, s) ∧ i.stateDot.isSome ∧ i.par.time.isSome ∧ i.dt.isSome ∧ w = fl.supplyRate s := by
  unfold Obj.supplyRate
  rcases i with ⟨⟨_ | pt, pb, ps, pK, pTd, pTi, pe, pbe, ptg, pcl, P⟩, _ | ⟨x, s⟩, _ | sd, _ | dt, ct, xa⟩ <;>
    simp [eq_comm]

/-- **C214** Blocks of the Jacobian: 0 is the controller's, 1 the flow's at the control value and position the *inputs or the last call* left,
anything else is refused. -/
theorem C214_jacobian_block {S R : Type} (fl : FlowOps K S R) (o : Obj K) (i : CIn K S) (x : K × K) (s : S)
    (hst : i.state = some (x, s)) (hok : (o.setInputs i).2 = false) :
    (∀ b, b ≠ 0 → b ≠ 1 → o.jacobianBlock fl i b = none) ∧
    o.jacobianBlock fl i 1 = (fl.jacobian (i.control.getD o.bcControl) (i.xAct.getD o.bcX) s).map .inr ∧
    (o.ctrl.testOde = false → o.jacobianBlock fl i 0 = some (.inl (
      let Td := gain i.par.Td o.ctrl.Td; let Ti := gain i.par.Ti o.ctrl.Ti
      let eta := gain i.par.eta o.ctrl.eta; let beta := gain i.par.beta o.ctrl.beta
      (0, 1 / (beta * eta * Ti * Td), -1, 1 / (beta * eta * Ti * Td) * (beta * Ti + eta * Td))))) := by
  obtain ⟨p1, p2, p3⟩ := setInputs_pos o i hok
  obtain ⟨a1, a2, a3, a4, a5, a6, a7, -, -⟩ := setInputs_ctrl o i
  refine ⟨fun b h0 h1 => ?_, ?_, fun ht => ?_⟩
  · unfold Obj.jacobianBlock
    simp only [hst, hok, if_neg h0, if_neg h1]
  · unfold Obj.jacobianBlock
    simp only [hst, hok, p2, p3]
    rfl
  · unfold Obj.jacobianBlock
    obtain ⟨q1, q2, q3, q4, q5⟩ := set_plain (o.setInputs i).1.ctrl { state := some x } rfl rfl rfl rfl rfl rfl rfl rfl
    obtain ⟨t1, t2, t3, t4, t5, t6, -, -⟩ := q2
    simp only [hst, hok, if_true]
    unfold Ctrl.jacobian
    rw [t1, a1, ht, t3, t4, t5, t6, a3, a4, a5, a6]
    simp only [Bool.false_eq_true, if_false]

/-- Until a control value or an actuator position is supplied, the flow block of the Jacobian of a newly built coupled residual is
taken at control zero and at the default position `(0.5, 0)`; supplied values replace them. -/
theorem C214_initial_jacobian {S R : Type} (fl : FlowOps K S R) (c : Ctrl K) (i : CIn K S) (x : K × K) (s : S)
    (hs : i.state = some (x, s)) (hok : ((Obj.init c).setInputs i).2 = false) :
    (Obj.init c).jacobianBlock fl i 1 =
      (fl.jacobian (i.control.getD 0) (i.xAct.getD [1 / 2, 0]) s).map Sum.inr := by
  have h : ((Obj.init c).setInputs i).1.bcControl = i.control.getD 0 ∧
      ((Obj.init c).setInputs i).1.bcX = i.xAct.getD [1 / 2, 0] := by
    unfold Obj.setInputs at hok ⊢
    simp only at hok ⊢
    split_ifs at hok ⊢ with h
    exact ⟨rfl, rfl⟩
  unfold Obj.jacobianBlock
  simp [hs, hok, h.1, h.2]

/-- A boundary-entropy output whose weight reads the actuator position componentwise fails on positions of another dimension
(`squaredExponential` multiplies vectors of different sizes). -/
def ReadsPosition {S R : Type} (fl : FlowOps K S R) (dim : ℕ) : Prop := ∀ p s, p.length ≠ dim → fl.boundaryEntropy p s = none

/-- **C214** If the caller never supplies an actuator position, every evaluation and entropy change of a newly built coupled residual reads
past the end of an empty vector: the default position `(0.5, 0)` of its integrators is overwritten by the residual's own empty one. -/
theorem C214_false_default_actuator {S R : Type} (fl : FlowOps K S R) (dim : ℕ) (hd : 0 < dim) (hfl : ReadsPosition fl dim)
    (c : Ctrl K) (i : CIn K S) (hx : i.xAct = none) :
    ((Obj.init c).evaluate fl i).2 = none ∧ ((Obj.init c).entropyChange fl i).2 = none := by
  have hcpl : ∀ (o : Obj K) x s, o.xAct = [] → (o.couple fl x s).2 = none := by
    intro o x s ho
    unfold Obj.couple
    simp only [ho]
    rw [hfl [] s (by simpa using hd.ne)]
  constructor
  · unfold Obj.evaluate
    simp only
    rcases hb : ((Obj.init c).setInputs i).2 with _ | _
    · obtain ⟨p1, -, -⟩ := setInputs_pos (Obj.init c) i hb
      rw [hx] at p1
      rcases hs : i.state with _ | ⟨x, s⟩
      · rfl
      · have := hcpl ((Obj.init c).setInputs i).1 x s p1
        rcases hc : ((Obj.init c).setInputs i).1.couple fl x s with ⟨o1, _ | ev⟩
        · simp only [hc]
        · rw [hc] at this; cases this
    · rcases hs : i.state with _ | ⟨x, s⟩ <;> rfl
  · unfold Obj.entropyChange
    rcases i with ⟨⟨_ | pt, pb, ps, pK, pTd, pTi, pe, pbe, ptg, pcl, P⟩, _ | ⟨x, s⟩, _ | sd, _ | dt, ct, xa⟩ <;> try rfl
    simp only
    have := hcpl (Obj.init c) x s rfl
    rcases hc : (Obj.init c).couple fl x s with ⟨o1, _ | ev⟩
    · simp only
    · rw [hc] at this; cases this

/-- **C214** Once supplied, an actuator position stays in force for all later evaluations that do not supply another. -/
theorem C214_actuator_kept_partial {S R : Type} (fl : FlowOps K S R) (o o1 o2 : Obj K) (i j : CIn K S) (x y : K × K) (s s' : S)
    (p : List K) (r r' : (K × K) × R) (hi : i.state = some (x, s)) (hj : j.state = some (y, s')) (hp : i.xAct = some p)
    (hn : j.xAct = none) (h1 : o.evaluate fl i = (o1, some r)) (h2 : o1.evaluate fl j = (o2, some r')) :
    ∃ e v, fl.boundaryEntropy p s' = some e ∧ fl.residual v p s' = some r'.2 := by
  obtain ⟨-, -, -, -, -, hxa, -⟩ := C214_evaluate fl o o1 i x s r hi h1
  obtain ⟨e', he', hr, -⟩ := C214_evaluate fl o1 o2 j y s' r' hj h2
  rw [hn, Option.getD_none, hxa, hp, Option.getD_some] at he' hr
  exact ⟨e', _, he', hr⟩

/-- A flow discipline for the examples. -/
def toyFlow : FlowOps ℚ ℚ ℚ where
  boundaryEntropy p s := if p.length = 2 then some (s + p.getD 0 0) else none
  residual v p s := if p.length = 2 then some (s * v + p.getD 1 0) else none
  entropy s := s ^ 2
  entropyChange v p t s := if p.length = 2 then some (s * v + t) else none
  supplyRate s := 3 * s
  jacobian v p _ := if p.length = 2 then some (fun w => w * v) else none

/-- A controller for the examples. -/
def toyCtrl : Ctrl ℚ := ⟨false, 0, 0, (0, 0), 2, 1, 1, 1, 2, 5, true, (1, 0, 0, 2)⟩

example : ReadsPosition toyFlow 2 := fun p s h => by simp [toyFlow, h]

example : ((Obj.init toyCtrl).evaluate toyFlow { state := some ((7, 1), 3), xAct := some [1, 4] }).2.map Prod.snd = some 13 ∧
    ((Obj.init toyCtrl).evaluate toyFlow { state := some ((7, 1), 3) }).2 = none ∧
    ((Obj.init toyCtrl).entropy toyFlow { state := some ((7, 1), 3) }).2 = some (9 + (49 + 2) / 2) ∧
    (((Obj.init toyCtrl).setInputs (S := ℚ) { xAct := some [1, 4] }).1.entropyChange toyFlow
      { state := some ((7, 1), 3), stateDot := some ((1, 1), 0), par := { time := some 2 }, dt := some 1 }).2
      = some (3 * 3 + 3 - 9) := by decide +kernel

/-! ### C215: set-up of the flow-control solver -/

omit [IsStrictOrderedRing K] [LinearOrder K] [Field K]

/-- **C215** The construction succeeds exactly when a mesh is available, its dimension matches, the state variables match, entropy variables
are only asked for in steady problems, and the control boundary is given and coincides with that of the boundary-entropy output. -/
theorem C215_construct_iff (dim : ℕ) (entvar : Bool) (meshDim : MeshSrc → ℕ) (given : Bool) (o : SolverOpts) (m : MeshSrc) :
    construct dim entvar meshDim given o = some m ↔
      m = constructMesh o.meshFile given ∧ m ≠ .exception ∧ m ≠ .nullDeref ∧ meshDim m = dim ∧ o.entropyState = entvar ∧
      (entvar = true → o.steady = true) ∧ o.bcControl = some o.entBdrs := by
  unfold construct residualOk
  simp only
  constructor
  · intro h
    split_ifs at h with h1 h2 h3 h4 h5
    push Not at h1 h2 h3 h4
    cases h
    refine ⟨rfl, h1.1, h1.2, h2, h3, fun he => ?_, ?_⟩
    · simpa using h4 he
    · rcases hb : o.bcControl with _ | l
      · rw [hb] at h5; simp at h5
      · rw [hb] at h5; simp at h5; rw [h5]
  · rintro ⟨rfl, h1, h2, h3, h4, h5, h6⟩
    rw [if_neg (by tauto), if_neg (by simpa using h3), if_neg (by simpa using h4), if_neg, if_neg]
    · rw [h6]; simp
    · rintro ⟨h7, h8⟩
      rw [h5 h7] at h8; cases h8

/-- **C215** A flow-control solver in entropy variables can be constructed but never run: the constructor requires a steady problem, the start of
every solve refuses steady problems. -/
theorem C215_false_entropy_variables (dim : ℕ) (meshDim : MeshSrc → ℕ) (given : Bool) (o : SolverOpts) (m : MeshSrc)
    (h : construct dim true meshDim given o = some m) : startOk o = false := by
  obtain ⟨-, -, -, -, -, h1, -⟩ := (C215_construct_iff dim true meshDim given o m).mp h
  simp [startOk, h1 rfl]

/-- **C215** In conservative variables every unsteady configuration that can be constructed can be started, and only those. -/
theorem C215_conservative_start_partial (dim : ℕ) (meshDim : MeshSrc → ℕ) (given : Bool) (o : SolverOpts) (m : MeshSrc)
    (_h : construct dim false meshDim given o = some m) : startOk o = true ↔ o.steady = false := by
  simp [startOk]

/-- The text after the last dot of a file name. -/
private theorem extension_dot (a ext : String) (h : '.' ∉ ext.toList) : extension (a ++ "." ++ ext) = some ext := by
  unfold extension
  have hl : (a ++ "." ++ ext).toList = a.toList ++ ('.' :: ext.toList) := by
    simp [String.toList_append]
  rw [if_pos (by rw [hl]; simp), hl]
  congr 1
  rw [← String.toList_inj]
  rw [List.reverse_append, List.reverse_cons, List.append_assoc, List.takeWhile_append_of_pos]
  · simp
  · intro c hc
    simp only [List.mem_reverse] at hc
    simp only [decide_not, Bool.not_eq_true', decide_eq_false_iff_not]
    rintro rfl
    exact h hc

/-- **C215** Where the mesh comes from: a mesh handed in is used, otherwise a `.mesh` file is read; a name without a dot is refused even if a
mesh is handed in; any other extension without a mesh handed in ends in a null dereference instead of an exception. -/
theorem C215_mesh (a ext : String) (h : '.' ∉ ext.toList) :
    constructMesh (a ++ "." ++ ext) true = .given ∧
    (ext = "mesh" → constructMesh (a ++ "." ++ ext) false = .file (a ++ "." ++ ext)) ∧
    (ext ≠ "mesh" → constructMesh (a ++ "." ++ ext) false = .nullDeref) ∧
    (∀ f g, '.' ∉ f.toList → constructMesh f g = .exception) := by
  unfold constructMesh
  rw [extension_dot a ext h]
  refine ⟨rfl, fun he => ?_, fun he => ?_, fun f g hf => ?_⟩
  · simp [he]
  · simp [he]
  · simp [extension, hf]

/-- **C215** The outputs of the coupled solver: four are outputs of the flow part, `entropy` is that of the compound state, every other name is
refused (in particular those the flow solver offers beyond these). -/
theorem C215_outputs (f : String) :
    (constructOutput f = some .compound ↔ f = "entropy") ∧
    (∀ g, constructOutput f = some (.flow g) ↔ g = f ∧ f ∈ ["drag", "lift", "boundary-entropy", "far-field-supply-rate"]) ∧
    (constructOutput f = none ↔ f ∉ ["drag", "lift", "boundary-entropy", "far-field-supply-rate", "entropy"]) := by
  unfold constructOutput
  split_ifs with h1 h2
  · refine ⟨⟨fun h => (by cases h), fun h => ?_⟩, fun g => ⟨fun h => ?_, fun h => by rw [h.1]⟩, ⟨fun h => (by cases h), fun h => ?_⟩⟩
    · subst h; revert h1; decide
    · cases h; exact ⟨rfl, by simpa using h1⟩
    · exact absurd (by simp; tauto) h
  · subst h2
    refine ⟨⟨fun _ => rfl, fun _ => rfl⟩, fun g => ⟨fun h => (by cases h), fun h => ?_⟩, ⟨fun h => (by cases h), fun h => ?_⟩⟩
    · exact absurd h.2 (by decide)
    · exact absurd (by simp) h
  · refine ⟨⟨fun h => (by cases h), fun h => absurd h h2⟩, fun g => ⟨fun h => (by cases h), fun h => ?_⟩, ⟨fun _ => ?_, fun _ => rfl⟩⟩
    · exact absurd (by simpa using h.2) h1
    · push Not at h1
      simp [h1, h2]

/-- **C215** Setting the state from a pair of functions: the flow unknowns are the flow function's on every rank, the control unknowns the control
function's on rank 0 and untouched elsewhere; neither overwrites the other and no entry is lost. -/
theorem C215_set_state {α : Type} (rank nc : ℕ) (cf pf : List α → List α) (c f : List α) (hc : c.length = nc)
    (hcf : ∀ l, (cf l).length = l.length) (hpf : ∀ l, (pf l).length = l.length) :
    extractStates nc (setState rank nc cf pf (c ++ f)) = (if rank = 0 then cf c else c, pf f) ∧
    (setState rank nc cf pf (c ++ f)).length = (c ++ f).length := by
  unfold setState extractStates
  subst hc
  have h1 : (List.take c.length (c ++ f)) = c := by simp
  have h2 : (List.drop c.length (c ++ f)) = f := by simp
  simp only [h1, h2]
  split_ifs with h0
  · rw [← hcf c]
    simp [hpf, hcf]
  · simp [hpf]

/-- Options for the example. -/
def okOpts : SolverOpts := ⟨"box.mesh", false, false, some [1, 0], [1, 0]⟩

example : construct 2 false (fun _ => 2) false okOpts = some (.file "box.mesh") ∧ startOk okOpts = true ∧
    construct 2 true (fun _ => 2) true { okOpts with entropyState := true, steady := true } = some .given ∧
    constructMesh "box.smb" false = .nullDeref := by decide +kernel

end Verif.FlowControl
