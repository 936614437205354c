import Verif.AdJacDir
import Verif.AdJacobianProps

/-! # Jacobians with respect to the direction: property theorems (C241) -/

set_option linter.unusedSectionVars false

namespace Verif.AdJacobian
open Verif.EulerFluxes Verif.Sbp Verif.Inviscid Verif.EulerInteg Finset

variable {d : ℕ} {entvar : Bool}

/-! ### Specification -/

/-- `J` (of `d + 2` rows and `d` columns) is the Jacobian of `F` at the direction `dir`: along every differentiable curve of directions
through it, `F` changes at the rate `J` gives. -/
def ExactDir (d : ℕ) (F : (ℕ → ℝ) → ℕ → ℝ) (J : ℕ → ℕ → ℝ) (dir : ℕ → ℝ) : Prop :=
  ∀ (c : ℝ → ℕ → ℝ) (w : ℕ → ℝ), c 0 = dir → (∀ m < d, HasDerivAt (fun t => c t m) (w m) 0) → ∀ n < d + 2,
    HasDerivAt (fun t => F (c t) n) (∑ m ∈ range d, J n m * w m) 0

/-- The boundary state is neither sonic nor stagnant in the direction: none of its three wave speeds vanishes. -/
def NoWaveSwitch (qb : State d) (dir : Fin d → ℝ) : Prop :=
  dot qb.mom dir / qb.rho ≠ 0 ∧
    dot qb.mom dir / qb.rho + √(gamma * pressure qb / qb.rho) * √(dot dir dir) ≠ 0 ∧
    dot qb.mom dir / qb.rho - √(gamma * pressure qb / qb.rho) * √(dot dir dir) ≠ 0

/-! ### Kernels in varying directions -/

theorem dir_exact {G : (Fin d → ℝ) → State d} {dir : ℕ → ℝ}
    (hG : ∀ (r : (Fin d → ℝ) → Fin d → ℝ) (x : Fin d → ℝ), (∀ i, DifferentiableAt ℝ (fun y => r y i) x) → r x = toDir d dir →
      SD (fun y => G (r y)) x) :
    ExactDir d (fun v => ofState (G (toDir d v))) (dense (d + 2) (stackJac (d + 2) (fun v => ofState (G (toDir d v))) dir)) dir := by
  intro c w h0 hc n hn
  refine stackJac_exact (rows := d + 2) (cols := d) (F := fun v => ofState (G (toDir d v))) (fun n _ => ?_) (fun a b h n _ => ?_) c w h0 hc n hn
  · refine SD.ofState (hG (fun v => toDir d (pad v)) _ (fun i => diff_pad _ _) ?_) n
    funext i
    simp [toDir, pad]
  · have : toDir d a = toDir d b := funext fun i => h i i.2
    show ofState (G (toDir d a)) n = ofState (G (toDir d b)) n
    rw [this]

section kernels
variable {E : Type*} [NormedAddCommGroup E] [NormedSpace ℝ E] {x : E} {r : E → Fin d → ℝ}

theorem dot_self_pos {v : Fin d → ℝ} (h : v ≠ 0) : 0 < dot v v := by
  obtain ⟨i, hi⟩ := Function.ne_iff.1 h
  unfold dot
  exact sum_pos' (fun i _ => mul_self_nonneg _) ⟨i, mem_univ _, mul_self_pos.2 hi⟩

theorem diff_dirNorm (hr : ∀ i, DifferentiableAt ℝ (fun y => r y i) x) (h : r x ≠ 0) :
    DifferentiableAt ℝ (fun y => √(dot (r y) (r y))) x :=
  (diff_dot hr hr).sqrt (dot_self_pos h).ne'

theorem diff_dotc (hr : ∀ i, DifferentiableAt ℝ (fun y => r y i) x) (v : Fin d → ℝ) :
    DifferentiableAt ℝ (fun y => dot v (r y)) x :=
  diff_dot (fun i => differentiableAt_const (v i)) hr

/-- The speed of sound as `calcBoundaryFlux` computes it. -/
theorem bnd_sound {qb : State d} (hb : qb.rho ≠ 0) :
    gami * (gamma * qb.ener * (1 / qb.rho) - gami * (1 / 2 * dot qb.mom qb.mom * (1 / qb.rho) * (1 / qb.rho)) -
      1 / 2 * dot qb.mom qb.mom * (1 / qb.rho) * (1 / qb.rho)) = gamma * pressure qb / qb.rho := by
  unfold pressure
  rw [gami_eq, gamma_eq]
  field_simp
  ring

theorem SD.addWavesDir (hr : ∀ i, DifferentiableAt ℝ (fun y => r y i) x) (u : Fin d → ℝ) (phi H a : ℝ) {Un dA l1 l2 l3 : E → ℝ}
    (hUn : DifferentiableAt ℝ Un x) (hdA : DifferentiableAt ℝ dA x) (h1 : DifferentiableAt ℝ l1 x) (h2 : DifferentiableAt ℝ l2 x)
    (h3 : DifferentiableAt ℝ l3 x) (ha : a ≠ 0) (h0 : dA x ≠ 0) (dq : State d) {flux : E → State d} (hf : SD flux x) :
    SD (fun y => EulerFluxes.addWaves (r y) u phi H a (Un y) (dA y) (l1 y) (l2 y) (l3 y) dq (flux y)) x := by
  have t1 := ((h1.fun_add h2).const_mul (1 / 2)).fun_sub h3
  have e1 := (t1.mul_const gami).dc (a * a)
  have e2 := t1.dv (hdA.fun_mul hdA) (mul_ne_zero h0 h0)
  have e34 := ((h1.fun_sub h2).const_mul (1 / 2)).dv (hdA.mul_const a) (mul_ne_zero h0 ha)
  have d2 := ((hUn.fun_neg).mul_const dq.rho).fun_add (diff_dot hr fun i => differentiableAt_const (dq.mom i))
  refine ⟨?_, fun i => ?_, ?_⟩
  · exact (hf.1.fun_add (e1.mul_const _)).fun_add (e34.fun_mul d2)
  · exact ((hf.2.1 i).fun_add (((e1.mul_const _).fun_add ((e34.const_mul gami).fun_mul (hr i))).const_mul _)).fun_add
      (d2.fun_mul ((e2.fun_mul (hr i)).fun_add (e34.mul_const _)))
  · exact (hf.2.2.fun_add (((e1.mul_const _).fun_add ((e34.const_mul gami).fun_mul hUn)).const_mul _)).fun_add
      (d2.fun_mul ((e2.fun_mul hUn).fun_add (e34.mul_const _)))

theorem SD.boundaryFluxDir (hr : ∀ i, DifferentiableAt ℝ (fun y => r y i) x) (h : r x ≠ 0) {qb : State d} (hb : Admissible qb)
    {q : State d} (hq : q.rho ≠ 0) (hw : NoWaveSwitch qb (r x)) : SD (fun y => calcBoundaryFlux (r y) qb q) x := by
  have hρ := hb.rho_pos.ne'
  have dA := diff_dirNorm hr h
  have dU := (diff_dotc hr qb.mom).mul_const (1 / qb.rho)
  have hab : ∀ l s : ℝ, max |l| (0 * s) = |l| := fun l s => by rw [zero_mul, max_eq_left (abs_nonneg _)]
  have key : ∀ {l : E → ℝ}, DifferentiableAt ℝ l x → l x ≠ 0 → ∀ s : E → ℝ,
      DifferentiableAt ℝ (fun y => 1 / 2 * (max |l y| (0 * s y) - l y)) x := by
    intro l hl h0 s
    simp only [hab]
    exact ((hl.abs h0).fun_sub hl).const_mul _
  have ha : √(gamma * pressure qb / qb.rho) ≠ 0 :=
    (Real.sqrt_pos.2 (div_pos (mul_pos (by rw [gamma_eq]; norm_num) hb.press_pos) hb.rho_pos)).ne'
  obtain ⟨w1, w2, w3⟩ := hw
  have eU : dot qb.mom (r x) * (1 / qb.rho) = dot qb.mom (r x) / qb.rho := by ring
  have df : ∀ {l3 : E → ℝ}, DifferentiableAt ℝ l3 x → SD (fun y => State.map2 (fun u v => u + l3 y * v) (calcEulerFlux (r y) q)
      (State.map2 (fun u v => u - v) q qb)) x := fun {l3} h3 =>
    SD.map2 (f := fun y u v => u + l3 y * v) (SD.eulerFlux (q := fun _ => q) hr (SD.const q) hq) (SD.const _)
      fun u v hu hv => hu.fun_add (h3.fun_mul hv)
  unfold calcBoundaryFlux
  simp only [bnd_sound hρ]
  have k1 := key (dU.fun_add (dA.mul_const √(gamma * pressure qb / qb.rho))) (by rw [eU, mul_comm]; exact w2)
  have k2 := key (dU.fun_sub (dA.mul_const √(gamma * pressure qb / qb.rho))) (by rw [eU, mul_comm]; exact w3)
  have k3 := key dU (by rw [eU]; exact w1)
  exact SD.addWavesDir hr _ _ _ _ dU dA (k1 _) (k2 _) (k3 _) ha (Real.sqrt_pos.2 (dot_self_pos h)).ne' _ (df (k3 _))

theorem SD.boundaryFluxECDir (hr : ∀ i, DifferentiableAt ℝ (fun y => r y i) x) (h : r x ≠ 0) {qb : State d} (hb : Admissible qb)
    {q : State d} (hq : q.rho ≠ 0) (hw : NoWaveSwitch qb (r x)) :
    SD (fun y => calcBoundaryFluxEC (r y) qb q (ecEntFlux (r y) qb)) x := by
  have df := SD.boundaryFluxDir hr h hb hq hw
  have dw : SD (fun _ : E => calcEntropyVars q) x := SD.const _
  have dE : DifferentiableAt ℝ (fun y => ecEntFlux (r y) qb) x := ((diff_dotc hr qb.mom).dc _).mul_const _
  have dF := (((diff_sdot dw df).fun_sub (diff_dotc hr q.mom)).fun_sub dE).dc
    (sdot (calcEntropyVars q) (calcdQdWProduct q (calcEntropyVars q)))
  exact SD.map2 (f := fun y u v => u - (sdot (calcEntropyVars q) (calcBoundaryFlux (r y) qb q) -
    dot q.mom (r y) - ecEntFlux (r y) qb) / sdot (calcEntropyVars q) (calcdQdWProduct q (calcEntropyVars q)) * v)
    df (SD.const _) fun u v hu hv => hu.fun_sub (dF.fun_mul hv)

theorem SD.controlFluxDir (hr : ∀ i, DifferentiableAt ℝ (fun y => r y i) x) (h : r x ≠ 0) (q : State d) (vel : ℝ) :
    SD (fun y => calcControlFlux (r y) q vel) x := by
  have dU := (diff_dirNorm hr h).const_mul (-vel)
  exact ⟨dU.const_mul _, fun i => (dU.const_mul _).fun_add ((hr i).mul_const _), (dU.const_mul _).fun_add (dU.const_mul _)⟩

theorem SD.slipWallDir (hr : ∀ i, DifferentiableAt ℝ (fun y => r y i) x) (entvar : Bool) (q : State d) :
    SD (fun y => calcSlipWallFlux entvar (r y) q) x :=
  ⟨differentiableAt_const _, fun i => (hr i).mul_const _, differentiableAt_const _⟩

theorem diff_spectDir (hr : ∀ i, DifferentiableAt ℝ (fun y => r y i) x) (h : r x ≠ 0) {q : State d} (hq : q.rho ≠ 0)
    (hU : dot q.mom (r x) ≠ 0) : DifferentiableAt ℝ (fun y => calcSpectralRadius false (r y) q) x :=
  (((diff_dotc hr q.mom).dc q.rho).abs (div_ne_zero hU hq)).fun_add ((diff_dirNorm hr h).const_mul _)

theorem SD.faceZDir (hr : ∀ i, DifferentiableAt ℝ (fun y => r y i) x) (a : Fin d → ℝ) (s : ℝ) (zL zR : State d) :
    SD (fun y => EulerFluxes.irFaceZ (r y) (∑ i, a i * r y i / s) zL zR) x := by
  have dU : DifferentiableAt ℝ (fun y => ∑ i, a i * r y i / s) x := DifferentiableAt.fun_sum fun i _ => ((hr i).const_mul _).dc _
  exact ⟨dU.const_mul _, fun i => ((dU.const_mul _).const_mul _).fun_add ((hr i).const_mul _), dU.const_mul _⟩

theorem SD.dissDir (hr : ∀ i, DifferentiableAt ℝ (fun y => r y i) x) (h : r x ≠ 0) (k : ℝ) {flux : E → State d} (hf : SD flux x)
    (qL qR v : State d) (hL : Admissible qL) (hR : Admissible qR) (hU : (∑ i, (qL.mom i + qR.mom i) * r x i) ≠ 0) :
    SD (fun y => State.map2 (fun u v => u + k * calcSpectralRadius false (r y)
      (State.map2 (fun x y => 1 / 2 * (x + y)) qL qR) * v) (flux y) v) x := by
  have adm := half_admissible _ _ hL hR
  have e : dot (State.map2 (fun x y => 1 / 2 * (x + y)) qL qR).mom (r x) = 1 / 2 * ∑ i, (qL.mom i + qR.mom i) * r x i := by
    unfold dot State.map2
    rw [mul_sum]
    exact sum_congr rfl fun i _ => by ring
  have ds := diff_spectDir hr h adm.rho_pos.ne' (by rw [e]; exact mul_ne_zero (by norm_num) hU)
  exact SD.map2 (f := fun y u v => u + k * calcSpectralRadius false (r y)
    (State.map2 (fun x y => 1 / 2 * (x + y)) qL qR) * v) hf (SD.const v) fun u v hu hv => hu.fun_add ((ds.const_mul k).fun_mul hv)

end kernels

/-! ### The theorems -/

/-- **C241** The two Jacobians of the Euler flux are exact, for every direction and every state of nonzero density. -/
theorem C241_euler (dir q : ℕ → ℝ) (hq : (toState d q).rho ≠ 0) :
    ExactJac (d + 2) (eulerFlux d dir) (eulerJacState d dir q) q ∧
      ExactDir d (fun r => eulerFlux d r q) (eulerJacDir d dir q) dir := by
  refine ⟨?_, ?_⟩
  · exact kernel1 (G := calcEulerFlux (toDir d dir)) fun s x hs e =>
      SD.eulerFlux (dir := fun _ => toDir d dir) (fun i => differentiableAt_const _) hs (by rw [e]; exact hq)
  · exact dir_exact (G := fun r => calcEulerFlux r (toState d q)) fun r x hr _ => SD.eulerFlux hr (SD.const _) hq

/-- **C241** The free function's Jacobian of the boundary flux by the state is exact, for every direction, prescribed state and state of
nonzero density: the wave speeds are those of the prescribed state, so there are no switches. -/
theorem C241_boundary_state (dir qref q : ℕ → ℝ) (hq : (toState d q).rho ≠ 0) :
    ExactJac (d + 2) (fun v => ofState (calcBoundaryFlux (toDir d dir) (toState d qref) (toState d v))) (freeJacState d dir qref q) q :=
  kernel1 (G := calcBoundaryFlux (toDir d dir) (toState d qref)) fun _ _ hs e => SD.boundaryFlux _ _ hs (by rw [e]; exact hq)

/-- **C241** The slip wall's Jacobian with respect to the normal is exact, for every normal and state. -/
theorem C241_slip_wall (x dir q : ℕ → ℝ) :
    ExactDir d (fun r => slipWallFlux d entvar x r q) (bcJacDir d (slipWallFlux d entvar) x dir q) dir :=
  dir_exact (G := fun r => calcSlipWallFlux entvar r (toState d q)) fun _ _ hr _ => SD.slipWallDir hr _ _

/-- **C241** The actuated wall's: exact for every nonzero normal. -/
theorem C241_control (c : ℝ) (scale : (ℕ → ℝ) → ℝ) (x dir q : ℕ → ℝ) (h : ∃ i < d, dir i ≠ 0) :
    ExactDir d (fun r => controlFlux d entvar c scale x r q) (bcJacDir d (controlFlux d entvar c scale) x dir q) dir := by
  refine dir_exact (G := fun r => calcControlFlux r (consOf entvar (toState d q)) (c * scale x)) fun r y hr e => ?_
  refine SD.controlFluxDir hr ?_ _ _
  obtain ⟨i, hi, h⟩ := h
  rw [e]
  exact fun h0 => h (congrFun h0 ⟨i, hi⟩)

/-- **C241** (partial: normals in which no wave speed of the prescribed state vanishes; see `C241_stagnant_false`.)  The far field's, the
entropy-conservative condition's and the vortex's Jacobians with respect to the normal are exact. -/
theorem C241_boundary_partial (flux : (ℕ → ℝ) → (ℕ → ℝ) → (ℕ → ℝ) → ℕ → ℝ) (qb : State d) (x dir q : ℕ → ℝ)
    (hflux : flux = farFieldFlux d entvar qb ∨ (∃ bc, flux = ecFlux d entvar bc ∧ bc x = qb) ∨
      (∃ e : d = 2, flux = vortexFlux entvar ∧ e ▸ qb = calcIsentropicVortexState (toDir 2 x)))
    (hb : Admissible qb) (hq : Physical d entvar q) (h : ∃ i < d, dir i ≠ 0) (hw : NoWaveSwitch qb (toDir d dir)) :
    ExactDir d (fun r => flux x r q) (bcJacDir d flux x dir q) dir := by
  have hd : toDir d dir ≠ 0 := by
    obtain ⟨i, hi, h⟩ := h
    exact fun h0 => h (congrFun h0 ⟨i, hi⟩)
  have hρ := hq.adm.rho_pos.ne'
  rcases hflux with rfl | ⟨bc, rfl, rfl⟩ | ⟨rfl, rfl, hqb⟩
  · exact dir_exact (G := fun r => calcBoundaryFlux r qb (consOf entvar (toState d q))) fun r y hr e =>
      SD.boundaryFluxDir hr (e ▸ hd) hb hρ (e ▸ hw)
  · exact dir_exact (G := fun r => calcBoundaryFluxEC r (bc x) (consOf entvar (toState d q)) (ecEntFlux r (bc x))) fun r y hr e =>
      SD.boundaryFluxECDir hr (e ▸ hd) hb hρ (e ▸ hw)
  · subst hqb
    exact dir_exact (d := 2) (G := fun r => calcBoundaryFlux r (calcIsentropicVortexState (toDir 2 x)) (consOf entvar (toState 2 q)))
      fun r y hr e => SD.boundaryFluxDir hr (e ▸ hd) hb hρ (e ▸ hw)

/-- **C241** (partial: normals not perpendicular to the mean momentum.)  The interface flux's Jacobian with respect to the normal, in either
set of variables, with any dissipation coefficient. -/
theorem C241_interface_partial (diss : ℝ) (dir qL qR : ℕ → ℝ) (hL : Physical d entvar qL) (hR : Physical d entvar qR)
    (h : (∑ k : Fin d, ((consAt d entvar qL).mom k + (consAt d entvar qR).mom k) * dir k) ≠ 0) :
    ExactDir d (fun r => ifaceFlux d entvar diss r qL qR) (ifaceJacDir d entvar diss dir qL qR) dir := by
  have hd : toDir d dir ≠ 0 := by
    intro h0
    refine h (sum_eq_zero fun k _ => ?_)
    rw [show dir k = 0 from congrFun h0 k, mul_zero]
  cases entvar with
  | false =>
    exact dir_exact (G := fun r => calcIsmailRoeFaceFluxWithDiss r diss (toState d qL) (toState d qR)) fun r y hr e =>
      SD.dissDir hr (e ▸ hd) diss (SD.faceZDir hr _ _ _ _) _ _ _ hL.adm hR.adm (by rw [e]; exact h)
  | true =>
    exact dir_exact (G := fun r => calcIsmailRoeFaceFluxWithDissUsingEntVars r diss (toState d qL) (toState d qR)) fun r y hr e =>
      SD.dissDir hr (e ▸ hd) diss (SD.faceZDir hr _ _ _ _) _ _ _ hL.adm hR.adm (by rw [e]; exact h)

/-! ### Where there is no Jacobian, and concrete cases -/

/-- A stream along the first axis. -/
noncomputable def stream : State 2 := ⟨1, fun i => if i = 0 then 1 else 0, 3⟩

theorem stream_admissible : Admissible stream := by
  unfold Admissible stream
  norm_num [Fin.sum_univ_two]

/-- The same stream with the density doubled at the same pressure and velocity. -/
noncomputable def denseStream : ℕ → ℝ := fun n => if n = 0 then 2 else if n = 1 then 2 else if n = 2 then 0 else 7 / 2

/-- The first component of the far-field flux of the dense stream against the stream, in the direction `(t, 1)`. -/
theorem farField_stream (x : ℕ → ℝ) (t : ℝ) :
    farFieldFlux 2 false stream x (fun n => if n = 0 then t else 1) denseStream 0 = 3 / 2 * t + 1 / 2 * |t| := by
  simp only [farFieldFlux, ofState, if_true, calcFarFieldFlux, calcBoundaryFlux, addWaves, consOf, State.map2, calcEulerFlux, dot,
    Fin.sum_univ_two, toDir, toState, stream, denseStream, Bool.false_eq_true, if_false]
  norm_num
  ring

/-- **C241 is false at normals perpendicular to the prescribed stream**: the far-field flux, as a function of the normal, has no Jacobian
there, so none of the matrices Adept may return is one. -/
theorem C241_stagnant_false (x : ℕ → ℝ) : ¬ ∃ J : ℕ → ℕ → ℝ,
    ExactDir 2 (fun r => farFieldFlux 2 false stream x r denseStream) J (fun n => if n = 0 then 0 else 1) := by
  rintro ⟨J, h⟩
  have hd := h (fun t n => if n = 0 then t else 1) (fun n => if n = 0 then 1 else 0) rfl (fun m _ => ?_) 0 (by norm_num)
  · simp only [farField_stream] at hd
    refine not_differentiableAt_abs_zero ?_
    have h1 := ((hd.differentiableAt.fun_sub ((differentiableAt_id (x := (0 : ℝ))).const_mul (3 / 2))).const_mul 2)
    refine h1.congr_of_eventuallyEq (Filter.Eventually.of_forall fun t => ?_)
    simp only [id]
    ring
  · by_cases hm : m = 0
    · simp only [hm, if_true]; exact hasDerivAt_id' _
    · simp only [hm, if_false]; exact hasDerivAt_const _ _

/-- The hypotheses of `C241_boundary_partial` are met by the stream and the normal along it. -/
example : Admissible stream ∧ NoWaveSwitch stream (toDir 2 fun n => if n = 0 then 1 else 0) := by
  refine ⟨stream_admissible, ?_⟩
  have h : √(gamma * pressure stream / stream.rho) ^ 2 = 7 / 5 := by
    rw [Real.sq_sqrt] <;> simp [pressure, stream, gamma_eq, gami_eq, dot] <;> norm_num
  have h0 := Real.sqrt_nonneg (gamma * pressure stream / stream.rho)
  unfold NoWaveSwitch
  generalize √(gamma * pressure stream / stream.rho) = a at h h0 ⊢
  refine ⟨?_, ?_, ?_⟩ <;> simp [stream, dot, toDir]
  · positivity
  · intro e; nlinarith

/-- The dense stream is a physical state. -/
example : Physical 2 false denseStream := by
  simp only [Physical, Bool.false_eq_true, if_false, Admissible, toState, denseStream, Fin.sum_univ_two]
  norm_num

end Verif.AdJacobian
