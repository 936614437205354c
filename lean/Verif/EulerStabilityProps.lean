import Verif.EulerBoundaryProps
import Mathlib.Analysis.SpecialFunctions.Pow.Deriv

/-!
# dq/dw, walls, entropy, dissipation, spectral radius (C57–C59, C75–C78)
-/

namespace Verif.EulerFluxes

variable {d : ℕ}

/-! ## C58: `dq/dw` -/

/-- Closed form of the product. -/
theorem dQdW_eq (q v : State d) (hr : q.rho ≠ 0) :
    calcdQdWProduct q v =
      (let r := q.rho * v.rho + dot q.mom v.mom + q.ener * v.ener
       let p := pressure q
       let h := (q.ener + p) / q.rho
       ⟨r, (r / q.rho + p / q.rho * v.ener) • q.mom + p • v.mom,
        q.ener * v.rho + h * dot q.mom v.mom
          + (q.rho * h ^ 2 - 7 / 2 * p ^ 2 / q.rho) * v.ener⟩) := by
  unfold calcdQdWProduct
  have h1 : ∀ j, (∑ i, q.mom j * (1 / q.rho) * q.mom i * v.mom i)
      = q.mom j / q.rho * dot q.mom v.mom := by
    intro j; unfold dot; rw [Finset.mul_sum]; exact Finset.sum_congr rfl fun i _ => by ring
  have h2 : ∀ h, (∑ i, q.mom i * h * v.mom i) = h * dot q.mom v.mom := by
    intro h; unfold dot; rw [Finset.mul_sum]; exact Finset.sum_congr rfl fun i _ => by ring
  simp only [h1, h2, gamma_eq, gami_eq]
  ext i
  · rfl
  · simp only [Pi.add_apply, Pi.smul_apply, smul_eq_mul]; field_simp; ring
  · simp only; field_simp

/-- Quadratic form in a manifestly non-negative shape. -/
theorem quad_form (q v : State d) (hr : q.rho ≠ 0) :
    inner2 v (calcdQdWProduct q v) =
      (q.rho * v.rho + dot q.mom v.mom + q.ener * v.ener) ^ 2 / q.rho
      + pressure q * dot (v.mom + (v.ener / q.rho) • q.mom) (v.mom + (v.ener / q.rho) • q.mom)
      + 5 / 2 * pressure q ^ 2 / q.rho * v.ener ^ 2 := by
  have i2 : ∀ a b : State d, inner2 a b = a.rho * b.rho + dot a.mom b.mom + a.ener * b.ener :=
    fun a b => rfl
  rw [dQdW_eq q v hr, i2]
  simp only [dot_add_left, dot_add_right, dot_smul_left, dot_smul_right, dot_comm v.mom q.mom]
  rw [ener_eq q]
  generalize pressure q = p
  field_simp
  ring

theorem C58_symmetric (q v w : State d) (h : Admissible q) :
    inner2 w (calcdQdWProduct q v) = inner2 v (calcdQdWProduct q w) := by
  have hr := h.rho_pos.ne'
  have i2 : ∀ a b : State d, inner2 a b = a.rho * b.rho + dot a.mom b.mom + a.ener * b.ener :=
    fun a b => rfl
  rw [dQdW_eq q v hr, dQdW_eq q w hr, i2, i2]
  simp only [dot_add_right, dot_smul_right, dot_comm v.mom q.mom, dot_comm w.mom q.mom,
    dot_comm w.mom v.mom]
  rw [ener_eq q]
  generalize pressure q = p
  field_simp
  ring

theorem C58_positive_definite (q v : State d) (h : Admissible q)
    (hv : v ≠ ⟨0, fun _ => 0, 0⟩) : 0 < inner2 v (calcdQdWProduct q v) := by
  have hr := h.rho_pos; have hp := h.press_pos
  rw [quad_form q v hr.ne']
  have t1 : 0 ≤ (q.rho * v.rho + dot q.mom v.mom + q.ener * v.ener) ^ 2 / q.rho := by positivity
  have t2 : 0 ≤ pressure q * dot (v.mom + (v.ener / q.rho) • q.mom)
      (v.mom + (v.ener / q.rho) • q.mom) := mul_nonneg hp.le (dot_self_nonneg _)
  have t3 : 0 ≤ 5 / 2 * pressure q ^ 2 / q.rho * v.ener ^ 2 := by positivity
  by_contra hcon
  have e3 : 5 / 2 * pressure q ^ 2 / q.rho * v.ener ^ 2 = 0 := by linarith
  have e2 : pressure q * dot (v.mom + (v.ener / q.rho) • q.mom)
      (v.mom + (v.ener / q.rho) • q.mom) = 0 := by linarith
  have e1 : (q.rho * v.rho + dot q.mom v.mom + q.ener * v.ener) ^ 2 / q.rho = 0 := by linarith
  have hve : v.ener = 0 := by
    rcases mul_eq_zero.mp e3 with h' | h'
    · exact absurd h' (by positivity)
    · exact pow_eq_zero_iff (two_ne_zero) |>.mp h'
  have hvm : v.mom = 0 := by
    rcases mul_eq_zero.mp e2 with h' | h'
    · exact absurd h' hp.ne'
    · have := dot_self_eq_zero.mp h'
      rw [hve] at this; simpa using this
  have hvr : v.rho = 0 := by
    rcases div_eq_zero_iff.mp e1 with h' | h'
    · have := pow_eq_zero_iff (two_ne_zero) |>.mp h'
      rw [hve, hvm] at this
      have hz : dot q.mom 0 = 0 := by unfold dot; simp
      rw [hz] at this
      simp at this
      rcases this with h'' | h''
      · exact absurd h'' hr.ne'
      · exact h''
    · exact absurd h' hr.ne'
  apply hv
  ext i
  · exact hvr
  · simp [hvm]
  · exact hve

/-- `calcdQdWProduct` is the derivative of the map entropy variables → conservative variables. -/
theorem C58_is_derivative (w v : State d) (hw : w.ener < 0) :
    let q := calcConservativeVars w
    HasDerivAt (fun t => (calcConservativeVars (line w v t)).rho) (calcdQdWProduct q v).rho 0 ∧
    (∀ i, HasDerivAt (fun t => (calcConservativeVars (line w v t)).mom i)
      ((calcdQdWProduct q v).mom i) 0) ∧
    HasDerivAt (fun t => (calcConservativeVars (line w v t)).ener)
      (calcdQdWProduct q v).ener 0 := by
  intro q
  have hq : q = calcConservativeVars w := rfl
  have ha := C53_cons_admissible w hw
  rw [dQdW_eq q v ha.rho_pos.ne']
  have hpq : pressure q = -rhoOfW w / w.ener := pressure_cons w hw
  rw [hpq, hq, consVars_eq w hw.ne]
  have l0 : line w v 0 = w := by ext i <;> simp [line]
  have hE : HasDerivAt (fun t => (line w v t).ener) v.ener 0 := hasDerivAt_affine w.ener v.ener
  have hR : HasDerivAt (fun t => (line w v t).rho) v.rho 0 := hasDerivAt_affine w.rho v.rho
  have hE0 : (line w v 0).ener ≠ 0 := by rw [l0]; exact hw.ne
  have hD : HasDerivAt (fun t => dot (line w v t).mom (line w v t).mom) (2 * dot w.mom v.mom) 0 := by
    simp only [dot_line_self]
    have := (hasDerivAt_affine (dot w.mom w.mom) (2 * dot w.mom v.mom)).fun_add
      ((hasDerivAt_pow 2 (0 : ℝ)).mul_const (dot v.mom v.mom))
    simpa using this
  -- derivative of the density
  have hrho : HasDerivAt (fun t => rhoOfW (line w v t))
      (rhoOfW w * v.rho - rhoOfW w / w.ener * dot w.mom v.mom
        + (-(5 / 2 * rhoOfW w / w.ener) + 1 / 2 * rhoOfW w * dot w.mom w.mom / w.ener ^ 2)
          * v.ener) 0 := by
    unfold rhoOfW
    have hs := (((((hD.const_mul (1 / 2)).fun_div hE hE0).fun_sub hR).const_mul (2 / 5 : ℝ)).const_add
      (7 / 5)).fun_neg.exp.fun_neg.fun_div hE hE0
    have hb : -Real.exp (-(7 / 5 + 2 / 5 * (1 / 2 * dot w.mom w.mom / w.ener - w.rho))) / w.ener
        ≠ 0 := by
      apply div_ne_zero _ hw.ne
      exact neg_ne_zero.mpr (Real.exp_pos _).ne'
    have := hs.rpow_const (p := 5 / 2) (Or.inl (by simpa only [l0] using hb))
    refine this.congr_deriv ?_
    simp only [l0]
    have hbpos : 0 < -Real.exp (-(7 / 5 + 2 / 5 * (1 / 2 * dot w.mom w.mom / w.ener - w.rho)))
        / w.ener := div_pos_of_neg_of_neg (neg_lt_zero.mpr (Real.exp_pos _)) hw
    rw [Real.rpow_sub_one hb]
    have hwe := hw.ne
    have hexp := (Real.exp_pos
      (-(7 / 5 + 2 / 5 * (1 / 2 * dot w.mom w.mom / w.ener - w.rho)))).ne'
    generalize (-Real.exp (-(7 / 5 + 2 / 5 * (1 / 2 * dot w.mom w.mom / w.ener - w.rho)))
        / w.ener) ^ (5 / 2 : ℝ) = P
    generalize Real.exp (-(7 / 5 + 2 / 5 * (1 / 2 * dot w.mom w.mom / w.ener - w.rho))) = X at hexp ⊢
    field_simp
    ring
  have hev : ∀ᶠ t in nhds (0 : ℝ), (line w v t).ener ≠ 0 := hE.continuousAt.eventually_ne hE0
  have hwe := hw.ne
  have hrn := (rhoOfW_pos w hw).ne'
  refine ⟨?_, ?_, ?_⟩
  · have e : (fun t => (calcConservativeVars (line w v t)).rho) =ᶠ[nhds 0]
        fun t => rhoOfW (line w v t) := by
      filter_upwards [hev] with t ht
      rw [consVars_eq _ ht]
    refine (hrho.congr_of_eventuallyEq e).congr_deriv ?_
    simp only [dot_smul_left]
    ring
  · intro i
    have e : (fun t => (calcConservativeVars (line w v t)).mom i) =ᶠ[nhds 0]
        fun t => -(rhoOfW (line w v t) / (line w v t).ener) * (line w v t).mom i := by
      filter_upwards [hev] with t ht
      rw [consVars_eq _ ht]; rfl
    have hmi : HasDerivAt (fun t => (line w v t).mom i) (v.mom i) 0 :=
      hasDerivAt_affine (w.mom i) (v.mom i)
    refine (((hrho.fun_div hE hE0).fun_neg.fun_mul hmi).congr_of_eventuallyEq e).congr_deriv ?_
    simp only [l0, dot_smul_left, Pi.add_apply, Pi.smul_apply, smul_eq_mul]
    generalize rhoOfW w = R at hrn ⊢
    field_simp
    ring
  · have e : (fun t => (calcConservativeVars (line w v t)).ener) =ᶠ[nhds 0]
        fun t => -(5 / 2 * rhoOfW (line w v t) / (line w v t).ener)
          + 1 / 2 * rhoOfW (line w v t) * dot (line w v t).mom (line w v t).mom
            / (line w v t).ener ^ 2 := by
      filter_upwards [hev] with t ht
      rw [consVars_eq _ ht]
    have hd1 := ((hrho.const_mul (5 / 2)).fun_div hE hE0).fun_neg
    have hd2 := (((hrho.const_mul (1 / 2)).fun_mul hD).fun_div (hE.fun_pow 2)
      (pow_ne_zero 2 hE0))
    refine ((hd1.fun_add hd2).congr_of_eventuallyEq e).congr_deriv ?_
    simp only [l0, dot_smul_left]
    generalize rhoOfW w = R at hrn ⊢
    field_simp
    ring

example : ∃ v : State 2, v ≠ ⟨0, fun _ => 0, 0⟩ :=
  ⟨q1, fun h => by have := congrArg State.rho h; norm_num [q1] at this⟩

/-! ## C57: entropy-constrained boundary flux -/

theorem inner_map2 (w f a : State d) (k : ℝ) :
    inner2 w (State.map2 (fun x y => x - k * y) f a) = inner2 w f - k * inner2 w a := by
  unfold inner2 State.map2
  have : (∑ i, w.mom i * (f.mom i - k * a.mom i))
      = (∑ i, w.mom i * f.mom i) - k * ∑ i, w.mom i * a.mom i := by
    rw [Finset.mul_sum, ← Finset.sum_sub_distrib]
    exact Finset.sum_congr rfl fun i _ => by ring
  simp only [this]; ring

theorem inner_map2_add (w f a : State d) (k : ℝ) :
    inner2 w (State.map2 (fun x y => x + k * y) f a) = inner2 w f + k * inner2 w a := by
  unfold inner2 State.map2
  have : (∑ i, w.mom i * (f.mom i + k * a.mom i))
      = (∑ i, w.mom i * f.mom i) + k * ∑ i, w.mom i * a.mom i := by
    rw [Finset.mul_sum, ← Finset.sum_add_distrib]
    exact Finset.sum_congr rfl fun i _ => by ring
  simp only [this]; ring

/-- The flux returned by `calcBoundaryFluxEC` satisfies `w·f = ψ(q) + entflux` for every direction,
boundary state, interior state and prescribed entropy flux. -/
theorem C57_prescribed_entropy_flux (dir : Fin d → ℝ) (qbnd q : State d) (entflux : ℝ)
    (h : Admissible q) :
    inner2 (calcEntropyVars q) (calcBoundaryFluxEC dir qbnd q entflux)
      = psi dir q + entflux := by
  have hw : calcEntropyVars q ≠ ⟨0, fun _ => 0, 0⟩ := by
    intro e
    have := C53_entvars_range q h
    rw [e] at this; simp at this
  have hpos := C58_positive_definite q _ h hw
  unfold calcBoundaryFluxEC
  simp only [inner_map2]
  change inner2 _ _ - (inner2 _ _ - psi dir q - entflux) / inner2 _ _ * inner2 _ _ = _
  rw [div_mul_cancel₀ _ hpos.ne']
  ring

example : Admissible q1 := q1_adm

/-! ## C59: walls -/

/-- The projection removes exactly the wall-normal momentum. -/
theorem C59_projection (dir : Fin d → ℝ) (q : State d) (hdir : dir ≠ 0) :
    let b := projectStateOntoWall dir q
    b.rho = q.rho ∧ b.ener = q.ener ∧ (∑ i, b.mom i * dir i) = 0 ∧
    (∀ t : Fin d → ℝ, (∑ i, t i * dir i) = 0 → (∑ i, b.mom i * t i) = ∑ i, q.mom i * t i) ∧
    projectStateOntoWall dir b = b := by
  have hA := Real.mul_self_sqrt (dot_self_nonneg dir)
  have hpos : 0 < √(dot dir dir) := Real.sqrt_pos.mpr (dot_self_pos hdir)
  have hm : ∀ q : State d, (projectStateOntoWall dir q).mom
      = q.mom - (dot dir q.mom / dot dir dir) • dir := by
    intro q
    unfold projectStateOntoWall
    have : (∑ i, dir i * (1 / √(dot dir dir)) * q.mom i) = dot dir q.mom / √(dot dir dir) := by
      unfold dot; rw [Finset.sum_div]; exact Finset.sum_congr rfl fun i _ => by ring
    simp only [this]
    funext i
    simp only [Pi.sub_apply, Pi.smul_apply, smul_eq_mul]
    rw [← hA, Real.sqrt_mul_self hpos.le]
    field_simp
  have hn : dot (projectStateOntoWall dir q).mom dir = 0 := by
    rw [hm, dot_sub_left, dot_smul_left, dot_comm q.mom, div_mul_cancel₀ _ (dot_self_pos hdir).ne']
    ring
  refine ⟨rfl, rfl, hn, ?_, ?_⟩
  · intro t ht
    change dot t dir = 0 at ht
    show dot _ _ = dot _ _
    rw [hm, dot_sub_left, dot_smul_left, dot_comm dir t, ht]; ring
  · ext i
    · rfl
    · rw [hm, dot_comm dir, hn]; simp
    · rfl

/-- The slip-wall flux carries no mass and no energy, and its momentum part is `p n`. -/
theorem C59_slipwall (dir : Fin d → ℝ) (q : State d) :
    let f := calcSlipWallFlux false dir q
    f.rho = 0 ∧ f.ener = 0 ∧ ∀ i, f.mom i = specP q * dir i := by
  refine ⟨rfl, rfl, fun i => ?_⟩
  simp only [calcSlipWallFlux]
  rw [← pressure_spec]; simp [mul_comm]

/-- It coincides with the Euler flux of any state without normal velocity. -/
theorem C59_slipwall_tangential (dir : Fin d → ℝ) (q : State d) (hr : q.rho ≠ 0)
    (ht : (∑ i, q.mom i * dir i) = 0) :
    calcSlipWallFlux false dir q = physFlux dir q := by
  rw [← C54_euler_flux dir q hr]
  change dot q.mom dir = 0 at ht
  unfold calcSlipWallFlux calcEulerFlux
  ext i <;> simp [ht]

/-- The wall produces no entropy. -/
theorem C59_slipwall_entropy (dir : Fin d → ℝ) (q : State d) (h : Admissible q) :
    inner2 (calcEntropyVars q) (calcSlipWallFlux false dir q) = psi dir q := by
  rw [entVars_eq q h.rho_pos.ne' h.press_pos.ne']
  unfold inner2 calcSlipWallFlux psi
  simp only [mul_zero, zero_add, add_zero, Bool.false_eq_true, if_false]
  refine Finset.sum_congr rfl fun i _ => ?_
  have := h.press_pos.ne'
  simp only [Pi.smul_apply, smul_eq_mul]; field_simp

/-- The entropy-variable version computes the same flux. -/
theorem C59_slipwall_entvars (dir : Fin d → ℝ) (q : State d) (h : Admissible q) :
    calcSlipWallFlux true dir (calcEntropyVars q) = calcSlipWallFlux false dir q := by
  have hneg := C53_entvars_range q h
  have hp : pressure q = -rhoOfW (calcEntropyVars q) / (calcEntropyVars q).ener := by
    rw [← pressure_cons _ hneg, C53_roundtrip_cons q h]
  unfold calcSlipWallFlux
  simp only [if_true, Bool.false_eq_true, if_false, inv_gami_eq]
  simp only [gamma_eq, gami_eq]
  rw [hp]
  rfl

example : ∃ dir : Fin 2 → ℝ, dir ≠ 0 ∧ ∃ t : Fin 2 → ℝ, t ≠ 0 ∧ (∑ i, t i * dir i) = 0 :=
  ⟨![1, 0], fun h => by have := congrFun h 0; norm_num at this,
   ![0, 1], fun h => by have := congrFun h 1; norm_num at this, by simp [Fin.sum_univ_two]⟩

/-! ## C75: the entropy function -/

/-- The mathematical entropy `S = -ρ (ln p - γ ln ρ)/(γ-1)`. -/
noncomputable def specS (q : State d) : ℝ :=
  -(q.rho * (Real.log (specP q) - 7 / 5 * Real.log q.rho)) / (7 / 5 - 1)

theorem C75_entropy_value (q : State d) (h : Admissible q) : entropy q = specS q := by
  unfold entropy specS
  rw [gamma_eq, log_s h.rho_pos h.press_pos, pressure_spec, gami_eq]
  norm_num

/-- `entropy<entvar=true>` on the entropy variables agrees with `entropy` on the state. -/
theorem C75_entropy_entvars (q : State d) (h : Admissible q) :
    entropyEnt (calcEntropyVars q) = specS q := by
  rw [← C75_entropy_value q h]
  have hneg := C53_entvars_range q h
  have hrho : rhoOfW (calcEntropyVars q) = q.rho := by
    have := congrArg State.rho (C53_roundtrip_cons q h)
    rwa [consVars_eq _ hneg.ne] at this
  have hrho' := hrho
  unfold rhoOfW at hrho'
  unfold entropyEnt
  simp only [inv_gami_eq]
  simp only [gamma_eq, gami_eq]
  have e : (-(7 / 5) + 2 / 5 * ((calcEntropyVars q).rho
      - 1 / 2 * dot (calcEntropyVars q).mom (calcEntropyVars q).mom / (calcEntropyVars q).ener) : ℝ)
      = -(7 / 5 + 2 / 5 * (1 / 2 * dot (calcEntropyVars q).mom (calcEntropyVars q).mom
        / (calcEntropyVars q).ener - (calcEntropyVars q).rho)) := by ring
  rw [e, hrho']
  have hlog : -(7 / 5 + 2 / 5 * (1 / 2 * dot (calcEntropyVars q).mom (calcEntropyVars q).mom
        / (calcEntropyVars q).ener - (calcEntropyVars q).rho))
      = -Real.log (pressure q / q.rho ^ (7 / 5 : ℝ)) := by
    have hr := h.rho_pos.ne'; have hp := h.press_pos.ne'
    rw [entVars_eq q hr hp]
    simp only [dot_smul_left, dot_smul_right]
    field_simp
    ring
  rw [hlog]
  unfold entropy
  rw [gamma_eq, gami_eq]
  ring

/-- The entropy variables are the gradient of the entropy. -/
theorem C75_gradient (q v : State d) (h : Admissible q) :
    HasDerivAt (fun t => entropy (line q v t)) (inner2 (calcEntropyVars q) v) 0 := by
  have hr := h.rho_pos; have hp := h.press_pos
  have l0 : line q v 0 = q := by ext i <;> simp [line]
  have hP := hasDerivAt_pressure q v hr.ne'
  have hR : HasDerivAt (fun t => (line q v t).rho) v.rho 0 := hasDerivAt_affine q.rho v.rho
  have hpow : HasDerivAt (fun t => (line q v t).rho ^ gamma)
      (v.rho * gamma * q.rho ^ (gamma - 1)) 0 := by
    have := hR.rpow_const (p := gamma) (Or.inl (by rw [l0]; exact hr.ne'))
    simpa only [l0] using this
  have hrp : 0 < q.rho ^ gamma := Real.rpow_pos_of_pos hr _
  have hlog := (hP.fun_div hpow (by rw [l0]; exact hrp.ne')).log
    (by rw [l0]; exact (div_pos hp hrp).ne')
  have := (hR.fun_neg.fun_mul hlog).div_const gami
  refine this.congr_deriv ?_
  simp only [l0]
  have i2 : ∀ a b : State d, inner2 a b = a.rho * b.rho + dot a.mom b.mom + a.ener * b.ener :=
    fun a b => rfl
  rw [i2, entVars_eq q hr.ne' hp.ne']
  simp only [dot_smul_left]
  rw [Real.rpow_sub_one hr.ne', gamma_eq, gami_eq]
  rw [gamma_eq] at hrp
  have hrn := hr.ne'; have hpn := hp.ne'; have hrpn := hrp.ne'
  generalize Real.log (pressure q / q.rho ^ (7 / 5 : ℝ)) = L
  generalize q.rho ^ (7 / 5 : ℝ) = RP at hrp hrpn ⊢
  generalize pressure q = p at hp hpn ⊢
  field_simp
  ring

/-- The affinely transformed entropy `entropy(q, qe)` is non-negative, and zero only at `qe`:
`qe` is its unique minimiser over the admissible states. -/
theorem C75_relative_entropy (q qe : State d) (h : Admissible q) (he : Admissible qe) :
    0 ≤ entropyRel q qe ∧ (entropyRel q qe = 0 ↔ q = qe) := by
  have hr := h.rho_pos; have hp := h.press_pos
  have hre := he.rho_pos; have hpe := he.press_pos
  -- closed form
  have key : entropyRel q qe =
      5 / 2 * q.rho * ((pressure q / q.rho) / (pressure qe / qe.rho) - 1
          - Real.log ((pressure q / q.rho) / (pressure qe / qe.rho)))
      + q.rho * (qe.rho / q.rho - 1 - Real.log (qe.rho / q.rho))
      + 1 / 2 * q.rho * qe.rho / pressure qe
          * dot ((1 / q.rho) • q.mom - (1 / qe.rho) • qe.mom)
                ((1 / q.rho) • q.mom - (1 / qe.rho) • qe.mom) := by
    unfold entropyRel
    have e1 : (∑ i, (calcEntropyVars qe).mom i * (q.mom i - qe.mom i))
        = dot (calcEntropyVars qe).mom (q.mom - qe.mom) := rfl
    simp only [e1]
    rw [entVars_eq qe hre.ne' hpe.ne']
    unfold entropy
    rw [gamma_eq, gami_eq, log_s hr hp, log_s hre hpe]
    simp only [dot_sub_left, dot_sub_right, dot_smul_left, dot_smul_right, dot_comm qe.mom q.mom]
    rw [Real.log_div (div_pos hp hr).ne' (div_pos hpe hre).ne', Real.log_div hp.ne' hr.ne',
      Real.log_div hpe.ne' hre.ne', Real.log_div hre.ne' hr.ne', ener_eq q, ener_eq qe]
    generalize pressure q = p at hp ⊢
    generalize pressure qe = pe at hpe ⊢
    field_simp
    ring
  have hx : 0 < (pressure q / q.rho) / (pressure qe / qe.rho) := by positivity
  have hy : 0 < qe.rho / q.rho := by positivity
  have ax := Real.log_le_sub_one_of_pos hx
  have ay := Real.log_le_sub_one_of_pos hy
  have t1 : 0 ≤ 5 / 2 * q.rho * ((pressure q / q.rho) / (pressure qe / qe.rho) - 1
          - Real.log ((pressure q / q.rho) / (pressure qe / qe.rho))) :=
    mul_nonneg (by positivity) (by linarith)
  have t2 : 0 ≤ q.rho * (qe.rho / q.rho - 1 - Real.log (qe.rho / q.rho)) :=
    mul_nonneg hr.le (by linarith)
  have t3 : 0 ≤ 1 / 2 * q.rho * qe.rho / pressure qe
          * dot ((1 / q.rho) • q.mom - (1 / qe.rho) • qe.mom)
                ((1 / q.rho) • q.mom - (1 / qe.rho) • qe.mom) :=
    mul_nonneg (by positivity) (dot_self_nonneg _)
  refine ⟨by rw [key]; linarith, ?_, ?_⟩
  · intro h0
    rw [key] at h0
    have z1 : 5 / 2 * q.rho * ((pressure q / q.rho) / (pressure qe / qe.rho) - 1
          - Real.log ((pressure q / q.rho) / (pressure qe / qe.rho))) = 0 := by linarith
    have z2 : q.rho * (qe.rho / q.rho - 1 - Real.log (qe.rho / q.rho)) = 0 := by linarith
    have z3 : 1 / 2 * q.rho * qe.rho / pressure qe
          * dot ((1 / q.rho) • q.mom - (1 / qe.rho) • qe.mom)
                ((1 / q.rho) • q.mom - (1 / qe.rho) • qe.mom) = 0 := by linarith
    have hx1 : (pressure q / q.rho) / (pressure qe / qe.rho) = 1 := by
      by_contra hne
      have := Real.log_lt_sub_one_of_pos hx hne
      rcases mul_eq_zero.mp z1 with hz | hz
      · exact absurd hz (by positivity)
      · linarith
    have hy1 : qe.rho / q.rho = 1 := by
      by_contra hne
      have := Real.log_lt_sub_one_of_pos hy hne
      rcases mul_eq_zero.mp z2 with hz | hz
      · exact absurd hz hr.ne'
      · linarith
    have hrr : q.rho = qe.rho := by field_simp at hy1; linarith
    have hpp : pressure q = pressure qe := by
      rw [hrr] at hx1; field_simp at hx1; exact hx1
    have hmm : q.mom = qe.mom := by
      rcases mul_eq_zero.mp z3 with hz | hz
      · exact absurd hz (by positivity)
      · have := dot_self_eq_zero.mp hz
        funext i
        have hi := congrFun this i
        rw [hrr] at hi
        simp only [Pi.sub_apply, Pi.smul_apply, smul_eq_mul, Pi.zero_apply] at hi
        field_simp at hi
        linarith
    ext i
    · exact hrr
    · rw [hmm]
    · rw [ener_eq q, ener_eq qe, hrr, hpp, hmm]
  · intro e
    rw [key, e]
    have h1 : (pressure qe / qe.rho) / (pressure qe / qe.rho) = 1 := div_self (by positivity)
    have h2 : qe.rho / qe.rho = 1 := div_self hre.ne'
    have h3 : dot ((1 / qe.rho) • qe.mom - (1 / qe.rho) • qe.mom)
        ((1 / qe.rho) • qe.mom - (1 / qe.rho) • qe.mom) = 0 := by
      rw [sub_self]; unfold dot; simp
    rw [h1, h2, h3]; simp

/-! ## C76: entropy stability of the dissipative flux -/

theorem half_admissible (qL qR : State d) (hL : Admissible qL) (hR : Admissible qR) :
    Admissible (State.map2 (fun x y => 1 / 2 * (x + y)) qL qR) := by
  obtain ⟨h1, h2⟩ := hL
  obtain ⟨h3, h4⟩ := hR
  constructor
  · simp only [State.map2]; linarith
  · have h2' : (∑ i, qL.mom i ^ 2) / (2 * qL.rho) < qL.ener := by
      by_contra hc; nlinarith
    have h4' : (∑ i, qR.mom i ^ 2) / (2 * qR.rho) < qR.ener := by
      by_contra hc; nlinarith
    have key : (∑ i, (1 / 2 * (qL.mom i + qR.mom i)) ^ 2) / (2 * (1 / 2 * (qL.rho + qR.rho)))
        ≤ 1 / 2 * ((∑ i, qL.mom i ^ 2) / (2 * qL.rho) + (∑ i, qR.mom i ^ 2) / (2 * qR.rho)) := by
      rw [Finset.sum_div, Finset.sum_div, Finset.sum_div, ← Finset.sum_add_distrib, Finset.mul_sum]
      refine Finset.sum_le_sum fun i _ => ?_
      rw [div_add_div _ _ (by positivity) (by positivity), mul_div_assoc', div_le_div_iff₀ (by positivity) (by positivity)]
      nlinarith [sq_nonneg (qL.mom i * qR.rho - qR.mom i * qL.rho), mul_pos h1 h3]
    simp only [State.map2]
    have : (0 : ℝ) < 7 / 5 - 1 := by norm_num
    apply mul_pos this
    linarith

theorem specRadius_nonneg (e : Bool) (dir : Fin d → ℝ) (u : State d) :
    0 ≤ calcSpectralRadius e dir u := by
  unfold calcSpectralRadius
  positivity

theorem quad_nonneg (q v : State d) (h : Admissible q) : 0 ≤ inner2 v (calcdQdWProduct q v) := by
  rw [quad_form q v h.rho_pos.ne']
  have hr := h.rho_pos; have hp := h.press_pos
  have := dot_self_nonneg (v.mom + (v.ener / q.rho) • q.mom)
  positivity

theorem inner2_sub_left (a b c : State d) :
    inner2 (State.map2 (fun x y => x - y) a b) c = inner2 a c - inner2 b c := by
  unfold inner2 State.map2
  have : (∑ i, (a.mom i - b.mom i) * c.mom i)
      = (∑ i, a.mom i * c.mom i) - ∑ i, b.mom i * c.mom i := by
    rw [← Finset.sum_sub_distrib]; exact Finset.sum_congr rfl fun i _ => by ring
  simp only [this]; ring

/-- For a non-negative coefficient the face flux with dissipation never produces entropy, up to the
`1e-16` relative error of the logarithmic mean. -/
theorem C76_dissipative (n : Fin d → ℝ) (k : ℝ) (qL qR : State d) (hL : Admissible qL)
    (hR : Admissible qR) (hk : 0 ≤ k) :
    -(1 / 10 ^ 16 * |(calcIsmailRoeFaceFlux n qL qR).rho|)
      ≤ production n (calcIsmailRoeFaceFluxWithDiss n k qL qR) qL qR := by
  have hc := abs_le.mp (C55_entropy_conservative n qL qR hL hR)
  have e : production n (calcIsmailRoeFaceFluxWithDiss n k qL qR) qL qR
      = production n (calcIsmailRoeFaceFlux n qL qR) qL qR
        + k * calcSpectralRadius false n (State.map2 (fun x y => 1 / 2 * (x + y)) qL qR)
          * inner2 (State.map2 (fun x y => x - y) (calcEntropyVars qL) (calcEntropyVars qR))
            (calcdQdWProduct (State.map2 (fun x y => 1 / 2 * (x + y)) qL qR)
              (State.map2 (fun x y => x - y) (calcEntropyVars qL) (calcEntropyVars qR))) := by
    rw [inner2_sub_left]
    unfold production calcIsmailRoeFaceFluxWithDiss
    simp only [inner_map2_add]
    ring
  rw [e]
  have h1 := quad_nonneg _ (State.map2 (fun x y => x - y) (calcEntropyVars qL) (calcEntropyVars qR))
    (half_admissible qL qR hL hR)
  have h2 := specRadius_nonneg false n (State.map2 (fun x y => 1 / 2 * (x + y)) qL qR)
  have := mul_nonneg (mul_nonneg hk h2) h1
  linarith [hc.1]

/-- Entropy-variable and conservative versions agree. -/
theorem C76_entvars (n : Fin d → ℝ) (k : ℝ) (qL qR : State d) (hL : Admissible qL)
    (hR : Admissible qR) :
    calcIsmailRoeFaceFluxWithDissUsingEntVars n k (calcEntropyVars qL) (calcEntropyVars qR)
      = calcIsmailRoeFaceFluxWithDiss n k qL qR := by
  unfold calcIsmailRoeFaceFluxWithDissUsingEntVars calcIsmailRoeFaceFluxWithDiss
  simp only [C54_entvars_face n qL qR hL hR, C53_roundtrip_cons qL hL, C53_roundtrip_cons qR hR]

/-- Consistency with the Euler flux. -/
theorem C76_consistent (n : Fin d → ℝ) (k : ℝ) (q : State d) (h : Admissible q) :
    calcIsmailRoeFaceFluxWithDiss n k q q = physFlux n q := by
  rw [← C54_consistent n q h]
  unfold calcIsmailRoeFaceFluxWithDiss
  simp only [map2_sub_self]
  have : ∀ q : State d, calcdQdWProduct q ⟨0, fun _ => 0, 0⟩ = ⟨0, fun _ => 0, 0⟩ := by
    intro q; unfold calcdQdWProduct; ext i <;> simp
  rw [this]
  unfold State.map2; ext i <;> simp

/-- Projection dissipation (LPS): the scaled operator is symmetric positive semi-definite, so its
contribution `vᵀ (λ A₀) v` to the entropy balance is never negative; both variants agree. -/
theorem C76_lps (adjJ : Fin d → Fin d → ℝ) (q v : State d) (h : Admissible q) :
    0 ≤ inner2 v (applyLPSScaling adjJ q v) ∧
    applyLPSScalingUsingEntVars adjJ (calcEntropyVars q) v = applyLPSScaling adjJ q v := by
  constructor
  · have e : inner2 v (applyLPSScaling adjJ q v)
        = (∑ i, calcSpectralRadius false (adjJ i) q) / (d : ℝ)
          * inner2 v (calcdQdWProduct q v) := by
      unfold applyLPSScaling inner2
      simp only
      rw [mul_add, mul_add, Finset.mul_sum]
      congr 1
      · congr 1
        · ring
        · exact Finset.sum_congr rfl fun i _ => by ring
      · ring
    rw [e]
    apply mul_nonneg _ (quad_nonneg q v h)
    exact div_nonneg (Finset.sum_nonneg fun i _ => specRadius_nonneg _ _ _) (Nat.cast_nonneg d)
  · unfold applyLPSScalingUsingEntVars
    rw [C53_roundtrip_cons q h]

/-! ## C77: control flux -/

/-- The control boundary flux injects exactly the entropy transported by the control velocity:
`w·f - ψ = U S(q)` with `U = -vel |n|`. -/
theorem C77_control_entropy (n : Fin d → ℝ) (q : State d) (vel : ℝ) (h : Admissible q) :
    inner2 (calcEntropyVars q) (calcControlFlux n q vel) - psi n q
      = -vel * √(∑ i, n i ^ 2) * specS q := by
  rw [← C75_entropy_value q h]
  have hr := h.rho_pos.ne'; have hp := h.press_pos.ne'
  have hm : (fun i => q.mom i * (-vel * √(dot n n)) + n i * pressure q)
      = (-vel * √(dot n n)) • q.mom + pressure q • n := by
    funext i; simp only [Pi.add_apply, Pi.smul_apply, smul_eq_mul]; ring
  have i2 : ∀ a b : State d, inner2 a b = a.rho * b.rho + dot a.mom b.mom + a.ener * b.ener :=
    fun a b => rfl
  have hpsi : psi n q = dot q.mom n := rfl
  rw [sqsum, i2, hpsi, entVars_eq q hr hp]
  unfold calcControlFlux entropy
  simp only [hm, dot_add_right, dot_smul_left, dot_smul_right]
  rw [gamma_eq, gami_eq, ener_eq q]
  generalize Real.log (pressure q / q.rho ^ (7 / 5 : ℝ)) = L
  generalize √(dot n n) = A
  generalize pressure q = p at hp ⊢
  field_simp
  ring

/-- With zero control velocity the boundary is a slip wall. -/
theorem C77_control_zero (n : Fin d → ℝ) (q : State d) :
    calcControlFlux n q 0 = calcSlipWallFlux false n q := by
  unfold calcControlFlux calcSlipWallFlux
  ext i <;> simp

/-- If the control velocity matches the inward normal velocity the flux is the Euler flux. -/
theorem C77_control_consistent (n : Fin d → ℝ) (q : State d) (vel : ℝ) (hr : q.rho ≠ 0)
    (hv : -vel * √(∑ i, n i ^ 2) = (∑ i, q.mom i * n i) / q.rho) :
    calcControlFlux n q vel = physFlux n q := by
  rw [← C54_euler_flux n q hr]
  rw [sqsum] at hv
  change _ = dot q.mom n / q.rho at hv
  unfold calcControlFlux calcEulerFlux
  simp only [hv]
  ext i
  · simp only; field_simp
  · rfl
  · simp only; ring

/-! ## C78: spectral radius -/

/-- `calcSpectralRadius` is the modulus of the largest eigenvalue of the flux Jacobian: it is
attained by an eigenvector, and every real eigenvalue is bounded by it. -/
theorem C78_spectral_radius (n : Fin d → ℝ) (q : State d) (hn : n ≠ 0) (h : Admissible q) :
    (∃ (lam : ℝ) (v : State d), v ≠ ⟨0, fun _ => 0, 0⟩ ∧
        eulerJac n q v = ⟨lam * v.rho, lam • v.mom, lam * v.ener⟩ ∧
        |lam| = calcSpectralRadius false n q) ∧
    (∀ (lam : ℝ) (v : State d), v ≠ ⟨0, fun _ => 0, 0⟩ →
        eulerJac n q v = ⟨lam * v.rho, lam • v.mom, lam * v.ener⟩ →
        |lam| ≤ calcSpectralRadius false n q) := by
  have hr := h.rho_pos.ne'
  have hA2 : specA2 q = gamma * pressure q / q.rho := by
    unfold specA2; rw [pressure_spec, gamma_eq]
  have hSR : calcSpectralRadius false n q
      = |dot q.mom n / q.rho| + √(specA2 q) * √(dot n n) := by
    unfold calcSpectralRadius consOf; simp only [Bool.false_eq_true, if_false]; rw [hA2]
  have hcA : 0 ≤ √(specA2 q) * √(dot n n) := by positivity
  have hA2pos : 0 < specA2 q := by
    rw [hA2, gamma_eq]; have := h.press_pos; have := h.rho_pos; positivity
  constructor
  · rcases le_total 0 (dot q.mom n / q.rho) with hU | hU
    · have := (C56_acoustic_wave n q 0 1 hn h (Or.inl rfl)).1
      refine ⟨_, _, ?_, this, ?_⟩
      · intro e; have := congrArg State.rho e; simp at this
      · rw [hSR, sqsum]
        change |dot q.mom n / q.rho + _| = _
        rw [abs_of_nonneg hU, abs_of_nonneg (by linarith)]; ring
    · have := (C56_acoustic_wave n q 0 (-1) hn h (Or.inr rfl)).1
      refine ⟨_, _, ?_, this, ?_⟩
      · intro e; have := congrArg State.rho e; simp at this
      · rw [hSR, sqsum]
        change |dot q.mom n / q.rho + _| = _
        rw [abs_of_nonpos hU, abs_of_nonpos (by linarith)]; ring
  · intro lam v hv hJ
    rw [hSR]
    rw [eulerJac_eq n q v hr] at hJ
    simp only [State.mk.injEq] at hJ
    obtain ⟨j1, j2, j3⟩ := hJ
    set U := dot q.mom n / q.rho with hUd
    set dun := dot v.mom n - U * v.rho with hdun
    set dp := 2 / 5 * (v.ener - dot q.mom v.mom / q.rho
              + 1 / 2 * dot q.mom q.mom / q.rho ^ 2 * v.rho) with hdp
    by_cases hl : lam = U
    · rw [hl]; linarith
    have hlU : lam - U ≠ 0 := sub_ne_zero.mpr hl
    have k1 : dun = (lam - U) * v.rho := by linarith
    have k2v : (lam - U) • v.mom = (dun / q.rho) • q.mom + dp • n := by
      rw [sub_smul, ← j2]; abel
    have k2 : (lam - U) * dun = dot n n * dp := by
      have := congrArg (fun m => dot m n) k2v
      simp only [dot_add_left, dot_smul_left] at this
      have e : (lam - U) * dun = (lam - U) * dot v.mom n - U * ((lam - U) * v.rho) := by
        rw [hdun]; ring
      rw [e, this, ← k1, hUd]; ring
    have k3 : (lam - U) * dp = specA2 q * dun := by
      have := congrArg (fun m => dot q.mom m) k2v
      simp only [dot_add_right, dot_smul_right] at this
      have ex : (lam - U) * dp = 2 / 5 * ((lam - U) * v.ener
          - (lam - U) * dot q.mom v.mom / q.rho
          + 1 / 2 * dot q.mom q.mom / q.rho ^ 2 * ((lam - U) * v.rho)) := by
        rw [hdp]; ring
      have e3 : (lam - U) * v.ener = dp * U + (q.ener + specP q) / q.rho * dun := by
        linarith
      have hd : dot q.mom n = U * q.rho := by rw [hUd]; field_simp
      rw [ex, e3, this, ← k1, hd]
      unfold specA2
      rw [ener_eq q, pressure_spec]
      field_simp
      ring
    have hdun0 : dun ≠ 0 := by
      intro h0
      have hdp0 : dp = 0 := by
        rcases mul_eq_zero.mp (by rw [k3, h0, mul_zero] : (lam - U) * dp = 0) with h' | h'
        · exact absurd h' hlU
        · exact h'
      apply hv
      have hr0 : v.rho = 0 := by
        rcases mul_eq_zero.mp (k1.symm.trans h0) with h' | h'
        · exact absurd h' hlU
        · exact h'
      have hm0 : v.mom = 0 := by
        rw [h0, hdp0] at k2v
        simp only [zero_div, zero_smul, add_zero] at k2v
        exact (smul_eq_zero.mp k2v).resolve_left hlU
      have he0 : v.ener = 0 := by
        rw [hdp0, h0] at j3
        have : (lam - U) * v.ener = 0 := by linarith
        exact (mul_eq_zero.mp this).resolve_left hlU
      ext i
      · exact hr0
      · simp [hm0]
      · exact he0
    have hsq : (lam - U) ^ 2 = (√(specA2 q) * √(dot n n)) ^ 2 := by
      rw [mul_pow, Real.sq_sqrt hA2pos.le, Real.sq_sqrt (dot_self_nonneg n)]
      have : ((lam - U) ^ 2 - specA2 q * dot n n) * dun = 0 := by
        have e : (lam - U) ^ 2 * dun = dot n n * ((lam - U) * dp) := by
          rw [pow_two, mul_assoc, k2]; ring
        rw [sub_mul, e, k3]; ring
      have := (mul_eq_zero.mp this).resolve_right hdun0
      linarith
    have habs : |lam - U| = √(specA2 q) * √(dot n n) := by
      have := sq_eq_sq_iff_abs_eq_abs _ _ |>.mp hsq
      rwa [abs_of_nonneg hcA] at this
    calc |lam| = |U + (lam - U)| := by congr 1; ring
      _ ≤ |U| + |lam - U| := abs_add_le _ _
      _ = _ := by rw [habs]

theorem C78_entvars (n : Fin d → ℝ) (q : State d) (h : Admissible q) :
    calcSpectralRadius true n (calcEntropyVars q) = calcSpectralRadius false n q := by
  unfold calcSpectralRadius consOf
  simp only [if_true, Bool.false_eq_true, if_false, C53_roundtrip_cons q h]

end Verif.EulerFluxes
