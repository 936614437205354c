import Verif.EulerStabilityProps
import Mathlib.Analysis.SpecialFunctions.Trigonometric.Arctan

/-!
# The isentropic vortex (C79)
-/

namespace Verif.EulerFluxes

/-- `B = 1 + (γ-1)/2 M²(1 - 1/r²)` as a function of `s = r²`. -/
noncomputable def vB (s : ℝ) : ℝ := 21 / 20 - 1 / (20 * s)

/-- Closed form of the vortex state at squared radius `s`. -/
noncomputable def vortexClosed (x y : ℝ) : State 2 :=
  let s := x ^ 2 + y ^ 2
  let P := vB s ^ (5 / 2 : ℝ)
  let k := √(1 / 8)
  ⟨2 * P, ![2 * P * (-(k * y / s)), 2 * P * (k * x / s)],
   5 / 2 * (5 / 7 * (vB s * P)) + 1 / 2 * (2 * P) * (1 / 8 / s)⟩

theorem vortex_closed (x y : ℝ) (hx : 1 / 10 ^ 15 < x) (hB : 1 / 21 < x ^ 2 + y ^ 2) :
    calcIsentropicVortexState ![x, y] = vortexClosed x y := by
  have hx0 : 0 < x := lt_trans (by positivity) hx
  have hs : 0 < x ^ 2 + y ^ 2 := lt_trans (by norm_num) hB
  set s := x ^ 2 + y ^ 2 with hsdef
  have hsq : 0 < √s := Real.sqrt_pos.mpr hs
  have hss : √s * √s = s := Real.mul_self_sqrt hs.le
  have hBpos : 0 < vB s := by
    unfold vB
    have : 1 / (20 * s) < 21 / 20 := by
      rw [div_lt_div_iff₀ (by positivity) (by norm_num)]; linarith
    linarith
  unfold calcIsentropicVortexState
  simp only [Matrix.cons_val_zero, Matrix.cons_val_one, gt_iff_lt, if_pos hx]
  have hr : x * x + y * y = s := by rw [hsdef]; ring
  rw [hr]
  have hb : 1 + 1 / 2 * gami * (1 / 2) * (1 / 2) * (1 - 1 / √s * (1 / √s)) = vB s := by
    rw [gami_eq]; unfold vB
    have : 1 / √s * (1 / √s) = 1 / s := by rw [div_mul_div_comm, hss, one_mul]
    rw [this]; field_simp; ring
  rw [hb, inv_gami_eq]
  set B := vB s with hBdef
  set P := B ^ (5 / 2 : ℝ) with hPdef
  have hP : 0 < P := Real.rpow_pos_of_pos hBpos _
  have hrr : (2 / (2 * P)) ^ gami = 1 / B := by
    have : 2 / (2 * P) = P⁻¹ := by field_simp
    rw [this, gami_eq, Real.inv_rpow hP.le, hPdef, ← Real.rpow_mul hBpos.le]
    norm_num
  have hM : 2 / gami * ((2 / (2 * P)) ^ gami * (1 + 1 / 2 * gami * (1 / 2) * (1 / 2)) - 1)
      = 1 / (4 * s * B) := by
    rw [hrr, gami_eq]
    have hBs : B * (20 * s) = 21 * s - 1 := by rw [hBdef]; unfold vB; field_simp
    field_simp
    linear_combination (-4) * hBs
  rw [hM]
  have hMM : √(1 / (4 * s * B)) * √(1 / (4 * s * B)) = 1 / (4 * s * B) :=
    Real.mul_self_sqrt (by positivity)
  have hden : 1 + 1 / 2 * gami * √(1 / (4 * s * B)) * √(1 / (4 * s * B)) = 21 / 20 / B := by
    rw [mul_assoc, hMM, gami_eq]
    have hBs : B * (20 * s) = 21 * s - 1 := by rw [hBdef]; unfold vB; field_simp
    field_simp
    linear_combination 20 * hBs
  have hpr : 1 / gamma * ((1 + 1 / 2 * gami * (1 / 2) * (1 / 2))
      / (1 + 1 / 2 * gami * √(1 / (4 * s * B)) * √(1 / (4 * s * B)))) ^ (gamma / gami)
      = 5 / 7 * (B * P) := by
    rw [hden]
    have e1 : (1 + 1 / 2 * gami * (1 / 2) * (1 / 2)) / (21 / 20 / B) = B := by
      rw [gami_eq]; field_simp; norm_num
    have e2 : gamma / gami = 5 / 2 + 1 := by rw [gamma_eq, gami_eq]; norm_num
    rw [e1, e2, Real.rpow_add_one hBpos.ne', gamma_eq]; ring
  rw [hpr]
  have ha : gamma * (5 / 7 * (B * P)) / (2 * P) = B / 2 := by
    rw [gamma_eq]; field_simp
  rw [ha]
  have haa : √(B / 2) * √(B / 2) = B / 2 := Real.mul_self_sqrt (by positivity)
  have haM : √(B / 2) * √(1 / (4 * s * B)) = √(1 / 8) / √s := by
    rw [← Real.sqrt_mul (by positivity), ← Real.sqrt_div (by norm_num)]
    congr 1; field_simp; norm_num
  have hrt : √(1 + (y / x) ^ 2) = √s / x := by
    have : 1 + (y / x) ^ 2 = s / x ^ 2 := by rw [hsdef]; field_simp
    rw [this, Real.sqrt_div hs.le, Real.sqrt_sq hx0.le]
  rw [Real.sin_arctan, Real.cos_arctan, hrt]
  unfold vortexClosed
  simp only [← hsdef, ← hBdef, ← hPdef]
  have hks : ∀ z : ℝ, √(1 / 8) / √s * (z / √s) = √(1 / 8) * z / s := by
    intro z; rw [div_mul_div_comm, hss]
  ext i
  · rfl
  · fin_cases i
    · simp only [Fin.zero_eta, Matrix.cons_val_zero]
      have e : y / x / (√s / x) = y / √s := by field_simp
      rw [e]
      calc -(2 * P) * √(B / 2) * √(1 / (4 * s * B)) * (y / √s)
          = -(2 * P) * ((√(B / 2) * √(1 / (4 * s * B))) * (y / √s)) := by ring
        _ = _ := by rw [haM, hks]; ring
    · simp only [Fin.mk_one, Matrix.cons_val_one, Matrix.cons_val_fin_one]
      have e : 1 / (√s / x) = x / √s := by field_simp
      rw [e]
      calc (2 * P) * √(B / 2) * √(1 / (4 * s * B)) * (x / √s)
          = (2 * P) * ((√(B / 2) * √(1 / (4 * s * B))) * (x / √s)) := by ring
        _ = _ := by rw [haM, hks]
  · simp only
    rw [gami_eq]
    have : 1 / 2 * (2 * P) * √(B / 2) * √(B / 2) * √(1 / (4 * s * B)) * √(1 / (4 * s * B))
        = 1 / 2 * (2 * P) * (B / 2) * (1 / (4 * s * B)) := by
      rw [mul_assoc (1 / 2 * (2 * P) * √(B / 2) * √(B / 2)), hMM, mul_assoc (1 / 2 * (2 * P)), haa]
    rw [this]
    field_simp; ring

theorem vortex_pressure (x y : ℝ) (hB : 1 / 21 < x ^ 2 + y ^ 2) :
    0 < vB (x ^ 2 + y ^ 2) ∧
    specP (vortexClosed x y) = 5 / 7 * (vB (x ^ 2 + y ^ 2) * vB (x ^ 2 + y ^ 2) ^ (5 / 2 : ℝ)) := by
  have hs : 0 < x ^ 2 + y ^ 2 := lt_trans (by norm_num) hB
  have hBpos : 0 < vB (x ^ 2 + y ^ 2) := by
    unfold vB
    have : 1 / (20 * (x ^ 2 + y ^ 2)) < 21 / 20 := by
      rw [div_lt_div_iff₀ (by positivity) (by norm_num)]; linarith
    linarith
  refine ⟨hBpos, ?_⟩
  have hP := Real.rpow_pos_of_pos hBpos (5 / 2 : ℝ)
  have hk : √(1 / 8 : ℝ) ^ 2 = 1 / 8 := Real.sq_sqrt (by norm_num)
  unfold specP vortexClosed
  simp only [Fin.sum_univ_two, Matrix.cons_val_zero, Matrix.cons_val_one]
  generalize vB (x ^ 2 + y ^ 2) ^ (5 / 2 : ℝ) = P at hP ⊢
  generalize vB (x ^ 2 + y ^ 2) = B
  have : (2 * P * -(√(1 / 8) * y / (x ^ 2 + y ^ 2))) ^ 2
      + (2 * P * (√(1 / 8) * x / (x ^ 2 + y ^ 2))) ^ 2
      = 4 * P ^ 2 * (√(1 / 8) ^ 2) / (x ^ 2 + y ^ 2) := by
    field_simp; ring
  rw [this, hk]
  field_simp
  ring

/-- In the half plane `x₀ > 1e-15`, outside the vacuum core, the vortex state is admissible,
tangential and homentropic. -/
theorem C79_vortex_state (x y : ℝ) (hx : 1 / 10 ^ 15 < x) (hB : 1 / 21 < x ^ 2 + y ^ 2) :
    let q := calcIsentropicVortexState ![x, y]
    Admissible q ∧ q.mom 0 * x + q.mom 1 * y = 0 ∧
    specP q = (5 / 7) * (q.rho / 2) ^ (7 / 5 : ℝ) := by
  simp only
  rw [vortex_closed x y hx hB]
  obtain ⟨hBpos, hp⟩ := vortex_pressure x y hB
  have hP := Real.rpow_pos_of_pos hBpos (5 / 2 : ℝ)
  refine ⟨⟨?_, ?_⟩, ?_, ?_⟩
  · simp only [vortexClosed]; positivity
  · change 0 < specP _; rw [hp]; positivity
  · simp only [vortexClosed, Matrix.cons_val_zero, Matrix.cons_val_one]; ring
  · rw [hp]
    simp only [vortexClosed]
    have : 2 * vB (x ^ 2 + y ^ 2) ^ (5 / 2 : ℝ) / 2 = vB (x ^ 2 + y ^ 2) ^ (5 / 2 : ℝ) := by ring
    rw [this, ← Real.rpow_mul hBpos.le]
    have : (5 / 2 * (7 / 5) : ℝ) = 5 / 2 + 1 := by norm_num
    rw [this, Real.rpow_add_one hBpos.ne']; ring

/-- Fluxes of the closed form. -/
theorem vortex_flux (a b x y : ℝ) (hB : 1 / 21 < x ^ 2 + y ^ 2) :
    let s := x ^ 2 + y ^ 2
    let P := vB s ^ (5 / 2 : ℝ)
    let k := √(1 / 8)
    let U := (-(k * y / s)) * a + k * x / s * b
    calcEulerFlux ![a, b] (vortexClosed x y) =
      ⟨2 * P * U, ![2 * P * (-(k * y / s)) * U + a * (5 / 7 * (vB s * P)),
          2 * P * (k * x / s) * U + b * (5 / 7 * (vB s * P))],
        (7 / 2 * (5 / 7 * (vB s * P)) + 1 / 2 * (2 * P) * (1 / 8 / s)) * U⟩ := by
  obtain ⟨hBpos, hp⟩ := vortex_pressure x y hB
  have hP := Real.rpow_pos_of_pos hBpos (5 / 2 : ℝ)
  have hs : 0 < x ^ 2 + y ^ 2 := lt_trans (by norm_num) hB
  unfold calcEulerFlux
  rw [pressure_spec, hp]
  have hd : dot (vortexClosed x y).mom ![a, b] = 2 * vB (x ^ 2 + y ^ 2) ^ (5 / 2 : ℝ)
      * ((-(√(1 / 8) * y / (x ^ 2 + y ^ 2))) * a + √(1 / 8) * x / (x ^ 2 + y ^ 2) * b) := by
    unfold dot vortexClosed; simp only [Fin.sum_univ_two, Matrix.cons_val_zero, Matrix.cons_val_one]
    ring
  simp only [hd]
  simp only [vortexClosed]
  ext i
  · rfl
  · fin_cases i
    · simp only [Fin.zero_eta, Matrix.cons_val_zero]; field_simp
    · simp only [Fin.mk_one, Matrix.cons_val_one, Matrix.cons_val_fin_one]; field_simp
  · simp only; field_simp; ring

theorem hasDerivAt_vB (s s' t : ℝ) (S : ℝ → ℝ) (hS : HasDerivAt S s' t) (hs : S t = s)
    (h0 : s ≠ 0) : HasDerivAt (fun t => vB (S t)) (s' / (20 * s ^ 2)) t := by
  have h1 : HasDerivAt (fun t => 1 / (20 * S t)) (-(20 * s') / (20 * S t) ^ 2) t := by
    have := (hasDerivAt_const t (1 : ℝ)).fun_div (hS.const_mul 20) (by rw [hs]; positivity)
    refine this.congr_deriv (by ring)
  have := h1.const_sub (21 / 20)
  refine this.congr_deriv ?_
  rw [hs]; field_simp

/-- The vortex is an exact steady solution: the divergence of the Euler flux computed by
`calcEulerFlux` vanishes in every component at every point of the half plane outside the core. -/
theorem C79_vortex_steady (x y : ℝ) (hx : 1 / 10 ^ 15 < x) (hB : 1 / 21 < x ^ 2 + y ^ 2) :
    ∀ comp : State 2 → ℝ,
      (comp = State.rho ∨ comp = State.ener ∨ (∃ i, comp = fun q => q.mom i)) →
      ∃ a b, HasDerivAt (fun t => comp (calcEulerFlux ![1, 0] (calcIsentropicVortexState ![t, y]))) a x
        ∧ HasDerivAt (fun t => comp (calcEulerFlux ![0, 1] (calcIsentropicVortexState ![x, t]))) b y
        ∧ a + b = 0 := by
  have hs : 0 < x ^ 2 + y ^ 2 := lt_trans (by norm_num) hB
  obtain ⟨hBpos, -⟩ := vortex_pressure x y hB
  have hPpos := Real.rpow_pos_of_pos hBpos (5 / 2 : ℝ)
  have hk : √(1 / 8 : ℝ) ^ 2 = 1 / 8 := Real.sq_sqrt (by norm_num)
  -- derivatives in x
  have sx : HasDerivAt (fun t : ℝ => t ^ 2 + y ^ 2) (2 * x) x := by
    have := ((hasDerivAt_id x).fun_pow 2).add_const (y ^ 2)
    refine this.congr_deriv ?_; simp
  have sy : HasDerivAt (fun t : ℝ => x ^ 2 + t ^ 2) (2 * y) y := by
    have := ((hasDerivAt_id y).fun_pow 2).const_add (x ^ 2)
    refine this.congr_deriv ?_; simp
  have bx := hasDerivAt_vB _ _ _ _ sx rfl hs.ne'
  have bY := hasDerivAt_vB _ _ _ _ sy rfl hs.ne'
  have px := bx.rpow_const (p := 5 / 2) (Or.inl hBpos.ne')
  have py := bY.rpow_const (p := 5 / 2) (Or.inl hBpos.ne')
  rw [Real.rpow_sub_one hBpos.ne'] at px py
  have ux : HasDerivAt (fun t : ℝ => -(√(1 / 8) * y / (t ^ 2 + y ^ 2)))
      (√(1 / 8) * y * (2 * x) / (x ^ 2 + y ^ 2) ^ 2) x := by
    have := ((hasDerivAt_const x (√(1 / 8) * y)).fun_div sx hs.ne').fun_neg
    refine this.congr_deriv (by ring)
  have uy : HasDerivAt (fun t : ℝ => -(√(1 / 8) * t / (x ^ 2 + t ^ 2)))
      (-(√(1 / 8) * (x ^ 2 + y ^ 2) - √(1 / 8) * y * (2 * y)) / (x ^ 2 + y ^ 2) ^ 2) y := by
    have := (((hasDerivAt_id y).const_mul (√(1 / 8))).fun_div sy hs.ne').fun_neg
    refine this.congr_deriv (by simp; ring)
  have vx : HasDerivAt (fun t : ℝ => √(1 / 8) * t / (t ^ 2 + y ^ 2))
      ((√(1 / 8) * (x ^ 2 + y ^ 2) - √(1 / 8) * x * (2 * x)) / (x ^ 2 + y ^ 2) ^ 2) x := by
    have := (((hasDerivAt_id x).const_mul (√(1 / 8))).fun_div sx hs.ne')
    refine this.congr_deriv (by simp)
  have vy : HasDerivAt (fun t : ℝ => √(1 / 8) * x / (x ^ 2 + t ^ 2))
      (-(√(1 / 8) * x * (2 * y)) / (x ^ 2 + y ^ 2) ^ 2) y := by
    have := ((hasDerivAt_const y (√(1 / 8) * x)).fun_div sy hs.ne')
    refine this.congr_deriv (by ring)
  have wx : HasDerivAt (fun t : ℝ => 1 / 8 / (t ^ 2 + y ^ 2))
      (-(1 / 8 * (2 * x)) / (x ^ 2 + y ^ 2) ^ 2) x := by
    have := ((hasDerivAt_const x (1 / 8 : ℝ)).fun_div sx hs.ne')
    refine this.congr_deriv (by ring)
  have wy : HasDerivAt (fun t : ℝ => 1 / 8 / (x ^ 2 + t ^ 2))
      (-(1 / 8 * (2 * y)) / (x ^ 2 + y ^ 2) ^ 2) y := by
    have := ((hasDerivAt_const y (1 / 8 : ℝ)).fun_div sy hs.ne')
    refine this.congr_deriv (by ring)
  -- closed form near the point
  have evx : ∀ᶠ t in nhds x, calcEulerFlux ![1, 0] (calcIsentropicVortexState ![t, y])
      = calcEulerFlux ![1, 0] (vortexClosed t y) ∧ 1 / 21 < t ^ 2 + y ^ 2 := by
    have c1 : ∀ᶠ t in nhds x, 1 / 10 ^ 15 < t := lt_mem_nhds hx
    have c2 : ∀ᶠ t in nhds x, 1 / 21 < t ^ 2 + y ^ 2 :=
      sx.continuousAt.eventually (lt_mem_nhds hB)
    filter_upwards [c1, c2] with t h1 h2
    exact ⟨by rw [vortex_closed t y h1 h2], h2⟩
  have evy : ∀ᶠ t in nhds y, calcEulerFlux ![0, 1] (calcIsentropicVortexState ![x, t])
      = calcEulerFlux ![0, 1] (vortexClosed x t) ∧ 1 / 21 < x ^ 2 + t ^ 2 := by
    have c2 : ∀ᶠ t in nhds y, 1 / 21 < x ^ 2 + t ^ 2 :=
      sy.continuousAt.eventually (lt_mem_nhds hB)
    filter_upwards [c2] with t h2
    exact ⟨by rw [vortex_closed x t hx h2], h2⟩
  rintro comp (rfl | rfl | ⟨i, rfl⟩)
  · -- mass
    have dx := (px.const_mul 2).fun_mul ux
    have dy := (py.const_mul 2).fun_mul vy
    refine ⟨_, _, dx.congr_of_eventuallyEq ?_, dy.congr_of_eventuallyEq ?_, ?_⟩
    · filter_upwards [evx] with t ht
      rw [ht.1, vortex_flux 1 0 t y ht.2]; simp
    · filter_upwards [evy] with t ht
      rw [ht.1, vortex_flux 0 1 x t ht.2]; simp
    · field_simp; ring
  · -- energy
    have dx := ((((bx.fun_mul px).const_mul (5 / 7)).const_mul (7 / 2)).fun_add
      (((px.const_mul 2).const_mul (1 / 2)).fun_mul wx)).fun_mul ux
    have dy := ((((bY.fun_mul py).const_mul (5 / 7)).const_mul (7 / 2)).fun_add
      (((py.const_mul 2).const_mul (1 / 2)).fun_mul wy)).fun_mul vy
    refine ⟨_, _, dx.congr_of_eventuallyEq ?_, dy.congr_of_eventuallyEq ?_, ?_⟩
    · filter_upwards [evx] with t ht
      rw [ht.1, vortex_flux 1 0 t y ht.2]; simp
    · filter_upwards [evy] with t ht
      rw [ht.1, vortex_flux 0 1 x t ht.2]; simp
    · field_simp; ring
  · fin_cases i
    · have dx := (((px.const_mul 2).fun_mul ux).fun_mul ux).fun_add
        ((bx.fun_mul px).const_mul (5 / 7))
      have dy := ((py.const_mul 2).fun_mul uy).fun_mul vy
      refine ⟨_, _, dx.congr_of_eventuallyEq ?_, dy.congr_of_eventuallyEq ?_, ?_⟩
      · filter_upwards [evx] with t ht
        rw [ht.1, vortex_flux 1 0 t y ht.2]; simp
      · filter_upwards [evy] with t ht
        rw [ht.1, vortex_flux 0 1 x t ht.2]; simp
      · generalize √(1 / 8 : ℝ) = k at hk ⊢
        generalize vB (x ^ 2 + y ^ 2) ^ (5 / 2 : ℝ) = P at hPpos ⊢
        generalize vB (x ^ 2 + y ^ 2) = B at hBpos ⊢
        field_simp
        rw [hk]
        ring
    · have dx := ((px.const_mul 2).fun_mul vx).fun_mul ux
      have dy := (((py.const_mul 2).fun_mul vy).fun_mul vy).fun_add
        ((bY.fun_mul py).const_mul (5 / 7))
      refine ⟨_, _, dx.congr_of_eventuallyEq ?_, dy.congr_of_eventuallyEq ?_, ?_⟩
      · filter_upwards [evx] with t ht
        rw [ht.1, vortex_flux 1 0 t y ht.2]; simp
      · filter_upwards [evy] with t ht
        rw [ht.1, vortex_flux 0 1 x t ht.2]; simp
      · generalize √(1 / 8 : ℝ) = k at hk ⊢
        generalize vB (x ^ 2 + y ^ 2) ^ (5 / 2 : ℝ) = P at hPpos ⊢
        generalize vB (x ^ 2 + y ^ 2) = B at hBpos ⊢
        field_simp
        rw [hk]
        ring

/-- Left half plane: the polar angle is computed with `atan`/`π/2`, so at `(-2, 0)` the velocity
is radial, not tangential. -/
theorem C79_left_half_wrong :
    ¬ ∀ x y : ℝ, 1 / 21 < x ^ 2 + y ^ 2 →
      (calcIsentropicVortexState ![x, y]).mom 0 * x
        + (calcIsentropicVortexState ![x, y]).mom 1 * y = 0 := by
  intro h
  have h1 := h (-2) 0 (by norm_num)
  have hr := vortex_closed 2 0 (by norm_num) (by norm_num)
  -- the radial profile only depends on x² + y²; compare with the point (2, 0)
  have hm : (calcIsentropicVortexState ![-2, 0]).mom 0
      = -(calcIsentropicVortexState ![2, 0]).mom 1 := by
    have c1 : ¬ ((-2 : ℝ) > 1 / 10 ^ 15) := by norm_num
    have c2 : ((2 : ℝ) > 1 / 10 ^ 15) := by norm_num
    have e : (-2 * -2 : ℝ) = 2 * 2 := by norm_num
    unfold calcIsentropicVortexState
    simp only [Matrix.cons_val_zero, Matrix.cons_val_one, Matrix.cons_val_fin_one, if_neg c1,
      if_pos c2, e]
    simp [Real.arctan_zero]
  rw [hm, hr] at h1
  have hP : 0 < vB ((2 : ℝ) ^ 2 + 0 ^ 2) ^ (5 / 2 : ℝ) := by
    apply Real.rpow_pos_of_pos; unfold vB; norm_num
  have hk : 0 < √(1 / 8 : ℝ) := Real.sqrt_pos.mpr (by norm_num)
  simp only [vortexClosed, Matrix.cons_val_one, Matrix.cons_val_fin_one, mul_zero, add_zero] at h1
  have : 0 < 2 * vB ((2 : ℝ) ^ 2 + 0 ^ 2) ^ (5 / 2 : ℝ) * (√(1 / 8) * 2 / (2 ^ 2 + 0 ^ 2)) := by
    positivity
  linarith

example : ∃ x y : ℝ, 1 / 10 ^ 15 < x ∧ 1 / 21 < x ^ 2 + y ^ 2 := ⟨1, 1, by norm_num, by norm_num⟩

end Verif.EulerFluxes
