import Mathlib.Analysis.SpecialFunctions.Complex.Arg
import Mathlib.Analysis.SpecialFunctions.Trigonometric.Deriv
import Verif.SourceFieldProps

/-! # The stator winding currents: property theorems (C167) -/

namespace Verif.Source

open Verif.Dense Verif.MatCoeffs Filter Topology

/-! ### Specification -/

/-- The point with cylindrical coordinates `(r, θ, z)`. -/
noncomputable def cyl (r θ z : ℝ) : V3 := ![r * Real.cos θ, r * Real.sin θ, z]

/-- The vector with components `(a, b, c)` along the radial, tangential and axial directions at the angle `θ`. -/
noncomputable def polar (θ a b c : ℝ) : V3 := rot θ ![a, b, c]

/-- The distance by which a point leaves the stator body (negative below it). -/
noncomputable def overhang (L z : ℝ) : ℝ := if L / 2 < z then z - L / 2 else z + L / 2

/-- Strictly inside one of the `n` slots. -/
def InsideSlot (n : ℕ) (x : V3) : Prop := |slotOffset n x| < slotAngle n / 2

/-! ### Lemmas -/

theorem slotAngle_pos {n : ℕ} (hn : 0 < n) : 0 < slotAngle n := by
  have : (0 : ℝ) < n := by exact_mod_cast hn
  unfold slotAngle; positivity

theorem n_slotAngle {n : ℕ} (hn : 0 < n) : n * slotAngle n = 2 * Real.pi := by
  have : (n : ℝ) ≠ 0 := by exact_mod_cast hn.ne'
  unfold slotAngle; field_simp

theorem cround_eq {y : ℝ} {w : ℤ} (h : |y - w| < 1 / 2) : cround y = w := by
  rw [abs_lt] at h
  unfold cround
  split_ifs with h0
  · rw [Int.floor_eq_iff]; constructor <;> linarith [h.1, h.2]
  · rw [Int.ceil_eq_iff]; constructor <;> linarith [h.1, h.2]

/-- The slot of a point whose angle is `w` slots, plus `φ`, plus full turns. -/
theorem slot_eq {n : ℕ} (hn : 0 < n) (y : V3) (w m : ℤ) (φ : ℝ)
    (ha : angle y = w * slotAngle n + φ + m * (2 * Real.pi)) (h : |φ| < slotAngle n / 2) :
    slot n y = w + n * m ∧ slotOffset n y = φ := by
  have hp := slotAngle_pos hn
  have hw : slot n y = w + n * m := by
    refine cround_eq ?_
    rw [ha, ← n_slotAngle hn]
    push_cast
    rw [show (w * slotAngle n + φ + m * (n * slotAngle n)) / slotAngle n - (w + n * m) = φ / slotAngle n by field_simp; ring,
      abs_div, abs_of_pos hp, div_lt_iff₀ hp]
    linarith
  refine ⟨hw, ?_⟩
  rw [slotOffset, hw, ha, ← n_slotAngle hn]
  push_cast; ring

theorem axis_eq {n : ℕ} (hn : 0 < n) (y : V3) (w m : ℤ) (h : slot n y = w + n * m) :
    slotAxis n y = ![Real.cos (w * slotAngle n), Real.sin (w * slotAngle n), 0] := by
  have e : ((w + n * m : ℤ) : ℝ) * slotAngle n = w * slotAngle n + m * (2 * Real.pi) := by
    rw [← n_slotAngle hn]; push_cast; ring
  rw [slotAxis, h, e, Real.cos_add_int_mul_two_pi, Real.sin_add_int_mul_two_pi]

/-- The angle of the point with polar angle `θ` is `θ` up to full turns. -/
theorem angle_cyl (r θ z : ℝ) (hr : 0 < r) : ∃ m : ℤ, angle (cyl r θ z) = θ + m * (2 * Real.pi) := by
  have e : (⟨cyl r θ z 0, cyl r θ z 1⟩ : ℂ) = r * (Complex.cos θ + Complex.sin θ * Complex.I) := by
    apply Complex.ext
    · simp [cyl, ← Complex.ofReal_cos, ← Complex.ofReal_sin]
    · simp [cyl, ← Complex.ofReal_cos, ← Complex.ofReal_sin]
  have h := Complex.arg_mul_cos_add_sin_mul_I_coe_angle hr (θ : Real.Angle)
  simp only [Real.Angle.cos_coe, Real.Angle.sin_coe, Complex.ofReal_cos, Complex.ofReal_sin] at h
  rw [Real.Angle.angle_eq_iff_two_pi_dvd_sub] at h
  obtain ⟨m, hm⟩ := h
  refine ⟨m, ?_⟩
  rw [angle, e]
  linarith

theorem cyl_of (x : V3) (h : OffAxis x) : ∃ r, 0 < r ∧ r * r = x 0 * x 0 + x 1 * x 1 ∧ x = cyl r (angle x) (x 2) := by
  have hz : (⟨x 0, x 1⟩ : ℂ) ≠ 0 := by
    intro hh
    have h0 := congrArg Complex.re hh
    have h1 := congrArg Complex.im hh
    simp at h0 h1
    rcases h with h | h
    · exact h h0
    · exact h h1
  refine ⟨‖(⟨x 0, x 1⟩ : ℂ)‖, norm_pos_iff.2 hz, ?_, ?_⟩
  · have := Complex.normSq_eq_norm_sq (⟨x 0, x 1⟩ : ℂ)
    rw [Complex.normSq_apply] at this
    rw [← pow_two, ← this]
  · have hc := Complex.norm_mul_cos_arg (⟨x 0, x 1⟩ : ℂ)
    have hs := Complex.norm_mul_sin_arg (⟨x 0, x 1⟩ : ℂ)
    funext i
    fin_cases i
    · simp [cyl, angle, hc]
    · simp [cyl, angle, hs]
    · simp [cyl]

theorem rot_cyl (r θ z φ : ℝ) : rot φ (cyl r θ z) = cyl r (θ + φ) z := by
  funext i
  fin_cases i
  · simp [rot, cyl, Real.cos_add]; ring
  · simp [rot, cyl, Real.sin_add]; ring
  · simp [rot, cyl]

theorem unit3_some {v : V3} (h : 0 < v 0 * v 0 + v 1 * v 1 + v 2 * v 2) :
    unit3 v = some fun i => v i / √(v 0 * v 0 + v 1 * v 1 + v 2 * v 2) := by
  simp [unit3, (Real.sqrt_pos.2 h).ne']

theorem endPoint_out (L : ℝ) (hL : 0 ≤ L) (x : V3) (h : ¬ InBody L x) : endPoint L x = ![x 0, x 1, overhang L (x 2)] := by
  have : x 2 > L / 2 ∨ x 2 < -L / 2 := by
    by_contra hh
    push Not at hh
    exact h ⟨hh.2, hh.1⟩
  unfold endPoint overhang
  rcases this with h1 | h1
  · have h2 : ¬ x 2 < -L / 2 := by linarith
    simp [h1, h2]
  · have h2 : ¬ L / 2 < x 2 := by linarith
    simp [h1, h2]; ring

theorem overhang_ne (L : ℝ) (x : V3) (h : ¬ InBody L x) : overhang L (x 2) ≠ 0 := by
  unfold overhang
  split_ifs with h1
  · intro e; linarith
  · intro e; exact h ⟨by linarith, by linarith⟩

/-! ### C167 -/

/-- **C167** The winding current in cylindrical coordinates.  At the angle `φ` from the middle of any of the `n` slots, in the
stator body it runs along the axis, down on one side of the middle and up on the other; beyond either end it turns around the
slot's radial axis, with components proportional to `(h sin φ, h cos φ, -r sin φ)`, `h` being the overhang. -/
theorem C167_field (n : ℕ) (hn : 0 < n) (L : ℝ) (hL : 0 ≤ L) (r z φ : ℝ) (hr : 0 < r) (w : ℤ) (hφ : |φ| < slotAngle n / 2) :
    (InBody L ![0, 0, z] →
      ccwStator n L (cyl r (w * slotAngle n + φ) z) = some (polar (w * slotAngle n + φ) 0 0 (-sgn φ))) ∧
    (¬ InBody L ![0, 0, z] →
      let h := overhang L z
      let N := √(h * h + (r * Real.sin φ) * (r * Real.sin φ))
      0 < N ∧ ccwStator n L (cyl r (w * slotAngle n + φ) z) =
        some (polar (w * slotAngle n + φ) (h * Real.sin φ / N) (h * Real.cos φ / N) (-(r * Real.sin φ) / N))) := by
  obtain ⟨m, hm⟩ := angle_cyl r (w * slotAngle n + φ) z hr
  obtain ⟨hs, ho⟩ := slot_eq hn (cyl r (w * slotAngle n + φ) z) w m φ hm hφ
  have hax := axis_eq hn _ w m hs
  have hz : cyl r (w * slotAngle n + φ) z 2 = z := rfl
  constructor
  · intro hb
    have hb' : InBody L (cyl r (w * slotAngle n + φ) z) := hb
    rw [ccwStator, if_pos hb', ho]
    congr 1
    funext i
    fin_cases i
    · simp [polar, rot]
    · simp [polar, rot]
    · rcases lt_trichotomy φ 0 with h | h | h
      · simp [polar, rot, sgn, h, not_lt.2 h.le]
      · simp [polar, rot, sgn, h]
      · simp [polar, rot, sgn, h, not_lt.2 h.le]
  · intro hb
    have hb' : ¬ InBody L (cyl r (w * slotAngle n + φ) z) := hb
    have hne : overhang L z ≠ 0 := overhang_ne L ![0, 0, z] hb
    intro h N
    have hpos : 0 < h * h + (r * Real.sin φ) * (r * Real.sin φ) :=
      add_pos_of_pos_of_nonneg (mul_self_pos.2 hne) (mul_self_nonneg _)
    refine ⟨Real.sqrt_pos.2 hpos, ?_⟩
    rw [ccwStator, if_neg hb', hax, endPoint_out L hL _ hb', hz]
    obtain ⟨A, hA⟩ : ∃ A, A = (w : ℝ) * slotAngle n := ⟨_, rfl⟩
    rw [← hA]
    have hv : cross ![cyl r (A + φ) z 0, cyl r (A + φ) z 1, overhang L z] ![Real.cos A, Real.sin A, 0] =
        ![-(h * Real.sin A), h * Real.cos A, -(r * Real.sin φ)] := by
      funext i
      fin_cases i
      · simp [cross, h]
      · simp [cross, h]
      · simp [cross, cyl, Real.cos_add, Real.sin_add]
        linear_combination (-r * Real.sin φ) * Real.sin_sq_add_cos_sq A
    rw [hv]
    have hsum : (![-(h * Real.sin A), h * Real.cos A, -(r * Real.sin φ)] : V3) 0 * (![-(h * Real.sin A), h * Real.cos A, -(r * Real.sin φ)] : V3) 0
        + (![-(h * Real.sin A), h * Real.cos A, -(r * Real.sin φ)] : V3) 1 * (![-(h * Real.sin A), h * Real.cos A, -(r * Real.sin φ)] : V3) 1
        + (![-(h * Real.sin A), h * Real.cos A, -(r * Real.sin φ)] : V3) 2 * (![-(h * Real.sin A), h * Real.cos A, -(r * Real.sin φ)] : V3) 2
        = h * h + (r * Real.sin φ) * (r * Real.sin φ) := by
      simp only [Matrix.cons_val_zero, Matrix.cons_val_one, Matrix.cons_val]
      linear_combination (h * h) * Real.sin_sq_add_cos_sq A
    rw [unit3_some (by rw [hsum]; exact hpos), hsum]
    congr 1
    have hN : N ≠ 0 := (Real.sqrt_pos.2 hpos).ne'
    have hN' : √(h * h + (r * Real.sin φ) * (r * Real.sin φ)) = N := rfl
    rw [hN']
    have h1 : Real.sin A ^ 2 + Real.cos A ^ 2 = 1 := Real.sin_sq_add_cos_sq A
    have h2 : Real.sin φ ^ 2 + Real.cos φ ^ 2 = 1 := Real.sin_sq_add_cos_sq φ
    clear_value N
    funext i
    fin_cases i
    · simp [polar, rot, Real.cos_add, Real.sin_add]
      field_simp
      linear_combination (h * Real.sin A) * h2
    · simp [polar, rot, Real.cos_add, Real.sin_add]
      field_simp
      linear_combination (-h * Real.cos A) * h2
    · simp [polar, rot]

/-- **C167** The "cwStator" current is the "ccwStator" current reversed, at every point. -/
theorem C167_reversed (n : ℕ) (L : ℝ) (x : V3) : cwStator n L x = (ccwStator n L x).map fun J i => -J i := by
  unfold cwStator ccwStator
  congr 1
  funext J i
  ring

theorem near_slot {n : ℕ} (hn : 0 < n) (x δ : V3) (hx : OffAxis x) (hi : InsideSlot n x) :
    (∀ᶠ t in 𝓝 (0 : ℝ), slotAxis n (line x δ t) = slotAxis n x) ∧
      Tendsto (fun t => slotOffset n (line x δ t)) (𝓝 0) (𝓝 (slotOffset n x)) := by
  have hz : (⟨x 0, x 1⟩ : ℂ) ≠ 0 := by
    intro hh
    have h0 := congrArg Complex.re hh
    have h1 := congrArg Complex.im hh
    simp at h0 h1
    rcases hx with h | h
    · exact h h0
    · exact h h1
  obtain ⟨z0, hz0⟩ : ∃ z0 : ℂ, z0 = ⟨x 0, x 1⟩ := ⟨_, rfl⟩
  obtain ⟨d, hd⟩ : ∃ d : ℂ, d = ⟨δ 0, δ 1⟩ := ⟨_, rfl⟩
  rw [← hz0] at hz
  have hzt : ∀ t, (⟨line x δ t 0, line x δ t 1⟩ : ℂ) = z0 + t * d := by
    intro t
    apply Complex.ext <;> simp [line, hz0, hd]
  have hc : ContinuousAt (fun t : ℝ => Complex.arg ((z0 + t * d) / z0)) 0 := by
    have h1 : ContinuousAt (fun t : ℝ => (z0 + t * d) / z0) 0 := by fun_prop
    have h2 : ContinuousAt Complex.arg ((fun t : ℝ => (z0 + t * d) / z0) 0) := by
      refine Complex.continuousAt_arg ?_
      simp [hz]
    exact ContinuousAt.comp (g := Complex.arg) h2 h1
  have ht0 : Tendsto (fun t : ℝ => Complex.arg ((z0 + t * d) / z0)) (𝓝 0) (𝓝 0) := by
    have := hc.tendsto
    simpa [hz] using this
  have htn : Tendsto (fun t : ℝ => z0 + t * d) (𝓝 0) (𝓝 z0) := by
    have : ContinuousAt (fun t : ℝ => z0 + t * d) 0 := by fun_prop
    simpa using this.tendsto
  have hev : ∀ᶠ t in 𝓝 (0 : ℝ), ∃ m : ℤ, angle (line x δ t) =
      slot n x * slotAngle n + (slotOffset n x + Complex.arg ((z0 + t * d) / z0)) + m * (2 * Real.pi) := by
    filter_upwards [htn.eventually_ne hz] with t ht
    have h := Complex.arg_mul_coe_angle hz (div_ne_zero ht hz)
    rw [mul_div_cancel₀ _ hz, ← Real.Angle.coe_add, Real.Angle.angle_eq_iff_two_pi_dvd_sub] at h
    obtain ⟨m, hm⟩ := h
    refine ⟨m, ?_⟩
    rw [angle, hzt]
    have : slotOffset n x = Complex.arg z0 - slot n x * slotAngle n := by rw [slotOffset, angle, hz0]
    rw [this]
    linarith
  have hφ : ∀ᶠ t : ℝ in 𝓝 (0 : ℝ), |slotOffset n x + Complex.arg ((z0 + t * d) / z0)| < slotAngle n / 2 := by
    have h1 : Tendsto (fun t : ℝ => |slotOffset n x + Complex.arg ((z0 + t * d) / z0)|) (𝓝 0) (𝓝 |slotOffset n x + 0|) :=
      (tendsto_const_nhds.add ht0).abs
    rw [add_zero] at h1
    exact h1.eventually_lt_const hi
  constructor
  · filter_upwards [hev, hφ] with t ⟨m, hm⟩ h
    have hs := (slot_eq hn _ _ _ _ hm h).1
    rw [axis_eq hn _ _ _ hs]
    rfl
  · have h1 : Tendsto (fun t : ℝ => slotOffset n x + Complex.arg ((z0 + t * d) / z0)) (𝓝 0) (𝓝 (slotOffset n x)) := by
      simpa using (tendsto_const_nhds (x := slotOffset n x)).add ht0
    refine h1.congr' ?_
    filter_upwards [hev, hφ] with t ⟨m, hm⟩ h
    exact (slot_eq hn _ _ _ _ hm h).2.symm

theorem unit3_hasDerivAt (v : ℝ → V3) (v' b : V3) (hv : ∀ i, HasDerivAt (fun t => v t i) (v' i) 0)
    (h : 0 < v 0 0 * v 0 0 + v 0 1 * v 0 1 + v 0 2 * v 0 2) :
    ∃ g, unit3Bar (v 0) b = some g ∧
      (∀ᶠ t in 𝓝 (0 : ℝ), unit3 (v t) = some fun i => v t i / √(v t 0 * v t 0 + v t 1 * v t 1 + v t 2 * v t 2)) ∧
      HasDerivAt (fun t => dotv b fun i => v t i / √(v t 0 * v t 0 + v t 1 * v t 1 + v t 2 * v t 2)) (dotv g v') 0 := by
  have hn : √(v 0 0 * v 0 0 + v 0 1 * v 0 1 + v 0 2 * v 0 2) ≠ 0 := (Real.sqrt_pos.2 h).ne'
  have hs := (((hv 0).fun_mul (hv 0)).fun_add ((hv 1).fun_mul (hv 1))).fun_add ((hv 2).fun_mul (hv 2))
  refine ⟨_, if_neg hn, ?_, ?_⟩
  · exact (hs.continuousAt.tendsto.eventually_const_lt h).mono fun t ht => unit3_some ht
  · have hr := hs.sqrt h.ne'
    have := ((((hv 0).fun_div hr hn).const_mul (b 0)).fun_add (((hv 1).fun_div hr hn).const_mul (b 1))).fun_add
      (((hv 2).fun_div hr hn).const_mul (b 2))
    have e : (fun t => dotv b fun i => v t i / √(v t 0 * v t 0 + v t 1 * v t 1 + v t 2 * v t 2)) = fun t =>
        b 0 * (v t 0 / √(v t 0 * v t 0 + v t 1 * v t 1 + v t 2 * v t 2)) +
        b 1 * (v t 1 / √(v t 0 * v t 0 + v t 1 * v t 1 + v t 2 * v t 2)) +
        b 2 * (v t 2 / √(v t 0 * v t 0 + v t 1 * v t 1 + v t 2 * v t 2)) := by
      funext t; rw [dot3]
    rw [e]
    refine this.congr_deriv ?_
    rw [dot3]
    generalize √(v 0 0 * v 0 0 + v 0 1 * v 0 1 + v 0 2 * v 0 2) = N at hn ⊢
    generalize v 0 0 = a0
    generalize v 0 1 = a1
    generalize v 0 2 = a2
    field_simp
    ring

/-- Where the winding current is smooth: inside a slot, and either in the interior of one half of it in the body or beyond
the body. -/
def SmoothStator (n : ℕ) (L : ℝ) (x : V3) : Prop :=
  OffAxis x ∧ InsideSlot n x ∧ ((|x 2| < L / 2 ∧ slotOffset n x ≠ 0) ∨ ¬ InBody L x)

theorem ccw_out (n : ℕ) (L : ℝ) (x : V3) (h : ¬ InBody L x) : ccwStator n L x = unit3 (cross (endPoint L x) (slotAxis n x)) :=
  if_neg h

theorem out_open (L : ℝ) (x δ : V3) (h : ¬ InBody L x) : ∀ᶠ t in 𝓝 (0 : ℝ), ¬ InBody L (line x δ t) := by
  by_cases h1 : L / 2 < x 2
  · exact ((line_cont x δ 2).eventually_const_lt h1).mono fun t ht hb => absurd hb.2 (not_le.2 ht)
  · have h2 : x 2 < -L / 2 := by
      by_contra hh
      exact h ⟨not_lt.1 hh, not_lt.1 h1⟩
    exact ((line_cont x δ 2).eventually_lt_const h2).mono fun t ht hb => absurd hb.1 (not_le.2 ht)

theorem over_line (L : ℝ) (hL : 0 ≤ L) (x δ : V3) (h : ¬ InBody L x) :
    ∀ᶠ t in 𝓝 (0 : ℝ), overhang L (line x δ t 2) = overhang L (x 2) + t * δ 2 := by
  by_cases h1 : L / 2 < x 2
  · exact ((line_cont x δ 2).eventually_const_lt h1).mono fun t ht => by
      rw [overhang, if_pos ht, overhang, if_pos h1, line]; ring
  · have h2 : x 2 < -L / 2 := by
      by_contra hh
      exact h ⟨not_lt.1 hh, not_lt.1 h1⟩
    exact ((line_cont x δ 2).eventually_lt_const h2).mono fun t ht => by
      rw [overhang, if_neg (by linarith), overhang, if_neg h1, line]; ring

theorem ccw_body (n : ℕ) (hn : 0 < n) (L : ℝ) (x : V3) (hx : OffAxis x) (hi : InsideSlot n x) (hb : |x 2| < L / 2)
    (ho : slotOffset n x ≠ 0) : ∃ s : ℝ, s * s = 1 ∧ ∀ δ, ∀ᶠ t in 𝓝 (0 : ℝ), ccwStator n L (line x δ t) = some ![0, 0, s] := by
  rw [abs_lt] at hb
  have hin : ∀ δ, ∀ᶠ t in 𝓝 (0 : ℝ), InBody L (line x δ t) := fun δ => by
    filter_upwards [(line_cont x δ 2).eventually_const_lt hb.1, (line_cont x δ 2).eventually_lt_const hb.2] with t h1 h2
    exact ⟨by linarith, h2.le⟩
  rcases lt_or_gt_of_ne ho with h | h
  · refine ⟨1, by ring, fun δ => ?_⟩
    filter_upwards [hin δ, (near_slot hn x δ hx hi).2.eventually_lt_const h] with t a b
    simp [ccwStator, a, b, not_lt.2 b.le]
  · refine ⟨-1, by ring, fun δ => ?_⟩
    filter_upwards [hin δ, (near_slot hn x δ hx hi).2.eventually_const_lt h] with t a b
    simp [ccwStator, a, b]

theorem ccw_end (n : ℕ) (hn : 0 < n) (L : ℝ) (hL : 0 ≤ L) (x : V3) (hx : OffAxis x) (hi : InsideSlot n x) (ho : ¬ InBody L x) :
    RevExact (ccwStator n L) (ccwStatorRev n L) x ∧ Unit (ccwStator n L) x ∧
      ∀ g : Fin 3 → V3, (∀ i, ccwStatorRev n L x (e3 i) = some (g i)) → ∑ i, g i i = 0 := by
  obtain ⟨h, hh⟩ : ∃ h, h = overhang L (x 2) := ⟨_, rfl⟩
  have hne : h ≠ 0 := hh ▸ overhang_ne L x ho
  obtain ⟨ax, hax⟩ : ∃ ax, ax = slotAxis n x := ⟨_, rfl⟩
  have ha2 : ax 2 = 0 := by rw [hax]; rfl
  have haa : ax 0 * ax 0 + ax 1 * ax 1 = 1 := by
    rw [hax]; simp [slotAxis]; nlinarith [Real.sin_sq_add_cos_sq (slot n x * slotAngle n)]
  have he : endPoint L x = ![x 0, x 1, h] := by rw [endPoint_out L hL x ho, hh]
  have hpos : 0 < cross ![x 0, x 1, h] ax 0 * cross ![x 0, x 1, h] ax 0 + cross ![x 0, x 1, h] ax 1 * cross ![x 0, x 1, h] ax 1
      + cross ![x 0, x 1, h] ax 2 * cross ![x 0, x 1, h] ax 2 := by
    have h1 := mul_self_pos.2 hne
    have h2 := mul_self_nonneg (x 0 * ax 1 - x 1 * ax 0)
    simp only [cross, Matrix.cons_val_zero, Matrix.cons_val_one, Matrix.cons_val, ha2]
    nlinarith
  have hline : ∀ δ, ∀ᶠ t in 𝓝 (0 : ℝ), ccwStator n L (line x δ t) = unit3 (cross (line ![x 0, x 1, h] δ t) ax) := fun δ => by
    filter_upwards [out_open L x δ ho, over_line L hL x δ ho, (near_slot hn x δ hx hi).1] with t a b c
    rw [ccw_out n L _ a, endPoint_out L hL _ a, b, c, ← hax, ← hh]
    congr 2
    funext i
    fin_cases i <;> simp [line]
  have hrev : ∀ b, ccwStatorRev n L x b = (unit3Bar (cross ![x 0, x 1, h] ax) b).map (crossBar ax) := fun b => by
    rw [ccwStatorRev, if_neg ho, he, ← hax]
  refine ⟨fun b => ?_, ?_, fun g hg => ?_⟩
  · obtain ⟨g, hg, -⟩ := unit3_hasDerivAt (fun _ => cross ![x 0, x 1, h] ax) 0 b (fun _ => hasDerivAt_const _ _) hpos
    refine ⟨crossBar ax g, by rw [hrev, hg, Option.map_some], fun δ => ?_⟩
    have hl := line_hasDerivAt ![x 0, x 1, h] δ
    obtain ⟨g', hg', hev, hd⟩ := unit3_hasDerivAt (fun t => cross (line ![x 0, x 1, h] δ t) ax) (cross δ ax) b (fun i => by
      fin_cases i
      · exact ((hl 1).mul_const (ax 2)).fun_sub ((hl 2).mul_const (ax 1))
      · exact ((hl 2).mul_const (ax 0)).fun_sub ((hl 0).mul_const (ax 2))
      · exact ((hl 0).mul_const (ax 1)).fun_sub ((hl 1).mul_const (ax 0))) (by simp only [line_zero]; exact hpos)
    simp only [line_zero] at hg'
    have hgg : g' = g := Option.some.inj (hg'.symm.trans hg)
    rw [hgg] at hd
    refine ⟨_, ((hline δ).and hev).mono fun t ht => by rw [ht.1, ht.2], hd.congr_deriv ?_⟩
    rw [dot3, dot3]
    simp only [cross, crossBar, Matrix.cons_val_zero, Matrix.cons_val_one, Matrix.cons_val]
    ring
  · have h1 : ccwStator n L x = unit3 (cross ![x 0, x 1, h] ax) := by rw [ccw_out n L x ho, he, hax]
    refine ⟨_, h1.trans (unit3_some hpos), ?_⟩
    have hs := Real.mul_self_sqrt hpos.le
    have hN := (Real.sqrt_pos.2 hpos).ne'
    rw [dot3]
    generalize √(cross ![x 0, x 1, h] ax 0 * cross ![x 0, x 1, h] ax 0 + cross ![x 0, x 1, h] ax 1 * cross ![x 0, x 1, h] ax 1
      + cross ![x 0, x 1, h] ax 2 * cross ![x 0, x 1, h] ax 2) = N at hs hN
    field_simp
    linarith
  · have hn' := (Real.sqrt_pos.2 hpos).ne'
    have e0 := hg 0
    have e1 := hg 1
    have e2 := hg 2
    rw [hrev] at e0 e1 e2
    simp only [unit3Bar, if_neg hn', Option.map_some, Option.some.injEq, e3] at e0 e1 e2
    rw [Fin.sum_univ_three, ← e0, ← e1, ← e2]
    generalize √(cross ![x 0, x 1, h] ax 0 * cross ![x 0, x 1, h] ax 0 + cross ![x 0, x 1, h] ax 1 * cross ![x 0, x 1, h] ax 1
      + cross ![x 0, x 1, h] ax 2 * cross ![x 0, x 1, h] ax 2) = N at hn'
    simp [crossBar, cross]
    field_simp
    ring

theorem RevExact.neg {S S' : V3 → Option V3} {rev rev' : V3 → V3 → Option V3} {x : V3} (h : RevExact S rev x)
    (hS : ∀ y, S' y = (S y).map fun J i => -J i) (hr : ∀ b, rev' x b = rev x fun i => -b i) : RevExact S' rev' x := by
  intro b
  obtain ⟨g, hg, hd⟩ := h fun i => -b i
  refine ⟨g, by rw [hr, hg], fun δ => ?_⟩
  obtain ⟨J, hJ, hD⟩ := hd δ
  refine ⟨fun t i => -J t i, hJ.mono fun t ht => by rw [hS, ht, Option.map_some], ?_⟩
  refine hD.congr_of_eventuallyEq (Eventually.of_forall fun t => ?_)
  beta_reduce
  rw [dot3, dot3]; ring

theorem DivFree.neg {S S' : V3 → Option V3} {x : V3} (h : DivFree S x) (hS : ∀ y, S' y = (S y).map fun J i => -J i) :
    DivFree S' x := by
  obtain ⟨d, hd, h0⟩ := h
  refine ⟨fun i => -d i, fun i => ?_, by rw [Finset.sum_neg_distrib, h0, neg_zero]⟩
  obtain ⟨J, hJ, hD⟩ := hd i
  exact ⟨fun t i => -J t i, hJ.mono fun t ht => by rw [hS, ht, Option.map_some], hD.fun_neg⟩

theorem Unit.neg {S S' : V3 → Option V3} {x : V3} (h : Unit S x) (hS : ∀ y, S' y = (S y).map fun J i => -J i) : Unit S' x := by
  obtain ⟨J, hJ, h1⟩ := h
  exact ⟨_, by rw [hS, hJ, Option.map_some], by rw [dot3] at h1 ⊢; linarith⟩

/-- **C167** At every point inside a slot (away from its middle plane in the body, and from the two end planes), both
winding currents have unit length, conserve charge and have exact reverse passes. -/
theorem C167_smooth (n : ℕ) (hn : 0 < n) (L : ℝ) (hL : 0 ≤ L) (x : V3) (h : SmoothStator n L x) :
    (RevExact (ccwStator n L) (ccwStatorRev n L) x ∧ DivFree (ccwStator n L) x ∧ Unit (ccwStator n L) x) ∧
    (RevExact (cwStator n L) (cwStatorRev n L) x ∧ DivFree (cwStator n L) x ∧ Unit (cwStator n L) x) := by
  have hc : RevExact (ccwStator n L) (ccwStatorRev n L) x ∧ DivFree (ccwStator n L) x ∧ Unit (ccwStator n L) x := by
    obtain ⟨hx, hi, ⟨hb, ho⟩ | ho⟩ := h
    · obtain ⟨s, hs, hev⟩ := ccw_body n hn L x hx hi hb ho
      have hin : InBody L x := by rw [abs_lt] at hb; exact ⟨by linarith, hb.2.le⟩
      have hrev : ∀ b, ccwStatorRev n L x b = some 0 := fun b => if_pos hin
      have hex : RevExact (ccwStator n L) (ccwStatorRev n L) x := fun b =>
        ⟨0, hrev b, fun δ => ⟨fun _ => ![0, 0, s], hev δ, by
          simpa [dot3] using hasDerivAt_const (0 : ℝ) (dotv b ![0, 0, s])⟩⟩
      refine ⟨hex, div_of_rev _ _ _ hex fun g hg => ?_, ![0, 0, s], ?_, by simp [dot3, hs]⟩
      · have : ∀ i, g i = 0 := fun i => Option.some.inj ((hg i).symm.trans (hrev _))
        simp [this]
      · have := (hev 0).self_of_nhds
        rwa [line_zero] at this
    · obtain ⟨h1, h2, h3⟩ := ccw_end n hn L hL x hx hi ho
      exact ⟨h1, div_of_rev _ _ _ h1 h3, h2⟩
  refine ⟨hc, hc.1.neg (C167_reversed n L) fun b => ?_, hc.2.1.neg (C167_reversed n L), hc.2.2.neg (C167_reversed n L)⟩
  unfold cwStatorRev ccwStatorRev
  congr 3
  funext i
  ring

/-- **C167** The windings repeat: turning the machine by any number of slots turns the current with it. -/
theorem C167_periodic (n : ℕ) (hn : 0 < n) (L : ℝ) (hL : 0 ≤ L) (k : ℤ) (x : V3) (hx : OffAxis x) (hi : InsideSlot n x) :
    ccwStator n L (rot (k * slotAngle n) x) = (ccwStator n L x).map (rot (k * slotAngle n)) ∧
    cwStator n L (rot (k * slotAngle n) x) = (cwStator n L x).map (rot (k * slotAngle n)) := by
  obtain ⟨r, hr, -, hxc⟩ := cyl_of x hx
  have ha : angle x = slot n x * slotAngle n + slotOffset n x := by rw [slotOffset]; ring
  have hrr : ∀ a b v, rot a (rot b v) = rot (b + a) v := by
    intro a b v
    funext i
    fin_cases i
    · simp [rot, Real.cos_add, Real.sin_add]; ring
    · simp [rot, Real.cos_add, Real.sin_add]; ring
    · simp [rot]
  have hc : ccwStator n L (rot (k * slotAngle n) x) = (ccwStator n L x).map (rot (k * slotAngle n)) := by
    obtain ⟨z, hz⟩ : ∃ z, z = x 2 := ⟨_, rfl⟩
    obtain ⟨w, hw⟩ : ∃ w, w = slot n x := ⟨_, rfl⟩
    obtain ⟨φ, hφ⟩ : ∃ φ, φ = slotOffset n x := ⟨_, rfl⟩
    rw [ha, ← hz, ← hw, ← hφ] at hxc
    rw [InsideSlot, ← hφ] at hi
    have e2 : (w : ℝ) * slotAngle n + φ + k * slotAngle n = ((w + k : ℤ) : ℝ) * slotAngle n + φ := by push_cast; ring
    have f1 := C167_field n hn L hL r z φ hr w hi
    have f2 := C167_field n hn L hL r z φ hr (w + k) hi
    rw [hxc, rot_cyl, e2]
    by_cases hb : InBody L ![0, 0, z]
    · rw [f1.1 hb, f2.1 hb, Option.map_some, polar, polar, hrr, e2]
    · rw [(f1.2 hb).2, (f2.2 hb).2, Option.map_some, polar, polar, hrr, e2]
  refine ⟨hc, ?_⟩
  rw [C167_reversed, hc, C167_reversed, Option.map_map, Option.map_map]
  congr 1
  funext J
  funext i
  fin_cases i <;> simp [rot] <;> ring

/-- **C167** Across the two end planes of the body the current is continuous: approaching either from the end winding,
inside one half of a slot, the current tends to the one in the body (so what flows along the slot continues in the end
winding, with no charge created at the interface). -/
theorem C167_continuous (n : ℕ) (hn : 0 < n) (L : ℝ) (hL : 0 ≤ L) (r φ : ℝ) (hr : 0 < r) (w : ℤ)
    (hφ : |φ| < slotAngle n / 2) (h0 : φ ≠ 0) (top : Bool) :
    ∃ (J : ℝ → V3) (J0 : V3),
      ccwStator n L (cyl r (w * slotAngle n + φ) (if top then L / 2 else -L / 2)) = some J0 ∧
      (∀ t, 0 < t → ccwStator n L (cyl r (w * slotAngle n + φ) (if top then L / 2 + t else -L / 2 - t)) = some (J t)) ∧
      ∀ i, Tendsto (fun t => J t i) (𝓝[>] 0) (𝓝 (J0 i)) := by
  have hb : InBody L ![0, 0, if top then L / 2 else -L / 2] := by
    cases top <;> constructor <;> simp <;> linarith
  have hnb : ∀ t, 0 < t → ¬ InBody L ![0, 0, if top then L / 2 + t else -L / 2 - t] := by
    intro t ht hh
    cases top
    · have := hh.1; simp at this; linarith
    · have := hh.2; simp at this; linarith
  have hsin : Real.sin φ ≠ 0 := by
    have hpi : slotAngle n / 2 ≤ Real.pi := by
      have h1 : (1 : ℝ) ≤ n := by exact_mod_cast hn
      have : slotAngle n ≤ 2 * Real.pi := div_le_self (by positivity) h1
      linarith
    rw [abs_lt] at hφ
    rcases lt_or_gt_of_ne h0 with h | h
    · exact (Real.sin_neg_of_neg_of_neg_pi_lt h (by linarith)).ne
    · exact (Real.sin_pos_of_pos_of_lt_pi h (by linarith)).ne'
  have hsg : sgn φ * |r * Real.sin φ| = r * Real.sin φ := by
    have hpi : slotAngle n / 2 ≤ Real.pi := by
      have h1 : (1 : ℝ) ≤ n := by exact_mod_cast hn
      have : slotAngle n ≤ 2 * Real.pi := div_le_self (by positivity) h1
      linarith
    rw [abs_lt] at hφ
    rcases lt_or_gt_of_ne h0 with h | h
    · have hs := mul_neg_of_pos_of_neg hr (Real.sin_neg_of_neg_of_neg_pi_lt h (by linarith))
      rw [abs_of_neg hs]; simp [sgn, h, not_lt.2 h.le]
    · have hs := mul_pos hr (Real.sin_pos_of_pos_of_lt_pi h (by linarith))
      rw [abs_of_pos hs]; simp [sgn, h, not_lt.2 h.le]
  obtain ⟨s, hs⟩ : ∃ s : ℝ, s = if top then 1 else -1 := ⟨_, rfl⟩
  have hov : ∀ t, 0 < t → overhang L (if top then L / 2 + t else -L / 2 - t) = s * t := by
    intro t ht
    cases top
    · simp [overhang, hs]; rw [if_neg (by linarith)]; ring
    · simp [overhang, hs, ht]
  refine ⟨fun t => polar (w * slotAngle n + φ) (s * t * Real.sin φ / √(s * t * (s * t) + r * Real.sin φ * (r * Real.sin φ)))
    (s * t * Real.cos φ / √(s * t * (s * t) + r * Real.sin φ * (r * Real.sin φ)))
    (-(r * Real.sin φ) / √(s * t * (s * t) + r * Real.sin φ * (r * Real.sin φ))), _,
    (C167_field n hn L hL r _ φ hr w hφ).1 hb, fun t ht => ?_, fun i => ?_⟩
  · rw [((C167_field n hn L hL r _ φ hr w hφ).2 (hnb t ht)).2, hov t ht]
  · have hK : r * Real.sin φ ≠ 0 := mul_ne_zero hr.ne' hsin
    have hN : √(s * 0 * (s * 0) + r * Real.sin φ * (r * Real.sin φ)) = |r * Real.sin φ| := by
      rw [show s * 0 * (s * 0) + r * Real.sin φ * (r * Real.sin φ) = (r * Real.sin φ) * (r * Real.sin φ) by ring,
        Real.sqrt_mul_self_eq_abs]
    have hN0 : √(s * 0 * (s * 0) + r * Real.sin φ * (r * Real.sin φ)) ≠ 0 := by rw [hN]; exact abs_ne_zero.2 hK
    have hz : (-(r * Real.sin φ)) / |r * Real.sin φ| = -sgn φ := by
      rw [div_eq_iff (abs_ne_zero.2 hK)]; linarith
    have c1 : ContinuousAt (fun t : ℝ => s * t * Real.sin φ / √(s * t * (s * t) + r * Real.sin φ * (r * Real.sin φ))) 0 :=
      ContinuousAt.div (by fun_prop) (by fun_prop) hN0
    have c2 : ContinuousAt (fun t : ℝ => s * t * Real.cos φ / √(s * t * (s * t) + r * Real.sin φ * (r * Real.sin φ))) 0 :=
      ContinuousAt.div (by fun_prop) (by fun_prop) hN0
    have c3 : ContinuousAt (fun t : ℝ => -(r * Real.sin φ) / √(s * t * (s * t) + r * Real.sin φ * (r * Real.sin φ))) 0 :=
      ContinuousAt.div (by fun_prop) (by fun_prop) hN0
    have t1 : Tendsto (fun t : ℝ => s * t * Real.sin φ / √(s * t * (s * t) + r * Real.sin φ * (r * Real.sin φ))) (𝓝[>] 0) (𝓝 0) := by
      have := c1.tendsto
      rw [hN] at this
      simpa using this.mono_left nhdsWithin_le_nhds
    have t2 : Tendsto (fun t : ℝ => s * t * Real.cos φ / √(s * t * (s * t) + r * Real.sin φ * (r * Real.sin φ))) (𝓝[>] 0) (𝓝 0) := by
      have := c2.tendsto
      rw [hN] at this
      simpa using this.mono_left nhdsWithin_le_nhds
    have t3 : Tendsto (fun t : ℝ => -(r * Real.sin φ) / √(s * t * (s * t) + r * Real.sin φ * (r * Real.sin φ))) (𝓝[>] 0)
        (𝓝 (-sgn φ)) := by
      have := c3.tendsto
      rw [hN, hz] at this
      exact this.mono_left nhdsWithin_le_nhds
    fin_cases i
    · exact (t1.const_mul _).sub (t2.const_mul _)
    · exact (t1.const_mul _).add (t2.const_mul _)
    · exact t3

/-- **C167** The component of the current across the plane between two slots is the same on both sides: at mirror points
(the same distance from the plane) the tangential components agree, and the other two are opposite. -/
theorem C167_between_slots (n : ℕ) (hn : 0 < n) (L : ℝ) (hL : 0 ≤ L) (r z φ : ℝ) (hr : 0 < r) (w : ℤ)
    (h0 : 0 < φ) (hφ : φ < slotAngle n / 2) :
    ∃ a b c a' c', ccwStator n L (cyl r (w * slotAngle n + φ) z) = some (polar (w * slotAngle n + φ) a b c) ∧
      ccwStator n L (cyl r ((w + 1) * slotAngle n - φ) z) = some (polar ((w + 1) * slotAngle n - φ) a' b c') ∧
      a' = -a ∧ c' = -c := by
  have h1 : |φ| < slotAngle n / 2 := by rw [abs_of_pos h0]; exact hφ
  have h2 : |-φ| < slotAngle n / 2 := by rw [abs_neg]; exact h1
  have f1 := C167_field n hn L hL r z φ hr w h1
  have f2 := C167_field n hn L hL r z (-φ) hr (w + 1) h2
  rw [show ((w + 1 : ℤ) : ℝ) * slotAngle n + -φ = (w + 1) * slotAngle n - φ by push_cast; ring] at f2
  by_cases hb : InBody L ![0, 0, z]
  · refine ⟨_, _, _, _, _, f1.1 hb, f2.1 hb, by simp, ?_⟩
    simp [sgn, h0, not_lt.2 h0.le]
  · have e2 := (f2.2 hb).2
    rw [Real.sin_neg, Real.cos_neg, show r * -Real.sin φ * (r * -Real.sin φ) = r * Real.sin φ * (r * Real.sin φ) by ring] at e2
    exact ⟨_, _, _, _, _, (f1.2 hb).2, e2, by ring, by ring⟩

/-- **C167, violation** On the middle plane of every slot the body carries no current at all: the direction is the zero
vector, not a unit vector. -/
theorem C167_middle_false (n : ℕ) (hn : 0 < n) (L : ℝ) (hL : 0 ≤ L) (r : ℝ) (hr : 0 < r) (w : ℤ) :
    ccwStator n L (cyl r (w * slotAngle n) 0) = some 0 ∧ ¬ Unit (ccwStator n L) (cyl r (w * slotAngle n) 0) := by
  have h := (C167_field n hn L hL r 0 0 hr w (by rw [abs_zero]; linarith [slotAngle_pos hn])).1
    ⟨by simp; linarith, by simp; linarith⟩
  have e : polar (w * slotAngle n + 0) 0 0 (-sgn 0) = 0 := by
    funext i; fin_cases i <;> simp [polar, rot, sgn]
  rw [e, add_zero] at h
  refine ⟨h, fun ⟨J, hJ, h1⟩ => ?_⟩
  rw [h] at hJ
  rw [← Option.some.inj hJ] at h1
  simp [dot3] at h1

/-- Twelve slots, a point a little off the middle of slot 2, in the body and above it. -/
example : SmoothStator 12 2 (cyl 3 (2 * slotAngle 12 + 0.1) 0) ∧ SmoothStator 12 2 (cyl 3 (2 * slotAngle 12 + 0.1) 5) := by
  have hs : slotAngle 12 / 2 = Real.pi / 12 := by rw [slotAngle]; norm_num; ring
  have hφ : |(0.1 : ℝ)| < slotAngle 12 / 2 := by
    rw [hs, abs_of_pos (by norm_num)]; linarith [Real.two_le_pi]
  have key : ∀ z, OffAxis (cyl 3 (2 * slotAngle 12 + 0.1) z) ∧ InsideSlot 12 (cyl 3 (2 * slotAngle 12 + 0.1) z) ∧
      slotOffset 12 (cyl 3 (2 * slotAngle 12 + 0.1) z) = 0.1 := by
    intro z
    obtain ⟨m, hm⟩ := angle_cyl 3 (2 * slotAngle 12 + 0.1) z (by norm_num)
    have ho := (slot_eq (n := 12) (by norm_num) (cyl 3 (2 * slotAngle 12 + 0.1) z) 2 m 0.1 (by rw [hm]; push_cast; ring) hφ).2
    refine ⟨?_, by rw [InsideSlot, ho]; exact hφ, ho⟩
    by_contra hh
    simp only [OffAxis, not_or, not_not] at hh
    have h1 := Real.sin_sq_add_cos_sq (2 * slotAngle 12 + 0.1)
    simp [cyl] at hh
    rw [hh.1, hh.2] at h1
    norm_num at h1
  refine ⟨⟨(key 0).1, (key 0).2.1, Or.inl ⟨?_, by rw [(key 0).2.2]; norm_num⟩⟩, ⟨(key 5).1, (key 5).2.1, Or.inr fun h => ?_⟩⟩
  · simp [cyl]
  · have := h.2; simp [cyl] at this

end Verif.Source
