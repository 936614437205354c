import Mathlib.Analysis.Calculus.Deriv.Comp
import Mathlib.Analysis.Calculus.Deriv.Pi
import Mathlib.Analysis.Calculus.FDeriv.Pi
import Mathlib.Analysis.SpecialFunctions.Log.Deriv
import Mathlib.Analysis.SpecialFunctions.ExpDeriv
import Mathlib.Analysis.SpecialFunctions.Sqrt
import Mathlib.Analysis.SpecialFunctions.Pow.Deriv
import Mathlib.Analysis.Calculus.Deriv.Abs
import Verif.AdJacobian
import Verif.EulerFluxesProps

/-!
# Differentiability of the Euler kernels

`SD s x`: the state-valued function `s` is differentiable at `x` (component by component).  Each kernel
of `euler_fluxes.hpp` maps differentiable states to differentiable values, under the stated conditions on
the state at `x` only.
-/

set_option linter.unusedSectionVars false

namespace Verif.AdJacobian
open Verif.EulerFluxes

variable {E : Type*} [NormedAddCommGroup E] [NormedSpace ℝ E] {d : ℕ} {x : E}

/-- Quotients (the non-zero denominator is given as a number). -/
theorem _root_.DifferentiableAt.dv {f g : E → ℝ} (hf : DifferentiableAt ℝ f x) (hg : DifferentiableAt ℝ g x)
    {c : ℝ} (hc : c ≠ 0) (e : g x = c := by rfl) : DifferentiableAt ℝ (fun y => f y / g y) x := by
  subst e
  simp only [div_eq_mul_inv]
  exact hf.fun_mul ((differentiableAt_inv hc).comp x hg)

/-- Division by a number. -/
theorem _root_.DifferentiableAt.dc {f : E → ℝ} (hf : DifferentiableAt ℝ f x) (c : ℝ) :
    DifferentiableAt ℝ (fun y => f y / c) x := by
  simp only [div_eq_mul_inv]; exact hf.mul_const _

/-- A differentiable state. -/
def SD (s : E → State d) (x : E) : Prop :=
  DifferentiableAt ℝ (fun y => (s y).rho) x ∧ (∀ i, DifferentiableAt ℝ (fun y => (s y).mom i) x) ∧
    DifferentiableAt ℝ (fun y => (s y).ener) x

/-- A constant state. -/
theorem SD.const (s : State d) : SD (fun _ : E => s) x :=
  ⟨differentiableAt_const _, fun _ => differentiableAt_const _, differentiableAt_const _⟩

theorem diff_dot {a b : E → Fin d → ℝ} (ha : ∀ i, DifferentiableAt ℝ (fun y => a y i) x)
    (hb : ∀ i, DifferentiableAt ℝ (fun y => b y i) x) : DifferentiableAt ℝ (fun y => dot (a y) (b y)) x := by
  unfold dot
  exact DifferentiableAt.fun_sum fun i _ => (ha i).fun_mul (hb i)

theorem diff_sdot {a b : E → State d} (ha : SD a x) (hb : SD b x) :
    DifferentiableAt ℝ (fun y => sdot (a y) (b y)) x := by
  unfold sdot
  exact ((ha.1.fun_mul hb.1).fun_add (diff_dot ha.2.1 hb.2.1)).fun_add (ha.2.2.fun_mul hb.2.2)

/-- Componentwise combinations. -/
theorem SD.map2 {f : E → ℝ → ℝ → ℝ} {a b : E → State d} (ha : SD a x) (hb : SD b x)
    (hf : ∀ u v : E → ℝ, DifferentiableAt ℝ u x → DifferentiableAt ℝ v x →
      DifferentiableAt ℝ (fun y => f y (u y) (v y)) x) :
    SD (fun y => State.map2 (f y) (a y) (b y)) x :=
  ⟨hf _ _ ha.1 hb.1, fun i => hf _ _ (ha.2.1 i) (hb.2.1 i), hf _ _ ha.2.2 hb.2.2⟩

theorem diff_pressure {s : E → State d} (hs : SD s x) (h : (s x).rho ≠ 0) :
    DifferentiableAt ℝ (fun y => pressure (s y)) x := by
  unfold pressure
  exact (hs.2.2.fun_sub (((diff_dot hs.2.1 hs.2.1).const_mul _).dv hs.1 h)).const_mul _

theorem SD.entVars {s : E → State d} (hs : SD s x) (h : 0 < (s x).rho) (hp : 0 < pressure (s x)) :
    SD (fun y => calcEntropyVars (s y)) x := by
  have dp := diff_pressure hs h.ne'
  have df := (differentiableAt_const (1 : ℝ)).dv dp hp.ne'
  have du : ∀ i, DifferentiableAt ℝ (fun y => (s y).mom i / (s y).rho) x :=
    fun i => (hs.2.1 i).dv hs.1 h.ne'
  have dr : DifferentiableAt ℝ (fun y => (s y).rho ^ gamma) x := hs.1.rpow_const (Or.inl h.ne')
  have dl : DifferentiableAt ℝ (fun y => Real.log (pressure (s y) / (s y).rho ^ gamma)) x :=
    (dp.dv dr (Real.rpow_pos_of_pos h _).ne').log (div_pos hp (Real.rpow_pos_of_pos h _)).ne'
  refine ⟨?_, fun i => (hs.2.1 i).fun_mul df, hs.1.fun_neg.fun_mul df⟩
  exact ((dl.const_sub _).dc _).fun_sub
    ((((diff_dot du du).const_mul (1 / 2)).fun_mul df).fun_mul hs.1)

theorem diff_q0 {w : E → State d} {g : E → ℝ} (hw : SD w x) (hg : DifferentiableAt ℝ g x)
    (h : (w x).ener < 0) :
    DifferentiableAt ℝ (fun y => (-Real.exp (-g y) / (w y).ener) ^ (1 / gami)) x := by
  have : DifferentiableAt ℝ (fun y => -Real.exp (-g y) / (w y).ener) x :=
    hg.fun_neg.exp.fun_neg.dv hw.2.2 h.ne
  refine this.rpow_const (Or.inl ?_)
  exact (div_pos_of_neg_of_neg (neg_lt_zero.2 (Real.exp_pos _)) h).ne'

theorem SD.consVars {w : E → State d} (hw : SD w x) (h : (w x).ener < 0) :
    SD (fun y => calcConservativeVars (w y)) x := by
  have du : ∀ i, DifferentiableAt ℝ (fun y => -(w y).mom i / (w y).ener) x :=
    fun i => (hw.2.1 i).fun_neg.dv hw.2.2 h.ne
  have dv : DifferentiableAt ℝ (fun y => ∑ i, -(w y).mom i / (w y).ener * (-(w y).mom i / (w y).ener)) x :=
    DifferentiableAt.fun_sum fun i _ => (du i).fun_mul (du i)
  have dq := diff_q0 hw (((((dv.const_mul (1 / 2)).fun_mul hw.2.2).fun_sub hw.1).const_mul gami).const_add gamma) h
  refine ⟨dq, fun i => dq.fun_mul (du i), ?_⟩
  exact ((dq.fun_neg.dv hw.2.2 h.ne).dc _).fun_add ((dq.const_mul (1 / 2)).fun_mul dv)

/-- The conversion to conservative variables. -/
theorem SD.consOf {entvar : Bool} {w : E → State d} (hw : SD w x) (h : entvar = true → (w x).ener < 0) :
    SD (fun y => consOf entvar (w y)) x := by
  cases entvar with
  | false => exact hw
  | true => exact hw.consVars (h rfl)

/-- The argument of the switch of the logarithmic mean is not exactly at the threshold. -/
def OffSwitch (a b : ℝ) : Prop := ((a / b - 1) / (a / b + 1)) ^ 2 ≠ 1 / 1000

theorem diff_logavg {a b : E → ℝ} (ha : DifferentiableAt ℝ a x) (hb : DifferentiableAt ℝ b x) {α β : ℝ}
    (ha0 : 0 < α) (hb0 : 0 < β) (hne : OffSwitch α β) (ea : a x = α := by rfl) (eb : b x = β := by rfl) :
    DifferentiableAt ℝ (fun y => logavg (a y) (b y)) x := by
  subst ea eb
  have hxi : 0 < a x / b x := div_pos ha0 hb0
  have dxi := ha.dv hb hb0.ne'
  have df := (dxi.sub_const 1).dv (dxi.add_const 1) (by linarith : a x / b x + 1 ≠ 0)
  have du := df.fun_mul df
  have hpos := logavg_pos _ _ ha0 hb0
  rcases lt_or_gt_of_ne hne with hlt | hgt
  · have ev := du.continuousAt.eventually_lt (continuousAt_const (y := (1 / 1000 : ℝ)))
      (by simpa [pow_two] using hlt)
    have dF := (du.fun_mul (((du.fun_mul (((du.fun_mul ((du.dc 9).const_add (1 / 7)))).const_add
      (1 / 5)))).const_add (1 / 3))).const_add 1
    have hF : (1 : ℝ) + ((a x / b x - 1) / (a x / b x + 1) * ((a x / b x - 1) / (a x / b x + 1))) *
        (1 / 3 + ((a x / b x - 1) / (a x / b x + 1) * ((a x / b x - 1) / (a x / b x + 1))) *
        (1 / 5 + ((a x / b x - 1) / (a x / b x + 1) * ((a x / b x - 1) / (a x / b x + 1))) *
        (1 / 7 + ((a x / b x - 1) / (a x / b x + 1) * ((a x / b x - 1) / (a x / b x + 1))) / 9))) ≠ 0 := by
      have := mul_self_nonneg ((a x / b x - 1) / (a x / b x + 1))
      positivity
    refine DifferentiableAt.congr_of_eventuallyEq ((ha.fun_add hb).dv (dF.const_mul 2)
      (mul_ne_zero two_ne_zero hF)) ?_
    filter_upwards [ev] with y hy
    simp only [logavg]
    rw [if_pos hy]
  · have ev := (continuousAt_const (y := (1 / 1000 : ℝ))).eventually_lt du.continuousAt
      (by simpa [pow_two] using hgt)
    have hf : (a x / b x - 1) / (a x / b x + 1) ≠ 0 := by
      intro h0; rw [h0] at hgt; norm_num at hgt
    have dF := (((dxi.log hxi.ne').dc 2).dv df) hf
    have hF : Real.log (a x / b x) / 2 / ((a x / b x - 1) / (a x / b x + 1)) ≠ 0 := by
      refine div_ne_zero (div_ne_zero ?_ two_ne_zero) hf
      intro h0
      rcases Real.log_eq_zero.1 h0 with h | h | h
      · linarith
      · rw [h] at hf; norm_num at hf
      · linarith
    refine DifferentiableAt.congr_of_eventuallyEq ((ha.fun_add hb).dv (dF.const_mul 2)
      (mul_ne_zero two_ne_zero hF)) ?_
    filter_upwards [ev] with y hy
    simp only [logavg]
    rw [if_neg (not_lt.2 (le_of_lt hy))]

theorem SD.zCons {s : E → State d} (hs : SD s x) (h : 0 < (s x).rho) (hp : 0 < pressure (s x)) :
    SD (fun y => zCons (s y)) x := by
  have dp := diff_pressure hs h.ne'
  have dz : DifferentiableAt ℝ (fun y => √((s y).rho / pressure (s y))) x :=
    (hs.1.dv dp hp.ne').sqrt (div_pos h hp).ne'
  exact ⟨dz, fun i => (dz.fun_mul (hs.2.1 i)).dv hs.1 h.ne', (hs.1.fun_mul dp).sqrt (mul_pos h hp).ne'⟩

theorem SD.zEnt {w : E → State d} (hw : SD w x) (h : (w x).ener < 0) : SD (fun y => zEnt (w y)) x := by
  have dz : DifferentiableAt ℝ (fun y => √(-(w y).ener)) x := hw.2.2.fun_neg.sqrt (by linarith)
  have dv : DifferentiableAt ℝ (fun y => ∑ i, (w y).mom i * (w y).mom i) x :=
    DifferentiableAt.fun_sum fun i _ => (hw.2.1 i).fun_mul (hw.2.1 i)
  have dq := diff_q0 hw (((((dv.const_mul (1 / 2)).dv hw.2.2 h.ne).fun_sub hw.1).const_mul gami).const_add gamma) h
  refine ⟨dz, fun i => ((hw.2.1 i).fun_neg.fun_mul dz).dv hw.2.2 h.ne, dq.dv dz ?_⟩
  exact (Real.sqrt_pos.2 (by linarith)).ne'

/-- Positive parameter vectors away from the switch. -/
structure GoodZ (zL zR : State d) : Prop where
  l0 : 0 < zL.rho
  r0 : 0 < zR.rho
  l1 : 0 < zL.ener
  r1 : 0 < zR.ener
  s0 : OffSwitch zL.rho zR.rho
  s1 : OffSwitch zL.ener zR.ener

section z
variable {a b : E → State d} (ha : SD a x) (hb : SD b x) (h : GoodZ (a x) (b x))
include ha hb h

theorem diff_rhoHat : DifferentiableAt ℝ (fun y => rhoHat (a y) (b y)) x := by
  unfold rhoHat
  exact ((ha.1.fun_add hb.1).const_mul _).fun_mul (diff_logavg ha.2.2 hb.2.2 h.l1 h.r1 h.s1)

theorem rhoHat_pos : 0 < rhoHat (a x) (b x) := by
  unfold rhoHat
  have := logavg_pos _ _ h.l1 h.r1
  have := h.l0; have := h.r0
  positivity

theorem sum_ne : (a x).rho + (b x).rho ≠ 0 := (add_pos h.l0 h.r0).ne'

theorem diff_p1Hat : DifferentiableAt ℝ (fun y => p1Hat (a y) (b y)) x :=
  (ha.2.2.fun_add hb.2.2).dv (ha.1.fun_add hb.1) (sum_ne ha hb h)

theorem diff_p2Hat : DifferentiableAt ℝ (fun y => p2Hat (a y) (b y)) x :=
  ((((diff_logavg ha.2.2 hb.2.2 h.l1 h.r1 h.s1).const_mul _).dv
    (diff_logavg ha.1 hb.1 h.l0 h.r0 h.s0) (logavg_pos _ _ h.l0 h.r0).ne').fun_add
    (((ha.2.2.fun_add hb.2.2).const_mul _).dv (ha.1.fun_add hb.1) (sum_ne ha hb h))).dc _

theorem diff_uHat (i : Fin d) : DifferentiableAt ℝ (fun y => uHat (a y) (b y) i) x :=
  ((ha.2.1 i).fun_add (hb.2.1 i)).dv (ha.1.fun_add hb.1) (sum_ne ha hb h)

theorem diff_hHat : DifferentiableAt ℝ (fun y => hHat (a y) (b y)) x := by
  unfold hHat
  refine ((diff_p2Hat ha hb h).const_mul _).dv ((diff_rhoHat ha hb h).mul_const _) ?_ |>.fun_add
    (DifferentiableAt.fun_sum fun i _ => ((diff_uHat ha hb h i).const_mul _).fun_mul (diff_uHat ha hb h i))
  have : gami ≠ 0 := by rw [gami_eq]; norm_num
  exact mul_ne_zero (rhoHat_pos ha hb h).ne' this

theorem SD.irFluxZ (di : Fin d) : SD (fun y => irFluxZ di (a y) (b y)) x := by
  have dU := diff_uHat ha hb h di
  have dr := (diff_rhoHat ha hb h).fun_mul dU
  refine ⟨dr, fun i => ?_, ((diff_rhoHat ha hb h).fun_mul (diff_hHat ha hb h)).fun_mul dU⟩
  by_cases hi : i = di
  · subst hi
    simp only [EulerFluxes.irFluxZ, Function.update_self]
    exact ((diff_uHat ha hb h i).fun_mul dr).fun_add (diff_p1Hat ha hb h)
  · simp only [EulerFluxes.irFluxZ, Function.update_of_ne hi]
    exact (diff_uHat ha hb h i).fun_mul dr

theorem SD.irFaceZ (dir : Fin d → ℝ) {U : E → ℝ} (dU : DifferentiableAt ℝ U x) :
    SD (fun y => irFaceZ dir (U y) (a y) (b y)) x := by
  have dr := (diff_rhoHat ha hb h).fun_mul dU
  exact ⟨dr, fun i => ((diff_uHat ha hb h i).fun_mul dr).fun_add ((diff_p1Hat ha hb h).mul_const _),
    ((diff_rhoHat ha hb h).fun_mul (diff_hHat ha hb h)).fun_mul dU⟩

end z

theorem SD.eulerFlux {dir : E → Fin d → ℝ} {q : E → State d} (hd : ∀ i, DifferentiableAt ℝ (fun y => dir y i) x)
    (hq : SD q x) (h : (q x).rho ≠ 0) : SD (fun y => calcEulerFlux (dir y) (q y)) x := by
  have dp := diff_pressure hq h
  have dU0 := diff_dot hq.2.1 hd
  have dU := dU0.dv hq.1 h
  exact ⟨dU0, fun i => ((hq.2.1 i).fun_mul dU).fun_add ((hd i).fun_mul dp), (hq.2.2.fun_add dp).fun_mul dU⟩

theorem SD.dQdW {q v : E → State d} (hq : SD q x) (hv : SD v x) (h : (q x).rho ≠ 0) :
    SD (fun y => calcdQdWProduct (q y) (v y)) x := by
  have dp := diff_pressure hq h
  have di := (differentiableAt_const (1 : ℝ)).dv hq.1 h
  have dh := (hq.2.2.fun_add dp).fun_mul di
  have da := (dp.const_mul gamma).fun_mul di
  refine ⟨?_, fun j => ?_, ?_⟩
  · exact ((hq.1.fun_mul hv.1).fun_add (DifferentiableAt.fun_sum fun i _ =>
      (hq.2.1 i).fun_mul (hv.2.1 i))).fun_add (hq.2.2.fun_mul hv.2.2)
  · have du := (hq.2.1 j).fun_mul di
    exact (((((du.fun_mul hq.1).fun_mul hv.1).fun_add (DifferentiableAt.fun_sum fun i _ =>
      (du.fun_mul (hq.2.1 i)).fun_mul (hv.2.1 i))).fun_add ((du.fun_mul hq.2.2).fun_mul hv.2.2)).fun_add
      (dp.fun_mul (hv.2.1 j))).fun_add ((dp.fun_mul du).fun_mul hv.2.2)
  · exact ((hq.2.2.fun_mul hv.1).fun_add (DifferentiableAt.fun_sum fun i _ =>
      ((hq.2.1 i).fun_mul dh).fun_mul (hv.2.1 i))).fun_add
      ((((hq.1.fun_mul dh).fun_mul dh).fun_sub ((da.fun_mul dp).dc _)).fun_mul hv.2.2)

/-- The spectral radius, where the normal velocity does not vanish (or is identically zero because the
normal is). -/
theorem diff_spect {dir : Fin d → ℝ} {q : E → State d} (hq : SD q x) (h : 0 < (q x).rho)
    (hp : 0 < pressure (q x)) (hU : dot (q x).mom dir ≠ 0 ∨ dir = 0) :
    DifferentiableAt ℝ (fun y => calcSpectralRadius false dir (q y)) x := by
  have dp := diff_pressure hq h.ne'
  have g : gamma ≠ 0 := by unfold gamma; norm_num
  have ds : DifferentiableAt ℝ (fun y => √(gamma * pressure (q y) / (q y).rho)) x :=
    ((dp.const_mul gamma).dv hq.1 h.ne').sqrt
      (div_ne_zero (mul_ne_zero g hp.ne') h.ne')
  have dU : DifferentiableAt ℝ (fun y => |dot (q y).mom dir / (q y).rho|) x := by
    rcases hU with hU | hU
    · exact ((diff_dot hq.2.1 fun i => differentiableAt_const (dir i)).dv hq.1 h.ne').abs
        (div_ne_zero hU h.ne')
    · have : (fun y => |dot (q y).mom dir / (q y).rho|) = fun _ => (0 : ℝ) := by
        funext y; rw [hU]; simp [dot]
      rw [this]; exact differentiableAt_const _
  exact dU.fun_add (ds.mul_const _)

theorem SD.lpsScaling {adjJ : Fin d → Fin d → ℝ} {q v : E → State d} (hq : SD q x) (hv : SD v x)
    (h : 0 < (q x).rho) (hp : 0 < pressure (q x)) (hU : ∀ i, dot (q x).mom (adjJ i) ≠ 0 ∨ adjJ i = 0) :
    SD (fun y => applyLPSScaling adjJ (q y) (v y)) x := by
  have ds : DifferentiableAt ℝ (fun y => (∑ i, calcSpectralRadius false (adjJ i) (q y)) / (d : ℝ)) x :=
    (DifferentiableAt.fun_sum fun i _ => diff_spect hq h hp (hU i)).dc _
  have dm := SD.dQdW hq hv h.ne'
  exact ⟨dm.1.fun_mul ds, fun i => (dm.2.1 i).fun_mul ds, dm.2.2.fun_mul ds⟩

/-- The wave terms with fixed reference state. -/
theorem SD.addWaves (dir u : Fin d → ℝ) (phi H a Un dA l1 l2 l3 : ℝ) {dq flux : E → State d}
    (hdq : SD dq x) (hf : SD flux x) :
    SD (fun y => addWaves dir u phi H a Un dA l1 l2 l3 (dq y) (flux y)) x := by
  have d1 := ((hdq.1.const_mul phi).fun_add hdq.2.2).fun_sub
    (diff_dot (fun i => differentiableAt_const (u i)) hdq.2.1)
  have d2 := (hdq.1.const_mul (-Un)).fun_add (diff_dot (fun i => differentiableAt_const (dir i)) hdq.2.1)
  refine ⟨?_, fun i => ?_, ?_⟩
  · exact (hf.1.fun_add (d1.const_mul _)).fun_add (d2.const_mul _)
  · exact ((hf.2.1 i).fun_add (d1.mul_const _)).fun_add (d2.mul_const _)
  · exact (hf.2.2.fun_add (d1.mul_const _)).fun_add (d2.mul_const _)

theorem SD.boundaryFlux (dir : Fin d → ℝ) (qb : State d) {q : E → State d} (hq : SD q x)
    (h : (q x).rho ≠ 0) : SD (fun y => calcBoundaryFlux dir qb (q y)) x := by
  have ddq : SD (fun y => State.map2 (fun x y => x - y) (q y) qb) x :=
    SD.map2 (f := fun _ u v => u - v) hq (SD.const qb) fun u v hu hv => hu.fun_sub hv
  have df : ∀ l3 : ℝ, SD (fun y => State.map2 (fun x y => x + l3 * y) (calcEulerFlux dir (q y))
      (State.map2 (fun x y => x - y) (q y) qb)) x := fun l3 =>
    SD.map2 (f := fun _ u v => u + l3 * v) (SD.eulerFlux (dir := fun _ => dir)
      (fun i => differentiableAt_const _) hq h) ddq fun u v hu hv => hu.fun_add (hv.const_mul _)
  exact SD.addWaves _ _ _ _ _ _ _ _ _ _ ddq (df _)

theorem SD.boundaryFluxEC (dir : Fin d → ℝ) (qb : State d) (entflux : ℝ) {q : E → State d} (hq : SD q x)
    (h : 0 < (q x).rho) (hp : 0 < pressure (q x))
    (hA : sdot (calcEntropyVars (q x)) (calcdQdWProduct (q x) (calcEntropyVars (q x))) ≠ 0) :
    SD (fun y => calcBoundaryFluxEC dir qb (q y) entflux) x := by
  have df := SD.boundaryFlux dir qb hq h.ne'
  have dw := hq.entVars h hp
  have dA := SD.dQdW hq dw h.ne'
  have dps := diff_dot hq.2.1 fun i => differentiableAt_const (dir i)
  have dF := (((diff_sdot dw df).fun_sub dps).sub_const entflux).dv (diff_sdot dw dA) hA
  exact SD.map2 (f := fun y u v => u - (sdot (calcEntropyVars (q y)) (calcBoundaryFlux dir qb (q y)) -
    dot (q y).mom dir - entflux) / sdot (calcEntropyVars (q y)) (calcdQdWProduct (q y) (calcEntropyVars (q y))) * v)
    df dA fun u v hu hv => hu.fun_sub (dF.fun_mul hv)

theorem SD.controlFlux (dir : Fin d → ℝ) (vel : ℝ) {q : E → State d} (hq : SD q x) (h : (q x).rho ≠ 0) :
    SD (fun y => calcControlFlux dir (q y) vel) x := by
  have dp := diff_pressure hq h
  exact ⟨hq.1.mul_const _, fun i => ((hq.2.1 i).mul_const _).fun_add (dp.const_mul _),
    (hq.2.2.mul_const _).fun_add (dp.mul_const _)⟩

theorem SD.slipWall (entvar : Bool) (dir : Fin d → ℝ) {q : E → State d} (hq : SD q x)
    (h : if entvar then (q x).ener < 0 else (q x).rho ≠ 0) :
    SD (fun y => calcSlipWallFlux entvar dir (q y)) x := by
  cases entvar with
  | false =>
    have dp := diff_pressure hq h
    exact ⟨differentiableAt_const _, fun i => dp.const_mul _, differentiableAt_const _⟩
  | true =>
    have h : (q x).ener < 0 := h
    have dv := diff_dot hq.2.1 hq.2.1
    have dq := diff_q0 hq (((((dv.const_mul (1 / 2)).dv hq.2.2 h.ne).fun_sub hq.1).const_mul gami).const_add gamma) h
    exact ⟨differentiableAt_const _, fun i => (dq.fun_neg.dv hq.2.2 h.ne).const_mul _,
      differentiableAt_const _⟩

end Verif.AdJacobian
