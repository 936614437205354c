import Verif.CoreLoss
import Verif.LossesIntegProps
import Verif.MatCoeffProps

/-!
Properties C145 (the core-loss integral and its sensitivities), C146 (the core-loss heat distribution) and
C147 (the demagnetization integral).
-/

namespace Verif.CoreLoss
open Finset Filter Topology Verif.Sbp Verif.Dense Verif.Diffusion Verif.Losses Verif.MatCoeffs

set_option linter.unusedSimpArgs false
set_option linter.unusedSectionVars false

variable {nt nf m dim n : ℕ}

/-! ### Specification -/

/-- Specification: core losses per volume, hysteresis plus eddy currents. -/
def density (rho kh ke f B : ℝ) : ℝ := rho * (kh * f * B ^ 2 + ke * f ^ 2 * B ^ 2)

/-- Specification: temperature and flux density at a point. -/
def tempAt (p : LPt nt nf) (T : Vec nt) : ℝ := dotv p.tshape T
def fluxAt (p : LPt nt nf) (b : Vec nf) : ℝ := dotv p.fshape b

/-- Specification: the three derivatives of a coefficient are exact at `(T, f, B)`. -/
def Tri.Exact1 (k : Tri) (T f B : ℝ) : Prop := DerivOf (fun T => k.eval T f B) (k.d1 T f B) T
def Tri.Exact2 (k : Tri) (T f B : ℝ) : Prop := DerivOf (fun f => k.eval T f B) (k.d2 T f B) f
def Tri.Exact3 (k : Tri) (T f B : ℝ) : Prop := DerivOf (fun B => k.eval T f B) (k.d3 T f B) B

/-! ### Calculus of partial functions -/

theorem vsum_some {d : ℕ} (n : ℕ) (coef : ℕ → Option ℝ) (c : ℕ → ℝ) (x : ℕ → Vec d)
    (h : ∀ i < n, coef i = some (c i)) : vsum n coef x = some (forN n (fun i v => axpy (c i) (x i) v) zeroV) := by
  unfold vsum
  induction n with
  | zero => rfl
  | succ n ih =>
    rw [forN, ih fun i hi => h i (by omega), h n (by omega)]
    rfl

theorem vsum_none {d : ℕ} (n k : ℕ) (hk : k < n) (coef : ℕ → Option ℝ) (x : ℕ → Vec d) (h : coef k = none) :
    vsum n coef x = none := by
  unfold vsum
  induction n with
  | zero => omega
  | succ n ih =>
    rw [forN]
    by_cases e : k = n
    · subst e
      rw [h]
      cases forN k (fun i acc => acc.bind fun v => (coef i).map fun c => axpy c (x i) v) (some zeroV) <;> rfl
    · rw [ih (by omega)]; rfl

theorem msum_some (n m dim : ℕ) (bar : ℕ → Option ℝ) (c : ℕ → ℝ) (wRev : ℕ → ℝ → ℕ → ℕ → ℝ)
    (h : ∀ i < n, bar i = some (c i)) :
    msum n m dim bar wRev = some (forN n (fun i v => scatter m dim (fun k j => 0 + wRev i (c i) k j) v) fun _ => 0) := by
  unfold msum
  induction n with
  | zero => rfl
  | succ n ih =>
    rw [forN, ih fun i hi => h i (by omega), h n (by omega)]
    rfl

/-- A sum of differentiable contributions. -/
theorem DerivOf.sum (n : ℕ) (F : ℕ → ℝ → Option ℝ) (D : ℕ → Option ℝ) (x : ℝ) (h : ∀ i < n, DerivOf (F i) (D i) x) :
    DerivOf (fun y => fsum n fun i => F i y) (fsum n D) x := by
  have h' : ∀ i, ∃ (g : ℝ → ℝ) (d : ℝ), i < n → (∀ᶠ y in 𝓝 x, F i y = some (g y)) ∧ D i = some d ∧ HasDerivAt g d x := by
    intro i
    by_cases hi : i < n
    · obtain ⟨g, d, h⟩ := h i hi
      exact ⟨g, d, fun _ => h⟩
    · exact ⟨fun _ => 0, 0, fun h => absurd h hi⟩
  choose g d hg using h'
  refine ⟨fun y => ∑ i ∈ range n, g i y, ∑ i ∈ range n, d i, ?_, fsum_some n d D fun i hi => (hg i hi).2.1,
    HasDerivAt.fun_sum fun i hi => (hg i (mem_range.1 hi)).2.2⟩
  have : ∀ᶠ y in 𝓝 x, ∀ i ∈ range n, F i y = some (g i y) :=
    (eventually_all_finset _).2 fun i hi => (hg i (mem_range.1 hi)).1
  exact this.mono fun y hy => fsum_some n (fun i => g i y) _ fun i hi => hy i (mem_range.2 hi)

/-- The vector sum, tested with `v`, is the sum of the tested contributions. -/
theorem vsum_dot {d : ℕ} (n : ℕ) (coef : ℕ → Option ℝ) (x : ℕ → Vec d) (v : Vec d) :
    (vsum n coef x).map (fun y => dotv y v) = fsum n fun i => (coef i).map fun c => c * dotv (x i) v := by
  by_cases h : ∀ i < n, (coef i).isSome
  · have h' : ∀ i < n, coef i = some ((coef i).getD 0) := fun i hi => by
      have := h i hi
      cases e : coef i with
      | none => rw [e] at this; cases this
      | some c => rfl
    rw [vsum_some n coef _ x h', fsum_some n (fun i => (coef i).getD 0 * dotv (x i) v) _ fun i hi => by
      rw [h' i hi]; rfl]
    simp only [Option.map_some]
    rw [dotv_axpys]
  · push Not at h
    obtain ⟨i, hi, hn⟩ := h
    have hn : coef i = none := by simpa using hn
    rw [vsum_none n i hi coef x hn, fsum_none n i hi _ (by rw [hn]; rfl)]
    rfl

/-- The mesh sum, tested with a motion. -/
theorem msum_dot (n m dim : ℕ) (μ : Motion n dim m) (bar : ℕ → Option ℝ) (h : ∀ i < n, (bar i).isSome) :
    (msum n m dim bar μ.wRev).map (fun y => ∑ q ∈ range (dim * m), y q * μ.δ q) =
      fsum n fun i => (bar i).map fun c => c * μ.J' i := by
  have h' : ∀ i < n, bar i = some ((bar i).getD 0) := fun i hi => by
    have := h i hi
    cases e : bar i with
    | none => rw [e] at this; cases this
    | some c => rfl
  rw [msum_some n m dim bar _ μ.wRev h', fsum_some n (fun i => (bar i).getD 0 * μ.J' i) _ fun i hi => by
    rw [h' i hi]; rfl]
  simp only [Option.map_some]
  rw [scatterLoop3 n m dim _ μ.δ (fun i => (bar i).getD 0 * μ.J' i) fun i hi => μ.pointW i hi _]

/-- Composition with a differentiable inner function. -/
theorem DerivOf.comp {F : ℝ → Option ℝ} {D : Option ℝ} {u : ℝ → ℝ} {u' x : ℝ} (h : DerivOf F D (u x))
    (hu : HasDerivAt u u' x) : DerivOf (fun t => F (u t)) (D.map fun d => d * u') x := by
  obtain ⟨g, d, hg, hd, h⟩ := h
  exact ⟨fun t => g (u t), d * u', hu.continuousAt.eventually hg, by rw [hd]; rfl, HasDerivAt.comp x h hu⟩

/-! ### C145: the integral -/

/-- The two formulas of the loss agree. -/
theorem dloss_eq (c : Core) (T f B : ℝ) : dloss c T f B = loss c T f B := by
  unfold dloss loss
  cases c.kh.eval T f B with
  | none => rfl
  | some kh => cases c.ke.eval T f B with
    | none => rfl
    | some ke => simp only [Option.bind_some, Option.map_some]; congr 1; ring

/-- **C145** The element integral is the quadrature of the core losses per volume. -/
theorem C145_value (c : ℕ → Core) (pt : ℕ → LPt nt nf) (f : ℝ) (T : Vec nt) (b : Vec nf) (kh ke : ℕ → ℝ)
    (hh : ∀ i < n, (c i).kh.eval (tempAt (pt i) T) f (fluxAt (pt i) b) = some (kh i))
    (he : ∀ i < n, (c i).ke.eval (tempAt (pt i) T) f (fluxAt (pt i) b) = some (ke i)) :
    energy c n pt f T b = some (∑ i ∈ range n,
      density (c i).rho (kh i) (ke i) f (fluxAt (pt i) b) * ((pt i).w * (pt i).J)) := by
  unfold energy
  refine fsum_some n _ _ fun i hi => ?_
  have h1 := hh i hi
  have h2 := he i hi
  unfold tempAt fluxAt at h1 h2
  simp only [loss, h1, h2, Option.bind_some, Option.map_some, density, fluxAt]

/-- **C145** With nonnegative density, coefficients and frequency and a mesh of positive orientation the losses are
not negative. -/
theorem C145_nonneg (c : ℕ → Core) (pt : ℕ → LPt nt nf) (f : ℝ) (T : Vec nt) (b : Vec nf) (v : ℝ) (kh ke : ℕ → ℝ)
    (hh : ∀ i < n, (c i).kh.eval (tempAt (pt i) T) f (fluxAt (pt i) b) = some (kh i))
    (he : ∀ i < n, (c i).ke.eval (tempAt (pt i) T) f (fluxAt (pt i) b) = some (ke i))
    (hf : 0 ≤ f) (h0 : ∀ i < n, 0 ≤ (c i).rho ∧ 0 ≤ kh i ∧ 0 ≤ ke i ∧ 0 ≤ (pt i).w ∧ 0 ≤ (pt i).J)
    (hv : energy c n pt f T b = some v) : 0 ≤ v := by
  rw [C145_value c pt f T b kh ke hh he] at hv
  injection hv with hv
  rw [← hv]
  refine sum_nonneg fun i hi => ?_
  obtain ⟨h1, h2, h3, h4, h5⟩ := h0 i (mem_range.1 hi)
  unfold density
  positivity

/-- **C145** The frequency sensitivity is the derivative of the integral. -/
theorem C145_frequency (c : ℕ → Core) (pt : ℕ → LPt nt nf) (f : ℝ) (T : Vec nt) (b : Vec nf)
    (hh : ∀ i < n, (c i).kh.Exact2 (tempAt (pt i) T) f (fluxAt (pt i) b))
    (he : ∀ i < n, (c i).ke.Exact2 (tempAt (pt i) T) f (fluxAt (pt i) b)) :
    DerivOf (fun f => energy c n pt f T b) (freqSens c n pt f T b) f := by
  unfold energy freqSens
  refine DerivOf.sum n _ _ f fun i hi => ?_
  obtain ⟨g1, d1, hg1, hd1, h1⟩ := hh i hi
  obtain ⟨g2, d2, hg2, hd2, h2⟩ := he i hi
  unfold tempAt fluxAt at *
  simp only at hg1 hg2
  refine ⟨fun y => (c i).rho * (g1 y * y * dotv (pt i).fshape b ^ 2 + g2 y * y ^ 2 * dotv (pt i).fshape b ^ 2) *
    ((pt i).w * (pt i).J), _, (hg1.and hg2).mono fun y hy => ?_, ?_,
    (((((h1.fun_mul (hasDerivAt_id' f)).mul_const _).fun_add ((h2.fun_mul ((hasDerivAt_id' f).fun_pow 2)).mul_const _)).const_mul _).mul_const _)⟩
  · simp only [loss, hy.1, hy.2, Option.bind_some, Option.map_some]
  · have e1 := hg1.self_of_nhds
    have e2 := hg2.self_of_nhds
    simp only [e1, e2, hd1, hd2, Option.bind_some, Option.map_some]
    congr 1
    simp only [Nat.cast_ofNat, Nat.add_one_sub_one, pow_one, mul_one, Nat.reduceSub]
    ring

/-- **C145** The temperature sensitivity is the gradient of the integral with respect to the element temperatures. -/
theorem C145_temperature (c : ℕ → Core) (pt : ℕ → LPt nt nf) (f : ℝ) (T v : Vec nt) (b : Vec nf)
    (hh : ∀ i < n, (c i).kh.Exact1 (tempAt (pt i) T) f (fluxAt (pt i) b))
    (he : ∀ i < n, (c i).ke.Exact1 (tempAt (pt i) T) f (fluxAt (pt i) b)) :
    DerivOf (fun t => energy c n pt f (fun j => T j + t * v j) b)
      ((tempSens c n pt f T b).map fun y => dotv y v) 0 := by
  unfold energy tempSens
  rw [vsum_dot]
  refine DerivOf.sum n _ _ 0 fun i hi => ?_
  have hl := hasDerivAt_dot_line (pt i).tshape T v
  have e0 : dotv (pt i).tshape (fun j => T j + 0 * v j) = tempAt (pt i) T := by simp [tempAt]
  have c1 := DerivOf.comp (u := fun t : ℝ => dotv (pt i).tshape (fun j => T j + t * v j))
    (by rw [e0]; exact hh i hi) hl
  have c2 := DerivOf.comp (u := fun t : ℝ => dotv (pt i).tshape (fun j => T j + t * v j))
    (by rw [e0]; exact he i hi) hl
  obtain ⟨g1, d1, hg1, hd1, h1⟩ := c1
  obtain ⟨g2, d2, hg2, hd2, h2⟩ := c2
  unfold tempAt fluxAt at *
  simp only at hg1 hg2
  refine ⟨fun y => (c i).rho * (g1 y * f * dotv (pt i).fshape b ^ 2 + g2 y * f ^ 2 * dotv (pt i).fshape b ^ 2) *
    ((pt i).w * (pt i).J), _, (hg1.and hg2).mono fun y hy => ?_, ?_,
    (((((h1.mul_const _).mul_const _).fun_add ((h2.mul_const _).mul_const _)).const_mul _).mul_const _)⟩
  · simp only [loss, hy.1, hy.2, Option.bind_some, Option.map_some]
  · rw [Option.map_eq_some_iff] at hd1 hd2
    obtain ⟨a1, ha1, rfl⟩ := hd1
    obtain ⟨a2, ha2, rfl⟩ := hd2
    simp only [tempBar, ha1, ha2, Option.bind_some, Option.map_some]
    congr 1
    ring

/-- **C145** The peak-flux sensitivity is the gradient of the integral with respect to the element fluxes, where the
coefficients have the derivatives they report. -/
theorem C145_flux (c : ℕ → Core) (pt : ℕ → LPt nt nf) (f : ℝ) (T : Vec nt) (b v : Vec nf)
    (hh : ∀ i < n, (c i).kh.Exact3 (tempAt (pt i) T) f (fluxAt (pt i) b))
    (he : ∀ i < n, (c i).ke.Exact3 (tempAt (pt i) T) f (fluxAt (pt i) b)) :
    DerivOf (fun t => energy c n pt f T (fun j => b j + t * v j))
      ((fluxSens c n pt f T b).map fun y => dotv y v) 0 := by
  unfold energy fluxSens
  rw [vsum_dot]
  refine DerivOf.sum n _ _ 0 fun i hi => ?_
  have hl := hasDerivAt_dot_line (pt i).fshape b v
  have e0 : dotv (pt i).fshape (fun j => b j + 0 * v j) = fluxAt (pt i) b := by simp [fluxAt]
  have c1 := DerivOf.comp (u := fun t : ℝ => dotv (pt i).fshape (fun j => b j + t * v j))
    (by rw [e0]; exact hh i hi) hl
  have c2 := DerivOf.comp (u := fun t : ℝ => dotv (pt i).fshape (fun j => b j + t * v j))
    (by rw [e0]; exact he i hi) hl
  obtain ⟨g1, d1, hg1, hd1, h1⟩ := c1
  obtain ⟨g2, d2, hg2, hd2, h2⟩ := c2
  unfold tempAt fluxAt at *
  simp only at hg1 hg2
  refine ⟨fun y => (c i).rho * (g1 y * f * dotv (pt i).fshape (fun j => b j + y * v j) ^ 2 +
      g2 y * f ^ 2 * dotv (pt i).fshape (fun j => b j + y * v j) ^ 2) *
    ((pt i).w * (pt i).J), _, (hg1.and hg2).mono fun y hy => ?_, ?_,
    (((((h1.mul_const _).fun_mul (hl.fun_pow 2)).fun_add ((h2.mul_const _).fun_mul (hl.fun_pow 2))).const_mul _).mul_const _)⟩
  · simp only [loss, hy.1, hy.2, Option.bind_some, Option.map_some]
  · have e1 := hg1.self_of_nhds
    have e2 := hg2.self_of_nhds
    rw [e0] at e1 e2
    rw [Option.map_eq_some_iff] at hd1 hd2
    obtain ⟨a1, ha1, rfl⟩ := hd1
    obtain ⟨a2, ha2, rfl⟩ := hd2
    simp only [fluxBar, e1, e2, ha1, ha2, e0, Option.bind_some, Option.map_some]
    congr 1
    norm_num
    ring

/-- **C145** (partial) The mesh sensitivity is the derivative of the integral along every motion of the mesh, if
neither the shape functions nor the material depend on the position of the mesh nodes. -/
theorem C145_mesh_partial (μ : Motion n dim m) (w : ℕ → ℝ) (tsh : ℕ → Vec nt) (fsh : ℕ → Vec nf) (c : ℕ → Core)
    (f : ℝ) (T : Vec nt) (b : Vec nf)
    (hs : ∀ i < n, (loss (c i) (dotv (tsh i) T) f (dotv (fsh i) b)).isSome) :
    DerivOf (fun t => energy c n (lpts μ w tsh (fun i _ => fsh i) t) f T b)
      ((meshSens c n m dim (lpts μ w tsh (fun i _ => fsh i) 0) μ.wRev f T b).map fun y =>
        ∑ q ∈ range (dim * m), y q * μ.δ q) 0 := by
  unfold energy meshSens
  rw [msum_dot n m dim μ _ fun i hi => by
    rw [Option.isSome_map]; exact hs i hi]
  refine DerivOf.sum n _ _ 0 fun i hi => ?_
  obtain ⟨l, hl⟩ := Option.isSome_iff_exists.1 (hs i hi)
  simp only [lpts, hl, Option.map_some]
  exact ⟨_, _, Eventually.of_forall fun _ => rfl, rfl,
    (((μ.hJ i hi).const_mul (w i)).const_mul l).congr_deriv (by ring)⟩

/-- **C145** (counterexample) With CAL2 coefficients, the peak-flux sensitivity of an element is not finite as soon as
the flux density vanishes at one point, for every nonempty hysteresis fit. -/
theorem C145_zero_flux_false (c : ℕ → Core) (pt : ℕ → LPt nt nf) (f : ℝ) (T : Vec nt) (b : Vec nf) (k : Cal2) (i : ℕ)
    (hi : i < n) (hk : (c i).kh = Tri.ofCal2 k) (hne : k.k0 ≠ []) (hb : fluxAt (pt i) b = 0) :
    fluxSens c n pt f T b = none := by
  unfold fluxSens
  refine vsum_none n i hi _ _ ?_
  unfold fluxAt at hb
  have hd := C140_flux_derivative_false.1 k (dotv (pt i).tshape T) f hne
  simp only [fluxBar, hk, Tri.ofCal2, hb, hd, Option.map_none, Option.bind_fun_none]

/-- **C145** For CAL2 coefficients the frequency and temperature sensitivities are exact wherever the coefficients are
finite, and the flux sensitivity is where in addition no point has zero flux density. -/
theorem C145_cal2 (c : ℕ → Core) (pt : ℕ → LPt nt nf) (f : ℝ) (T v : Vec nt) (b u : Vec nf) (k e : ℕ → Cal2)
    (hk : ∀ i < n, (c i).kh = Tri.ofCal2 (k i)) (he : ∀ i < n, (c i).ke = Tri.ofCal2 (e i))
    (hkT : ∀ i < n, (k i).T1 ≠ (k i).T0) (heT : ∀ i < n, (e i).T1 ≠ (e i).T0)
    (hk0 : ∀ i < n, poly (k i).k0 (fluxAt (pt i) b) ≠ 0) (he0 : ∀ i < n, poly (e i).k0 (fluxAt (pt i) b) ≠ 0) :
    DerivOf (fun f => energy c n pt f T b) (freqSens c n pt f T b) f ∧
    DerivOf (fun t => energy c n pt f (fun j => T j + t * v j) b) ((tempSens c n pt f T b).map fun y => dotv y v) 0 ∧
    ((∀ i < n, fluxAt (pt i) b ≠ 0) →
      DerivOf (fun t => energy c n pt f T (fun j => b j + t * u j)) ((fluxSens c n pt f T b).map fun y => dotv y u) 0) := by
  refine ⟨C145_frequency c pt f T b (fun i hi => ?_) fun i hi => ?_,
    C145_temperature c pt f T v b (fun i hi => ?_) fun i hi => ?_,
    fun hB => C145_flux c pt f T b u (fun i hi => ?_) fun i hi => ?_⟩
  · rw [hk i hi]; exact C140_frequency_derivative (k i) _ f _ (hkT i hi) (hk0 i hi)
  · rw [he i hi]; exact C140_frequency_derivative (e i) _ f _ (heT i hi) (he0 i hi)
  · rw [hk i hi]; exact C140_temperature_derivative (k i) _ f _ (hkT i hi) (hk0 i hi)
  · rw [he i hi]; exact C140_temperature_derivative (e i) _ f _ (heT i hi) (he0 i hi)
  · rw [hk i hi]; exact C140_flux_derivative_partial (k i) _ f _ (hkT i hi) (hk0 i hi) (hB i hi)
  · rw [he i hi]; exact C140_flux_derivative_partial (e i) _ f _ (heT i hi) (he0 i hi) (hB i hi)

/-- Non-vacuity: two points, hysteresis fit `1 + B` and `2 + B`, eddy fit `3` and `5`. -/
example : ∃ (c : ℕ → Core) (pt : ℕ → LPt 2 1) (k e : ℕ → Cal2) (b : Vec 1),
    (∀ i < 2, (c i).kh = Tri.ofCal2 (k i)) ∧ (∀ i < 2, (c i).ke = Tri.ofCal2 (e i)) ∧
    (∀ i < 2, (k i).T1 ≠ (k i).T0) ∧ (∀ i < 2, (e i).T1 ≠ (e i).T0) ∧
    (∀ i < 2, poly (k i).k0 (fluxAt (pt i) b) ≠ 0) ∧ (∀ i < 2, poly (e i).k0 (fluxAt (pt i) b) ≠ 0) ∧
    ∀ i < 2, fluxAt (pt i) b ≠ 0 := by
  refine ⟨fun _ => ⟨7, Tri.ofCal2 ⟨300, [1, 1], 400, [2, 1]⟩, Tri.ofCal2 ⟨300, [3], 400, [5]⟩⟩,
    fun i => ⟨1, 2, if i = 0 then ![1, 0] else ![0, 1], ![1]⟩, fun _ => ⟨300, [1, 1], 400, [2, 1]⟩,
    fun _ => ⟨300, [3], 400, [5]⟩, ![1], fun _ _ => rfl, fun _ _ => rfl, fun _ _ => by norm_num, fun _ _ => by norm_num,
    fun _ _ => ?_, fun _ _ => ?_, fun _ _ => ?_⟩
  all_goals norm_num [poly, fluxAt, dotv, sum_range_succ]

/-! ### C146: the heat distribution -/

/-- The distribution, tested with `psi`. -/
theorem dvec_dot (c : ℕ → Core) (pt : ℕ → LPt nt nf) (f : ℝ) (T psi : Vec nt) (b : Vec nf) :
    (dvec c n pt f T b).map (fun y => dotv y psi) = fsum n fun i =>
      (loss (c i) (dotv (pt i).tshape T) f (dotv (pt i).fshape b)).map fun l =>
        l * ((pt i).w * (pt i).J) * dotv psi (pt i).tshape := by
  unfold dvec
  rw [vsum_dot]
  congr 1
  funext i
  rw [Option.map_map, dloss_eq]
  congr 1
  funext l
  simp only [Function.comp, dotv_comm psi]

/-- **C146** The load is the quadrature of the core losses per volume against the temperature shape functions. -/
theorem C146_value (c : ℕ → Core) (pt : ℕ → LPt nt nf) (f : ℝ) (T psi : Vec nt) (b : Vec nf) (kh ke : ℕ → ℝ)
    (hh : ∀ i < n, (c i).kh.eval (tempAt (pt i) T) f (fluxAt (pt i) b) = some (kh i))
    (he : ∀ i < n, (c i).ke.eval (tempAt (pt i) T) f (fluxAt (pt i) b) = some (ke i)) :
    (dvec c n pt f T b).map (fun y => dotv y psi) = some (∑ i ∈ range n,
      density (c i).rho (kh i) (ke i) f (fluxAt (pt i) b) * ((pt i).w * (pt i).J) * dotv psi (pt i).tshape) := by
  rw [dvec_dot]
  refine fsum_some n _ _ fun i hi => ?_
  have h1 := hh i hi
  have h2 := he i hi
  unfold tempAt fluxAt at h1 h2
  simp only [loss, h1, h2, Option.bind_some, Option.map_some, density, fluxAt]

/-- **C146** The heat put into an element adds up to the value of the core-loss integral over it, if both use the same
quadrature points and the temperature shape functions add up to one; the default rules coincide exactly if the two
elements have the same kind and order (or a rule of the same order). -/
theorem C146_total (c : ℕ → Core) (pt : ℕ → LPt nt nf) (f : ℝ) (T : Vec nt) (b : Vec nf)
    (hu : ∀ i < n, ∑ r, (pt i).tshape r = 1) :
    (dvec c n pt f T b).map (fun y => ∑ r, y r) = energy c n pt f T b := by
  have e : (fun y : Vec nt => ∑ r, y r) = fun y => dotv y fun _ => 1 := by
    funext y; rw [sum_eq_dotv_one, dotv_comm]
  rw [e, dvec_dot]
  unfold energy
  by_cases hs : ∀ i < n, (loss (c i) (dotv (pt i).tshape T) f (dotv (pt i).fshape b)).isSome
  · have h' : ∀ i < n, loss (c i) (dotv (pt i).tshape T) f (dotv (pt i).fshape b) =
        some ((loss (c i) (dotv (pt i).tshape T) f (dotv (pt i).fshape b)).getD 0) := fun i hi => by
      have := hs i hi
      cases e : loss (c i) (dotv (pt i).tshape T) f (dotv (pt i).fshape b) with
      | none => rw [e] at this; cases this
      | some c => rfl
    rw [fsum_some n (fun i => (loss (c i) (dotv (pt i).tshape T) f (dotv (pt i).fshape b)).getD 0 *
        ((pt i).w * (pt i).J)) _ fun i hi => ?_,
      fsum_some n (fun i => (loss (c i) (dotv (pt i).tshape T) f (dotv (pt i).fshape b)).getD 0 *
        ((pt i).w * (pt i).J)) _ fun i hi => ?_]
    · exact (congrArg (Option.map _) (h' i hi)).trans rfl
    · rw [h' i hi]
      have : dotv (fun _ => 1) (pt i).tshape = 1 := by rw [← sum_eq_dotv_one]; exact hu i hi
      simp only [Option.map_some, this, mul_one, Option.getD_some]
  · push Not at hs
    obtain ⟨i, hi, hn⟩ := hs
    have hn : loss (c i) (dotv (pt i).tshape T) f (dotv (pt i).fshape b) = none := by simpa using hn
    rw [fsum_none n i hi _ (by rw [hn]; rfl), fsum_none n i hi _ (by simp only [hn]; rfl)]

/-- **C146** The default rules of functional and distribution. -/
theorem C146_rules (s : Space) (o o' : ℕ) (h : 0 < o) (h' : 0 < o') : rule s o = rule s o' ↔ o = o' := by
  unfold rule; split <;> omega

/-- **C146** The frequency reverse sensitivity is the derivative of the tested load. -/
theorem C146_frequency (c : ℕ → Core) (pt : ℕ → LPt nt nf) (f : ℝ) (T psi : Vec nt) (b : Vec nf)
    (hh : ∀ i < n, (c i).kh.Exact2 (tempAt (pt i) T) f (fluxAt (pt i) b))
    (he : ∀ i < n, (c i).ke.Exact2 (tempAt (pt i) T) f (fluxAt (pt i) b)) :
    DerivOf (fun f => (dvec c n pt f T b).map fun y => dotv y psi) (dfreqSens c n pt f T b psi) f := by
  simp only [dvec_dot]
  unfold dfreqSens
  refine DerivOf.sum n _ _ f fun i hi => ?_
  obtain ⟨g1, d1, hg1, hd1, h1⟩ := hh i hi
  obtain ⟨g2, d2, hg2, hd2, h2⟩ := he i hi
  unfold tempAt fluxAt at *
  simp only at hg1 hg2
  refine ⟨fun y => (c i).rho * (g1 y * y * dotv (pt i).fshape b ^ 2 + g2 y * y ^ 2 * dotv (pt i).fshape b ^ 2) *
    ((pt i).w * (pt i).J) * dotv psi (pt i).tshape, _, (hg1.and hg2).mono fun y hy => ?_, ?_,
    (((((h1.fun_mul (hasDerivAt_id' f)).mul_const _).fun_add ((h2.fun_mul ((hasDerivAt_id' f).fun_pow 2)).mul_const _)).const_mul _).mul_const _).mul_const _⟩
  · simp only [loss, hy.1, hy.2, Option.bind_some, Option.map_some]
  · have e1 := hg1.self_of_nhds
    have e2 := hg2.self_of_nhds
    simp only [e1, e2, hd1, hd2, Option.bind_some, Option.map_some]
    congr 1
    norm_num
    ring

/-- **C146** The temperature reverse sensitivity is the gradient of the tested load. -/
theorem C146_temperature (c : ℕ → Core) (pt : ℕ → LPt nt nf) (f : ℝ) (T psi v : Vec nt) (b : Vec nf)
    (hh : ∀ i < n, (c i).kh.Exact1 (tempAt (pt i) T) f (fluxAt (pt i) b))
    (he : ∀ i < n, (c i).ke.Exact1 (tempAt (pt i) T) f (fluxAt (pt i) b)) :
    DerivOf (fun t => (dvec c n pt f (fun j => T j + t * v j) b).map fun y => dotv y psi)
      ((dtempSens c n pt f T b psi).map fun y => dotv y v) 0 := by
  simp only [dvec_dot]
  unfold dtempSens
  rw [vsum_dot]
  refine DerivOf.sum n _ _ 0 fun i hi => ?_
  have hl := hasDerivAt_dot_line (pt i).tshape T v
  have e0 : dotv (pt i).tshape (fun j => T j + 0 * v j) = tempAt (pt i) T := by simp [tempAt]
  have c1 := DerivOf.comp (u := fun t : ℝ => dotv (pt i).tshape (fun j => T j + t * v j))
    (by rw [e0]; exact hh i hi) hl
  have c2 := DerivOf.comp (u := fun t : ℝ => dotv (pt i).tshape (fun j => T j + t * v j))
    (by rw [e0]; exact he i hi) hl
  obtain ⟨g1, d1, hg1, hd1, h1⟩ := c1
  obtain ⟨g2, d2, hg2, hd2, h2⟩ := c2
  unfold tempAt fluxAt at *
  simp only at hg1 hg2
  refine ⟨fun y => (c i).rho * (g1 y * f * dotv (pt i).fshape b ^ 2 + g2 y * f ^ 2 * dotv (pt i).fshape b ^ 2) *
    ((pt i).w * (pt i).J) * dotv psi (pt i).tshape, _, (hg1.and hg2).mono fun y hy => ?_, ?_,
    ((((((h1.mul_const _).mul_const _).fun_add ((h2.mul_const _).mul_const _)).const_mul _).mul_const _).mul_const _)⟩
  · simp only [loss, hy.1, hy.2, Option.bind_some, Option.map_some]
  · rw [Option.map_eq_some_iff] at hd1 hd2
    obtain ⟨a1, ha1, rfl⟩ := hd1
    obtain ⟨a2, ha2, rfl⟩ := hd2
    simp only [ha1, ha2, Option.bind_some, Option.map_some]
    congr 1
    ring

/-- **C146** The peak-flux reverse sensitivity is the gradient of the tested load. -/
theorem C146_flux (c : ℕ → Core) (pt : ℕ → LPt nt nf) (f : ℝ) (T psi : Vec nt) (b v : Vec nf)
    (hh : ∀ i < n, (c i).kh.Exact3 (tempAt (pt i) T) f (fluxAt (pt i) b))
    (he : ∀ i < n, (c i).ke.Exact3 (tempAt (pt i) T) f (fluxAt (pt i) b)) :
    DerivOf (fun t => (dvec c n pt f T (fun j => b j + t * v j)).map fun y => dotv y psi)
      ((dfluxSens c n pt f T b psi).map fun y => dotv y v) 0 := by
  simp only [dvec_dot]
  unfold dfluxSens
  rw [vsum_dot]
  refine DerivOf.sum n _ _ 0 fun i hi => ?_
  have hl := hasDerivAt_dot_line (pt i).fshape b v
  have e0 : dotv (pt i).fshape (fun j => b j + 0 * v j) = fluxAt (pt i) b := by simp [fluxAt]
  have c1 := DerivOf.comp (u := fun t : ℝ => dotv (pt i).fshape (fun j => b j + t * v j))
    (by rw [e0]; exact hh i hi) hl
  have c2 := DerivOf.comp (u := fun t : ℝ => dotv (pt i).fshape (fun j => b j + t * v j))
    (by rw [e0]; exact he i hi) hl
  obtain ⟨g1, d1, hg1, hd1, h1⟩ := c1
  obtain ⟨g2, d2, hg2, hd2, h2⟩ := c2
  unfold tempAt fluxAt at *
  simp only at hg1 hg2
  refine ⟨fun y => (c i).rho * (g1 y * f * dotv (pt i).fshape (fun j => b j + y * v j) ^ 2 +
      g2 y * f ^ 2 * dotv (pt i).fshape (fun j => b j + y * v j) ^ 2) *
    ((pt i).w * (pt i).J) * dotv psi (pt i).tshape, _, (hg1.and hg2).mono fun y hy => ?_, ?_,
    ((((((h1.mul_const _).fun_mul (hl.fun_pow 2)).fun_add ((h2.mul_const _).fun_mul (hl.fun_pow 2))).const_mul _).mul_const _).mul_const _)⟩
  · simp only [loss, hy.1, hy.2, Option.bind_some, Option.map_some]
  · have e1 := hg1.self_of_nhds
    have e2 := hg2.self_of_nhds
    rw [e0] at e1 e2
    rw [Option.map_eq_some_iff] at hd1 hd2
    obtain ⟨a1, ha1, rfl⟩ := hd1
    obtain ⟨a2, ha2, rfl⟩ := hd2
    simp only [e1, e2, ha1, ha2, e0, Option.bind_some, Option.map_some]
    congr 1
    norm_num
    ring

/-- **C146** (partial) The mesh reverse sensitivity is the derivative of the tested load along every motion of the
mesh, if neither the shape functions nor the material depend on the position of the mesh nodes. -/
theorem C146_mesh_partial (μ : Motion n dim m) (w : ℕ → ℝ) (tsh : ℕ → Vec nt) (fsh : ℕ → Vec nf) (c : ℕ → Core)
    (f : ℝ) (T psi : Vec nt) (b : Vec nf)
    (hs : ∀ i < n, (loss (c i) (dotv (tsh i) T) f (dotv (fsh i) b)).isSome) :
    DerivOf (fun t => (dvec c n (lpts μ w tsh (fun i _ => fsh i) t) f T b).map fun y => dotv y psi)
      ((dmeshSens c n m dim (lpts μ w tsh (fun i _ => fsh i) 0) μ.wRev f T b psi).map fun y =>
        ∑ q ∈ range (dim * m), y q * μ.δ q) 0 := by
  simp only [dvec_dot]
  unfold dmeshSens
  simp only [dloss_eq]
  rw [msum_dot n m dim μ _ fun i hi => by
    rw [Option.isSome_map]; exact hs i hi]
  refine DerivOf.sum n _ _ 0 fun i hi => ?_
  obtain ⟨l, hl⟩ := Option.isSome_iff_exists.1 (hs i hi)
  simp only [lpts, hl, Option.map_some]
  exact ⟨_, _, Eventually.of_forall fun _ => rfl, rfl,
    ((((μ.hJ i hi).const_mul (w i)).const_mul l).mul_const _).congr_deriv (by ring)⟩

/-- **C146** The combined heat source is the sum of the three distributions, its reverse products the sums of theirs:
if each part reports the derivative of its tested load, the combination reports that of the tested sum. -/
theorem C146_heat_source {d k : ℕ} (dc ac core : ℝ → Vec d) (psi : Vec d) (dc' ac' core' x : ℝ)
    (h1 : HasDerivAt (fun t => dotv (dc t) psi) dc' x) (h2 : HasDerivAt (fun t => dotv (ac t) psi) ac' x)
    (h3 : HasDerivAt (fun t => dotv (core t) psi) core' x) :
    HasDerivAt (fun t => dotv (heatSource (dc t) (ac t) (core t)) psi) (heatVjpScalar dc' ac' core') x ∧
    ∀ (g1 g2 g3 bar : Vec k),
      heatVjp (fun v r => v r + g1 r) (fun v r => v r + g2 r) (fun v r => v r + g3 r) bar =
        fun r => bar r + (g1 r + g2 r + g3 r) := by
  constructor
  · have e : ∀ t, dotv (heatSource (dc t) (ac t) (core t)) psi = dotv (dc t) psi + dotv (ac t) psi + dotv (core t) psi := by
      intro t
      unfold heatSource
      simp only [dotv, add_mul, sum_add_distrib]
    simp only [e]
    exact (h1.fun_add h2).fun_add h3
  · intro g1 g2 g3 bar
    funext r
    simp only [heatVjp]
    ring

/-! ### C147: demagnetization -/

/-- Specification: the constraint at point `i`. -/
noncomputable def constraintAt (c : ℕ → ℝ → ℝ → ℝ) (pt : ℕ → LPt nt nf) (T : Option (Vec nt)) (b : Vec nf) (i : ℕ) : ℝ :=
  c i (fluxAt (pt i) b) (match T with
    | some T => tempAt (pt i) T
    | none => 373.15)

/-- **C147** What the demagnetization output computes: the contributions with signs that alternate from point to
point, the last one negated. -/
theorem C147_alternating (c : ℕ → ℝ → ℝ → ℝ) (pt : ℕ → LPt nt nf) (T : Option (Vec nt)) (b : Vec nf) :
    pmEnergy c n pt T b = ∑ i ∈ range n, (-1) ^ (n - i) * (constraintAt c pt T b i * ((pt i).w * (pt i).J)) := by
  have h373 : (100 : ℝ) + 273.15 = 373.15 := by norm_num
  unfold pmEnergy
  induction n with
  | zero => simp [forN]
  | succ n ih =>
    rw [forN, ih, sum_range_succ]
    have e : ∑ i ∈ range n, (-1 : ℝ) ^ (n + 1 - i) * (constraintAt c pt T b i * ((pt i).w * (pt i).J)) =
        -∑ i ∈ range n, (-1) ^ (n - i) * (constraintAt c pt T b i * ((pt i).w * (pt i).J)) := by
      rw [← sum_neg_distrib]
      refine sum_congr rfl fun i hi => ?_
      have : n + 1 - i = (n - i) + 1 := by have := mem_range.1 hi; omega
      rw [this, pow_succ]
      ring
    rw [e]
    have e2 : n + 1 - n = 1 := by omega
    rw [e2]
    unfold constraintAt fluxAt tempAt
    cases T <;> simp only [h373] <;> ring

/-- **C147** (partial) With a one-point rule (the default on linear triangles) the output is minus the integral of the
constraint, as documented. -/
theorem C147_value_partial (c : ℕ → ℝ → ℝ → ℝ) (pt : ℕ → LPt nt nf) (T : Option (Vec nt)) (b : Vec nf) :
    pmEnergy c 1 pt T b = -(constraintAt c pt T b 0 * ((pt 0).w * (pt 0).J)) := by
  rw [C147_alternating]; simp

/-- **C147** (counterexample) With an even number of points of equal weight a uniform constraint gives zero, whatever
its value - a magnet demagnetized everywhere is reported like one at the limit; so the output is not minus the
integral of the constraint. -/
theorem C147_value_false :
    (∀ (k : ℕ) (pt : ℕ → LPt nt nf) (b : Vec nf) (T : Option (Vec nt)) (a w : ℝ), (∀ i < 2 * k, (pt i).w * (pt i).J = w) →
      pmEnergy (fun _ _ _ => a) (2 * k) pt T b = 0) ∧
    ¬ ∀ (n : ℕ) (c : ℕ → ℝ → ℝ → ℝ) (pt : ℕ → LPt nt nf) (T : Option (Vec nt)) (b : Vec nf),
      pmEnergy c n pt T b = -∑ i ∈ range n, constraintAt c pt T b i * ((pt i).w * (pt i).J) := by
  have key : ∀ (k : ℕ) (pt : ℕ → LPt nt nf) (b : Vec nf) (T : Option (Vec nt)) (a w : ℝ),
      (∀ i < 2 * k, (pt i).w * (pt i).J = w) → pmEnergy (fun _ _ _ => a) (2 * k) pt T b = 0 := by
    intro k
    induction k with
    | zero => intro pt b T a w _; rfl
    | succ k ih =>
      intro pt b T a w h
      have : 2 * (k + 1) = 2 * k + 1 + 1 := by ring
      have i1 := ih pt b T a w fun i hi => h i (by omega)
      unfold pmEnergy at i1 ⊢
      rw [this, forN, forN, i1]
      simp only [h (2 * k) (by omega), h (2 * k + 1) (by omega)]
      ring
  refine ⟨key, fun h => ?_⟩
  have h1 := h 2 (fun _ _ _ => 1) (fun _ => ⟨1, 1, fun _ => 0, fun _ => 0⟩) none (fun _ => 0)
  have h2 := key 1 (fun _ => ⟨1, 1, fun _ => 0, fun _ => 0⟩) (fun _ => 0) none 1 1 (fun _ _ => by norm_num)
  rw [show 2 * 1 = 2 from rfl] at h2
  rw [h2] at h1
  simp [constraintAt, sum_range_succ] at h1

/-- **C147** The vector the integrator assembles for the state gradient is the load of the constraint. -/
theorem C147_vector (c : ℕ → ℝ → ℝ → ℝ) (pt : ℕ → LPt nt nf) (T : Option (Vec nt)) (b v : Vec nf) :
    dotv (pmVector c n pt T b) v = ∑ i ∈ range n, constraintAt c pt T b i * ((pt i).w * (pt i).J) * fluxAt (pt i) v := by
  have h373 : (100 : ℝ) + 273.15 = 373.15 := by norm_num
  unfold pmVector
  refine (dotv_axpys n _ (fun i => (pt i).fshape) v).trans (sum_congr rfl fun i _ => ?_)
  unfold constraintAt fluxAt tempAt
  cases T <;> simp only [h373]

/-- **C147** (counterexample) It is not the gradient of the output: for a constraint that does not depend on the flux the
gradient is zero, the vector is not. -/
theorem C147_gradient_false : ∃ (c : ℕ → ℝ → ℝ → ℝ) (pt : ℕ → LPt 1 1) (b v : Vec 1),
    (∀ i B T, HasDerivAt (fun B => c i B T) 0 B) ∧
    ¬ HasDerivAt (fun t => pmEnergy c 1 pt none (fun j => b j + t * v j)) (dotv (pmVector c 1 pt none b) v) 0 := by
  refine ⟨fun _ _ _ => 1, fun _ => ⟨1, 1, ![1], ![1]⟩, ![1], ![1], fun _ _ _ => hasDerivAt_const _ _, fun h => ?_⟩
  rw [C147_vector] at h
  simp only [C147_value_partial, constraintAt] at h
  have := h.unique (hasDerivAt_const (0 : ℝ) _)
  simp [fluxAt, dotv] at this

/-- Specification: an element of length `1 + t` (one node that moves with unit speed). -/
noncomputable def stretch : Motion 1 1 1 where
  δ := fun _ => 1
  adj := fun _ _ _ _ => 1
  J := fun _ t => 1 + t
  adj' := fun _ _ _ => 0
  J' := fun _ => 1
  hadj := fun _ _ _ _ => hasDerivAt_const _ _
  hJ := fun _ _ => (hasDerivAt_id' (0 : ℝ)).const_add 1
  adjRev := fun _ _ _ _ => 0
  wRev := fun _ x _ _ => x
  hadjRev := by intro _ _ A; simp [frob]
  hwRev := by intro _ _ x; simp

/-- Specification: a point with unit density, the given constant hysteresis coefficient and no eddy-current loss. -/
noncomputable def plain (kh : ℝ) : Core where
  rho := 1
  kh := ⟨fun _ _ _ => some kh, fun _ _ _ => some 0, fun _ _ _ => some 0, fun _ _ _ => some 0⟩
  ke := ⟨fun _ _ _ => some 0, fun _ _ _ => some 0, fun _ _ _ => some 0, fun _ _ _ => some 0⟩

theorem stretch_energy (t : ℝ) :
    energy (fun _ => plain 1) 1 (lpts stretch (fun _ => 1) (fun _ _ => 1) (fun _ t _ => (1 + t)⁻¹) t) 1
      (fun _ : Fin 1 => 1) (fun _ : Fin 1 => 1) = some (((1 + t)⁻¹) ^ 2 * (1 + t)) := by
  simp [energy, fsum, forN, loss, lpts, stretch, plain, dotv]

theorem hasDerivAt_stretch : HasDerivAt (fun t : ℝ => ((1 + t)⁻¹) ^ 2 * (1 + t)) (-1) 0 := by
  have h1 : HasDerivAt (fun t : ℝ => 1 + t) 1 0 := (hasDerivAt_id' (0 : ℝ)).const_add 1
  refine (((h1.fun_inv (by norm_num)).fun_pow 2).fun_mul h1).congr_deriv ?_
  norm_num

/-- **C145** (negation) For a flux element whose shape functions are mapped with the Jacobian (map type INTEGRAL, shape
`1 / J`) the mesh sensitivity has the wrong sign: stretching the element lowers its losses at the rate 1, and the
reverse sensitivity is `+1`, because it leaves out the change of the shape functions. -/
theorem C145_mesh_false : ∃ (μ : Motion 1 1 1) (fsh : ℕ → ℝ → Vec 1) (c : ℕ → Core) (T b : Vec 1),
    (∀ i t j, fsh i t j = (μ.J i t)⁻¹) ∧
    (meshSens c 1 1 1 (lpts μ (fun _ => 1) (fun _ _ => 1) fsh 0) μ.wRev 1 T b).map
      (fun y => ∑ q ∈ range (1 * 1), y q * μ.δ q) = some 1 ∧
    DerivOf (fun t => energy c 1 (lpts μ (fun _ => 1) (fun _ _ => 1) fsh t) 1 T b) (some (-1)) 0 := by
  refine ⟨stretch, fun _ t _ => (1 + t)⁻¹, fun _ => plain 1, fun _ => 1, fun _ => 1, fun _ _ _ => rfl, ?_, ?_⟩
  · simp [meshSens, msum, forN, loss, lpts, stretch, plain, dotv, scatter, addAt]
  · exact ⟨_, _, Eventually.of_forall stretch_energy, rfl, hasDerivAt_stretch⟩

/-- **C146** (negation) In the same element the mesh reverse sensitivity of the heat distribution is `+1` while the
tested load changes at the rate `-1`. -/
theorem C146_mesh_false : ∃ (μ : Motion 1 1 1) (fsh : ℕ → ℝ → Vec 1) (c : ℕ → Core) (T psi b : Vec 1),
    (∀ i t j, fsh i t j = (μ.J i t)⁻¹) ∧
    (dmeshSens c 1 1 1 (lpts μ (fun _ => 1) (fun _ _ => 1) fsh 0) μ.wRev 1 T b psi).map
      (fun y => ∑ q ∈ range (1 * 1), y q * μ.δ q) = some 1 ∧
    DerivOf (fun t => (dvec c 1 (lpts μ (fun _ => 1) (fun _ _ => 1) fsh t) 1 T b).map fun y => dotv y psi)
      (some (-1)) 0 := by
  refine ⟨stretch, fun _ t _ => (1 + t)⁻¹, fun _ => plain 1, fun _ => 1, fun _ => 1, fun _ => 1, fun _ _ _ => rfl,
    ?_, ?_⟩
  · simp [dmeshSens, msum, forN, dloss, lpts, stretch, plain, dotv, scatter, addAt]
  · refine ⟨_, _, Eventually.of_forall fun t => ?_, rfl, hasDerivAt_stretch⟩
    simp [dvec, vsum, forN, dloss, lpts, stretch, plain, dotv, axpy, zeroV]

end Verif.CoreLoss
