import Verif.Steinmetz
import Verif.LossesIntegProps
import Mathlib.Analysis.SpecialFunctions.Pow.Deriv

/-! # Steinmetz core losses (C213) -/

namespace Verif.Steinmetz
open Finset Verif.Sbp Verif.Dense Verif.Diffusion Verif.Losses

set_option linter.unusedSimpArgs false

variable {nd n m dim : ℕ}

/-! ### Specification -/

/-- Specification: Steinmetz's loss per volume. -/
noncomputable def density (c : Mat4) (f B : ℝ) : ℝ := c.rho * c.ks * f ^ c.alpha * B ^ c.beta

/-- Specification: quadrature over the element. -/
def quad (n : ℕ) (pt : ℕ → SPt nd) (g : ℕ → ℝ) : ℝ := ∑ i ∈ range n, (pt i).w * (pt i).J * g i

/-- The loss is the quadrature of Steinmetz's formula at the current frequency and peak flux. -/
theorem C213_value (p : Par) (c : ℕ → Mat4) (pt : ℕ → SPt nd) :
    energy p c n pt = quad n pt fun i => density (c i) p.freq p.maxFlux := by
  unfold energy quad density
  rw [forN_real, zero_add]
  exact sum_congr rfl fun i _ => by ring

/-- It is positive for positive data and non-negative data give a non-negative loss. -/
theorem C213_nonneg (p : Par) (c : ℕ → Mat4) (pt : ℕ → SPt nd) (hf : 0 ≤ p.freq) (hB : 0 ≤ p.maxFlux)
    (hw : ∀ i < n, 0 ≤ (pt i).w * (pt i).J) (hc : ∀ i < n, 0 ≤ (c i).rho ∧ 0 ≤ (c i).ks) :
    0 ≤ energy p c n pt := by
  rw [C213_value]
  refine sum_nonneg fun i hi => ?_
  have hi := mem_range.1 hi
  exact mul_nonneg (hw i hi) (mul_nonneg (mul_nonneg (mul_nonneg (hc i hi).1 (hc i hi).2)
    (Real.rpow_nonneg hf _)) (Real.rpow_nonneg hB _))

/-- For non-negative exponents it grows with frequency and with peak flux. -/
theorem C213_monotone (p q : Par) (c : ℕ → Mat4) (pt : ℕ → SPt nd) (hf : 0 ≤ p.freq) (hB : 0 ≤ p.maxFlux)
    (hfq : p.freq ≤ q.freq) (hBq : p.maxFlux ≤ q.maxFlux) (hw : ∀ i < n, 0 ≤ (pt i).w * (pt i).J)
    (hc : ∀ i < n, 0 ≤ (c i).rho ∧ 0 ≤ (c i).ks ∧ 0 ≤ (c i).alpha ∧ 0 ≤ (c i).beta) :
    energy p c n pt ≤ energy q c n pt := by
  rw [C213_value, C213_value]
  refine sum_le_sum fun i hi => ?_
  have hi := mem_range.1 hi
  obtain ⟨h1, h2, h3, h4⟩ := hc i hi
  refine mul_le_mul_of_nonneg_left ?_ (hw i hi)
  unfold density
  have a := Real.rpow_le_rpow hf hfq h3
  have b := Real.rpow_le_rpow hB hBq h4
  exact mul_le_mul (mul_le_mul_of_nonneg_left a (mul_nonneg h1 h2)) b (Real.rpow_nonneg hB _)
    (mul_nonneg (mul_nonneg h1 h2) (Real.rpow_nonneg (hf.trans hfq) _))

/-- The frequency sensitivity is the derivative of the loss. -/
theorem C213_frequency (p : Par) (c : ℕ → Mat4) (pt : ℕ → SPt nd) (hf : 0 < p.freq) :
    HasDerivAt (fun f => energy { p with freq := f } c n pt) (freqSens p c n pt) p.freq := by
  simp only [C213_value]
  unfold freqSens quad density
  rw [forN_real, zero_add]
  refine HasDerivAt.fun_sum fun i _ => ?_
  have h := Real.hasDerivAt_rpow_const (x := p.freq) (p := (c i).alpha) (Or.inl hf.ne')
  exact (((h.const_mul ((c i).rho * (c i).ks)).mul_const (p.maxFlux ^ (c i).beta)).const_mul
    ((pt i).w * (pt i).J)).congr_deriv (by ring)

/-- The peak-flux sensitivity is the derivative of the loss. -/
theorem C213_flux (p : Par) (c : ℕ → Mat4) (pt : ℕ → SPt nd) (hB : 0 < p.maxFlux) :
    HasDerivAt (fun B => energy { p with maxFlux := B } c n pt) (fluxSens p c n pt) p.maxFlux := by
  simp only [C213_value]
  unfold fluxSens quad density
  rw [forN_real, zero_add]
  refine HasDerivAt.fun_sum fun i _ => ?_
  have h := Real.hasDerivAt_rpow_const (x := p.maxFlux) (p := (c i).beta) (Or.inl hB.ne')
  exact ((h.const_mul ((c i).rho * (c i).ks * p.freq ^ (c i).alpha)).const_mul
    ((pt i).w * (pt i).J)).congr_deriv (by ring)

/-- The coefficients along a motion of the mesh, with derivatives and their reverse passes. -/
structure Moving (n m dim : ℕ) (δ : ℕ → ℝ) where
  c : ℕ → ℝ → Mat4
  c' : ℕ → Mat4
  r : ℕ → Rev4
  hrho : ∀ i < n, HasDerivAt (fun t => (c i t).rho) (c' i).rho 0
  hks : ∀ i < n, HasDerivAt (fun t => (c i t).ks) (c' i).ks 0
  halpha : ∀ i < n, HasDerivAt (fun t => (c i t).alpha) (c' i).alpha 0
  hbeta : ∀ i < n, HasDerivAt (fun t => (c i t).beta) (c' i).beta 0
  rrho : ∀ i < n, AdjOf m dim δ (r i).rho (c' i).rho
  rks : ∀ i < n, AdjOf m dim δ (r i).ks (c' i).ks
  ralpha : ∀ i < n, AdjOf m dim δ (r i).alpha (c' i).alpha
  rbeta : ∀ i < n, AdjOf m dim δ (r i).beta (c' i).beta

/-- The mesh sensitivity is the derivative of the loss along every motion of the mesh nodes, also when all four
coefficients vary in space. -/
theorem C213_mesh (p : Par) (μ : Motion n dim m) (w : ℕ → ℝ) (sh : ℕ → Vec nd) (v : Moving n m dim μ.δ)
    (hf : 0 < p.freq) (hB : 0 < p.maxFlux) :
    HasDerivAt (fun t => energy p (fun i => v.c i t) n fun i => ⟨w i, μ.J i t, sh i⟩)
      (∑ q ∈ range (dim * m), meshSens p (fun i => v.c i 0) v.r n m dim (fun i => ⟨w i, μ.J i 0, sh i⟩) μ.wRev q * μ.δ q)
      0 := by
  simp only [C213_value]
  unfold meshSens quad density
  rw [scatterLoop3 (D := fun i =>
    1 * (v.c i 0).rho * (v.c i 0).ks * p.freq ^ (v.c i 0).alpha * p.maxFlux ^ (v.c i 0).beta *
        Real.log p.maxFlux * (w i * μ.J i 0) * (v.c' i).beta +
      1 * (v.c i 0).rho * (v.c i 0).ks * p.freq ^ (v.c i 0).alpha * Real.log p.freq *
        p.maxFlux ^ (v.c i 0).beta * (w i * μ.J i 0) * (v.c' i).alpha +
      1 * (v.c i 0).rho * p.freq ^ (v.c i 0).alpha * p.maxFlux ^ (v.c i 0).beta * (w i * μ.J i 0) * (v.c' i).ks +
      1 * (v.c i 0).ks * p.freq ^ (v.c i 0).alpha * p.maxFlux ^ (v.c i 0).beta * (w i * μ.J i 0) * (v.c' i).rho +
      1 * (v.c i 0).rho * (v.c i 0).ks * p.freq ^ (v.c i 0).alpha * p.maxFlux ^ (v.c i 0).beta * w i * μ.J' i)]
  · refine HasDerivAt.fun_sum fun i hi => ?_
    have hi := mem_range.1 hi
    have a := (v.halpha i hi).const_rpow (a := p.freq) hf
    have b := (v.hbeta i hi).const_rpow (a := p.maxFlux) hB
    refine (((μ.hJ i hi).const_mul (w i)).fun_mul
      ((((v.hrho i hi).fun_mul (v.hks i hi)).fun_mul a).fun_mul b)).congr_deriv ?_
    ring
  · intro i hi
    rw [← v.rbeta i hi, ← v.ralpha i hi, ← v.rks i hi, ← v.rrho i hi, ← μ.hwRev i hi]
    simp only [← sum_add_distrib]
    exact sum_congr rfl fun k _ => sum_congr rfl fun j _ => by ring

/-- Witness: constant coefficients with the zero reverse pass (`mfem::ConstantCoefficient`) meet the contract. -/
def constant (c : ℕ → Mat4) (δ : ℕ → ℝ) : Moving n m dim δ where
  c := fun i _ => c i
  c' := fun _ => ⟨0, 0, 0, 0⟩
  r := fun _ => ⟨fun _ _ _ => 0, fun _ _ _ => 0, fun _ _ _ => 0, fun _ _ _ => 0⟩
  hrho := fun _ _ => hasDerivAt_const _ _
  hks := fun _ _ => hasDerivAt_const _ _
  halpha := fun _ _ => hasDerivAt_const _ _
  hbeta := fun _ _ => hasDerivAt_const _ _
  rrho := fun _ _ x => by simp
  rks := fun _ _ x => by simp
  ralpha := fun _ _ x => by simp
  rbeta := fun _ _ x => by simp

/-! ### Distribution -/

/-- The heat load tested with any function is the quadrature of loss density times that function. -/
theorem C213_distribution (p : Par) (c : ℕ → Mat4) (pt : ℕ → SPt nd) (psi : Vec nd) :
    dotv psi (dist p c n pt) =
      quad n pt fun i => density (c i) p.freq p.maxFlux * dotv psi (pt i).shape := by
  unfold dist quad density
  rw [dotv_comm, dotv_axpys n (fun i => (c i).rho * (c i).ks * p.freq ^ (c i).alpha * p.maxFlux ^ (c i).beta *
    ((pt i).w * (pt i).J)) (fun i => (pt i).shape) psi]
  exact sum_congr rfl fun i _ => by rw [dotv_comm]; ring

/-- With shape functions that sum to one and the same rule, the heat load adds up to the loss. -/
theorem C213_total (p : Par) (c : ℕ → Mat4) (pt : ℕ → SPt nd) (h1 : ∀ i < n, ∑ r, (pt i).shape r = 1) :
    ∑ r, dist p c n pt r = energy p c n pt := by
  have h := C213_distribution (n := n) p c pt fun _ => 1
  rw [sum_eq_dotv_one, h, C213_value]
  refine sum_congr rfl fun i hi => ?_
  have : dotv (fun _ => 1) (pt i).shape = 1 := by rw [← sum_eq_dotv_one]; exact h1 i (mem_range.1 hi)
  simp only [this]; ring

/-- The default rules differ on simplices, agree on tensor-product elements. -/
theorem C213_rules (s : Space) (o : ℕ) (ho : 0 < o) : rule s o = distRule s o ↔ s ≠ .Pk := by
  unfold rule distRule
  by_cases h : s = .Pk
  · subst h; simp; omega
  · simp [h]

/-- The stack length is accepted as input and has no effect on the heat load. -/
theorem C213_stack_length (p : Par) (c : ℕ → Mat4) (pt : ℕ → SPt nd) (l : ℝ) :
    dist { p with stackLength := l } c n pt = dist p c n pt := rfl

/-- Scaling the frequency scales loss and heat load of a uniform material by the power law. -/
theorem C213_power_law (p : Par) (k : Mat4) (pt : ℕ → SPt nd) (s : ℝ) (hs : 0 ≤ s) (hf : 0 ≤ p.freq) :
    energy { p with freq := s * p.freq } (fun _ => k) n pt = s ^ k.alpha * energy p (fun _ => k) n pt := by
  rw [C213_value, C213_value]
  unfold quad density
  rw [mul_sum]
  refine sum_congr rfl fun i _ => ?_
  rw [Real.mul_rpow hs hf]; ring

/-! ### Inputs -/

/-- A given input is used, a missing one leaves the current value; a named integrator reads its own key only. -/
theorem C213_inputs (inputs : String → Option ℝ) (p : Par) :
    (∀ f, inputs "frequency" = some f → (setInputs inputs p).freq = f) ∧
    (inputs "frequency" = none → (setInputs inputs p).freq = p.freq) ∧
    (p.name = "" → ∀ b, inputs "max_flux_magnitude" = some b → (setInputs inputs p).maxFlux = b) ∧
    (p.name ≠ "" → ∀ b, inputs ("max_flux_magnitude:" ++ p.name) = some b → (setInputs inputs p).maxFlux = b) ∧
    (p.name ≠ "" → inputs ("max_flux_magnitude:" ++ p.name) = none → (setInputs inputs p).maxFlux = p.maxFlux) ∧
    (p.name = "" → inputs "max_flux_magnitude" = none → (setInputs inputs p).maxFlux = p.maxFlux) ∧
    (setInputs inputs p).name = p.name ∧ (setInputs inputs p).stackLength = p.stackLength := by
  refine ⟨fun f h => by simp [setInputs, h], fun h => by simp [setInputs, h], fun hn b h => by simp [setInputs, fluxKey, hn, h],
    fun hn b h => by simp [setInputs, fluxKey, hn, h], fun hn h => by simp [setInputs, fluxKey, hn, h],
    fun hn h => by simp [setInputs, fluxKey, hn, h], rfl, rfl⟩

/-- The distribution reads the same frequency and peak flux as the loss, so one set of inputs keeps them consistent. -/
theorem C213_inputs_agree (inputs : String → Option ℝ) (p q : Par) (hn : p.name = q.name) (hf : p.freq = q.freq)
    (hB : p.maxFlux = q.maxFlux) : (setInputs inputs p).freq = (setInputsDist inputs q).freq ∧
      (setInputs inputs p).maxFlux = (setInputsDist inputs q).maxFlux := by
  simp [setInputs, setInputsDist, hn, hf, hB]

/-- The distribution also remembers the stack length: a given value replaces it, no value leaves it, and nothing else is touched. -/
theorem C213_stack_length_input (inputs : String → Option ℝ) (p : Par) :
    (∀ l, inputs "stack_length" = some l → (setInputsDist inputs p).stackLength = l) ∧
    (inputs "stack_length" = none → (setInputsDist inputs p).stackLength = p.stackLength) ∧
    (setInputsDist inputs p).name = p.name := by
  refine ⟨fun l h => by simp [setInputsDist, h], fun h => by simp [setInputsDist, h], rfl⟩

example : (setInputsDist (fun k => if k = "stack_length" then some 3 else none) ⟨"a", 1, 2, 5⟩).stackLength = 3 := by
  simp [setInputsDist]

/-- Integrators with different names never share a peak flux. -/
theorem C213_keys (a b : String) (h : fluxKey a = fluxKey b) : a = b := by
  unfold fluxKey at h
  have hl : ∀ s : String, "max_flux_magnitude:" ++ s ≠ "max_flux_magnitude" := by
    intro s hs
    have := congrArg (fun x => x.toList.length) hs
    simp [String.toList_append] at this
  by_cases ha : a = "" <;> by_cases hb : b = ""
  · rw [ha, hb]
  · rw [if_neg (by simp [ha]), if_pos hb] at h; exact absurd h.symm (hl b)
  · rw [if_pos ha, if_neg (by simp [hb])] at h; exact absurd h (hl a)
  · rw [if_pos ha, if_pos hb] at h
    have := congrArg String.toList h
    simp only [String.toList_append] at this
    exact String.toList_inj.mp (List.append_cancel_left this)

/-- Witness: a silicon-steel-like material on a one-point element at 100 Hz and 2 T. -/
example : energy ⟨"", 100, 2, 1⟩ (fun _ => ⟨7, 3, 1, 2⟩) 1 (fun _ => (⟨1, 1 / 2, fun _ => 1⟩ : SPt 1)) = 4200 := by
  rw [C213_value]
  unfold quad density
  simp only [sum_range_one]
  rw [Real.rpow_one, show (2 : ℝ) ^ (2 : ℝ) = 4 by rw [Real.rpow_two]; norm_num]
  norm_num

end Verif.Steinmetz
