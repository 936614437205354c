import Verif.CurlMagProps
import Verif.QuotientProps
import Mathlib.Analysis.SpecialFunctions.Integrals.Basic

/-!
Properties C154 (induced-exponential aggregates as a smooth maximum), C155 (volume and mass), C156 (integral and
averages of the state) and C157 (normal heat flux).
-/

namespace Verif.CommonInteg
open Finset Verif.Sbp Verif.Dense Verif.Diffusion Verif.Force Verif.Losses

set_option linter.unusedSimpArgs false
set_option linter.unusedSectionVars false

variable {ndof dim n m : ℕ}

/-! ### C154: aggregates -/

section
variable {ι : Type*} (s : Finset ι) (w g : ι → ℝ)

/-- Specification: the weighted mean of `g` with weights `w e^{ρ g}`. -/
noncomputable def tilted (rho : ℝ) : ℝ :=
  (∑ i ∈ s, w i * g i * Real.exp (rho * g i)) / ∑ i ∈ s, w i * Real.exp (rho * g i)

theorem tilted_den_pos (rho : ℝ) (hs : s.Nonempty) (hw : ∀ i ∈ s, 0 < w i) :
    0 < ∑ i ∈ s, w i * Real.exp (rho * g i) :=
  sum_pos (fun i hi => mul_pos (hw i hi) (Real.exp_pos _)) hs

theorem tilted_mono (hs : s.Nonempty) (hw : ∀ i ∈ s, 0 < w i) (r1 r2 : ℝ) (h : r1 ≤ r2) :
    tilted s w g r1 ≤ tilted s w g r2 := by
  unfold tilted
  rw [div_le_div_iff₀ (tilted_den_pos s w g r1 hs hw) (tilted_den_pos s w g r2 hs hw), ← sub_nonneg]
  simp only [sum_mul_sum]
  have e : ∀ i j, w i * g i * Real.exp (r2 * g i) * (w j * Real.exp (r1 * g j)) =
      w i * w j * (g i * Real.exp (r2 * g i + r1 * g j)) := by
    intro i j; rw [Real.exp_add]; ring
  have e' : ∀ i j, w i * g i * Real.exp (r1 * g i) * (w j * Real.exp (r2 * g j)) =
      w i * w j * (g i * Real.exp (r2 * g j + r1 * g i)) := by
    intro i j; rw [Real.exp_add]; ring
  simp only [e, e']
  have hsym : ∑ i ∈ s, ∑ j ∈ s, w i * w j * (g i * Real.exp (r2 * g j + r1 * g i)) =
      ∑ i ∈ s, ∑ j ∈ s, w i * w j * (g j * Real.exp (r2 * g i + r1 * g j)) := by
    rw [sum_comm]
    exact sum_congr rfl fun i _ => sum_congr rfl fun j _ => by ring
  have hd : 2 * (∑ i ∈ s, ∑ j ∈ s, w i * w j * (g i * Real.exp (r2 * g i + r1 * g j)) -
      ∑ i ∈ s, ∑ j ∈ s, w i * w j * (g i * Real.exp (r2 * g j + r1 * g i))) =
      ∑ i ∈ s, ∑ j ∈ s, w i * w j * ((g i - g j) *
        (Real.exp (r2 * g i + r1 * g j) - Real.exp (r2 * g j + r1 * g i))) := by
    have h1 : ∑ i ∈ s, ∑ j ∈ s, w i * w j * (g i * Real.exp (r2 * g i + r1 * g j)) =
        ∑ i ∈ s, ∑ j ∈ s, w i * w j * (g j * Real.exp (r2 * g j + r1 * g i)) := by
      rw [sum_comm]
      exact sum_congr rfl fun i _ => sum_congr rfl fun j _ => by ring
    have : ∀ i j, w i * w j * ((g i - g j) *
        (Real.exp (r2 * g i + r1 * g j) - Real.exp (r2 * g j + r1 * g i))) =
        w i * w j * (g i * Real.exp (r2 * g i + r1 * g j)) + w i * w j * (g j * Real.exp (r2 * g j + r1 * g i)) -
        (w i * w j * (g i * Real.exp (r2 * g j + r1 * g i)) +
          w i * w j * (g j * Real.exp (r2 * g i + r1 * g j))) := fun i j => by ring
    simp only [this, sum_sub_distrib, sum_add_distrib]
    rw [← h1, ← hsym]; ring
  have hnn : 0 ≤ ∑ i ∈ s, ∑ j ∈ s, w i * w j * ((g i - g j) *
      (Real.exp (r2 * g i + r1 * g j) - Real.exp (r2 * g j + r1 * g i))) := by
    refine sum_nonneg fun i hi => sum_nonneg fun j hj => mul_nonneg (mul_pos (hw i hi) (hw j hj)).le ?_
    rcases le_total (g j) (g i) with hg | hg
    · refine mul_nonneg (sub_nonneg.2 hg) (sub_nonneg.2 (Real.exp_le_exp.2 ?_))
      nlinarith
    · refine mul_nonneg_of_nonpos_of_nonpos (sub_nonpos.2 hg) (sub_nonpos.2 (Real.exp_le_exp.2 ?_))
      nlinarith
  linarith

theorem tilted_gap (hw : ∀ i ∈ s, 0 < w i) (rho : ℝ) (hr : 0 < rho) (j : ι) (hj : j ∈ s) :
    g j - tilted s w g rho ≤ (∑ i ∈ s, w i) / (rho * w j) := by
  have hd := tilted_den_pos s w g rho ⟨j, hj⟩ hw
  have e : g j - tilted s w g rho =
      (∑ i ∈ s, w i * (g j - g i) * Real.exp (rho * g i)) / ∑ i ∈ s, w i * Real.exp (rho * g i) := by
    unfold tilted
    rw [eq_div_iff hd.ne', sub_mul, div_mul_cancel₀ _ hd.ne', mul_sum, ← sum_sub_distrib]
    exact sum_congr rfl fun _ _ => by ring
  have hwj := hw j hj
  rw [e, div_le_div_iff₀ hd (mul_pos hr hwj)]
  have h1 : ∀ i ∈ s, w i * (g j - g i) * Real.exp (rho * g i) ≤ w i / rho * Real.exp (rho * g j) := by
    intro i hi
    have h2 := Real.add_one_le_exp (rho * (g j - g i))
    have h3 : rho * (g j - g i) ≤ Real.exp (rho * (g j - g i)) := by linarith
    have h4 : Real.exp (rho * g j) = Real.exp (rho * (g j - g i)) * Real.exp (rho * g i) := by
      rw [← Real.exp_add]; congr 1; ring
    rw [h4, ← mul_assoc]
    refine mul_le_mul_of_nonneg_right ?_ (Real.exp_pos _).le
    rw [div_mul_eq_mul_div, le_div_iff₀ hr]
    have := mul_le_mul_of_nonneg_left h3 (hw i hi).le
    linarith
  have h5 : ∑ i ∈ s, w i * (g j - g i) * Real.exp (rho * g i) ≤
      (∑ i ∈ s, w i) / rho * Real.exp (rho * g j) := by
    refine (sum_le_sum h1).trans (le_of_eq ?_)
    rw [← sum_mul, sum_div]
  have h6 : w j * Real.exp (rho * g j) ≤ ∑ i ∈ s, w i * Real.exp (rho * g i) :=
    single_le_sum (f := fun i => w i * Real.exp (rho * g i))
      (fun i hi => (mul_pos (hw i hi) (Real.exp_pos _)).le) hj
  have hW : 0 ≤ ∑ i ∈ s, w i := sum_nonneg fun i hi => (hw i hi).le
  calc (∑ i ∈ s, w i * (g j - g i) * Real.exp (rho * g i)) * (rho * w j)
      ≤ (∑ i ∈ s, w i) / rho * Real.exp (rho * g j) * (rho * w j) :=
        mul_le_mul_of_nonneg_right h5 (mul_pos hr hwj).le
    _ = (∑ i ∈ s, w i) * (w j * Real.exp (rho * g j)) := by field_simp
    _ ≤ _ := mul_le_mul_of_nonneg_left h6 hW

theorem tilted_shift (hs : s.Nonempty) (hw : ∀ i ∈ s, 0 < w i) (rho c : ℝ) :
    tilted s w (fun i => g i + c) rho = tilted s w g rho + c := by
  have hd := tilted_den_pos s w g rho hs hw
  have hd' := tilted_den_pos s w (fun i => g i + c) rho hs hw
  unfold tilted
  have e : ∀ i, Real.exp (rho * (g i + c)) = Real.exp (rho * c) * Real.exp (rho * g i) := fun i => by
    rw [← Real.exp_add]; congr 1; ring
  have h1 : ∑ i ∈ s, w i * (g i + c) * Real.exp (rho * (g i + c)) = Real.exp (rho * c) *
      (∑ i ∈ s, w i * g i * Real.exp (rho * g i) + c * ∑ i ∈ s, w i * Real.exp (rho * g i)) := by
    rw [mul_sum, ← sum_add_distrib, mul_sum]
    exact sum_congr rfl fun i _ => by rw [e]; ring
  have h2 : ∑ i ∈ s, w i * Real.exp (rho * (g i + c)) = Real.exp (rho * c) *
      ∑ i ∈ s, w i * Real.exp (rho * g i) := by
    rw [mul_sum]
    exact sum_congr rfl fun i _ => by rw [e]; ring
  rw [h1, h2, mul_div_mul_left _ _ (Real.exp_pos _).ne', add_div, mul_div_assoc, div_self hd.ne', mul_one]

end

open Verif.Quotient in
/-- The aggregate the code computes, as a weighted mean. -/
theorem ie_tilted (rho tm : ℝ) (ps : List (Pt ndof)) (u : Fin ndof → ℝ) :
    ieNum rho tm ps u / ieDen rho tm ps u =
      tilted (univ : Finset (Fin ps.length)) (fun i => (ps.get i).w) (fun i => dot (ps.get i).shape u) rho := by
  rw [C70_shift_invariant rho 0 tm ps u]
  unfold tilted
  congr 1
  · induction ps with
    | nil => simp [ieNum]
    | cons p ps ih =>
      rw [ieNum, ih]
      change _ = ∑ i : Fin (ps.length + 1), _
      rw [Fin.sum_univ_succ]
      simp only [sub_zero]
      congr 1
      change _ = p.w * _ * _
      simp only [List.get_eq_getElem, Fin.val_zero, List.getElem_cons_zero]
      ring
  · induction ps with
    | nil => simp [ieDen]
    | cons p ps ih =>
      rw [ieDen, ih]
      change _ = ∑ i : Fin (ps.length + 1), _
      rw [Fin.sum_univ_succ]
      simp only [sub_zero]
      congr 1
      simp only [List.get_eq_getElem, Fin.val_zero, List.getElem_cons_zero]
      ring

open Verif.Quotient in
/-- **C154** The aggregate of a scalar state increases with the parameter `ρ`. -/
theorem C154_monotone (tm1 tm2 r1 r2 : ℝ) (h : r1 ≤ r2) (ps : List (Pt ndof)) (hne : ps ≠ [])
    (hw : ∀ p ∈ ps, 0 < p.w) (u : Fin ndof → ℝ) :
    ieNum r1 tm1 ps u / ieDen r1 tm1 ps u ≤ ieNum r2 tm2 ps u / ieDen r2 tm2 ps u := by
  rw [ie_tilted, ie_tilted]
  exact tilted_mono _ _ _ ⟨⟨0, List.length_pos_iff.2 hne⟩, mem_univ _⟩ (fun i _ => hw _ (List.get_mem _ _)) _ _ h

open Verif.Quotient in
/-- **C154** For `ρ ≥ 0` it is at least the average of the state by the same quadrature, with equality for `ρ = 0`. -/
theorem C154_above_average (tm rho : ℝ) (h : 0 ≤ rho) (ps : List (Pt ndof)) (hne : ps ≠ [])
    (hw : ∀ p ∈ ps, 0 < p.w) (u : Fin ndof → ℝ) :
    (ps.map fun p => p.w * dot p.shape u).sum / (ps.map fun p => p.w).sum ≤ ieNum rho tm ps u / ieDen rho tm ps u ∧
    ieNum 0 tm ps u / ieDen 0 tm ps u =
      (ps.map fun p => p.w * dot p.shape u).sum / (ps.map fun p => p.w).sum := by
  have e : ieNum 0 tm ps u / ieDen 0 tm ps u =
      (ps.map fun p => p.w * dot p.shape u).sum / (ps.map fun p => p.w).sum := by
    congr 1
    · induction ps with
      | nil => simp [ieNum]
      | cons p ps ih =>
        simp only [ieNum, List.map_cons, List.sum_cons, zero_mul, Real.exp_zero, mul_one]
        by_cases hp : ps = []
        · subst hp; simp [ieNum]; ring
        · rw [ih hp fun q hq => hw q (List.mem_cons_of_mem _ hq)]; ring
    · induction ps with
      | nil => simp [ieDen]
      | cons p ps ih =>
        simp only [ieDen, List.map_cons, List.sum_cons, zero_mul, Real.exp_zero, one_mul]
        by_cases hp : ps = []
        · subst hp; simp [ieDen]
        · rw [ih hp fun q hq => hw q (List.mem_cons_of_mem _ hq)]
  exact ⟨e ▸ C154_monotone tm tm 0 rho h ps hne hw u, e⟩

open Verif.Quotient in
/-- **C154** It approaches the largest sampled value like `1/ρ`: the gap is at most `Σ w / (ρ w_j)`, where `j` is a
point at which the state is largest. -/
theorem C154_gap (tm rho : ℝ) (hr : 0 < rho) (ps : List (Pt ndof)) (hw : ∀ p ∈ ps, 0 < p.w) (u : Fin ndof → ℝ)
    (j : Pt ndof) (hj : j ∈ ps) (hmax : ∀ p ∈ ps, dot p.shape u ≤ dot j.shape u) :
    0 ≤ dot j.shape u - ieNum rho tm ps u / ieDen rho tm ps u ∧
    dot j.shape u - ieNum rho tm ps u / ieDen rho tm ps u ≤ (ps.map fun p => p.w).sum / (rho * j.w) := by
  constructor
  · have := C70_between_min_and_max rho tm
      ((univ : Finset (Fin ps.length)).inf' ⟨⟨0, List.length_pos_of_mem hj⟩, mem_univ _⟩
        fun i => dot (ps.get i).shape u) (dot j.shape u) ps u
      (List.ne_nil_of_mem hj) hw (fun p hp => by
        obtain ⟨i, rfl⟩ := List.get_of_mem hp
        exact inf'_le _ (mem_univ i)) hmax
    linarith [this.2]
  · obtain ⟨i, rfl⟩ := List.get_of_mem hj
    rw [ie_tilted]
    have := tilted_gap (univ : Finset (Fin ps.length)) (fun i => (ps.get i).w)
      (fun i => dot (ps.get i).shape u) (fun i _ => hw _ (List.get_mem _ _)) rho hr i (mem_univ _)
    refine this.trans (le_of_eq ?_)
    congr 1
    rw [← List.sum_ofFn]
    congr 1
    exact List.ext_getElem (by simp) (by simp)

open Verif.Quotient in
/-- **C154** Adding a constant to the state adds it to the aggregate (nodal basis: the shape functions add up to one). -/
theorem C154_shift (tm tm' rho c : ℝ) (ps : List (Pt ndof)) (hne : ps ≠ []) (hw : ∀ p ∈ ps, 0 < p.w)
    (h1 : ∀ p ∈ ps, ∑ r, p.shape r = 1) (u : Fin ndof → ℝ) :
    ieNum rho tm' ps (fun r => u r + c) / ieDen rho tm' ps (fun r => u r + c) =
      ieNum rho tm ps u / ieDen rho tm ps u + c := by
  rw [ie_tilted, ie_tilted, ← tilted_shift _ _ _ ⟨⟨0, List.length_pos_iff.2 hne⟩, mem_univ _⟩
    (fun i _ => hw _ (List.get_mem _ _))]
  congr 1
  funext i
  unfold Quotient.dot
  simp only [mul_add, sum_add_distrib, ← sum_mul]
  rw [h1 _ (List.get_mem _ _), one_mul]

/-- **C154** The aggregate of `|B|` increases with `ρ / M` as well, and is at most
`Σ w J M / (ρ w_j J_j)` below the magnitude at any point `j`. -/
theorem C154_curl_aggregate (r1 r2 M : ℝ) (hM : 0 < M) (h : r1 ≤ r2) (pt : ℕ → MPt ndof dim) (hn : 0 < n)
    (hJ : ∀ i < n, 0 < (pt i).J) (hw : ∀ i < n, 0 < (pt i).w) (u : Vec ndof) :
    ratioOut (numEnergy r1 M n pt u) (denEnergy r1 M n pt u) ≤
      ratioOut (numEnergy r2 M n pt u) (denEnergy r2 M n pt u) ∧
    (0 < r2 → ∀ j < n,
      norm2 (bfield (pt j) u) - ratioOut (numEnergy r2 M n pt u) (denEnergy r2 M n pt u) ≤
        (∑ i ∈ range n, (pt i).w * (pt i).J) / (r2 / M * ((pt j).w * (pt j).J))) := by
  have e : ∀ r, ratioOut (numEnergy r M n pt u) (denEnergy r M n pt u) =
      tilted (range n) (fun i => (pt i).w * (pt i).J) (fun i => norm2 (bfield (pt i) u)) (r / M) := by
    intro r
    obtain ⟨-, h2, h3⟩ := C153_values r M pt hJ u
    unfold ratioOut tilted
    rw [h2, h3]
    unfold quadB
    congr 1
    · exact sum_congr rfl fun i _ => by rw [div_mul_eq_mul_div]; ring
    · exact sum_congr rfl fun i _ => by rw [div_mul_eq_mul_div]
  have hww : ∀ i ∈ range n, 0 < (pt i).w * (pt i).J := fun i hi =>
    mul_pos (hw i (mem_range.1 hi)) (hJ i (mem_range.1 hi))
  rw [e, e]
  exact ⟨tilted_mono _ _ _ ⟨0, mem_range.2 hn⟩ hww _ _ ((div_le_div_iff_of_pos_right hM).2 h),
    fun hr j hj => tilted_gap _ _ (fun i => norm2 (bfield (pt i) u)) hww _ (div_pos hr hM) j (mem_range.2 hj)⟩

/-- Specification: the points of the scalar aggregate after the mesh nodes moved by `t`, as in C70. -/
noncomputable def iePts (μ : Motion n dim m) (w : ℕ → ℝ) (shape : ℕ → Vec ndof) (t : ℝ) : List (Quotient.Pt ndof) :=
  (List.range n).map fun i => ⟨w i * μ.J i t, shape i⟩

/-- Specification: the points of the other integrals after the mesh nodes moved by `t`. -/
noncomputable def spts (μ : Motion n dim m) (w : ℕ → ℝ) (shape : ℕ → Vec ndof) (t : ℝ) (i : ℕ) : SPt ndof :=
  ⟨w i, μ.J i t, shape i⟩

open Verif.Quotient in
theorem ie_sum (rho tm : ℝ) (P : ℕ → Pt ndof) (k : ℕ) (u : Fin ndof → ℝ) :
    ieNum rho tm ((List.range k).map P) u = ∑ i ∈ range k, dotv (P i).shape u *
      Real.exp (rho * (dotv (P i).shape u - tm)) * (P i).w ∧
    ieDen rho tm ((List.range k).map P) u = ∑ i ∈ range k,
      Real.exp (rho * (dotv (P i).shape u - tm)) * (P i).w := by
  induction k with
  | zero => simp [ieNum, ieDen]
  | succ k ih =>
    rw [List.range_succ, List.map_append, ieNum_append, ieDen_append, ih.1, ih.2, sum_range_succ, sum_range_succ]
    simp [ieNum, ieDen, Quotient.dot, dotv]

open Verif.Quotient in
/-- **C154** Mesh sensitivities of numerator and denominator of the scalar aggregate: the assembled vectors
multiplied with any motion of the mesh nodes are the derivatives of the integrals under that motion. -/
theorem C154_mesh_sensitivity (rho tm : ℝ) (μ : Motion n dim m) (w : ℕ → ℝ) (shape : ℕ → Vec ndof)
    (u : Vec ndof) :
    HasDerivAt (fun t => ieNum rho tm (iePts μ w shape t) u)
      (∑ q ∈ range (dim * m), ieNumMesh rho tm n m dim (spts μ w shape 0) μ.wRev u q * μ.δ q) 0 ∧
    HasDerivAt (fun t => ieDen rho tm (iePts μ w shape t) u)
      (∑ q ∈ range (dim * m), ieDenMesh rho tm n m dim (spts μ w shape 0) μ.wRev u q * μ.δ q) 0 := by
  unfold iePts ieNumMesh ieDenMesh spts
  simp only [fun t => (ie_sum rho tm (fun i => ⟨w i * μ.J i t, shape i⟩) n u).1,
    fun t => (ie_sum rho tm (fun i => ⟨w i * μ.J i t, shape i⟩) n u).2]
  constructor
  · rw [scatterLoop3 (D := fun i => 1 * dotv (shape i) u * Real.exp (rho * (dotv (shape i) u - tm)) * w i * μ.J' i)
      (h := fun i hi => μ.pointW i hi _)]
    refine HasDerivAt.fun_sum fun i hi => ?_
    refine (((μ.hJ i (mem_range.1 hi)).const_mul (w i)).const_mul _).congr_deriv ?_
    ring
  · rw [scatterLoop3 (D := fun i => 1 * Real.exp (rho * (dotv (shape i) u - tm)) * w i * μ.J' i)
      (h := fun i hi => μ.pointW i hi _)]
    refine HasDerivAt.fun_sum fun i hi => ?_
    refine (((μ.hJ i (mem_range.1 hi)).const_mul (w i)).const_mul _).congr_deriv ?_
    ring

open Verif.Quotient in
/-- Non-vacuity for C154: two points with weights 1 and 2 and states 0 and 1 - the aggregate with `ρ = 0` is 2/3. -/
example : let ps : List (Pt 2) := [⟨1, ![1, 0]⟩, ⟨2, ![0, 1]⟩]
    ps ≠ [] ∧ (∀ p ∈ ps, 0 < p.w) ∧ (∀ p ∈ ps, ∑ r, p.shape r = 1) ∧
      ieNum 0 0 ps ![0, 1] / ieDen 0 0 ps ![0, 1] = 2 / 3 := by
  refine ⟨by simp, by simp, by simp, ?_⟩
  norm_num [ieNum, ieDen, Quotient.dot]

/-! ### C155: volume and mass -/

theorem volEnergy_none (pt : ℕ → SPt ndof) : volEnergy none n pt = ∑ i ∈ range n, (pt i).w * (pt i).J := by
  unfold volEnergy; rw [forN_real, zero_add]

theorem volEnergy_some (s : ℕ → ℝ) (pt : ℕ → SPt ndof) :
    volEnergy (some (some s)) n pt = ∑ i ∈ range n, (pt i).w * (pt i).J * s i := by
  unfold volEnergy; rw [forN_real, zero_add]

/-- **C155** The volume integral is the quadrature of 1, the mass integral that of the density. -/
theorem C155_value (s : ℕ → ℝ) (pt : ℕ → SPt ndof) :
    volEnergy none n pt = ∑ i ∈ range n, (pt i).w * (pt i).J ∧
    volEnergy (some none) n pt = ∑ i ∈ range n, (pt i).w * (pt i).J ∧
    volEnergy (some (some s)) n pt = ∑ i ∈ range n, (pt i).w * (pt i).J * s i :=
  ⟨volEnergy_none pt, by unfold volEnergy; rw [forN_real, zero_add], volEnergy_some s pt⟩

/-- **C155** Mesh sensitivity: for the volume (null pointer) and for a density, also one that depends on position
(`s i t` after the motion; `sRev` returns the adjoint of its derivative), the assembled vector multiplied with
any motion of the mesh nodes is the derivative of the integral. -/
theorem C155_mesh_sensitivity_partial (μ : Motion n dim m) (w : ℕ → ℝ) (shape : ℕ → Vec ndof)
    (s : ℕ → ℝ → ℝ) (s' : ℕ → ℝ) (hs : ∀ i < n, HasDerivAt (s i) (s' i) 0) (sRev : ℕ → ℝ → ℕ → ℕ → ℝ)
    (hRev : ∀ i < n, ∀ x, ∑ k ∈ range dim, ∑ j ∈ range m, sRev i x k j * μ.δ (k * m + j) = x * s' i) :
    HasDerivAt (fun t => volEnergy none n (spts μ w shape t))
      (∑ q ∈ range (dim * m), volMesh none n m dim (spts μ w shape 0) sRev μ.wRev q * μ.δ q) 0 ∧
    HasDerivAt (fun t => volEnergy (some (some fun i => s i t)) n (spts μ w shape t))
      (∑ q ∈ range (dim * m), volMesh (some (some fun i => s i 0)) n m dim (spts μ w shape 0) sRev μ.wRev q *
        μ.δ q) 0 := by
  unfold volMesh spts
  simp only [volEnergy_none, volEnergy_some, volRev]
  constructor
  · rw [scatterLoop3 (D := fun i => (0 + 1) * w i * μ.J' i) (h := fun i hi => μ.pointW i hi _)]
    refine HasDerivAt.fun_sum fun i hi => ?_
    refine ((μ.hJ i (mem_range.1 hi)).const_mul (w i)).congr_deriv ?_
    ring
  · rw [scatterLoop3 (D := fun i => 1 * (w i * μ.J i 0) * s' i + (0 + 1 * s i 0) * w i * μ.J' i)]
    · refine HasDerivAt.fun_sum fun i hi => ?_
      refine (((μ.hJ i (mem_range.1 hi)).const_mul (w i)).fun_mul (hs i (mem_range.1 hi))).congr_deriv ?_
      ring
    · intro i hi
      rw [← hRev i hi, ← μ.hwRev i hi, ← sum_add_distrib]
      refine sum_congr rfl fun k _ => ?_
      rw [← sum_add_distrib]
      refine sum_congr rfl fun j _ => ?_
      ring

/-- **C155** With a pointer to a null coefficient the value is the volume but the sensitivity is zero: moving a
vertex of the unit triangle changes its area at rate 1/2. -/
theorem C155_null_coefficient_false :
    HasDerivAt (fun t => volEnergy (some none) 1 (spts triMove.toMotion (fun _ => 1 / 2) (fun _ => (zeroV : Vec 3)) t))
      (1 / 2) 0 ∧
    ∑ q ∈ range (2 * 3), volMesh (some none) 1 3 2
      (spts triMove.toMotion (fun _ => 1 / 2) (fun _ => (zeroV : Vec 3)) 0) (fun _ _ _ _ => 0) triMove.wRev q *
        triMove.δ q = 0 := by
  have hJ' : triMove.J' 0 = 1 := by
    change isoJac 3 (triDN 0) (fun q => if q = 1 then 1 else 0) 0 0 * isoJac 3 (triDN 0) triNodes 1 1 +
      isoJac 3 (triDN 0) triNodes 0 0 * isoJac 3 (triDN 0) (fun q => if q = 1 then 1 else 0) 1 1 -
      (isoJac 3 (triDN 0) (fun q => if q = 1 then 1 else 0) 0 1 * isoJac 3 (triDN 0) triNodes 1 0 +
        isoJac 3 (triDN 0) triNodes 0 1 * isoJac 3 (triDN 0) (fun q => if q = 1 then 1 else 0) 1 0) = 1
    rw [tri_jac]
    simp [isoJac, triDN, sum_range_succ]
  constructor
  · simp only [fun t => (C155_value (n := 1) (fun _ => 0) (spts triMove.toMotion (fun _ => 1 / 2)
      (fun _ => (zeroV : Vec 3)) t)).2.1, sum_range_one]
    refine ((triMove.hJ 0 (by omega)).const_mul (1 / 2)).congr_deriv ?_
    rw [hJ']; norm_num
  · unfold volMesh spts
    simp only [volRev]
    rw [scatterLoop3 (D := fun i => 0 * (1 / 2) * triMove.J' i) (h := fun i hi => triMove.pointW i hi _)]
    simp

/-- **C155** Fill factor, reverse mode: if the density at every point is `ρ(f)` with derivative `dρ` - what the two
coefficients are - the product is `out_bar` times the derivative of the mass, and afterwards the functional
uses the density again. -/
theorem C155_fill_factor_vjp (rho : ℝ → ℕ → ℕ → ℝ) (drho : ℕ → ℕ → ℝ) (f : ℝ)
    (h : ∀ k i, HasDerivAt (fun f => rho f k i) (drho k i) f) (ptr : Dens) (els : List (ℕ × (ℕ → SPt ndof)))
    (outBar : ℝ) :
    (massVjpFill (rho f) drho ptr els outBar).1 = .rho ∧
    HasDerivAt (fun f => outBar * massIntegral (rho f) drho .rho els)
      (massVjpFill (rho f) drho ptr els outBar).2 f := by
  refine ⟨rfl, ?_⟩
  unfold massVjpFill massIntegral
  simp only
  rw [mul_comm]
  refine HasDerivAt.const_mul outBar ?_
  suffices H : ∀ k0 : ℕ, HasDerivAt
      (fun f => (els.mapIdx fun k e => volEnergy (some (some (rho f (k0 + k)))) e.1 e.2).sum)
      (els.mapIdx fun k e => volEnergy (some (some (drho (k0 + k)))) e.1 e.2).sum f by
    simpa using H 0
  induction els with
  | nil => intro k0; simpa using hasDerivAt_const f (0 : ℝ)
  | cons e els ih =>
    intro k0
    simp only [List.mapIdx_cons, List.sum_cons]
    refine HasDerivAt.fun_add ?_ ?_
    · simp only [volEnergy_some]
      exact HasDerivAt.fun_sum fun i _ => (h _ i).const_mul _
    · have := ih (k0 + 1)
      have hk : ∀ k, k0 + 1 + k = k0 + (k + 1) := fun k => by omega
      simpa only [hk] using this

/-- **C155** Fill factor, forward mode: the result is the mass times the direction, not the derivative of the mass;
for the volume, which does not depend on the fill factor, it is the volume times the direction. -/
theorem C155_fill_factor_jvp_false :
    let els : List (ℕ × (ℕ → SPt 1)) := [(1, fun _ => ⟨1, 1, zeroV⟩)]
    let rho : ℝ → ℕ → ℕ → ℝ := fun f _ _ => 2 * f + 3
    HasDerivAt (fun f => massIntegral (rho f) (fun _ _ => 2) .rho els) 2 1 ∧
    massJvpFill (rho 1) (fun _ _ => 2) .rho els 1 = 5 ∧
    volJvpFill els 1 = 1 := by
  refine ⟨?_, ?_, ?_⟩
  · have := (C155_fill_factor_vjp (fun f _ _ => 2 * f + 3) (fun _ _ => 2) 1 (fun _ _ => by
      have := ((hasDerivAt_id' (1 : ℝ)).const_mul 2).add_const 3
      simpa using this) .rho [(1, fun _ => (⟨1, 1, zeroV⟩ : SPt 1))] 1).2
    simp only [one_mul] at this
    refine this.congr_deriv ?_
    simp [massVjpFill, massIntegral, volEnergy_some]
  · norm_num [massJvpFill, massIntegral, volEnergy_some]
  · norm_num [volJvpFill, volEnergy_none]

/-! ### C156: integral and averages of the state -/

/-- **C156** The state integral is the quadrature of the state; its derivative is the assembled vector, at every state. -/
theorem C156_state_integral (pt : ℕ → SPt ndof) (u δ : Vec ndof) :
    stateEnergy n pt u = ∑ i ∈ range n, (pt i).w * (pt i).J * dotv (pt i).shape u ∧
    HasDerivAt (fun t => stateEnergy n pt fun r => u r + t * δ r) (dotv (stateVec n pt) δ) 0 := by
  have h : ∀ v, stateEnergy n pt v = ∑ i ∈ range n, (pt i).w * (pt i).J * dotv (pt i).shape v := by
    intro v
    unfold stateEnergy
    rw [forN_real, zero_add]
    exact sum_congr rfl fun _ _ => by ring
  refine ⟨h u, ?_⟩
  simp only [h]
  unfold stateVec
  rw [dotv_axpys]
  refine HasDerivAt.fun_sum fun i _ => HasDerivAt.const_mul _ ?_
  exact hasDerivAt_dot_line _ _ _

/-- **C156** Mesh sensitivity of the state integral. -/
theorem C156_mesh_sensitivity (μ : Motion n dim m) (w : ℕ → ℝ) (shape : ℕ → Vec ndof) (u : Vec ndof) :
    HasDerivAt (fun t => stateEnergy n (spts μ w shape t) u)
      (∑ q ∈ range (dim * m), stateMesh n m dim (spts μ w shape 0) μ.wRev u q * μ.δ q) 0 := by
  have hE : ∀ t, stateEnergy n (spts μ w shape t) u = ∑ i ∈ range n, w i * μ.J i t * dotv (shape i) u :=
    fun t => (C156_state_integral (spts μ w shape t) u u).1
  simp only [hE]
  unfold stateMesh spts
  rw [scatterLoop3 (D := fun i => 1 * dotv (shape i) u * w i * μ.J' i) (h := fun i hi => μ.pointW i hi _)]
  refine HasDerivAt.fun_sum fun i hi => ?_
  refine (((μ.hJ i (mem_range.1 hi)).const_mul (w i)).mul_const _).congr_deriv ?_
  ring

/-- Specification: an element as the two integrals of an average see it: the rule of the numerator and that of the
volume, with the Jacobian determinant at their points. -/
structure AvgElem where
  nA : ℕ
  wA : ℕ → ℝ
  JA : ℕ → ℝ
  nV : ℕ
  wV : ℕ → ℝ
  JV : ℕ → ℝ

/-- The volume of the element according to the rule of the numerator. -/
def AvgElem.volA (e : AvgElem) : ℝ := ∑ i ∈ range e.nA, e.wA i * e.JA i

/-- The volume of the element according to the rule of the volume integral. -/
def AvgElem.volV (e : AvgElem) : ℝ := ∑ i ∈ range e.nV, e.wV i * e.JV i

/-- `calcOutput` of the state average over several elements (common_outputs.hpp:147-154): element `e` has shape
functions `sh e i` at the points of the numerator and coefficients `u e`. -/
noncomputable def stateAverage (els : List (AvgElem × (ℕ → Vec ndof) × Vec ndof)) : ℝ :=
  ratioOut (els.map fun e => stateEnergy e.1.nA (fun i => ⟨e.1.wA i, e.1.JA i, e.2.1 i⟩) e.2.2).sum
    (els.map fun e => volEnergy none e.1.nV (fun i => (⟨e.1.wV i, e.1.JV i, zeroV⟩ : SPt ndof))).sum

/-- **C156** The state average lies between bounds of the sampled values, provided the two rules agree on the volume
of every element (the rule of order `OrderW` and that of order `2p + OrderW` both integrate the Jacobian
determinant exactly); so the average of a constant is that constant. -/
theorem C156_state_average (els : List (AvgElem × (ℕ → Vec ndof) × Vec ndof)) (hne : els ≠ [])
    (hv : ∀ e ∈ els, e.1.volA = e.1.volV) (hpos : ∀ e ∈ els, 0 < e.1.volV)
    (hw : ∀ e ∈ els, ∀ i < e.1.nA, 0 ≤ e.1.wA i * e.1.JA i) (lo hi : ℝ)
    (hb : ∀ e ∈ els, ∀ i < e.1.nA, lo ≤ dotv (e.2.1 i) e.2.2 ∧ dotv (e.2.1 i) e.2.2 ≤ hi) :
    lo ≤ stateAverage els ∧ stateAverage els ≤ hi := by
  have hV : ∀ els : List (AvgElem × (ℕ → Vec ndof) × Vec ndof),
      (els.map fun e => volEnergy none e.1.nV (fun i => (⟨e.1.wV i, e.1.JV i, zeroV⟩ : SPt ndof))).sum =
      (els.map fun e => e.1.volV).sum := fun els => by
    congr 1
    exact List.map_congr_left fun e _ => volEnergy_none _
  have key : ∀ els : List (AvgElem × (ℕ → Vec ndof) × Vec ndof), (∀ e ∈ els, e.1.volA = e.1.volV) →
      (∀ e ∈ els, ∀ i < e.1.nA, 0 ≤ e.1.wA i * e.1.JA i) →
      (∀ e ∈ els, ∀ i < e.1.nA, lo ≤ dotv (e.2.1 i) e.2.2 ∧ dotv (e.2.1 i) e.2.2 ≤ hi) →
      lo * (els.map fun e => e.1.volV).sum ≤
        (els.map fun e => stateEnergy e.1.nA (fun i => ⟨e.1.wA i, e.1.JA i, e.2.1 i⟩) e.2.2).sum ∧
      (els.map fun e => stateEnergy e.1.nA (fun i => ⟨e.1.wA i, e.1.JA i, e.2.1 i⟩) e.2.2).sum ≤
        hi * (els.map fun e => e.1.volV).sum := by
    intro els
    induction els with
    | nil => intro _ _ _; simp
    | cons e els ih =>
      intro h1 h2 h3
      have hi' := ih (fun e he => h1 e (List.mem_cons_of_mem _ he)) (fun e he => h2 e (List.mem_cons_of_mem _ he))
        (fun e he => h3 e (List.mem_cons_of_mem _ he))
      have e1 := h1 e List.mem_cons_self
      have e2 := h2 e List.mem_cons_self
      have e3 := h3 e List.mem_cons_self
      have hs := (C156_state_integral (n := e.1.nA) (fun i => ⟨e.1.wA i, e.1.JA i, e.2.1 i⟩) e.2.2 e.2.2).1
      have hlo : lo * e.1.volV ≤ stateEnergy e.1.nA (fun i => ⟨e.1.wA i, e.1.JA i, e.2.1 i⟩) e.2.2 := by
        rw [hs, ← e1, AvgElem.volA, mul_sum]
        refine sum_le_sum fun i hi => ?_
        have := mul_le_mul_of_nonneg_left (e3 i (mem_range.1 hi)).1 (e2 i (mem_range.1 hi))
        linarith
      have hhi : stateEnergy e.1.nA (fun i => ⟨e.1.wA i, e.1.JA i, e.2.1 i⟩) e.2.2 ≤ hi * e.1.volV := by
        rw [hs, ← e1, AvgElem.volA, mul_sum]
        refine sum_le_sum fun i hi => ?_
        have := mul_le_mul_of_nonneg_left (e3 i (mem_range.1 hi)).2 (e2 i (mem_range.1 hi))
        linarith
      simp only [List.map_cons, List.sum_cons, mul_add]
      exact ⟨add_le_add hlo hi'.1, add_le_add hhi hi'.2⟩
  have hp : 0 < (els.map fun e => e.1.volV).sum := by
    cases els with
    | nil => exact absurd rfl hne
    | cons e els =>
      rw [List.map_cons, List.sum_cons]
      refine add_pos_of_pos_of_nonneg (hpos e List.mem_cons_self) (List.sum_nonneg ?_)
      intro x hx
      obtain ⟨e', he', rfl⟩ := List.mem_map.1 hx
      exact (hpos e' (List.mem_cons_of_mem _ he')).le
  obtain ⟨h1, h2⟩ := key els hv hw hb
  unfold stateAverage ratioOut
  rw [hV, le_div_iff₀ hp, div_le_iff₀ hp]
  exact ⟨h1, h2⟩

/-- **C156** The rules of the two integrals of the state average both have at least the order `OrderW`, and the rule of the numerator has at
least the degree of the square of the state times the Jacobian. -/
theorem C156_state_rules (order ow : ℕ) :
    ow ≤ volRule ow ∧ ow ≤ stateRule order ow ∧ order + order + ow ≤ stateRule order ow := by
  unfold volRule stateRule; omega

/-- **C156** The average of `|B|` on one element: where `|B|` has the value `c` at every point, the average is `c`
exactly if the two rules agree on the volume of the element. -/
theorem C156_curl_average_partial (pt : ℕ → MPt ndof dim) (hJ : ∀ i < n, 0 < (pt i).J) (u : Vec ndof) (c : ℝ)
    (hc : c ≠ 0) (hB : ∀ i < n, norm2 (bfield (pt i) u) = c) (k : ℕ) (v : ℕ → SPt 0)
    (hv : 0 < ∑ i ∈ range k, (v i).w * (v i).J) :
    ratioOut (avgEnergy n pt u) (volEnergy none k v) = c ↔
      ∑ i ∈ range n, (pt i).w * (pt i).J = ∑ i ∈ range k, (v i).w * (v i).J := by
  rw [(C153_values 0 0 pt hJ u).1, volEnergy_none]
  have : quadB (fun s => s) n pt u = c * ∑ i ∈ range n, (pt i).w * (pt i).J := by
    unfold quadB
    rw [mul_sum]
    exact sum_congr rfl fun i hi => by rw [hB i (mem_range.1 hi)]; ring
  rw [this, ratioOut, div_eq_iff hv.ne', mul_right_inj' hc]

/-- The quadratic element with map `(ξ + ξ², η + η²)` over the reference triangle: Jacobian determinant. -/
def curvedJ (x y : ℝ) : ℝ := (1 + 2 * x) * (1 + 2 * y)

/-- The area of that element. -/
theorem curved_area : ∫ x in (0 : ℝ)..1, ∫ y in (0 : ℝ)..(1 - x), curvedJ x y = 4 / 3 := by
  have h : ∀ x : ℝ, ∫ y in (0 : ℝ)..(1 - x), curvedJ x y = 2 + x - 5 * x ^ 2 + 2 * x ^ 3 := by
    intro x
    have e : (fun y => curvedJ x y) = fun y => (1 + 2 * x) * (1 + 2 * y) := rfl
    rw [e, intervalIntegral.integral_const_mul, intervalIntegral.integral_add (by simp) (Continuous.intervalIntegrable (by fun_prop) _ _),
      intervalIntegral.integral_const_mul, integral_id]
    simp only [intervalIntegral.integral_const, smul_eq_mul]
    ring
  simp only [h]
  have hi : ∀ f : ℝ → ℝ, Continuous f → IntervalIntegrable f MeasureTheory.volume 0 1 :=
    fun f hf => hf.intervalIntegrable _ _
  rw [intervalIntegral.integral_add (hi _ (by fun_prop)) (hi _ (by fun_prop)),
    intervalIntegral.integral_sub (hi _ (by fun_prop)) (hi _ (by fun_prop)),
    intervalIntegral.integral_add (hi _ (by fun_prop)) (hi _ (by fun_prop)),
    intervalIntegral.integral_const_mul, intervalIntegral.integral_const_mul, integral_id, integral_pow, integral_pow]
  simp only [intervalIntegral.integral_const, smul_eq_mul]
  norm_num

/-- **C156** On curved elements the average of `|B|` is wrong even where `|B|` is constant: a linear state on a
quadratic element uses the one-point rule for the numerator (order `2p - 2 = 0`), which overestimates the area by
1/24 - whatever rule computes the area `4/3` exactly for the denominator (order `OrderW = 2`). -/
theorem C156_curl_average_false :
    magRule .Pk 1 = 0 ∧ volRule 2 = 2 ∧
    ∃ p : MPt 3 2, p.w = 1 / 2 ∧ p.J = curvedJ (1 / 3) (1 / 3) ∧
      ∀ u, ∀ k (v : ℕ → SPt 0),
        ∑ i ∈ range k, (v i).w * (v i).J = ∫ x in (0 : ℝ)..1, ∫ y in (0 : ℝ)..(1 - x), curvedJ x y →
        ratioOut (avgEnergy 1 (fun _ => p) u) (volEnergy none k v) = 25 / 24 * norm2 (bfield p u) := by
  refine ⟨rfl, rfl, ⟨1 / 2, triCs 0, fun a b => if a = b then 5 / 3 else 0, fun a b => if a = b then 5 / 3 else 0,
    curvedJ (1 / 3) (1 / 3)⟩, rfl, rfl, ?_⟩
  intro u k v hv
  rw [(C153_values (n := 1) 0 0 _ (fun i _ => by norm_num [curvedJ]) u).1, volEnergy_none, hv, curved_area, quadB,
    sum_range_one, ratioOut]
  simp only
  have : curvedJ (1 / 3) (1 / 3) = 25 / 9 := by norm_num [curvedJ]
  rw [this]
  ring

/-- Non-vacuity for `C156_state_average`: the reference triangle with the one-point rule for both integrals. -/
example : let e : AvgElem := ⟨1, fun _ => 1 / 2, fun _ => 1, 1, fun _ => 1 / 2, fun _ => 1⟩
    e.volA = e.volV ∧ 0 < e.volV ∧
      stateAverage [(e, fun _ => (![1 / 3, 1 / 3, 1 / 3] : Vec 3), ![1, 2, 6])] = 3 := by
  refine ⟨rfl, by norm_num [AvgElem.volV], ?_⟩
  norm_num [stateAverage, ratioOut, stateEnergy, volEnergy, forN, dotv, Fin.sum_univ_three, Matrix.cons_val_two]

/-! ### C157: normal heat flux -/

/-- Specification: the gradient of the temperature in physical space at a face point. -/
noncomputable def bgrad (p : BPt ndof dim) (u : Vec ndof) : Vec dim := fun k =>
  (∑ l, p.adj l k * ∑ r, p.dshape r l * u r) / p.J

/-- **C157** The functional is the quadrature of `-κ ∇T·n` over the boundary (`n` has the length of the area element). -/
theorem C157_value (pt : ℕ → BPt ndof dim) (u : Vec ndof) :
    fluxEnergy n pt u = -∑ i ∈ range n, (pt i).w * ((pt i).kappa * dotv (bgrad (pt i) u) (pt i).nor) := by
  unfold fluxEnergy
  rw [forN_real, zero_add, ← sum_neg_distrib]
  refine sum_congr rfl fun i _ => ?_
  set p := pt i
  have e : dotv p.dn u = p.J⁻¹⁻¹ * dotv (bgrad p u) p.nor ∨ p.J = 0 := by
    by_cases h : p.J = 0
    · exact Or.inr h
    left
    rw [inv_inv, ← dotv_smul_left]
    have : (fun k => p.J * bgrad p u k) = mulTV p.adj (mulTV p.dshape u) := by
      funext k
      unfold bgrad mulTV
      field_simp
    rw [this, BPt.dn, dotv_comm, dotv_mulV, dotv_mulV]
  rcases e with e | h
  · rw [e]
    by_cases h : p.J = 0
    · simp [h, bgrad, dotv]
    · field_simp
  · simp [h, bgrad, dotv]

/-- **C157** It is linear in the temperature, the assembled vector is its derivative, and a uniform temperature
(nodal basis) gives no flux. -/
theorem C157_gradient (pt : ℕ → BPt ndof dim) (u δ : Vec ndof) (c : ℝ)
    (h1 : ∀ i < n, ∀ l, ∑ r, (pt i).dshape r l = 0) :
    fluxEnergy n pt u = dotv (fluxVec n pt) u ∧
    HasDerivAt (fun t => fluxEnergy n pt fun r => u r + t * δ r) (dotv (fluxVec n pt) δ) 0 ∧
    fluxEnergy n pt (fun _ => c) = 0 := by
  have h : ∀ v, fluxEnergy n pt v = dotv (fluxVec n pt) v := by
    intro v
    unfold fluxEnergy fluxVec
    rw [forN_real, zero_add, dotv_axpys]
    exact sum_congr rfl fun _ _ => by ring
  refine ⟨h u, ?_, ?_⟩
  · simp only [h]
    exact hasDerivAt_dot_line _ _ _
  · rw [C157_value, neg_eq_zero]
    refine sum_eq_zero fun i hi => ?_
    have : ∀ k, bgrad (pt i) (fun _ => c) k = 0 := by
      intro k
      unfold bgrad
      rw [sum_eq_zero fun l _ => by rw [← sum_mul, h1 i (mem_range.1 hi) l, zero_mul, mul_zero], zero_div]
    have : bgrad (pt i) (fun _ => c) = zeroV := funext this
    rw [this]
    simp [dotv, zeroV]

/-- **C157** The rule has at least the degree of the gradient (`order - 1`) times a conductivity of degree one times the Jacobian (`OrderW`). -/
theorem C157_rule (order ow : ℕ) : (order - 1) + 1 + ow ≤ fluxRule order ow ∨ order = 0 := by
  unfold fluxRule; omega

/-- Non-vacuity for C157: on the bottom edge of the unit triangle with `T = y` and `κ = 2` the heat flux through it
is 2 (heat flows towards the cold bottom edge). -/
example : let p : BPt 3 2 := ⟨1, 1, fun a b => if a = b then 1 else 0, ![0, -1], triCs 0, 2⟩
    (∀ l, ∑ r, p.dshape r l = 0) ∧ fluxEnergy 1 (fun _ => p) ![0, 0, 1] = 2 := by
  constructor
  · intro l
    fin_cases l <;> simp [triCs, Fin.sum_univ_three]
  · simp [fluxEnergy, forN, BPt.dn, dotv, mulV, triCs, Fin.sum_univ_three, Fin.sum_univ_two]

end Verif.CommonInteg
