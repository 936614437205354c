import Verif.Quotient
import Mathlib.Analysis.Calculus.Deriv.Mul
import Mathlib.Analysis.Calculus.Deriv.Inv
import Mathlib.Analysis.Calculus.Deriv.Add
import Mathlib.Tactic.FieldSimp
import Mathlib.Tactic.Ring
import Mathlib.Tactic.Linarith
import Mathlib.Tactic.Positivity

/-!
# Ratio functionals: property theorems (C29, C70)

`DirDeriv f u v d` : `d` is the derivative of `f` at `u` in direction `v`.
-/

namespace Verif.Quotient

variable {n : ℕ}

/-- Specification: directional derivative. -/
def DirDeriv (f : (Fin n → ℝ) → ℝ) (u v : Fin n → ℝ) (d : ℝ) : Prop :=
  HasDerivAt (fun t : ℝ => f (u + t • v)) d 0

/-- A functional whose two derivative modes are correct at `u`. -/
def Func.Correct (f : Func n) (u : Fin n → ℝ) : Prop :=
  (∀ v, DirDeriv f.val u v (f.jvp u v)) ∧ (∀ v, f.jvp u v = ∑ i, f.grad u i * v i)

/-- **C29** If numerator and denominator differentiate correctly and the denominator is not zero, the
Jacobian-vector product of the ratio is the directional derivative of the ratio. -/
theorem C29_jvp_is_derivative (N D : Func n) (u v : Fin n → ℝ) (hN : N.Correct u) (hD : D.Correct u)
    (h0 : D.val u ≠ 0) : DirDeriv (ratio N D) u v (ratioJVP N D u v) := by
  have h := (hN.1 v).div (hD.1 v) (by simpa using h0)
  simp only [zero_smul, add_zero] at h
  unfold DirDeriv ratio ratioJVP
  refine h.congr_deriv ?_
  ring

/-- **C29** The vector-Jacobian product adds to the given vector exactly `out_bar` times the transpose of the Jacobian-vector
product: forward and reverse mode agree for every direction, seed and prior content. -/
theorem C29_vjp_adjoint (N D : Func n) (u v wrtBar : Fin n → ℝ) (outBar : ℝ) (hN : N.Correct u)
    (hD : D.Correct u) (h0 : D.val u ≠ 0) :
    ∑ i, ratioVJP N D u outBar wrtBar i * v i = (∑ i, wrtBar i * v i) + outBar * ratioJVP N D u v := by
  have e : ∀ i, ratioVJP N D u outBar wrtBar i * v i =
      wrtBar i * v i + (outBar / D.val u * (N.grad u i * v i) - outBar * N.val u / D.val u ^ 2 * (D.grad u i * v i)) := by
    intro i
    simp only [ratioVJP, Func.vjp, Pi.zero_apply]
    field_simp
    ring
  rw [Finset.sum_congr rfl (fun i _ => e i), Finset.sum_add_distrib, Finset.sum_sub_distrib,
    ← Finset.mul_sum, ← Finset.mul_sum, ← hN.2 v, ← hD.2 v, ratioJVP]
  field_simp

/-! ### C70 induced exponential aggregation -/

private theorem dot_dir (a u v : Fin n → ℝ) (t : ℝ) : dot a (u + t • v) = dot a u + t * dot a v := by
  simp only [dot, Pi.add_apply, Pi.smul_apply, smul_eq_mul, mul_add, Finset.sum_add_distrib, Finset.mul_sum]
  congr 1
  apply Finset.sum_congr rfl
  intro i _; ring

private theorem g_deriv (a u v : Fin n → ℝ) : HasDerivAt (fun t : ℝ => dot a (u + t • v)) (dot a v) 0 := by
  have : (fun t : ℝ => dot a (u + t • v)) = fun t => dot a u + t * dot a v := by
    funext t; exact dot_dir a u v t
  rw [this]
  simpa using ((hasDerivAt_id (0 : ℝ)).mul_const (dot a v)).const_add (dot a u)

private theorem exp_deriv (rho m : ℝ) (a u v : Fin n → ℝ) :
    HasDerivAt (fun t : ℝ => Real.exp (rho * (dot a (u + t • v) - m)))
      (Real.exp (rho * (dot a u - m)) * (rho * dot a v)) 0 := by
  have h := (((g_deriv a u v).sub_const m).const_mul rho).exp
  simpa using h

/-- **C70** The hand-written gradient of the numerator integrand is the exact derivative of the numerator, for every quadrature rule, state and direction. -/
theorem C70_numerator_gradient (rho m : ℝ) (ps : List (Pt n)) (u v : Fin n → ℝ) :
    DirDeriv (ieNum rho m ps) u v (∑ i, ieNumBar rho m ps u i * v i) := by
  induction ps with
  | nil => simpa [DirDeriv, ieNum, ieNumBar] using hasDerivAt_const (0 : ℝ) (0 : ℝ)
  | cons p ps ih =>
    have h := (((g_deriv p.shape u v).mul (exp_deriv rho m p.shape u v)).mul_const p.w).add ih
    unfold DirDeriv at *
    refine HasDerivAt.congr_deriv (f := fun t : ℝ => ieNum rho m (p :: ps) (u + t • v)) h ?_
    simp only [ieNumBar, zero_smul, add_zero, add_mul, Finset.sum_add_distrib, dot, Finset.mul_sum,
      Finset.sum_mul]
    congr 1
    rw [← Finset.sum_add_distrib, ← Finset.sum_add_distrib]
    apply Finset.sum_congr rfl
    intro i _
    simp only [← Finset.sum_mul]
    ring_nf

/-- **C70** Likewise for the denominator. -/
theorem C70_denominator_gradient (rho m : ℝ) (ps : List (Pt n)) (u v : Fin n → ℝ) :
    DirDeriv (ieDen rho m ps) u v (∑ i, ieDenBar rho m ps u i * v i) := by
  induction ps with
  | nil => simpa [DirDeriv, ieDen, ieDenBar] using hasDerivAt_const (0 : ℝ) (0 : ℝ)
  | cons p ps ih =>
    have h := ((exp_deriv rho m p.shape u v).mul_const p.w).add ih
    unfold DirDeriv at *
    refine HasDerivAt.congr_deriv (f := fun t : ℝ => ieDen rho m (p :: ps) (u + t • v)) h ?_
    simp only [ieDenBar, add_mul, Finset.sum_add_distrib]
    congr 1
    simp only [dot, Finset.mul_sum, Finset.sum_mul]
    apply Finset.sum_congr rfl
    intro i _
    ring

private theorem ieNum_shift (rho m m' : ℝ) (ps : List (Pt n)) (u : Fin n → ℝ) :
    ieNum rho m' ps u = Real.exp (rho * (m - m')) * ieNum rho m ps u := by
  induction ps with
  | nil => simp [ieNum]
  | cons p ps ih =>
    simp only [ieNum, ih, mul_add]
    rw [show rho * (dot p.shape u - m') = rho * (m - m') + rho * (dot p.shape u - m) by ring, Real.exp_add]
    ring

private theorem ieDen_shift (rho m m' : ℝ) (ps : List (Pt n)) (u : Fin n → ℝ) :
    ieDen rho m' ps u = Real.exp (rho * (m - m')) * ieDen rho m ps u := by
  induction ps with
  | nil => simp [ieDen]
  | cons p ps ih =>
    simp only [ieDen, ih, mul_add]
    rw [show rho * (dot p.shape u - m') = rho * (m - m') + rho * (dot p.shape u - m) by ring, Real.exp_add]
    ring

/-- **C70** The aggregate does not depend on the shift `true_max` as long as the same shift is used everywhere. -/
theorem C70_shift_invariant (rho m m' : ℝ) (ps : List (Pt n)) (u : Fin n → ℝ) :
    ieNum rho m' ps u / ieDen rho m' ps u = ieNum rho m ps u / ieDen rho m ps u := by
  rw [ieNum_shift rho m m', ieDen_shift rho m m', mul_div_mul_left _ _ (Real.exp_pos _).ne']

/-- **C70** With positive weights the aggregate lies between the smallest and the largest sampled value. -/
theorem C70_between_min_and_max (rho m lo hi : ℝ) (ps : List (Pt n)) (u : Fin n → ℝ) (hne : ps ≠ [])
    (hw : ∀ p ∈ ps, 0 < p.w) (hlo : ∀ p ∈ ps, lo ≤ dot p.shape u) (hhi : ∀ p ∈ ps, dot p.shape u ≤ hi) :
    lo ≤ ieNum rho m ps u / ieDen rho m ps u ∧ ieNum rho m ps u / ieDen rho m ps u ≤ hi := by
  have key : ∀ ps : List (Pt n), (∀ p ∈ ps, 0 < p.w) → (∀ p ∈ ps, lo ≤ dot p.shape u) →
      (∀ p ∈ ps, dot p.shape u ≤ hi) →
      lo * ieDen rho m ps u ≤ ieNum rho m ps u ∧ ieNum rho m ps u ≤ hi * ieDen rho m ps u ∧
      0 ≤ ieDen rho m ps u := by
    intro ps
    induction ps with
    | nil => intro _ _ _; simp [ieNum, ieDen]
    | cons p ps ih =>
      intro hw hlo hhi
      obtain ⟨h1, h2, h3⟩ := ih (fun q hq => hw q (by simp [hq])) (fun q hq => hlo q (by simp [hq]))
        (fun q hq => hhi q (by simp [hq]))
      have e := mul_pos (Real.exp_pos (rho * (dot p.shape u - m))) (hw p (by simp))
      have a := hlo p (by simp)
      have b := hhi p (by simp)
      simp only [ieNum, ieDen, mul_add]
      refine ⟨?_, ?_, by positivity⟩
      · nlinarith
      · nlinarith
  have hpos : 0 < ieDen rho m ps u := by
    cases ps with
    | nil => exact absurd rfl hne
    | cons p ps =>
      have h3 := (key ps (fun q hq => hw q (by simp [hq])) (fun q hq => hlo q (by simp [hq]))
        (fun q hq => hhi q (by simp [hq]))).2.2
      have e := mul_pos (Real.exp_pos (rho * (dot p.shape u - m))) (hw p (by simp))
      simp only [ieDen]
      linarith
  obtain ⟨h1, h2, -⟩ := key ps hw hlo hhi
  exact ⟨(le_div_iff₀ hpos).mpr h1, (div_le_iff₀ hpos).mpr h2⟩

theorem ieNum_append (rho m : ℝ) (a b : List (Pt n)) (u : Fin n → ℝ) :
    ieNum rho m (a ++ b) u = ieNum rho m a u + ieNum rho m b u := by
  induction a with
  | nil => simp [ieNum]
  | cons p a ih => simp only [List.cons_append, ieNum, ih]; ring

theorem ieDen_append (rho m : ℝ) (a b : List (Pt n)) (u : Fin n → ℝ) :
    ieDen rho m (a ++ b) u = ieDen rho m a u + ieDen rho m b u := by
  induction a with
  | nil => simp [ieDen]
  | cons p a ih => simp only [List.cons_append, ieDen, ih]; ring

/-- **C70 (part)** If all ranks happen to use the same shift, the parallel result equals the serial one for every partition. -/
theorem C70_partition_independent_partial (rho m : ℝ) (parts : List (List (Pt n))) (u : Fin n → ℝ) :
    ieParallel rho (parts.map fun p => (m, p)) u = ieNum rho m parts.flatten u / ieDen rho m parts.flatten u := by
  have hn : ∀ parts : List (List (Pt n)),
      ((parts.map fun p => (m, p)).map fun r => ieNum rho r.1 r.2 u).sum = ieNum rho m parts.flatten u := by
    intro parts
    induction parts with
    | nil => simp [ieNum]
    | cons p ps ih => simp only [List.map_cons, List.sum_cons, List.flatten_cons, ieNum_append, ih]
  have hd : ∀ parts : List (List (Pt n)),
      ((parts.map fun p => (m, p)).map fun r => ieDen rho r.1 r.2 u).sum = ieDen rho m parts.flatten u := by
    intro parts
    induction parts with
    | nil => simp [ieDen]
    | cons p ps ih => simp only [List.map_cons, List.sum_cons, List.flatten_cons, ieDen_append, ih]
  unfold ieParallel
  rw [hn, hd]

/-- **C70 (violated in parallel)** Each rank shifts by the maximum of its own entries, so the aggregate depends on how the mesh is
partitioned: two points with values 0 and 1 give 1/2 on two ranks but 1/(1+e⁻¹) on one. -/
theorem C70_false_partition :
    let p0 : Pt 2 := ⟨1, ![1, 0]⟩
    let p1 : Pt 2 := ⟨1, ![0, 1]⟩
    let u : Fin 2 → ℝ := ![0, 1]
    ieParallel 1 [(0, [p0]), (1, [p1])] u = 1 / 2 ∧
    ieParallel 1 [(1, [p0, p1])] u = 1 / (1 + Real.exp (-1)) ∧
    ieParallel 1 [(0, [p0]), (1, [p1])] u ≠ ieParallel 1 [(1, [p0, p1])] u := by
  have h1 : ieParallel 1 [(0, [(⟨1, ![1, 0]⟩ : Pt 2)]), (1, [⟨1, ![0, 1]⟩])] ![0, 1] = 1 / 2 := by
    simp [ieParallel, ieNum, ieDen, dot, Fin.sum_univ_two]; norm_num
  have h2 : ieParallel 1 [(1, [(⟨1, ![1, 0]⟩ : Pt 2), ⟨1, ![0, 1]⟩])] ![0, 1] = 1 / (1 + Real.exp (-1)) := by
    simp [ieParallel, ieNum, ieDen, dot, Fin.sum_univ_two, add_comm]
  refine ⟨h1, h2, ?_⟩
  rw [h1, h2]
  intro h
  have h3 : Real.exp (-1) < 1 := by rw [Real.exp_lt_one_iff]; norm_num
  have h4 := Real.exp_pos (-1)
  rw [div_eq_div_iff (by norm_num) (by positivity)] at h
  linarith

/-- The hypotheses of C29 are met by the aggregation functionals themselves. -/
example (rho m : ℝ) (ps : List (Pt n)) (u v : Fin n → ℝ) (h0 : ieDen rho m ps u ≠ 0) :
    let N : Func n := ⟨ieNum rho m ps, fun u v => ∑ i, ieNumBar rho m ps u i * v i, ieNumBar rho m ps⟩
    let D : Func n := ⟨ieDen rho m ps, fun u v => ∑ i, ieDenBar rho m ps u i * v i, ieDenBar rho m ps⟩
    N.Correct u ∧ D.Correct u ∧ DirDeriv (ratio N D) u v (ratioJVP N D u v) := by
  intro N D
  have hN : N.Correct u := ⟨fun v => C70_numerator_gradient rho m ps u v, fun _ => rfl⟩
  have hD : D.Correct u := ⟨fun v => C70_denominator_gradient rho m ps u v, fun _ => rfl⟩
  exact ⟨hN, hD, C29_jvp_is_derivative N D u v hN hD h0⟩

end Verif.Quotient
