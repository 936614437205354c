import Verif.ThermalFaces
import Verif.DGDiffusionSensProps
import Verif.LossesIntegProps
import Mathlib.Tactic.IntervalCases

/-!
Properties C150-C152: heat exchange through interfaces and boundaries of the thermal problem, its Jacobians and
sensitivities.
-/

namespace Verif.ThermalFaces
open Finset Verif.Sbp Verif.Dense Verif.Diffusion Verif.DGDiffusion Verif.Losses

set_option linter.unusedSectionVars false

variable {n1 n2 nd dim m mf : ℕ}

/-! ### Specification -/

/-- Value at a point of the field with coefficients `u`. -/
def field {d : ℕ} (s u : Vec d) : ℝ := ∑ r, u r * s r

/-- The quadrature of a function of the points of an interface, with the measure of the face. -/
def FRule.integral (r : FRule n1 n2) (g : FQ n1 n2 → ℝ) : ℝ := ∑ i ∈ range r.n, (r.pt i).w * (r.pt i).J * g (r.pt i)

/-- The quadrature of a function of the points of a boundary face. -/
def BRule.integral (r : BRule nd) (g : BQ nd → ℝ) : ℝ := ∑ i ∈ range r.n, (r.pt i).w * (r.pt i).J * g (r.pt i)

/-- Weights and measure are positive. -/
def FRule.Pos (r : FRule n1 n2) : Prop := ∀ i < r.n, 0 < (r.pt i).w * (r.pt i).J

/-- Weights and measure are positive. -/
def BRule.Pos (r : BRule nd) : Prop := ∀ i < r.n, 0 < (r.pt i).w * (r.pt i).J

/-- The shape functions of both sides sum to one. -/
def FRule.Unity (r : FRule n1 n2) : Prop := ∀ i < r.n, ∑ a, (r.pt i).s1 a = 1 ∧ ∑ a, (r.pt i).s2 a = 1

/-- A `(n1 + n2)`-square matrix applied to the pair `(x, y)`: part of element 1. -/
def act1 (G : ℕ → ℕ → ℝ) (x : Vec n1) (y : Vec n2) (j : Fin n1) : ℝ :=
  ∑ k : Fin n1, G j k * x k + ∑ k : Fin n2, G j (n1 + k) * y k

/-- A `(n1 + n2)`-square matrix applied to the pair `(x, y)`: part of element 2. -/
def act2 (G : ℕ → ℕ → ℝ) (x : Vec n1) (y : Vec n2) (j : Fin n2) : ℝ :=
  ∑ k : Fin n1, G (n1 + j) k * x k + ∑ k : Fin n2, G (n1 + j) (n1 + k) * y k

/-- Motion of the nodes of a face with direction `δ`, its effect on the measure at the points of the rule of every order,
and the contract of MFEM's `WeightRevDiff`. -/
structure WMotion (dim mf : ℕ) where
  δ : ℕ → ℝ
  J : ℕ → ℕ → ℝ → ℝ
  J' : ℕ → ℕ → ℝ
  hJ : ∀ o i, HasDerivAt (J o i) (J' o i) 0
  rev : ℕ → ℕ → ℝ → ℕ → ℕ → ℝ
  hrev : ∀ o i x, ∑ k ∈ range dim, ∑ j ∈ range mf, rev o i x k j * δ (k * mf + j) = x * J' o i

/-- The rules on the interface after motion by `t`. -/
def WMotion.frules (W : WMotion dim mf) (R : ℕ → FRule n1 n2) (t : ℝ) (o : ℕ) : FRule n1 n2 :=
  ⟨(R o).n, fun i => ⟨((R o).pt i).w, W.J o i t, ((R o).pt i).s1, ((R o).pt i).s2⟩⟩

/-- The rules on the boundary face after motion by `t`. -/
def WMotion.brules (W : WMotion dim mf) (R : ℕ → BRule nd) (t : ℝ) (o : ℕ) : BRule nd :=
  ⟨(R o).n, fun i => ⟨((R o).pt i).w, W.J o i t, ((R o).pt i).shape⟩⟩

/-! ### Lemmas -/

theorem dot_field {d : ℕ} (u s : Vec d) : dotv u s = field s u := rfl

theorem field_lin {d : ℕ} (s u δ : Vec d) (t : ℝ) :
    field s (fun r => u r + t * δ r) = field s u + t * field s δ := by
  unfold field
  rw [mul_sum, ← sum_add_distrib]
  exact sum_congr rfl fun r _ => by ring

theorem field_one {d : ℕ} (s : Vec d) (h : ∑ a, s a = 1) (c : ℝ) : field s (fun _ => c) = c := by
  unfold field; rw [← mul_sum, h, mul_one]

theorem contactVec_apply (alpha h : ℝ) (R : ℕ → FRule n1 n2) (p1 p2 ow : ℕ) (u1 : Vec n1) (u2 : Vec n2) :
    (∀ r, (contactVec alpha h R p1 p2 ow u1 u2).1 r = ∑ i ∈ range (R (plainOrder p1 p2)).n,
      alpha * ((R (plainOrder p1 p2)).pt i).w * ((R (plainOrder p1 p2)).pt i).J *
        (h * (field ((R (plainOrder p1 p2)).pt i).s1 u1 - field ((R (plainOrder p1 p2)).pt i).s2 u2)) *
        ((R (plainOrder p1 p2)).pt i).s1 r) ∧
    ∀ r, (contactVec alpha h R p1 p2 ow u1 u2).2 r = ∑ i ∈ range (R (plainOrder p1 p2)).n,
      -(alpha * ((R (plainOrder p1 p2)).pt i).w * ((R (plainOrder p1 p2)).pt i).J *
        (h * (field ((R (plainOrder p1 p2)).pt i).s1 u1 - field ((R (plainOrder p1 p2)).pt i).s2 u2))) *
        ((R (plainOrder p1 p2)).pt i).s2 r := by
  have hh := forN_pair (R (plainOrder p1 p2)).n
    (fun i => contactBody alpha h ((R (plainOrder p1 p2)).pt i) u1 u2)
    (fun i r => alpha * ((R (plainOrder p1 p2)).pt i).w * ((R (plainOrder p1 p2)).pt i).J *
        (h * (field ((R (plainOrder p1 p2)).pt i).s1 u1 - field ((R (plainOrder p1 p2)).pt i).s2 u2)) *
        ((R (plainOrder p1 p2)).pt i).s1 r)
    (fun i r => -(alpha * ((R (plainOrder p1 p2)).pt i).w * ((R (plainOrder p1 p2)).pt i).J *
        (h * (field ((R (plainOrder p1 p2)).pt i).s1 u1 - field ((R (plainOrder p1 p2)).pt i).s2 u2))) *
        ((R (plainOrder p1 p2)).pt i).s2 r) (fun i v => by
      constructor
      all_goals
        intro r
        simp only [contactBody, axpy, dot_field]
        try ring) (zeroV, zeroV)
  constructor
  · intro r; refine (hh.1 r).trans ?_; simp [zeroV]
  · intro r; refine (hh.2 r).trans ?_; simp [zeroV]

theorem convVec_apply (alpha h th : ℝ) (R : ℕ → FRule n1 n2) (p1 p2 ow : ℕ) (u1 : Vec n1) (u2 : Vec n2) :
    (∀ r, (convVec alpha h th R p1 p2 ow u1 u2).1 r = ∑ i ∈ range (R (curvedOrder p1 p2 ow)).n,
      alpha * ((R (curvedOrder p1 p2 ow)).pt i).w * ((R (curvedOrder p1 p2 ow)).pt i).J *
        (h * (field ((R (curvedOrder p1 p2 ow)).pt i).s1 u1 - th)) * ((R (curvedOrder p1 p2 ow)).pt i).s1 r) ∧
    ∀ r, (convVec alpha h th R p1 p2 ow u1 u2).2 r = ∑ i ∈ range (R (curvedOrder p1 p2 ow)).n,
      alpha * ((R (curvedOrder p1 p2 ow)).pt i).w * ((R (curvedOrder p1 p2 ow)).pt i).J *
        (h * (field ((R (curvedOrder p1 p2 ow)).pt i).s2 u2 - th)) * ((R (curvedOrder p1 p2 ow)).pt i).s2 r := by
  have hh := forN_pair (R (curvedOrder p1 p2 ow)).n
    (fun i v =>
      let q := (R (curvedOrder p1 p2 ow)).pt i
      let w := alpha * q.w * q.J
      let temp1 := dotv u1 q.s1
      let temp2 := dotv u2 q.s2
      let val1 := h * (temp1 - th)
      let val2 := h * (temp2 - th)
      (axpy (w * val1) q.s1 v.1, axpy (w * val2) q.s2 v.2))
    (fun i r => alpha * ((R (curvedOrder p1 p2 ow)).pt i).w * ((R (curvedOrder p1 p2 ow)).pt i).J *
        (h * (field ((R (curvedOrder p1 p2 ow)).pt i).s1 u1 - th)) * ((R (curvedOrder p1 p2 ow)).pt i).s1 r)
    (fun i r => alpha * ((R (curvedOrder p1 p2 ow)).pt i).w * ((R (curvedOrder p1 p2 ow)).pt i).J *
        (h * (field ((R (curvedOrder p1 p2 ow)).pt i).s2 u2 - th)) * ((R (curvedOrder p1 p2 ow)).pt i).s2 r)
    (fun i v => by
      constructor
      all_goals
        intro r
        simp only [axpy, dot_field]) (zeroV, zeroV)
  constructor
  · intro r; refine (hh.1 r).trans ?_; simp [zeroV]
  · intro r; refine (hh.2 r).trans ?_; simp [zeroV]

theorem bcVec_apply (alpha h th : ℝ) (R : ℕ → BRule nd) (p ow : ℕ) (u : Vec nd) (r : Fin nd) :
    bcVec alpha h th R p ow u r = ∑ i ∈ range (R (bcOrder p ow)).n,
      alpha * ((R (bcOrder p ow)).pt i).w * ((R (bcOrder p ow)).pt i).J *
        (h * (field ((R (bcOrder p ow)).pt i).shape u - th)) * ((R (bcOrder p ow)).pt i).shape r := by
  refine (forN_vec _ _ (fun i r => alpha * ((R (bcOrder p ow)).pt i).w * ((R (bcOrder p ow)).pt i).J *
        (h * (field ((R (bcOrder p ow)).pt i).shape u - th)) * ((R (bcOrder p ow)).pt i).shape r)
        (fun i v r => ?_) zeroV r).trans ?_
  · simp only [axpy, dot_field]
  · simp [zeroV]

theorem outVec_apply (alpha fl : ℝ) (R : ℕ → BRule nd) (p ow : ℕ) (u : Vec nd) (r : Fin nd) :
    outVec alpha fl R p ow u r = ∑ i ∈ range (R (bcOrder p ow)).n,
      alpha * ((R (bcOrder p ow)).pt i).w * ((R (bcOrder p ow)).pt i).J * fl * ((R (bcOrder p ow)).pt i).shape r := by
  refine (forN_vec _ _ (fun i r => alpha * ((R (bcOrder p ow)).pt i).w * ((R (bcOrder p ow)).pt i).J * fl *
        ((R (bcOrder p ow)).pt i).shape r) (fun i v r => ?_) zeroV r).trans ?_
  · simp only [axpy]
  · simp [zeroV]

theorem sum_field {d : ℕ} (N : ℕ) (c : ℕ → ℝ) (s : ℕ → Vec d) (psi v : Vec d)
    (h : ∀ r, v r = ∑ i ∈ range N, c i * s i r) : dotv psi v = ∑ i ∈ range N, c i * field (s i) psi := by
  have : v = fun r => ∑ i ∈ range N, c i * s i r := funext h
  rw [this, dotv_sum_right (range N) psi (fun i r => c i * s i r)]
  refine sum_congr rfl fun i _ => ?_
  unfold dotv field
  rw [mul_sum]
  exact sum_congr rfl fun r _ => by ring

/-! ### C150: what the terms are -/

/-- **Contact resistance.**  Tested with `(ψ₁, ψ₂)` the residual is `α ∫ h (T₁ - T₂)(ψ₁ - ψ₂)`. -/
theorem C150_contact_weak_form (alpha h : ℝ) (R : ℕ → FRule n1 n2) (p1 p2 ow : ℕ) (u1 psi1 : Vec n1)
    (u2 psi2 : Vec n2) :
    dotv psi1 (contactVec alpha h R p1 p2 ow u1 u2).1 + dotv psi2 (contactVec alpha h R p1 p2 ow u1 u2).2 =
      alpha * (R (2 * max p1 p2)).integral fun q =>
        h * (field q.s1 u1 - field q.s2 u2) * (field q.s1 psi1 - field q.s2 psi2) := by
  have ha := contactVec_apply alpha h R p1 p2 ow u1 u2
  rw [sum_field _ _ _ psi1 _ ha.1, sum_field _ _ _ psi2 _ ha.2, ← sum_add_distrib]
  unfold FRule.integral
  rw [mul_sum]
  exact sum_congr rfl fun i _ => by unfold plainOrder; ring

/-- **Heat is conserved across a contact**: what leaves one side enters the other. -/
theorem C150_contact_conservative (alpha h : ℝ) (R : ℕ → FRule n1 n2) (p1 p2 ow : ℕ)
    (hR : (R (2 * max p1 p2)).Unity) (u1 : Vec n1) (u2 : Vec n2) :
    ∑ r, (contactVec alpha h R p1 p2 ow u1 u2).1 r =
        alpha * (R (2 * max p1 p2)).integral (fun q => h * (field q.s1 u1 - field q.s2 u2)) ∧
      ∑ r, (contactVec alpha h R p1 p2 ow u1 u2).1 r + ∑ r, (contactVec alpha h R p1 p2 ow u1 u2).2 r = 0 := by
  have ha := contactVec_apply alpha h R p1 p2 ow u1 u2
  have e : ∀ {d : ℕ} (v : Vec d), ∑ r, v r = dotv (fun _ => 1) v := fun v => by simp [dotv]
  have h1 : ∑ r, (contactVec alpha h R p1 p2 ow u1 u2).1 r =
      alpha * (R (2 * max p1 p2)).integral (fun q => h * (field q.s1 u1 - field q.s2 u2)) := by
    rw [e, sum_field _ _ _ _ _ ha.1]
    unfold FRule.integral
    rw [mul_sum]
    refine sum_congr rfl fun i hi => ?_
    beta_reduce
    unfold plainOrder
    rw [field_one _ (hR i (mem_range.1 hi)).1]
    ring
  refine ⟨h1, ?_⟩
  rw [e, e, C150_contact_weak_form]
  unfold FRule.integral
  rw [mul_eq_zero]; right
  refine sum_eq_zero fun i hi => ?_
  have hu := hR i (mem_range.1 hi)
  beta_reduce
  rw [field_one _ hu.1, field_one _ hu.2]; ring

/-- **A contact dissipates**: with `α h > 0` the residual tested with the state is nonnegative, and zero exactly when the
two temperatures agree at every point, in which case nothing is exchanged. -/
theorem C150_contact_dissipates (alpha h : ℝ) (hah : 0 < alpha * h) (R : ℕ → FRule n1 n2) (p1 p2 ow : ℕ)
    (hR : (R (2 * max p1 p2)).Pos) (u1 : Vec n1) (u2 : Vec n2) :
    0 ≤ dotv u1 (contactVec alpha h R p1 p2 ow u1 u2).1 + dotv u2 (contactVec alpha h R p1 p2 ow u1 u2).2 ∧
    (dotv u1 (contactVec alpha h R p1 p2 ow u1 u2).1 + dotv u2 (contactVec alpha h R p1 p2 ow u1 u2).2 = 0 ↔
      ∀ i < (R (2 * max p1 p2)).n, field ((R (2 * max p1 p2)).pt i).s1 u1 = field ((R (2 * max p1 p2)).pt i).s2 u2) ∧
    ((∀ i < (R (2 * max p1 p2)).n, field ((R (2 * max p1 p2)).pt i).s1 u1 = field ((R (2 * max p1 p2)).pt i).s2 u2) →
      (∀ r, (contactVec alpha h R p1 p2 ow u1 u2).1 r = 0) ∧ ∀ r, (contactVec alpha h R p1 p2 ow u1 u2).2 r = 0) := by
  have e : dotv u1 (contactVec alpha h R p1 p2 ow u1 u2).1 + dotv u2 (contactVec alpha h R p1 p2 ow u1 u2).2 =
      ∑ i ∈ range (R (2 * max p1 p2)).n, alpha * h * (((R (2 * max p1 p2)).pt i).w * ((R (2 * max p1 p2)).pt i).J *
        (field ((R (2 * max p1 p2)).pt i).s1 u1 - field ((R (2 * max p1 p2)).pt i).s2 u2) ^ 2) := by
    rw [C150_contact_weak_form]
    unfold FRule.integral
    rw [mul_sum]
    exact sum_congr rfl fun i _ => by ring
  have hp : ∀ i ∈ range (R (2 * max p1 p2)).n, 0 ≤ alpha * h * (((R (2 * max p1 p2)).pt i).w *
      ((R (2 * max p1 p2)).pt i).J *
        (field ((R (2 * max p1 p2)).pt i).s1 u1 - field ((R (2 * max p1 p2)).pt i).s2 u2) ^ 2) := fun i hi =>
    mul_nonneg hah.le (mul_nonneg (hR i (mem_range.1 hi)).le (sq_nonneg _))
  refine ⟨by rw [e]; exact sum_nonneg hp, ?_, ?_⟩
  · rw [e, sum_eq_zero_iff_of_nonneg hp]
    constructor
    · intro hz i hi
      have := hz i (mem_range.2 hi)
      have h2 := (mul_eq_zero.1 ((mul_eq_zero.1 this).resolve_left hah.ne')).resolve_left (hR i hi).ne'
      linarith [pow_eq_zero_iff (n := 2) (by norm_num) |>.1 h2]
    · intro hz i hi
      rw [hz i (mem_range.1 hi)]; ring
  · intro hz
    have ha := contactVec_apply alpha h R p1 p2 ow u1 u2
    refine ⟨fun r => ?_, fun r => ?_⟩
    · rw [ha.1]
      refine sum_eq_zero fun i hi => ?_
      rw [show plainOrder p1 p2 = 2 * max p1 p2 from rfl] at *
      rw [hz i (mem_range.1 hi)]; ring
    · rw [ha.2]
      refine sum_eq_zero fun i hi => ?_
      rw [show plainOrder p1 p2 = 2 * max p1 p2 from rfl] at *
      rw [hz i (mem_range.1 hi)]; ring

/-- **Internal convection.**  Tested with `(ψ₁, ψ₂)` the residual is `α ∫ h ((T₁ - θ) ψ₁ + (T₂ - θ) ψ₂)`: the two sides do
not feel each other. -/
theorem C150_convection_weak_form (alpha h th : ℝ) (R : ℕ → FRule n1 n2) (p1 p2 ow : ℕ) (u1 psi1 : Vec n1)
    (u2 psi2 : Vec n2) :
    dotv psi1 (convVec alpha h th R p1 p2 ow u1 u2).1 = (alpha * (R (2 * max p1 p2 + ow)).integral fun q =>
        h * (field q.s1 u1 - th) * field q.s1 psi1) ∧
    dotv psi2 (convVec alpha h th R p1 p2 ow u1 u2).2 = (alpha * (R (2 * max p1 p2 + ow)).integral fun q =>
        h * (field q.s2 u2 - th) * field q.s2 psi2) := by
  have ha := convVec_apply alpha h th R p1 p2 ow u1 u2
  rw [sum_field _ _ _ psi1 _ ha.1, sum_field _ _ _ psi2 _ ha.2]
  unfold FRule.integral
  rw [mul_sum, mul_sum]
  exact ⟨sum_congr rfl fun i _ => by unfold curvedOrder; ring, sum_congr rfl fun i _ => by unfold curvedOrder; ring⟩

/-- **Internal convection cools towards the fluid.**  With `α h > 0` the residual tested with the excess over the fluid
temperature is nonnegative and vanishes exactly when both sides are at the fluid temperature on the face. -/
theorem C150_convection_dissipates (alpha h th : ℝ) (hah : 0 < alpha * h) (R : ℕ → FRule n1 n2) (p1 p2 ow : ℕ)
    (hR : (R (2 * max p1 p2 + ow)).Pos) (hU : (R (2 * max p1 p2 + ow)).Unity) (u1 : Vec n1) (u2 : Vec n2) :
    0 ≤ dotv (fun r => u1 r - th) (convVec alpha h th R p1 p2 ow u1 u2).1 +
        dotv (fun r => u2 r - th) (convVec alpha h th R p1 p2 ow u1 u2).2 ∧
    (dotv (fun r => u1 r - th) (convVec alpha h th R p1 p2 ow u1 u2).1 +
        dotv (fun r => u2 r - th) (convVec alpha h th R p1 p2 ow u1 u2).2 = 0 ↔
      ∀ i < (R (2 * max p1 p2 + ow)).n, field ((R (2 * max p1 p2 + ow)).pt i).s1 u1 = th ∧
        field ((R (2 * max p1 p2 + ow)).pt i).s2 u2 = th) := by
  have hf : ∀ {d : ℕ} (s u : Vec d), ∑ a, s a = 1 → field s (fun r => u r - th) = field s u - th := by
    intro d s u hs
    have := field_lin s u (fun _ => 1) (-th)
    rw [field_one s hs] at this
    rw [show (fun r => u r - th) = fun r => u r + -th * 1 from funext fun r => by ring, this]; ring
  have e : dotv (fun r => u1 r - th) (convVec alpha h th R p1 p2 ow u1 u2).1 +
        dotv (fun r => u2 r - th) (convVec alpha h th R p1 p2 ow u1 u2).2 =
      ∑ i ∈ range (R (2 * max p1 p2 + ow)).n, alpha * h * (((R (2 * max p1 p2 + ow)).pt i).w *
        ((R (2 * max p1 p2 + ow)).pt i).J *
        ((field ((R (2 * max p1 p2 + ow)).pt i).s1 u1 - th) ^ 2 +
          (field ((R (2 * max p1 p2 + ow)).pt i).s2 u2 - th) ^ 2)) := by
    rw [(C150_convection_weak_form alpha h th R p1 p2 ow u1 _ u2 (fun r => u2 r - th)).1,
      (C150_convection_weak_form alpha h th R p1 p2 ow u1 (fun r => u1 r - th) u2 _).2]
    unfold FRule.integral
    rw [mul_sum, mul_sum, ← sum_add_distrib]
    refine sum_congr rfl fun i hi => ?_
    have hu := hU i (mem_range.1 hi)
    beta_reduce
    rw [hf _ _ hu.1, hf _ _ hu.2]; ring
  have hp : ∀ i ∈ range (R (2 * max p1 p2 + ow)).n, 0 ≤ alpha * h * (((R (2 * max p1 p2 + ow)).pt i).w *
      ((R (2 * max p1 p2 + ow)).pt i).J * ((field ((R (2 * max p1 p2 + ow)).pt i).s1 u1 - th) ^ 2 +
          (field ((R (2 * max p1 p2 + ow)).pt i).s2 u2 - th) ^ 2)) := fun i hi =>
    mul_nonneg hah.le (mul_nonneg (hR i (mem_range.1 hi)).le (by positivity))
  refine ⟨by rw [e]; exact sum_nonneg hp, ?_⟩
  rw [e, sum_eq_zero_iff_of_nonneg hp]
  constructor
  · intro hz i hi
    have := hz i (mem_range.2 hi)
    have h2 := (mul_eq_zero.1 ((mul_eq_zero.1 this).resolve_left hah.ne')).resolve_left (hR i hi).ne'
    have h3 := (add_eq_zero_iff_of_nonneg (sq_nonneg _) (sq_nonneg _)).1 h2
    exact ⟨by linarith [pow_eq_zero_iff (n := 2) (by norm_num) |>.1 h3.1],
      by linarith [pow_eq_zero_iff (n := 2) (by norm_num) |>.1 h3.2]⟩
  · intro hz i hi
    rw [(hz i (mem_range.1 hi)).1, (hz i (mem_range.1 hi)).2]; ring

/-- **Convection boundary condition.**  Tested with `ψ` the residual is `α ∫ h (T - θ) ψ`. -/
theorem C150_boundary_weak_form (alpha h th : ℝ) (R : ℕ → BRule nd) (p ow : ℕ) (u psi : Vec nd) :
    dotv psi (bcVec alpha h th R p ow u) =
      alpha * (R (2 * p + ow)).integral fun q => h * (field q.shape u - th) * field q.shape psi := by
  rw [sum_field _ _ _ psi _ (bcVec_apply alpha h th R p ow u)]
  unfold BRule.integral
  rw [mul_sum, show bcOrder p ow = 2 * p + ow by unfold bcOrder; ring]
  exact sum_congr rfl fun i _ => by ring

/-- **Convection boundary conditions are monotone**: for two states the difference of the residuals tested with the
difference of the states is `α h ∫ (T - T')² ≥ 0`. -/
theorem C150_boundary_monotone (alpha h th : ℝ) (hah : 0 ≤ alpha * h) (R : ℕ → BRule nd) (p ow : ℕ)
    (hR : (R (2 * p + ow)).Pos) (u v : Vec nd) :
    dotv (fun r => u r - v r) (bcVec alpha h th R p ow u) - dotv (fun r => u r - v r) (bcVec alpha h th R p ow v) =
        alpha * h * (R (2 * p + ow)).integral (fun q => (field q.shape u - field q.shape v) ^ 2) ∧
      0 ≤ dotv (fun r => u r - v r) (bcVec alpha h th R p ow u) -
        dotv (fun r => u r - v r) (bcVec alpha h th R p ow v) := by
  have hf : ∀ q : BQ nd, field q.shape (fun r => u r - v r) = field q.shape u - field q.shape v := by
    intro q
    have := field_lin q.shape u v (-1)
    rw [show (fun r => u r - v r) = fun r => u r + -1 * v r from funext fun r => by ring, this]; ring
  have e : dotv (fun r => u r - v r) (bcVec alpha h th R p ow u) -
      dotv (fun r => u r - v r) (bcVec alpha h th R p ow v) =
        alpha * h * (R (2 * p + ow)).integral (fun q => (field q.shape u - field q.shape v) ^ 2) := by
    rw [C150_boundary_weak_form, C150_boundary_weak_form]
    unfold BRule.integral
    rw [mul_sum, mul_sum, mul_sum, ← sum_sub_distrib]
    exact sum_congr rfl fun i _ => by beta_reduce; rw [hf]; ring
  refine ⟨e, ?_⟩
  rw [e]
  exact mul_nonneg hah (sum_nonneg fun i hi => mul_nonneg (hR i (mem_range.1 hi)).le (sq_nonneg _))

/-- **Equilibrium.**  A field at the fluid temperature produces no convection residual, on interfaces and boundaries. -/
theorem C150_equilibrium (alpha h th : ℝ) (R : ℕ → FRule n1 n2) (p1 p2 ow : ℕ) (hU : (R (2 * max p1 p2 + ow)).Unity)
    (B : ℕ → BRule nd) (p : ℕ) (hB : ∀ i < (B (2 * p + ow)).n, ∑ a, ((B (2 * p + ow)).pt i).shape a = 1) :
    (∀ r, (convVec alpha h th R p1 p2 ow (fun _ => th) (fun _ => th)).1 r = 0) ∧
    (∀ r, (convVec alpha h th R p1 p2 ow (fun _ => th) (fun _ => th)).2 r = 0) ∧
    ∀ r, bcVec alpha h th B p ow (fun _ => th) r = 0 := by
  have ha := convVec_apply alpha h th R p1 p2 ow (fun _ => th) (fun _ => th)
  refine ⟨fun r => ?_, fun r => ?_, fun r => ?_⟩
  · rw [ha.1]
    refine sum_eq_zero fun i hi => ?_
    rw [show field ((R (curvedOrder p1 p2 ow)).pt i).s1 (fun _ => th) = th from
      field_one _ (hU i (mem_range.1 hi)).1 th]; ring
  · rw [ha.2]
    refine sum_eq_zero fun i hi => ?_
    rw [show field ((R (curvedOrder p1 p2 ow)).pt i).s2 (fun _ => th) = th from
      field_one _ (hU i (mem_range.1 hi)).2 th]; ring
  · rw [bcVec_apply]
    have ho : bcOrder p ow = 2 * p + ow := by unfold bcOrder; ring
    rw [ho]
    refine sum_eq_zero fun i hi => ?_
    rw [field_one _ (hB i (mem_range.1 hi)) th]; ring

/-- **Outflux.**  Tested with `ψ` the residual is `α ∫ q ψ`, whatever the state; its total is `α` times the flux times the
area of the face. -/
theorem C150_outflux (alpha fl : ℝ) (R : ℕ → BRule nd) (p ow : ℕ) (u psi : Vec nd) :
    dotv psi (outVec alpha fl R p ow u) = (alpha * (R (2 * p + ow)).integral fun q => fl * field q.shape psi) ∧
    ((∀ i < (R (2 * p + ow)).n, ∑ a, ((R (2 * p + ow)).pt i).shape a = 1) →
      ∑ r, outVec alpha fl R p ow u r = alpha * fl * (R (2 * p + ow)).integral fun _ => 1) := by
  have e : ∀ psi, dotv psi (outVec alpha fl R p ow u) =
      alpha * (R (2 * p + ow)).integral fun q => fl * field q.shape psi := by
    intro psi
    rw [sum_field _ _ _ psi _ (outVec_apply alpha fl R p ow u)]
    unfold BRule.integral
    rw [mul_sum, show bcOrder p ow = 2 * p + ow by unfold bcOrder; ring]
    exact sum_congr rfl fun i _ => by ring
  refine ⟨e psi, fun hU => ?_⟩
  have h1 : ∑ r, outVec alpha fl R p ow u r = dotv (fun _ => 1) (outVec alpha fl R p ow u) := by simp [dotv]
  rw [h1, e]
  unfold BRule.integral
  rw [mul_sum, mul_sum]
  refine sum_congr rfl fun i hi => ?_
  beta_reduce
  rw [field_one _ (hU i (mem_range.1 hi))]; ring

/-- **An interface condition replaces the perfect contact of the discontinuous discretization**: the interface terms
added with weight `-1` on the marked faces (thermal_residual.cpp:319-322, 346-349) cancel those the interior faces
contribute with weight `1` (thermal_residual.cpp:194-195), in the residual and in the Jacobian, for every state and
diffusivity. -/
theorem C150_interface_replaces {P : Type*} (mu : ℝ) (nu dnu : P → ℝ → ℝ) (n : ℕ) (f : ℕ → FaceP P dim)
    (s1 : ℕ → Side P n1 dim) (s2 : ℕ → Side P n2 dim) (u1 : Vec n1) (u2 : Vec n2) :
    (∀ r, (intVec 1 mu nu n f s1 s2 u1 u2).1 r + (intVec (-1) mu nu n f s1 s2 u1 u2).1 r = 0) ∧
    (∀ r, (intVec 1 mu nu n f s1 s2 u1 u2).2 r + (intVec (-1) mu nu n f s1 s2 u1 u2).2 r = 0) ∧
    ∀ q p, q < n1 + n2 → p < n1 + n2 →
      intGrad 1 mu nu dnu n f s1 s2 u1 u2 q p + intGrad (-1) mu nu dnu n f s1 s2 u1 u2 q p = 0 := by
  have a := intVec_apply 1 mu nu n f s1 s2 u1 u2
  have b := intVec_apply (-1) mu nu n f s1 s2 u1 u2
  refine ⟨fun r => ?_, fun r => ?_, fun q p hq hp => ?_⟩
  · rw [a.1, b.1, ← sum_add_distrib]
    exact sum_eq_zero fun i _ => by unfold part1; ring
  · rw [a.2, b.2, ← sum_add_distrib]
    exact sum_eq_zero fun i _ => by unfold part2; ring
  · rw [intGrad_apply _ _ _ _ _ _ _ _ _ _ _ _ hq hp, intGrad_apply _ _ _ _ _ _ _ _ _ _ _ _ hq hp,
      ← sum_add_distrib]
    refine sum_eq_zero fun i _ => ?_
    unfold blockAt ent
    split_ifs <;> first
      | (simp only [intBlocks, addVWt, zeroM]; ring)
      | simp

/-- The terms are not trivially zero: a one-degree-of-freedom interface with temperatures 3 and 1 exchanges `h (3 - 1)`,
and it meets the hypotheses of the theorems above. -/
def unitRule : ℕ → FRule 1 1 := fun _ => ⟨1, fun _ => ⟨1, 1, fun _ => 1, fun _ => 1⟩⟩

example (o : ℕ) : (unitRule o).Pos ∧ (unitRule o).Unity := by
  constructor <;> intro i _ <;> simp [unitRule]

example (h : ℝ) : (contactVec 1 h unitRule 1 1 0 (fun _ => 3) (fun _ => 1)).1 0 = h * 2 := by
  rw [(contactVec_apply 1 h unitRule 1 1 0 (fun _ => 3) (fun _ => 1)).1]
  simp [unitRule, field]; left; norm_num

/-! ### C151: Jacobians -/

theorem blocks_apply (N : ℕ) (B : ℕ → Mat n1 n1 × Mat n1 n2 × Mat n2 n1 × Mat n2 n2) (q p : ℕ)
    (hq : q < n1 + n2) (hp : p < n1 + n2) :
    forN N (fun i => insertBlocks (B i)) (fun _ _ => 0) q p = ∑ i ∈ range N, blockAt (B i) q p := by
  induction N with
  | zero => simp [forN]
  | succ N ih => rw [forN, insertBlocks_apply _ _ _ _ hq hp, ih, sum_range_succ]

theorem blocks_act (N : ℕ) (B : ℕ → Mat n1 n1 × Mat n1 n2 × Mat n2 n1 × Mat n2 n2) (x : Vec n1) (y : Vec n2) :
    (∀ j, act1 (forN N (fun i => insertBlocks (B i)) (fun _ _ => 0)) x y j =
      ∑ i ∈ range N, (∑ k, (B i).1 j k * x k + ∑ k, (B i).2.1 j k * y k)) ∧
    ∀ j, act2 (forN N (fun i => insertBlocks (B i)) (fun _ _ => 0)) x y j =
      ∑ i ∈ range N, (∑ k, (B i).2.2.1 j k * x k + ∑ k, (B i).2.2.2 j k * y k) := by
  refine ⟨fun j => ?_, fun j => ?_⟩
  · unfold act1
    rw [sum_add_distrib, sum_comm (s := range N), sum_comm (s := range N)]
    congr 1
    · refine sum_congr rfl fun k _ => ?_
      rw [blocks_apply _ _ _ _ (by omega) (by omega), sum_mul]
      exact sum_congr rfl fun i _ => by rw [blockAt_11]
    · refine sum_congr rfl fun k _ => ?_
      rw [blocks_apply _ _ _ _ (by omega) (by omega), sum_mul]
      exact sum_congr rfl fun i _ => by rw [blockAt_12]
  · unfold act2
    rw [sum_add_distrib, sum_comm (s := range N), sum_comm (s := range N)]
    congr 1
    · refine sum_congr rfl fun k _ => ?_
      rw [blocks_apply _ _ _ _ (by omega) (by omega), sum_mul]
      exact sum_congr rfl fun i _ => by rw [blockAt_21]
    · refine sum_congr rfl fun k _ => ?_
      rw [blocks_apply _ _ _ _ (by omega) (by omega), sum_mul]
      exact sum_congr rfl fun i _ => by rw [blockAt_22]

theorem outer_dot {a b : ℕ} (c : ℝ) (s : Vec a) (t x : Vec b) (j : Fin a) :
    ∑ k, scaleM c (fun j k => s j * t k) j k * x k = c * field t x * s j := by
  unfold scaleM field
  rw [mul_sum, sum_mul]
  exact sum_congr rfl fun k _ => by ring

theorem neg_outer_dot {a b : ℕ} (c : ℝ) (s : Vec a) (t x : Vec b) (j : Fin a) :
    ∑ k, -scaleM c (fun j k => s j * t k) j k * x k = -(c * field t x * s j) := by
  rw [← outer_dot, ← sum_neg_distrib]
  exact sum_congr rfl fun k _ => by ring

theorem neg_outer_dot' {a b : ℕ} (c : ℝ) (s : Vec a) (t : Vec b) (x : Vec a) (j : Fin b) :
    ∑ k, -scaleM c (fun j k => s j * t k) k j * x k = -(c * field s x * t j) := by
  unfold scaleM field
  rw [mul_sum, sum_mul, ← sum_neg_distrib]
  exact sum_congr rfl fun k _ => by ring

theorem contactGrad_act (alpha h : ℝ) (R : ℕ → FRule n1 n2) (p1 p2 ow : ℕ) (x : Vec n1) (y : Vec n2) :
    (∀ j, act1 (contactGrad alpha h R p1 p2 ow) x y j = (contactVec alpha h R p1 p2 ow x y).1 j) ∧
    ∀ j, act2 (contactGrad alpha h R p1 p2 ow) x y j = (contactVec alpha h R p1 p2 ow x y).2 j := by
  have hb := blocks_act (R (plainOrder p1 p2)).n (fun i => contactBlocks alpha h ((R (plainOrder p1 p2)).pt i)) x y
  have ha := contactVec_apply alpha h R p1 p2 ow x y
  refine ⟨fun j => ?_, fun j => ?_⟩
  · rw [ha.1]
    refine (hb.1 j).trans (sum_congr rfl fun i _ => ?_)
    simp only [contactBlocks]
    rw [outer_dot, neg_outer_dot]; ring
  · rw [ha.2]
    refine (hb.2 j).trans (sum_congr rfl fun i _ => ?_)
    simp only [contactBlocks]
    rw [outer_dot, neg_outer_dot']; ring

theorem contactVec_lin (alpha h : ℝ) (R : ℕ → FRule n1 n2) (p1 p2 ow : ℕ) (u1 x : Vec n1) (u2 y : Vec n2) (t : ℝ) :
    (∀ j, (contactVec alpha h R p1 p2 ow (fun r => u1 r + t * x r) (fun r => u2 r + t * y r)).1 j =
      (contactVec alpha h R p1 p2 ow u1 u2).1 j + t * (contactVec alpha h R p1 p2 ow x y).1 j) ∧
    ∀ j, (contactVec alpha h R p1 p2 ow (fun r => u1 r + t * x r) (fun r => u2 r + t * y r)).2 j =
      (contactVec alpha h R p1 p2 ow u1 u2).2 j + t * (contactVec alpha h R p1 p2 ow x y).2 j := by
  have h0 := contactVec_apply alpha h R p1 p2 ow u1 u2
  have h1 := contactVec_apply alpha h R p1 p2 ow x y
  have h2 := contactVec_apply alpha h R p1 p2 ow (fun r => u1 r + t * x r) (fun r => u2 r + t * y r)
  refine ⟨fun j => ?_, fun j => ?_⟩
  · rw [h0.1, h1.1, h2.1, mul_sum, ← sum_add_distrib]
    exact sum_congr rfl fun i _ => by rw [field_lin, field_lin]; ring
  · rw [h0.2, h1.2, h2.2, mul_sum, ← sum_add_distrib]
    exact sum_congr rfl fun i _ => by rw [field_lin, field_lin]; ring

/-- **Jacobian of the contact resistance.**  The assembled matrix is the derivative of both parts of the residual in every
direction. -/
theorem C151_contact (alpha h : ℝ) (R : ℕ → FRule n1 n2) (p1 p2 ow : ℕ) (u1 x : Vec n1) (u2 y : Vec n2) :
    (∀ j, HasDerivAt (fun t =>
        (contactVec alpha h R p1 p2 ow (fun r => u1 r + t * x r) (fun r => u2 r + t * y r)).1 j)
      (act1 (contactGrad alpha h R p1 p2 ow) x y j) 0) ∧
    ∀ j, HasDerivAt (fun t =>
        (contactVec alpha h R p1 p2 ow (fun r => u1 r + t * x r) (fun r => u2 r + t * y r)).2 j)
      (act2 (contactGrad alpha h R p1 p2 ow) x y j) 0 := by
  have hl := contactVec_lin alpha h R p1 p2 ow u1 x u2 y
  have hg := contactGrad_act alpha h R p1 p2 ow x y
  exact ⟨fun j => by rw [hg.1]; exact lin_hasDerivAt fun t => (hl t).1 j,
    fun j => by rw [hg.2]; exact lin_hasDerivAt fun t => (hl t).2 j⟩

/-- **The contact Jacobian is symmetric and positive semidefinite** for `α h ≥ 0`. -/
theorem C151_contact_spd (alpha h : ℝ) (R : ℕ → FRule n1 n2) (p1 p2 ow : ℕ) :
    (∀ q p, q < n1 + n2 → p < n1 + n2 → contactGrad alpha h R p1 p2 ow q p = contactGrad alpha h R p1 p2 ow p q) ∧
    (0 ≤ alpha * h → (R (2 * max p1 p2)).Pos → ∀ (x : Vec n1) (y : Vec n2),
      0 ≤ dotv x (act1 (contactGrad alpha h R p1 p2 ow) x y) + dotv y (act2 (contactGrad alpha h R p1 p2 ow) x y)) := by
  constructor
  · intro q p hq hp
    unfold contactGrad
    rw [blocks_apply _ _ _ _ hq hp, blocks_apply _ _ _ _ hp hq]
    refine sum_congr rfl fun i _ => ?_
    unfold blockAt ent
    split_ifs <;> first
      | rfl
      | omega
      | (simp only [contactBlocks, scaleM]; ring)
  · intro hah hR x y
    have hg := contactGrad_act alpha h R p1 p2 ow x y
    rw [funext hg.1, funext hg.2]
    refine (le_of_le_of_eq ?_ (C150_contact_weak_form alpha h R p1 p2 ow x x y y).symm)
    unfold FRule.integral
    beta_reduce
    rw [mul_sum]
    refine sum_nonneg fun i hi => ?_
    have hp := (hR i (mem_range.1 hi)).le
    have : alpha * (((R (2 * max p1 p2)).pt i).w * ((R (2 * max p1 p2)).pt i).J *
        (h * (field ((R (2 * max p1 p2)).pt i).s1 x - field ((R (2 * max p1 p2)).pt i).s2 y) *
          (field ((R (2 * max p1 p2)).pt i).s1 x - field ((R (2 * max p1 p2)).pt i).s2 y))) =
        alpha * h * (((R (2 * max p1 p2)).pt i).w * ((R (2 * max p1 p2)).pt i).J *
        (field ((R (2 * max p1 p2)).pt i).s1 x - field ((R (2 * max p1 p2)).pt i).s2 y) ^ 2) := by ring
    rw [this]
    positivity

/-- The Jacobian of the internal convection, applied. -/
theorem convGrad_act (alpha h : ℝ) (R : ℕ → FRule n1 n2) (p1 p2 ow : ℕ) (x : Vec n1) (y : Vec n2) :
    (∀ j, act1 (convGrad alpha h R p1 p2 ow) x y j = (convVec alpha h 0 R p1 p2 0 x y).1 j) ∧
    ∀ j, act2 (convGrad alpha h R p1 p2 ow) x y j = (convVec alpha h 0 R p1 p2 0 x y).2 j := by
  have hb := blocks_act (R (plainOrder p1 p2)).n (fun i => convBlocks alpha h ((R (plainOrder p1 p2)).pt i)) x y
  have ha := convVec_apply alpha h 0 R p1 p2 0 x y
  refine ⟨fun j => ?_, fun j => ?_⟩
  · rw [ha.1]
    refine (hb.1 j).trans (sum_congr rfl fun i _ => ?_)
    simp only [convBlocks]
    rw [outer_dot, zeroM_dot]
    change _ = alpha * ((R (plainOrder p1 p2)).pt i).w * ((R (plainOrder p1 p2)).pt i).J *
      (h * (field ((R (plainOrder p1 p2)).pt i).s1 x - 0)) * ((R (plainOrder p1 p2)).pt i).s1 j
    ring
  · rw [ha.2]
    refine (hb.2 j).trans (sum_congr rfl fun i _ => ?_)
    simp only [convBlocks]
    rw [outer_dot, zeroM_dot]
    change _ = alpha * ((R (plainOrder p1 p2)).pt i).w * ((R (plainOrder p1 p2)).pt i).J *
      (h * (field ((R (plainOrder p1 p2)).pt i).s2 y - 0)) * ((R (plainOrder p1 p2)).pt i).s2 j
    ring

theorem convVec_lin (alpha h th : ℝ) (R : ℕ → FRule n1 n2) (p1 p2 ow : ℕ) (u1 x : Vec n1) (u2 y : Vec n2) (t : ℝ) :
    (∀ j, (convVec alpha h th R p1 p2 ow (fun r => u1 r + t * x r) (fun r => u2 r + t * y r)).1 j =
      (convVec alpha h th R p1 p2 ow u1 u2).1 j + t * (convVec alpha h 0 R p1 p2 ow x y).1 j) ∧
    ∀ j, (convVec alpha h th R p1 p2 ow (fun r => u1 r + t * x r) (fun r => u2 r + t * y r)).2 j =
      (convVec alpha h th R p1 p2 ow u1 u2).2 j + t * (convVec alpha h 0 R p1 p2 ow x y).2 j := by
  have h0 := convVec_apply alpha h th R p1 p2 ow u1 u2
  have h1 := convVec_apply alpha h 0 R p1 p2 ow x y
  have h2 := convVec_apply alpha h th R p1 p2 ow (fun r => u1 r + t * x r) (fun r => u2 r + t * y r)
  refine ⟨fun j => ?_, fun j => ?_⟩
  · rw [h0.1, h1.1, h2.1, mul_sum, ← sum_add_distrib]
    exact sum_congr rfl fun i _ => by rw [field_lin]; ring
  · rw [h0.2, h1.2, h2.2, mul_sum, ← sum_add_distrib]
    exact sum_congr rfl fun i _ => by rw [field_lin]; ring

/-- **Jacobian of the internal convection**, partial: it is the derivative of the residual on faces whose mapping adds
nothing to the order of the rule (`ow = 0`, straight faces), because the residual and the Jacobian then use the same
rule. -/
theorem C151_convection_partial (alpha h th : ℝ) (R : ℕ → FRule n1 n2) (p1 p2 : ℕ) (u1 x : Vec n1) (u2 y : Vec n2) :
    (∀ j, HasDerivAt (fun t =>
        (convVec alpha h th R p1 p2 0 (fun r => u1 r + t * x r) (fun r => u2 r + t * y r)).1 j)
      (act1 (convGrad alpha h R p1 p2 0) x y j) 0) ∧
    ∀ j, HasDerivAt (fun t =>
        (convVec alpha h th R p1 p2 0 (fun r => u1 r + t * x r) (fun r => u2 r + t * y r)).2 j)
      (act2 (convGrad alpha h R p1 p2 0) x y j) 0 := by
  have hl := convVec_lin alpha h th R p1 p2 0 u1 x u2 y
  have hg := convGrad_act alpha h R p1 p2 0 x y
  exact ⟨fun j => by rw [hg.1]; exact lin_hasDerivAt fun t => (hl t).1 j,
    fun j => by rw [hg.2]; exact lin_hasDerivAt fun t => (hl t).2 j⟩

/-- The points of the Gauss-Legendre rules with two and three points, by their distance from the middle. -/
noncomputable def gaussPt (o i : ℕ) : ℝ :=
  if o ≤ 3 then (if i = 0 then 1 / 2 - √(1 / 12) else 1 / 2 + √(1 / 12))
  else (if i = 0 then 1 / 2 - √(3 / 20) else if i = 1 then 1 / 2 else 1 / 2 + √(3 / 20))

/-- Their weights. -/
noncomputable def gaussW (o i : ℕ) : ℝ := if o ≤ 3 then 1 / 2 else (if i = 1 then 4 / 9 else 5 / 18)

/-- The rules of orders up to five on an edge with the cubic parametrization `x = (ξ + ξ³)/2`, linear elements on both
sides. -/
noncomputable def gauss (o : ℕ) : FRule 2 2 :=
  ⟨if o ≤ 3 then 2 else 3, fun i =>
    ⟨gaussW o i, (1 + 3 * gaussPt o i ^ 2) / 2, ![1 - gaussPt o i, gaussPt o i], ![1 - gaussPt o i, gaussPt o i]⟩⟩

theorem gauss_two : ∑ i ∈ range (gauss 2).n, ((gauss 2).pt i).w * ((gauss 2).pt i).J * ((gauss 2).pt i).s1 1 ^ 2 =
    11 / 24 := by
  have h : √(1 / 12 : ℝ) ^ 2 = 1 / 12 := Real.sq_sqrt (by norm_num)
  simp only [gauss, gaussPt, gaussW]
  generalize √(1 / 12 : ℝ) = a at h ⊢
  simp [sum_range_succ]
  have h4 : a ^ 4 = 1 / 144 := by rw [show a ^ 4 = (a ^ 2) ^ 2 by ring, h]; norm_num
  ring_nf
  rw [h4, h]; norm_num

theorem gauss_four : ∑ i ∈ range (gauss 4).n, ((gauss 4).pt i).w * ((gauss 4).pt i).J * ((gauss 4).pt i).s1 1 ^ 2 =
    7 / 15 := by
  have h : √(3 / 20 : ℝ) ^ 2 = 3 / 20 := Real.sq_sqrt (by norm_num)
  simp only [gauss, gaussPt, gaussW]
  generalize √(3 / 20 : ℝ) = a at h ⊢
  simp [sum_range_succ]
  have h4 : a ^ 4 = 9 / 400 := by rw [show a ^ 4 = (a ^ 2) ^ 2 by ring, h]; norm_num
  ring_nf
  rw [h4, h]; norm_num

/-- The convection residual of the second degree of freedom at the state `(0, 1)`, by the rule it uses. -/
theorem conv_gauss (ow : ℕ) : (convVec 1 1 0 gauss 1 1 ow ![0, 1] ![0, 1]).1 1 =
    ∑ i ∈ range (gauss (2 + ow)).n, ((gauss (2 + ow)).pt i).w * ((gauss (2 + ow)).pt i).J *
      ((gauss (2 + ow)).pt i).s1 1 ^ 2 := by
  rw [(convVec_apply 1 1 0 gauss 1 1 ow ![0, 1] ![0, 1]).1]
  refine sum_congr rfl fun i _ => ?_
  simp [curvedOrder, field]
  ring

/-- **Jacobian of the internal convection on curved faces is not the derivative of the residual**: the residual uses the
rule of order `2 p + OrderW`, the Jacobian the one of order `2 p`.  On the cubic edge above (`OrderW = 2`) with linear
elements the derivative of the last residual in the direction of its unknown is 7/15 and the assembled entry gives
11/24. -/
theorem C151_convection_false : ¬ ∀ (alpha h th : ℝ) (R : ℕ → FRule 2 2) (p1 p2 ow : ℕ) (u1 x u2 y : Vec 2) (j : Fin 2),
    HasDerivAt (fun t =>
        (convVec alpha h th R p1 p2 ow (fun r => u1 r + t * x r) (fun r => u2 r + t * y r)).1 j)
      (act1 (convGrad alpha h R p1 p2 ow) x y j) 0 := by
  intro hall
  have h1 := hall 1 1 0 gauss 1 1 2 (fun _ => 0) ![0, 1] (fun _ => 0) ![0, 1] 1
  have h2 := lin_hasDerivAt fun t => (convVec_lin 1 1 0 gauss 1 1 2 (fun _ => 0) ![0, 1] (fun _ => 0) ![0, 1] t).1 1
  have h3 := h1.unique h2
  rw [(convGrad_act 1 1 gauss 1 1 2 ![0, 1] ![0, 1]).1, conv_gauss, conv_gauss, gauss_two, gauss_four] at h3
  norm_num at h3

/-- **Jacobian of the convection boundary condition** is the derivative of its residual, symmetric, and positive
semidefinite for `α h ≥ 0`; the outflux residual has derivative zero, as assembled. -/
theorem C151_boundary (alpha h th fl : ℝ) (R : ℕ → BRule nd) (p ow : ℕ) (u x : Vec nd) :
    (∀ j, HasDerivAt (fun t => bcVec alpha h th R p ow (fun r => u r + t * x r) j)
      (∑ k, bcGrad alpha h R p ow j k * x k) 0) ∧
    (∀ j k, bcGrad alpha h R p ow j k = bcGrad alpha h R p ow k j) ∧
    (0 ≤ alpha * h → (R (2 * p + ow)).Pos → 0 ≤ ∑ j, x j * ∑ k, bcGrad alpha h R p ow j k * x k) ∧
    ∀ j, HasDerivAt (fun t => outVec alpha fl R p ow (fun r => u r + t * x r) j)
      (∑ k, (outGrad : Mat nd nd) j k * x k) 0 := by
  have hg : ∀ j k, bcGrad alpha h R p ow j k = ∑ i ∈ range (R (bcOrder p ow)).n,
      alpha * ((R (bcOrder p ow)).pt i).w * ((R (bcOrder p ow)).pt i).J * h *
        (((R (bcOrder p ow)).pt i).shape j * ((R (bcOrder p ow)).pt i).shape k) := by
    intro j k
    refine (forN_mat _ _ (fun i j k => alpha * ((R (bcOrder p ow)).pt i).w * ((R (bcOrder p ow)).pt i).J * h *
        (((R (bcOrder p ow)).pt i).shape j * ((R (bcOrder p ow)).pt i).shape k)) (fun i v j k => ?_) zeroM j k).trans ?_
    · simp only [addVWt]
    · simp [zeroM]
  have hx : ∀ j, ∑ k, bcGrad alpha h R p ow j k * x k = bcVec alpha h 0 R p ow x j := by
    intro j
    rw [bcVec_apply]
    simp only [hg, sum_mul]
    rw [sum_comm]
    refine sum_congr rfl fun i _ => ?_
    unfold field
    rw [sub_zero, mul_sum, mul_sum, sum_mul]
    exact sum_congr rfl fun k _ => by ring
  refine ⟨fun j => ?_, fun j k => ?_, fun hah hR => ?_, fun j => ?_⟩
  · rw [hx]
    refine lin_hasDerivAt (a := bcVec alpha h th R p ow u j) fun t => ?_
    simp only [bcVec_apply]
    rw [mul_sum, ← sum_add_distrib]
    exact sum_congr rfl fun i _ => by rw [field_lin]; ring
  · rw [hg, hg]; exact sum_congr rfl fun i _ => by ring
  · simp only [hx]
    refine le_of_le_of_eq ?_ (C150_boundary_weak_form alpha h 0 R p ow x x).symm
    unfold BRule.integral
    rw [mul_sum]
    refine sum_nonneg fun i hi => ?_
    have hp := (hR i (mem_range.1 hi)).le
    have : alpha * (((R (2 * p + ow)).pt i).w * ((R (2 * p + ow)).pt i).J *
        (h * (field ((R (2 * p + ow)).pt i).shape x - 0) * field ((R (2 * p + ow)).pt i).shape x)) =
        alpha * h * (((R (2 * p + ow)).pt i).w * ((R (2 * p + ow)).pt i).J *
          field ((R (2 * p + ow)).pt i).shape x ^ 2) := by ring
    rw [this]; positivity
  · unfold outGrad
    rw [zeroM_dot]
    refine (hasDerivAt_const (0 : ℝ) (outVec alpha fl R p ow u j)).congr_of_eventuallyEq
      (Filter.Eventually.of_forall fun t => ?_)
    simp only [outVec_apply]

/-! ### C152: sensitivities -/

theorem curvedOrder_zero (p1 p2 : ℕ) : curvedOrder p1 p2 0 = plainOrder p1 p2 := rfl

theorem contactH_eq (alpha : ℝ) (R : ℕ → FRule n1 n2) (p1 p2 ow : ℕ) (u1 psi1 : Vec n1) (u2 psi2 : Vec n2) :
    contactH alpha R p1 p2 ow u1 psi1 u2 psi2 = alpha * (R (2 * max p1 p2 + ow)).integral fun q =>
        (field q.s1 u1 - field q.s2 u2) * (field q.s1 psi1 - field q.s2 psi2) := by
  refine (forN_real _ _ 0).trans ?_
  rw [zero_add]
  unfold FRule.integral
  rw [mul_sum]
  refine sum_congr rfl fun i _ => ?_
  simp only [dot_field, curvedOrder]
  ring

/-- **Sensitivity of the contact residual to `h`**, partial: exact on straight faces (`ow = 0`). -/
theorem C152_contact_h_partial (alpha h : ℝ) (R : ℕ → FRule n1 n2) (p1 p2 : ℕ) (u1 psi1 : Vec n1) (u2 psi2 : Vec n2) :
    HasDerivAt (fun h => dotv psi1 (contactVec alpha h R p1 p2 0 u1 u2).1 + dotv psi2 (contactVec alpha h R p1 p2 0 u1 u2).2)
      (contactH alpha R p1 p2 0 u1 psi1 u2 psi2) h := by
  rw [contactH_eq]
  simp only [C150_contact_weak_form]
  refine ((hasDerivAt_id' h).mul_const _).congr_deriv (one_mul _) |>.congr_of_eventuallyEq
    (Filter.Eventually.of_forall fun h => ?_)
  unfold FRule.integral
  simp only [add_zero]
  rw [mul_sum, mul_sum, mul_sum]
  exact sum_congr rfl fun i _ => by ring

/-- **Sensitivity of the contact residual to `h` on curved faces is not exact**: it uses the rule of order `2 p + OrderW`
and the residual the one of order `2 p`. -/
theorem C152_contact_h_false : ¬ ∀ (alpha h : ℝ) (R : ℕ → FRule 2 2) (p1 p2 ow : ℕ) (u1 psi1 u2 psi2 : Vec 2),
    HasDerivAt (fun h => dotv psi1 (contactVec alpha h R p1 p2 ow u1 u2).1 +
      dotv psi2 (contactVec alpha h R p1 p2 ow u1 u2).2) (contactH alpha R p1 p2 ow u1 psi1 u2 psi2) h := by
  intro hall
  have h1 := hall 1 0 gauss 1 1 2 ![0, 1] ![0, 1] (fun _ => 0) (fun _ => 0)
  have h2 := C152_contact_h_partial 1 0 gauss 1 1 ![0, 1] ![0, 1] (fun _ => 0) (fun _ => 0)
  have h3 := h1.unique h2
  have e : ∀ ow, contactH 1 gauss 1 1 ow ![0, 1] ![0, 1] (fun _ => 0) (fun _ => 0) =
      ∑ i ∈ range (gauss (2 + ow)).n, ((gauss (2 + ow)).pt i).w * ((gauss (2 + ow)).pt i).J *
        ((gauss (2 + ow)).pt i).s1 1 ^ 2 := by
    intro ow
    rw [contactH_eq, one_mul]
    refine sum_congr rfl fun i _ => ?_
    simp [field]
    try (left; ring)
  rw [e, e, gauss_two, gauss_four] at h3
  norm_num at h3

/-- **Sensitivities of the internal convection to `h` and to the fluid temperature** are exact, on curved faces too. -/
theorem C152_convection_inputs (alpha h th : ℝ) (R : ℕ → FRule n1 n2) (p1 p2 ow : ℕ) (u1 psi1 : Vec n1)
    (u2 psi2 : Vec n2) :
    HasDerivAt (fun h => dotv psi1 (convVec alpha h th R p1 p2 ow u1 u2).1 +
        dotv psi2 (convVec alpha h th R p1 p2 ow u1 u2).2) (convH alpha th R p1 p2 ow u1 psi1 u2 psi2) h ∧
    HasDerivAt (fun th => dotv psi1 (convVec alpha h th R p1 p2 ow u1 u2).1 +
        dotv psi2 (convVec alpha h th R p1 p2 ow u1 u2).2) (convTheta alpha h R p1 p2 ow psi1 psi2) th := by
  have w := fun h th => C150_convection_weak_form alpha h th R p1 p2 ow u1 psi1 u2 psi2
  simp only [(w _ _).1, (w _ _).2, FRule.integral, ← mul_add, ← sum_add_distrib]
  constructor
  · refine ((HasDerivAt.fun_sum fun i _ => ((((hasDerivAt_id' h).mul_const _).mul_const _).fun_add
      (((hasDerivAt_id' h).mul_const _).mul_const _)).const_mul _).const_mul alpha).congr_deriv ?_
    refine Eq.symm ((forN_real _ _ 0).trans ?_)
    rw [zero_add, mul_sum]
    refine sum_congr rfl fun i _ => ?_
    simp only [dot_field, curvedOrder]
    ring
  · refine ((HasDerivAt.fun_sum fun i _ =>
      (((((hasDerivAt_id' th).const_sub _).const_mul h).mul_const _).fun_add
      ((((hasDerivAt_id' th).const_sub _).const_mul h).mul_const _)).const_mul _).const_mul alpha).congr_deriv ?_
    refine Eq.symm ((forN_real _ _ 0).trans ?_)
    rw [zero_add, mul_sum]
    refine sum_congr rfl fun i _ => ?_
    simp only [dot_field, curvedOrder]
    ring

/-- **Sensitivities of the convection boundary condition to `h` and to the fluid temperature** are exact. -/
theorem C152_boundary_inputs (alpha h th : ℝ) (R : ℕ → BRule nd) (p ow : ℕ) (u psi : Vec nd) :
    HasDerivAt (fun h => dotv psi (bcVec alpha h th R p ow u)) (bcH alpha th R p ow u psi) h ∧
    HasDerivAt (fun th => dotv psi (bcVec alpha h th R p ow u)) (bcTheta alpha h R p ow psi) th := by
  simp only [C150_boundary_weak_form, BRule.integral]
  constructor
  · refine ((HasDerivAt.fun_sum fun i _ =>
      (((hasDerivAt_id' h).mul_const _).mul_const _).const_mul _).const_mul alpha).congr_deriv ?_
    refine Eq.symm ((forN_real _ _ 0).trans ?_)
    rw [zero_add, mul_sum]
    refine sum_congr rfl fun i _ => ?_
    simp only [dot_field, bcSensOrder]
    ring
  · refine ((HasDerivAt.fun_sum fun i _ =>
      ((((hasDerivAt_id' th).const_sub _).const_mul h).mul_const _).const_mul _).const_mul alpha).congr_deriv ?_
    refine Eq.symm ((forN_real _ _ 0).trans ?_)
    rw [zero_add, mul_sum]
    refine sum_congr rfl fun i _ => ?_
    simp only [dot_field, bcSensOrder]
    ring

theorem WMotion.point (W : WMotion dim mf) (o i : ℕ) (x : ℝ) :
    ∑ k ∈ range dim, ∑ j ∈ range mf, (0 + W.rev o i x k j) * W.δ (k * mf + j) = x * W.J' o i := by
  simp only [zero_add]; exact W.hrev o i x

/-- **Mesh sensitivity of the contact residual** is exact for every motion of the nodes, the face moving with element 1
(into whose vector the code inserts it). -/
theorem C152_contact_mesh (alpha h : ℝ) (R : ℕ → FRule n1 n2) (p1 p2 ow : ℕ) (W : WMotion dim mf) (δ : ℕ → ℝ)
    (find : ℕ → Option ℕ) (hatt : Attached dim m mf δ W.δ find) (u1 psi1 : Vec n1) (u2 psi2 : Vec n2) :
    HasDerivAt (fun t => dotv psi1 (contactVec alpha h (W.frules R t) p1 p2 ow u1 u2).1 +
        dotv psi2 (contactVec alpha h (W.frules R t) p1 p2 ow u1 u2).2)
      (∑ q ∈ range (dim * m), contactMesh alpha h (W.frules R 0) p1 p2 ow dim mf W.rev find u1 psi1 u2 psi2 q * δ q)
      0 := by
  simp only [C150_contact_weak_form, FRule.integral]
  have e : ∑ q ∈ range (dim * m), contactMesh alpha h (W.frules R 0) p1 p2 ow dim mf W.rev find u1 psi1 u2 psi2 q * δ q =
      ∑ i ∈ range (R (2 * max p1 p2)).n, alpha * ((R (2 * max p1 p2)).pt i).w *
        (h * (field ((R (2 * max p1 p2)).pt i).s1 u1 - field ((R (2 * max p1 p2)).pt i).s2 u2) *
          (field ((R (2 * max p1 p2)).pt i).s1 psi1 - field ((R (2 * max p1 p2)).pt i).s2 psi2)) *
        W.J' (2 * max p1 p2) i := by
    unfold contactMesh
    simp only
    rw [insertFace_dot δ W.δ find (dim * m) (dim * mf) hatt, scatter_loop_dot]
    simp only [zero_mul, sum_const_zero, zero_add]
    refine sum_congr rfl fun i _ => ?_
    rw [W.hrev]
    simp only [dot_field, plainOrder, WMotion.frules]
    ring
  rw [e]
  simp only [WMotion.frules]
  refine ((HasDerivAt.fun_sum fun i _ => ((W.hJ (2 * max p1 p2) i).const_mul _).mul_const _).const_mul
    alpha).congr_deriv ?_
  rw [mul_sum]
  exact sum_congr rfl fun i _ => by ring

theorem convMesh_eq (alpha h th : ℝ) (R : ℕ → FRule n1 n2) (p1 p2 ow : ℕ) (W : WMotion dim mf) (δ : ℕ → ℝ)
    (find : ℕ → Option ℕ) (hatt : Attached dim m mf δ W.δ find) (u1 psi1 : Vec n1) (u2 psi2 : Vec n2) :
    ∑ q ∈ range (dim * m), convMesh alpha h th (W.frules R 0) p1 p2 ow dim mf W.rev find u1 psi1 u2 psi2 q * δ q =
      ∑ i ∈ range (R (2 * max p1 p2)).n, alpha * ((R (2 * max p1 p2)).pt i).w *
        (h * (field ((R (2 * max p1 p2)).pt i).s1 u1 - th) * field ((R (2 * max p1 p2)).pt i).s1 psi1 +
          h * (field ((R (2 * max p1 p2)).pt i).s2 u2 - th) * field ((R (2 * max p1 p2)).pt i).s2 psi2) *
        W.J' (2 * max p1 p2) i := by
  unfold convMesh
  simp only
  rw [insertFace_dot δ W.δ find (dim * m) (dim * mf) hatt, scatter_loop_dot]
  simp only [zero_mul, sum_const_zero, zero_add]
  refine sum_congr rfl fun i _ => ?_
  rw [W.hrev]
  simp only [dot_field, plainOrder, WMotion.frules]
  ring

/-- **Mesh sensitivity of the internal convection**, partial: exact on straight faces (`ow = 0`). -/
theorem C152_convection_mesh_partial (alpha h th : ℝ) (R : ℕ → FRule n1 n2) (p1 p2 : ℕ) (W : WMotion dim mf) (δ : ℕ → ℝ)
    (find : ℕ → Option ℕ) (hatt : Attached dim m mf δ W.δ find) (u1 psi1 : Vec n1) (u2 psi2 : Vec n2) :
    HasDerivAt (fun t => dotv psi1 (convVec alpha h th (W.frules R t) p1 p2 0 u1 u2).1 +
        dotv psi2 (convVec alpha h th (W.frules R t) p1 p2 0 u1 u2).2)
      (∑ q ∈ range (dim * m), convMesh alpha h th (W.frules R 0) p1 p2 0 dim mf W.rev find u1 psi1 u2 psi2 q * δ q)
      0 := by
  rw [convMesh_eq (hatt := hatt)]
  have w := fun t => C150_convection_weak_form alpha h th (W.frules R t) p1 p2 0 u1 psi1 u2 psi2
  simp only [(w _).1, (w _).2, FRule.integral, ← mul_add, ← sum_add_distrib]
  simp only [WMotion.frules, add_zero]
  refine ((HasDerivAt.fun_sum fun i _ => ((W.hJ (2 * max p1 p2) i).const_mul _).mul_const _).const_mul
    alpha).congr_deriv ?_
  rw [mul_sum]
  exact sum_congr rfl fun i _ => by ring

/-- Coordinates of the four nodes of the cubic edge `x = (ξ + ξ³)/2` on the first axis. -/
noncomputable def edgeX (q : ℕ) : ℝ := if q = 1 then 5 / 27 else if q = 2 then 13 / 27 else if q = 3 then 1 else 0

/-- Derivatives of the cubic Lagrange polynomials of the nodes 0, 1/3, 2/3, 1. -/
noncomputable def dN (j : ℕ) (x : ℝ) : ℝ :=
  if j = 0 then -(27 * x ^ 2 - 36 * x + 11) / 2 else if j = 1 then (81 * x ^ 2 - 90 * x + 18) / 2
  else if j = 2 then -(81 * x ^ 2 - 72 * x + 9) / 2 else (27 * x ^ 2 - 18 * x + 2) / 2

/-- The cubic edge in the plane, stretched: the measure at `ξ` is `|x'(ξ)|`, the tangent pointing along the first axis. -/
noncomputable def stretch : WMotion 2 4 where
  δ := edgeX
  J := fun o i t => ∑ j ∈ range 4, (edgeX j + t * edgeX j) * dN j (gaussPt o i)
  J' := fun o i => ∑ j ∈ range 4, edgeX j * dN j (gaussPt o i)
  hJ := fun o i => by
    refine (HasDerivAt.fun_sum fun j _ => (((hasDerivAt_id' (0 : ℝ)).mul_const (edgeX j)).const_add
      (edgeX j)).mul_const (dN j (gaussPt o i))).congr_deriv ?_
    exact sum_congr rfl fun j _ => by ring
  rev := fun o i x k j => if k = 0 then x * dN j (gaussPt o i) else 0
  hrev := fun o i x => by
    simp [sum_range_succ, edgeX]
    ring

theorem stretch_J' (o i : ℕ) : stretch.J' o i = ((gauss o).pt i).J := by
  simp [stretch, sum_range_succ, edgeX, dN, gauss]
  ring

theorem stretch_J0 (o i : ℕ) : stretch.J o i 0 = ((gauss o).pt i).J := by
  rw [← stretch_J']
  simp [stretch]

theorem stretch_rules : stretch.frules gauss 0 = gauss := by
  funext o
  unfold WMotion.frules
  simp only [stretch_J0]

/-- The cubic edge belongs to an element with the same node numbers. -/
theorem stretch_attached : Attached 2 4 4 edgeX stretch.δ some := fun j hj => ⟨j, hj, rfl, rfl⟩

/-- **Mesh sensitivity of the internal convection on curved faces is not exact**: stretching the cubic edge changes the
tested residual at the rate 7/15 and the sensitivity says 11/24. -/
theorem C152_convection_mesh_false : ¬ ∀ (alpha h th : ℝ) (R : ℕ → FRule 2 2) (p1 p2 ow : ℕ) (W : WMotion 2 4) (δ : ℕ → ℝ)
    (find : ℕ → Option ℕ) (_ : Attached 2 4 4 δ W.δ find) (u1 psi1 u2 psi2 : Vec 2),
    HasDerivAt (fun t => dotv psi1 (convVec alpha h th (W.frules R t) p1 p2 ow u1 u2).1 +
        dotv psi2 (convVec alpha h th (W.frules R t) p1 p2 ow u1 u2).2)
      (∑ q ∈ range (2 * 4), convMesh alpha h th (W.frules R 0) p1 p2 ow 2 4 W.rev find u1 psi1 u2 psi2 q * δ q) 0 := by
  intro hall
  have h1 := hall 1 1 0 gauss 1 1 2 stretch edgeX some stretch_attached ![0, 1] ![0, 1] (fun _ => 0) (fun _ => 0)
  rw [convMesh_eq (hatt := stretch_attached)] at h1
  have w := fun t => C150_convection_weak_form 1 1 0 (stretch.frules gauss t) 1 1 2 ![0, 1] ![0, 1] (fun _ => 0) (fun _ => 0)
  simp only [(w _).1, (w _).2, FRule.integral, ← mul_add, ← sum_add_distrib] at h1
  simp only [WMotion.frules] at h1
  have h2 := (HasDerivAt.fun_sum (u := range (gauss 4).n) fun i _ => ((stretch.hJ 4 i).const_mul
    ((gauss 4).pt i).w).mul_const (1 * (field ((gauss 4).pt i).s1 ![0, 1] - 0) * field ((gauss 4).pt i).s1 ![0, 1] +
      1 * (field ((gauss 4).pt i).s2 (fun _ => 0) - 0) * field ((gauss 4).pt i).s2 (fun _ => 0))).const_mul 1
  have h3 := h1.unique h2
  simp only [stretch_J'] at h3
  have e2 : ∑ i ∈ range (gauss (2 * max 1 1)).n, 1 * ((gauss (2 * max 1 1)).pt i).w *
      (1 * (field ((gauss (2 * max 1 1)).pt i).s1 ![0, 1] - 0) * field ((gauss (2 * max 1 1)).pt i).s1 ![0, 1] +
      1 * (field ((gauss (2 * max 1 1)).pt i).s2 (fun _ => 0) - 0) *
        field ((gauss (2 * max 1 1)).pt i).s2 (fun _ => 0)) * ((gauss (2 * max 1 1)).pt i).J = 11 / 24 := by
    rw [← gauss_two]
    refine sum_congr rfl fun i _ => ?_
    simp [field]; ring
  have e4 : 1 * ∑ i ∈ range (gauss 4).n, ((gauss 4).pt i).w * ((gauss 4).pt i).J *
      (1 * (field ((gauss 4).pt i).s1 ![0, 1] - 0) * field ((gauss 4).pt i).s1 ![0, 1] +
      1 * (field ((gauss 4).pt i).s2 (fun _ => 0) - 0) * field ((gauss 4).pt i).s2 (fun _ => 0)) = 7 / 15 := by
    rw [← gauss_four, one_mul]
    refine sum_congr rfl fun i _ => ?_
    simp [field]; left; ring
  rw [e2, e4] at h3
  norm_num at h3

/-- **Mesh sensitivities of the boundary conditions** are exact for every motion of the nodes of the face. -/
theorem C152_boundary_mesh (alpha h th fl : ℝ) (R : ℕ → BRule nd) (p ow : ℕ) (W : WMotion dim mf) (u psi : Vec nd) :
    HasDerivAt (fun t => dotv psi (bcVec alpha h th (W.brules R t) p ow u))
      (∑ q ∈ range (dim * mf), bcMesh alpha h th (W.brules R 0) p ow dim mf W.rev u psi q * W.δ q) 0 ∧
    HasDerivAt (fun t => dotv psi (outVec alpha fl (W.brules R t) p ow u))
      (∑ q ∈ range (dim * mf), outMesh alpha fl (W.brules R 0) p ow dim mf W.rev psi q * W.δ q) 0 := by
  simp only [C150_boundary_weak_form, fun t => (C150_outflux alpha fl (W.brules R t) p ow u psi).1, BRule.integral]
  constructor
  · have e : ∑ q ∈ range (dim * mf), bcMesh alpha h th (W.brules R 0) p ow dim mf W.rev u psi q * W.δ q =
        ∑ i ∈ range (R (2 * p + ow)).n, alpha * ((R (2 * p + ow)).pt i).w *
          (h * (field ((R (2 * p + ow)).pt i).shape u - th) * field ((R (2 * p + ow)).pt i).shape psi) *
          W.J' (2 * p + ow) i := by
      unfold bcMesh
      simp only
      rw [scatter_loop_dot]
      refine sum_congr rfl fun i _ => ?_
      rw [W.point]
      simp only [dot_field, bcSensOrder, WMotion.brules]
      ring
    rw [e]
    simp only [WMotion.brules]
    refine ((HasDerivAt.fun_sum fun i _ => ((W.hJ (2 * p + ow) i).const_mul _).mul_const _).const_mul
      alpha).congr_deriv ?_
    rw [mul_sum]
    exact sum_congr rfl fun i _ => by ring
  · have e : ∑ q ∈ range (dim * mf), outMesh alpha fl (W.brules R 0) p ow dim mf W.rev psi q * W.δ q =
        ∑ i ∈ range (R (2 * p + ow)).n, alpha * ((R (2 * p + ow)).pt i).w *
          (fl * field ((R (2 * p + ow)).pt i).shape psi) * W.J' (2 * p + ow) i := by
      unfold outMesh
      simp only
      rw [scatter_loop_dot]
      refine sum_congr rfl fun i _ => ?_
      rw [W.point]
      simp only [dot_field, bcSensOrder, WMotion.brules]
      ring
    rw [e]
    simp only [WMotion.brules]
    refine ((HasDerivAt.fun_sum fun i _ => ((W.hJ (2 * p + ow) i).const_mul _).mul_const _).const_mul
      alpha).congr_deriv ?_
    rw [mul_sum]
    exact sum_congr rfl fun i _ => by ring

end Verif.ThermalFaces
