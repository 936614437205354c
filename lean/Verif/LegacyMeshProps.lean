import Verif.LegacyMesh
import Verif.MeshSensProps
import Verif.LossesIntegProps
import Mathlib.Tactic.FieldSimp

/-! # Older mesh-sensitivity integrators: property theorems (C233) -/

set_option linter.unusedSectionVars false

namespace Verif.LegacyMesh
open Finset Verif.Sbp Verif.Dense Verif.Diffusion

variable {ndof dim m n : ℕ}

/-! ### Specification -/

/-- A coefficient seen along a motion of the mesh, with the reverse mode its `EvalRevDiff` must have. -/
structure QMotion (μ : Motion n dim m) where
  Q : ℕ → ℝ → ℝ
  Q' : ℕ → ℝ
  hQ : ∀ i < n, HasDerivAt (Q i) (Q' i) 0
  /-- `EvalRevDiff` -/
  qRev : ℕ → ℝ → ℕ → ℕ → ℝ
  hqRev : ∀ i < n, ∀ x, ∑ k ∈ range dim, ∑ j ∈ range m, qRev i x k j * μ.δ (k * m + j) = x * Q' i

/-- The points of the moved element. -/
def ptsAt (μ : Motion n dim m) (Q : ℕ → ℝ → ℝ) (w : ℕ → ℝ) (shape : ℕ → Vec ndof) (dshape : ℕ → Mat ndof dim) (t : ℝ) (i : ℕ) :
    LPt ndof dim := ⟨w i, shape i, dshape i, μ.J i t, μ.adj i t, Q i t⟩

/-- Value of the finite-element function with coefficients `v`. -/
def val (p : LPt ndof dim) (v : Vec ndof) : ℝ := ∑ r, v r * p.shape r

/-- Physical gradient of the finite-element function with coefficients `v`: `J⁻ᵀ ∇̂v = adjᵀ Dᵀ v / det J`. -/
noncomputable def grad (p : LPt ndof dim) (v : Vec ndof) : Vec dim := fun k => (∑ l, p.adj l k * ∑ r, p.dshape r l * v r) / p.J

/-- `∫ Q ψ`, the adjoint-weighted load of a `DomainLFIntegrator`. -/
def load (n : ℕ) (pt : ℕ → LPt ndof dim) (psi : Vec ndof) : ℝ := ∑ i ∈ range n, (pt i).w * (pt i).J * (pt i).Q * val (pt i) psi

/-- `∫ Q ψ u`, the adjoint-weighted `MassIntegrator`. -/
def mass (n : ℕ) (pt : ℕ → LPt ndof dim) (u psi : Vec ndof) : ℝ :=
  ∑ i ∈ range n, (pt i).w * (pt i).J * (pt i).Q * val (pt i) psi * val (pt i) u

/-- `∫ Q ∇ψ·∇u`, the adjoint-weighted `DiffusionIntegrator`. -/
noncomputable def diffusion (n : ℕ) (pt : ℕ → LPt ndof dim) (u psi : Vec ndof) : ℝ :=
  ∑ i ∈ range n, (pt i).w * (pt i).J * (pt i).Q * ∑ k, grad (pt i) psi k * grad (pt i) u k

/-- Product of a mesh sensitivity with the motion. -/
def along (μ : Motion n dim m) (v : ℕ → ℝ) : ℝ := ∑ q ∈ range (dim * m), v q * μ.δ q

/-! ### Auxiliary facts -/

theorem along_loop (μ : Motion n dim m) (P : ℕ → ℕ → ℕ → ℝ) :
    along μ (forN n (fun i => scatter m dim (P i)) fun _ => 0) =
      ∑ i ∈ range n, ∑ k ∈ range dim, ∑ j ∈ range m, P i k j * μ.δ (k * m + j) := scatter_loop_dot n m dim P μ.δ

theorem pair_w (μ : Motion n dim m) (i : ℕ) (hi : i < n) (c : ℝ) :
    ∑ k ∈ range dim, ∑ j ∈ range m, c * (0 + μ.wRev i 1 k j) * μ.δ (k * m + j) = c * μ.J' i := by
  have := μ.hwRev i hi 1
  rw [one_mul] at this
  rw [← this, mul_sum]
  refine sum_congr rfl fun k _ => ?_
  rw [mul_sum]
  exact sum_congr rfl fun j _ => by ring

theorem dot_val (p : LPt ndof dim) (v : Vec ndof) : dotv v p.shape = val p v := rfl

theorem val_at (μ : Motion n dim m) (Q : ℕ → ℝ → ℝ) (w : ℕ → ℝ) (shape : ℕ → Vec ndof) (dshape : ℕ → Mat ndof dim) (t : ℝ) (i : ℕ)
    (v : Vec ndof) : val (ptsAt μ Q w shape dshape t i) v = ∑ r, v r * shape i r := rfl

/-! ### Theorems -/

/-- **C233** The load integrator's mesh sensitivity is the derivative of the adjoint-weighted load along every motion of the mesh, including
the part that comes from the coefficient's dependence on position. -/
theorem C233_load (μ : Motion n dim m) (κ : QMotion μ) (w : ℕ → ℝ) (shape : ℕ → Vec ndof) (dshape : ℕ → Mat ndof dim) (psi : Vec ndof) :
    HasDerivAt (fun t => load n (ptsAt μ κ.Q w shape dshape t) psi)
      (along μ (domainRes n m (ptsAt μ κ.Q w shape dshape 0) μ.wRev κ.qRev psi)) 0 := by
  have h : along μ (domainRes n m (ptsAt μ κ.Q w shape dshape 0) μ.wRev κ.qRev psi) = ∑ i ∈ range n,
      w i * (κ.Q i 0 * (∑ r, psi r * shape i r) * μ.J' i + μ.J i 0 * (∑ r, psi r * shape i r) * κ.Q' i) := by
    unfold domainRes
    rw [along_loop]
    refine sum_congr rfl fun i hi => ?_
    have hi := mem_range.1 hi
    rw [← pair_w μ i hi, ← κ.hqRev i hi, ← sum_add_distrib, mul_sum]
    refine sum_congr rfl fun k _ => ?_
    rw [← sum_add_distrib, mul_sum]
    refine sum_congr rfl fun j _ => ?_
    simp only [dot_val, val_at]
    simp only [ptsAt]
    ring
  rw [h]
  unfold load
  refine HasDerivAt.fun_sum fun i hi => ?_
  have hi := mem_range.1 hi
  simp only [val_at]
  refine ((((μ.hJ i hi).const_mul (w i)).fun_mul (κ.hQ i hi)).mul_const (∑ r, psi r * shape i r)).congr_deriv ?_
  ring

/-- **C233** (partial: coefficients that do not change along the motion; see `C233_coefficient_false`.)  Mass. -/
theorem C233_mass_partial (hasQ : Bool) (μ : Motion n dim m) (Q : ℕ → ℝ) (h1 : hasQ = false → ∀ i < n, Q i = 1) (w : ℕ → ℝ)
    (shape : ℕ → Vec ndof) (dshape : ℕ → Mat ndof dim) (u psi : Vec ndof) :
    HasDerivAt (fun t => mass n (ptsAt μ (fun i _ => Q i) w shape dshape t) u psi)
      (along μ (massRes hasQ n m (ptsAt μ (fun i _ => Q i) w shape dshape 0) μ.wRev u psi)) 0 := by
  unfold massRes
  rw [along_loop]
  unfold mass
  refine HasDerivAt.fun_sum fun i hi => ?_
  have hi := mem_range.1 hi
  rw [pair_w μ i hi, dot_val, dotv_comm, dot_val]
  simp only [val_at]
  refine (((((μ.hJ i hi).const_mul (w i)).mul_const (Q i)).mul_const (∑ r, psi r * shape i r)).mul_const (∑ r, u r * shape i r)).congr_deriv ?_
  cases hasQ
  · simp only [ptsAt, Bool.false_eq_true, if_false, h1 rfl i hi]; ring
  · simp only [ptsAt, if_true]; ring

/-- **C233** (partial: coefficients that do not change along the motion; elements of full dimension.)  Diffusion. -/
theorem C233_diffusion_partial (hasQ : Bool) (μ : Motion n dim m) (Q : ℕ → ℝ) (h1 : hasQ = false → ∀ i < n, Q i = 1) (w : ℕ → ℝ)
    (shape : ℕ → Vec ndof) (dshape : ℕ → Mat ndof dim) (u psi : Vec ndof) (hJ : ∀ i < n, μ.J i 0 ≠ 0) :
    HasDerivAt (fun t => diffusion n (ptsAt μ (fun i _ => Q i) w shape dshape t) u psi)
      (along μ (diffusionRes hasQ n m (ptsAt μ (fun i _ => Q i) w shape dshape 0) μ.wRev μ.adjRev u psi)) 0 := by
  unfold diffusionRes
  rw [along_loop]
  unfold diffusion
  refine HasDerivAt.fun_sum fun i hi => ?_
  have hi := mem_range.1 hi
  set g : Vec dim := fun l => ∑ r, dshape i r l * psi r with hg
  set h : Vec dim := fun l => ∑ r, dshape i r l * u r with hh
  have hq : (if hasQ then w i / μ.J i 0 * Q i else w i / μ.J i 0) = w i / μ.J i 0 * Q i := by
    cases hasQ
    · simp [h1 rfl i hi]
    · rfl
  have hdq : (if hasQ then -w i / (μ.J i 0 * μ.J i 0) * Q i else -w i / (μ.J i 0 * μ.J i 0)) = -w i / (μ.J i 0 * μ.J i 0) * Q i := by
    cases hasQ
    · simp [h1 rfl i hi]
    · rfl
  have hsum : (∑ k ∈ range dim, ∑ j ∈ range m,
      (-w i / (μ.J i 0 * μ.J i 0) * Q i * dotv (mulTV (μ.adj i 0) g) (mulTV (μ.adj i 0) h) * (0 + μ.wRev i 1 k j) +
        μ.adjRev i (addVWt (w i / μ.J i 0 * Q i) h (mulTV (μ.adj i 0) g) (addVWt (w i / μ.J i 0 * Q i) g (mulTV (μ.adj i 0) h) zeroM)) k j) *
          μ.δ (k * m + j)) =
      -w i / (μ.J i 0 * μ.J i 0) * Q i * dotv (mulTV (μ.adj i 0) g) (mulTV (μ.adj i 0) h) * μ.J' i +
      w i / μ.J i 0 * Q i * (dotv (mulTV (μ.adj i 0) h) (mulTV (μ.adj' i) g) + dotv (mulTV (μ.adj i 0) g) (mulTV (μ.adj' i) h)) := by
    simp only [add_mul _ (μ.adjRev i _ _ _), sum_add_distrib]
    rw [pair_w μ i hi, μ.hadjRev i hi]
    congr 1
    have : (addVWt (w i / μ.J i 0 * Q i) h (mulTV (μ.adj i 0) g) (addVWt (w i / μ.J i 0 * Q i) g (mulTV (μ.adj i 0) h) zeroM)) =
        fun a b => (fun a b => g a * (w i / μ.J i 0 * Q i * mulTV (μ.adj i 0) h b)) a b +
          (fun a b => h a * (w i / μ.J i 0 * Q i * mulTV (μ.adj i 0) g b)) a b := by
      funext a b; unfold addVWt zeroM; ring
    rw [this, frob_add, frob_outer, frob_outer]
    unfold dotv
    rw [mul_add, mul_sum, mul_sum]
    congr 1 <;> exact sum_congr rfl fun k _ => by ring
  have hfun : (fun t => (ptsAt μ (fun i _ => Q i) w shape dshape t i).w * (ptsAt μ (fun i _ => Q i) w shape dshape t i).J *
      (ptsAt μ (fun i _ => Q i) w shape dshape t i).Q * ∑ k, grad (ptsAt μ (fun i _ => Q i) w shape dshape t i) psi k *
        grad (ptsAt μ (fun i _ => Q i) w shape dshape t i) u k) =
      fun t => w i * Q i * (dotv (mulTV (μ.adj i t) g) (mulTV (μ.adj i t) h) / μ.J i t) := by
    funext t
    simp only [ptsAt, grad]
    by_cases h0 : μ.J i t = 0
    · simp [h0]
    · unfold dotv mulTV
      rw [mul_sum, sum_div, mul_sum]
      refine sum_congr rfl fun k _ => ?_
      field_simp
      rfl
  rw [hfun]
  have hm : ∀ v : Vec dim, ∀ k, HasDerivAt (fun t => mulTV (μ.adj i t) v k) (mulTV (μ.adj' i) v k) 0 := fun v k =>
    HasDerivAt.fun_sum fun l _ => (μ.hadj i hi l k).mul_const (v l)
  refine (((hasDerivAt_dotv _ _ _ _ 0 (hm g) (hm h)).fun_div (μ.hJ i hi) (hJ i hi)).const_mul (w i * Q i)).congr_deriv ?_
  refine Eq.trans ?_ (hsum.symm.trans ?_)
  · have h0 := hJ i hi
    rw [dotv_comm (mulTV (μ.adj' i) g)]
    field_simp
    ring
  · rw [← hq, ← hdq]
    rfl

/-- **C233** (partial: vector coefficients that do not change along the motion.)  The boundary integrator: derivative of `∫ ψ Q·n dΓ` over the
faces of an element, in two and three dimensions. -/
theorem C233_boundary_normal_partial {d f nf : ℕ} (o : Verif.MeshSens.Ortho d f) (φ : Verif.MeshSens.FaceMotion nf d f m) (Q : ℕ → Vec d) (shape : ℕ → Vec ndof)
    (psi : Vec ndof) :
    HasDerivAt (fun t => ∑ i ∈ range nf, φ.w i * (∑ r, psi r * shape i r) * ∑ k, Q i k * o.ortho (φ.Jface i t) k)
      (∑ q ∈ range (d * m), bndNormalRes nf m (fun i => ⟨φ.w i, shape i, Q i, φ.Jface i 0, φ.inv i⟩) o.rev φ.jacRev psi q * φ.δ q) 0 := by
  unfold bndNormalRes
  rw [scatter_loop_dot]
  refine HasDerivAt.fun_sum fun i hi => ?_
  have hi := mem_range.1 hi
  simp only [zero_add]
  rw [φ.hjacRev i hi]
  have hR := Verif.MeshSens.jacMap_eq φ i hi
  simp only [hR]
  have hf : ∀ a b, HasDerivAt (fun t => φ.Jface i t a b) (mulM (φ.Jel' i) (φ.R i) a b) 0 := fun a b => by
    unfold Verif.MeshSens.FaceMotion.Jface mulM
    exact HasDerivAt.fun_sum fun l _ => (φ.hJel i hi a l).mul_const (φ.R i l b)
  have hn := o.hD (φ.Jface i) _ hf
  have hs := HasDerivAt.fun_sum (u := Finset.univ) fun k _ => (hn k).const_mul (Q i k)
  refine (hs.const_mul (φ.w i * ∑ r, psi r * shape i r)).congr_deriv ?_
  have := Verif.MeshSens.frob_multABt (o.rev (φ.Jface i 0) fun k => φ.w i * Q i k * dotv psi (shape i)) (φ.R i) (φ.Jel' i)
  unfold Verif.MeshSens.multABt at this
  rw [this, o.hrev]
  unfold dotv
  rw [mul_sum]
  exact sum_congr rfl fun k _ => by ring

/-- **C233** The test load: derivative of `Σ w Q`, if both are integrated with the same rule … -/
theorem C233_test_load (μ : Motion n dim m) (κ : QMotion μ) (w : ℕ → ℝ) (shape : ℕ → Vec ndof) (dshape : ℕ → Mat ndof dim) :
    HasDerivAt (fun t => testEnergy n (ptsAt μ κ.Q w shape dshape t)) (along μ (testMesh n m (ptsAt μ κ.Q w shape dshape 0) κ.qRev)) 0 := by
  unfold testMesh
  rw [along_loop]
  unfold testEnergy
  simp only [Verif.Losses.forN_real, zero_add]
  refine HasDerivAt.fun_sum fun i hi => ?_
  have hi := mem_range.1 hi
  refine ((κ.hQ i hi).const_mul (w i)).congr_deriv ?_
  have := κ.hqRev i hi 1
  rw [one_mul] at this
  rw [← this, mul_sum]
  refine sum_congr rfl fun k _ => ?_
  rw [mul_sum]
  refine sum_congr rfl fun j _ => ?_
  simp only [ptsAt]
  ring

/-- **C233** … which is the case for elements of order four and no others. -/
theorem C233_test_rules (order : ℕ) : (testRules order).1 = (testRules order).2 ↔ order = 4 := by
  simp only [testRules]; omega

/-! ### A concrete element, and the missing coefficient derivative -/

/-- The unit triangle's gradients; scaled by the motion. -/
def dN : ℕ → ℕ → Fin 2 → ℝ := fun _ j l => if j = 0 then -1 else if j = 1 ∧ l = 0 then 1 else if j = 2 ∧ l = 1 then 1 else 0

/-- The triangle (0,0), (1,0), (0,1), moved along (1, 0). -/
def tX : ℕ → ℝ := fun q => if q = 1 ∨ q = 5 then 1 else 0

noncomputable def shifted : Motion 1 2 3 := isoMotion 1 3 dN tX fun q => if q < 3 then 1 else 0

theorem shifted_J' : shifted.J' 0 = 0 := by
  simp [shifted, isoMotion, isoJac, dN, tX, sum_range_succ]

theorem shifted_J : shifted.J 0 0 = 1 := by
  simp [shifted, isoMotion, isoJac, det2, dN, tX, sum_range_succ]

/-- **C233** For a coefficient that depends on the position the mass sensitivity is wrong (`Q = x` on a triangle shifted along `x`; the
comment in the code says it must be tailored to the coefficient). -/
theorem C233_coefficient_false : ¬∀ (μ : Motion 1 2 3) (κ : QMotion μ) (w : ℕ → ℝ) (shape : ℕ → Vec 3) (dshape : ℕ → Mat 3 2) (u psi : Vec 3),
    HasDerivAt (fun t => mass 1 (ptsAt μ κ.Q w shape dshape t) u psi)
      (along μ (massRes true 1 3 (ptsAt μ κ.Q w shape dshape 0) μ.wRev u psi)) 0 := by
  intro h
  have hd : shifted.δ = fun q => if q < 3 then (1 : ℝ) else 0 := rfl
  let κ : QMotion shifted :=
    { Q := fun _ t => 1 / 3 + t
      Q' := fun _ => 1
      hQ := fun _ _ => (hasDerivAt_id (0 : ℝ)).const_add (1 / 3)
      qRev := fun _ x k _ => if k = 0 then x / 3 else 0
      hqRev := by
        intro i _ x
        simp [hd, sum_range_succ]; ring }
  have h1 := h shifted κ (fun _ => 1) (fun _ _ => 1) (fun _ _ _ => 0) (fun r => if r = 0 then 1 else 0) (fun r => if r = 0 then 1 else 0)
  have hz : along shifted (massRes true 1 3 (ptsAt shifted κ.Q (fun _ => 1) (fun _ _ => 1) (fun _ _ _ => 0) 0) shifted.wRev
      (fun r : Fin 3 => if r = 0 then (1 : ℝ) else 0) (fun r => if r = 0 then 1 else 0)) = 0 := by
    unfold massRes
    rw [along_loop]
    refine sum_eq_zero fun i hi => ?_
    have hi' : i = 0 := by simpa using hi
    subst hi'
    rw [pair_w shifted 0 (by decide), shifted_J', mul_zero]
  rw [hz] at h1
  have hf : (fun t => mass 1 (ptsAt shifted κ.Q (fun _ => 1) (fun _ _ => 1) (fun _ _ _ => 0) t) (fun r : Fin 3 => if r = 0 then (1 : ℝ) else 0)
      (fun r => if r = 0 then 1 else 0)) = fun t => shifted.J 0 t * (1 / 3 + t) := by
    funext t
    simp [mass, ptsAt, val, κ]
  rw [hf] at h1
  have h2 := (shifted.hJ 0 (by decide)).fun_mul (κ.hQ 0 (by decide))
  have := h1.unique h2
  rw [shifted_J', shifted_J] at this
  norm_num [κ] at this

/-- Hypotheses of the diffusion theorem on that element. -/
example : shifted.J 0 0 ≠ 0 := by rw [shifted_J]; norm_num

/-! ### Rules -/

/-- **C233** (partial: objects made with the two numbers; see `C233_rule_false`.)  The load sensitivity is integrated with a rule of order
`a · order + b` for the `a` and `b` the caller gave, for elements of every order. -/
theorem C233_rule_partial (a b order : ℕ) : (domainResOfOrders a b).ruleOrder order = a * order + b := rfl

/-- **C233 is false for objects made with an integration rule**: for elements of every order there is a rule that, given to the
constructor, is not the one used. -/
theorem C233_rule_false (order : ℕ) : ∃ q : ℕ, (domainResOfRule q).ruleOrder order ≠ q :=
  ⟨order + 2, by show 1 * order + 1 ≠ order + 2; omega⟩

/-- Whatever rule is given, quadratic elements are integrated with order three. -/
example (q : ℕ) : (domainResOfRule q).ruleOrder 2 = 3 := rfl

end Verif.LegacyMesh
