import Mathlib.LinearAlgebra.Matrix.NonsingularInverse
import Mathlib.Analysis.Calculus.Deriv.Pow
import Mathlib.Analysis.Calculus.Deriv.Add
import Mathlib.Analysis.Calculus.Deriv.Mul
import Mathlib.Analysis.Calculus.Deriv.Comp
import Mathlib.Analysis.Calculus.Deriv.Pi
import Mathlib.Tactic.Linarith
import Mathlib.Tactic.Ring
import Mathlib.Tactic.Module
import Mathlib.Tactic.FieldSimp
import Verif.NonlinearFormProps
import Verif.UnsteadyProps
import Verif.Evolver

/-! # `MISOEvolver`: property theorems (C180–C182) -/

set_option linter.unusedSectionVars false
set_option linter.unusedSimpArgs false

namespace Verif.Evolver

open Verif.NLForm Matrix

variable {n : ℕ}

/-! ### Specification -/

/-- The assembled gradient of a form is its derivative, in every direction at every point. -/
def NForm.Exact (F : NForm n) : Prop := ∀ u v, HasDerivAt (fun t : ℝ => F.f (u + t • v)) (F.grad u *ᵥ v) 0

/-- The semi-discrete equation of an implicit stage with slope `k`: mass term plus residual at `x + dt k` plus load. -/
noncomputable def stage (massTerm : Vec n) (R : Vec n → Vec n) (load : Option (Vec n)) (dt : ℝ) (x k : Vec n) : Vec n :=
  massTerm + R (x + dt • k) + load.getD 0

/-- A constructed evolver. -/
def Built (p : Parts n) (e : Ev n) : Prop := ∃ junk, construct p junk = some e

theorem built_facts {p : Parts n} {e : Ev n} (h : Built p e) : e.parts = p ∧ ¬ (p.mass.isSome ∧ p.nmass.isSome) ∧ e.mass = p.mass ∧
    e.stiff = p.stiff.map (elim p.ess) ∧ (p.res.isSome → e.sysEss = p.ess) := by
  obtain ⟨junk, h⟩ := h
  unfold construct at h
  by_cases hc : p.mass.isSome ∧ p.nmass.isSome
  · rw [if_pos hc] at h; exact absurd h (by simp)
  rw [if_neg hc] at h
  simp only [Option.some.injEq] at h
  subst h
  have h0 : ∀ A : Mat n, elim ∅ A = A := by intro A; funext i j; simp [elim]
  refine ⟨rfl, hc, ?_, ?_, fun hr => ?_⟩
  · cases hm : p.mass with
    | none => rfl
    | some M => simp [h0]
  · cases hs : p.stiff with
    | none => rfl
    | some S => simp
  · simp [hr]

/-- **C182** The constructor refuses exactly the combination of a linear and a nonlinear mass form. -/
theorem C182_constructor (p : Parts n) (junk : Vec n) : construct p junk = none ↔ p.mass.isSome ∧ p.nmass.isSome := by
  unfold construct
  split_ifs with h
  · simp [h]
  · simp [h]

/-! ### The implicit system -/

/-- **C180** With a linear mass form the system operator is `M k + R(x + dt k) + load` on the free dofs and zero on the essential ones. -/
theorem C180_system (p : Parts n) (e : Ev n) (h : Built p e) (M : Mat n) (hM : p.mass = some M) (R : NForm n) (hR : p.res = some R)
    (dt dts : ℝ) (x k : Vec n) : sysMult e dt dts x k =
      some (fun i => if i ∈ p.ess then 0 else stage (M *ᵥ k) R.f p.load dt x k i) := by
  obtain ⟨h1, h2, -, -, h5⟩ := built_facts h
  have hn : p.nmass = none := by
    cases hn : p.nmass with
    | none => rfl
    | some N => exact absurd ⟨by rw [hM]; rfl, by rw [hn]; rfl⟩ h2
  have he := h5 (by rw [hR]; rfl)
  unfold sysMult
  rw [h1, hR]
  simp only [hn, hM, he]
  congr 1
  funext i
  unfold stage zeroEss
  cases hl : p.load with
  | none =>
    simp only [Option.getD_none, Pi.add_apply, Pi.zero_apply]
    split_ifs <;> ring
  | some l =>
    simp only [Option.getD_some, Pi.add_apply, Pi.zero_apply]
    split_ifs <;> ring

theorem elim_mulVec_free (ess : Finset (Fin n)) (A : Mat n) (v : Vec n) (hv : ∀ i ∈ ess, v i = 0) (i : Fin n) (hi : i ∉ ess) :
    (elim ess A *ᵥ v) i = (A *ᵥ v) i := by
  simp only [Matrix.mulVec, dotProduct]
  refine Finset.sum_congr rfl fun j _ => ?_
  by_cases hj : j ∈ ess
  · rw [hv j hj, mul_zero, mul_zero]
  · simp [elim, hi, hj]

theorem elim_mulVec_ess (ess : Finset (Fin n)) (A : Mat n) (v : Vec n) (i : Fin n) (hi : i ∈ ess) : (elim ess A *ᵥ v) i = v i := by
  simp [Matrix.mulVec, dotProduct, elim, hi]

theorem hasDeriv_shift (F : NForm n) (hF : F.Exact) (x k v : Vec n) (s : ℝ) :
    HasDerivAt (fun t : ℝ => F.f (x + s • (k + t • v))) (s • (F.grad (x + s • k) *ᵥ v)) 0 := by
  have h := hF (x + s • k) (s • v)
  rw [Matrix.mulVec_smul] at h
  refine h.congr_of_eventuallyEq (Filter.Eventually.of_forall fun t => ?_)
  show F.f (x + s • (k + t • v)) = F.f (x + s • k + t • s • v)
  congr 1
  module

/-- **C180** `GetGradient` is the derivative of the system operator on the free dofs, for a linear mass form … -/
theorem C180_gradient_linear (p : Parts n) (e : Ev n) (h : Built p e) (M : Mat n) (hM : p.mass = some M) (R : NForm n)
    (hR : p.res = some R) (hE : R.Exact) (dt dts : ℝ) (x k v : Vec n) (hv : ∀ i ∈ p.ess, v i = 0) :
    ∃ G, sysGrad e dt dts x k = some G ∧ (∀ i ∈ p.ess, ∀ w, (G *ᵥ w) i = w i) ∧
      ∀ i, i ∉ p.ess → HasDerivAt (fun t : ℝ => (sysMult e dt dts x (k + t • v)).getD 0 i) ((G *ᵥ v) i) 0 := by
  obtain ⟨h1, h2, -, -, h5⟩ := built_facts h
  have hn : p.nmass = none := by
    cases hn : p.nmass with
    | none => rfl
    | some N => exact absurd ⟨by rw [hM]; rfl, by rw [hn]; rfl⟩ h2
  have he := h5 (by rw [hR]; rfl)
  refine ⟨elim p.ess (M + dt • R.grad (x + dt • k)), ?_, fun i hi w => elim_mulVec_ess _ _ _ _ hi, fun i hi => ?_⟩
  · unfold sysGrad
    rw [h1, hR]
    simp only [hn, hM, he]
  · rw [elim_mulVec_free _ _ _ hv _ hi]
    have e1 : (fun t : ℝ => (sysMult e dt dts x (k + t • v)).getD 0 i) = fun t : ℝ =>
        (M *ᵥ k) i + t * (M *ᵥ v) i + R.f (x + dt • (k + t • v)) i + (p.load.getD 0) i := by
      funext t
      rw [C180_system p e h M hM R hR]
      simp only [Option.getD_some, if_neg hi, stage, Pi.add_apply, Matrix.mulVec_add, Matrix.mulVec_smul, Pi.smul_apply, smul_eq_mul]
    rw [e1, Matrix.add_mulVec, Matrix.smul_mulVec]
    have d1 := hasDerivAt_pi.1 (hasDeriv_shift R hE x k v dt) i
    have d2 : HasDerivAt (fun t : ℝ => (M *ᵥ k) i + t * (M *ᵥ v) i) ((M *ᵥ v) i) 0 := by
      simpa using ((hasDerivAt_id (0 : ℝ)).mul_const ((M *ᵥ v) i)).const_add ((M *ᵥ k) i)
    exact (d2.add d1).add_const _

/-- **C180** … and for a nonlinear one, with any nonzero stage step. -/
theorem C180_gradient_nonlinear (p : Parts n) (e : Ev n) (h : Built p e) (N : NForm n) (hN : p.nmass = some N) (hNE : N.Exact)
    (R : NForm n) (hR : p.res = some R) (hE : R.Exact) (dt dts : ℝ) (hs : dts ≠ 0) (x k v : Vec n) (hv : ∀ i ∈ p.ess, v i = 0) :
    ∃ G, sysGrad e dt dts x k = some G ∧
      ∀ i, i ∉ p.ess → HasDerivAt (fun t : ℝ => (sysMult e dt dts x (k + t • v)).getD 0 i) ((G *ᵥ v) i) 0 := by
  obtain ⟨h1, h2, -, -, h5⟩ := built_facts h
  have hm : p.mass = none := by
    cases hm : p.mass with
    | none => rfl
    | some M => exact absurd ⟨by rw [hm]; rfl, by rw [hN]; rfl⟩ h2
  have he := h5 (by rw [hR]; rfl)
  refine ⟨elim p.ess (N.grad (x + dts • k) + dt • R.grad (x + dt • k)), ?_, fun i hi => ?_⟩
  · unfold sysGrad
    rw [h1, hR]
    simp only [hN, hm, he]
  · rw [elim_mulVec_free _ _ _ hv _ hi]
    have e1 : (fun t : ℝ => (sysMult e dt dts x (k + t • v)).getD 0 i) = fun t : ℝ =>
        1 / dts * (N.f (x + dts • (k + t • v)) i - N.f x i) + R.f (x + dt • (k + t • v)) i + (p.load.getD 0) i := by
      funext t
      unfold sysMult
      rw [h1, hR]
      simp only [hN, hm, he]
      cases hl : p.load with
      | none => simp only [Option.getD_some, Option.getD_none, Pi.add_apply, Pi.smul_apply, Pi.sub_apply, smul_eq_mul, Pi.zero_apply, add_zero]
      | some l => simp only [Option.getD_some, zeroEss, if_neg hi, Pi.add_apply, Pi.smul_apply, Pi.sub_apply, smul_eq_mul]
    rw [e1, Matrix.add_mulVec, Matrix.smul_mulVec]
    have d1 := hasDerivAt_pi.1 (hasDeriv_shift R hE x k v dt) i
    have d2 := ((hasDerivAt_pi.1 (hasDeriv_shift N hNE x k v dts) i).sub_const (N.f x i)).const_mul (1 / dts)
    have e2 : 1 / dts * (dts • (N.grad (x + dts • k) *ᵥ v)) i = (N.grad (x + dts • k) *ᵥ v) i := by
      rw [Pi.smul_apply, smul_eq_mul]; field_simp
    rw [e2] at d2
    exact (d2.add d1).add_const _

/-- The identity as a form. -/
noncomputable def idForm : NForm n := ⟨fun u => u, fun _ => 1⟩

theorem idForm_exact : (idForm (n := n)).Exact := by
  intro u v
  show HasDerivAt (fun t : ℝ => u + t • v) ((1 : Mat n) *ᵥ v) 0
  rw [Matrix.one_mulVec, hasDerivAt_pi]
  intro i
  simpa using ((hasDerivAt_id (0 : ℝ)).mul_const (v i)).const_add (u i)

/-- **C180** Without a mass form the gradient is not the derivative: it lacks the factor `dt`. -/
theorem C180_gradient_false : ∃ (p : Parts 1) (e : Ev 1), Built p e ∧ p.res = some idForm ∧
    ∀ (x k : Vec 1), sysGrad e 2 (-1) x k = some 1 ∧
      HasDerivAt (fun t : ℝ => (sysMult e 2 (-1) x (k + t • fun _ => 1)).getD 0 0) 2 0 := by
  refine ⟨⟨none, none, some idForm, none, none, none, fun _ => 0, ∅, true⟩, ⟨⟨none, none, some idForm, none, none, none, fun _ => 0, ∅, true⟩,
    none, none, ∅, 0⟩, ⟨0, rfl⟩, rfl, fun x k => ⟨?_, ?_⟩⟩
  · unfold sysGrad
    simp only
    congr 1
  · have : (fun t : ℝ => (sysMult (⟨⟨none, none, some idForm, none, none, none, fun _ => 0, ∅, true⟩, none, none, ∅, 0⟩ : Ev 1) 2 (-1) x
        (k + t • fun _ => 1)).getD 0 0) = fun t : ℝ => x 0 + 2 * (k 0 + t) := by
      funext t
      simp [sysMult, idForm]
      try ring
    rw [this]
    simpa using (((hasDerivAt_id (0 : ℝ)).const_add (k 0)).const_mul 2).const_add (x 0)

/-! ### `ImplicitSolve` -/

theorem newtonLoop_zero (N : Newton n) (F : Vec n → Vec n) (G : Vec n → Mat n) (goal : ℝ) (k : Vec n) :
    newtonLoop N F G goal 0 k = if Steady.norm2 (F k) ≤ goal then (k, true) else (k, false) := by rw [newtonLoop]

theorem newtonLoop_succ (N : Newton n) (F : Vec n → Vec n) (G : Vec n → Mat n) (goal : ℝ) (left : ℕ) (k : Vec n) :
    newtonLoop N F G goal (left + 1) k = if Steady.norm2 (F k) ≤ goal then (k, true) else
      (if N.scal k (N.lin (G k) (F k)) = 0 then (k, false) else
        newtonLoop N F G goal left (k - N.scal k (N.lin (G k) (F k)) • N.lin (G k) (F k))) := by rw [newtonLoop]

/-- Every iterate has a property that Newton corrections keep; and convergence means the residual is within the goal. -/
theorem newtonLoop_facts (N : Newton n) (F : Vec n → Vec n) (G : Vec n → Mat n) (goal : ℝ) (I : Vec n → Prop)
    (hI : ∀ (k : Vec n) (s : ℝ), I k → I (k - s • N.lin (G k) (F k))) : ∀ (left : ℕ) (k : Vec n), I k →
      I (newtonLoop N F G goal left k).1 ∧
      ((newtonLoop N F G goal left k).2 = true → Steady.norm2 (F (newtonLoop N F G goal left k).1) ≤ goal) := by
  intro left
  induction left with
  | zero =>
    intro k hk
    rw [newtonLoop_zero]
    split_ifs with h
    · exact ⟨hk, fun _ => h⟩
    · exact ⟨hk, fun h' => absurd h' (by simp)⟩
  | succ left ih =>
    intro k hk
    rw [newtonLoop_succ]
    split_ifs with h h'
    · exact ⟨hk, fun _ => h⟩
    · exact ⟨hk, fun h' => absurd h' (by simp)⟩
    · exact ih _ (hI _ _ hk)

/-- **C181** `ImplicitSolve` with a linear mass form.  It ends in one of two ways: the verification fails (only if requested and not
converged), or it returns; the slope then solves `M k + R(x + dt k) + load = 0` on the free dofs to the tolerance if the solver converged —
in particular whenever convergence is verified.  The slope does not depend on what `k` held, and the solver's `iterative_mode` is as before. -/
theorem C181_implicit_linear (p : Parts n) (e : Ev n) (h : Built p e) (M : Mat n) (hM : p.mass = some M) (R : NForm n)
    (hR : p.res = some R) (N : Newton n) (dt : ℝ) (x : Vec n) :
    let eq := fun k : Vec n => fun i => if i ∈ p.ess then 0 else stage (M *ᵥ k) R.f p.load dt x k i
    ∃ (k : Vec n) (conv : Bool), (∀ k0, implicitSolve e N dt x k0 = if p.abort ∧ conv = false then .abort else .ok k N) ∧
      (conv = true → Steady.norm2 (eq k) ≤ max (N.relTol * Steady.norm2 (eq 0)) N.absTol) := by
  intro eq
  have hF : ∀ k, (sysMult e dt (-1) x k).getD 0 = eq k := fun k => by rw [C180_system p e h M hM R hR]; rfl
  have h1 := (built_facts h).1
  obtain ⟨r, hr⟩ : ∃ r, r = newtonLoop { N with iterative := false } (fun k => (sysMult e dt (-1) x k).getD 0)
    (fun k => (sysGrad e dt (-1) x k).getD 0) (max (N.relTol * Steady.norm2 (eq 0)) N.absTol) N.maxIter 0 := ⟨_, rfl⟩
  refine ⟨r.1, r.2, fun k0 => ?_, fun hc => ?_⟩
  · have e1 : newtonMult { N with iterative := false } (fun k => (sysMult e dt (-1) x k).getD 0)
        (fun k => (sysGrad e dt (-1) x k).getD 0) k0 = r := by
      rw [hr, ← hF 0]
      rfl
    unfold implicitSolve
    rw [h1, hR]
    simp only [e1]
    cases p.abort <;> cases r.2 <;> simp
  · have := (newtonLoop_facts { N with iterative := false } (fun k => (sysMult e dt (-1) x k).getD 0)
      (fun k => (sysGrad e dt (-1) x k).getD 0) (max (N.relTol * Steady.norm2 (eq 0)) N.absTol) (fun _ => True) (fun _ _ _ => trivial)
      N.maxIter 0 trivial).2
    rw [← hr] at this
    have h2 := this hc
    simp only [hF] at h2
    exact h2

/-- **C181** With exact linear solves the slope vanishes on the essential dofs, so an implicit step (`x + dt k`) keeps the prescribed
values, converged or not. -/
theorem C181_essential_kept (p : Parts n) (e : Ev n) (h : Built p e) (M : Mat n) (hM : p.mass = some M) (R : NForm n)
    (hR : p.res = some R) (N : Newton n) (dt : ℝ) (x k0 : Vec n)
    (hlin : ∀ k G, sysGrad e dt (-1) x k = some G → ∀ r, G *ᵥ N.lin G r = r) :
    ∀ k N', implicitSolve e N dt x k0 = .ok k N' → ∀ i ∈ p.ess, (x + dt • k) i = x i := by
  intro k N' hk i hi
  have h1 := (built_facts h).1
  have he := (built_facts h).2.2.2.2 (by rw [hR]; rfl)
  obtain ⟨r, hr⟩ : ∃ r, r = newtonMult { N with iterative := false } (fun k => (sysMult e dt (-1) x k).getD 0)
    (fun k => (sysGrad e dt (-1) x k).getD 0) k0 := ⟨_, rfl⟩
  have hkr : k = r.1 := by
    unfold implicitSolve at hk
    rw [h1, hR] at hk
    simp only [← hr] at hk
    split_ifs at hk
    · exact (Out.ok.inj hk).1.symm
    · exact (Out.ok.inj hk).1.symm
  have hz : ∀ j ∈ p.ess, r.1 j = 0 := by
    rw [hr]
    refine (newtonLoop_facts { N with iterative := false } _ _ _ (fun k => ∀ j ∈ p.ess, k j = 0) (fun k s hk j hj => ?_)
      N.maxIter 0 (fun j _ => rfl)).1
    obtain ⟨G, hG⟩ : ∃ G, sysGrad e dt (-1) x k = some G := by
      unfold sysGrad; rw [h1, hR]; exact ⟨_, rfl⟩
    simp only [hG, Option.getD_some]
    have hc := congrFun (hlin k G hG ((sysMult e dt (-1) x k).getD 0)) j
    have hGj : ∀ w : Vec n, (G *ᵥ w) j = w j := by
      intro w
      have : ∃ A, G = elim p.ess A := by
        unfold sysGrad at hG
        rw [h1, hR] at hG
        simp only [Option.some.injEq] at hG
        exact ⟨_, by rw [← hG, he]⟩
      obtain ⟨A, rfl⟩ := this
      exact elim_mulVec_ess _ _ _ _ hj
    rw [hGj, C180_system p e h M hM R hR] at hc
    simp only [Option.getD_some, if_pos hj] at hc
    rw [C180_system p e h M hM R hR]
    show k j - s * N.lin G _ j = 0
    rw [Option.getD_some, hc, hk j hj, mul_zero, sub_zero]
  show x i + dt * k i = x i
  rw [hkr, hz i hi, mul_zero, add_zero]

/-- **C181** Without a residual form the call dereferences a null pointer. -/
theorem C181_crash (p : Parts n) (e : Ev n) (h : Built p e) (hR : p.res = none) (N : Newton n) (dt : ℝ) (x k0 : Vec n) :
    implicitSolve e N dt x k0 = .crash := by
  unfold implicitSolve
  rw [(built_facts h).1, hR]

/-- The scalar forms `u²` and `-3`. -/
noncomputable def sqForm : NForm 1 := ⟨fun u _ => u 0 ^ 2, fun u => fun _ _ => 2 * u 0⟩
/-- See `sqForm`. -/
noncomputable def cForm : NForm 1 := ⟨fun _ _ => -3, fun _ => 0⟩

theorem sqForm_exact : sqForm.Exact := by
  intro u v
  rw [hasDerivAt_pi]
  intro i
  have h0 : i = 0 := Subsingleton.elim _ _
  subst h0
  show HasDerivAt (fun t : ℝ => (u 0 + t * v 0) ^ 2) _ 0
  have h := (((hasDerivAt_id (0 : ℝ)).mul_const (v 0)).const_add (u 0)).fun_pow 2
  have e : (sqForm.grad u *ᵥ v) 0 = ((2 : ℕ) : ℝ) * (u 0 + id 0 * v 0) ^ (2 - 1) * (1 * v 0) := by
    simp [Matrix.mulVec, dotProduct, sqForm]
  rw [e]
  exact h

theorem norm2_one (v : Vec 1) : Steady.norm2 v = |v 0| := by
  unfold Steady.norm2
  rw [show (∑ i, v i * v i) = v 0 * v 0 by simp]
  exact Real.sqrt_mul_self_eq_abs _

/-- **C181** With a nonlinear mass form the implicit stage is not backward Euler: the stage step is never passed, so the mass term is
`N(x) - N(x - k)` whatever `dt`.  For `(u²)' = 3` from `u = 1` with `dt = 1` the backward Euler slope is `k = 1`; the equation the code
solves has no solution, and with the check for convergence enabled every call aborts, whatever the Newton solver. -/
theorem C181_nonlinear_mass_false : ∃ (p : Parts 1) (e : Ev 1), Built p e ∧ p.nmass = some sqForm ∧ p.res = some cForm ∧ p.ess = ∅ ∧
    (1 / (1 : ℝ)) • (sqForm.f ((fun _ => 1) + (1 : ℝ) • fun _ => 1) - sqForm.f (fun _ => 1)) +
      cForm.f ((fun _ => 1) + (1 : ℝ) • fun _ => 1) = 0 ∧
    ∀ (N : Newton 1) (k0 : Vec 1), N.absTol < 2 → N.relTol < 1 / 2 → implicitSolve e N 1 (fun _ => 1) k0 = .abort := by
  refine ⟨⟨some sqForm, none, some cForm, none, none, none, fun _ => 0, ∅, true⟩, ⟨⟨some sqForm, none, some cForm, none, none, none,
    fun _ => 0, ∅, true⟩, none, none, ∅, 0⟩, ⟨0, rfl⟩, rfl, rfl, rfl, ?_, ?_⟩
  · funext i
    simp [sqForm, cForm]
    norm_num
  · intro N k0 hN hN2
    obtain ⟨e, he⟩ : ∃ e : Ev 1, e = ⟨⟨some sqForm, none, some cForm, none, none, none, fun _ => 0, ∅, true⟩, none, none, ∅, 0⟩ := ⟨_, rfl⟩
    rw [← he]
    have hF : ∀ k : Vec 1, (sysMult e 1 (-1) (fun _ => 1) k).getD 0 0 = -(k 0 - 1) ^ 2 - 2 := by
      intro k
      rw [he]
      simp [sysMult, sqForm, cForm]
      ring
    have h0 : Steady.norm2 ((sysMult e 1 (-1) (fun _ => 1) 0).getD 0) = 3 := by
      rw [norm2_one, hF]; norm_num
    have hge : ∀ k : Vec 1, 2 ≤ Steady.norm2 ((sysMult e 1 (-1) (fun _ => 1) k).getD 0) := by
      intro k
      rw [norm2_one, hF, abs_of_neg (by nlinarith [sq_nonneg (k 0 - 1)])]
      nlinarith [sq_nonneg (k 0 - 1)]
    obtain ⟨r, hr⟩ : ∃ r, r = newtonMult { N with iterative := false } (fun k => (sysMult e 1 (-1) (fun _ => 1) k).getD 0)
      (fun k => (sysGrad e 1 (-1) (fun _ => 1) k).getD 0) k0 := ⟨_, rfl⟩
    have hc : r.2 = false := by
      by_contra hcon
      have ht : r.2 = true := by simpa using hcon
      have hf := (newtonLoop_facts { N with iterative := false } (fun k => (sysMult e 1 (-1) (fun _ => 1) k).getD 0)
        (fun k => (sysGrad e 1 (-1) (fun _ => 1) k).getD 0)
        (max (N.relTol * Steady.norm2 ((sysMult e 1 (-1) (fun _ => 1) 0).getD 0)) N.absTol) (fun _ => True) (fun _ _ _ => trivial)
        N.maxIter 0 trivial).2
      have hr' : r = newtonLoop { N with iterative := false } (fun k => (sysMult e 1 (-1) (fun _ => 1) k).getD 0)
        (fun k => (sysGrad e 1 (-1) (fun _ => 1) k).getD 0)
        (max (N.relTol * Steady.norm2 ((sysMult e 1 (-1) (fun _ => 1) 0).getD 0)) N.absTol) N.maxIter 0 := hr
      rw [← hr'] at hf
      have h2 := hf ht
      have h3 := hge r.1
      rw [h0] at h2
      rcases le_max_iff.1 (h3.trans h2) with h4 | h4
      · linarith
      · linarith
    unfold implicitSolve
    have hp : e.parts.res = some cForm := by rw [he]
    have ha : e.parts.abort = true := by rw [he]
    rw [hp]
    simp only [← hr, hc, ha]
    simp

/-- **C181** What is true with a nonlinear mass form: when `N` is affine, the stage step does not matter and the system is the
backward Euler one. -/
theorem C181_nonlinear_mass_partial (p : Parts n) (e : Ev n) (h : Built p e) (N : NForm n) (A : Mat n) (hN : p.nmass = some N)
    (hA : ∀ u v, N.f v = N.f u + A *ᵥ (v - u)) (R : NForm n) (hR : p.res = some R) (dt dts : ℝ) (hs : dts ≠ 0) (x k : Vec n)
    (i : Fin n) (hi : i ∉ p.ess) :
    ∃ r, sysMult e dt dts x k = some r ∧ r i = stage (A *ᵥ k) R.f p.load dt x k i := by
  obtain ⟨h1, h2, -, -, h5⟩ := built_facts h
  have hm : p.mass = none := by
    cases hm : p.mass with
    | none => rfl
    | some M => exact absurd ⟨by rw [hm]; rfl, by rw [hN]; rfl⟩ h2
  have he := h5 (by rw [hR]; rfl)
  have e1 : (1 / dts) • (N.f (x + dts • k) - N.f x) = A *ᵥ k := by
    rw [hA x (x + dts • k), add_sub_cancel_left, add_sub_cancel_left, Matrix.mulVec_smul, smul_smul, one_div, inv_mul_cancel₀ hs, one_smul]
  unfold sysMult
  rw [h1, hR]
  simp only [hN, hm, he, e1]
  refine ⟨_, rfl, ?_⟩
  unfold stage
  cases hl : p.load with
  | none => simp
  | some l => simp [zeroEss, hi]

/-! ### The explicit operator -/

/-- The mass solver is exact. -/
def CgExact (cg : Mat n → Vec n → Vec n) : Prop := ∀ A r, IsUnit (Matrix.det A) → A *ᵥ cg A r = r

/-- **C182** `Mult` with a residual form, without essential boundaries: `M y = -(R(x) + K x + load)`, whatever was computed before. -/
theorem C182_explicit_partial (cg : Mat n → Vec n → Vec n) (hcg : CgExact cg) (p : Parts n) (e : Ev n) (h : Built p e) (w : Vec n)
    (M : Mat n) (hM : p.mass = some M) (hdet : IsUnit (Matrix.det M)) (R : NForm n) (hR : p.res = some R) (hess : p.ess = ∅) (x : Vec n) :
    ∃ e' y, mult cg { e with work := w } x = some (e', y) ∧
      M *ᵥ y = -(R.f x + (p.stiff.getD 0) *ᵥ x + p.load.getD 0) := by
  obtain ⟨h1, h2, h3, h4, -⟩ := built_facts h
  have hn : p.nmass = none := by
    cases hn : p.nmass with
    | none => rfl
    | some N => exact absurd ⟨by rw [hM]; rfl, by rw [hn]; rfl⟩ h2
  have h0 : ∀ A : Mat n, elim ∅ A = A := by intro A; funext i j; simp [elim]
  have hst : e.stiff = p.stiff := by
    rw [h4, hess]
    cases p.stiff with
    | none => rfl
    | some S => simp [h0]
  unfold mult
  simp only [h1, hn, hR, hst, h3, hM, Option.isSome_none, Bool.false_eq_true, if_false]
  refine ⟨_, _, rfl, ?_⟩
  rw [Matrix.mulVec_smul, hcg M _ hdet]
  cases p.stiff <;> cases p.load <;> simp <;> abel

/-- **C182** Essential dofs are not kept by the explicit operator: with mass and stiffness and no load the slope at an essential dof is minus
the state there (identity mass matrix), so the prescribed value decays. -/
theorem C182_essential_false (cg : Mat n → Vec n → Vec n) (hcg : CgExact cg) (p : Parts n) (e : Ev n) (h : Built p e)
    (hM : p.mass = some 1) (S : Mat n) (hS : p.stiff = some S) (hl : p.load = none) (R : NForm n) (hR : p.res = some R) (x : Vec n)
    (i : Fin n) (hi : i ∈ p.ess) (hRi : R.f x i = 0) (dt : ℝ) :
    ∃ e' y, mult cg e x = some (e', y) ∧ (x + dt • y) i = (1 - dt) * x i := by
  obtain ⟨h1, h2, h3, h4, -⟩ := built_facts h
  have hn : p.nmass = none := by
    cases hn : p.nmass with
    | none => rfl
    | some N => exact absurd ⟨by rw [hM]; rfl, by rw [hn]; rfl⟩ h2
  unfold mult
  simp only [h1, hn, hR, h4, hS, h3, hM, hl, Option.map_some, Option.isSome_none, Bool.false_eq_true, if_false]
  refine ⟨_, _, rfl, ?_⟩
  have hc : ∀ r, cg (1 : Mat n) r = r := fun r => by
    have := hcg 1 r (by rw [Matrix.det_one]; exact isUnit_one)
    rwa [Matrix.one_mulVec] at this
  rw [hc]
  show x i + dt * (-1 * (R.f x i + (elim p.ess S *ᵥ x) i)) = (1 - dt) * x i
  rw [elim_mulVec_ess _ _ _ _ hi, hRi]
  ring

/-- Repeated calls of the explicit operator at the same state; `none` if one fails. -/
noncomputable def calls (cg : Mat n → Vec n → Vec n) (x : Vec n) : ℕ → Ev n → Option (Ev n)
  | 0, e => some e
  | q + 1, e => match mult cg e x with
    | some (e', _) => calls cg x q e'
    | none => none

/-- **C182** Without a residual form the work vector is never cleared: after `q` calls at the same state it holds
`junk + q (K x + load)`, so the result depends on the number of earlier calls (and on uninitialised memory). -/
theorem C182_history_false (cg : Mat n → Vec n → Vec n) (p : Parts n) (junk : Vec n) (M S : Mat n) (l : Vec n) (hM : p.mass = some M)
    (hS : p.stiff = some S) (hl : p.load = some l) (hR : p.res = none) (hn : p.nmass = none) (x : Vec n) (q : ℕ) :
    ∃ e e' f y, construct p junk = some e ∧ calls cg x q e = some e' ∧ mult cg e' x = some (f, y) ∧
      y = -cg M (junk + ((q : ℝ) + 1) • (elim p.ess S *ᵥ x + l)) := by
  have hb : construct p junk = some ⟨p, some M, some (elim p.ess S), p.ess, junk⟩ := by
    unfold construct
    have h0 : ∀ A : Mat n, elim ∅ A = A := by intro A; funext i j; simp [elim]
    simp [hM, hn, hS, h0]
  have hstep : ∀ w, mult cg ⟨p, some M, some (elim p.ess S), p.ess, w⟩ x =
      some (⟨p, some M, some (elim p.ess S), p.ess, w + elim p.ess S *ᵥ x + l⟩, (-1 : ℝ) • cg M (w + elim p.ess S *ᵥ x + l)) := by
    intro w
    unfold mult
    simp [hn, hR, hl]
  have hcalls : ∀ (q : ℕ) (w : Vec n), calls cg x q ⟨p, some M, some (elim p.ess S), p.ess, w⟩ =
      some ⟨p, some M, some (elim p.ess S), p.ess, w + (q : ℝ) • (elim p.ess S *ᵥ x + l)⟩ := by
    intro q
    induction q with
    | zero => intro w; simp [calls]
    | succ q ih =>
      intro w
      show (match mult cg ⟨p, some M, some (elim p.ess S), p.ess, w⟩ x with
        | some (e', _) => calls cg x q e'
        | none => none) = _
      rw [hstep]
      show calls cg x q _ = _
      rw [ih]
      congr 2
      push_cast
      module
  refine ⟨_, _, _, _, hb, hcalls q junk, hstep _, ?_⟩
  rw [neg_smul, one_smul]
  congr 2
  module

/-- **C182** The stiffness form plays no part in implicit stages. -/
theorem C182_stiffness_false (p : Parts n) (S : Option (Mat n)) (e e' : Ev n) (h : Built p e) (h' : Built { p with stiff := S } e')
    (N : Newton n) (dt : ℝ) (x k0 : Vec n) : implicitSolve e N dt x k0 = implicitSolve e' N dt x k0 := by
  have h1 := (built_facts h).1
  have h1' := (built_facts h').1
  cases hR : p.res with
  | none =>
    unfold implicitSolve
    rw [h1, h1', hR]
  | some R =>
    have he := (built_facts h).2.2.2.2 (by rw [hR]; rfl)
    have he' : e'.sysEss = p.ess := (built_facts h').2.2.2.2 (by show p.res.isSome = true; rw [hR]; rfl)
    have hm : ∀ k, sysMult e dt (-1) x k = sysMult e' dt (-1) x k := by
      intro k; unfold sysMult; rw [h1, h1', he, he']
    have hg : ∀ k, sysGrad e dt (-1) x k = sysGrad e' dt (-1) x k := by
      intro k; unfold sysGrad; rw [h1, h1', he, he']
    unfold implicitSolve
    rw [h1, h1']
    simp only [hm, hg]

/-- **C182** Explicit evaluation with a nonlinear mass form is an exception; the entropy functions are exceptions exactly when no entropy
form was given, and the entropy change is the residual form's energy at `x + dt k`. -/
theorem C182_exceptions (cg : Mat n → Vec n → Vec n) (p : Parts n) (e : Ev n) (h : Built p e) (dt : ℝ) (x k : Vec n) :
    (p.nmass.isSome → mult cg e x = none) ∧ (entropy e x = none ↔ p.ent = none) ∧ (entropyChange e dt x k = none ↔ p.ent = none) ∧
    (p.ent.isSome → entropyChange e dt x k = some (p.energy (x + dt • k))) := by
  have h1 := (built_facts h).1
  refine ⟨fun hn => ?_, ?_, ?_, ?_⟩
  · unfold mult; rw [h1, if_pos hn]
  · unfold entropy; rw [h1]; cases p.ent <;> simp
  · unfold entropyChange; rw [h1]; cases p.ent <;> simp
  · unfold entropyChange; rw [h1]; cases p.ent <;> simp

/-! ### Non-vacuity -/

/-- An evolver with mass `1`, residual `u`, stiffness `1`, load, one essential dof of two. -/
noncomputable def sample : Parts 2 := ⟨none, some 1, some idForm, some 1, some (fun _ => 1), none, fun _ => 0, {0}, true⟩

example : ∃ e, Built sample e := by
  cases hc : construct sample 0 with
  | none => exact absurd ((C182_constructor _ _).1 hc) (by simp [sample])
  | some e => exact ⟨e, 0, hc⟩

example : CgExact (fun (A : Mat n) r => A⁻¹ *ᵥ r) := by
  intro A r h
  show A *ᵥ (A⁻¹ *ᵥ r) = r
  rw [Matrix.mulVec_mulVec, Matrix.mul_nonsing_inv _ h, Matrix.one_mulVec]

/-- The linear solves of `C181_essential_kept` can be exact: for `sample` and `dt = 1` every system matrix is invertible. -/
example (e : Ev 2) (h : Built sample e) (x k : Vec 2) (G : Mat 2) (hG : sysGrad e 1 (-1) x k = some G) (r : Vec 2) :
    G *ᵥ (G⁻¹ *ᵥ r) = r := by
  have h1 := (built_facts h).1
  have he := (built_facts h).2.2.2.2 rfl
  have hd : Matrix.det G = 2 := by
    unfold sysGrad at hG
    rw [h1, he] at hG
    simp only [sample, Option.some.injEq] at hG
    rw [← hG, Matrix.det_fin_two]
    simp [elim, idForm]
    norm_num
  rw [Matrix.mulVec_mulVec, Matrix.mul_nonsing_inv _ (by rw [hd]; norm_num), Matrix.one_mulVec]

end Verif.Evolver
