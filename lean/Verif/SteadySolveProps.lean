import Mathlib.Analysis.Calculus.FDeriv.Comp
import Mathlib.Analysis.Calculus.FDeriv.Pi
import Mathlib.Analysis.Calculus.Deriv.Comp
import Mathlib.Analysis.Calculus.Deriv.Pow
import Mathlib.Tactic.Ring
import Mathlib.Tactic.FieldSimp
import Mathlib.Tactic.FinCases
import Mathlib.Analysis.Calculus.InverseFunctionTheorem.Deriv
import Mathlib.Analysis.Calculus.FDeriv.Mul
import Mathlib.Analysis.Calculus.FDeriv.Pow
import Mathlib.LinearAlgebra.Matrix.NonsingularInverse
import Mathlib.LinearAlgebra.Matrix.ToLin
import Mathlib.Tactic.LinearCombination
import Verif.NonlinearFormProps
import Verif.SteadySolve

/-! # The steady solver: property theorems (C160–C162) -/

namespace Verif.Steady

open Verif.NLForm Matrix

set_option linter.unusedSectionVars false

variable {n m : ℕ} {P : Type}

/-! ### The Newton loop -/

theorem evaluate_keep (F : Phys n P) (f : Form n P) (u : Vec n) :
    (f.evaluate F u).1.ess = f.ess ∧ (f.evaluate F u).1.bc = f.bc ∧ (f.evaluate F u).1.p = f.p ∧
    (f.evaluate F u).1.jac = f.jac ∧ (f.evaluate F u).1.jacE = f.jacE ∧ (f.evaluate F u).1.jacT = f.jacT := by
  unfold Form.evaluate
  simp only
  split_ifs
  · exact ⟨rfl, rfl, rfl, rfl, rfl, rfl⟩
  · split <;> exact ⟨rfl, rfl, rfl, rfl, rfl, rfl⟩

theorem loop_zero (F : Phys n P) (N : Newton n) (goal : ℝ) (it : ℕ) (f : Form n P) (u r : Vec n) :
    loop F N goal 0 it f u r = if norm2 r ≤ goal then ⟨f, u, true, it⟩ else ⟨f, u, false, it⟩ := by
  rw [loop]

theorem loop_succ (F : Phys n P) (N : Newton n) (goal : ℝ) (left it : ℕ) (f : Form n P) (u r : Vec n) :
    loop F N goal (left + 1) it f u r = if norm2 r ≤ goal then ⟨f, u, true, it⟩ else
      (let f1 := f.getJacobian F u
       let c := N.lin (f1.jac.getD 0) r
       let s := N.scale u c
       if s = 0 then ⟨f1, u, false, it⟩
       else
          let u' : Vec n := fun i => u i - s * c i
          let e := f1.evaluate F u'
          loop F N goal left (it + 1) e.1 u' e.2) := by
  rw [loop]

theorem loop_done (F : Phys n P) (N : Newton n) (goal : ℝ) (left it : ℕ) (f : Form n P) (u r : Vec n)
    (h : norm2 r ≤ goal) : loop F N goal left it f u r = ⟨f, u, true, it⟩ := by
  cases left with
  | zero => rw [loop_zero, if_pos h]
  | succ k => rw [loop_succ, if_pos h]

theorem loop_step (F : Phys n P) (N : Newton n) (goal : ℝ) (left it : ℕ) (f : Form n P) (u r c u' : Vec n)
    (h : ¬ norm2 r ≤ goal) (hc : N.lin (elim f.ess (F.J f.p u)) r = c) (hs : N.scale u c ≠ 0)
    (hu : (fun i => u i - N.scale u c * c i) = u') : loop F N goal (left + 1) it f u r =
      loop F N goal left (it + 1) ((f.getJacobian F u).evaluate F u').1 u' ((f.getJacobian F u).evaluate F u').2 := by
  rw [loop_succ, if_neg h]
  have e : N.lin ((f.getJacobian F u).jac.getD 0) r = c := hc
  simp only [e, if_neg hs, hu]

/-- The form stores the Jacobian blocks of the gradient `A`. -/
def Stores (f : Form n P) (ess : Finset (Fin n)) (A : Mat n) : Prop :=
  f.jac = some (elim ess A) ∧ f.jacE = some (elimE ess A) ∧ f.jacT = none

/-- The Jacobian part of the object is unchanged. -/
def Same (f g : Form n P) : Prop := f.jac = g.jac ∧ f.jacE = g.jacE ∧ f.jacT = g.jacT

/-- Facts about every run of the loop. -/
theorem loop_facts (F : Phys n P) (N : Newton n) (goal : ℝ) : ∀ (left it : ℕ) (f : Form n P) (u r : Vec n),
    r = residual F f.ess f.bc f.p u →
    let R := loop F N goal left it f u r
    R.form.ess = f.ess ∧ R.form.bc = f.bc ∧ R.form.p = f.p ∧
    (R.converged = true → norm2 (residual F f.ess f.bc f.p R.u) ≤ goal) ∧
    it ≤ R.iters ∧ R.iters ≤ it + left ∧
    (R.iters = it → R.u = u ∧ (Same R.form f ∨ (R.converged = false ∧ Stores R.form f.ess (F.J f.p u)))) ∧
    (it < R.iters → ∃ v, Stores R.form f.ess (F.J f.p v) ∧ (R.converged = true →
        R.u = fun i => v i - N.scale v (N.lin (elim f.ess (F.J f.p v)) (residual F f.ess f.bc f.p v)) *
          N.lin (elim f.ess (F.J f.p v)) (residual F f.ess f.bc f.p v) i)) := by
  intro left
  induction left with
  | zero =>
    intro it f u r hr
    rw [loop_zero]
    by_cases h : norm2 r ≤ goal
    · rw [if_pos h]
      exact ⟨rfl, rfl, rfl, fun _ => by rw [← hr]; exact h, le_refl _, le_refl _, fun _ => ⟨rfl, Or.inl ⟨rfl, rfl, rfl⟩⟩,
        fun h => absurd h (lt_irrefl _)⟩
    · rw [if_neg h]
      exact ⟨rfl, rfl, rfl, fun h => absurd h (by simp), le_refl _, le_refl _, fun _ => ⟨rfl, Or.inl ⟨rfl, rfl, rfl⟩⟩,
        fun h => absurd h (lt_irrefl _)⟩
  | succ left ih =>
    intro it f u r hr
    rw [loop_succ]
    by_cases h : norm2 r ≤ goal
    · rw [if_pos h]
      exact ⟨rfl, rfl, rfl, fun _ => by rw [← hr]; exact h, le_refl _, Nat.le_add_right _ _,
        fun _ => ⟨rfl, Or.inl ⟨rfl, rfl, rfl⟩⟩, fun h => absurd h (lt_irrefl _)⟩
    · rw [if_neg h]
      intro R
      by_cases hs : N.scale u (N.lin ((f.getJacobian F u).jac.getD 0) r) = 0
      · have e : R = ⟨f.getJacobian F u, u, false, it⟩ := if_pos hs
        rw [e]
        exact ⟨rfl, rfl, rfl, fun h => absurd h (by simp), le_refl _, Nat.le_add_right _ _,
          fun _ => ⟨rfl, Or.inr ⟨rfl, rfl, rfl, rfl⟩⟩, fun h => absurd h (lt_irrefl _)⟩
      · obtain ⟨c, hc⟩ : ∃ c, c = N.lin ((f.getJacobian F u).jac.getD 0) r := ⟨_, rfl⟩
        obtain ⟨u', hu'⟩ : ∃ u' : Vec n, u' = fun i => u i - N.scale u c * c i := ⟨_, rfl⟩
        obtain ⟨k1, k2, k3, k4, k5, k6⟩ := evaluate_keep F (f.getJacobian F u) u'
        have e : R = loop F N goal left (it + 1) ((f.getJacobian F u).evaluate F u').1 u'
            ((f.getJacobian F u).evaluate F u').2 := by
          rw [hu', hc]; exact if_neg hs
        obtain ⟨i1, i2, i3, i4, i5, i6, i7, i8⟩ := ih (it + 1) ((f.getJacobian F u).evaluate F u').1 u'
          ((f.getJacobian F u).evaluate F u').2 (by rw [evaluate_eq, k1, k2, k3])
        rw [← e] at i1 i2 i3 i4 i5 i6 i7 i8
        have j1 : ((f.getJacobian F u).evaluate F u').1.ess = f.ess := k1
        have j2 : ((f.getJacobian F u).evaluate F u').1.bc = f.bc := k2
        have j3 : ((f.getJacobian F u).evaluate F u').1.p = f.p := k3
        rw [j1] at i1 i4 i7 i8
        rw [j2] at i2 i4 i8
        rw [j3] at i3 i4 i7 i8
        refine ⟨i1, i2, i3, i4, by omega, by omega, fun h => by omega, fun _ => ?_⟩
        by_cases hit : R.iters = it + 1
        · obtain ⟨hu, hj | ⟨hcv, hj⟩⟩ := i7 hit
          · refine ⟨u, ⟨hj.1.trans k4, hj.2.1.trans k5, hj.2.2.trans k6⟩, fun _ => ?_⟩
            rw [hu, hu', hc, ← hr]
            rfl
          · exact ⟨u', hj, fun h => by rw [hcv] at h; exact absurd h (by simp)⟩
        · exact i8 (by omega)

/-- The tolerance of a solve. -/
noncomputable def goal (F : Phys n P) (N : Newton n) (f : Form n P) (u0 : Vec n) : ℝ :=
  max (N.relTol * norm2 (residual F f.ess f.bc f.p u0)) N.absTol

/-- Facts about every Newton run. -/
theorem newton_facts (F : Phys n P) (N : Newton n) (f : Form n P) (u0 : Vec n) :
    let R := newton F N f u0
    R.form.ess = f.ess ∧ R.form.bc = f.bc ∧ R.form.p = f.p ∧
    (R.converged = true → norm2 (residual F f.ess f.bc f.p R.u) ≤ goal F N f u0) ∧
    R.iters ≤ N.maxIter ∧
    (R.iters = 0 → R.u = u0 ∧ (Same R.form f ∨ (R.converged = false ∧ Stores R.form f.ess (F.J f.p u0)))) ∧
    (0 < R.iters → ∃ v, Stores R.form f.ess (F.J f.p v) ∧ (R.converged = true →
        R.u = fun i => v i - N.scale v (N.lin (elim f.ess (F.J f.p v)) (residual F f.ess f.bc f.p v)) *
          N.lin (elim f.ess (F.J f.p v)) (residual F f.ess f.bc f.p v) i)) := by
  obtain ⟨k1, k2, k3, k4, k5, k6⟩ := evaluate_keep F f u0
  obtain ⟨i1, i2, i3, i4, i5, i6, i7, i8⟩ := loop_facts F N (max (N.relTol * norm2 (f.evaluate F u0).2) N.absTol) N.maxIter 0
    (f.evaluate F u0).1 u0 (f.evaluate F u0).2 (by rw [evaluate_eq, k1, k2, k3])
  rw [k1] at i1 i4 i7 i8
  rw [k2] at i2 i4 i8
  rw [k3] at i3 i4 i7 i8
  have hg : max (N.relTol * norm2 (f.evaluate F u0).2) N.absTol = goal F N f u0 := by rw [evaluate_eq]; rfl
  refine ⟨i1, i2, i3, fun h => (i4 h).trans (le_of_eq hg), i6.trans (by omega), fun h => ?_, i8⟩
  obtain ⟨h1, h2 | h2⟩ := i7 h
  · exact ⟨h1, Or.inl ⟨h2.1.trans k4, h2.2.1.trans k5, h2.2.2.trans k6⟩⟩
  · exact ⟨h1, Or.inr h2⟩

/-- The solver after a solve. -/
noncomputable def after (F : Phys n P) (N : Newton n) (o : TimeLoop.LogOpts) (s : Solver n P) (p : P) (u0 : Vec n) : Solver n P :=
  ⟨(newton F N (s.form.setInputs p) u0).form, s.log ++ (if o.initialState then [⟨"state", 0, 0, u0⟩] else []) ++
    [⟨"state", 1, 1, (newton F N (s.form.setInputs p) u0).u⟩]⟩

theorem solve_eq (F : Phys n P) (N : Newton n) (o : TimeLoop.LogOpts) (s : Solver n P) (p : P) (u0 : Vec n) :
    solveForState F N o false s p u0 =
      some (after F N o s p u0, (newton F N (s.form.setInputs p) u0).u, newton F N (s.form.setInputs p) u0) := rfl

/-! ### Specification -/

/-- The user's view of the adjoint equation: zero on essential dofs, `Jᵀψ = state_bar` on the free ones. -/
def IsAdjoint (ess : Finset (Fin n)) (J : Mat n) (sbar ψ : Vec n) : Prop :=
  (∀ i ∈ ess, ψ i = 0) ∧ ∀ j ∉ ess, (Jᵀ *ᵥ ψ) j = sbar j

/-- The linearised problem on the free dofs is uniquely solvable. -/
def Regular (ess : Finset (Fin n)) (J : Mat n) : Prop :=
  ∀ x : Vec n, (∀ i ∈ ess, x i = 0) → (∀ i ∉ ess, (J *ᵥ x) i = 0) → x = 0

/-- A linear solver that solves every nonsingular system exactly, whatever its initial guess. -/
def Exact (lin : Mat n → Vec n → Vec n → Vec n) : Prop := ∀ T b a, IsUnit (Matrix.det T) → T *ᵥ lin T b a = b

/-- `G` and the assembled gradient are the partial derivatives of the assembled residual at `(p, u)`. -/
def HasPartials (F : Phys n (Fin m → ℝ)) (G : Matrix (Fin n) (Fin m) ℝ) (p : Fin m → ℝ) (u : Vec n) : Prop :=
  ∃ L : ((Fin m → ℝ) × Vec n) →L[ℝ] Vec n, HasFDerivAt (fun z : (Fin m → ℝ) × Vec n => F.R z.1 z.2) L (p, u) ∧
    ∀ δ v, L (δ, v) = G *ᵥ δ + F.J p u *ᵥ v

/-- `xbar`, `sbar` are the partial derivatives of the output `Φ` at `(p, u)`. -/
def OutputPartials (Φ : (Fin m → ℝ) → Vec n → ℝ) (p : Fin m → ℝ) (u : Vec n) (xbar : Fin m → ℝ) (sbar : Vec n) : Prop :=
  ∃ L : ((Fin m → ℝ) × Vec n) →L[ℝ] ℝ, HasFDerivAt (fun z : (Fin m → ℝ) × Vec n => Φ z.1 z.2) L (p, u) ∧
    ∀ δ v, L (δ, v) = xbar ⬝ᵥ δ + sbar ⬝ᵥ v

/-- `U t` is the solution for the parameters `p + t δ`, with `U 0 = u`; without registered boundary values the essential
entries keep the value of the initial guess. -/
def Branch (F : Phys n (Fin m → ℝ)) (ess : Finset (Fin n)) (bc : Option (Vec n)) (p δ : Fin m → ℝ) (u : Vec n)
    (U : ℝ → Vec n) : Prop :=
  U 0 = u ∧ DifferentiableAt ℝ U 0 ∧ ∀ᶠ t in nhds (0 : ℝ),
    residual F ess bc (p + t • δ) (U t) = 0 ∧ (bc = none → ∀ i ∈ ess, U t i = u i)

theorem elim_unit (ess : Finset (Fin n)) (J : Mat n) (h : Regular ess J) : IsUnit (Matrix.det (elim ess J)) := by
  rw [← Matrix.isUnit_iff_isUnit_det, ← Matrix.mulVec_injective_iff_isUnit]
  intro x y hxy
  have hz : elim ess J *ᵥ (x - y) = 0 := by rw [Matrix.mulVec_sub, sub_eq_zero]; exact hxy
  have h0 : ∀ i ∈ ess, (x - y) i = 0 := by
    intro i hi
    have := congrFun hz i
    simpa [Matrix.mulVec, dotProduct, elim, hi] using this
  have h1 : ∀ i ∉ ess, (J *ᵥ (x - y)) i = 0 := by
    intro i hi
    have := congrFun hz i
    refine Eq.trans ?_ this
    simp only [Matrix.mulVec, dotProduct]
    refine Finset.sum_congr rfl fun j _ => ?_
    by_cases hj : j ∈ ess
    · rw [h0 j hj]; ring
    · simp [elim, hi, hj]
  exact sub_eq_zero.1 (h _ h0 h1)

/-- The adjoint solve of the solver, when the stored Jacobian is that of `A`. -/
theorem adjoint_of_stored (adjLin : Mat n → Vec n → Vec n → Vec n) (hlin : Exact adjLin) (s : Solver n P) (p : P)
    (A : Mat n) (hA : s.form.jac = some (elim s.form.ess A))
    (hT : s.form.jacT = none ∨ s.form.jacT = some (elim s.form.ess A)ᵀ) (hreg : Regular s.form.ess A) (sbar a0 : Vec n) :
    ∃ s2 ψ, solveForAdjoint adjLin s p sbar a0 = some (s2, ψ) ∧ IsAdjoint s.form.ess A sbar ψ ∧ s2.form.ess = s.form.ess := by
  have hu : IsUnit (Matrix.det (elim s.form.ess A)ᵀ) := by rw [Matrix.det_transpose]; exact elim_unit _ _ hreg
  have hg : ∃ f, (s.form.setInputs p).getJacobianTranspose = some (f, (elim s.form.ess A)ᵀ) ∧ f.ess = s.form.ess := by
    rcases hT with hT | hT
    · exact ⟨{ s.form.setInputs p with jacT := some (elim s.form.ess A)ᵀ },
        by simp only [Form.getJacobianTranspose, Form.setInputs, hT, hA], rfl⟩
    · exact ⟨s.form.setInputs p, by simp only [Form.getJacobianTranspose, Form.setInputs, hT], rfl⟩
  obtain ⟨f, hf, hfe⟩ := hg
  unfold solveForAdjoint Form.setUpAdjoint
  simp only [hf]
  by_cases he : f.ess = ∅
  · rw [if_pos he]
    refine ⟨_, _, rfl, ?_, hfe⟩
    have hz : zeroEss s.form.ess sbar = sbar := by funext i; simp [zeroEss, ← hfe, he]
    exact elimT_solve _ _ _ _ (by rw [hz]; exact hlin _ _ _ hu)
  · rw [if_neg he]
    refine ⟨_, _, rfl, ?_, hfe⟩
    exact elimT_solve _ _ _ _ (by rw [← hfe] at hu ⊢; exact hlin _ _ _ hu)

/-- An adjoint yields the total derivative. -/
theorem total_of_adjoint (F : Phys n (Fin m → ℝ)) (G : Matrix (Fin n) (Fin m) ℝ) (ess : Finset (Fin n)) (bc : Option (Vec n))
    (p δ : Fin m → ℝ) (u : Vec n) (hF : HasPartials F G p u) (Φ : (Fin m → ℝ) → Vec n → ℝ) (xbar : Fin m → ℝ) (sbar : Vec n)
    (hΦ : OutputPartials Φ p u xbar sbar) (U : ℝ → Vec n) (hU : Branch F ess bc p δ u U) (ψ : Vec n)
    (hψ : IsAdjoint ess (F.J p u) sbar ψ) (f : Form n (Fin m → ℝ)) (hf : f.ess = ess) :
    HasDerivAt (fun t : ℝ => Φ (p + t • δ) (U t)) (f.vjpField G (fun i => -ψ i) xbar ⬝ᵥ δ) 0 := by
  obtain ⟨h0, hd, hev⟩ := hU
  obtain ⟨L, hL, hLe⟩ := hF
  obtain ⟨M, hM, hMe⟩ := hΦ
  obtain ⟨U', hU'⟩ : ∃ U', HasDerivAt U U' 0 := ⟨_, hd.hasDerivAt⟩
  have hp : HasDerivAt (fun t : ℝ => p + t • δ) δ 0 := by
    simpa using ((hasDerivAt_id' (0 : ℝ)).smul_const δ).const_add p
  have hz : HasDerivAt (fun t : ℝ => (p + t • δ, U t)) (δ, U') 0 := hp.prodMk hU'
  have hpt : (p + (0 : ℝ) • δ, U 0) = (p, u) := by simp [h0]
  have hR := HasFDerivAt.comp_hasDerivAt_of_eq (0 : ℝ) hL hz hpt.symm
  have hO := HasFDerivAt.comp_hasDerivAt_of_eq (0 : ℝ) hM hz hpt.symm
  rw [hLe] at hR
  rw [hMe] at hO
  -- essential entries do not move
  have hess : ∀ i ∈ ess, U' i = 0 := by
    intro i hi
    have h1 : HasDerivAt (fun t => U t i) (U' i) 0 := (hasDerivAt_pi.1 hU') i
    have h2 : (fun t => U t i) =ᶠ[nhds 0] fun _ => u i := by
      cases hb : bc with
      | none => exact hev.mono fun t ht => ht.2 hb i hi
      | some b =>
        have h3 : ∀ t, residual F ess bc (p + t • δ) (U t) = 0 → U t i = b i := by
          intro t ht
          have := congrFun ht i
          simp only [NLForm.residual, if_pos hi, hb, Pi.zero_apply] at this
          exact sub_eq_zero.1 this
        have h4 : u i = b i := by
          have := h3 0 hev.self_of_nhds.1
          rwa [h0] at this
        exact hev.mono fun t ht => (h3 t ht.1).trans h4.symm
    exact h1.unique ((hasDerivAt_const (0 : ℝ) (u i)).congr_of_eventuallyEq h2)
  -- free rows of the linearised equation
  have hfree : ∀ i ∉ ess, (G *ᵥ δ) i + (F.J p u *ᵥ U') i = 0 := by
    intro i hi
    have h1 := (hasDerivAt_pi.1 hR) i
    have h2 : (fun t : ℝ => F.R (p + t • δ) (U t) i) =ᶠ[nhds 0] fun _ => 0 :=
      hev.mono fun t ht => by
        have := congrFun ht.1 i
        simpa only [NLForm.residual, if_neg hi, Pi.zero_apply] using this
    exact h1.unique ((hasDerivAt_const (0 : ℝ) (0 : ℝ)).congr_of_eventuallyEq h2)
  refine hO.congr_deriv ?_
  rw [C37_field_reverse, hf]
  congr 1
  have e1 : sbar ⬝ᵥ U' = ((F.J p u)ᵀ *ᵥ ψ) ⬝ᵥ U' := by
    unfold dotProduct
    refine Finset.sum_congr rfl fun j _ => ?_
    by_cases hj : j ∈ ess
    · rw [hess j hj]; ring
    · rw [hψ.2 j hj]
  have e2 : ((F.J p u)ᵀ *ᵥ ψ) ⬝ᵥ U' = ψ ⬝ᵥ (F.J p u *ᵥ U') := by
    rw [Matrix.mulVec_transpose, Matrix.dotProduct_mulVec]
  rw [e1, e2]
  unfold dotProduct
  refine Finset.sum_congr rfl fun i _ => ?_
  beta_reduce
  by_cases hi : i ∈ ess
  · rw [hψ.1 i hi]; simp
  · have := hfree i hi
    simp only [zeroEss, if_neg hi]
    linear_combination ψ i * this

/-! ### C160 -/

/-- **C160** Whatever the history of the solver: once a Jacobian is not held yet, `linearize` at a solution `(p, u)`
followed by `solveForAdjoint` and the reverse product with minus the adjoint, accumulated onto the output's own partial
derivative, gives the total derivative of the output along the solutions for the parameters `p + t δ`. -/
theorem C160_linearized (F : Phys n (Fin m → ℝ)) (G : Matrix (Fin n) (Fin m) ℝ) (s : Solver n (Fin m → ℝ))
    (hs : s.form.jac = none ∧ s.form.jacT = none) (p : Fin m → ℝ) (u : Vec n) (hF : HasPartials F G p u)
    (hreg : Regular s.form.ess (F.J p u)) (Φ : (Fin m → ℝ) → Vec n → ℝ) (xbar : Fin m → ℝ) (sbar : Vec n)
    (hΦ : OutputPartials Φ p u xbar sbar) (adjLin : Mat n → Vec n → Vec n → Vec n) (hlin : Exact adjLin) (a0 : Vec n) :
    ∃ s2 ψ, solveForAdjoint adjLin (linearize F s p u) p sbar a0 = some (s2, ψ) ∧
      ∀ δ U, Branch F s.form.ess s.form.bc p δ u U →
        HasDerivAt (fun t : ℝ => Φ (p + t • δ) (U t)) (vjpField s2 G (fun i => -ψ i) xbar ⬝ᵥ δ) 0 := by
  have h1 : (linearize F s p u).form.ess = s.form.ess := by
    simp [linearize, Form.linearize, Form.setInputs, hs.1, Form.getJacobian]
  have h2 : (linearize F s p u).form.jac = some (elim (linearize F s p u).form.ess (F.J p u)) := by
    rw [h1]; simp [linearize, Form.linearize, Form.setInputs, hs.1, Form.getJacobian]
  have h3 : (linearize F s p u).form.jacT = some (elim (linearize F s p u).form.ess (F.J p u))ᵀ := by
    rw [h1]; simp [linearize, Form.linearize, Form.setInputs, hs.1, Form.getJacobian]
  obtain ⟨s2, ψ, e, hψ, he⟩ := adjoint_of_stored adjLin hlin (linearize F s p u) p (F.J p u) h2 (Or.inr h3)
    (by rw [h1]; exact hreg) sbar a0
  rw [h1] at hψ he
  exact ⟨s2, ψ, e, fun δ U hU => total_of_adjoint F G _ _ p δ u hF Φ xbar sbar hΦ U hU ψ hψ _ he⟩

/-- **C160** Problems whose gradient does not depend on the state (all linear problems): after a solve that took at least
one Newton step, from any solver history and any initial guess, the adjoint solve gives the total derivative. -/
theorem C160_linear_problems (F : Phys n (Fin m → ℝ)) (G : Matrix (Fin n) (Fin m) ℝ) (p : Fin m → ℝ)
    (hJ : ∀ v w, F.J p v = F.J p w) (N : Newton n) (o : TimeLoop.LogOpts) (s s1 : Solver n (Fin m → ℝ)) (u0 u : Vec n)
    (R : Run n (Fin m → ℝ)) (hs : solveForState F N o false s p u0 = some (s1, u, R)) (hit : 0 < R.iters)
    (hF : HasPartials F G p u) (hreg : Regular s.form.ess (F.J p u)) (Φ : (Fin m → ℝ) → Vec n → ℝ) (xbar : Fin m → ℝ)
    (sbar : Vec n) (hΦ : OutputPartials Φ p u xbar sbar) (adjLin : Mat n → Vec n → Vec n → Vec n) (hlin : Exact adjLin)
    (a0 : Vec n) :
    ∃ s2 ψ, solveForAdjoint adjLin s1 p sbar a0 = some (s2, ψ) ∧
      ∀ δ U, Branch F s.form.ess s.form.bc p δ u U →
        HasDerivAt (fun t : ℝ => Φ (p + t • δ) (U t)) (vjpField s2 G (fun i => -ψ i) xbar ⬝ᵥ δ) 0 := by
  simp only [solveForState, Bool.false_eq_true, if_false, Option.some.injEq, Prod.mk.injEq] at hs
  obtain ⟨rfl, rfl, rfl⟩ := hs
  obtain ⟨h1, h2, h3, -, -, -, h4⟩ := newton_facts F N (s.form.setInputs p) u0
  obtain ⟨v, ⟨hv1, -, hv3⟩, -⟩ := h4 hit
  have e1 : (s.form.setInputs p).ess = s.form.ess := rfl
  have e2 : (s.form.setInputs p).p = p := rfl
  rw [e1] at h1 hv1
  rw [e2, hJ v (newton F N (s.form.setInputs p) u0).u] at hv1
  obtain ⟨s2, ψ, e, hψ, he⟩ := adjoint_of_stored adjLin hlin ⟨(newton F N (s.form.setInputs p) u0).form, _⟩ p _
    (by simp only [h1]; exact hv1) (Or.inl hv3) (by simp only [h1]; exact hreg) sbar a0
  simp only [h1] at hψ he
  exact ⟨s2, ψ, e, fun δ U hU => total_of_adjoint F G _ _ p δ _ hF Φ xbar sbar hΦ U hU ψ hψ _ he⟩

/-- **C160 (partial)** In general the adjoint after a converged solve is that of the gradient at the iterate *before* the
last Newton step: `solveForAdjoint` does not assemble a Jacobian. -/
theorem C160_last_step_partial (F : Phys n P) (p : P) (N : Newton n) (o : TimeLoop.LogOpts) (s s1 : Solver n P) (u0 u : Vec n)
    (R : Run n P) (hs : solveForState F N o false s p u0 = some (s1, u, R)) (hit : 0 < R.iters)
    (adjLin : Mat n → Vec n → Vec n → Vec n) (hlin : Exact adjLin) (hreg : ∀ v, Regular s.form.ess (F.J p v))
    (q : P) (sbar a0 : Vec n) :
    ∃ v s2 ψ, solveForAdjoint adjLin s1 q sbar a0 = some (s2, ψ) ∧ IsAdjoint s.form.ess (F.J p v) sbar ψ ∧
      (R.converged = true → ∃ c : Vec n, ∃ a : ℝ, u = fun i => v i - a * c i) := by
  simp only [solveForState, Bool.false_eq_true, if_false, Option.some.injEq, Prod.mk.injEq] at hs
  obtain ⟨rfl, rfl, rfl⟩ := hs
  obtain ⟨h1, h2, h3, -, -, -, h4⟩ := newton_facts F N (s.form.setInputs p) u0
  obtain ⟨v, ⟨hv1, -, hv3⟩, hu⟩ := h4 hit
  have e1 : (s.form.setInputs p).ess = s.form.ess := rfl
  have e2 : (s.form.setInputs p).p = p := rfl
  rw [e1] at h1 hv1
  rw [e2] at hv1
  obtain ⟨s2, ψ, e, hψ, he⟩ := adjoint_of_stored adjLin hlin ⟨(newton F N (s.form.setInputs p) u0).form, _⟩ q _
    (by simp only [h1]; exact hv1) (Or.inl hv3) (by simp only [h1]; exact hreg v) sbar a0
  simp only [h1] at hψ
  exact ⟨v, s2, ψ, e, hψ, fun hc => ⟨_, _, hu hc⟩⟩

/-- **C160, violation** Warm start: if the initial guess already solves the problem, a solver that holds no Jacobian
returns from `solveForState` without assembling one, and `solveForAdjoint` throws. -/
theorem C160_warm_start_false (F : Phys n P) (N : Newton n) (ha : 0 ≤ N.absTol) (o : TimeLoop.LogOpts)
    (s : Solver n P) (hs : s.form.jac = none ∧ s.form.jacT = none) (p : P) (u0 : Vec n)
    (h0 : residual F s.form.ess s.form.bc p u0 = 0) (adjLin : Mat n → Vec n → Vec n → Vec n) (sbar a0 : Vec n) :
    ∃ s1 R, solveForState F N o false s p u0 = some (s1, u0, R) ∧ R.converged = true ∧
      solveForAdjoint adjLin s1 p sbar a0 = none := by
  have hk := evaluate_keep F (s.form.setInputs p) u0
  have he : ((s.form.setInputs p).evaluate F u0).2 = 0 := by rw [evaluate_eq]; exact h0
  have hn : norm2 (0 : Vec n) = 0 := by simp [norm2]
  have hN : newton F N (s.form.setInputs p) u0 = ⟨((s.form.setInputs p).evaluate F u0).1, u0, true, 0⟩ := by
    unfold newton
    simp only
    exact loop_done _ _ _ _ _ _ _ _ (by rw [he, hn]; exact le_max_of_le_right ha)
  refine ⟨after F N o s p u0, newton F N (s.form.setInputs p) u0, ?_, by rw [hN], ?_⟩
  · rw [solve_eq]; congr 2; rw [hN]
  · have h1 : (newton F N (s.form.setInputs p) u0).form.jac = none := by rw [hN]; exact hk.2.2.2.1.trans hs.1
    have h2 : (newton F N (s.form.setInputs p) u0).form.jacT = none := by rw [hN]; exact hk.2.2.2.2.2.trans hs.2
    simp only [solveForAdjoint, after, Form.setUpAdjoint, Form.getJacobianTranspose, Form.setInputs]
    simp only [Form.setInputs] at h1 h2
    simp only [h1, h2]

/-- Newton's method with exact solves in one dimension. -/
noncomputable def newton1 (k : ℕ) (tol : ℝ) : Newton 1 := ⟨0, tol, k, fun A r _ => r 0 / A 0 0, fun _ _ => 1⟩

/-- An exact linear solver in one dimension. -/
noncomputable def lin1 (T : Mat 1) (b _ : Vec 1) : Vec 1 := fun _ => b 0 / T 0 0

theorem lin1_exact : Exact lin1 := by
  intro T b a h
  have h' : T 0 0 ≠ 0 := by
    rw [Matrix.det_unique] at h
    exact h.ne_zero
  funext i
  have : i = 0 := Subsingleton.elim _ _
  subst this
  simp only [Matrix.mulVec, dotProduct, Finset.univ_unique, Fin.default_eq_zero, Finset.sum_singleton, lin1]
  field_simp

/-- A nonlinear problem: `u³ - 4u = p`. -/
def cubic : Phys 1 (Fin 1 → ℝ) := ⟨fun p u _ => u 0 ^ 3 - 4 * u 0 - p 0, fun _ u _ _ => 3 * u 0 ^ 2 - 4⟩

theorem norm2_one (r : Vec 1) : norm2 r = |r 0| := by
  simp [norm2, Real.sqrt_mul_self_eq_abs]

/-- **C160, violation** Nonlinear problems: for `u³ - 4u = p` at `p = 0`, Newton's method from `u = -1` converges in one
step to the exact solution `u = 2`, where `du/dp = 1/8`.  The adjoint solve that follows uses the Jacobian at `u = -1`, and
the total derivative of the output `u` comes out as `-1`: wrong by a factor of 8 and in sign. -/
theorem C160_nonlinear_false :
    let s : Solver 1 (Fin 1 → ℝ) := ⟨fresh ∅ none 0, []⟩
    let o : TimeLoop.LogOpts := ⟨false, false, false⟩
    let G : Matrix (Fin 1) (Fin 1) ℝ := fun _ _ => -1
    ∃ s1 u R s2 ψ, solveForState cubic (newton1 10 0) o false s 0 (fun _ => -1) = some (s1, u, R) ∧
      R.converged = true ∧ residual cubic ∅ none 0 u = 0 ∧ HasPartials cubic G 0 u ∧ Regular ∅ (cubic.J 0 u) ∧
      solveForAdjoint lin1 s1 0 (fun _ => 1) 0 = some (s2, ψ) ∧
      vjpField s2 G (fun i => -ψ i) 0 ⬝ᵥ (fun _ => 1) = -1 ∧
      ∃ U, Branch cubic ∅ none 0 (fun _ => 1) u U ∧ HasDerivAt (fun t : ℝ => U t 0) (1 / 8) 0 := by
  intro s o G
  have hN : newton cubic (newton1 10 0) (fresh ∅ none 0) (fun _ => -1) =
      ⟨(((fresh ∅ none 0).getJacobian cubic (fun _ => -1)).evaluate cubic (fun _ => 2)).1, fun _ => 2, true, 1⟩ := by
    have e0 : ((fresh ∅ none 0).evaluate cubic (fun _ => -1)) = (fresh ∅ none 0, fun _ => 3) := by
      simp only [Form.evaluate, fresh, if_true]
      congr 1
      funext i; simp [zeroEss, cubic]; norm_num
    unfold newton
    simp only [e0]
    rw [show (newton1 10 0).maxIter = 9 + 1 from rfl]
    rw [loop_step cubic (newton1 10 0) _ 9 0 _ _ _ (fun _ => -3) (fun _ => 2)]
    · refine loop_done _ _ _ _ _ _ _ _ ?_
      rw [evaluate_eq, norm2_one]
      simp [NLForm.residual, fresh, Form.getJacobian, cubic, newton1]
      norm_num
    · rw [norm2_one]; simp [newton1]
    · funext i; simp [newton1, elim, fresh, cubic]; norm_num
    · simp [newton1]
    · funext i; simp [newton1]; norm_num
  have hf : (s.form.setInputs 0) = fresh ∅ none 0 := rfl
  have hk := evaluate_keep cubic ((fresh ∅ none 0).getJacobian cubic (fun _ => -1)) (fun _ => 2)
  have hreg : ∀ a : ℝ, a ≠ 0 → Regular ∅ (fun _ _ => a : Mat 1) := by
    intro a ha x _ h
    funext i
    have : i = 0 := Subsingleton.elim _ _
    subst this
    have := h 0 (by simp)
    simpa [Matrix.mulVec, dotProduct, ha] using this
  have hJ1 : cubic.J 0 (fun _ => -1) = fun _ _ => -1 := by funext i j; simp only [cubic]; norm_num
  have hJ2 : cubic.J 0 (fun _ => 2) = fun _ _ => 8 := by funext i j; simp only [cubic]; norm_num
  have hess : (after cubic (newton1 10 0) o s 0 (fun _ => -1)).form.ess = ∅ := by
    simp only [after, hf, hN]; exact hk.1
  obtain ⟨s2, ψ, e, hψ, he⟩ := adjoint_of_stored lin1 lin1_exact (after cubic (newton1 10 0) o s 0 (fun _ => -1)) 0
    (cubic.J 0 (fun _ => -1)) (by rw [hess]; simp only [after, hf, hN]; exact hk.2.2.2.1)
    (Or.inl (by simp only [after, hf, hN]; exact hk.2.2.2.2.2)) (by rw [hess, hJ1]; exact hreg _ (by norm_num)) (fun _ => 1) 0
  rw [hess] at hψ he
  have hψ0 : ψ 0 = -1 := by
    rw [hJ1] at hψ
    have : ∑ j : Fin 1, (-1 : ℝ) * ψ j = 1 := hψ.2 0 (by simp)
    rw [Fin.sum_univ_one] at this
    linarith
  refine ⟨_, fun _ => 2, _, s2, ψ, (solve_eq _ _ _ _ _ _).trans (by rw [hf, hN]), rfl, ?_, ?_, ?_, e, ?_, ?_⟩
  · funext i; simp [NLForm.residual, cubic]; norm_num
  · let π : ((Fin 1 → ℝ) × Vec 1) →L[ℝ] ℝ := (ContinuousLinearMap.proj 0).comp (ContinuousLinearMap.fst ℝ _ _)
    let υ : ((Fin 1 → ℝ) × Vec 1) →L[ℝ] ℝ := (ContinuousLinearMap.proj 0).comp (ContinuousLinearMap.snd ℝ _ _)
    refine ⟨ContinuousLinearMap.pi fun _ => (8 : ℝ) • υ - π, ?_, ?_⟩
    · rw [hasFDerivAt_pi]
      intro i
      have h1 : HasFDerivAt (fun z : (Fin 1 → ℝ) × Vec 1 => z.2 0) υ (0, fun _ => 2) := υ.hasFDerivAt
      have h2 : HasFDerivAt (fun z : (Fin 1 → ℝ) × Vec 1 => z.1 0) π (0, fun _ => 2) := π.hasFDerivAt
      have h3 := ((h1.pow 3).sub (h1.const_mul 4)).sub h2
      refine h3.congr_fderiv ?_
      ext z <;> simp <;> ring
    · intro δ v
      funext i
      simp [π, υ, Matrix.mulVec, dotProduct, cubic, G]
      ring
  · rw [hJ2]; exact hreg _ (by norm_num)
  · show Form.vjpField s2.form G _ 0 ⬝ᵥ _ = _
    rw [C37_field_reverse]
    simp [dotProduct, zeroEss, Matrix.mulVec, G, he, hψ0]
  · have hs : HasStrictDerivAt (fun x : ℝ => x ^ 3 - 4 * x) 8 2 := by
      refine (((hasStrictDerivAt_id (2 : ℝ)).pow 3).sub ((hasStrictDerivAt_id (2 : ℝ)).const_mul 4)).congr_deriv ?_
      norm_num
    have h8 : (8 : ℝ) ≠ 0 := by norm_num
    have hv : (2 : ℝ) ^ 3 - 4 * 2 = 0 := by norm_num
    have hg := hs.to_localInverse h8
    have hr := (hs.hasStrictFDerivAt_equiv h8).eventually_right_inverse
    have hl := (hs.hasStrictFDerivAt_equiv h8).localInverse_apply_image
    simp only [hv] at hg hr hl
    refine ⟨fun t _ => hs.localInverse _ _ _ h8 t, ⟨?_, ?_, ?_⟩, ?_⟩
    · funext _; exact hl
    · exact differentiableAt_pi.2 fun _ => hg.hasDerivAt.differentiableAt
    · refine hr.mono fun t ht => ⟨?_, fun _ i hi => absurd hi (by simp)⟩
      funext i
      simp only [NLForm.residual, cubic, Finset.notMem_empty, if_false, Pi.zero_apply, zero_add, Pi.smul_apply, smul_eq_mul,
        mul_one]
      exact sub_eq_zero.2 ht
    · exact hg.hasDerivAt.congr_deriv (by norm_num)

/-- **C160, violation** The adjoint belongs to whatever problem was linearised last.  If the initial guess of a new solve
already solves it (here `p u = 0` with `u = 0`), the Jacobian of the previous design stays: after solves at `p = 1` and
`p = 2`, the adjoint for `state_bar = 1` at `p = 2` is `1` instead of `1/2`. -/
theorem C160_previous_design_false :
    let F : Phys 1 (Fin 1 → ℝ) := ⟨fun p u _ => p 0 * u 0, fun p _ _ _ => p 0⟩
    let o : TimeLoop.LogOpts := ⟨false, false, false⟩
    ∃ s1 s2 s3 R1 R2 ψ, solveForState F (newton1 10 0) o false ⟨fresh ∅ none 0, []⟩ (fun _ => 1) (fun _ => 1) =
        some (s1, fun _ => 0, R1) ∧
      solveForState F (newton1 10 0) o false s1 (fun _ => 2) (fun _ => 0) = some (s2, fun _ => 0, R2) ∧
      R1.converged = true ∧ R2.converged = true ∧
      solveForAdjoint lin1 s2 (fun _ => 2) (fun _ => 1) 0 = some (s3, ψ) ∧ ψ 0 = 1 ∧
      ¬ IsAdjoint ∅ (F.J (fun _ => 2) (fun _ => 0)) (fun _ => 1) ψ := by
  intro F o
  obtain ⟨f0, hf0⟩ : ∃ f0 : Form 1 (Fin 1 → ℝ), f0 = fresh ∅ none (fun _ => 1) := ⟨_, rfl⟩
  obtain ⟨f1, hf1⟩ : ∃ f1, f1 = ((f0.getJacobian F (fun _ => 1)).evaluate F (fun _ => 0)).1 := ⟨_, rfl⟩
  have k1 := evaluate_keep F (f0.getJacobian F (fun _ => 1)) (fun _ => 0)
  rw [← hf1] at k1
  have hN1 : newton F (newton1 10 0) f0 (fun _ => 1) = ⟨f1, fun _ => 0, true, 1⟩ := by
    have e0 : (f0.evaluate F (fun _ => 1)) = (f0, fun _ => 1) := by
      rw [hf0]
      simp only [Form.evaluate, fresh, if_true]
      congr 1
      funext i; simp [zeroEss, F]
    unfold newton
    simp only [e0]
    rw [show (newton1 10 0).maxIter = 9 + 1 from rfl]
    rw [loop_step F (newton1 10 0) _ 9 0 _ _ _ (fun _ => 1) (fun _ => 0), hf1]
    · refine loop_done _ _ _ _ _ _ _ _ ?_
      rw [evaluate_eq, norm2_one, hf0]
      simp [NLForm.residual, fresh, Form.getJacobian, F, newton1]
    · rw [norm2_one]; simp [newton1]
    · rw [hf0]; funext i; simp [newton1, elim, fresh, F]
    · simp [newton1]
    · funext i; simp [newton1]
  have k2 := evaluate_keep F (f1.setInputs (fun _ => 2)) (fun _ => 0)
  have hN2 : newton F (newton1 10 0) (f1.setInputs (fun _ => 2)) (fun _ => 0) =
      ⟨((f1.setInputs (fun _ => 2)).evaluate F (fun _ => 0)).1, fun _ => 0, true, 0⟩ := by
    unfold newton
    refine loop_done _ _ _ _ _ _ _ _ ?_
    rw [evaluate_eq, norm2_one]
    have h1 : (f1.setInputs (fun _ => 2)).ess = ∅ := k1.1.trans (by rw [hf0]; rfl)
    rw [h1]
    simp [NLForm.residual, F, newton1]
  have hs1 : (⟨fresh ∅ none 0, []⟩ : Solver 1 (Fin 1 → ℝ)).form.setInputs (fun _ => 1) = f0 := by rw [hf0]; rfl
  obtain ⟨s1, hs1'⟩ : ∃ s1, s1 = after F (newton1 10 0) o ⟨fresh ∅ none 0, []⟩ (fun _ => 1) (fun _ => 1) := ⟨_, rfl⟩
  obtain ⟨s2, hs2'⟩ : ∃ s2, s2 = after F (newton1 10 0) o s1 (fun _ => 2) (fun _ => 0) := ⟨_, rfl⟩
  have g1 : s1.form = f1 := by rw [hs1']; simp only [after, hs1, hN1]
  have g2 : s2.form = ((f1.setInputs (fun _ => 2)).evaluate F (fun _ => 0)).1 := by
    rw [hs2']; simp only [after, g1, hN2]
  have he : s2.form.ess = ∅ := by rw [g2, k2.1]; exact k1.1.trans (by rw [hf0]; rfl)
  have hj : s2.form.jac = some (elim s2.form.ess (fun _ _ => 1)) := by
    rw [he, g2, k2.2.2.2.1]; exact k1.2.2.2.1.trans (by rw [hf0]; rfl)
  have hjt : s2.form.jacT = none := by
    rw [g2, k2.2.2.2.2.2]; exact k1.2.2.2.2.2.trans (by rw [hf0]; rfl)
  have hreg : Regular s2.form.ess (fun _ _ => 1 : Mat 1) := by
    intro x _ h
    funext i
    have : i = 0 := Subsingleton.elim _ _
    subst this
    have := h 0 (by rw [he]; simp)
    simpa [Matrix.mulVec, dotProduct] using this
  obtain ⟨s3, ψ, e, hψ, -⟩ := adjoint_of_stored lin1 lin1_exact s2 (fun _ => 2) (fun _ _ => 1) hj (Or.inl hjt) hreg (fun _ => 1) 0
  have hψ0 : ψ 0 = 1 := by
    have : ∑ j : Fin 1, (1 : ℝ) * ψ j = 1 := hψ.2 0 (by rw [he]; simp)
    rw [Fin.sum_univ_one] at this
    linarith
  refine ⟨s1, s2, s3, newton F (newton1 10 0) f0 (fun _ => 1),
    newton F (newton1 10 0) (f1.setInputs (fun _ => 2)) (fun _ => 0), ψ, ?_, ?_, ?_, ?_, e, hψ0, fun h => ?_⟩
  · rw [solve_eq, hs1, ← hs1']; congr 2; rw [hN1]
  · rw [solve_eq, g1, ← hs2']; congr 2; rw [hN2]
  · rw [hN1]
  · rw [hN2]
  · have : ∑ j : Fin 1, (2 : ℝ) * ψ j = 1 := h.2 0 (by simp)
    rw [Fin.sum_univ_one, hψ0] at this
    norm_num at this

/-! ### C161 -/

/-- What `calcResidualNorm` reports is the norm of the residual of the specification. -/
theorem calcResidualNorm_eq (F : Phys n P) (s : Solver n P) (p : P) (u : Vec n) :
    calcResidualNorm F s p u = norm2 (residual F s.form.ess s.form.bc p u) := by
  unfold calcResidualNorm calcResidual
  simp only
  rw [evaluate_eq]
  rfl

/-- **C161** If Newton's method reports convergence, the residual norm that the user can query after the solve is within
the tolerance: the absolute one, or the relative one times the residual norm of the initial guess.  The number of
iterations never exceeds the limit. -/
theorem C161_converged (F : Phys n P) (N : Newton n) (o : TimeLoop.LogOpts) (s s1 : Solver n P) (p : P) (u0 u : Vec n)
    (R : Run n P) (hs : solveForState F N o false s p u0 = some (s1, u, R)) :
    (R.converged = true → calcResidualNorm F s1 p u ≤ max (N.relTol * calcResidualNorm F s p u0) N.absTol) ∧
    R.iters ≤ N.maxIter := by
  rw [solve_eq] at hs
  simp only [Option.some.injEq, Prod.mk.injEq] at hs
  obtain ⟨rfl, rfl, rfl⟩ := hs
  obtain ⟨h1, h2, h3, h4, h5, -, -⟩ := newton_facts F N (s.form.setInputs p) u0
  refine ⟨fun hc => ?_, h5⟩
  have := h4 hc
  rw [calcResidualNorm_eq, calcResidualNorm_eq]
  simp only [after, h1, h2]
  exact this

/-- The linear solver of the Newton iteration is exact. -/
def NewtonExact (N : Newton n) : Prop :=
  (∀ A r, IsUnit (Matrix.det A) → A *ᵥ N.lin A r = r) ∧ ∀ x c, N.scale x c = 1

/-- One exact Newton correction, seen from the essential and the free rows. -/
theorem correction (ess : Finset (Fin n)) (J : Mat n) (c r : Vec n) (h : elim ess J *ᵥ c = r) :
    (∀ i ∈ ess, c i = r i) ∧ ∀ i ∉ ess, (J *ᵥ c) i = r i + ∑ j ∈ ess, J i j * c j := by
  constructor
  · intro i hi
    have := congrFun h i
    rw [← this]
    simp [Matrix.mulVec, dotProduct, elim, hi]
  · intro i hi
    have := congrFun h i
    rw [← this]
    simp only [Matrix.mulVec, dotProduct]
    rw [← Finset.sum_filter_add_sum_filter_not Finset.univ (· ∈ ess) (fun j => J i j * c j),
      ← Finset.sum_filter_add_sum_filter_not Finset.univ (· ∈ ess) (fun j => elim ess J i j * c j)]
    have e1 : ∑ j ∈ Finset.univ.filter (· ∈ ess), elim ess J i j * c j = 0 := by
      refine Finset.sum_eq_zero fun j hj => ?_
      have hj' : j ∈ ess := (Finset.mem_filter.1 hj).2
      have hne : i ≠ j := fun e => hi (e ▸ hj')
      simp [elim, hj', hne]
    have e2 : ∑ j ∈ Finset.univ.filter (fun j => ¬ j ∈ ess), elim ess J i j * c j =
        ∑ j ∈ Finset.univ.filter (fun j => ¬ j ∈ ess), J i j * c j := by
      refine Finset.sum_congr rfl fun j hj => ?_
      have hj' : j ∉ ess := (Finset.mem_filter.1 hj).2
      simp [elim, hi, hj']
    have e3 : Finset.univ.filter (· ∈ ess) = ess := by ext; simp
    rw [e1, e2, e3]
    ring

/-- The initial guess meets the registered boundary values. -/
def MeetsBc (ess : Finset (Fin n)) (bc : Option (Vec n)) (u : Vec n) : Prop := ∀ b, bc = some b → ∀ i ∈ ess, u i = b i

/-- The assembled residual is an affine function of the state, and the assembled gradient is its derivative. -/
def Affine (F : Phys n P) (p : P) : Prop := ∀ u v, F.R p v = fun i => F.R p u i + (F.J p u *ᵥ fun j => v j - u j) i

/-- Residual after one exact Newton step. -/
theorem after_step (F : Phys n P) (p : P) (ess : Finset (Fin n)) (bc : Option (Vec n)) (u c : Vec n)
    (hc : elim ess (F.J p u) *ᵥ c = residual F ess bc p u) :
    MeetsBc ess bc (fun i => u i - c i) ∧
    (Affine F p → MeetsBc ess bc u → residual F ess bc p (fun i => u i - c i) = 0) := by
  obtain ⟨h1, h2⟩ := correction ess _ c _ hc
  have hb : MeetsBc ess bc (fun i => u i - c i) := by
    intro b hb i hi
    have := h1 i hi
    simp only [NLForm.residual, if_pos hi, hb] at this
    simp only [this]; ring
  refine ⟨hb, fun ha hm => ?_⟩
  have hc0 : ∀ i ∈ ess, c i = 0 := by
    intro i hi
    rw [h1 i hi]
    simp only [NLForm.residual, if_pos hi]
    cases hbc : bc with
    | none => rfl
    | some b => simp only [hm b hbc i hi, sub_self]
  funext i
  by_cases hi : i ∈ ess
  · simp only [NLForm.residual, if_pos hi, Pi.zero_apply]
    cases hbc : bc with
    | none => rfl
    | some b => have := hb b hbc i hi; simp only at this; simp only [this, sub_self]
  · have e := h2 i hi
    rw [Finset.sum_eq_zero (fun j hj => by rw [hc0 j hj, mul_zero])] at e
    simp only [NLForm.residual, if_neg hi, Pi.zero_apply] at e ⊢
    rw [ha u (fun i => u i - c i)]
    have e3 : (fun j => u j - c j - u j) = -c := by funext j; simp
    simp only [e3, Matrix.mulVec_neg, Pi.neg_apply, e]
    ring

/-- **C161** Linear problems, exact linear solver, initial guess meeting the boundary values: one Newton iteration gives
zero residual (so the boundary values hold and the equation holds on every free dof), and the solver reports convergence. -/
theorem C161_linear_one_step (F : Phys n P) (N : Newton n) (hN : NewtonExact N) (h1 : 1 ≤ N.maxIter) (ht : 0 ≤ N.absTol)
    (o : TimeLoop.LogOpts) (s : Solver n P) (p : P) (ha : Affine F p) (hreg : ∀ v, Regular s.form.ess (F.J p v)) (u0 : Vec n)
    (hm : MeetsBc s.form.ess s.form.bc u0)
    (hstart : ¬ calcResidualNorm F s p u0 ≤ max (N.relTol * calcResidualNorm F s p u0) N.absTol) :
    ∃ s1 u R, solveForState F N o false s p u0 = some (s1, u, R) ∧ R.converged = true ∧ R.iters = 1 ∧
      residual F s.form.ess s.form.bc p u = 0 := by
  obtain ⟨k, hk⟩ : ∃ k, N.maxIter = k + 1 := ⟨N.maxIter - 1, by omega⟩
  have kk := evaluate_keep F (s.form.setInputs p) u0
  have er : ((s.form.setInputs p).evaluate F u0).2 = residual F s.form.ess s.form.bc p u0 := evaluate_eq _ _ _
  rw [calcResidualNorm_eq] at hstart
  obtain ⟨c, hc⟩ : ∃ c, c = N.lin (elim s.form.ess (F.J p u0)) (residual F s.form.ess s.form.bc p u0) := ⟨_, rfl⟩
  have hcs : elim s.form.ess (F.J p u0) *ᵥ c = residual F s.form.ess s.form.bc p u0 := by
    rw [hc]; exact hN.1 _ _ (elim_unit _ _ (hreg u0))
  have hz := (after_step F p s.form.ess s.form.bc u0 c hcs).2 ha hm
  have hrun : newton F N (s.form.setInputs p) u0 = ⟨((((s.form.setInputs p).evaluate F u0).1.getJacobian F u0).evaluate F
      (fun i => u0 i - c i)).1, fun i => u0 i - c i, true, 1⟩ := by
    unfold newton
    simp only
    rw [hk, er, loop_step F N _ k 0 _ u0 _ c (fun i => u0 i - c i) hstart ?_ ?_ ?_]
    · refine loop_done _ _ _ _ _ _ _ _ ?_
      have : ((((s.form.setInputs p).evaluate F u0).1.getJacobian F u0).evaluate F (fun i => u0 i - c i)).2 = 0 := by
        rw [evaluate_eq]
        simp only [Form.getJacobian]
        rw [kk.1, kk.2.1, kk.2.2.1]
        exact hz
      rw [this]
      have hn : norm2 (0 : Vec n) = 0 := by simp [norm2]
      rw [hn]; exact le_max_of_le_right ht
    · rw [kk.1, kk.2.2.1, hc]; rfl
    · rw [hN.2]; norm_num
    · funext i; rw [hN.2]; ring
  refine ⟨after F N o s p u0, _, _, (solve_eq F N o s p u0).trans (by rw [hrun]), rfl, rfl, hz⟩

/-- One exact Newton step of the loop. -/
theorem loop_exact_step (F : Phys n P) (N : Newton n) (hN : NewtonExact N) (goal : ℝ) (k it : ℕ) (f : Form n P) (u : Vec n)
    (hreg : Regular f.ess (F.J f.p u)) (h : ¬ norm2 (residual F f.ess f.bc f.p u) ≤ goal) :
    ∃ c g, elim f.ess (F.J f.p u) *ᵥ c = residual F f.ess f.bc f.p u ∧ g.ess = f.ess ∧ g.bc = f.bc ∧ g.p = f.p ∧
      loop F N goal (k + 1) it f u (residual F f.ess f.bc f.p u) = loop F N goal k (it + 1) g (fun i => u i - c i)
        (residual F g.ess g.bc g.p (fun i => u i - c i)) := by
  obtain ⟨c, hc⟩ : ∃ c, c = N.lin (elim f.ess (F.J f.p u)) (residual F f.ess f.bc f.p u) := ⟨_, rfl⟩
  have kk := evaluate_keep F (f.getJacobian F u) (fun i => u i - c i)
  refine ⟨c, ((f.getJacobian F u).evaluate F (fun i => u i - c i)).1, ?_, kk.1, kk.2.1, kk.2.2.1, ?_⟩
  · rw [hc]; exact hN.1 _ _ (elim_unit _ _ hreg)
  · rw [loop_step F N goal k it f u _ c (fun i => u i - c i) h hc.symm]
    · rw [evaluate_eq, kk.1, kk.2.1, kk.2.2.1]
    · rw [hN.2]; norm_num
    · funext i; rw [hN.2]; ring

/-- The form of a solve, in terms of the residual of the specification. -/
theorem newton_eq (F : Phys n P) (N : Newton n) (f : Form n P) (u0 : Vec n) :
    ∃ g : Form n P, g.ess = f.ess ∧ g.bc = f.bc ∧ g.p = f.p ∧
      newton F N f u0 = loop F N (goal F N f u0) N.maxIter 0 g u0 (residual F g.ess g.bc g.p u0) := by
  have kk := evaluate_keep F f u0
  refine ⟨(f.evaluate F u0).1, kk.1, kk.2.1, kk.2.2.1, ?_⟩
  unfold newton
  simp only
  rw [evaluate_eq, kk.1, kk.2.1, kk.2.2.1]
  rfl

/-- **C161** Linear problems, exact linear solver: from *any* initial guess two Newton iterations are enough. -/
theorem C161_linear_two_steps (F : Phys n P) (N : Newton n) (hN : NewtonExact N) (h2 : 2 ≤ N.maxIter) (ht : 0 ≤ N.absTol)
    (o : TimeLoop.LogOpts) (s : Solver n P) (p : P) (ha : Affine F p) (hreg : ∀ v, Regular s.form.ess (F.J p v)) (u0 : Vec n) :
    ∃ s1 u R, solveForState F N o false s p u0 = some (s1, u, R) ∧ R.converged = true ∧ R.iters ≤ 2 := by
  refine ⟨after F N o s p u0, _, newton F N (s.form.setInputs p) u0, solve_eq F N o s p u0, ?_⟩
  obtain ⟨k, hk⟩ : ∃ k, N.maxIter = k + 1 + 1 := ⟨N.maxIter - 2, by omega⟩
  obtain ⟨g, g1, g2, g3, e⟩ := newton_eq F N (s.form.setInputs p) u0
  have g1' : g.ess = s.form.ess := g1
  have g3' : g.p = p := g3
  have hgo : 0 ≤ goal F N (s.form.setInputs p) u0 := le_max_of_le_right ht
  rw [e]
  generalize goal F N (s.form.setInputs p) u0 = G at hgo ⊢
  by_cases h0 : norm2 (residual F g.ess g.bc g.p u0) ≤ G
  · rw [loop_done _ _ _ _ _ _ _ _ h0]; exact ⟨rfl, by norm_num⟩
  · rw [hk]
    obtain ⟨c, f1, hc, f11, f12, f13, e1⟩ := loop_exact_step F N hN G (k + 1) 0 g u0 (by rw [g1', g3']; exact hreg u0) h0
    rw [e1]
    have hm := (after_step F g.p g.ess g.bc u0 c hc).1
    rw [← f11, ← f12] at hm
    by_cases h1 : norm2 (residual F f1.ess f1.bc f1.p (fun i => u0 i - c i)) ≤ G
    · rw [loop_done _ _ _ _ _ _ _ _ h1]; exact ⟨rfl, by norm_num⟩
    · obtain ⟨c', f2, hc', f21, f22, f23, e2⟩ := loop_exact_step F N hN G k (0 + 1) f1 _
        (by rw [f11, f13, g1', g3']; exact hreg _) h1
      rw [e2]
      have hz := (after_step F f1.p f1.ess f1.bc _ c' hc').2 (by rw [f13, g3']; exact ha) hm
      rw [f21, f22, f23, hz]
      have hn : norm2 (0 : Vec n) = 0 := by simp [norm2]
      rw [loop_done _ _ _ _ _ _ _ _ (by rw [hn]; exact hgo)]
      exact ⟨rfl, by norm_num⟩

/-- **C161** Any problem, exact linear solves, unit step: a solve that iterates at all ends with the registered boundary
values on the essential dofs; if none are registered, the essential entries of the initial guess are kept. -/
theorem C161_boundary (F : Phys n P) (N : Newton n) (hN : NewtonExact N) (o : TimeLoop.LogOpts) (s s1 : Solver n P) (p : P)
    (hreg : ∀ v, Regular s.form.ess (F.J p v)) (u0 u : Vec n) (R : Run n P)
    (hs : solveForState F N o false s p u0 = some (s1, u, R)) :
    (∀ b, s.form.bc = some b → 0 < R.iters → ∀ i ∈ s.form.ess, u i = b i) ∧
    (s.form.bc = none → ∀ i ∈ s.form.ess, u i = u0 i) := by
  rw [solve_eq] at hs
  simp only [Option.some.injEq, Prod.mk.injEq] at hs
  obtain ⟨rfl, rfl, rfl⟩ := hs
  have key : ∀ (G : ℝ) (left it : ℕ) (f : Form n P) (u : Vec n), (∀ v, Regular f.ess (F.J f.p v)) →
      let R := loop F N G left it f u (residual F f.ess f.bc f.p u)
      (it < R.iters ∨ MeetsBc f.ess f.bc u → MeetsBc f.ess f.bc R.u) ∧ (f.bc = none → ∀ i ∈ f.ess, R.u i = u i) := by
    intro G left
    induction left with
    | zero =>
      intro it f u _
      rw [loop_zero]
      by_cases h : norm2 (residual F f.ess f.bc f.p u) ≤ G
      · rw [if_pos h]
        exact ⟨fun h => h.elim (fun h => absurd h (lt_irrefl _)) id, fun _ _ _ => rfl⟩
      · rw [if_neg h]
        exact ⟨fun h => h.elim (fun h => absurd h (lt_irrefl _)) id, fun _ _ _ => rfl⟩
    | succ k ih =>
      intro it f u hr
      by_cases h : norm2 (residual F f.ess f.bc f.p u) ≤ G
      · rw [loop_done _ _ _ _ _ _ _ _ h]
        exact ⟨fun h => h.elim (fun h => absurd h (lt_irrefl _)) id, fun _ _ _ => rfl⟩
      · obtain ⟨c, g, hc, g1, g2, g3, e⟩ := loop_exact_step F N hN G k it f u (hr u) h
        rw [e]
        obtain ⟨i1, i2⟩ := ih (it + 1) g (fun i => u i - c i) (by rw [g1, g3]; exact hr)
        have hm := (after_step F f.p f.ess f.bc u c hc).1
        have j1 := i1 (Or.inr (by rw [g1, g2]; exact hm))
        refine ⟨fun _ b hb i hi => j1 b (g2.trans hb) i (by rw [g1]; exact hi), fun hb i hi => ?_⟩
        refine (i2 (g2.trans hb) i (by rw [g1]; exact hi)).trans ?_
        have := (correction f.ess _ c _ hc).1 i hi
        simp only [NLForm.residual, if_pos hi, hb] at this
        simp only [this, sub_zero]
  obtain ⟨g, g1, g2, g3, e⟩ := newton_eq F N (s.form.setInputs p) u0
  have g1' : g.ess = s.form.ess := g1
  have g2' : g.bc = s.form.bc := g2
  have g3' : g.p = p := g3
  obtain ⟨k1, k2⟩ := key (goal F N (s.form.setInputs p) u0) N.maxIter 0 g u0 (by rw [g1', g3']; exact hreg)
  rw [← e] at k1 k2
  rw [g1', g2'] at k1 k2
  exact ⟨fun b hb hit i hi => k1 (Or.inl hit) b hb i hi, k2⟩

/-- The 2×2 linear problem `u₀ = 3` (essential), `2u₁ - u₀ = p`. -/
noncomputable def chain : Phys 2 (Fin 1 → ℝ) :=
  ⟨fun p u i => if i = 0 then u 0 else 2 * u 1 - u 0 - p 0, fun _ _ => !![1, 0; -1, 2]⟩

/-- Exact Newton corrections by the inverse matrix. -/
noncomputable def newtonInv (n k : ℕ) (tol : ℝ) : Newton n :=
  ⟨0, tol, k, fun A r => (Matrix.of A)⁻¹ *ᵥ r, fun _ _ => 1⟩

theorem newtonInv_exact (n k : ℕ) (tol : ℝ) : NewtonExact (newtonInv n k tol) := by
  refine ⟨fun A r h => ?_, fun _ _ => rfl⟩
  show A *ᵥ ((Matrix.of A)⁻¹ *ᵥ r) = r
  have : (Matrix.of A) * (Matrix.of A)⁻¹ = 1 := Matrix.mul_nonsing_inv _ h
  rw [Matrix.mulVec_mulVec]
  exact (congrArg (fun B => B *ᵥ r) this).trans (Matrix.one_mulVec r)

theorem chain_regular (v : Vec 2) : Regular {0} (chain.J 0 v) := by
  intro x h0 h1
  have e0 := h0 0 (by simp)
  have e1 := h1 1 (by simp)
  simp [chain, Matrix.mulVec, dotProduct, Fin.sum_univ_two, e0] at e1
  funext i
  fin_cases i
  · exact e0
  · exact e1

theorem chain_affine : Affine chain 0 := by
  intro u v
  funext i
  fin_cases i
  · simp [chain, Matrix.mulVec, dotProduct, Fin.sum_univ_two]
  · simp [chain, Matrix.mulVec, dotProduct, Fin.sum_univ_two]
    ring

/-- **C161, violation** One iteration is not enough for a linear problem if the initial guess misses the boundary values:
the Jacobian has lost its essential columns, so the correction ignores the change of the boundary values.  With
`maxiter = 1` the solve returns normally with the state `(3, 0)`, whose free residual is `-3`. -/
theorem C161_one_iteration_false :
    let s : Solver 2 (Fin 1 → ℝ) := ⟨fresh {0} (some fun _ => 3) 0, []⟩
    Affine chain 0 ∧ (∀ v, Regular s.form.ess (chain.J 0 v)) ∧ NewtonExact (newtonInv 2 1 0) ∧
    ∃ s1 u R, solveForState chain (newtonInv 2 1 0) ⟨false, false, true⟩ false s 0 0 = some (s1, u, R) ∧
      R.converged = false ∧ R.iters = 1 ∧ u 0 = 3 ∧ residual chain {0} (some fun _ => 3) 0 u 1 = -3 := by
  intro s
  refine ⟨chain_affine, chain_regular, newtonInv_exact _ _ _, after chain (newtonInv 2 1 0) ⟨false, false, true⟩ s 0 0, _, _,
    solve_eq _ _ _ _ _ _, ?_⟩
  obtain ⟨g, g1, g2, g3, e⟩ := newton_eq chain (newtonInv 2 1 0) (s.form.setInputs 0) 0
  have g1' : g.ess = {0} := g1
  have g2' : g.bc = some fun _ => 3 := g2
  have g3' : g.p = 0 := g3
  have hG : goal chain (newtonInv 2 1 0) (s.form.setInputs 0) 0 = 0 := by
    simp [goal, newtonInv]
  rw [e, hG, show (newtonInv 2 1 0).maxIter = 0 + 1 from rfl]
  have hpos : ∀ r : Vec 2, (∃ i, r i ≠ 0) → ¬ norm2 r ≤ 0 := by
    rintro r ⟨i, hi⟩
    rw [not_le, norm2, Real.sqrt_pos]
    exact Finset.sum_pos' (fun j _ => mul_self_nonneg _) ⟨i, Finset.mem_univ _, mul_self_pos.2 hi⟩
  obtain ⟨c, f, hc, f1, f2, f3, e1⟩ := loop_exact_step chain (newtonInv 2 1 0) (newtonInv_exact _ _ _) 0 0 0 g 0
    (by rw [g1', g3']; exact chain_regular _) (hpos _ ⟨0, by rw [g1', g2', g3']; simp [NLForm.residual]⟩)
  rw [g1', g2', g3'] at hc
  have c0 : c 0 = -3 := by
    have := congrFun hc 0
    simpa [Matrix.mulVec, dotProduct, Fin.sum_univ_two, elim, NLForm.residual] using this
  have c1 : c 1 = 0 := by
    have := congrFun hc 1
    simpa [Matrix.mulVec, dotProduct, Fin.sum_univ_two, elim, NLForm.residual, chain] using this
  have hr : residual chain {0} (some fun _ => 3) 0 (fun i => (0 : Vec 2) i - c i) 1 = -3 := by
    simp [NLForm.residual, chain, c0, c1]
  rw [e1, loop_zero, if_neg (hpos _ ⟨1, by rw [f1, f2, f3, g1', g2', g3', hr]; norm_num⟩)]
  exact ⟨rfl, rfl, by simp [c0], hr⟩

/-- The textbook example of a cycle of Newton's method: `u³ - 2u + 2 = 0`. -/
def cycle : Phys 1 (Fin 1 → ℝ) := ⟨fun _ u _ => u 0 ^ 3 - 2 * u 0 + 2, fun _ u _ _ => 3 * u 0 ^ 2 - 2⟩

theorem cycle_loop : ∀ (left it : ℕ) (f : Form 1 (Fin 1 → ℝ)) (u : Vec 1) (k : ℕ) (tol : ℝ), f.ess = ∅ →
    (u = fun _ => 0) ∨ (u = fun _ => 1) →
    let R := loop cycle (newton1 k tol) (1 / 2) left it f u (residual cycle f.ess f.bc f.p u)
    R.converged = false ∧ R.iters = it + left ∧ ((R.u = fun _ => 0) ∨ (R.u = fun _ => 1)) := by
  have hres : ∀ (bc : Option (Vec 1)) p (u : Vec 1), residual cycle ∅ bc p u = fun _ => u 0 ^ 3 - 2 * u 0 + 2 := by
    intro bc p u; funext i; simp [NLForm.residual, cycle]
  have hbig : ∀ (bc : Option (Vec 1)) p (u : Vec 1), (u = fun _ => 0) ∨ (u = fun _ => 1) →
      ¬ norm2 (residual cycle ∅ bc p u) ≤ 1 / 2 := by
    intro bc p u hu
    rw [hres, norm2_one]
    rcases hu with rfl | rfl <;> norm_num
  intro left
  induction left with
  | zero =>
    intro it f u k tol he hu
    simp only [he]
    rw [loop_zero, if_neg (hbig _ _ _ hu)]
    exact ⟨rfl, rfl, hu⟩
  | succ left ih =>
    intro it f u k tol he hu
    obtain ⟨u', hu', hs⟩ : ∃ u' : Vec 1, ((u' = fun _ => 0) ∨ (u' = fun _ => 1)) ∧
        (fun i => u i - (newton1 k tol).scale u ((newton1 k tol).lin (elim f.ess (cycle.J f.p u)) (residual cycle f.ess f.bc f.p u)) *
          (newton1 k tol).lin (elim f.ess (cycle.J f.p u)) (residual cycle f.ess f.bc f.p u) i) = u' := by
      rcases hu with rfl | rfl
      · refine ⟨fun _ => 1, Or.inr rfl, ?_⟩
        funext i
        rw [he, hres]
        simp [newton1, elim, cycle]
      · refine ⟨fun _ => 0, Or.inl rfl, ?_⟩
        funext i
        rw [he, hres]
        simp [newton1, elim, cycle]
        norm_num
    intro R
    have hR : R = _ := loop_step cycle (newton1 k tol) (1 / 2) left it f u _ _ u' (by rw [he]; exact hbig _ _ _ hu) rfl
      (by simp [newton1]) hs
    have kk := evaluate_keep cycle (f.getJacobian cycle u) u'
    have := ih (it + 1) ((f.getJacobian cycle u).evaluate cycle u').1 u' k tol (kk.1.trans he) hu'
    rw [evaluate_eq] at hR
    rw [kk.1, kk.2.1, kk.2.2.1] at this
    rw [← hR] at this
    exact ⟨this.1, by omega, this.2.2⟩

/-- **C161, violation** A solve whose Newton iteration does not converge is not reported: for `u³ - 2u + 2 = 0` from `u = 0`,
exact linear solves, absolute tolerance 1/2 and *any* iteration limit, `solveForState` returns normally (the option
`nonlin-solver.abort` is read nowhere), and the residual norm of what it returns is at least 1. -/
theorem C161_silent_failure_false (k : ℕ) (o : TimeLoop.LogOpts) (s : Solver 1 (Fin 1 → ℝ)) (hs : s.form.ess = ∅)
    (p : Fin 1 → ℝ) : NewtonExact (newton1 k (1 / 2)) ∧
    ∃ s1 u R, solveForState cycle (newton1 k (1 / 2)) o false s p 0 = some (s1, u, R) ∧
      R.converged = false ∧ R.iters = k ∧ 1 ≤ calcResidualNorm cycle s1 p u := by
  refine ⟨⟨fun A r h => ?_, fun _ _ => rfl⟩, ?_⟩
  · exact lin1_exact A r 0 h
  · refine ⟨after cycle (newton1 k (1 / 2)) o s p 0, _, _, solve_eq _ _ _ _ _ _, ?_⟩
    obtain ⟨g, g1, g2, g3, e⟩ := newton_eq cycle (newton1 k (1 / 2)) (s.form.setInputs p) 0
    have g1' : g.ess = ∅ := g1.trans hs
    have hG : goal cycle (newton1 k (1 / 2)) (s.form.setInputs p) 0 = 1 / 2 := by simp [goal, newton1]
    obtain ⟨c1, c2, c3⟩ := cycle_loop k 0 g 0 k (1 / 2) g1' (Or.inl rfl)
    have hf := newton_facts cycle (newton1 k (1 / 2)) (s.form.setInputs p) 0
    rw [hG, show (newton1 k (1 / 2)).maxIter = k from rfl] at e
    rw [← e] at c1 c2 c3
    refine ⟨c1, by omega, ?_⟩
    rw [calcResidualNorm_eq, norm2_one]
    have he : (after cycle (newton1 k (1 / 2)) o s p 0).form.ess = ∅ := hf.1.trans hs
    rw [he]
    rcases c3 with c3 | c3 <;> rw [c3] <;> simp only [NLForm.residual, Finset.notMem_empty, if_false, cycle] <;> norm_num

/-! ### Non-vacuity of C160 and C161 -/

/-- Solutions of the chain problem: `u = (3, (3 + p)/2)`. -/
theorem chain_branch (p : ℝ) : Branch chain {0} (some fun _ => 3) (fun _ => p) (fun _ => 1) ![3, (3 + p) / 2]
    (fun t => ![3, (3 + p + t) / 2]) := by
  refine ⟨by simp, ?_, Filter.Eventually.of_forall fun t => ⟨?_, fun h => absurd h (by simp)⟩⟩
  · refine differentiableAt_pi.2 fun i => ?_
    fin_cases i
    · exact differentiableAt_const _
    · show DifferentiableAt ℝ (fun t : ℝ => (3 + p + t) / 2) 0
      fun_prop
  · funext i
    fin_cases i
    · simp [NLForm.residual]
    · simp [NLForm.residual, chain]
      ring

theorem chain_partials (p : Fin 1 → ℝ) (u : Vec 2) : HasPartials chain (fun i _ => if i = 0 then 0 else -1) p u := by
  let π : ((Fin 1 → ℝ) × Vec 2) →L[ℝ] ℝ := (ContinuousLinearMap.proj 0).comp (ContinuousLinearMap.fst ℝ _ _)
  let υ : Fin 2 → ((Fin 1 → ℝ) × Vec 2) →L[ℝ] ℝ := fun i => (ContinuousLinearMap.proj i).comp (ContinuousLinearMap.snd ℝ _ _)
  refine ⟨ContinuousLinearMap.pi fun i => if i = 0 then υ 0 else (2 : ℝ) • υ 1 - υ 0 - π, ?_, ?_⟩
  · rw [hasFDerivAt_pi]
    intro i
    fin_cases i
    · exact (υ 0).hasFDerivAt
    · exact ((2 : ℝ) • υ 1 - υ 0 - π).hasFDerivAt
  · intro δ v
    funext i
    fin_cases i
    · simp [υ, chain, Matrix.mulVec, dotProduct, Fin.sum_univ_two]
    · simp [π, υ, chain, Matrix.mulVec, dotProduct, Fin.sum_univ_two]
      ring

/-- The hypotheses of `C161_linear_one_step`, `C160_linear_problems` and `C160_linearized` are met by the chain problem. -/
example :
    let s : Solver 2 (Fin 1 → ℝ) := ⟨fresh {0} (some fun _ => 3) 0, []⟩
    MeetsBc s.form.ess s.form.bc ![3, 0] ∧
    ¬ calcResidualNorm chain s 0 ![3, 0] ≤ max ((newtonInv 2 5 0).relTol * calcResidualNorm chain s 0 ![3, 0]) (newtonInv 2 5 0).absTol ∧
    (∀ v w, chain.J 0 v = chain.J 0 w) ∧ (s.form.jac = none ∧ s.form.jacT = none) ∧
    OutputPartials (fun _ u => u 1) (0 : Fin 1 → ℝ) (![3, 3 / 2] : Vec 2) 0 ![0, 1] ∧
    Exact (fun T b _ => (Matrix.of T)⁻¹ *ᵥ b : Mat 2 → Vec 2 → Vec 2 → Vec 2) := by
  intro s
  refine ⟨?_, ?_, fun _ _ => rfl, ⟨rfl, rfl⟩, ?_, ?_⟩
  · intro b hb i hi
    have : b = fun _ => 3 := (Option.some.inj hb).symm
    subst this
    have : i = 0 := by simpa [s, fresh] using hi
    subst this
    rfl
  · rw [calcResidualNorm_eq]
    simp only [newtonInv, zero_mul, max_self, not_le, norm2, Real.sqrt_pos]
    refine Finset.sum_pos' (fun j _ => mul_self_nonneg _) ⟨1, Finset.mem_univ _, mul_self_pos.2 ?_⟩
    simp [NLForm.residual, s, fresh, chain]
  · refine ⟨(ContinuousLinearMap.proj 1).comp (ContinuousLinearMap.snd ℝ _ _), ?_, ?_⟩
    · exact ((ContinuousLinearMap.proj (R := ℝ) (φ := fun _ : Fin 2 => ℝ) 1).comp
        (ContinuousLinearMap.snd ℝ (Fin 1 → ℝ) (Vec 2))).hasFDerivAt
    · intro δ v
      simp [dotProduct, Fin.sum_univ_two]
  · intro T b _ h
    exact (newtonInv_exact 2 1 0).1 T b h

/-! ### C162 Files written by a session -/

/-- What is on disk: a file per field and timestep (data_logging.hpp:32-33), later saves overwrite earlier ones. -/
def file (log : List (Entry n)) (field : String) (t : ℕ) : Option (ℝ × Vec n) :=
  log.foldl (fun a e => if e.field = field ∧ e.timestep = t then some (e.time, e.vec) else a) none

theorem file_append (l : List (Entry n)) (e : Entry n) (field : String) (t : ℕ) :
    file (l ++ [e]) field t = if e.field = field ∧ e.timestep = t then some (e.time, e.vec) else file l field t := by
  simp [file]

/-- The last state returned by a successful state solve; `d` if there was none. -/
def lastState (d : Option (ℝ × Vec n)) (rs : List (Result n)) : Option (ℝ × Vec n) :=
  rs.foldl (fun a r => match r with | .state _ u => some (1, u) | _ => a) d

/-- The last initial guess passed to a state solve, also to one that found the mesh inverted. -/
def lastGuess (d : Option (ℝ × Vec n)) (rs : List (Result n)) : Option (ℝ × Vec n) :=
  rs.foldl (fun a r => match r with | .state u0 _ => some (0, u0) | .inverted u0 => some (0, u0) | _ => a) d

/-- The last adjoint returned. -/
def lastAdjoint (d : Option (ℝ × Vec n)) (rs : List (Result n)) : Option (ℝ × Vec n) :=
  rs.foldl (fun a r => match r with | .adjoint ψ => some (0, ψ) | _ => a) d

/-- **C162** After any sequence of state and adjoint solves, with any exceptions in between: the file of the state at
timestep 1 holds the state returned last, that of the adjoint holds the adjoint returned last, and that of the state at
timestep 0 holds the last initial guess if initial states are logged and what it held before otherwise. -/
theorem C162_session_files (F : Phys n P) (N : Newton n) (adjLin : Mat n → Vec n → Vec n → Vec n) (o : TimeLoop.LogOpts) :
    ∀ (cs : List (Call n P)) (s : Solver n P), let r := session F N adjLin o s cs
      file r.1.log "state" 1 = lastState (file s.log "state" 1) r.2 ∧
      file r.1.log "adjoint" 0 = lastAdjoint (file s.log "adjoint" 0) r.2 ∧
      file r.1.log "state" 0 = (if o.initialState then lastGuess (file s.log "state" 0) r.2 else file s.log "state" 0) := by
  have h1 : ∀ (l : List (Entry n)) (u0 : Vec n) f t,
      file (l ++ if o.initialState then [⟨"state", 0, 0, u0⟩] else []) f t =
        if o.initialState = true ∧ "state" = f ∧ 0 = t then some (0, u0) else file l f t := by
    intro l u0 f t
    cases o.initialState with
    | true => simp [file_append]
    | false => simp
  intro cs
  induction cs with
  | nil => intro s; refine ⟨rfl, rfl, ?_⟩; simp [session, lastGuess]
  | cons c cs ih =>
    intro s
    obtain ⟨i1, i2, i3⟩ := ih (exec F N adjLin o s c).1
    simp only [session]
    rw [i1, i2, i3]
    clear i1 i2 i3
    cases c with
    | state inv p u0 =>
      cases inv with
      | false =>
        simp only [exec, solveForState, Bool.false_eq_true, if_false, lastState, lastAdjoint, lastGuess, List.foldl_cons, file_append, h1]
        cases o.initialState <;> simp
      | true =>
        simp only [exec, solveForState, if_true, lastState, lastAdjoint, lastGuess, List.foldl_cons, h1]
        cases o.initialState <;> simp
    | adjoint p b a =>
      cases hq : solveForAdjoint adjLin s p b a with
      | none => simp only [exec, hq]; exact ⟨rfl, rfl, rfl⟩
      | some q =>
        have hl : q.1.log = s.log ++ [⟨"adjoint", 0, 0, q.2⟩] := by
          unfold solveForAdjoint at hq
          cases hr : (s.form.setInputs p).setUpAdjoint b a with
          | none => rw [hr] at hq; exact absurd hq (by simp)
          | some r => rw [hr] at hq; rw [← Option.some.inj hq]
        simp only [exec, hq, hl, file_append]
        exact ⟨rfl, rfl, rfl⟩

/-- **C162, violation** The logging option `final_state` has no effect on a steady solve: with it switched off the final
state is written all the same. -/
theorem C162_final_state_false (F : Phys n P) (N : Newton n) (adjLin : Mat n → Vec n → Vec n → Vec n) (f : Form n P) (p : P) (u0 : Vec n) :
    let o : TimeLoop.LogOpts := ⟨false, false, false⟩
    ∃ u, (session F N adjLin o ⟨f, []⟩ [.state false p u0]).2 = [.state u0 u] ∧
      file (session F N adjLin o ⟨f, []⟩ [.state false p u0]).1.log "state" 1 = some (1, u) :=
  ⟨_, rfl, rfl⟩

/-- A session of three calls: an adjoint solve without Jacobian (throws), a state solve, an adjoint solve. -/
example : ∃ u ψ, (session cubic (newton1 10 0) lin1 ⟨false, false, false⟩ ⟨fresh ∅ none 0, []⟩
    [.adjoint 0 0 0, .state false 0 (fun _ => -1), .adjoint 0 (fun _ => 1) 0]).2 = [.noJacobian, .state (fun _ => -1) u, .adjoint ψ] := by
  obtain ⟨s1, u, R, s2, ψ, h1, -, -, -, -, h2, -⟩ := C160_nonlinear_false
  refine ⟨u, ψ, ?_⟩
  have e1 : exec cubic (newton1 10 0) lin1 ⟨false, false, false⟩ ⟨fresh ∅ none 0, []⟩ (.adjoint 0 0 0) =
      (⟨fresh ∅ none 0, []⟩, .noJacobian) := rfl
  have e2 : exec cubic (newton1 10 0) lin1 ⟨false, false, false⟩ ⟨fresh ∅ none 0, []⟩ (.state false 0 (fun _ => -1)) =
      (s1, .state (fun _ => -1) u) := by simp only [exec, h1]
  have e3 : exec cubic (newton1 10 0) lin1 ⟨false, false, false⟩ s1 (.adjoint 0 (fun _ => 1) 0) = (s2, .adjoint ψ) := by
    simp only [exec, h2]
  simp only [session, e1, e2, e3]

/-! ### C163 Setting the state -/

/-- **C163** A function or coefficient that is projected: afterwards the solver's state field, the field holding the
Dirichlet values and the vector the caller passed all hold the projection, whatever they held before. -/
theorem C163_projected (v : Vec n) (x : Fields n × Vec n) : setState (.project v) x = (⟨v, v⟩, v) := rfl

/-- **C163, violation** A function that fills the vector: it is called twice, and neither the state field nor the Dirichlet
values of the solver change.  Setting the state by adding one to every entry adds two; and whatever boundary values the
solver held before, they differ from those of the state on some dof, for all but one of the states that could be set. -/
theorem C163_fill_false :
    (∀ (f : Vec n → Vec n) (x : Fields n × Vec n), setState (.fill f) x = (x.1, f (f x.2))) ∧
    (∀ x : Fields n × Vec n, (setState (.fill fun v i => v i + 1) x).2 = fun i => x.2 i + 2) ∧
    (∀ (x : Fields n × Vec n) (w : Vec n), w ≠ x.1.dirichletBc →
      (setState (.fill fun _ => w) x).2 = w ∧ ∃ i, (setState (.fill fun _ => w) x).1.dirichletBc i ≠ w i) := by
  refine ⟨fun _ _ => rfl, fun x => ?_, fun x w h => ⟨rfl, ?_⟩⟩
  · funext i; simp only [setState, setOne]; ring
  · by_contra hc
    push Not at hc
    exact h (funext fun i => (hc i).symm)

/-- **C163, violation** An object of any other type is ignored without an error. -/
theorem C163_other_false (x : Fields n × Vec n) : setState .other x = x := rfl

example : setState (.project ![1, 2]) (⟨![0, 0], ![5, 5]⟩, ![7, 7]) = ((⟨![1, 2], ![1, 2]⟩, ![1, 2]) : Fields 2 × Vec 2) :=
  C163_projected _ _

end Verif.Steady
