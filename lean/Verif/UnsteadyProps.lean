import Mathlib.LinearAlgebra.Matrix.NonsingularInverse
import Mathlib.Tactic.Linarith
import Mathlib.Tactic.Ring
import Mathlib.Tactic.Module
import Mathlib.Tactic.Tauto
import Mathlib.Tactic.FieldSimp
import Mathlib.Data.Fin.VecNotation
import Verif.Unsteady
import Verif.LineSearchProps

/-! # Solving for the time derivative: property theorems (C177–C179) -/

set_option linter.unusedSectionVars false
set_option linter.unusedSimpArgs false

namespace Verif.Unsteady

open Verif.NLForm Matrix

variable {n : ℕ}

/-! ### Specification -/

/-- The equation for the time derivative `k`: `M k + R(u + dt k) = 0`. -/
noncomputable def T (d : Dyn n) (dt : ℝ) (u k : Vec n) : Vec n := d.M *ᵥ k + d.R (u + dt • k)

/-- The linear solver solves nonsingular systems exactly. -/
def ExactLin (N : NSolver n) : Prop := ∀ A r, IsUnit (Matrix.det A) → A *ᵥ N.lin A r = r

/-- The spatial residual is affine with matrix `A`, and the assembled Jacobian is `A`. -/
def AffineR (d : Dyn n) (A : Mat n) : Prop := (∀ u v, d.R v = d.R u + A *ᵥ (v - u)) ∧ ∀ u, d.J u = A

theorem norm2_nonneg (r : Vec n) : 0 ≤ Steady.norm2 r := Real.sqrt_nonneg _

theorem norm2_eq_zero (r : Vec n) : Steady.norm2 r = 0 ↔ r = 0 := by
  unfold Steady.norm2
  rw [Real.sqrt_eq_zero (Finset.sum_nonneg fun i _ => mul_self_nonneg _)]
  constructor
  · intro h
    funext i
    exact mul_self_eq_zero.1 ((Finset.sum_eq_zero_iff_of_nonneg (fun i _ => mul_self_nonneg (r i))).1 h i (Finset.mem_univ i))
  · intro h; rw [h]; simp

theorem operMult_eq (d : Dyn n) (t : TD) (m : Mem n) (x : ℕ) : operMult d t m x = T d t.dt (m t.state) (m t.dot) := by
  unfold operMult Operators.tdEvaluate T
  split_ifs with h
  · rw [h, zero_smul, add_zero, add_comm]
  · rw [add_comm]

/-! ### The loop -/

theorem loop_zero (N : NSolver n) (d : Dyn n) (t : TD) (x s : ℕ) (goal : ℝ) (it : ℕ) (m : Mem n) (r : Vec n) :
    loop N d t x s goal 0 it m r = if Steady.norm2 r ≤ goal then ⟨m, true, it⟩ else ⟨m, false, it⟩ := by rw [loop]

theorem loop_succ (N : NSolver n) (d : Dyn n) (t : TD) (x s : ℕ) (goal : ℝ) (left it : ℕ) (m : Mem n) (r : Vec n) :
    loop N d t x s goal (left + 1) it m r = if Steady.norm2 r ≤ goal then ⟨m, true, it⟩ else
      (let c := N.lin (operGrad d t m x) r
       let σ := scaling N d t m x s r c
       if σ = 0 then ⟨m, false, it⟩
       else
          let m' := write m x (m x - σ • c)
          loop N d t x s goal left (it + 1) m' (operMult d t m' x)) := by rw [loop]

theorem loop_facts (N : NSolver n) (d : Dyn n) (t : TD) (s : ℕ) (goal : ℝ) (hne : t.state ≠ t.dot) :
    ∀ (left it : ℕ) (m : Mem n) (r : Vec n), r = T d t.dt (m t.state) (m t.dot) →
      let Q := loop N d t t.dot s goal left it m r
      (∀ b, b ≠ t.dot → Q.mem b = m b) ∧ (Q.converged = true → Steady.norm2 (T d t.dt (m t.state) (Q.mem t.dot)) ≤ goal) ∧
      Q.iters ≤ it + left := by
  intro left
  induction left with
  | zero =>
    intro it m r hr
    rw [loop_zero]
    split_ifs with h
    · exact ⟨fun _ _ => rfl, fun _ => by rw [← hr]; exact h, le_refl _⟩
    · exact ⟨fun _ _ => rfl, fun h' => absurd h' (by simp), le_refl _⟩
  | succ left ih =>
    intro it m r hr
    rw [loop_succ]
    split_ifs with h
    · exact ⟨fun _ _ => rfl, fun _ => by rw [← hr]; exact h, Nat.le_add_right _ _⟩
    · intro Q
      by_cases hs : scaling N d t m t.dot s r (N.lin (operGrad d t m t.dot) r) = 0
      · have e : Q = ⟨m, false, it⟩ := if_pos hs
        rw [e]
        exact ⟨fun _ _ => rfl, fun h' => absurd h' (by simp), Nat.le_add_right _ _⟩
      · obtain ⟨m', hm'⟩ : ∃ m', m' = write m t.dot (m t.dot -
            scaling N d t m t.dot s r (N.lin (operGrad d t m t.dot) r) • N.lin (operGrad d t m t.dot) r) := ⟨_, rfl⟩
        have e : Q = loop N d t t.dot s goal left (it + 1) m' (operMult d t m' t.dot) := by rw [hm']; exact if_neg hs
        obtain ⟨i1, i2, i3⟩ := ih (it + 1) m' (operMult d t m' t.dot) (operMult_eq _ _ _ _)
        rw [← e] at i1 i2 i3
        have hst : ∀ b, b ≠ t.dot → m' b = m b := fun b hb => by rw [hm']; exact if_neg hb
        rw [hst _ hne] at i2
        exact ⟨fun b hb => (i1 b hb).trans (hst b hb), i2, by omega⟩

/-- The initial guess of a solve. -/
def start (N : NSolver n) (k0 : Vec n) : Vec n := if N.iterative then k0 else 0

/-- The loop a call of the solver runs. -/
theorem slope_eq (N : NSolver n) (d : Dyn n) (dt : ℝ) (x k0 : Vec n) : ∃ m : Mem n, m bU = x ∧ m bK = start N k0 ∧
    slope N d dt x k0 = loop N d ⟨dt, bU, bK⟩ bK bS (max (N.relTol * Steady.norm2 (T d dt x (start N k0))) N.absTol) N.maxIter 0 m
      (T d dt x (start N k0)) := by
  obtain ⟨m, hm⟩ : ∃ m : Mem n, m = if N.iterative then (fun b => if b = bU then x else k0) else
      write (fun b => if b = bU then x else k0) bK 0 := ⟨_, rfl⟩
  have h1 : m bU = x := by
    rw [hm]; split_ifs
    · rfl
    · show (if bU = bK then 0 else x) = x
      exact if_neg (by decide)
  have h2 : m bK = start N k0 := by
    rw [hm]; unfold start
    split_ifs
    · exact if_neg (by decide)
    · exact if_pos rfl
  refine ⟨m, h1, h2, ?_⟩
  have e : operMult d ⟨dt, bU, bK⟩ m bK = T d dt x (start N k0) := by
    rw [operMult_eq]
    show T d dt (m bU) (m bK) = _
    rw [h1, h2]
  unfold slope solve mult
  simp only [TD.setInputs]
  rw [← hm, e]

/-- **C177** `ImplicitSolve` and `Mult` run on the equation `M k + R(u + dt k) = 0` although the residual never looks at the vector
it is called with: the state is not changed, and if the solver converges, that equation is solved to the tolerance. -/
theorem C177_equation (N : NSolver n) (d : Dyn n) (dt : ℝ) (x k0 : Vec n) : (slope N d dt x k0).mem bU = x ∧
    ((slope N d dt x k0).converged = true → Steady.norm2 (T d dt x ((slope N d dt x k0).mem bK)) ≤
      max (N.relTol * Steady.norm2 (T d dt x (start N k0))) N.absTol) ∧ (slope N d dt x k0).iters ≤ N.maxIter := by
  obtain ⟨m, h1, h2, h3⟩ := slope_eq N d dt x k0
  rw [h3]
  obtain ⟨f1, f2, f3⟩ := loop_facts N d ⟨dt, bU, bK⟩ bS (max (N.relTol * Steady.norm2 (T d dt x (start N k0))) N.absTol)
    (show bU ≠ bK by decide) N.maxIter 0 m (T d dt x (start N k0)) (by show _ = T d dt (m bU) (m bK); rw [h1, h2])
  refine ⟨(f1 bU (show bU ≠ bK by decide)).trans h1, fun h => ?_, by simpa using f3⟩
  have := f2 h
  simpa only [h1] using this

/-- Two memories that agree on the two vectors the residual reads give the same run on them. -/
theorem loop_congr (N : NSolver n) (d : Dyn n) (t : TD) (s : ℕ) (goal : ℝ) (hs1 : s ≠ t.state) (hs2 : s ≠ t.dot)
    (hne : t.state ≠ t.dot) : ∀ (left it : ℕ) (m m' : Mem n) (r : Vec n), m t.state = m' t.state → m t.dot = m' t.dot →
      (loop N d t t.dot s goal left it m r).mem t.dot = (loop N d t t.dot s goal left it m' r).mem t.dot ∧
      (loop N d t t.dot s goal left it m r).converged = (loop N d t t.dot s goal left it m' r).converged := by
  intro left
  induction left with
  | zero =>
    intro it m m' r h1 h2
    rw [loop_zero, loop_zero]
    split_ifs
    · exact ⟨h2, rfl⟩
    · exact ⟨h2, rfl⟩
  | succ left ih =>
    intro it m m' r h1 h2
    rw [loop_succ, loop_succ]
    split_ifs with h
    · exact ⟨h2, rfl⟩
    · have hG : operGrad d t m t.dot = operGrad d t m' t.dot := by unfold operGrad; rw [h1, h2]
      have hph : ∀ c, phi d t m t.dot s c = phi d t m' t.dot s c := by
        intro c
        funext α
        unfold phi
        rw [operMult_eq, operMult_eq]
        have e : ∀ (q : Mem n) v b, b ≠ s → write q s v b = q b := fun q v b hb => if_neg hb
        rw [e _ _ _ (Ne.symm hs1), e _ _ _ (Ne.symm hs2), e _ _ _ (Ne.symm hs1), e _ _ _ (Ne.symm hs2), h1, h2]
      have hsc : ∀ c, scaling N d t m t.dot s r c = scaling N d t m' t.dot s r c := by
        intro c; unfold scaling; rw [hph, hG]
      simp only [hG, hsc]
      split_ifs
      · exact ⟨h2, rfl⟩
      · rw [h2]
        obtain ⟨v, hv⟩ : ∃ v, v = m' t.dot - scaling N d t m' t.dot s r (N.lin (operGrad d t m' t.dot) r) •
          N.lin (operGrad d t m' t.dot) r := ⟨_, rfl⟩
        rw [← hv]
        have e1 : (write m t.dot v) t.state = (write m' t.dot v) t.state := by
          simp only [write, if_neg hne, h1]
        have e2 : (write m t.dot v) t.dot = (write m' t.dot v) t.dot := by simp only [write, if_true]
        have e3 : operMult d t (write m t.dot v) t.dot = operMult d t (write m' t.dot v) t.dot := by
          rw [operMult_eq, operMult_eq, e1, e2]
        rw [e3]
        exact ih _ _ _ _ e1 e2

/-- **C177** What the slope vector held before the call does not matter (`iterative_mode` is off for all steppers but "steady"). -/
theorem C177_history (N : NSolver n) (hN : N.iterative = false) (d : Dyn n) (dt : ℝ) (x k0 k1 : Vec n) :
    (slope N d dt x k0).mem bK = (slope N d dt x k1).mem bK ∧ (slope N d dt x k0).converged = (slope N d dt x k1).converged := by
  obtain ⟨m, h1, h2, h3⟩ := slope_eq N d dt x k0
  obtain ⟨m', h1', h2', h3'⟩ := slope_eq N d dt x k1
  have hs : start N k0 = start N k1 := by unfold start; rw [hN]; rfl
  rw [h3, h3', hs]
  exact loop_congr N d ⟨dt, bU, bK⟩ bS _ (show bS ≠ bU by decide) (show bS ≠ bK by decide) (show bU ≠ bK by decide) _ _ _ _ _
    (h1.trans h1'.symm) (h2.trans (hs.trans h2'.symm))

/-! ### Linear problems -/

/-- One exact Newton step on an equation that is affine in `k` leaves residual zero. -/
theorem affine_solved (N : NSolver n) (hk : N.kind = .newton) (hlin : ExactLin N) (hrel0 : 0 ≤ N.relTol) (hrel : N.relTol < 1)
    (h1 : 1 ≤ N.maxIter) (d : Dyn n)
    (dt : ℝ) (x k0 : Vec n) (A : Mat n) (hA : ∀ k, (if dt = 0 then d.M else d.M + dt • d.J (x + dt • k)) = A)
    (haff : ∀ k k', T d dt x k' = T d dt x k + A *ᵥ (k' - k)) (hdet : IsUnit (Matrix.det A)) (habs : N.absTol ≤ 0) :
    (slope N d dt x k0).converged = true ∧ T d dt x ((slope N d dt x k0).mem bK) = 0 := by
  obtain ⟨m, e1, e2, e3⟩ := slope_eq N d dt x k0
  obtain ⟨r, hr⟩ : ∃ r, r = T d dt x (start N k0) := ⟨_, rfl⟩
  obtain ⟨goal, hg⟩ : ∃ g, g = max (N.relTol * Steady.norm2 r) N.absTol := ⟨_, rfl⟩
  rw [← hr, ← hg] at e3
  rw [e3]
  obtain ⟨q, hq⟩ : ∃ q, N.maxIter = q + 1 := ⟨N.maxIter - 1, by omega⟩
  rw [hq]
  by_cases h : Steady.norm2 r ≤ goal
  · have e : loop N d ⟨dt, bU, bK⟩ bK bS goal (q + 1) 0 m r = ⟨m, true, 0⟩ := by rw [loop_succ, if_pos h]
    rw [e]
    refine ⟨rfl, ?_⟩
    show T d dt x (m bK) = 0
    rw [e2, ← hr]
    rw [← norm2_eq_zero]
    have h0 := norm2_nonneg r
    rw [hg] at h
    rcases le_max_iff.1 h with h' | h'
    · nlinarith
    · linarith
  · have hgr : operGrad d ⟨dt, bU, bK⟩ m bK = A := by
      unfold operGrad
      show (if dt = 0 then d.M else d.M + dt • d.J (m bU + dt • m bK)) = A
      rw [e1]; exact hA _
    obtain ⟨c, hc⟩ : ∃ c, c = N.lin A r := ⟨_, rfl⟩
    have hsc : scaling N d ⟨dt, bU, bK⟩ m bK bS r c = 1 := by unfold scaling; rw [hk]
    obtain ⟨m', hm'⟩ : ∃ m', m' = write m bK (m bK - (1 : ℝ) • c) := ⟨_, rfl⟩
    have hz : operMult d ⟨dt, bU, bK⟩ m' bK = 0 := by
      rw [operMult_eq]
      show T d dt (m' bU) (m' bK) = 0
      have a1 : m' bU = x := by rw [hm']; exact (if_neg (by decide)).trans e1
      have a2 : m' bK = start N k0 - c := by rw [hm']; exact (if_pos rfl).trans (by rw [e2, one_smul])
      rw [a1, a2, haff (start N k0), ← hr]
      have : start N k0 - c - start N k0 = -c := by abel
      rw [this, Matrix.mulVec_neg, hc, hlin A r hdet, add_neg_cancel]
    have e : loop N d ⟨dt, bU, bK⟩ bK bS goal (q + 1) 0 m r =
        loop N d ⟨dt, bU, bK⟩ bK bS goal q 1 m' (operMult d ⟨dt, bU, bK⟩ m' bK) := by
      rw [loop_succ, if_neg h]
      simp only [hgr, ← hc, hsc, one_ne_zero, if_false]
      rw [hm']
    rw [e, hz]
    have hg0 : Steady.norm2 (0 : Vec n) ≤ goal := by
      rw [(norm2_eq_zero 0).2 rfl, hg]
      exact (mul_nonneg hrel0 (norm2_nonneg r)).trans (le_max_left _ _)
    have e' : loop N d ⟨dt, bU, bK⟩ bK bS goal q 1 m' 0 = ⟨m', true, 1⟩ := by
      cases q with
      | zero => rw [loop_zero, if_pos hg0]
      | succ q => rw [loop_succ, if_pos hg0]
    rw [e']
    refine ⟨rfl, ?_⟩
    rw [operMult_eq] at hz
    have a1 : m' bU = x := by rw [hm']; exact (if_neg (by decide)).trans e1
    have hz' : T d dt (m' bU) (m' bK) = 0 := hz
    rw [a1] at hz'
    exact hz'

/-- A solver whose first Newton step is exact: full steps, direct linear solves, tolerance from the relative criterion. -/
def Direct (N : NSolver n) : Prop :=
  N.kind = .newton ∧ ExactLin N ∧ 0 ≤ N.relTol ∧ N.relTol < 1 ∧ N.absTol ≤ 0 ∧ 1 ≤ N.maxIter

theorem mass_affine (d : Dyn n) (x k k' : Vec n) : T d 0 x k' = T d 0 x k + d.M *ᵥ (k' - k) := by
  unfold T
  rw [zero_smul, zero_smul, Matrix.mulVec_sub]
  abel

/-- **C177** Explicit stage: `Mult(x, k)` returns the solution of `M k = -R(x)`, for every spatial residual. -/
theorem C177_explicit (N : NSolver n) (hN : Direct N) (d : Dyn n) (hM : IsUnit (Matrix.det d.M)) (x k0 : Vec n) :
    (slope N d 0 x k0).converged = true ∧ d.M *ᵥ (slope N d 0 x k0).mem bK = -d.R x := by
  obtain ⟨h1, h2, h3, h4, h5, h6⟩ := hN
  obtain ⟨a, b⟩ := affine_solved N h1 h2 h3 h4 h6 d 0 x k0 d.M (fun k => if_pos rfl) (mass_affine d x) hM h5
  refine ⟨a, ?_⟩
  unfold T at b
  rw [zero_smul, add_zero] at b
  exact eq_neg_of_add_eq_zero_left b

/-- **C177** Implicit stage of a problem with affine spatial residual: `ImplicitSolve(dt, x, k)` returns the solution of
`M k + R(x + dt k) = 0`. -/
theorem C177_implicit (N : NSolver n) (hN : Direct N) (d : Dyn n) (A : Mat n) (hA : AffineR d A) (dt : ℝ)
    (hM : IsUnit (Matrix.det (d.M + dt • A))) (x k0 : Vec n) :
    (slope N d dt x k0).converged = true ∧ d.M *ᵥ (slope N d dt x k0).mem bK + d.R (x + dt • (slope N d dt x k0).mem bK) = 0 := by
  obtain ⟨h1, h2, h3, h4, h5, h6⟩ := hN
  refine affine_solved N h1 h2 h3 h4 h6 d dt x k0 (d.M + dt • A) (fun k => ?_) (fun k k' => ?_) hM h5
  · by_cases h0 : dt = 0
    · rw [if_pos h0, h0, zero_smul, add_zero]
    · rw [if_neg h0, hA.2]
  · unfold T
    rw [hA.1 (x + dt • k) (x + dt • k'), Matrix.add_mulVec, Matrix.smul_mulVec,
      show x + dt • k' - (x + dt • k) = dt • (k' - k) by rw [smul_sub]; abel, Matrix.mulVec_smul, Matrix.mulVec_sub d.M]
    abel

/-! ### Steps -/

/-- The right-hand side of the ordinary differential equation `u' = -M⁻¹ R(u)`. -/
noncomputable def rhs (d : Dyn n) (u : Vec n) : Vec n := d.M⁻¹ *ᵥ (-d.R u)

theorem mult_rhs (N : NSolver n) (hN : Direct N) (d : Dyn n) (hM : IsUnit (Matrix.det d.M)) (t : ℝ) (x : Vec n) :
    (oper N d).mult t x = rhs d x := by
  have h := (C177_explicit N hN d hM x 0).2
  show (slope N d 0 x 0).mem bK = _
  unfold rhs
  rw [← h, Matrix.mulVec_mulVec, Matrix.nonsing_inv_mul _ hM, Matrix.one_mulVec]

/-- **C178** Option "RK1": `M (x' - x) = -dt R(x)`. -/
theorem C178_forward_euler (N : NSolver n) (hN : Direct N) (d : Dyn n) (hM : IsUnit (Matrix.det d.M)) (x : Vec n) (t dt : ℝ) :
    d.M *ᵥ ((forwardEuler (oper N d) x t dt).1 - x) = -(dt • d.R x) ∧ (forwardEuler (oper N d) x t dt).2 = t + dt := by
  refine ⟨?_, rfl⟩
  show d.M *ᵥ (x + dt • (oper N d).mult t x - x) = _
  rw [mult_rhs N hN d hM, add_sub_cancel_left, Matrix.mulVec_smul]
  unfold rhs
  rw [Matrix.mulVec_mulVec, Matrix.mul_nonsing_inv _ hM, Matrix.one_mulVec, smul_neg]

/-- **C178** Option "RK4": one step is the classical fourth-order method for `u' = -M⁻¹ R(u)`. -/
theorem C178_rk4 (N : NSolver n) (hN : Direct N) (d : Dyn n) (hM : IsUnit (Matrix.det d.M)) (x : Vec n) (t dt : ℝ) :
    let k1 := rhs d x
    let k2 := rhs d (x + (dt / 2) • k1)
    let k3 := rhs d (x + (dt / 2) • k2)
    let k4 := rhs d (x + dt • k3)
    rk4 (oper N d) x t dt = (x + (dt / 6) • (k1 + (2 : ℝ) • k2 + (2 : ℝ) • k3 + k4), t + dt) := by
  unfold rk4
  simp only [mult_rhs N hN d hM]
  refine Prod.ext ?_ rfl
  simp only
  module

/-- **C178** Option "MIDPOINT" on an affine problem: `M (x' - x) = -dt R((x + x')/2)`. -/
theorem C178_midpoint_partial (N : NSolver n) (hN : Direct N) (d : Dyn n) (A : Mat n) (hA : AffineR d A) (dt : ℝ)
    (hM : IsUnit (Matrix.det (d.M + (dt / 2) • A))) (k0 x : Vec n) (t : ℝ) :
    let x' := (midpoint (oper N d) k0 x t dt).1
    d.M *ᵥ (x' - x) = -(dt • d.R ((1 / 2 : ℝ) • (x + x'))) ∧ (midpoint (oper N d) k0 x t dt).2 = t + dt := by
  intro x'
  refine ⟨?_, rfl⟩
  obtain ⟨k, hk⟩ : ∃ k, k = (slope N d (dt / 2) x k0).mem bK := ⟨_, rfl⟩
  have h := (C177_implicit N hN d A hA (dt / 2) hM x k0).2
  rw [← hk] at h
  have hx : x' = x + dt • k := by rw [hk]; rfl
  have e : (1 / 2 : ℝ) • (x + x') = x + (dt / 2) • k := by rw [hx]; module
  rw [e, hx, add_sub_cancel_left, Matrix.mulVec_smul, eq_neg_of_add_eq_zero_left h, smul_neg]

/-- **C178** Option "PTC" on an affine problem: backward Euler, `M (x' - x) = -dt R(x')`. -/
theorem C178_ptc_partial (N : NSolver n) (hN : Direct N) (d : Dyn n) (A : Mat n) (hA : AffineR d A) (dt : ℝ)
    (hM : IsUnit (Matrix.det (d.M + dt • A))) (k0 x : Vec n) (t : ℝ) :
    let x' := (Ode.ptcStep (oper N d) k0 x t dt).1
    d.M *ᵥ (x' - x) = -(dt • d.R x') ∧ (Ode.ptcStep (oper N d) k0 x t dt).2 = t + dt := by
  intro x'
  refine ⟨?_, rfl⟩
  obtain ⟨k, hk⟩ : ∃ k, k = (slope N d dt x k0).mem bK := ⟨_, rfl⟩
  have h := (C177_implicit N hN d A hA dt hM x k0).2
  rw [← hk] at h
  have hx : x' = x + dt • k := by rw [hk]; rfl
  rw [hx, add_sub_cancel_left, Matrix.mulVec_smul, eq_neg_of_add_eq_zero_left h, smul_neg]

/-! ### The backtracking search on an unsteady residual -/

theorem phi_const (d : Dyn n) (t : TD) (m : Mem n) (s : ℕ) (hs1 : s ≠ t.state) (hs2 : s ≠ t.dot) (c : Vec n) (α : ℝ) :
    phi d t m t.dot s c α = Steady.norm2 (operMult d t m t.dot) := by
  unfold phi
  rw [operMult_eq, operMult_eq]
  have e : ∀ v b, b ≠ s → write m s v b = m b := fun v b hb => if_neg hb
  rw [e _ _ (Ne.symm hs1), e _ _ (Ne.symm hs2)]

/-- Parameters for which the search makes sense: those of the defaults. -/
def Proper (P : LineSearch.Params ℝ) : Prop := 0 < P.mu ∧ 0 < P.rhoLo ∧ P.rhoLo ≤ P.rhoHi

example : Proper LineSearch.Params.default := by
  refine ⟨?_, ?_, ?_⟩ <;> norm_num [LineSearch.Params.default]

/-- **C177** With option "relaxednewton" no unsteady solve ever moves off its initial guess: the trial residuals do not depend on the
trial point, so no step satisfies the decrease condition and the search returns 0.  `ImplicitSolve` and `Mult` return `k = 0`
(and report non-convergence unless `R(x)` itself meets the tolerance). -/
theorem C177_relaxed_false (N : NSolver n) (P : LineSearch.Params ℝ) (hk : N.kind = .relaxed P) (hP : Proper P) (hlin : ExactLin N)
    (hN : N.iterative = false) (habs : 0 ≤ N.absTol) (d : Dyn n) (dt : ℝ) (x k0 : Vec n)
    (hA : IsUnit (Matrix.det (if dt = 0 then d.M else d.M + dt • d.J x))) :
    (slope N d dt x k0).mem bK = 0 ∧
    ((slope N d dt x k0).converged = true ↔ Steady.norm2 (d.R x) ≤ max (N.relTol * Steady.norm2 (d.R x)) N.absTol ) := by
  obtain ⟨m, e1, e2, e3⟩ := slope_eq N d dt x k0
  have hst : start N k0 = 0 := by unfold start; rw [hN]; rfl
  have hT : T d dt x 0 = d.R x := by unfold T; rw [Matrix.mulVec_zero, zero_add, smul_zero, add_zero]
  rw [hst, hT] at e3
  rw [hst] at e2
  obtain ⟨goal, hg⟩ : ∃ g, g = max (N.relTol * Steady.norm2 (d.R x)) N.absTol := ⟨_, rfl⟩
  rw [← hg] at e3 ⊢
  have hg0 : 0 ≤ goal := by rw [hg]; exact habs.trans (le_max_right _ _)
  rw [e3]
  by_cases h : Steady.norm2 (d.R x) ≤ goal
  · have e : loop N d ⟨dt, bU, bK⟩ bK bS goal N.maxIter 0 m (d.R x) = ⟨m, true, 0⟩ := by
      cases N.maxIter with
      | zero => rw [loop_zero, if_pos h]
      | succ q => rw [loop_succ, if_pos h]
    rw [e]
    exact ⟨e2, fun _ => h, fun _ => rfl⟩
  · have e : loop N d ⟨dt, bU, bK⟩ bK bS goal N.maxIter 0 m (d.R x) = ⟨m, false, 0⟩ := by
      cases N.maxIter with
      | zero => rw [loop_zero, if_neg h]
      | succ q =>
        rw [loop_succ, if_neg h]
        obtain ⟨A, hAe⟩ : ∃ A, A = operGrad d ⟨dt, bU, bK⟩ m bK := ⟨_, rfl⟩
        have hA' : IsUnit (Matrix.det A) := by
          rw [hAe]
          unfold operGrad
          show IsUnit (Matrix.det (if dt = 0 then d.M else d.M + dt • d.J (m bU + dt • m bK)))
          rw [e1, e2, smul_zero, add_zero]
          exact hA
        have hr : 0 < Steady.norm2 (d.R x) := lt_of_le_of_lt hg0 (not_le.1 h)
        have hrr : 0 < d.R x ⬝ᵥ d.R x := by
          have : Steady.norm2 (d.R x) = √(d.R x ⬝ᵥ d.R x) := rfl
          rw [this] at hr
          exact Real.sqrt_pos.1 hr
        have hphi : ∀ c α, phi d ⟨dt, bU, bK⟩ m bK bS c α = Steady.norm2 (d.R x) := by
          intro c α
          rw [phi_const d ⟨dt, bU, bK⟩ m bS (show bS ≠ bU by decide) (show bS ≠ bK by decide) c α, operMult_eq]
          show Steady.norm2 (T d dt (m bU) (m bK)) = _
          rw [e1, e2, hT]
        have hs0 : scaling N d ⟨dt, bU, bK⟩ m bK bS (d.R x) (N.lin A (d.R x)) = 0 := by
          unfold scaling
          rw [hk]
          simp only
          rw [← hAe, hlin A _ hA']
          rcases LineSearch.C10_armijo_or_zero Real.sqrt (1 / 2 ^ 52) P (phi d ⟨dt, bU, bK⟩ m bK bS (N.lin A (d.R x)))
            (Steady.norm2 (d.R x)) (-(d.R x ⬝ᵥ d.R x) / Steady.norm2 (d.R x)) 1 one_pos hP.2.1 hP.2.2 with h' | h'
          · exact h'.1
          · exfalso
            obtain ⟨p1, p2, -⟩ := h'
            unfold LineSearch.Armijo at p2
            rw [hphi] at p2
            have hd : -(d.R x ⬝ᵥ d.R x) / Steady.norm2 (d.R x) < 0 := div_neg_of_neg_of_pos (neg_neg_of_pos hrr) hr
            have := mul_neg_of_pos_of_neg (mul_pos hP.1 p1) hd
            linarith
        rw [← hAe]
        exact if_pos hs0
    rw [e]
    exact ⟨e2, fun h' => absurd h' (by simp), fun h' => absurd h' h⟩

/-- `p` steps of a one-step method. -/
noncomputable def steps (step : Vec n → ℝ → Vec n × ℝ) : ℕ → Vec n × ℝ → Vec n × ℝ
  | 0, q => q
  | p + 1, q => steps step p (step q.1 q.2)

theorem steps_still (step : Vec n → ℝ → Vec n × ℝ) (x : Vec n) (dt : ℝ) (h : ∀ t, step x t = (x, t + dt)) : ∀ (p : ℕ) (t : ℝ),
    steps step p (x, t) = (x, t + p * dt) := by
  intro p
  induction p with
  | zero => intro t; simp [steps]
  | succ p ih =>
    intro t
    show steps step p (step x t) = _
    rw [h, ih]
    refine Prod.ext rfl ?_
    simp only
    push_cast
    ring

/-- **C178** Hence with "relaxednewton" every time stepper returns the initial condition after any number of steps, the time
advancing as if it had been integrated. -/
theorem C178_relaxed_false (N : NSolver n) (P : LineSearch.Params ℝ) (hk : N.kind = .relaxed P) (hP : Proper P) (hlin : ExactLin N)
    (hN : N.iterative = false) (habs : 0 ≤ N.absTol) (d : Dyn n) (x k0 : Vec n) (t dt : ℝ) (hdt : dt ≠ 0) (hM : IsUnit (Matrix.det d.M))
    (hI : ∀ s : ℝ, IsUnit (Matrix.det (d.M + s • d.J x))) (p : ℕ) :
    steps (fun y s => forwardEuler (oper N d) y s dt) p (x, t) = (x, t + p * dt) ∧
    steps (fun y s => rk4 (oper N d) y s dt) p (x, t) = (x, t + p * dt) ∧
    steps (fun y s => midpoint (oper N d) k0 y s dt) p (x, t) = (x, t + p * dt) ∧
    steps (fun y s => Ode.ptcStep (oper N d) k0 y s dt) p (x, t) = (x, t + p * dt) := by
  have hm : ∀ s, (oper N d).mult s x = 0 := fun s =>
    (C177_relaxed_false N P hk hP hlin hN habs d 0 x 0 (by rw [if_pos rfl]; exact hM)).1
  have hi : ∀ s h, h ≠ 0 → (oper N d).implicitSolve s h x k0 = 0 := fun s h h0 =>
    (C177_relaxed_false N P hk hP hlin hN habs d h x k0 (by rw [if_neg h0]; exact hI h)).1
  refine ⟨steps_still _ _ _ (fun s => ?_) p t, steps_still _ _ _ (fun s => ?_) p t, steps_still _ _ _ (fun s => ?_) p t,
    steps_still _ _ _ (fun s => ?_) p t⟩
  · show (x + dt • (oper N d).mult s x, s + dt) = _
    rw [hm, smul_zero, add_zero]
  · unfold rk4
    simp only [hm, smul_zero, add_zero]
  · show (x + dt • (oper N d).implicitSolve (s + dt / 2) (dt / 2) x k0, s + dt) = _
    rw [hi _ _ (by intro h; apply hdt; linarith), smul_zero, add_zero]
  · show (x + dt • (oper N d).implicitSolve (s + dt) dt x k0, s + dt) = _
    rw [hi _ _ hdt, smul_zero, add_zero]

/-! ### Witnesses -/

/-- A direct solver. -/
noncomputable def direct : NSolver n := ⟨.newton, 1 / 10 ^ 6, 0, 10, fun A r => A⁻¹ *ᵥ r, false⟩

theorem direct_lin : ExactLin (direct (n := n)) := by
  intro A r h
  show A *ᵥ (A⁻¹ *ᵥ r) = r
  rw [Matrix.mulVec_mulVec, Matrix.mul_nonsing_inv _ h, Matrix.one_mulVec]

example : Direct (direct (n := n)) := ⟨rfl, direct_lin, by norm_num [direct], by norm_num [direct], le_refl _, by norm_num [direct]⟩

/-- The scalar problem `u' = 1 - u` with its Jacobian. -/
noncomputable def decay : Dyn 1 := ⟨fun u => fun i => u i - 1, fun _ => 1, 1⟩

theorem decay_affine : AffineR decay 1 := by
  refine ⟨fun u v => ?_, fun _ => rfl⟩
  rw [Matrix.one_mulVec]
  funext i
  show v i - 1 = u i - 1 + (v i - u i)
  ring

theorem decay_det (s : ℝ) : Matrix.det (decay.M + s • (1 : Mat 1)) = 1 + s := by
  rw [Matrix.det_fin_one]
  simp [decay]

/-- Non-vacuity of C177 and C178: the scalar problem meets the hypotheses for every positive step. -/
example (dt : ℝ) (h : 0 < dt) : IsUnit (Matrix.det decay.M) ∧ IsUnit (Matrix.det (decay.M + dt • (1 : Mat 1))) := by
  constructor
  · have : decay.M = 1 := rfl
    rw [this, Matrix.det_one]; exact isUnit_one
  · rw [decay_det]; exact isUnit_iff_ne_zero.2 (by linarith)

/-! ### The "steady" stepper -/

/-- **C179** What the "steady" stepper solves: on an affine problem its new state `x'` satisfies `M x' + R(x + dt x') = 0`. -/
theorem C179_steady_equation_partial (N : NSolver n) (hN : Direct N) (d : Dyn n) (A : Mat n) (hA : AffineR d A) (dt : ℝ)
    (hM : IsUnit (Matrix.det (d.M + dt • A))) (x : Vec n) (t : ℝ) :
    let x' := (steady N d x t dt).1
    d.M *ᵥ x' + d.R (x + dt • x') = 0 ∧ (steady N d x t dt).2 = t + dt :=
  ⟨(C177_implicit { N with iterative := true } hN d A hA dt hM x x).2, rfl⟩

/-- **C179** With a converged solve of an arbitrary problem, to the tolerance. -/
theorem C179_steady_residual_partial (N : NSolver n) (d : Dyn n) (dt : ℝ) (x : Vec n) (t : ℝ)
    (h : (slope { N with iterative := true } d dt x x).converged = true) :
    Steady.norm2 (d.M *ᵥ (steady N d x t dt).1 + d.R (x + dt • (steady N d x t dt).1)) ≤
      max (N.relTol * Steady.norm2 (d.M *ᵥ x + d.R (x + dt • x))) N.absTol :=
  (C177_equation { N with iterative := true } d dt x x).2.1 h

/-- **C179** So the "steady" stepper does not deliver a steady state, and leaves one it is given: `u' = 1 - u` from its
steady state `u = 1` with `dt = 1` moves to `0`, where the residual is `-1`. -/
theorem C179_steady_false : decay.R (fun _ => 1) = 0 ∧ (steady direct decay (fun _ => 1) 0 1).1 = 0 ∧
    decay.R (steady direct decay (fun _ => 1) 0 1).1 ≠ 0 := by
  have h := (C179_steady_equation_partial direct ⟨rfl, direct_lin, by norm_num [direct], by norm_num [direct], le_refl _,
    by norm_num [direct]⟩ decay 1 decay_affine 1 (by rw [decay_det]; norm_num) (fun _ => 1) 0).1
  have e : (steady direct decay (fun _ => 1) 0 1).1 = 0 := by
    obtain ⟨y, hy⟩ : ∃ y, y = (steady direct decay (fun _ => 1) 0 1).1 := ⟨_, rfl⟩
    rw [← hy] at h ⊢
    funext i
    have hi := congrFun h i
    rw [show decay.M = 1 from rfl, Matrix.one_mulVec, one_smul] at hi
    have : y i + (1 + y i - 1) = 0 := hi
    show y i = 0
    linarith
  refine ⟨?_, e, ?_⟩
  · funext i; show (1 : ℝ) - 1 = 0; ring
  · rw [e]
    intro h'
    have := congrFun h' 0
    have h2 : (0 : ℝ) - 1 = 0 := this
    norm_num at h2

/-- **C179** The option value selects the stepper; anything else, and the deprecated key, is an exception. -/
theorem C179_dispatch (type : String) :
    stepperName true type = none ∧
    (stepperName false type = none ↔ type ∉ ["RK1", "RK4", "MIDPOINT", "RRK", "RRKMIDPOINT", "RRK6", "PTC", "steady"]) ∧
    stepperName false "RK1" = some "ForwardEuler" ∧ stepperName false "RK4" = some "RK4" ∧
    stepperName false "MIDPOINT" = some "ImplicitMidpoint" ∧ stepperName false "RRK" = stepperName false "RRKMIDPOINT" ∧
    stepperName false "RRK" = some "RRKImplicitMidpoint" ∧ stepperName false "RRK6" = some "RRK6" ∧
    stepperName false "PTC" = some "PseudoTransient" ∧ stepperName false "steady" = some "Steady" := by
  refine ⟨rfl, ?_, rfl, rfl, rfl, rfl, rfl, rfl, rfl, rfl⟩
  unfold stepperName
  simp only [Bool.false_eq_true, if_false]
  split_ifs <;> simp_all
  tauto

/-- Non-vacuity of the relaxed case on the scalar problem: after any number of steps the state is the initial one, though the
solution of `u' = 1 - u` from `0` is not. -/
example (p : ℕ) : (steps (fun y s => rk4 (oper { direct with kind := .relaxed LineSearch.Params.default } decay) y s 1) p
    ((0 : Vec 1), 0)).1 = 0 := by
  have hl : ExactLin { (direct (n := 1)) with kind := .relaxed LineSearch.Params.default } := direct_lin
  refine congrArg Prod.fst (steps_still _ _ 1 (fun s => ?_) p 0)
  have hm : ∀ s, (oper { direct with kind := .relaxed LineSearch.Params.default } decay).mult s 0 = 0 := fun s =>
    (C177_relaxed_false _ LineSearch.Params.default rfl (by refine ⟨?_, ?_, ?_⟩ <;> norm_num [LineSearch.Params.default]) hl rfl
      (le_refl _) decay 0 0 0 (by rw [if_pos rfl, show decay.M = 1 from rfl, Matrix.det_one]; exact isUnit_one)).1
  unfold rk4
  simp only [hm, smul_zero, add_zero]

end Verif.Unsteady
