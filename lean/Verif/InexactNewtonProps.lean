import Verif.InexactNewton
import Mathlib.Tactic.Linarith
import Mathlib.Tactic.Ring
import Mathlib.Tactic.NormNum
import Mathlib.Algebra.Module.Pi
import Mathlib.Algebra.Module.Prod

/-! # Inexact Newton: property theorems (C15–C17) -/

set_option linter.unusedSectionVars false

namespace Verif.InexactNewton

variable {K : Type} [Field K] [LinearOrder K] [IsStrictOrderedRing K]
variable {V : Type} [AddCommGroup V] [Module K V]

/-- Well-formed parameters: `0 < thetaMin ≤ thetaMax < 1` (the class constants 0.1, 0.5),
`0 ≤ t`, `etaMax < 1`. -/
structure Ok (P : Par K) : Prop where
  tmin : 0 < P.thetaMin
  tle : P.thetaMin ≤ P.thetaMax
  tmax : P.thetaMax < 1

/-- Specification: the residual of the equation `oper x = b` (`b = 0` when no right-hand side is given). -/
def residual (p : Prob K V) (x : V) : V := p.oper x - p.b.getD 0

private theorem res_eq (p : Prob K V) (x : V) : p.res x = residual p x := by
  unfold Prob.res residual
  cases p.b <;> simp

theorem clamp_mem (P : Par K) (h : P.thetaMin ≤ P.thetaMax) (th : K) :
    P.thetaMin ≤ clampTheta P th ∧ clampTheta P th ≤ P.thetaMax := by
  unfold clampTheta
  simp only
  split_ifs with h1 h2 h2
  · exact ⟨h1.le, h2.le⟩
  · exact ⟨h, le_refl _⟩
  · exact ⟨le_refl _, h⟩
  · exact ⟨h, le_refl _⟩

private theorem stepLoop_spec (P : Par K) (hP : Ok P) (p : Prob K V) (x c : V) (norm p0p : K) :
    ∀ (left itt : ℕ) (theta s eta : K),
      0 < s → P.thetaMin ^ itt ≤ s → s ≤ P.thetaMax ^ itt →
      (itt = 0 → theta = 0) → (0 < itt → P.thetaMin ≤ theta ∧ theta ≤ P.thetaMax ∧ eta ≤ P.etaMax) →
      ∀ s' th' eta' k, stepLoop P p x c norm p0p left itt theta s eta = .ret s' th' eta' k →
        itt ≤ k ∧ k ≤ itt + left ∧ 0 < s' ∧ P.thetaMin ^ k ≤ s' ∧ s' ≤ P.thetaMax ^ k ∧
        (k = 0 → th' = 0) ∧ (0 < k → P.thetaMin ≤ th' ∧ th' ≤ P.thetaMax ∧ eta' ≤ P.etaMax) ∧
        p.norm (p.res (x - s' • c)) ≤ (1 - P.t * (1 - th')) * norm := by
  intro left
  induction left with
  | zero =>
    intro itt theta s eta h1 h2 h3 h4 h5 s' th' eta' k h
    unfold stepLoop at h
    simp only at h
    split_ifs at h with hc
    injection h with e1 e2 e3 e4
    subst e1 e2 e3 e4
    exact ⟨le_refl _, by omega, h1, h2, h3, h4, h5, not_lt.mp hc⟩
  | succ n ih =>
    intro itt theta s eta h1 h2 h3 h4 h5 s' th' eta' k h
    unfold stepLoop at h
    simp only at h
    split_ifs at h with hc he
    · generalize hth : clampTheta P _ = th at h
      obtain ⟨c1, c2⟩ := clamp_mem P hP.tle
        (RootFind.quadInterp 0 (1 / 2 * norm * norm) p0p 1
          (1 / 2 * p.norm (p.res (x - s • c)) * p.norm (p.res (x - s • c))))
      rw [hth] at c1 c2
      have hthpos : 0 < th := lt_of_lt_of_le hP.tmin c1
      have := ih (itt + 1) th (s * th) _ (mul_pos h1 hthpos)
        (by rw [pow_succ]; exact mul_le_mul h2 c1 hP.tmin.le h1.le)
        (by rw [pow_succ]; exact mul_le_mul h3 c2 hthpos.le (h1.le.trans h3))
        (by omega) (fun _ => ⟨c1, c2, by rw [hth] at he; exact he.le⟩) s' th' eta' k h
      obtain ⟨a1, a2, rest⟩ := this
      exact ⟨by omega, by omega, rest⟩
    · generalize hth : clampTheta P _ = th at h
      obtain ⟨c1, c2⟩ := clamp_mem P hP.tle
        (RootFind.quadInterp 0 (1 / 2 * norm * norm) p0p 1
          (1 / 2 * p.norm (p.res (x - s • c)) * p.norm (p.res (x - s • c))))
      rw [hth] at c1 c2
      have hthpos : 0 < th := lt_of_lt_of_le hP.tmin c1
      have := ih (itt + 1) th (s * th) _ (mul_pos h1 hthpos)
        (by rw [pow_succ]; exact mul_le_mul h2 c1 hP.tmin.le h1.le)
        (by rw [pow_succ]; exact mul_le_mul h3 c2 hthpos.le (h1.le.trans h3))
        (by omega) (fun _ => ⟨c1, c2, le_refl _⟩) s' th' eta' k h
      obtain ⟨a1, a2, rest⟩ := this
      exact ⟨by omega, by omega, rest⟩
    · injection h with e1 e2 e3 e4
      subst e1 e2 e3 e4
      exact ⟨le_refl _, by omega, h1, h2, h3, h4, h5, not_lt.mp hc⟩

/-- **C15** When the globalisation returns normally after `k` reductions: `k ≤ maxIter`; the step
satisfies `thetaMin^k ≤ s ≤ thetaMax^k` and lies in `(0,1]`; if any reduction happened `eta ≤ etaMax`;
and the residual at the new point satisfies the sufficient decrease test with the last `theta`
(0 if no reduction), hence for `0 ≤ t` and a non-negative norm it does not exceed the old one. -/
theorem C15_globalisation (P : Par K) (hP : Ok P) (p : Prob K V) (x c : V) (norm eta : K)
    {s th eta' : K} {k : ℕ} (h : computeStepSize P p x c norm eta = .ret s th eta' k) :
    k ≤ P.maxIter ∧ 0 < s ∧ s ≤ 1 ∧ P.thetaMin ^ k ≤ s ∧ s ≤ P.thetaMax ^ k ∧
    (0 < k → eta' ≤ P.etaMax) ∧ (k = 0 → s = 1 ∧ th = 0) ∧
    (0 < k → P.thetaMin ≤ th ∧ th ≤ P.thetaMax) ∧
    p.norm (residual p (x - s • c)) ≤ (1 - P.t * (1 - th)) * norm ∧
    (0 ≤ P.t → 0 ≤ norm → p.norm (residual p (x - s • c)) ≤ norm) ∧
    (0 < P.t → 0 < norm → p.norm (residual p (x - s • c)) < norm) := by
  simp only [← res_eq]
  obtain ⟨_, h2, h3, h4, h5, h6, h7, h8⟩ := stepLoop_spec P hP p x c norm (p.p0p x c) P.maxIter 0 0 1
    eta one_pos (by simp) (by simp) (fun _ => rfl) (fun h => absurd h (by omega)) s th eta' k h
  have hs1 : s ≤ 1 := h5.trans (pow_le_one₀ (hP.tmin.le.trans hP.tle) hP.tmax.le)
  have hth1 : th < 1 := by
    rcases Nat.eq_zero_or_pos k with hk | hk
    · rw [h6 hk]; exact one_pos
    · exact lt_of_le_of_lt (h7 hk).2.1 hP.tmax
  refine ⟨by omega, h3, hs1, h4, h5, fun hk => (h7 hk).2.2, ?_, fun hk => ⟨(h7 hk).1, (h7 hk).2.1⟩,
    h8, ?_, ?_⟩
  · intro hk
    refine ⟨?_, h6 hk⟩
    rw [hk, pow_zero] at h4 h5
    exact le_antisymm h5 h4
  · intro ht hn
    have : 0 ≤ P.t * (1 - th) * norm := mul_nonneg (mul_nonneg ht (by linarith)) hn
    linarith
  · intro ht hn
    have : 0 < P.t * (1 - th) * norm := mul_pos (mul_pos ht (by linarith)) hn
    linarith

private theorem stepLoop_total (P : Par K) (hP : Ok P) (p : Prob K V) (x c : V) (norm p0p : K)
    (ht : 0 ≤ P.t) (hn : 0 ≤ norm) (j : ℕ) (hj : 0 < j)
    (hsmall : ∀ s, 0 < s → s ≤ P.thetaMax ^ j →
      p.norm (p.res (x - s • c)) ≤ (1 - P.t * (1 - P.thetaMin)) * norm) :
    ∀ (left itt : ℕ) (theta s eta : K), j ≤ itt + left → 0 < s → s ≤ P.thetaMax ^ itt →
      (0 < itt → P.thetaMin ≤ theta) →
      stepLoop P p x c norm p0p left itt theta s eta ≠ .abort := by
  intro left
  induction left with
  | zero =>
    intro itt theta s eta h1 h2 h3 h4
    unfold stepLoop
    simp only
    rw [if_neg]
    · simp
    · refine not_lt.mpr ((hsmall s h2 (h3.trans ?_)).trans ?_)
      · exact pow_le_pow_of_le_one (hP.tmin.le.trans hP.tle) hP.tmax.le (by omega)
      · apply mul_le_mul_of_nonneg_right _ hn
        have := mul_le_mul_of_nonneg_left (h4 (by omega)) ht
        linarith
  | succ n ih =>
    intro itt theta s eta h1 h2 h3 h4
    unfold stepLoop
    simp only
    split_ifs with hc
    all_goals first
      | (generalize hth : clampTheta P _ = th
         obtain ⟨c1, c2⟩ := clamp_mem P hP.tle
           (RootFind.quadInterp 0 (1 / 2 * norm * norm) p0p 1
             (1 / 2 * p.norm (p.res (x - s • c)) * p.norm (p.res (x - s • c))))
         rw [hth] at c1 c2
         have hthpos : 0 < th := lt_of_lt_of_le hP.tmin c1
         exact ih (itt + 1) th (s * th) _ (by omega) (mul_pos h2 hthpos)
           (by rw [pow_succ]; exact mul_le_mul h3 c2 hthpos.le (h2.le.trans h3)) (fun _ => c1))
      | simp

/-- **C15 (no spurious abort)** If all sufficiently short steps (`0 < s ≤ thetaMax^j` for some
`1 ≤ j ≤ maxIter`) pass the sufficient decrease test, the globalisation does not abort. -/
theorem C15_no_abort (P : Par K) (hP : Ok P) (p : Prob K V) (x c : V) (norm eta : K)
    (ht : 0 ≤ P.t) (hn : 0 ≤ norm) (j : ℕ) (hj : 0 < j) (hjm : j ≤ P.maxIter)
    (hsmall : ∀ s, 0 < s → s ≤ P.thetaMax ^ j →
      p.norm (residual p (x - s • c)) ≤ (1 - P.t * (1 - P.thetaMin)) * norm) :
    computeStepSize P p x c norm eta ≠ .abort := by
  simp only [← res_eq] at hsmall
  exact stepLoop_total P hP p x c norm _ ht hn j hj hsmall P.maxIter 0 0 1 eta (by omega) one_pos
    (by simp) (fun h => absurd h (by omega))

/-- **C15 (full step kept)** If the full step already reduces the residual sufficiently,
it is taken unchanged and `eta` is not touched. -/
theorem C15_full_step (P : Par K) (p : Prob K V) (x c : V) (norm eta : K)
    (h : p.norm (residual p (x - c)) ≤ (1 - P.t) * norm) :
    computeStepSize P p x c norm eta = .ret 1 0 eta 0 := by
  rw [← res_eq] at h
  unfold computeStepSize stepLoop
  simp only [one_smul, sub_zero, mul_one]
  rw [if_neg (not_lt.mpr h)]

/-- A concrete scalar problem, `x³ = 8`, used for non-vacuity. -/
def cubeProb : Prob ℚ ℚ where
  oper x := x ^ 3
  grad x v := 3 * x ^ 2 * v
  prec x r := r / (3 * x ^ 2)
  norm r := |r|
  dot u v := u * v
  b := some 8

/-- The class defaults. -/
def defaultPar : Par ℚ := ⟨1 / 10 ^ 4, 1 / 10, 1 / 10, 1 / 2, 20⟩

example : Ok defaultPar := by constructor <;> norm_num [defaultPar]

/-- From `x = 1/2` the full Newton step overshoots and the globalisation really reduces. -/
example : (match computeStepSize defaultPar cubeProb (1 / 2)
    (cubeProb.prec (1 / 2) (cubeProb.res (1 / 2))) (cubeProb.norm (cubeProb.res (1 / 2)))
    (1 / 10 ^ 4) with
    | .ret s _ _ k => decide (0 < s ∧ s < 1 ∧ 0 < k)
    | .abort => false) = true := by decide +kernel

/-! ### C16 -/

/-- Specification: `m` is the slope at 0 of the quadratic `s ↦ ½ (r - s J c)·(r - s J c)`, the merit
function along the step for an affine residual with Jacobian `J`. -/
def IsMeritSlope (dot : V → V → K) (r Jc : V) (m : K) : Prop :=
  ∃ q, ∀ s : K, 1 / 2 * dot (r - s • Jc) (r - s • Jc) = 1 / 2 * dot r r + m * s + q * s ^ 2

/-- **C16 (partial)** For a symmetric bilinear `dot` and a Jacobian that is symmetric with respect
to it, the slope used by `ComputeStepSize` is the slope of the merit function.
Missing: non-symmetric Jacobians, where it is false (`C16_false_nonsymmetric`). -/
theorem C16_slope_symmetric_partial (p : Prob K V) (x c : V)
    (hsub : ∀ u v w, p.dot (u - v) w = p.dot u w - p.dot v w)
    (hsmul : ∀ (a : K) u v, p.dot (a • u) v = a * p.dot u v)
    (hcomm : ∀ u v, p.dot u v = p.dot v u)
    (hsymJ : ∀ u v, p.dot u (p.grad x v) = p.dot (p.grad x u) v) :
    IsMeritSlope p.dot (residual p x) (p.grad x c) (p.p0p x c) := by
  rw [← res_eq]
  refine ⟨1 / 2 * p.dot (p.grad x c) (p.grad x c), fun s => ?_⟩
  unfold Prob.p0p
  rw [hsymJ, hsub, hcomm _ (_ - _), hcomm _ (_ - _), hsub, hsub, hsmul, hsmul,
    hcomm (p.res x) (s • _), hsmul, hcomm (p.grad x c) (s • _), hsmul]
  ring

/-- The linear problem `F(x,y) = (x+y, y)`, used as a witness. -/
def shearProb : Prob ℚ (ℚ × ℚ) where
  oper v := (v.1 + v.2, v.2)
  grad _ v := (v.1 + v.2, v.2)
  prec _ r := (r.1 - r.2, r.2)
  norm v := max |v.1| |v.2|
  dot u v := u.1 * v.1 + u.2 * v.2
  b := none

/-- **C16 is violated by the code** for non-symmetric Jacobians: for `F(x,y) = (x+y, y)` at
`(1,1)` with the exact Newton step, no quadratic with the code's slope matches the merit
function (the step is an exact Newton step, first conjunct). -/
theorem C16_false_nonsymmetric :
    let x : ℚ × ℚ := (1, 1)
    let c := shearProb.prec x (shearProb.res x)
    shearProb.grad x c = shearProb.res x ∧
    ¬ IsMeritSlope shearProb.dot (shearProb.res x) (shearProb.grad x c) (shearProb.p0p x c) := by
  refine ⟨by norm_num [shearProb, Prob.res], ?_⟩
  rintro ⟨q, hq⟩
  have h1 := hq 1
  have h2 := hq (-1)
  norm_num [shearProb, Prob.res, Prob.p0p] at h1 h2
  linarith

/-! ### C17 -/

private theorem multLoop_spec (P : Par K) (p : Prob K V) (goal : K) :
    ∀ (left it : ℕ) (x : V) (norm eta : K) (r : Result K V), norm = p.norm (p.res x) →
      multLoop P p goal left it x norm eta = some r →
      r.finalNorm = p.norm (p.res r.x) ∧ (r.converged = true ↔ r.finalNorm ≤ goal) ∧
      it ≤ r.finalIter ∧ r.finalIter ≤ it + left := by
  intro left
  induction left with
  | zero =>
    intro it x norm eta r hn h
    unfold multLoop at h
    split_ifs at h with hc
    · injection h with h; subst h; exact ⟨hn, by simp [hc], le_refl _, by simp⟩
    · injection h with h; subst h; exact ⟨hn, by simp [hc], le_refl _, by simp⟩
  | succ n ih =>
    intro it x norm eta r hn h
    unfold multLoop at h
    split_ifs at h with hc
    · injection h with h; subst h; exact ⟨hn, by simp [hc], le_refl _, by simp⟩
    · simp only at h
      split at h
      · exact absurd h (by simp)
      · split_ifs at h with hs
        · injection h with h; subst h; exact ⟨hn, by simp [hc], le_refl _, by simp⟩
        · obtain ⟨a, b, c, d⟩ := ih _ _ _ _ _ rfl h
          exact ⟨a, b, by omega, by omega⟩

/-- **C17** Whenever `InexactNewton::Mult` terminates without aborting, the reported final norm is the
residual norm of the returned state, `converged` is set iff that norm is at most
`max(rel_tol * initial norm, abs_tol)`, and at most `max_iter` iterations were taken. -/
theorem C17_flag_truthful (P : Par K) (p : Prob K V) (relTol absTol eta : K) (x0 : V)
    {r : Result K V} (h : mult P p relTol absTol eta x0 = some r) :
    r.finalNorm = p.norm (residual p r.x) ∧
    (r.converged = true ↔ p.norm (residual p r.x) ≤ max (relTol * p.norm (residual p x0)) absTol) ∧
    r.finalIter ≤ P.maxIter := by
  simp only [← res_eq]
  obtain ⟨a, b, _, d⟩ := multLoop_spec P p _ P.maxIter 0 x0 _ eta r rfl h
  exact ⟨a, by rw [← a]; exact b, by omega⟩

/-- **C17 (monotone)** With well-formed parameters and non-negative `t`, a terminated solve never
ends with a larger residual norm than it started with. -/
theorem C17_no_increase (P : Par K) (hP : Ok P) (ht : 0 ≤ P.t) (p : Prob K V)
    (hnn : ∀ v, 0 ≤ p.norm v) (relTol absTol eta : K) (x0 : V)
    {r : Result K V} (h : mult P p relTol absTol eta x0 = some r) :
    p.norm (residual p r.x) ≤ p.norm (residual p x0) := by
  have key : ∀ (goal : K) (left it : ℕ) (x : V) (eta : K) (r : Result K V),
      multLoop P p goal left it x (p.norm (p.res x)) eta = some r →
      p.norm (p.res r.x) ≤ p.norm (p.res x) := by
    intro goal left
    induction left with
    | zero =>
      intro it x eta r h
      unfold multLoop at h
      split_ifs at h <;> (injection h with h; subst h; exact le_refl _)
    | succ n ih =>
      intro it x eta r h
      unfold multLoop at h
      split_ifs at h
      · injection h with h; subst h; exact le_refl _
      · simp only at h
        split at h
        · exact absurd h (by simp)
        · next s th eta' k hk =>
          split_ifs at h with hs
          · injection h with h; subst h; exact le_refl _
          · have h1 := ih _ _ _ _ h
            have h2 := (C15_globalisation P hP p x _ _ _ hk).2.2.2.2.2.2.2.2.2.1 ht (hnn _)
            rw [← res_eq] at h2
            exact h1.trans h2
  rw [← res_eq, ← res_eq]
  exact key _ _ _ _ _ _ h

/-- **C17 (one exact step)** If the preconditioned step from `x0` lands on a solution of `oper x = b` and
`t ≤ 1`, and at least one iteration is allowed, the solver reports convergence to that solution
after one iteration (none if the initial guess already passes the test). -/
theorem C17_exact_step (P : Par K) (ht1 : P.t ≤ 1) (hmax : 0 < P.maxIter) (p : Prob K V)
    (hnn : ∀ v, 0 ≤ p.norm v) (h0 : p.norm 0 = 0) (relTol absTol eta : K) (x0 : V)
    (hrel : 0 ≤ relTol) (hsol : residual p (x0 - p.prec x0 (residual p x0)) = 0) :
    mult P p relTol absTol eta x0 =
      if p.norm (residual p x0) ≤ max (relTol * p.norm (residual p x0)) absTol then
        some ⟨x0, true, 0, p.norm (residual p x0)⟩
      else some ⟨x0 - p.prec x0 (residual p x0), true, 1, 0⟩ := by
  have hs := C15_full_step P p x0 (p.prec x0 (residual p x0)) (p.norm (residual p x0)) eta (by
    rw [hsol, h0]; exact mul_nonneg (by linarith) (hnn _))
  have hgoal : (0 : K) ≤ max (relTol * p.norm (residual p x0)) absTol :=
    le_max_of_le_left (mul_nonneg hrel (hnn _))
  obtain ⟨n, hn⟩ : ∃ n, P.maxIter = n + 1 := ⟨P.maxIter - 1, by omega⟩
  unfold mult
  simp only [res_eq]
  rw [hn]
  unfold multLoop
  simp only [res_eq]
  split_ifs with hc
  · rfl
  · rw [hs]
    simp only [one_smul, one_ne_zero, if_false, hsol, h0]
    unfold multLoop
    rw [if_pos hgoal]

/-- Concrete instance: the shear map with right-hand side `(3,1)`. -/
example : mult (⟨1 / 10 ^ 4, 1 / 10, 1 / 10, 1 / 2, 20⟩ : Par ℚ) { shearProb with b := some (3, 1) }
    (1 / 100) 0 0 (0, 0) = some ⟨(2, 1), true, 1, 0⟩ := by
  rw [C17_exact_step _ (by norm_num) (by norm_num) _ (fun v => by simp [shearProb]) (by simp [shearProb])
    _ _ _ _ (by norm_num) (by ext <;> simp [shearProb, residual])]
  norm_num [shearProb, residual]

example : (mult defaultPar cubeProb (1 / 100) (1 / 100) (1 / 10 ^ 4) 3).any
    (fun r => r.converged && decide (0 < r.finalIter)) = true := by decide +kernel

end Verif.InexactNewton
