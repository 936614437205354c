import Mathlib.Algebra.BigOperators.Group.Finset.Basic
import Mathlib.Algebra.BigOperators.Module
import Mathlib.Tactic.Ring
import Mathlib.Tactic.FieldSimp
import Mathlib.Tactic.Linarith
import Mathlib.Tactic.Abel
import Mathlib.Tactic.NormNum
import Mathlib.Tactic.LinearCombination
import Mathlib.Algebra.Algebra.Bilinear
import Mathlib.Algebra.BigOperators.GroupWithZero.Action
import Mathlib.Algebra.Order.Field.Rat
import Mathlib.LinearAlgebra.BilinearForm.Basic
import Verif.Ode
import Verif.RootFindProps

/-! # Time steppers: property theorems (C33, C34, C71) -/

namespace Verif.Ode

open Verif.RootFind Finset

set_option linter.unusedSectionVars false

variable {K V : Type} [Field K] [LinearOrder K] [IsStrictOrderedRing K] [AddCommGroup V] [Module K V]

/-! ### Specification of an explicit Runge–Kutta stage computation -/

/-- Abscissae including the implicit leading zero. -/
def absc (c : ℕ → K) (i : ℕ) : K := if i = 0 then 0 else c (i - 1)

/-- `i`-th stage value of the Butcher tableau whose strictly lower triangle is stored row by row in `a`. -/
def stageValue (a : ℕ → K) (x : V) (dt : K) (k : ℕ → V) (i : ℕ) : V :=
  x + ∑ j ∈ range i, (a (i * (i - 1) / 2 + j) * dt) • k j

/-- `k` are the `s` slopes of the Runge–Kutta method `(a, c)` for `u' = g(t,u)` at `(t, x)`. -/
def IsRKSlopes (g : K → V → V) (a c : ℕ → K) (x : V) (t dt : K) (s : ℕ) (k : ℕ → V) : Prop :=
  ∀ i < s, k i = g (t + absc c i * dt) (stageValue a x dt k i)

private theorem stageSum_eq (a : ℕ → K) (dt : K) : ∀ (ks : List V) (l : ℕ) (y : V),
    stageSum a dt l y ks = (y + ∑ j ∈ range ks.length, (a (l + j) * dt) • ks.getD j 0, l + ks.length) := by
  intro ks
  induction ks with
  | nil => intro l y; simp [stageSum]
  | cons k ks ih =>
    intro l y
    rw [stageSum, ih]
    rw [List.length_cons, sum_range_succ']
    simp only [List.getD_cons_zero, List.getD_cons_succ, Nat.add_zero]
    refine Prod.ext ?_ ?_
    · simp only
      rw [add_assoc, add_comm (∑ j ∈ range ks.length, (a (l + (j + 1)) * dt) • ks.getD j 0)]
      simp only [add_assoc, add_comm 1]
    · simp only; omega

private theorem weighted_eq (b : ℕ → K) (dt : K) : ∀ (ks : List V) (i : ℕ) (acc : V),
    weighted b dt i acc ks = acc + ∑ j ∈ range ks.length, (b (i + j) * dt) • ks.getD j 0 := by
  intro ks
  induction ks with
  | nil => intro i acc; simp [weighted]
  | cons k ks ih =>
    intro i acc
    rw [weighted, ih, List.length_cons, sum_range_succ']
    simp only [List.getD_cons_zero, List.getD_cons_succ, Nat.add_zero]
    rw [add_assoc, add_comm (∑ j ∈ range ks.length, (b (i + (j + 1)) * dt) • ks.getD j 0)]
    simp only [add_assoc, add_comm 1]

/-- Entropy-change rate of the step: the `b`-weighted sum of the stage rates. -/
def rkDelta (f : Oper K V) (a b c : ℕ → K) (x : V) (t dt : K) (s : ℕ) (k : ℕ → V) : K :=
  ∑ i ∈ range s, b i * f.entropyChange (t + absc c i * dt) (absc c i * dt) (stageValue a x dt k i) (k i)

private theorem getD_append_left (ks : List V) (k : V) {j : ℕ} (h : j < ks.length) :
    (ks ++ [k]).getD j 0 = ks.getD j 0 := by
  simp [List.getD_eq_getElem?_getD, List.getElem?_append_left h]

private theorem getD_append_len (ks : List V) (k : V) : (ks ++ [k]).getD ks.length 0 = k := by
  simp [List.getD_eq_getElem?_getD]

private theorem stageValue_congr (a : ℕ → K) (x : V) (dt : K) (k k' : ℕ → V) (i : ℕ) (h : ∀ j < i, k j = k' j) :
    stageValue a x dt k i = stageValue a x dt k' i := by
  unfold stageValue
  congr 1
  exact sum_congr rfl fun j hj => by rw [h j (mem_range.mp hj)]

private theorem tri_succ (i : ℕ) (hi : 1 ≤ i) : i * (i - 1) / 2 + i = (i + 1) * (i + 1 - 1) / 2 := by
  obtain ⟨m, rfl⟩ : ∃ m, i = m + 1 := ⟨i - 1, by omega⟩
  have : (m + 1 + 1) * (m + 1 + 1 - 1) = (m + 1) * (m + 1 - 1) + (m + 1) * 2 := by
    simp only [Nat.add_sub_cancel]; ring
  rw [this, Nat.add_mul_div_right _ _ (by norm_num)]

private theorem stages_spec (f : Oper K V) (a b c : ℕ → K) (x : V) (t dt : K) : ∀ (n l : ℕ) (ks : List V) (delta : K),
    1 ≤ ks.length → l = ks.length * (ks.length - 1) / 2 →
    IsRKSlopes f.mult a c x t dt ks.length (fun i => ks.getD i 0) →
    delta = rkDelta f a b c x t dt ks.length (fun i => ks.getD i 0) →
    ∃ ks', (stages f a b c x t dt n l ks delta).1 = ks' ∧ ks'.length = ks.length + n ∧
      IsRKSlopes f.mult a c x t dt ks'.length (fun i => ks'.getD i 0) ∧
      (stages f a b c x t dt n l ks delta).2 = rkDelta f a b c x t dt ks'.length (fun i => ks'.getD i 0) := by
  intro n
  induction n with
  | zero => intro l ks delta h1 hl hs hd; exact ⟨ks, rfl, rfl, hs, hd⟩
  | succ n ih =>
    intro l ks delta h1 hl hs hd
    have habs : absc c ks.length = c (ks.length - 1) := by unfold absc; rw [if_neg (by omega)]
    have hy : (stageSum a dt l x ks).1 = stageValue a x dt (fun i => ks.getD i 0) ks.length := by
      rw [stageSum_eq, hl]; rfl
    have hl' : (stageSum a dt l x ks).2 = l + ks.length := by rw [stageSum_eq]
    rw [stages, hy, hl']
    set y := stageValue a x dt (fun i => ks.getD i 0) ks.length with hydef
    set k := f.mult (t + c (ks.length - 1) * dt) y with hk
    have hlen : (ks ++ [k]).length = ks.length + 1 := by simp
    have hcong : ∀ i ≤ ks.length, stageValue a x dt (fun i => (ks ++ [k]).getD i 0) i
        = stageValue a x dt (fun i => ks.getD i 0) i := fun i hi =>
      stageValue_congr _ _ _ _ _ _ fun j hj => getD_append_left ks k (by omega)
    obtain ⟨ks', e1, e2, e3, e4⟩ := ih (l + ks.length) (ks ++ [k])
      (delta + b ks.length * f.entropyChange (t + c (ks.length - 1) * dt) (c (ks.length - 1) * dt) y k)
      (by omega) (by rw [hlen, hl]; exact tri_succ _ h1)
      (by
        intro i hi
        rw [hlen] at hi
        simp only
        rw [hcong i (by omega)]
        rcases Nat.lt_succ_iff_lt_or_eq.mp hi with h | h
        · rw [getD_append_left ks k h]; exact hs i h
        · subst h; rw [getD_append_len, habs])
      (by
        rw [hd, hlen]
        unfold rkDelta
        rw [sum_range_succ]
        congr 1
        · refine sum_congr rfl fun i hi => ?_
          have hi := mem_range.mp hi
          simp only
          rw [hcong i hi.le, getD_append_left ks k hi]
        · simp only
          rw [hcong _ le_rfl, getD_append_len, habs])
    exact ⟨ks', e1, by rw [e2, hlen]; omega, e3, e4⟩

/-- What a relaxation step with increment `dt * slope` and entropy-change rate `delta` must produce: state and time are advanced by the same
relaxed step `gamma * dt`, and, if the scalar solve stopped before its iteration limit, the entropy balance over the *relaxed* step holds to
`1e-12` or the last change of `gamma` was below `1e-12`. -/
def RelaxedStep (f : Oper K V) (x slope : V) (t dt delta : K) (x' : V) (t' : K) : Prop :=
  ∃ (gamma : K) (iters : ℕ), iters ≤ 30 ∧ x' = x + (gamma * dt) • slope ∧ t' = t + gamma * dt ∧
    (iters < 30 → |f.entropy x' - f.entropy x + (t' - t) * delta| ≤ 1 / 10 ^ 12 ∨
      ShortSecantStep (fun g => f.entropy (x + (g * dt) • slope) - f.entropy x + g * dt * delta) (1 / 10 ^ 12) gamma)

private theorem secant_iters (g : K → K) (x1 x2 ft xt : K) {x : K} {k : ℕ}
    (h : secant g x1 x2 ft xt maxiter = .ret x k) : k ≤ 30 := by
  unfold secant at h
  simp only at h
  split at h
  · simp at h
  · split_ifs at h
    injection h with h1 h2
    subst h2
    next hle =>
    unfold maxiter at hle
    omega

private theorem relax_spec (f : Oper K V) (x slope : V) (t dt delta : K) {x' : V} {t' : K}
    (h : relax f x (dt • slope) t dt delta = .ok x' t') : RelaxedStep f x slope t dt delta x' t' := by
  unfold relax at h
  split at h <;> try simp at h
  next gamma n hsec =>
  obtain ⟨rfl, rfl⟩ := h
  have hfun : entropyFun f x (dt • slope) dt delta =
      fun g => f.entropy (x + (g * dt) • slope) - f.entropy x + g * dt * delta := by
    funext g; unfold entropyFun; rw [smul_smul]
  refine ⟨gamma, n, secant_iters _ _ _ _ _ hsec, by rw [smul_smul], rfl, fun hn => ?_⟩
  have := C08_secant_early_return_partial _ _ _ _ _ _ hsec (by unfold maxiter; omega)
  rw [hfun] at this
  rcases this with h1 | h1
  · left
    have e : t + gamma * dt - t = gamma * dt := by ring
    rw [e, smul_smul]; exact h1
  · exact Or.inr h1

/-- **C33 (implicit midpoint)** A normal return of the relaxed implicit midpoint step advances state and time by the same relaxed step along the midpoint
slope, and the entropy balance is met unless the scalar iteration was exhausted. -/
theorem C33_midpoint_step_partial (f : Oper K V) (k0 x : V) (t dt : K) {x' : V} {t' : K}
    (h : rrkMidpointStep f k0 x t dt = .ok x' t') :
    let k := f.implicitSolve (t + dt / 2) (dt / 2) x k0
    RelaxedStep f x k t dt (f.entropyChange (t + dt / 2) (1 / 2 * dt) (x + (1 / 2 * dt) • k) k) x' t' :=
  relax_spec f x _ t dt _ h

/-- **C33 (explicit)** For any tableau with `s ≥ 1` stages: the step uses the slopes of that tableau and advances state and time by the same relaxed
step along `Σ b_i k_i`, with the entropy balance taken against the `b`-weighted stage rates. -/
theorem C33_explicit_step_partial (f : Oper K V) (s : ℕ) (hs : 1 ≤ s) (a b c : ℕ → K) (x : V) (t dt : K) {x' : V} {t' : K}
    (h : rrkExplicitStep f s a b c x t dt = .ok x' t') :
    ∃ k : ℕ → V, IsRKSlopes f.mult a c x t dt s k ∧
      RelaxedStep f x (∑ i ∈ range s, b i • k i) t dt (rkDelta f a b c x t dt s k) x' t' := by
  unfold rrkExplicitStep at h
  simp only at h
  have h0 : IsRKSlopes f.mult a c x t dt [f.mult t x].length (fun i => [f.mult t x].getD i 0) := by
    intro i hi
    simp only [List.length_singleton, Nat.lt_one_iff] at hi
    subst hi
    simp [absc, stageValue]
  obtain ⟨ks, e1, e2, e3, e4⟩ := stages_spec f a b c x t dt (s - 1) 0 [f.mult t x]
    (b 0 * f.entropyChange t 0 x (f.mult t x)) (by simp) (by simp) h0
    (by simp [rkDelta, absc, stageValue])
  rw [e1, e4] at h
  have hlen : ks.length = s := by rw [e2]; simp; omega
  rw [hlen] at e3
  cases ks with
  | nil => simp at hlen; omega
  | cons k ks =>
    refine ⟨fun i => (k :: ks).getD i 0, e3, ?_⟩
    simp only at h
    rw [hlen] at h
    refine relax_spec f x _ t dt _ ?_
    rw [← h, weighted_eq]
    congr 1
    rw [← hlen, List.length_cons, sum_range_succ', smul_add, Finset.smul_sum]
    simp only [List.getD_cons_zero, List.getD_cons_succ, smul_smul]
    rw [add_comm, mul_comm]
    congr 1
    refine sum_congr rfl fun j _ => ?_
    rw [add_comm 1 j, mul_comm]

/-! ### Quadratic entropies: the scalar solve always converges -/

/-- The secant iteration on `q (γ² - γ)` near the root 1: contraction by 98 per step. -/
private theorem secLoop_quad (q : K) (hq : q ≠ 0) (ft : K) (hft : 0 ≤ ft) : ∀ (m fuel iter : ℕ) (e1 e2 : K),
    e1 ≠ e2 → |e1| ≤ 1 / 100 → |e2| ≤ 1 / 100 → |e2| ≤ 98 ^ m * (1 / 10 ^ 12 / 2) → m + 1 ≤ fuel →
    ∃ e k, secLoop (fun g => q * (g ^ 2 - g)) ft (1 / 10 ^ 12) fuel iter (1 + e1) (q * ((1 + e1) ^ 2 - (1 + e1)))
        (1 + e2) (q * ((1 + e2) ^ 2 - (1 + e2))) (1 + e2) (q * ((1 + e2) ^ 2 - (1 + e2))) = some (1 + e, k) ∧
      k ≤ iter + m + 1 ∧ |e| ≤ 1 / 100 ∧ (|q * ((1 + e) ^ 2 - (1 + e))| ≤ ft ∨ |e| ≤ 1 / 10 ^ 12) := by
  intro m
  induction m with
  | zero =>
    intro fuel iter e1 e2 hne h1 h2 h3 hf
    obtain ⟨n, rfl⟩ : ∃ n, fuel = n + 1 := ⟨fuel - 1, by omega⟩
    obtain ⟨l1, u1⟩ := abs_le.mp h1
    obtain ⟨l2, u2⟩ := abs_le.mp h2
    have hd : (98 : K) / 100 ≤ 1 + e1 + e2 := by linarith
    have hd0 : (0 : K) < 1 + e1 + e2 := by linarith
    unfold secLoop
    by_cases hc : |q * ((1 + e2) ^ 2 - (1 + e2))| > ft
    · rw [if_pos hc]
      have hdf : q * ((1 + e2) ^ 2 - (1 + e2)) - q * ((1 + e1) ^ 2 - (1 + e1)) = q * (e2 - e1) * (1 + e1 + e2) := by ring
      have hdf0 : q * (e2 - e1) * (1 + e1 + e2) ≠ 0 :=
        mul_ne_zero (mul_ne_zero hq (sub_ne_zero.mpr hne.symm)) hd0.ne'
      have hdx : q * ((1 + e2) ^ 2 - (1 + e2)) * (1 + e2 - (1 + e1)) / (q * (e2 - e1) * (1 + e1 + e2))
          = e2 * ((1 + e2) / (1 + e1 + e2)) := by
        have := sub_ne_zero.mpr hne.symm
        have := hd0.ne'
        field_simp
        ring
      rw [hdf, if_neg hdf0]
      simp only
      rw [hdx]
      have hr : |(1 + e2) / (1 + e1 + e2)| ≤ 101 / 98 := by
        rw [abs_of_pos (div_pos (by linarith) hd0), div_le_div_iff₀ hd0 (by norm_num)]
        linarith
      have hdxs : |e2 * ((1 + e2) / (1 + e1 + e2))| < 1 / 10 ^ 12 := by
        rw [abs_mul]
        calc |e2| * |(1 + e2) / (1 + e1 + e2)| ≤ (98 ^ 0 * (1 / 10 ^ 12 / 2)) * (101 / 98) :=
              mul_le_mul h3 hr (abs_nonneg _) (by positivity)
          _ < 1 / 10 ^ 12 := by norm_num
      rw [if_pos hdxs]
      have he' : e2 - e2 * ((1 + e2) / (1 + e1 + e2)) = e2 * (e1 / (1 + e1 + e2)) := by
        have := hd0.ne'
        field_simp
        ring
      have hre : |e1 / (1 + e1 + e2)| ≤ 1 / 98 := by
        rw [abs_div, abs_of_pos hd0, div_le_div_iff₀ hd0 (by norm_num)]
        linarith
      refine ⟨e2 * (e1 / (1 + e1 + e2)), iter + 1, ?_, by omega, ?_, Or.inr ?_⟩
      · rw [← he']; congr 2; ring
      · rw [abs_mul]
        calc |e2| * |e1 / (1 + e1 + e2)| ≤ 1 / 100 * (1 / 98) := mul_le_mul h2 hre (abs_nonneg _) (by norm_num)
          _ ≤ 1 / 100 := by norm_num
      · rw [abs_mul]
        calc |e2| * |e1 / (1 + e1 + e2)| ≤ (98 ^ 0 * (1 / 10 ^ 12 / 2)) * (1 / 98) :=
              mul_le_mul h3 hre (abs_nonneg _) (by positivity)
          _ ≤ 1 / 10 ^ 12 := by norm_num
    · rw [if_neg hc]
      exact ⟨e2, iter, rfl, by omega, h2, Or.inl (not_lt.mp hc)⟩
  | succ m ih =>
    intro fuel iter e1 e2 hne h1 h2 h3 hf
    obtain ⟨n, rfl⟩ : ∃ n, fuel = n + 1 := ⟨fuel - 1, by omega⟩
    obtain ⟨l1, u1⟩ := abs_le.mp h1
    obtain ⟨l2, u2⟩ := abs_le.mp h2
    have hd0 : (0 : K) < 1 + e1 + e2 := by linarith
    unfold secLoop
    by_cases hc : |q * ((1 + e2) ^ 2 - (1 + e2))| > ft
    · rw [if_pos hc]
      have hdf : q * ((1 + e2) ^ 2 - (1 + e2)) - q * ((1 + e1) ^ 2 - (1 + e1)) = q * (e2 - e1) * (1 + e1 + e2) := by ring
      have hdf0 : q * (e2 - e1) * (1 + e1 + e2) ≠ 0 :=
        mul_ne_zero (mul_ne_zero hq (sub_ne_zero.mpr hne.symm)) hd0.ne'
      have hdx : q * ((1 + e2) ^ 2 - (1 + e2)) * (1 + e2 - (1 + e1)) / (q * (e2 - e1) * (1 + e1 + e2))
          = e2 * ((1 + e2) / (1 + e1 + e2)) := by
        have := sub_ne_zero.mpr hne.symm
        have := hd0.ne'
        field_simp
        ring
      rw [hdf, if_neg hdf0]
      simp only
      rw [hdx]
      have he' : 1 + e2 - e2 * ((1 + e2) / (1 + e1 + e2)) = 1 + e2 * (e1 / (1 + e1 + e2)) := by
        have := hd0.ne'
        field_simp
        ring
      rw [he']
      have hre : |e1 / (1 + e1 + e2)| ≤ 1 / 98 := by
        rw [abs_div, abs_of_pos hd0, div_le_div_iff₀ hd0 (by norm_num)]
        linarith
      have hb : |e2 * (e1 / (1 + e1 + e2))| ≤ 1 / 100 := by
        rw [abs_mul]
        calc |e2| * |e1 / (1 + e1 + e2)| ≤ 1 / 100 * (1 / 98) := mul_le_mul h2 hre (abs_nonneg _) (by norm_num)
          _ ≤ 1 / 100 := by norm_num
      split_ifs with hs
      · refine ⟨_, iter + 1, rfl, by omega, hb, Or.inr ?_⟩
        -- a short step means `e2` was already small
        have hlow : (97 : K) / 98 * |e2| ≤ |e2 * ((1 + e2) / (1 + e1 + e2))| := by
          have e : e2 * ((1 + e2) / (1 + e1 + e2)) = e2 - e2 * (e1 / (1 + e1 + e2)) := by linear_combination -he'
          rw [e]
          have h5 := abs_sub_abs_le_abs_sub e2 (e2 * (e1 / (1 + e1 + e2)))
          have h6 : |e2 * (e1 / (1 + e1 + e2))| ≤ |e2| * (1 / 98) := by
            rw [abs_mul]; exact mul_le_mul_of_nonneg_left hre (abs_nonneg _)
          linarith
        rw [abs_mul]
        calc |e2| * |e1 / (1 + e1 + e2)| ≤ |e2| * (1 / 98) := mul_le_mul_of_nonneg_left hre (abs_nonneg _)
          _ ≤ 1 / 10 ^ 12 := by
            have := abs_nonneg e2
            linarith
      · obtain ⟨e, k, h7, h8, h9, h10⟩ := ih n (iter + 1) e2 (e2 * (e1 / (1 + e1 + e2)))
          (by
            intro heq
            have hne0 : e2 ≠ 0 := by
              rintro rfl
              simp at hc
              linarith
            have h11 : e2 * (1 - e1 / (1 + e1 + e2)) = 0 := by linear_combination heq
            rcases mul_eq_zero.mp h11 with h12 | h12
            · exact hne0 h12
            · have := abs_le.mp hre
              linarith)
          h2 hb
          (by
            rw [abs_mul]
            calc |e2| * |e1 / (1 + e1 + e2)| ≤ (98 ^ (m + 1) * (1 / 10 ^ 12 / 2)) * (1 / 98) :=
                  mul_le_mul h3 hre (abs_nonneg _) (by positivity)
              _ = 98 ^ m * (1 / 10 ^ 12 / 2) := by rw [pow_succ]; ring)
          (by omega)
        exact ⟨e, k, h7, by omega, h9, h10⟩
    · rw [if_neg hc]
      exact ⟨e2, iter, rfl, by omega, h2, Or.inl (not_lt.mp hc)⟩

private theorem secant_quad (q ft : K) (hft : 0 ≤ ft) :
    ∃ e k, secant (fun g => q * (g ^ 2 - g)) (99 / 100) (101 / 100) ft (1 / 10 ^ 12) 30 = .ret (1 + e) k ∧
      k ≤ 7 ∧ |e| ≤ 1 / 100 ∧ (|q * ((1 + e) ^ 2 - (1 + e))| ≤ ft ∨ |e| ≤ 1 / 10 ^ 12) := by
  by_cases hq : q = 0
  · subst hq
    refine ⟨1 / 100, 0, ?_, by omega, ?_, Or.inl ?_⟩
    · have : (30 : ℤ).toNat = 29 + 1 := rfl
      simp only [secant, zero_mul, lt_self_iff_false, if_false, this, secLoop, abs_zero, gt_iff_lt, not_lt.mpr hft]
      norm_num
    · rw [abs_of_pos (by norm_num)]
    · simpa using hft
  · have hlt : |q * ((99 / 100 : K) ^ 2 - 99 / 100)| < |q * ((101 / 100 : K) ^ 2 - 101 / 100)| := by
      rw [abs_mul, abs_mul]
      refine mul_lt_mul_of_pos_left ?_ (abs_pos.mpr hq)
      rw [abs_of_neg (by norm_num), abs_of_pos (by norm_num)]
      norm_num
    have e1 : (101 / 100 : K) = 1 + 1 / 100 := by norm_num
    have e2 : (99 / 100 : K) = 1 + -(1 / 100) := by norm_num
    obtain ⟨e, k, h1, h2, h3, h4⟩ := secLoop_quad q hq ft hft 6 (Int.toNat 30) 0 (1 / 100) (-(1 / 100)) (by norm_num)
      (by rw [abs_of_pos (by norm_num)]) (by rw [abs_neg, abs_of_pos (by norm_num)])
      (by rw [abs_neg, abs_of_pos (by norm_num)]; norm_num) (by decide)
    refine ⟨e, k, ?_, by omega, h3, h4⟩
    unfold secant
    simp only
    rw [if_pos hlt, e1, e2, h1]
    simp only
    rw [if_neg (by omega)]

/-- **C33 (full, quadratic entropy)** With a quadratic entropy `½ B(x,x)` and the entropy-change rate `-B(y,k)` of the controller (`flow_control_residual.cpp:196-239`), the relaxed implicit midpoint step always
returns; the relaxation is within 1% of 1, at most 7 scalar iterations are used, and the entropy balance over the relaxed step holds to `1e-12` or `gamma` is 1 to `1e-12`
(where the balance is exact at 1). -/
theorem C33_midpoint_quadratic_entropy (f : Oper K V) (B : LinearMap.BilinForm K V) (hB : ∀ x y, B x y = B y x)
    (hη : ∀ x, f.entropy x = 1 / 2 * B x x) (hδ : ∀ s d y k, f.entropyChange s d y k = -B y k) (k0 x : V) (t dt : K) :
    ∃ gamma : K,
      let k := f.implicitSolve (t + dt / 2) (dt / 2) x k0
      let δ := f.entropyChange (t + dt / 2) (1 / 2 * dt) (x + (1 / 2 * dt) • k) k
      rrkMidpointStep f k0 x t dt = .ok (x + (gamma * dt) • k) (t + gamma * dt) ∧ |gamma - 1| ≤ 1 / 100 ∧
      (|f.entropy (x + (gamma * dt) • k) - f.entropy x + gamma * dt * δ| ≤ 1 / 10 ^ 12 ∨ |gamma - 1| ≤ 1 / 10 ^ 12) ∧
      f.entropy (x + dt • k) - f.entropy x + dt * δ = 0 := by
  have hb : ∀ (k : V) (g : K), f.entropy (x + (g * dt) • k) - f.entropy x +
      g * dt * (-B (x + (1 / 2 * dt) • k) k) = (dt ^ 2 / 2 * B k k) * (g ^ 2 - g) := by
    intro k g
    rw [hη, hη]
    simp only [map_add, map_smul, LinearMap.add_apply, LinearMap.smul_apply, smul_eq_mul]
    rw [hB k x]
    ring
  obtain ⟨e, n, h1, _, h3, h4⟩ := secant_quad (dt ^ 2 / 2 *
    B (f.implicitSolve (t + dt / 2) (dt / 2) x k0) (f.implicitSolve (t + dt / 2) (dt / 2) x k0)) (1 / 10 ^ 12)
    (by positivity : (0 : K) ≤ 1 / 10 ^ 12)
  refine ⟨1 + e, ?_⟩
  simp only
  have hfun : entropyFun f x (dt • f.implicitSolve (t + dt / 2) (dt / 2) x k0) dt
      (f.entropyChange (t + dt / 2) (1 / 2 * dt) (x + (1 / 2 * dt) • f.implicitSolve (t + dt / 2) (dt / 2) x k0)
        (f.implicitSolve (t + dt / 2) (dt / 2) x k0)) = fun g => (dt ^ 2 / 2 *
    B (f.implicitSolve (t + dt / 2) (dt / 2) x k0) (f.implicitSolve (t + dt / 2) (dt / 2) x k0)) * (g ^ 2 - g) := by
    funext g
    unfold entropyFun
    rw [smul_smul, hδ, hb]
  refine ⟨?_, by simpa using h3, ?_, ?_⟩
  · unfold rrkMidpointStep relax
    simp only
    rw [hfun]
    unfold ftol xtol maxiter
    rw [h1]
    simp only [smul_smul]
  · rw [hδ, hb]
    simpa using h4
  · have := hb (f.implicitSolve (t + dt / 2) (dt / 2) x k0) 1
    rw [hδ]
    simpa using this

/-- The hypotheses are met by the 2-state test ODE of the controller: identity form on `ℚ`. -/
example : ∃ (f : Oper ℚ ℚ) (B : LinearMap.BilinForm ℚ ℚ), (∀ x y, B x y = B y x) ∧
    (∀ x, f.entropy x = 1 / 2 * B x x) ∧ (∀ s d y k, f.entropyChange s d y k = -B y k) ∧
    f.implicitSolve 0 0 1 0 = (1 : ℚ) :=
  ⟨⟨fun _ y => y, fun _ _ x _ => x, fun x => 1 / 2 * (x * x), fun _ _ y k => -(y * k)⟩, LinearMap.mul ℚ ℚ,
    fun x y => by simp [mul_comm], fun x => by simp, fun _ _ _ _ => by simp, rfl⟩

/-- Forward Euler as a one-stage tableau applied to `u' = -u`, `η = u²/2`, with the consistent entropy-change rate `-u·k`. -/
def decay : Oper ℚ ℚ := ⟨fun _ y => -y, fun _ _ x _ => x, fun x => 1 / 2 * (x * x), fun _ _ y k => -(y * k)⟩

/-- **C33 (violated)** `gamma = 0` always solves the relaxation equation, and nothing excludes it: the relaxed forward Euler step from `u = 1`, `dt = 1` "converges"
to a step of less than `2e-6 * dt` — the state and the time practically do not advance. -/
theorem C33_false_no_progress :
    (∀ (f : Oper ℚ ℚ) (x dir dt δ : ℚ), entropyFun f x dir dt δ 0 = 0) ∧
    ∃ x t, rrkExplicitStep decay 1 (fun _ => 0) (fun _ => 1) (fun _ => 0) (1 : ℚ) 0 1 = .ok x t ∧
      0 < t ∧ t < 2 / 10 ^ 6 := by
  refine ⟨fun f x dir dt δ => by simp [entropyFun], ?_⟩
  have h : (match rrkExplicitStep decay 1 (fun _ => 0) (fun _ => 1) (fun _ => 0) (1 : ℚ) 0 1 with
      | .ok _ t => decide (0 < t ∧ t < 2 / 10 ^ 6) | _ => false) = true := by decide +kernel
  revert h
  cases rrkExplicitStep decay 1 (fun _ => 0) (fun _ => 1) (fun _ => 0) (1 : ℚ) 0 1 with
  | ok x t => intro h; exact ⟨x, t, rfl, of_decide_eq_true h⟩
  | throw => intro h; simp at h
  | nonfinite => intro h; simp at h

/-! ### C34: the 8-stage tableau -/

/-- Rooted trees, built from the one-vertex tree by grafting a tree onto the root of another (Butcher product). -/
inductive RTree where
  | leaf
  | graft (t s : RTree)
  deriving DecidableEq

/-- Number of vertices. -/
def RTree.order : RTree → ℕ
  | leaf => 1
  | graft t s => t.order + s.order

/-- Density `γ(τ)`. -/
def RTree.density : RTree → ℚ
  | leaf => 1
  | graft t s => t.density / t.order * s.density * (t.order + s.order)

/-- Internal elementary weights of a tableau with matrix `A i j` and `s` stages. -/
def RTree.weights (A : ℕ → ℕ → ℚ) (s : ℕ) : RTree → ℕ → ℚ
  | leaf, _ => 1
  | graft t u, i => t.weights A s i * ∑ j ∈ range s, A i j * u.weights A s j

/-- The tableau matrix addressed by the stepper: row `i` of the packed strict lower triangle. -/
def butcherA (a : List ℚ) (i j : ℕ) : ℚ := if j < i then a.getD (i * (i - 1) / 2 + j) 0 else 0

/-- Residual of the order condition of a tree. -/
def orderDefect (a b : List ℚ) (s : ℕ) (t : RTree) : ℚ :=
  ∑ i ∈ range s, b.getD i 0 * t.weights (butcherA a) s i - 1 / t.density

/-- All trees with at most `n` vertices (each plane representative once). -/
private def treesUpTo : ℕ → List RTree
  | 0 => []
  | n + 1 => .leaf :: (treesUpTo n).flatMap fun t =>
      ((treesUpTo n).filter fun u => decide (t.order + u.order ≤ n + 1)).map (.graft t)

private theorem order_pos : ∀ t : RTree, 1 ≤ t.order
  | .leaf => le_refl _
  | .graft t s => by have := order_pos t; have := order_pos s; simp only [RTree.order]; omega

private theorem mem_treesUpTo : ∀ (n : ℕ) (t : RTree), t.order ≤ n → t ∈ treesUpTo n := by
  intro n
  induction n with
  | zero => intro t h; have := order_pos t; omega
  | succ n ih =>
    intro t h
    cases t with
    | leaf => simp [treesUpTo]
    | graft t s =>
      have ht := order_pos t
      have hs := order_pos s
      simp only [RTree.order] at h
      simp only [treesUpTo, List.mem_cons, List.mem_flatMap, List.mem_map, List.mem_filter, decide_eq_true_eq]
      exact Or.inr ⟨t, ih t (by omega), s, ⟨ih s (by omega), h⟩, rfl⟩

private theorem check : (treesUpTo 6).all (fun t => decide (|orderDefect rrk6a rrk6b rrk6s t| ≤ 1 / 10 ^ 34)) = true := by
  decide +kernel

/-- **C34** The `RRK6Solver` coefficients satisfy the order condition of *every* rooted tree with at most 6 vertices to `1e-34` (they are 40-digit decimals), i.e. the unrelaxed method has order 6. -/
theorem C34_order_six (t : RTree) (h : t.order ≤ 6) : |orderDefect rrk6a rrk6b rrk6s t| ≤ 1 / 10 ^ 34 := by
  have := List.all_eq_true.mp check t (mem_treesUpTo 6 t h)
  exact of_decide_eq_true this

/-- **C34** Row sums of the tableau are the abscissae, for every stage (again to the precision of the literals). -/
theorem C34_row_sums (i : ℕ) (hi : i < rrk6s) :
    |∑ j ∈ range rrk6s, butcherA rrk6a i j - absc (fun m => rrk6c.getD m 0) i| ≤ 1 / 10 ^ 37 := by
  have : (List.range 8).all (fun i => decide (|∑ j ∈ range rrk6s, butcherA rrk6a i j - absc (fun m => rrk6c.getD m 0) i| ≤ 1 / 10 ^ 37)) = true := by
    decide +kernel
  exact of_decide_eq_true (List.all_eq_true.mp this i (List.mem_range.mpr hi))

/-- Sharpness: the method is not of order 7 (the bound of `C34_order_six` discriminates). -/
example : ∃ t : RTree, t.order = 7 ∧ 1 / 10 ^ 7 < |orderDefect rrk6a rrk6b rrk6s t| :=
  ⟨.graft (.graft (.graft (.graft (.graft (.graft .leaf .leaf) .leaf) .leaf) .leaf) .leaf) .leaf, by decide, by decide +kernel⟩

/-- The classical `RK4` tableau fails an order-5 condition: the predicate is not vacuous. -/
example : orderDefect [1/2, 0, 1/2, 0, 0, 1] [1/6, 1/3, 1/3, 1/6] 4
    (.graft (.graft (.graft (.graft .leaf .leaf) .leaf) .leaf) .leaf) ≠ 0 := by decide +kernel

/-! ### C71: pseudo-transient continuation -/

/-- The implicit solve is exact for `M k + R(x + dt k) = 0`, the residual of `TimeDependentResidual`. -/
def ExactSolve (f : Oper K V) (M : V →ₗ[K] V) (R : V → V) : Prop :=
  ∀ s dt x k0, M (f.implicitSolve s dt x k0) + R (x + dt • f.implicitSolve s dt x k0) = 0

/-- **C71** A pseudo-transient step with an exact solve is a backward-Euler step: `M (x' - x) = -dt R(x')`, `t' = t + dt`, whatever the solver's work vector held. -/
theorem C71_backward_euler (f : Oper K V) (M : V →ₗ[K] V) (R : V → V) (h : ExactSolve f M R) (k0 x : V) (t dt : K) :
    let r := ptcStep f k0 x t dt
    M (r.1 - x) = -(dt • R r.1) ∧ r.2 = t + dt := by
  refine ⟨?_, rfl⟩
  unfold ptcStep
  simp only
  rw [add_sub_cancel_left, map_smul, eq_neg_of_add_eq_zero_left (h (t + dt) dt x k0), smul_neg]

/-- **C71** A stationary pseudo-transient step (`x' = x`, `dt ≠ 0`) means the steady residual vanishes. -/
theorem C71_stationary_is_steady (f : Oper K V) (M : V →ₗ[K] V) (R : V → V) (h : ExactSolve f M R) (k0 x : V) (t dt : K)
    (hdt : dt ≠ 0) (hx : (ptcStep f k0 x t dt).1 = x) : R x = 0 := by
  have hk := h (t + dt) dt x k0
  unfold ptcStep at hx
  simp only [add_eq_left] at hx
  have hk0 : f.implicitSolve (t + dt) dt x k0 = 0 := (smul_eq_zero.mp hx).resolve_left hdt
  rw [hk0, map_zero, smul_zero, add_zero, zero_add] at hk
  exact hk

/-- **C71** Conversely a steady state is kept, provided the implicit equation has only one solution. -/
theorem C71_steady_is_kept (f : Oper K V) (M : V →ₗ[K] V) (R : V → V) (h : ExactSolve f M R) (k0 x : V) (t dt : K)
    (hu : ∀ k k', M k + R (x + dt • k) = 0 → M k' + R (x + dt • k') = 0 → k = k') (hR : R x = 0) :
    (ptcStep f k0 x t dt).1 = x := by
  have hk : f.implicitSolve (t + dt) dt x k0 = 0 := hu _ _ (h _ _ _ _) (by simp [hR])
  simp [ptcStep, hk]

/-- **C71** The steady stepper: if the implicit solve delivers a zero of the steady residual (from the given guess), the step returns that
zero and advances the time by `dt`; and the solve starts from the current state. -/
theorem C71_steady_step (f : Oper K V) (R : V → V) (x : V) (t dt : K)
    (h : R (f.implicitSolve (t + dt) dt x x) = 0) :
    R (steadyStep f x t dt).1 = 0 ∧ (steadyStep f x t dt).2 = t + dt := ⟨h, rfl⟩

/-- Satisfiable: `M = 1`, constant residual 3, exact solve `k = -3`. -/
example : ExactSolve (K := ℚ) (V := ℚ) ⟨fun _ y => y, fun _ _ _ _ => -3, fun _ => 0, fun _ _ _ _ => 0⟩ LinearMap.id (fun _ => 3) := by
  intro s dt x k0; simp

end Verif.Ode
