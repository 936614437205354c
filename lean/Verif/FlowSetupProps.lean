import Verif.FlowSetup
import Verif.EulerStableProps
import Verif.TimeLoopProps
import Mathlib.Tactic.IntervalCases
import Mathlib.Tactic.FinCases

/-!
Properties C115 (constant-CFL time step), C116 (drag and lift directions), C117 (boundary conditions
and options), C118 (conservative-variable error), C119 (mass matrix) and C120 (control footprint).
-/

namespace Verif.FlowSetup
open Finset Verif.EulerFluxes Verif.EulerInteg Verif.Sbp Verif.Inviscid

set_option linter.unusedSectionVars false

variable {d : ℕ}

/-! ### C115: constant-CFL time step -/

/-- Specification: fastest wave speed of the gas in the direction from `a` to `b`: speed of the flow
along the line plus the speed of sound. -/
noncomputable def waveSpeed (a b : Fin d → ℝ) (q : State d) : ℝ :=
  |∑ i, q.mom i / q.rho * ((b i - a i) / dist a b)| + √(7 / 5 * specP q / q.rho)

theorem forN_le_iff (n : ℕ) (body : ℕ → ℝ → ℝ) (P : ℕ → ℝ → Prop)
    (h : ∀ k < n, ∀ s b, b ≤ body k s ↔ b ≤ s ∧ P k b) (s b : ℝ) :
    b ≤ forN n body s ↔ b ≤ s ∧ ∀ k < n, P k b := by
  induction n with
  | zero => simp [forN]
  | succ n ih =>
    rw [forN, h n (by omega), ih fun k hk => h k (by omega)]
    constructor
    · rintro ⟨⟨h1, h2⟩, h3⟩
      refine ⟨h1, fun k hk => ?_⟩
      by_cases he : k = n
      · rw [he]; exact h3
      · exact h2 k (by omega)
    · rintro ⟨h1, h2⟩
      exact ⟨⟨h1, fun k hk => h2 k (by omega)⟩, h2 n (by omega)⟩

theorem le_minCflLocal (entvar : Bool) (cfl : ℝ) (ne : ℕ) (dof : ℕ → ℕ) (x : ℕ → ℕ → Fin d → ℝ)
    (u : ℕ → ℕ → State d) (b : ℝ) :
    b ≤ minCflLocal entvar cfl ne dof x u ↔ b ≤ 10 ^ 100 ∧
      ∀ k < ne, ∀ i < dof k, ∀ j < dof k, j ≠ i →
        b ≤ cfl * dist (x k i) (x k j) * dist (x k i) (x k j) /
          calcSpectralRadius entvar (fun a => x k j a - x k i a) (u k i) := by
  unfold minCflLocal
  refine forN_le_iff ne _ (fun k b => ∀ i < dof k, ∀ j < dof k, j ≠ i →
        b ≤ cfl * dist (x k i) (x k j) * dist (x k i) (x k j) /
          calcSpectralRadius entvar (fun a => x k j a - x k i a) (u k i)) (fun k _ s b => ?_) _ b
  refine forN_le_iff (dof k) _ (fun i b => ∀ j < dof k, j ≠ i →
        b ≤ cfl * dist (x k i) (x k j) * dist (x k i) (x k j) /
          calcSpectralRadius entvar (fun a => x k j a - x k i a) (u k i)) (fun i _ s b => ?_) _ b
  refine forN_le_iff (dof k) _ (fun j b => j ≠ i →
        b ≤ cfl * dist (x k i) (x k j) * dist (x k i) (x k j) /
          calcSpectralRadius entvar (fun a => x k j a - x k i a) (u k i)) (fun j _ s b => ?_) _ b
  unfold cflNode
  by_cases h : j = i
  · simp [h]
  · simp [h]

theorem le_allMin (n : ℕ) (f : ℕ → ℝ) (b : ℝ) : b ≤ allMin n f ↔ ∀ r ≤ n, b ≤ f r := by
  unfold allMin
  rw [forN_le_iff n _ (fun r b => b ≤ f (r + 1)) (fun k _ s b => le_min_iff)]
  constructor
  · rintro ⟨h1, h2⟩ r hr
    rcases r with _ | r
    · exact h1
    · exact h2 r (by omega)
  · intro h
    exact ⟨h 0 (by omega), fun k hk => h (k + 1) (by omega)⟩

theorem dist_pos {a b : Fin d → ℝ} (h : a ≠ b) : 0 < dist a b := by
  unfold dist
  refine Real.sqrt_pos.2 (dot_self_pos ?_)
  intro h0
  exact h (funext fun i => by have := congrFun h0 i; simp at this; linarith)

theorem waveSpeed_pos (a b : Fin d → ℝ) (q : State d) (h : Admissible q) : 0 < waveSpeed a b q := by
  unfold waveSpeed
  have hp := h.press_pos
  have hr := h.rho_pos
  rw [pressure_spec] at hp
  have : 0 < √(7 / 5 * specP q / q.rho) := Real.sqrt_pos.2 (by positivity)
  have := abs_nonneg (∑ i, q.mom i / q.rho * ((b i - a i) / dist a b))
  linarith

theorem spectral_wave (entvar : Bool) (a b : Fin d → ℝ) (hab : a ≠ b) (v : State d) :
    calcSpectralRadius entvar (fun i => b i - a i) v =
      waveSpeed a b (consOf entvar v) * dist a b := by
  have hd := dist_pos hab
  unfold calcSpectralRadius waveSpeed
  simp only
  rw [add_mul, ← pressure_spec, gamma_eq]
  congr 1
  rw [← abs_of_pos hd, ← abs_mul, abs_of_pos hd]
  congr 1
  rw [dot, sum_div, sum_mul]
  refine sum_congr rfl fun i _ => ?_
  field_simp

/-- **CFL condition.**  In every element, between any two distinct nodes, the fastest wave at the first
node covers at most `cfl` times the distance in one step of the returned size. -/
theorem C115_cfl_condition (entvar : Bool) (cfl : ℝ) (ne : ℕ) (dof : ℕ → ℕ) (x : ℕ → ℕ → Fin d → ℝ)
    (u : ℕ → ℕ → State d) (k i j : ℕ) (hk : k < ne) (hi : i < dof k) (hj : j < dof k) (hij : j ≠ i)
    (hx : x k i ≠ x k j) (ha : Admissible (consOf entvar (u k i))) :
    minCflLocal entvar cfl ne dof x u * waveSpeed (x k i) (x k j) (consOf entvar (u k i)) ≤
      cfl * dist (x k i) (x k j) := by
  have h := ((le_minCflLocal entvar cfl ne dof x u _).1 le_rfl).2 k hk i hi j hj hij
  have hw := waveSpeed_pos (x k i) (x k j) _ ha
  have hd := dist_pos hx
  rw [spectral_wave entvar _ _ hx] at h
  have : cfl * dist (x k i) (x k j) * dist (x k i) (x k j) /
      (waveSpeed (x k i) (x k j) (consOf entvar (u k i)) * dist (x k i) (x k j)) =
      cfl * dist (x k i) (x k j) / waveSpeed (x k i) (x k j) (consOf entvar (u k i)) := by
    field_simp
  rw [this, le_div_iff₀ hw] at h
  exact h

/-- **Largest such step.**  Any step (up to the cap `1e100`) satisfying the CFL condition everywhere is
no larger than the returned one. -/
theorem C115_largest (entvar : Bool) (cfl : ℝ) (ne : ℕ) (dof : ℕ → ℕ) (x : ℕ → ℕ → Fin d → ℝ)
    (u : ℕ → ℕ → State d) (hx : ∀ k < ne, ∀ i < dof k, ∀ j < dof k, j ≠ i → x k i ≠ x k j)
    (ha : ∀ k < ne, ∀ i < dof k, Admissible (consOf entvar (u k i))) (dt : ℝ) (hcap : dt ≤ 10 ^ 100)
    (hdt : ∀ k < ne, ∀ i < dof k, ∀ j < dof k, j ≠ i →
      dt * waveSpeed (x k i) (x k j) (consOf entvar (u k i)) ≤ cfl * dist (x k i) (x k j)) :
    dt ≤ minCflLocal entvar cfl ne dof x u := by
  rw [le_minCflLocal]
  refine ⟨hcap, fun k hk i hi j hj hij => ?_⟩
  have hxx := hx k hk i hi j hj hij
  have hw := waveSpeed_pos (x k i) (x k j) _ (ha k hk i hi)
  have hd := dist_pos hxx
  rw [spectral_wave entvar _ _ hxx, le_div_iff₀ (mul_pos hw hd)]
  have := mul_le_mul_of_nonneg_right (hdt k hk i hi j hj hij) hd.le
  linarith

/-- The step is positive, so time advances. -/
theorem C115_positive (entvar : Bool) (cfl : ℝ) (hc : 0 < cfl) (ne : ℕ) (dof : ℕ → ℕ)
    (x : ℕ → ℕ → Fin d → ℝ) (u : ℕ → ℕ → State d)
    (hx : ∀ k < ne, ∀ i < dof k, ∀ j < dof k, j ≠ i → x k i ≠ x k j)
    (ha : ∀ k < ne, ∀ i < dof k, Admissible (consOf entvar (u k i))) :
    0 < minCflLocal entvar cfl ne dof x u := by
  -- every candidate is bounded below by a common positive number
  have key : ∀ n : ℕ, ∀ f : ℕ → ℝ → ℝ, (∀ k < n, ∀ s, 0 < s → 0 < f k s) → ∀ s, 0 < s →
      0 < forN n f s := by
    intro n f hf s hs
    induction n with
    | zero => exact hs
    | succ n ih => exact hf n (by omega) _ (ih fun k hk => hf k (by omega))
  unfold minCflLocal
  refine key _ _ (fun k hk s hs => key _ _ (fun i hi s hs => key _ _ (fun j hj s hs => ?_) s hs) s hs)
    _ (by positivity)
  unfold cflNode
  split_ifs with hij
  · exact hs
  · have hxx := hx k hk i hi j hj hij
    have hw := waveSpeed_pos (x k i) (x k j) _ (ha k hk i hi)
    have hd := dist_pos hxx
    refine lt_min hs ?_
    rw [spectral_wave entvar _ _ hxx]
    positivity

/-- **Parallel runs.**  The step does not depend on how the elements are distributed over the ranks:
if rank `r` owns the elements `own r 0, ..., own r (n r - 1)` and every element is owned by some rank,
the reduced step is the serial one. -/
theorem C115_partition (entvar : Bool) (cfl : ℝ) (ne : ℕ) (dof : ℕ → ℕ) (x : ℕ → ℕ → Fin d → ℝ)
    (u : ℕ → ℕ → State d) (ranks : ℕ) (n : ℕ → ℕ) (own : ℕ → ℕ → ℕ)
    (hin : ∀ r ≤ ranks, ∀ k < n r, own r k < ne)
    (hall : ∀ k < ne, ∃ r ≤ ranks, ∃ l < n r, own r l = k) :
    allMin ranks (fun r => minCflLocal entvar cfl (n r) (fun k => dof (own r k))
      (fun k => x (own r k)) (fun k => u (own r k))) = minCflLocal entvar cfl ne dof x u := by
  refine eq_of_forall_le_iff fun b => ?_
  rw [le_allMin]
  simp only [le_minCflLocal]
  constructor
  · intro h
    refine ⟨(h 0 (by omega)).1, fun k hk => ?_⟩
    obtain ⟨r, hr, l, hl, rfl⟩ := hall k hk
    exact (h r hr).2 l hl
  · intro h r hr
    exact ⟨h.1, fun k hk => h.2 _ (hin r hr k hk)⟩

/-- Conservative and entropy variables give the same step. -/
theorem C115_entvars (cfl : ℝ) (ne : ℕ) (dof : ℕ → ℕ) (x : ℕ → ℕ → Fin d → ℝ) (u : ℕ → ℕ → State d)
    (ha : ∀ k < ne, ∀ i < dof k, Admissible (u k i)) :
    minCflLocal true cfl ne dof x (fun k i => calcEntropyVars (u k i)) =
      minCflLocal false cfl ne dof x u := by
  refine eq_of_forall_le_iff fun b => ?_
  rw [le_minCflLocal, le_minCflLocal]
  refine and_congr_right fun _ => forall_congr' fun k => forall_congr' fun hk => forall_congr' fun i =>
    forall_congr' fun hi => ?_
  rw [forall_congr' fun j => ?_]
  rw [C78_entvars _ _ (ha k hk i hi)]

/-- Pairs of consecutive executed iterations. -/
def Consecutive {K S : Type} (l : List (TimeLoop.Iter K S)) (a b : TimeLoop.Iter K S) : Prop :=
  ∃ n, l[n]? = some a ∧ l[n + 1]? = some b

section loop
variable {K S : Type} [Field K] [LinearOrder K] [IsStrictOrderedRing K]

theorem loop_step (v : TimeLoop.Solver K S) (left ti : ℕ) (s : S) (t dt0 dt : K)
    (hdt : v.calcStepSize ti t v.tFinal dt0 s = dt) :
    TimeLoop.loop v (left + 1) ti s t dt0 =
      if v.iterationExit ti (v.step s t dt).2.1 v.tFinal (v.step s t dt).2.2 (v.step s t dt).1 then
        ⟨(v.step s t dt).1, (v.step s t dt).2.1, ti, true, [⟨ti, t, dt, s⟩]⟩
      else
        { TimeLoop.loop v left (ti + 1) (v.step s t dt).1 (v.step s t dt).2.1 (v.step s t dt).2.2 with
          iters := ⟨ti, t, dt, s⟩ :: (TimeLoop.loop v left (ti + 1) (v.step s t dt).1
            (v.step s t dt).2.1 (v.step s t dt).2.2).iters } := by
  subst hdt; rfl

theorem head_state (v : TimeLoop.Solver K S) (left ti : ℕ) (s : S) (t dt0 : K) (a : TimeLoop.Iter K S)
    (h : (TimeLoop.loop v left ti s t dt0).iters[0]? = some a) :
    a.state = s ∧ a.t = t ∧ a.dt = v.calcStepSize ti t v.tFinal dt0 s := by
  cases left with
  | zero => simp [TimeLoop.loop] at h
  | succ n =>
    rw [loop_step v n ti s t dt0 _ rfl] at h
    split at h
    · simp at h; subst h; exact ⟨rfl, rfl, rfl⟩
    · simp at h; subst h; exact ⟨rfl, rfl, rfl⟩

/-- The executed iterations follow the stepper: each iteration starts from the state the previous
step produced. -/
theorem consecutive_state (v : TimeLoop.Solver K S) (left ti : ℕ) (s : S) (t dt0 : K)
    (a b : TimeLoop.Iter K S) (h : Consecutive (TimeLoop.loop v left ti s t dt0).iters a b) :
    b.state = (v.step a.state a.t a.dt).1 ∧ b.t = (v.step a.state a.t a.dt).2.1 ∧
      ∃ i, b.dt = v.calcStepSize i b.t v.tFinal (v.step a.state a.t a.dt).2.2 b.state := by
  induction left generalizing ti s t dt0 with
  | zero =>
    obtain ⟨n, h1, _⟩ := h
    simp [TimeLoop.loop] at h1
  | succ m ih =>
    obtain ⟨n, h1, h2⟩ := h
    rw [loop_step v m ti s t dt0 _ rfl] at h1 h2
    split at h1
    · next hx =>
      rw [if_pos hx] at h2
      simp at h2
    · next hx =>
      rw [if_neg hx] at h2
      simp only [List.getElem?_cons_succ] at h2
      cases n with
      | zero =>
        simp at h1
        subst h1
        have := head_state v m (ti + 1) _ _ _ b h2
        exact ⟨this.1, this.2.1, ti + 1, by rw [this.2.2, this.1, this.2.1]⟩
      | succ n =>
        simp only [List.getElem?_cons_succ] at h1
        exact ih _ _ _ _ ⟨n, h1, h2⟩

/-- **What the flow solver does.**  With constant CFL, the first step size is that of the initial state;
every later one is that of the state at which the residual was last evaluated during the previous
step, not of the current state. -/
theorem C115_step_from_last_evaluation (tInit tFinal : K) (maxIter : ℕ) (minCfl : S → K)
    (step : S → K → K → S × S) (s0 : S) :
    (∀ a, (TimeLoop.solve (cflSolver tInit tFinal maxIter minCfl step) (s0, s0)).iters[0]? = some a →
      a.state.1 = s0 ∧ a.dt = minCfl s0) ∧
    ∀ a b, Consecutive (TimeLoop.solve (cflSolver tInit tFinal maxIter minCfl step) (s0, s0)).iters a b →
      b.state.1 = (step a.state.1 a.t a.dt).1 ∧ b.t = a.t + a.dt ∧
        b.dt = minCfl (step a.state.1 a.t a.dt).2 := by
  constructor
  · intro a ha
    have := head_state _ _ _ _ _ _ a ha
    exact ⟨by rw [this.1], this.2.2⟩
  · intro a b hab
    obtain ⟨h1, h2, i, h3⟩ := consecutive_state _ _ _ _ _ _ a b hab
    refine ⟨by rw [h1]; rfl, h2, ?_⟩
    rw [h3]
    show minCfl b.state.2 = _
    rw [h1]; rfl

/-- **Constant CFL, full property (coupled flow-control solver).**  Every step is the CFL step of the
state it starts from. -/
theorem C115_control_solver (tInit tFinal : K) (maxIter : ℕ) (minCfl : S → K)
    (step : S → K → K → S × S) (s0 : S) (n : ℕ) (a : TimeLoop.Iter K (S × S))
    (h : (TimeLoop.solve (cflControlSolver tInit tFinal maxIter minCfl step) (s0, s0)).iters[n]? =
      some a) : a.dt = minCfl a.state.1 := by
  cases n with
  | zero =>
    have := head_state _ _ _ _ _ _ a h
    rw [this.2.2, this.1]; rfl
  | succ n =>
    have hlt : n + 1 < (TimeLoop.solve (cflControlSolver tInit tFinal maxIter minCfl step)
        (s0, s0)).iters.length := by
      by_contra hc
      rw [List.getElem?_eq_none (by omega)] at h
      exact absurd h (by simp)
    obtain ⟨_, _, i, h3⟩ := consecutive_state _ _ _ _ _ _ _ a
      ⟨n, List.getElem?_eq_getElem (Nat.lt_of_succ_lt hlt), h⟩
    rw [h3]; rfl

/-- **Overshoot bound.**  With constant CFL the final time exceeds `t-final` by less than the last
step. -/
theorem C115_overshoot_bounded (tInit tFinal : K) (maxIter : ℕ) (minCfl : S → K)
    (step : S → K → K → S × S) (s0 : S) (hpos : ∀ s, 0 < minCfl s) (ht : tInit < tFinal) (B : K)
    (hB : ∀ s, minCfl s ≤ B) :
    (TimeLoop.solve (cflSolver tInit tFinal maxIter minCfl step) (s0, s0)).t < tFinal + B := by
  have key : ∀ (left ti : ℕ) (s : S × S) (t dt0 : K), t < tFinal →
      (TimeLoop.loop (cflSolver tInit tFinal maxIter minCfl step) left ti s t dt0).t < tFinal + B := by
    intro left
    induction left with
    | zero =>
      intro ti s t dt0 h
      have := hpos s.1
      have := hB s.1
      simp [TimeLoop.loop]; linarith
    | succ n ih =>
      intro ti s t dt0 h
      have h1 := hpos s.2
      have h2 := hB s.2
      rw [loop_step _ n ti s t dt0 (minCfl s.2) rfl]
      split_ifs with hx
      · show t + minCfl s.2 < tFinal + B
        linarith
      · refine ih _ _ _ _ ?_
        show t + minCfl s.2 < tFinal
        have hx : ¬ (TimeLoop.defaultExit ti (t + minCfl s.2) tFinal (minCfl s.2) s = true) := hx
        simp [TimeLoop.defaultExit] at hx
        have : 0 < (10 ^ 14)⁻¹ * minCfl s.2 := by positivity
        linarith
  exact key _ _ _ _ _ ht

end loop

/-- A gas at rest with unit density and speed of sound `c`. -/
noncomputable def still (c : ℝ) : State 1 := ⟨1, fun _ => 0, 25 / 14 * c ^ 2⟩

/-- CFL step of a unit segment filled with that gas. -/
theorem still_step (c : ℝ) (hc : 0 < c) (hc' : 1 / 10 ^ 100 ≤ c) :
    minCflLocal false 1 1 (fun _ => 2) (fun _ i _ => (i : ℝ)) (fun _ _ => still c) = 1 / c := by
  have hs : ∀ n : ℝ, n * n = 1 → calcSpectralRadius false (fun _ : Fin 1 => n) (still c) = c := by
    intro n hn
    unfold calcSpectralRadius consOf still pressure dot
    simp [gamma_eq, gami_eq, hn]
    rw [show (7 / 5 * (2 / 5 * (25 / 14 * c ^ 2)) : ℝ) = c ^ 2 by ring, Real.sqrt_sq hc.le]
  refine eq_of_forall_le_iff fun b => ?_
  rw [le_minCflLocal]
  constructor
  · rintro ⟨_, h⟩
    have := h 0 (by norm_num) 0 (by norm_num) 1 (by norm_num) (by norm_num)
    rw [hs _ (by norm_num)] at this
    simpa [dist, dot] using this
  · intro hb
    refine ⟨hb.trans ?_, fun k hk i hi j hj hij => ?_⟩
    · rw [div_le_iff₀ hc]
      rw [div_le_iff₀ (by positivity)] at hc'
      linarith
    · have hn : ((j : ℝ) - i) * (j - i) = 1 := by
        interval_cases i <;> interval_cases j <;> simp at hij ⊢
      rw [hs _ hn]
      have : dist (fun _ : Fin 1 => (i : ℝ)) (fun _ : Fin 1 => (j : ℝ)) = 1 := by
        simp [dist, dot, hn]
      rw [this]; simpa using hb

/-- **Refuted for the flow solver.**  With forward Euler the second step ignores that the gas has become
twice as fast: it is twice the CFL step of the state it starts from. -/
theorem C115_current_state_false :
    ¬ ∀ (S : Type) (nodes : S → State 1) (upd : S → ℝ → S) (tInit tFinal : ℝ) (maxIter : ℕ) (s0 : S)
      (n : ℕ) (a : TimeLoop.Iter ℝ (S × S)),
      (TimeLoop.solve (cflSolver tInit tFinal maxIter
        (fun s => minCflLocal false 1 1 (fun _ => 2) (fun _ i _ => (i : ℝ)) (fun _ _ => nodes s))
        (forwardEuler upd)) (s0, s0)).iters[n]? = some a →
      a.dt = minCflLocal false 1 1 (fun _ => 2) (fun _ i _ => (i : ℝ)) (fun _ _ => nodes a.state.1) := by
  intro h
  have h1 := still_step 1 one_pos (by norm_num)
  have h2 := still_step 2 two_pos (by norm_num)
  have := h ℝ (fun c => still c) (fun _ _ => 2) 0 10 2 1 1 ⟨1, 1, 1, (2, 1)⟩ (by
    simp only [TimeLoop.solve, TimeLoop.loop, cflSolver, forwardEuler, TimeLoop.defaultExit, h1]
    norm_num)
  simp only [h2] at this
  norm_num at this

/-- **Refuted: `t-final` is not respected** (nor `exact-t-final`, which is not consulted): a run to time
`3/2` with CFL step 1 ends at time 2. -/
theorem C115_exact_final_time_false :
    ¬ ∀ (S : Type) (minCfl : S → ℚ) (step : S → ℚ → ℚ → S × S) (tInit tFinal : ℚ) (maxIter : ℕ) (s0 : S),
      (∀ s, 0 < minCfl s) → tInit < tFinal →
      (TimeLoop.solve (cflSolver tInit tFinal maxIter minCfl step) (s0, s0)).t ≤ tFinal := by
  intro h
  have := h Unit (fun _ => 1) (fun _ _ _ => ((), ())) 0 (3 / 2) 5 () (fun _ => one_pos) (by norm_num)
  revert this
  decide +kernel

/-- Non-vacuity of the CFL theorems: a unit segment of still gas. -/
example : Admissible (consOf false (still 1)) ∧ (fun _ : Fin 1 => (0 : ℝ)) ≠ (fun _ => 1) := by
  refine ⟨?_, fun h => by simpa using congrFun h 0⟩
  rw [admissible_iff]; simp [consOf, still, pressure, dot, gami_eq]

/-! ### C116: drag and lift directions -/

/-- **Wind axes.**  In two and three dimensions, for accepted axes that exist in the mesh, drag and lift
directions are defined, drag is along the free stream, lift is normal to both the free stream and
the drag, both have length `1/M²`, and neither has a component outside the roll–pitch plane. -/
theorem C116_wind_axes (dim : ℕ) (hd : 2 ≤ dim) (mach aoa : ℝ) (hm : mach ≠ 0) (ir ip : Fin dim)
    (hok : axesOk ir ip = true) :
    ∃ D L, dragDir dim mach aoa ir ip = some D ∧ liftDir dim mach aoa ir ip = some L ∧
      (∀ i : Fin dim, (getFreeStreamQ mach aoa ir ip).mom i = mach ^ 3 * D i) ∧
      ∑ i : Fin dim, L i * (getFreeStreamQ mach aoa ir ip).mom i = 0 ∧
      ∑ i : Fin dim, L i * D i = 0 ∧
      ∑ i : Fin dim, D i ^ 2 = (1 / mach ^ 2) ^ 2 ∧ ∑ i : Fin dim, L i ^ 2 = (1 / mach ^ 2) ^ 2 ∧
      ∀ i : Fin dim, i ≠ ir → i ≠ ip → D i = 0 ∧ L i = 0 := by
  have hne : ir ≠ ip := by
    intro h
    rw [h] at hok
    simp [axesOk] at hok
  have hne' : ir.val ≠ ip.val := fun h => hne (Fin.ext h)
  have hd1 : dim ≠ 1 := by omega
  have hset : ∀ (v : ℕ → ℝ) (i : Fin dim) (y : ℝ), vecSet dim v i y = some (Function.update v i y) := by
    intro v i y
    unfold vecSet
    rw [if_pos ⟨by omega, by exact_mod_cast i.2⟩]
    simp
  have hD : dragDir dim mach aoa ir ip = some (fun i => Function.update (Function.update (fun _ => (0:ℝ))
      (ir : ℕ) (Real.cos aoa)) (ip : ℕ) (Real.sin aoa) i * (1 / mach ^ 2)) := by
    unfold dragDir
    simp only [hd1, if_false, hset, Option.bind_some, Option.map_some]
  have hL : liftDir dim mach aoa ir ip = some (fun i => Function.update (Function.update (fun _ => (0:ℝ))
      (ir : ℕ) (-Real.sin aoa)) (ip : ℕ) (Real.cos aoa) i * (1 / mach ^ 2)) := by
    unfold liftDir
    simp only [hd1, if_false, hset, Option.bind_some, Option.map_some]
  have hup : ∀ (a b : ℝ) (i : Fin dim), Function.update (Function.update (fun _ => (0:ℝ)) (ir : ℕ) a)
      (ip : ℕ) b i = (if i = ip then b else 0) + if i = ir then a else 0 := by
    intro a b i
    by_cases h1 : i = ip
    · subst h1; simp [Ne.symm hne]
    · have h1' : i.val ≠ ip.val := fun h => h1 (Fin.ext h)
      rw [Function.update_of_ne h1']
      by_cases h2 : i = ir
      · subst h2; simp [hne]
      · have h2' : i.val ≠ ir.val := fun h => h2 (Fin.ext h)
        rw [Function.update_of_ne h2']
        simp [h1, h2]
  have hQ : ∀ i, (getFreeStreamQ mach aoa ir ip).mom i =
      (if i = ip then mach * Real.sin aoa else 0) + if i = ir then mach * Real.cos aoa else 0 := by
    intro i
    unfold getFreeStreamQ
    simp only [hd1, if_false, one_mul]
    by_cases h1 : i = ip
    · subst h1; simp [Ne.symm hne]
    · rw [Function.update_of_ne h1]
      by_cases h2 : i = ir
      · subst h2; simp [hne]
      · rw [Function.update_of_ne h2]; simp [h1, h2]
  refine ⟨_, _, hD, hL, ?_, ?_, ?_, ?_, ?_, ?_⟩
  · intro i
    rw [hQ, hup]
    split_ifs <;> field_simp <;> ring
  · have : ∀ i : Fin dim, Function.update (Function.update (fun _ => (0:ℝ))
      (ir : ℕ) (-Real.sin aoa)) (ip : ℕ) (Real.cos aoa) i * (1 / mach ^ 2) *
        (getFreeStreamQ mach aoa ir ip).mom i =
        (if i = ip then Real.cos aoa * (1 / mach ^ 2) * (mach * Real.sin aoa) else 0) +
        if i = ir then -Real.sin aoa * (1 / mach ^ 2) * (mach * Real.cos aoa) else 0 := by
      intro i
      rw [hQ, hup]
      by_cases h1 : i = ip
      · subst h1; simp [Ne.symm hne]
      · simp [h1]
        by_cases h2 : i = ir <;> simp [h2]
    rw [sum_congr rfl fun i _ => this i, sum_add_distrib]
    simp
    ring
  · have : ∀ i : Fin dim, Function.update (Function.update (fun _ => (0:ℝ))
      (ir : ℕ) (-Real.sin aoa)) (ip : ℕ) (Real.cos aoa) i * (1 / mach ^ 2) *
        (Function.update (Function.update (fun _ => (0:ℝ))
      (ir : ℕ) (Real.cos aoa)) (ip : ℕ) (Real.sin aoa) i * (1 / mach ^ 2)) =
        (if i = ip then Real.cos aoa * Real.sin aoa * (1 / mach ^ 2) ^ 2 else 0) +
        if i = ir then -Real.sin aoa * Real.cos aoa * (1 / mach ^ 2) ^ 2 else 0 := by
      intro i
      rw [hup, hup]
      by_cases h1 : i = ip
      · subst h1; simp [Ne.symm hne]; ring
      · simp [h1]
        by_cases h2 : i = ir <;> simp [h2]; ring
    rw [sum_congr rfl fun i _ => this i, sum_add_distrib]
    simp
    ring
  · have : ∀ i : Fin dim, (Function.update (Function.update (fun _ => (0:ℝ))
      (ir : ℕ) (Real.cos aoa)) (ip : ℕ) (Real.sin aoa) i * (1 / mach ^ 2)) ^ 2 =
        (if i = ip then Real.sin aoa ^ 2 * (1 / mach ^ 2) ^ 2 else 0) +
        if i = ir then Real.cos aoa ^ 2 * (1 / mach ^ 2) ^ 2 else 0 := by
      intro i
      rw [hup]
      by_cases h1 : i = ip
      · subst h1; simp [Ne.symm hne]; ring
      · simp [h1]
        by_cases h2 : i = ir <;> simp [h2]; ring
    rw [sum_congr rfl fun i _ => this i, sum_add_distrib]
    simp only [sum_ite_eq', mem_univ, if_true]
    rw [← add_mul, Real.sin_sq_add_cos_sq, one_mul]
  · have : ∀ i : Fin dim, (Function.update (Function.update (fun _ => (0:ℝ))
      (ir : ℕ) (-Real.sin aoa)) (ip : ℕ) (Real.cos aoa) i * (1 / mach ^ 2)) ^ 2 =
        (if i = ip then Real.cos aoa ^ 2 * (1 / mach ^ 2) ^ 2 else 0) +
        if i = ir then Real.sin aoa ^ 2 * (1 / mach ^ 2) ^ 2 else 0 := by
      intro i
      rw [hup]
      by_cases h1 : i = ip
      · subst h1; simp [Ne.symm hne]; ring
      · simp [h1]
        by_cases h2 : i = ir <;> simp [h2]; ring
    rw [sum_congr rfl fun i _ => this i, sum_add_distrib]
    simp only [sum_ite_eq', mem_univ, if_true]
    rw [← add_mul, Real.cos_sq_add_sin_sq, one_mul]
  · intro i h1 h2
    rw [hup, hup]
    simp [h1, h2]

/-- **Two dimensions: nothing is lost.**  Drag and lift coefficients of a force determine it. -/
theorem C116_recovers_force (mach aoa : ℝ) (hm : mach ≠ 0) (ir ip : Fin 2)
    (hok : axesOk ir ip = true) (F : Fin 2 → ℝ) :
    ∃ D L, dragDir 2 mach aoa ir ip = some D ∧ liftDir 2 mach aoa ir ip = some L ∧
      ∀ i, F i = mach ^ 4 * ((∑ j, F j * D j) * D i + (∑ j, F j * L j) * L i) := by
  have hne : ir ≠ ip := by
    intro h
    rw [h] at hok
    simp [axesOk] at hok
  have hsc := Real.sin_sq_add_cos_sq aoa
  have hset : ∀ (v : ℕ → ℝ) (i : Fin 2) (y : ℝ), vecSet 2 v i y = some (Function.update v i y) := by
    intro v i y
    unfold vecSet
    rw [if_pos ⟨by omega, by exact_mod_cast i.2⟩]
    simp
  have hD : dragDir 2 mach aoa ir ip = some (fun i => Function.update (Function.update (fun _ => (0:ℝ))
      (ir : ℕ) (Real.cos aoa)) (ip : ℕ) (Real.sin aoa) i * (1 / mach ^ 2)) := by
    unfold dragDir
    simp [hset]
  have hL : liftDir 2 mach aoa ir ip = some (fun i => Function.update (Function.update (fun _ => (0:ℝ))
      (ir : ℕ) (-Real.sin aoa)) (ip : ℕ) (Real.cos aoa) i * (1 / mach ^ 2)) := by
    unfold liftDir
    simp [hset]
  refine ⟨_, _, hD, hL, ?_⟩
  have hc : (ir = 0 ∧ ip = 1) ∨ (ir = 1 ∧ ip = 0) := by omega
  rcases hc with ⟨rfl, rfl⟩ | ⟨rfl, rfl⟩
  all_goals
    intro i
    fin_cases i
  all_goals
    simp [Function.update, Fin.sum_univ_two]
    field_simp
    first
    | linear_combination (-(F 0)) * hsc
    | linear_combination (-(F 1)) * hsc

/-- **Refuted: accepted axes exist.**  The option check allows axis 2 in two dimensions, and the drag
direction is then written outside its vector. -/
theorem C116_axes_checked_false :
    ¬ ∀ (dim : ℕ) (mach aoa : ℝ) (iroll ipitch : ℤ), 2 ≤ dim → dim ≤ 3 → axesOk iroll ipitch = true →
      (dragDir dim mach aoa iroll ipitch).isSome := by
  intro h
  have := h 2 1 0 0 2 (by norm_num) (by norm_num) (by decide)
  simp [dragDir, vecSet] at this

/-- In three dimensions the check is exactly right. -/
theorem C116_axes_checked_3d (mach aoa : ℝ) (iroll ipitch : ℤ) :
    axesOk iroll ipitch = true ↔ iroll ≠ ipitch ∧ (dragDir 3 mach aoa iroll ipitch).isSome := by
  have h1 : (dragDir 3 mach aoa iroll ipitch).isSome ↔
      (0 ≤ iroll ∧ iroll < 3) ∧ (0 ≤ ipitch ∧ ipitch < 3) := by
    unfold dragDir vecSet
    by_cases h1 : 0 ≤ iroll ∧ iroll < 3 <;> by_cases h2 : 0 ≤ ipitch ∧ ipitch < 3 <;> simp [h1, h2]
  rw [h1]
  unfold axesOk
  split_ifs with a b c
  · simp [a]
  · simp; omega
  · simp; omega
  · simp; omega

example : axesOk ((0 : Fin 2) : ℤ) ((1 : Fin 2) : ℤ) = true := by decide

end Verif.FlowSetup
