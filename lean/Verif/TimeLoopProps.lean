import Verif.TimeLoop
import Mathlib.Tactic.Linarith
import Mathlib.Tactic.Ring
import Mathlib.Tactic.NormNum
import Mathlib.Tactic.FieldSimp

/-! # Time loop and state logging: property theorems (C18–C21) -/

set_option linter.unusedSectionVars false

namespace Verif.TimeLoop

variable {K : Type} [Field K] [LinearOrder K] [IsStrictOrderedRing K] {S : Type}

/-- Specification of a conventional one-step method: time advances by the step handed in and the
step variable is left alone (all MISO/MFEM solvers except the relaxation RK ones). -/
def AdvancesByDt (step : S → K → K → S × K × K) : Prop :=
  ∀ s t dt, (step s t dt).2 = (t + dt, dt)

private theorem loop_succ (v : Solver K S) (left ti : ℕ) (s : S) (t dt0 : K) :
    loop v (left + 1) ti s t dt0 =
      match v.step s t (v.calcStepSize ti t v.tFinal dt0 s) with
      | (s', t', dt') =>
        if v.iterationExit ti t' v.tFinal dt' s' then
          ⟨s', t', ti, true, [⟨ti, t, v.calcStepSize ti t v.tFinal dt0 s, s⟩]⟩
        else
          { loop v left (ti + 1) s' t' dt' with
            iters := ⟨ti, t, v.calcStepSize ti t v.tFinal dt0 s, s⟩ ::
              (loop v left (ti + 1) s' t' dt').iters } := rfl

private theorem loop_default (tInit tFinal dtOpt : K) (maxIter : ℕ) (exact : Bool)
    (step : S → K → K → S × K × K) (hstep : AdvancesByDt step) (left ti : ℕ) (s : S) (t dt0 : K) :
    loop (defaultSolver tInit tFinal dtOpt maxIter exact step) (left + 1) ti s t dt0 =
      (let dt := if exact then min dtOpt (tFinal - t) else dtOpt
       let s' := (step s t dt).1
       if tFinal - 1 / 10 ^ 14 * dt ≤ t + dt then
        (⟨s', t + dt, ti, true, [⟨ti, t, dt, s⟩]⟩ : Res K S)
       else
        let r := loop (defaultSolver tInit tFinal dtOpt maxIter exact step) left (ti + 1) s' (t + dt) dt
        { r with iters := ⟨ti, t, dt, s⟩ :: r.iters }) := by
  rw [loop]
  have hc : (defaultSolver tInit tFinal dtOpt maxIter exact step).calcStepSize ti t
      (defaultSolver tInit tFinal dtOpt maxIter exact step).tFinal dt0 s =
      if exact then min dtOpt (tFinal - t) else dtOpt := rfl
  have hs : (defaultSolver tInit tFinal dtOpt maxIter exact step).step = step := rfl
  rw [hc, hs]
  have h := hstep s t (if exact then min dtOpt (tFinal - t) else dtOpt)
  simp only
  generalize hd : (if exact then min dtOpt (tFinal - t) else dtOpt) = d at *
  generalize hq : step s t d = q at *
  obtain ⟨s', t', dt'⟩ := q
  simp only [Prod.mk.injEq] at h
  obtain ⟨rfl, rfl⟩ := h
  have he : ∀ t dt, (defaultSolver tInit tFinal dtOpt maxIter exact step).iterationExit ti t
      (defaultSolver tInit tFinal dtOpt maxIter exact step).tFinal dt s' =
      decide (tFinal - 1 / 10 ^ 14 * dt ≤ t) := fun _ _ => rfl
  simp only [he, decide_eq_true_eq]

/-- General facts about the loop for arbitrary hooks. -/
theorem loop_facts (v : Solver K S) : ∀ (left ti : ℕ) (s : S) (t dt0 : K),
    let r := loop v left ti s t dt0
    r.iters.length ≤ left ∧
    (r.broke = true → r.iters.length = r.ti - ti + 1 ∧ ti ≤ r.ti ∧ r.ti < ti + left) ∧
    (r.broke = false → r.iters.length = left ∧ r.ti = ti + left) ∧
    (∀ (k : ℕ) (i : Iter K S), r.iters[k]? = some i → i.ti = ti + k) := by
  intro left
  induction left with
  | zero => intro ti s t dt0; simp [loop]
  | succ n ih =>
    intro ti s t dt0
    rw [loop_succ]
    generalize v.step s t (v.calcStepSize ti t v.tFinal dt0 s) = q
    obtain ⟨s', t', dt'⟩ := q
    simp only
    split_ifs with h
    · refine ⟨by simp, fun _ => ⟨by simp, le_refl _, by simp⟩, by simp, ?_⟩
      intro k i hk
      cases k with
      | zero => simp at hk; subst hk; rfl
      | succ k => simp at hk
    · obtain ⟨h1, h2, h3, h4⟩ := ih (ti + 1) s' t' dt'
      refine ⟨by simp only [List.length_cons]; omega, ?_, ?_, ?_⟩
      · intro hb
        obtain ⟨a, b, c⟩ := h2 hb
        refine ⟨?_, ?_, ?_⟩
        · simp only [List.length_cons]; omega
        · simp only; omega
        · simp only; omega
      · intro hb
        obtain ⟨a, b⟩ := h3 hb
        exact ⟨by simp only [List.length_cons]; omega, by simp only; omega⟩
      · intro k i hk
        cases k with
        | zero => simp at hk; subst hk; rfl
        | succ k =>
          have := h4 k i (by simpa using hk)
          omega

private theorem exact_loop (tInit tFinal dtOpt : K) (maxIter : ℕ) (step : S → K → K → S × K × K)
    (hstep : AdvancesByDt step) (hdt : 0 < dtOpt) :
    ∀ (left ti : ℕ) (s : S) (t dt0 : K), t < tFinal →
      let r := loop (defaultSolver tInit tFinal dtOpt maxIter true step) left ti s t dt0
      r.t ≤ tFinal ∧ t ≤ r.t ∧
      (∀ i ∈ r.iters, i.t < tFinal ∧ 0 < i.dt ∧ i.dt ≤ dtOpt ∧ i.t + i.dt ≤ tFinal) ∧
      (r.broke = true → tFinal - 1 / 10 ^ 14 * dtOpt ≤ r.t) ∧
      (∀ (k : ℕ) (i : Iter K S), r.iters[k]? = some i → i.t = t + k * dtOpt) ∧
      (r.t = tFinal ∨ r.t = t + r.iters.length * dtOpt) ∧
      (r.broke = false → r.t = t + r.iters.length * dtOpt ∧ r.t < tFinal) := by
  intro left
  induction left with
  | zero => intro ti s t dt0 ht; simp [loop, ht.le, ht]
  | succ n ih =>
    intro ti s t dt0 ht
    rw [loop_default _ _ _ _ _ _ hstep]
    simp only [if_true]
    generalize (step s t (min dtOpt (tFinal - t))).1 = s'
    have hpos : 0 < min dtOpt (tFinal - t) := lt_min hdt (by linarith)
    have hle1 : min dtOpt (tFinal - t) ≤ dtOpt := min_le_left _ _
    have hle2 : min dtOpt (tFinal - t) ≤ tFinal - t := min_le_right _ _
    have htol : (0 : K) < 1 / 10 ^ 14 := by positivity
    split_ifs with h'
    · refine ⟨by simp only; linarith, by simp only; linarith, ?_, ?_, ?_, ?_, by simp⟩
      · intro i hi
        have : i = _ := List.mem_singleton.mp hi
        subst this
        exact ⟨ht, hpos, hle1, by simp only; linarith⟩
      · intro _
        have := mul_le_mul_of_nonneg_left hle1 htol.le
        simp only; linarith
      · intro k i hk
        cases k with
        | zero => simp at hk; subst hk; simp
        | succ k => simp at hk
      · rcases min_choice dtOpt (tFinal - t) with hm | hm
        · right; rw [hm]; simp
        · left; rw [hm]; simp
    · have h' := not_le.mp h'
      have htol2 : 0 < 1 / 10 ^ 14 * min dtOpt (tFinal - t) := mul_pos htol hpos
      have hlt : t + min dtOpt (tFinal - t) < tFinal := by linarith
      have hm : min dtOpt (tFinal - t) = dtOpt := by
        rcases min_choice dtOpt (tFinal - t) with hm | hm
        · exact hm
        · rw [hm] at hlt; linarith
      obtain ⟨i1, i2, i3, i4, i5, i6, i7⟩ := ih (ti + 1) s' _ (min dtOpt (tFinal - t)) hlt
      refine ⟨i1, by have := i2; linarith, ?_, i4, ?_, ?_, ?_⟩
      · intro i hi
        rcases List.mem_cons.mp hi with rfl | hi
        · exact ⟨ht, hpos, hle1, by simp only; linarith⟩
        · exact i3 i hi
      · intro k i hk
        cases k with
        | zero => simp at hk; subst hk; simp
        | succ k =>
          have := i5 k i (by simpa using hk)
          rw [this, hm]; push_cast; ring
      · rcases i6 with h6 | h6
        · exact Or.inl h6
        · right
          simp only [List.length_cons]
          rw [h6, hm]; push_cast; ring
      · intro hb
        obtain ⟨a, b⟩ := i7 hb
        refine ⟨?_, b⟩
        simp only [List.length_cons]
        rw [a, hm]; push_cast; ring

/-- **C18** With `exact-t-final`, `dt > 0`, `t_initial < t_final` and a conventional stepper: at most
`max-iter` steps are made, every step is positive, at most `dt` and ends no later than
`t_final`; and if the loop was left through the exit test, `t_final` is reached to within
`1e-14 dt`. -/
theorem C18_time_loop_bounds (tInit tFinal dtOpt : K) (maxIter : ℕ) (step : S → K → K → S × K × K)
    (s0 : S) (hstep : AdvancesByDt step) (hdt : 0 < dtOpt) (ht : tInit < tFinal) :
    let r := solve (defaultSolver tInit tFinal dtOpt maxIter true step) s0
    r.iters.length ≤ maxIter ∧ r.t ≤ tFinal ∧
    (∀ i ∈ r.iters, 0 < i.dt ∧ i.dt ≤ dtOpt ∧ i.t + i.dt ≤ tFinal) ∧
    (r.broke = true → tFinal - 1 / 10 ^ 14 * dtOpt ≤ r.t) := by
  obtain ⟨h1, _, h3, h4, _⟩ :=
    exact_loop tInit tFinal dtOpt maxIter step hstep hdt maxIter 0 s0 tInit 0 ht
  exact ⟨(loop_facts _ maxIter 0 s0 tInit 0).1, h1, fun i hi => (h3 i hi).2, h4⟩

/-- **C19** If `max-iter * dt ≥ t_final - t_initial`, the loop is left through the exit test, the final
time is `t_final` to within the exit tolerance (exactly `t_final` unless the last regular step
landed inside the tolerance), and the number `n` of steps is minimal: `(n-1) dt < t_final - t_initial`. -/
theorem C19_reaches_t_final (tInit tFinal dtOpt : K) (maxIter : ℕ) (step : S → K → K → S × K × K)
    (s0 : S) (hstep : AdvancesByDt step) (hdt : 0 < dtOpt) (ht : tInit < tFinal)
    (hmax : tFinal - tInit ≤ maxIter * dtOpt) :
    let r := solve (defaultSolver tInit tFinal dtOpt maxIter true step) s0
    r.broke = true ∧ r.t ≤ tFinal ∧ tFinal - 1 / 10 ^ 14 * dtOpt ≤ r.t ∧
    (r.t = tFinal ∨ r.t = tInit + r.iters.length * dtOpt) ∧
    1 ≤ r.iters.length ∧ ((r.iters.length : K) - 1) * dtOpt < tFinal - tInit := by
  obtain ⟨h1, _, h3, h4, h5, h6, h7⟩ :=
    exact_loop tInit tFinal dtOpt maxIter step hstep hdt maxIter 0 s0 tInit 0 ht
  obtain ⟨f1, f2, f3, _⟩ :=
    loop_facts (defaultSolver tInit tFinal dtOpt maxIter true step) maxIter 0 s0 tInit 0
  intro r
  have hb : r.broke = true := by
    by_contra hb
    have hb : r.broke = false := by simpa using hb
    obtain ⟨a, b⟩ := h7 hb
    have hl := (f3 hb).1
    rw [hl] at a
    linarith
  have hlen : 1 ≤ r.iters.length := by
    have h : r.iters.length = r.ti - 0 + 1 := (f2 hb).1
    omega
  refine ⟨hb, h1, h4 hb, h6, hlen, ?_⟩
  obtain ⟨m, hm⟩ : ∃ m, r.iters.length = m + 1 := ⟨r.iters.length - 1, by omega⟩
  have hget : r.iters[m]? = some (r.iters[m]'(by omega)) := List.getElem?_eq_getElem _
  have e1 := h5 m _ hget
  have e2 := (h3 _ (List.getElem_mem (by omega : m < r.iters.length))).1
  rw [hm]; push_cast
  have e3 : tInit + (m : K) * dtOpt < tFinal := by rw [← e1]; exact e2
  linarith

/-- Without `exact-t-final` the final time overshoots by less than one step. -/
theorem C18_overshoot_bounded (tInit tFinal dtOpt : K) (maxIter : ℕ) (step : S → K → K → S × K × K)
    (s0 : S) (hstep : AdvancesByDt step) (hdt : 0 < dtOpt) (ht : tInit < tFinal) :
    (solve (defaultSolver tInit tFinal dtOpt maxIter false step) s0).t < tFinal + dtOpt := by
  have key : ∀ (left ti : ℕ) (s : S) (t dt0 : K), t < tFinal →
      (loop (defaultSolver tInit tFinal dtOpt maxIter false step) left ti s t dt0).t
        < tFinal + dtOpt := by
    intro left
    induction left with
    | zero => intro ti s t dt0 h; simp [loop]; linarith
    | succ n ih =>
      intro ti s t dt0 h
      rw [loop_default _ _ _ _ _ _ hstep]
      simp only [Bool.false_eq_true, if_false]
      split_ifs with hx
      · simp only; linarith
      · have h' := hx
        have : 0 < 1 / 10 ^ 14 * dtOpt := by positivity
        exact ih _ _ _ _ (by linarith [not_le.mp h'])
  exact key _ _ _ _ _ ht

/-- A stepper that relaxes time by a factor 11/10, as the relaxation RK solvers do
(`t += gamma * dt`, `mfem_extensions.cpp:104`). -/
def relaxedStep : ℚ → ℚ → ℚ → ℚ × ℚ × ℚ := fun s t dt => (s, t + 11 / 10 * dt, dt)

/-- **C18 limitation**: with a relaxation stepper (`gamma > 1`) even `exact-t-final` overshoots. -/
theorem C18_false_for_relaxation :
    (solve (defaultSolver 0 1 1 5 true relaxedStep) 0).t > 1 := by decide +kernel

/-- Non-vacuity of C18/C19: forward Euler for `u' = -u` on `[0,1]` with `dt = 3/10`. -/
def eulerStep : ℚ → ℚ → ℚ → ℚ × ℚ × ℚ := fun s t dt => (s - dt * s, t + dt, dt)

example : AdvancesByDt eulerStep ∧ (1 - 0 : ℚ) ≤ (5 : ℕ) * (3 / 10) ∧
    (solve (defaultSolver 0 1 (3 / 10) 5 true eulerStep) 1).t = 1 ∧
    (solve (defaultSolver 0 1 (3 / 10) 5 true eulerStep) 1).iters.length = 4 := by
  refine ⟨fun s t dt => rfl, by norm_num, ?_, ?_⟩ <;> decide +kernel

/-! ### C20 -/

/-- The true trajectory: every `(time, state)` pair at which the solver's solution was. -/
def Trajectory (v : Solver K S) (s0 : S) (t : K) (s : S) : Prop :=
  (t = v.tInit ∧ s = s0) ∨ (∃ i ∈ (solve v s0).iters, i.t = t ∧ i.state = s) ∨
  (t = (solve v s0).t ∧ s = (solve v s0).state)

/-- **C20 (partial)** Every logged snapshot other than the initial one carries its true time; the
initial one does too if `t-initial = 0`.  Missing: `t-initial ≠ 0` (`C20_false_initial_time`) and
the overwriting of snapshots (`C20_false_overwrite`). -/
theorem C20_log_times_partial (o : LogOpts) (v : Solver K S) (s0 : S) (h0 : o.initialState = true → v.tInit = 0) :
    ∀ e ∈ logged o v s0, Trajectory v s0 e.time e.state := by
  intro e he
  unfold logged at he
  simp only [List.mem_append] at he
  rcases he with (he | he) | he
  · split_ifs at he with h
    · have := List.mem_singleton.mp he
      subst this
      exact Or.inl ⟨(h0 h).symm, rfl⟩
    · simp at he
  · split_ifs at he with h
    · obtain ⟨i, hi, rfl⟩ := List.mem_map.mp he
      exact Or.inr (Or.inl ⟨i, hi, rfl, rfl⟩)
    · simp at he
  · split_ifs at he with h
    · have := List.mem_singleton.mp he
      subst this
      exact Or.inr (Or.inr ⟨rfl, rfl⟩)
    · simp at he

/-- **C20 is violated by the code (time stamp)**: a solve from `t-initial = 5` to `7` logs a snapshot
with a time stamp at which there was no solution. -/
theorem C20_false_initial_time :
    let v : Solver ℚ ℚ := defaultSolver 5 7 1 10 true eulerStep
    ∃ e ∈ logged ⟨true, false, true⟩ v 1, ¬ Trajectory v 1 e.time e.state := by
  intro v
  refine ⟨⟨0, 0, 1⟩, ?_, ?_⟩
  · simp [logged]
  · rintro (⟨h, _⟩ | ⟨i, hi, h, _⟩ | ⟨h, _⟩)
    · simp [v, defaultSolver] at h
    · have : ∀ i ∈ (solve v 1).iters, i.t ≠ 0 := by
        have hh : ((solve v 1).iters.all fun i => decide (i.t ≠ 0)) = true := by decide +kernel
        intro i hi; simpa using List.all_eq_true.mp hh i hi
      exact this i hi h
    · have : (solve v 1).t ≠ 0 := by decide +kernel
      exact this h.symm

/-- A log keeps every snapshot if the file for its timestep still holds it. -/
def Kept (es : List (Entry K S)) (e : Entry K S) : Prop :=
  onDisk es e.timestep = some (e.time, e.state)

private theorem onDisk_append_some (es fs : List (Entry K S)) (n : ℕ) (x : K × S)
    (h : onDisk fs n = some x) : onDisk (es ++ fs) n = some x := by
  induction es with
  | nil => exact h
  | cons e es ih => simp only [List.cons_append, onDisk, ih]

private theorem onDisk_append_none (es fs : List (Entry K S)) (n : ℕ)
    (h : onDisk fs n = none) : onDisk (es ++ fs) n = onDisk es n := by
  induction es with
  | nil => simpa [onDisk] using h
  | cons e es ih => simp only [List.cons_append, onDisk, ih]

/-- **C20 is violated by the code (overwriting)**: whenever each-timestep and final-state logging are
both on and the loop is left through the exit test, the snapshot taken at the start of the last
iteration is lost — its file now holds the final state. -/
theorem C20_false_overwrite (o : LogOpts) (v : Solver K S) (s0 : S)
    (hf : o.finalState = true) (hb : (solve v s0).broke = true) :
    ∃ i ∈ (solve v s0).iters, i.ti = (solve v s0).ti ∧
      onDisk (logged o v s0) i.ti = some ((solve v s0).t, (solve v s0).state) := by
  obtain ⟨_, f2, _, f4⟩ := loop_facts v v.maxIter 0 s0 v.tInit 0
  obtain ⟨hl, _, _⟩ := f2 hb
  have hlen : (solve v s0).ti < (solve v s0).iters.length := by
    show (loop _ _ _ _ _ _).ti < (loop _ _ _ _ _ _).iters.length
    omega
  have hti := f4 (solve v s0).ti _ (List.getElem?_eq_getElem hlen)
  refine ⟨(solve v s0).iters[(solve v s0).ti], List.getElem_mem hlen, ?_, ?_⟩
  · rw [zero_add] at hti; exact hti
  · rw [zero_add] at hti
    have hti' : ((solve v s0).iters[(solve v s0).ti]).ti = (solve v s0).ti := hti
    rw [hti']
    unfold logged
    simp only [hf, if_true]
    apply onDisk_append_some
    simp [onDisk]

/-- **C20 (kept when not exiting early)** If the loop runs out of iterations instead, the final state gets
its own file and every per-iteration snapshot is kept. -/
theorem C20_kept_when_exhausted_partial (v : Solver K S) (s0 : S) (b : Bool)
    (hb : (solve v s0).broke = false) :
    (∀ i ∈ (solve v s0).iters, Kept (logged ⟨b, true, true⟩ v s0) ⟨i.ti, i.t, i.state⟩) ∧
    Kept (logged ⟨b, true, true⟩ v s0) ⟨(solve v s0).ti, (solve v s0).t, (solve v s0).state⟩ := by
  obtain ⟨_, _, f3, f4⟩ := loop_facts v v.maxIter 0 s0 v.tInit 0
  obtain ⟨hl, ht⟩ := f3 hb
  have hti : (solve v s0).ti = (solve v s0).iters.length := by
    show (loop _ _ _ _ _ _).ti = (loop _ _ _ _ _ _).iters.length
    omega
  have f4' : ∀ (k : ℕ) (i : Iter K S), (solve v s0).iters[k]? = some i → i.ti = k := by
    intro k i hk; have := f4 k i hk; omega
  -- lookups among consecutively numbered entries
  have key : ∀ (l : List (Iter K S)) (m : ℕ), (∀ (k : ℕ) (i : Iter K S), l[k]? = some i → i.ti = m + k) →
      ∀ i ∈ l, onDisk (l.map fun i => (⟨i.ti, i.t, i.state⟩ : Entry K S)) i.ti = some (i.t, i.state) := by
    intro l
    induction l with
    | nil => intro m _ i hi; simp at hi
    | cons a l ih =>
      intro m h i hi
      have ha : a.ti = m := h 0 a rfl
      have h' : ∀ (k : ℕ) (i : Iter K S), l[k]? = some i → i.ti = (m + 1) + k := by
        intro k i hk
        have := h (k + 1) i (by simpa using hk)
        omega
      rcases List.mem_cons.mp hi with rfl | hi
      · have hnone : onDisk (l.map fun i => (⟨i.ti, i.t, i.state⟩ : Entry K S)) i.ti = none := by
          have : ∀ (es : List (Entry K S)) (n : ℕ), (∀ e ∈ es, e.timestep ≠ n) → onDisk es n = none := by
            intro es n
            induction es with
            | nil => intro _; rfl
            | cons e es ih2 =>
              intro he
              simp only [onDisk, ih2 (fun e' h'' => he e' (List.mem_cons_of_mem _ h''))]
              rw [if_neg (he e (by simp))]
          apply this
          intro e he
          obtain ⟨j, hj, rfl⟩ := List.mem_map.mp he
          obtain ⟨k, hk, hk'⟩ := List.getElem_of_mem hj
          have := h' k j (by rw [List.getElem?_eq_getElem hk, hk'])
          simp only; omega
        simp only [List.map_cons, onDisk, hnone, if_true]
      · simp only [List.map_cons, onDisk, ih (m + 1) h' i hi]
  constructor
  · intro i hi
    unfold Kept logged
    simp only [if_true]
    have hlt : i.ti < (solve v s0).ti := by
      obtain ⟨k, hk, hk'⟩ := List.getElem_of_mem hi
      have := f4' k i (by rw [List.getElem?_eq_getElem hk, hk'])
      omega
    rw [onDisk_append_none]
    · apply onDisk_append_some
      exact key _ 0 (fun k i hk => by rw [zero_add]; exact f4' k i hk) i hi
    · simp only [onDisk]
      rw [if_neg (by omega)]
  · unfold Kept logged
    simp only [if_true]
    apply onDisk_append_some
    simp [onDisk]

/-- Non-vacuity: a three step run that exits early, and one that is exhausted. -/
example : (solve (defaultSolver 0 1 (1 / 2) 10 true eulerStep) 1).broke = true ∧
    (solve (defaultSolver 0 1 (1 / 10) 3 true eulerStep) 1).broke = false := by decide +kernel

/-! ### C21 -/

/-- **C21** Along any pseudo-transient solve, whatever the residual history, the step sizes handed
to the stepper never decrease; and the `k`-th is the largest of `dt * ratio_j`, `j ≤ k` (and of the
initial `dt_old = 0`), where `ratio_j = (r_0 / r_j)^exponent` at the `j`-th iterate.  If the ratio at
the first iterate is 1 (as `res_norm0` is the residual norm there) no step is below the option `dt`. -/
theorem C21_ptc_monotone (v : Solver K S) (dtOpt : K) (powRatio : S → K)
    (hv : v.calcStepSize = ptcStepSize dtOpt powRatio)
    (hstep : ∀ s t dt, (v.step s t dt).2.2 = dt) (s0 : S) :
    let l := (solve v s0).iters
    l.Pairwise (fun a b => a.dt ≤ b.dt) ∧
    (∀ (k : ℕ) (i : Iter K S), l[k]? = some i →
      (∀ (j : ℕ) (i' : Iter K S), j ≤ k → l[j]? = some i' → dtOpt * powRatio i'.state ≤ i.dt) ∧
      (i.dt = 0 ∨ ∃ (j : ℕ) (i' : Iter K S), j ≤ k ∧ l[j]? = some i' ∧ i.dt = dtOpt * powRatio i'.state)) ∧
    (powRatio s0 = 1 → ∀ i ∈ l, dtOpt ≤ i.dt) := by
  have key : ∀ (left ti : ℕ) (s : S) (t dt0 : K),
      let l := (loop v left ti s t dt0).iters
      l.Pairwise (fun a b => a.dt ≤ b.dt) ∧ (∀ i ∈ l, dt0 ≤ i.dt) ∧
      (∀ (k : ℕ) (i : Iter K S), l[k]? = some i →
        (∀ (j : ℕ) (i' : Iter K S), j ≤ k → l[j]? = some i' → dtOpt * powRatio i'.state ≤ i.dt) ∧
        (i.dt = dt0 ∨ ∃ (j : ℕ) (i' : Iter K S), j ≤ k ∧ l[j]? = some i' ∧ i.dt = dtOpt * powRatio i'.state)) ∧
      (∀ i, l[0]? = some i → i.state = s) := by
    intro left
    induction left with
    | zero => intro ti s t dt0; simp [loop]
    | succ n ih =>
      intro ti s t dt0
      have hc : v.calcStepSize ti t v.tFinal dt0 s = max (dtOpt * powRatio s) dt0 := by rw [hv]; rfl
      rw [loop_succ, hc]
      have hs := hstep s t (max (dtOpt * powRatio s) dt0)
      generalize v.step s t (max (dtOpt * powRatio s) dt0) = q at hs ⊢
      obtain ⟨s', t', dt'⟩ := q
      simp only at hs
      subst hs
      try simp only
      have first : ∀ i : Iter K S, i = ⟨ti, t, max (dtOpt * powRatio s) dt0, s⟩ →
          dtOpt * powRatio i.state ≤ i.dt ∧ (i.dt = dt0 ∨ i.dt = dtOpt * powRatio i.state) := by
        rintro i rfl
        refine ⟨le_max_left _ _, ?_⟩
        rcases max_choice (dtOpt * powRatio s) dt0 with h | h
        · exact Or.inr h
        · exact Or.inl h
      split_ifs with h
      · refine ⟨by simp, by simp, ?_, by simp⟩
        intro k i hk
        cases k with
        | succ k => simp at hk
        | zero =>
          simp only [List.getElem?_cons_zero, Option.some.injEq] at hk
          obtain ⟨f1, f2⟩ := first i hk.symm
          refine ⟨?_, ?_⟩
          · intro j i' hj hi'
            obtain rfl : j = 0 := by omega
            simp only [List.getElem?_cons_zero, Option.some.injEq] at hi'
            rw [← hi', hk]; exact f1
          · rcases f2 with f2 | f2
            · exact Or.inl f2
            · exact Or.inr ⟨0, i, le_refl _, by simp [hk], f2⟩
      · obtain ⟨i1, i2, i3, i4⟩ := ih (ti + 1) s' t' (max (dtOpt * powRatio s) dt0)
        refine ⟨?_, ?_, ?_, by simp⟩
        · simp only
          rw [List.pairwise_cons]
          exact ⟨fun b hb => i2 b hb, i1⟩
        · intro i hi
          rcases List.mem_cons.mp hi with rfl | hi
          · exact le_max_right _ _
          · exact (le_max_right _ _).trans (i2 i hi)
        · intro k i hk
          cases k with
          | zero =>
            simp only [List.getElem?_cons_zero, Option.some.injEq] at hk
            obtain ⟨f1, f2⟩ := first i hk.symm
            refine ⟨?_, ?_⟩
            · intro j i' hj hi'
              obtain rfl : j = 0 := by omega
              simp only [List.getElem?_cons_zero, Option.some.injEq] at hi'
              rw [← hi', hk]; exact f1
            · rcases f2 with f2 | f2
              · exact Or.inl f2
              · exact Or.inr ⟨0, i, le_refl _, by simp [hk], f2⟩
          | succ k =>
            have hk' : (loop v n (ti + 1) s' t' (max (dtOpt * powRatio s) dt0)).iters[k]? = some i := by
              simpa using hk
            obtain ⟨g1, g2⟩ := i3 k i hk'
            have hge := i2 i (List.mem_of_getElem? hk')
            refine ⟨?_, ?_⟩
            · intro j i' hj hi'
              cases j with
              | zero =>
                simp only [List.getElem?_cons_zero, Option.some.injEq] at hi'
                rw [← hi']
                exact (le_max_left _ _).trans hge
              | succ j => exact g1 j i' (by omega) (by simpa using hi')
            · rcases g2 with g2 | ⟨j, i', hj, hi', e⟩
              · rcases max_choice (dtOpt * powRatio s) dt0 with hm | hm
                · exact Or.inr ⟨0, _, by omega, rfl, by rw [g2, hm]⟩
                · exact Or.inl (by rw [g2, hm])
              · exact Or.inr ⟨j + 1, i', by omega, by simpa using hi', e⟩
  obtain ⟨k1, k2, k3, k4⟩ := key v.maxIter 0 s0 v.tInit 0
  refine ⟨k1, k3, ?_⟩
  intro h1 i hi
  obtain ⟨k, hk, rfl⟩ := List.getElem_of_mem hi
  have hpos : 0 < (solve v s0).iters.length := by omega
  have h0 := List.getElem?_eq_getElem hpos
  have := (k3 k _ (List.getElem?_eq_getElem hk)).1 0 _ (by omega) h0
  rw [k4 _ h0, h1, mul_one] at this
  exact this

/-- **C21 (exit)** The steady solve is left early exactly when the residual norm meets the absolute
tolerance or the tolerance relative to the initial norm. -/
theorem C21_ptc_exit_iff (resNorm : S → K) (r0 abstol reltol : K) (i : ℕ) (t tf dt : K) (s : S) :
    ptcExit resNorm r0 abstol reltol i t tf dt s = true ↔
      resNorm s ≤ abstol ∨ resNorm s ≤ r0 * reltol := by
  unfold ptcExit
  by_cases h1 : resNorm s ≤ abstol <;> by_cases h2 : resNorm s ≤ r0 * reltol <;> simp [h1, h2]

/-- Non-vacuity of C21: Newton-like contraction `s ↦ s - s dt/(1+dt)`, ratio `1/s`. -/
example : ((solve (S := ℚ) ⟨0, 1, 4, ptcStepSize (1 / 2) (fun s => 1 / s),
    fun _ _ _ _ _ => false, fun s t dt => (s - s * dt / (1 + dt), t + dt, dt)⟩ 1).iters.map
      (·.dt)).take 3 = [1 / 2, 3 / 4, 21 / 16] := by decide +kernel

end Verif.TimeLoop
