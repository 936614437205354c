import Verif.FlowSetupProps
import Mathlib.Algebra.Order.BigOperators.Ring.Finset
import Mathlib.Analysis.Real.Sqrt

/-!
Properties C117 (boundary conditions and options), C118 (conservative-variable error), C119 (mass
matrix) and C120 (control footprint) of the flow solver.
-/

namespace Verif.FlowSetup
open Finset Verif.EulerFluxes Verif.EulerInteg Verif.Sbp Verif.Inviscid

set_option linter.unusedSectionVars false

variable {d : ℕ}

/-! ### C117: boundary conditions and options -/

/-- Specification: the boundary condition a key of `"bcs"` stands for. -/
def bcOfKey (viscous : Bool) (key : String) : Option Bc :=
  if viscous then
    if key = "slip-wall" then some .viscSlip
    else if key = "no-slip-adiabatic" then some .noSlip
    else if key = "far-field" then some .farField
    else if key = "viscous-mms" then some .viscExact
    else if key = "control" then some .viscControl
    else none
  else
    if key = "vortex" then some .vortex
    else if key = "slip-wall" then some .slipWall
    else if key = "far-field" then some .farField
    else if key = "pump" then some .pump
    else if key = "control" then some .control
    else none

theorem mem_addBc (bcs : Bcs) (key : String) (kind : Bc) (l : List (Bc × List ℕ)) (p : Bc × List ℕ) :
    p ∈ addBc bcs key kind l ↔ p ∈ l ∨ p.1 = kind ∧ bcs.lookup key = some p.2 := by
  unfold addBc
  rcases p with ⟨b, a⟩
  cases h : bcs.lookup key with
  | none => simp
  | some v =>
    simp only [List.mem_append, List.mem_singleton, Prod.mk.injEq, Option.some.injEq]
    constructor
    · rintro (h | ⟨h1, h2⟩)
      · exact Or.inl h
      · exact Or.inr ⟨h1, h2.symm⟩
    · rintro (h | ⟨h1, h2⟩)
      · exact Or.inl h
      · exact Or.inr ⟨h1, h2.symm⟩

theorem map_addBc (bcs : Bcs) (key : String) (kind : Bc) (l : List (Bc × List ℕ)) :
    (addBc bcs key kind l).map Prod.fst =
      l.map Prod.fst ++ if (bcs.lookup key).isSome then [kind] else [] := by
  unfold addBc
  cases bcs.lookup key <;> simp

/-- **What is attached.**  Whenever set-up does not throw, the integrators attached to the residual are
exactly those of the recognised keys present in `"bcs"`, each once, on exactly the listed
attributes. -/
theorem C117_attached (viscous : Bool) (dim : ℕ) (bcs : Bcs) (l : List (Bc × List ℕ))
    (h : flowBcs viscous dim bcs = some l) :
    (l.map Prod.fst).Nodup ∧ ∀ b attrs, (b, attrs) ∈ l ↔
      ∃ key, bcOfKey viscous key = some b ∧ bcs.lookup key = some attrs := by
  cases viscous
  · simp only [flowBcs, Bool.false_eq_true, if_false, inviscidBcs] at h
    split_ifs at h with h0
    injection h with h
    subst h
    constructor
    · simp only [map_addBc]
      split_ifs <;> simp
    · intro b attrs
      simp only [mem_addBc, List.not_mem_nil, false_or]
      constructor
      · rintro ((((⟨h, h'⟩ | ⟨h, h'⟩) | ⟨h, h'⟩) | ⟨h, h'⟩) | ⟨h, h'⟩)
        · exact ⟨"vortex", by simp [bcOfKey, h], h'⟩
        · exact ⟨"slip-wall", by simp [bcOfKey, h], h'⟩
        · exact ⟨"far-field", by simp [bcOfKey, h], h'⟩
        · exact ⟨"pump", by simp [bcOfKey, h], h'⟩
        · exact ⟨"control", by simp [bcOfKey, h], h'⟩
      · rintro ⟨key, h1, h2⟩
        simp only [bcOfKey, Bool.false_eq_true, if_false] at h1
        split_ifs at h1 with a1 a2 a3 a4 a5 <;> injection h1 with h1
        · subst a1; exact Or.inl (Or.inl (Or.inl (Or.inl ⟨h1.symm, h2⟩)))
        · subst a2; exact Or.inl (Or.inl (Or.inl (Or.inr ⟨h1.symm, h2⟩)))
        · subst a3; exact Or.inl (Or.inl (Or.inr ⟨h1.symm, h2⟩))
        · subst a4; exact Or.inl (Or.inr ⟨h1.symm, h2⟩)
        · subst a5; exact Or.inr ⟨h1.symm, h2⟩
  · simp only [flowBcs, if_true, viscousBcs] at h
    injection h with h
    subst h
    constructor
    · simp only [map_addBc]
      split_ifs <;> simp
    · intro b attrs
      simp only [mem_addBc, List.not_mem_nil, false_or]
      constructor
      · rintro ((((⟨h, h'⟩ | ⟨h, h'⟩) | ⟨h, h'⟩) | ⟨h, h'⟩) | ⟨h, h'⟩)
        · exact ⟨"slip-wall", by simp [bcOfKey, h], h'⟩
        · exact ⟨"no-slip-adiabatic", by simp [bcOfKey, h], h'⟩
        · exact ⟨"far-field", by simp [bcOfKey, h], h'⟩
        · exact ⟨"viscous-mms", by simp [bcOfKey, h], h'⟩
        · exact ⟨"control", by simp [bcOfKey, h], h'⟩
      · rintro ⟨key, h1, h2⟩
        simp only [bcOfKey, if_true] at h1
        split_ifs at h1 with a1 a2 a3 a4 a5 <;> injection h1 with h1
        · subst a1; exact Or.inl (Or.inl (Or.inl (Or.inl ⟨h1.symm, h2⟩)))
        · subst a2; exact Or.inl (Or.inl (Or.inl (Or.inr ⟨h1.symm, h2⟩)))
        · subst a3; exact Or.inl (Or.inl (Or.inr ⟨h1.symm, h2⟩))
        · subst a4; exact Or.inl (Or.inr ⟨h1.symm, h2⟩)
        · subst a5; exact Or.inr ⟨h1.symm, h2⟩

/-- The only rejected input: an inviscid flow with a vortex boundary that is not two-dimensional. -/
theorem C117_rejected_iff (viscous : Bool) (dim : ℕ) (bcs : Bcs) :
    flowBcs viscous dim bcs = none ↔
      viscous = false ∧ dim ≠ 2 ∧ ∃ attrs, bcs.lookup "vortex" = some attrs := by
  cases viscous
  · unfold flowBcs inviscidBcs
    simp only [Bool.false_eq_true, if_false, true_and]
    split_ifs with h
    · simp only [true_iff]; exact ⟨h.2, Option.isSome_iff_exists.1 h.1⟩
    · simp only [false_iff]
      rintro ⟨h1, h2⟩
      exact h ⟨Option.isSome_iff_exists.2 h2, h1⟩
  · simp [flowBcs]

/-- **Order of keys does not matter.** -/
theorem C117_order_irrelevant (viscous : Bool) (dim : ℕ) (bcs bcs' : Bcs)
    (h : ∀ key, bcs.lookup key = bcs'.lookup key) : flowBcs viscous dim bcs = flowBcs viscous dim bcs' := by
  have h' : ∀ key kind l, addBc bcs key kind l = addBc bcs' key kind l := fun key kind l => by
    unfold addBc; rw [h]
  unfold flowBcs inviscidBcs viscousBcs
  simp only [h', h]

/-- **Refuted: every boundary condition asked for is applied, or set-up fails.**  A condition that exists
only for the other flow model (or a misspelt key) is dropped without a diagnostic, and its boundary
gets no integrator. -/
theorem C117_all_applied_false :
    ¬ ∀ (viscous : Bool) (dim : ℕ) (bcs : Bcs) (l : List (Bc × List ℕ)),
      flowBcs viscous dim bcs = some l →
      ∀ key attrs, bcs.lookup key = some attrs → ∃ b, (b, attrs) ∈ l := by
  intro h
  have := h false 2 [("no-slip-adiabatic", [1, 2])] [] (by decide) "no-slip-adiabatic" [1, 2] (by decide)
  simp at this

/-- The converse direction for the viscous solver. -/
theorem C117_all_applied_viscous_false :
    ∃ bcs : Bcs, (∃ attrs, bcs.lookup "vortex" = some attrs) ∧ flowBcs true 2 bcs = some [] :=
  ⟨[("vortex", [1])], ⟨[1], by decide⟩, by decide⟩

/-- **Solver construction.**  The solver is constructed exactly when the mesh dimension and the state
variables match the template and entropy variables are only used for steady problems. -/
theorem C117_solver_accepts (dim : ℕ) (entvar : Bool) (meshDim : ℕ) (entState steady : Bool) :
    solverOk dim entvar meshDim entState steady = true ↔
      meshDim = dim ∧ entState = entvar ∧ (entvar = true → steady = true) := by
  unfold solverOk
  by_cases h : meshDim = dim <;> cases entvar <;> cases entState <;> cases steady <;> simp [h]

/-- **Integrators.**  Entropy variables need the Ismail-Roe flux; viscous terms need a continuous
basis; nothing else is rejected - in particular any other flux name is taken without complaint. -/
theorem C117_integrators_accepted (entvar viscous : Bool) (fluxFun basis : String) :
    integratorsOk entvar fluxFun basis viscous = true ↔
      (entvar = true → fluxFun = "IR") ∧ (viscous = true → basis ≠ "dsbp") := by
  unfold integratorsOk
  by_cases h1 : fluxFun = "IR" <;> by_cases h2 : basis = "dsbp" <;> cases entvar <;> cases viscous <;>
    simp [h1, h2]

theorem C117_unknown_flux_false :
    ¬ ∀ (entvar viscous : Bool) (fluxFun basis : String),
      integratorsOk entvar fluxFun basis viscous = true → fluxFun = "IR" ∨ fluxFun = "Euler" := by
  intro h
  have := h false false "Ismail-Roe" "csbp" (by decide)
  revert this
  decide

example : flowBcs false 2 [("far-field", [3, 4]), ("slip-wall", [1, 2])] =
    some [(.slipWall, [1, 2]), (.farField, [3, 4])] := by decide

/-! Pump boundary. -/

/-- **Pump state, two dimensions.**  At every time the pump boundary supplies a full, physical state:
the gas compressed isentropically (`p = ρ^γ`, `ρ (1 - x_L(t)) = 1`) and moving with the piston
`x_L(t) = 0.05 (1 - cos t)`. -/
theorem C117_pump_state_2d (t : ℝ) :
    ∃ v : ℕ → ℝ, writeAll 4 (pumpWrites t) (fun _ => none) =
        some (fun i => if i < 4 then some (v i) else none) ∧
      Admissible (toState 2 v) ∧ v 0 * (1 - 1 / 20 * (1 - Real.cos t)) = 1 ∧
      HasDerivAt (fun τ => 1 / 20 * (1 - Real.cos τ)) (v 1 / v 0) t ∧ v 2 = 0 ∧
      specP (toState 2 v) = v 0 ^ (7 / 5 : ℝ) := by
  have hx : 1 / 20 * (1 - Real.cos t) ≤ 1 / 10 := by linarith [Real.neg_one_le_cos t]
  have hpos : 0 < 1 - 1 / 20 * (1 - Real.cos t) := by linarith
  set r : ℝ := 1 / (1 - 1 / 20 * (1 - Real.cos t)) with hr
  have hrp : 0 < r := one_div_pos.2 hpos
  set m : ℝ := r * (1 / 20) * Real.sin t with hm
  set e : ℝ := r ^ gamma / gami + 1 / 2 * m * m / r with he
  have hw : pumpWrites t = [(0, r), (1, m), (2, 0), (3, e)] := rfl
  let v : ℕ → ℝ := fun i => if i = 0 then r else if i = 1 then m else if i = 2 then 0 else e
  have hP : specP (toState 2 v) = r ^ (7 / 5 : ℝ) := by
    simp only [specP, toState, Fin.sum_univ_two, v]
    norm_num
    rw [he, gami_eq, gamma_eq]
    field_simp
    ring
  refine ⟨v, ?_, ?_, ?_, ?_, ?_, hP⟩
  · rw [hw]
    simp only [writeAll]
    norm_num
    funext i
    by_cases h4 : i < 4
    · interval_cases i <;> simp [Function.update, v]
    · have h0 : i ≠ 0 := by omega
      have h1 : i ≠ 1 := by omega
      have h2 : i ≠ 2 := by omega
      have h3 : i ≠ 3 := by omega
      simp [Function.update, h0, h1, h2, h3, h4]
  · rw [admissible_iff, pressure_spec, hP]
    exact ⟨by simpa [toState, v] using hrp, Real.rpow_pos_of_pos hrp _⟩
  · simp only [v, if_true]
    rw [hr]
    exact one_div_mul_cancel hpos.ne'
  · have : v 1 / v 0 = 1 / 20 * Real.sin t := by
      simp only [v, if_true, one_ne_zero, if_false]
      rw [hm]
      field_simp
    rw [this]
    exact ((Real.hasDerivAt_cos t).const_sub 1 |>.const_mul (1 / 20)).congr_deriv (by ring)
  · simp [v]

/-- **Refuted in one and three dimensions.**  The pump lambda always writes entries 0..3: out of bounds
for `dim = 1`, and for `dim = 3` the energy is left unset while the third momentum gets the energy. -/
theorem C117_pump_state_false :
    (∀ t, writeAll 3 (pumpWrites t) (fun _ => none) = none) ∧
      ∀ t, ∃ v, writeAll 5 (pumpWrites t) (fun _ => none) = some v ∧ v 4 = none ∧ ∃ e, v 3 = some e ∧ 0 < e := by
  constructor
  · intro t
    simp [pumpWrites, writeAll]
  · intro t
    have hx : 1 / 20 * (1 - Real.cos t) ≤ 1 / 10 := by linarith [Real.neg_one_le_cos t]
    have hpos : 0 < 1 - 1 / 20 * (1 - Real.cos t) := by linarith
    set r : ℝ := 1 / (1 - 1 / 20 * (1 - Real.cos t)) with hr
    have hrp : 0 < r := one_div_pos.2 hpos
    set m : ℝ := r * (1 / 20) * Real.sin t with hm
    set e : ℝ := r ^ gamma / gami + 1 / 2 * m * m / r with he
    have hw : pumpWrites t = [(0, r), (1, m), (2, 0), (3, e)] := rfl
    refine ⟨_, by rw [hw]; simp only [writeAll]; norm_num; rfl, ?_, e, ?_, ?_⟩
    · simp [Function.update]
    · simp [Function.update]
    · have h1 : 0 < r ^ gamma / gami := div_pos (Real.rpow_pos_of_pos hrp _) (by rw [gami_eq]; norm_num)
      have h2 : 0 ≤ 1 / 2 * m * m / r := div_nonneg (by nlinarith [mul_self_nonneg m]) hrp.le
      rw [he]
      linarith

/-! ### C118: conservative-variable error -/

/-- Specification: squared distance of two states, summed over all conserved variables. -/
noncomputable def distSq (a b : State d) : ℝ :=
  (a.rho - b.rho) ^ 2 + ∑ i, (a.mom i - b.mom i) ^ 2 + (a.ener - b.ener) ^ 2

theorem distSq_nonneg (a b : State d) : 0 ≤ distSq a b := by
  unfold distSq
  have : 0 ≤ ∑ i, (a.mom i - b.mom i) ^ 2 := sum_nonneg fun i _ => sq_nonneg _
  positivity

theorem distSq_eq_zero (a b : State d) : distSq a b = 0 ↔ a = b := by
  constructor
  · intro h
    unfold distSq at h
    have h2 : 0 ≤ ∑ i, (a.mom i - b.mom i) ^ 2 := sum_nonneg fun i _ => sq_nonneg _
    have h1 := sq_nonneg (a.rho - b.rho)
    have h3 := sq_nonneg (a.ener - b.ener)
    have e1 : (a.rho - b.rho) ^ 2 = 0 := by linarith
    have e2 : ∑ i, (a.mom i - b.mom i) ^ 2 = 0 := by linarith
    have e3 : (a.ener - b.ener) ^ 2 = 0 := by linarith
    rw [sum_eq_zero_iff_of_nonneg fun i _ => sq_nonneg _] at e2
    ext i
    · exact sub_eq_zero.1 (pow_eq_zero_iff (by norm_num) |>.1 e1)
    · exact sub_eq_zero.1 (pow_eq_zero_iff (by norm_num) |>.1 (e2 i (mem_univ i)))
    · exact sub_eq_zero.1 (pow_eq_zero_iff (by norm_num) |>.1 e3)
  · rintro rfl
    simp [distSq]

theorem sum_sq_ofState (a b : State d) :
    ∑ n ∈ range (d + 2), (ofState a n - ofState b n) * (ofState a n - ofState b n) = distSq a b := by
  rw [sum_range_succ, sum_range_succ', sum_range]
  unfold distSq ofState
  simp only [Nat.add_sub_cancel, Nat.add_eq_zero_iff, one_ne_zero, and_false, if_false, if_true,
    Fin.is_lt, dif_pos, lt_irrefl, dif_neg, not_false_eq_true, Fin.eta]
  simp only [pow_two]
  ring

theorem nodeError_full (entvar : Bool) (entry : ℤ) (he : entry < 0) (a b : ℕ → ℝ) :
    nodeError d entvar entry a b = distSq (consAt d entvar a) (consAt d entvar b) := by
  unfold nodeError
  simp only [he, if_true]
  rw [forN_sum, zero_add, sum_sq_ofState]
  rfl

theorem l2Local_eq (entvar : Bool) (entry : ℤ) (ne : ℕ) (dof : ℕ → ℕ) (w : ℕ → ℕ → ℝ)
    (u ex : ℕ → ℕ → ℕ → ℝ) :
    l2Local d entvar entry ne dof w u ex = ∑ k ∈ range ne, ∑ j ∈ range (dof k),
      w k j * nodeError d entvar entry (u k j) (ex k j) := by
  unfold l2Local
  have h : ∀ k s, forN (dof k) (fun j s => s + w k j * nodeError d entvar entry (u k j) (ex k j)) s =
      s + ∑ j ∈ range (dof k), w k j * nodeError d entvar entry (u k j) (ex k j) :=
    fun k s => forN_sum _ _ _
  simp only [h]
  rw [forN_sum, zero_add]

theorem nodeError_nonneg (entvar : Bool) (entry : ℤ) (a b : ℕ → ℝ) : 0 ≤ nodeError d entvar entry a b := by
  by_cases h : entry < 0
  · rw [nodeError_full _ _ h]; exact distSq_nonneg _ _
  · simp only [nodeError, h, if_false]; exact mul_self_nonneg _

theorem consL2_sq (entvar : Bool) (entry : ℤ) (ne : ℕ) (dof : ℕ → ℕ) (w : ℕ → ℕ → ℝ)
    (hw : ∀ k < ne, ∀ j < dof k, 0 ≤ w k j) (u ex : ℕ → ℕ → ℕ → ℝ) :
    consL2Error d entvar entry ne dof w u ex = √(l2Local d entvar entry ne dof w u ex) ∧
      0 ≤ l2Local d entvar entry ne dof w u ex := by
  have h : 0 ≤ l2Local d entvar entry ne dof w u ex := by
    rw [l2Local_eq]
    exact sum_nonneg fun k hk => sum_nonneg fun j hj =>
      mul_nonneg (hw k (mem_range.1 hk) j (mem_range.1 hj)) (nodeError_nonneg _ _ _ _)
  exact ⟨by simp [consL2Error, not_lt.2 h], h⟩

/-- **Value.**  With nonnegative weights the reported error is nonnegative and its square is the
quadrature of the squared distance between the *conservative* states, whatever the working
variables. -/
theorem C118_value (entvar : Bool) (entry : ℤ) (he : entry < 0) (ne : ℕ) (dof : ℕ → ℕ) (w : ℕ → ℕ → ℝ)
    (hw : ∀ k < ne, ∀ j < dof k, 0 ≤ w k j) (u ex : ℕ → ℕ → ℕ → ℝ) :
    0 ≤ consL2Error d entvar entry ne dof w u ex ∧
      consL2Error d entvar entry ne dof w u ex ^ 2 = ∑ k ∈ range ne, ∑ j ∈ range (dof k),
        w k j * distSq (consAt d entvar (u k j)) (consAt d entvar (ex k j)) := by
  obtain ⟨h1, h2⟩ := consL2_sq (d := d) entvar entry ne dof w hw u ex
  rw [h1]
  refine ⟨Real.sqrt_nonneg _, ?_⟩
  rw [Real.sq_sqrt h2, l2Local_eq]
  simp only [nodeError_full entvar entry he]

/-- **One entry.**  The square of the error of entry `e` is the quadrature of the squared difference of that
conserved variable (0: density, `1..dim`: momentum, `dim+1`: energy). -/
theorem C118_entry (entvar : Bool) (e : ℕ) (ne : ℕ) (dof : ℕ → ℕ) (w : ℕ → ℕ → ℝ)
    (hw : ∀ k < ne, ∀ j < dof k, 0 ≤ w k j) (u ex : ℕ → ℕ → ℕ → ℝ) :
    0 ≤ consL2Error d entvar e ne dof w u ex ∧
      consL2Error d entvar e ne dof w u ex ^ 2 = ∑ k ∈ range ne, ∑ j ∈ range (dof k),
        w k j * (ofState (consAt d entvar (u k j)) e - ofState (consAt d entvar (ex k j)) e) ^ 2 := by
  obtain ⟨h1, h2⟩ := consL2_sq (d := d) entvar (e : ℤ) ne dof w hw u ex
  rw [h1]
  refine ⟨Real.sqrt_nonneg _, ?_⟩
  rw [Real.sq_sqrt h2, l2Local_eq]
  refine sum_congr rfl fun k _ => sum_congr rfl fun j _ => ?_
  unfold nodeError
  simp only [show ¬ ((e : ℤ) < 0) by omega, if_false, Int.toNat_natCast, pow_two]
  rfl

/-- **Full error and entries.**  The squared full error is the sum of the squared errors of the entries. -/
theorem C118_sum_of_entries (entvar : Bool) (entry : ℤ) (he : entry < 0) (ne : ℕ) (dof : ℕ → ℕ)
    (w : ℕ → ℕ → ℝ) (hw : ∀ k < ne, ∀ j < dof k, 0 ≤ w k j) (u ex : ℕ → ℕ → ℕ → ℝ) :
    consL2Error d entvar entry ne dof w u ex ^ 2 =
      ∑ e ∈ range (d + 2), consL2Error d entvar (e : ℕ) ne dof w u ex ^ 2 := by
  rw [(C118_value entvar entry he ne dof w hw u ex).2,
    sum_congr rfl fun e _ => (C118_entry entvar e ne dof w hw u ex).2, sum_comm]
  refine sum_congr rfl fun k _ => ?_
  rw [sum_comm]
  refine sum_congr rfl fun j _ => ?_
  rw [← mul_sum, ← sum_sq_ofState]
  simp only [pow_two]

/-- **Zero error.**  With positive weights the error vanishes exactly when the conservative states agree at
every node. -/
theorem C118_zero_iff (entvar : Bool) (entry : ℤ) (he : entry < 0) (ne : ℕ) (dof : ℕ → ℕ)
    (w : ℕ → ℕ → ℝ) (hw : ∀ k < ne, ∀ j < dof k, 0 < w k j) (u ex : ℕ → ℕ → ℕ → ℝ) :
    consL2Error d entvar entry ne dof w u ex = 0 ↔
      ∀ k < ne, ∀ j < dof k, consAt d entvar (u k j) = consAt d entvar (ex k j) := by
  rw [← pow_eq_zero_iff (n := 2) (by norm_num),
    (C118_value entvar entry he ne dof w (fun k hk j hj => (hw k hk j hj).le) u ex).2,
    sum_eq_zero_iff_of_nonneg fun k hk => sum_nonneg fun j hj =>
      mul_nonneg (hw k (mem_range.1 hk) j (mem_range.1 hj)).le (distSq_nonneg _ _)]
  constructor
  · intro h k hk j hj
    have h1 := h k (mem_range.2 hk)
    rw [sum_eq_zero_iff_of_nonneg fun j hj =>
      mul_nonneg (hw k hk j (mem_range.1 hj)).le (distSq_nonneg _ _)] at h1
    rcases mul_eq_zero.1 (h1 j (mem_range.2 hj)) with h2 | h2
    · exact absurd h2 (hw k hk j hj).ne'
    · exact (distSq_eq_zero _ _).1 h2
  · intro h k hk
    exact sum_eq_zero fun j hj => by
      rw [(distSq_eq_zero _ _).2 (h k (mem_range.1 hk) j (mem_range.1 hj)), mul_zero]

/-- **The working variables do not matter.**  A solution and a reference given in entropy variables have the
same error as their conservative counterparts. -/
theorem C118_entvars (entry : ℤ) (ne : ℕ) (dof : ℕ → ℕ) (w : ℕ → ℕ → ℝ)
    (q qe : ℕ → ℕ → State d) (hq : ∀ k j, Admissible (q k j)) (hqe : ∀ k j, Admissible (qe k j)) :
    consL2Error d true entry ne dof w (fun k j => ofState (calcEntropyVars (q k j)))
        (fun k j => ofState (calcEntropyVars (qe k j))) =
      consL2Error d false entry ne dof w (fun k j => ofState (q k j)) (fun k j => ofState (qe k j)) := by
  have h : ∀ k j, nodeError d true entry (ofState (calcEntropyVars (q k j)))
      (ofState (calcEntropyVars (qe k j))) = nodeError d false entry (ofState (q k j)) (ofState (qe k j)) := by
    intro k j
    unfold nodeError
    simp only [toState_ofState, consOf, if_true, Bool.false_eq_true, if_false,
      C53_roundtrip_cons _ (hq k j), C53_roundtrip_cons _ (hqe k j)]
  unfold consL2Error l2Local
  simp only [h]

theorem minkowski {ι : Type} (s : Finset ι) (w f g : ι → ℝ) (hw : ∀ i ∈ s, 0 ≤ w i) :
    √(∑ i ∈ s, w i * (f i + g i) ^ 2) ≤ √(∑ i ∈ s, w i * f i ^ 2) + √(∑ i ∈ s, w i * g i ^ 2) := by
  have hf : 0 ≤ ∑ i ∈ s, w i * f i ^ 2 := sum_nonneg fun i hi => mul_nonneg (hw i hi) (sq_nonneg _)
  have hg : 0 ≤ ∑ i ∈ s, w i * g i ^ 2 := sum_nonneg fun i hi => mul_nonneg (hw i hi) (sq_nonneg _)
  have hcs := Real.sum_mul_le_sqrt_mul_sqrt s (fun i => √(w i) * f i) (fun i => √(w i) * g i)
  have e1 : ∑ i ∈ s, √(w i) * f i * (√(w i) * g i) = ∑ i ∈ s, w i * (f i * g i) :=
    sum_congr rfl fun i hi => by
      have := Real.mul_self_sqrt (hw i hi)
      linear_combination (f i * g i) * this
  have e2 : ∑ i ∈ s, (√(w i) * f i) ^ 2 = ∑ i ∈ s, w i * f i ^ 2 :=
    sum_congr rfl fun i hi => by rw [mul_pow, Real.sq_sqrt (hw i hi)]
  have e3 : ∑ i ∈ s, (√(w i) * g i) ^ 2 = ∑ i ∈ s, w i * g i ^ 2 :=
    sum_congr rfl fun i hi => by rw [mul_pow, Real.sq_sqrt (hw i hi)]
  rw [e1, e2, e3] at hcs
  apply Real.sqrt_le_iff.2
  refine ⟨by positivity, ?_⟩
  have e4 : ∑ i ∈ s, w i * (f i + g i) ^ 2 =
      ∑ i ∈ s, w i * f i ^ 2 + ∑ i ∈ s, w i * g i ^ 2 + 2 * ∑ i ∈ s, w i * (f i * g i) := by
    rw [mul_sum, ← sum_add_distrib, ← sum_add_distrib]
    exact sum_congr rfl fun i _ => by ring
  rw [e4, add_sq, Real.sq_sqrt hf, Real.sq_sqrt hg]
  linarith

theorem sq_of_sum (entvar : Bool) (entry : ℤ) (he : entry < 0) (ne : ℕ) (dof : ℕ → ℕ)
    (w : ℕ → ℕ → ℝ) (hw : ∀ k < ne, ∀ j < dof k, 0 ≤ w k j) (u ex : ℕ → ℕ → ℕ → ℝ) :
    consL2Error d entvar entry ne dof w u ex =
      √(∑ p ∈ (range ne).sigma (fun k => (range (dof k)) ×ˢ range (d + 2)), w p.1 p.2.1 *
        (ofState (consAt d entvar (u p.1 p.2.1)) p.2.2 - ofState (consAt d entvar (ex p.1 p.2.1)) p.2.2) ^ 2) := by
  obtain ⟨h0, h1⟩ := C118_value (d := d) entvar entry he ne dof w hw u ex
  rw [sum_sigma, ← Real.sqrt_sq h0, h1]
  congr 1
  refine sum_congr rfl fun k _ => ?_
  rw [sum_product]
  refine sum_congr rfl fun j _ => ?_
  simp only
  rw [← mul_sum, ← sum_sq_ofState]
  simp only [pow_two]

/-- **Triangle inequality.** -/
theorem C118_triangle (entvar : Bool) (entry : ℤ) (he : entry < 0) (ne : ℕ) (dof : ℕ → ℕ)
    (w : ℕ → ℕ → ℝ) (hw : ∀ k < ne, ∀ j < dof k, 0 ≤ w k j) (u v ex : ℕ → ℕ → ℕ → ℝ) :
    consL2Error d entvar entry ne dof w u ex ≤
      consL2Error d entvar entry ne dof w u v + consL2Error d entvar entry ne dof w v ex := by
  rw [sq_of_sum entvar entry he ne dof w hw, sq_of_sum entvar entry he ne dof w hw,
    sq_of_sum entvar entry he ne dof w hw]
  refine le_trans (le_of_eq ?_) (minkowski _ _ _ _ fun p hp => ?_)
  · congr 1
    exact sum_congr rfl fun p _ => by ring
  · have := mem_sigma.1 hp
    exact hw p.1 (mem_range.1 this.1) p.2.1 (mem_range.1 (mem_product.1 this.2).1)

example : ∀ k < 2, ∀ j < (fun _ => 3 : ℕ → ℕ) k, (0 : ℝ) < (fun _ j => (j : ℝ) + 1 : ℕ → ℕ → ℝ) k j :=
  fun _ _ j _ => by positivity

/-! ### C119: diagonal mass matrix -/

/-- Specification: the weight of node `i`: volume weight, divided by the local length scale
`J^(1/dim)` for the space-varying pseudo-time step. -/
noncomputable def nodeMass (dim : ℕ) (spaceVary : Bool) (wt J : ℕ → ℝ) (i : ℕ) : ℝ :=
  if spaceVary then wt i * J i / J i ^ ((1 : ℝ) / dim) else wt i * J i

theorem diagMass_inner (ns nn i : ℕ) (hi : i < nn) (norm : ℝ) (M : ℕ → ℕ → ℝ) (r c : ℕ) :
    forN ns (fun k M => fun r c => if r = i + k * nn ∧ c = i + k * nn then norm else M r c) M r c =
      if r = c ∧ r < nn * ns ∧ r % nn = i then norm else M r c := by
  induction ns with
  | zero => simp [forN]
  | succ n ih =>
    rw [forN_succ]
    rw [ih]
    by_cases h1 : r = i + n * nn ∧ c = i + n * nn
    · rw [if_pos h1, if_pos]
      refine ⟨by omega, ?_, ?_⟩
      · rw [h1.1, Nat.mul_succ, Nat.mul_comm n nn]; omega
      · rw [h1.1, Nat.add_mul_mod_self_right, Nat.mod_eq_of_lt hi]
    · rw [if_neg h1]
      refine if_congr ?_ rfl rfl
      constructor
      · rintro ⟨a, b, e⟩
        exact ⟨a, by rw [Nat.mul_succ]; omega, e⟩
      · rintro ⟨a, b, e⟩
        refine ⟨a, ?_, e⟩
        by_contra hlt
        have hdiv : r / nn = n := by
          have h2 : n ≤ r / nn := (Nat.le_div_iff_mul_le (by omega)).2 (by rw [Nat.mul_comm]; omega)
          have h3 : r / nn < n + 1 := (Nat.div_lt_iff_lt_mul (by omega)).2 (by rw [Nat.mul_comm]; exact b)
          omega
        have := Nat.mod_add_div r nn
        rw [hdiv, e, Nat.mul_comm] at this
        exact h1 ⟨this.symm, by rw [← a]; exact this.symm⟩

theorem diagMass_eq (dim ns nn : ℕ) (spaceVary : Bool) (wt J : ℕ → ℝ) (r c : ℕ) :
    diagMass dim ns nn spaceVary wt J r c =
      if r = c ∧ r < nn * ns then nodeMass dim spaceVary wt J (r % nn) else 0 := by
  have key : ∀ m ≤ nn, forN m (fun i M =>
      let norm := if spaceVary then wt i * J i / J i ^ ((1 : ℝ) / dim) else wt i * J i
      forN ns (fun k M => fun r c => if r = i + k * nn ∧ c = i + k * nn then norm else M r c) M)
      (fun _ _ => 0) r c =
      if r = c ∧ r < nn * ns ∧ r % nn < m then nodeMass dim spaceVary wt J (r % nn) else 0 := by
    intro m hm
    induction m with
    | zero => simp [forN]
    | succ m ih =>
      rw [forN_succ]
      simp only
      rw [diagMass_inner ns nn m (by omega), ih (by omega)]
      by_cases h1 : r = c ∧ r < nn * ns
      · by_cases h2 : r % nn = m
        · rw [if_pos (show r = c ∧ r < nn * ns ∧ r % nn = m from ⟨h1.1, h1.2, h2⟩),
            if_pos (show r = c ∧ r < nn * ns ∧ r % nn < m + 1 from ⟨h1.1, h1.2, by omega⟩), h2]
          rfl
        · rw [if_neg (by tauto)]
          refine if_congr ?_ rfl rfl
          constructor
          · rintro ⟨a, b, e⟩; exact ⟨a, b, by omega⟩
          · rintro ⟨a, b, e⟩; exact ⟨a, b, by omega⟩
      · rw [if_neg (by tauto), if_neg (by tauto), if_neg (by tauto)]
  rw [diagMass, key nn le_rfl]
  refine if_congr ?_ rfl rfl
  constructor
  · rintro ⟨a, b, _⟩; exact ⟨a, b⟩
  · rintro ⟨a, b⟩
    refine ⟨a, b, Nat.mod_lt _ ?_⟩
    rcases Nat.eq_zero_or_pos nn with h | h
    · simp [h] at b
    · exact h

/-- **Entries.**  Row `i + k nn`, column `j + l nn` (state `k` at node `i`, state `l` at node `j`) of the element
mass matrix is the node's weight on the diagonal and zero elsewhere: no coupling between nodes
or states. -/
theorem C119_entries (dim ns nn : ℕ) (spaceVary : Bool) (wt J : ℕ → ℝ) (i j k l : ℕ) (hi : i < nn)
    (hj : j < nn) (hk : k < ns) (_hl : l < ns) :
    diagMass dim ns nn spaceVary wt J (i + k * nn) (j + l * nn) =
      if i = j ∧ k = l then nodeMass dim spaceVary wt J i else 0 := by
  rw [diagMass_eq]
  have h1 : (i + k * nn = j + l * nn) ↔ (i = j ∧ k = l) := by
    have := flat_iff (N := nn) (i := i) (i' := j) (n := k) (n' := l) hi hj
    rw [Nat.add_comm i, Nat.add_comm j]
    rw [this]
    tauto
  have h2 : i + k * nn < nn * ns := by
    have := flat_lt (N := nn) hi hk
    rw [Nat.mul_comm nn ns]; omega
  rw [Nat.add_mul_mod_self_right, Nat.mod_eq_of_lt hi]
  refine if_congr ?_ rfl rfl
  rw [h1]
  exact ⟨fun h => h.1, fun h => ⟨h, h2⟩⟩

/-- **Energy.**  The quadratic form of the mass matrix is the weighted sum of squares of the nodal states. -/
theorem C119_quadratic_form (dim ns nn : ℕ) (spaceVary : Bool) (wt J : ℕ → ℝ) (x y : ℕ → ℝ) :
    ∑ r ∈ range (ns * nn), ∑ c ∈ range (ns * nn), x r * diagMass dim ns nn spaceVary wt J r c * y c =
      ∑ k ∈ range ns, ∑ i ∈ range nn, nodeMass dim spaceVary wt J i * x (k * nn + i) * y (k * nn + i) := by
  have h : ∀ r ∈ range (ns * nn), ∑ c ∈ range (ns * nn), x r * diagMass dim ns nn spaceVary wt J r c * y c =
      nodeMass dim spaceVary wt J (r % nn) * x r * y r := by
    intro r hr
    rw [sum_eq_single r]
    · rw [diagMass_eq, if_pos ⟨rfl, by rw [Nat.mul_comm]; exact mem_range.1 hr⟩]; ring
    · intro c _ hc
      rw [diagMass_eq, if_neg (fun h => hc h.1.symm)]; ring
    · intro h; exact absurd hr h
  rw [sum_congr rfl h, sum_flat]
  refine sum_congr rfl fun k _ => sum_congr rfl fun i hi => ?_
  rw [flat_mod (mem_range.1 hi)]

/-- **Positive definite.**  With positive cubature weights and an uninverted element the mass matrix is
positive definite. -/
theorem C119_positive_definite (dim ns nn : ℕ) (spaceVary : Bool) (wt J : ℕ → ℝ)
    (hwt : ∀ i < nn, 0 < wt i) (hJ : ∀ i < nn, 0 < J i) (x : ℕ → ℝ) (hx : ∃ p < ns * nn, x p ≠ 0) :
    0 < ∑ r ∈ range (ns * nn), ∑ c ∈ range (ns * nn), x r * diagMass dim ns nn spaceVary wt J r c * x c := by
  have hm : ∀ i < nn, 0 < nodeMass dim spaceVary wt J i := by
    intro i hi
    unfold nodeMass
    have h1 := mul_pos (hwt i hi) (hJ i hi)
    split_ifs
    · exact div_pos h1 (Real.rpow_pos_of_pos (hJ i hi) _)
    · exact h1
  rw [C119_quadratic_form]
  obtain ⟨p, hp, hxp⟩ := hx
  obtain ⟨n, i, hn, hi, rfl⟩ := flat_surj hp
  have hnn : ∀ k ∈ range ns, ∀ i ∈ range nn, 0 ≤ nodeMass dim spaceVary wt J i * x (k * nn + i) * x (k * nn + i) :=
    fun k _ i hi => by
      rw [mul_assoc]; exact mul_nonneg (hm i (mem_range.1 hi)).le (mul_self_nonneg _)
  refine sum_pos' (fun k hk => sum_nonneg (hnn k hk)) ⟨n, mem_range.2 hn, ?_⟩
  refine sum_pos' (hnn n (mem_range.2 hn)) ⟨i, mem_range.2 hi, ?_⟩
  rw [mul_assoc]
  exact mul_pos (hm i hi) (mul_self_pos.2 hxp)

/-- **Integrates constants.**  Tested with the constant one in state `k` the mass matrix returns the volume
of the element, whenever the cubature is exact for it. -/
theorem C119_volume (dim ns nn : ℕ) (wt J : ℕ → ℝ) (vol : ℝ)
    (hvol : ∑ i ∈ range nn, wt i * J i = vol) (k : ℕ) (hk : k < ns) :
    ∑ r ∈ range (ns * nn), ∑ c ∈ range (ns * nn), (if r / nn = k then 1 else 0) *
      diagMass dim ns nn false wt J r c * (if c / nn = k then 1 else 0) = vol := by
  rw [C119_quadratic_form, ← hvol, sum_eq_single k]
  · refine sum_congr rfl fun i hi => ?_
    rw [flat_div (mem_range.1 hi)]
    simp [nodeMass]
  · intro l _ hl
    refine sum_eq_zero fun i hi => ?_
    rw [flat_div (mem_range.1 hi)]
    simp [hl]
  · intro h; exact absurd (mem_range.2 hk) h

/-- **Local pseudo-time step.**  With `space_vary_dt` every weight is the cubature weight times
`J^(1 - 1/dim)`: dividing the residual by it is a step proportional to the local length `J^(1/dim)`. -/
theorem C119_local_step (dim ns nn : ℕ) (wt J : ℕ → ℝ) (hJ : ∀ i < nn, 0 < J i) (i k : ℕ) (hi : i < nn)
    (hk : k < ns) :
    diagMass dim ns nn true wt J (i + k * nn) (i + k * nn) = wt i * J i ^ (1 - (1 : ℝ) / dim) ∧
      diagMass dim ns nn true wt J (i + k * nn) (i + k * nn) * J i ^ ((1 : ℝ) / dim) =
        diagMass dim ns nn false wt J (i + k * nn) (i + k * nn) := by
  rw [C119_entries dim ns nn true wt J i i k k hi hi hk hk,
    C119_entries dim ns nn false wt J i i k k hi hi hk hk]
  simp only [and_self, if_true, nodeMass, Bool.false_eq_true, if_false]
  have hp := Real.rpow_pos_of_pos (hJ i hi) ((1 : ℝ) / dim)
  constructor
  · rw [Real.rpow_sub (hJ i hi), Real.rpow_one]; ring
  · field_simp

example : ∃ p < 4 * 3, (fun i : ℕ => if i = 5 then (2 : ℝ) else 0) p ≠ 0 := ⟨5, by norm_num, by norm_num⟩

/-! ### C120: control footprint -/

/-- Specification: squared Euclidean distance. -/
noncomputable def sqDist (n : ℕ) (x y : ℕ → ℝ) : ℝ := ∑ i ∈ range n, (x i - y i) ^ 2

theorem squaredExponential_eq (len : ℝ) (n : ℕ) (xc x : ℕ → ℝ) :
    squaredExponential len n xc n x = some (Real.exp (-(sqDist n x xc) / len ^ 2)) := by
  unfold squaredExponential
  simp only [if_true]
  rw [vdot_eq, vdot_eq, vdot_eq]
  congr 4
  unfold sqDist
  rw [mul_sum, ← sum_sub_distrib, ← sum_add_distrib]
  exact sum_congr rfl fun i _ => by ring

/-- **Value and range.**  For a centre of the right dimension the scale is `exp(-|x - xc|² / len²)`, positive,
at most one, and one exactly at the centre. -/
theorem C120_gaussian (len : ℝ) (hl : len ≠ 0) (n : ℕ) (xc x : ℕ → ℝ) :
    ∃ s, squaredExponential len n xc n x = some s ∧ s = Real.exp (-(sqDist n x xc / len ^ 2)) ∧
      0 < s ∧ s ≤ 1 ∧ (s = 1 ↔ ∀ i < n, x i = xc i) := by
  have h0 : 0 ≤ sqDist n x xc := sum_nonneg fun i _ => sq_nonneg _
  have hl2 : 0 < len ^ 2 := by positivity
  refine ⟨_, squaredExponential_eq len n xc x, by rw [neg_div], Real.exp_pos _, ?_, ?_⟩
  · exact Real.exp_le_one_iff.2 (div_nonpos_of_nonpos_of_nonneg (neg_nonpos.2 h0) hl2.le)
  · rw [Real.exp_eq_one_iff, div_eq_zero_iff, neg_eq_zero, sqDist,
      sum_eq_zero_iff_of_nonneg fun i _ => sq_nonneg _]
    constructor
    · rintro (h | h) i hi
      · exact sub_eq_zero.1 (pow_eq_zero_iff (by norm_num) |>.1 (h i (mem_range.2 hi)))
      · exact absurd h hl2.ne'
    · intro h
      exact Or.inl fun i hi => by rw [h i (mem_range.1 hi), sub_self]; norm_num

/-- **Monotone.**  The scale is smaller the farther the point is from the centre. -/
theorem C120_decreasing (len : ℝ) (hl : len ≠ 0) (n : ℕ) (xc x y : ℕ → ℝ) (s t : ℝ)
    (hs : squaredExponential len n xc n x = some s) (ht : squaredExponential len n xc n y = some t) :
    s < t ↔ sqDist n y xc < sqDist n x xc := by
  rw [squaredExponential_eq] at hs ht
  injection hs with hs
  injection ht with ht
  have hl2 : 0 < len ^ 2 := by positivity
  rw [← hs, ← ht, Real.exp_lt_exp, div_lt_div_iff_of_pos_right hl2, neg_lt_neg_iff]

/-- The control boundary in two dimensions: a bump of width `0.1` around `(1/2, 0)`. -/
theorem C120_control_2d (x : ℕ → ℝ) :
    controlScale 2 x = some (Real.exp (-(100 * ((x 0 - 1 / 2) ^ 2 + x 1 ^ 2)))) := by
  rw [controlScale, squaredExponential_eq]
  congr 2
  simp [sqDist, sum_range_succ]
  ring

/-- **Refuted: the control boundary works in every supported dimension.**  Its centre has two
coordinates whatever the mesh dimension. -/
theorem C120_every_dim_false :
    ¬ ∀ (dim : ℕ) (x : ℕ → ℝ), 1 ≤ dim → dim ≤ 3 → (controlScale dim x).isSome := by
  intro h
  have := h 3 (fun _ => 0) (by norm_num) (by norm_num)
  simp [controlScale, squaredExponential] at this

/-- It works exactly in two dimensions. -/
theorem C120_defined_iff (dim : ℕ) (x : ℕ → ℝ) : (controlScale dim x).isSome ↔ dim = 2 := by
  unfold controlScale squaredExponential
  by_cases h : dim = 2 <;> simp [h]

end Verif.FlowSetup
