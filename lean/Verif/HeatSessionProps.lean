import Verif.HeatSession
import Verif.DenseLemmas
import Verif.QuotientProps
import Mathlib.Analysis.Calculus.Deriv.Inv
import Mathlib.Tactic.FieldSimp
import Mathlib.Tactic.Linarith

/-!
# C202: the heat source over a session

The heat source and its reverse mesh derivative, called in any order with any inputs.  The value never
depends on the history.  The reverse mesh derivative does: it uses the winding volume stored by the last
`calcOutput`, so it is the gradient of the heat source only if that call was made on the same mesh.
-/

namespace Verif.HeatSession

open Finset Verif.Dense Verif.Quotient

variable {N d : ℕ}

/-! ### Specification -/

/-- Specification: the heat source on the mesh `u`: each winding load divided by the volume of the winding of
that mesh, plus the core losses. -/
noncomputable def heat (h : Source N d) (u : Fin N → ℝ) : Vec d := fun r =>
  h.dc.load u r / h.dc.vol.val u + h.ac.load u r / h.ac.vol.val u + h.core u r

/-- Specification: the parts differentiate correctly at `u` (C114, C129, C130, C137 for the integrators of
MISO): for every seed, the reverse sensitivities are the gradients of the seeded loads and the volume
functionals are correct and not zero. -/
structure PartsOK (h : Source N d) (u : Fin N → ℝ) : Prop where
  dc : ∀ psi v, DirDeriv (fun u => dotv psi (h.dc.load u)) u v (∑ j, h.dc.grad psi u j * v j)
  ac : ∀ psi v, DirDeriv (fun u => dotv psi (h.ac.load u)) u v (∑ j, h.ac.grad psi u j * v j)
  core : ∀ psi v, DirDeriv (fun u => dotv psi (h.core u)) u v (∑ j, h.coreGrad psi u j * v j)
  dcVol : h.dc.vol.Correct u
  acVol : h.ac.vol.Correct u
  dcPos : h.dc.vol.val u ≠ 0
  acPos : h.ac.vol.val u ≠ 0

/-- Specification: a call that leaves the mesh at `u` and does not set the winding volume by hand. -/
def Op.Keeps (u : Fin N → ℝ) (op : Op N d) : Prop :=
  op.input.windingVolume = none ∧ (op.input.coords = none ∨ op.input.coords = some u)

/-! ### The value -/

/-- **C202** After any history of calls, the heat source computed with the mesh `u` among the inputs is the
heat source of the mesh `u`; nothing of the history is left in it. -/
theorem C202_value (h : Source N d) (s : St N) (ops : List (Op N d)) (u : Fin N → ℝ) :
    (calcOutput h (run h s ops) { coords := some u }).2 = heat h u := by
  simp only [calcOutput, calcDist, setInputs, Option.getD_some, Option.getD_none]
  rfl

/-- **C202** A winding volume among the inputs replaces the computed ones in both parts. -/
theorem C202_value_override (h : Source N d) (s : St N) (ops : List (Op N d)) (u : Fin N → ℝ) (v : ℝ) (r : Fin d) :
    (calcOutput h (run h s ops) { coords := some u, windingVolume := some v }).2 r =
      (h.dc.load u r + h.ac.load u r) / v + h.core u r := by
  simp only [calcOutput, calcDist, setInputs, Option.getD_some]
  rw [add_div]

/-! ### The reverse mesh derivative -/

theorem step_keeps (h : Source N d) (u : Fin N → ℝ) (s : St N) (op : Op N d) (hk : op.Keeps u)
    (hu : s.u = u) (hd : s.vDc = h.dc.vol.val u) (ha : s.vAc = h.ac.vol.val u) :
    (step h s op).u = u ∧ (step h s op).vDc = h.dc.vol.val u ∧ (step h s op).vAc = h.ac.vol.val u := by
  obtain ⟨hw, hc⟩ := hk
  have hc' : op.input.coords.getD s.u = u := by
    rcases hc with hc | hc <;> simp [hc, hu]
  have hcc : op.input.coords.getD u = u := by
    rcases hc with hc | hc <;> simp [hc]
  cases op <;>
    simp only [Op.input] at hw hc' hcc <;>
    simp [step, setInputs, calcOutput, calcDist, meshVjp, volumeVjp, meshJvp, hw, hc', hcc, hd, ha]

theorem run_keeps (h : Source N d) (u : Fin N → ℝ) (ops : List (Op N d)) (hk : ∀ op ∈ ops, op.Keeps u) (s : St N)
    (hu : s.u = u) (hd : s.vDc = h.dc.vol.val u) (ha : s.vAc = h.ac.vol.val u) :
    (run h s ops).u = u ∧ (run h s ops).vDc = h.dc.vol.val u ∧ (run h s ops).vAc = h.ac.vol.val u := by
  induction ops generalizing s with
  | nil => exact ⟨hu, hd, ha⟩
  | cons op ops ih =>
    obtain ⟨h1, h2, h3⟩ := step_keeps h u s op (hk op (by simp)) hu hd ha
    exact ih (fun o ho => hk o (List.mem_cons_of_mem _ ho)) _ h1 h2 h3

/-- One distribution: the seeded load over a volume, both moving with the mesh. -/
theorem dist_deriv (b : Body N d) (u v : Fin N → ℝ) (psi : Vec d) (bar : Fin N → ℝ)
    (hg : DirDeriv (fun u => dotv psi (b.load u)) u v (∑ j, b.grad psi u j * v j)) (hv : b.vol.Correct u)
    (h0 : b.vol.val u ≠ 0) :
    ∃ g, DirDeriv (fun u => dotv psi (b.load u) / b.vol.val u) u v g ∧
      ∑ j, distVjp b u (b.vol.val u) psi bar j * v j = ∑ j, bar j * v j + g := by
  have h1 := HasDerivAt.fun_div hg (hv.1 v) (by simpa using h0)
  refine ⟨_, h1, ?_⟩
  simp only [zero_smul, add_zero, hv.2 v, distVjp, Func.vjp, add_mul, sum_add_distrib]
  have e1 : ∑ j, b.grad psi u j / b.vol.val u * v j = (∑ j, b.grad psi u j * v j) / b.vol.val u := by
    rw [sum_div]; exact sum_congr rfl fun j _ => by ring
  have e2 : ∀ c : ℝ, ∑ j, c * b.vol.grad u j * v j = c * ∑ j, b.vol.grad u j * v j := fun c => by
    rw [mul_sum]; exact sum_congr rfl fun j _ => by ring
  rw [e1, e2]
  field_simp
  ring

theorem dotv_heat (h : Source N d) (psi : Vec d) (u : Fin N → ℝ) :
    dotv psi (heat h u) =
      dotv psi (h.dc.load u) / h.dc.vol.val u + dotv psi (h.ac.load u) / h.ac.vol.val u + dotv psi (h.core u) := by
  simp only [dotv, heat, mul_add, sum_add_distrib, sum_div, mul_div_assoc]

/-- The reverse mesh derivative with the right volumes stored. -/
theorem meshVjp_ok (h : Source N d) (s : St N) (i : In N) (u v : Fin N → ℝ) (psi : Vec d) (bar : Fin N → ℝ)
    (hok : PartsOK h u) (hi : i.coords = none ∨ i.coords = some u) (hw : i.windingVolume = none)
    (hu : s.u = u) (hd : s.vDc = h.dc.vol.val u) (ha : s.vAc = h.ac.vol.val u) :
    ∃ g, DirDeriv (fun u => dotv psi (heat h u)) u v g ∧
      ∑ j, (meshVjp h s i psi bar).2 j * v j = ∑ j, bar j * v j + g := by
  have hc : i.coords.getD s.u = u := by rcases hi with hi | hi <;> simp [hi, hu]
  obtain ⟨g1, d1, e1⟩ := dist_deriv h.dc u v psi bar (hok.dc psi v) hok.dcVol hok.dcPos
  obtain ⟨g2, d2, e2⟩ := dist_deriv h.ac u v psi (distVjp h.dc u (h.dc.vol.val u) psi bar) (hok.ac psi v)
    hok.acVol hok.acPos
  refine ⟨g1 + g2 + ∑ j, h.coreGrad psi u j * v j, ?_, ?_⟩
  · exact ((HasDerivAt.fun_add d1 d2).fun_add (hok.core psi v)).congr_of_eventuallyEq
      (Filter.Eventually.of_forall fun t => dotv_heat h psi (u + t • v))
  · simp only [meshVjp, setInputs, hc, hw, Option.getD_none, hd, ha, add_mul, sum_add_distrib]
    rw [e2, e1]
    ring

/-- **C202 (partial)** If the last `calcOutput` was made on the mesh `u` and no call since then has moved the
mesh or set the winding volume, the reverse mesh derivative adds the gradient of the heat source to the
vector, for every seed and in every direction, after any history.  Missing: meshes on which the output
has not been evaluated (`C202_stale_false`). -/
theorem C202_mesh_partial (h : Source N d) (s : St N) (before after : List (Op N d)) (u v : Fin N → ℝ) (psi : Vec d)
    (bar : Fin N → ℝ) (i : In N) (hok : PartsOK h u) (hk : ∀ op ∈ after, op.Keeps u)
    (hi : i.coords = none ∨ i.coords = some u) (hw : i.windingVolume = none) :
    ∃ g, DirDeriv (fun u => dotv psi (heat h u)) u v g ∧
      ∑ j, (meshVjp h (run h s (before ++ .calc { coords := some u } :: after)) i psi bar).2 j * v j =
        ∑ j, bar j * v j + g := by
  have hr : run h s (before ++ .calc { coords := some u } :: after) =
      run h (step h (run h s before) (.calc { coords := some u })) after := by
    simp [run, List.foldl_append]
  rw [hr]
  obtain ⟨h1, h2, h3⟩ := run_keeps h u after hk (step h (run h s before) (.calc { coords := some u }))
    (by simp [step, calcOutput, setInputs]) (by simp [step, calcOutput, calcDist, setInputs])
    (by simp [step, calcOutput, calcDist, setInputs])
  exact meshVjp_ok h _ i u v psi bar hok hi hw h1 h2 h3

/-- **C202** The derivative with respect to the winding volume itself: with the volume `v ≠ 0` among the
inputs, the scalar reverse call adds the derivative of the seeded output by `v`, after any history. -/
theorem C202_volume (h : Source N d) (s : St N) (ops : List (Op N d)) (u : Fin N → ℝ) (v : ℝ) (hv : v ≠ 0) (psi : Vec d)
    (bar : ℝ) :
    ∃ g, HasDerivAt (fun w => dotv psi (calcOutput h (run h s ops) { coords := some u, windingVolume := some w }).2) g v ∧
      (volumeVjp h (run h s ops) { coords := some u, windingVolume := some v } psi bar).2 = bar + g := by
  have e : ∀ w, dotv psi (calcOutput h (run h s ops) { coords := some u, windingVolume := some w }).2 =
      (dotv psi (h.dc.load u) + dotv psi (h.ac.load u)) / w + dotv psi (h.core u) := fun w => by
    simp only [dotv, calcOutput, calcDist, setInputs, Option.getD_some, mul_add, sum_add_distrib, add_div, sum_div,
      mul_div_assoc]
  refine ⟨_, (((hasDerivAt_const v (dotv psi (h.dc.load u) + dotv psi (h.ac.load u))).fun_div (hasDerivAt_id' v) hv).add_const
    (dotv psi (h.core u))).congr_of_eventuallyEq (Filter.Eventually.of_forall e), ?_⟩
  simp only [volumeVjp, setInputs, Option.getD_some]
  field_simp
  ring

/-! ### What fails -/

/-- A winding whose only mesh coordinate is its volume, carrying a unit loss: the heat source is `1 / u`. -/
noncomputable def oneWinding : Source 1 1 where
  dc := { load := fun _ _ => 1, grad := fun _ _ _ => 0, vol := ⟨fun u => u 0, fun _ v => v 0, fun _ _ => 1⟩ }
  ac := { load := fun _ _ => 0, grad := fun _ _ _ => 0, vol := ⟨fun u => u 0, fun _ v => v 0, fun _ _ => 1⟩ }
  core := fun _ _ => 0
  coreGrad := fun _ _ _ => 0

/-- The hypotheses of `C202_mesh_partial` are met by it on every mesh of positive volume. -/
theorem oneWinding_ok (u : Fin 1 → ℝ) (hu : 0 < u 0) : PartsOK oneWinding u := by
  have hvol : (⟨fun u => u 0, fun _ v => v 0, fun _ _ => 1⟩ : Func 1).Correct u := by
    refine ⟨fun v => ?_, fun v => by simp⟩
    have h := ((hasDerivAt_id' (0 : ℝ)).mul_const (v 0)).const_add (u 0)
    simpa [DirDeriv] using h
  refine ⟨fun psi v => ?_, fun psi v => ?_, fun psi v => ?_, hvol, hvol, hu.ne', hu.ne'⟩ <;>
    simpa [DirDeriv, oneWinding] using hasDerivAt_const (0 : ℝ) _

theorem oneWinding_heat (u : Fin 1 → ℝ) : heat oneWinding u 0 = 1 / u 0 := by
  simp [heat, oneWinding]

/-- A new solver: winding volumes one (electromag_integ.hpp:1868, 2479). -/
def fresh (u : Fin N → ℝ) : St N := { u := u, vDc := 1, vAc := 1 }

/-- **C202 (false in general)** The reverse mesh derivative on a mesh given only to the derivative call is
wrong: the heat source is evaluated on the mesh `1`, then its derivative is asked for on the mesh `2`, with
the mesh among the inputs of the call.  The answer is `-1`; the derivative of `1 / u` at `2` is `-1/4`. -/
theorem C202_stale_false :
    (meshVjp oneWinding (run oneWinding (fresh fun _ => 1) [.calc { coords := some fun _ => 1 }])
      { coords := some fun _ => 2 } (fun _ => 1) 0).2 0 = -1 ∧
    DirDeriv (fun u => dotv (fun _ => 1) (heat oneWinding u)) (fun _ => 2) (fun _ => 1) (-1 / 4) := by
  constructor
  · simp [meshVjp, run, step, calcOutput, calcDist, setInputs, distVjp, Func.vjp, oneWinding, dotv]
  · have h := (hasDerivAt_const (0 : ℝ) (1 : ℝ)).fun_div ((hasDerivAt_id' (0 : ℝ)).const_add 2) (by norm_num)
    have e : ∀ t : ℝ, dotv (fun _ => 1) (heat oneWinding ((fun _ => 2) + t • fun _ => 1)) = 1 / (2 + t) := fun t => by
      simp [dotv, oneWinding_heat]
    refine HasDerivAt.congr_of_eventuallyEq (h.congr_deriv (by norm_num)) (Filter.Eventually.of_forall e)

/-- **C202 (false in general)** With the winding volume given by the user the output does not move with the
mesh, but the reverse mesh derivative still contains the part through the volume. -/
theorem C202_override_false :
    (∀ u : Fin 1 → ℝ, (calcOutput oneWinding (fresh fun _ => 1) { coords := some u, windingVolume := some 1 }).2 0 = 1) ∧
    (meshVjp oneWinding (run oneWinding (fresh fun _ => 1) [.calc { coords := some fun _ => 2, windingVolume := some 1 }])
      { coords := some fun _ => 2, windingVolume := some 1 } (fun _ => 1) 0).2 0 = -1 := by
  constructor
  · intro u
    simp [calcOutput, calcDist, setInputs, oneWinding]
  · simp [meshVjp, run, step, calcOutput, calcDist, setInputs, distVjp, Func.vjp, oneWinding, dotv]

/-- **C202 (false in general)** The forward mesh derivative of the heat source adds nothing, on any mesh and
in any direction, without an error, though the output moves: forward and reverse modes disagree. -/
theorem C202_forward_false :
    (∀ (s : St 1) (i : In 1) (dot : Fin 1 → ℝ) (out : Vec 1), (meshJvp s i dot out).2 = out) ∧
    (meshVjp oneWinding (run oneWinding (fresh fun _ => 1) [.calc { coords := some fun _ => 2 }])
      { coords := some fun _ => 2 } (fun _ => 1) 0).2 0 = -1 / 4 := by
  constructor
  · intro s i dot out; rfl
  · simp [meshVjp, run, step, calcOutput, calcDist, setInputs, distVjp, Func.vjp, oneWinding, dotv]
    norm_num

/-- The hypotheses of `C202_mesh_partial` on a session with several meshes and calls in between. -/
example : ∃ g, DirDeriv (fun u => dotv (fun _ => 3) (heat oneWinding u)) (fun _ => 2) (fun _ => 1) g ∧
    ∑ j, (meshVjp oneWinding (run oneWinding (fresh fun _ => 1)
      ([.calc { coords := some fun _ => 1 }, .inputs { windingVolume := some 7 }] ++
        .calc { coords := some fun _ => 2 } :: [.vjp {} fun _ => 1, .jvp { coords := some fun _ => 2 } fun _ => 5]))
      { coords := some fun _ => 2 } (fun _ => 3) 0).2 j * (fun _ => (1 : ℝ)) j = ∑ j : Fin 1, (0 : ℝ) * (fun _ => (1 : ℝ)) j + g :=
  C202_mesh_partial oneWinding _ _ _ (fun _ => 2) (fun _ => 1) (fun _ => 3) 0 _ (oneWinding_ok _ (by norm_num))
    (by
      intro op hop
      rcases List.mem_cons.1 hop with rfl | hop
      · exact ⟨rfl, Or.inl rfl⟩
      · rcases List.mem_cons.1 hop with rfl | hop
        · exact ⟨rfl, Or.inr rfl⟩
        · simp at hop)
    (Or.inr rfl) rfl

end Verif.HeatSession
