import Mathlib.Tactic.FieldSimp
import Verif.FlowMass
import Verif.FlowReportProps
import Verif.UnsteadyProps

/-! # The mass matrix of the flow solver: property theorems (C230) -/

namespace Verif.FlowMass

open Verif.NLForm Matrix Finset Verif.FlowSetup Verif.Inviscid

variable {n : ℕ}

/-! ### Specification -/

/-- The lumped mass of dof `r`: the weights of all element nodes that carry it (volume weight, or the weight of a local pseudo-time
step). -/
noncomputable def lumped (S : Space n) (vary : Bool) (J : Mesh) (r : Fin n) : ℝ :=
  ∑ e ∈ range S.ne, ∑ k ∈ range S.ns, ∑ i ∈ range S.nn,
    if S.vdof e (i + k * S.nn) = r then (if vary then S.wt i * J e i / J e i ^ ((1 : ℝ) / S.dim) else S.wt i * J e i) else 0

/-- Bases whose mass form is the diagonal one. -/
def Sbp (name : String) : Prop := (∃ t, name.toList = 'S' :: 'B' :: 'P' :: t) ∨ ∃ t, name.toList = 'D' :: 'S' :: 'B' :: 'P' :: t

/-- The last mesh passed in, if any. -/
def lastMesh (J : Mesh) (h : List Cmd) : Mesh :=
  h.foldl (fun j c => match c with | .meshCoords J => J | .getMass => j) J

/-- Every node counts positively and every dof is used. -/
def Proper (S : Space n) (J : Mesh) : Prop :=
  (∀ i < S.nn, 0 < S.wt i) ∧ (∀ e < S.ne, ∀ i < S.nn, 0 < J e i) ∧
    ∀ r, ∃ e < S.ne, ∃ k < S.ns, ∃ i < S.nn, S.vdof e (i + k * S.nn) = r

/-! ### Auxiliary facts -/

theorem sbp_iff (name : String) : (hasPrefix "SBP" name || hasPrefix "DSBP" name) = true ↔ Sbp name := by
  unfold hasPrefix Sbp
  generalize name.toList = l
  have h1 : "SBP".toList = ['S', 'B', 'P'] := by decide
  have h2 : "DSBP".toList = ['D', 'S', 'B', 'P'] := by decide
  rw [h1, h2, Bool.or_eq_true, beq_iff_eq, beq_iff_eq]
  refine or_congr ?_ ?_
  · constructor
    · intro h
      exact ⟨l.drop 3, by rw [← List.take_append_drop 3 l]; simp only [List.length_cons, List.length_nil] at h; rw [h]; simp⟩
    · rintro ⟨t, rfl⟩; simp
  · constructor
    · intro h
      exact ⟨l.drop 4, by rw [← List.take_append_drop 4 l]; simp only [List.length_cons, List.length_nil] at h; rw [h]; simp⟩
    · rintro ⟨t, rfl⟩; simp

theorem nodeMass_pos {dim : ℕ} {vary : Bool} {wt J : ℕ → ℝ} {i : ℕ} (h1 : 0 < wt i) (h2 : 0 < J i) : 0 < nodeMass dim vary wt J i := by
  unfold nodeMass
  split_ifs
  · exact div_pos (mul_pos h1 h2) (Real.rpow_pos_of_pos h2 _)
  · exact mul_pos h1 h2

theorem lumped_nodeMass (S : Space n) (vary : Bool) (J : Mesh) (r : Fin n) : lumped S vary J r =
    ∑ e ∈ range S.ne, ∑ k ∈ range S.ns, ∑ i ∈ range S.nn,
      if S.vdof e (i + k * S.nn) = r then nodeMass S.dim vary S.wt (J e) i else 0 := rfl

/-- **C230** What the mass matrix is: for an SBP basis the diagonal matrix of the lumped masses of the mesh it is assembled on — no
coupling between dofs. -/
theorem C230_assembled (S : Space n) (sc : Mesh → Mat n) (vary : Bool) (J : Mesh) :
    assemble S sc (.diag vary) J = .ok (Matrix.diagonal (lumped S vary J)) := by
  unfold assemble
  simp only
  congr 1
  ext r c
  rw [Matrix.of_apply, Matrix.diagonal_apply, lumped_nodeMass]
  have key : ∀ e, ∑ i ∈ range (S.nn * S.ns), ∑ j ∈ range (S.nn * S.ns),
      (if S.vdof e i = r ∧ S.vdof e j = c then diagMass S.dim S.ns S.nn vary S.wt (J e) i j else 0) =
      if r = c then ∑ k ∈ range S.ns, ∑ i ∈ range S.nn,
        (if S.vdof e (i + k * S.nn) = r then nodeMass S.dim vary S.wt (J e) i else 0) else 0 := by
    intro e
    have h1 : ∀ i ∈ range (S.nn * S.ns), ∑ j ∈ range (S.nn * S.ns),
        (if S.vdof e i = r ∧ S.vdof e j = c then diagMass S.dim S.ns S.nn vary S.wt (J e) i j else 0) =
        if S.vdof e i = r ∧ r = c then nodeMass S.dim vary S.wt (J e) (i % S.nn) else 0 := by
      intro i hi
      rw [sum_eq_single i]
      · rw [diagMass_eq, if_pos (show i = i ∧ i < S.nn * S.ns from ⟨rfl, mem_range.1 hi⟩)]
        refine if_congr ⟨?_, ?_⟩ rfl rfl
        · rintro ⟨a, b⟩; exact ⟨a, a.symm.trans b⟩
        · rintro ⟨a, b⟩; exact ⟨a, a.trans b⟩
      · intro j _ hj
        rw [diagMass_eq, if_neg (show ¬(i = j ∧ i < S.nn * S.ns) from fun h => hj h.1.symm), ite_self]
      · intro h; exact absurd hi h
    rw [sum_congr rfl h1, Nat.mul_comm, sum_flat]
    by_cases hrc : r = c
    · rw [if_pos hrc]
      refine sum_congr rfl fun k _ => sum_congr rfl fun i hi => ?_
      rw [flat_mod (mem_range.1 hi), Nat.add_comm (k * S.nn) i]
      exact if_congr (and_iff_left hrc) rfl rfl
    · rw [if_neg hrc]
      exact sum_eq_zero fun k _ => sum_eq_zero fun i _ => if_neg fun h => hrc h.2
  rw [sum_congr rfl fun e _ => key e]
  split_ifs with h
  · rfl
  · exact sum_const_zero

theorem lumped_pos (S : Space n) (vary : Bool) (J : Mesh) (h : Proper S J) (r : Fin n) : 0 < lumped S vary J r := by
  obtain ⟨h1, h2, h3⟩ := h
  have hp : ∀ e ∈ range S.ne, ∀ k ∈ range S.ns, ∀ i ∈ range S.nn,
      0 ≤ if S.vdof e (i + k * S.nn) = r then nodeMass S.dim vary S.wt (J e) i else 0 := by
    intro e he k _ i hi
    split_ifs
    · exact (nodeMass_pos (h1 i (mem_range.1 hi)) (h2 e (mem_range.1 he) i (mem_range.1 hi))).le
    · exact le_rfl
  rw [lumped_nodeMass]
  obtain ⟨e, he, k, hk, i, hi, hr⟩ := h3 r
  refine sum_pos' (fun e he => sum_nonneg fun k hk => sum_nonneg (hp e he k hk)) ⟨e, mem_range.2 he, ?_⟩
  refine sum_pos' (fun k hk => sum_nonneg (hp e (mem_range.2 he) k hk)) ⟨k, mem_range.2 hk, ?_⟩
  refine sum_pos' (hp e (mem_range.2 he) k (mem_range.2 hk)) ⟨i, mem_range.2 hi, ?_⟩
  rw [if_pos hr]
  exact nodeMass_pos (h1 i hi) (h2 e he i hi)

/-- **C230** Positive definite on uninverted meshes; and (unsteady weighting) the masses of all dofs add up to the number of states times
the volume of the mesh. -/
theorem C230_positive_and_volume (S : Space n) (J : Mesh) : (∀ vary, Proper S J → ∀ v : Vec n, v ≠ 0 →
      0 < v ⬝ᵥ (Matrix.diagonal (lumped S vary J) *ᵥ v)) ∧
    ∑ r, lumped S false J r = S.ns * ∑ e ∈ range S.ne, ∑ i ∈ range S.nn, S.wt i * J e i := by
  refine ⟨fun vary h v hv => ?_, ?_⟩
  · obtain ⟨r, hr⟩ := Function.ne_iff.1 hv
    unfold dotProduct
    have e : ∀ i, v i * (Matrix.diagonal (lumped S vary J) *ᵥ v) i = lumped S vary J i * (v i * v i) := fun i => by
      rw [Matrix.mulVec_diagonal]; ring
    simp only [e]
    exact sum_pos' (fun i _ => mul_nonneg (lumped_pos S vary J h i).le (mul_self_nonneg _))
      ⟨r, mem_univ r, mul_pos (lumped_pos S vary J h r) (mul_self_pos.2 hr)⟩
  unfold lumped
  rw [sum_comm, mul_sum]
  refine sum_congr rfl fun e _ => ?_
  rw [sum_comm]
  have : ∀ k ∈ range S.ns, ∑ r : Fin n, ∑ i ∈ range S.nn, (if S.vdof e (i + k * S.nn) = r then
      (if false = true then S.wt i * J e i / J e i ^ ((1 : ℝ) / S.dim) else S.wt i * J e i) else 0) =
      ∑ i ∈ range S.nn, S.wt i * J e i := by
    intro k _
    rw [sum_comm]
    refine sum_congr rfl fun i _ => ?_
    rw [sum_ite_eq univ (S.vdof e (i + k * S.nn))]
    simp
  rw [sum_congr rfl this, sum_const, card_range, nsmul_eq_mul]

/-- **C230** Which configurations give a mass matrix at all (two or more states, as every flow problem has): the solver is set up exactly
if the basis is an SBP one and `time-dis.steady` is a boolean; a missing or non-boolean entry is a type error, and any other basis makes
the assembly read element matrices out of bounds. -/
theorem C230_construct (S : Space n) (sc : Mesh → Mat n) (name : String) (steady : Js) (J : Mesh) (hs : 2 ≤ S.ns) :
    (∀ b, Sbp name → steady = .bool b → construct S sc name steady J =
      .ok ⟨J, ⟨.diag b, some (Matrix.diagonal (lumped S b J))⟩, Matrix.diagonal (lumped S b J)⟩) ∧
    (Sbp name → steady = .other → construct S sc name steady J = .error .jsonType) ∧
    (¬Sbp name → construct S sc name steady J = .error .outOfBounds) := by
  refine ⟨?_, ?_, ?_⟩
  · rintro b h rfl
    unfold construct massForm getMassMatrix
    simp only [(sbp_iff name).2 h, if_true, bind, Except.bind, pure, Except.pure, C230_assembled]
  · rintro h rfl
    unfold construct massForm
    simp only [(sbp_iff name).2 h, if_true, bind, Except.bind]
  · intro h
    have h' : ¬(hasPrefix "SBP" name || hasPrefix "DSBP" name) = true := fun e => h ((sbp_iff name).1 e)
    unfold construct massForm getMassMatrix assemble
    simp only [if_neg h', bind, Except.bind, if_neg (show ¬S.ns ≤ 1 by omega)]

/-- **C230** Whatever mesh coordinates are passed in after construction, and however often the mass matrix is requested: the residual's
matrix and the one the time-marching residual uses stay the matrix of the mesh at construction, while the spatial residual sees the last
mesh passed in. -/
theorem C230_cached (S : Space n) (sc : Mesh → Mat n) (name : String) (b : Bool) (J0 : Mesh) (hs : 2 ≤ S.ns) (hn : Sbp name)
    (h : List Cmd) : ∃ s0 s, construct S sc name (.bool b) J0 = .ok s0 ∧ run S sc s0 h = .ok s ∧
      s.tdMass = Matrix.diagonal (lumped S b J0) ∧ s.res.massMat = some s.tdMass ∧ s.mesh = lastMesh J0 h := by
  have key : ∀ (h : List Cmd) (J1 : Mesh), run S sc ⟨J1, ⟨.diag b, some (Matrix.diagonal (lumped S b J0))⟩,
      Matrix.diagonal (lumped S b J0)⟩ h = .ok ⟨lastMesh J1 h, ⟨.diag b, some (Matrix.diagonal (lumped S b J0))⟩,
      Matrix.diagonal (lumped S b J0)⟩ := by
    intro h
    induction h with
    | nil => intro J1; rfl
    | cons c cs ih =>
      intro J1
      cases c with
      | meshCoords J => exact ih J
      | getMass => exact ih J1
  exact ⟨_, _, (C230_construct S sc name (.bool b) J0 hs).1 b hn rfl, key h J0, rfl, rfl, rfl⟩

theorem det_unit (S : Space n) (vary : Bool) (J : Mesh) (h : Proper S J) :
    IsUnit (Matrix.det (Matrix.diagonal (lumped S vary J))) := by
  rw [Matrix.det_diagonal, isUnit_iff_ne_zero]
  exact Finset.prod_ne_zero_iff.2 fun r _ => (lumped_pos S vary J h r).ne'

/-- **C230** (partial: the claim that the mass matrix is that of the current mesh fails once the mesh moves, see
`C230_follows_mesh_false`.)  If the last mesh passed in is the one the solver was built on, an explicit stage of an unsteady problem gives
the slope of the semi-discrete equations on that mesh: every dof's lumped mass times its slope is minus its residual. -/
theorem C230_unmoved_partial (S : Space n) (sc : Mesh → Mat n) (name : String) (b : Bool) (J0 : Mesh) (hs : 2 ≤ S.ns) (hn : Sbp name)
    (hJ : Proper S J0) (h : List Cmd) (hm : lastMesh J0 h = J0) (R : Mesh → Vec n → Vec n) (DR : Mesh → Vec n → Mat n)
    (N : Unsteady.NSolver n) (hN : Unsteady.Direct N) (x k0 : Vec n) :
    ∃ s0 s, construct S sc name (.bool b) J0 = .ok s0 ∧ run S sc s0 h = .ok s ∧
      ∀ r, lumped S b s.mesh r * (Unsteady.slope N (dyn R DR s) 0 x k0).mem Unsteady.bK r = -R s.mesh x r := by
  obtain ⟨s0, s, e1, e2, e3, _, e5⟩ := C230_cached S sc name b J0 hs hn h
  refine ⟨s0, s, e1, e2, fun r => ?_⟩
  have hu : IsUnit (Matrix.det (dyn R DR s).M) := by
    show IsUnit (Matrix.det s.tdMass)
    rw [e3]; exact det_unit S b J0 hJ
  have := (Unsteady.C177_explicit N hN (dyn R DR s) hu x k0).2
  have h2 := congrFun this r
  have h3 : (dyn R DR s).M = Matrix.diagonal (lumped S b J0) := e3
  rw [h3, Matrix.mulVec_diagonal] at h2
  rw [e5, hm, h2]
  show -(R s.mesh x r) = _
  rw [e5, hm]

/-- **C230** The size of the error: if an unsteady problem's mesh is moved to one whose volumes are `c` times those at construction, every
explicit slope is `c` times the slope of the semi-discrete equations on the mesh in use. -/
theorem C230_stale_factor (S : Space n) (sc : Mesh → Mat n) (name : String) (J0 J1 : Mesh) (c : ℝ) (hc : 0 < c) (hs : 2 ≤ S.ns)
    (hn : Sbp name) (hJ : Proper S J0) (hJ1 : ∀ e i, J1 e i = c * J0 e i) (R : Mesh → Vec n → Vec n) (DR : Mesh → Vec n → Mat n)
    (N : Unsteady.NSolver n) (hN : Unsteady.Direct N) (x k0 : Vec n) :
    ∃ s0 s, construct S sc name (.bool false) J0 = .ok s0 ∧ run S sc s0 [.meshCoords J1] = .ok s ∧ s.mesh = J1 ∧
      ∀ r, (Unsteady.slope N (dyn R DR s) 0 x k0).mem Unsteady.bK r = c * (-R J1 x r / lumped S false J1 r) := by
  obtain ⟨s0, s, e1, e2, e3, _, e5⟩ := C230_cached S sc name false J0 hs hn [.meshCoords J1]
  have e5' : s.mesh = J1 := e5
  refine ⟨s0, s, e1, e2, e5', fun r => ?_⟩
  have hu : IsUnit (Matrix.det (dyn R DR s).M) := by
    show IsUnit (Matrix.det s.tdMass)
    rw [e3]; exact det_unit S false J0 hJ
  have := (Unsteady.C177_explicit N hN (dyn R DR s) hu x k0).2
  have h2 := congrFun this r
  have h3 : (dyn R DR s).M = Matrix.diagonal (lumped S false J0) := e3
  rw [h3, Matrix.mulVec_diagonal] at h2
  have h4 : lumped S false J1 r = c * lumped S false J0 r := by
    unfold lumped
    simp only [mul_sum]
    refine sum_congr rfl fun e _ => sum_congr rfl fun k _ => sum_congr rfl fun i _ => ?_
    rw [hJ1]
    by_cases hv : S.vdof e (i + k * S.nn) = r
    · rw [if_pos hv, if_pos hv, if_neg Bool.false_ne_true, if_neg Bool.false_ne_true]; ring
    · rw [if_neg hv, if_neg hv, mul_zero]
  have hp := lumped_pos S false J0 hJ r
  have h5 : (-(dyn R DR s).R x) r = -R J1 x r := by show -(R s.mesh x r) = _; rw [e5']
  rw [h5] at h2
  rw [h4, ← h2]
  field_simp

/-- **C230** Steady problems do not suffer: whatever was done before, a state is a rest point of the implicit pseudo-time equation
(slope zero) exactly if the spatial residual on the current mesh vanishes there. -/
theorem C230_steady_unaffected (R : Mesh → Vec n → Vec n) (DR : Mesh → Vec n → Mat n) (s : Solver n) (dt : ℝ) (x : Vec n) :
    Unsteady.T (dyn R DR s) dt x 0 = 0 ↔ R s.mesh x = 0 := by
  unfold Unsteady.T
  rw [Matrix.mulVec_zero, smul_zero, add_zero, zero_add]
  exact Iff.rfl

/-! ### Non-vacuity and the counterexample -/

/-- One element with one node and two states. -/
noncomputable def tiny : Space 2 := ⟨1, 1, 2, 2, fun _ => 1, fun _ i => if i = 0 then 0 else 1⟩

theorem tiny_proper (c : ℝ) (hc : 0 < c) : Proper tiny (fun _ _ => c) := by
  refine ⟨fun _ _ => one_pos, fun _ _ _ _ => hc, fun r => ⟨0, one_pos, ?_⟩⟩
  fin_cases r
  · exact ⟨0, by decide, 0, one_pos, rfl⟩
  · exact ⟨1, by decide, 0, one_pos, rfl⟩

theorem dsbp : Sbp "DSBP_2D_P1" := (sbp_iff _).1 (by decide)

example : ¬Sbp "H1_2D_P1" := fun h => absurd ((sbp_iff _).2 h) (by decide)

theorem tiny_lumped (c : ℝ) (r : Fin 2) : lumped tiny false (fun _ _ => c) r = c := by
  fin_cases r <;> simp [lumped, tiny, sum_range_succ]

/-- A direct solver. -/
noncomputable def direct : Unsteady.NSolver n := ⟨.newton, 0, 0, 1, fun A r => A⁻¹ *ᵥ r, true⟩

theorem direct_ok : Unsteady.Direct (direct : Unsteady.NSolver n) :=
  ⟨rfl, fun A r hA => by show A *ᵥ (A⁻¹ *ᵥ r) = r; rw [Matrix.mulVec_mulVec, Matrix.mul_nonsing_inv A hA, Matrix.one_mulVec], le_rfl, one_pos,
    le_rfl, le_rfl⟩

/-- **C230** The full claim is false: "after new mesh coordinates are passed in, an explicit stage gives the slope of the semi-discrete
equations on the mesh in use" fails — a one-element mesh whose volume is doubled, residual 1. -/
theorem C230_follows_mesh_false : ¬∀ (S : Space 2) (sc : Mesh → Mat 2) (name : String) (J0 J1 : Mesh) (s0 s : Solver 2)
    (R : Mesh → Vec 2 → Vec 2) (DR : Mesh → Vec 2 → Mat 2) (N : Unsteady.NSolver 2) (x k0 : Vec 2), 2 ≤ S.ns → Sbp name → Proper S J0 →
    Proper S J1 → Unsteady.Direct N → construct S sc name (.bool false) J0 = .ok s0 → run S sc s0 [.meshCoords J1] = .ok s →
    ∀ r, lumped S false J1 r * (Unsteady.slope N (dyn R DR s) 0 x k0).mem Unsteady.bK r = -R J1 x r := by
  intro h
  obtain ⟨s0, s, e1, e2, e3, e4⟩ := C230_stale_factor tiny (fun _ => 0) "DSBP_2D_P1" (fun _ _ => 1) (fun _ _ => 2) 2 two_pos le_rfl dsbp
    (tiny_proper 1 one_pos) (fun _ _ => by norm_num) (fun _ _ _ => 1) (fun _ _ => 0) direct direct_ok 0 0
  have := h tiny (fun _ => 0) "DSBP_2D_P1" (fun _ _ => 1) (fun _ _ => 2) s0 s (fun _ _ _ => 1) (fun _ _ => 0) direct 0 0 le_rfl dsbp
    (tiny_proper 1 one_pos) (tiny_proper 2 two_pos) direct_ok e1 e2 0
  rw [e4 0, tiny_lumped] at this
  norm_num at this

example : lastMesh (fun _ _ => 1) [.meshCoords (fun _ _ => 2), .getMass, .meshCoords (fun _ _ => 1)] = fun _ _ => 1 := rfl

end Verif.FlowMass
