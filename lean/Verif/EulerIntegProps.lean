import Verif.EulerInteg
import Verif.InviscidStabProps
import Verif.EulerStabilityProps
import Mathlib.Algebra.Order.BigOperators.Group.Finset

/-!
Properties C97-C101: entropy balance of the Euler discretisation, from the integrators to the whole
mesh, in conservative and in entropy variables.
-/

namespace Verif.EulerInteg
open Finset Verif.EulerFluxes Verif.Sbp Verif.Inviscid

set_option linter.unusedSectionVars false

variable {d : ℕ}

/-! ### Specification -/

/-- A working state the user may supply: positive density and pressure, or, in entropy variables,
negative last component (the range of the entropy variables). -/
def Physical (d : ℕ) (entvar : Bool) (v : ℕ → ℝ) : Prop :=
  if entvar then (toState d v).ener < 0 else Admissible (toState d v)

/-- The conservative state a working vector stands for. -/
noncomputable def consAt (d : ℕ) (entvar : Bool) (v : ℕ → ℝ) : State d :=
  consOf entvar (toState d v)

/-- The outward area vector the operator and mapping attribute to node `i`:
`N_i = Σ_k Σ_j (Q_k + Q_kᵀ)(i,j) adj_j(k,·)`. -/
def areaVec (d : ℕ) (e : Elem ℝ) (adj : ℕ → ℕ → ℕ → ℝ) (i : ℕ) : Fin d → ℝ := fun di =>
  ∑ k ∈ range e.dim, ∑ j ∈ range e.dof, (Qm e k i j + Qm e k j i) * adj j k di

/-- Constants are differentiated exactly and the mapping satisfies the discrete metric identities. -/
def MetricIdentities (e : Elem ℝ) (adj : ℕ → ℕ → ℕ → ℝ) : Prop :=
  (∀ k < e.dim, ∀ i < e.dof, ∑ j ∈ range e.dof, Qm e k i j = 0) ∧
  ∀ di < e.dim, ∀ i < e.dof,
    ∑ k ∈ range e.dim, ∑ j ∈ range e.dof, Qm e k i j * adj j k di = 0

/-! ### Views of a state vector -/

theorem toState_ofState (s : State d) : toState d (ofState s) = s := by
  unfold toState ofState
  ext i
  · simp
  · simp
  · simp

theorem ofState_toState (v : ℕ → ℝ) (n : ℕ) (hn : n < d + 2) : ofState (toState d v) n = v n := by
  unfold ofState toState
  by_cases h0 : n = 0
  · simp [h0]
  · rw [if_neg h0]
    split_ifs with h
    · simp only; congr 1; omega
    · simp only; congr 1; omega

theorem sum_ofState (a : State d) (f : ℕ → ℝ) :
    ∑ n ∈ range (d + 2), ofState a n * f n = inner2 a (toState d f) := by
  rw [sum_range_succ, sum_range_succ', sum_range]
  unfold inner2 toState ofState
  simp only [Nat.add_sub_cancel, Nat.add_eq_zero_iff, one_ne_zero, and_false, if_false, if_true,
    Fin.is_lt, dif_pos, lt_irrefl, dif_neg, not_false_eq_true, Fin.eta]
  ring

theorem vdot_eq (ns : ℕ) (a b : ℕ → ℝ) : vdot ns a b = ∑ n ∈ range ns, a n * b n := by
  rw [vdot, forN_sum, zero_add]

theorem vdot_ofState (a b : State d) : vdot (d + 2) (ofState a) (ofState b) = inner2 a b := by
  rw [vdot_eq, sum_ofState, toState_ofState]

theorem Physical.adm {entvar : Bool} {v : ℕ → ℝ} (h : Physical d entvar v) :
    Admissible (consAt d entvar v) := by
  cases entvar
  · simpa [Physical, consAt, consOf] using h
  · have h' : (toState d v).ener < 0 := by simpa [Physical] using h
    simpa [consAt, consOf] using C53_cons_admissible _ h'

theorem Physical.w {entvar : Bool} {v : ℕ → ℝ} (h : Physical d entvar v) :
    entVarsOf entvar (toState d v) = calcEntropyVars (consAt d entvar v) := by
  cases entvar
  · simp [entVarsOf, consAt, consOf]
  · have h' : (toState d v).ener < 0 := by simpa [Physical] using h
    simp [entVarsOf, consAt, consOf, C53_roundtrip_ent _ h']

theorem Physical.ir {entvar : Bool} {a b : ℕ → ℝ} (ha : Physical d entvar a)
    (hb : Physical d entvar b) (di : ℕ) (h : di < d) :
    irFlux d entvar di a b =
      ofState (calcIsmailRoeFlux ⟨di, h⟩ (consAt d entvar a) (consAt d entvar b)) := by
  rw [irFlux, dif_pos h]
  cases entvar
  · simp [consAt, consOf]
  · have hw := C54_entvars_coord ⟨di, h⟩ _ _ ha.adm hb.adm
    rw [← ha.w, ← hb.w] at hw
    simp only [entVarsOf, if_true] at hw
    simp [hw]

/-- The entropy-variable encoding and the conservative encoding of one state. -/
theorem consAt_entvars (q : State d) (h : Admissible q) :
    Physical d true (ofState (calcEntropyVars q)) ∧ Physical d false (ofState q) ∧
      consAt d true (ofState (calcEntropyVars q)) = q ∧ consAt d false (ofState q) = q := by
  refine ⟨?_, ?_, ?_, ?_⟩
  · simp [Physical, toState_ofState, C53_entvars_range q h]
  · simp [Physical, toState_ofState, h]
  · simp [consAt, consOf, toState_ofState, C53_roundtrip_cons q h]
  · simp [consAt, consOf, toState_ofState]

/-! ### C97: the two-point volume integrator with the Ismail-Roe flux -/

theorem entropyChange_eq (entvar : Bool) (N : ℕ) (u res : ℕ → ℝ) :
    entropyChange d entvar N u res = ∑ n ∈ range (d + 2), ∑ i ∈ range N,
      ofState (entVarsOf entvar (toState d (row u N i))) n * res (n * N + i) := by
  rw [entropyChange, forN_sum, zero_add, sum_comm]
  exact sum_congr rfl fun i _ => vdot_eq _ _ _

/-- The element's reported entropy change is the residual tested with the entropy variables of the
nodal states. -/
theorem C97_energy_is_tested_residual (entvar : Bool) (e : Elem ℝ) (alpha : ℝ)
    (adj : ℕ → ℕ → ℕ → ℝ) (u : ℕ → ℝ) (hu : ∀ i < e.dof, Physical d entvar (row u e.dof i)) :
    irEnergy d entvar e alpha adj u = ∑ i ∈ range e.dof,
      inner2 (calcEntropyVars (consAt d entvar (row u e.dof i)))
        (toState d (row (irVec d entvar e alpha adj u) e.dof i)) := by
  rw [irEnergy, entropyChange_eq, sum_comm]
  refine sum_congr rfl fun i hi => ?_
  rw [← (hu i (mem_range.1 hi)).w, ← sum_ofState]
  rfl

/-- **Element entropy balance.**  On every element with exact constants and metric identities and for
all physical states, the entropy change reported by the volume integrator is the flux of the entropy
potential through the element boundary, up to `1e-16` relative to the mass fluxes. -/
theorem C97_entropy_balance (entvar : Bool) (e : Elem ℝ) (hd : e.dim = d) (alpha : ℝ)
    (adj : ℕ → ℕ → ℕ → ℝ) (u : ℕ → ℝ) (hM : MetricIdentities e adj)
    (hu : ∀ i < e.dof, Physical d entvar (row u e.dof i)) :
    |irEnergy d entvar e alpha adj u + alpha * ∑ i ∈ range e.dof,
        psi (areaVec d e adj i) (consAt d entvar (row u e.dof i))| ≤
      1 / 10 ^ 16 * |alpha| * ∑ i ∈ range e.dof, ∑ j ∈ Ico (i + 1) e.dof, ∑ di ∈ range d,
        |skewSpec e adj di i j| *
          |irFlux d entvar di (row u e.dof i) (row u e.dof j) 0| := by
  subst hd
  have hb := C91_entropy_balance e (e.dim + 2) alpha (irFlux e.dim entvar) adj u
    (fun i n => ofState (entVarsOf entvar (toState e.dim (row u e.dof i))) n)
    (fun di i => (row u e.dof i |> fun v => if h : di < e.dim then
      (consAt e.dim entvar v).mom ⟨di, h⟩ else 0)) hM.1 hM.2
  have he : irEnergy e.dim entvar e alpha adj u = _ := entropyChange_eq entvar e.dof u _
  rw [irVec] at he
  rw [he, hb]
  have hp : ∑ di ∈ range e.dim, ∑ i ∈ range e.dof, (if h : di < e.dim then
      (consAt e.dim entvar (row u e.dof i)).mom ⟨di, h⟩ else 0) *
        ∑ k ∈ range e.dim, ∑ j ∈ range e.dof, (Qm e k i j + Qm e k j i) * adj j k di =
      ∑ i ∈ range e.dof, psi (areaVec e.dim e adj i) (consAt e.dim entvar (row u e.dof i)) := by
    rw [sum_comm]
    refine sum_congr rfl fun i _ => ?_
    rw [sum_range]
    unfold psi areaVec
    refine sum_congr rfl fun di _ => ?_
    rw [dif_pos di.2]
  simp only at hp ⊢
  rw [hp, neg_add_eq_sub, sub_add_cancel, abs_mul, mul_comm (1 / 10 ^ 16), mul_assoc]
  refine mul_le_mul_of_nonneg_left ?_ (abs_nonneg _)
  rw [mul_sum]
  refine (abs_sum_le_sum_abs _ _).trans (sum_le_sum fun i hi => ?_)
  rw [mul_sum]
  refine (abs_sum_le_sum_abs _ _).trans (sum_le_sum fun j hj => ?_)
  rw [mul_sum]
  refine (abs_sum_le_sum_abs _ _).trans (sum_le_sum fun di hdi => ?_)
  rw [mem_range] at hi hdi
  rw [mem_Ico] at hj
  rw [abs_mul, mul_left_comm]
  refine mul_le_mul_of_nonneg_left ?_ (abs_nonneg _)
  have hi' := hu i hi
  have hj' := hu j hj.2
  have hc := C55_entropy_conservative_coord ⟨di, hdi⟩ _ _ hi'.adm hj'.adm
  rw [hi'.ir hj' di hdi, dif_pos hdi, dif_pos hdi]
  have h1 : ∑ n ∈ range (e.dim + 2), (ofState (entVarsOf entvar (toState e.dim (row u e.dof i))) n -
      ofState (entVarsOf entvar (toState e.dim (row u e.dof j))) n) *
      ofState (calcIsmailRoeFlux ⟨di, hdi⟩ (consAt e.dim entvar (row u e.dof i))
        (consAt e.dim entvar (row u e.dof j))) n =
      inner2 (calcEntropyVars (consAt e.dim entvar (row u e.dof i)))
        (calcIsmailRoeFlux ⟨di, hdi⟩ (consAt e.dim entvar (row u e.dof i))
        (consAt e.dim entvar (row u e.dof j))) -
      inner2 (calcEntropyVars (consAt e.dim entvar (row u e.dof j)))
        (calcIsmailRoeFlux ⟨di, hdi⟩ (consAt e.dim entvar (row u e.dof i))
        (consAt e.dim entvar (row u e.dof j))) := by
    simp only [sub_mul, sum_sub_distrib]
    rw [sum_ofState, sum_ofState, toState_ofState, hi'.w, hj'.w]
  rw [h1]
  have h0 : ofState (calcIsmailRoeFlux ⟨di, hdi⟩ (consAt e.dim entvar (row u e.dof i))
        (consAt e.dim entvar (row u e.dof j))) 0 = (calcIsmailRoeFlux ⟨di, hdi⟩
        (consAt e.dim entvar (row u e.dof i)) (consAt e.dim entvar (row u e.dof j))).rho := by
    simp [ofState]
  rw [h0]
  refine le_trans (le_of_eq ?_) hc
  unfold production psi
  simp

/-- Mass, momentum and energy are conserved exactly by the volume term. -/
theorem C97_conservation (entvar : Bool) (e : Elem ℝ) (alpha : ℝ) (adj : ℕ → ℕ → ℕ → ℝ) (u : ℕ → ℝ)
    (n : ℕ) (hn : n < d + 2) :
    ∑ i ∈ range e.dof, irVec d entvar e alpha adj u (n * e.dof + i) = 0 :=
  C91_conservation e (d + 2) alpha _ adj u n hn

/-- The residual is the same whether the state is stored in conservative or in entropy variables. -/
theorem C97_variables_agree (e : Elem ℝ) (hd : e.dim = d) (alpha : ℝ) (adj : ℕ → ℕ → ℕ → ℝ)
    (u w : ℕ → ℝ) (hu : ∀ i < e.dof, Physical d false (row u e.dof i))
    (hw : ∀ i < e.dof, toState d (row w e.dof i) = calcEntropyVars (toState d (row u e.dof i))) :
    irVec d true e alpha adj w = irVec d false e alpha adj u := by
  subst hd
  have hphys : ∀ i < e.dof, Physical e.dim true (row w e.dof i) ∧
      consAt e.dim true (row w e.dof i) = consAt e.dim false (row u e.dof i) := by
    intro i hi
    have ha : Admissible (toState e.dim (row u e.dof i)) := by simpa [Physical] using hu i hi
    constructor
    · simp [Physical, hw i hi, C53_entvars_range _ ha]
    · simp [consAt, consOf, hw i hi, C53_roundtrip_cons _ ha]
  funext p
  rw [irVec, irVec, dyadicVec_eq, dyadicVec_eq]
  refine sum_congr rfl fun i hi => sum_congr rfl fun j hj => sum_congr rfl fun di hdi =>
    sum_congr rfl fun n _ => ?_
  rw [mem_range] at hi hdi
  rw [mem_Ico] at hj
  rw [(hphys i hi).1.ir (hphys j hj.2).1 di hdi, (hu i hi).ir (hu j hj.2) di hdi, (hphys i hi).2,
    (hphys j hj.2).2]

/-- On a uniform flow the volume residual is exactly the Euler flux through the area vectors. -/
theorem C97_freestream (entvar : Bool) (e : Elem ℝ) (hd : e.dim = d) (alpha : ℝ)
    (adj : ℕ → ℕ → ℕ → ℝ) (u q : ℕ → ℝ) (hM : MetricIdentities e adj)
    (hq : Physical d entvar q) (hu : ∀ i < e.dof, row u e.dof i = q) (a : ℕ) (ha : a < e.dof) :
    toState d (row (irVec d entvar e alpha adj u) e.dof a) =
      State.map2 (fun x _ => -alpha * x) (physFlux (areaVec d e adj a) (consAt d entvar q))
        (consAt d entvar q) := by
  subst hd
  have hr : ∀ n < e.dim + 2, irVec e.dim entvar e alpha adj u (n * e.dof + a) =
      -(alpha * ∑ di : Fin e.dim, ofState (physFlux (fun i => if i = di then 1 else 0)
        (consAt e.dim entvar q)) n * areaVec e.dim e adj a di) := by
    intro n hn
    rw [irVec, C91_uniform e (e.dim + 2) alpha _ adj u q hM.1 hM.2 hu n a hn ha, sum_range]
    congr 2
    refine sum_congr rfl fun di _ => ?_
    rw [hq.ir hq di di.2, C54_coord_consistent _ _ hq.adm]
    rfl
  have hlin : ∀ (N : Fin e.dim → ℝ) (Q : State e.dim),
      (∑ di, Q.mom di * N di) = ∑ i, Q.mom i * N i := fun _ _ => rfl
  have hun : ∀ di : Fin e.dim, (∑ i, (consAt e.dim entvar q).mom i *
      (if i = di then (1 : ℝ) else 0)) = (consAt e.dim entvar q).mom di := by
    intro di; simp
  ext i
  · show irVec e.dim entvar e alpha adj u (0 * e.dof + a) = _
    rw [hr 0 (by omega)]
    simp only [ofState, if_true, physFlux, hun, State.map2]
    rw [neg_mul, sum_div, mul_sum, mul_sum, mul_sum]
    congr 1
    refine sum_congr rfl fun di _ => ?_
    ring
  · show irVec e.dim entvar e alpha adj u ((i.val + 1) * e.dof + a) = _
    rw [hr _ (by omega)]
    simp only [ofState, physFlux, hun, State.map2, Nat.add_eq_zero_iff, one_ne_zero, and_false,
      if_false, Nat.add_sub_cancel, Fin.is_lt, dif_pos, Fin.eta]
    rw [neg_mul]
    congr 2
    simp only [add_mul, sum_add_distrib]
    congr 1
    · rw [sum_div, mul_sum]
      exact sum_congr rfl fun di _ => by ring
    · simp [mul_comm]
  · show irVec e.dim entvar e alpha adj u ((e.dim + 1) * e.dof + a) = _
    rw [hr _ (by omega)]
    simp only [ofState, physFlux, hun, State.map2, Nat.add_eq_zero_iff, one_ne_zero, and_false,
      if_false, Nat.add_sub_cancel, lt_irrefl, dif_neg, not_false_eq_true]
    rw [neg_mul, sum_div]
    congr 2
    rw [mul_sum]
    exact sum_congr rfl fun di _ => by ring

/-- The hypotheses are met: a two-node segment operator `Q = [[-1/2, 1/2], [-1/2, 1/2]]` with unit
mapping satisfies the metric identities. -/
example : MetricIdentities ⟨1, 2, fun _ => 1, fun _ j i => if j = 1 then 1 / 2 else -1 / 2,
    fun _ _ => 0, 0, fun _ _ => 0⟩ (fun _ _ _ => 1) := by
  constructor
  · intro k _ i _; simp [Qm_eq, Finset.sum_range_succ]; norm_num
  · intro di _ i _; simp [Qm_eq, Finset.sum_range_succ]; norm_num

/-- Both encodings of an admissible state are physical. -/
example : Physical 2 true (ofState (calcEntropyVars q1)) ∧ Physical 2 false (ofState q1) :=
  ⟨(consAt_entvars q1 q1_adm).1, (consAt_entvars q1 q1_adm).2.1⟩

end Verif.EulerInteg
