import Mathlib.Tactic.IntervalCases
import Verif.EulerStableProps

/-!
Properties C101 (interface terms) and C102 (entropy stability of the whole discretisation).
-/

namespace Verif.EulerInteg
open Finset Verif.EulerFluxes Verif.Sbp Verif.Inviscid

set_option linter.unusedSectionVars false

variable {d : ℕ}

/-! ### C101: interface terms -/

theorem Physical.iface {entvar : Bool} {a b : ℕ → ℝ} (ha : Physical d entvar a)
    (hb : Physical d entvar b) (diss : ℝ) (dir : ℕ → ℝ) :
    ifaceFlux d entvar diss dir a b = ofState (calcIsmailRoeFaceFluxWithDiss (toDir d dir) diss
      (consAt d entvar a) (consAt d entvar b)) := by
  unfold ifaceFlux
  cases entvar
  · simp [consAt, consOf]
  · have hw := C76_entvars (toDir d dir) diss _ _ ha.adm hb.adm
    rw [← ha.w, ← hb.w] at hw
    simp only [entVarsOf, if_true] at hw
    simp [hw]

theorem iface_eq {entvar : Bool} {a b : ℕ → ℝ} (ha : Physical d entvar a)
    (hb : Physical d entvar b) (diss : ℝ) (dir : ℕ → ℝ) :
    ifaceFun d entvar diss dir a b = psi (toDir d dir) (consAt d entvar a) -
      psi (toDir d dir) (consAt d entvar b) + production (toDir d dir)
        (calcIsmailRoeFaceFluxWithDiss (toDir d dir) diss (consAt d entvar a) (consAt d entvar b))
        (consAt d entvar a) (consAt d entvar b) := by
  rw [ifaceFun, vdot_eq, ha.iface hb]
  simp only [sub_mul, sum_sub_distrib]
  rw [sum_ofState, sum_ofState, toState_ofState, ha.w, hb.w, production]
  ring

/-- With a non-negative dissipation coefficient an interface never produces entropy: the reported
value is at least the jump of the potential, up to `1e-16` of the mass flux. -/
theorem C101_dissipative (entvar : Bool) (diss : ℝ) (dir qL qR : ℕ → ℝ) (hd : 0 ≤ diss)
    (hL : Physical d entvar qL) (hR : Physical d entvar qR) :
    psi (toDir d dir) (consAt d entvar qL) - psi (toDir d dir) (consAt d entvar qR) -
      1 / 10 ^ 16 * |(calcIsmailRoeFaceFlux (toDir d dir) (consAt d entvar qL)
        (consAt d entvar qR)).rho| ≤ ifaceFun d entvar diss dir qL qR := by
  rw [iface_eq hL hR]
  have := C76_dissipative (toDir d dir) diss _ _ hL.adm hR.adm hd
  linarith

theorem diss_zero (n : Fin d → ℝ) (qL qR : State d) :
    calcIsmailRoeFaceFluxWithDiss n 0 qL qR = calcIsmailRoeFaceFlux n qL qR := by
  unfold calcIsmailRoeFaceFluxWithDiss State.map2
  ext i <;> simp

/-- Without dissipation an interface is entropy conservative (same tolerance). -/
theorem C101_conservative (entvar : Bool) (dir qL qR : ℕ → ℝ)
    (hL : Physical d entvar qL) (hR : Physical d entvar qR) :
    |ifaceFun d entvar 0 dir qL qR - (psi (toDir d dir) (consAt d entvar qL) -
        psi (toDir d dir) (consAt d entvar qR))| ≤
      1 / 10 ^ 16 * |(calcIsmailRoeFaceFlux (toDir d dir) (consAt d entvar qL)
        (consAt d entvar qR)).rho| := by
  rw [iface_eq hL hR, diss_zero, add_sub_cancel_left]
  exact C55_entropy_conservative _ _ _ hL.adm hR.adm

/-- Interface terms vanish in the entropy balance where the two sides carry the same state. -/
theorem C101_no_jump (entvar : Bool) (diss : ℝ) (dir q : ℕ → ℝ) :
    ifaceFun d entvar diss dir q q = 0 := by
  rw [ifaceFun, vdot_eq]
  exact sum_eq_zero fun n _ => by rw [sub_self, zero_mul]

/-- The face functional times `alpha` is the assembled face residual tested with the entropy
variables of both elements. -/
theorem C101_energy (entvar : Bool) (f : Face ℝ) (NL NR : ℕ) (alpha diss : ℝ) (u : ℕ → ℝ)
    (hl : ∀ i < f.n, f.left i < NL) (hr : ∀ i < f.n, f.right i < NR) :
    faceTested NL NR (d + 2) (fun a => ofState (entVarsOf entvar (toState d (row u NL a))))
      (fun a => ofState (entVarsOf entvar (toState d (rowRight u (d + 2) NL NR a))))
      (faceVec f NL NR (d + 2) alpha (ifaceFlux d entvar diss) u) =
        alpha * faceEnergy f NL NR (d + 2) (ifaceFun d entvar diss) u :=
  C95_energy f NL NR (d + 2) alpha (ifaceFlux d entvar diss)
    (fun q => ofState (entVarsOf entvar (toState d q))) (ifaceFun d entvar diss) u
    (fun _ _ => vdot_eq _ _ _) hl hr

/-! ### C102: the whole mesh -/

/-- Contribution of face node data to the area vector of node `i`: the weighted normals of the face
nodes lying on it. -/
def faceArea (f : Face ℝ) (idx : ℕ → ℕ) (i : ℕ) (di : ℕ) : ℝ :=
  ∑ a ∈ range f.n, if idx a = i then f.w a * f.nrm a di else 0

/-- A conforming mesh of SBP elements: correct dimensions, non-negative norms, metric identities,
face nodes matched to element nodes, and every node's area vector is the sum of the weighted face
normals of the faces it lies on (outward for the first, inward for the second element). -/
structure Conforming (d : ℕ) (m : FlowMesh) : Prop where
  dim : ∀ k < m.ne, (m.elem k).e.dim = d
  norm : ∀ k < m.ne, ∀ i < (m.elem k).e.dof, 0 ≤ (m.elem k).e.H i
  metric : ∀ k < m.ne, MetricIdentities (m.elem k).e (m.elem k).adj
  fL_lt : ∀ f < m.nf, m.fL f < m.ne
  fR_lt : ∀ f < m.nf, m.fR f < m.ne
  bE_lt : ∀ b < m.nb, m.bE b < m.ne
  left_lt : ∀ f < m.nf, ∀ a < (m.face f).n, (m.face f).left a < (m.elem (m.fL f)).e.dof
  right_lt : ∀ f < m.nf, ∀ a < (m.face f).n, (m.face f).right a < (m.elem (m.fR f)).e.dof
  bleft_lt : ∀ b < m.nb, ∀ a < (m.bface b).n, (m.bface b).left a < (m.elem (m.bE b)).e.dof
  closed : ∀ k < m.ne, ∀ i < (m.elem k).e.dof, ∀ di : Fin d,
    areaVec d (m.elem k).e (m.elem k).adj i di =
      (∑ f ∈ range m.nf, if m.fL f = k then faceArea (m.face f) (m.face f).left i di else 0) -
      (∑ f ∈ range m.nf, if m.fR f = k then faceArea (m.face f) (m.face f).right i di else 0) +
      ∑ b ∈ range m.nb, if m.bE b = k then faceArea (m.bface b) (m.bface b).left i di else 0

/-- State at node `i` of element `k`. -/
def node (m : FlowMesh) (u : ℕ → ℕ → ℝ) (k i : ℕ) : ℕ → ℝ := row (u k) (m.elem k).e.dof i

/-- Every nodal state is physical. -/
def AllPhysical (d : ℕ) (entvar : Bool) (m : FlowMesh) (u : ℕ → ℕ → ℝ) : Prop :=
  ∀ k < m.ne, ∀ i < (m.elem k).e.dof, Physical d entvar (node m u k i)

/-- What the boundary conditions add beyond the entropy potential. -/
noncomputable def boundarySupply (d : ℕ) (entvar : Bool) (m : FlowMesh)
    (bfun : ℕ → (ℕ → ℝ) → (ℕ → ℝ) → (ℕ → ℝ) → ℝ) (u : ℕ → ℕ → ℝ) : ℝ :=
  ∑ b ∈ range m.nb, ∑ a ∈ range (m.bface b).n, (m.bface b).w a *
    (bfun b ((m.bface b).x a) ((m.bface b).nrm a) (node m u (m.bE b) ((m.bface b).left a)) -
      psi (toDir d ((m.bface b).nrm a))
        (consAt d entvar (node m u (m.bE b) ((m.bface b).left a))))

/-- Sum of the magnitudes of all volume mass fluxes. -/
noncomputable def volMass (d : ℕ) (entvar : Bool) (m : FlowMesh) (u : ℕ → ℕ → ℝ) : ℝ :=
  ∑ k ∈ range m.ne, ∑ i ∈ range (m.elem k).e.dof, ∑ j ∈ Ico (i + 1) (m.elem k).e.dof,
    ∑ di ∈ range d, |skewSpec (m.elem k).e (m.elem k).adj di i j| *
      |irFlux d entvar di (node m u k i) (node m u k j) 0|

/-- Sum of the magnitudes of all interface mass fluxes. -/
noncomputable def faceMass (d : ℕ) (entvar : Bool) (m : FlowMesh) (u : ℕ → ℕ → ℝ) : ℝ :=
  ∑ f ∈ range m.nf, ∑ a ∈ range (m.face f).n,
    |(calcIsmailRoeFaceFlux (toDir d (fun di => (m.face f).nrm a di * (m.face f).w a))
      (consAt d entvar (node m u (m.fL f) ((m.face f).left a)))
      (consAt d entvar (node m u (m.fR f) ((m.face f).right a)))).rho|

/-! #### Bookkeeping -/

/-- Entropy potential through a face, seen from the element nodes `idx`. -/
noncomputable def facePsi (d : ℕ) (entvar : Bool) (m : FlowMesh) (u : ℕ → ℕ → ℝ) (f : Face ℝ)
    (idx : ℕ → ℕ) (k : ℕ) : ℝ :=
  ∑ a ∈ range f.n, f.w a * psi (toDir d (f.nrm a)) (consAt d entvar (node m u k (idx a)))

theorem sum_faceArea (entvar : Bool) (m : FlowMesh) (u : ℕ → ℕ → ℝ) (f : Face ℝ)
    (idx : ℕ → ℕ) (k : ℕ) (h : ∀ a < f.n, idx a < (m.elem k).e.dof) :
    ∑ i ∈ range (m.elem k).e.dof, ∑ di : Fin d, (consAt d entvar (node m u k i)).mom di *
      faceArea f idx i di = facePsi d entvar m u f idx k := by
  unfold faceArea facePsi
  have h1 : ∀ i ∈ range (m.elem k).e.dof, ∑ di : Fin d, (consAt d entvar (node m u k i)).mom di *
      (∑ a ∈ range f.n, if idx a = i then f.w a * f.nrm a di else 0) =
      ∑ a ∈ range f.n, if idx a = i then
        f.w a * psi (toDir d (f.nrm a)) (consAt d entvar (node m u k (idx a))) else 0 := by
    intro i _
    rw [sum_congr rfl fun di _ => mul_sum _ _ _, sum_comm]
    refine sum_congr rfl fun a _ => ?_
    split_ifs with h
    · rw [psi, mul_sum, h]
      exact sum_congr rfl fun di _ => by unfold toDir; ring
    · simp
  rw [sum_congr rfl h1, sum_comm]
  refine sum_congr rfl fun a ha => ?_
  rw [sum_ite_eq, if_pos (mem_range.2 (h a (mem_range.1 ha)))]

theorem sum_pick (n ne : ℕ) (g : ℕ → ℕ) (hg : ∀ f < n, g f < ne) (F : ℕ → ℕ → ℝ) :
    ∑ k ∈ range ne, ∑ f ∈ range n, (if g f = k then F f k else 0) = ∑ f ∈ range n, F f (g f) := by
  rw [sum_comm]
  refine sum_congr rfl fun f hf => ?_
  rw [sum_ite_eq, if_pos (mem_range.2 (hg f (mem_range.1 hf)))]

/-- Total potential leaving the elements = jumps over interior faces + boundary faces. -/
theorem total_psi (entvar : Bool) (m : FlowMesh) (hc : Conforming d m) (u : ℕ → ℕ → ℝ) :
    ∑ k ∈ range m.ne, ∑ i ∈ range (m.elem k).e.dof,
        psi (areaVec d (m.elem k).e (m.elem k).adj i) (consAt d entvar (node m u k i)) =
      (∑ f ∈ range m.nf, (facePsi d entvar m u (m.face f) (m.face f).left (m.fL f) -
        facePsi d entvar m u (m.face f) (m.face f).right (m.fR f))) +
      ∑ b ∈ range m.nb, facePsi d entvar m u (m.bface b) (m.bface b).left (m.bE b) := by
  have h1 : ∀ k ∈ range m.ne, ∑ i ∈ range (m.elem k).e.dof,
      psi (areaVec d (m.elem k).e (m.elem k).adj i) (consAt d entvar (node m u k i)) =
      (∑ f ∈ range m.nf, if m.fL f = k then
        facePsi d entvar m u (m.face f) (m.face f).left k else 0) -
      (∑ f ∈ range m.nf, if m.fR f = k then
        facePsi d entvar m u (m.face f) (m.face f).right k else 0) +
      ∑ b ∈ range m.nb, if m.bE b = k then
        facePsi d entvar m u (m.bface b) (m.bface b).left k else 0 := by
    intro k hk
    rw [mem_range] at hk
    have h2 : ∀ i ∈ range (m.elem k).e.dof,
        psi (areaVec d (m.elem k).e (m.elem k).adj i) (consAt d entvar (node m u k i)) =
        (∑ f ∈ range m.nf, ∑ di : Fin d, (consAt d entvar (node m u k i)).mom di *
          (if m.fL f = k then faceArea (m.face f) (m.face f).left i di else 0)) -
        (∑ f ∈ range m.nf, ∑ di : Fin d, (consAt d entvar (node m u k i)).mom di *
          (if m.fR f = k then faceArea (m.face f) (m.face f).right i di else 0)) +
        ∑ b ∈ range m.nb, ∑ di : Fin d, (consAt d entvar (node m u k i)).mom di *
          (if m.bE b = k then faceArea (m.bface b) (m.bface b).left i di else 0) := by
      intro i hi
      rw [psi, sum_comm, sum_comm (s := range m.nf) (t := univ) (f := fun f (di : Fin d) =>
        (consAt d entvar (node m u k i)).mom di *
          (if m.fR f = k then faceArea (m.face f) (m.face f).right i di else 0)),
        sum_comm (s := range m.nb), ← sum_sub_distrib, ← sum_add_distrib]
      refine sum_congr rfl fun di _ => ?_
      rw [hc.closed k hk i (mem_range.1 hi) di, ← mul_sum, ← mul_sum, ← mul_sum]
      ring
    rw [sum_congr rfl h2, sum_add_distrib, sum_sub_distrib]
    have hcol : ∀ (n : ℕ) (F : ℕ → Face ℝ) (idx : ℕ → ℕ → ℕ) (g : ℕ → ℕ),
        (∀ f < n, g f = k → ∀ a < (F f).n, idx f a < (m.elem k).e.dof) →
        ∑ i ∈ range (m.elem k).e.dof, ∑ f ∈ range n, ∑ di : Fin d,
          (consAt d entvar (node m u k i)).mom di *
            (if g f = k then faceArea (F f) (idx f) i di else 0) =
        ∑ f ∈ range n, if g f = k then facePsi d entvar m u (F f) (idx f) k else 0 := by
      intro n F idx g hlt
      rw [sum_comm]
      refine sum_congr rfl fun f hf => ?_
      split_ifs with h
      · exact sum_faceArea entvar m u (F f) (idx f) k (hlt f (mem_range.1 hf) h)
      · simp
    rw [hcol m.nf m.face (fun f => (m.face f).left) m.fL
        (fun f hf hk => hk ▸ hc.left_lt f hf),
      hcol m.nf m.face (fun f => (m.face f).right) m.fR (fun f hf hk => hk ▸ hc.right_lt f hf),
      hcol m.nb m.bface (fun b => (m.bface b).left) m.bE (fun b hb hk => hk ▸ hc.bleft_lt b hb)]
  rw [sum_congr rfl h1, sum_add_distrib, sum_sub_distrib, sum_pick _ _ _ hc.fL_lt,
    sum_pick _ _ _ hc.fR_lt, sum_pick _ _ _ hc.bE_lt, ← sum_sub_distrib]

theorem row_pairL (ns NL : ℕ) (uL uR : ℕ → ℝ) (i n : ℕ) (hi : i < NL) (hn : n < ns) :
    row (pairVec ns NL uL uR) NL i n = row uL NL i n := by
  unfold row pairVec
  rw [if_pos (by rw [mul_comm NL]; exact flat_lt hi hn)]

theorem row_pairR (ns NL NR : ℕ) (uL uR : ℕ → ℝ) (i : ℕ) :
    rowRight (pairVec ns NL uL uR) ns NL NR i = row uR NR i := by
  funext n
  unfold rowRight row pairVec
  rw [if_neg (by omega), Nat.add_sub_cancel_left]

theorem toState_congr {a b : ℕ → ℝ} (h : ∀ n < d + 2, a n = b n) : toState d a = toState d b := by
  unfold toState
  ext i
  · exact h 0 (by omega)
  · exact h _ (by have := i.2; omega)
  · exact h _ (by omega)

theorem ifaceFun_congr (entvar : Bool) (diss : ℝ) (dir a a' b : ℕ → ℝ)
    (h : toState d a = toState d a') :
    ifaceFun d entvar diss dir a b = ifaceFun d entvar diss dir a' b := by
  unfold ifaceFun ifaceFlux
  rw [h]

/-- The face functional as a sum over face nodes of the states of the two elements. -/
theorem faceEnergy_eq (entvar : Bool) (diss : ℝ) (m : FlowMesh) (hc : Conforming d m)
    (u : ℕ → ℕ → ℝ) (f : ℕ) (hf : f < m.nf) :
    faceEnergy (m.face f) (m.elem (m.fL f)).e.dof (m.elem (m.fR f)).e.dof (d + 2)
        (ifaceFun d entvar diss)
        (pairVec (d + 2) (m.elem (m.fL f)).e.dof (u (m.fL f)) (u (m.fR f))) =
      ∑ a ∈ range (m.face f).n, ifaceFun d entvar diss
        (fun di => (m.face f).nrm a di * (m.face f).w a)
        (node m u (m.fL f) ((m.face f).left a)) (node m u (m.fR f) ((m.face f).right a)) := by
  rw [faceEnergy, forN_sum, zero_add]
  refine sum_congr rfl fun a ha => ?_
  rw [row_pairR]
  refine ifaceFun_congr entvar diss _ _ _ _ (toState_congr fun n hn => ?_)
  exact row_pairL _ _ _ _ _ _ (hc.left_lt f hf a (mem_range.1 ha)) hn

theorem psi_scale (c : ℝ) (nrm : ℕ → ℝ) (q : State d) :
    psi (toDir d (fun di => nrm di * c)) q = c * psi (toDir d nrm) q := by
  unfold psi toDir
  rw [mul_sum]
  exact sum_congr rfl fun i _ => by ring

/-- The pieces of the entropy change. -/
theorem entropyChange_split (entvar dsbp : Bool) (lpsCoeff diss : ℝ) (m : FlowMesh)
    (bfun : ℕ → (ℕ → ℝ) → (ℕ → ℝ) → (ℕ → ℝ) → ℝ) (u : ℕ → ℕ → ℝ) :
    calcEntropyChange d entvar dsbp lpsCoeff diss m bfun u =
      (∑ k ∈ range m.ne, irEnergy d entvar (m.elem k).e 1 (m.elem k).adj (u k)) +
      (if 0 < lpsCoeff then
        ∑ k ∈ range m.ne, entLpsEnergy d entvar (m.elem k).e lpsCoeff 1 (m.elem k).adj (u k) else 0) +
      (if dsbp then ∑ f ∈ range m.nf, faceEnergy (m.face f) (m.elem (m.fL f)).e.dof
        (m.elem (m.fR f)).e.dof (d + 2) (ifaceFun d entvar diss)
        (pairVec (d + 2) (m.elem (m.fL f)).e.dof (u (m.fL f)) (u (m.fR f))) else 0) +
      ∑ b ∈ range m.nb, bndEnergy (m.bface b) (m.elem (m.bE b)).e.dof 1 (bfun b) (u (m.bE b)) := by
  unfold calcEntropyChange
  simp only
  rw [forN_sum]
  congr 1
  cases dsbp
  · simp only [Bool.false_eq_true, if_false, add_zero]
    split_ifs
    · rw [forN_sum, forN_sum, zero_add]
    · rw [forN_sum, zero_add, add_zero]
  · simp only [if_true]
    rw [forN_sum]
    congr 1
    split_ifs
    · rw [forN_sum, forN_sum, zero_add]
    · rw [forN_sum, zero_add, add_zero]

theorem bnd_supply (entvar : Bool) (m : FlowMesh)
    (bfun : ℕ → (ℕ → ℝ) → (ℕ → ℝ) → (ℕ → ℝ) → ℝ) (u : ℕ → ℕ → ℝ) :
    ∑ b ∈ range m.nb, bndEnergy (m.bface b) (m.elem (m.bE b)).e.dof 1 (bfun b) (u (m.bE b)) =
      boundarySupply d entvar m bfun u +
        ∑ b ∈ range m.nb, facePsi d entvar m u (m.bface b) (m.bface b).left (m.bE b) := by
  rw [boundarySupply, ← sum_add_distrib]
  refine sum_congr rfl fun b _ => ?_
  rw [bndEnergy, forN_sum, zero_add, facePsi, ← sum_add_distrib]
  exact sum_congr rfl fun a _ => by unfold node; ring

theorem vol_bound (entvar : Bool) (m : FlowMesh) (hc : Conforming d m) (u : ℕ → ℕ → ℝ)
    (hu : AllPhysical d entvar m u) :
    |(∑ k ∈ range m.ne, irEnergy d entvar (m.elem k).e 1 (m.elem k).adj (u k)) +
      ∑ k ∈ range m.ne, ∑ i ∈ range (m.elem k).e.dof,
        psi (areaVec d (m.elem k).e (m.elem k).adj i) (consAt d entvar (node m u k i))| ≤
      1 / 10 ^ 16 * volMass d entvar m u := by
  rw [← sum_add_distrib, volMass, mul_sum]
  refine (abs_sum_le_sum_abs _ _).trans (sum_le_sum fun k hk => ?_)
  rw [mem_range] at hk
  have := C97_entropy_balance entvar (m.elem k).e (hc.dim k hk) 1 (m.elem k).adj (u k)
    (hc.metric k hk) (fun i hi => hu k hk i hi)
  rw [one_mul, abs_one, mul_one] at this
  exact this

/-- **Entropy stability, discontinuous elements.**  For every conforming mesh, every physical state
(in either set of variables), non-negative coefficients and every choice of boundary conditions, the
entropy change reported by the flow residual is at least what the boundary conditions supply, up to
`1e-16` of the mass fluxes.  (`dS/dt` is minus the reported value.) -/
theorem C102_entropy_stability (entvar : Bool) (lpsCoeff diss : ℝ) (hd : 0 ≤ diss) (m : FlowMesh)
    (hc : Conforming d m) (bfun : ℕ → (ℕ → ℝ) → (ℕ → ℝ) → (ℕ → ℝ) → ℝ) (u : ℕ → ℕ → ℝ)
    (hu : AllPhysical d entvar m u) :
    boundarySupply d entvar m bfun u -
        1 / 10 ^ 16 * (volMass d entvar m u + faceMass d entvar m u) ≤
      calcEntropyChange d entvar true lpsCoeff diss m bfun u := by
  rw [entropyChange_split, bnd_supply (d := d) entvar, if_pos rfl]
  have hv := (abs_le.1 (vol_bound entvar m hc u hu)).1
  rw [total_psi entvar m hc u] at hv
  have hl : 0 ≤ (if 0 < lpsCoeff then ∑ k ∈ range m.ne,
      entLpsEnergy d entvar (m.elem k).e lpsCoeff 1 (m.elem k).adj (u k) else 0) := by
    split_ifs with h
    · refine sum_nonneg fun k hk => ?_
      rw [mem_range] at hk
      exact C98_dissipation entvar _ _ _ _ _ h.le zero_le_one (hc.norm k hk)
        (fun i hi => hu k hk i hi)
    · exact le_rfl
  have hf : (∑ f ∈ range m.nf, (facePsi d entvar m u (m.face f) (m.face f).left (m.fL f) -
        facePsi d entvar m u (m.face f) (m.face f).right (m.fR f))) -
      1 / 10 ^ 16 * faceMass d entvar m u ≤ ∑ f ∈ range m.nf,
      faceEnergy (m.face f) (m.elem (m.fL f)).e.dof (m.elem (m.fR f)).e.dof (d + 2)
        (ifaceFun d entvar diss)
        (pairVec (d + 2) (m.elem (m.fL f)).e.dof (u (m.fL f)) (u (m.fR f))) := by
    rw [faceMass, mul_sum, ← sum_sub_distrib]
    refine sum_le_sum fun f hf => ?_
    rw [mem_range] at hf
    rw [faceEnergy_eq entvar diss m hc u f hf, facePsi, facePsi, ← sum_sub_distrib, mul_sum,
      ← sum_sub_distrib]
    refine sum_le_sum fun a ha => ?_
    rw [mem_range] at ha
    have := C101_dissipative entvar diss (fun di => (m.face f).nrm a di * (m.face f).w a) _ _ hd
      (hu _ (hc.fL_lt f hf) _ (hc.left_lt f hf a ha))
      (hu _ (hc.fR_lt f hf) _ (hc.right_lt f hf a ha))
    rwa [psi_scale, psi_scale] at this
  linarith

/-- **Entropy conservation.**  Without interface dissipation and local projection the same inequality
holds in both directions. -/
theorem C102_entropy_conservation (entvar : Bool) (m : FlowMesh)
    (hc : Conforming d m) (bfun : ℕ → (ℕ → ℝ) → (ℕ → ℝ) → (ℕ → ℝ) → ℝ) (u : ℕ → ℕ → ℝ)
    (hu : AllPhysical d entvar m u) :
    |calcEntropyChange d entvar true 0 0 m bfun u - boundarySupply d entvar m bfun u| ≤
      1 / 10 ^ 16 * (volMass d entvar m u + faceMass d entvar m u) := by
  rw [entropyChange_split, bnd_supply (d := d) entvar, if_pos rfl, if_neg (lt_irrefl _)]
  have hv := vol_bound entvar m hc u hu
  rw [total_psi entvar m hc u] at hv
  have hf : |(∑ f ∈ range m.nf,
      faceEnergy (m.face f) (m.elem (m.fL f)).e.dof (m.elem (m.fR f)).e.dof (d + 2)
        (ifaceFun d entvar 0)
        (pairVec (d + 2) (m.elem (m.fL f)).e.dof (u (m.fL f)) (u (m.fR f)))) -
      ∑ f ∈ range m.nf, (facePsi d entvar m u (m.face f) (m.face f).left (m.fL f) -
        facePsi d entvar m u (m.face f) (m.face f).right (m.fR f))| ≤
      1 / 10 ^ 16 * faceMass d entvar m u := by
    rw [faceMass, mul_sum, ← sum_sub_distrib]
    refine (abs_sum_le_sum_abs _ _).trans (sum_le_sum fun f hf => ?_)
    rw [mem_range] at hf
    rw [faceEnergy_eq entvar 0 m hc u f hf, facePsi, facePsi, ← sum_sub_distrib, mul_sum,
      ← sum_sub_distrib]
    refine (abs_sum_le_sum_abs _ _).trans (sum_le_sum fun a ha => ?_)
    rw [mem_range] at ha
    have := C101_conservative entvar (fun di => (m.face f).nrm a di * (m.face f).w a) _ _
      (hu _ (hc.fL_lt f hf) _ (hc.left_lt f hf a ha))
      (hu _ (hc.fR_lt f hf) _ (hc.right_lt f hf a ha))
    rwa [psi_scale, psi_scale] at this
  rw [abs_le] at hv hf ⊢
  constructor <;> linarith [hv.1, hv.2, hf.1, hf.2]

/-- **Entropy stability, continuous elements** (no interface terms): if the two elements of every
interior face carry the same states at matching face nodes, the same bound holds with the volume mass
fluxes only, with equality up to rounding when there is no local projection. -/
theorem C102_continuous (entvar : Bool) (lpsCoeff diss : ℝ) (m : FlowMesh)
    (hc : Conforming d m) (bfun : ℕ → (ℕ → ℝ) → (ℕ → ℝ) → (ℕ → ℝ) → ℝ) (u : ℕ → ℕ → ℝ)
    (hu : AllPhysical d entvar m u)
    (hcont : ∀ f < m.nf, ∀ a < (m.face f).n, ∀ n < d + 2,
      node m u (m.fL f) ((m.face f).left a) n = node m u (m.fR f) ((m.face f).right a) n) :
    boundarySupply d entvar m bfun u - 1 / 10 ^ 16 * volMass d entvar m u ≤
        calcEntropyChange d entvar false lpsCoeff diss m bfun u ∧
      (lpsCoeff ≤ 0 → |calcEntropyChange d entvar false lpsCoeff diss m bfun u -
        boundarySupply d entvar m bfun u| ≤ 1 / 10 ^ 16 * volMass d entvar m u) := by
  rw [entropyChange_split, bnd_supply (d := d) entvar, if_neg Bool.false_ne_true]
  have hv := vol_bound entvar m hc u hu
  rw [total_psi entvar m hc u] at hv
  have hz : ∑ f ∈ range m.nf, (facePsi d entvar m u (m.face f) (m.face f).left (m.fL f) -
        facePsi d entvar m u (m.face f) (m.face f).right (m.fR f)) = 0 := by
    refine sum_eq_zero fun f hf => ?_
    rw [mem_range] at hf
    rw [facePsi, facePsi, ← sum_sub_distrib]
    refine sum_eq_zero fun a ha => ?_
    rw [mem_range] at ha
    rw [consAt, consAt, toState_congr (hcont f hf a ha), sub_self]
  rw [hz, zero_add, abs_le] at hv
  constructor
  · have hl : 0 ≤ (if 0 < lpsCoeff then ∑ k ∈ range m.ne,
        entLpsEnergy d entvar (m.elem k).e lpsCoeff 1 (m.elem k).adj (u k) else 0) := by
      split_ifs with h
      · refine sum_nonneg fun k hk => ?_
        rw [mem_range] at hk
        exact C98_dissipation entvar _ _ _ _ _ h.le zero_le_one (hc.norm k hk)
          (fun i hi => hu k hk i hi)
      · exact le_rfl
    linarith [hv.1]
  · intro hl
    rw [if_neg (not_lt.2 hl), abs_le]
    constructor <;> linarith [hv.1, hv.2]

/-- Solid walls all around: the flow's total entropy cannot grow (beyond rounding). -/
theorem C102_walls (entvar : Bool) (lpsCoeff diss : ℝ) (hd : 0 ≤ diss) (m : FlowMesh)
    (hc : Conforming d m) (u : ℕ → ℕ → ℝ) (hu : AllPhysical d entvar m u) :
    -(1 / 10 ^ 16 * (volMass d entvar m u + faceMass d entvar m u)) ≤
      calcEntropyChange d entvar true lpsCoeff diss m
        (fun _ => testedFlux d entvar (slipWallFlux d entvar)) u := by
  have h := C102_entropy_stability entvar lpsCoeff diss hd m hc
    (fun _ => testedFlux d entvar (slipWallFlux d entvar)) u hu
  have hz : boundarySupply d entvar m (fun _ => testedFlux d entvar (slipWallFlux d entvar)) u
      = 0 := by
    refine sum_eq_zero fun b hb => sum_eq_zero fun a ha => ?_
    rw [mem_range] at hb ha
    beta_reduce
    rw [C99_slipwall entvar _ _ _ (hu _ (hc.bE_lt b hb) _ (hc.bleft_lt b hb a ha)), sub_self,
      mul_zero]
  rw [hz] at h
  linarith

/-- With control boundaries the supplied entropy is the control velocity times the entropy at the
wall, integrated with the control's scale function. -/
theorem C102_control (entvar : Bool) (lpsCoeff diss : ℝ) (hd : 0 ≤ diss) (m : FlowMesh)
    (hc : Conforming d m) (u : ℕ → ℕ → ℝ) (hu : AllPhysical d entvar m u)
    (control : ℝ) (scale : (ℕ → ℝ) → ℝ) :
    -control * (∑ b ∈ range m.nb, ∑ a ∈ range (m.bface b).n, (m.bface b).w a *
        (scale ((m.bface b).x a) * √(∑ i, toDir d ((m.bface b).nrm a) i ^ 2) *
          specS (consAt d entvar (node m u (m.bE b) ((m.bface b).left a))))) -
      1 / 10 ^ 16 * (volMass d entvar m u + faceMass d entvar m u) ≤
      calcEntropyChange d entvar true lpsCoeff diss m
        (fun _ => testedFlux d entvar (controlFlux d entvar control scale)) u := by
  have h := C102_entropy_stability entvar lpsCoeff diss hd m hc
    (fun _ => testedFlux d entvar (controlFlux d entvar control scale)) u hu
  have hz : boundarySupply d entvar m
      (fun _ => testedFlux d entvar (controlFlux d entvar control scale)) u =
      -control * (∑ b ∈ range m.nb, ∑ a ∈ range (m.bface b).n, (m.bface b).w a *
        (scale ((m.bface b).x a) * √(∑ i, toDir d ((m.bface b).nrm a) i ^ 2) *
          specS (consAt d entvar (node m u (m.bE b) ((m.bface b).left a))))) := by
    rw [boundarySupply, mul_sum]
    refine sum_congr rfl fun b hb => ?_
    rw [mul_sum]
    refine sum_congr rfl fun a ha => ?_
    rw [mem_range] at hb ha
    rw [C99_control entvar _ _ _ _ _ (hu _ (hc.bE_lt b hb) _ (hc.bleft_lt b hb a ha))]
    ring
  rw [hz] at h
  exact h

/-! #### A conforming mesh: two one-dimensional elements with one interior and two boundary faces -/

/-- Two-node segment element. -/
noncomputable def segE : Elem ℝ :=
  ⟨1, 2, fun _ => 1, fun _ j _ => if j = 1 then 1 / 2 else -1 / 2, fun _ _ => 0, 0, fun _ _ => 0⟩

/-- A point face with normal `c`, on nodes `l` and `r`. -/
noncomputable def ptFace (c : ℝ) (l r : ℕ) : Face ℝ :=
  ⟨1, fun _ => 1, fun _ _ => c, fun _ _ => 0, fun _ => l, fun _ => r⟩

/-- The mesh. -/
noncomputable def twoElems : FlowMesh :=
  ⟨2, fun _ => ⟨segE, fun _ _ _ => 1⟩, 1, fun _ => ptFace 1 1 0, fun _ => 0, fun _ => 1, 2,
    fun b => if b = 0 then ptFace (-1) 0 0 else ptFace 1 1 0, fun b => b⟩

theorem twoElems_conforming : Conforming 1 twoElems where
  dim := fun _ _ => rfl
  norm := fun _ _ _ _ => zero_le_one
  metric := by
    intro k _
    constructor
    · intro k _ i _; simp [twoElems, segE, Qm_eq, sum_range_succ]; norm_num
    · intro di _ i _; simp [twoElems, segE, Qm_eq, sum_range_succ]; norm_num
  fL_lt := fun _ _ => by simp [twoElems]
  fR_lt := fun _ _ => by simp [twoElems]
  bE_lt := fun b hb => hb
  left_lt := fun _ _ _ _ => by simp [twoElems, segE, ptFace]
  right_lt := fun _ _ _ _ => by simp [twoElems, segE, ptFace]
  bleft_lt := fun b _ _ _ => by
    by_cases h : b = 0 <;> simp [twoElems, segE, ptFace, h]
  closed := by
    intro k hk i hi di
    have hk' : k < 2 := hk
    have hi' : i < 2 := hi
    interval_cases k <;> interval_cases i <;>
      simp [twoElems, segE, ptFace, areaVec, faceArea, Qm_eq, sum_range_succ] <;> norm_num

example : ∃ u : ℕ → ℕ → ℝ, AllPhysical 1 false twoElems u ∧
    node twoElems u 0 0 ≠ node twoElems u 1 0 := by
  refine ⟨fun k p => if p / 2 = 0 then 1 + k else if p / 2 = 1 then 0 else 5 / 2, ?_, ?_⟩
  · intro k hk i hi
    have hk' : k < 2 := hk
    have hi' : i < 2 := hi
    simp only [Physical, Bool.false_eq_true, if_false, Admissible, toState, node, row]
    interval_cases k <;> interval_cases i <;> simp [twoElems, segE] <;> norm_num
  · intro h
    have := congrFun h 0
    simp [node, row, twoElems, segE] at this

end Verif.EulerInteg
