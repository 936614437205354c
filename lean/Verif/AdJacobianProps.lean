import Verif.AdJacobianLemmas
import Verif.InviscidStabProps
import Verif.EulerIntegProps
import Verif.EulerStabilityProps

/-!
# C209: the Newton matrix of the Euler terms is exact

`ExactJac` (C90-C96) is the specification: along every differentiable curve of states the residual
changes at the rate given by the matrix.
-/

set_option linter.unusedSectionVars false

namespace Verif.AdJacobian
open Verif.EulerFluxes Verif.Sbp Verif.Inviscid Verif.EulerInteg Finset

/-! ### Adept's array read as a matrix -/

/-- The array of the first `n` numbers. -/
def pad {n : ℕ} (v : Fin n → ℝ) : ℕ → ℝ := fun k => if h : k < n then v ⟨k, h⟩ else 0

/-- Only the first `cols` numbers of the array matter. -/
def LocalIn (rows cols : ℕ) (F : (ℕ → ℝ) → ℕ → ℝ) : Prop :=
  ∀ a b, (∀ m < cols, a m = b m) → ∀ n < rows, F a n = F b n

/-- Differentiability as a function of the first `cols` numbers. -/
def DiffIn (rows cols : ℕ) (F : (ℕ → ℝ) → ℕ → ℝ) (q : ℕ → ℝ) : Prop :=
  ∀ n < rows, DifferentiableAt ℝ (fun v : Fin cols → ℝ => F (pad v) n) (fun k => q k)

theorem stackJac_exact {rows cols : ℕ} {F : (ℕ → ℝ) → ℕ → ℝ} {q : ℕ → ℝ} (hF : DiffIn rows cols F q)
    (hL : LocalIn rows cols F) (c : ℝ → ℕ → ℝ) (w : ℕ → ℝ) (h0 : c 0 = q)
    (hc : ∀ m < cols, HasDerivAt (fun t => c t m) (w m) 0) (n : ℕ) (hn : n < rows) :
    HasDerivAt (fun t => F (c t) n) (∑ m ∈ range cols, dense rows (stackJac rows F q) n m * w m) 0 := by
  have hf := (hF n hn).hasFDerivAt
  set f' := fderiv ℝ (fun v : Fin cols → ℝ => F (pad v) n) (fun k => q k) with hf'
  have curve : ∀ (γ : ℝ → ℕ → ℝ) (v : ℕ → ℝ) (s : ℝ), (∀ m < cols, γ s m = q m) →
      (∀ m < cols, HasDerivAt (fun t => γ t m) (v m) s) →
      HasDerivAt (fun t => F (γ t) n) (f' fun k => v k) s := by
    intro γ v s hs hv
    have hγ : HasDerivAt (fun t => (fun k : Fin cols => γ t k)) (fun k => v k) s :=
      hasDerivAt_pi.2 fun k => hv k k.2
    have e : (fun k : Fin cols => γ s k) = fun k : Fin cols => q k := funext fun k => hs k k.2
    have := HasFDerivAt.comp_hasDerivAt s (by rw [e]; exact hf) hγ
    refine this.congr_of_eventuallyEq (Filter.Eventually.of_forall fun t => ?_)
    exact hL _ _ (fun m hm => by simp [pad, hm]) n hn
  have entry : ∀ m < cols, dense rows (stackJac rows F q) n m = f' (fun k => if (k : ℕ) = m then 1 else 0) := by
    intro m hm
    have e1 : (n + m * rows) / rows = m := by
      rw [Nat.add_mul_div_right _ _ (by omega : 0 < rows), Nat.div_eq_of_lt hn, zero_add]
    have e2 : (n + m * rows) % rows = n := by rw [Nat.add_mul_mod_self_right, Nat.mod_eq_of_lt hn]
    simp only [dense, stackJac, e1, e2]
    refine (curve (fun t => Function.update q m t) (fun k => if k = m then 1 else 0) (q m)
      (fun k _ => by simp) (fun k _ => ?_)).deriv
    by_cases hk : k = m
    · subst hk; simpa using hasDerivAt_id' (q k)
    · simp [hk, hasDerivAt_const]
  refine (curve c w 0 (fun m _ => by rw [h0]) hc).congr_deriv ?_
  have e : (fun k : Fin cols => w k) = ∑ m : Fin cols, w m • (fun k : Fin cols => if (k : ℕ) = m then (1 : ℝ) else 0) := by
    funext k
    simp [Finset.sum_apply, Fin.val_inj]
  rw [e, map_sum, sum_range]
  refine sum_congr rfl fun m _ => ?_
  rw [map_smul, entry m m.2, smul_eq_mul, mul_comm]

theorem jac1_exact {ns : ℕ} {F : (ℕ → ℝ) → ℕ → ℝ} {q : ℕ → ℝ} (hF : DiffIn ns ns F q) (hL : LocalIn ns ns F) :
    ExactJac ns F (jac1 ns F q) q :=
  fun c w h0 hc n hn => stackJac_exact hF hL c w h0 hc n hn

theorem jac2_exact {ns : ℕ} {F : (ℕ → ℝ) → (ℕ → ℝ) → ℕ → ℝ} {qL qR : ℕ → ℝ}
    (hF : DiffIn ns (ns + ns) (record2 ns F) (concat ns qL qR))
    (hL : ∀ a a' b b', (∀ m < ns, a m = a' m) → (∀ m < ns, b m = b' m) → ∀ n < ns, F a b n = F a' b' n) :
    ExactJac2 ns F (jac2L ns F qL qR) (jac2R ns F qL qR) qL qR := by
  intro a b v w ha hb hv hw n hn
  have loc : LocalIn ns (ns + ns) (record2 ns F) := fun x y h n hn =>
    hL _ _ _ _ (fun m hm => h m (by omega)) (fun m hm => h _ (by omega)) n hn
  have key := stackJac_exact hF loc (fun t => concat ns (a t) (b t)) (concat ns v w)
    (by rw [ha, hb]) (fun m hm => ?_) n hn
  · rw [sum_range_add] at key
    refine (key.congr_of_eventuallyEq (Filter.Eventually.of_forall fun t => ?_)).congr_deriv ?_
    · refine hL _ _ _ _ (fun m hm => by simp [concat, hm]) (fun m hm => by simp [concat]) n hn
    · rw [← sum_add_distrib]
      refine sum_congr rfl fun m hm => ?_
      rw [mem_range] at hm
      simp [jac2L, jac2R, copyCols, concat, hm]
  · unfold concat
    split_ifs with h
    · exact hv m h
    · exact hw _ (by omega)

/-! ### States read from arrays -/

section arrays
variable {d n : ℕ}

theorem diff_pad (k : ℕ) (x : Fin n → ℝ) : DifferentiableAt ℝ (fun v : Fin n → ℝ => pad v k) x := by
  unfold pad
  by_cases h : k < n
  · simp only [h, dif_pos]; exact differentiableAt_apply _ _
  · simp only [h, dif_neg, not_false_eq_true]; exact differentiableAt_const _

theorem SD.pad (o : ℕ) (x : Fin n → ℝ) : SD (fun v : Fin n → ℝ => toState d (fun k => pad v (o + k))) x :=
  ⟨diff_pad _ _, fun _ => diff_pad _ _, diff_pad _ _⟩

theorem SD.pad0 (x : Fin n → ℝ) : SD (fun v : Fin n → ℝ => toState d (AdJacobian.pad v)) x :=
  ⟨diff_pad _ _, fun _ => diff_pad _ _, diff_pad _ _⟩

theorem toState_congr {a b : ℕ → ℝ} (h : ∀ m < d + 2, a m = b m) : toState d a = toState d b := by
  unfold toState
  rw [h 0 (by omega), h (d + 1) (by omega)]
  congr 1
  funext i
  exact h _ (by omega)

theorem SD.ofState {E : Type*} [NormedAddCommGroup E] [NormedSpace ℝ E] {x : E} {s : E → State d} (hs : SD s x)
    (n : ℕ) : DifferentiableAt ℝ (fun y => EulerInteg.ofState (s y) n) x := by
  unfold EulerInteg.ofState
  by_cases h0 : n = 0
  · simp only [h0, if_true]; exact hs.1
  · simp only [h0, if_false]
    by_cases h1 : n - 1 < d
    · simp only [h1, dif_pos]; exact hs.2.1 _
    · simp only [h1, dif_neg, not_false_eq_true]; exact hs.2.2

/-- The state at the recorded point. -/
theorem at_pad (q : ℕ → ℝ) : toState d (AdJacobian.pad (fun k : Fin (d + 2) => q k)) = toState d q :=
  toState_congr fun m hm => by simp [AdJacobian.pad, hm]

theorem at_padL (qL qR : ℕ → ℝ) :
    toState d (AdJacobian.pad (fun k : Fin (d + 2 + (d + 2)) => concat (d + 2) qL qR k)) = toState d qL :=
  toState_congr fun m hm => by
    simp only [AdJacobian.pad, concat, hm, if_true]
    rw [dif_pos (by omega)]

theorem at_padR (qL qR : ℕ → ℝ) :
    toState d (fun k => AdJacobian.pad (fun k : Fin (d + 2 + (d + 2)) => concat (d + 2) qL qR k) (d + 2 + k)) =
      toState d qR :=
  toState_congr fun m hm => by
    simp only [AdJacobian.pad, concat]
    rw [dif_pos (by omega), if_neg (by omega)]
    congr 1; omega

/-- A kernel of one state. -/
theorem kernel1 {G : State d → State d} {q : ℕ → ℝ}
    (hG : ∀ s : (Fin (d + 2) → ℝ) → State d, ∀ x, SD s x → s x = toState d q → SD (fun y => G (s y)) x) :
    ExactJac (d + 2) (fun v => ofState (G (toState d v))) (jac1 (d + 2) (fun v => ofState (G (toState d v))) q) q :=
  jac1_exact (fun n _ => (hG _ _ (SD.pad0 _) (at_pad q)).ofState n)
    (fun a b h n _ => by rw [toState_congr h])

/-- A kernel of two states. -/
theorem kernel2 {G : State d → State d → State d} {qL qR : ℕ → ℝ}
    (hG : ∀ a b : (Fin (d + 2 + (d + 2)) → ℝ) → State d, ∀ x, SD a x → SD b x → a x = toState d qL →
      b x = toState d qR → SD (fun y => G (a y) (b y)) x) :
    ExactJac2 (d + 2) (fun v w => ofState (G (toState d v) (toState d w)))
      (jac2L (d + 2) (fun v w => ofState (G (toState d v) (toState d w))) qL qR)
      (jac2R (d + 2) (fun v w => ofState (G (toState d v) (toState d w))) qL qR) qL qR :=
  jac2_exact (fun n _ => (hG _ _ _ (SD.pad0 _) (SD.pad _ _) (at_padL qL qR) (at_padR qL qR)).ofState n)
    (fun a a' b b' h h' n _ => by rw [toState_congr h, toState_congr h'])

end arrays

/-! ### Specification of the regular states -/

/-- The kinks of the logarithmic mean: its argument `((a/b - 1)/(a/b + 1))²` is not exactly the threshold
`1/1000` between series and logarithm, for the two parameters `√(ρ/p)` and `√(ρ p)` of two states. -/
def NotSwitching {d : ℕ} (qL qR : State d) : Prop :=
  OffSwitch (√(qL.rho / pressure qL)) (√(qR.rho / pressure qR)) ∧
    OffSwitch (√(qL.rho * pressure qL)) (√(qR.rho * pressure qR))

variable {d : ℕ} {entvar : Bool}

theorem goodZ {qL qR : State d} (hL : Admissible qL) (hR : Admissible qR) (h : NotSwitching qL qR) :
    GoodZ (zCons qL) (zCons qR) :=
  ⟨zCons_rho_pos hL, zCons_rho_pos hR, zCons_ener_pos hL, zCons_ener_pos hR, h.1, h.2⟩

theorem zEnt_cons {w : State d} (h : w.ener < 0) : zEnt w = zCons (calcConservativeVars w) := by
  rw [← zEnt_eq _ (C53_cons_admissible _ h), C53_roundtrip_ent _ h]

theorem ir_exact (di : ℕ) (hdi : di < d) {qL qR : ℕ → ℝ} (hL : Physical d entvar qL)
    (hR : Physical d entvar qR) (h : NotSwitching (consAt d entvar qL) (consAt d entvar qR)) :
    ExactJac2 (d + 2) (irFlux d entvar di) (irJacL d entvar di qL qR) (irJacR d entvar di qL qR) qL qR := by
  have e : irFlux d entvar di = fun v w => ofState ((if entvar then
      calcIsmailRoeFluxUsingEntVars ⟨di, hdi⟩ else calcIsmailRoeFlux ⟨di, hdi⟩) (toState d v) (toState d w)) := by
    funext v w
    cases entvar <;> simp [irFlux, hdi]
  unfold irJacL irJacR
  rw [e]
  refine kernel2 fun a b x ha hb ea eb => ?_
  have good := goodZ hL.adm hR.adm h
  cases entvar with
  | false =>
    have hL' : Admissible (a x) := by rw [ea]; simpa [Physical] using hL
    have hR' : Admissible (b x) := by rw [eb]; simpa [Physical] using hR
    have good' : GoodZ (zCons (a x)) (zCons (b x)) := by rw [ea, eb]; exact good
    exact SD.irFluxZ (ha.zCons hL'.rho_pos hL'.press_pos) (hb.zCons hR'.rho_pos hR'.press_pos) good' _
  | true =>
    have hL' : (toState d qL).ener < 0 := by simpa [Physical] using hL
    have hR' : (toState d qR).ener < 0 := by simpa [Physical] using hR
    have good' : GoodZ (EulerFluxes.zEnt (a x)) (EulerFluxes.zEnt (b x)) := by
      rw [ea, eb, zEnt_cons hL', zEnt_cons hR']; exact good
    exact SD.irFluxZ (ha.zEnt (by rw [ea]; exact hL')) (hb.zEnt (by rw [eb]; exact hR')) good' _

/-- C209, volume term.  For every element, mapping and weight, in either set of variables: at every field
of physical states, no two of which sit exactly at the switch of the logarithmic mean, the element matrix
assembled from the recorded Jacobians is the Jacobian of the element residual. -/
theorem C209_volume (e : Elem ℝ) (hd : e.dim = d) (alpha : ℝ) (adj : ℕ → ℕ → ℕ → ℝ) (u : ℕ → ℝ)
    (hu : ∀ i < e.dof, Physical d entvar (row u e.dof i))
    (hs : ∀ i < e.dof, ∀ j < e.dof, NotSwitching (consAt d entvar (row u e.dof i)) (consAt d entvar (row u e.dof j))) :
    ExactJac ((d + 2) * e.dof) (irVec d entvar e alpha adj) (irGrad d entvar e alpha adj u) u :=
  C92_gradient e (d + 2) alpha (irFlux d entvar) (irJacL d entvar) (irJacR d entvar) adj u
    fun di hdi i j hij hj => ir_exact di (hd ▸ hdi) (hu i (hij.trans hj)) (hu j hj) (hs i (hij.trans hj) j hj)

theorem ident_exact {ns : ℕ} {F : (ℕ → ℝ) → ℕ → ℝ} (hF : ∀ q, ∀ n < ns, F q n = q n) (q : ℕ → ℝ) :
    ExactJac ns F ident q := by
  intro c w _ hc n hn
  refine ((hc n hn).congr_of_eventuallyEq (Filter.Eventually.of_forall fun t => hF _ n hn)).congr_deriv ?_
  simp [ident, hn]

theorem lpsConvert_exact {q : ℕ → ℝ} (hq : Physical d entvar q) :
    ExactJac (d + 2) (lpsConvert d entvar) (lpsConvertJac d entvar q) q := by
  cases entvar with
  | true =>
    simp only [lpsConvertJac, if_true]
    exact ident_exact (fun q n hn => by simp [lpsConvert, entVarsOf, ofState_toState q n hn]) q
  | false =>
    have hq' : Admissible (toState d q) := by simpa [Physical] using hq
    simp only [lpsConvertJac, Bool.false_eq_true, if_false]
    refine kernel1 (G := entVarsOf false) fun s x hs e => ?_
    exact hs.entVars (by rw [e]; exact hq'.rho_pos) (by rw [e]; exact hq'.press_pos)

/-- The momentum along a column of the mapping adjugate (its sign decides the sign of the normal
velocity), or the column vanishes. -/
def NotStagnant (d : ℕ) (entvar : Bool) (adjJ : ℕ → ℕ → ℝ) (q : ℕ → ℝ) : Prop :=
  ∀ i < d, (∑ k : Fin d, (consAt d entvar q).mom k * adjJ k i) ≠ 0 ∨ ∀ k < d, adjJ k i = 0

/-! ### Partial Jacobians -/

theorem jac2_left {ns : ℕ} {F : (ℕ → ℝ) → (ℕ → ℝ) → ℕ → ℝ} {JL JR : ℕ → ℕ → ℝ} {q v : ℕ → ℝ}
    (h : ExactJac2 ns F JL JR q v) (n m : ℕ) (hn : n < ns) (hm : m < ns) :
    jac1 ns (fun x => F x v) q n m = JL n m := by
  have h1 := h (fun t k => if k = m then q k + t else q k) (fun _ => v) (fun k => if k = m then 1 else 0)
    (fun _ => 0) (by funext k; split_ifs <;> simp) rfl (fun k _ => by
      by_cases hk : k = m
      · simp only [hk, if_true]; exact (hasDerivAt_id' (0 : ℝ)).const_add _
      · simp only [hk, if_false]; exact hasDerivAt_const _ _) (fun k _ => hasDerivAt_const _ _) n hn
  have e1 : (n + m * ns) / ns = m := by
    rw [Nat.add_mul_div_right _ _ (by omega : 0 < ns), Nat.div_eq_of_lt hn, zero_add]
  have e2 : (n + m * ns) % ns = n := by rw [Nat.add_mul_mod_self_right, Nat.mod_eq_of_lt hn]
  simp only [jac1, dense, stackJac, e1, e2]
  have h2 : HasDerivAt (fun t => F (Function.update q m t) v n) (JL n m) (q m) := by
    have h3 := HasDerivAt.comp_sub_const (x := q m) (a := q m) (f := fun t => F (fun k => if k = m then q k + t else q k) v n)
      (by rw [sub_self]; exact h1)
    refine (h3.congr_of_eventuallyEq (Filter.Eventually.of_forall fun t => ?_)).congr_deriv ?_
    · simp only
      congr 1
      funext k
      by_cases hk : k = m
      · subst hk; simp
      · simp [hk]
    · simp [hm]
  exact h2.deriv

theorem jac2_right {ns : ℕ} {F : (ℕ → ℝ) → (ℕ → ℝ) → ℕ → ℝ} {JL JR : ℕ → ℕ → ℝ} {q v : ℕ → ℝ}
    (h : ExactJac2 ns F JL JR q v) (n m : ℕ) (hn : n < ns) (hm : m < ns) :
    jac1 ns (fun x => F q x) v n m = JR n m := by
  refine jac2_left (F := fun a b => F b a) (JR := JL) ?_ n m hn hm
  intro a b x y ha hb hx hy n hn
  refine (h b a y x hb ha hy hx n hn).congr_deriv (sum_congr rfl fun _ _ => add_comm _ _)

theorem ExactJac2.congr {ns : ℕ} {F : (ℕ → ℝ) → (ℕ → ℝ) → ℕ → ℝ} {JL JR JL' JR' : ℕ → ℕ → ℝ} {q v : ℕ → ℝ}
    (h : ExactJac2 ns F JL JR q v) (hl : ∀ n < ns, ∀ m < ns, JL' n m = JL n m)
    (hr : ∀ n < ns, ∀ m < ns, JR' n m = JR n m) : ExactJac2 ns F JL' JR' q v := by
  intro a b x y ha hb hx hy n hn
  refine (h a b x y ha hb hx hy n hn).congr_deriv (sum_congr rfl fun m hm => ?_)
  rw [mem_range] at hm
  rw [hl n hn m hm, hr n hn m hm]

/-- The scaling is linear in the scaled vector. -/
theorem dQdW_linear (q a b : State d) (t : ℝ) :
    calcdQdWProduct q (State.map2 (fun x y => x + t * y) a b) =
      State.map2 (fun x y => x + t * y) (calcdQdWProduct q a) (calcdQdWProduct q b) := by
  unfold calcdQdWProduct State.map2
  ext i
  · simp only [mul_add, sum_add_distrib, mul_left_comm _ t, ← mul_sum]; ring
  · simp only [mul_add, sum_add_distrib, mul_left_comm _ t, ← mul_sum]; ring
  · simp only [mul_add, sum_add_distrib, mul_left_comm _ t, ← mul_sum]; ring

theorem ofState_map2 (f : ℝ → ℝ → ℝ) (a b : State d) (n : ℕ) :
    ofState (State.map2 f a b) n = f (ofState a n) (ofState b n) := by
  unfold ofState State.map2
  split_ifs <;> rfl

theorem toState_update (v : ℕ → ℝ) (m : ℕ) (t : ℝ) : toState d (Function.update v m t) =
    State.map2 (fun x y => x + t * y) (toState d (Function.update v m 0))
      (toState d (fun k => if k = m then 1 else 0)) := by
  have h : ∀ k, Function.update v m t k = Function.update v m 0 k + t * (if k = m then 1 else 0) := by
    intro k
    by_cases hk : k = m
    · subst hk; simp
    · simp [hk]
  unfold toState State.map2
  simp only [h]

/-- The scaling in the conservative state. -/
theorem lpsScale_eq (adjJ : ℕ → ℕ → ℝ) (q v : ℕ → ℝ) : lpsScale d entvar adjJ q v =
    ofState (applyLPSScaling (fun i k : Fin d => adjJ k i) (consOf entvar (toState d q)) (toState d v)) := by
  cases entvar <;> simp [lpsScale, consOf, applyLPSScalingUsingEntVars]

theorem lps_eq_map2 (A : Fin d → Fin d → ℝ) (q v : State d) : applyLPSScaling A q v =
    State.map2 (fun x _ => x * ((∑ i, calcSpectralRadius false (A i) q) / (d : ℝ))) (calcdQdWProduct q v) v := rfl

theorem lpsScale_jacV (adjJ : ℕ → ℕ → ℝ) (q v v' : ℕ → ℝ) (n m : ℕ) (hn : n < d + 2) :
    jac1 (d + 2) (fun x => lpsScale d entvar adjJ q x) v n m =
      jac1 (d + 2) (fun x => lpsScale d entvar adjJ q x) v' n m := by
  have e1 : (n + m * (d + 2)) / (d + 2) = m := by
    rw [Nat.add_mul_div_right _ _ (by omega : 0 < d + 2), Nat.div_eq_of_lt hn, zero_add]
  have e2 : (n + m * (d + 2)) % (d + 2) = n := by rw [Nat.add_mul_mod_self_right, Nat.mod_eq_of_lt hn]
  simp only [jac1, dense, stackJac, e1, e2]
  have key : ∀ (v : ℕ → ℝ) (s : ℝ), deriv (fun t => lpsScale d entvar adjJ q (Function.update v m t) n) s =
      lpsScale d entvar adjJ q (fun k => if k = m then 1 else 0) n := by
    intro v s
    have e : (fun t => lpsScale d entvar adjJ q (Function.update v m t) n) = fun t =>
        lpsScale d entvar adjJ q (Function.update v m 0) n +
          t * lpsScale d entvar adjJ q (fun k => if k = m then 1 else 0) n := by
      funext t
      simp only [lpsScale_eq, lps_eq_map2, ofState_map2]
      rw [toState_update v m t, dQdW_linear, ofState_map2]
      ring
    rw [e]
    exact (((hasDerivAt_id' s).mul_const _).const_add _).deriv.trans (one_mul _)
  rw [key, key]

theorem lpsScale_exact (adjJ : ℕ → ℕ → ℝ) {q v : ℕ → ℝ} (hq : Physical d entvar q)
    (hs : NotStagnant d entvar adjJ q) :
    ExactJac2 (d + 2) (lpsScale d entvar adjJ) (lpsScaleJacState d entvar adjJ q v)
      (lpsScaleJacV d entvar adjJ q) q v := by
  have e : lpsScale d entvar adjJ = fun q v => ofState ((fun a b => applyLPSScaling (fun i k : Fin d => adjJ k i)
      (consOf entvar a) b) (toState d q) (toState d v)) := by
    funext q v; exact lpsScale_eq adjJ q v
  have h2 : ExactJac2 (d + 2) (lpsScale d entvar adjJ) (jac2L (d + 2) (lpsScale d entvar adjJ) q v)
      (jac2R (d + 2) (lpsScale d entvar adjJ) q v) q v := by
    rw [e]
    refine kernel2 (G := fun a b => applyLPSScaling (fun i k : Fin d => adjJ k i) (consOf entvar a) b)
      fun a b x ha hb ea eb => ?_
    have hadm : Admissible (consOf entvar (a x)) := by rw [ea]; exact hq.adm
    refine SD.lpsScaling (ha.consOf fun he => ?_) hb hadm.rho_pos hadm.press_pos fun i => ?_
    · subst he; rw [ea]; simpa [Physical] using hq
    · rw [ea]
      rcases hs i i.2 with h | h
      · exact Or.inl h
      · exact Or.inr (funext fun k => h k k.2)
  refine ExactJac2.congr h2 (fun n hn m hm => jac2_left h2 n m hn hm) fun n hn m hm => ?_
  rw [← jac2_right h2 n m hn hm]
  exact lpsScale_jacV adjJ q q v n m hn

/-- C209, stabilisation (as the flow residual adds it, with LPS coefficient 1).  At every field of physical
states whose velocity is not exactly tangential to a mapped grid direction at some node, the matrix is the
Jacobian of the stabilisation residual. -/
theorem C209_stabilisation (e : Elem ℝ) (alpha : ℝ) (adj : ℕ → ℕ → ℕ → ℝ) (u : ℕ → ℝ)
    (hu : ∀ i < e.dof, Physical d entvar (row u e.dof i))
    (hs : ∀ i < e.dof, NotStagnant d entvar (adj i) (row u e.dof i)) :
    ExactJac ((d + 2) * e.dof) (entLpsVec d entvar e alpha 1 adj) (entLpsGrad d entvar e alpha adj u) u :=
  C93_gradient_partial e (d + 2) alpha (lpsConvert d entvar) (lpsConvertJac d entvar)
    (fun i => lpsScale d entvar (adj i)) (fun i => lpsScaleJacState d entvar (adj i))
    (fun i => lpsScaleJacV d entvar (adj i)) u (fun i hi => lpsConvert_exact (hu i hi))
    (fun k hk => lpsScale_exact (adj k) (hu k hk) (hs k hk))

/-- C209, mass term: the matrix is the Jacobian of the conservative variables' mass, everywhere. -/
theorem C209_mass (N : ℕ) (alpha : ℝ) (w u : ℕ → ℝ) (hu : ∀ i < N, Physical d entvar (row u N i)) :
    ExactJac ((d + 2) * N) (massVec N (d + 2) alpha w (massConvert d entvar))
      (eulerMassGrad d entvar N alpha w u) u := by
  refine C96_gradient N (d + 2) alpha w _ _ u fun i hi => ?_
  have h := hu i hi
  cases entvar with
  | false =>
    simp only [massConvertJac, Bool.false_eq_true, if_false]
    exact ident_exact (fun q n hn => by simp [massConvert, consOf, ofState_toState q n hn]) _
  | true =>
    have h' : (toState d (row u N i)).ener < 0 := by simpa [Physical] using h
    simp only [massConvertJac, if_true]
    refine kernel1 (G := consOf true) fun s x hs e => ?_
    exact hs.consVars (by rw [e]; exact h')

/-! ### Boundary terms -/

/-- A boundary kernel of the conservative state. -/
theorem bc_exact {G : State d → State d} {q : ℕ → ℝ} (hq : Physical d entvar q)
    (hG : ∀ s : (Fin (d + 2) → ℝ) → State d, ∀ x, SD s x → Admissible (s x) → SD (fun y => G (s y)) x) :
    ExactJac (d + 2) (fun v => ofState (G (consOf entvar (toState d v))))
      (jac1 (d + 2) (fun v => ofState (G (consOf entvar (toState d v)))) q) q := by
  refine kernel1 (G := fun s => G (consOf entvar s)) fun s x hs e => ?_
  refine hG _ _ (hs.consOf fun he => ?_) ?_
  · subst he; rw [e]; simpa [Physical] using hq
  · rw [e]; exact hq.adm

theorem wAw_ne {q : State d} (h : Admissible q) :
    sdot (calcEntropyVars q) (calcdQdWProduct q (calcEntropyVars q)) ≠ 0 := by
  have hw : calcEntropyVars q ≠ ⟨0, fun _ => 0, 0⟩ := by
    intro e
    have := C53_entvars_range q h
    rw [e] at this
    exact lt_irrefl _ this
  have := C58_positive_definite q _ h hw
  exact this.ne'

/-- C209, boundary terms.  For every boundary condition of the Euler residual - slip wall, far field,
isentropic vortex, entropy conservative, actuated wall - and every boundary state, normal and position, the
face matrix is the Jacobian of the face residual at every field of physical states (no switches). -/
theorem C209_boundary (f : Face ℝ) (N : ℕ) (alpha : ℝ) (u : ℕ → ℝ) (hl : ∀ i < f.n, f.left i < N)
    (flux : (ℕ → ℝ) → (ℕ → ℝ) → (ℕ → ℝ) → ℕ → ℝ)
    (hflux : flux = slipWallFlux d entvar ∨ (∃ qfs, flux = farFieldFlux d entvar qfs) ∨
      (∃ bc, flux = ecFlux d entvar bc) ∨ (∃ c scale, flux = controlFlux d entvar c scale) ∨
      (d = 2 ∧ flux = vortexFlux entvar))
    (hu : ∀ i < f.n, Physical d entvar (row u N (f.left i))) :
    ExactJac ((d + 2) * N) (bndVec f N (d + 2) alpha flux) (bndGrad f N (d + 2) alpha (bcJacState d flux) u) u := by
  refine C94_gradient f N (d + 2) alpha flux _ u hl fun i hi => ?_
  have hq := hu i hi
  rcases hflux with rfl | ⟨qfs, rfl⟩ | ⟨bc, rfl⟩ | ⟨c, scale, rfl⟩ | ⟨rfl, rfl⟩
  · refine kernel1 (G := calcSlipWallFlux entvar (toDir d (f.nrm i))) fun s x hs e => SD.slipWall _ _ hs ?_
    rw [e]
    cases entvar with
    | false =>
      have : Admissible (toState d (row u N (f.left i))) := by simpa [Physical] using hq
      exact this.rho_pos.ne'
    | true => simpa [Physical] using hq
  · exact bc_exact (G := calcBoundaryFlux (toDir d (f.nrm i)) qfs) hq fun s x hs ha =>
      SD.boundaryFlux _ _ hs ha.rho_pos.ne'
  · exact bc_exact (G := fun q => calcBoundaryFluxEC (toDir d (f.nrm i)) (bc (f.x i)) q
      (ecEntFlux (toDir d (f.nrm i)) (bc (f.x i)))) hq fun s x hs ha =>
      SD.boundaryFluxEC _ _ _ hs ha.rho_pos ha.press_pos (wAw_ne ha)
  · exact bc_exact (G := fun q => calcControlFlux (toDir d (f.nrm i)) q (c * scale (f.x i))) hq fun s x hs ha =>
      SD.controlFlux _ _ hs ha.rho_pos.ne'
  · exact bc_exact (d := 2) (G := calcBoundaryFlux (toDir 2 (f.nrm i)) (calcIsentropicVortexState (toDir 2 (f.x i))))
      hq fun s x hs ha => SD.boundaryFlux _ _ hs ha.rho_pos.ne'

/-! ### Interior faces -/

theorem SD.faceFlux (dir : Fin d → ℝ) {E : Type*} [NormedAddCommGroup E] [NormedSpace ℝ E] {x : E}
    {a b : E → State d} (ha : SD a x) (hb : SD b x) (hL : Admissible (a x)) (hR : Admissible (b x))
    (h : NotSwitching (a x) (b x)) : SD (fun y => calcIsmailRoeFaceFlux dir (a y) (b y)) x := by
  have za := ha.zCons hL.rho_pos hL.press_pos
  have zb := hb.zCons hR.rho_pos hR.press_pos
  have good := goodZ hL hR h
  refine SD.irFaceZ za zb good dir (DifferentiableAt.fun_sum fun i _ => ?_)
  exact ((((za.1.fun_mul (ha.2.1 i)).dv ha.1 hL.rho_pos.ne').fun_add
    ((zb.1.fun_mul (hb.2.1 i)).dv hb.1 hR.rho_pos.ne')).mul_const _).dv (za.1.fun_add zb.1) (sum_ne za zb good)

theorem SD.faceFluxEnt (dir : Fin d → ℝ) {E : Type*} [NormedAddCommGroup E] [NormedSpace ℝ E] {x : E}
    {a b : E → State d} (ha : SD a x) (hb : SD b x) (hL : (a x).ener < 0) (hR : (b x).ener < 0)
    (h : NotSwitching (calcConservativeVars (a x)) (calcConservativeVars (b x))) :
    SD (fun y => calcIsmailRoeFaceFluxUsingEntVars dir (a y) (b y)) x := by
  have za := ha.zEnt hL
  have zb := hb.zEnt hR
  have good : GoodZ (EulerFluxes.zEnt (a x)) (EulerFluxes.zEnt (b x)) := by
    rw [zEnt_cons hL, zEnt_cons hR]
    exact goodZ (C53_cons_admissible _ hL) (C53_cons_admissible _ hR) h
  refine SD.irFaceZ za zb good dir (DifferentiableAt.fun_sum fun i _ => ?_)
  exact (((za.2.1 i).fun_add (zb.2.1 i)).mul_const _).dv (za.1.fun_add zb.1) (sum_ne za zb good)

/-- The dissipation term. -/
theorem SD.diss (dir : Fin d → ℝ) (k : ℝ) {E : Type*} [NormedAddCommGroup E] [NormedSpace ℝ E] {x : E}
    {flux qL qR wL wR : E → State d} (hf : SD flux x) (ha : SD qL x) (hb : SD qR x) (hwL : SD wL x)
    (hwR : SD wR x) (hL : Admissible (qL x)) (hR : Admissible (qR x))
    (hU : (∑ i, ((qL x).mom i + (qR x).mom i) * dir i) ≠ 0 ∨ dir = 0) :
    SD (fun y => State.map2 (fun u v => u + k * calcSpectralRadius false dir
      (State.map2 (fun x y => 1 / 2 * (x + y)) (qL y) (qR y)) * v) (flux y)
      (calcdQdWProduct (State.map2 (fun x y => 1 / 2 * (x + y)) (qL y) (qR y))
        (State.map2 (fun x y => x - y) (wL y) (wR y)))) x := by
  have dq : SD (fun y => State.map2 (fun x y => 1 / 2 * (x + y)) (qL y) (qR y)) x :=
    SD.map2 (f := fun _ u v => 1 / 2 * (u + v)) ha hb fun u v hu hv => (hu.fun_add hv).const_mul _
  have dw : SD (fun y => State.map2 (fun x y => x - y) (wL y) (wR y)) x :=
    SD.map2 (f := fun _ u v => u - v) hwL hwR fun u v hu hv => hu.fun_sub hv
  have adm := half_admissible _ _ hL hR
  have e : dot (State.map2 (fun x y => 1 / 2 * (x + y)) (qL x) (qR x)).mom dir =
      1 / 2 * ∑ i, ((qL x).mom i + (qR x).mom i) * dir i := by
    unfold dot State.map2
    rw [mul_sum]
    exact sum_congr rfl fun i _ => by ring
  have hU' : dot (State.map2 (fun x y => 1 / 2 * (x + y)) (qL x) (qR x)).mom dir ≠ 0 ∨ dir = 0 := by
    refine hU.imp (fun h => ?_) id
    rw [e]
    exact mul_ne_zero (by norm_num) h
  have ds := diff_spect (dir := dir) dq adm.rho_pos adm.press_pos hU'
  have dm := SD.dQdW dq dw adm.rho_pos.ne'
  exact SD.map2 (f := fun y u v => u + k * calcSpectralRadius false dir
    (State.map2 (fun x y => 1 / 2 * (x + y)) (qL y) (qR y)) * v) hf dm fun u v hu hv =>
    hu.fun_add ((ds.const_mul k).fun_mul hv)

theorem iface_exact (diss : ℝ) (dir : ℕ → ℝ) {qL qR : ℕ → ℝ} (hL : Physical d entvar qL)
    (hR : Physical d entvar qR) (h : NotSwitching (consAt d entvar qL) (consAt d entvar qR))
    (hU : (∑ k : Fin d, ((consAt d entvar qL).mom k + (consAt d entvar qR).mom k) * dir k) ≠ 0 ∨
      ∀ k < d, dir k = 0) :
    ExactJac2 (d + 2) (ifaceFlux d entvar diss dir) (ifaceJacL d entvar diss dir qL qR)
      (ifaceJacR d entvar diss dir qL qR) qL qR := by
  have e : ifaceFlux d entvar diss dir = fun v w => ofState ((if entvar then
      calcIsmailRoeFaceFluxWithDissUsingEntVars (toDir d dir) diss
      else calcIsmailRoeFaceFluxWithDiss (toDir d dir) diss) (toState d v) (toState d w)) := by
    funext v w
    cases entvar <;> rfl
  have hU' : (∑ k : Fin d, ((consAt d entvar qL).mom k + (consAt d entvar qR).mom k) * toDir d dir k) ≠ 0 ∨
      toDir d dir = 0 := hU.imp id fun h => funext fun k => h k k.2
  unfold ifaceJacL ifaceJacR
  rw [e]
  refine kernel2 fun a b x ha hb ea eb => ?_
  cases entvar with
  | false =>
    have hL' : Admissible (a x) := by rw [ea]; simpa [Physical] using hL
    have hR' : Admissible (b x) := by rw [eb]; simpa [Physical] using hR
    refine SD.diss (toDir d dir) diss (SD.faceFlux (toDir d dir) ha hb hL' hR' ?_) ha hb
      (ha.entVars hL'.rho_pos hL'.press_pos) (hb.entVars hR'.rho_pos hR'.press_pos) hL' hR' ?_
    · rw [ea, eb]; exact h
    · rw [ea, eb]; exact hU'
  | true =>
    have hL' : (a x).ener < 0 := by rw [ea]; simpa [Physical] using hL
    have hR' : (b x).ener < 0 := by rw [eb]; simpa [Physical] using hR
    refine SD.diss (toDir d dir) diss (SD.faceFluxEnt (toDir d dir) ha hb hL' hR' ?_) (ha.consVars hL')
      (hb.consVars hR') ha hb (C53_cons_admissible _ hL') (C53_cons_admissible _ hR') ?_
    · rw [ea, eb]; exact h
    · rw [ea, eb]; exact hU'

theorem toDir_scale (c : ℝ) (dir : ℕ → ℝ) : toDir d (fun k => dir k * c) = fun k => toDir d dir k * c := rfl

theorem dot_scale (a b : Fin d → ℝ) (c : ℝ) : dot a (fun k => b k * c) = c * dot a b := by
  unfold dot; rw [mul_sum]; exact sum_congr rfl fun i _ => by ring

theorem spect_scale (dir : Fin d → ℝ) (q : State d) {c : ℝ} (hc : 0 ≤ c) :
    calcSpectralRadius false (fun k => dir k * c) q = c * calcSpectralRadius false dir q := by
  have e : dot (fun k => dir k * c) (fun k => dir k * c) = c ^ 2 * dot dir dir := by
    unfold dot; rw [mul_sum]; exact sum_congr rfl fun i _ => by ring
  simp only [calcSpectralRadius]
  rw [dot_scale, e, Real.sqrt_mul (sq_nonneg c), Real.sqrt_sq hc, mul_div_assoc, abs_mul, abs_of_nonneg hc]
  ring

/-- The interface flux is positively homogeneous in the normal. -/
theorem iface_hom (diss c : ℝ) (hc : 0 ≤ c) (dir a b : ℕ → ℝ) (n : ℕ) :
    ifaceFlux d entvar diss (fun k => dir k * c) a b n = c * ifaceFlux d entvar diss dir a b n := by
  have face : ∀ (U : ℝ) (D : Fin d → ℝ) (zL zR : State d), irFaceZ (fun k => D k * c) (c * U) zL zR =
      State.map2 (fun x _ => c * x) (irFaceZ D U zL zR) (irFaceZ D U zL zR) := by
    intro U D zL zR
    unfold irFaceZ State.map2
    ext i <;> simp only <;> ring
  have fin : ∀ (f f' g : State d) (l l' : ℝ), f' = State.map2 (fun x _ => c * x) f f → l' = c * l →
      ofState (State.map2 (fun x y => x + diss * l' * y) f' g) n =
        c * ofState (State.map2 (fun x y => x + diss * l * y) f g) n := by
    rintro f f' g l l' rfl rfl
    simp only [ofState_map2]; ring
  cases entvar with
  | false =>
    refine fin _ _ _ _ _ ?_ (spect_scale _ _ hc)
    simp only [calcIsmailRoeFaceFlux, toDir_scale]
    rw [← face]
    congr 1
    rw [mul_sum]
    exact sum_congr rfl fun i _ => by ring
  | true =>
    refine fin _ _ _ _ _ ?_ (spect_scale _ _ hc)
    simp only [calcIsmailRoeFaceFluxUsingEntVars, toDir_scale]
    rw [← face]
    congr 1
    rw [mul_sum]
    exact sum_congr rfl fun i _ => by ring

/-- C209, interior faces (the flow residual uses `alpha = 1`): the face matrix is the Jacobian of the face
residual at every pair of physical traces off the switch of the logarithmic mean and whose mean velocity is
not exactly tangential to the face. -/
theorem C209_interface (f : Face ℝ) (NL NR : ℕ) (alpha : ℝ) (ha : 0 ≤ alpha) (diss : ℝ) (u : ℕ → ℝ)
    (hl : ∀ i < f.n, f.left i < NL) (hr : ∀ i < f.n, f.right i < NR)
    (hL : ∀ i < f.n, Physical d entvar (row u NL (f.left i)))
    (hR : ∀ i < f.n, Physical d entvar (rowRight u (d + 2) NL NR (f.right i)))
    (hs : ∀ i < f.n, NotSwitching (consAt d entvar (row u NL (f.left i)))
      (consAt d entvar (rowRight u (d + 2) NL NR (f.right i))))
    (hU : ∀ i < f.n, (∑ k : Fin d, ((consAt d entvar (row u NL (f.left i))).mom k +
      (consAt d entvar (rowRight u (d + 2) NL NR (f.right i))).mom k) * f.nrm i k) ≠ 0) :
    ExactJac ((d + 2) * (NL + NR)) (faceVec f NL NR (d + 2) alpha (ifaceFlux d entvar diss))
      (faceGrad f NL NR (d + 2) alpha (ifaceJacL d entvar diss) (ifaceJacR d entvar diss) u) u := by
  refine C95_gradient_partial f NL NR (d + 2) alpha ha _ _ _ u hl hr
    (fun c hc D a b n => iface_hom diss c hc D a b n) fun i hi => ?_
  refine iface_exact diss _ (hL i hi) (hR i hi) (hs i hi) ?_
  by_cases h0 : alpha * f.w i = 0
  · exact Or.inr fun k _ => by simp [h0]
  · refine Or.inl ?_
    have e : (∑ k : Fin d, ((consAt d entvar (row u NL (f.left i))).mom k +
      (consAt d entvar (rowRight u (d + 2) NL NR (f.right i))).mom k) * (f.nrm i k * (alpha * f.w i))) =
      (∑ k : Fin d, ((consAt d entvar (row u NL (f.left i))).mom k +
      (consAt d entvar (rowRight u (d + 2) NL NR (f.right i))).mom k) * f.nrm i k) * (alpha * f.w i) := by
      rw [sum_mul]; exact sum_congr rfl fun k _ => by ring
    rw [e]
    exact mul_ne_zero (hU i hi) h0

/-- C209, surface force: the reverse-mode gradient is the gradient of the pressure force. -/
theorem C209_pressure_force (forceNrm : Fin d → ℝ) (x dir q : ℕ → ℝ) (hq : Physical d entvar q)
    (c : ℝ → ℕ → ℝ) (w : ℕ → ℝ) (h0 : c 0 = q) (hc : ∀ m < d + 2, HasDerivAt (fun t => c t m) (w m) 0) :
    HasDerivAt (fun t => pressureForce d entvar forceNrm x dir (c t))
      (∑ m ∈ range (d + 2), pressureForceGrad d entvar forceNrm x dir q m * w m) 0 := by
  have := stackJac_exact (rows := 1) (cols := d + 2) (F := fun y _ => pressureForce d entvar forceNrm x dir y)
    (q := q) (fun n _ => ?_) (fun a b h n _ => ?_) c w h0 hc 0 (by omega)
  · refine this.congr_deriv (sum_congr rfl fun m _ => ?_)
    simp [dense, pressureForceGrad]
  · unfold pressureForce
    refine diff_dot (fun i => differentiableAt_const _) (SD.slipWall entvar _ (SD.pad0 _) ?_).2.1
    rw [at_pad]
    cases entvar with
    | false =>
      have : Admissible (toState d q) := by simpa [Physical] using hq
      exact this.rho_pos.ne'
    | true => simpa [Physical] using hq
  · simp only [pressureForce]
    rw [toState_congr h]

/-! ### Where the residual has no Jacobian, and concrete cases -/

/-- Fluid at rest with density 1 and pressure 1 in one dimension, moving at speed `t` at constant pressure. -/
noncomputable def started (t : ℝ) : ℕ → ℝ
  | 0 => 1
  | 1 => t
  | _ => 5 / 2 + 1 / 2 * (t * t)

theorem started_physical (t : ℝ) : Physical 1 false (started t) := by
  simp only [Physical, Bool.false_eq_true, if_false, Admissible, toState, started]
  norm_num
  nlinarith

/-- The scaled vector for the constant unit jump: `|t|` plus the speed of sound. -/
theorem lpsScale_started (t : ℝ) :
    lpsScale 1 false (fun _ _ => 1) (started t) (fun n => if n = 0 then 1 else 0) 0 = |t| + √(7 / 5) := by
  simp only [lpsScale, ofState, Bool.false_eq_true, if_false, if_true, applyLPSScaling, calcSpectralRadius,
    calcdQdWProduct, consOf, toState, started, pressure, dot, Fin.sum_univ_one, gamma, gami]
  norm_num

/-- At a stagnation point the stabilisation's scaling kernel has no Jacobian at all, so no matrix, whatever
Adept returns, is its Jacobian: the hypothesis `NotStagnant` of `C209_stabilisation` cannot be dropped. -/
theorem C209_stagnation_false : ¬ ∃ J : ℕ → ℕ → ℝ, ExactJac (1 + 2)
    (fun q => lpsScale 1 false (fun _ _ => 1) q (fun n => if n = 0 then 1 else 0)) J (started 0) := by
  rintro ⟨J, h⟩
  have hd := h started (fun n => if n = 1 then 1 else 0) rfl (fun m hm => ?_) 0 (by norm_num)
  · have e : (fun t => lpsScale 1 false (fun _ _ => 1) (started t) (fun n => if n = 0 then 1 else 0) 0) =
        fun t : ℝ => |t| + √(7 / 5) := funext lpsScale_started
    rw [e] at hd
    exact not_differentiableAt_abs_zero
      ((hd.differentiableAt.sub_const (√(7 / 5))).congr_of_eventuallyEq
        (Filter.Eventually.of_forall fun t => by ring_nf))
  · have hm' : m = 0 ∨ m = 1 ∨ m = 2 := by omega
    rcases hm' with rfl | rfl | rfl
    · simpa [started] using hasDerivAt_const (0 : ℝ) (1 : ℝ)
    · simpa [started] using hasDerivAt_id' (0 : ℝ)
    · have := ((((hasDerivAt_id (0 : ℝ)).fun_mul (hasDerivAt_id (0 : ℝ))).const_mul (1 / 2)).const_add (5 / 2))
      simpa [started] using this

/-- Two equal physical states are off the switch. -/
theorem notSwitching_self {q : State d} (h : Admissible q) : NotSwitching q q := by
  have hp := h.press_pos
  have hr := h.rho_pos
  have s : ∀ x : ℝ, 0 < x → OffSwitch (√x) (√x) := by
    intro x hx
    have := (Real.sqrt_pos.2 hx).ne'
    unfold OffSwitch
    rw [div_self this]; norm_num
  exact ⟨s _ (div_pos hr hp), s _ (mul_pos hr hp)⟩

/-- The hypotheses of `C209_volume` are met by uniform flow at any speed. -/
example (e : Elem ℝ) (t : ℝ) (u : ℕ → ℝ) (hu : ∀ i < e.dof, row u e.dof i = started t) :
    (∀ i < e.dof, Physical 1 false (row u e.dof i)) ∧
      ∀ i < e.dof, ∀ j < e.dof, NotSwitching (consAt 1 false (row u e.dof i)) (consAt 1 false (row u e.dof j)) := by
  have hp := started_physical t
  refine ⟨fun i hi => by rw [hu i hi]; exact hp, fun i hi j hj => ?_⟩
  rw [hu i hi, hu j hj]
  exact notSwitching_self (by simpa [Physical, consAt, consOf] using hp)

/-- The hypothesis of `C209_stabilisation` is met by moving fluid, -/
example : NotStagnant 1 false (fun _ _ => 1) (started 1) := by
  intro i _
  refine Or.inl ?_
  simp [consAt, consOf, toState, started]

/-- and not by fluid at rest. -/
example : ¬ NotStagnant 1 false (fun _ _ => 1) (started 0) := by
  intro h
  have := h 0 (by norm_num)
  simp [consAt, consOf, toState, started] at this

/-- The hypothesis of `C209_interface` on the mean momentum is met by moving fluid. -/
example : (∑ k : Fin 1, ((consAt 1 false (started 1)).mom k + (consAt 1 false (started 2)).mom k) * 1) ≠ 0 := by
  simp [consAt, consOf, toState, started]
  norm_num

end Verif.AdJacobian
