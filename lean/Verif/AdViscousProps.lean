import Verif.AdJacobianProps
import Verif.AdViscous
import Verif.ViscousIntegProps
import Verif.ViscousProps

/-!
# C210: the Newton matrix of the viscous terms is exact
-/

set_option linter.unusedSectionVars false

namespace Verif.AdViscous
open Verif.EulerFluxes Verif.Sbp Verif.Inviscid Verif.EulerInteg Verif.Viscous Verif.ViscousInteg
  Verif.NavierStokes Verif.AdJacobian Finset

/-! ### The two recordings of a kernel of a state and an array of derivatives -/

/-- The kernel as a function of all its inputs. -/
def joint (ns : ℕ) (F : (ℕ → ℝ) → (ℕ → ℕ → ℝ) → ℕ → ℝ) (x : ℕ → ℝ) : ℕ → ℝ :=
  F x (unflat ns (fun k => x (ns + k)))

/-- Only the `ns` states and the `ns x dim` derivatives matter. -/
def LocalDw (rows ns dim : ℕ) (F : (ℕ → ℝ) → (ℕ → ℕ → ℝ) → ℕ → ℝ) : Prop :=
  ∀ a b A B, (∀ m < ns, a m = b m) → (∀ m < ns, ∀ j < dim, A m j = B m j) → ∀ n < rows, F a A n = F b B n

theorem flat_idx {ns dim m j : ℕ} (hm : m < ns) (hj : j < dim) : j * ns + m < dim * ns := by
  have : (j + 1) * ns ≤ dim * ns := Nat.mul_le_mul_right _ hj
  rw [add_mul, one_mul] at this
  omega

theorem unflat_flat {ns : ℕ} (Dw : ℕ → ℕ → ℝ) {m : ℕ} (hm : m < ns) (j : ℕ) : unflat ns (flat ns Dw) m j = Dw m j := by
  unfold unflat flat
  have e1 : (j * ns + m) % ns = m := by
    rw [add_comm, Nat.add_mul_mod_self_right, Nat.mod_eq_of_lt hm]
  have e2 : (j * ns + m) / ns = j := by
    rw [add_comm, Nat.add_mul_div_right _ _ (by omega), Nat.div_eq_of_lt hm, zero_add]
  rw [e1, e2]

theorem entry_idx {rows n : ℕ} (hn : n < rows) (m : ℕ) : (n + m * rows) / rows = m ∧ (n + m * rows) % rows = n := by
  constructor
  · rw [Nat.add_mul_div_right _ _ (by omega : 0 < rows), Nat.div_eq_of_lt hn, zero_add]
  · rw [Nat.add_mul_mod_self_right, Nat.mod_eq_of_lt hn]

theorem joint_exact {rows ns dim : ℕ} {F : (ℕ → ℝ) → (ℕ → ℕ → ℝ) → ℕ → ℝ} {q : ℕ → ℝ} {Dw : ℕ → ℕ → ℝ}
    (hF : DiffIn rows (ns + dim * ns) (joint ns F) (concat ns q (flat ns Dw))) (hL : LocalDw rows ns dim F)
    (c : ℝ → ℕ → ℝ) (D : ℝ → ℕ → ℕ → ℝ) (v : ℕ → ℝ) (V : ℕ → ℕ → ℝ) (hc0 : c 0 = q) (hD0 : D 0 = Dw)
    (hc : ∀ m < ns, HasDerivAt (fun t => c t m) (v m) 0)
    (hD : ∀ m < ns, ∀ d < dim, HasDerivAt (fun t => D t m d) (V m d) 0) (n : ℕ) (hn : n < rows) :
    HasDerivAt (fun t => F (c t) (D t) n)
      ((∑ m ∈ range ns, dense rows (stackJac rows (fun y => F y Dw) q) n m * v m) +
        ∑ d ∈ range dim, ∑ m ∈ range ns,
          dense rows (stackJac rows (fun a => F q (unflat ns a)) (flat ns Dw)) n (d * ns + m) * V m d) 0 := by
  have loc : LocalIn rows (ns + dim * ns) (joint ns F) := fun x y h n hn =>
    hL _ _ _ _ (fun m hm => h m (by omega)) (fun m hm j hj => h _ (by
      have := flat_idx hm hj; omega)) n hn
  have cat : ∀ (a : ℕ → ℝ) (A : ℕ → ℕ → ℝ), ∀ n < rows, joint ns F (concat ns a (flat ns A)) n = F a A n := by
    intro a A n hn
    refine hL _ _ _ _ (fun m hm => by simp [concat, hm]) (fun m hm j hj => ?_) n hn
    rw [← unflat_flat A hm j]
    simp [unflat, concat]
  have key := stackJac_exact hF loc (fun t => concat ns (c t) (flat ns (D t))) (concat ns v (flat ns V))
    (by rw [hc0, hD0]) (fun m hm => ?_) n hn
  · refine (key.congr_of_eventuallyEq (Filter.Eventually.of_forall fun t => (cat _ _ n hn).symm)).congr_deriv ?_
    rw [sum_range_add]
    congr 1
    · refine sum_congr rfl fun m hm => ?_
      rw [mem_range] at hm
      obtain ⟨e1, e2⟩ := entry_idx hn m
      have e3 : ∀ t, joint ns F (Function.update (concat ns q (flat ns Dw)) m t) n = F (Function.update q m t) Dw n := by
        intro t
        refine hL _ _ _ _ (fun k hk => ?_) (fun k hk j hj => ?_) n hn
        · by_cases h : k = m
          · subst h; simp
          · simp [h, concat, hk]
        · have : unflat ns (fun k => Function.update (concat ns q (flat ns Dw)) m t (ns + k)) k j =
              unflat ns (flat ns Dw) k j := by
            unfold unflat
            simp only
            rw [Function.update_of_ne (by omega)]
            simp [concat]
          rw [this, unflat_flat Dw hk]
      simp only [dense, stackJac, e1, e2, e3]
      simp [concat, hm]
    · have sw : ∀ g : ℕ → ℝ, ∑ p ∈ range (dim * ns), g p = ∑ d ∈ range dim, ∑ m ∈ range ns, g (d * ns + m) := by
        intro g
        clear hF hL hD loc cat key
        induction dim with
        | zero => simp
        | succ k ih => rw [sum_range_succ, ← ih, Nat.succ_mul, sum_range_add]
      rw [sw]
      refine sum_congr rfl fun j hj => sum_congr rfl fun m hm => ?_
      rw [mem_range] at hj hm
      obtain ⟨e1, e2⟩ := entry_idx hn (ns + (j * ns + m))
      obtain ⟨e1', e2'⟩ := entry_idx hn (j * ns + m)
      have e3 : ∀ t, joint ns F (Function.update (concat ns q (flat ns Dw)) (ns + (j * ns + m)) t) n =
          F q (unflat ns (Function.update (flat ns Dw) (j * ns + m) t)) n := by
        intro t
        refine hL _ _ _ _ (fun k hk => ?_) (fun k hk i hi => ?_) n hn
        · rw [Function.update_of_ne (by omega)]; simp [concat, hk]
        · unfold unflat
          simp only
          by_cases h : i * ns + k = j * ns + m
          · rw [h]; simp
          · rw [Function.update_of_ne (by omega), Function.update_of_ne h]
            simp [concat]
      have e4 : flat ns V (j * ns + m) = V m j := by rw [← unflat_flat V hm j]; rfl
      simp only [dense, stackJac, e1, e2, e1', e2', e3]
      simp [concat, e4]
  · unfold concat
    split_ifs with h
    · exact hc m h
    · have hns : 0 < ns := by
        rcases Nat.eq_zero_or_pos ns with h0 | h0
        · subst h0; omega
        · exact h0
      exact hD _ (Nat.mod_lt _ hns) _ ((Nat.div_lt_iff_lt_mul hns).2 (by omega))

theorem exactDw {ns dim : ℕ} {F : (ℕ → ℝ) → (ℕ → ℕ → ℝ) → ℕ → ℝ} {q : ℕ → ℝ} {Dw : ℕ → ℕ → ℝ}
    (hF : DiffIn ns (ns + dim * ns) (joint ns F) (concat ns q (flat ns Dw))) (hL : LocalDw ns ns dim F) :
    ExactJacDw ns dim F (jacState ns F q Dw) (jacDw ns F q Dw) q Dw := by
  intro c D v V hc0 hD0 hc hD n hn
  refine (joint_exact hF hL c D v V hc0 hD0 hc hD n hn).congr_deriv ?_
  congr 1
  refine sum_congr rfl fun j _ => sum_congr rfl fun m _ => ?_
  simp only [jacDw, dense]
  congr 2
  ring

theorem exactGradDw {ns dim : ℕ} {F : (ℕ → ℝ) → (ℕ → ℕ → ℝ) → ℝ} {q : ℕ → ℝ} {Dw : ℕ → ℕ → ℝ}
    (hF : DiffIn 1 (ns + dim * ns) (joint ns (fun y A _ => F y A)) (concat ns q (flat ns Dw)))
    (hL : LocalDw 1 ns dim (fun y A _ => F y A)) :
    ExactGradDw ns dim F (stackJac 1 (fun y _ => F y Dw) q)
      (fun s j => stackJac 1 (fun a _ => F q (unflat ns a)) (flat ns Dw) (j * ns + s)) q Dw := by
  intro c D v V hc0 hD0 hc hD
  refine (joint_exact hF hL c D v V hc0 hD0 hc hD 0 (by norm_num)).congr_deriv ?_
  simp [dense]

/-! ### Differentiability of the viscous kernels -/

section kernels
variable {E : Type*} [NormedAddCommGroup E] [NormedSpace ℝ E] {d : ℕ} {x : E}

theorem diff_sutherland {q : E → State d} (hq : SD q x) (h : 0 < (q x).rho) (hp : 0 < pressure (q x)) :
    DifferentiableAt ℝ (fun y => sutherland (q y)) x := by
  have g : 0 < gamma := by unfold gamma; norm_num
  have ha : 0 < gamma * pressure (q x) / (q x).rho := by positivity
  have da : DifferentiableAt ℝ (fun y => √(gamma * pressure (q y) / (q y).rho)) x :=
    (((diff_pressure hq h.ne').const_mul gamma).dv hq.1 h.ne').sqrt ha.ne'
  have hs : √(gamma * pressure (q x) / (q x).rho) * √(gamma * pressure (q x) / (q x).rho) + Viscous.ST ≠ 0 := by
    have : 0 < Viscous.ST := by unfold Viscous.ST; norm_num
    have := mul_self_nonneg (√(gamma * pressure (q x) / (q x).rho))
    positivity
  exact (((da.fun_mul da).fun_mul da).mul_const _).dv ((da.fun_mul da).add_const Viscous.ST) hs

theorem diff_muRe (mu Re : ℝ) {q : E → State d} (hq : SD q x) (h : 0 < (q x).rho) (hp : 0 < pressure (q x)) :
    DifferentiableAt ℝ (fun y => muRe mu Re (q y)) x := by
  unfold muRe
  by_cases hm : mu < 0
  · simp only [hm, if_true]; exact (diff_sutherland hq h hp).dc _
  · simp only [hm, if_false]; exact (differentiableAt_const _).dc _

theorem SD.addCij (i j : Fin d) (Pr : ℝ) {mu : E → ℝ} {q vec mv : E → State d} (hmu : DifferentiableAt ℝ mu x)
    (hq : SD q x) (hv : SD vec x) (hm : SD mv x) (h : (q x).rho ≠ 0) :
    SD (fun y => addCij i j (mu y) Pr (q y) (vec y) (mv y)) x := by
  have du : ∀ k, DifferentiableAt ℝ (fun y => (q y).mom k / (q y).rho) x := fun k => (hq.2.1 k).dv hq.1 h
  have dRT := (diff_pressure hq h).dv hq.1 h
  have dRT2k := (((dRT.fun_mul dRT).mul_const gamma).fun_mul hmu).dc (gami * Pr)
  have dRTmu := dRT.fun_mul hmu
  have dz : ∀ k, DifferentiableAt ℝ (fun y => (vec y).mom k + (q y).mom k / (q y).rho * (vec y).ener) x :=
    fun k => (hv.2.1 k).fun_add ((du k).fun_mul hv.2.2)
  by_cases hij : i = j
  · subst hij
    simp only [Viscous.addCij, if_true]
    refine ⟨hm.1, fun k => ?_, ?_⟩
    · by_cases hk : k = i
      · subst hk
        simp only [Function.update_self]
        exact ((hm.2.1 k).fun_add (dRTmu.fun_mul (dz k))).fun_add ((dRTmu.fun_mul (dz k)).dc 3)
      · simp only [Function.update_of_ne hk]
        exact (hm.2.1 k).fun_add (dRTmu.fun_mul (dz k))
    · exact ((hm.2.2.fun_add (DifferentiableAt.fun_sum fun k _ => (dRTmu.fun_mul (du k)).fun_mul (dz k))).fun_add
        (((dRTmu.fun_mul (du i)).fun_mul (dz i)).dc 3)).fun_add (dRT2k.fun_mul hv.2.2)
  · simp only [Viscous.addCij, hij, if_false]
    have dmi : DifferentiableAt ℝ (fun y => (mv y).mom i - 2 * (pressure (q y) / (q y).rho * mu y) *
        ((vec y).mom j + (q y).mom j / (q y).rho * (vec y).ener) / 3) x :=
      (hm.2.1 i).fun_sub (((dRTmu.const_mul 2).fun_mul (dz j)).dc 3)
    refine ⟨hm.1, fun k => ?_, ?_⟩
    · by_cases hk : k = j
      · subst hk
        have : k ≠ i := fun e => hij e.symm
        simp only [Function.update_self, Function.update_of_ne this]
        exact (hm.2.1 k).fun_add (dRTmu.fun_mul (dz i))
      · simp only [Function.update_of_ne hk]
        by_cases hk' : k = i
        · subst hk'; simp only [Function.update_self]; exact dmi
        · simp only [Function.update_of_ne hk']; exact hm.2.1 k
    · exact hm.2.2.fun_add (dRTmu.fun_mul ((((du j).fun_mul (hv.2.1 i)).fun_sub
        ((((du i).const_mul 2).fun_mul (hv.2.1 j)).dc 3)).fun_add
        ((((du i).fun_mul (du j)).fun_mul hv.2.2).dc 3)))

theorem SD.forDim {f : E → State d → Fin d → State d} {s : E → State d}
    (hf : ∀ (k : Fin d) (s : E → State d), SD s x → SD (fun y => f y (s y) k) x) (hs : SD s x) :
    SD (fun y => forDim d (f y) (s y)) x := by
  unfold Viscous.forDim
  generalize List.finRange d = l
  induction l generalizing s with
  | nil => exact hs
  | cons k l ih => simp only [List.foldl_cons]; exact ih (hf k s hs)

theorem SD.zeroS : SD (fun _ : E => (Viscous.zeroS : State d)) x := SD.const _

theorem SD.viscousScaling (dd : Fin d) (Pr : ℝ) {mu : E → ℝ} {q : E → State d} {Dw : Fin d → E → State d}
    (hmu : DifferentiableAt ℝ mu x) (hq : SD q x) (hD : ∀ j, SD (Dw j) x) (h : (q x).rho ≠ 0) :
    SD (fun y => viscousScaling dd (mu y) Pr (q y) (fun j => Dw j y)) x :=
  SD.forDim (f := fun y mv d2 => Viscous.addCij dd d2 (mu y) Pr (q y) (Dw d2 y) mv)
    (fun k _ hs => SD.addCij dd k Pr hmu hq (hD k) hs h) SD.zeroS

theorem SD.setZero (dir : Fin d → ℝ) {Dw : Fin d → E → State d} (hD : ∀ j, SD (Dw j) x) (i : Fin d) :
    SD (fun y => setZeroNormalDeriv dir (fun j => Dw j y) i) x :=
  ⟨(hD i).1.fun_sub ((DifferentiableAt.fun_sum fun j _ => (hD j).1.mul_const _).const_mul _),
    fun k => ((hD i).2.1 k).fun_sub ((DifferentiableAt.fun_sum fun j _ => ((hD j).2.1 k).mul_const _).const_mul _),
    (hD i).2.2.fun_sub ((DifferentiableAt.fun_sum fun j _ => (hD j).2.2.mul_const _).const_mul _)⟩

theorem SD.adiabatic (dir : Fin d → ℝ) (Pr : ℝ) {mu : E → ℝ} {q : E → State d} {Dw : Fin d → E → State d}
    (hmu : DifferentiableAt ℝ mu x) (hq : SD q x) (hD : ∀ j, SD (Dw j) x) (h : (q x).rho ≠ 0) :
    SD (fun y => adiabaticWallFlux dir (mu y) Pr (q y) (fun j => Dw j y)) x := by
  have dn : DifferentiableAt ℝ (fun y => ∑ k, (Dw k y).ener * unitNrm dir k) x :=
    DifferentiableAt.fun_sum fun k _ => (hD k).2.2.mul_const _
  refine SD.forDim (f := fun y fl dd => Viscous.forDim d (fun fl d2 => Viscous.addCij dd d2 (mu y * dir dd) Pr (q y)
    ⟨(Dw d2 y).rho, (Dw d2 y).mom, (Dw d2 y).ener - (∑ k, (Dw k y).ener * unitNrm dir k) * unitNrm dir d2⟩ fl) fl)
    (fun dd _ hs => ?_) SD.zeroS
  refine SD.forDim (f := fun y fl d2 => Viscous.addCij dd d2 (mu y * dir dd) Pr (q y)
    ⟨(Dw d2 y).rho, (Dw d2 y).mom, (Dw d2 y).ener - (∑ k, (Dw k y).ener * unitNrm dir k) * unitNrm dir d2⟩ fl)
    (fun d2 _ hs => ?_) hs
  exact SD.addCij dd d2 Pr (hmu.mul_const _) hq
    ⟨(hD d2).1, (hD d2).2.1, (hD d2).2.2.fun_sub (dn.mul_const _)⟩ hs h

theorem SD.noSlipPenalty (dir : Fin d → ℝ) (Jac Pr : ℝ) (qfs : State d) (hfs : qfs.rho ≠ 0) {mu : E → ℝ}
    {q : E → State d} (hmu : DifferentiableAt ℝ mu x) (hq : SD q x) (h : (q x).rho ≠ 0)
    (hp : pressure (q x) ≠ 0) : SD (fun y => noSlipPenaltyFlux dir Jac (mu y) Pr qfs (q y)) x := by
  have dw : SD (fun y => (⟨0, fun k => (q y).mom k / pressure (q y), 0⟩ : State d)) x :=
    ⟨differentiableAt_const _, fun k => (hq.2.1 k).dv (diff_pressure hq h) hp, differentiableAt_const _⟩
  have df := SD.forDim (f := fun y fl dd => Viscous.addCij dd dd (mu y) Pr qfs
      ⟨0, fun k => (q y).mom k / pressure (q y), 0⟩ fl) (s := fun _ => Viscous.zeroS) (x := x)
    (fun k _ hs => SD.addCij k k Pr hmu (SD.const qfs) dw hs hfs) SD.zeroS
  exact ⟨df.1, fun k => (df.2.1 k).mul_const _, differentiableAt_const _⟩

theorem SD.addS {a b : E → State d} (ha : SD a x) (hb : SD b x) : SD (fun y => addS (a y) (b y)) x :=
  SD.map2 (f := fun _ u v => u + v) ha hb fun _ _ hu hv => hu.fun_add hv

theorem SD.subS {a b : E → State d} (ha : SD a x) (hb : SD b x) : SD (fun y => subS (a y) (b y)) x :=
  SD.map2 (f := fun _ u v => u - v) ha hb fun _ _ hu hv => hu.fun_sub hv

theorem SD.scaleS (c : ℝ) {a : E → State d} (ha : SD a x) : SD (fun y => scaleS c (a y)) x :=
  ⟨ha.1.mul_const _, fun k => (ha.2.1 k).mul_const _, ha.2.2.mul_const _⟩

theorem SD.wallTerms (dir : Fin d → ℝ) (mu Re Pr jac : ℝ) (qfs : State d) (hfs : qfs.rho ≠ 0) {q flux : E → State d}
    {Dw : Fin d → E → State d} (hq : SD q x) (hD : ∀ j, SD (Dw j) x) (hf : SD flux x) (ha : Admissible (q x)) :
    SD (fun y => Viscous.addS (Viscous.subS (flux y) (adiabaticWallFlux dir (muRe mu Re (q y)) Pr (q y) (fun j => Dw j y)))
      (noSlipPenaltyFlux dir jac (muRe mu Re (q y)) Pr qfs (q y))) x := by
  have dm := diff_muRe mu Re hq ha.rho_pos ha.press_pos
  exact SD.addS (SD.subS hf (SD.adiabatic dir Pr dm hq hD ha.rho_pos.ne'))
    (SD.noSlipPenalty dir jac Pr qfs hfs dm hq ha.rho_pos.ne' ha.press_pos.ne')

theorem SD.subNormal (dir : Fin d → ℝ) (mu Re Pr : ℝ) {q flux : E → State d} {Dw : Fin d → E → State d}
    (hq : SD q x) (hD : ∀ j, SD (Dw j) x) (hf : SD flux x) (ha : Admissible (q x)) :
    SD (fun y => subNormalViscous dir (muRe mu Re (q y)) Pr (q y)
      (setZeroNormalDeriv dir (fun j => Dw j y)) (flux y)) x := by
  have dm := diff_muRe mu Re hq ha.rho_pos ha.press_pos
  refine SD.forDim (f := fun y fl dd => Viscous.subS fl (Viscous.scaleS (dir dd) (Viscous.viscousScaling dd
    (muRe mu Re (q y)) Pr (q y) (setZeroNormalDeriv dir (fun j => Dw j y))))) (fun k s hs => ?_) hf
  exact SD.subS hs (SD.scaleS _ (SD.viscousScaling (Dw := fun i y => setZeroNormalDeriv dir (fun j => Dw j y) i) k Pr
    dm hq (fun i => SD.setZero dir hD i) ha.rho_pos.ne'))

end kernels

/-! ### Kernels of arrays -/

section arrays
variable {d : ℕ}

theorem toDw_congr {A B : ℕ → ℕ → ℝ} (h : ∀ m < d + 2, ∀ j < d, A m j = B m j) : toDw d A = toDw d B := by
  funext j
  exact toState_congr fun m hm => h m hm j j.2

theorem at_concat (q : ℕ → ℝ) (Dw : ℕ → ℕ → ℝ) :
    toState d (pad (fun k : Fin (d + 2 + d * (d + 2)) => concat (d + 2) q (flat (d + 2) Dw) k)) = toState d q :=
  toState_congr fun m hm => by
    simp only [pad, concat, hm, if_true]
    rw [dif_pos (by omega)]

/-- A kernel of a state and an array of derivatives. -/
theorem kernelDiff {G : State d → (Fin d → State d) → State d} {q : ℕ → ℝ} {Dw : ℕ → ℕ → ℝ}
    (hG : ∀ (s : (Fin (d + 2 + d * (d + 2)) → ℝ) → State d) (D : Fin d → (Fin (d + 2 + d * (d + 2)) → ℝ) → State d) x,
      SD s x → (∀ j, SD (D j) x) → s x = toState d q → SD (fun y => G (s y) (fun j => D j y)) x) :
    DiffIn (d + 2) (d + 2 + d * (d + 2)) (joint (d + 2) fun v A => ofState (G (toState d v) (toDw d A)))
      (concat (d + 2) q (flat (d + 2) Dw)) := by
  intro n _
  refine (hG (fun v => toState d (pad v)) (fun j v => toState d (fun s => pad v (d + 2 + (j * (d + 2) + s)))) _
    (SD.pad0 _) (fun j => ⟨diff_pad _ _, fun _ => diff_pad _ _, diff_pad _ _⟩) (at_concat q Dw)).ofState n

theorem kernelDw {G : State d → (Fin d → State d) → State d} {q : ℕ → ℝ} {Dw : ℕ → ℕ → ℝ}
    (hG : ∀ (s : (Fin (d + 2 + d * (d + 2)) → ℝ) → State d) (D : Fin d → (Fin (d + 2 + d * (d + 2)) → ℝ) → State d) x,
      SD s x → (∀ j, SD (D j) x) → s x = toState d q → SD (fun y => G (s y) (fun j => D j y)) x) :
    ExactJacDw (d + 2) d (fun v A => ofState (G (toState d v) (toDw d A)))
      (jacState (d + 2) (fun v A => ofState (G (toState d v) (toDw d A))) q Dw)
      (jacDw (d + 2) (fun v A => ofState (G (toState d v) (toDw d A))) q Dw) q Dw :=
  exactDw (kernelDiff hG) fun a b A B h h' n _ => by rw [toState_congr h, toDw_congr h']

end arrays

/-! ### C210 -/

variable {d : ℕ}

theorem nsConvert_exact {q : ℕ → ℝ} (hq : Admissible (toState d q)) :
    ExactJac (d + 2) (nsConvert d) (nsConvertJac d q) q :=
  kernel1 (G := calcEntropyVars) fun s x hs e =>
    hs.entVars (by rw [e]; exact hq.rho_pos) (by rw [e]; exact hq.press_pos)

/-- The point-wise Jacobians of the viscous scaling are exact at every physical state and every gradient. -/
theorem nsScale_exact (mu Re Pr : ℝ) (dd : ℕ) (hdd : dd < d) (x q : ℕ → ℝ) (Dw : ℕ → ℕ → ℝ)
    (hq : Admissible (toState d q)) :
    ExactJacDw (d + 2) d (nsScale d mu Re Pr dd x) (nsScaleJac d mu Re Pr dd x q Dw)
      (nsScaleJacDw d mu Re Pr dd x q Dw) q Dw := by
  have e : nsScale d mu Re Pr dd x = fun v A => ofState ((fun s D => viscousScaling ⟨dd, hdd⟩ (muRe mu Re s) Pr s D)
      (toState d v) (toDw d A)) := by
    funext v A; simp [nsScale, hdd]
  unfold nsScaleJac nsScaleJacDw
  rw [e]
  refine kernelDw (G := fun s D => viscousScaling ⟨dd, hdd⟩ (muRe mu Re s) Pr s D) fun s D x hs hD hx => ?_
  have ha : Admissible (s x) := by rw [hx]; exact hq
  exact SD.viscousScaling _ Pr (diff_muRe mu Re hs ha.rho_pos ha.press_pos) hs hD ha.rho_pos.ne'

/-- C210, volume term.  For every element, mapping, Reynolds and Prandtl number, with constant viscosity or
Sutherland's law: at every field of physical states the element matrix assembled from the recorded Jacobians
is the Jacobian of the viscous element residual. -/
theorem C210_volume (mu Re Pr : ℝ) (e : Elem ℝ) (hd : e.dim = d) (alpha : ℝ) (wt : ℕ → ℝ)
    (adj : ℕ → ℕ → ℕ → ℝ) (x : ℕ → ℕ → ℝ) (u : ℕ → ℝ)
    (hu : ∀ i < e.dof, Admissible (toState d (row u e.dof i))) :
    ExactJac ((d + 2) * e.dof) (esViscVec d mu Re Pr e alpha wt adj x)
      (esViscGrad d mu Re Pr e alpha wt adj x u) u := by
  refine C110_gradient e (d + 2) alpha wt adj x _ _ _ _ _ u (fun j hj => nsConvert_exact (hu j hj))
    fun dd hdd i hi => ?_
  rw [hd]
  exact nsScale_exact mu Re Pr dd (hd ▸ hdd) _ _ _ (hu i hi)

/-- The reference state of the wall penalties has a non-zero density, and the exact solution may be anything. -/
def GoodRef : Bnd d → Prop
  | .noSlip qref => qref.rho ≠ 0
  | .control qref _ _ => qref.rho ≠ 0
  | _ => True

theorem bc_exactDw (mu Re Pr : ℝ) (b : Bnd d) (hb : GoodRef b) (x dir : ℕ → ℝ) (jac : ℝ) (q : ℕ → ℝ)
    (Dw : ℕ → ℕ → ℝ) (hq : Admissible (toState d q)) :
    ExactJacDw (d + 2) d (bcFlux mu Re Pr b x dir jac) (jacState (d + 2) (bcFlux mu Re Pr b x dir jac) q Dw)
      (jacDw (d + 2) (bcFlux mu Re Pr b x dir jac) q Dw) q Dw := by
  cases b with
  | slipWall =>
    refine kernelDw (G := fun s D => viscSlipFlux mu Re Pr (toDir d dir) s D) fun s D x hs hD hx => ?_
    have ha : Admissible (s x) := by rw [hx]; exact hq
    exact SD.subNormal _ mu Re Pr hs hD (SD.slipWall false _ hs ha.rho_pos.ne') ha
  | noSlip qref =>
    refine kernelDw (G := fun s D => noSlipFlux mu Re Pr qref (toDir d dir) jac s D) fun s D x hs hD hx => ?_
    have ha : Admissible (s x) := by rw [hx]; exact hq
    exact SD.wallTerms _ mu Re Pr jac qref hb hs hD (SD.slipWall false _ hs ha.rho_pos.ne') ha
  | farField qfar =>
    exact kernelDw (G := fun _ _ => zeroS) fun s D x hs hD hx => SD.zeroS
  | exact qex =>
    refine kernelDw (G := fun s D => viscExactFlux mu Re Pr (qex x) (toDir d dir) s D) fun s D x hs hD hx => ?_
    have ha : Admissible (s x) := by rw [hx]; exact hq
    exact SD.subNormal _ mu Re Pr hs hD (SD.boundaryFlux _ _ hs ha.rho_pos.ne') ha
  | control qref c scale =>
    refine kernelDw (G := fun s D => viscControlFlux mu Re Pr c (scale x) qref (toDir d dir) jac s D)
      fun s D y hs hD hx => ?_
    have ha : Admissible (s y) := by rw [hx]; exact hq
    unfold viscControlFlux
    by_cases hsc : scale x < 1 / 10 ^ 4
    · simp only [hsc, if_true]
      exact SD.wallTerms _ mu Re Pr jac qref hb hs hD (SD.controlFlux _ _ hs ha.rho_pos.ne') ha
    · simp only [hsc, if_false]
      exact SD.controlFlux _ _ hs ha.rho_pos.ne'

/-- C210, boundary terms.  For every viscous boundary condition the flow residual attaches (slip wall,
adiabatic no-slip wall, exact solution, blowing/suction control), every face and mapping: at every field of
physical states the matrix over all the nodes of the adjacent element is the Jacobian of the boundary
residual. -/
theorem C210_boundary (mu Re Pr : ℝ) (b : Bnd d) (hb : GoodRef b) (f : Face ℝ) (e : Elem ℝ) (hd : e.dim = d)
    (wt : ℕ → ℝ) (adj : ℕ → ℕ → ℕ → ℝ) (u : ℕ → ℝ) (hl : ∀ k < f.n, f.left k < e.dof)
    (hu : ∀ i < e.dof, Admissible (toState d (row u e.dof i))) :
    ExactJac ((d + 2) * e.dof) (bcVec mu Re Pr b f e wt adj) (bcGrad mu Re Pr b f e wt adj u) u := by
  refine C111_gradient_partial f e (d + 2) wt adj _ _ _ _ _ _ _ u hl (fun j hj => nsConvert_exact (hu j hj))
    (fun k hk => ?_) (fun k hk dd hdd => ?_)
  · rw [hd]
    exact bc_exactDw mu Re Pr b hb _ _ _ _ _ (hu _ (hl k hk))
  · intro c w h0 hc n hn
    simpa [bcFluxDv, bcFluxDvJac] using hasDerivAt_const (0 : ℝ) (0 : ℝ)

/-- C210, surface force.  The vector assembled from the reverse-mode gradients is the gradient of the surface
force with respect to every nodal state of the adjacent element. -/
theorem C210_surface_force (mu Re Pr : ℝ) (qfs : State d) (hfs : qfs.rho ≠ 0) (forceNrm : Fin d → ℝ) (f : Face ℝ)
    (e : Elem ℝ) (hd : e.dim = d) (wt : ℕ → ℝ) (adj : ℕ → ℕ → ℕ → ℝ) (u : ℕ → ℝ)
    (hl : ∀ k < f.n, f.left k < e.dof) (hu : ∀ i < e.dof, Admissible (toState d (row u e.dof i))) :
    ExactGrad ((d + 2) * e.dof)
      (vbEnergy f e (d + 2) 1 wt adj (nsConvert d) (sfFun mu Re Pr qfs forceNrm))
      (sfGradVec mu Re Pr qfs forceNrm f e wt adj u) u := by
  refine C112_gradient_partial f e (d + 2) wt adj _ _ _ _ _ u hl (fun j hj => nsConvert_exact (hu j hj))
    fun k hk => ?_
  rw [hd]
  have hq := hu _ (hl k hk)
  refine exactGradDw (fun n _ => ?_) (fun a b A B h h' n _ => ?_)
  · have hs := SD.pad0 (d := d) (fun k' : Fin (d + 2 + d * (d + 2)) => concat (d + 2) (row u e.dof (f.left k))
      (flat (d + 2) (calcDw e (d + 2) wt adj (nsConvert d) u (f.left k))) k')
    have ha : Admissible (toState d (pad (fun k' : Fin (d + 2 + d * (d + 2)) => concat (d + 2) (row u e.dof (f.left k))
      (flat (d + 2) (calcDw e (d + 2) wt adj (nsConvert d) u (f.left k))) k'))) := by rw [at_concat]; exact hq
    exact diff_dot (fun i => differentiableAt_const _)
      (SD.wallTerms (toDir d (f.nrm k)) mu Re Pr _ qfs hfs (Dw := fun (j : Fin d) v =>
        toState d (fun s => pad v (d + 2 + (j * (d + 2) + s)))) hs
        (fun j => ⟨diff_pad _ _, fun _ => diff_pad _ _, diff_pad _ _⟩) (SD.slipWall false _ hs ha.rho_pos.ne') ha).2.1
  · simp only [sfFun]
    rw [toState_congr h, toDw_congr h']

/-! ### Concrete cases -/

/-- Fluid moving at any speed, with density and pressure 1, is physical, -/
theorem started_admissible (t : ℝ) : Admissible (toState 1 (started t)) := by
  simpa [Physical] using started_physical t

/-- so it meets the hypotheses of the three theorems on every element, -/
example (e : Elem ℝ) (t : ℕ → ℝ) (u : ℕ → ℝ) (hu : ∀ i < e.dof, row u e.dof i = started (t i)) :
    ∀ i < e.dof, Admissible (toState 1 (row u e.dof i)) := fun i hi => by
  rw [hu i hi]; exact started_admissible _

/-- and its own state at rest is a reference state for the walls. -/
example : GoodRef (.noSlip (toState 1 (started 0)) : Bnd 1) := by
  simp [GoodRef, toState, started]

/-- The recorded Jacobian is not trivial: in one dimension, at rest with unit density, pressure and
viscosity, the viscous momentum flux is `4/3` of the gradient of the momentum entropy variable. -/
theorem C210_momentum_entry (x : ℕ → ℝ) (Dw : ℕ → ℕ → ℝ) :
    nsScaleJacDw 1 1 1 1 0 x (started 0) Dw 0 1 1 = 4 / 3 := by
  have h : ∀ A, nsScale 1 1 1 1 0 x (started 0) A 1 = 4 / 3 * A 1 0 := by
    intro A
    simp [nsScale, ofState, viscousScaling, forDim, addCij, muRe, toState, toDw, started, pressure, dot, gami,
      gamma, zeroS, List.finRange]
    rw [if_neg (by norm_num)]
    ring
  have e : (fun t => nsScale 1 1 1 1 0 x (started 0) (unflat 3 (Function.update (flat 3 Dw) 1 t)) 1) =
      fun t => 4 / 3 * t := by
    funext t
    rw [h]
    simp [unflat]
  show deriv (fun t => nsScale 1 1 1 1 0 x (started 0) (unflat 3 (Function.update (flat 3 Dw) ((0 * 3 * 3 + (1 + 1 * 3)) / 3) t))
    ((0 * 3 * 3 + (1 + 1 * 3)) % 3)) _ = _
  norm_num only [Nat.reduceMul, Nat.reduceAdd, Nat.reduceDiv, Nat.reduceMod]
  rw [e]
  simp

end Verif.AdViscous
