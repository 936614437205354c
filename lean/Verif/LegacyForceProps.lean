import Verif.LegacyForce
import Verif.ForceProps

/-! # Older force integrator and magnetisation source: property theorems (C232) -/

set_option linter.unusedSectionVars false

namespace Verif.Force
open Finset Verif.Sbp Verif.Dense Verif.Diffusion Verif.Losses

variable {ndof dim m n : ℕ}

/-! ### Auxiliary facts -/

theorem dbdJOld_three (hd : dim = 3) (p : FPt ndof dim m) (u : Vec ndof) (hi : ∀ a b, p.inv a b = p.adj a b / p.J) :
    p.dbdJOld u = p.dbdJ u := by
  funext i j
  unfold FPt.dbdJOld FPt.dbdJ
  simp only [if_pos hd]
  unfold addM transpose zeroM
  rw [hi]
  ring

theorem dBdsOld_eq (p : FPt ndof dim m) (u : Vec ndof) (X : Mat m dim) :
    p.dBdsOld u X = frob (p.dbdJOld u) (p.dJds X) := by
  unfold FPt.dBdsOld FPt.dJds frob mulAtB addABt zeroM
  simp only [zero_add, sum_mul, mul_sum]
  calc ∑ j, ∑ k, ∑ l, p.dbdJOld u k l * p.dshape j l * X j k
      = ∑ k, ∑ j, ∑ l, p.dbdJOld u k l * p.dshape j l * X j k := sum_comm
    _ = ∑ k, ∑ l, ∑ j, p.dbdJOld u k l * p.dshape j l * X j k := sum_congr rfl fun k _ => sum_comm
    _ = _ := sum_congr rfl fun k _ => sum_congr rfl fun l _ => sum_congr rfl fun j _ => by ring

theorem dBdsOld_three (hd : dim = 3) (p : FPt ndof dim m) (u : Vec ndof) (hi : ∀ a b, p.inv a b = p.adj a b / p.J) (X : Mat m dim) :
    p.dBdsOld u X = p.dBds u X := by rw [dBdsOld_eq, dBds_eq, dbdJOld_three hd p u hi]

/-- In two dimensions the directional derivative of the flux magnitude is too large by the Jacobian determinant. -/
theorem dBdsOld_two (hd : dim ≠ 3) (p : FPt ndof dim m) (u : Vec ndof) (hi : ∀ a b, p.inv a b = p.adj a b / p.J) (hJ : p.J ≠ 0)
    (X : Mat m dim) : p.dBdsOld u X = p.J * p.dBds u X := by
  rw [dBdsOld_eq, dBds_eq]
  unfold frob
  simp only [mul_sum]
  refine sum_congr rfl fun i _ => sum_congr rfl fun j _ => ?_
  unfold FPt.dbdJOld FPt.dbdJ
  simp only [if_neg hd]
  unfold addVWt zeroM mulV
  have : ∑ l, p.inv j l * p.bvec u l = (∑ l, p.adj j l * p.bvec u l) / p.J := by
    rw [sum_div]
    exact sum_congr rfl fun l _ => by rw [hi]; ring
  rw [this]
  by_cases hn : norm2 (p.bvec u) = 0
  · rw [hn]; simp
  · field_simp
    ring

theorem forceOld_eq (E : ℕ → En) (n : ℕ) (pt : ℕ → FPt ndof dim m) (X : Mat m dim) (u : Vec ndof) (hX : ¬ tiny X) :
    forceOld false n E pt X u = ∑ i ∈ range n, -(((pt i).dBdsOld u X * (E i).e1 (norm2 ((pt i).bvec u) / (pt i).J) +
      (E i).e (norm2 ((pt i).bvec u) / (pt i).J) * (pt i).tr X) * ((pt i).w * (pt i).J)) := by
  unfold forceOld
  rw [if_neg (by simp), if_neg hX]
  simp only [sub_eq_add_neg]
  rw [forN_real, zero_add]
  rfl

theorem forN_congr' {α : Type} (n : ℕ) (f g : ℕ → α → α) (h : ∀ i < n, ∀ a, f i a = g i a) (s : α) : forN n f s = forN n g s := by
  induction n with
  | zero => rfl
  | succ n ih => rw [forN, forN, ih fun i hi a => h i (by omega) a, h n (by omega)]

/-! ### The older force integrator -/

/-- **C232** In three dimensions the older integrator computes, and differentiates with respect to the state, exactly as the one the
outputs use: same value, same gradient vector, for body elements, ignored displacements and all others. -/
theorem C232_same_in_3d (inBody : Bool) (E : ℕ → En) (pt : ℕ → FPt ndof 3 m) (X : Mat m 3) (u : Vec ndof)
    (hi : ∀ i < n, ∀ a b, (pt i).inv a b = (pt i).adj a b / (pt i).J) :
    forceOld inBody n E pt X u = force inBody n E pt X u ∧ stateSensOld inBody n E pt X u = stateSens inBody n E pt X u := by
  constructor
  · unfold forceOld force
    split_ifs
    · rfl
    · rfl
    · refine forN_congr' n _ _ (fun i hlt a => ?_) 0
      simp only [dBdsOld_three rfl (pt i) u (hi i hlt)]
  · unfold stateSensOld stateSens
    split_ifs
    · rfl
    · rfl
    · refine forN_congr' n _ _ (fun i hlt bar => ?_) zeroV
      have h := hi i hlt
      have hB : (∑ j, ∑ k, addABt (fun a b => 1 / ((pt i).J * norm2 ((pt i).bvec u)) * vwt ((pt i).bvec u) (mulTV (pt i).cs u) a b +
          -norm2 ((pt i).bvec u) / (pt i).J * transpose (pt i).inv a b) (pt i).dshape zeroM k j * X j k) = (pt i).dBds u X := by
        rw [← dBdsOld_three rfl (pt i) u h]
        unfold FPt.dBdsOld FPt.dbdJOld
        simp only [if_true]
      have hD : ∀ a b, (zeroM : Mat 3 3) a b + mulM (fun (k : Fin 3) (j : Fin m) => 0 + (0 - 1 * ((pt i).w * (pt i).J)) *
          (E i).e1 (norm2 ((pt i).bvec u) / (pt i).J) * X j k) (pt i).dshape a b = dbdJBar (E i) (pt i) u X a b := by
        intro a b
        unfold dbdJBar zeroM FPt.bmag
        rw [zero_add]
      unfold revBodyOld revBody
      simp only [if_true, hB, hD]
      set D := dbdJBar (E i) (pt i) u X with hDD
      set b := (pt i).bvec u with hb
      have e1 : (fun a c => D a c * (1 / ((pt i).J * norm2 b))) = addM (1 / (norm2 b * (pt i).J)) D zeroM := by
        funext a c; unfold addM zeroM; rw [zero_add, mul_comm, mul_comm (pt i).J]
      have e2 : (0 : ℝ) - ∑ j, ∑ k, D j k * (vwt b (mulTV (pt i).cs u) j k / ((pt i).J * norm2 b ^ 2) + transpose (pt i).inv j k / (pt i).J) =
          0 - ∑ j, ∑ k, D j k * vwt b (mulTV (pt i).cs u) j k / (norm2 b ^ 2 * (pt i).J) -
            ∑ j, ∑ k, transpose D j k * (pt i).adj j k / (pt i).J ^ 2 := by
        have : ∑ j, ∑ k, transpose D j k * (pt i).adj j k / (pt i).J ^ 2 = ∑ j, ∑ k, D j k * (transpose (pt i).inv j k / (pt i).J) := by
          rw [sum_comm]
          refine sum_congr rfl fun j _ => sum_congr rfl fun k _ => ?_
          unfold transpose
          rw [h]; ring
        rw [this, sub_sub, ← sum_add_distrib]
        congr 1
        refine sum_congr rfl fun j _ => ?_
        rw [← sum_add_distrib]
        exact sum_congr rfl fun k _ => by ring
      rw [e1, e2]
      rfl

/-- **C232** Hence in three dimensions its value is minus the derivative of the element's magnetic energy along the virtual displacement, and
its gradient is exact.  (Partial: non-zero flux density, displacements above the cut-off, as for C132; and three dimensions only, see
`C232_two_dimensions_false`.) -/
theorem C232_virtual_work_3d_partial (E : ℕ → En) (hE : ∀ i < n, (E i).Smooth) (w : ℕ → ℝ) (cs : ℕ → Mat ndof 3) (dshape : ℕ → Mat m 3)
    (X V : Mat m 3) (u v : Vec ndof) (hV : ∃ j k, 1 / 10 ^ 14 ≤ |V j k|) (hd : ∀ i < n, 0 < det3 (jacOf (dshape i) X))
    (hb : ∀ i < n, flux3 (cs i) (jacOf (dshape i) X) u ≠ 0) :
    HasDerivAt (fun s => -energy3 n E w cs dshape u (displaced X V s)) (forceOld false n E (elem3 w cs dshape X) V u) 0 ∧
    HasDerivAt (fun t => forceOld false n E (elem3 w cs dshape X) V (fun r => u r + t * v r))
      (dotv (stateSensOld false n E (elem3 w cs dshape X) V u) v) 0 := by
  have hs := fun u => C232_same_in_3d (n := n) false E (elem3 w cs dshape X) V u (fun i _ a b => rfl)
  constructor
  · rw [(hs u).1]
    exact C132_virtual_work_3d_partial E hE w cs dshape X V u hV hd hb
  · rw [(hs u).2]
    simp only [fun u => (hs u).1]
    refine C133_state_gradient_partial false E hE _ V u v (fun i hi => (hd i hi).ne') fun i hi h0 => hb i hi ?_
    have := flux3_norm w cs dshape X i u (hd i hi)
    rw [h0] at this
    have hz : norm2 (0 : Vec 3) = 0 := (norm2_eq_zero _).2 fun k => rfl
    rw [hz, zero_div] at this
    funext k; exact (norm2_eq_zero _).1 this k

/-- **C232** In two dimensions the change of the flux density is counted `det J` times: the value exceeds the virtual work by
`Σ w J (1 - J) dB/ds dW/dB`. -/
theorem C232_two_dimensions (E : ℕ → En) (w : ℕ → ℝ) (cs : ℕ → Mat ndof 2) (dshape : ℕ → Mat m 2) (X V : Mat m 2) (u : Vec ndof)
    (hV : ∃ j k, 1 / 10 ^ 14 ≤ |V j k|) (hd : ∀ i < n, 0 < det2 (jacOf (dshape i) X)) :
    forceOld false n E (elem2 w cs dshape X) V u = force false n E (elem2 w cs dshape X) V u +
      ∑ i ∈ range n, w i * det2 (jacOf (dshape i) X) * (1 - det2 (jacOf (dshape i) X)) * (elem2 w cs dshape X i).dBds u V *
        (E i).e1 ((elem2 w cs dshape X i).bmag u) := by
  have hX : ¬ tiny V := by
    obtain ⟨j, k, h⟩ := hV
    intro ht; exact absurd (ht j k) (not_lt.2 h)
  rw [forceOld_eq _ _ _ _ _ hX, force_eq _ _ _ _ _ hX, ← sum_add_distrib]
  refine sum_congr rfl fun i hi => ?_
  rw [dBdsOld_two (by decide) (elem2 w cs dshape X i) u (fun a b => rfl) (hd i (mem_range.1 hi)).ne']
  unfold FPt.bmag
  have hJ : (elem2 w cs dshape X i).J = det2 (jacOf (dshape i) X) := rfl
  have hw : (elem2 w cs dshape X i).w = w i := rfl
  rw [hJ, hw]
  ring

/-- A linear material. -/
noncomputable def lin : En := ⟨fun s => s ^ 2 / 2, fun s => s, fun _ => 1⟩

theorem lin_smooth : lin.Smooth := by
  constructor
  · intro s
    exact (((hasDerivAt_id s).fun_pow 2).div_const 2).congr_deriv (by simp [lin])
  · intro s; exact hasDerivAt_id s

/-- The element with Jacobian `2 I`. -/
def twoI : Mat 2 2 := fun i j => if i = j then 2 else 0
def oneI : Mat 2 2 := fun i j => if i = j then 1 else 0

theorem jac_two : jacOf oneI twoI = twoI := by
  funext a b
  fin_cases a <;> fin_cases b <;> simp [jacOf, twoI, oneI]

theorem det_two : det2 twoI = 4 := by
  simp [det2, twoI]; norm_num

/-- **C232** The claim that the older integrator gives the virtual work is false in two dimensions (an element with Jacobian `2 I` stretched
in the direction of the field's gradient, linear material). -/
theorem C232_two_dimensions_false : ¬∀ (E : ℕ → En) (w : ℕ → ℝ) (cs : ℕ → Mat 1 2) (dshape : ℕ → Mat 2 2) (X V : Mat 2 2) (u : Vec 1),
    (∀ i, (E i).Smooth) → (∃ j k, 1 / 10 ^ 14 ≤ |V j k|) → 0 < det2 (jacOf (dshape 0) X) → flux2 (cs 0) (jacOf (dshape 0) X) u ≠ 0 →
    HasDerivAt (fun s => -energy2 1 E w cs dshape u (displaced X V s)) (forceOld false 1 E (elem2 w cs dshape X) V u) 0 := by
  intro h
  set cs : ℕ → Mat 1 2 := fun _ _ k => if k = 0 then 1 else 0 with hcs
  set V : Mat 2 2 := fun j k => if j = 0 ∧ k = 0 then 1 else 0 with hVd
  have hV : ∃ j k, (1 : ℝ) / 10 ^ 14 ≤ |V j k| := ⟨0, 0, by norm_num [hVd]⟩
  have hd : 0 < det2 (jacOf oneI twoI) := by rw [jac_two, det_two]; norm_num
  have hb : flux2 (cs 0) (jacOf oneI twoI) (fun _ => 1) ≠ 0 := by
    intro h0
    have := congrFun h0 0
    rw [jac_two] at this
    simp [flux2, hcs, adj2, det2, twoI] at this
  have h1 := h (fun _ => lin) (fun _ => 1) cs (fun _ => oneI) twoI V (fun _ => 1) (fun _ => lin_smooth) hV hd hb
  have h2 := C132_virtual_work_2d_partial (n := 1) (fun _ => lin) (fun _ _ => lin_smooth) (fun _ => 1) cs (fun _ => oneI) twoI V (fun _ => 1) hV
    (fun _ _ => hd) (fun _ _ => hb)
  have h3 := h1.unique h2
  rw [C232_two_dimensions (fun _ => lin) (fun _ => 1) cs (fun _ => oneI) twoI V (fun _ => 1) hV (fun _ _ => hd)] at h3
  have h4 : ((elem2 (fun _ => 1) cs (fun _ => oneI) twoI 0).bvec fun _ => 1) = fun k => if k = 0 then 2 else 0 := by
    funext k
    unfold FPt.bvec FPt.cdft elem2
    simp only [show ¬((2 : ℕ) = 3) by decide, if_false, jac_two]
    fin_cases k <;> simp [mulTV, mulM, hcs, adj2, twoI]
  have h5 : norm2 (fun k : Fin 2 => if k = 0 then (2 : ℝ) else 0) = 2 := by
    unfold norm2
    simp [dotv]
  rw [sum_range_one, dBds_two (by decide), FPt.bmag, h4, h5] at h3
  have hJ : (elem2 (fun _ => 1) cs (fun _ => oneI) twoI 0).J = 4 := by show det2 (jacOf oneI twoI) = 4; rw [jac_two, det_two]
  have hadj : mulV (elem2 (fun _ => 1) cs (fun _ => oneI) twoI 0).adj (fun k : Fin 2 => if k = 0 then (2 : ℝ) else 0) = fun k => if k = 0 then 4 else 0 := by
    show mulV (adj2 (jacOf oneI twoI)) _ = _
    rw [jac_two]
    funext k
    fin_cases k <;> simp [mulV, adj2, twoI]; norm_num
  have hbil : bil ((elem2 (fun _ => 1) cs (fun _ => oneI) twoI 0).dJds V) (fun k : Fin 2 => if k = 0 then (2 : ℝ) else 0)
      (fun k => if k = 0 then 4 else 0) = 8 := by
    rw [bil_eq]
    simp [FPt.dJds, mulAtB, elem2, hVd, oneI]
    norm_num
  rw [hJ, hadj, hbil, jac_two, det_two] at h3
  norm_num [lin] at h3

/-! ### Magnetisation -/

/-- **C232** What `MagnetizationIntegrator` adds up: `α w ν(|J| |B|) (curl N_r · M)`, with `B` the flux density and `curl N_r` the physical
curl — the reluctivity is taken at the flux density times the Jacobian determinant. -/
theorem C232_magnetisation_value (α : ℝ) (nu : ℕ → ℝ → ℝ) (pt : ℕ → MPt ndof dim) (hJ : ∀ i < n, 0 < (pt i).J) (u : Vec ndof) (r : Fin ndof) :
    magVector α n nu pt u r = ∑ i ∈ range n, α * (pt i).w *
      nu i ((pt i).J * norm2 (fun k => (∑ s, (pt i).cdft s k / (pt i).J * u s))) * ∑ k, (pt i).cdft r k / (pt i).J * (pt i).mag k := by
  unfold magVector
  rw [forN_vec n _ (fun i r => α * (pt i).w / (pt i).J * nu i (norm2 (mulTV (pt i).cdft u)) * ∑ k, (pt i).cdft r k * (pt i).mag k)]
  · rw [show (zeroV : Vec ndof) r = 0 from rfl, zero_add]
    refine sum_congr rfl fun i hi => ?_
    have hj := hJ i (mem_range.1 hi)
    have e1 : (fun k => ∑ s, (pt i).cdft s k / (pt i).J * u s) = fun k => mulTV (pt i).cdft u k / (pt i).J := by
      funext k
      unfold mulTV
      rw [sum_div]
      exact sum_congr rfl fun s _ => by ring
    have e2 : ∑ k, (pt i).cdft r k / (pt i).J * (pt i).mag k = (∑ k, (pt i).cdft r k * (pt i).mag k) / (pt i).J := by
      rw [sum_div]
      exact sum_congr rfl fun s _ => by ring
    rw [e1, norm2_div _ _ hj, e2, mul_div_cancel₀ _ hj.ne']
    ring
  · intro i v r
    unfold addMulV mulV
    rw [one_mul]
    congr 1
    rw [mul_sum]
    exact sum_congr rfl fun k _ => by ring

/-- **C232** (partial: constant reluctivity only, see `C232_magnetisation_gradient_false`.)  With a reluctivity that does not depend on the
field the residual does not depend on the state and the zero matrix is its Jacobian. -/
theorem C232_magnetisation_gradient_partial (α : ℝ) (nu : ℕ → ℝ → ℝ) (pt : ℕ → MPt ndof dim) (hnu : ∀ i < n, ∀ s t, nu i s = nu i t)
    (u v : Vec ndof) (A : Mat ndof ndof) (r : Fin ndof) :
    HasDerivAt (fun t => magVector α n nu pt (fun s => u s + t * v s) r) (mulV (magGrad A) v r) 0 := by
  have h0 : mulV (magGrad A) v r = 0 := by simp [mulV, magGrad]
  rw [h0]
  have : (fun t : ℝ => magVector α n nu pt (fun s => u s + t * v s) r) = fun _ => magVector α n nu pt u r := by
    funext t
    unfold magVector
    refine congrFun (forN_congr' n _ _ (fun i hi a => ?_) zeroV) r
    simp only [hnu i hi (norm2 (mulTV (pt i).cdft fun s => u s + t * v s)) (norm2 (mulTV (pt i).cdft u))]
  rw [this]
  exact hasDerivAt_const _ _

/-- **C232** For a reluctivity that varies with the field the assembled gradient is wrong: it is zero although the residual changes. -/
theorem C232_magnetisation_gradient_false : ¬∀ (nu : ℕ → ℝ → ℝ) (pt : ℕ → MPt 1 1) (u v : Vec 1) (A : Mat 1 1),
    HasDerivAt (fun t => magVector 1 1 nu pt (fun s => u s + t * v s) 0) (mulV (magGrad A) v 0) 0 := by
  intro h
  have h1 := h (fun _ s => s ^ 2) (fun _ => ⟨1, fun _ _ => 1, 1, fun _ => 1⟩) (fun _ => 1) (fun _ => 1) (fun _ _ => 0)
  have e : (fun t : ℝ => magVector (ndof := 1) (dim := 1) 1 1 (fun _ s => s ^ 2) (fun _ => ⟨1, fun _ _ => 1, 1, fun _ => 1⟩)
      (fun s => (1 : ℝ) + t * 1) 0) = fun t => (1 + t) ^ 2 := by
    funext t
    rw [C232_magnetisation_value _ _ _ (fun _ _ => one_pos)]
    simp [norm2, dotv]
    rw [← sq, Real.sqrt_sq_eq_abs, sq_abs]
  have h0 : mulV (magGrad (fun _ _ => 0 : Mat 1 1)) (fun _ => (1 : ℝ)) 0 = 0 := by simp [mulV, magGrad]
  rw [h0] at h1
  have h2 : HasDerivAt (fun t : ℝ => (1 + t) ^ 2) 2 0 := by
    exact (((hasDerivAt_id (0 : ℝ)).const_add 1).fun_pow 2).congr_deriv (by simp)
  have := (e ▸ h1).unique h2
  norm_num at this

end Verif.Force
