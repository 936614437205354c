import Verif.EulerEntropyProps
import Mathlib.Tactic.NormNum.BigOperators

/-!
# Roe and boundary fluxes, dq/dw, walls, dissipation (C56–C59, C75–C78)
-/

namespace Verif.EulerFluxes

variable {d : ℕ}

/-! ## C56: consistency of the upwind fluxes -/

theorem addWaves_zero (dir u : Fin d → ℝ) (phi H a Un dA l1 l2 l3 : ℝ) (flux : State d) :
    addWaves dir u phi H a Un dA l1 l2 l3 ⟨0, fun _ => 0, 0⟩ flux = flux := by
  unfold addWaves dot
  ext i <;> simp

theorem map2_sub_self (q : State d) :
    State.map2 (fun x y => x - y) q q = ⟨0, fun _ => 0, 0⟩ := by
  unfold State.map2; ext i <;> simp

/-- `calcBoundaryFlux(dir, q, q) = F(q)·dir`.  (`dir ≠ 0` and admissibility are what makes the C++
divisions meaningful.) -/
theorem C56_boundary_consistent (dir : Fin d → ℝ) (q : State d) (_hdir : dir ≠ 0)
    (h : Admissible q) : calcBoundaryFlux dir q q = physFlux dir q := by
  rw [← C54_euler_flux dir q h.rho_pos.ne']
  unfold calcBoundaryFlux
  simp only [map2_sub_self, addWaves_zero]
  unfold State.map2; ext i <;> simp

theorem C56_roe_consistent (dir : Fin d → ℝ) (q : State d) (_hdir : dir ≠ 0)
    (h : Admissible q) : calcRoeFaceFlux dir q q = physFlux dir q := by
  rw [← C54_euler_flux dir q h.rho_pos.ne']
  unfold calcRoeFaceFlux
  simp only [map2_sub_self, addWaves_zero]
  unfold State.map2; ext i <;> simp <;> ring

theorem C56_farfield_consistent (dir : Fin d → ℝ) (q : State d) (hdir : dir ≠ 0)
    (h : Admissible q) :
    calcFarFieldFlux false dir q q = physFlux dir q ∧
    calcFarFieldFlux true dir q (calcEntropyVars q) = physFlux dir q := by
  unfold calcFarFieldFlux consOf
  refine ⟨C56_boundary_consistent dir q hdir h, ?_⟩
  rw [if_pos rfl, C53_roundtrip_cons q h]
  exact C56_boundary_consistent dir q hdir h

theorem C56_farfield2_consistent (dir : Fin d → ℝ) (q : State d) (h : Admissible q) :
    calcFarFieldFlux2 false dir q q = some (physFlux dir q) := by
  rw [← C54_euler_flux dir q h.rho_pos.ne']
  have hr := h.rho_pos.ne'
  unfold calcFarFieldFlux2 calcEulerFlux
  simp only [Bool.false_eq_true, if_false, dot_comm dir]
  congr 1
  ext i
  · simp only; field_simp; ring
  · simp only; ring
  · simp only; ring

/-- Swapping the two states and reversing the direction negates the Roe flux: the flux leaving one
element is the flux entering its neighbour (conservation). -/
theorem C56_roe_antisymmetric (dir : Fin d → ℝ) (qL qR : State d) :
    calcRoeFaceFlux (-dir) qR qL =
      (let f := calcRoeFaceFlux dir qL qR; ⟨-f.rho, -f.mom, -f.ener⟩) := by
  unfold calcRoeFaceFlux
  simp only
  have hu : (fun i => (√qR.rho * qR.mom i * (1 / qR.rho) + √qL.rho * qL.mom i * (1 / qL.rho))
      * (1 / (√qR.rho + √qL.rho)))
      = fun i => (√qL.rho * qL.mom i * (1 / qL.rho) + √qR.rho * qR.mom i * (1 / qR.rho))
      * (1 / (√qL.rho + √qR.rho)) := by
    funext i; rw [add_comm (√qR.rho), add_comm (√qR.rho * qR.mom i * _)]
  have hH : (√qR.rho * ((gamma * qR.ener - 1 / 2 * gami * dot qR.mom qR.mom * (1 / qR.rho))
        * (1 / qR.rho))
      + √qL.rho * ((gamma * qL.ener - 1 / 2 * gami * dot qL.mom qL.mom * (1 / qL.rho))
        * (1 / qL.rho))) * (1 / (√qR.rho + √qL.rho))
      = (√qL.rho * ((gamma * qL.ener - 1 / 2 * gami * dot qL.mom qL.mom * (1 / qL.rho))
        * (1 / qL.rho))
      + √qR.rho * ((gamma * qR.ener - 1 / 2 * gami * dot qR.mom qR.mom * (1 / qR.rho))
        * (1 / qR.rho))) * (1 / (√qL.rho + √qR.rho)) := by
    rw [add_comm (√qR.rho)]; ring
  rw [hu, hH]
  generalize (fun i => (√qL.rho * qL.mom i * (1 / qL.rho) + √qR.rho * qR.mom i * (1 / qR.rho))
      * (1 / (√qL.rho + √qR.rho))) = u
  generalize ((√qL.rho * ((gamma * qL.ener - 1 / 2 * gami * dot qL.mom qL.mom * (1 / qL.rho))
        * (1 / qL.rho))
      + √qR.rho * ((gamma * qR.ener - 1 / 2 * gami * dot qR.mom qR.mom * (1 / qR.rho))
        * (1 / qR.rho))) * (1 / (√qL.rho + √qR.rho))) = H
  simp only [dot_neg_left, dot_neg_right, neg_neg, abs_neg]
  generalize √(gami * (H - 1 / 2 * dot u u)) = a
  generalize √(dot dir dir) = dA
  have e1 : |-dot dir u + dA * a| = |dot dir u - dA * a| := by
    rw [← abs_neg]; congr 1; ring
  have e2 : |-dot dir u - dA * a| = |dot dir u + dA * a| := by
    rw [← abs_neg]; congr 1; ring
  rw [e1, e2]
  generalize max |dot dir u - dA * a| (25 / 1000 * (|dot dir u| + dA * a)) = M2
  generalize max |dot dir u + dA * a| (25 / 1000 * (|dot dir u| + dA * a)) = M1
  generalize max |dot dir u| (25 / 1000 * (|dot dir u| + dA * a)) = M3
  have hd : State.map2 (fun x y => x - y) qR qL
      = ⟨-(qL.rho - qR.rho), -(qL.mom - qR.mom), -(qL.ener - qR.ener)⟩ := by
    unfold State.map2; ext i <;> simp
  have hd' : State.map2 (fun x y => x - y) qL qR
      = ⟨(qL.rho - qR.rho), (qL.mom - qR.mom), (qL.ener - qR.ener)⟩ := rfl
  rw [hd, hd']
  unfold addWaves State.map2 calcEulerFlux
  simp only [dot_neg_right, dot_neg_left]
  ext i
  · simp only; ring
  · simp only [Pi.neg_apply, Pi.sub_apply]; ring
  · simp only; ring

theorem upw_pos {x : ℝ} (h : 0 ≤ x) : 1 / 2 * (max |x| 0 - x) = 0 := by
  rw [abs_of_nonneg h, max_eq_left h]; ring
theorem upw_neg {x : ℝ} (h : x ≤ 0) : 1 / 2 * (max |x| 0 - x) = -x := by
  rw [abs_of_nonpos h, max_eq_left (by linarith)]; ring
theorem upw_eq (x : ℝ) : 1 / 2 * (max |x| 0 - x) = (|x| - x) / 2 := by
  rw [max_eq_left (abs_nonneg x)]; ring

/-- Sound speed squared. -/
noncomputable def specA2 (q : State d) : ℝ := 7 / 5 * specP q / q.rho

theorem a2_eq (q : State d) (hr : q.rho ≠ 0) :
    gami * (gamma * q.ener * (1 / q.rho)
        - gami * (1 / 2 * dot q.mom q.mom * (1 / q.rho) * (1 / q.rho))
        - 1 / 2 * dot q.mom q.mom * (1 / q.rho) * (1 / q.rho)) = specA2 q := by
  unfold specA2
  rw [← pressure_spec, ener_eq q, gami_eq, gamma_eq]; field_simp; ring

theorem H_eq (q : State d) (hr : q.rho ≠ 0) :
    gamma * q.ener * (1 / q.rho)
        - gami * (1 / 2 * dot q.mom q.mom * (1 / q.rho) * (1 / q.rho))
      = (q.ener + specP q) / q.rho := by
  rw [← pressure_spec, ener_eq q, gami_eq, gamma_eq]; field_simp; ring

theorem sqsum (n : Fin d → ℝ) : (∑ i, n i ^ 2) = dot n n := by
  unfold dot; exact Finset.sum_congr rfl fun i _ => by ring

/-- The boundary flux with all intermediate scalars in physical form. -/
theorem boundary_form (dir : Fin d → ℝ) (qbnd q : State d) (hr : qbnd.rho ≠ 0) :
    calcBoundaryFlux dir qbnd q =
      (let c := √(specA2 qbnd); let A := √(dot dir dir)
       let U := dot qbnd.mom dir / qbnd.rho
       let f := fun x : ℝ => (|x| - x) / 2
       let dq : State d := ⟨q.rho - qbnd.rho, q.mom - qbnd.mom, q.ener - qbnd.ener⟩
       let F := calcEulerFlux dir q
       addWaves dir ((1 / qbnd.rho) • qbnd.mom)
         (1 / 2 * dot qbnd.mom qbnd.mom / qbnd.rho ^ 2) ((qbnd.ener + specP qbnd) / qbnd.rho) c U A
         (f (U + A * c)) (f (U - A * c)) (f U) dq
         ⟨F.rho + f U * dq.rho, F.mom + f U • dq.mom, F.ener + f U * dq.ener⟩) := by
  unfold calcBoundaryFlux
  simp only [zero_mul, upw_eq, a2_eq qbnd hr]
  simp only [H_eq qbnd hr]
  have h1 : (fun i => qbnd.mom i * (1 / qbnd.rho)) = (1 / qbnd.rho) • qbnd.mom := by
    funext i; simp only [Pi.smul_apply, smul_eq_mul]; ring
  have h2 : 1 / 2 * dot qbnd.mom qbnd.mom * (1 / qbnd.rho) * (1 / qbnd.rho)
      = 1 / 2 * dot qbnd.mom qbnd.mom / qbnd.rho ^ 2 := by field_simp
  have h3 : dot qbnd.mom dir * (1 / qbnd.rho) = dot qbnd.mom dir / qbnd.rho := by ring
  rw [h1, h2, h3]
  rfl

/-- Supersonic outflow (normal Mach number of the boundary state at least one): the boundary data
has no influence, the flux is the Euler flux of the interior state. -/
theorem C56_supersonic_outflow (dir : Fin d → ℝ) (qbnd q : State d) (_hdir : dir ≠ 0)
    (hb : Admissible qbnd) (h : Admissible q)
    (hout : √(∑ i, dir i ^ 2) * √(specA2 qbnd) ≤ (∑ i, qbnd.mom i * dir i) / qbnd.rho) :
    calcBoundaryFlux dir qbnd q = physFlux dir q := by
  rw [← C54_euler_flux dir q h.rho_pos.ne', boundary_form dir qbnd q hb.rho_pos.ne']
  rw [sqsum] at hout
  change _ ≤ dot qbnd.mom dir / qbnd.rho at hout
  have hc : 0 ≤ √(dot dir dir) * √(specA2 qbnd) := by positivity
  have f0 : ∀ x : ℝ, 0 ≤ x → (|x| - x) / 2 = 0 := fun x hx => by rw [abs_of_nonneg hx]; ring
  simp only
  rw [f0 _ (by linarith), f0 _ (by linarith), f0 _ (by linarith)]
  unfold addWaves
  ext i <;> simp

/-- Derivative of the Euler flux `F(q)·n` in direction `v` (verified by `C56_jacobian`). -/
noncomputable def eulerJac (n : Fin d → ℝ) (q v : State d) : State d :=
  let un := (∑ i, q.mom i * n i) / q.rho
  let dun := (∑ i, v.mom i * n i) - un * v.rho
  let dp := (7 / 5 - 1 : ℝ) * (v.ener - (∑ i, q.mom i / q.rho * v.mom i)
              + (∑ i, q.mom i ^ 2) / (2 * q.rho ^ 2) * v.rho)
  ⟨un * v.rho + dun, fun i => un * v.mom i + q.mom i / q.rho * dun + n i * dp,
   un * v.ener + dp * un + (q.ener + specP q) / q.rho * dun⟩

/-- The point `q + t v`. -/
def line (q v : State d) (t : ℝ) : State d :=
  ⟨q.rho + t * v.rho, fun i => q.mom i + t * v.mom i, q.ener + t * v.ener⟩

/-- `eulerJac` in terms of `dot`. -/
theorem eulerJac_eq (n : Fin d → ℝ) (q v : State d) (hr : q.rho ≠ 0) :
    eulerJac n q v =
      (let un := dot q.mom n / q.rho
       let dun := dot v.mom n - un * v.rho
       let dp := 2 / 5 * (v.ener - dot q.mom v.mom / q.rho
              + 1 / 2 * dot q.mom q.mom / q.rho ^ 2 * v.rho)
       ⟨un * v.rho + dun, un • v.mom + (dun / q.rho) • q.mom + dp • n,
        un * v.ener + dp * un + (q.ener + specP q) / q.rho * dun⟩) := by
  have h1 : (∑ i, q.mom i / q.rho * v.mom i) = dot q.mom v.mom / q.rho := by
    unfold dot; rw [Finset.sum_div]; exact Finset.sum_congr rfl fun i _ => by ring
  have h2 : (7 / 5 - 1 : ℝ) * (v.ener - dot q.mom v.mom / q.rho
      + dot q.mom q.mom / (2 * q.rho ^ 2) * v.rho)
      = 2 / 5 * (v.ener - dot q.mom v.mom / q.rho
              + 1 / 2 * dot q.mom q.mom / q.rho ^ 2 * v.rho) := by
    field_simp; ring
  unfold eulerJac
  simp only [h1, sqsum, h2]
  ext i
  · rfl
  · simp only [Pi.smul_apply, Pi.add_apply, smul_eq_mul, dot]; ring
  · rfl

theorem dot_line_mom (q v : State d) (n : Fin d → ℝ) (t : ℝ) :
    dot (line q v t).mom n = dot q.mom n + t * dot v.mom n := by
  have : (line q v t).mom = q.mom + t • v.mom := by
    funext i; simp [line]
  rw [this, dot_add_left, dot_smul_left]

theorem hasDerivAt_line_dot (q v : State d) (n : Fin d → ℝ) :
    HasDerivAt (fun t => dot (line q v t).mom n) (dot v.mom n) 0 := by
  simp only [dot_line_mom]
  simpa using ((hasDerivAt_id (0 : ℝ)).mul_const (dot v.mom n)).const_add (dot q.mom n)

theorem dot_line_self (q v : State d) (t : ℝ) :
    dot (line q v t).mom (line q v t).mom
      = dot q.mom q.mom + t * (2 * dot q.mom v.mom) + t ^ 2 * dot v.mom v.mom := by
  have : (line q v t).mom = q.mom + t • v.mom := by
    funext i; simp [line]
  rw [this]
  simp only [dot_add_left, dot_add_right, dot_smul_left, dot_smul_right, dot_comm v.mom q.mom]
  ring

theorem hasDerivAt_affine (a b : ℝ) : HasDerivAt (fun t : ℝ => a + t * b) b 0 := by
  simpa using ((hasDerivAt_id (0 : ℝ)).mul_const b).const_add a

theorem hasDerivAt_pressure (q v : State d) (hr : q.rho ≠ 0) :
    HasDerivAt (fun t => pressure (line q v t))
      (2 / 5 * (v.ener - dot q.mom v.mom / q.rho
              + 1 / 2 * dot q.mom q.mom / q.rho ^ 2 * v.rho)) 0 := by
  have h0 : HasDerivAt (fun t : ℝ => dot q.mom q.mom + t * (2 * dot q.mom v.mom)
      + t ^ 2 * dot v.mom v.mom) (2 * dot q.mom v.mom) 0 := by
    have := (hasDerivAt_affine (dot q.mom q.mom) (2 * dot q.mom v.mom)).fun_add
      ((hasDerivAt_pow 2 (0 : ℝ)).mul_const (dot v.mom v.mom))
    simpa using this
  have h1 := hasDerivAt_affine q.rho v.rho
  have h2 := hasDerivAt_affine q.ener v.ener
  have h3 := ((h0.const_mul (1 / 2)).fun_div h1 (by simpa using hr))
  have h4 := (h2.fun_sub h3).const_mul (2 / 5 : ℝ)
  have e : (fun t => pressure (line q v t)) = fun t : ℝ =>
      2 / 5 * ((q.ener + t * v.ener) - (1 / 2 * (dot q.mom q.mom + t * (2 * dot q.mom v.mom)
      + t ^ 2 * dot v.mom v.mom)) / (q.rho + t * v.rho)) := by
    funext t; unfold pressure; rw [dot_line_self, gami_eq]; rfl
  rw [e]
  refine h4.congr_deriv ?_
  simp
  field_simp
  ring

/-- `eulerJac` is the directional derivative of the flux computed by `calcEulerFlux`. -/
theorem C56_jacobian (n : Fin d → ℝ) (q v : State d) (hr : q.rho ≠ 0) :
    HasDerivAt (fun t => (calcEulerFlux n (line q v t)).rho) (eulerJac n q v).rho 0 ∧
    (∀ i, HasDerivAt (fun t => (calcEulerFlux n (line q v t)).mom i) ((eulerJac n q v).mom i) 0) ∧
    HasDerivAt (fun t => (calcEulerFlux n (line q v t)).ener) (eulerJac n q v).ener 0 := by
  have hp := hasDerivAt_pressure q v hr
  have hm := hasDerivAt_line_dot q v n
  have h1 : HasDerivAt (fun t => (line q v t).rho) v.rho 0 := hasDerivAt_affine q.rho v.rho
  have h2 : HasDerivAt (fun t => (line q v t).ener) v.ener 0 := hasDerivAt_affine q.ener v.ener
  have r0 : (line q v 0).rho = q.rho := by simp [line]
  have m0 : (line q v 0).mom = q.mom := by funext i; simp [line]
  have e0 : (line q v 0).ener = q.ener := by simp [line]
  have l0 : line q v 0 = q := by ext i <;> simp [line]
  have hU := hm.fun_div h1 (by rw [r0]; exact hr)
  rw [eulerJac_eq n q v hr]
  refine ⟨?_, ?_, ?_⟩
  · refine hm.congr_deriv ?_
    simp
  · intro i
    have hmi : HasDerivAt (fun t => (line q v t).mom i) (v.mom i) 0 :=
      hasDerivAt_affine (q.mom i) (v.mom i)
    have := (hmi.fun_mul hU).fun_add (hp.const_mul (n i))
    refine this.congr_deriv ?_
    simp only [l0, Pi.add_apply, Pi.smul_apply, smul_eq_mul]
    field_simp
    try ring
  · have := (h2.fun_add hp).fun_mul hU
    refine this.congr_deriv ?_
    simp only [l0, ← pressure_spec]
    field_simp

/-- Supersonic inflow: the flux is `F(q) - F'(q_bnd)(q - q_bnd)`, i.e. to first order it is
`F(q_bnd)` and the interior state drops out. -/
theorem C56_supersonic_inflow (dir : Fin d → ℝ) (qbnd q : State d) (hdir : dir ≠ 0)
    (hb : Admissible qbnd) (h : Admissible q)
    (hin : (∑ i, qbnd.mom i * dir i) / qbnd.rho ≤ -(√(∑ i, dir i ^ 2) * √(specA2 qbnd))) :
    let J := eulerJac dir qbnd ⟨q.rho - qbnd.rho, q.mom - qbnd.mom, q.ener - qbnd.ener⟩
    let F := physFlux dir q
    calcBoundaryFlux dir qbnd q = ⟨F.rho - J.rho, F.mom - J.mom, F.ener - J.ener⟩ := by
  have hr := hb.rho_pos.ne'
  simp only
  rw [← C54_euler_flux dir q h.rho_pos.ne', boundary_form dir qbnd q hr, eulerJac_eq _ _ _ hr]
  rw [sqsum] at hin
  change dot qbnd.mom dir / qbnd.rho ≤ _ at hin
  have hA : 0 < √(dot dir dir) := Real.sqrt_pos.mpr (dot_self_pos hdir)
  have hcs : 0 < √(specA2 qbnd) := by
    apply Real.sqrt_pos.mpr
    unfold specA2; rw [← pressure_spec]
    have := hb.press_pos; have := hb.rho_pos; positivity
  have hc : 0 ≤ √(dot dir dir) * √(specA2 qbnd) := by positivity
  have f0 : ∀ x : ℝ, x ≤ 0 → (|x| - x) / 2 = -x := fun x hx => by rw [abs_of_nonpos hx]; ring
  simp only
  rw [f0 _ (by linarith), f0 _ (by linarith), f0 _ (by linarith)]
  have e : ∀ U A c : ℝ, A ≠ 0 → c ≠ 0 →
      1 / 2 * (-(U + A * c) - -(U - A * c)) / (A * c) = -1 := by
    intro U A c hA hc; field_simp; ring
  have e2 : ∀ U A c : ℝ, 1 / 2 * (-(U + A * c) + -(U - A * c)) - -U = 0 := by
    intro U A c; ring
  unfold addWaves
  simp only [e _ _ _ hA.ne' hcs.ne', e2, zero_mul, zero_div]
  simp only [dot_smul_left, dot_comm dir, gami_eq]
  ext i
  · simp only; ring
  · simp only [Pi.add_apply, Pi.smul_apply, Pi.sub_apply, smul_eq_mul]; ring
  · simp only; ring

theorem addWaves_acoustic (dir u : Fin d → ℝ) (phi H a Un dA l1 l2 l3 t s : ℝ)
    (dq flux : State d) (ha : a ≠ 0) (hA : dA ≠ 0) (hs : s = 1 ∨ s = -1)
    (h1 : phi * dq.rho + dq.ener - dot u dq.mom = t * (5 / 2 * (a * a)))
    (h2 : -Un * dq.rho + dot dir dq.mom = t * (s * a * dA)) :
    addWaves dir u phi H a Un dA l1 l2 l3 dq flux =
      (let k := ((l1 + l2) / 2 + s * ((l1 - l2) / 2) - l3) * t
       ⟨flux.rho + k, flux.mom + k • (u + (s * a / dA) • dir),
        flux.ener + k * (H + s * a / dA * Un)⟩) := by
  have hss : s * s = 1 := by rcases hs with h | h <;> rw [h] <;> norm_num
  unfold addWaves
  simp only [h1, h2, gami_eq]
  ext i
  · simp only
    field_simp
    ring
  · simp only [Pi.add_apply, Pi.smul_apply, smul_eq_mul]
    field_simp
    linear_combination -(l1 - l2) * t * a * dir i * (hss)
  · simp only
    field_simp
    linear_combination -(l1 - l2) * t * a * Un * (hss)

/-- The characteristic decomposition: the perturbations carried with speeds `u·n ± c|n|`
(right eigenvectors of `F'(q_bnd)`) are damped by `(|λ| - λ)/2`, their own wave speed. -/
theorem C56_acoustic_wave (dir : Fin d → ℝ) (qbnd : State d) (t sgn : ℝ) (hdir : dir ≠ 0)
    (hb : Admissible qbnd) (hs : sgn = 1 ∨ sgn = -1) :
    let c := √(specA2 qbnd)
    let A := √(∑ i, dir i ^ 2)
    let U := (∑ i, qbnd.mom i * dir i) / qbnd.rho
    let lam := U + sgn * (A * c)
    let r : State d := ⟨1, fun i => qbnd.mom i / qbnd.rho + sgn * c / A * dir i,
      (qbnd.ener + specP qbnd) / qbnd.rho + sgn * c / A * U⟩
    let J := eulerJac dir qbnd r
    let F := calcEulerFlux dir (line qbnd r t)
    J = ⟨lam * r.rho, lam • r.mom, lam * r.ener⟩ ∧
    calcBoundaryFlux dir qbnd (line qbnd r t) =
      ⟨F.rho + (|lam| - lam) / 2 * (t * r.rho), F.mom + ((|lam| - lam) / 2 * t) • r.mom,
       F.ener + (|lam| - lam) / 2 * (t * r.ener)⟩ := by
  have hr := hb.rho_pos.ne'
  have hA : 0 < √(dot dir dir) := Real.sqrt_pos.mpr (dot_self_pos hdir)
  have hAA : dot dir dir = √(dot dir dir) * √(dot dir dir) :=
    (Real.mul_self_sqrt (dot_self_nonneg dir)).symm
  have hpp := hb.press_pos
  have hA2 : 0 < specA2 qbnd := by
    unfold specA2; rw [← pressure_spec]; have := hb.rho_pos; positivity
  have hcs : 0 < √(specA2 qbnd) := Real.sqrt_pos.mpr hA2
  have hcc : specP qbnd = 5 / 7 * (√(specA2 qbnd) * √(specA2 qbnd)) * qbnd.rho := by
    rw [Real.mul_self_sqrt hA2.le]; unfold specA2; field_simp
  have hE : qbnd.ener = 5 / 2 * specP qbnd + 1 / 2 * dot qbnd.mom qbnd.mom / qbnd.rho := by
    rw [← pressure_spec]; exact ener_eq qbnd
  have hss : sgn * sgn = 1 := by rcases hs with h | h <;> rw [h] <;> norm_num
  have hmdef : (fun i => qbnd.mom i / qbnd.rho + sgn * √(specA2 qbnd) / √(dot dir dir) * dir i)
      = (1 / qbnd.rho) • qbnd.mom + (sgn * √(specA2 qbnd) / √(dot dir dir)) • dir := by
    funext i; simp only [Pi.add_apply, Pi.smul_apply, smul_eq_mul]; ring
  have hUd : (∑ i, qbnd.mom i * dir i) = dot qbnd.mom dir := rfl
  simp only [sqsum, hmdef, hUd]
  generalize hcdef : √(specA2 qbnd) = c at hcs hcc ⊢
  generalize hAdef : √(dot dir dir) = A at hA hAA ⊢
  constructor
  · rw [eulerJac_eq _ _ _ hr]
    simp only [dot_add_left, dot_add_right, dot_smul_left, dot_smul_right]
    ext i
    · simp only
      rw [hAA]; field_simp; ring
    · simp only [Pi.add_apply, Pi.smul_apply, smul_eq_mul]
      rw [hE, hcc, hAA]
      rcases hs with rfl | rfl <;> (field_simp; ring)
    · simp only
      rw [hE, hcc, hAA]
      rcases hs with rfl | rfl <;> (field_simp; ring)
  · rw [boundary_form _ _ _ hr]
    have hq1 : ∀ r : State d, (line qbnd r t).rho - qbnd.rho = t * r.rho := by simp [line]
    have hq2 : ∀ r : State d, (line qbnd r t).mom - qbnd.mom = t • r.mom := by
      intro r; funext i; simp [line]
    have hq3 : ∀ r : State d, (line qbnd r t).ener - qbnd.ener = t * r.ener := by simp [line]
    simp only [hq1, hq2, hq3, hcdef, hAdef]
    rw [addWaves_acoustic (t := t) (s := sgn) (ha := hcs.ne') (hA := hA.ne') (hs := hs)]
    · rcases hs with rfl | rfl
      · have e1 : dot qbnd.mom dir / qbnd.rho + 1 * (A * c)
            = dot qbnd.mom dir / qbnd.rho + A * c := by ring
        rw [e1]
        generalize (|dot qbnd.mom dir / qbnd.rho + A * c| -
          (dot qbnd.mom dir / qbnd.rho + A * c)) / 2 = L1
        ext i
        · simp only; ring
        · simp only [Pi.add_apply, Pi.smul_apply, smul_eq_mul]; ring
        · simp only; ring
      · have e1 : dot qbnd.mom dir / qbnd.rho + -1 * (A * c)
            = dot qbnd.mom dir / qbnd.rho - A * c := by ring
        rw [e1]
        generalize (|dot qbnd.mom dir / qbnd.rho - A * c| -
          (dot qbnd.mom dir / qbnd.rho - A * c)) / 2 = L1
        ext i
        · simp only; ring
        · simp only [Pi.add_apply, Pi.smul_apply, smul_eq_mul]; ring
        · simp only; ring
    · simp only [dot_add_right, dot_smul_left, dot_smul_right]
      rw [hE, hcc]; field_simp; ring
    · simp only [dot_add_right, dot_smul_right, dot_comm dir qbnd.mom]
      rw [hAA]; field_simp; ring

/-- Entropy and shear perturbations (no change of pressure and of normal velocity) travel with
`u·n` and are damped by `(|u·n| - u·n)/2`. -/
theorem C56_convective_wave (dir : Fin d → ℝ) (qbnd v : State d)
    (hb : Admissible qbnd)
    (hp : v.ener - (∑ i, qbnd.mom i / qbnd.rho * v.mom i)
              + (∑ i, qbnd.mom i ^ 2) / (2 * qbnd.rho ^ 2) * v.rho = 0)
    (hU : (∑ i, v.mom i * dir i) - (∑ i, qbnd.mom i * dir i) / qbnd.rho * v.rho = 0) :
    let lam := (∑ i, qbnd.mom i * dir i) / qbnd.rho
    let F := calcEulerFlux dir (line qbnd v 1)
    eulerJac dir qbnd v = ⟨lam * v.rho, lam • v.mom, lam * v.ener⟩ ∧
    calcBoundaryFlux dir qbnd (line qbnd v 1) =
      ⟨F.rho + (|lam| - lam) / 2 * v.rho, F.mom + ((|lam| - lam) / 2) • v.mom,
       F.ener + (|lam| - lam) / 2 * v.ener⟩ := by
  have hr := hb.rho_pos.ne'
  constructor
  · unfold eulerJac
    simp only [hp, hU]
    ext i <;> simp
  · rw [boundary_form _ _ _ hr]
    have hq1 : (line qbnd v 1).rho - qbnd.rho = v.rho := by simp [line]
    have hq2 : (line qbnd v 1).mom - qbnd.mom = v.mom := by
      funext i; simp [line]
    have hq3 : (line qbnd v 1).ener - qbnd.ener = v.ener := by simp [line]
    have h1 : (∑ i, qbnd.mom i / qbnd.rho * v.mom i) = dot qbnd.mom v.mom / qbnd.rho := by
      unfold dot; rw [Finset.sum_div]; exact Finset.sum_congr rfl fun i _ => by ring
    rw [h1, sqsum] at hp
    have hEdq : 1 / 2 * dot qbnd.mom qbnd.mom / qbnd.rho ^ 2 * v.rho + v.ener
        - dot ((1 / qbnd.rho) • qbnd.mom) v.mom = 0 := by
      rw [dot_smul_left, ← hp]; field_simp; ring
    have hEdq' : -(dot qbnd.mom dir / qbnd.rho) * v.rho + dot dir v.mom = 0 := by
      rw [dot_comm dir, ← hU]; unfold dot; ring
    simp only [hq1, hq2, hq3]
    unfold addWaves
    simp only [hEdq, hEdq']
    change _ = (⟨_ + (|dot qbnd.mom dir / qbnd.rho| - dot qbnd.mom dir / qbnd.rho) / 2 * v.rho,
      _ + ((|dot qbnd.mom dir / qbnd.rho| - dot qbnd.mom dir / qbnd.rho) / 2) • v.mom,
      _ + (|dot qbnd.mom dir / qbnd.rho| - dot qbnd.mom dir / qbnd.rho) / 2 * v.ener⟩ : State d)
    ext i <;> simp

/-- Witnesses: a supersonic outflow state and direction, and a supersonic inflow. -/
example : ∃ (dir : Fin 1 → ℝ) (q : State 1), dir ≠ 0 ∧ Admissible q ∧
    √(∑ i, dir i ^ 2) * √(specA2 q) ≤ (∑ i, q.mom i * dir i) / q.rho := by
  refine ⟨![1], ⟨1, ![3], 9 / 2 + 5 / 2⟩, ?_, ?_, ?_⟩
  · intro h; have := congrFun h 0; norm_num at this
  · constructor <;> norm_num
  · have : specA2 (⟨1, ![3], 9 / 2 + 5 / 2⟩ : State 1) = 7 / 5 := by norm_num [specA2, specP]
    rw [this]
    have h3 : √(7 / 5 : ℝ) ≤ 3 := Real.sqrt_le_iff.mpr ⟨by norm_num, by norm_num⟩
    simp at h3 ⊢; linarith
example : ∃ (dir : Fin 1 → ℝ) (q : State 1), dir ≠ 0 ∧ Admissible q ∧
    (∑ i, q.mom i * dir i) / q.rho ≤ -(√(∑ i, dir i ^ 2) * √(specA2 q)) := by
  refine ⟨![1], ⟨1, ![-3], 9 / 2 + 5 / 2⟩, ?_, ?_, ?_⟩
  · intro h; have := congrFun h 0; norm_num at this
  · constructor <;> norm_num
  · have : specA2 (⟨1, ![-3], 9 / 2 + 5 / 2⟩ : State 1) = 7 / 5 := by norm_num [specA2, specP]
    rw [this]
    have h3 : √(7 / 5 : ℝ) ≤ 3 := Real.sqrt_le_iff.mpr ⟨by norm_num, by norm_num⟩
    simp at h3 ⊢; linarith
example : ∃ v : State 2, v ≠ ⟨0, ![0, 0], 0⟩ ∧
    v.ener - (∑ i, q1.mom i / q1.rho * v.mom i)
              + (∑ i, q1.mom i ^ 2) / (2 * q1.rho ^ 2) * v.rho = 0 ∧
    (∑ i, v.mom i * (![1, 0] : Fin 2 → ℝ) i)
      - (∑ i, q1.mom i * (![1, 0] : Fin 2 → ℝ) i) / q1.rho * v.rho = 0 := by
  refine ⟨⟨0, ![0, 1], 1 / 2⟩, ?_, ?_, ?_⟩
  · intro h; have := congrArg State.ener h; norm_num at this
  · norm_num [q1, Fin.sum_univ_two]
  · norm_num [q1, Fin.sum_univ_two]

end Verif.EulerFluxes
