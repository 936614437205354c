import Verif.OptLoop
import Verif.PyLayerProps

/-! # Gradients in an optimisation loop: property theorems (C222) -/

set_option linter.unusedSectionVars false
set_option linter.unusedSimpArgs false

namespace Verif.Opt

open Verif.NLForm Verif.Steady Verif.Py Matrix

variable {n m k : ℕ}

/-! ### The branch of solutions -/

/-- What a differentiable branch of solutions satisfies: the essential entries do not move, the free rows of the linearised
equation hold, and the output changes by its partial derivatives. -/
theorem branch_linear (F : Phys n (Fin m → ℝ)) (G : Matrix (Fin n) (Fin m) ℝ) (ess : Finset (Fin n)) (bc : Option (Vec n))
    (p δ : Fin m → ℝ) (u : Vec n) (hF : HasPartials F G p u) (Φ : (Fin m → ℝ) → Vec n → ℝ) (xbar : Fin m → ℝ) (sbar : Vec n)
    (hΦ : OutputPartials Φ p u xbar sbar) (U : ℝ → Vec n) (hU : Branch F ess bc p δ u U) :
    ∃ U' : Vec n, HasDerivAt U U' 0 ∧ (∀ i ∈ ess, U' i = 0) ∧ (∀ i ∉ ess, (G *ᵥ δ) i + (F.J p u *ᵥ U') i = 0) ∧
      HasDerivAt (fun t : ℝ => Φ (p + t • δ) (U t)) (xbar ⬝ᵥ δ + sbar ⬝ᵥ U') 0 := by
  obtain ⟨h0, hd, hev⟩ := hU
  obtain ⟨L, hL, hLe⟩ := hF
  obtain ⟨M, hM, hMe⟩ := hΦ
  obtain ⟨U', hU'⟩ : ∃ U', HasDerivAt U U' 0 := ⟨_, hd.hasDerivAt⟩
  have hp : HasDerivAt (fun t : ℝ => p + t • δ) δ 0 := by
    simpa using ((hasDerivAt_id' (0 : ℝ)).smul_const δ).const_add p
  have hz : HasDerivAt (fun t : ℝ => (p + t • δ, U t)) (δ, U') 0 := hp.prodMk hU'
  have hpt : (p + (0 : ℝ) • δ, U 0) = (p, u) := by simp [h0]
  have hR := HasFDerivAt.comp_hasDerivAt_of_eq (0 : ℝ) hL hz hpt.symm
  have hO := HasFDerivAt.comp_hasDerivAt_of_eq (0 : ℝ) hM hz hpt.symm
  rw [hLe] at hR
  rw [hMe] at hO
  refine ⟨U', hU', ?_, ?_, hO⟩
  · intro i hi
    have h1 : HasDerivAt (fun t => U t i) (U' i) 0 := (hasDerivAt_pi.1 hU') i
    have h2 : (fun t => U t i) =ᶠ[nhds 0] fun _ => u i := by
      cases hb : bc with
      | none => exact hev.mono fun t ht => ht.2 hb i hi
      | some b =>
        have h3 : ∀ t, residual F ess bc (p + t • δ) (U t) = 0 → U t i = b i := by
          intro t ht
          have := congrFun ht i
          simp only [NLForm.residual, if_pos hi, hb, Pi.zero_apply] at this
          exact sub_eq_zero.1 this
        have h4 : u i = b i := by
          have := h3 0 hev.self_of_nhds.1
          rwa [h0] at this
        exact hev.mono fun t ht => (h3 t ht.1).trans h4.symm
    exact h1.unique ((hasDerivAt_const (0 : ℝ) (u i)).congr_of_eventuallyEq h2)
  · intro i hi
    have h1 := (hasDerivAt_pi.1 hR) i
    have h2 : (fun t : ℝ => F.R (p + t • δ) (U t) i) =ᶠ[nhds 0] fun _ => 0 :=
      hev.mono fun t ht => by
        have := congrFun ht.1 i
        simpa only [NLForm.residual, if_neg hi, Pi.zero_apply] using this
    exact h1.unique ((hasDerivAt_const (0 : ℝ) (0 : ℝ)).congr_of_eventuallyEq h2)

/-! ### Products with respect to all inputs -/

/-- Every input arrives at the overload it was registered for: numbers are exactly the inputs with one entry. -/
def Layout.Proper (L : Layout m k) : Prop := ∀ j, L.size (L.blk j) = 1 ↔ L.isScalar (L.blk j) = true

theorem paramVjp_dot (f : Form n (Fin m → ℝ)) (L : Layout m k) (hL : L.Proper) (G : Matrix (Fin n) (Fin m) ℝ) (b : Vec n)
    (hb : ∀ i ∈ f.ess, b i = 0) (j : Fin m) : paramVjp f L G b 0 j = (Gᵀ *ᵥ b) j := by
  have hz : zeroEss f.ess b = b := by
    funext i
    unfold zeroEss
    by_cases hi : i ∈ f.ess
    · simp [hi, hb i hi]
    · simp [hi]
  unfold paramVjp
  by_cases h1 : L.size (L.blk j) = 1
  · rw [if_pos h1, if_pos ((hL j).1 h1)]
    simp [Form.vjpScalar, Matrix.mulVec, dotProduct, mul_comm]
  · rw [if_neg h1, if_neg fun h => h1 ((hL j).2 h)]
    simp [Form.vjpField, hz]

/-- **C222** Products with respect to the inputs are added to what the accumulator holds, entry by entry. -/
theorem C222_accumulates (f : Form n (Fin m → ℝ)) (L : Layout m k) (hL : L.Proper) (G : Matrix (Fin n) (Fin m) ℝ) (b : Vec n)
    (hb : ∀ i ∈ f.ess, b i = 0) (acc : Fin m → ℝ) (j : Fin m) : paramVjp f L G b acc j = acc j + (Gᵀ *ᵥ b) j := by
  have h0 := paramVjp_dot f L hL G b hb j
  unfold paramVjp at h0 ⊢
  by_cases h1 : L.size (L.blk j) = 1
  · rw [if_pos h1, if_pos ((hL j).1 h1)] at h0 ⊢
    rw [← h0]; simp
  · rw [if_neg h1, if_neg fun h => h1 ((hL j).2 h)] at h0 ⊢
    rw [← h0]; simp [Form.vjpField]

/-! ### What the component holds -/

/-- The component was linearised at `(p, u)` and holds the Jacobian blocks of `A`. -/
def Held (ess : Finset (Fin n)) (bc : Option (Vec n)) (p : Fin m → ℝ) (u : Vec n) (A : Mat n) (c : Comp n (Fin m → ℝ)) : Prop :=
  c.solver.form.ess = ess ∧ c.solver.form.bc = bc ∧ c.solver.form.p = p ∧ c.inputs = p ∧ c.state = u ∧
  c.solver.form.jac = some (elim ess A) ∧ (c.solver.form.jacT = none ∨ c.solver.form.jacT = some (elim ess A)ᵀ)

theorem linearize_held (F : Phys n (Fin m → ℝ)) (ess : Finset (Fin n)) (bc : Option (Vec n)) (p p' : Fin m → ℝ) (u u' : Vec n)
    (A : Mat n) (c : Comp n (Fin m → ℝ)) (h : Held ess bc p' u' A c) : Held ess bc p u A (Py.linearize F c p u) := by
  obtain ⟨h1, h2, h3, h4, h5, h6, h7⟩ := h
  have e : (Py.linearize F c p u).solver.form = c.solver.form.linearize F p u := rfl
  have k := linearize_keep F c.solver.form p u
  refine ⟨by rw [e, k.1, h1], by rw [e, k.2.1, h2], by rw [e, k.2.2], rfl, rfl, ?_, Or.inr ?_⟩
  · rw [e]
    rcases h7 with h7 | h7 <;> simp [Form.linearize, Form.setInputs, h6, h7]
  · rw [e]
    rcases h7 with h7 | h7 <;> simp [Form.linearize, Form.setInputs, h6, h7]

theorem transpose_jac (f g : Form n (Fin m → ℝ)) (A : Mat n) (hj : f.jac = some A) (hT : f.jacT = none ∨ f.jacT = some Aᵀ) (T : Mat n)
    (h : f.getJacobianTranspose = some (g, T)) : g.jac = some A ∧ g.jacT = some Aᵀ ∧ T = Aᵀ := by
  unfold Form.getJacobianTranspose at h
  rcases hT with hT | hT
  · simp only [hT, hj, Option.some.injEq, Prod.mk.injEq] at h
    rw [← h.1]; exact ⟨rfl, rfl, h.2.symm⟩
  · simp only [hT, Option.some.injEq, Prod.mk.injEq] at h
    rw [← h.1]; exact ⟨hj, hT, h.2.symm⟩

theorem setUp_jac (f g : Form n (Fin m → ℝ)) (A : Mat n) (hj : f.jac = some A) (hT : f.jacT = none ∨ f.jacT = some Aᵀ)
    (a b x y : Vec n) (T : Mat n) (h : f.setUpAdjoint a b = some (g, T, x, y)) : g.jac = some A ∧ g.jacT = some Aᵀ := by
  unfold Form.setUpAdjoint at h
  cases hq : f.getJacobianTranspose with
  | none => simp [hq] at h
  | some q =>
    obtain ⟨g', T'⟩ := q
    have hk := transpose_jac f g' A hj hT T' hq
    simp only [hq] at h
    by_cases he : g'.ess = ∅
    · rw [if_pos he] at h
      simp only [Option.some.injEq, Prod.mk.injEq] at h
      rw [← h.1]; exact ⟨hk.1, hk.2.1⟩
    · rw [if_neg he] at h
      simp only [Option.some.injEq, Prod.mk.injEq] at h
      rw [← h.1]; exact ⟨hk.1, hk.2.1⟩

theorem solveLinear_held (adjLin : Mat n → Vec n → Vec n → Vec n) (ess : Finset (Fin n)) (bc : Option (Vec n)) (p : Fin m → ℝ)
    (u : Vec n) (A : Mat n) (c c' : Comp n (Fin m → ℝ)) (h : Held ess bc p u A c) (a b ψ : Vec n)
    (e : solveLinear adjLin c a b = some (c', ψ)) : Held ess bc p u A c' := by
  obtain ⟨h1, h2, h3, h4, h5, h6, h7⟩ := h
  unfold solveLinear at e
  split_ifs at e with e1 e2
  · cases hq : solveForAdjoint adjLin c.solver c.inputs a b with
    | none => simp [hq] at e
    | some q =>
      obtain ⟨s, ψ'⟩ := q
      have hk := adjoint_keep _ _ _ _ _ _ _ hq
      simp only [hq, Option.some.injEq, Prod.mk.injEq] at e
      have hjj : s.form.jac = some (elim ess A) ∧ s.form.jacT = some (elim ess A)ᵀ := by
        unfold solveForAdjoint at hq
        cases hs : (c.solver.form.setInputs c.inputs).setUpAdjoint a b with
        | none => simp [hs] at hq
        | some r =>
          obtain ⟨g, T, x, y⟩ := r
          have := setUp_jac (c.solver.form.setInputs c.inputs) g (elim ess A) h6 h7 a b x y T hs
          simp only [hs, Option.some.injEq, Prod.mk.injEq] at hq
          rw [← hq.1]
          exact this
      rw [← e.1]
      exact ⟨hk.1.trans h1, hk.2.1.trans h2, hk.2.2.trans h4, h4, h5, hjj.1, Or.inr hjj.2⟩
  · simp only [Option.some.injEq, Prod.mk.injEq] at e
    rw [← e.1]
    exact ⟨h1, h2, h3, h4, h5, h6, h7⟩

/-- The calls OpenMDAO makes for the outputs of one design: evaluations and linearisations at it, adjoint solves for any seeds. -/
def AtDesign (p : Fin m → ℝ) (u : Vec n) : CCall n (Fin m → ℝ) → Prop
  | .apply q v => q = p ∧ v = u
  | .solve _ _ _ => False
  | .linearize q v => q = p ∧ v = u
  | .adjoint _ _ => True

theorem cstep_held (F : Phys n (Fin m → ℝ)) (N : Newton n) (adjLin : Mat n → Vec n → Vec n → Vec n) (o : TimeLoop.LogOpts)
    (ess : Finset (Fin n)) (bc : Option (Vec n)) (p : Fin m → ℝ) (u : Vec n) (A : Mat n) (c : Comp n (Fin m → ℝ))
    (h : Held ess bc p u A c ∧ c.linearized = true) (x : CCall n (Fin m → ℝ)) (hx : AtDesign p u x) :
    Held ess bc p u A (cstep F N adjLin o c x) ∧ (cstep F N adjLin o c x).linearized = true := by
  obtain ⟨h, hl⟩ := h
  cases x with
  | apply q v =>
    obtain ⟨rfl, rfl⟩ := hx
    obtain ⟨h1, h2, h3, h4, h5, h6, h7⟩ := h
    have k := evaluate_keep F (c.solver.form.setInputs q) v
    refine ⟨⟨k.1.trans h1, k.2.1.trans h2, k.2.2.1, rfl, rfl, k.2.2.2.1.trans h6, ?_⟩, hl⟩
    rcases h7 with h7 | h7
    · exact Or.inl (k.2.2.2.2.2.trans h7)
    · exact Or.inr (k.2.2.2.2.2.trans h7)
  | solve i q v => exact hx.elim
  | linearize q v =>
    obtain ⟨rfl, rfl⟩ := hx
    exact ⟨linearize_held F ess bc q q v v A c h, rfl⟩
  | adjoint a b =>
    cases e : solveLinear adjLin c a b with
    | none =>
      simp only [cstep, e, hl, if_true]
      obtain ⟨h1, h2, h3, h4, h5, h6, h7⟩ := h
      exact ⟨⟨h1, h2, h4, h4, h5, h6, h7⟩, trivial⟩
    | some q =>
      obtain ⟨c', ψ⟩ := q
      simp only [cstep, e]
      refine ⟨solveLinear_held adjLin ess bc p u A c c' h a b ψ e, ?_⟩
      unfold solveLinear at e
      split_ifs at e with e1
      · cases hq : solveForAdjoint adjLin c.solver c.inputs a b with
        | none => simp [hq] at e
        | some q =>
          simp only [hq, Option.some.injEq, Prod.mk.injEq] at e
          rw [← e.1]; exact hl
      · simp only [Option.some.injEq, Prod.mk.injEq] at e
        rw [← e.1]; exact hl

theorem crun_held (F : Phys n (Fin m → ℝ)) (N : Newton n) (adjLin : Mat n → Vec n → Vec n → Vec n) (o : TimeLoop.LogOpts)
    (ess : Finset (Fin n)) (bc : Option (Vec n)) (p : Fin m → ℝ) (u : Vec n) (A : Mat n) :
    ∀ (h : List (CCall n (Fin m → ℝ))) (c : Comp n (Fin m → ℝ)), (∀ x ∈ h, AtDesign p u x) →
      Held ess bc p u A c ∧ c.linearized = true → Held ess bc p u A (crun F N adjLin o c h) ∧ (crun F N adjLin o c h).linearized = true := by
  intro h
  induction h with
  | nil => intro c _ hc; exact hc
  | cons x h ih =>
    intro c hx hc
    exact ih _ (fun y hy => hx y (List.mem_cons_of_mem _ hy)) (cstep_held F N adjLin o ess bc p u A c hc x (hx x (by simp)))

/-- A gradient of a component that holds the Jacobian of `A`. -/
theorem totalRev_held (adjLin : Mat n → Vec n → Vec n → Vec n) (hlin : Exact adjLin) (G : (Fin m → ℝ) → Vec n → Matrix (Fin n) (Fin m) ℝ)
    (L : Layout m k) (hL : L.Proper) (ess : Finset (Fin n)) (bc : Option (Vec n)) (p : Fin m → ℝ) (u : Vec n) (A : Mat n)
    (c : Comp n (Fin m → ℝ)) (hc : Held ess bc p u A c ∧ c.linearized = true) (hreg : Regular ess A) (xbar : Fin m → ℝ) (sbar : Vec n) :
    ∃ c' ψ, totalRev adjLin G L c xbar sbar = some (c', fun j => xbar j - ((G p u)ᵀ *ᵥ ψ) j) ∧ IsAdjoint ess A sbar ψ := by
  obtain ⟨hH, hl⟩ := hc
  obtain ⟨h1, h2, h3, h4, h5, h6, h7⟩ := id hH
  have key : ∃ c' ψ, solveLinear adjLin c sbar 0 = some (c', ψ) ∧ IsAdjoint ess A sbar ψ := by
    by_cases hs : norm2 sbar ≠ 0
    · obtain ⟨s2, ψ, e1, e2, -⟩ := adjoint_of_stored adjLin hlin c.solver c.inputs A (by rw [h1]; exact h6) (by rw [h1]; exact h7)
        (by rw [h1]; exact hreg) sbar 0
      rw [h1] at e2
      exact ⟨{ c with solver := s2 }, ψ, by unfold solveLinear; rw [if_pos hs, if_pos hl]; simp only [e1], e2⟩
    · have h0 : sbar = 0 := by
        by_contra hne
        exact hs (norm2_ne sbar hne)
      refine ⟨c, 0, by unfold solveLinear; rw [if_neg hs], ⟨fun _ _ => rfl, fun j _ => ?_⟩⟩
      rw [h0]; simp
  obtain ⟨c', ψ, e, hψ⟩ := key
  have hH' := solveLinear_held adjLin ess bc p u A c c' hH sbar 0 ψ e
  obtain ⟨k1, k2, k3, k4, k5, k6, k7⟩ := hH'
  refine ⟨c', ψ, ?_, hψ⟩
  unfold totalRev
  simp only [e]
  congr 2
  funext j
  by_cases hz : nonzero ψ = true
  · rw [if_pos hz, k3, k5, paramVjp_dot _ L hL _ _ (by rw [k1]; exact hψ.1)]
  · have h0 : ψ = 0 := nonzero_false _ (by simpa using hz)
    rw [if_neg hz, h0]; simp

/-! ### C222 -/

/-- One design of the loop: solve from the guess `u0`, linearise, and any number of evaluations, linearisations and adjoint
solves at the design before the gradient of one output is asked for. -/
noncomputable def design (F : Phys n (Fin m → ℝ)) (N : Newton n) (adjLin : Mat n → Vec n → Vec n → Vec n) (o : TimeLoop.LogOpts)
    (c : Comp n (Fin m → ℝ)) (p : Fin m → ℝ) (u0 u : Vec n) (h : List (CCall n (Fin m → ℝ))) : Comp n (Fin m → ℝ) :=
  crun F N adjLin o (Py.linearize F (solveNonlinear F N o false c p u0).1 p u) h

theorem design_held (F : Phys n (Fin m → ℝ)) (N : Newton n) (adjLin : Mat n → Vec n → Vec n → Vec n) (o : TimeLoop.LogOpts)
    (c0 : Comp n (Fin m → ℝ)) (past : List (CCall n (Fin m → ℝ))) (p : Fin m → ℝ) (u0 : Vec n)
    (hit : 0 < (newton F N ((crun F N adjLin o c0 past).solver.form.setInputs p) u0).iters) (h : List (CCall n (Fin m → ℝ)))
    (u : Vec n) (hu : (solveNonlinear F N o false (crun F N adjLin o c0 past) p u0).2 = some u) (hh : ∀ x ∈ h, AtDesign p u x) :
    ∃ v, Held c0.solver.form.ess c0.solver.form.bc p u (F.J p v) (design F N adjLin o (crun F N adjLin o c0 past) p u0 u h) ∧
      (design F N adjLin o (crun F N adjLin o c0 past) p u0 u h).linearized = true ∧
      ((newton F N ((crun F N adjLin o c0 past).solver.form.setInputs p) u0).converged = true →
        u = fun i => v i - N.scale v (N.lin (elim c0.solver.form.ess (F.J p v)) (NLForm.residual F c0.solver.form.ess c0.solver.form.bc p v)) *
          N.lin (elim c0.solver.form.ess (F.J p v)) (NLForm.residual F c0.solver.form.ess c0.solver.form.bc p v) i) := by
  have kp := crun_keep F N adjLin o past c0
  obtain ⟨cc, hcc⟩ : ∃ cc, cc = crun F N adjLin o c0 past := ⟨_, rfl⟩
  rw [← hcc] at hit hu kp ⊢
  obtain ⟨i1, i2, i3, i4, i5, i6, i7⟩ := newton_facts F N (cc.solver.form.setInputs p) u0
  obtain ⟨v, ⟨s1, s2, s3⟩, hv⟩ := i7 hit
  have hu' : (newton F N (cc.solver.form.setInputs p) u0).u = u := Option.some.inj hu
  have e1 : (cc.solver.form.setInputs p).ess = c0.solver.form.ess := kp.1
  have e2 : (cc.solver.form.setInputs p).bc = c0.solver.form.bc := kp.2
  have e3 : (cc.solver.form.setInputs p).p = p := rfl
  rw [e1] at i1 s1 hv
  rw [e2] at i2 hv
  rw [e3] at i3 s1 hv
  have hH : Held c0.solver.form.ess c0.solver.form.bc p u (F.J p v) (solveNonlinear F N o false cc p u0).1 :=
    ⟨i1, i2, i3, rfl, hu', s1, Or.inl s3⟩
  have := crun_held F N adjLin o _ _ p u (F.J p v) h _ hh ⟨linearize_held F _ _ p p u u _ _ hH, rfl⟩
  exact ⟨v, this.1, this.2, fun hc => by rw [← hu']; exact hv hc⟩

/-- **C222, exact error** After any history, a solve at a new design that takes at least one Newton step, `linearize`, and any number
of further calls at that design: the gradient OpenMDAO assembles for an output differs from its derivative along the solutions by
exactly `ψ · (J(p, v) - J(p, u)) U'`, where `v` is the iterate before the last step, `u` the state, `U'` the derivative of the
state and `ψ` the adjoint of the problem linearised at `v`. -/
theorem C222_error_partial (F : Phys n (Fin m → ℝ)) (G : (Fin m → ℝ) → Vec n → Matrix (Fin n) (Fin m) ℝ) (N : Newton n)
    (adjLin : Mat n → Vec n → Vec n → Vec n) (hlin : Exact adjLin) (o : TimeLoop.LogOpts) (L : Layout m k) (hL : L.Proper)
    (c0 : Comp n (Fin m → ℝ)) (past : List (CCall n (Fin m → ℝ))) (p : Fin m → ℝ) (u0 u : Vec n)
    (hit : 0 < (newton F N ((crun F N adjLin o c0 past).solver.form.setInputs p) u0).iters)
    (hu : (solveNonlinear F N o false (crun F N adjLin o c0 past) p u0).2 = some u)
    (h : List (CCall n (Fin m → ℝ))) (hh : ∀ x ∈ h, AtDesign p u x)
    (hreg : ∀ v, Regular c0.solver.form.ess (F.J p v)) (hF : HasPartials F (G p u) p u)
    (Φ : (Fin m → ℝ) → Vec n → ℝ) (xbar : Fin m → ℝ) (sbar : Vec n) (hΦ : OutputPartials Φ p u xbar sbar) :
    ∃ c' g v ψ, totalRev adjLin G L (design F N adjLin o (crun F N adjLin o c0 past) p u0 u h) xbar sbar = some (c', g) ∧
      IsAdjoint c0.solver.form.ess (F.J p v) sbar ψ ∧
      ((newton F N ((crun F N adjLin o c0 past).solver.form.setInputs p) u0).converged = true →
        u = fun i => v i - N.scale v (N.lin (elim c0.solver.form.ess (F.J p v)) (NLForm.residual F c0.solver.form.ess c0.solver.form.bc p v)) *
          N.lin (elim c0.solver.form.ess (F.J p v)) (NLForm.residual F c0.solver.form.ess c0.solver.form.bc p v) i) ∧
      ∀ δ U, Branch F c0.solver.form.ess c0.solver.form.bc p δ u U → ∃ U', HasDerivAt U U' 0 ∧
        HasDerivAt (fun t : ℝ => Φ (p + t • δ) (U t)) (g ⬝ᵥ δ + ψ ⬝ᵥ ((F.J p v - F.J p u) *ᵥ U')) 0 := by
  obtain ⟨v, hH, hl, hv⟩ := design_held F N adjLin o c0 past p u0 hit h u hu hh
  obtain ⟨c', ψ, e, hψ⟩ := totalRev_held adjLin hlin G L hL _ _ p u _ _ ⟨hH, hl⟩ (hreg v) xbar sbar
  refine ⟨c', _, v, ψ, e, hψ, hv, fun δ U hU => ?_⟩
  obtain ⟨U', hU', hess, hfree, hD⟩ := branch_linear F (G p u) _ _ p δ u hF Φ xbar sbar hΦ U hU
  refine ⟨U', hU', hD.congr_deriv ?_⟩
  have e1 : sbar ⬝ᵥ U' = ψ ⬝ᵥ (F.J p v *ᵥ U') := by
    rw [Matrix.dotProduct_mulVec, ← Matrix.mulVec_transpose]
    unfold dotProduct
    refine Finset.sum_congr rfl fun j _ => ?_
    by_cases hj : j ∈ c0.solver.form.ess
    · rw [hess j hj]; ring
    · rw [hψ.2 j hj]
  have e2 : ψ ⬝ᵥ (G p u *ᵥ δ) + ψ ⬝ᵥ (F.J p u *ᵥ U') = 0 := by
    rw [← dotProduct_add]
    unfold dotProduct
    refine Finset.sum_eq_zero fun i _ => ?_
    by_cases hi : i ∈ c0.solver.form.ess
    · rw [hψ.1 i hi, zero_mul]
    · rw [Pi.add_apply, hfree i hi, mul_zero]
  have e3 : (fun j => xbar j - ((G p u)ᵀ *ᵥ ψ) j) ⬝ᵥ δ = xbar ⬝ᵥ δ - ψ ⬝ᵥ (G p u *ᵥ δ) := by
    rw [show (fun j => xbar j - ((G p u)ᵀ *ᵥ ψ) j) = xbar - (G p u)ᵀ *ᵥ ψ from rfl, sub_dotProduct, Matrix.mulVec_transpose,
      Matrix.dotProduct_mulVec]
  rw [e1, e3, Matrix.sub_mulVec, dotProduct_sub]
  linarith

/-- **C222** If the Jacobian does not depend on the state (linear problems, for every value of the parameters), the gradient is the
exact total derivative of the output with respect to all inputs, numbers and fields, at every design of the loop that takes a Newton
step, whatever happened before and however many outputs were differentiated before at this design. -/
theorem C222_gradient_partial (F : Phys n (Fin m → ℝ)) (G : (Fin m → ℝ) → Vec n → Matrix (Fin n) (Fin m) ℝ) (N : Newton n)
    (adjLin : Mat n → Vec n → Vec n → Vec n) (hlin : Exact adjLin) (o : TimeLoop.LogOpts) (L : Layout m k) (hL : L.Proper)
    (c0 : Comp n (Fin m → ℝ)) (past : List (CCall n (Fin m → ℝ))) (p : Fin m → ℝ) (u0 u : Vec n)
    (hit : 0 < (newton F N ((crun F N adjLin o c0 past).solver.form.setInputs p) u0).iters)
    (hu : (solveNonlinear F N o false (crun F N adjLin o c0 past) p u0).2 = some u)
    (h : List (CCall n (Fin m → ℝ))) (hh : ∀ x ∈ h, AtDesign p u x) (hlinear : ∀ v w, F.J p v = F.J p w)
    (hreg : Regular c0.solver.form.ess (F.J p u)) (hF : HasPartials F (G p u) p u)
    (Φ : (Fin m → ℝ) → Vec n → ℝ) (xbar : Fin m → ℝ) (sbar : Vec n) (hΦ : OutputPartials Φ p u xbar sbar) :
    ∃ c' g, totalRev adjLin G L (design F N adjLin o (crun F N adjLin o c0 past) p u0 u h) xbar sbar = some (c', g) ∧
      ∀ δ U, Branch F c0.solver.form.ess c0.solver.form.bc p δ u U →
        HasDerivAt (fun t : ℝ => Φ (p + t • δ) (U t)) (g ⬝ᵥ δ) 0 := by
  obtain ⟨c', g, v, ψ, e, -, -, hD⟩ := C222_error_partial F G N adjLin hlin o L hL c0 past p u0 u hit hu h hh
    (fun v => by rw [hlinear v u]; exact hreg) hF Φ xbar sbar hΦ
  refine ⟨c', g, e, fun δ U hU => ?_⟩
  obtain ⟨U', -, h2⟩ := hD δ U hU
  refine h2.congr_deriv ?_
  rw [hlinear v u, sub_self, Matrix.zero_mulVec, dotProduct_zero, add_zero]

/-- **C222 is false if the guess already solves the next design**: no Newton step is taken, `linearize` keeps the Jacobian of the
previous design, and the gradient is the one with that adjoint: for every problem, every component that holds a Jacobian `A`, and
every design `q` whose guess meets the tolerance. -/
theorem C222_stale_false (F : Phys n (Fin m → ℝ)) (G : (Fin m → ℝ) → Vec n → Matrix (Fin n) (Fin m) ℝ) (N : Newton n)
    (adjLin : Mat n → Vec n → Vec n → Vec n) (hlin : Exact adjLin) (o : TimeLoop.LogOpts) (L : Layout m k) (hL : L.Proper)
    (ess : Finset (Fin n)) (bc : Option (Vec n)) (p q : Fin m → ℝ) (u w : Vec n) (A : Mat n) (c : Comp n (Fin m → ℝ))
    (hc : Held ess bc p w A c) (hreg : Regular ess A) (hgood : norm2 (NLForm.residual F ess bc q u) ≤ N.absTol)
    (h : List (CCall n (Fin m → ℝ))) (hh : ∀ x ∈ h, AtDesign q u x) (xbar : Fin m → ℝ) (sbar : Vec n) :
    (solveNonlinear F N o false c q u).2 = some u ∧
    ∃ c' ψ, totalRev adjLin G L (design F N adjLin o c q u u h) xbar sbar = some (c', fun j => xbar j - ((G q u)ᵀ *ᵥ ψ) j) ∧
      IsAdjoint ess A sbar ψ := by
  obtain ⟨h1, h2, h3, h4, h5, h6, h7⟩ := id hc
  have k := evaluate_keep F (c.solver.form.setInputs q) u
  have hN : newton F N (c.solver.form.setInputs q) u = ⟨((c.solver.form.setInputs q).evaluate F u).1, u, true, 0⟩ := by
    unfold newton
    refine loop_done _ _ _ _ _ _ _ _ ?_
    rw [evaluate_eq]
    refine le_trans ?_ (le_max_right _ _)
    have e : NLForm.residual F (c.solver.form.setInputs q).ess (c.solver.form.setInputs q).bc (c.solver.form.setInputs q).p u =
        NLForm.residual F ess bc q u := by
      rw [show (c.solver.form.setInputs q).ess = ess from h1, show (c.solver.form.setInputs q).bc = bc from h2]
      rfl
    rw [e]; exact hgood
  have hu : (solveNonlinear F N o false c q u).2 = some u := by
    show some (newton F N (c.solver.form.setInputs q) u).u = some u
    rw [hN]
  have hf : (solveNonlinear F N o false c q u).1.solver.form = ((c.solver.form.setInputs q).evaluate F u).1 := by
    show (newton F N (c.solver.form.setInputs q) u).form = _
    rw [hN]
  have hs : (solveNonlinear F N o false c q u).1.state = u := by
    show (newton F N (c.solver.form.setInputs q) u).u = _
    rw [hN]
  have hH : Held ess bc q u A (solveNonlinear F N o false c q u).1 := by
    refine ⟨by rw [hf, k.1]; exact h1, by rw [hf, k.2.1]; exact h2, by rw [hf, k.2.2.1]; rfl, rfl, hs, by rw [hf, k.2.2.2.1]; exact h6, ?_⟩
    rw [hf, k.2.2.2.2.2]
    exact h7
  have hD := crun_held F N adjLin o ess bc q u A h _ hh ⟨linearize_held F ess bc q q u u A _ hH, rfl⟩
  exact ⟨hu, totalRev_held adjLin hlin G L hL ess bc q u A _ hD hreg xbar sbar⟩

/-- `R_i = p₀ (u_i - 1) - p₁`: solutions `u_i = 1 + p₁ / p₀`. -/
def twoD : Phys 2 (Fin 2 → ℝ) := ⟨fun p u i => p 0 * (u i - 1) - p 1, fun p _ i j => if i = j then p 0 else 0⟩

/-- Its partial derivatives with respect to the parameters. -/
def twoG : (Fin 2 → ℝ) → Vec 2 → Matrix (Fin 2) (Fin 2) ℝ := fun _ u i j => if j = 0 then u i - 1 else -1

/-- Two inputs, both numbers. -/
def twoL : Layout 2 2 := ⟨id, fun _ => true⟩

theorem twoL_proper : twoL.Proper := by
  intro j
  refine ⟨fun _ => rfl, fun _ => ?_⟩
  fin_cases j <;> decide

theorem twoD_regular (p : Fin 2 → ℝ) (hp : p 0 ≠ 0) (v : Vec 2) : Regular ∅ (twoD.J p v) := by
  intro x _ hx
  funext i
  have := hx i (by simp)
  simp only [twoD, Matrix.mulVec, dotProduct, ite_mul, zero_mul, Finset.sum_ite_eq, Finset.mem_univ, if_true] at this
  exact (mul_eq_zero.1 this).resolve_left hp

theorem twoD_partials (p : Fin 2 → ℝ) (u : Vec 2) : HasPartials twoD (twoG p u) p u := by
  let π : Fin 2 → ((Fin 2 → ℝ) × Vec 2) →L[ℝ] ℝ := fun i => (ContinuousLinearMap.proj i).comp (ContinuousLinearMap.fst ℝ _ _)
  let υ : Fin 2 → ((Fin 2 → ℝ) × Vec 2) →L[ℝ] ℝ := fun i => (ContinuousLinearMap.proj i).comp (ContinuousLinearMap.snd ℝ _ _)
  refine ⟨ContinuousLinearMap.pi fun i => (p 0 • υ i + (u i - 1) • π 0) - π 1, ?_, ?_⟩
  · rw [hasFDerivAt_pi]
    intro i
    exact (((π 0).hasFDerivAt (x := (p, u))).mul (((υ i).hasFDerivAt (x := (p, u))).sub_const 1)).sub (π 1).hasFDerivAt
  · intro δ v
    funext i
    fin_cases i <;> simp [π, υ, twoD, twoG, Matrix.mulVec, dotProduct, Fin.sum_univ_two] <;> ring

/-- Solutions in the direction of the second parameter. -/
theorem twoD_branch (p : Fin 2 → ℝ) (hp : p 0 ≠ 0) :
    Branch twoD ∅ none p ![0, 1] (fun _ => 1 + p 1 / p 0) (fun t _ => 1 + (p 1 + t) / p 0) := by
  refine ⟨by funext i; simp, differentiableAt_pi.2 fun i => ?_, Filter.Eventually.of_forall fun t => ⟨?_, fun _ i hi => absurd hi (by simp)⟩⟩
  · have : HasDerivAt (fun t : ℝ => 1 + (p 1 + t) * (p 0)⁻¹) (1 * (p 0)⁻¹) 0 :=
      (((hasDerivAt_id' (0 : ℝ)).const_add (p 1)).mul_const (p 0)⁻¹).const_add 1
    simp only [div_eq_mul_inv]
    exact this.differentiableAt
  · funext i
    simp only [NLForm.residual, twoD, Finset.notMem_empty, if_false, Pi.add_apply, Pi.smul_apply, smul_eq_mul, Pi.zero_apply,
      Matrix.cons_val_zero, Matrix.cons_val_one]
    field_simp
    ring

theorem first_output (p : Fin 2 → ℝ) (u : Vec 2) : OutputPartials (fun _ u => u 0) p u 0 (![1, 0] : Vec 2) := by
  refine ⟨(ContinuousLinearMap.proj 0).comp (ContinuousLinearMap.snd ℝ _ _), ?_, ?_⟩
  · exact ((ContinuousLinearMap.proj (R := ℝ) (φ := fun _ : Fin 2 => ℝ) 0).comp
      (ContinuousLinearMap.snd ℝ (Fin 2 → ℝ) (Vec 2))).hasFDerivAt
  · intro δ v
    simp [dotProduct, Fin.sum_univ_two]

/-- **C222, violation, concretely**: two designs of a loop that starts with a fresh component and uses the last state as guess, exact
Newton steps and tolerances zero.  At `(1, 0)` everything is right.  At `(2, 0)` the old state is the solution; the derivative of
the first state with respect to the second parameter is `1/2`, and the gradient says `1`. -/
theorem C222_stale_witness_false (o : TimeLoop.LogOpts) (adjLin : Mat 2 → Vec 2 → Vec 2 → Vec 2) (hlin : Exact adjLin) :
    let c0 : Comp 2 (Fin 2 → ℝ) := ⟨⟨fresh ∅ none 0, []⟩, 0, 0, false⟩
    let c1 := design twoD (newtonInv 2 5 0) adjLin o c0 ![1, 0] 0 (fun _ => 1) []
    (solveNonlinear twoD (newtonInv 2 5 0) o false c0 ![1, 0] 0).2 = some (fun _ => 1) ∧
    (solveNonlinear twoD (newtonInv 2 5 0) o false c1 ![2, 0] (fun _ => 1)).2 = some (fun _ => 1) ∧
    (∃ c' g, totalRev adjLin twoG twoL (design twoD (newtonInv 2 5 0) adjLin o c1 ![2, 0] (fun _ => 1) (fun _ => 1) []) 0 ![1, 0] =
      some (c', g) ∧ g 1 = 1) ∧
    HasDerivAt (fun t : ℝ => (fun (_ : Fin 2) => 1 + ((![2, 0] : Fin 2 → ℝ) 1 + t) / (![2, 0] : Fin 2 → ℝ) 0 : Vec 2) 0) (1 / 2) 0 ∧
    Branch twoD ∅ none ![2, 0] ![0, 1] (fun _ => 1) (fun t _ => 1 + ((![2, 0] : Fin 2 → ℝ) 1 + t) / (![2, 0] : Fin 2 → ℝ) 0) := by
  intro c0 c1
  have hpos : ∀ r : Vec 2, (∃ i, r i ≠ 0) → ¬ norm2 r ≤ 0 := by
    rintro r ⟨i, hi⟩
    rw [not_le, norm2, Real.sqrt_pos]
    exact Finset.sum_pos' (fun j _ => mul_self_nonneg _) ⟨i, Finset.mem_univ _, mul_self_pos.2 hi⟩
  -- the first solve
  obtain ⟨g, g1, g2, g3, e⟩ := newton_eq twoD (newtonInv 2 5 0) (c0.solver.form.setInputs ![1, 0]) 0
  have g1' : g.ess = ∅ := g1
  have g2' : g.bc = none := g2
  have g3' : g.p = ![1, 0] := g3
  have hG : goal twoD (newtonInv 2 5 0) (c0.solver.form.setInputs ![1, 0]) 0 = 0 := by simp [goal, newtonInv]
  rw [hG, show (newtonInv 2 5 0).maxIter = 4 + 1 from rfl] at e
  obtain ⟨c, f, hc, f1, f2, f3, e1⟩ := loop_exact_step twoD (newtonInv 2 5 0) (newtonInv_exact _ _ _) 0 4 0 g 0
    (by rw [g1', g3']; exact twoD_regular _ (by simp) _)
    (hpos _ ⟨0, by rw [g1', g2', g3']; simp [NLForm.residual, twoD]⟩)
  rw [g1', g2', g3'] at hc
  have hci : ∀ i, c i = -1 := by
    intro i
    have := congrFun hc i
    simpa [Matrix.mulVec, dotProduct, Fin.sum_univ_two, elim, NLForm.residual, twoD] using this
  have hu1 : (fun i => (0 : Vec 2) i - c i) = fun _ => 1 := by funext i; rw [hci]; simp
  rw [hu1] at e1
  have hz : NLForm.residual twoD f.ess f.bc f.p (fun _ => 1) = 0 := by
    rw [f1, f2, f3, g1', g2', g3']; funext i; simp [NLForm.residual, twoD]
  rw [hz, loop_done twoD (newtonInv 2 5 0) 0 4 (0 + 1) f (fun _ => 1) 0 (by simp [norm2])] at e1
  have hS : (solveNonlinear twoD (newtonInv 2 5 0) o false c0 ![1, 0] 0).2 = some (fun _ => 1) := by
    show some (newton twoD (newtonInv 2 5 0) (c0.solver.form.setInputs ![1, 0]) 0).u = _
    rw [e, e1]
  obtain ⟨v, hH, -, -⟩ := design_held twoD (newtonInv 2 5 0) adjLin o c0 [] ![1, 0] 0
    (by show 0 < (newton twoD (newtonInv 2 5 0) (c0.solver.form.setInputs ![1, 0]) 0).iters; rw [e, e1]; simp) [] (fun _ => 1) hS (by simp)
  have hH' : Held ∅ none ![1, 0] (fun _ => 1) (twoD.J ![1, 0] v) c1 := hH
  obtain ⟨h1, c', ψ, h2, h3⟩ := C222_stale_false twoD twoG (newtonInv 2 5 0) adjLin hlin o twoL twoL_proper ∅ none ![1, 0] ![2, 0]
    (fun _ => 1) (fun _ => 1) (twoD.J ![1, 0] v) c1 hH' (twoD_regular _ (by simp) v)
    (by
      have : NLForm.residual twoD ∅ none ![2, 0] (fun _ => 1) = 0 := by funext i; simp [NLForm.residual, twoD]
      rw [this]; simp [norm2, newtonInv]) [] (by simp) 0 ![1, 0]
  refine ⟨hS, h1, ⟨c', _, h2, ?_⟩, ?_, ?_⟩
  · have hA : ∀ i, ((twoD.J ![1, 0] v)ᵀ *ᵥ ψ) i = ψ i := by
      intro i
      show ∑ j, twoD.J ![1, 0] v j i * ψ j = ψ i
      simp [twoD]
    have a0 : ψ 0 = 1 := by rw [← hA, h3.2 0 (by simp)]; rfl
    have a1 : ψ 1 = 0 := by rw [← hA, h3.2 1 (by simp)]; rfl
    have : (0 : Fin 2 → ℝ) 1 - ((twoG ![2, 0] fun _ => 1)ᵀ *ᵥ ψ) 1 = ψ 0 + ψ 1 := by
      simp only [Matrix.mulVec, dotProduct, Fin.sum_univ_two, Matrix.transpose_apply, twoG, Pi.zero_apply]
      norm_num
      ring
    rw [this, a0, a1]
    norm_num
  · have : HasDerivAt (fun t : ℝ => 1 + (0 + t) * (2 : ℝ)⁻¹) (1 * (2 : ℝ)⁻¹) 0 :=
      (((hasDerivAt_id' (0 : ℝ)).const_add (0 : ℝ)).mul_const (2 : ℝ)⁻¹).const_add 1
    simp only [div_eq_mul_inv]
    exact this.congr_deriv (by norm_num)
  · have := twoD_branch ![2, 0] (by simp)
    simpa using this

/-- Non-vacuity of `C222_gradient_partial` and `C222_error_partial`: the first design of that loop. -/
example (o : TimeLoop.LogOpts) (adjLin : Mat 2 → Vec 2 → Vec 2 → Vec 2) (hlin : Exact adjLin) :
    let c0 : Comp 2 (Fin 2 → ℝ) := ⟨⟨fresh ∅ none 0, []⟩, 0, 0, false⟩
    (solveNonlinear twoD (newtonInv 2 5 0) o false c0 ![1, 0] 0).2 = some (fun _ => 1) ∧
    (∀ v w, twoD.J ![1, 0] v = twoD.J ![1, 0] w) ∧ Regular ∅ (twoD.J ![1, 0] fun _ => 1) ∧
    HasPartials twoD (twoG ![1, 0] fun _ => 1) ![1, 0] (fun _ => 1) ∧
    (∀ x ∈ [CCall.adjoint ![3, 4] 0, .linearize ![1, 0] (fun _ => 1)], AtDesign ![1, 0] (fun _ => (1 : ℝ)) x) ∧
    Branch twoD ∅ none ![1, 0] ![0, 1] (fun _ => 1) (fun t _ => 1 + ((![1, 0] : Fin 2 → ℝ) 1 + t) / (![1, 0] : Fin 2 → ℝ) 0) := by
  intro c0
  refine ⟨(C222_stale_witness_false o adjLin hlin).1, fun _ _ => rfl, twoD_regular _ (by simp) _, twoD_partials _ _, ?_, ?_⟩
  · intro x hx
    simp only [List.mem_cons, List.not_mem_nil, or_false] at hx
    rcases hx with rfl | rfl
    · trivial
    · exact ⟨rfl, rfl⟩
  · have := twoD_branch ![1, 0] (by simp)
    simpa using this

/-- **C222 is false for a field with one dof**: it arrives at the overload for numbers, where its name is not known, and its part of the
gradient is missing. -/
theorem C222_one_dof_field_false (f : Form n (Fin m → ℝ)) (L : Layout m k) (j : Fin m) (h1 : L.size (L.blk j) = 1)
    (h2 : L.isScalar (L.blk j) = false) (G : Matrix (Fin n) (Fin m) ℝ) (b : Vec n) (acc : Fin m → ℝ) : paramVjp f L G b acc j = acc j := by
  simp [paramVjp, h1, h2]

end Verif.Opt
