import Verif.ProjIntegProps
import Verif.ProjectorProps
import Mathlib.Topology.Instances.Matrix
import Mathlib.Analysis.Calculus.Deriv.Pi

/-!
Properties C185 (derivative of the projectors with respect to the mesh coordinates) and C186 (of the current
load).
-/

namespace Verif.ProjInteg
open Matrix Verif.Projector

set_option linter.unusedSectionVars false

variable {n h m : ℕ}

/-! ### Specification -/

/-- A matrix that depends on the position `t` of the mesh is differentiable at `t = 0`, with derivative `A'`. -/
def MatDeriv {a b : ℕ} (A : ℝ → Matrix (Fin a) (Fin b) ℝ) (A' : Matrix (Fin a) (Fin b) ℝ) : Prop :=
  ∀ i j, HasDerivAt (fun t => A t i j) (A' i j) 0

/-- The same for a vector. -/
def VecDeriv {a : ℕ} (v : ℝ → Fin a → ℝ) (v' : Fin a → ℝ) : Prop := ∀ i, HasDerivAt (fun t => v t i) (v' i) 0

/-- An assembled mesh sensitivity is exact along the motion `δ` of the mesh: `sens φ ψ · δ = d/dt ψᵀ A(t) φ`.
This is what C183 proves for each element's contribution. -/
def SensOf {a b : ℕ} (A' : Matrix (Fin a) (Fin b) ℝ) (δ : Fin m → ℝ)
    (sens : (Fin b → ℝ) → (Fin a → ℝ) → (Fin m → ℝ)) : Prop := ∀ phi psi, sens phi psi ⬝ᵥ δ = psi ⬝ᵥ (A' *ᵥ phi)

/-! ### Lemmas -/

theorem MatDeriv.mulVec {a b : ℕ} {A : ℝ → Matrix (Fin a) (Fin b) ℝ} {A' : Matrix (Fin a) (Fin b) ℝ} (hA : MatDeriv A A')
    {v : ℝ → Fin b → ℝ} {v' : Fin b → ℝ} (hv : VecDeriv v v') :
    VecDeriv (fun t => A t *ᵥ v t) (A' *ᵥ v 0 + A 0 *ᵥ v') := by
  intro i
  have : HasDerivAt (fun t => ∑ j, A t i j * v t j) (∑ j, (A' i j * v 0 j + A 0 i j * v' j)) 0 :=
    HasDerivAt.fun_sum fun j _ => (hA i j).fun_mul (hv j)
  refine this.congr_deriv ?_
  simp only [Pi.add_apply, Matrix.mulVec, dotProduct, Finset.sum_add_distrib]

theorem MatDeriv.const {a b : ℕ} (A : Matrix (Fin a) (Fin b) ℝ) : MatDeriv (fun _ => A) 0 :=
  fun _ _ => hasDerivAt_const _ _

theorem VecDeriv.dot {a : ℕ} {v : ℝ → Fin a → ℝ} {v' : Fin a → ℝ} (hv : VecDeriv v v') (w : Fin a → ℝ) :
    HasDerivAt (fun t => w ⬝ᵥ v t) (w ⬝ᵥ v') 0 :=
  HasDerivAt.fun_sum fun i _ => (hv i).const_mul (w i)

theorem solve_unique {a : ℕ} {A : Matrix (Fin a) (Fin a) ℝ} (hA : IsUnit A.det) {x b : Fin a → ℝ} (hx : A *ᵥ x = b) :
    x = A⁻¹ *ᵥ b := by
  rw [← hx, mulVec_mulVec, nonsing_inv_mul _ hA, one_mulVec]

/-- The solution of a linear system whose matrix and right-hand side are differentiable is differentiable. -/
theorem solve_deriv {a : ℕ} {A : ℝ → Matrix (Fin a) (Fin a) ℝ} {A' : Matrix (Fin a) (Fin a) ℝ} (hA : MatDeriv A A')
    {b x : ℝ → Fin a → ℝ} {b' : Fin a → ℝ} (hb : VecDeriv b b') (hx : ∀ t, A t *ᵥ x t = b t)
    (hdet : ∀ t, IsUnit (A t).det) : VecDeriv x ((A 0)⁻¹ *ᵥ (b' - A' *ᵥ x 0)) := by
  have hAc : ContinuousAt A 0 := by
    refine continuousAt_pi.2 fun i => continuousAt_pi.2 fun j => ?_
    exact (hA i j).continuousAt
  have hbc : ∀ i, ContinuousAt (fun t => b t i) 0 := fun i => (hb i).continuousAt
  have hxc : ∀ i, ContinuousAt (fun t => x t i) 0 := by
    intro i
    have e : (fun t => x t i) = fun t => ∑ j, ((A t).det)⁻¹ * (A t).adjugate i j * b t j := by
      funext t
      rw [solve_unique (hdet t) (hx t), Matrix.inv_def, Ring.inverse_eq_inv']
      simp only [Matrix.mulVec, dotProduct, Matrix.smul_apply, smul_eq_mul]
    rw [e]
    have hadj : ∀ j, ContinuousAt (fun t => (A t).adjugate i j) 0 := fun j =>
      (((continuous_id.matrix_adjugate (A := fun M : Matrix (Fin a) (Fin a) ℝ => M)).matrix_elem i j).continuousAt.comp hAc)
    have hd : ContinuousAt (fun t => ((A t).det)⁻¹) 0 :=
      ((continuous_id.matrix_det (A := fun M : Matrix (Fin a) (Fin a) ℝ => M)).continuousAt.comp hAc).inv₀
        (isUnit_iff_ne_zero.1 (hdet 0))
    exact tendsto_finsetSum _ fun j _ => (hd.mul (hadj j)).mul (hbc j)
  -- x(t) = x(0) + A(0)⁻¹ ((b(t) - b(0)) - (A(t) - A(0)) x(t))
  have key : ∀ t, x t = x 0 + (A 0)⁻¹ *ᵥ ((b t - b 0) - (A t - A 0) *ᵥ x t) := by
    intro t
    have h1 : (b t - b 0) - (A t - A 0) *ᵥ x t = A 0 *ᵥ (x t - x 0) := by
      rw [sub_mulVec, hx t, mulVec_sub, hx 0]
      abel
    rw [h1, mulVec_mulVec, nonsing_inv_mul _ (hdet 0), one_mulVec]
    abel
  have hr : VecDeriv (fun t => (b t - b 0) - (A t - A 0) *ᵥ x t) (b' - A' *ᵥ x 0) := by
    intro i
    have h2 : HasDerivAt (fun t => ∑ j, x t j * (A t i j - A 0 i j)) (∑ j, x 0 j * A' i j) 0 :=
      HasDerivAt.fun_sum fun j _ => Dense.hasDerivAt_mul_of_zero _ _ _ 0 (hxc j)
        (((hA i j).sub_const _)) (sub_self _)
    have h3 := ((hb i).sub_const (b 0 i)).fun_sub h2
    have e : (fun t => ((b t - b 0) - (A t - A 0) *ᵥ x t) i) =
        fun t => b t i - b 0 i - ∑ j, x t j * (A t i j - A 0 i j) := by
      funext t
      simp only [Pi.sub_apply, Matrix.mulVec, dotProduct, Matrix.sub_apply]
      congr 1
      exact Finset.sum_congr rfl fun j _ => mul_comm _ _
    rw [e]
    refine h3.congr_deriv ?_
    simp only [Pi.sub_apply, Matrix.mulVec, dotProduct]
    congr 1
    exact Finset.sum_congr rfl fun j _ => mul_comm _ _
  intro i
  have h4 := (MatDeriv.const (A 0)⁻¹).mulVec hr i
  have e : (fun t => x t i) = fun t => x 0 i + ((A 0)⁻¹ *ᵥ ((b t - b 0) - (A t - A 0) *ᵥ x t)) i := by
    funext t; rw [← Pi.add_apply, ← key t]
  rw [e]
  refine (h4.const_add _).congr_deriv ?_
  simp

theorem elim_deriv {ess : Fin h → Prop} [DecidablePred ess] {D : ℝ → Matrix (Fin h) (Fin h) ℝ}
    {D' : Matrix (Fin h) (Fin h) ℝ} (hD : MatDeriv D D') :
    MatDeriv (fun t => Warper.elim ess (D t)) (fun i j => if ess i ∨ ess j then 0 else D' i j) := by
  intro i j
  unfold Warper.elim
  by_cases hc : ess i ∨ ess j
  · simp only [hc, if_true]; exact hasDerivAt_const _ _
  · simp only [hc, if_false]; exact hD i j

theorem zeroEss_deriv {ess : Fin h → Prop} [DecidablePred ess] {b : ℝ → Fin h → ℝ} {b' : Fin h → ℝ} (hb : VecDeriv b b') :
    VecDeriv (fun t => Warper.zeroEss ess (b t)) (Warper.zeroEss ess b') := by
  intro i
  unfold Warper.zeroEss
  by_cases hc : ess i
  · simp only [hc, if_true]; exact hasDerivAt_const _ _
  · simp only [hc, if_false]; exact hb i

theorem det_of_exact {a : ℕ} {A : Matrix (Fin a) (Fin a) ℝ} {s : (Fin a → ℝ) → (Fin a → ℝ)} (hs : ∀ b, A *ᵥ s b = b) :
    IsUnit A.det := by
  have : Function.Surjective A.mulVec := fun b => ⟨s b, hs b⟩
  exact (Matrix.isUnit_iff_isUnit_det A).1 (Matrix.mulVec_surjective_iff_isUnit.1 this)

/-! ### C185 -/

section
variable (ess : Fin h → Prop) [DecidablePred ess]
  (solve : Matrix (Fin h) (Fin h) ℝ → (Fin h → ℝ) → (Fin h → ℝ))

/-- The forms of a moving mesh: the discrete gradient does not change, diffusion and weak divergence are
differentiable, and the linear solves are exact in every position. -/
structure MovingForms (F : ℝ → Forms n h ℝ) (D' : Matrix (Fin h) (Fin h) ℝ) (W' : Matrix (Fin h) (Fin n) ℝ) : Prop where
  hG : ∀ t, (F t).G = (F 0).G
  hD : MatDeriv (fun t => (F t).D) D'
  hW : MatDeriv (fun t => (F t).W) W'
  hE : ∀ t, Projector.Exact ess solve (F t)

variable {ess solve}

/-- The potential is differentiable, and for every `c` the derivative of `c·φ` follows from the adjoint solve. -/
theorem potential_deriv {F : ℝ → Forms n h ℝ} {D' : Matrix (Fin h) (Fin h) ℝ} {W' : Matrix (Fin h) (Fin n) ℝ}
    (hF : MovingForms ess solve F D' W') {x : ℝ → Fin n → ℝ} {x' : Fin n → ℝ} (hx : VecDeriv x x') :
    ∃ phi' : Fin h → ℝ, VecDeriv (fun t => solveEss ess solve (F t).D (-((F t).W *ᵥ x t))) phi' ∧
      ∀ c : Fin h → ℝ,
        -(c ⬝ᵥ phi') = (solve (Warper.elim ess (F 0).D)ᵀ (Warper.zeroEss ess (-c))) ⬝ᵥ
          -(D' *ᵥ solveEss ess solve (F 0).D (-((F 0).W *ᵥ x 0)) + (W' *ᵥ x 0 + (F 0).W *ᵥ x')) := by
  set A := fun t => Warper.elim ess (F t).D with hA
  set phi := fun t => solveEss ess solve (F t).D (-((F t).W *ᵥ x t)) with hphi
  have hb : VecDeriv (fun t => -((F t).W *ᵥ x t)) (-(W' *ᵥ x 0 + (F 0).W *ᵥ x')) := fun i => ((hF.hW.mulVec hx) i).fun_neg
  have hsol : ∀ t, A t *ᵥ phi t = Warper.zeroEss ess (-((F t).W *ᵥ x t)) := fun t => (hF.hE t).1 _
  have hdet : ∀ t, IsUnit (A t).det := fun t => det_of_exact (hF.hE t).1
  have hd := solve_deriv (elim_deriv (ess := ess) hF.hD) (zeroEss_deriv (ess := ess) hb) hsol hdet
  refine ⟨_, hd, fun c => ?_⟩
  set E' : Matrix (Fin h) (Fin h) ℝ := fun i j => if ess i ∨ ess j then 0 else D' i j with hE'
  set r := Warper.zeroEss ess (-(W' *ᵥ x 0 + (F 0).W *ᵥ x')) - E' *ᵥ phi 0 with hr
  set v := solve (A 0)ᵀ (Warper.zeroEss ess (-c)) with hv
  have hAv : (A 0)ᵀ *ᵥ v = Warper.zeroEss ess (-c) := (hF.hE 0).2 _
  -- the adjoint vanishes on essential dofs
  have hvess : ∀ i, ess i → v i = 0 := by
    intro i hi
    have := congrFun hAv i
    rw [Matrix.mulVec, dotProduct, Finset.sum_eq_single i] at this
    · simpa [hA, Warper.elim, Warper.zeroEss, hi, transpose_apply] using this
    · intro j _ hj; simp [hA, Warper.elim, hi, transpose_apply, hj]
    · intro hc; exact absurd (Finset.mem_univ i) hc
  have hpess : ∀ i, ess i → phi 0 i = 0 := fun i hi => solveEss_ess ess solve (hF.hE 0).1 _ i hi
  have hAr : A 0 *ᵥ ((A 0)⁻¹ *ᵥ r) = r := by rw [mulVec_mulVec, mul_nonsing_inv _ (hdet 0), one_mulVec]
  have hyess : ∀ i, ess i → ((A 0)⁻¹ *ᵥ r) i = 0 := by
    intro i hi
    have h1 : (Warper.elim ess (F 0).D *ᵥ ((A 0)⁻¹ *ᵥ r)) i = r i := congrFun hAr i
    rw [elim_row_ess ess _ _ i hi] at h1
    have h2 : r i = 0 := by
      simp [hr, Warper.zeroEss, hi, hE', Matrix.mulVec, dotProduct]
    rw [h1, h2]
  have hz : ∀ (a w : Fin h → ℝ), (∀ i, ess i → w i = 0) → Warper.zeroEss ess a ⬝ᵥ w = a ⬝ᵥ w := by
    intro a w hw
    apply Finset.sum_congr rfl
    intro i _
    by_cases hi : ess i <;> simp [Warper.zeroEss, hi, hw]
  have h5 : -(c ⬝ᵥ ((A 0)⁻¹ *ᵥ r)) = v ⬝ᵥ r := by
    rw [← neg_dotProduct, ← hz _ _ hyess, ← hAv, mulVec_transpose, ← dotProduct_mulVec, hAr]
  rw [h5, hr, dotProduct_sub, dotProduct_comm v, hz _ _ hvess]
  have h6 : v ⬝ᵥ (E' *ᵥ phi 0) = v ⬝ᵥ (D' *ᵥ phi 0) := by
    simp only [dotProduct, Matrix.mulVec]
    refine Finset.sum_congr rfl fun i _ => ?_
    by_cases hi : ess i
    · rw [hvess i hi]; simp
    · congr 1
      refine Finset.sum_congr rfl fun j _ => ?_
      by_cases hj : ess j
      · rw [hpess j hj]; simp
      · simp [hE', hi, hj]
  rw [h6]
  simp only [dotProduct_neg, dotProduct_add, dotProduct_comm _ v]
  ring

/-- **C185** The product of `IrrotationalProjector` with respect to the mesh coordinates, times any motion `δ` of the
mesh, is the derivative of `p̄·P(x)` under that motion, added to the caller's vector. -/
theorem C185_irrotational_mesh {F : ℝ → Forms n h ℝ} {D' : Matrix (Fin h) (Fin h) ℝ} {W' : Matrix (Fin h) (Fin n) ℝ}
    (hF : MovingForms ess solve F D' W') (δ : Fin m → ℝ) {sensD : (Fin h → ℝ) → (Fin h → ℝ) → (Fin m → ℝ)}
    {sensW : (Fin n → ℝ) → (Fin h → ℝ) → (Fin m → ℝ)} (hD : SensOf D' δ sensD) (hW : SensOf W' δ sensW)
    (x pb : Fin n → ℝ) (wb : Fin m → ℝ) :
    HasDerivAt (fun t => pb ⬝ᵥ irrotMult ess solve (F t) x)
      ((irrotVjpMesh ess solve sensD sensW (F 0) x pb wb - wb) ⬝ᵥ δ) 0 := by
  obtain ⟨phi', hphi, hadj⟩ := potential_deriv hF (x := fun _ => x) (x' := 0) (fun i => hasDerivAt_const _ _)
  have e : ∀ t, pb ⬝ᵥ irrotMult ess solve (F t) x =
      ((F 0).Gᵀ *ᵥ pb) ⬝ᵥ solveEss ess solve (F t).D (-((F t).W *ᵥ x)) := by
    intro t
    rw [irrotMult, hF.hG t, dotProduct_mulVec, mulVec_transpose]
  simp only [e]
  refine (hphi.dot _).congr_deriv ?_
  have h1 := hadj ((F 0).Gᵀ *ᵥ pb)
  rw [irrotVjpMesh, add_sub_cancel_left, add_dotProduct, hD, hW]
  rw [mulVec_zero, add_zero, dotProduct_neg, neg_inj, dotProduct_add] at h1
  exact h1

/-- **C185** The same for the divergence-free projector. -/
theorem C185_divergence_free_mesh {F : ℝ → Forms n h ℝ} {D' : Matrix (Fin h) (Fin h) ℝ} {W' : Matrix (Fin h) (Fin n) ℝ}
    (hF : MovingForms ess solve F D' W') (δ : Fin m → ℝ) {sensD : (Fin h → ℝ) → (Fin h → ℝ) → (Fin m → ℝ)}
    {sensW : (Fin n → ℝ) → (Fin h → ℝ) → (Fin m → ℝ)} (hD : SensOf D' δ sensD) (hW : SensOf W' δ sensW)
    (x pb : Fin n → ℝ) (wb : Fin m → ℝ) :
    HasDerivAt (fun t => pb ⬝ᵥ divFreeMult ess solve (F t) x)
      ((divFreeVjpMesh ess solve sensD sensW (F 0) x pb wb - wb) ⬝ᵥ δ) 0 := by
  have h1 := (C185_irrotational_mesh hF δ hD hW x (-pb) wb).const_add (pb ⬝ᵥ x)
  have e : ∀ t, pb ⬝ᵥ divFreeMult ess solve (F t) x = pb ⬝ᵥ x + -pb ⬝ᵥ irrotMult ess solve (F t) x := by
    intro t
    rw [divFreeMult, neg_sub, dotProduct_sub, neg_dotProduct]; ring
  simp only [e]
  exact h1

/-! ### C186 -/

variable (essL : Fin n → Prop) [DecidablePred essL]
  {solveM : Matrix (Fin n) (Fin n) ℝ → (Fin n → ℝ) → (Fin n → ℝ)}

/-- **C186** The product of `CurrentLoad` with respect to the mesh coordinates, times any motion `δ` of the mesh, is the
derivative of `l̄·(tv - load)` - what `addLoad` leaves in the residual - with the load recomputed on the moved mesh (mass
matrix, linear form, projection). -/
theorem C186_current_load_mesh {F : ℝ → Forms n h ℝ} {D' : Matrix (Fin h) (Fin h) ℝ} {W' : Matrix (Fin h) (Fin n) ℝ}
    (hF : MovingForms ess solve F D' W')
    {M : ℝ → Matrix (Fin n) (Fin n) ℝ} {M' : Matrix (Fin n) (Fin n) ℝ}
    (hM : MatDeriv M M') (hMs : ∀ t b, M t *ᵥ solveM (M t) b = b) (hMt : ∀ b, (M 0)ᵀ *ᵥ solveM (M 0)ᵀ b = b)
    {Jv : ℝ → Fin n → ℝ} {J' : Fin n → ℝ} (hJ : VecDeriv Jv J') (δ : Fin m → ℝ)
    {sensD : (Fin h → ℝ) → (Fin h → ℝ) → (Fin m → ℝ)} {sensW : (Fin n → ℝ) → (Fin h → ℝ) → (Fin m → ℝ)}
    {sensM : (Fin n → ℝ) → (Fin n → ℝ) → (Fin m → ℝ)} {sensJ : (Fin n → ℝ) → (Fin m → ℝ)}
    (hD : SensOf D' δ sensD) (hW : SensOf W' δ sensW) (hsM : SensOf M' δ sensM)
    (hsJ : ∀ psi, sensJ psi ⬝ᵥ δ = -(psi ⬝ᵥ J')) (lb tv : Fin n → ℝ) (wb : Fin m → ℝ) :
    HasDerivAt (fun t => lb ⬝ᵥ addLoad ess solve essL solveM (F t) (M t) (Jv t) tv)
      ((loadVjpMesh ess solve essL solveM sensD sensW sensM sensJ (F 0) (M 0) (Jv 0) lb wb - wb) ⬝ᵥ δ) 0 := by
  have hMd : ∀ t, IsUnit (M t).det := fun t => det_of_exact (hMs t)
  set j := fun t => solveM (M t) (Jv t) with hj
  have hjd := solve_deriv hM hJ (x := j) (fun t => hMs t _) hMd
  set j' := (M 0)⁻¹ *ᵥ (J' - M' *ᵥ j 0) with hj'
  obtain ⟨phi', hphi, hadj⟩ := potential_deriv hF hjd
  -- derivative of the divergence-free part
  have hy : VecDeriv (fun t => divFreeMult ess solve (F t) (j t)) (j' - (F 0).G *ᵥ phi') := by
    intro i
    have h1 := (MatDeriv.const (F 0).G).mulVec hphi i
    have h2 := (hjd i).fun_sub h1
    have e : (fun t => divFreeMult ess solve (F t) (j t) i) =
        fun t => j t i - ((F 0).G *ᵥ solveEss ess solve (F t).D (-((F t).W *ᵥ j t))) i := by
      funext t
      rw [divFreeMult, neg_sub, irrotMult, hF.hG t]; rfl
    rw [e]
    refine h2.congr_deriv ?_
    simp [hj']
  have hl := hM.mulVec hy
  set y := fun t => divFreeMult ess solve (F t) (j t) with hyd
  set psiL := Warper.zeroEss essL lb with hpL
  have e : ∀ t, lb ⬝ᵥ addLoad ess solve essL solveM (F t) (M t) (Jv t) tv = lb ⬝ᵥ tv + -(psiL ⬝ᵥ (M t *ᵥ y t)) := by
    intro t
    rw [addLoad, dotProduct_sub, sub_eq_add_neg]
    congr 2
    refine Finset.sum_congr rfl fun i _ => ?_
    by_cases hi : essL i <;> simp [Warper.zeroEss, hi, hpL, loadOf, hyd, hj]
  simp only [e]
  refine ((hl.dot psiL).fun_neg.const_add _).congr_deriv ?_
  -- the reverse pass
  set psiK := (M 0)ᵀ *ᵥ psiL with hpK
  set rhs := -(divFreeVjpIn ess solve (F 0) psiK 0) with hrhs
  set psiJ := solveM (M 0)ᵀ rhs with hpJ
  have hMJ : (M 0)ᵀ *ᵥ psiJ = rhs := hMt _
  change _ = (wb - (sensM (j 0) psiJ + sensJ psiJ + sensM (y 0) psiL) -
    divFreeVjpMesh ess solve sensD sensW (F 0) (j 0) psiK 0 - wb) ⬝ᵥ δ
  simp only [sub_dotProduct, add_dotProduct, hsJ]
  rw [hsM (j 0) psiJ, hsM (y 0) psiL]
  have hp : divFreeVjpMesh ess solve sensD sensW (F 0) (j 0) psiK 0 ⬝ᵥ δ =
      solve (Warper.elim ess (F 0).D)ᵀ (Warper.zeroEss ess (-((F 0).Gᵀ *ᵥ (-psiK)))) ⬝ᵥ
        (D' *ᵥ solveEss ess solve (F 0).D (-((F 0).W *ᵥ j 0)) + W' *ᵥ j 0) := by
    rw [divFreeVjpMesh, irrotVjpMesh, zero_add, add_dotProduct, hD, hW, ← dotProduct_add]
  rw [hp]
  set v := solve (Warper.elim ess (F 0).D)ᵀ (Warper.zeroEss ess (-((F 0).Gᵀ *ᵥ (-psiK)))) with hv
  have h1 := hadj ((F 0).Gᵀ *ᵥ (-psiK))
  rw [← hv] at h1
  -- the adjoint of the projection applied to j'
  have h2 : psiK ⬝ᵥ j' + v ⬝ᵥ ((F 0).W *ᵥ j') = -(psiJ ⬝ᵥ (J' - M' *ᵥ j 0)) := by
    have h3 : divFreeVjpIn ess solve (F 0) psiK 0 = (F 0).Wᵀ *ᵥ v + psiK := by
      rw [divFreeVjpIn, irrotVjpIn, zero_add]
    have h4 : (divFreeVjpIn ess solve (F 0) psiK 0) ⬝ᵥ j' = psiK ⬝ᵥ j' + v ⬝ᵥ ((F 0).W *ᵥ j') := by
      rw [h3, add_dotProduct, mulVec_transpose, ← dotProduct_mulVec]; ring
    rw [← h4]
    have h5 : divFreeVjpIn ess solve (F 0) psiK 0 = -((M 0)ᵀ *ᵥ psiJ) := by rw [hMJ, hrhs, neg_neg]
    rw [h5, neg_dotProduct, mulVec_transpose, ← dotProduct_mulVec, hj', mulVec_mulVec, mul_nonsing_inv _ (hMd 0), one_mulVec]
  have h6 : psiL ⬝ᵥ (M 0 *ᵥ (j' - (F 0).G *ᵥ phi')) = psiK ⬝ᵥ j' - psiK ⬝ᵥ ((F 0).G *ᵥ phi') := by
    rw [hpK, ← dotProduct_sub, mulVec_transpose, ← dotProduct_mulVec]
  have h7 : -((F 0).Gᵀ *ᵥ (-psiK) ⬝ᵥ phi') = psiK ⬝ᵥ ((F 0).G *ᵥ phi') := by
    rw [mulVec_neg, neg_dotProduct, neg_neg, mulVec_transpose, ← dotProduct_mulVec]
  rw [h7] at h1
  rw [dotProduct_add, h6, h1]
  rw [dotProduct_sub] at h2
  rw [dotProduct_neg, dotProduct_add, dotProduct_add, dotProduct_add]
  linarith

end

/-! ### From elements to the mesh -/

section
open Finset Verif.Diffusion
variable {a b nu nv dim npt mn : ℕ}

/-- An element's coefficients: the global ones with orientation signs (MFEM's `GetSubVector`). -/
def loc {nd : ℕ} (dof : Fin nd → Fin a) (sgn : Fin nd → ℝ) (u : Fin a → ℝ) : Dense.Vec nd := fun r => sgn r * u (dof r)

/-- `LinearForm::Assemble`: the element vectors added into the global one. -/
def assembleAll (ne len : ℕ) (vd : ℕ → ℕ → Fin m) (el : ℕ → ℕ → ℝ) : Fin m → ℝ := fun g =>
  ∑ e ∈ range ne, ∑ q ∈ range len, if vd e q = g then el e q else 0

theorem assembleAll_dot (ne len : ℕ) (vd : ℕ → ℕ → Fin m) (el : ℕ → ℕ → ℝ) (δ : Fin m → ℝ) :
    assembleAll ne len vd el ⬝ᵥ δ = ∑ e ∈ range ne, ∑ q ∈ range len, el e q * δ (vd e q) := by
  unfold assembleAll dotProduct
  simp only [sum_mul]
  rw [sum_comm]
  refine sum_congr rfl fun e _ => ?_
  rw [sum_comm]
  refine sum_congr rfl fun q _ => ?_
  simp

/-- If each element's vector is the derivative of its form, the assembled vector is that of the assembled form. -/
theorem sensOf_elements {A : ℝ → Matrix (Fin a) (Fin b) ℝ} {A' : Matrix (Fin a) (Fin b) ℝ} (hA : MatDeriv A A')
    (ne len : ℕ) (vd : ℕ → ℕ → Fin m) (δ : Fin m → ℝ) (form : ℕ → ℝ → (Fin b → ℝ) → (Fin a → ℝ) → ℝ)
    (hform : ∀ t phi psi, psi ⬝ᵥ (A t *ᵥ phi) = ∑ e ∈ range ne, form e t phi psi)
    (el : (Fin b → ℝ) → (Fin a → ℝ) → ℕ → ℕ → ℝ)
    (hel : ∀ e < ne, ∀ phi psi, HasDerivAt (fun t => form e t phi psi) (∑ q ∈ range len, el phi psi e q * δ (vd e q)) 0) :
    SensOf A' δ (fun phi psi => assembleAll ne len vd (el phi psi)) := by
  intro phi psi
  rw [assembleAll_dot]
  have h1 : HasDerivAt (fun t => psi ⬝ᵥ (A t *ᵥ phi)) (psi ⬝ᵥ (A' *ᵥ phi)) 0 := by
    have h := (hA.mulVec (v := fun _ => phi) (v' := 0) fun i => hasDerivAt_const _ _).dot psi
    simpa using h
  have h2 : HasDerivAt (fun t => psi ⬝ᵥ (A t *ᵥ phi)) (∑ e ∈ range ne, ∑ q ∈ range len, el phi psi e q * δ (vd e q)) 0 := by
    simp only [hform]
    exact HasDerivAt.fun_sum fun e he => hel e (mem_range.1 he) phi psi
  exact h2.unique h1

/-- **C185** On a mesh of any number of elements the two sensitivities the projector assembles are exact for its two
forms (when both are integrated with the same points): the hypotheses `SensOf` of the other theorems hold. -/
theorem C185_assembled_sensitivities {D : ℝ → Matrix (Fin h) (Fin h) ℝ} {D' : Matrix (Fin h) (Fin h) ℝ} (hD : MatDeriv D D')
    {W : ℝ → Matrix (Fin h) (Fin n) ℝ} {W' : Matrix (Fin h) (Fin n) ℝ} (hW : MatDeriv W W')
    (ne : ℕ) (vd : ℕ → ℕ → Fin m) (δ : Fin m → ℝ) (μ : ℕ → Motion npt dim mn)
    (hμ : ∀ e < ne, ∀ q < dim * mn, (μ e).δ q = δ (vd e q)) (hJ : ∀ e < ne, ∀ i < npt, (μ e).J i 0 ≠ 0)
    (w : ℕ → ℝ) (vshape : ℕ → Dense.Mat nu dim) (dshape : ℕ → Dense.Mat nv dim)
    (ud : ℕ → Fin nu → Fin n) (us : ℕ → Fin nu → ℝ) (pd : ℕ → Fin nv → Fin h) (ps : ℕ → Fin nv → ℝ)
    (hDf : ∀ t phi psi, psi ⬝ᵥ (D t *ᵥ phi) = ∑ e ∈ range ne,
      inner npt (bpts (μ e) w dshape dshape t) (loc (pd e) (ps e) phi) (loc (pd e) (ps e) psi))
    (hWf : ∀ t x psi, psi ⬝ᵥ (W t *ᵥ x) = ∑ e ∈ range ne,
      -inner npt (bpts (μ e) w vshape dshape t) (loc (ud e) (us e) x) (loc (pd e) (ps e) psi)) :
    SensOf D' δ (fun phi psi => assembleAll ne (dim * mn) vd fun e =>
      diffMesh npt mn ((μ e).pts w dshape 0) (μ e).adjRev (μ e).wRev (loc (pd e) (ps e) phi) (loc (pd e) (ps e) psi)) ∧
    SensOf W' δ (fun x psi => assembleAll ne (dim * mn) vd fun e =>
      wdivMesh npt mn (bpts (μ e) w vshape dshape 0) (μ e).adjRev (μ e).wRev (loc (ud e) (us e) x)
        (loc (pd e) (ps e) psi)) := by
  constructor
  · refine sensOf_elements hD ne (dim * mn) vd δ _ hDf _ fun e he phi psi => ?_
    refine (C183_diffusion (μ e) w dshape _ _ (hJ e he)).congr_deriv ?_
    exact sum_congr rfl fun q hq => by rw [hμ e he q (mem_range.1 hq)]
  · refine sensOf_elements hW ne (dim * mn) vd δ _ hWf _ fun e he phi psi => ?_
    refine (C183_weak_divergence (μ e) w vshape dshape _ _ (hJ e he)).congr_deriv ?_
    exact sum_congr rfl fun q hq => by rw [hμ e he q (mem_range.1 hq)]

/-- **C186** The mass and linear-form sensitivities the current load assembles are exact on a mesh of any number of
elements: its hypotheses hold. -/
theorem C186_assembled_sensitivities {M : ℝ → Matrix (Fin n) (Fin n) ℝ} {M' : Matrix (Fin n) (Fin n) ℝ} (hM : MatDeriv M M')
    {Jv : ℝ → Fin n → ℝ} {J' : Fin n → ℝ} (hJv : VecDeriv Jv J')
    (ne : ℕ) (vd : ℕ → ℕ → Fin m) (δ : Fin m → ℝ) (μ : ℕ → Motion npt dim mn)
    (hμ : ∀ e < ne, ∀ q < dim * mn, (μ e).δ q = δ (vd e q)) (hJ : ∀ e < ne, ∀ i < npt, (μ e).J i 0 ≠ 0)
    (w : ℕ → ℝ) (vshape : ℕ → Dense.Mat nu dim) (ud : ℕ → Fin nu → Fin n) (us : ℕ → Fin nu → ℝ)
    (cur : ℕ → ℝ → ℕ → Dense.Vec dim) (cur' : ℕ → ℕ → Dense.Vec dim)
    (hcur : ∀ e < ne, ∀ i < npt, ∀ k, HasDerivAt (fun t => cur e t i k) (cur' e i k) 0)
    (fRev : ℕ → ℕ → Dense.Vec dim → ℕ → ℕ → ℝ)
    (hfRev : ∀ e < ne, ∀ i < npt, ∀ vbar, ∑ k ∈ range dim, ∑ j ∈ range mn, fRev e i vbar k j * (μ e).δ (k * mn + j) =
      Dense.dotv vbar (cur' e i))
    (hMf : ∀ t x psi, psi ⬝ᵥ (M t *ᵥ x) = ∑ e ∈ range ne,
      inner npt (bpts (μ e) w vshape vshape t) (loc (ud e) (us e) x) (loc (ud e) (us e) psi))
    (hJf : ∀ t psi, psi ⬝ᵥ Jv t = ∑ e ∈ range ne, ∑ i ∈ range npt, w i * (μ e).J i t *
      Dense.dotv (cur e t i) (phys (vshape i) ((μ e).adj i t) ((μ e).J i t) (loc (ud e) (us e) psi))) :
    SensOf M' δ (fun x psi => assembleAll ne (dim * mn) vd fun e =>
      massMesh 1 npt mn ((μ e).pts w vshape 0) (μ e).adjRev (μ e).wRev (loc (ud e) (us e) x) (loc (ud e) (us e) psi)) ∧
    ∀ psi, (assembleAll ne (dim * mn) vd fun e =>
      lfMesh (-1) npt mn ((μ e).pts w vshape 0) (cur e 0) (fRev e) (μ e).adjRev (loc (ud e) (us e) psi)) ⬝ᵥ δ =
        -(psi ⬝ᵥ J') := by
  constructor
  · refine sensOf_elements hM ne (dim * mn) vd δ _ hMf _ fun e he phi psi => ?_
    refine (C183_mass_partial (μ e) w vshape _ _ (hJ e he)).congr_deriv ?_
    exact sum_congr rfl fun q hq => by rw [hμ e he q (mem_range.1 hq)]
  · intro psi
    rw [assembleAll_dot]
    have h1 := (hJv.dot psi).fun_neg
    refine HasDerivAt.unique ?_ h1
    have hf : (fun t => -(psi ⬝ᵥ Jv t)) = fun t => ∑ e ∈ range ne, (-1) * ∑ i ∈ range npt, w i * (μ e).J i t *
        Dense.dotv (cur e t i) (phys (vshape i) ((μ e).adj i t) ((μ e).J i t) (loc (ud e) (us e) psi)) := by
      funext t
      rw [hJf t psi, ← sum_neg_distrib]
      exact sum_congr rfl fun e _ => by ring
    rw [hf]
    refine HasDerivAt.fun_sum fun e he => ?_
    have he := mem_range.1 he
    refine (C184_vector_load (-1) (μ e) w vshape (cur e) (cur' e) (hcur e he) (fRev e) (hfRev e he) _ (hJ e he)).congr_deriv ?_
    exact sum_congr rfl fun q hq => by rw [hμ e he q (mem_range.1 hq)]

/-- Non-vacuity of C185: one potential and one field dof with forms that change with the mesh. -/
example : ∃ (F : ℝ → Forms 1 1 ℝ) (D' W' : Matrix (Fin 1) (Fin 1) ℝ),
    MovingForms (fun _ => False) (fun A v => A⁻¹ *ᵥ v) F D' W' ∧ W' 0 0 = 1 ∧ (F 0).D 0 0 = 1 := by
  refine ⟨fun t => ⟨Matrix.of fun _ _ => Real.exp t, Matrix.of fun _ _ => 1 + t, Matrix.of fun _ _ => 1⟩,
    Matrix.of fun _ _ => 1, Matrix.of fun _ _ => 1, ⟨fun _ => rfl, ?_, ?_, ?_⟩, rfl, ?_⟩
  · intro i j
    exact (Real.hasDerivAt_exp 0).congr_deriv (by simp)
  · intro i j
    exact (hasDerivAt_id' (0 : ℝ)).const_add 1
  · intro t
    have hdet : IsUnit (Warper.elim (fun _ => False) (Matrix.of fun _ _ : Fin 1 => Real.exp t)).det := by
      rw [Matrix.det_fin_one]
      exact isUnit_iff_ne_zero.2 (by simp [Warper.elim])
    constructor
    · intro b
      change Warper.elim (fun _ => False) (Matrix.of fun _ _ : Fin 1 => Real.exp t) *ᵥ
        ((Warper.elim (fun _ => False) (Matrix.of fun _ _ : Fin 1 => Real.exp t))⁻¹ *ᵥ b) = b
      rw [mulVec_mulVec, mul_nonsing_inv _ hdet, one_mulVec]
    · intro b
      change (Warper.elim (fun _ => False) (Matrix.of fun _ _ : Fin 1 => Real.exp t))ᵀ *ᵥ
        ((Warper.elim (fun _ => False) (Matrix.of fun _ _ : Fin 1 => Real.exp t))ᵀ⁻¹ *ᵥ b) = b
      rw [mulVec_mulVec, mul_nonsing_inv _ (by rw [Matrix.det_transpose]; exact hdet), one_mulVec]
  · simp

end

end Verif.ProjInteg
