import Verif.DGDiffusionProps
import Mathlib.Algebra.BigOperators.Field
import Mathlib.Tactic.FinCases

/-!
Property C126: mesh sensitivities of the face terms of the discontinuous diffusion operator.
-/

namespace Verif.DGDiffusion
open Finset Verif.Sbp Verif.Dense Verif.Diffusion Verif.Inviscid

set_option linter.unusedSectionVars false

variable {P : Type*} {nd nd1 nd2 dim n m m1 m2 mf : ℕ}

/-! ### Specification of the motion -/

/-- Motion of the mesh nodes of an element with direction `δ`, its effect on the inverse Jacobian and the
Jacobian determinant at the face points, and the contract of MFEM's reverse-differentiated routines. -/
structure SideMotion (npt dim m : ℕ) where
  δ : ℕ → ℝ
  inv : ℕ → ℝ → Mat dim dim
  W : ℕ → ℝ → ℝ
  inv' : ℕ → Mat dim dim
  W' : ℕ → ℝ
  hinv : ∀ i < npt, ∀ a b, HasDerivAt (fun t => inv i t a b) (inv' i a b) 0
  hW : ∀ i < npt, HasDerivAt (W i) (W' i) 0
  hW0 : ∀ i < npt, W i 0 ≠ 0
  rev : RevMap dim
  hinvRev : ∀ i < npt, ∀ A : Mat dim dim,
    ∑ k ∈ range dim, ∑ j ∈ range m, rev.invRev i A k j * δ (k * m + j) = frob A (inv' i)
  hwRev : ∀ i < npt, ∀ x : ℝ,
    ∑ k ∈ range dim, ∑ j ∈ range m, rev.wRev i x k j * δ (k * m + j) = x * W' i

/-- The induced motion of the nodes of the face and of its scaled normal. -/
structure NorMotion (npt dim mf : ℕ) where
  δ : ℕ → ℝ
  nor : ℕ → ℝ → Vec dim
  nor' : ℕ → Vec dim
  hnor : ∀ i < npt, ∀ a, HasDerivAt (fun t => nor i t a) (nor' i a) 0
  rev : ℕ → Vec dim → ℕ → ℕ → ℝ
  hrev : ∀ i < npt, ∀ v : Vec dim,
    ∑ k ∈ range dim, ∑ j ∈ range mf, rev i v k j * δ (k * mf + j) = dotv v (nor' i)

/-- Every face node is a node of the element and moves with it. -/
def Attached (dim m mf : ℕ) (δ δf : ℕ → ℝ) (find : ℕ → Option ℕ) : Prop :=
  ∀ j < dim * mf, ∃ idx < dim * m, find j = some idx ∧ δf j = δ idx

/-- The element data at the face points after motion by `t`. -/
noncomputable def SideMotion.side (μ : SideMotion n dim m) (s : ℕ → Side P nd dim) (t : ℝ) (i : ℕ) :
    Side P nd dim := ⟨(s i).shape, (s i).dshape, μ.inv i t, μ.W i t, (s i).eip⟩

/-- The face points after motion by `t`. -/
def NorMotion.face (ν : NorMotion n dim mf) (f : ℕ → FaceP P dim) (t : ℝ) (i : ℕ) : FaceP P dim :=
  ⟨(f i).w, (f i).ip, ν.nor i t⟩

/-- The contract is met: every motion of an element's mapping whose Jacobian determinant is not zero (such
as `isoMotion`) gives one, the inverse Jacobian being the adjugate over the determinant. -/
noncomputable def ofMotion (μ : Motion n dim m) (h0 : ∀ i < n, μ.J i 0 ≠ 0) : SideMotion n dim m where
  δ := μ.δ
  inv := fun i t a b => μ.adj i t a b / μ.J i t
  W := μ.J
  inv' := fun i a b => (μ.adj' i a b * μ.J i 0 - μ.adj i 0 a b * μ.J' i) / μ.J i 0 ^ 2
  W' := μ.J'
  hinv := fun i hi a b => (μ.hadj i hi a b).fun_div (μ.hJ i hi) (h0 i hi)
  hW := μ.hJ
  hW0 := h0
  rev := ⟨fun i A k j => μ.adjRev i (fun a b => A a b / μ.J i 0) k j +
    μ.wRev i (-(frob A (μ.adj i 0) / μ.J i 0 ^ 2)) k j, μ.wRev⟩
  hinvRev := by
    intro i hi A
    have h0 := h0 i hi
    simp only [add_mul, sum_add_distrib]
    rw [μ.hadjRev i hi, μ.hwRev i hi]
    unfold frob
    rw [neg_mul, ← sub_eq_add_neg, div_mul_eq_mul_div, sum_mul, sum_div, ← sum_sub_distrib]
    refine sum_congr rfl fun a _ => ?_
    rw [sum_mul, sum_div, ← sum_sub_distrib]
    refine sum_congr rfl fun b _ => ?_
    field_simp
  hwRev := μ.hwRev

/-- The contract is met: a straight edge in the plane with nodes `X 0, X 1` (first coordinates) and
`X 2, X 3` (second coordinates), with the scaled normal computed by `CalcOrtho`. -/
noncomputable def edgeMotion (n : ℕ) (X δ : ℕ → ℝ) : NorMotion n 2 2 where
  δ := δ
  nor := fun _ t => ![(X 3 + t * δ 3) - (X 2 + t * δ 2), -((X 1 + t * δ 1) - (X 0 + t * δ 0))]
  nor' := fun _ => ![δ 3 - δ 2, -(δ 1 - δ 0)]
  hnor := by
    intro i _ a
    have h : ∀ q, HasDerivAt (fun t => X q + t * δ q) (δ q) 0 := fun q =>
      (((hasDerivAt_id' (0 : ℝ)).mul_const (δ q)).const_add (X q)).congr_deriv (by ring)
    fin_cases a
    · exact (h 3).fun_sub (h 2)
    · exact ((h 1).fun_sub (h 0)).fun_neg
  rev := fun _ v k j => if k = 0 then (if j = 0 then v 1 else -v 1) else (if j = 0 then -v 0 else v 0)
  hrev := by
    intro i _ v
    simp [sum_range_succ, dotv, Fin.sum_univ_two]
    ring

/-- The first edge of a straight triangle moves with it. -/
example (δ : ℕ → ℝ) : Attached 2 3 2 δ (fun j => δ (if j < 2 then j else j + 1))
    (fun j => some (if j < 2 then j else j + 1)) := by
  intro j hj
  refine ⟨_, ?_, rfl, rfl⟩
  split_ifs <;> omega

/-! ### Lemmas -/

theorem insertFace_dot (δ δf : ℕ → ℝ) (find : ℕ → Option ℕ) (L nv : ℕ)
    (h : ∀ j < nv, ∃ idx < L, find j = some idx ∧ δf j = δ idx) (faceBar bar : ℕ → ℝ) :
    ∑ q ∈ range L, insertFace nv find faceBar bar q * δ q =
      ∑ q ∈ range L, bar q * δ q + ∑ j ∈ range nv, faceBar j * δf j := by
  induction nv with
  | zero => simp [insertFace, forN]
  | succ N ih =>
    obtain ⟨idx, hi, hf, hd⟩ := h N (by omega)
    have ih := ih fun j hj => h j (by omega)
    unfold insertFace at ih ⊢
    rw [forN, hf, sum_range_succ, ← add_assoc, ← ih]
    simp only [(adds_addAt idx (faceBar N)).apply, Pi.add_apply, add_mul, sum_add_distrib]
    congr 1
    rw [sum_eq_single idx]
    · rw [if_pos rfl, hd]
    · intro q _ hq; rw [if_neg hq, zero_mul]
    · intro hq; exact absurd (mem_range.2 hi) hq

theorem SideMotion.point (μ : SideMotion n dim m) (i : ℕ) (hi : i < n) (A : Mat dim dim) (x : ℝ) :
    ∑ k ∈ range dim, ∑ j ∈ range m, (0 + μ.rev.invRev i A k j + μ.rev.wRev i x k j) * μ.δ (k * m + j) =
      frob A (μ.inv' i) + x * μ.W' i := by
  rw [← μ.hinvRev i hi A, ← μ.hwRev i hi x, ← sum_add_distrib]
  refine sum_congr rfl fun k _ => ?_
  rw [← sum_add_distrib]
  exact sum_congr rfl fun j _ => by ring

theorem NorMotion.point (ν : NorMotion n dim mf) (i : ℕ) (hi : i < n) (v : Vec dim) :
    ∑ k ∈ range dim, ∑ j ∈ range mf, (0 + ν.rev i v k j) * ν.δ (k * mf + j) = dotv v (ν.nor' i) := by
  rw [← ν.hrev i hi v]
  exact sum_congr rfl fun k _ => sum_congr rfl fun j _ => by ring

/-- Rate of change of the gradient. -/
noncomputable def SideMotion.grad' (μ : SideMotion n dim m) (s : ℕ → Side P nd dim) (i : ℕ) (u : Vec nd) : Vec dim :=
  mulTV (mulM (s i).dshape (μ.inv' i)) u

theorem gradU_mulTV (s : Side P nd dim) (u : Vec nd) : s.gradU u = mulTV (mulM s.dshape s.inv) u :=
  (flux_eq s u).symm

theorem grad_hasDerivAt (μ : SideMotion n dim m) (s : ℕ → Side P nd dim) (i : ℕ) (hi : i < n) (u : Vec nd)
    (k : Fin dim) : HasDerivAt (fun t => (μ.side s t i).gradU u k) (μ.grad' s i u k) 0 := by
  simp only [gradU_mulTV]
  unfold SideMotion.grad' mulTV mulM
  refine HasDerivAt.fun_sum fun r _ => HasDerivAt.mul_const ?_ _
  exact HasDerivAt.fun_sum fun l _ => (μ.hinv i hi l k).const_mul _

theorem normalD_dot (s : Side P nd dim) (nor : Vec dim) (u : Vec nd) :
    s.normalD nor u = dotv (s.gradU u) nor := rfl

/-- Rate of change of the diffusivity. -/
noncomputable def SideMotion.coef' (μ : SideMotion n dim m) (s : ℕ → Side P nd dim) (dnu : P → ℝ → ℝ) (i : ℕ)
    (u : Vec nd) : ℝ :=
  if norm2 ((μ.side s 0 i).gradU u) = 0 then 0 else
    dnu (s i).eip (norm2 ((μ.side s 0 i).gradU u)) * (dotv ((μ.side s 0 i).gradU u) (μ.grad' s i u) /
      norm2 ((μ.side s 0 i).gradU u))

theorem coef_motion (μ : SideMotion n dim m) (s : ℕ → Side P nd dim) (nu dnu : P → ℝ → ℝ)
    (hnu : ∀ p x, HasDerivAt (nu p) (dnu p x) x) (i : ℕ) (hi : i < n) (u : Vec nd)
    (hu : (norm2 ((μ.side s 0 i).gradU u) = 0 ∧ dnu (s i).eip 0 = 0) ∨ norm2 ((μ.side s 0 i).gradU u) ≠ 0) :
    HasDerivAt (fun t => (μ.side s t i).coef nu u) (μ.coef' s dnu i u) 0 := by
  have hg := grad_hasDerivAt μ s i hi u
  unfold SideMotion.coef' Side.coef
  have he : ∀ t, (μ.side s t i).eip = (s i).eip := fun _ => rfl
  simp only [he]
  rcases hu with ⟨hz, hd⟩ | hz
  · rw [if_pos hz]
    exact hasDerivAt_comp_norm_of_zero (nu (s i).eip) _ _ 0 ((hnu _ 0).congr_deriv hd) hg hz
  · rw [if_neg hz]
    exact HasDerivAt.comp_of_eq (0 : ℝ) (hnu (s i).eip _) (hasDerivAt_norm2 _ _ 0 hg hz) rfl

theorem nd_motion (μ : SideMotion n dim m) (ν : NorMotion n dim mf) (s : ℕ → Side P nd dim)
    (i : ℕ) (hi : i < n) (u : Vec nd) :
    HasDerivAt (fun t => (μ.side s t i).normalD (ν.nor i t) u)
      (dotv (μ.grad' s i u) (ν.nor i 0) + dotv ((μ.side s 0 i).gradU u) (ν.nor' i)) 0 :=
  hasDerivAt_dotv _ _ _ _ 0 (grad_hasDerivAt μ s i hi u) (ν.hnor i hi)

theorem nn_motion (ν : NorMotion n dim mf) (i : ℕ) (hi : i < n) :
    HasDerivAt (fun t => dotv (ν.nor i t) (ν.nor i t)) (2 * dotv (ν.nor i 0) (ν.nor' i)) 0 := by
  refine (hasDerivAt_dotv _ _ _ _ 0 (ν.hnor i hi) (ν.hnor i hi)).congr_deriv ?_
  rw [dotv_comm (ν.nor' i)]; ring

theorem dotv_axpy (c : ℝ) (x y z : Vec nd) : dotv (axpy c x y) z = dotv y z + c * dotv x z := by
  rw [← dotv_smul_left, ← dotv_add_left]; rfl

theorem dotv_zeroV (z : Vec nd) : dotv zeroV z = 0 := by simp [dotv, zeroV]

theorem dotv_addMulTV (A : Mat nd dim) (x : Vec nd) (y z : Vec dim) :
    dotv (addMulTV A x y) z = dotv y z + dotv (mulTV A x) z := by
  rw [← dotv_add_left]; rfl

theorem mulTV_axpy (A : Mat nd dim) (c d : ℝ) (x y : Vec nd) (z : Vec dim) :
    dotv (mulTV A (axpy c x (axpy d y zeroV))) z = d * dotv (mulTV A y) z + c * dotv (mulTV A x) z := by
  rw [← dotv_smul_left, ← dotv_smul_left, ← dotv_add_left]
  congr 1
  funext k
  unfold axpy zeroV
  rw [mulTV_add A (fun i => 0 + d * y i) (fun i => c * x i), mulTV_smul]
  simp only [zero_add]
  rw [mulTV_smul]

/-- Product of the adjugate-like bar of one side with the rate of the mapping. -/
theorem frob_side (S : Mat nd dim) (A' : Mat dim dim) (c d : ℝ) (u psi : Vec nd) (nor fb : Vec dim) :
    frob (mulAtB S (addVWt 1 u fb (addVWt 1 (axpy c u (axpy d psi zeroV)) nor zeroM))) A' =
      d * dotv (mulTV (mulM S A') psi) nor + c * dotv (mulTV (mulM S A') u) nor +
        dotv fb (mulTV (mulM S A') u) := by
  rw [frob_mulAtB]
  have e : addVWt 1 u fb (addVWt 1 (axpy c u (axpy d psi zeroV)) nor (zeroM : Mat nd dim)) =
      fun i j => (axpy c u (axpy d psi zeroV)) i * nor j + u i * fb j := by
    funext i j; simp [addVWt, zeroM]
  rw [e, frob_add, frob_outer, frob_outer, dotv_comm nor, mulTV_axpy]

/-! ### Boundary faces -/

theorem bndRev_dot (alpha mu : ℝ) (nu dnu : P → ℝ → ℝ) (f : FaceP P dim) (s : Side P nd dim) (g : ℝ)
    (u psi : Vec nd) (A' : Mat dim dim) (W' : ℝ) (nor' : Vec dim) (hz : norm2 (s.gradU u) ≠ 0) :
    ∃ b, bndRev alpha mu nu dnu f s g u psi = some b ∧
      frob b.1 A' + b.2.1 * W' + dotv b.2.2 nor' =
        alpha * f.w * (dnu f.ip (norm2 (s.gradU u)) * (dotv (s.gradU u) (mulTV (mulM s.dshape A') u) /
            norm2 (s.gradU u))) *
          (-(s.normalD f.nor u) * s.trace psi - (s.trace u - g) * s.normalD f.nor psi +
            mu * dotv f.nor f.nor / s.W * (s.trace u - g) * s.trace psi) +
        alpha * f.w * s.coef nu u *
          (-(dotv (mulTV (mulM s.dshape A') u) f.nor + dotv (s.gradU u) nor') * s.trace psi -
            (s.trace u - g) * (dotv (mulTV (mulM s.dshape A') psi) f.nor + dotv (s.gradU psi) nor') +
            mu * (2 * dotv f.nor nor' / s.W - dotv f.nor f.nor * W' / s.W ^ 2) * (s.trace u - g) * s.trace psi) := by
  unfold bndRev
  simp only [flux_eq, if_neg hz, dot_shape, dot_dn, val_eq]
  refine ⟨_, rfl, ?_⟩
  simp only [frob_side, dotv_addMulTV, dotv_axpy, dotv_zeroV]
  have e : s.gradU u = mulTV s.dxt u := (flux_eq s u).symm
  have e' : s.gradU psi = mulTV s.dxt psi := (flux_eq s psi).symm
  rw [mulTV_axpy, ← e, ← e']
  ring

theorem forN_option {α β : Type*} (N : ℕ) (step : ℕ → Option α) (a : ℕ → α) (h : ∀ i < N, step i = some (a i))
    (F G : ℕ → α → β → β) (x y : β) :
    forN N (fun i (acc : Option (β × β)) => acc.bind fun z => (step i).map fun c =>
      (F i c z.1, G i c z.2)) (some (x, y)) =
      some (forN N (fun i p => F i (a i) p) x, forN N (fun i q => G i (a i) q) y) := by
  induction N with
  | zero => rfl
  | succ N ih =>
    rw [forN, ih fun i hi => h i (by omega), h N (by omega)]
    rfl

/-- **Mesh sensitivity of the boundary terms.**  For a constant boundary value and a diffusivity that does
not depend on position, if the gradient does not vanish at any face point, the assembled vector
multiplied with any motion of the mesh nodes is the derivative of the adjoint-weighted residual. -/
theorem C126_boundary_partial (alpha mu : ℝ) (nu dnu : P → ℝ → ℝ) (hnu : ∀ p x, HasDerivAt (nu p) (dnu p x) x)
    (f : ℕ → FaceP P dim) (s : ℕ → Side P nd dim) (hip : ∀ i < n, dnu (f i).ip = dnu (s i).eip)
    (g : ℕ → ℝ) (μ : SideMotion n dim m) (ν : NorMotion n dim mf) (find : ℕ → Option ℕ)
    (hatt : Attached dim m mf μ.δ ν.δ find) (u psi : Vec nd)
    (hu : ∀ i < n, norm2 ((μ.side s 0 i).gradU u) ≠ 0) :
    ∃ bar, bndSens alpha mu nu dnu n m mf (ν.face f 0) (μ.side s 0) g μ.rev ν.rev find u psi = some bar ∧
      HasDerivAt (fun t => dotv psi (bndVec alpha mu nu n (ν.face f t) (μ.side s t) g u))
        (∑ q ∈ range (dim * m), bar q * μ.δ q) 0 := by
  choose! b hb hdot using fun i (hi : i < n) => bndRev_dot alpha mu nu dnu (ν.face f 0 i) (μ.side s 0 i) (g i) u psi
    (μ.inv' i) (μ.W' i) (ν.nor' i) (hu i hi)
  have hacc := forN_option n (fun i => bndRev alpha mu nu dnu (ν.face f 0 i) (μ.side s 0 i) (g i) u psi) b hb
    (fun i c bar => scatter m dim (fun k j => 0 + μ.rev.invRev i c.1 k j + μ.rev.wRev i c.2.1 k j) bar)
    (fun i c bar => scatter mf dim (fun k j => 0 + ν.rev i c.2.2 k j) bar) (fun _ => 0) (fun _ => 0)
  refine ⟨insertFace (dim * mf) find
    (forN n (fun i bar => scatter mf dim (fun k j => 0 + ν.rev i (b i).2.2 k j) bar) fun _ => 0)
    (forN n (fun i bar => scatter m dim
      (fun k j => 0 + μ.rev.invRev i (b i).1 k j + μ.rev.wRev i (b i).2.1 k j) bar) fun _ => 0), ?_, ?_⟩
  · unfold bndSens
    refine (congrArg (Option.map _) hacc).trans rfl
  · have hs : ∑ q ∈ range (dim * m), insertFace (dim * mf) find
        (forN n (fun i bar => scatter mf dim (fun k j => 0 + ν.rev i (b i).2.2 k j) bar) fun _ => 0)
        (forN n (fun i bar => scatter m dim
          (fun k j => 0 + μ.rev.invRev i (b i).1 k j + μ.rev.wRev i (b i).2.1 k j) bar) fun _ => 0) q * μ.δ q =
        ∑ i ∈ range n, (frob (b i).1 (μ.inv' i) + (b i).2.1 * μ.W' i + dotv (b i).2.2 (ν.nor' i)) := by
      rw [insertFace_dot μ.δ ν.δ find (dim * m) (dim * mf) hatt, scatter_loop_dot, scatter_loop_dot,
        ← sum_add_distrib]
      exact sum_congr rfl fun i hi => congrArg₂ (· + ·) (μ.point i (mem_range.1 hi) _ _)
        (ν.point i (mem_range.1 hi) _)
    rw [hs]
    simp only [C124_weak_form]
    refine HasDerivAt.fun_sum fun i hi => ?_
    have hi := mem_range.1 hi
    have hc := coef_motion μ s nu dnu hnu i hi u (Or.inr (hu i hi))
    have h1 := nd_motion μ ν s i hi u
    have h2 := nd_motion μ ν s i hi psi
    have hn := nn_motion ν i hi
    have hq := (hn.fun_div (μ.hW i hi) (μ.hW0 i hi)).const_mul mu
    have hT : ∀ (t : ℝ) (v : Vec nd), (μ.side s t i).trace v = (s i).trace v := fun _ _ => rfl
    have hF : ∀ t, (ν.face f t i).nor = ν.nor i t := fun _ => rfl
    have hw : ∀ t, (ν.face f t i).w = (f i).w := fun _ => rfl
    have hWW : ∀ t, (μ.side s t i).W = μ.W i t := fun _ => rfl
    rw [hdot i hi]
    simp only [hT, hF, hw, hWW]
    have hfin := (hc.const_mul (alpha * (f i).w)).fun_mul
      (((h1.fun_neg.mul_const ((s i).trace psi)).fun_sub (h2.const_mul ((s i).trace u - g i))).fun_add
        ((hq.mul_const ((s i).trace u - g i)).mul_const ((s i).trace psi)))
    refine (hfin.congr_of_eventuallyEq (Filter.Eventually.of_forall fun t => ?_)).congr_deriv ?_
    · simp only; ring
    · unfold SideMotion.coef'
      rw [if_neg (hu i hi)]
      have hip' : dnu (ν.face f 0 i).ip = dnu (s i).eip := hip i hi
      have hd : (μ.side s 0 i).dshape = (s i).dshape := rfl
      have hW0 := μ.hW0 i hi
      rw [hip', hd]
      unfold SideMotion.grad'
      field_simp

/-- **Violation.**  Where the gradient vanishes at a face point (for instance in a uniform state) the mesh
sensitivity of the boundary terms is not a number: the division by the norm is not guarded. -/
theorem C126_boundary_zero_gradient_false (alpha mu : ℝ) (nu dnu : P → ℝ → ℝ) (f : ℕ → FaceP P dim)
    (s : ℕ → Side P nd dim) (g : ℕ → ℝ) (r : RevMap dim) (norRev : ℕ → Vec dim → ℕ → ℕ → ℝ)
    (find : ℕ → Option ℕ) (u psi : Vec nd) (i : ℕ) (hi : i < n) (h0 : ∀ k, (s i).gradU u k = 0) :
    bndSens alpha mu nu dnu n m mf f s g r norRev find u psi = none := by
  have hr : bndRev alpha mu nu dnu (f i) (s i) (g i) u psi = none := by
    unfold bndRev
    simp only [flux_eq]
    rw [if_pos ((norm2_eq_zero _).2 h0)]
  unfold bndSens
  have key : ∀ N, i < N → ∀ (F : ℕ → _ → _ → (ℕ → ℝ) × (ℕ → ℝ)) x, forN N (fun i acc =>
      Option.bind acc fun z => (bndRev alpha mu nu dnu (f i) (s i) (g i) u psi).map fun c => F i c z) x = none := by
    intro N hN F x
    induction N with
    | zero => omega
    | succ N ih =>
      rw [forN]
      by_cases h : i = N
      · subst h
        rw [hr]
        simp
      · rw [ih (by omega)]
        rfl
  simp only
  rw [key n hi (fun i c a => (scatter m dim (fun k j => 0 + r.invRev i c.1 k j + r.wRev i c.2.1 k j) a.1,
    scatter mf dim (fun k j => 0 + norRev i c.2.2 k j) a.2))]
  rfl

/-- The boundary sensitivity uses the residual's quadrature rule on simplices only. -/
theorem C126_rule_partial (order dim : ℕ) : bndSensRuleOrder .Pk order dim = bndRuleOrder .Pk order dim := by
  simp [bndSensRuleOrder, bndRuleOrder]

/-- **Violation**: on tensor-product elements residual and mesh sensitivity use rules of different order. -/
theorem C126_rule_false (order dim : ℕ) (hd : 0 < dim) :
    bndSensRuleOrder .Qk order dim ≠ bndRuleOrder .Qk order dim := by
  simp [bndSensRuleOrder, bndRuleOrder]; omega

/-! ### Interior faces -/

theorem fluxBar_dot (s : Side P nd dim) (dnu : P → ℝ → ℝ) (u : Vec nd) (vb : ℝ) (z : Vec dim)
    (hu : s.Regular dnu u) :
    dotv (s.fluxBar dnu u vb) z = vb * if norm2 (s.gradU u) = 0 then 0 else
      dnu s.eip (norm2 (s.gradU u)) * (dotv (s.gradU u) z / norm2 (s.gradU u)) := by
  unfold Side.fluxBar
  simp only [flux_eq]
  rcases hu with ⟨hz, _⟩ | hz
  · rw [if_neg (by rw [hz]; norm_num), if_pos hz, dotv_zeroV, mul_zero]
  · have hne : norm2 (s.gradU u) ≠ 0 := by
      have : (0 : ℝ) < 1 / 10 ^ 14 := by positivity
      linarith
    rw [if_pos (by rw [abs_of_nonneg (norm2_nonneg _)]; exact hz), if_neg hne, dotv_axpy, dotv_zeroV]
    ring

theorem regular_motion {s : Side P nd dim} {dnu : P → ℝ → ℝ} {u : Vec nd} (h : s.Regular dnu u) :
    (norm2 (s.gradU u) = 0 ∧ dnu s.eip 0 = 0) ∨ norm2 (s.gradU u) ≠ 0 := by
  rcases h with h | h
  · exact Or.inl h
  · right
    have : (0 : ℝ) < 1 / 10 ^ 14 := by positivity
    intro h0; rw [h0] at h; linarith

/-- **Mesh sensitivity of the interface terms.**  If the gradients are regular, the two assembled vectors
multiplied with any motion of the nodes of the two elements (the face moving with the first) are the
derivative of the adjoint-weighted interface residual. -/
theorem C126_interior (alpha mu : ℝ) (nu dnu : P → ℝ → ℝ) (hnu : ∀ p x, HasDerivAt (nu p) (dnu p x) x)
    (f : ℕ → FaceP P dim) (s1 : ℕ → Side P nd1 dim) (s2 : ℕ → Side P nd2 dim)
    (μ1 : SideMotion n dim m1) (μ2 : SideMotion n dim m2) (ν : NorMotion n dim mf) (find : ℕ → Option ℕ)
    (hatt : Attached dim m1 mf μ1.δ ν.δ find) (u1 psi1 : Vec nd1) (u2 psi2 : Vec nd2)
    (hu1 : ∀ i < n, (μ1.side s1 0 i).Regular dnu u1) (hu2 : ∀ i < n, (μ2.side s2 0 i).Regular dnu u2) :
    HasDerivAt (fun t =>
        dotv psi1 (intVec alpha mu nu n (ν.face f t) (μ1.side s1 t) (μ2.side s2 t) u1 u2).1 +
        dotv psi2 (intVec alpha mu nu n (ν.face f t) (μ1.side s1 t) (μ2.side s2 t) u1 u2).2)
      (∑ q ∈ range (dim * m1), (intSens alpha mu nu dnu n m1 m2 mf (ν.face f 0) (μ1.side s1 0) (μ2.side s2 0)
          μ1.rev μ2.rev ν.rev find u1 psi1 u2 psi2).1 q * μ1.δ q +
        ∑ q ∈ range (dim * m2), (intSens alpha mu nu dnu n m1 m2 mf (ν.face f 0) (μ1.side s1 0) (μ2.side s2 0)
          μ1.rev μ2.rev ν.rev find u1 psi1 u2 psi2).2 q * μ2.δ q) 0 := by
  set r := fun i => intRev alpha mu nu dnu (ν.face f 0 i) (μ1.side s1 0 i) (μ2.side s2 0 i) u1 psi1 u2 psi2 with hr
  have hs : ∑ q ∈ range (dim * m1), (intSens alpha mu nu dnu n m1 m2 mf (ν.face f 0) (μ1.side s1 0) (μ2.side s2 0)
          μ1.rev μ2.rev ν.rev find u1 psi1 u2 psi2).1 q * μ1.δ q +
        ∑ q ∈ range (dim * m2), (intSens alpha mu nu dnu n m1 m2 mf (ν.face f 0) (μ1.side s1 0) (μ2.side s2 0)
          μ1.rev μ2.rev ν.rev find u1 psi1 u2 psi2).2 q * μ2.δ q =
      ∑ i ∈ range n, (frob (r i).1.1 (μ1.inv' i) + (r i).1.2 * μ1.W' i + dotv (r i).2.2 (ν.nor' i) +
        (frob (r i).2.1.1 (μ2.inv' i) + (r i).2.1.2 * μ2.W' i)) := by
    unfold intSens
    simp only
    rw [insertFace_dot μ1.δ ν.δ find (dim * m1) (dim * mf) hatt, scatter_loop_dot, scatter_loop_dot,
      scatter_loop_dot, ← sum_add_distrib, ← sum_add_distrib]
    refine sum_congr rfl fun i hi => ?_
    have hi := mem_range.1 hi
    rw [μ1.point i hi, μ2.point i hi, ν.point i hi]
  rw [hs]
  simp only [C125_weak_form]
  refine HasDerivAt.fun_sum fun i hi => ?_
  have hi := mem_range.1 hi
  have c1 := coef_motion μ1 s1 nu dnu hnu i hi u1 (regular_motion (hu1 i hi))
  have c2 := coef_motion μ2 s2 nu dnu hnu i hi u2 (regular_motion (hu2 i hi))
  have n1 := nd_motion μ1 ν s1 i hi u1
  have n2 := nd_motion μ2 ν s2 i hi u2
  have p1 := nd_motion μ1 ν s1 i hi psi1
  have p2 := nd_motion μ2 ν s2 i hi psi2
  have hn := nn_motion ν i hi
  have q1 := c1.fun_div (μ1.hW i hi) (μ1.hW0 i hi)
  have q2 := c2.fun_div (μ2.hW i hi) (μ2.hW0 i hi)
  have hT1 : ∀ (t : ℝ) (v : Vec nd1), (μ1.side s1 t i).trace v = (s1 i).trace v := fun _ _ => rfl
  have hT2 : ∀ (t : ℝ) (v : Vec nd2), (μ2.side s2 t i).trace v = (s2 i).trace v := fun _ _ => rfl
  have hF : ∀ t, (ν.face f t i).nor = ν.nor i t := fun _ => rfl
  have hw : ∀ t, (ν.face f t i).w = (f i).w := fun _ => rfl
  have hW1 : ∀ t, (μ1.side s1 t i).W = μ1.W i t := fun _ => rfl
  have hW2 : ∀ t, (μ2.side s2 t i).W = μ2.W i t := fun _ => rfl
  unfold meanFlux penalty jump
  simp only [hT1, hT2, hF, hw, hW1, hW2]
  have hfin := ((((((c1.fun_mul n1).fun_add (c2.fun_mul n2)).div_const 2).fun_neg.mul_const
      ((s1 i).trace psi1 - (s2 i).trace psi2)).fun_sub
      ((((c1.fun_mul p1).fun_add (c2.fun_mul p2)).div_const 2).const_mul
        ((s1 i).trace u1 - (s2 i).trace u2))).fun_add
      ((((hn.const_mul mu).div_const 2).fun_mul (q1.fun_add q2)).mul_const
        ((s1 i).trace u1 - (s2 i).trace u2) |>.mul_const
        ((s1 i).trace psi1 - (s2 i).trace psi2))).const_mul (alpha * (f i).w)
  refine hfin.congr_deriv ?_
  rw [hr]
  unfold intRev
  simp only [frob_side, dotv_addMulTV, dotv_axpy, dotv_zeroV, mulTV_axpy, fluxBar_dot _ _ _ _ _ (hu1 i hi),
    fluxBar_dot _ _ _ _ _ (hu2 i hi), dot_shape, dot_dn, dn_dot, val_eq, hT1, hT2, hF, hw, hW1, hW2]
  have e1 : ∀ v, mulTV (μ1.side s1 0 i).dxt v = (μ1.side s1 0 i).gradU v := fun v => flux_eq _ v
  have e2 : ∀ v, mulTV (μ2.side s2 0 i).dxt v = (μ2.side s2 0 i).gradU v := fun v => flux_eq _ v
  have d1 : (μ1.side s1 0 i).dshape = (s1 i).dshape := rfl
  have d2 : (μ2.side s2 0 i).dshape = (s2 i).dshape := rfl
  have g1 : ∀ v, mulTV (mulM (s1 i).dshape (μ1.inv' i)) v = μ1.grad' s1 i v := fun _ => rfl
  have g2 : ∀ v, mulTV (mulM (s2 i).dshape (μ2.inv' i)) v = μ2.grad' s2 i v := fun _ => rfl
  simp only [e1, e2, d1, d2, g1, g2]
  change _ = _ + _
  have k1 : (if norm2 ((μ1.side s1 0 i).gradU u1) = 0 then 0 else
      dnu (μ1.side s1 0 i).eip (norm2 ((μ1.side s1 0 i).gradU u1)) *
        (dotv ((μ1.side s1 0 i).gradU u1) (μ1.grad' s1 i u1) / norm2 ((μ1.side s1 0 i).gradU u1))) =
      μ1.coef' s1 dnu i u1 := rfl
  have k2 : (if norm2 ((μ2.side s2 0 i).gradU u2) = 0 then 0 else
      dnu (μ2.side s2 0 i).eip (norm2 ((μ2.side s2 0 i).gradU u2)) *
        (dotv ((μ2.side s2 0 i).gradU u2) (μ2.grad' s2 i u2) / norm2 ((μ2.side s2 0 i).gradU u2))) =
      μ2.coef' s2 dnu i u2 := rfl
  rw [k1, k2]
  have w1 := μ1.hW0 i hi
  have w2 := μ2.hW0 i hi
  field_simp
  ring

end Verif.DGDiffusion
