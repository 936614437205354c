import Verif.DGDiffusion
import Verif.MeshMotion

/-!
Properties C124 (boundary faces of the discontinuous diffusion operator) and C125 (interior faces).
-/

namespace Verif.DGDiffusion
open Finset Verif.Sbp Verif.Dense Verif.Diffusion Verif.Inviscid

set_option linter.unusedSectionVars false

variable {P : Type*} {nd nd1 nd2 dim : ℕ}

/-! ### Specification -/

/-- The value of the finite-element function at the face point. -/
def Side.trace (s : Side P nd dim) (u : Vec nd) : ℝ := ∑ r, u r * s.shape r

/-- Its physical gradient there. -/
def Side.gradU (s : Side P nd dim) (u : Vec nd) : Vec dim := fun k =>
  ∑ r, u r * ∑ l, s.dshape r l * s.inv l k

/-- Its derivative along the (scaled) normal. -/
def Side.normalD (s : Side P nd dim) (nor : Vec dim) (u : Vec nd) : ℝ := ∑ k, s.gradU u k * nor k

/-- The diffusivity at the face point. -/
noncomputable def Side.coef (s : Side P nd dim) (nu : P → ℝ → ℝ) (u : Vec nd) : ℝ :=
  nu s.eip (norm2 (s.gradU u))

/-- Shape functions that sum to one. -/
def Side.Unity (s : Side P nd dim) : Prop := ∑ r, s.shape r = 1 ∧ ∀ l, ∑ r, s.dshape r l = 0

/-- The gradient is not tiny, or vanishes where the diffusivity has zero slope. -/
def Side.Regular (s : Side P nd dim) (dnu : P → ℝ → ℝ) (u : Vec nd) : Prop :=
  (norm2 (s.gradU u) = 0 ∧ dnu s.eip 0 = 0) ∨ 1 / 10 ^ 14 < norm2 (s.gradU u)

theorem flux_eq (s : Side P nd dim) (u : Vec nd) : s.flux u = s.gradU u := by
  funext k
  unfold Side.flux Side.gradU mulTV Side.dxt mulM
  exact sum_congr rfl fun r _ => by rw [mul_comm]

theorem shape_dot (s : Side P nd dim) (u : Vec nd) : dotv s.shape u = s.trace u :=
  sum_congr rfl fun _ _ => mul_comm _ _

theorem dot_shape (s : Side P nd dim) (u : Vec nd) : dotv u s.shape = s.trace u := rfl

theorem dot_dn (s : Side P nd dim) (nor : Vec dim) (u : Vec nd) : dotv u (s.dn nor) = s.normalD nor u := by
  unfold Side.dn Side.normalD
  rw [dotv_mulV, ← flux_eq]; rfl

theorem dn_dot (s : Side P nd dim) (nor : Vec dim) (u : Vec nd) : dotv (s.dn nor) u = s.normalD nor u := by
  rw [dotv_comm, dot_dn]

theorem val_eq (s : Side P nd dim) (nu : P → ℝ → ℝ) (u : Vec nd) : s.val nu u = s.coef nu u := by
  unfold Side.val Side.coef; rw [flux_eq]

theorem gradU_lin (s : Side P nd dim) (u δ : Vec nd) (t : ℝ) (k : Fin dim) :
    s.gradU (fun q => u q + t * δ q) k = s.gradU u k + t * s.gradU δ k := by
  unfold Side.gradU
  rw [mul_sum, ← sum_add_distrib]
  exact sum_congr rfl fun r _ => by ring

theorem trace_lin (s : Side P nd dim) (u δ : Vec nd) (t : ℝ) :
    s.trace (fun q => u q + t * δ q) = s.trace u + t * s.trace δ := by
  unfold Side.trace
  rw [mul_sum, ← sum_add_distrib]
  exact sum_congr rfl fun r _ => by ring

theorem normalD_lin (s : Side P nd dim) (nor : Vec dim) (u δ : Vec nd) (t : ℝ) :
    s.normalD nor (fun q => u q + t * δ q) = s.normalD nor u + t * s.normalD nor δ := by
  unfold Side.normalD
  rw [mul_sum, ← sum_add_distrib]
  exact sum_congr rfl fun k _ => by rw [gradU_lin]; ring

theorem lin_hasDerivAt {f : ℝ → ℝ} {a b : ℝ} (h : ∀ t, f t = a + t * b) : HasDerivAt f b 0 := by
  have : f = fun t => a + t * b := funext h
  rw [this]
  exact (((hasDerivAt_id' (0 : ℝ)).mul_const _).const_add _).congr_deriv (by ring)

theorem at_zero {f : ℝ → ℝ} {a b : ℝ} (h : ∀ t, f t = a + t * b) : f 0 = a := by rw [h]; ring

/-- Directional derivative of the diffusivity. -/
theorem normDot_dot (s : Side P nd dim) (dnu : P → ℝ → ℝ) (ip : P) (u δ : Vec nd) :
    dotv (s.normDot dnu ip u) δ = if |norm2 (s.gradU u)| > 1 / 10 ^ 14 then
      dnu ip (norm2 (s.gradU u)) * (dotv (s.gradU u) (s.gradU δ) / norm2 (s.gradU u)) else 0 := by
  unfold Side.normDot
  rw [flux_eq]
  simp only
  split_ifs with h
  · have e : dotv (mulV s.dxt (s.gradU u)) δ = dotv (s.gradU u) (s.gradU δ) := by
      rw [dotv_comm, dotv_mulV, dotv_comm, ← flux_eq s δ]; rfl
    rw [← e]
    unfold dotv scale addMulV zeroV
    rw [sum_div, mul_sum]
    exact sum_congr rfl fun r _ => by rw [zero_add]; ring
  · unfold dotv scale zeroV; simp

theorem coef_hasDerivAt (s : Side P nd dim) (nu dnu : P → ℝ → ℝ) (ip : P)
    (hnu : ∀ x, HasDerivAt (nu s.eip) (dnu s.eip x) x) (hip : dnu ip = dnu s.eip) (u δ : Vec nd)
    (hu : s.Regular dnu u) :
    HasDerivAt (fun t => s.coef nu (fun q => u q + t * δ q)) (dotv (s.normDot dnu ip u) δ) 0 := by
  rw [normDot_dot, hip]
  have hg : ∀ k, HasDerivAt (fun t => s.gradU (fun q => u q + t * δ q) k) (s.gradU δ k) 0 :=
    fun k => lin_hasDerivAt (fun t => gradU_lin s u δ t k)
  have h0 : s.gradU (fun q => u q + 0 * δ q) = s.gradU u := by
    funext k; rw [gradU_lin]; ring
  unfold Side.coef
  rcases hu with ⟨hz, hd⟩ | hz
  · rw [if_neg (by rw [hz]; norm_num)]
    exact hasDerivAt_comp_norm_of_zero (nu s.eip) _ _ 0 ((hnu 0).congr_deriv hd) hg (by rw [h0]; exact hz)
  · rw [if_pos (by rw [abs_of_nonneg (norm2_nonneg _)]; exact hz)]
    have hne : norm2 (s.gradU u) ≠ 0 := by
      have : (0 : ℝ) < 1 / 10 ^ 14 := by positivity
      linarith
    have hn := hasDerivAt_norm2 (fun t => s.gradU (fun q => u q + t * δ q)) _ 0 hg (by rw [h0]; exact hne)
    refine (HasDerivAt.comp_of_eq (0 : ℝ) (hnu (norm2 (s.gradU u))) hn (by rw [h0])).congr_deriv ?_
    simp only [h0]

/-! ### C124: boundary faces -/

theorem bndBody_apply (alpha mu : ℝ) (nu : P → ℝ → ℝ) (f : FaceP P dim) (s : Side P nd dim) (g : ℝ)
    (u v : Vec nd) (r : Fin nd) :
    bndBody alpha mu nu f s g u v r = v r + alpha * f.w * s.coef nu u *
      (-(s.normalD f.nor u) * s.shape r - (s.trace u - g) * s.dn f.nor r +
        mu * dotv f.nor f.nor / s.W * (s.trace u - g) * s.shape r) := by
  unfold bndBody
  simp only [axpy, val_eq, dn_dot, shape_dot]
  ring

theorem bndVec_apply (alpha mu : ℝ) (nu : P → ℝ → ℝ) (n : ℕ) (f : ℕ → FaceP P dim)
    (s : ℕ → Side P nd dim) (g : ℕ → ℝ) (u : Vec nd) (r : Fin nd) :
    bndVec alpha mu nu n f s g u r = ∑ i ∈ range n, alpha * (f i).w * (s i).coef nu u *
      (-((s i).normalD (f i).nor u) * (s i).shape r - ((s i).trace u - g i) * (s i).dn (f i).nor r +
        mu * dotv (f i).nor (f i).nor / (s i).W * ((s i).trace u - g i) * (s i).shape r) := by
  unfold bndVec
  rw [forN_vec n _ _ (fun i v r => bndBody_apply alpha mu nu (f i) (s i) (g i) u v r)]
  simp [zeroV]

/-- **Weak form (Nitsche).**  Tested with `ψ`, the boundary residual is the quadrature of
`ν (-∂ₙu ψ - (u - g) ∂ₙψ + μ |n|²/det (u - g) ψ)`. -/
theorem C124_weak_form (alpha mu : ℝ) (nu : P → ℝ → ℝ) (n : ℕ) (f : ℕ → FaceP P dim)
    (s : ℕ → Side P nd dim) (g : ℕ → ℝ) (u psi : Vec nd) :
    dotv psi (bndVec alpha mu nu n f s g u) = ∑ i ∈ range n, alpha * (f i).w * (s i).coef nu u *
      (-((s i).normalD (f i).nor u) * (s i).trace psi
        - ((s i).trace u - g i) * (s i).normalD (f i).nor psi
        + mu * dotv (f i).nor (f i).nor / (s i).W * ((s i).trace u - g i) * (s i).trace psi) := by
  have h : bndVec alpha mu nu n f s g u = fun r => ∑ i ∈ range n, alpha * (f i).w * (s i).coef nu u *
      (-((s i).normalD (f i).nor u) * (s i).shape r - ((s i).trace u - g i) * (s i).dn (f i).nor r +
        mu * dotv (f i).nor (f i).nor / (s i).W * ((s i).trace u - g i) * (s i).shape r) := by
    funext r; exact bndVec_apply alpha mu nu n f s g u r
  rw [h, dotv_sum_right]
  refine sum_congr rfl fun i _ => ?_
  rw [← dot_dn (s i) (f i).nor psi]
  unfold Side.trace dotv
  simp only [mul_sum, mul_add, mul_sub, sum_add_distrib, sum_sub_distrib]
  congr 1
  · congr 1
    · exact sum_congr rfl fun r _ => by ring
    · exact sum_congr rfl fun r _ => by ring
  · exact sum_congr rfl fun r _ => by ring

/-- **Consistency.**  Where the function has the imposed boundary value, only the physical flux
`-ν ∂ₙu ψ` remains: no penalty and no spurious term, for every penalty coefficient. -/
theorem C124_consistent (alpha mu : ℝ) (nu : P → ℝ → ℝ) (n : ℕ) (f : ℕ → FaceP P dim)
    (s : ℕ → Side P nd dim) (g : ℕ → ℝ) (u psi : Vec nd) (hg : ∀ i < n, (s i).trace u = g i) :
    dotv psi (bndVec alpha mu nu n f s g u) =
      ∑ i ∈ range n, alpha * (f i).w * (-((s i).coef nu u * (s i).normalD (f i).nor u) * (s i).trace psi) := by
  rw [C124_weak_form]
  refine sum_congr rfl fun i hi => ?_
  rw [hg i (mem_range.1 hi)]
  ring

/-- **Heat through the boundary.**  With shape functions summing to one, the entries of the residual sum
to the physical flux plus the penalty. -/
theorem C124_total (alpha mu : ℝ) (nu : P → ℝ → ℝ) (n : ℕ) (f : ℕ → FaceP P dim)
    (s : ℕ → Side P nd dim) (hs : ∀ i < n, (s i).Unity) (g : ℕ → ℝ) (u : Vec nd) :
    ∑ r, bndVec alpha mu nu n f s g u r = ∑ i ∈ range n, alpha * (f i).w * (s i).coef nu u *
      (-((s i).normalD (f i).nor u) + mu * dotv (f i).nor (f i).nor / (s i).W * ((s i).trace u - g i)) := by
  have h := C124_weak_form alpha mu nu n f s g u (fun _ => 1)
  have h1 : dotv (fun _ => (1 : ℝ)) (bndVec alpha mu nu n f s g u) = ∑ r, bndVec alpha mu nu n f s g u r := by
    simp [dotv]
  rw [← h1, h]
  refine sum_congr rfl fun i hi => ?_
  obtain ⟨ha, hb⟩ := hs i (mem_range.1 hi)
  have e1 : (s i).trace (fun _ => 1) = 1 := by simp [Side.trace, ha]
  have e2 : (s i).normalD (f i).nor (fun _ => 1) = 0 := by
    unfold Side.normalD Side.gradU
    refine sum_eq_zero fun k _ => ?_
    simp only [one_mul]
    rw [sum_comm, sum_eq_zero fun l _ => by rw [← sum_mul, hb l, zero_mul], zero_mul]
  rw [e1, e2]
  ring

/-- **The penalty controls the boundary term.**  With zero boundary value, positive weights and
coefficient, `u·R(u)` is bounded below by minus the weighted square of the normal derivative divided
by the penalty. -/
theorem C124_lower_bound (alpha mu : ℝ) (ha : 0 ≤ alpha) (hmu : 0 < mu) (nu : P → ℝ → ℝ)
    (hnu : ∀ p x, 0 ≤ x → 0 ≤ nu p x) (n : ℕ) (f : ℕ → FaceP P dim) (s : ℕ → Side P nd dim)
    (hw : ∀ i < n, 0 ≤ (f i).w) (hW : ∀ i < n, 0 < (s i).W) (hn : ∀ i < n, 0 < dotv (f i).nor (f i).nor)
    (u : Vec nd) :
    -(∑ i ∈ range n, alpha * (f i).w * (s i).coef nu u *
        (((s i).normalD (f i).nor u) ^ 2 / (mu * dotv (f i).nor (f i).nor / (s i).W))) ≤
      dotv u (bndVec alpha mu nu n f s (fun _ => 0) u) := by
  rw [C124_weak_form, ← sum_neg_distrib]
  refine sum_le_sum fun i hi => ?_
  have hi := mem_range.1 hi
  have h1 := hw i hi
  have h2 := hW i hi
  have h3 := hn i hi
  have h4 : 0 ≤ (s i).coef nu u := hnu _ _ (norm2_nonneg _)
  rw [← mul_neg]
  refine mul_le_mul_of_nonneg_left ?_ (by positivity)
  set a := (s i).normalD (f i).nor u
  set b := (s i).trace u
  have hσ : 0 < mu * dotv (f i).nor (f i).nor / (s i).W := by positivity
  set σ := mu * dotv (f i).nor (f i).nor / (s i).W
  have : 0 ≤ (σ * b - a) ^ 2 / σ := by positivity
  have e : (σ * b - a) ^ 2 / σ = σ * b * b - 2 * a * b + a ^ 2 / σ := by field_simp; ring
  rw [e] at this
  linarith

theorem bndGradBody_apply (alpha mu : ℝ) (nu dnu : P → ℝ → ℝ) (f : FaceP P dim) (s : Side P nd dim)
    (g : ℝ) (u : Vec nd) (M : Mat nd nd) (r c : Fin nd) :
    bndGradBody alpha mu nu dnu f s g u M r c = M r c + alpha * f.w *
      (-(s.coef nu u) * (s.shape r * s.dn f.nor c) - s.normalD f.nor u * (s.shape r * s.normDot dnu f.ip u c)
        - s.coef nu u * (s.dn f.nor r * s.shape c)
        - (s.trace u - g) * (s.dn f.nor r * s.normDot dnu f.ip u c)
        + mu * dotv f.nor f.nor / s.W * (s.coef nu u * (s.shape r * s.shape c) +
          (s.trace u - g) * (s.shape r * s.normDot dnu f.ip u c))) := by
  unfold bndGradBody
  simp only [addVWt, val_eq, dn_dot, shape_dot]
  ring

theorem bndGrad_dir (alpha mu : ℝ) (nu dnu : P → ℝ → ℝ) (n : ℕ) (f : ℕ → FaceP P dim)
    (s : ℕ → Side P nd dim) (g : ℕ → ℝ) (u δ : Vec nd) (r : Fin nd) :
    ∑ c, bndGrad alpha mu nu dnu n f s g u r c * δ c = ∑ i ∈ range n, alpha * (f i).w *
      (-((s i).coef nu u) * ((s i).shape r * (s i).normalD (f i).nor δ)
        - (s i).normalD (f i).nor u * ((s i).shape r * dotv ((s i).normDot dnu (f i).ip u) δ)
        - (s i).coef nu u * ((s i).dn (f i).nor r * (s i).trace δ)
        - ((s i).trace u - g i) * ((s i).dn (f i).nor r * dotv ((s i).normDot dnu (f i).ip u) δ)
        + mu * dotv (f i).nor (f i).nor / (s i).W * ((s i).coef nu u * ((s i).shape r * (s i).trace δ) +
          ((s i).trace u - g i) * ((s i).shape r * dotv ((s i).normDot dnu (f i).ip u) δ))) := by
  unfold bndGrad
  simp only [forN_mat n _ _ (fun i M r c => bndGradBody_apply alpha mu nu dnu (f i) (s i) (g i) u M r c)]
  simp only [zeroM, zero_add, sum_mul]
  rw [sum_comm]
  refine sum_congr rfl fun i _ => ?_
  rw [← dn_dot (s i) (f i).nor δ, ← shape_dot (s i) δ]
  unfold dotv
  generalize (∑ i_1, (f i).nor i_1 * (f i).nor i_1) = nn
  generalize (s i).dn (f i).nor = dn
  generalize (s i).normDot dnu (f i).ip u = nD
  simp only [mul_sum, mul_add, mul_sub, ← sum_add_distrib, ← sum_sub_distrib]
  exact sum_congr rfl fun c _ => by ring

/-- **Jacobian.**  The matrix returned by `AssembleFaceGrad` is the derivative of the residual in every
direction, for diffusivities whose derivative is the same at the face point (where the code evaluates
it) as at the element point. -/
theorem C124_jacobian_partial (alpha mu : ℝ) (nu dnu : P → ℝ → ℝ) (n : ℕ) (f : ℕ → FaceP P dim)
    (s : ℕ → Side P nd dim) (g : ℕ → ℝ) (hnu : ∀ p x, HasDerivAt (nu p) (dnu p x) x)
    (hip : ∀ i < n, dnu (f i).ip = dnu (s i).eip) (u δ : Vec nd)
    (hu : ∀ i < n, (s i).Regular dnu u) (r : Fin nd) :
    HasDerivAt (fun t => bndVec alpha mu nu n f s g (fun q => u q + t * δ q) r)
      (∑ c, bndGrad alpha mu nu dnu n f s g u r c * δ c) 0 := by
  simp only [bndVec_apply, bndGrad_dir]
  refine HasDerivAt.fun_sum fun i hi => ?_
  have hi := mem_range.1 hi
  have hc := coef_hasDerivAt (s i) nu dnu (f i).ip (hnu _) (hip i hi) u δ (hu i hi)
  have ht := lin_hasDerivAt (fun t => trace_lin (s i) u δ t)
  have hn := lin_hasDerivAt (fun t => normalD_lin (s i) (f i).nor u δ t)
  refine ((hc.const_mul (alpha * (f i).w)).fun_mul
    (((hn.fun_neg.mul_const ((s i).shape r)).fun_sub ((ht.sub_const (g i)).mul_const ((s i).dn (f i).nor r))).fun_add
      (((ht.sub_const (g i)).const_mul (mu * dotv (f i).nor (f i).nor / (s i).W)).mul_const
        ((s i).shape r)))).congr_deriv ?_
  have e1 : (s i).coef nu (fun q => u q + 0 * δ q) = (s i).coef nu u := by simp
  rw [e1, at_zero (fun t => trace_lin (s i) u δ t), at_zero (fun t => normalD_lin (s i) (f i).nor u δ t)]
  ring

/-- For a diffusivity that depends on position the Jacobian is wrong: the code evaluates the derivative
of the model at the coordinates of the face point, interpreted in the element. -/
theorem C124_jacobian_false :
    ¬ ∀ (nu dnu : Bool → ℝ → ℝ) (_ : ∀ p x, HasDerivAt (nu p) (dnu p x) x) (f : FaceP Bool 1)
      (s : Side Bool 1 1) (u δ : Vec 1), s.Regular dnu u →
      HasDerivAt (fun t => bndVec 1 1 nu 1 (fun _ => f) (fun _ => s) (fun _ => 0) (fun q => u q + t * δ q) 0)
        (∑ c, bndGrad 1 1 nu dnu 1 (fun _ => f) (fun _ => s) (fun _ => 0) u 0 c * δ c) 0 := by
  intro h
  let nu : Bool → ℝ → ℝ := fun b x => if b then x else 1
  let dnu : Bool → ℝ → ℝ := fun b _ => if b then 1 else 0
  have hd : ∀ p x, HasDerivAt (nu p) (dnu p x) x := by
    intro p x
    cases p
    · exact hasDerivAt_const x 1
    · exact hasDerivAt_id' x
  let s : Side Bool 1 1 := ⟨fun _ => 0, fun _ _ => 1, fun _ _ => 1, 1, true⟩
  let f : FaceP Bool 1 := ⟨1, true, fun _ => 1⟩
  let f' : FaceP Bool 1 := ⟨1, false, fun _ => 1⟩
  have hr : s.Regular dnu fun _ => 1 := by
    right
    simp [Side.gradU, s, norm2, dotv]
    norm_num
  have h1 := h nu dnu hd f' ⟨fun _ => 1, fun _ _ => 1, fun _ _ => 1, 2, true⟩ (fun _ => 1) (fun _ => 1) (by
    right
    simp [Side.gradU, norm2, dotv]
    norm_num)
  have h2 := h nu dnu hd f ⟨fun _ => 1, fun _ _ => 1, fun _ _ => 1, 2, true⟩ (fun _ => 1) (fun _ => 1) (by
    right
    simp [Side.gradU, norm2, dotv]
    norm_num)
  have e : ∀ v, bndVec 1 1 nu 1 (fun _ => f) (fun _ => ⟨fun _ => 1, fun _ _ => 1, fun _ _ => 1, 2, true⟩)
      (fun _ => 0) v 0 = bndVec 1 1 nu 1 (fun _ => f')
      (fun _ => (⟨fun _ => 1, fun _ _ => 1, fun _ _ => 1, 2, true⟩ : Side Bool 1 1)) (fun _ => 0) v 0 := fun _ => rfl
  simp only [e] at h2
  have h3 := h1.unique h2
  rw [bndGrad_dir, bndGrad_dir] at h3
  simp only [normDot_dot] at h3
  simp [Side.coef, Side.normalD, Side.gradU, Side.trace, norm2, dotv, f, f', nu, dnu, Side.dn, mulV, Side.dxt,
    mulM] at h3
  norm_num at h3

/-- **Symmetric** for a diffusivity that does not depend on the gradient. -/
theorem C124_symmetric (alpha mu : ℝ) (nu dnu : P → ℝ → ℝ) (hlin : ∀ p x, dnu p x = 0) (n : ℕ)
    (f : ℕ → FaceP P dim) (s : ℕ → Side P nd dim) (g : ℕ → ℝ) (u : Vec nd) (r c : Fin nd) :
    bndGrad alpha mu nu dnu n f s g u r c = bndGrad alpha mu nu dnu n f s g u c r := by
  unfold bndGrad
  rw [forN_mat n _ _ (fun i M r c => bndGradBody_apply alpha mu nu dnu (f i) (s i) (g i) u M r c),
    forN_mat n _ _ (fun i M r c => bndGradBody_apply alpha mu nu dnu (f i) (s i) (g i) u M r c)]
  congr 1
  refine sum_congr rfl fun i _ => ?_
  have : ∀ k, (s i).normDot dnu (f i).ip u k = 0 := by
    intro k; unfold Side.normDot; simp [scale, hlin]
  rw [this, this]
  ring

/-! ### C125: interior faces -/

/-- Jump `u₁ - u₂` at a face point. -/
def jump (s1 : Side P nd1 dim) (s2 : Side P nd2 dim) (u1 : Vec nd1) (u2 : Vec nd2) : ℝ :=
  s1.trace u1 - s2.trace u2

/-- Mean flux `(ν₁ ∂ₙu₁ + ν₂ ∂ₙu₂)/2`. -/
noncomputable def meanFlux (nu : P → ℝ → ℝ) (nor : Vec dim) (s1 : Side P nd1 dim) (s2 : Side P nd2 dim)
    (u1 : Vec nd1) (u2 : Vec nd2) : ℝ :=
  (s1.coef nu u1 * s1.normalD nor u1 + s2.coef nu u2 * s2.normalD nor u2) / 2

/-- Penalty `μ |n|²/2 (ν₁/det₁ + ν₂/det₂)`. -/
noncomputable def penalty (mu : ℝ) (nu : P → ℝ → ℝ) (nor : Vec dim) (s1 : Side P nd1 dim) (s2 : Side P nd2 dim)
    (u1 : Vec nd1) (u2 : Vec nd2) : ℝ :=
  mu * dotv nor nor / 2 * (s1.coef nu u1 / s1.W + s2.coef nu u2 / s2.W)

theorem forN_pair {α β : Type*} (N : ℕ) (body : ℕ → (α → ℝ) × (β → ℝ) → (α → ℝ) × (β → ℝ))
    (f1 : ℕ → α → ℝ) (f2 : ℕ → β → ℝ)
    (h : ∀ i v, (∀ r, (body i v).1 r = v.1 r + f1 i r) ∧ ∀ r, (body i v).2 r = v.2 r + f2 i r)
    (v : (α → ℝ) × (β → ℝ)) :
    (∀ r, (forN N body v).1 r = v.1 r + ∑ i ∈ range N, f1 i r) ∧
      ∀ r, (forN N body v).2 r = v.2 r + ∑ i ∈ range N, f2 i r := by
  induction N with
  | zero => simp [forN]
  | succ N ih =>
    refine ⟨fun r => ?_, fun r => ?_⟩
    · rw [forN, (h _ _).1, ih.1, sum_range_succ, add_assoc]
    · rw [forN, (h _ _).2, ih.2, sum_range_succ, add_assoc]

/-- Point contribution to the first element. -/
noncomputable def part1 (alpha mu : ℝ) (nu : P → ℝ → ℝ) (f : FaceP P dim) (s1 : Side P nd1 dim)
    (s2 : Side P nd2 dim) (u1 : Vec nd1) (u2 : Vec nd2) (r : Fin nd1) : ℝ :=
  alpha * f.w * (-(meanFlux nu f.nor s1 s2 u1 u2) * s1.shape r -
    jump s1 s2 u1 u2 * (s1.coef nu u1 * s1.dn f.nor r) / 2 +
    penalty mu nu f.nor s1 s2 u1 u2 * jump s1 s2 u1 u2 * s1.shape r)

/-- Point contribution to the second element. -/
noncomputable def part2 (alpha mu : ℝ) (nu : P → ℝ → ℝ) (f : FaceP P dim) (s1 : Side P nd1 dim)
    (s2 : Side P nd2 dim) (u1 : Vec nd1) (u2 : Vec nd2) (r : Fin nd2) : ℝ :=
  alpha * f.w * (meanFlux nu f.nor s1 s2 u1 u2 * s2.shape r -
    jump s1 s2 u1 u2 * (s2.coef nu u2 * s2.dn f.nor r) / 2 -
    penalty mu nu f.nor s1 s2 u1 u2 * jump s1 s2 u1 u2 * s2.shape r)

theorem intVec_apply (alpha mu : ℝ) (nu : P → ℝ → ℝ) (n : ℕ) (f : ℕ → FaceP P dim)
    (s1 : ℕ → Side P nd1 dim) (s2 : ℕ → Side P nd2 dim) (u1 : Vec nd1) (u2 : Vec nd2) :
    (∀ r, (intVec alpha mu nu n f s1 s2 u1 u2).1 r =
      ∑ i ∈ range n, part1 alpha mu nu (f i) (s1 i) (s2 i) u1 u2 r) ∧
    ∀ r, (intVec alpha mu nu n f s1 s2 u1 u2).2 r =
      ∑ i ∈ range n, part2 alpha mu nu (f i) (s1 i) (s2 i) u1 u2 r := by
  have h := forN_pair n (fun i => intBody alpha mu nu (f i) (s1 i) (s2 i) u1 u2)
    (fun i => part1 alpha mu nu (f i) (s1 i) (s2 i) u1 u2)
    (fun i => part2 alpha mu nu (f i) (s1 i) (s2 i) u1 u2) (fun i v => by
      constructor
      all_goals
        intro r
        unfold intBody
        simp only [axpy, val_eq, dn_dot, shape_dot, part1, part2, meanFlux, jump, penalty]
        ring) (zeroV, zeroV)
  constructor
  · intro r; rw [intVec, h.1]; simp [zeroV]
  · intro r; rw [intVec, h.2]; simp [zeroV]

/-- **Weak form (symmetric interior penalty).**  Tested with `(ψ₁, ψ₂)` the interface residual is the
quadrature of `-{ν ∂ₙu}[ψ] - [u]{ν ∂ₙψ} + σ [u][ψ]`. -/
theorem C125_weak_form (alpha mu : ℝ) (nu : P → ℝ → ℝ) (n : ℕ) (f : ℕ → FaceP P dim)
    (s1 : ℕ → Side P nd1 dim) (s2 : ℕ → Side P nd2 dim) (u1 psi1 : Vec nd1) (u2 psi2 : Vec nd2) :
    dotv psi1 (intVec alpha mu nu n f s1 s2 u1 u2).1 + dotv psi2 (intVec alpha mu nu n f s1 s2 u1 u2).2 =
      ∑ i ∈ range n, alpha * (f i).w *
        (-(meanFlux nu (f i).nor (s1 i) (s2 i) u1 u2) * jump (s1 i) (s2 i) psi1 psi2
          - jump (s1 i) (s2 i) u1 u2 * (((s1 i).coef nu u1 * (s1 i).normalD (f i).nor psi1 +
              (s2 i).coef nu u2 * (s2 i).normalD (f i).nor psi2) / 2)
          + penalty mu nu (f i).nor (s1 i) (s2 i) u1 u2 * jump (s1 i) (s2 i) u1 u2 *
              jump (s1 i) (s2 i) psi1 psi2) := by
  have h := intVec_apply alpha mu nu n f s1 s2 u1 u2
  rw [show (intVec alpha mu nu n f s1 s2 u1 u2).1 = fun r => _ from funext h.1,
    show (intVec alpha mu nu n f s1 s2 u1 u2).2 = fun r => _ from funext h.2,
    dotv_sum_right, dotv_sum_right, ← sum_add_distrib]
  refine sum_congr rfl fun i _ => ?_
  have k1 : dotv psi1 (part1 alpha mu nu (f i) (s1 i) (s2 i) u1 u2) = alpha * (f i).w *
      (-(meanFlux nu (f i).nor (s1 i) (s2 i) u1 u2) * (s1 i).trace psi1 -
        jump (s1 i) (s2 i) u1 u2 * ((s1 i).coef nu u1 * (s1 i).normalD (f i).nor psi1) / 2 +
        penalty mu nu (f i).nor (s1 i) (s2 i) u1 u2 * jump (s1 i) (s2 i) u1 u2 * (s1 i).trace psi1) := by
    rw [← dot_dn, ← dot_shape]
    unfold dotv part1
    simp only [mul_sum, mul_add, mul_sub, sum_div, ← sum_add_distrib, ← sum_sub_distrib]
    exact sum_congr rfl fun r _ => by ring
  have k2 : dotv psi2 (part2 alpha mu nu (f i) (s1 i) (s2 i) u1 u2) = alpha * (f i).w *
      (meanFlux nu (f i).nor (s1 i) (s2 i) u1 u2 * (s2 i).trace psi2 -
        jump (s1 i) (s2 i) u1 u2 * ((s2 i).coef nu u2 * (s2 i).normalD (f i).nor psi2) / 2 -
        penalty mu nu (f i).nor (s1 i) (s2 i) u1 u2 * jump (s1 i) (s2 i) u1 u2 * (s2 i).trace psi2) := by
    rw [← dot_dn, ← dot_shape]
    unfold dotv part2
    simp only [mul_sum, mul_sub, sum_div, ← sum_sub_distrib]
    exact sum_congr rfl fun r _ => by ring
  refine (congrArg₂ (· + ·) k1 k2).trans ?_
  unfold jump
  ring

theorem trace_one (s : Side P nd dim) (h : s.Unity) (c : ℝ) : s.trace (fun _ => c) = c := by
  unfold Side.trace; rw [← mul_sum, h.1, mul_one]

theorem gradU_one (s : Side P nd dim) (h : s.Unity) (c : ℝ) (k : Fin dim) : s.gradU (fun _ => c) k = 0 := by
  unfold Side.gradU
  rw [← mul_sum, sum_comm, sum_eq_zero fun l _ => by rw [← sum_mul, h.2 l, zero_mul], mul_zero]

theorem normalD_one (s : Side P nd dim) (h : s.Unity) (nor : Vec dim) (c : ℝ) :
    s.normalD nor (fun _ => c) = 0 := by
  unfold Side.normalD
  exact sum_eq_zero fun k _ => by rw [gradU_one s h, zero_mul]

/-- **Conservation.**  What one element loses through the interface the other gains. -/
theorem C125_conservative (alpha mu : ℝ) (nu : P → ℝ → ℝ) (n : ℕ) (f : ℕ → FaceP P dim)
    (s1 : ℕ → Side P nd1 dim) (s2 : ℕ → Side P nd2 dim) (h1 : ∀ i < n, (s1 i).Unity)
    (h2 : ∀ i < n, (s2 i).Unity) (u1 : Vec nd1) (u2 : Vec nd2) :
    ∑ r, (intVec alpha mu nu n f s1 s2 u1 u2).1 r + ∑ r, (intVec alpha mu nu n f s1 s2 u1 u2).2 r = 0 := by
  have h := C125_weak_form alpha mu nu n f s1 s2 u1 (fun _ => 1) u2 (fun _ => 1)
  have e : ∀ {N : ℕ} (v : Vec N), dotv (fun _ => (1 : ℝ)) v = ∑ r, v r := fun v => by simp [dotv]
  rw [e, e] at h
  rw [h]
  refine sum_eq_zero fun i hi => ?_
  have hi := mem_range.1 hi
  unfold jump
  rw [trace_one _ (h1 i hi), trace_one _ (h2 i hi), normalD_one _ (h1 i hi), normalD_one _ (h2 i hi)]
  ring

/-- **Consistency.**  A function continuous across the face feels no penalty: only the mean physical flux
acts, with opposite sign on the two elements; a common constant gives nothing at all. -/
theorem C125_consistent (alpha mu : ℝ) (nu : P → ℝ → ℝ) (n : ℕ) (f : ℕ → FaceP P dim)
    (s1 : ℕ → Side P nd1 dim) (s2 : ℕ → Side P nd2 dim) (u1 psi1 : Vec nd1) (u2 psi2 : Vec nd2)
    (hc : ∀ i < n, (s1 i).trace u1 = (s2 i).trace u2) :
    dotv psi1 (intVec alpha mu nu n f s1 s2 u1 u2).1 + dotv psi2 (intVec alpha mu nu n f s1 s2 u1 u2).2 =
      ∑ i ∈ range n, alpha * (f i).w * (-(meanFlux nu (f i).nor (s1 i) (s2 i) u1 u2) *
        ((s1 i).trace psi1 - (s2 i).trace psi2)) := by
  rw [C125_weak_form]
  refine sum_congr rfl fun i hi => ?_
  have : jump (s1 i) (s2 i) u1 u2 = 0 := by unfold jump; rw [hc i (mem_range.1 hi), sub_self]
  rw [this]
  unfold jump
  ring

theorem C125_constants (alpha mu : ℝ) (nu : P → ℝ → ℝ) (n : ℕ) (f : ℕ → FaceP P dim)
    (s1 : ℕ → Side P nd1 dim) (s2 : ℕ → Side P nd2 dim) (h1 : ∀ i < n, (s1 i).Unity)
    (h2 : ∀ i < n, (s2 i).Unity) (c : ℝ) :
    (∀ r, (intVec alpha mu nu n f s1 s2 (fun _ => c) fun _ => c).1 r = 0) ∧
      ∀ r, (intVec alpha mu nu n f s1 s2 (fun _ => c) fun _ => c).2 r = 0 := by
  have h := intVec_apply alpha mu nu n f s1 s2 (fun _ => c) fun _ => c
  constructor
  all_goals
    intro r
    first | rw [h.1] | rw [h.2]
    refine sum_eq_zero fun i hi => ?_
    have hi := mem_range.1 hi
    simp only [part1, part2, meanFlux, jump, trace_one _ (h1 i hi), trace_one _ (h2 i hi),
      normalD_one _ (h1 i hi), normalD_one _ (h2 i hi)]
    ring

/-- **The penalty controls the interface terms**, for coefficients that are positive. -/
theorem C125_lower_bound (alpha mu : ℝ) (ha : 0 ≤ alpha) (hmu : 0 < mu) (nu : P → ℝ → ℝ)
    (hnu : ∀ p x, 0 ≤ x → 0 < nu p x) (n : ℕ) (f : ℕ → FaceP P dim) (s1 : ℕ → Side P nd1 dim)
    (s2 : ℕ → Side P nd2 dim) (hw : ∀ i < n, 0 ≤ (f i).w) (hW1 : ∀ i < n, 0 < (s1 i).W)
    (hW2 : ∀ i < n, 0 < (s2 i).W) (hn : ∀ i < n, 0 < dotv (f i).nor (f i).nor) (u1 : Vec nd1)
    (u2 : Vec nd2) :
    -(∑ i ∈ range n, alpha * (f i).w * (meanFlux nu (f i).nor (s1 i) (s2 i) u1 u2 ^ 2 /
        penalty mu nu (f i).nor (s1 i) (s2 i) u1 u2)) ≤
      dotv u1 (intVec alpha mu nu n f s1 s2 u1 u2).1 + dotv u2 (intVec alpha mu nu n f s1 s2 u1 u2).2 := by
  rw [C125_weak_form, ← sum_neg_distrib]
  refine sum_le_sum fun i hi => ?_
  have hi := mem_range.1 hi
  have h1 := hw i hi
  have h2 := hW1 i hi
  have h2' := hW2 i hi
  have h3 := hn i hi
  have h4 : 0 < (s1 i).coef nu u1 := hnu _ _ (norm2_nonneg _)
  have h5 : 0 < (s2 i).coef nu u2 := hnu _ _ (norm2_nonneg _)
  rw [← mul_neg]
  refine mul_le_mul_of_nonneg_left ?_ (by positivity)
  have hσ : 0 < penalty mu nu (f i).nor (s1 i) (s2 i) u1 u2 := by unfold penalty; positivity
  set σ := penalty mu nu (f i).nor (s1 i) (s2 i) u1 u2
  change _ ≤ -(meanFlux nu (f i).nor (s1 i) (s2 i) u1 u2) * jump (s1 i) (s2 i) u1 u2 -
    jump (s1 i) (s2 i) u1 u2 * meanFlux nu (f i).nor (s1 i) (s2 i) u1 u2 + _
  set a := meanFlux nu (f i).nor (s1 i) (s2 i) u1 u2
  set b := jump (s1 i) (s2 i) u1 u2
  have : 0 ≤ (σ * b - a) ^ 2 / σ := by positivity
  have e : (σ * b - a) ^ 2 / σ = σ * b * b - 2 * a * b + a ^ 2 / σ := by field_simp; ring
  rw [e] at this
  linarith

/-- **Independent of the numbering of the two elements.**  Exchanging the elements and reversing the
normal exchanges the two parts of the residual. -/
theorem C125_orientation (alpha mu : ℝ) (nu : P → ℝ → ℝ) (n : ℕ) (f : ℕ → FaceP P dim)
    (s1 : ℕ → Side P nd1 dim) (s2 : ℕ → Side P nd2 dim) (u1 : Vec nd1) (u2 : Vec nd2) :
    intVec alpha mu nu n (fun i => ⟨(f i).w, (f i).ip, fun k => -(f i).nor k⟩) s2 s1 u2 u1 =
      ((intVec alpha mu nu n f s1 s2 u1 u2).2, (intVec alpha mu nu n f s1 s2 u1 u2).1) := by
  have h := intVec_apply alpha mu nu n f s1 s2 u1 u2
  have h' := intVec_apply alpha mu nu n (fun i => (⟨(f i).w, (f i).ip, fun k => -(f i).nor k⟩ : FaceP P dim))
    s2 s1 u2 u1
  have hN : ∀ {N : ℕ} (s : Side P N dim) (nor : Vec dim) (u : Vec N),
      s.normalD (fun k => -nor k) u = -s.normalD nor u := by
    intro N s nor u
    unfold Side.normalD
    rw [← sum_neg_distrib]
    exact sum_congr rfl fun k _ => by ring
  have hD : ∀ {N : ℕ} (s : Side P N dim) (nor : Vec dim) (r : Fin N),
      s.dn (fun k => -nor k) r = -s.dn nor r := by
    intro N s nor r
    unfold Side.dn mulV
    rw [← sum_neg_distrib]
    exact sum_congr rfl fun k _ => by ring
  have hP : ∀ nor : Vec dim, dotv (fun k => -nor k) (fun k => -nor k) = dotv nor nor := by
    intro nor
    exact sum_congr rfl fun k _ => by ring
  refine Prod.ext (funext fun r => ?_) (funext fun r => ?_)
  · rw [h'.1]
    refine Eq.trans ?_ (h.2 r).symm
    refine sum_congr rfl fun i _ => ?_
    simp only [part1, part2, meanFlux, jump, penalty, hN, hD, hP]
    ring
  · rw [h'.2]
    refine Eq.trans ?_ (h.1 r).symm
    refine sum_congr rfl fun i _ => ?_
    simp only [part1, part2, meanFlux, jump, penalty, hN, hD, hP]
    ring

/-! Jacobian -/

theorem adds_block (a b r0 c0 : ℕ) (x : ℕ → ℕ → ℝ) :
    Adds (forN a (fun j => forN b (fun k => addAt2 (j + r0) (k + c0) (x j k))))
      (fun q p => if r0 ≤ q ∧ q < r0 + a ∧ c0 ≤ p ∧ p < c0 + b then x (q - r0) (p - c0) else 0) := by
  have h : Adds (forN a (fun j => forN b (fun k => addAt2 (j + r0) (k + c0) (x j k))))
      (∑ j ∈ range a, ∑ k ∈ range b, fun q p => if q = j + r0 ∧ p = k + c0 then x j k else 0) :=
    Adds.forN fun _ _ => Adds.forN fun _ _ => adds_addAt2 _ _ _
  convert h using 1
  funext q p
  simp only [Finset.sum_apply]
  split_ifs with hc
  · rw [sum_eq_single (q - r0), sum_eq_single (p - c0)]
    · rw [if_pos ⟨by omega, by omega⟩]
    · intro k _ hk; rw [if_neg (by omega)]
    · intro hk; exact absurd (mem_range.2 (by omega)) hk
    · intro j _ hj
      exact sum_eq_zero fun k _ => by rw [if_neg (by omega)]
    · intro hk; exact absurd (mem_range.2 (by omega)) hk
  · symm
    refine sum_eq_zero fun j hj => sum_eq_zero fun k hk => ?_
    rw [mem_range] at hj hk
    rw [if_neg (by omega)]

/-- Entry of the interface Jacobian in terms of blocks. -/
noncomputable def blockAt (B : Mat nd1 nd1 × Mat nd1 nd2 × Mat nd2 nd1 × Mat nd2 nd2) (q p : ℕ) : ℝ :=
  if q < nd1 then (if p < nd1 then ent B.1 q p else ent B.2.1 q (p - nd1))
  else (if p < nd1 then ent B.2.2.1 (q - nd1) p else ent B.2.2.2 (q - nd1) (p - nd1))

theorem insertBlocks_apply (B : Mat nd1 nd1 × Mat nd1 nd2 × Mat nd2 nd1 × Mat nd2 nd2)
    (M : ℕ → ℕ → ℝ) (q p : ℕ) (hq : q < nd1 + nd2) (hp : p < nd1 + nd2) :
    insertBlocks B M q p = M q p + blockAt B q p := by
  have hm : Adds (forN nd1 (fun j => forN nd2 (fun k M =>
      addAt2 (k + nd1) j (ent B.2.2.1 k j) (addAt2 j (k + nd1) (ent B.2.1 j k) M))))
      (∑ j ∈ range nd1, ∑ k ∈ range nd2, ((fun q p => if q = j ∧ p = k + nd1 then ent B.2.1 j k else 0) +
        fun q p => if q = k + nd1 ∧ p = j then ent B.2.2.1 k j else 0)) :=
    Adds.forN fun j _ => Adds.forN fun k _ =>
      Adds.comp (b₁ := addAt2 j (k + nd1) (ent B.2.1 j k)) (b₂ := addAt2 (k + nd1) j (ent B.2.2.1 k j))
        (adds_addAt2 _ _ _) (adds_addAt2 _ _ _)
  have h1 := adds_block nd1 nd1 0 0 (fun j k => ent B.1 j k)
  have h2 := adds_block nd2 nd2 nd1 nd1 (fun j k => ent B.2.2.2 j k)
  simp only [add_zero] at h1
  unfold insertBlocks
  rw [h2.apply, hm.apply, h1.apply]
  simp only [Pi.add_apply, Finset.sum_apply, sum_add_distrib]
  unfold blockAt
  have z1 : ∀ (c : ℕ → ℕ → ℝ), q ≥ nd1 ∨ p < nd1 →
      ∑ j ∈ range nd1, ∑ k ∈ range nd2, (if q = j ∧ p = k + nd1 then c j k else 0) = 0 := by
    intro c hc
    refine sum_eq_zero fun j hj => sum_eq_zero fun k _ => ?_
    rw [mem_range] at hj
    rw [if_neg (by omega)]
  have z2 : ∀ (c : ℕ → ℕ → ℝ), q < nd1 ∨ p ≥ nd1 →
      ∑ j ∈ range nd1, ∑ k ∈ range nd2, (if q = k + nd1 ∧ p = j then c k j else 0) = 0 := by
    intro c hc
    refine sum_eq_zero fun j hj => sum_eq_zero fun k _ => ?_
    rw [mem_range] at hj
    rw [if_neg (by omega)]
  have v1 : ∀ (c : ℕ → ℕ → ℝ), q < nd1 → nd1 ≤ p →
      ∑ j ∈ range nd1, ∑ k ∈ range nd2, (if q = j ∧ p = k + nd1 then c j k else 0) = c q (p - nd1) := by
    intro c ha hb
    rw [sum_eq_single q, sum_eq_single (p - nd1)]
    · rw [if_pos ⟨rfl, by omega⟩]
    · intro k _ hk; rw [if_neg (by omega)]
    · intro hk; exact absurd (mem_range.2 (by omega)) hk
    · intro j _ hj; exact sum_eq_zero fun k _ => by rw [if_neg (by omega)]
    · intro hk; exact absurd (mem_range.2 (by omega)) hk
  have v2 : ∀ (c : ℕ → ℕ → ℝ), nd1 ≤ q → p < nd1 →
      ∑ j ∈ range nd1, ∑ k ∈ range nd2, (if q = k + nd1 ∧ p = j then c k j else 0) = c (q - nd1) p := by
    intro c ha hb
    rw [sum_eq_single p, sum_eq_single (q - nd1)]
    · rw [if_pos ⟨by omega, rfl⟩]
    · intro k _ hk; rw [if_neg (by omega)]
    · intro hk; exact absurd (mem_range.2 (by omega)) hk
    · intro j _ hj; exact sum_eq_zero fun k _ => by rw [if_neg (by omega)]
    · intro hk; exact absurd (mem_range.2 (by omega)) hk
  by_cases hq1 : q < nd1 <;> by_cases hp1 : p < nd1
  · rw [if_pos hq1, if_pos hp1, z1 _ (Or.inr hp1), z2 _ (Or.inl hq1), if_pos (by omega), if_neg (by omega)]
    simp
  · rw [if_pos hq1, if_neg hp1, v1 _ hq1 (by omega), z2 _ (Or.inl hq1), if_neg (by omega), if_neg (by omega)]
    simp
  · rw [if_neg hq1, if_pos hp1, z1 _ (Or.inr hp1), v2 _ (by omega) hp1, if_neg (by omega), if_neg (by omega)]
    simp
  · rw [if_neg hq1, if_neg hp1, z1 _ (Or.inl (by omega)), z2 _ (Or.inr (by omega)), if_neg (by omega),
      if_pos (by omega)]
    simp

theorem intGrad_apply (alpha mu : ℝ) (nu dnu : P → ℝ → ℝ) (n : ℕ) (f : ℕ → FaceP P dim)
    (s1 : ℕ → Side P nd1 dim) (s2 : ℕ → Side P nd2 dim) (u1 : Vec nd1) (u2 : Vec nd2) (q p : ℕ)
    (hq : q < nd1 + nd2) (hp : p < nd1 + nd2) :
    intGrad alpha mu nu dnu n f s1 s2 u1 u2 q p =
      ∑ i ∈ range n, blockAt (intBlocks alpha mu nu dnu (f i) (s1 i) (s2 i) u1 u2) q p := by
  unfold intGrad
  induction n with
  | zero => simp [forN]
  | succ N ih => rw [forN, insertBlocks_apply _ _ _ _ hq hp, ih, sum_range_succ]

theorem ent_fin {a b : ℕ} (B : Mat a b) (j : Fin a) (k : Fin b) : ent B j k = B j k := by
  unfold ent; rw [dif_pos ⟨j.2, k.2⟩]

theorem blockAt_11 (B : Mat nd1 nd1 × Mat nd1 nd2 × Mat nd2 nd1 × Mat nd2 nd2) (j k : Fin nd1) :
    blockAt B j k = B.1 j k := by
  unfold blockAt; rw [if_pos j.2, if_pos k.2, ent_fin]

theorem blockAt_12 (B : Mat nd1 nd1 × Mat nd1 nd2 × Mat nd2 nd1 × Mat nd2 nd2) (j : Fin nd1) (k : Fin nd2) :
    blockAt B j (nd1 + k) = B.2.1 j k := by
  unfold blockAt
  rw [if_pos j.2, if_neg (by omega), Nat.add_sub_cancel_left, ent_fin]

theorem blockAt_21 (B : Mat nd1 nd1 × Mat nd1 nd2 × Mat nd2 nd1 × Mat nd2 nd2) (j : Fin nd2) (k : Fin nd1) :
    blockAt B (nd1 + j) k = B.2.2.1 j k := by
  unfold blockAt
  rw [if_neg (by omega), if_pos k.2, Nat.add_sub_cancel_left, ent_fin]

theorem blockAt_22 (B : Mat nd1 nd1 × Mat nd1 nd2 × Mat nd2 nd1 × Mat nd2 nd2) (j k : Fin nd2) :
    blockAt B (nd1 + j) (nd1 + k) = B.2.2.2 j k := by
  unfold blockAt
  rw [if_neg (by omega), if_neg (by omega), Nat.add_sub_cancel_left, Nat.add_sub_cancel_left, ent_fin]

theorem addVWt_dot {a b : ℕ} (c : ℝ) (v : Vec a) (w : Vec b) (M : Mat a b) (r : Fin a) (δ : Vec b) :
    ∑ k, addVWt c v w M r k * δ k = ∑ k, M r k * δ k + c * v r * dotv w δ := by
  unfold addVWt dotv
  rw [mul_sum, ← sum_add_distrib]
  exact sum_congr rfl fun k _ => by ring

theorem zeroM_dot {a b : ℕ} (r : Fin a) (δ : Vec b) : ∑ k, (zeroM : Mat a b) r k * δ k = 0 := by
  simp [zeroM]

/-- **Jacobian.**  The matrix `AssembleFaceGrad` returns is the derivative of both parts of the interface
residual with respect to both elements' states, in every direction, for diffusivities whose derivative
is the same at the face point (where the code evaluates it) as at the element points. -/
theorem C125_jacobian_partial (alpha mu : ℝ) (nu dnu : P → ℝ → ℝ) (n : ℕ) (f : ℕ → FaceP P dim)
    (s1 : ℕ → Side P nd1 dim) (s2 : ℕ → Side P nd2 dim) (hnu : ∀ p x, HasDerivAt (nu p) (dnu p x) x)
    (hip1 : ∀ i < n, dnu (f i).ip = dnu (s1 i).eip) (hip2 : ∀ i < n, dnu (f i).ip = dnu (s2 i).eip)
    (u1 δ1 : Vec nd1) (u2 δ2 : Vec nd2) (hu1 : ∀ i < n, (s1 i).Regular dnu u1)
    (hu2 : ∀ i < n, (s2 i).Regular dnu u2) :
    (∀ r : Fin nd1, HasDerivAt (fun t => (intVec alpha mu nu n f s1 s2 (fun q => u1 q + t * δ1 q)
        (fun q => u2 q + t * δ2 q)).1 r)
      (∑ c : Fin nd1, intGrad alpha mu nu dnu n f s1 s2 u1 u2 r c * δ1 c +
        ∑ c : Fin nd2, intGrad alpha mu nu dnu n f s1 s2 u1 u2 r (nd1 + c) * δ2 c) 0) ∧
    ∀ r : Fin nd2, HasDerivAt (fun t => (intVec alpha mu nu n f s1 s2 (fun q => u1 q + t * δ1 q)
        (fun q => u2 q + t * δ2 q)).2 r)
      (∑ c : Fin nd1, intGrad alpha mu nu dnu n f s1 s2 u1 u2 (nd1 + r) c * δ1 c +
        ∑ c : Fin nd2, intGrad alpha mu nu dnu n f s1 s2 u1 u2 (nd1 + r) (nd1 + c) * δ2 c) 0 := by
  have key : ∀ i < n,
      HasDerivAt (fun t => (s1 i).coef nu (fun q => u1 q + t * δ1 q)) (dotv ((s1 i).normDot dnu (f i).ip u1) δ1) 0 ∧
      HasDerivAt (fun t => (s2 i).coef nu (fun q => u2 q + t * δ2 q)) (dotv ((s2 i).normDot dnu (f i).ip u2) δ2) 0 ∧
      HasDerivAt (fun t => jump (s1 i) (s2 i) (fun q => u1 q + t * δ1 q) (fun q => u2 q + t * δ2 q))
        ((s1 i).trace δ1 - (s2 i).trace δ2) 0 ∧
      HasDerivAt (fun t => meanFlux nu (f i).nor (s1 i) (s2 i) (fun q => u1 q + t * δ1 q) (fun q => u2 q + t * δ2 q))
        ((dotv ((s1 i).normDot dnu (f i).ip u1) δ1 * (s1 i).normalD (f i).nor u1 +
          (s1 i).coef nu u1 * (s1 i).normalD (f i).nor δ1 +
          (dotv ((s2 i).normDot dnu (f i).ip u2) δ2 * (s2 i).normalD (f i).nor u2 +
          (s2 i).coef nu u2 * (s2 i).normalD (f i).nor δ2)) / 2) 0 ∧
      HasDerivAt (fun t => penalty mu nu (f i).nor (s1 i) (s2 i) (fun q => u1 q + t * δ1 q) (fun q => u2 q + t * δ2 q))
        (mu * dotv (f i).nor (f i).nor / 2 * (dotv ((s1 i).normDot dnu (f i).ip u1) δ1 / (s1 i).W +
          dotv ((s2 i).normDot dnu (f i).ip u2) δ2 / (s2 i).W)) 0 := by
    intro i hi
    have c1 := coef_hasDerivAt (s1 i) nu dnu (f i).ip (hnu _) (hip1 i hi) u1 δ1 (hu1 i hi)
    have c2 := coef_hasDerivAt (s2 i) nu dnu (f i).ip (hnu _) (hip2 i hi) u2 δ2 (hu2 i hi)
    have t1 := lin_hasDerivAt (fun t => trace_lin (s1 i) u1 δ1 t)
    have t2 := lin_hasDerivAt (fun t => trace_lin (s2 i) u2 δ2 t)
    have n1 := lin_hasDerivAt (fun t => normalD_lin (s1 i) (f i).nor u1 δ1 t)
    have n2 := lin_hasDerivAt (fun t => normalD_lin (s2 i) (f i).nor u2 δ2 t)
    refine ⟨c1, c2, t1.fun_sub t2, ?_, ?_⟩
    · refine (((c1.fun_mul n1).fun_add (c2.fun_mul n2)).div_const 2).congr_deriv ?_
      rw [at_zero (fun t => normalD_lin (s1 i) (f i).nor u1 δ1 t),
        at_zero (fun t => normalD_lin (s2 i) (f i).nor u2 δ2 t)]
      simp
    · exact (((c1.div_const (s1 i).W).fun_add (c2.div_const (s2 i).W)).const_mul _)
  have z1 : (fun q => u1 q + 0 * δ1 q) = u1 := by funext q; ring
  have z2 : (fun q => u2 q + 0 * δ2 q) = u2 := by funext q; ring
  constructor
  · intro r
    have hr : (r : ℕ) < nd1 + nd2 := by omega
    simp only [fun a b => (intVec_apply alpha mu nu n f s1 s2 a b).1 r]
    have e1 : ∀ c : Fin nd1, intGrad alpha mu nu dnu n f s1 s2 u1 u2 r c =
        ∑ i ∈ range n, (intBlocks alpha mu nu dnu (f i) (s1 i) (s2 i) u1 u2).1 r c := fun c => by
      rw [intGrad_apply _ _ _ _ _ _ _ _ _ _ _ _ hr (by omega)]
      exact sum_congr rfl fun i _ => blockAt_11 _ _ _
    have e2 : ∀ c : Fin nd2, intGrad alpha mu nu dnu n f s1 s2 u1 u2 r (nd1 + c) =
        ∑ i ∈ range n, (intBlocks alpha mu nu dnu (f i) (s1 i) (s2 i) u1 u2).2.1 r c := fun c => by
      rw [intGrad_apply _ _ _ _ _ _ _ _ _ _ _ _ hr (by omega)]
      exact sum_congr rfl fun i _ => blockAt_12 _ _ _
    simp only [e1, e2, sum_mul]
    rw [sum_comm, sum_comm (s := univ (α := Fin nd2)), ← sum_add_distrib]
    refine HasDerivAt.fun_sum fun i hi => ?_
    obtain ⟨c1, c2, j, mf, pe⟩ := key i (mem_range.1 hi)
    unfold part1
    refine ((((mf.fun_neg.mul_const _).fun_sub ((j.fun_mul (c1.mul_const _)).div_const 2)).fun_add
      ((pe.fun_mul j).mul_const _)).const_mul _).congr_deriv ?_
    rw [z1, z2]
    unfold intBlocks
    simp only [addVWt_dot, zeroM_dot, val_eq, dn_dot, shape_dot]
    unfold jump penalty
    ring
  · intro r
    have hr : nd1 + (r : ℕ) < nd1 + nd2 := by omega
    simp only [fun a b => (intVec_apply alpha mu nu n f s1 s2 a b).2 r]
    have e1 : ∀ c : Fin nd1, intGrad alpha mu nu dnu n f s1 s2 u1 u2 (nd1 + r) c =
        ∑ i ∈ range n, (intBlocks alpha mu nu dnu (f i) (s1 i) (s2 i) u1 u2).2.2.1 r c := fun c => by
      rw [intGrad_apply _ _ _ _ _ _ _ _ _ _ _ _ hr (by omega)]
      exact sum_congr rfl fun i _ => blockAt_21 _ _ _
    have e2 : ∀ c : Fin nd2, intGrad alpha mu nu dnu n f s1 s2 u1 u2 (nd1 + r) (nd1 + c) =
        ∑ i ∈ range n, (intBlocks alpha mu nu dnu (f i) (s1 i) (s2 i) u1 u2).2.2.2 r c := fun c => by
      rw [intGrad_apply _ _ _ _ _ _ _ _ _ _ _ _ hr (by omega)]
      exact sum_congr rfl fun i _ => blockAt_22 _ _ _
    simp only [e1, e2, sum_mul]
    rw [sum_comm, sum_comm (s := univ (α := Fin nd2)), ← sum_add_distrib]
    refine HasDerivAt.fun_sum fun i hi => ?_
    obtain ⟨c1, c2, j, mf, pe⟩ := key i (mem_range.1 hi)
    unfold part2
    refine ((((mf.mul_const _).fun_sub ((j.fun_mul (c2.mul_const _)).div_const 2)).fun_sub
      ((pe.fun_mul j).mul_const _)).const_mul _).congr_deriv ?_
    rw [z1, z2]
    unfold intBlocks
    simp only [addVWt_dot, zeroM_dot, val_eq, dn_dot, shape_dot]
    unfold jump penalty
    ring

/-- **Symmetric** for a diffusivity that does not depend on the gradient. -/
theorem C125_symmetric (alpha mu : ℝ) (nu dnu : P → ℝ → ℝ) (hlin : ∀ p x, dnu p x = 0) (n : ℕ)
    (f : ℕ → FaceP P dim) (s1 : ℕ → Side P nd1 dim) (s2 : ℕ → Side P nd2 dim) (u1 : Vec nd1)
    (u2 : Vec nd2) (q p : ℕ) (hq : q < nd1 + nd2) (hp : p < nd1 + nd2) :
    intGrad alpha mu nu dnu n f s1 s2 u1 u2 q p = intGrad alpha mu nu dnu n f s1 s2 u1 u2 p q := by
  rw [intGrad_apply _ _ _ _ _ _ _ _ _ _ _ _ hq hp, intGrad_apply _ _ _ _ _ _ _ _ _ _ _ _ hp hq]
  refine sum_congr rfl fun i _ => ?_
  have hz : ∀ {N : ℕ} (s : Side P N dim) (u : Vec N) k, s.normDot dnu (f i).ip u k = 0 := by
    intro N s u k; unfold Side.normDot; simp [scale, hlin]
  have h11 : ∀ j k, (intBlocks alpha mu nu dnu (f i) (s1 i) (s2 i) u1 u2).1 j k =
      (intBlocks alpha mu nu dnu (f i) (s1 i) (s2 i) u1 u2).1 k j := by
    intro j k; unfold intBlocks; simp only [addVWt, zeroM, hz]; ring
  have h22 : ∀ j k, (intBlocks alpha mu nu dnu (f i) (s1 i) (s2 i) u1 u2).2.2.2 j k =
      (intBlocks alpha mu nu dnu (f i) (s1 i) (s2 i) u1 u2).2.2.2 k j := by
    intro j k; unfold intBlocks; simp only [addVWt, zeroM, hz]; ring
  have h12 : ∀ j k, (intBlocks alpha mu nu dnu (f i) (s1 i) (s2 i) u1 u2).2.1 j k =
      (intBlocks alpha mu nu dnu (f i) (s1 i) (s2 i) u1 u2).2.2.1 k j := by
    intro j k; unfold intBlocks; simp only [addVWt, zeroM, hz]; ring
  by_cases hq1 : q < nd1 <;> by_cases hp1 : p < nd1
  · exact (blockAt_11 _ ⟨q, hq1⟩ ⟨p, hp1⟩).trans ((h11 _ _).trans (blockAt_11 _ ⟨p, hp1⟩ ⟨q, hq1⟩).symm)
  · obtain ⟨b, rfl⟩ := Nat.exists_eq_add_of_le (not_lt.1 hp1)
    exact (blockAt_12 _ ⟨q, hq1⟩ ⟨b, by omega⟩).trans ((h12 _ _).trans (blockAt_21 _ ⟨b, by omega⟩ ⟨q, hq1⟩).symm)
  · obtain ⟨b, rfl⟩ := Nat.exists_eq_add_of_le (not_lt.1 hq1)
    exact (blockAt_21 _ ⟨b, by omega⟩ ⟨p, hp1⟩).trans ((h12 _ _).symm.trans (blockAt_12 _ ⟨p, hp1⟩ ⟨b, by omega⟩).symm)
  · obtain ⟨a, rfl⟩ := Nat.exists_eq_add_of_le (not_lt.1 hq1)
    obtain ⟨b, rfl⟩ := Nat.exists_eq_add_of_le (not_lt.1 hp1)
    exact (blockAt_22 _ ⟨a, by omega⟩ ⟨b, by omega⟩).trans ((h22 _ _).trans
      (blockAt_22 _ ⟨b, by omega⟩ ⟨a, by omega⟩).symm)

/-- Non-vacuity: two linear segments meeting at a point; the shape functions sum to one, the jump is
nonzero and the residual does not vanish. -/
example : ∃ (s1 s2 : Side Unit 2 1), s1.Unity ∧ s2.Unity ∧
    (intVec 1 10 (fun _ _ => 1) 1 (fun _ => ⟨1, (), fun _ => 1⟩) (fun _ => s1) (fun _ => s2)
      (fun r => if r = 0 then 0 else 1) (fun _ => 0)).1 1 = 9 := by
  refine ⟨⟨fun r => if r = 0 then 0 else 1, fun r _ => if r = 0 then -1 else 1, fun _ _ => 1, 1, ()⟩,
    ⟨fun r => if r = 0 then 1 else 0, fun r _ => if r = 0 then -1 else 1, fun _ _ => 1, 1, ()⟩, ?_, ?_, ?_⟩
  · constructor <;> simp [Fin.sum_univ_two]
  · constructor <;> simp [Fin.sum_univ_two]
  · rw [(intVec_apply _ _ _ _ _ _ _ _ _).1]
    simp [part1, meanFlux, jump, penalty, Side.coef, Side.normalD, Side.gradU, Side.trace, Side.dn, mulV, Side.dxt,
      mulM, dotv, Fin.sum_univ_two]
    norm_num

/-- For a diffusivity that depends on position the interface Jacobian is wrong: the code evaluates the derivative of the model at the
coordinates of the face point. -/
theorem C125_jacobian_false :
    ¬ ∀ (nu dnu : Bool → ℝ → ℝ) (_ : ∀ p x, HasDerivAt (nu p) (dnu p x) x) (f : FaceP Bool 1)
      (s1 s2 : Side Bool 1 1) (u1 u2 δ : Vec 1), s1.Regular dnu u1 → s2.Regular dnu u2 →
      HasDerivAt (fun t => (intVec 1 1 nu 1 (fun _ => f) (fun _ => s1) (fun _ => s2) (fun q => u1 q + t * δ q) u2).1 0)
        (∑ c : Fin 1, intGrad 1 1 nu dnu 1 (fun _ => f) (fun _ => s1) (fun _ => s2) u1 u2 0 c * δ c) 0 := by
  intro h
  let nu : Bool → ℝ → ℝ := fun b x => if b then x else 1
  let dnu : Bool → ℝ → ℝ := fun b _ => if b then 1 else 0
  have hd : ∀ p x, HasDerivAt (nu p) (dnu p x) x := by
    intro p x
    cases p
    · exact hasDerivAt_const x 1
    · exact hasDerivAt_id' x
  let s1 : Side Bool 1 1 := ⟨fun _ => 1, fun _ _ => 1, fun _ _ => 1, 2, true⟩
  let s2 : Side Bool 1 1 := ⟨fun _ => 1, fun _ _ => 0, fun _ _ => 1, 1, false⟩
  let f : FaceP Bool 1 := ⟨1, true, fun _ => 1⟩
  let f' : FaceP Bool 1 := ⟨1, false, fun _ => 1⟩
  have hr1 : s1.Regular dnu fun _ => 1 := by
    right
    simp [Side.gradU, s1, norm2, dotv]
    norm_num
  have hr2 : s2.Regular dnu fun _ => 0 := by
    left
    simp [Side.gradU, s2, norm2, dotv, dnu]
  have h1 := h nu dnu hd f s1 s2 (fun _ => 1) (fun _ => 0) (fun _ => 1) hr1 hr2
  have h2 := h nu dnu hd f' s1 s2 (fun _ => 1) (fun _ => 0) (fun _ => 1) hr1 hr2
  have e : ∀ v, (intVec 1 1 nu 1 (fun _ => f') (fun _ => s1) (fun _ => s2) v fun _ => 0).1 0 =
      (intVec 1 1 nu 1 (fun _ => f) (fun _ => s1) (fun _ => s2) v fun _ => 0).1 0 := fun _ => rfl
  simp only [e] at h2
  have h3 := h1.unique h2
  have hg : ∀ g : FaceP Bool 1, intGrad 1 1 nu dnu 1 (fun _ => g) (fun _ => s1) (fun _ => s2) (fun _ => 1) (fun _ => 0) 0 0 =
      (intBlocks 1 1 nu dnu g s1 s2 (fun _ => 1) fun _ => 0).1 0 0 := by
    intro g
    rw [intGrad_apply _ _ _ _ 1 _ _ _ _ _ 0 0 (by norm_num) (by norm_num), sum_range_one]
    exact blockAt_11 _ 0 0
  simp only [Fin.sum_univ_one, mul_one, Fin.val_zero] at h3
  rw [hg, hg] at h3
  simp [intBlocks, addVWt, zeroM, Side.normDot, Side.flux, Side.val, norm2, dotv, f, f', s1, s2, nu, dnu, Side.dn, mulV, Side.dxt,
    mulM, mulTV, scale] at h3
  norm_num [addMulV, mulV, mulTV, mulM, zeroV] at h3

end Verif.DGDiffusion
