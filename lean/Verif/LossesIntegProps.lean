import Verif.LossesProps
import Verif.DiffusionSensProps

/-!
Properties C129 (element integrals of the DC and AC loss functionals), C130 (loss distributions) and
C131 (the two agree in total).
-/

namespace Verif.Losses
open Finset Verif.Sbp Verif.Dense Verif.Quotient Verif.Diffusion

set_option linter.unusedSimpArgs false
set_option linter.unusedSectionVars false

variable {nt nf m dim n : ℕ}

/-! ### Specification -/

/-- Specification: `rev x` is the adjoint (applied to `x`) of a quantity whose derivative along the
motion `δ` of the `m` mesh nodes is `d`. -/
def AdjOf (m dim : ℕ) (δ : ℕ → ℝ) (rev : ℝ → ℕ → ℕ → ℝ) (d : ℝ) : Prop :=
  ∀ x, ∑ k ∈ range dim, ∑ j ∈ range m, rev x k j * δ (k * m + j) = x * d

/-- Specification: the quadrature points after a motion by `t`. -/
noncomputable def lpts (μ : Motion n dim m) (w : ℕ → ℝ) (tsh : ℕ → Vec nt) (fsh : ℕ → ℝ → Vec nf) (t : ℝ)
    (i : ℕ) : LPt nt nf := ⟨w i, μ.J i t, tsh i, fsh i t⟩

theorem forN_real (N : ℕ) (f : ℕ → ℝ) (s : ℝ) : forN N (fun i s => s + f i) s = s + ∑ i ∈ range N, f i := by
  induction N with
  | zero => simp [forN]
  | succ N ih => rw [forN, ih, sum_range_succ, add_assoc]

theorem dotv_axpys {d : ℕ} (N : ℕ) (c : ℕ → ℝ) (x : ℕ → Vec d) (v : Vec d) :
    dotv (forN N (fun i bar => axpy (c i) (x i) bar) zeroV) v = ∑ i ∈ range N, c i * dotv (x i) v := by
  have e : forN N (fun i bar => axpy (c i) (x i) bar) zeroV = fun r => ∑ i ∈ range N, c i * x i r := by
    funext r
    refine (forN_vec N (fun i bar => axpy (c i) (x i) bar) (fun i r => c i * x i r) (fun _ _ _ => rfl) zeroV r).trans ?_
    simp [zeroV]
  rw [e]
  unfold dotv
  simp only [sum_mul, mul_sum]
  rw [sum_comm]
  exact sum_congr rfl fun i _ => sum_congr rfl fun j _ => by ring

theorem hasDerivAt_dot_line {d : ℕ} (x u v : Vec d) :
    HasDerivAt (fun t : ℝ => dotv x (fun j => u j + t * v j)) (dotv x v) 0 := by
  have e : (fun t : ℝ => dotv x (fun j => u j + t * v j)) = fun t => dotv x u + t * dotv x v := by
    funext t
    rw [dotv_add_right, dotv_smul_right]
  rw [e]
  exact (((hasDerivAt_id' (0 : ℝ)).mul_const _).const_add _).congr_deriv (by ring)

/-- Derivative of a state coefficient along a line in the space of element temperatures. -/
theorem hasDerivAt_sigma_line {d : ℕ} (s s' : ℝ → ℝ) (hs : ∀ y, HasDerivAt s (s' y) y) (x u v : Vec d) :
    HasDerivAt (fun t : ℝ => s (dotv x (fun j => u j + t * v j))) (s' (dotv x u) * dotv x v) 0 := by
  have e : dotv x (fun j => u j + 0 * v j) = dotv x u := by simp
  exact HasDerivAt.comp_of_eq (0 : ℝ) (hs (dotv x u)) (hasDerivAt_dot_line x u v) e.symm

theorem scatterLoop3 (N m dim : ℕ) (P : ℕ → ℕ → ℕ → ℝ) (δ : ℕ → ℝ) (D : ℕ → ℝ)
    (h : ∀ i < N, ∑ k ∈ range dim, ∑ j ∈ range m, P i k j * δ (k * m + j) = D i) :
    ∑ q ∈ range (dim * m), forN N (fun i bar => scatter m dim (P i) bar) (fun _ => 0) q * δ q =
      ∑ i ∈ range N, D i := by
  rw [scatter_loop_dot]
  exact sum_congr rfl fun i hi => h i (mem_range.1 hi)

/-! ### C129: element integrals of the functionals -/

/-- **C129** The DC element integral is `∫ 1/σ(T)` by quadrature. -/
theorem C129_dc_value (sigma : ℕ → ℝ → ℝ) (pt : ℕ → LPt nt nf) (T : Vec nt) :
    dcEnergy sigma n pt T = ∑ i ∈ range n, (pt i).w * (pt i).J / sigma i (dotv (pt i).tshape T) := by
  unfold dcEnergy; rw [forN_real]; simp

/-- **C129** Its temperature sensitivity is its gradient with respect to the element temperatures. -/
theorem C129_dc_temperature (sigma dsigma : ℕ → ℝ → ℝ) (pt : ℕ → LPt nt nf) (T v : Vec nt)
    (hs : ∀ i < n, ∀ y, HasDerivAt (sigma i) (dsigma i y) y)
    (h0 : ∀ i < n, sigma i (dotv (pt i).tshape T) ≠ 0) :
    HasDerivAt (fun t => dcEnergy sigma n pt (fun j => T j + t * v j))
      (dotv (dcTempSens sigma dsigma n pt T) v) 0 := by
  simp only [C129_dc_value]
  unfold dcTempSens
  rw [dotv_axpys]
  refine HasDerivAt.fun_sum fun i hi => ?_
  have hi := mem_range.1 hi
  refine ((hasDerivAt_const (0 : ℝ) ((pt i).w * (pt i).J)).fun_div
    (hasDerivAt_sigma_line _ _ (hs i hi) (pt i).tshape T v) (by simpa using h0 i hi)).congr_deriv ?_
  simp only [zero_mul, add_zero]
  have := h0 i hi
  field_simp
  ring

/-- **C129** Its mesh sensitivity is its derivative along every motion of the mesh, including the change
of the conductivity that `sigma.EvalRevDiff` reports. -/
theorem C129_dc_mesh (μ : Motion n dim m) (w : ℕ → ℝ) (tsh : ℕ → Vec nt) (fsh : ℕ → ℝ → Vec nf) (T : Vec nt)
    (sig : ℕ → ℝ → ℝ → ℝ) (sig' : ℕ → ℝ) (sRev : ℕ → ℝ → ℕ → ℕ → ℝ)
    (hs : ∀ i < n, HasDerivAt (fun t => sig i t (dotv (tsh i) T)) (sig' i) 0)
    (hsR : ∀ i < n, AdjOf m dim μ.δ (sRev i) (sig' i))
    (h0 : ∀ i < n, sig i 0 (dotv (tsh i) T) ≠ 0) :
    HasDerivAt (fun t => dcEnergy (fun i => sig i t) n (lpts μ w tsh fsh t) T)
      (∑ q ∈ range (dim * m),
        dcMeshSens (fun i => sig i 0) n m dim (lpts μ w tsh fsh 0) sRev μ.wRev T q * μ.δ q) 0 := by
  simp only [C129_dc_value]
  unfold dcMeshSens
  rw [scatterLoop3 (D := fun i => -(w i * μ.J i 0) / sig i 0 (dotv (tsh i) T) ^ 2 * sig' i +
    1 / sig i 0 (dotv (tsh i) T) * w i * μ.J' i)]
  · refine HasDerivAt.fun_sum fun i hi => ?_
    have hi := mem_range.1 hi
    refine ((((μ.hJ i hi).const_mul (w i))).fun_div (hs i hi) (h0 i hi)).congr_deriv ?_
    have := h0 i hi
    field_simp
    ring
  · intro i hi
    have a := hsR i hi (-(w i * μ.J i 0) / sig i 0 (dotv (tsh i) T) ^ 2)
    have b := μ.hwRev i hi (1 / sig i 0 (dotv (tsh i) T) * w i)
    rw [← a, ← b]
    simp only [lpts, ← sum_add_distrib]
    refine sum_congr rfl fun k _ => sum_congr rfl fun j _ => ?_
    simp only [zero_add, neg_mul, one_mul]
    ring

/-- **C129** The AC element integral is `∫ σ(T) B²` by quadrature. -/
theorem C129_ac_value (sigma : ℕ → ℝ → ℝ) (pt : ℕ → LPt nt nf) (T : Vec nt) (b : Vec nf) :
    acEnergy sigma n pt T b = ∑ i ∈ range n,
      (pt i).w * (pt i).J * (sigma i (dotv (pt i).tshape T) * dotv (pt i).fshape b ^ 2) := by
  unfold acEnergy; rw [forN_real, zero_add]
  exact sum_congr rfl fun i _ => by ring

/-- **C129** Its temperature sensitivity is its gradient with respect to the element temperatures. -/
theorem C129_ac_temperature (sigma dsigma : ℕ → ℝ → ℝ) (pt : ℕ → LPt nt nf) (T v : Vec nt) (b : Vec nf)
    (hs : ∀ i < n, ∀ y, HasDerivAt (sigma i) (dsigma i y) y) :
    HasDerivAt (fun t => acEnergy sigma n pt (fun j => T j + t * v j) b)
      (dotv (acTempSens dsigma n pt T b) v) 0 := by
  simp only [C129_ac_value]
  unfold acTempSens
  rw [dotv_axpys]
  refine HasDerivAt.fun_sum fun i hi => ?_
  have hi := mem_range.1 hi
  exact (((hasDerivAt_sigma_line _ _ (hs i hi) (pt i).tshape T v).mul_const _).const_mul _).congr_deriv (by ring)

/-- **C129** Its peak-flux sensitivity is its gradient with respect to the element fluxes. -/
theorem C129_ac_flux (sigma : ℕ → ℝ → ℝ) (pt : ℕ → LPt nt nf) (T : Vec nt) (b v : Vec nf) :
    HasDerivAt (fun t => acEnergy sigma n pt T (fun j => b j + t * v j))
      (dotv (acFluxSens sigma n pt T b) v) 0 := by
  simp only [C129_ac_value]
  unfold acFluxSens
  rw [dotv_axpys]
  refine HasDerivAt.fun_sum fun i _ => ?_
  refine ((((hasDerivAt_dot_line (pt i).fshape b v).fun_pow 2).const_mul _).const_mul _).congr_deriv ?_
  have e : dotv (pt i).fshape (fun j => b j + 0 * v j) = dotv (pt i).fshape b := by simp
  rw [e]
  norm_num
  ring

/-- **C129** Its mesh sensitivity is its derivative along every motion of the mesh, including the changes
of the conductivity and of the flux shape functions. -/
theorem C129_ac_mesh (μ : Motion n dim m) (w : ℕ → ℝ) (tsh : ℕ → Vec nt) (fsh : ℕ → ℝ → Vec nf) (T : Vec nt)
    (b : Vec nf) (sig : ℕ → ℝ → ℝ → ℝ) (sig' : ℕ → ℝ) (sRev : ℕ → ℝ → ℕ → ℕ → ℝ) (fsh' : ℕ → Vec nf)
    (fRev : ℕ → Vec nf → ℕ → ℕ → ℝ)
    (hs : ∀ i < n, HasDerivAt (fun t => sig i t (dotv (tsh i) T)) (sig' i) 0)
    (hsR : ∀ i < n, AdjOf m dim μ.δ (sRev i) (sig' i))
    (hf : ∀ i < n, ∀ r, HasDerivAt (fun t => fsh i t r) (fsh' i r) 0)
    (hfR : ∀ i < n, ∀ y, ∑ k ∈ range dim, ∑ j ∈ range m, fRev i y k j * μ.δ (k * m + j) = dotv y (fsh' i)) :
    HasDerivAt (fun t => acEnergy (fun i => sig i t) n (lpts μ w tsh fsh t) T b)
      (∑ q ∈ range (dim * m),
        acMeshSens (fun i => sig i 0) n m dim (lpts μ w tsh fsh 0) sRev μ.wRev fRev T b q * μ.δ q) 0 := by
  simp only [C129_ac_value]
  unfold acMeshSens
  rw [scatterLoop3 (D := fun i => w i * μ.J i 0 * dotv (fsh i 0) b ^ 2 * sig' i +
    w i * μ.J i 0 * sig i 0 (dotv (tsh i) T) * 2 * dotv (fsh i 0) b * dotv b (fsh' i) +
    sig i 0 (dotv (tsh i) T) * dotv (fsh i 0) b ^ 2 * w i * μ.J' i)]
  · refine HasDerivAt.fun_sum fun i hi => ?_
    have hi := mem_range.1 hi
    have hb : HasDerivAt (fun t => dotv (fsh i t) b) (dotv b (fsh' i)) 0 := by
      rw [dotv_comm]
      unfold dotv
      exact HasDerivAt.fun_sum fun r _ => (hf i hi r).mul_const _
    refine (((μ.hJ i hi).const_mul (w i)).fun_mul ((hs i hi).fun_mul (hb.fun_pow 2))).congr_deriv ?_
    norm_num
    ring
  · intro i hi
    have a := hsR i hi (w i * μ.J i 0 * dotv (fsh i 0) b ^ 2)
    have c := μ.hwRev i hi (sig i 0 (dotv (tsh i) T) * dotv (fsh i 0) b ^ 2 * w i)
    have d := hfR i hi (axpy (w i * μ.J i 0 * sig i 0 (dotv (tsh i) T) * 2 * dotv (fsh i 0) b) b zeroV)
    have e : ∀ x : ℝ, dotv (axpy x b zeroV) (fsh' i) = x * dotv b (fsh' i) := by
      intro x; rw [← dotv_smul_left]; congr 1; funext r; simp [axpy, zeroV]
    rw [e] at d
    rw [← a, ← c, ← d]
    simp only [lpts, ← sum_add_distrib]
    refine sum_congr rfl fun k _ => sum_congr rfl fun j _ => ?_
    simp only [zero_add, one_mul]
    ring

/-! ### C130: the loss distributions -/

/-- Specification: DC loss density `√2 I² L / (π r² n σ V ℓ)`. -/
noncomputable def ddSpec (L I r k l V s : ℝ) : ℝ := √2 * I ^ 2 * L / (Real.pi * r ^ 2 * k * s) / (V * l)

/-- **C130** The load is the quadrature of the loss density against the temperature shape functions. -/
theorem C130_dc_value (p : DDPar) (sigma : ℕ → ℝ → ℝ) (pt : ℕ → LPt nt nf) (T psi : Vec nt) :
    dotv psi (ddVec p sigma n pt T) = ∑ i ∈ range n,
      ddSpec (p .wireLength) (p .rmsCurrent) (p .strandRadius) (p .strandsInHand) (p .stackLength)
        (p .windingVolume) (sigma i (dotv (pt i).tshape T)) * ((pt i).w * (pt i).J) * dotv psi (pt i).tshape := by
  rw [dotv_comm]
  unfold ddVec
  rw [dotv_axpys]
  refine sum_congr rfl fun i _ => ?_
  rw [dotv_comm psi]
  simp only [ddLoss, ddSpec]
  ring

theorem ddBar_split (p : DDPar) (s psi w : ℝ) (x : Option DDIn) : ddBar p s psi w x = ddBar p s 1 1 x * (psi * w) := by
  rcases x with _ | x
  · simp only [ddBar]; ring
  · cases x <;> simp only [ddBar] <;> ring

/-- Derivative of the loss density with respect to an input. -/
theorem ddLoss_input (p : DDPar) (s : ℝ) (x : DDIn) (hs : s ≠ 0) (hr : p .strandRadius ≠ 0)
    (hn : p .strandsInHand ≠ 0) (hl : p .stackLength ≠ 0) (hv : p .windingVolume ≠ 0) :
    HasDerivAt (fun t => ddLoss (Function.update p x t) s) (ddBar p s 1 1 (some x)) (p x) := by
  have hpi := Real.pi_ne_zero
  have hi : ∀ a : ℝ, HasDerivAt (fun t : ℝ => t) 1 a := fun a => hasDerivAt_id' a
  unfold ddLoss
  cases x <;> simp only [ne_eq, reduceCtorEq, not_false_eq_true, Function.update_of_ne, Function.update_self, ddBar]
  · refine (((((hi _).div_const _).const_mul _).mul_const _).mul_const _).congr_deriv ?_
    field_simp
  · refine ((((((hi _).fun_pow 2).mul_const _)).mul_const _).mul_const _).congr_deriv ?_
    norm_num
    field_simp
  · have h1 := ((((hi (p .strandRadius)).fun_pow 2).const_mul Real.pi).mul_const (p .strandsInHand)).mul_const s
    have h2 := (hasDerivAt_const (p .strandRadius) (p .wireLength)).fun_div h1 (by positivity)
    refine ((((h2.const_mul _)).mul_const _).mul_const _).congr_deriv ?_
    norm_num
    field_simp
  · have h1 := ((hi (p .strandsInHand)).const_mul (Real.pi * p .strandRadius ^ 2)).mul_const s
    have h2 := (hasDerivAt_const (p .strandsInHand) (p .wireLength)).fun_div h1 (by positivity)
    refine ((((h2.const_mul _)).mul_const _).mul_const _).congr_deriv ?_
    norm_num
    field_simp
  · have h1 := ((hi (p .stackLength)).const_mul (p .windingVolume))
    have h2 := (hasDerivAt_const (p .stackLength) (1 : ℝ)).fun_div h1 (by positivity)
    refine (h2.const_mul _).congr_deriv ?_
    norm_num
    field_simp
  · have h1 := ((hi (p .windingVolume)).mul_const (p .stackLength))
    have h2 := (hasDerivAt_const (p .windingVolume) (1 : ℝ)).fun_div h1 (by positivity)
    refine (h2.const_mul _).congr_deriv ?_
    norm_num
    field_simp

/-- Derivative of the loss density with respect to the conductivity. -/
theorem ddLoss_sigma (p : DDPar) (s : ℝ) (hs : s ≠ 0) (hr : p .strandRadius ≠ 0)
    (hn : p .strandsInHand ≠ 0) (hl : p .stackLength ≠ 0) (hv : p .windingVolume ≠ 0) :
    HasDerivAt (fun s => ddLoss p s) (ddBar p s 1 1 none) s := by
  have hpi := Real.pi_ne_zero
  unfold ddLoss ddBar
  have h1 := (hasDerivAt_id' s).const_mul (Real.pi * p .strandRadius ^ 2 * p .strandsInHand)
  have h2 := (hasDerivAt_const s (p .wireLength)).fun_div h1 (by positivity)
  refine (((h2.const_mul _).mul_const _).mul_const _).congr_deriv ?_
  norm_num
  field_simp

theorem dotv_ddVec (p : DDPar) (sigma : ℕ → ℝ → ℝ) (pt : ℕ → LPt nt nf) (T psi : Vec nt) :
    dotv psi (ddVec p sigma n pt T) = ∑ i ∈ range n,
      ddLoss p (sigma i (dotv (pt i).tshape T)) * ((pt i).w * (pt i).J) * dotv psi (pt i).tshape := by
  rw [dotv_comm]
  unfold ddVec
  rw [dotv_axpys]
  exact sum_congr rfl fun i _ => by rw [dotv_comm psi]

/-- **C130** The six scalar reverse sensitivities of the DC loss distribution are the derivatives of the
adjoint-weighted load. -/
theorem C130_dc_scalar (p : DDPar) (sigma : ℕ → ℝ → ℝ) (pt : ℕ → LPt nt nf) (T psi : Vec nt) (x : DDIn)
    (hs : ∀ i < n, sigma i (dotv (pt i).tshape T) ≠ 0) (hr : p .strandRadius ≠ 0)
    (hn : p .strandsInHand ≠ 0) (hl : p .stackLength ≠ 0) (hv : p .windingVolume ≠ 0) :
    HasDerivAt (fun t => dotv psi (ddVec (Function.update p x t) sigma n pt T))
      (ddScalarSens p sigma n pt T psi x) (p x) := by
  simp only [dotv_ddVec]
  unfold ddScalarSens
  rw [forN_real, zero_add]
  refine HasDerivAt.fun_sum fun i hi => ?_
  rw [ddBar_split]
  exact (((ddLoss_input p _ x (hs i (mem_range.1 hi)) hr hn hl hv).mul_const _).mul_const _).congr_deriv (by ring)

/-- **C130** The temperature reverse sensitivity of the DC loss distribution is the gradient of the
adjoint-weighted load. -/
theorem C130_dc_temperature (p : DDPar) (sigma dsigma : ℕ → ℝ → ℝ) (pt : ℕ → LPt nt nf) (T psi v : Vec nt)
    (hd : ∀ i < n, ∀ y, HasDerivAt (sigma i) (dsigma i y) y)
    (hs : ∀ i < n, sigma i (dotv (pt i).tshape T) ≠ 0) (hr : p .strandRadius ≠ 0)
    (hn : p .strandsInHand ≠ 0) (hl : p .stackLength ≠ 0) (hv : p .windingVolume ≠ 0) :
    HasDerivAt (fun t => dotv psi (ddVec p sigma n pt (fun j => T j + t * v j)))
      (dotv (ddTempSens p sigma dsigma n pt T psi) v) 0 := by
  simp only [dotv_ddVec]
  unfold ddTempSens
  rw [dotv_axpys]
  refine HasDerivAt.fun_sum fun i hi => ?_
  have hi := mem_range.1 hi
  have h1 := hasDerivAt_sigma_line _ _ (hd i hi) (pt i).tshape T v
  have h2 := HasDerivAt.comp_of_eq (0 : ℝ) (ddLoss_sigma p _ (hs i hi) hr hn hl hv) h1 (by simp)
  rw [ddBar_split]
  exact ((h2.mul_const _).mul_const _).congr_deriv (by ring)

/-- **C130** (partial) The mesh reverse sensitivity of the DC loss distribution is the derivative of the
adjoint-weighted load if the conductivity does not depend on the position of the mesh nodes. -/
theorem C130_dc_mesh_partial (μ : Motion n dim m) (w : ℕ → ℝ) (tsh : ℕ → Vec nt) (fsh : ℕ → ℝ → Vec nf)
    (T psi : Vec nt) (p : DDPar) (sigma : ℕ → ℝ → ℝ) :
    HasDerivAt (fun t => dotv psi (ddVec p sigma n (lpts μ w tsh fsh t) T))
      (∑ q ∈ range (dim * m), ddMeshSens p sigma n m dim (lpts μ w tsh fsh 0) μ.wRev T psi q * μ.δ q) 0 := by
  simp only [dotv_ddVec]
  unfold ddMeshSens
  rw [scatterLoop3 (D := fun i => 1 * ddLoss p (sigma i (dotv (tsh i) T)) * dotv psi (tsh i) * w i * μ.J' i)]
  · refine HasDerivAt.fun_sum fun i hi => ?_
    simp only [lpts]
    refine ((((μ.hJ i (mem_range.1 hi)).const_mul (w i)).const_mul _).mul_const _).congr_deriv ?_
    ring
  · intro i hi
    exact μ.pointW i hi _

/-- Specification: AC loss density `2 n N S π r⁴ (2π f B)² σ / (8 V)`. -/
noncomputable def adSpec (r f k N S V s b : ℝ) : ℝ :=
  2 * k * N * S * (Real.pi * r ^ 4 * (2 * Real.pi * f * b) ^ 2 * s / 8) / V

theorem dotv_adVec (p : ADPar) (sigma : ℕ → ℝ → ℝ) (pt : ℕ → LPt nt nf) (T psi : Vec nt) (b : Vec nf) :
    dotv psi (adVec p sigma n pt T b) = ∑ i ∈ range n,
      adLoss p (sigma i (dotv (pt i).tshape T)) (dotv (pt i).fshape b) * ((pt i).w * (pt i).J) *
        dotv psi (pt i).tshape := by
  rw [dotv_comm]
  unfold adVec
  rw [dotv_axpys]
  exact sum_congr rfl fun i _ => by rw [dotv_comm psi]

/-- **C130** The load is the quadrature of the loss density against the temperature shape functions. -/
theorem C130_ac_value (p : ADPar) (sigma : ℕ → ℝ → ℝ) (pt : ℕ → LPt nt nf) (T psi : Vec nt) (b : Vec nf) :
    dotv psi (adVec p sigma n pt T b) = ∑ i ∈ range n,
      adSpec (p .strandRadius) (p .frequency) (p .strandsInHand) (p .numTurns) (p .numSlots) (p .windingVolume)
        (sigma i (dotv (pt i).tshape T)) (dotv (pt i).fshape b) * ((pt i).w * (pt i).J) *
        dotv psi (pt i).tshape := by
  rw [dotv_adVec]
  refine sum_congr rfl fun i _ => ?_
  simp only [adLoss, adSpec]
  ring

theorem adBar_split (p : ADPar) (s b psi w : ℝ) (x : ADIn) : adBar p s b psi w x = adBar p s b 1 1 x * (psi * w) := by
  cases x <;> simp only [adBar] <;> ring

/-- Derivative of the AC loss density with respect to an input. -/
theorem adLoss_input (p : ADPar) (s b : ℝ) (x : ADIn) (hv : p .windingVolume ≠ 0) :
    HasDerivAt (fun t => adLoss (Function.update p x t) s b) (adBar p s b 1 1 x) (p x) := by
  have hi : ∀ a : ℝ, HasDerivAt (fun t : ℝ => t) 1 a := fun a => hasDerivAt_id' a
  unfold adLoss
  cases x <;> simp only [ne_eq, reduceCtorEq, not_false_eq_true, Function.update_of_ne, Function.update_self, adBar]
  · refine ((((((((((hi _).const_mul _).mul_const _).fun_pow 2).const_mul _).mul_const _).div_const _)).mul_const _).mul_const _).congr_deriv ?_
    norm_num
    ring
  · refine ((((((((hi _).fun_pow 4).const_mul _).mul_const _).mul_const _).div_const _).mul_const _).mul_const _).congr_deriv ?_
    norm_num
    ring
  · refine (((((((hi _).const_mul _).mul_const _).mul_const _)).const_mul _).mul_const _).congr_deriv ?_
    ring
  · refine ((((((hi _).const_mul _).mul_const _)).const_mul _).mul_const _).congr_deriv ?_
    ring
  · refine (((((hi _).const_mul _)).const_mul _).mul_const _).congr_deriv ?_
    ring
  · have h2 := (hasDerivAt_const (p .windingVolume) (1 : ℝ)).fun_div (hi (p .windingVolume)) hv
    refine (h2.const_mul _).congr_deriv ?_
    ring

/-- **C130** The six scalar reverse sensitivities of the AC loss distribution are the derivatives of the
adjoint-weighted load. -/
theorem C130_ac_scalar (p : ADPar) (sigma : ℕ → ℝ → ℝ) (pt : ℕ → LPt nt nf) (T psi : Vec nt) (b : Vec nf)
    (x : ADIn) (hv : p .windingVolume ≠ 0) :
    HasDerivAt (fun t => dotv psi (adVec (Function.update p x t) sigma n pt T b))
      (adScalarSens p sigma n pt T b psi x) (p x) := by
  simp only [dotv_adVec]
  unfold adScalarSens
  rw [forN_real, zero_add]
  refine HasDerivAt.fun_sum fun i hi => ?_
  rw [adBar_split]
  exact (((adLoss_input p _ _ x hv).mul_const _).mul_const _).congr_deriv (by ring)

/-- **C130** The temperature reverse sensitivity of the AC loss distribution. -/
theorem C130_ac_temperature (p : ADPar) (sigma dsigma : ℕ → ℝ → ℝ) (pt : ℕ → LPt nt nf) (T psi v : Vec nt)
    (b : Vec nf) (hd : ∀ i < n, ∀ y, HasDerivAt (sigma i) (dsigma i y) y) :
    HasDerivAt (fun t => dotv psi (adVec p sigma n pt (fun j => T j + t * v j) b))
      (dotv (adTempSens p dsigma n pt T b psi) v) 0 := by
  simp only [dotv_adVec]
  unfold adTempSens
  rw [dotv_axpys]
  refine HasDerivAt.fun_sum fun i hi => ?_
  have h1 := hasDerivAt_sigma_line _ _ (hd i (mem_range.1 hi)) (pt i).tshape T v
  unfold adLoss
  exact ((((((h1.const_mul _).div_const _).mul_const _).mul_const _).mul_const _).mul_const _).congr_deriv (by ring)

/-- **C130** The peak-flux reverse sensitivity of the AC loss distribution. -/
theorem C130_ac_flux (p : ADPar) (sigma : ℕ → ℝ → ℝ) (pt : ℕ → LPt nt nf) (T psi : Vec nt) (b v : Vec nf) :
    HasDerivAt (fun t => dotv psi (adVec p sigma n pt T (fun j => b j + t * v j)))
      (dotv (adFluxSens p sigma n pt T b psi) v) 0 := by
  simp only [dotv_adVec]
  unfold adFluxSens
  rw [dotv_axpys]
  refine HasDerivAt.fun_sum fun i hi => ?_
  have h1 := hasDerivAt_dot_line (pt i).fshape b v
  unfold adLoss
  refine (((((((((h1.const_mul _).fun_pow 2).const_mul _).mul_const _).div_const _).mul_const _).mul_const _).mul_const _).mul_const _).congr_deriv ?_
  have e : dotv (pt i).fshape (fun j => b j + 0 * v j) = dotv (pt i).fshape b := by simp
  rw [e]
  norm_num
  ring

/-- **C130** (partial) The mesh reverse sensitivity of the AC loss distribution is the derivative of the
adjoint-weighted load if neither the conductivity nor the flux shape functions depend on the position
of the mesh nodes. -/
theorem C130_ac_mesh_partial (μ : Motion n dim m) (w : ℕ → ℝ) (tsh : ℕ → Vec nt) (fsh : ℕ → Vec nf)
    (T psi : Vec nt) (b : Vec nf) (p : ADPar) (sigma : ℕ → ℝ → ℝ) :
    HasDerivAt (fun t => dotv psi (adVec p sigma n (lpts μ w tsh (fun i _ => fsh i) t) T b))
      (∑ q ∈ range (dim * m),
        adMeshSens p sigma n m dim (lpts μ w tsh (fun i _ => fsh i) 0) μ.wRev T b psi q * μ.δ q) 0 := by
  simp only [dotv_adVec]
  unfold adMeshSens
  rw [scatterLoop3 (D := fun i => 1 * adLoss p (sigma i (dotv (tsh i) T)) (dotv (fsh i) b) * dotv psi (tsh i) *
    w i * μ.J' i)]
  · refine HasDerivAt.fun_sum fun i hi => ?_
    simp only [lpts]
    refine ((((μ.hJ i (mem_range.1 hi)).const_mul (w i)).const_mul _).mul_const _).congr_deriv ?_
    ring
  · intro i hi
    exact μ.pointW i hi _

/-- **C130** (negation) If the conductivity does change with the mesh, the mesh sensitivities of the
distributions are wrong: with one point whose Jacobian stays 1 while the conductivity grows, the
reverse sensitivity is zero but the load changes. -/
theorem C130_dc_mesh_false : ∃ (μ : Motion 1 1 1) (sig : ℕ → ℝ → ℝ → ℝ) (p : DDPar) (T psi : Vec 1)
    (tsh : ℕ → Vec 1) (fsh : ℕ → ℝ → Vec 1),
    (∀ i y, HasDerivAt (fun t => sig i t y) 1 0) ∧ (∀ i y, sig i 0 y = 1) ∧
    ¬ HasDerivAt (fun t => dotv psi (ddVec p (fun i => sig i t) 1 (lpts μ (fun _ => 1) tsh fsh t) T))
      (∑ q ∈ range (1 * 1),
        ddMeshSens p (fun i => sig i 0) 1 1 1 (lpts μ (fun _ => 1) tsh fsh 0) μ.wRev T psi q * μ.δ q) 0 := by
  let μ : Motion 1 1 1 :=
    { δ := fun _ => 0, adj := fun _ _ _ _ => 1, J := fun _ _ => 1, adj' := fun _ _ _ => 0, J' := fun _ => 0,
      hadj := fun _ _ _ _ => hasDerivAt_const _ _, hJ := fun _ _ => hasDerivAt_const _ _,
      adjRev := fun _ _ _ _ => 0, wRev := fun _ _ _ _ => 0,
      hadjRev := by intro _ _ A; simp [frob], hwRev := by intro _ _ x; simp }
  refine ⟨μ, fun _ t _ => 1 + t, fun _ => 1, fun _ => 1, fun _ => 1, fun _ _ => 1, fun _ _ _ => 1, ?_, ?_, ?_⟩
  · intro i y; exact (hasDerivAt_id' (0 : ℝ)).const_add 1
  · intro i y; simp
  · intro h
    have hz : (∑ q ∈ range (1 * 1), ddMeshSens (fun _ => (1 : ℝ)) (fun _ _ => (1 : ℝ) + 0) 1 1 1
        (lpts μ (fun _ => 1) (fun _ _ => 1) (fun _ _ (_ : Fin 1) => (1 : ℝ)) 0) μ.wRev (fun _ => (1 : ℝ))
        (fun _ : Fin 1 => (1 : ℝ)) q * μ.δ q) = 0 := by
      simp [μ]
    rw [hz] at h
    have e : (fun t : ℝ => dotv (fun _ : Fin 1 => (1 : ℝ)) (ddVec (fun _ => (1 : ℝ)) (fun _ _ => 1 + t) 1
        (lpts μ (fun _ => 1) (fun _ _ => 1) (fun _ _ (_ : Fin 1) => (1 : ℝ)) t) (fun _ => (1 : ℝ)))) =
        fun t => √2 / Real.pi * (1 + t)⁻¹ := by
      funext t
      rw [dotv_ddVec]
      simp [ddLoss, lpts, μ, dotv]
      ring
    rw [e] at h
    have h2 : HasDerivAt (fun t : ℝ => √2 / Real.pi * (1 + t)⁻¹) (√2 / Real.pi * -1) 0 := by
      have h3 : HasDerivAt (fun t : ℝ => (1 + t)) 1 0 := (hasDerivAt_id' (0 : ℝ)).const_add 1
      refine ((h3.fun_inv (by norm_num)).const_mul (√2 / Real.pi)).congr_deriv ?_
      norm_num
    have := h.unique h2
    have hp := Real.pi_pos
    have h4 : (0 : ℝ) < √2 / Real.pi := by positivity
    linarith

/-- The adjoint-weighted DC load is inversely proportional to the winding volume. -/
theorem ddVec_volume (p : DDPar) (sigma : ℕ → ℝ → ℝ) (pt : ℕ → LPt nt nf) (T psi : Vec nt) (V : ℝ) :
    dotv psi (ddVec (Function.update p .windingVolume V) sigma n pt T) =
      dotv psi (ddVec (Function.update p .windingVolume 1) sigma n pt T) / V := by
  simp only [dotv_ddVec, sum_div, ddLoss, ne_eq, reduceCtorEq, not_false_eq_true, Function.update_of_ne,
    Function.update_self]
  exact sum_congr rfl fun i _ => by ring

/-- The adjoint-weighted AC load is inversely proportional to the winding volume. -/
theorem adVec_volume (p : ADPar) (sigma : ℕ → ℝ → ℝ) (pt : ℕ → LPt nt nf) (T psi : Vec nt) (b : Vec nf) (V : ℝ) :
    dotv psi (adVec (Function.update p .windingVolume V) sigma n pt T b) =
      dotv psi (adVec (Function.update p .windingVolume 1) sigma n pt T b) / V := by
  simp only [dotv_adVec, sum_div, adLoss, ne_eq, reduceCtorEq, not_false_eq_true, Function.update_of_ne,
    Function.update_self]
  exact sum_congr rfl fun i _ => by ring

/-- **C130** The reverse mesh derivative of the distribution outputs: as both loads are of the form
`F(X, V) = G(X) / V` (`ddVec_volume`, `adVec_volume`) with the winding volume `V` itself a function of the
mesh, the part through the load (`G.grad / V`) and the part through the winding volume add up to the
derivative of the whole, added to what was in the vector. -/
theorem C130_output_mesh {N : ℕ} (G vol : Func N) (F : (Fin N → ℝ) → ℝ → ℝ) (hF : ∀ u V, F u V = G.val u / V)
    (u v wrtBar : Fin N → ℝ) (volBar : ℝ)
    (hG : G.Correct u) (hV : vol.Correct u) (h0 : vol.val u ≠ 0)
    (hvb : HasDerivAt (fun V => F u V) volBar (vol.val u)) :
    ∃ d, DirDeriv (fun u => F u (vol.val u)) u v d ∧
      ∑ i, distMeshVjp (fun wb i => wb i + G.grad u i / vol.val u) volBar vol u wrtBar i * v i =
        ∑ i, wrtBar i * v i + d := by
  have hb : volBar = -G.val u / vol.val u ^ 2 := by
    refine hvb.unique ?_
    simp only [hF]
    refine ((hasDerivAt_const (vol.val u) (G.val u)).fun_div (hasDerivAt_id' _) h0).congr_deriv ?_
    ring
  refine ⟨_, (C29_jvp_is_derivative G vol u v hG hV h0).congr_of_eventuallyEq
    (Filter.Eventually.of_forall fun t => by simp [ratio, hF]), ?_⟩
  rw [hb, ratioJVP, hG.2 v, hV.2 v]
  simp only [distMeshVjp, Func.vjp, mul_sum, ← sum_sub_distrib, sum_div, ← sum_add_distrib]
  refine sum_congr rfl fun i _ => ?_
  field_simp
  ring

/-! ### C131: the distribution adds up to the functional -/

/-- Specification: an element of the winding: its number of points, the points, the conductivity there,
the temperatures and the fluxes of the element. -/
structure Elem (nt nf : ℕ) where
  n : ℕ
  pt : ℕ → LPt nt nf
  sigma : ℕ → ℝ → ℝ
  T : Vec nt
  b : Vec nf
  /-- nodal basis: the temperature shape functions add up to one at every point -/
  unity : ∀ i < n, ∑ r, (pt i).tshape r = 1

/-- Specification: scalar inputs of the distributions that agree with those of the functionals. -/
def dcOf (p : DDPar) : DCPar
  | .wireLength => p .wireLength
  | .rmsCurrent => p .rmsCurrent
  | .strandRadius => p .strandRadius
  | .strandsInHand => p .strandsInHand

/-- Specification: the inputs of the AC functional, given those of the distribution and the stack length. -/
def acOf (p : ADPar) (l : ℝ) : ACPar
  | .strandRadius => p .strandRadius
  | .frequency => p .frequency
  | .stackLength => l
  | .strandsInHand => p .strandsInHand
  | .numTurns => p .numTurns
  | .numSlots => p .numSlots

theorem sum_eq_dotv_one {d : ℕ} (v : Vec d) : ∑ r, v r = dotv (fun _ => 1) v := by simp [dotv]

/-- **C131** The total heat of the DC distribution over the winding is the value of the DC loss
functional divided by the stack length, for any mesh, if both use the same quadrature points. -/
theorem C131_dc_total (p : DDPar) (es : List (Elem nt nf)) :
    (es.map fun e => ∑ r, ddVec p e.sigma e.n e.pt e.T r).sum =
      dcLoss (dcOf p) (es.map fun e => dcEnergy e.sigma e.n e.pt e.T).sum (p .windingVolume) / p .stackLength := by
  have key : ∀ e : Elem nt nf, ∑ r, ddVec p e.sigma e.n e.pt e.T r =
      dcLoss (dcOf p) (dcEnergy e.sigma e.n e.pt e.T) (p .windingVolume) / p .stackLength := by
    intro e
    rw [sum_eq_dotv_one, dotv_ddVec, C129_dc_value]
    simp only [dcLoss, dcOf, mul_sum, sum_div, sum_mul]
    refine sum_congr rfl fun i hi => ?_
    have hu : dotv (fun _ => 1) (e.pt i).tshape = 1 := by
      rw [← sum_eq_dotv_one]; exact e.unity i (mem_range.1 hi)
    rw [hu]
    simp only [ddLoss]
    ring
  simp only [key]
  induction es with
  | nil => simp [dcLoss]
  | cons e es ih =>
    simp only [List.map_cons, List.sum_cons]
    rw [ih]
    simp only [dcLoss]
    ring

/-- **C131** The total heat of the AC distribution over the winding is the value of the AC loss
functional divided by the stack length, for any mesh, if both use the same quadrature points. -/
theorem C131_ac_total (p : ADPar) (l : ℝ) (hl : l ≠ 0) (es : List (Elem nt nf)) :
    (es.map fun e => ∑ r, adVec p e.sigma e.n e.pt e.T e.b r).sum =
      acLoss (acOf p l) (es.map fun e => acEnergy e.sigma e.n e.pt e.T e.b).sum (p .windingVolume) / l := by
  have key : ∀ e : Elem nt nf, ∑ r, adVec p e.sigma e.n e.pt e.T e.b r =
      acLoss (acOf p l) (acEnergy e.sigma e.n e.pt e.T e.b) (p .windingVolume) / l := by
    intro e
    rw [sum_eq_dotv_one, dotv_adVec, C129_ac_value]
    simp only [acLoss, acOf, numStrands, strandLoss, mul_sum, sum_div, sum_mul]
    refine sum_congr rfl fun i hi => ?_
    have hu : dotv (fun _ => 1) (e.pt i).tshape = 1 := by
      rw [← sum_eq_dotv_one]; exact e.unity i (mem_range.1 hi)
    rw [hu]
    simp only [adLoss]
    field_simp
  simp only [key]
  induction es with
  | nil => simp [acLoss, strandLoss]
  | cons e es ih =>
    simp only [List.map_cons, List.sum_cons]
    rw [ih]
    simp only [acLoss, strandLoss, numStrands]
    ring

/-- **C131** The default rules: the DC functional and distribution use the same rule if the state and
the temperature have elements of the same order and kind; the AC functional uses a rule of lower order
than the AC distribution on triangles and tetrahedra of every positive order. -/
theorem C131_rules (s : Space) (o : ℕ) (ho : 0 < o) :
    (acRule s o = dcRule s o ↔ s ≠ .Pk) ∧ (s = .Pk → acRule s o + 1 = dcRule s o) := by
  unfold acRule dcRule
  refine ⟨?_, ?_⟩
  · by_cases h : s = .Pk
    · simp only [h, if_true, ne_eq, not_true_eq_false, iff_false]; omega
    · simp [h]
  · intro h; simp only [h, if_true]; omega

/-- Non-vacuity: an element with two nodes and two points. -/
example : ∃ e : Elem 2 1, e.n = 2 ∧ dcEnergy e.sigma e.n e.pt e.T = 1 ∧ acEnergy e.sigma e.n e.pt e.T e.b = 64 := by
  refine ⟨⟨2, fun i => ⟨1, 2, if i = 0 then ![1, 0] else ![0, 1], ![2]⟩, fun _ y => y ^ 2, ![2, 2], ![1],
    ?_⟩, rfl, ?_, ?_⟩
  · intro i hi
    rcases i with _ | _ | i
    · simp
    · simp
    · omega
  · rw [C129_dc_value]; simp [sum_range_succ, dotv]; norm_num
  · rw [C129_ac_value]; simp [sum_range_succ, dotv]; norm_num

/-- Non-vacuity of the mesh theorems: a winding element on the moving two-dimensional mesh, with a
conductivity that follows the motion. -/
example : ∃ (sRev : ℕ → ℝ → ℕ → ℕ → ℝ) (δ : ℕ → ℝ), AdjOf 3 2 δ (sRev 0) 5 :=
  ⟨fun _ x k j => if k = 0 ∧ j = 0 then x * 5 else 0, fun q => if q = 0 then 1 else 0, fun x => by
    simp [sum_range_succ]⟩

end Verif.Losses
