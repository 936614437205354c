import Verif.ForceLemmas

/-!
Properties C132 (force is minus the derivative of the magnetic energy along the virtual displacement),
C133 (its state gradient), C134 (its mesh sensitivity) and C135 (rigid motion, linearity, torque field).
-/

namespace Verif.Force
open Finset Verif.Sbp Verif.Dense Verif.Diffusion Verif.Losses

set_option linter.unusedSimpArgs false
set_option linter.unusedSectionVars false

variable {ndof dim m n : ℕ}

/-! ### Specification: the magnetic energy of a mesh element -/

/-- Specification: Jacobian matrix `∂x_a/∂ξ_b` of the mapping with node positions `X` and reference
gradients `dshape` of the nodal shape functions. -/
def jacOf (dshape : Mat m dim) (X : Mat m dim) : Mat dim dim := fun a b => ∑ j, X j a * dshape j b

/-- Specification: determinant of a 3x3 matrix. -/
def det3 (M : Mat 3 3) : ℝ :=
  M 0 0 * (M 1 1 * M 2 2 - M 1 2 * M 2 1) - M 0 1 * (M 1 0 * M 2 2 - M 1 2 * M 2 0) +
    M 0 2 * (M 1 0 * M 2 1 - M 1 1 * M 2 0)

/-- Specification: adjugate of a 3x3 matrix (transposed cofactors, with cyclic indices). -/
def adj3 (M : Mat 3 3) : Mat 3 3 := fun i j =>
  M (j + 1) (i + 1) * M (j + 2) (i + 2) - M (j + 1) (i + 2) * M (j + 2) (i + 1)

/-- Specification: gradient in physical space of a scalar potential with coefficients `u` on a
two-dimensional element; its magnitude is that of the flux density `curl (A_z e_z)`. -/
noncomputable def flux2 (cs : Mat ndof 2) (M : Mat 2 2) (u : Vec ndof) : Vec 2 := fun k =>
  ∑ r, u r * ∑ l, cs r l * (adj2 M l k / det2 M)

/-- Specification: curl in physical space of a Nédélec field with coefficients `u`: `J curl̂ / det J`. -/
noncomputable def flux3 (cs : Mat ndof 3) (M : Mat 3 3) (u : Vec ndof) : Vec 3 := fun k =>
  (∑ l, M k l * ∑ r, cs r l * u r) / det3 M

/-- Specification: magnetic energy `∫ e(|B|)` of a two-dimensional element with nodes `X`, by
quadrature. -/
noncomputable def energy2 (n : ℕ) (E : ℕ → En) (w : ℕ → ℝ) (cs : ℕ → Mat ndof 2) (dshape : ℕ → Mat m 2)
    (u : Vec ndof) (X : Mat m 2) : ℝ :=
  ∑ i ∈ range n, w i * det2 (jacOf (dshape i) X) * (E i).e (norm2 (flux2 (cs i) (jacOf (dshape i) X) u))

/-- Specification: magnetic energy of a three-dimensional element with nodes `X`. -/
noncomputable def energy3 (n : ℕ) (E : ℕ → En) (w : ℕ → ℝ) (cs : ℕ → Mat ndof 3) (dshape : ℕ → Mat m 3)
    (u : Vec ndof) (X : Mat m 3) : ℝ :=
  ∑ i ∈ range n, w i * det3 (jacOf (dshape i) X) * (E i).e (norm2 (flux3 (cs i) (jacOf (dshape i) X) u))

/-- The quadrature points of a two-dimensional element with nodes `X`, as MFEM delivers them. -/
noncomputable def elem2 (w : ℕ → ℝ) (cs : ℕ → Mat ndof 2) (dshape : ℕ → Mat m 2) (X : Mat m 2) (i : ℕ) :
    FPt ndof 2 m :=
  let M := jacOf (dshape i) X
  ⟨w i, cs i, M, adj2 M, fun a b => adj2 M a b / det2 M, det2 M, dshape i⟩

/-- The quadrature points of a three-dimensional element with nodes `X`, as MFEM delivers them. -/
noncomputable def elem3 (w : ℕ → ℝ) (cs : ℕ → Mat ndof 3) (dshape : ℕ → Mat m 3) (X : Mat m 3) (i : ℕ) :
    FPt ndof 3 m :=
  let M := jacOf (dshape i) X
  ⟨w i, cs i, M, adj3 M, fun a b => adj3 M a b / det3 M, det3 M, dshape i⟩

/-- Specification: node positions after a virtual displacement by `s V`. -/
def displaced (X V : Mat m dim) (s : ℝ) : Mat m dim := fun j a => X j a + s * V j a

/-- Specification: `e1` and `e2` are the derivatives of the energy density `e`. -/
def En.Smooth (E : En) : Prop := (∀ s, HasDerivAt E.e (E.e1 s) s) ∧ ∀ s, HasDerivAt E.e1 (E.e2 s) s

/-- The energy density the code computes from a twice differentiable reluctivity is smooth. -/
theorem En.ofNu_smooth (ns : ℕ) (xs ws : ℕ → ℝ) (nu dnu d2nu : ℝ → ℝ) (h1 : ∀ s, HasDerivAt nu (dnu s) s)
    (h2 : ∀ s, HasDerivAt dnu (d2nu s) s) : (En.ofNu ns xs ws nu dnu d2nu).Smooth :=
  ⟨fun s => C123_first_derivative ns xs ws nu dnu h1 s,
   fun s => C123_second_derivative ns xs ws nu dnu d2nu h1 h2 s⟩

/-! ### C132 -/

theorem jacOf_displaced (dshape X V : Mat m dim) (s : ℝ) :
    jacOf dshape (displaced X V s) = fun a b => jacOf dshape X a b + s * jacOf dshape V a b := by
  funext a b
  unfold jacOf displaced
  rw [mul_sum, ← sum_add_distrib]
  exact sum_congr rfl fun j _ => by ring

theorem hasDerivAt_line (a b : ℝ) : HasDerivAt (fun s : ℝ => a + s * b) b 0 :=
  (((hasDerivAt_id' (0 : ℝ)).mul_const b).const_add a).congr_deriv (by ring)

theorem det2_line (M Y : Mat 2 2) :
    HasDerivAt (fun s => det2 fun a b => M a b + s * Y a b) (frob (transpose (adj2 M)) Y) 0 := by
  have h := fun a b => hasDerivAt_line (M a b) (Y a b)
  unfold det2
  refine (((h 0 0).fun_mul (h 1 1)).fun_sub ((h 0 1).fun_mul (h 1 0))).congr_deriv ?_
  simp [frob, transpose, adj2, Fin.sum_univ_two]
  ring

theorem det3_line (M Y : Mat 3 3) :
    HasDerivAt (fun s => det3 fun a b => M a b + s * Y a b) (frob (transpose (adj3 M)) Y) 0 := by
  have h := fun a b => hasDerivAt_line (M a b) (Y a b)
  unfold det3
  refine ((((h 0 0).fun_mul (((h 1 1).fun_mul (h 2 2)).fun_sub ((h 1 2).fun_mul (h 2 1)))).fun_sub
    ((h 0 1).fun_mul (((h 1 0).fun_mul (h 2 2)).fun_sub ((h 1 2).fun_mul (h 2 0))))).fun_add
    ((h 0 2).fun_mul (((h 1 0).fun_mul (h 2 1)).fun_sub ((h 1 1).fun_mul (h 2 0))))).congr_deriv ?_
  simp [frob, transpose, adj3, Fin.sum_univ_three]
  ring

/-- Derivative of the energy of one quadrature point. -/
theorem hasDerivAt_pointEnergy (E : En) (hE : E.Smooth) (w β τ J' : ℝ) (B J : ℝ → ℝ) (hB : HasDerivAt B β 0)
    (hJ : HasDerivAt J J' 0) (hτ : J' = J 0 * τ) :
    HasDerivAt (fun s => w * J s * E.e (B s)) ((β * E.e1 (B 0) + E.e (B 0) * τ) * (w * J 0)) 0 := by
  have h := HasDerivAt.comp_of_eq (0 : ℝ) (hE.1 (B 0)) hB rfl
  refine ((hJ.const_mul w).fun_mul h).congr_deriv ?_
  simp only [Function.comp]
  rw [hτ]; ring

theorem bvec2_eq (w : ℕ → ℝ) (cs : ℕ → Mat ndof 2) (dshape : ℕ → Mat m 2) (X : Mat m 2) (i : ℕ) (u : Vec ndof)
    (k : Fin 2) : (elem2 w cs dshape X i).bvec u k =
      ∑ l, adj2 (jacOf (dshape i) X) l k * mulTV (cs i) u l := by
  unfold FPt.bvec FPt.cdft elem2
  simp only [if_neg (by decide : ¬ (2 : ℕ) = 3)]
  unfold mulTV mulM
  simp only [sum_mul, mul_sum]
  rw [sum_comm]
  exact sum_congr rfl fun _ _ => sum_congr rfl fun _ _ => by ring

theorem bvec3_eq (w : ℕ → ℝ) (cs : ℕ → Mat ndof 3) (dshape : ℕ → Mat m 3) (X : Mat m 3) (i : ℕ) (u : Vec ndof)
    (k : Fin 3) : (elem3 w cs dshape X i).bvec u k =
      ∑ l, jacOf (dshape i) X k l * mulTV (cs i) u l := by
  unfold FPt.bvec FPt.cdft elem3
  simp only [if_true]
  unfold mulTV mulABt
  simp only [sum_mul, mul_sum]
  rw [sum_comm]
  exact sum_congr rfl fun _ _ => sum_congr rfl fun _ _ => by ring

theorem flux2_norm (w : ℕ → ℝ) (cs : ℕ → Mat ndof 2) (dshape : ℕ → Mat m 2) (X : Mat m 2) (i : ℕ) (u : Vec ndof)
    (hd : 0 < det2 (jacOf (dshape i) X)) :
    norm2 (flux2 (cs i) (jacOf (dshape i) X) u) =
      norm2 ((elem2 w cs dshape X i).bvec u) / det2 (jacOf (dshape i) X) := by
  rw [← norm2_div _ _ hd]
  congr 1; funext k
  rw [bvec2_eq]
  unfold flux2 mulTV
  simp only [mul_sum, sum_div]
  rw [sum_comm]
  exact sum_congr rfl fun _ _ => sum_congr rfl fun _ _ => by ring

theorem flux3_norm (w : ℕ → ℝ) (cs : ℕ → Mat ndof 3) (dshape : ℕ → Mat m 3) (X : Mat m 3) (i : ℕ) (u : Vec ndof)
    (hd : 0 < det3 (jacOf (dshape i) X)) :
    norm2 (flux3 (cs i) (jacOf (dshape i) X) u) =
      norm2 ((elem3 w cs dshape X i).bvec u) / det3 (jacOf (dshape i) X) := by
  rw [← norm2_div _ _ hd]
  congr 1; funext k
  rw [bvec3_eq]
  rfl

/-- **C132** On a two-dimensional element of positive orientation, with non-zero flux density at every
quadrature point, the value computed is minus the derivative of the element's magnetic energy along the
virtual displacement of its nodes, at fixed potential coefficients.  (Missing: displacements below
`1e-14`, which are treated as zero, and points of zero flux density, where the code divides by zero.) -/
theorem C132_virtual_work_2d_partial (E : ℕ → En) (hE : ∀ i < n, (E i).Smooth) (w : ℕ → ℝ) (cs : ℕ → Mat ndof 2)
    (dshape : ℕ → Mat m 2) (X V : Mat m 2) (u : Vec ndof) (hV : ∃ j k, 1 / 10 ^ 14 ≤ |V j k|)
    (hd : ∀ i < n, 0 < det2 (jacOf (dshape i) X))
    (hb : ∀ i < n, flux2 (cs i) (jacOf (dshape i) X) u ≠ 0) :
    HasDerivAt (fun s => -energy2 n E w cs dshape u (displaced X V s))
      (force false n E (elem2 w cs dshape X) V u) 0 := by
  have hX : ¬ tiny V := by
    obtain ⟨j, k, h⟩ := hV
    intro ht; exact absurd (ht j k) (not_lt.2 h)
  rw [force_eq _ _ _ _ _ hX, sum_neg_distrib]
  refine HasDerivAt.fun_neg ?_
  unfold energy2
  refine HasDerivAt.fun_sum fun i hi => ?_
  have hi := mem_range.1 hi
  have hdi := hd i hi
  set M := jacOf (dshape i) X with hM
  set Y := jacOf (dshape i) V with hY
  have hJ := det2_line M Y
  have hJ' : HasDerivAt (fun s => det2 (jacOf (dshape i) (displaced X V s))) (frob (transpose (adj2 M)) Y) 0 := by
    simpa only [jacOf_displaced] using hJ
  have hx : ∀ k, HasDerivAt (fun s => (elem2 w cs dshape (displaced X V s) i).bvec u k)
      (∑ l, adj2 Y l k * mulTV (cs i) u l) 0 := by
    intro k
    simp only [bvec2_eq, jacOf_displaced]
    refine HasDerivAt.fun_sum fun l _ => HasDerivAt.mul_const ?_ _
    unfold adj2
    split_ifs
    · exact hasDerivAt_line _ _
    · exact hasDerivAt_line _ _
    · exact (hasDerivAt_line _ _).fun_neg
  have e0 : displaced X V 0 = X := by funext j a; simp [displaced]
  have hn : norm2 ((elem2 w cs dshape X i).bvec u) ≠ 0 := by
    intro h
    apply hb i hi
    have := flux2_norm w cs dshape X i u hdi
    rw [h, zero_div] at this
    funext k; exact (norm2_eq_zero _).1 this k
  have hN := hasDerivAt_norm2 (fun s => (elem2 w cs dshape (displaced X V s) i).bvec u) _ 0 hx
    (by rw [e0]; exact hn)
  have hB := hN.fun_div hJ' (by rw [e0]; exact hdi.ne')
  have hev : (fun s => w i * det2 (jacOf (dshape i) (displaced X V s)) *
      (E i).e (norm2 (flux2 (cs i) (jacOf (dshape i) (displaced X V s)) u))) =ᶠ[nhds 0]
      (fun s => w i * det2 (jacOf (dshape i) (displaced X V s)) *
      (E i).e (norm2 ((elem2 w cs dshape (displaced X V s) i).bvec u) /
        det2 (jacOf (dshape i) (displaced X V s)))) := by
    have hpos : ∀ᶠ s in nhds (0 : ℝ), 0 < det2 (jacOf (dshape i) (displaced X V s)) :=
      hJ'.continuousAt.eventually (lt_mem_nhds (by beta_reduce; rw [e0]; exact hdi))
    filter_upwards [hpos] with s hs
    rw [flux2_norm w cs dshape _ i u hs]
  refine ((hasDerivAt_pointEnergy (E i) (hE i hi) (w i) _ ((elem2 w cs dshape X i).tr V) _ _ _ hB hJ' ?_
    ).congr_of_eventuallyEq hev).congr_deriv ?_
  · rw [e0]
    change frob (transpose (adj2 M)) Y = det2 M * trace (mulM (fun a b => adj2 M a b / det2 M) Y)
    rw [trace_mulM, frob_transpose]
    unfold frob
    simp only [mul_sum]
    exact sum_congr rfl fun a _ => sum_congr rfl fun b _ => by field_simp
  · rw [e0]
    rw [dBds_two (by decide)]
    change _ = (_ * _ + _) * (w i * det2 M)
    have key : (dotv ((elem2 w cs dshape X i).bvec u) (fun k => ∑ l, adj2 Y l k * mulTV (cs i) u l) /
        norm2 ((elem2 w cs dshape X i).bvec u) * det2 M - norm2 ((elem2 w cs dshape X i).bvec u) *
        frob (transpose (adj2 M)) Y) / det2 M ^ 2 =
        -bil Y ((elem2 w cs dshape X i).bvec u) (mulV (adj2 M) ((elem2 w cs dshape X i).bvec u)) /
          (norm2 ((elem2 w cs dshape X i).bvec u) * det2 M ^ 2) := by
      have hq := norm2_sq ((elem2 w cs dshape X i).bvec u)
      generalize norm2 ((elem2 w cs dshape X i).bvec u) = N at hn hq ⊢
      have hb0 := bvec2_eq w cs dshape X i u
      generalize (elem2 w cs dshape X i).bvec u = b at hb0 hq ⊢
      generalize mulTV (cs i) u = g at hb0 ⊢
      have hdd : det2 M ≠ 0 := hdi.ne'
      have h0 := hb0 0
      have h1 := hb0 1
      rw [div_eq_div_iff (pow_ne_zero 2 hdd) (mul_ne_zero hn (pow_ne_zero 2 hdd))]
      have : (dotv b (fun k => ∑ l, adj2 Y l k * g l) * det2 M - N ^ 2 * frob (transpose (adj2 M)) Y) =
          -bil Y b (mulV (adj2 M) b) := by
        rw [hq, bil_eq]
        simp [dotv, frob, transpose, mulV, adj2, det2, Fin.sum_univ_two] at h0 h1 ⊢
        rw [h0, h1]
        ring
      rw [← this]
      field_simp
    rw [key]
    rfl

/-- **C132** The same in three dimensions. -/
theorem C132_virtual_work_3d_partial (E : ℕ → En) (hE : ∀ i < n, (E i).Smooth) (w : ℕ → ℝ) (cs : ℕ → Mat ndof 3)
    (dshape : ℕ → Mat m 3) (X V : Mat m 3) (u : Vec ndof) (hV : ∃ j k, 1 / 10 ^ 14 ≤ |V j k|)
    (hd : ∀ i < n, 0 < det3 (jacOf (dshape i) X))
    (hb : ∀ i < n, flux3 (cs i) (jacOf (dshape i) X) u ≠ 0) :
    HasDerivAt (fun s => -energy3 n E w cs dshape u (displaced X V s))
      (force false n E (elem3 w cs dshape X) V u) 0 := by
  have hX : ¬ tiny V := by
    obtain ⟨j, k, h⟩ := hV
    intro ht; exact absurd (ht j k) (not_lt.2 h)
  rw [force_eq _ _ _ _ _ hX, sum_neg_distrib]
  refine HasDerivAt.fun_neg ?_
  unfold energy3
  refine HasDerivAt.fun_sum fun i hi => ?_
  have hi := mem_range.1 hi
  have hdi := hd i hi
  set M := jacOf (dshape i) X with hM
  set Y := jacOf (dshape i) V with hY
  have hJ' : HasDerivAt (fun s => det3 (jacOf (dshape i) (displaced X V s))) (frob (transpose (adj3 M)) Y) 0 := by
    simpa only [jacOf_displaced] using det3_line M Y
  have hx : ∀ k, HasDerivAt (fun s => (elem3 w cs dshape (displaced X V s) i).bvec u k)
      (mulV Y (mulTV (cs i) u) k) 0 := by
    intro k
    simp only [bvec3_eq, jacOf_displaced]
    exact HasDerivAt.fun_sum fun l _ => HasDerivAt.mul_const (hasDerivAt_line _ _) _
  have e0 : displaced X V 0 = X := by funext j a; simp [displaced]
  have hn : norm2 ((elem3 w cs dshape X i).bvec u) ≠ 0 := by
    intro h
    apply hb i hi
    have := flux3_norm w cs dshape X i u hdi
    rw [h, zero_div] at this
    funext k; exact (norm2_eq_zero _).1 this k
  have hN := hasDerivAt_norm2 (fun s => (elem3 w cs dshape (displaced X V s) i).bvec u) _ 0 hx
    (by rw [e0]; exact hn)
  have hB := hN.fun_div hJ' (by rw [e0]; exact hdi.ne')
  have hev : (fun s => w i * det3 (jacOf (dshape i) (displaced X V s)) *
      (E i).e (norm2 (flux3 (cs i) (jacOf (dshape i) (displaced X V s)) u))) =ᶠ[nhds 0]
      (fun s => w i * det3 (jacOf (dshape i) (displaced X V s)) *
      (E i).e (norm2 ((elem3 w cs dshape (displaced X V s) i).bvec u) /
        det3 (jacOf (dshape i) (displaced X V s)))) := by
    have hpos : ∀ᶠ s in nhds (0 : ℝ), 0 < det3 (jacOf (dshape i) (displaced X V s)) :=
      hJ'.continuousAt.eventually (lt_mem_nhds (by beta_reduce; rw [e0]; exact hdi))
    filter_upwards [hpos] with s hs
    rw [flux3_norm w cs dshape _ i u hs]
  refine ((hasDerivAt_pointEnergy (E i) (hE i hi) (w i) _ ((elem3 w cs dshape X i).tr V) _ _ _ hB hJ' ?_
    ).congr_of_eventuallyEq hev).congr_deriv ?_
  · rw [e0]
    change frob (transpose (adj3 M)) Y = det3 M * trace (mulM (fun a b => adj3 M a b / det3 M) Y)
    rw [trace_mulM, frob_transpose]
    unfold frob
    simp only [mul_sum]
    exact sum_congr rfl fun a _ => sum_congr rfl fun b _ => by field_simp
  · rw [e0]
    rw [dBds_three (by decide)]
    change ((_ / _ * det3 M - _) / det3 M ^ 2 * (E i).e1 (_ / det3 M) + _) * (_ * det3 M) =
      ((_ / det3 M ^ 2 * frob (transpose (adj3 M)) Y + bil Y _ (mulTV (cs i) u) / (det3 M * _)) *
        (E i).e1 (_ / det3 M) + _) * (w i * det3 M)
    have hdd : det3 M ≠ 0 := hdi.ne'
    rw [bil]
    congr 3
    field_simp
    ring

/-! ### C133 -/

theorem bvec_line (p : FPt ndof dim m) (u v : Vec ndof) (k : Fin dim) :
    HasDerivAt (fun t => p.bvec (fun r => u r + t * v r) k) (p.bvec v k) 0 := by
  have e : (fun t => p.bvec (fun r => u r + t * v r) k) = fun t => p.bvec u k + t * p.bvec v k := by
    funext t
    unfold FPt.bvec
    rw [mulTV_add, mulTV_smul]
  rw [e]; exact hasDerivAt_line _ _

theorem mulTV_line (A : Mat ndof dim) (u v : Vec ndof) (k : Fin dim) :
    HasDerivAt (fun t => mulTV A (fun r => u r + t * v r) k) (mulTV A v k) 0 := by
  have e : (fun t => mulTV A (fun r => u r + t * v r) k) = fun t => mulTV A u k + t * mulTV A v k := by
    funext t
    rw [mulTV_add, mulTV_smul]
  rw [e]; exact hasDerivAt_line _ _

theorem dotv_addMulV {a b : ℕ} (A : Mat a b) (c : ℝ) (x : Vec b) (y v : Vec a) :
    dotv (addMulV A c x y) v = dotv y v + c * dotv x (mulTV A v) := by
  unfold addMulV
  rw [dotv_add_left, dotv_smul_left, dotv_comm (mulV A x), dotv_mulV, dotv_comm x]

/-- What one quadrature point contributes to the product with a direction. -/
noncomputable def revDot (E : En) (p : FPt ndof dim m) (X : Mat m dim) (u v : Vec ndof) : ℝ :=
  dotv (revBody E X p u zeroV) v

theorem revBody_add (E : En) (p : FPt ndof dim m) (X : Mat m dim) (u bar : Vec ndof) (r : Fin ndof) :
    revBody E X p u bar r = bar r + revBody E X p u zeroV r := by
  unfold revBody
  by_cases hd : dim = 3
  · simp only [if_pos hd, addMulV, zeroV]; ring
  · simp only [if_neg hd, addMulV, zeroV]; ring

/-- The reverse pass at one point is the derivative of its contribution, three-dimensional branch. -/
theorem revDot_three (hd : dim = 3) (E : En) (p : FPt ndof dim m) (X : Mat m dim) (u v : Vec ndof) :
    revDot E p X u v =
      -(p.w * p.J * E.e1 (p.bmag u)) * (bil (p.dJds X) (p.bvec v) (mulTV p.cs u) +
        bil (p.dJds X) (p.bvec u) (mulTV p.cs v)) / (norm2 (p.bvec u) * p.J) +
      (-(-(p.w * p.J * E.e1 (p.bmag u)) * bil (p.dJds X) (p.bvec u) (mulTV p.cs u) /
          (norm2 (p.bvec u) ^ 2 * p.J)) -
        -(p.w * p.J * E.e1 (p.bmag u)) * frob (transpose p.adj) (p.dJds X) / p.J ^ 2 +
        bmagBar E p u X / p.J) / norm2 (p.bvec u) * dotv (p.bvec u) (p.bvec v) := by
  unfold revDot revBody
  simp only [if_pos hd]
  rw [dbdJBar_eq]
  generalize -(p.w * p.J * E.e1 (p.bmag u)) = c
  generalize p.dJds X = Y
  rw [dotv_addMulV, dotv_addMulV]
  have hv : mulTV p.cdft v = p.bvec v := rfl
  rw [hv]
  generalize p.bvec v = bv
  generalize p.bvec u = b
  generalize mulTV p.cs u = h
  generalize mulTV p.cs v = hv
  have e1 : ∑ j, ∑ k, c * Y j k * vwt b h j k / (norm2 b ^ 2 * p.J) = c * bil Y b h / (norm2 b ^ 2 * p.J) := by
    rw [bil_eq]
    unfold vwt
    simp only [mul_sum, sum_div]
    exact sum_congr rfl fun _ _ => sum_congr rfl fun _ _ => by ring
  have e2 : ∑ j, ∑ k, transpose (fun i j => c * Y i j) j k * p.adj j k / p.J ^ 2 =
      c * frob (transpose p.adj) Y / p.J ^ 2 := by
    rw [frob_transpose]
    unfold frob transpose
    simp only [mul_sum, sum_div]
    exact sum_congr rfl fun _ _ => sum_congr rfl fun _ _ => by ring
  rw [e1, e2]
  have e3 : dotv (mulTV (addM (1 / (norm2 b * p.J)) (fun i j => c * Y i j) zeroM) b) hv =
      c / (norm2 b * p.J) * bil Y b hv := by
    rw [bil_eq']
    rw [← dotv_smul_left]
    congr 1; funext j
    unfold mulTV addM zeroM
    rw [mul_sum]
    exact sum_congr rfl fun _ _ => by ring
  have e4 : ∀ x : ℝ, dotv (axpy x b (mulV (addM (1 / (norm2 b * p.J)) (fun i j => c * Y i j) zeroM) h)) bv =
      c / (norm2 b * p.J) * bil Y bv h + x * dotv b bv := by
    intro x
    have : axpy x b (mulV (addM (1 / (norm2 b * p.J)) (fun i j => c * Y i j) zeroM) h) =
        fun i => c / (norm2 b * p.J) * mulV Y h i + x * b i := by
      funext i
      unfold axpy mulV addM zeroM
      rw [mul_sum]
      congr 1
      exact sum_congr rfl fun _ _ => by ring
    rw [this, dotv_add_left, dotv_smul_left, dotv_smul_left, bil, dotv_comm bv]
  rw [e3, e4]
  have e5 : dotv (zeroV : Vec ndof) v = 0 := by simp [dotv, zeroV]
  rw [e5]
  ring

/-- The reverse pass at one point, two-dimensional branch. -/
theorem revDot_two (hd : dim ≠ 3) (E : En) (p : FPt ndof dim m) (X : Mat m dim) (u v : Vec ndof)
    (hJ : p.J ≠ 0) (hn : norm2 (p.bvec u) ≠ 0) :
    revDot E p X u v =
      -(p.w * p.J * E.e1 (p.bmag u)) * (-1 / (norm2 (p.bvec u) * p.J ^ 2)) *
        (bil (p.dJds X) (p.bvec v) (mulV p.adj (p.bvec u)) + bil (p.dJds X) (p.bvec u) (mulV p.adj (p.bvec v))) +
      (-(p.w * p.J * E.e1 (p.bmag u)) * bil (p.dJds X) (p.bvec u) (mulV p.adj (p.bvec u)) /
          (norm2 (p.bvec u) * p.J) ^ 2 +
        bmagBar E p u X / p.J) / norm2 (p.bvec u) * dotv (p.bvec u) (p.bvec v) := by
  unfold revDot revBody
  simp only [if_neg hd]
  have ea : (∑ j, ∑ k, dbdJBar E p u X j k * p.dbdJ u j k) =
      -(p.w * p.J * E.e1 (p.bmag u)) * p.dBds u X := by
    rw [dBds_eq, frob_comm, ← frob_smul, dbdJBar_eq]
    rfl
  rw [ea, dBds_two hd, dbdJBar_eq]
  generalize -(p.w * p.J * E.e1 (p.bmag u)) = c
  generalize p.dJds X = Y
  rw [dotv_addMulV]
  have hv : mulTV p.cdft v = p.bvec v := rfl
  rw [hv]
  generalize p.bvec v = bv
  generalize p.bvec u = b at hn ⊢
  obtain ⟨a', ha'⟩ : ∃ a', a' = -1 / (norm2 b * p.J ^ 2) := ⟨_, rfl⟩
  rw [← ha']
  have e4 : ∀ x : ℝ, dotv (axpy x b (addMulTV p.adj
      (fun j => zeroV j + a' * mulTV (fun i j => c * Y i j) b j)
      (addMulV (fun i j => c * Y i j) a' (mulV p.adj b) zeroV))) bv =
      c * a' * (bil Y bv (mulV p.adj b) + bil Y b (mulV p.adj bv)) + x * dotv b bv := by
    intro x
    have : axpy x b (addMulTV p.adj (fun j => zeroV j + a' * mulTV (fun i j => c * Y i j) b j)
        (addMulV (fun i j => c * Y i j) a' (mulV p.adj b) zeroV)) =
        fun i => ((c * a') * mulV Y (mulV p.adj b) i + (c * a') * mulTV p.adj (mulTV Y b) i) + x * b i := by
      funext i
      unfold axpy addMulTV addMulV zeroV
      have e1 : mulV (fun i j => c * Y i j) (mulV p.adj b) i = c * mulV Y (mulV p.adj b) i := by
        unfold mulV; rw [mul_sum]; exact sum_congr rfl fun _ _ => by ring
      have e2 : mulTV p.adj (fun j => 0 + a' * mulTV (fun i j => c * Y i j) b j) i =
          c * a' * mulTV p.adj (mulTV Y b) i := by
        have : (fun j => 0 + a' * mulTV (fun i j => c * Y i j) b j) = fun j => (c * a') * mulTV Y b j := by
          funext j
          unfold mulTV; simp only [mul_sum, zero_add]; exact sum_congr rfl fun _ _ => by ring
        rw [this, mulTV_smul]
      rw [e1, e2]; ring
    rw [this, dotv_add_left, dotv_add_left, dotv_smul_left, dotv_smul_left, dotv_smul_left]
    rw [bil, bil_eq', dotv_comm bv, dotv_mulV p.adj bv (mulTV Y b)]
    ring
  rw [e4]
  have e5 : dotv (zeroV : Vec ndof) v = 0 := by simp [dotv, zeroV]
  rw [e5]
  have ea' : c * (-bil Y b (mulV p.adj b) / (norm2 b * p.J ^ 2)) / a' = c * bil Y b (mulV p.adj b) := by
    rw [ha']; field_simp
  rw [ea']
  ring

/-- The reverse pass at one quadrature point is the derivative of what that point contributes. -/
theorem point_state (E : En) (hE : E.Smooth) (p : FPt ndof dim m) (X : Mat m dim) (u v : Vec ndof)
    (hJ : p.J ≠ 0) (hn : norm2 (p.bvec u) ≠ 0) :
    HasDerivAt (fun t => -((p.dBds (fun r => u r + t * v r) X *
        E.e1 (norm2 (p.bvec fun r => u r + t * v r) / p.J) +
        E.e (norm2 (p.bvec fun r => u r + t * v r) / p.J) * p.tr X) * (p.w * p.J)))
      (revDot E p X u v) 0 := by
  have e0 : (fun r => u r + 0 * v r) = u := by funext r; ring
  have hx := bvec_line p u v
  have hN := hasDerivAt_norm2 (fun t => p.bvec (fun r => u r + t * v r)) (p.bvec v) 0 hx
    (by rw [e0]; exact hn)
  have hA : ∀ i j, HasDerivAt (fun _ : ℝ => p.adj i j) ((zeroM : Mat dim dim) i j) 0 :=
    fun i j => hasDerivAt_const _ _
  have hJc : HasDerivAt (fun _ : ℝ => p.J) 0 0 := hasDerivAt_const _ _
  have hT : HasDerivAt (fun _ : ℝ => p.tr X) 0 0 := hasDerivAt_const _ _
  by_cases hd : dim = 3
  · have hB := hasDerivAt_beta3 (p.dJds X) (fun t => p.bvec (fun r => u r + t * v r))
      (fun t => mulTV p.cs (fun r => u r + t * v r)) (fun _ => p.adj) (fun _ => p.J) (p.bvec v) (mulTV p.cs v)
      zeroM 0 hx (mulTV_line p.cs u v) hA hJc hJ (by rw [e0]; exact hn)
    have hB' := hB.congr_of_eventuallyEq
      (f₁ := fun t => p.dBds (fun r => u r + t * v r) X)
      (Filter.Eventually.of_forall fun t => dBds_three hd p _ X)
    refine (hasDerivAt_pointForce E p.w _ _ _ _ _ _ _ _ hE.1 hE.2 hB' hN hJc hT hJ).congr_deriv ?_
    simp only [e0]
    rw [revDot_three hd]
    have : frob (transpose (zeroM : Mat dim dim)) (p.dJds X) = 0 := by simp [frob, transpose, zeroM]
    rw [this]
    unfold bmagBar FPt.bmag
    field_simp
    ring
  · have hB := hasDerivAt_beta2 (p.dJds X) (fun t => p.bvec (fun r => u r + t * v r))
      (fun _ => p.adj) (fun _ => p.J) (p.bvec v)
      zeroM 0 hx hA hJc hJ (by rw [e0]; exact hn)
    have hB' := hB.congr_of_eventuallyEq
      (f₁ := fun t => p.dBds (fun r => u r + t * v r) X)
      (Filter.Eventually.of_forall fun t => dBds_two hd p _ X)
    refine (hasDerivAt_pointForce E p.w _ _ _ _ _ _ _ _ hE.1 hE.2 hB' hN hJc hT hJ).congr_deriv ?_
    simp only [e0]
    rw [revDot_two hd E p X u v hJ hn]
    have : bil (p.dJds X) (p.bvec u) (mulV (zeroM : Mat dim dim) (p.bvec u)) = 0 := by
      simp [bil_eq, mulV, zeroM]
    rw [this]
    unfold bmagBar FPt.bmag
    field_simp
    ring

/-- **C133** The assembled state derivative is the gradient of the element's force contribution with
respect to the state coefficients - in two and three dimensions, for body elements, ignored
displacements, and all others with non-zero flux density at every quadrature point.  (Missing: points of
zero flux density, where the code divides by zero.) -/
theorem C133_state_gradient_partial (inBody : Bool) (E : ℕ → En) (hE : ∀ i < n, (E i).Smooth)
    (pt : ℕ → FPt ndof dim m) (X : Mat m dim) (u v : Vec ndof)
    (hJ : ∀ i < n, (pt i).J ≠ 0) (hn : ∀ i < n, (pt i).bvec u ≠ 0) :
    HasDerivAt (fun t => force inBody n E pt X (fun r => u r + t * v r))
      (dotv (stateSens inBody n E pt X u) v) 0 := by
  have hz : dotv (zeroV : Vec ndof) v = 0 := by simp [dotv, zeroV]
  cases inBody with
  | true =>
    simp only [force, stateSens, if_true, hz]
    exact hasDerivAt_const _ _
  | false =>
    by_cases hX : tiny X
    · simp only [force, stateSens, if_pos hX, hz, ite_self]
      exact hasDerivAt_const _ _
    · simp only [force_eq _ _ _ _ _ hX]
      have hs : dotv (stateSens false n E pt X u) v = ∑ i ∈ range n, revDot (E i) (pt i) X u v := by
        unfold stateSens
        rw [if_neg (by simp), if_neg hX]
        have e : forN n (fun i => revBody (E i) X (pt i) u) zeroV =
            fun r => ∑ i ∈ range n, revBody (E i) X (pt i) u zeroV r := by
          funext r
          refine (forN_vec n (fun i => revBody (E i) X (pt i) u) (fun i r => revBody (E i) X (pt i) u zeroV r)
            (fun i bar r => revBody_add _ _ _ _ _ _) zeroV r).trans ?_
          simp [zeroV]
        rw [e, dotv_comm, dotv_sum_right]
        exact sum_congr rfl fun i _ => dotv_comm _ _
      rw [hs]
      refine HasDerivAt.fun_sum fun i hi => ?_
      have hi := mem_range.1 hi
      refine point_state (E i) (hE i hi) (pt i) X u v (hJ i hi) ?_
      intro h
      apply hn i hi
      funext k; exact (norm2_eq_zero _).1 h k

end Verif.Force
