import Mathlib.Analysis.Calculus.Deriv.Mul
import Mathlib.Analysis.Calculus.Deriv.Add
import Mathlib.Tactic.FinCases
import Mathlib.Tactic.FieldSimp
import Verif.MeshSens
import Verif.MeshMotion
import Verif.InviscidIntegProps
import Verif.SbpProps
import Verif.SbpDataProps

/-!
# C216: the mesh sensitivities of the flow residual are the derivatives of the tested residual

The independent specification is the derivative, along a motion of the mesh nodes, of `Σ ψ R(u, x)`
with `R` the residual vectors of the *residual* integrators (`irVec`, `bndVec` with the slip-wall
flux).
-/

namespace Verif.MeshSens
open Finset Verif.Sbp Verif.Dense Verif.Inviscid Verif.EulerInteg Verif.EulerFluxes Verif.Diffusion

set_option linter.unusedSectionVars false

/-- The element vector tested with `psi`: `Σ ψ(i,n) R(i,n)`, `N` nodes and `ns` fields. -/
def tested (N ns : ℕ) (psi R : ℕ → ℝ) : ℝ := ∑ n ∈ range ns, ∑ i ∈ range N, psi (n * N + i) * R (n * N + i)

/-! ### Bookkeeping -/

theorem insertBar_inner (m i : ℕ) (hi : i < m) (P : ℕ → ℕ → ℝ) (v : ℕ → ℝ) (D : ℕ) (q : ℕ) :
    forN D (fun d v => Function.update v (d * m + i) (P d i)) v q =
      if q % m = i ∧ q / m < D then P (q / m) i else v q := by
  induction D with
  | zero => simp [forN]
  | succ D ih =>
    have hm : 0 < m := by omega
    rw [forN, Function.update_apply, ih]
    by_cases hq : q = D * m + i
    · subst hq
      rw [if_pos rfl, flat_div hi, flat_mod hi]; simp
    · rw [if_neg hq]
      by_cases h1 : q % m = i
      · have h2 : q / m ≠ D := by
          rintro rfl; apply hq; rw [← h1, mul_comm]; exact (Nat.div_add_mod q m).symm
        have h3 : q / m < D + 1 ↔ q / m < D := by omega
        simp [h1, h3]
      · simp [h1]

theorem insertBar_outer (dim m M : ℕ) (hM : M ≤ m) (P : ℕ → ℕ → ℝ) (v : ℕ → ℝ) (d i : ℕ) (hd : d < dim) (hi : i < m) :
    forN M (fun i => forN dim (fun d v => Function.update v (d * m + i) (P d i))) v (d * m + i) =
      if i < M then P d i else v (d * m + i) := by
  induction M with
  | zero => simp [forN]
  | succ M ih =>
    rw [forN, insertBar_inner m M (by omega), flat_mod hi, flat_div hi, ih (by omega)]
    by_cases h : i = M
    · subst h; simp [hd]
    · have : i < M + 1 ↔ i < M := by omega
      simp [h, this]

theorem insertBar_at (dim m : ℕ) (P : ℕ → ℕ → ℝ) (v : ℕ → ℝ) (d i : ℕ) (hd : d < dim) (hi : i < m) :
    insertBar dim m P v (d * m + i) = P d i := by
  unfold insertBar
  rw [insertBar_outer dim m m le_rfl P v d i hd hi, if_pos hi]

/-- The product of a matrix of node adjoints with a direction. -/
def pair (dim m : ℕ) (δ : ℕ → ℝ) (P : ℕ → ℕ → ℝ) : ℝ :=
  ∑ k ∈ range dim, ∑ j ∈ range m, P k j * δ (k * m + j)

theorem insertBar_dot (dim m : ℕ) (P : ℕ → ℕ → ℝ) (v δ : ℕ → ℝ) :
    ∑ q ∈ range (dim * m), insertBar dim m P v q * δ q = pair dim m δ P := by
  rw [sum_flat]
  exact sum_congr rfl fun k hk => sum_congr rfl fun j hj => by
    rw [insertBar_at dim m P v k j (mem_range.1 hk) (mem_range.1 hj)]

theorem pair_addMat (dim m : ℕ) (δ : ℕ → ℝ) (P Q : ℕ → ℕ → ℝ) :
    pair dim m δ (addMat P Q) = pair dim m δ P + pair dim m δ Q := by
  unfold pair addMat
  rw [← sum_add_distrib]
  refine sum_congr rfl fun k _ => ?_
  rw [← sum_add_distrib]
  exact sum_congr rfl fun j _ => by ring

theorem pair_zero (dim m : ℕ) (δ : ℕ → ℝ) : pair dim m δ (fun _ _ => 0) = 0 := by simp [pair]

/-- Frobenius product of arrays. -/
def frobN (n : ℕ) (A B : ℕ → ℕ → ℝ) : ℝ := ∑ k ∈ range n, ∑ q ∈ range n, A k q * B k q

theorem frob_toMat (n : ℕ) (A : ℕ → ℕ → ℝ) (B : Mat n n) : frob (toMat n n A) B = frobN n A (natMat B) := by
  unfold frob frobN toMat
  rw [← Fin.sum_univ_eq_sum_range (fun k => ∑ q ∈ range n, A k q * natMat B k q)]
  refine sum_congr rfl fun a _ => ?_
  rw [← Fin.sum_univ_eq_sum_range (fun q => A a q * natMat B a q)]
  refine sum_congr rfl fun b _ => ?_
  simp [natMat]

theorem frobN_addAt2 (n k di : ℕ) (hk : k < n) (hd : di < n) (x : ℝ) (A B : ℕ → ℕ → ℝ) :
    frobN n (addAt2 k di x A) B = frobN n A B + x * B k di := by
  have h : ∀ a b, addAt2 k di x A a b * B a b = A a b * B a b + if a = k then (if b = di then x * B k di else 0) else 0 := by
    intro a b
    unfold addAt2
    by_cases h1 : a = k <;> by_cases h2 : b = di <;> simp [h1, h2]
    ring
  unfold frobN
  simp only [h, sum_add_distrib]
  congr 1
  rw [sum_eq_single k, sum_eq_single di]
  · simp
  · intro b _ hb; simp [hb]
  · intro hb; exact absurd (mem_range.2 hd) hb
  · intro a _ ha; simp [ha]
  · intro ha; exact absurd (mem_range.2 hk) ha

theorem frobN_zero (n : ℕ) (B : ℕ → ℕ → ℝ) : frobN n (fun _ _ => 0) B = 0 := by simp [frobN]

theorem skew_rev (e : Elem ℝ) (di i j : ℕ) (hd : di < e.dim) (S : ℝ) (s : (ℕ → ℕ → ℝ) × (ℕ → ℕ → ℝ))
    (dA dB : ℕ → ℕ → ℝ) :
    frobN e.dim (getSkewEntryRevDiff e di i j S s).1 dA + frobN e.dim (getSkewEntryRevDiff e di i j S s).2 dB =
      frobN e.dim s.1 dA + frobN e.dim s.2 dB + S * getSkewEntry e di i j dA dB := by
  unfold getSkewEntryRevDiff getSkewEntry
  have : ∀ n ≤ e.dim,
      frobN e.dim (forN n (fun k s => (addAt2 k di (S * e.Q k j i) s.1, addAt2 k di (-(S * e.Q k i j)) s.2)) s).1 dA +
      frobN e.dim (forN n (fun k s => (addAt2 k di (S * e.Q k j i) s.1, addAt2 k di (-(S * e.Q k i j)) s.2)) s).2 dB =
      frobN e.dim s.1 dA + frobN e.dim s.2 dB +
        S * forN n (fun k S => S + (dA k di * e.Q k j i - dB k di * e.Q k i j)) 0 := by
    intro n hn
    induction n with
    | zero => simp [forN]
    | succ n ih =>
      have ih := ih (by omega)
      simp only [forN] at ih ⊢
      rw [frobN_addAt2 _ _ _ (by omega) hd, frobN_addAt2 _ _ _ (by omega) hd]
      linear_combination ih
  exact this _ le_rfl

theorem pairBar_dot (e : Elem ℝ) (ns : ℕ) (alpha : ℝ) (flux : ℕ → (ℕ → ℝ) → (ℕ → ℝ) → (ℕ → ℝ)) (u psi : ℕ → ℝ)
    (i j : ℕ) (aI dA dB : ℕ → ℕ → ℝ) :
    frobN e.dim (pairBar e ns alpha flux u psi i j aI).1 dA + frobN e.dim (pairBar e ns alpha flux u psi i j aI).2 dB =
      frobN e.dim aI dA + ∑ di ∈ range e.dim,
        skewBar ns alpha (flux di (row u e.dof i) (row u e.dof j)) (row psi e.dof i) (row psi e.dof j) *
          getSkewEntry e di i j dA dB := by
  unfold pairBar
  have : ∀ n ≤ e.dim, ∀ r, r = forN n (fun di => getSkewEntryRevDiff e di i j
        (skewBar ns alpha (flux di (row u e.dof i) (row u e.dof j)) (row psi e.dof i) (row psi e.dof j)))
        (aI, fun _ _ => 0) →
      frobN e.dim r.1 dA + frobN e.dim r.2 dB = frobN e.dim aI dA + ∑ di ∈ range n,
        skewBar ns alpha (flux di (row u e.dof i) (row u e.dof j)) (row psi e.dof i) (row psi e.dof j) *
          getSkewEntry e di i j dA dB := by
    intro n hn
    induction n with
    | zero => rintro r rfl; simp [forN, frobN_zero]
    | succ n ih =>
      rintro r rfl
      rw [forN, skew_rev e n i j (by omega), ih (by omega) _ rfl, sum_range_succ]
      ring
  exact this _ le_rfl _ rfl

theorem skewBar_eq (ns : ℕ) (alpha : ℝ) (f a b : ℕ → ℝ) :
    skewBar ns alpha f a b = alpha * ∑ n ∈ range ns, (a n - b n) * f n := by
  unfold skewBar
  have : ∀ N, forN N (fun n s => s + f n * a n - f n * b n) 0 = ∑ n ∈ range N, (a n - b n) * f n := by
    intro N
    induction N with
    | zero => simp [forN]
    | succ N ih => rw [forN, ih, sum_range_succ]; ring
  rw [this]; ring

variable {m : ℕ}

theorem adjRev_dot (e : Elem ℝ) (μ : Motion e.dof e.dim m) (i : ℕ) (hi : i < e.dof) (A : ℕ → ℕ → ℝ) :
    pair e.dim m μ.δ (μ.adjRev i (toMat e.dim e.dim A)) = frobN e.dim A (natMat (μ.adj' i)) := by
  rw [← frob_toMat]; exact μ.hadjRev i hi _

/-- The contribution of a pair of nodes to the derivative. -/
noncomputable def pairTerm (e : Elem ℝ) (ns : ℕ) (alpha : ℝ) (flux : ℕ → (ℕ → ℝ) → (ℕ → ℝ) → (ℕ → ℝ))
    (u psi : ℕ → ℝ) (A : ℕ → ℕ → ℕ → ℝ) (i j : ℕ) : ℝ :=
  ∑ di ∈ range e.dim,
    skewBar ns alpha (flux di (row u e.dof i) (row u e.dof j)) (row psi e.dof i) (row psi e.dof j) *
      getSkewEntry e di i j (A i) (A j)

theorem nodeBar_dot (e : Elem ℝ) (ns : ℕ) (alpha : ℝ) (flux : ℕ → (ℕ → ℝ) → (ℕ → ℝ) → (ℕ → ℝ))
    (μ : Motion e.dof e.dim m) (u psi : ℕ → ℝ) (i : ℕ) (P : ℕ → ℕ → ℝ) :
    pair e.dim m μ.δ (nodeBar e ns alpha flux μ.adjRev u psi i P).2 +
      frobN e.dim (nodeBar e ns alpha flux μ.adjRev u psi i P).1 (natMat (μ.adj' i)) =
    pair e.dim m μ.δ P + ∑ j ∈ Ico (i + 1) e.dof, pairTerm e ns alpha flux u psi (fun i => natMat (μ.adj' i)) i j := by
  unfold nodeBar forFromTo
  rw [sum_Ico_eq_sum_range]
  have : ∀ n ≤ e.dof - (i + 1), ∀ r, r = forN n (fun k s =>
        let ab := pairBar e ns alpha flux u psi i (i + 1 + k) s.1
        (ab.1, addMat s.2 (μ.adjRev (i + 1 + k) (toMat e.dim e.dim ab.2)))) (fun _ _ => (0 : ℝ), P) →
      pair e.dim m μ.δ r.2 + frobN e.dim r.1 (natMat (μ.adj' i)) =
      pair e.dim m μ.δ P + ∑ k ∈ range n, pairTerm e ns alpha flux u psi (fun i => natMat (μ.adj' i)) i (i + 1 + k) := by
    intro n hn
    induction n with
    | zero => rintro r rfl; simp [forN, frobN_zero]
    | succ n ih =>
      rintro r rfl
      have ih := ih (by omega) _ rfl
      rw [forN, sum_range_succ]
      obtain ⟨s, hs⟩ : ∃ s, s = forN n (fun k s =>
        let ab := pairBar e ns alpha flux u psi i (i + 1 + k) s.1
        (ab.1, addMat s.2 (μ.adjRev (i + 1 + k) (toMat e.dim e.dim ab.2)))) (fun _ _ => (0 : ℝ), P) := ⟨_, rfl⟩
      rw [← hs] at ih ⊢
      simp only
      rw [pair_addMat, adjRev_dot e μ _ (by omega)]
      have h := pairBar_dot e ns alpha flux u psi i (i + 1 + n) s.1 (natMat (μ.adj' i)) (natMat (μ.adj' (i + 1 + n)))
      rw [pairTerm]
      linear_combination ih + h
  exact this _ le_rfl _ rfl

theorem dyadic_pair (e : Elem ℝ) (ns : ℕ) (alpha : ℝ) (flux : ℕ → (ℕ → ℝ) → (ℕ → ℝ) → (ℕ → ℝ))
    (μ : Motion e.dof e.dim m) (u psi : ℕ → ℝ) :
    pair e.dim m μ.δ (dyadicPointMat e ns alpha flux μ.adjRev u psi) =
      ∑ i ∈ range e.dof, ∑ j ∈ Ico (i + 1) e.dof,
        pairTerm e ns alpha flux u psi (fun i => natMat (μ.adj' i)) i j := by
  unfold dyadicPointMat
  have : ∀ n ≤ e.dof, ∀ r, r = forN n (fun i P =>
        let s := nodeBar e ns alpha flux μ.adjRev u psi i P
        addMat s.2 (μ.adjRev i (toMat e.dim e.dim s.1))) (fun _ _ => (0 : ℝ)) →
      pair e.dim m μ.δ r = ∑ i ∈ range n, ∑ j ∈ Ico (i + 1) e.dof,
        pairTerm e ns alpha flux u psi (fun i => natMat (μ.adj' i)) i j := by
    intro n hn
    induction n with
    | zero => rintro r rfl; simp [forN, pair_zero]
    | succ n ih =>
      rintro r rfl
      have ih := ih (by omega) _ rfl
      rw [forN, sum_range_succ, ← ih]
      simp only
      rw [pair_addMat, adjRev_dot e μ _ (by omega), nodeBar_dot]
  exact this _ le_rfl _ rfl

theorem natMat_deriv {a b : ℕ} (A : ℝ → Mat a b) (A' : Mat a b) (h : ∀ p q, HasDerivAt (fun t => A t p q) (A' p q) 0)
    (p q : ℕ) : HasDerivAt (fun t => natMat (A t) p q) (natMat A' p q) 0 := by
  unfold natMat
  by_cases hc : p < a ∧ q < b
  · simp only [dif_pos hc]; exact h _ _
  · simp only [dif_neg hc]; exact hasDerivAt_const _ _

/-- The mesh sensitivity of the two-point volume term, for every flux, operator, state and motion. -/
theorem C216_volume_any_flux (e : Elem ℝ) (ns : ℕ) (alpha : ℝ) (flux : ℕ → (ℕ → ℝ) → (ℕ → ℝ) → (ℕ → ℝ))
    (μ : Motion e.dof e.dim m) (u psi v0 : ℕ → ℝ) :
    HasDerivAt (fun t => tested e.dof ns psi (dyadicVec e ns alpha flux (fun i => natMat (μ.adj i t)) u))
      (∑ q ∈ range (e.dim * m), dyadicMeshSens e ns alpha flux μ.adjRev m u psi v0 q * μ.δ q) 0 := by
  rw [dyadicMeshSens, insertBar_dot, dyadic_pair]
  unfold tested
  simp only [C91_tested e ns alpha flux _ u (fun i n => psi (n * e.dof + i))]
  refine (HasDerivAt.const_mul alpha (HasDerivAt.fun_sum fun i hi => HasDerivAt.fun_sum fun j hj =>
    HasDerivAt.fun_sum (A' := fun di => skewSpec e (fun i => natMat (μ.adj' i)) di i j *
      ∑ n ∈ range ns, (psi (n * e.dof + i) - psi (n * e.dof + j)) * flux di (row u e.dof i) (row u e.dof j) n)
      fun di _ => HasDerivAt.mul_const ?_ _)).congr_deriv ?_
  · unfold skewSpec
    rw [mem_range] at hi; rw [mem_Ico] at hj
    exact HasDerivAt.fun_sum fun k _ =>
      ((natMat_deriv _ _ (μ.hadj i hi) k di).mul_const _).fun_sub ((natMat_deriv _ _ (μ.hadj j hj.2) k di).mul_const _)
  · rw [mul_sum]
    refine sum_congr rfl fun i _ => ?_
    rw [mul_sum]
    refine sum_congr rfl fun j _ => ?_
    rw [mul_sum, pairTerm]
    refine sum_congr rfl fun di _ => ?_
    rw [skewBar_eq, skew_eq_spec e (fun i => natMat (μ.adj' i))]
    simp only [row]
    ring

/-- `IsmailRoeMeshSensIntegrator` returns the derivative of the tested Ismail-Roe residual. -/
theorem C216_volume (d : ℕ) (entvar : Bool) (e : Elem ℝ) (alpha : ℝ) (μ : Motion e.dof e.dim m) (u psi v0 : ℕ → ℝ) :
    HasDerivAt (fun t => tested e.dof (d + 2) psi (irVec d entvar e alpha (fun i => natMat (μ.adj i t)) u))
      (∑ q ∈ range (e.dim * m), irMeshSens d entvar e alpha μ.adjRev m u psi v0 q * μ.δ q) 0 :=
  C216_volume_any_flux e (d + 2) alpha (irFlux d entvar) μ u psi v0

/-! ### Boundary -/

/-- A normal operation with its derivative and reverse mode: what MFEM's `CalcOrthoRevDiff` must
return for `CalcOrtho` (both are in MFEM). -/
structure Ortho (d f : ℕ) where
  /-- `CalcOrtho` -/
  ortho : Mat d f → Vec d
  /-- its derivative at `A` in direction `B` -/
  D : Mat d f → Mat d f → Vec d
  /-- `CalcOrthoRevDiff` -/
  rev : Mat d f → Vec d → Mat d f
  hD : ∀ (γ : ℝ → Mat d f) (γ' : Mat d f), (∀ a b, HasDerivAt (fun t => γ t a b) (γ' a b) 0) →
    ∀ k, HasDerivAt (fun t => ortho (γ t) k) (D (γ 0) γ' k) 0
  hrev : ∀ A v B, frob (rev A v) B = dotv v (D A B)

/-- The plane case of `CalcOrtho` has such a reverse mode. -/
noncomputable def planeOrtho : Ortho 2 1 where
  ortho := ortho2
  D := fun _ B => ortho2 B
  rev := fun _ v a _ => if a = 0 then -v 1 else v 0
  hD := by
    intro γ γ' h k
    unfold ortho2
    split_ifs
    · exact h 1 0
    · exact (h 0 0).fun_neg
  hrev := by
    intro A v B
    simp [frob, dotv, ortho2, Fin.sum_univ_two]; ring

/-- The derivative of the cross product of the two tangents. -/
def ortho3D (A B : Mat 3 2) : Vec 3 := fun k =>
  if k = 0 then B 1 0 * A 2 1 + A 1 0 * B 2 1 - (B 2 0 * A 1 1 + A 2 0 * B 1 1)
  else if k = 1 then B 2 0 * A 0 1 + A 2 0 * B 0 1 - (B 0 0 * A 2 1 + A 0 0 * B 2 1)
  else B 0 0 * A 1 1 + A 0 0 * B 1 1 - (B 1 0 * A 0 1 + A 1 0 * B 0 1)

/-- Its transpose. -/
def ortho3Rev (A : Mat 3 2) (v : Vec 3) : Mat 3 2 := fun a b =>
  if b = 0 then
    (if a = 0 then v 2 * A 1 1 - v 1 * A 2 1 else if a = 1 then v 0 * A 2 1 - v 2 * A 0 1
      else v 1 * A 0 1 - v 0 * A 1 1)
  else
    (if a = 0 then v 1 * A 2 0 - v 2 * A 1 0 else if a = 1 then v 2 * A 0 0 - v 0 * A 2 0
      else v 0 * A 1 0 - v 1 * A 0 0)

/-- The space case of `CalcOrtho` has such a reverse mode. -/
noncomputable def spaceOrtho : Ortho 3 2 where
  ortho := ortho3
  D := ortho3D
  rev := ortho3Rev
  hD := by
    intro γ γ' h k
    unfold ortho3 ortho3D
    split_ifs
    · exact ((h 1 0).fun_mul (h 2 1)).fun_sub ((h 2 0).fun_mul (h 1 1))
    · exact ((h 2 0).fun_mul (h 0 1)).fun_sub ((h 0 0).fun_mul (h 2 1))
    · exact ((h 0 0).fun_mul (h 1 1)).fun_sub ((h 1 0).fun_mul (h 0 1))
  hrev := by
    intro A v B
    simp [frob, dotv, ortho3D, ortho3Rev, Fin.sum_univ_two, Fin.sum_univ_three]
    ring

/-- The effect of a motion of the mesh nodes on the boundary nodes of one element: the element Jacobian
moves, the reference map `R` of the face into the element does not, and the face Jacobian is
`Jel R`. `nf` face nodes, `m` mesh nodes, space dimension `d`, face dimension `f`. -/
structure FaceMotion (nf d f m : ℕ) where
  /-- direction of the motion -/
  δ : ℕ → ℝ
  /-- element Jacobian at face node `i` after motion by `t δ` -/
  Jel : ℕ → ℝ → Mat d d
  Jel' : ℕ → Mat d d
  /-- derivative of the element's reference coordinates by the face's -/
  R : ℕ → Mat d f
  /-- physical coordinates -/
  x : ℕ → ℝ → ℕ → ℝ
  /-- quadrature weights -/
  w : ℕ → ℝ
  /-- element node of the face node -/
  node : ℕ → ℕ
  /-- inverse of the Jacobian at `t = 0` -/
  inv : ℕ → Mat d d
  /-- MFEM's `JacobianRevDiff` -/
  jacRev : ℕ → Mat d d → ℕ → ℕ → ℝ
  hJel : ∀ i < nf, ∀ a b, HasDerivAt (fun t => Jel i t a b) (Jel' i a b) 0
  hinv : ∀ i < nf, mulM (inv i) (Jel i 0) = fun a b => if a = b then 1 else 0
  hjacRev : ∀ i < nf, ∀ A : Mat d d,
    ∑ k ∈ range d, ∑ j ∈ range m, jacRev i A k j * δ (k * m + j) = frob A (Jel' i)

variable {nf d f : ℕ}

/-- The face Jacobian. -/
def FaceMotion.Jface (φ : FaceMotion nf d f m) (i : ℕ) (t : ℝ) : Mat d f := mulM (φ.Jel i t) (φ.R i)

/-- What the integrator sees of the undeformed face. -/
def FaceMotion.pt (φ : FaceMotion nf d f m) (i : ℕ) : FacePt d f where
  Jel := φ.Jel i 0
  inv := φ.inv i
  Jface := φ.Jface i 0
  x := φ.x i 0
  w := φ.w i
  node := φ.node i

/-- The face as the residual integrator sees it after motion by `t δ`. -/
def FaceMotion.face (φ : FaceMotion nf d f m) (o : Ortho d f) (t : ℝ) : Face ℝ where
  n := nf
  w := φ.w
  nrm := fun i => natVec (o.ortho (φ.Jface i t))
  x := fun i => φ.x i t
  left := φ.node
  right := fun _ => 0

theorem mulM_assoc {a b c e : ℕ} (A : Mat a b) (B : Mat b c) (C : Mat c e) : mulM (mulM A B) C = mulM A (mulM B C) := by
  funext i j
  unfold mulM
  simp only [sum_mul, mul_sum]
  rw [sum_comm]
  exact sum_congr rfl fun l _ => sum_congr rfl fun k _ => by ring

theorem mulM_one {a b : ℕ} (B : Mat a b) : mulM (fun a b => if a = b then (1 : ℝ) else 0) B = B := by
  funext i j
  simp [mulM]

/-- The map computed by the code is the reference map of the face. -/
theorem jacMap_eq (φ : FaceMotion nf d f m) (i : ℕ) (hi : i < nf) : mulM (φ.inv i) (φ.Jface i 0) = φ.R i := by
  rw [FaceMotion.Jface, ← mulM_assoc, φ.hinv i hi, mulM_one]

theorem frob_multABt (A : Mat d f) (R : Mat d f) (B : Mat d d) : frob (multABt A R) B = frob A (mulM B R) := by
  unfold frob multABt mulM
  simp only [sum_mul, mul_sum]
  refine sum_congr rfl fun i _ => ?_
  rw [sum_comm]
  exact sum_congr rfl fun l _ => sum_congr rfl fun k _ => by ring

theorem bndVec_tested (F : Face ℝ) (N ns : ℕ) (alpha : ℝ) (flux : (ℕ → ℝ) → (ℕ → ℝ) → (ℕ → ℝ) → (ℕ → ℝ)) (u psi : ℕ → ℝ)
    (hl : ∀ i < F.n, F.left i < N) :
    tested N ns psi (bndVec F N ns alpha flux u) =
      ∑ i ∈ range F.n, ∑ n ∈ range ns, row psi N (F.left i) n *
        (alpha * (flux (F.x i) (F.nrm i) (row u N (F.left i)) n * F.w i)) := by
  have h : tested N ns psi (bndVec F N ns alpha flux u) = dotV (ns * N) psi (bndVec F N ns alpha flux u) := by
    rw [dotV_flat]; rfl
  have hs : bndVec F N ns alpha flux u =
      ∑ i ∈ range F.n, ∑ n ∈ range ns, fun p => if p = n * N + F.left i then
        alpha * (flux (F.x i) (F.nrm i) (row u N (F.left i)) n * F.w i) else 0 := by
    unfold bndVec
    rw [(Adds.forN fun i _ => Adds.forN fun n _ => adds_addAt _ _).apply, fun_zero_eq, zero_add]
  rw [h, hs, dotV_sum]
  refine sum_congr rfl fun i hi => ?_
  rw [dotV_sum]
  refine sum_congr rfl fun n hn => ?_
  rw [dotV_single _ _ (flat_lt (hl i (mem_range.1 hi)) (mem_range.1 hn))]
  rfl

/-- The pressure of the slip-wall flux. -/
theorem slipWall_linear (d : ℕ) (entvar : Bool) (x u : ℕ → ℝ) : ∃ p : ℝ, ∀ dir n,
    slipWallFlux d entvar x dir u n = if n = 0 then 0 else if n - 1 < d then dir (n - 1) * p else 0 := by
  refine ⟨if entvar then
      let Vel2 := dot (toState d u).mom (toState d u).mom
      let s := gamma + gami * (1 / 2 * Vel2 / (toState d u).ener - (toState d u).rho);
      (-(-Real.exp (-s) / (toState d u).ener) ^ (1 / gami)) / (toState d u).ener
    else pressure (toState d u), fun dir n => ?_⟩
  unfold slipWallFlux ofState calcSlipWallFlux toDir
  by_cases h0 : n = 0
  · simp [h0]
  · by_cases h1 : n - 1 < d
    · simp only [h0, h1, if_false, if_true, dite_true]
    · simp [h0, h1]

theorem slipWall_x (d : ℕ) (entvar : Bool) (x y dir u : ℕ → ℝ) :
    slipWallFlux d entvar x dir u = slipWallFlux d entvar y dir u := rfl

/-- `calcFluxBar` is the transpose of the (linear) dependence of the slip-wall flux on the normal. -/
theorem C216_slip_wall_flux_bar (d : ℕ) (entvar : Bool) (x dir u bar dn : ℕ → ℝ) :
    ∑ k ∈ range d, slipWallFluxBar d entvar x dir u bar k * dn k =
      ∑ n ∈ range (d + 2), bar n * slipWallFlux d entvar x dn u n := by
  obtain ⟨p, hp⟩ := slipWall_linear d entvar x u
  have hbar : ∀ k < d, slipWallFluxBar d entvar x dir u bar k = bar (k + 1) * p := by
    intro k hk
    unfold slipWallFluxBar stackAdjoint
    simp only [hp]
    rw [sum_eq_single (k + 1)]
    · have : (fun t => if k + 1 = 0 then (0 : ℝ) else if k + 1 - 1 < d then
          Function.update dir k t (k + 1 - 1) * p else 0) = fun t => t * p := by
        funext t; simp [hk]
      rw [this, ((hasDerivAt_id' (dir k)).mul_const p).deriv, one_mul]
    · intro n _ hn
      have : (fun t => if n = 0 then (0 : ℝ) else if n - 1 < d then
          Function.update dir k t (n - 1) * p else 0) =
          fun _ => if n = 0 then (0 : ℝ) else if n - 1 < d then dir (n - 1) * p else 0 := by
        funext t
        by_cases h0 : n = 0
        · simp [h0]
        · rw [Function.update_of_ne (by omega)]
      rw [this, deriv_const, mul_zero]
    · intro h; exact absurd (mem_range.2 (by omega)) h
  rw [sum_congr rfl fun k hk => by rw [hbar k (mem_range.1 hk)], sum_range_succ, sum_range_succ']
  simp only [hp]
  rw [if_pos trivial, mul_zero, add_zero, if_neg (by omega), if_neg (by omega), mul_zero, add_zero]
  refine sum_congr rfl fun k hk => ?_
  rw [if_neg (by omega), if_pos (by have := mem_range.1 hk; omega), Nat.add_sub_cancel]
  ring

/-- `SlipWallBCMeshSens` returns the derivative of the tested slip-wall boundary residual, for every
state (no admissibility is needed) and every motion of the mesh. -/
theorem C216_slip_wall (entvar : Bool) (o : Ortho d f) (φ : FaceMotion nf d f m) (N : ℕ) (alpha : ℝ)
    (hl : ∀ i < nf, φ.node i < N) (u psi v0 : ℕ → ℝ) :
    HasDerivAt (fun t => tested N (d + 2) psi (bndVec (φ.face o t) N (d + 2) alpha (slipWallFlux d entvar) u))
      (∑ q ∈ range (d * m), bndMeshSens o.ortho o.rev φ.jacRev nf N m alpha (slipWallFluxBar d entvar) φ.pt u psi v0 q *
        φ.δ q) 0 := by
  have hr : ∀ M ≤ nf, pair d m φ.δ (forN M (fun i P => addMat P (φ.jacRev i
      (facePtBar o.ortho o.rev N alpha (slipWallFluxBar d entvar) u psi (φ.pt i)))) (fun _ _ => 0)) =
      ∑ i ∈ range M, frob (facePtBar o.ortho o.rev N alpha (slipWallFluxBar d entvar) u psi (φ.pt i)) (φ.Jel' i) := by
    intro M hM
    induction M with
    | zero => simp [forN, pair_zero]
    | succ M ih =>
      rw [forN, pair_addMat, ih (by omega), sum_range_succ]
      congr 1
      exact φ.hjacRev M (by omega) _
  rw [bndMeshSens, insertBar_dot, hr nf le_rfl]
  simp only [fun t => bndVec_tested (φ.face o t) N (d + 2) alpha (slipWallFlux d entvar) u psi hl]
  change HasDerivAt (fun t => ∑ i ∈ range nf, ∑ n ∈ range (d + 2), row psi N (φ.node i) n *
    (alpha * (slipWallFlux d entvar (φ.x i t) (natVec (o.ortho (φ.Jface i t))) (row u N (φ.node i)) n * φ.w i))) _ 0
  refine HasDerivAt.fun_sum fun i hi => ?_
  rw [mem_range] at hi
  have hJf : ∀ a b, HasDerivAt (fun t => φ.Jface i t a b) (mulM (φ.Jel' i) (φ.R i) a b) 0 := by
    intro a b
    unfold FaceMotion.Jface mulM
    exact HasDerivAt.fun_sum fun l _ => (φ.hJel i hi a l).mul_const _
  have hn := o.hD (φ.Jface i) _ hJf
  obtain ⟨n', hn'⟩ : ∃ n', n' = o.D (φ.Jface i 0) (mulM (φ.Jel' i) (φ.R i)) := ⟨_, rfl⟩
  rw [← hn'] at hn
  have hnv : ∀ k, HasDerivAt (fun t => natVec (o.ortho (φ.Jface i t)) k) (natVec n' k) 0 := by
    intro k
    unfold natVec
    by_cases hk : k < d
    · simp only [dif_pos hk]; exact hn _
    · simp only [dif_neg hk]; exact hasDerivAt_const _ _
  have hfl : ∀ n, HasDerivAt (fun t => slipWallFlux d entvar (φ.x i t) (natVec (o.ortho (φ.Jface i t)))
      (row u N (φ.node i)) n) (slipWallFlux d entvar (φ.x i 0) (natVec n') (row u N (φ.node i)) n) 0 := by
    intro n
    obtain ⟨p, hp⟩ := slipWall_linear d entvar (φ.x i 0) (row u N (φ.node i))
    simp only [slipWall_x d entvar (φ.x i _) (φ.x i 0), hp]
    split_ifs
    · exact hasDerivAt_const _ _
    · exact (hnv _).mul_const _
    · exact hasDerivAt_const _ _
  refine (HasDerivAt.fun_sum fun n _ => (((hfl n).mul_const (φ.w i)).const_mul alpha).const_mul
    (row psi N (φ.node i) n)).congr_deriv ?_
  unfold facePtBar
  simp only
  change _ = frob (multABt (o.rev (φ.Jface i 0) _) (mulM (φ.inv i) (φ.Jface i 0))) _
  rw [jacMap_eq φ i hi, frob_multABt, o.hrev, ← hn']
  have hb := C216_slip_wall_flux_bar d entvar (φ.x i 0) (natVec (o.ortho (φ.Jface i 0))) (row u N (φ.node i))
    (row psi N (φ.node i)) (natVec n')
  unfold dotv
  have h2 : ∀ k : Fin d, n' k = natVec n' k := by intro k; simp [natVec]
  simp only [h2]
  rw [Fin.sum_univ_eq_sum_range (fun k => slipWallFluxBar d entvar (φ.pt i).x (natVec (o.ortho (φ.pt i).Jface))
    (row u N (φ.pt i).node) (row psi N (φ.pt i).node) k * ((φ.pt i).w * alpha) * natVec n' k) d]
  change _ = ∑ k ∈ range d, slipWallFluxBar d entvar (φ.x i 0) (natVec (o.ortho (φ.Jface i 0))) (row u N (φ.node i))
    (row psi N (φ.node i)) k * (φ.w i * alpha) * natVec n' k
  rw [show ∑ k ∈ range d, slipWallFluxBar d entvar (φ.x i 0) (natVec (o.ortho (φ.Jface i 0))) (row u N (φ.node i))
    (row psi N (φ.node i)) k * (φ.w i * alpha) * natVec n' k = (φ.w i * alpha) *
    ∑ k ∈ range d, slipWallFluxBar d entvar (φ.x i 0) (natVec (o.ortho (φ.Jface i 0))) (row u N (φ.node i))
    (row psi N (φ.node i)) k * natVec n' k by rw [mul_sum]; exact sum_congr rfl fun _ _ => by ring, hb, mul_sum]
  exact sum_congr rfl fun n _ => by ring

/-! ### Non-vacuity -/

/-- A two-dimensional isoparametric element gives such a boundary motion. -/
noncomputable def isoFaceMotion (nf m : ℕ) (dN : ℕ → ℕ → Fin 2 → ℝ) (X δ : ℕ → ℝ) (R : ℕ → Mat 2 1) (w : ℕ → ℝ)
    (node : ℕ → ℕ) (h : ∀ i < nf, det2 (isoJac m (dN i) X) ≠ 0) : FaceMotion nf 2 1 m where
  δ := δ
  Jel := fun i t => isoJac m (dN i) fun q => X q + t * δ q
  Jel' := fun i => isoJac m (dN i) δ
  R := R
  x := fun _ _ _ => 0
  w := w
  node := node
  inv := fun i a b => adj2 (isoJac m (dN i) X) a b / det2 (isoJac m (dN i) X)
  jacRev := fun i A k j => if h : k < 2 then ∑ b, A ⟨k, h⟩ b * dN i j b else 0
  hJel := fun i _ a b => isoJac_hasDerivAt m (dN i) X δ a b
  hinv := by
    intro i hi
    have hd := h i hi
    have h0 : (fun q => X q + 0 * δ q) = X := by funext q; ring
    rw [h0]
    obtain ⟨M, hM⟩ : ∃ M, M = isoJac m (dN i) X := ⟨_, rfl⟩
    rw [← hM] at hd ⊢
    obtain ⟨D, hD⟩ : ∃ D, D = det2 M := ⟨_, rfl⟩
    rw [← hD] at hd ⊢
    have hD' : D = M 0 0 * M 1 1 - M 0 1 * M 1 0 := hD
    funext a b
    unfold mulM adj2
    fin_cases a <;> fin_cases b <;> simp [Fin.sum_univ_two] <;> field_simp <;> (try rw [hD']) <;> ring
  hjacRev := by
    intro i _ A
    simp only [sum_range_succ, range_zero, sum_empty, zero_add, dif_pos (show 0 < 2 by norm_num),
      dif_pos (show 1 < 2 by norm_num)]
    simp only [frob, Fin.sum_univ_two, isoJac, zero_mul, zero_add, one_mul, Fin.val_zero, Fin.val_one, mul_sum]
    simp only [← sum_add_distrib]
    refine sum_congr rfl fun j _ => ?_
    change (A 0 0 * dN i j 0 + A 0 1 * dN i j 1) * δ j + (A 1 0 * dN i j 0 + A 1 1 * dN i j 1) * δ (m + j) = _
    ring

/-- Gradients of the three linear shape functions of a triangle. -/
def triDN : ℕ → Fin 2 → ℝ
  | 0 => fun _ => -1
  | 1 => fun b => if b = 0 then 1 else 0
  | _ => fun b => if b = 0 then 0 else 1

/-- Vertices (0,0), (2,0), (0,1). -/
def triX : ℕ → ℝ := fun q => if q = 1 then 2 else if q = 5 then 1 else 0

theorem triJac : isoJac 3 triDN triX = fun a b => if a = b then (if a = 0 then 2 else 1) else 0 := by
  funext a b
  fin_cases a <;> fin_cases b <;> simp [isoJac, sum_range_succ, triDN, triX]

theorem tri_det (i : ℕ) (_ : i < 2) : det2 (isoJac 3 triDN triX) ≠ 0 := by
  rw [triJac]; simp [det2]

/-- The lower edge of the triangle, its vertex (2,0) moving upwards. -/
noncomputable def triEdge : FaceMotion 2 2 1 3 :=
  isoFaceMotion 2 3 (fun _ => triDN) triX (fun q => if q = 4 then 1 else 0) (fun _ a _ => if a = 0 then 1 else 0)
    (fun _ => 1 / 2) (fun i => i) tri_det

/-- The normal of the lower edge turns when the vertex moves: the hypotheses describe a mesh motion that
changes the residual. -/
example : (∀ i < 2, triEdge.node i < 3) ∧ planeOrtho.ortho (triEdge.Jface 0 0) 1 = -2 ∧
    planeOrtho.D (triEdge.Jface 0 0) (mulM (triEdge.Jel' 0) (triEdge.R 0)) 0 = 1 := by
  refine ⟨fun i hi => by change i < 3; omega, ?_, ?_⟩
  · simp [planeOrtho, ortho2, FaceMotion.Jface, triEdge, isoFaceMotion, mulM, isoJac, sum_range_succ, triDN, triX]
  · simp [planeOrtho, ortho2, triEdge, isoFaceMotion, mulM, isoJac, sum_range_succ, triDN]

/-- The volume theorem applies to a moving triangle whose adjugate changes. -/
example : (isoMotion 3 3 (fun _ => triDN) triX (fun q => if q = 4 then 1 else 0)).adj' 0 1 0 = -1 := by
  simp [isoMotion, adj2, isoJac, sum_range_succ, triDN]

end Verif.MeshSens
