import Verif.Projector
import Mathlib.Algebra.Field.Rat
import Mathlib.Data.Rat.Defs
import Mathlib.Tactic.Ring
import Mathlib.Tactic.Abel
import Mathlib.Tactic.FinCases
import Mathlib.LinearAlgebra.Matrix.Notation

/-! # Projectors: property theorems (C47) -/

set_option linter.unusedSectionVars false

namespace Verif.Projector

open Matrix Verif.Warper

variable {K : Type} {n h : ℕ} [Field K] (ess : Fin h → Prop) [DecidablePred ess] (solve : Matrix (Fin h) (Fin h) K → Vec h K → Vec h K)

/-! ## Specification -/

/-- What MFEM guarantees for the three forms on one mesh with a common quadrature rule: `weak_div = -GᵀM` and `diffusion = GᵀMG` for the (symmetric) Nédélec mass matrix `M`. -/
def Compatible (F : Forms n h K) : Prop := ∃ M : Matrix (Fin n) (Fin n) K, Mᵀ = M ∧ F.W = -(F.Gᵀ * M) ∧ F.D = F.Gᵀ * M * F.G

/-- The inner solve is exact for the systems the projector of the forms `F` poses (forward and transposed). -/
def Exact (F : Forms n h K) : Prop :=
  (∀ b, elim ess F.D *ᵥ solve (elim ess F.D) b = b) ∧ (∀ b, (elim ess F.D)ᵀ *ᵥ solve (elim ess F.D)ᵀ b = b)

/-- The eliminated diffusion matrix is nonsingular (the Laplacian with Dirichlet conditions). -/
def Nonsingular (F : Forms n h K) : Prop := ∀ v, elim ess F.D *ᵥ v = 0 → v = 0

/-! ## Lemmas -/

theorem elim_row_ess (A : Matrix (Fin h) (Fin h) K) (v : Vec h K) (i : Fin h) (hi : ess i) : (elim ess A *ᵥ v) i = v i := by
  simp [mulVec, dotProduct, elim, hi]

theorem elim_row_free (A : Matrix (Fin h) (Fin h) K) (v : Vec h K) (hv : ∀ j, ess j → v j = 0) (i : Fin h) (hi : ¬ ess i) : (elim ess A *ᵥ v) i = (A *ᵥ v) i := by
  simp only [mulVec, dotProduct]
  apply Finset.sum_congr rfl
  intro j _
  by_cases hj : ess j
  · simp [hv j hj]
  · simp [elim, hi, hj]

variable {F : Forms n h K}

theorem solveEss_ess (hE : ∀ b, elim ess F.D *ᵥ solve (elim ess F.D) b = b) (b : Vec h K) (i : Fin h) (hi : ess i) : solveEss ess solve F.D b i = 0 := by
  have := congrFun (hE (zeroEss ess b)) i
  rw [elim_row_ess ess _ _ i hi] at this
  rw [solveEss, this]; simp [zeroEss, hi]

theorem solveEss_free (hE : ∀ b, elim ess F.D *ᵥ solve (elim ess F.D) b = b) (b : Vec h K) (i : Fin h) (hi : ¬ ess i) : (F.D *ᵥ solveEss ess solve F.D b) i = b i := by
  have := congrFun (hE (zeroEss ess b)) i
  have h2 := elim_row_free ess F.D (solveEss ess solve F.D b) (fun j hj => solveEss_ess ess solve hE b j hj) i hi
  rw [← h2, solveEss, this]; simp [zeroEss, hi]

/-! ## C47 -/

/-- C47.  The two projectors split the input: their results add up to `x` (for every solver, exact or not). -/
theorem C47_split (F : Forms n h K) (x : Vec n K) : irrotMult ess solve F x + divFreeMult ess solve F x = x := by
  simp [divFreeMult]

/-- C47.  The irrotational part is the discrete gradient of a potential vanishing on the boundary. -/
theorem C47_irrotational (hE : Exact ess solve F) (x : Vec n K) : ∃ psi : Vec h K, (∀ i, ess i → psi i = 0) ∧ irrotMult ess solve F x = F.G *ᵥ psi :=
  ⟨_, fun i hi => solveEss_ess ess solve hE.1 _ i hi, rfl⟩

/-- C47.  The divergence-free part has zero weak divergence against every interior H1 test function. -/
theorem C47_weak_divergence_zero (hC : Compatible F) (hE : Exact ess solve F) (x : Vec n K) (i : Fin h) (hi : ¬ ess i) : (F.W *ᵥ divFreeMult ess solve F x) i = 0 := by
  obtain ⟨M, -, hW, hD⟩ := hC
  have h1 : F.W *ᵥ irrotMult ess solve F x = -(F.D *ᵥ solveEss ess solve F.D (-(F.W *ᵥ x))) := by
    rw [irrotMult, mulVec_mulVec, hW, hD, Matrix.neg_mul, neg_mulVec]
  have h2 := solveEss_free ess solve hE.1 (-(F.W *ᵥ x)) i hi
  rw [divFreeMult, mulVec_neg, mulVec_sub, h1]
  simp only [Pi.neg_apply, Pi.sub_apply] at h2 ⊢
  rw [h2]; ring

/-- C47.  Both projectors are idempotent (exact solves, nonsingular Laplacian). -/
theorem C47_idempotent (hC : Compatible F) (hE : Exact ess solve F) (hN : Nonsingular ess F) (x : Vec n K) :
    divFreeMult ess solve F (divFreeMult ess solve F x) = divFreeMult ess solve F x ∧ irrotMult ess solve F (irrotMult ess solve F x) = irrotMult ess solve F x := by
  have hz : ∀ b : Vec h K, (∀ i, ¬ ess i → b i = 0) → solveEss ess solve F.D b = 0 := by
    intro b hb
    apply hN
    rw [solveEss, hE.1]
    funext i
    by_cases hi : ess i <;> simp [zeroEss, hi, hb]
  have hdf : ∀ y, irrotMult ess solve F (divFreeMult ess solve F y) = 0 := by
    intro y
    rw [irrotMult, hz _ (fun i hi => by rw [Pi.neg_apply, C47_weak_divergence_zero ess solve hC hE y i hi, neg_zero]), mulVec_zero]
  have hinj : ∀ u v, elim ess F.D *ᵥ u = elim ess F.D *ᵥ v → u = v := by
    intro u v huv
    exact sub_eq_zero.1 (hN _ (by rw [mulVec_sub, huv, sub_self]))
  constructor
  · conv_lhs => rw [divFreeMult]
    rw [hdf]; simp
  · have key : solveEss ess solve F.D (-(F.W *ᵥ irrotMult ess solve F x)) = solveEss ess solve F.D (-(F.W *ᵥ x)) := by
      apply hinj
      rw [solveEss, solveEss, hE.1, hE.1]
      funext i
      by_cases hi : ess i
      · simp [zeroEss, hi]
      · have := C47_weak_divergence_zero ess solve hC hE x i hi
        rw [divFreeMult, mulVec_neg, mulVec_sub] at this
        simp only [zeroEss, hi, if_false, Pi.neg_apply, Pi.sub_apply, neg_eq_zero, sub_eq_zero] at this ⊢
        rw [this]
    rw [irrotMult, key]; rfl

/-- C47.  A divergence-free input (zero weak divergence on the interior) passes through unchanged, and a gradient of a potential vanishing on the boundary is removed entirely. -/
theorem C47_fixes_divfree_kills_gradients (hC : Compatible F) (hE : Exact ess solve F) (hN : Nonsingular ess F) :
    (∀ x, (∀ i, ¬ ess i → (F.W *ᵥ x) i = 0) → divFreeMult ess solve F x = x) ∧ ∀ psi : Vec h K, (∀ i, ess i → psi i = 0) → divFreeMult ess solve F (F.G *ᵥ psi) = 0 := by
  have hinj : ∀ u v, elim ess F.D *ᵥ u = elim ess F.D *ᵥ v → u = v := by
    intro u v huv
    exact sub_eq_zero.1 (hN _ (by rw [mulVec_sub, huv, sub_self]))
  constructor
  · intro x hx
    have : solveEss ess solve F.D (-(F.W *ᵥ x)) = 0 := by
      apply hN
      rw [solveEss, hE.1]
      funext i
      by_cases hi : ess i <;> simp [zeroEss, hi, hx]
    rw [divFreeMult, irrotMult, this]; simp
  · intro psi hpsi
    have : solveEss ess solve F.D (-(F.W *ᵥ (F.G *ᵥ psi))) = psi := by
      apply hinj
      rw [solveEss, hE.1]
      funext i
      by_cases hi : ess i
      · rw [elim_row_ess ess _ _ i hi]; simp [zeroEss, hi, hpsi i hi]
      · rw [elim_row_free ess F.D _ hpsi i hi]
        obtain ⟨M, -, hW, hD⟩ := hC
        simp only [zeroEss, hi, if_false]
        rw [mulVec_mulVec, hW, hD, Matrix.neg_mul, neg_mulVec, neg_neg]
    rw [divFreeMult, irrotMult, this]; simp

/-- C47.  The reverse product with respect to the input is the exact transpose of the (linear) projection, accumulated onto the caller's vector. -/
theorem C47_vjp_is_transpose (hE : Exact ess solve F) (hsym : (F.D)ᵀ = F.D) (x pb wb : Vec n K) :
    (divFreeVjpIn ess solve F pb wb - wb) ⬝ᵥ x = pb ⬝ᵥ divFreeMult ess solve F x := by
  have helimT : (elim ess F.D)ᵀ = elim ess F.D := by
    ext i j
    have hs : F.D j i = F.D i j := congrFun (congrFun hsym i) j
    simp only [transpose_apply, elim, hs]
    by_cases hc : ess i ∨ ess j
    · rw [if_pos hc, if_pos (Or.symm hc)]
      by_cases hij : i = j <;> simp [hij, eq_comm]
    · rw [if_neg hc, if_neg (fun hh => hc (Or.symm hh))]
  set b := -(F.W *ᵥ x) with hb
  set c := -(F.Gᵀ *ᵥ (-pb)) with hc
  set A := elim ess F.D with hA
  set u := solve A (zeroEss ess b) with hu
  set v := solve Aᵀ (zeroEss ess c) with hv
  have hAu : A *ᵥ u = zeroEss ess b := hE.1 _
  have hAv : Aᵀ *ᵥ v = zeroEss ess c := hE.2 _
  have huess : ∀ i, ess i → u i = 0 := fun i hi => by
    have := congrFun hAu i; rw [hA, elim_row_ess ess _ _ i hi] at this; rw [this]; simp [zeroEss, hi]
  have hvess : ∀ i, ess i → v i = 0 := fun i hi => by
    have := congrFun hAv i; rw [helimT, elim_row_ess ess _ _ i hi] at this; rw [this]; simp [zeroEss, hi]
  have hz : ∀ (a w : Vec h K), (∀ i, ess i → w i = 0) → zeroEss ess a ⬝ᵥ w = a ⬝ᵥ w := by
    intro a w hw
    apply Finset.sum_congr rfl
    intro i _
    by_cases hi : ess i <;> simp [zeroEss, hi, hw]
  have e1 : c ⬝ᵥ u = b ⬝ᵥ v := by
    rw [← hz c u huess, ← hz b v hvess, ← hAu, ← hAv, mulVec_transpose, ← dotProduct_mulVec, dotProduct_comm]
  have e2 : (F.Wᵀ *ᵥ v) ⬝ᵥ x = -(b ⬝ᵥ v) := by
    rw [hb, neg_dotProduct, neg_neg, mulVec_transpose, ← dotProduct_mulVec, dotProduct_comm]
  have e3 : pb ⬝ᵥ (F.G *ᵥ u) = c ⬝ᵥ u := by
    rw [hc, mulVec_neg, neg_neg, dotProduct_mulVec, mulVec_transpose]
  have lhs : divFreeVjpIn ess solve F pb wb - wb = F.Wᵀ *ᵥ v + pb := by
    rw [divFreeVjpIn, irrotVjpIn]; abel
  have rhs : divFreeMult ess solve F x = x - F.G *ᵥ u := by
    rw [divFreeMult, neg_sub]; rfl
  rw [lhs, rhs, add_dotProduct, dotProduct_sub, e2, e3, e1]; ring

/-- The protocol: after every mesh motion the projector is told (inputs containing `"mesh_coords"`) before it is applied again. -/
def Protocol : Bool → List (Op n h K) → Prop
  | _, [] => True
  | _, .move _ :: os => Protocol false os
  | told, .inputs b :: os => Protocol (told || b) os
  | told, .mult _ :: os => told = true ∧ Protocol true os
  | told, .vjpIn _ _ :: os => told = true ∧ Protocol true os

/-- C47.  Under any history obeying the protocol, an application uses the forms of the current mesh, never stale ones. -/
theorem C47_never_stale (junk : Forms n h K) (F0 : Forms n h K) (os : List (Op n h K)) (x : Vec n K) (hp : Protocol true (os ++ [.mult x])) :
    (step ess solve (run ess solve ⟨F0, construct junk⟩ os) (.mult x)).2 = some (divFreeMult ess solve (run ess solve ⟨F0, construct junk⟩ os).now x) := by
  have main : ∀ (os : List (Op n h K)) (told : Bool) (w : World n h K), (told = true → w.proj.dirty = true ∨ w.proj.forms = w.now) →
      Protocol told (os ++ [.mult x]) →
      (step ess solve (run ess solve w os) (.mult x)).2 = some (divFreeMult ess solve (run ess solve w os).now x) := by
    intro os
    induction os with
    | nil =>
      intro told w hinv hp
      have htold : told = true := hp.1
      rcases hinv htold with hd | hf
      · simp [run, step, refresh, hd]
      · simp only [run, step, refresh]
        by_cases hdd : w.proj.dirty = true
        · simp [hdd]
        · simp [hdd, hf]
    | cons o os ih =>
      intro told w hinv hp
      cases o with
      | move F => exact ih false _ (by simp) hp
      | inputs b =>
        refine ih (told || b) _ ?_ hp
        intro ht
        cases b
        · simpa [step, setInputs] using hinv (by simpa using ht)
        · left; simp [step, setInputs]
      | mult y =>
        refine ih true _ ?_ hp.2
        intro _
        right
        have ht := hinv hp.1
        simp only [step, refresh]
        by_cases hdd : w.proj.dirty = true
        · simp [hdd]
        · simpa [hdd] using ht
      | vjpIn a b =>
        refine ih true _ ?_ hp.2
        intro _
        right
        have ht := hinv hp.1
        simp only [step, refresh]
        by_cases hdd : w.proj.dirty = true
        · simp [hdd]
        · simpa [hdd] using ht
  exact main os true _ (by intro _; left; rfl) hp

/-! Non-vacuity: one edge-chain with two H1 dofs, one of them on the boundary, mass matrix 2. -/

/-- Forms of a one-edge, two-vertex mesh with mass 2. -/
def exF : Forms 1 2 ℚ := ⟨!![2, -2; -2, 2], !![2; -2], !![-1, 1]⟩

/-- Exact solver for the two systems of `exF` with dof 0 essential (both are `diag(1, 2)`). -/
def exSolve : Matrix (Fin 2) (Fin 2) ℚ → Vec 2 ℚ → Vec 2 ℚ := fun _ b i => if i = 0 then b 0 else b 1 / 2

theorem exElim : elim (fun i : Fin 2 => i = 0) exF.D = !![1, 0; 0, 2] := by
  ext i j; fin_cases i <;> fin_cases j <;> decide +kernel

example : Compatible exF ∧ Exact (fun i : Fin 2 => i = 0) exSolve exF ∧ Nonsingular (fun i : Fin 2 => i = 0) exF ∧ exF.Dᵀ = exF.D := by
  refine ⟨⟨!![2], ?_, ?_, ?_⟩, ⟨?_, ?_⟩, ?_, ?_⟩
  · decide +kernel
  · decide +kernel
  · decide +kernel
  · intro b; rw [exElim]; funext i; fin_cases i <;> simp [exSolve, mulVec, dotProduct, Fin.sum_univ_two] ; ring
  · intro b; rw [exElim]; funext i; fin_cases i <;> simp [exSolve, mulVec, dotProduct, Fin.sum_univ_two] ; ring
  · intro v hv; rw [exElim] at hv
    have h0 := congrFun hv 0
    have h1 := congrFun hv 1
    simp [mulVec, dotProduct, Fin.sum_univ_two] at h0 h1
    funext i; fin_cases i <;> simp [h0, h1]
  · decide +kernel

/-- The protocol is necessary: a mesh motion that is not announced leaves the projector using the old forms. -/
theorem C47_false_unannounced_motion : ∃ (os : List (Op 1 1 ℚ)) (F0 : Forms 1 1 ℚ) (x : Vec 1 ℚ),
    (step (fun _ => False) (fun A b => fun i => b i / A i i) (run (fun _ => False) (fun A b => fun i => b i / A i i) ⟨F0, construct F0⟩ os) (.mult x)).2 ≠
      some (divFreeMult (fun _ => False) (fun A b => fun i => b i / A i i) (run (fun _ => False) (fun A b => fun i => b i / A i i) ⟨F0, construct F0⟩ os).now x) := by
  refine ⟨[.mult (fun _ => 1), .move ⟨1, 0, 1⟩], ⟨1, -1, 1⟩, fun _ => 1, ?_⟩
  intro he
  have := congrFun (Option.some.inj he) 0
  revert this
  decide +kernel

end Verif.Projector
