import Verif.Force
import Verif.LossesIntegProps
import Mathlib.Tactic.FieldSimp

/-! Lemmas for the force and torque outputs. -/

namespace Verif.Force
open Finset Verif.Sbp Verif.Dense Verif.Diffusion Verif.Losses

set_option linter.unusedSimpArgs false
set_option linter.unusedSectionVars false

variable {ndof dim m a b k : ℕ}

/-- `xᵀ Y y`. -/
def bil (Y : Mat a b) (x : Vec a) (y : Vec b) : ℝ := dotv x (mulV Y y)

theorem bil_eq (Y : Mat a b) (x : Vec a) (y : Vec b) : bil Y x y = ∑ i, ∑ j, x i * Y i j * y j := by
  unfold bil dotv mulV
  simp only [mul_sum]
  exact sum_congr rfl fun i _ => sum_congr rfl fun j _ => by ring

theorem bil_eq' (Y : Mat a b) (x : Vec a) (y : Vec b) : bil Y x y = dotv (mulTV Y x) y := dotv_mulV Y y x

theorem frob_comm (A B : Mat a b) : frob A B = frob B A :=
  sum_congr rfl fun _ _ => sum_congr rfl fun _ _ => mul_comm _ _

theorem frob_vwt (x : Vec a) (y : Vec b) (Y : Mat a b) : frob (vwt x y) Y = bil Y x y := by
  rw [bil_eq]; unfold frob vwt
  exact sum_congr rfl fun i _ => sum_congr rfl fun j _ => by ring

theorem frob_transpose (A : Mat a b) (B : Mat b a) : frob (transpose A) B = frob A (transpose B) := by
  unfold frob transpose; rw [sum_comm]

theorem frob_smul (c : ℝ) (A B : Mat a b) : frob (fun i j => c * A i j) B = c * frob A B := by
  unfold frob; simp only [mul_sum]
  exact sum_congr rfl fun i _ => sum_congr rfl fun j _ => by ring

theorem dBds_eq (p : FPt ndof dim m) (u : Vec ndof) (X : Mat m dim) :
    p.dBds u X = frob (p.dbdJ u) (p.dJds X) := by
  unfold FPt.dBds FPt.dJds frob mulAtB addABt zeroM
  simp only [zero_add, sum_mul, mul_sum]
  calc ∑ j, ∑ k, ∑ l, p.dbdJ u k l * p.dshape j l * X j k
      = ∑ k, ∑ j, ∑ l, p.dbdJ u k l * p.dshape j l * X j k := sum_comm
    _ = ∑ k, ∑ l, ∑ j, p.dbdJ u k l * p.dshape j l * X j k := sum_congr rfl fun k _ => sum_comm
    _ = _ := sum_congr rfl fun k _ => sum_congr rfl fun l _ => sum_congr rfl fun j _ => by ring

theorem dBds_three (hd : dim = 3) (p : FPt ndof dim m) (u : Vec ndof) (X : Mat m dim) :
    p.dBds u X = -norm2 (p.bvec u) / p.J ^ 2 * frob (transpose p.adj) (p.dJds X) +
      bil (p.dJds X) (p.bvec u) (mulTV p.cs u) / (p.J * norm2 (p.bvec u)) := by
  rw [dBds_eq]
  unfold FPt.dbdJ
  simp only [if_pos hd]
  rw [← frob_vwt]
  unfold frob addM transpose zeroM
  simp only [mul_sum, sum_div, ← sum_add_distrib]
  exact sum_congr rfl fun i _ => sum_congr rfl fun j _ => by ring

theorem dBds_two (hd : dim ≠ 3) (p : FPt ndof dim m) (u : Vec ndof) (X : Mat m dim) :
    p.dBds u X = -bil (p.dJds X) (p.bvec u) (mulV p.adj (p.bvec u)) / (norm2 (p.bvec u) * p.J ^ 2) := by
  rw [dBds_eq]
  unfold FPt.dbdJ
  simp only [if_neg hd]
  rw [← frob_vwt]
  unfold frob addVWt vwt zeroM
  simp only [← sum_neg_distrib, sum_div]
  exact sum_congr rfl fun i _ => sum_congr rfl fun j _ => by ring

theorem dbdJBar_eq (E : En) (p : FPt ndof dim m) (u : Vec ndof) (X : Mat m dim) :
    dbdJBar E p u X = fun i j => -(p.w * p.J * E.e1 (p.bmag u)) * p.dJds X i j := by
  funext i j
  unfold dbdJBar mulM FPt.dJds mulAtB
  simp only [mul_sum]
  exact sum_congr rfl fun l _ => by ring

/-- `⟨I t (Y)ᵀ, B⟩`-type contraction: the reverse of `tr(inv * Y)` with respect to `inv`. -/
theorem trace_mulM (A B : Mat a a) : trace (mulM A B) = frob A (transpose B) := rfl

theorem bil_add_left (Y : Mat a b) (x x' : Vec a) (y : Vec b) :
    bil Y (fun i => x i + x' i) y = bil Y x y + bil Y x' y := dotv_add_left _ _ _

theorem hasDerivAt_bil (Y : Mat a b) (x : ℝ → Vec a) (y : ℝ → Vec b) (x' : Vec a) (y' : Vec b)
    (hx : ∀ i, HasDerivAt (fun s => x s i) (x' i) 0) (hy : ∀ i, HasDerivAt (fun s => y s i) (y' i) 0) :
    HasDerivAt (fun t => bil Y (x t) (y t)) (bil Y x' (y 0) + bil Y (x 0) y') 0 := by
  unfold bil
  refine hasDerivAt_dotv x (fun t => mulV Y (y t)) x' (mulV Y y') 0 hx fun i => ?_
  unfold mulV
  exact HasDerivAt.fun_sum fun j _ => (hy j).const_mul _

theorem hasDerivAt_mulV (A : ℝ → Mat a b) (A' : Mat a b) (x : ℝ → Vec b) (x' : Vec b)
    (hA : ∀ i j, HasDerivAt (fun s => A s i j) (A' i j) 0)
    (hx : ∀ i, HasDerivAt (fun s => x s i) (x' i) 0) (i : Fin a) :
    HasDerivAt (fun t => mulV (A t) (x t) i) (mulV A' (x 0) i + mulV (A 0) x' i) 0 := by
  unfold mulV
  refine (HasDerivAt.fun_sum fun j _ => (hA i j).fun_mul (hx j)).congr_deriv ?_
  rw [← sum_add_distrib]

/-- Derivative of the point contribution, in terms of the derivatives of its ingredients: `B` is
`dBds`, `N` the norm of the flux, `T` the trace. -/
theorem hasDerivAt_pointForce (E : En) (w : ℝ) (B N J T : ℝ → ℝ) (B' N' J' T' : ℝ)
    (he : ∀ s, HasDerivAt E.e (E.e1 s) s) (he1 : ∀ s, HasDerivAt E.e1 (E.e2 s) s)
    (hB : HasDerivAt B B' 0) (hN : HasDerivAt N N' 0) (hJ : HasDerivAt J J' 0) (hT : HasDerivAt T T' 0)
    (hJ0 : J 0 ≠ 0) :
    HasDerivAt (fun t => -((B t * E.e1 (N t / J t) + E.e (N t / J t) * T t) * (w * J t)))
      (-(w * J 0) * E.e1 (N 0 / J 0) * B' +
        (-(w * J 0) * T 0 * E.e1 (N 0 / J 0) + -(w * J 0) * B 0 * E.e2 (N 0 / J 0)) *
          (N' / J 0 - N 0 * J' / J 0 ^ 2) +
        -(w * J 0) * E.e (N 0 / J 0) * T' -
        (B 0 * E.e1 (N 0 / J 0) + E.e (N 0 / J 0) * T 0) * w * J') 0 := by
  have hm := hN.fun_div hJ hJ0
  have h1 := HasDerivAt.comp_of_eq (0 : ℝ) (he (N 0 / J 0)) hm rfl
  have h2 := HasDerivAt.comp_of_eq (0 : ℝ) (he1 (N 0 / J 0)) hm rfl
  refine ((((hB.fun_mul h2).fun_add (h1.fun_mul hT)).fun_mul (hJ.const_mul w)).fun_neg).congr_deriv ?_
  simp only [Function.comp]
  field_simp
  ring

theorem force_eq (E : ℕ → En) (n : ℕ) (pt : ℕ → FPt ndof dim m) (X : Mat m dim) (u : Vec ndof)
    (hX : ¬ tiny X) :
    force false n E pt X u = ∑ i ∈ range n, -(((pt i).dBds u X * (E i).e1 (norm2 ((pt i).bvec u) / (pt i).J) +
      (E i).e (norm2 ((pt i).bvec u) / (pt i).J) * (pt i).tr X) * ((pt i).w * (pt i).J)) := by
  unfold force
  rw [if_neg (by simp), if_neg hX]
  simp only [sub_eq_add_neg]
  rw [forN_real, zero_add]
  rfl

/-- Derivative of `dBds` in the three-dimensional branch. -/
theorem hasDerivAt_beta3 (Y : Mat dim dim) (x h : ℝ → Vec dim) (A : ℝ → Mat dim dim) (J : ℝ → ℝ)
    (x' h' : Vec dim) (A' : Mat dim dim) (J' : ℝ)
    (hx : ∀ i, HasDerivAt (fun s => x s i) (x' i) 0) (hh : ∀ i, HasDerivAt (fun s => h s i) (h' i) 0)
    (hA : ∀ i j, HasDerivAt (fun s => A s i j) (A' i j) 0) (hJ : HasDerivAt J J' 0)
    (hJ0 : J 0 ≠ 0) (hn : norm2 (x 0) ≠ 0) :
    HasDerivAt (fun t => -norm2 (x t) / J t ^ 2 * frob (transpose (A t)) Y + bil Y (x t) (h t) / (J t * norm2 (x t)))
      (-(dotv (x 0) x' / norm2 (x 0)) / J 0 ^ 2 * frob (transpose (A 0)) Y
        + 2 * norm2 (x 0) / J 0 ^ 3 * J' * frob (transpose (A 0)) Y
        - norm2 (x 0) / J 0 ^ 2 * frob (transpose A') Y
        + (bil Y x' (h 0) + bil Y (x 0) h') / (J 0 * norm2 (x 0))
        - bil Y (x 0) (h 0) / (J 0 ^ 2 * norm2 (x 0)) * J'
        - bil Y (x 0) (h 0) / (J 0 * norm2 (x 0) ^ 2) * (dotv (x 0) x' / norm2 (x 0))) 0 := by
  have hN := hasDerivAt_norm2 x x' 0 hx hn
  have hF : HasDerivAt (fun t => frob (transpose (A t)) Y) (frob (transpose A') Y) 0 := by
    unfold frob transpose
    exact HasDerivAt.fun_sum fun i _ => HasDerivAt.fun_sum fun j _ => (hA j i).mul_const _
  have hb := hasDerivAt_bil Y x h x' h' hx hh
  refine (((hN.fun_neg.fun_div (hJ.fun_pow 2) (pow_ne_zero 2 hJ0)).fun_mul hF).fun_add
    (hb.fun_div (hJ.fun_mul hN) (mul_ne_zero hJ0 hn))).congr_deriv ?_
  norm_num
  field_simp
  ring

/-- Derivative of `dBds` in the two-dimensional branch. -/
theorem hasDerivAt_beta2 (Y : Mat dim dim) (x : ℝ → Vec dim) (A : ℝ → Mat dim dim) (J : ℝ → ℝ)
    (x' : Vec dim) (A' : Mat dim dim) (J' : ℝ)
    (hx : ∀ i, HasDerivAt (fun s => x s i) (x' i) 0)
    (hA : ∀ i j, HasDerivAt (fun s => A s i j) (A' i j) 0) (hJ : HasDerivAt J J' 0)
    (hJ0 : J 0 ≠ 0) (hn : norm2 (x 0) ≠ 0) :
    HasDerivAt (fun t => -bil Y (x t) (mulV (A t) (x t)) / (norm2 (x t) * J t ^ 2))
      (-(bil Y x' (mulV (A 0) (x 0)) + bil Y (x 0) (mulV A' (x 0)) + bil Y (x 0) (mulV (A 0) x'))
          / (norm2 (x 0) * J 0 ^ 2)
        + bil Y (x 0) (mulV (A 0) (x 0)) / (norm2 (x 0) ^ 2 * J 0 ^ 2) * (dotv (x 0) x' / norm2 (x 0))
        + 2 * bil Y (x 0) (mulV (A 0) (x 0)) / (norm2 (x 0) * J 0 ^ 3) * J') 0 := by
  have hN := hasDerivAt_norm2 x x' 0 hx hn
  have hb := hasDerivAt_bil Y x (fun t => mulV (A t) (x t)) x' _ hx
    (fun i => hasDerivAt_mulV A A' x x' hA hx i)
  have e : bil Y (x 0) (fun i => mulV A' (x 0) i + mulV (A 0) x' i) =
      bil Y (x 0) (mulV A' (x 0)) + bil Y (x 0) (mulV (A 0) x') := by
    rw [bil_eq', dotv_add_right, ← bil_eq', ← bil_eq']
  refine ((hb.fun_neg).fun_div (hN.fun_mul (hJ.fun_pow 2)) (mul_ne_zero hn (pow_ne_zero 2 hJ0))).congr_deriv ?_
  rw [e]
  norm_num
  field_simp
  ring

end Verif.Force
