import Verif.OrthoPolyIntProps
import Verif.SbpShape

/-!
Property C83 in the coordinates of the elements: the scaled basis functions whose values fill the Vandermonde matrices of the segment,
triangle and tetrahedron elements are orthonormal on `[0,1]`, the unit triangle and the unit tetrahedron.
-/

namespace Verif.Sbp
open Verif.OrthoPoly Real intervalIntegral

theorem affine01 (f : ℝ → ℝ) : ∫ x in (0 : ℝ)..1, f (2 * x - 1) = 1 / 2 * ∫ x in (-1 : ℝ)..1, f x := by
  have h := integral_comp_mul_sub (a := 0) (b := 1) f (two_ne_zero (α := ℝ)) 1
  rw [h, smul_eq_mul]; norm_num

/-- **C83** On the segment `[0,1]` the functions in the columns of the segment element's Vandermonde matrix are orthonormal. -/
theorem C83_unit_segment (m n : ℕ) :
    ∫ x in (0 : ℝ)..1, (segPoly x m * √2) * (segPoly x n * √2) = if m = n then 1 else 0 := by
  have e : (fun x => (segPoly x m * √2) * (segPoly x n * √2)) = fun x =>
      2 * (fun t => jacobiPoly t 0 0 m * jacobiPoly t 0 0 n) (2 * x - 1) := by
    funext x
    have h2 : √2 * √2 = (2 : ℝ) := mul_self_sqrt (by norm_num)
    unfold segPoly
    linear_combination (jacobiPoly (2 * x - 1) 0 0 m * jacobiPoly (2 * x - 1) 0 0 n) * h2
  rw [e, integral_const_mul, affine01 fun t => jacobiPoly t 0 0 m * jacobiPoly t 0 0 n, legendre_int]
  ring

/-- Integral over the unit triangle and its image under `v ↦ 2 v - 1`. -/
theorem triangle01 (f : ℝ → ℝ → ℝ) :
    ∫ y in (0 : ℝ)..1, ∫ x in (0 : ℝ)..1 - y, f (2 * x - 1) (2 * y - 1) = 1 / 4 * triInt f := by
  have h : ∀ y : ℝ, ∫ x in (0 : ℝ)..1 - y, f (2 * x - 1) (2 * y - 1) = 1 / 2 * ∫ x in (-1 : ℝ)..-(2 * y - 1), f x (2 * y - 1) := by
    intro y
    have h := integral_comp_mul_sub (a := 0) (b := 1 - y) (fun x => f x (2 * y - 1)) (two_ne_zero (α := ℝ)) 1
    rw [h, smul_eq_mul, show 2 * 0 - 1 = (-1 : ℝ) by ring, show 2 * (1 - y) - 1 = -(2 * y - 1) by ring]; norm_num
  simp only [h]
  rw [affine01 fun t => 1 / 2 * ∫ x in (-1 : ℝ)..-t, f x t, integral_const_mul]
  unfold triInt; ring

/-- **C83** The functions in the columns of the triangle element's Vandermonde matrix (scaled by two) are orthonormal on the unit triangle,
whichever columns `p`, `q` of the basis of degree `d` they are. -/
theorem C83_unit_triangle (d p q : ℕ) (a b : ℕ × ℕ) (hp : (triCols d)[p]? = some a) (hq : (triCols d)[q]? = some b) :
    ∫ y in (0 : ℝ)..1, ∫ x in (0 : ℝ)..1 - y, (triPoly d x y p * 2) * (triPoly d x y q * 2) = if a = b then 1 else 0 := by
  have e : ∀ x y, (triPoly d x y p * 2) * (triPoly d x y q * 2) =
      (fun s t => 4 * (prorio2 s t a.1 a.2 * prorio2 s t b.1 b.2)) (2 * x - 1) (2 * y - 1) := by
    intro x y
    simp only [triPoly, hp, hq, Option.map_some, Option.getD_some]; ring
  simp only [e]
  rw [triangle01 fun s t => 4 * (prorio2 s t a.1 a.2 * prorio2 s t b.1 b.2)]
  have h := C83_triangle_orthonormal a.1 a.2 b.1 b.2
  unfold triInt at h ⊢
  simp only [integral_const_mul]
  rw [h]; simp

/-- Integral over the unit tetrahedron and its image under `v ↦ 2 v - 1`. -/
theorem tetrahedron01 (f : ℝ → ℝ → ℝ → ℝ) :
    ∫ z in (0 : ℝ)..1, ∫ y in (0 : ℝ)..1 - z, ∫ x in (0 : ℝ)..1 - y - z, f (2 * x - 1) (2 * y - 1) (2 * z - 1) = 1 / 8 * tetInt f := by
  have h : ∀ y z : ℝ, ∫ x in (0 : ℝ)..1 - y - z, f (2 * x - 1) (2 * y - 1) (2 * z - 1) =
      1 / 2 * ∫ x in (-1 : ℝ)..(-1 - (2 * y - 1) - (2 * z - 1)), f x (2 * y - 1) (2 * z - 1) := by
    intro y z
    have h := integral_comp_mul_sub (a := 0) (b := 1 - y - z) (fun x => f x (2 * y - 1) (2 * z - 1)) (two_ne_zero (α := ℝ)) 1
    rw [h, smul_eq_mul, show 2 * 0 - 1 = (-1 : ℝ) by ring,
      show 2 * (1 - y - z) - 1 = -1 - (2 * y - 1) - (2 * z - 1) by ring]; norm_num
  have h2 : ∀ z : ℝ, ∫ y in (0 : ℝ)..1 - z, (1 / 2 * ∫ x in (-1 : ℝ)..(-1 - (2 * y - 1) - (2 * z - 1)), f x (2 * y - 1) (2 * z - 1)) =
      1 / 4 * ∫ y in (-1 : ℝ)..-(2 * z - 1), ∫ x in (-1 : ℝ)..(-1 - y - (2 * z - 1)), f x y (2 * z - 1) := by
    intro z
    have h := integral_comp_mul_sub (a := 0) (b := 1 - z)
      (fun y => ∫ x in (-1 : ℝ)..(-1 - y - (2 * z - 1)), f x y (2 * z - 1)) (two_ne_zero (α := ℝ)) 1
    rw [integral_const_mul, h, smul_eq_mul, show 2 * 0 - 1 = (-1 : ℝ) by ring, show 2 * (1 - z) - 1 = -(2 * z - 1) by ring]; ring
  simp only [h, h2]
  rw [affine01 fun t => 1 / 4 * ∫ y in (-1 : ℝ)..-t, ∫ x in (-1 : ℝ)..(-1 - y - t), f x y t, integral_const_mul]
  unfold tetInt; ring

/-- **C83** The functions in the columns of the tetrahedron element's Vandermonde matrix (scaled by `2 √2`) are orthonormal on the unit
tetrahedron. -/
theorem C83_unit_tetrahedron (d p q : ℕ) (a b : ℕ × ℕ × ℕ) (hp : (tetCols d)[p]? = some a) (hq : (tetCols d)[q]? = some b) :
    ∫ z in (0 : ℝ)..1, ∫ y in (0 : ℝ)..1 - z, ∫ x in (0 : ℝ)..1 - y - z, (tetPoly d x y z p * (2 * √2)) * (tetPoly d x y z q * (2 * √2)) =
      if a = b then 1 else 0 := by
  have e : ∀ x y z, (tetPoly d x y z p * (2 * √2)) * (tetPoly d x y z q * (2 * √2)) =
      (fun r s t => 8 * (prorio3 r s t a.1 a.2.1 a.2.2 * prorio3 r s t b.1 b.2.1 b.2.2)) (2 * x - 1) (2 * y - 1) (2 * z - 1) := by
    intro x y z
    have h2 : √2 * √2 = (2 : ℝ) := mul_self_sqrt (by norm_num)
    simp only [tetPoly, hp, hq, Option.map_some, Option.getD_some]
    linear_combination (4 * (prorio3 (2 * x - 1) (2 * y - 1) (2 * z - 1) a.1 a.2.1 a.2.2 *
      prorio3 (2 * x - 1) (2 * y - 1) (2 * z - 1) b.1 b.2.1 b.2.2)) * h2
  simp only [e]
  rw [tetrahedron01 fun r s t => 8 * (prorio3 r s t a.1 a.2.1 a.2.2 * prorio3 r s t b.1 b.2.1 b.2.2)]
  have h := C83_tetrahedron_orthonormal a.1 a.2.1 a.2.2 b.1 b.2.1 b.2.2
  unfold tetInt at h ⊢
  simp only [integral_const_mul]
  rw [h]; simp

/-- Non-vacuity: the columns of the bases of degree two. -/
example : ((triCols 2)[5]?).isSome ∧ ((tetCols 2)[9]?).isSome ∧ (triCols 2)[1]? ≠ (triCols 2)[2]? := by decide

end Verif.Sbp
