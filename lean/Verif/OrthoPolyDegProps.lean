import Verif.OrthoPolyIntProps
import Mathlib.Algebra.MvPolynomial.Degrees
import Mathlib.Algebra.MvPolynomial.Eval
import Mathlib.Data.Fin.VecNotation

/-! # The column functions of the Vandermonde matrices are polynomials on the element (C84) -/

namespace Verif.OrthoPoly

open Real

/-- Specification: on the set `S` the function `f` of `n` variables is a polynomial of total degree at most `d`. -/
def PolyOn {n : ℕ} (S : (Fin n → ℝ) → Prop) (d : ℕ) (f : (Fin n → ℝ) → ℝ) : Prop :=
  ∃ p : MvPolynomial (Fin n) ℝ, p.totalDegree ≤ d ∧ ∀ v, S v → MvPolynomial.eval v p = f v

/-- Specification: the reference triangle. -/
def Tri (v : Fin 2 → ℝ) : Prop := -1 ≤ v 0 ∧ -1 ≤ v 1 ∧ v 0 + v 1 ≤ 0

/-- Specification: the reference tetrahedron. -/
def Tet (v : Fin 3 → ℝ) : Prop := -1 ≤ v 0 ∧ -1 ≤ v 1 ∧ -1 ≤ v 2 ∧ v 0 + v 1 + v 2 ≤ -1

section
variable {n : ℕ} {S : (Fin n → ℝ) → Prop}

theorem PolyOn.const (c : ℝ) (d : ℕ) : PolyOn S d (fun _ => c) :=
  ⟨MvPolynomial.C c, by simp, by simp⟩

theorem PolyOn.var (i : Fin n) : PolyOn S 1 (fun v => v i) :=
  ⟨MvPolynomial.X i, by simp, by simp⟩

theorem PolyOn.add {d : ℕ} {f g : (Fin n → ℝ) → ℝ} (hf : PolyOn S d f) (hg : PolyOn S d g) : PolyOn S d (fun v => f v + g v) := by
  obtain ⟨p, hp, hp'⟩ := hf
  obtain ⟨q, hq, hq'⟩ := hg
  exact ⟨p + q, (MvPolynomial.totalDegree_add p q).trans (max_le hp hq), fun v hv => by rw [map_add, hp' v hv, hq' v hv]⟩

theorem PolyOn.mul {d e : ℕ} {f g : (Fin n → ℝ) → ℝ} (hf : PolyOn S d f) (hg : PolyOn S e g) : PolyOn S (d + e) (fun v => f v * g v) := by
  obtain ⟨p, hp, hp'⟩ := hf
  obtain ⟨q, hq, hq'⟩ := hg
  exact ⟨p * q, (MvPolynomial.totalDegree_mul p q).trans (add_le_add hp hq), fun v hv => by rw [map_mul, hp' v hv, hq' v hv]⟩

theorem PolyOn.smul {d : ℕ} {f : (Fin n → ℝ) → ℝ} (c : ℝ) (hf : PolyOn S d f) : PolyOn S d (fun v => c * f v) := by
  have := (PolyOn.const (S := S) c 0).mul hf
  simpa using this

theorem PolyOn.congr {d : ℕ} {f g : (Fin n → ℝ) → ℝ} (hf : PolyOn S d f) (h : ∀ v, S v → f v = g v) : PolyOn S d g := by
  obtain ⟨p, hp, hp'⟩ := hf
  exact ⟨p, hp, fun v hv => (hp' v hv).trans (h v hv)⟩

theorem PolyOn.le {d e : ℕ} {f : (Fin n → ℝ) → ℝ} (hf : PolyOn S d f) (h : d ≤ e) : PolyOn S e f := by
  obtain ⟨p, hp, hp'⟩ := hf
  exact ⟨p, hp.trans h, hp'⟩

/-- `t^n P_n(s/t)`. -/
noncomputable def hP (α s t : ℝ) : ℕ → ℝ
  | 0 => 1
  | 1 => ((α + 2) * s + α * t) / 2
  | n + 2 => (cA α n * s + cB α n * t) * hP α s t (n + 1) - cC α n * (t * t) * hP α s t n

theorem hP_eq (α s t : ℝ) (ha : 0 ≤ α) (ht : t ≠ 0) (n : ℕ) : hP α s t n = P α 0 (s / t) n * t ^ n := by
  induction n using Nat.strong_induction_on with
  | _ n ih =>
    match n with
    | 0 => simp [hP, P]
    | 1 => simp only [hP, P]; field_simp; ring
    | n + 2 =>
      rw [P_rec α (s / t) ha n, hP, ih (n + 1) (by omega), ih n (by omega)]
      field_simp
      ring

theorem hP_zero (α : ℝ) (n : ℕ) (hn : n ≠ 0) : hP α 0 0 n = 0 := by
  match n with
  | 0 => exact absurd rfl hn
  | 1 => simp [hP]
  | n + 2 => simp [hP]

theorem hP_poly (α : ℝ) (s t : (Fin n → ℝ) → ℝ) (hs : PolyOn S 1 s) (ht : PolyOn S 1 t) (k : ℕ) : PolyOn S k (fun v => hP α (s v) (t v) k) := by
  induction k using Nat.strong_induction_on with
  | _ k ih =>
    match k with
    | 0 => exact PolyOn.const 1 0
    | 1 =>
      refine ((hs.smul ((α + 2) / 2)).add (ht.smul (α / 2))).congr ?_
      intro v _; simp only [hP]; ring
    | k + 2 =>
      have h1 := (((hs.smul (cA α k)).add (ht.smul (cB α k))).mul (ih (k + 1) (by omega))).le (by omega : 1 + (k + 1) ≤ k + 2)
      have h2 := (((ht.mul ht).smul (-cC α k)).mul (ih k (by omega))).le (by omega : 1 + 1 + k ≤ k + 2)
      refine (h1.add h2).congr ?_
      intro v _; simp only [hP]; ring
end

/-- The normalised version, `t^n jacobiPoly(s/t)`. -/
theorem jac_hom (a : ℕ) (n : ℕ) : ∃ c : ℝ, ∀ s t : ℝ, t ≠ 0 → jacobiPoly (s / t) a 0 n * t ^ n = c * hP a s t n := by
  have ha : (0 : ℝ) ≤ a := Nat.cast_nonneg a
  refine ⟨1 / sqrt (hnorm a 0 n), fun s t ht => ?_⟩
  rw [hP_eq a s t ha ht, C51_jacobi_orthonormal_partial _ _ (by linarith)]
  ring

theorem jac_zero (x α : ℝ) : jacobiPoly x α 0 0 = poly0 α 0 := rfl

/-- C84 (triangle).  On the reference triangle (including the vertex where the collapsed coordinate is undefined) the function of column `(i, j)` is a polynomial of total degree at most `i + j`. -/
theorem C84_triangle_polynomial (i j : ℕ) : PolyOn Tri (i + j) (fun v => prorio2 (v 0) (v 1) i j) := by
  obtain ⟨c1, h1⟩ := jac_hom 0 i
  obtain ⟨c2, h2⟩ := jac_hom (2 * i + 1) j
  have ps : PolyOn Tri 1 (fun v : Fin 2 → ℝ => 1 + 2 * v 0 + v 1) :=
    ((PolyOn.const 1 1).add ((PolyOn.var 0).smul 2)).add (PolyOn.var 1)
  have pt : PolyOn Tri 1 (fun v : Fin 2 → ℝ => 1 - v 1) :=
    ((PolyOn.const 1 1).add ((PolyOn.var 1).smul (-1))).congr (fun v _ => by ring)
  have q1 := (hP_poly 0 _ _ ps pt i).smul c1
  have q2 := (hP_poly ((2 * i + 1 : ℕ) : ℝ) _ _ (PolyOn.var (S := Tri) 1) (PolyOn.const 1 1) j).smul c2
  refine ((q1.mul q2).smul (sqrt 2)).congr ?_
  rintro v ⟨hx, hy, hxy⟩
  have e2 : c2 * hP ((2 * i + 1 : ℕ) : ℝ) (v 1) 1 j = jacobiPoly (v 1) (2 * i + 1) 0 j := by
    have := h2 (v 1) 1 one_ne_zero
    rw [div_one, one_pow, mul_one] at this
    rw [← this]; push_cast; rfl
  rw [e2]
  by_cases h : v 1 = 1
  · have hv0 : v 0 = -1 := by linarith
    rw [h, hv0]
    simp only [prorio2, ne_eq, not_true_eq_false, if_false, sub_self]
    rcases Nat.eq_zero_or_pos i with hi | hi
    · subst hi
      have := h1 0 1 one_ne_zero
      simp only [pow_zero, mul_one, hP, jac_zero, Nat.cast_zero] at this ⊢
      rw [← this]; ring
    · rw [zero_pow hi.ne', show (1 : ℝ) + 2 * -1 + 1 = 0 by norm_num, hP_zero _ _ hi.ne']; ring
  · have ht : 1 - v 1 ≠ 0 := fun h' => h (by linarith)
    have e1 := h1 (1 + 2 * v 0 + v 1) (1 - v 1) ht
    have ex : 2 * (1 + v 0) / (1 - v 1) - 1 = (1 + 2 * v 0 + v 1) / (1 - v 1) := by field_simp; ring
    simp only [prorio2, ne_eq, h, not_false_eq_true, if_true, ex]
    simp only [Nat.cast_zero] at e1
    rw [← e1]; ring

/-- C84 (tetrahedron). -/
theorem C84_tetrahedron_polynomial (i j k : ℕ) : PolyOn Tet (i + j + k) (fun v => prorio3 (v 0) (v 1) (v 2) i j k) := by
  obtain ⟨c1, h1⟩ := jac_hom 0 i
  obtain ⟨c2, h2⟩ := jac_hom (2 * i + 1) j
  obtain ⟨c3, h3⟩ := jac_hom (2 * i + 2 * j + 2) k
  have ps : PolyOn Tet 1 (fun v : Fin 3 → ℝ => 2 + 2 * v 0 + v 1 + v 2) :=
    (((PolyOn.const 2 1).add ((PolyOn.var 0).smul 2)).add (PolyOn.var 1)).add (PolyOn.var 2)
  have pt : PolyOn Tet 1 (fun v : Fin 3 → ℝ => -(v 1 + v 2)) :=
    (((PolyOn.var 1).add (PolyOn.var 2)).smul (-1)).congr (fun v _ => by ring)
  have ps' : PolyOn Tet 1 (fun v : Fin 3 → ℝ => 1 + 2 * v 1 + v 2) :=
    ((PolyOn.const 1 1).add ((PolyOn.var 1).smul 2)).add (PolyOn.var 2)
  have pt' : PolyOn Tet 1 (fun v : Fin 3 → ℝ => 1 - v 2) :=
    ((PolyOn.const 1 1).add ((PolyOn.var 2).smul (-1))).congr (fun v _ => by ring)
  have q1 := (hP_poly 0 _ _ ps pt i).smul c1
  have q2 := (hP_poly ((2 * i + 1 : ℕ) : ℝ) _ _ ps' pt' j).smul c2
  have q3 := (hP_poly ((2 * i + 2 * j + 2 : ℕ) : ℝ) _ _ (PolyOn.var (S := Tet) 2) (PolyOn.const 1 1) k).smul c3
  refine (((q1.mul q2).mul q3).smul (sqrt 8 * 2 ^ i)).congr ?_
  rintro v ⟨hx, hy, hz, hxyz⟩
  have e3 : c3 * hP ((2 * i + 2 * j + 2 : ℕ) : ℝ) (v 2) 1 k = jacobiPoly (v 2) (2 * i + 2 * j + 2) 0 k := by
    have := h3 (v 2) 1 one_ne_zero
    rw [div_one, one_pow, mul_one] at this
    rw [← this]; push_cast; rfl
  rw [e3]
  have e0 : ∀ s t : ℝ, i = 0 → c1 * hP 0 s t i = jacobiPoly 0 0 0 i := by
    intro s t hi; subst hi
    have := h1 0 1 one_ne_zero
    simp only [pow_zero, mul_one, hP, jac_zero, Nat.cast_zero] at this ⊢
    rw [← this]
  have e0' : ∀ s t : ℝ, j = 0 → c2 * hP ((2 * i + 1 : ℕ) : ℝ) s t j = jacobiPoly 0 (2 * i + 1) 0 j := by
    intro s t hj; subst hj
    have := h2 0 1 one_ne_zero
    simp only [pow_zero, mul_one, hP, jac_zero] at this ⊢
    rw [← this]; push_cast; rfl
  -- the factor in eta
  by_cases hz1 : v 2 = 1
  · have hv0 : v 0 = -1 := by linarith
    have hv1 : v 1 = -1 := by linarith
    rw [hz1, hv0, hv1]
    simp only [prorio3, ne_eq, not_true_eq_false, if_false, sub_self, show (-1 : ℝ) + 1 = 0 by norm_num]
    rcases Nat.eq_zero_or_pos i with hi | hi
    · rw [e0 _ _ hi]
      rcases Nat.eq_zero_or_pos j with hj | hj
      · rw [e0' _ _ hj]
        subst hi hj
        simp only [jac_zero, pow_zero, mul_one, add_zero]; ring
      · rw [show (1 : ℝ) + 2 * -1 + 1 = 0 by norm_num, hP_zero _ _ hj.ne', zero_pow (by omega)]; ring
    · rw [show (2 : ℝ) + 2 * -1 + -1 + 1 = 0 by norm_num, show -(0 : ℝ) = 0 by norm_num, hP_zero _ _ hi.ne', zero_pow (by omega)]; ring
  · have ht' : 1 - v 2 ≠ 0 := fun h' => hz1 (by linarith)
    have e2 := h2 (1 + 2 * v 1 + v 2) (1 - v 2) ht'
    have ex' : 2 * (1 + v 1) / (1 - v 2) - 1 = (1 + 2 * v 1 + v 2) / (1 - v 2) := by field_simp; ring
    have em : 1 - (1 + 2 * v 1 + v 2) / (1 - v 2) = 2 * -(v 1 + v 2) / (1 - v 2) := by field_simp; ring
    simp only [prorio3, ne_eq, hz1, not_false_eq_true, if_true, ex', em]
    push_cast at e2 ⊢
    rw [← e2]
    by_cases hyz : v 1 + v 2 = 0
    · rw [hyz]
      simp only [not_true_eq_false, if_false]
      have hv0 : v 0 = -1 := by linarith
      rcases Nat.eq_zero_or_pos i with hi | hi
      · rw [e0 _ _ hi]; subst hi
        simp only [jac_zero, pow_zero, mul_one, zero_add]; ring
      · rw [show (2 : ℝ) + 2 * v 0 + v 1 + v 2 = 0 by rw [hv0]; linarith, show -(0 : ℝ) = 0 by norm_num, hP_zero _ _ hi.ne', mul_zero, mul_zero, zero_div, zero_pow hi.ne']; ring
    · have e1 := h1 (2 + 2 * v 0 + v 1 + v 2) (-(v 1 + v 2)) (neg_ne_zero.2 hyz)
      have ex : -2 * (1 + v 0) / (v 1 + v 2) - 1 = (2 + 2 * v 0 + v 1 + v 2) / -(v 1 + v 2) := by field_simp; ring
      simp only [hyz, not_false_eq_true, if_true, ex]
      simp only [Nat.cast_zero] at e1
      rw [← e1, div_pow, mul_pow, pow_add (1 - v 2)]
      field_simp

end Verif.OrthoPoly
