import Verif.OrthoPoly
import Mathlib.Tactic.Ring
import Mathlib.Tactic.Linarith
import Mathlib.Tactic.FieldSimp
import Mathlib.Tactic.Positivity

/-! # Orthogonal polynomials: property theorems (C50, C51, C74) -/

namespace Verif.OrthoPoly

open Real

/-! ## C50: column enumeration -/

theorem triRow_length (r : ℕ) : ((List.range (r + 1)).map (fun j => (r - j, j))).length = r + 1 := by simp

theorem triCols_succ (d : ℕ) : triCols (d + 1) = triCols d ++ (List.range (d + 2)).map (fun j => (d + 1 - j, j)) := by
  conv_lhs => rw [triCols, List.range_succ (n := d + 1), List.flatMap_append, List.flatMap_singleton]
  rfl

theorem triCols_length2 (d : ℕ) : 2 * (triCols d).length = (d + 1) * (d + 2) := by
  induction d with
  | zero => rfl
  | succ d ih => rw [triCols_succ, List.length_append, Nat.mul_add, ih]; simp; ring

/-- C50 (triangle).  The loops fill exactly the allocated number of columns; the basis function of degree `(i, j)` is in column `r(r+1)/2 + j`, `r = i + j`; and every column holds one of total degree at most `d`.
Hence every pair with `i + j ≤ d` is used exactly once. -/
theorem C50_triangle (d : ℕ) :
    (triCols d).length = triN d ∧
    (∀ i j, i + j ≤ d → (triCols d)[(i + j) * (i + j + 1) / 2 + j]? = some (i, j)) ∧
    (∀ c ij, (triCols d)[c]? = some ij → ij.1 + ij.2 ≤ d ∧ c = (ij.1 + ij.2) * (ij.1 + ij.2 + 1) / 2 + ij.2) ∧
    (triCols d).Nodup := by
  have hlen : ∀ d, (triCols d).length = (d + 1) * (d + 2) / 2 := fun d => by have := triCols_length2 d; omega
  have hget : ∀ d i j, i + j ≤ d → (triCols d)[(i + j) * (i + j + 1) / 2 + j]? = some (i, j) := by
    intro d
    induction d with
    | zero =>
      intro i j h
      obtain ⟨rfl, rfl⟩ : i = 0 ∧ j = 0 := by omega
      rfl
    | succ d ih =>
      intro i j h
      rw [triCols_succ]
      by_cases hle : i + j ≤ d
      · have h2 := ih i j hle
        rw [List.getElem?_append_left (List.getElem?_eq_some_iff.1 h2).1, h2]
      · have hr : i + j = d + 1 := by omega
        have e0 : (d + 1) * (d + 1 + 1) = (d + 1) * (d + 2) := by ring
        rw [hr, e0, List.getElem?_append_right (by rw [hlen]; omega), hlen]
        have : (d + 1) * (d + 2) / 2 + j - (d + 1) * (d + 2) / 2 = j := by omega
        rw [this]
        simp only [List.getElem?_map]
        rw [List.getElem?_range (by omega)]
        simp; omega
  have hmem : ∀ (d c : ℕ) (ij : ℕ × ℕ), (triCols d)[c]? = some ij → ij.1 + ij.2 ≤ d := by
    intro d c ij h
    have := List.mem_of_getElem? h
    simp only [triCols, List.mem_flatMap, List.mem_map, List.mem_range] at this
    obtain ⟨r, hr, j, hj, rfl⟩ := this
    simp only; omega
  have hinv : ∀ (c : ℕ) (ij : ℕ × ℕ), (triCols d)[c]? = some ij → c = (ij.1 + ij.2) * (ij.1 + ij.2 + 1) / 2 + ij.2 := by
    induction d with
    | zero =>
      intro c ij h
      have hc := (List.getElem?_eq_some_iff.1 h).1
      have : (triCols 0).length = 1 := rfl
      obtain rfl : c = 0 := by omega
      have : ij = (0, 0) := by simpa [triCols] using h.symm
      rw [this]; rfl
    | succ d ih =>
      intro c ij h
      rw [triCols_succ] at h
      by_cases hc : c < (triCols d).length
      · rw [List.getElem?_append_left hc] at h; exact ih c ij h
      · rw [List.getElem?_append_right (by omega), hlen, List.getElem?_map] at h
        obtain ⟨j, hj, he⟩ := Option.map_eq_some_iff.1 h
        obtain ⟨hj1, hj2⟩ := List.getElem?_eq_some_iff.1 hj
        rw [List.getElem_range] at hj2
        rw [List.length_range] at hj1
        rw [← he]
        simp only
        have e1 : d + 1 - j + j = d + 1 := by omega
        rw [hlen] at hc
        rw [e1, show (d + 1) * (d + 1 + 1) = (d + 1) * (d + 2) by ring]
        omega
  refine ⟨by rw [hlen]; rfl, hget d, fun c ij h => ⟨hmem d c ij h, hinv c ij h⟩, ?_⟩
  rw [List.nodup_iff_injective_getElem]
  intro a b hab
  have ha : (triCols d)[(a : ℕ)]? = some (triCols d)[a.1] := List.getElem?_eq_getElem a.2
  have hb : (triCols d)[(b : ℕ)]? = some (triCols d)[b.1] := List.getElem?_eq_getElem b.2
  have e : (triCols d)[a.1] = (triCols d)[b.1] := hab
  exact Fin.ext (by rw [hinv _ _ ha, hinv _ _ hb, e])

theorem triangle_sum (r k : ℕ) (hk : k ≤ r + 1) : ((List.range k).flatMap (fun k => (List.range (r - k + 1)).map (fun j => (r - j - k, j, k)))).length + (r + 1 - k) * (r + 2 - k) / 2 = (r + 1) * (r + 2) / 2 := by
  induction k with
  | zero => simp
  | succ k ih =>
    have := ih (by omega)
    rw [List.range_succ, List.flatMap_append, List.length_append]
    simp only [List.flatMap_cons, List.flatMap_nil, List.append_nil, List.length_map, List.length_range]
    obtain ⟨m, rfl⟩ : ∃ m, r = m + k := ⟨r - k, by omega⟩
    have e1 : m + k - k = m := by omega
    have e2 : m + k + 1 - (k + 1) = m := by omega
    have e3 : m + k + 2 - (k + 1) = m + 1 := by omega
    have e4 : m + k + 1 - k = m + 1 := by omega
    have e5 : m + k + 2 - k = m + 2 := by omega
    rw [e4, e5] at this
    rw [e1, e2, e3, ← this]
    have h1 : (m + 1) * (m + 2) = m * (m + 1) + 2 * (m + 1) := by ring
    rw [h1]
    omega

theorem tetRow_length (r : ℕ) : (tetRow r).length = (r + 1) * (r + 2) / 2 := by
  have := triangle_sum r (r + 1) (le_refl _)
  simpa [tetRow] using this

theorem tetCols_succ (d : ℕ) : tetCols (d + 1) = tetCols d ++ tetRow (d + 1) := by
  rw [tetCols, List.range_succ, List.flatMap_append]; simp [tetCols]

theorem tetCols_length6 (d : ℕ) : 6 * (tetCols d).length = (d + 1) * (d + 2) * (d + 3) := by
  induction d with
  | zero => rfl
  | succ d ih =>
    rw [tetCols_succ, List.length_append, Nat.mul_add, ih, tetRow_length]
    have h2 : 2 * ((d + 1 + 1) * (d + 1 + 2) / 2) = (d + 1 + 1) * (d + 1 + 2) := by
      have : Even ((d + 1 + 1) * (d + 1 + 1 + 1)) := Nat.even_mul_succ_self _
      exact Nat.mul_div_cancel' this.two_dvd
    have : 6 * ((d + 1 + 1) * (d + 1 + 2) / 2) = 3 * ((d + 1 + 1) * (d + 1 + 2)) := by omega
    rw [this]; ring

/-- C50 (tetrahedron).  The loops fill exactly the allocated number of columns, every triple of total degree at most `d` occurs, no other triple does, and none twice; lower total degrees come first. -/
theorem C50_tetrahedron (d : ℕ) :
    (tetCols d).length = tetN d ∧
    (∀ i j k, (i, j, k) ∈ tetCols d ↔ i + j + k ≤ d) ∧
    (tetCols d).Nodup ∧
    (tetCols d).Pairwise (fun a b => a.1 + a.2.1 + a.2.2 ≤ b.1 + b.2.1 + b.2.2) := by
  have hrow : ∀ r t, t ∈ tetRow r ↔ t.1 + t.2.1 + t.2.2 = r := by
    rintro r ⟨i, j, k⟩
    simp only [tetRow, List.mem_flatMap, List.mem_map, List.mem_range, Prod.mk.injEq]
    constructor
    · rintro ⟨k', hk, j', hj, h1, h2, h3⟩; omega
    · intro h; exact ⟨k, by omega, j, by omega, by omega, rfl, rfl⟩
  have hmem : ∀ t, t ∈ tetCols d ↔ t.1 + t.2.1 + t.2.2 ≤ d := by
    intro t
    simp only [tetCols, List.mem_flatMap, List.mem_range, hrow]
    constructor
    · rintro ⟨r, hr, h⟩; omega
    · intro h; exact ⟨_, by omega, rfl⟩
  have hrownd : ∀ r, (tetRow r).Nodup := by
    intro r
    rw [tetRow, List.nodup_flatMap]
    refine ⟨fun k _ => ?_, ?_⟩
    · refine List.Nodup.map_on ?_ List.nodup_range
      intro a _ b _ h
      exact (Prod.mk.inj (Prod.mk.inj h).2).1
    · refine List.Pairwise.imp ?_ List.nodup_range
      intro a b hab t ha hb
      simp only [List.mem_map, List.mem_range] at ha hb
      obtain ⟨j, -, rfl⟩ := ha
      obtain ⟨j', -, h⟩ := hb
      exact hab (Prod.mk.inj (Prod.mk.inj h).2).2.symm
  refine ⟨?_, fun i j k => hmem (i, j, k), ?_, ?_⟩
  · have := tetCols_length6 d; rw [tetN]; omega
  · rw [tetCols, List.nodup_flatMap]
    refine ⟨fun r _ => hrownd r, ?_⟩
    refine List.Pairwise.imp ?_ List.nodup_range
    intro a b hab t ha hb
    exact hab (((hrow a t).1 ha).symm.trans ((hrow b t).1 hb))
  · rw [tetCols, List.pairwise_flatMap]
    refine ⟨fun r _ => ?_, ?_⟩
    · rw [List.pairwise_iff_getElem]
      intro a b ha hb _
      rw [(hrow r _).1 (List.getElem_mem ha), (hrow r _).1 (List.getElem_mem hb)]
    · refine List.Pairwise.imp ?_ (List.pairwise_lt_range (n := d + 1))
      intro a b hab t ha u hu
      rw [(hrow a t).1 ha, (hrow b u).1 hu]; omega

/-- C50 (segment). -/
theorem C50_segment (d : ℕ) : (segCols d).length = segN d ∧ ∀ c ≤ d, (segCols d)[c]? = some c := by
  refine ⟨by simp [segCols, segN], fun c hc => ?_⟩
  rw [segCols, List.getElem?_range (by omega)]

example : triCols 2 = [(0, 0), (1, 0), (0, 1), (2, 0), (1, 1), (0, 2)] := by decide

/-! ## C51: Jacobi polynomials -/

/-- Specification: the classical Jacobi polynomials by their recurrence (DLMF 18.9.1, Szegő 4.5.1), with the leading factor on the left divided out. -/
noncomputable def P (α β x : ℝ) : ℕ → ℝ
  | 0 => 1
  | 1 => ((α + β + 2) * x + (α - β)) / 2
  | n + 2 => (((2 * (n + 2 : ℝ) + α + β - 1) * ((2 * (n + 2 : ℝ) + α + β) * (2 * (n + 2 : ℝ) + α + β - 2) * x + α ^ 2 - β ^ 2)) * P α β x (n + 1)
      - 2 * ((n + 2 : ℝ) + α - 1) * ((n + 2 : ℝ) + β - 1) * (2 * (n + 2 : ℝ) + α + β) * P α β x n)
      / (2 * (n + 2 : ℝ) * ((n + 2 : ℝ) + α + β) * (2 * (n + 2 : ℝ) + α + β - 2))

/-- Specification: squared norm of the classical polynomial for the weight `(1-x)^α (1+x)^β` (DLMF Table 18.3.1). -/
noncomputable def hnorm (α β : ℝ) (n : ℕ) : ℝ :=
  2 ^ (α + β + 1) / (2 * n + α + β + 1) * (Gamma (n + α + 1) * Gamma (n + β + 1) / (n.factorial * Gamma (n + α + β + 1)))

theorem hnorm_zero (α β : ℝ) : hnorm α β 0 = gamma0 α β := by simp [hnorm, gamma0]

theorem hnorm_pos (α β : ℝ) (ha : -1 < α) (hb : -1 < β) (hs : -1 < α + β) (n : ℕ) : 0 < hnorm α β n := by
  have hn : (0 : ℝ) ≤ n := Nat.cast_nonneg n
  have h1 : 0 < Gamma (n + α + 1) := Gamma_pos_of_pos (by linarith)
  have h2 : 0 < Gamma (n + β + 1) := Gamma_pos_of_pos (by linarith)
  have h3 : 0 < Gamma (n + α + β + 1) := Gamma_pos_of_pos (by linarith)
  have h4 : 0 < 2 * (n : ℝ) + α + β + 1 := by linarith
  have h5 : (0 : ℝ) < n.factorial := by exact_mod_cast n.factorial_pos
  have h6 : (0 : ℝ) < 2 ^ (α + β + 1) := by positivity
  unfold hnorm
  positivity

theorem hnorm_succ (α β : ℝ) (ha : -1 < α) (hb : -1 < β) (hs : -1 < α + β) (n : ℕ) :
    hnorm α β (n + 1) = hnorm α β n * ((2 * n + α + β + 1) / (2 * n + α + β + 3) * ((n + α + 1) * (n + β + 1) / ((n + 1) * (n + α + β + 1)))) := by
  have hn : (0 : ℝ) ≤ n := Nat.cast_nonneg n
  have e1 : Gamma ((n + 1 : ℕ) + α + 1) = (n + α + 1) * Gamma (n + α + 1) := by
    rw [← Gamma_add_one (by linarith)]; congr 1; push_cast; ring
  have e2 : Gamma ((n + 1 : ℕ) + β + 1) = (n + β + 1) * Gamma (n + β + 1) := by
    rw [← Gamma_add_one (by linarith)]; congr 1; push_cast; ring
  have e3 : Gamma ((n + 1 : ℕ) + α + β + 1) = (n + α + β + 1) * Gamma (n + α + β + 1) := by
    rw [← Gamma_add_one (by linarith)]; congr 1; push_cast; ring
  have h3 : 0 < Gamma (n + α + β + 1) := Gamma_pos_of_pos (by linarith)
  have h5 : (0 : ℝ) < n.factorial := by exact_mod_cast n.factorial_pos
  have h6 : (n : ℝ) + α + β + 1 ≠ 0 := by linarith
  have h7 : 2 * (n : ℝ) + α + β + 1 ≠ 0 := by linarith
  have h8 : 2 * (n : ℝ) + α + β + 3 ≠ 0 := by linarith
  have h9 : 2 * ((n : ℝ) + 1) + α + β + 1 ≠ 0 := by linarith
  unfold hnorm
  rw [e1, e2, e3, Nat.factorial_succ]
  push_cast
  have : 2 * ((n : ℝ) + 1) + α + β + 1 = 2 * n + α + β + 3 := by ring
  rw [this]
  field_simp

/-- `C n = 2n(n+s)/((2n+s)(2n+s-1))`, the ratio of leading coefficients. -/
noncomputable def Cc (α β : ℝ) (n : ℕ) : ℝ := 2 * n * (n + α + β) / ((2 * n + α + β) * (2 * n + α + β - 1))

/-- The code's `a` for classical index `n`. -/
theorem anew_eq (α β : ℝ) (ha : -1 < α) (hb : -1 < β) (hs : -1 < α + β) (i : ℕ) :
    anew α β i = Cc α β (i + 2) * sqrt (hnorm α β (i + 2)) / sqrt (hnorm α β (i + 1)) := by
  have hi : (0 : ℝ) ≤ i := Nat.cast_nonneg i
  have hp1 := hnorm_pos α β ha hb hs (i + 1)
  have hp2 := hnorm_pos α β ha hb hs (i + 2)
  have hC : 0 ≤ Cc α β (i + 2) := by
    unfold Cc; push_cast
    apply div_nonneg
    · apply mul_nonneg <;> linarith
    · apply mul_nonneg <;> linarith
  have hden : (0 : ℝ) < 2 / (2 * ((i : ℝ) + 1) + α + β + 2) := by
    apply div_pos (by norm_num); linarith
  rw [mul_div_assoc, ← Real.sqrt_div hp2.le]
  unfold anew
  simp only
  rw [← Real.sqrt_sq hC, ← Real.sqrt_sq hden.le, ← Real.sqrt_mul (sq_nonneg _), ← Real.sqrt_mul (sq_nonneg _)]
  congr 1
  have h := hnorm_succ α β ha hb hs (i + 1)
  rw [show i + 1 + 1 = i + 2 from rfl] at h
  rw [h, mul_div_cancel_left₀ _ hp1.ne']
  unfold Cc
  push_cast
  have n1 : 2 * ((i : ℝ) + 1) + α + β + 2 ≠ 0 := by linarith
  have n2 : 2 * ((i : ℝ) + 1) + α + β + 1 ≠ 0 := by linarith
  have n3 : 2 * ((i : ℝ) + 1) + α + β + 3 ≠ 0 := by linarith
  have n4 : (i : ℝ) + 1 + 1 ≠ 0 := by linarith
  have n5 : (i : ℝ) + 1 + α + β + 1 ≠ 0 := by linarith
  have n6 : 2 * ((i : ℝ) + 2) + α + β ≠ 0 := by linarith
  have n7 : 2 * ((i : ℝ) + 2) + α + β - 1 ≠ 0 := by linarith
  rw [show (i : ℝ) + 1 + 1 = i + 2 by ring, show (i : ℝ) + 1 + α + β + 1 = i + 2 + α + β by ring, show 2 * ((i : ℝ) + 1) + α + β + 2 = 2 * (i + 2) + α + β by ring,
    show 2 * ((i : ℝ) + 1) + α + β + 1 = 2 * (i + 2) + α + β - 1 by ring, show 2 * ((i : ℝ) + 1) + α + β + 3 = 2 * (i + 2) + α + β + 1 by ring,
    show (i : ℝ) + 1 + α + 1 = i + 2 + α by ring, show (i : ℝ) + 1 + β + 1 = i + 2 + β by ring]
  have n8 : (i : ℝ) + 2 + α + β ≠ 0 := by linarith
  have n9 : (i : ℝ) + 2 ≠ 0 := by linarith
  have n10 : 2 * ((i : ℝ) + 2) + α + β + 1 ≠ 0 := by linarith
  field_simp

/-- C51.  For `β = 0` (every use in the code) and every `α > -1`, degree and point, `jacobiPoly` is the classical Jacobi polynomial divided by its norm.  Missing for the full property: `β ≠ 0`
(where it is false, next theorem). -/
theorem C51_jacobi_orthonormal_partial (α x : ℝ) (ha : -1 < α) (n : ℕ) : jacobiPoly x α 0 n = P α 0 x n / sqrt (hnorm α 0 n) := by
  have hb : (-1 : ℝ) < 0 := by norm_num
  have hs : (-1 : ℝ) < α + 0 := by linarith
  have hp := hnorm_pos α 0 ha hb hs
  have hq : ∀ n, sqrt (hnorm α 0 n) ≠ 0 := fun n => (Real.sqrt_pos.2 (hp n)).ne'
  have h0 : poly0 α 0 = P α 0 x 0 / sqrt (hnorm α 0 0) := by rw [hnorm_zero]; rfl
  have hg1 : gamma1 α 0 = hnorm α 0 1 := by
    rw [hnorm_succ α 0 ha hb hs 0, hnorm_zero, gamma1]
    have : α + 1 ≠ 0 := by linarith
    have : α + 3 ≠ 0 := by linarith
    simp
    field_simp
  have h1 : poly1 α 0 x = P α 0 x 1 / sqrt (hnorm α 0 1) := by
    rw [poly1, hg1, P]; ring
  -- loop invariant
  have inv : ∀ k, (jloop α 0 x k).1 = Cc α 0 (k + 1) * sqrt (hnorm α 0 (k + 1)) / sqrt (hnorm α 0 k) ∧ (jloop α 0 x k).2.1 = P α 0 x k / sqrt (hnorm α 0 k) ∧
      (jloop α 0 x k).2.2 = P α 0 x (k + 1) / sqrt (hnorm α 0 (k + 1)) := by
    intro k
    induction k with
    | zero =>
      refine ⟨?_, h0, h1⟩
      rw [mul_div_assoc, ← Real.sqrt_div (hp 1).le, hnorm_succ α 0 ha hb hs 0, mul_div_right_comm, div_self (hp 0).ne', one_mul]
      simp only [jloop, Cc]
      have e1 : α + 1 ≠ 0 := by linarith
      have e2 : α + 2 ≠ 0 := by linarith
      have e3 : α + 3 ≠ 0 := by linarith
      have e4 : 2 + α - 1 ≠ 0 := by linarith
      congr 1
      · push_cast
        simp only [add_zero, mul_one]
        have : 2 + α ≠ 0 := by linarith
        have h5 : (2 : ℝ) + α - 1 = 1 + α := by ring
        have : 1 + α ≠ 0 := by linarith
        rw [h5]; field_simp
      · congr 1
        simp
        field_simp
    | succ k ih =>
      obtain ⟨i1, i2, i3⟩ := ih
      have ea : anew α 0 k = Cc α 0 (k + 2) * sqrt (hnorm α 0 (k + 2)) / sqrt (hnorm α 0 (k + 1)) := anew_eq α 0 ha hb hs k
      refine ⟨ea, i3, ?_⟩
      have hk : (0 : ℝ) ≤ k := Nat.cast_nonneg k
      have hC2 : Cc α 0 (k + 2) ≠ 0 := by
        unfold Cc; push_cast
        apply div_ne_zero
        · apply mul_ne_zero <;> linarith
        · apply mul_ne_zero <;> linarith
      have hdef : (jloop α 0 x (k + 1)).2.2 = (1 / anew α 0 k) * (-(jloop α 0 x k).1 * (jloop α 0 x k).2.1 + (x - bnew α 0 k) * (jloop α 0 x k).2.2) := rfl
      rw [hdef, i1, i2, i3, ea]
      have hρ : hnorm α 0 (k + 1) = hnorm α 0 k * ((2 * k + α + 0 + 1) / (2 * k + α + 0 + 3) * ((k + α + 1) * (k + 0 + 1) / ((k + 1) * (k + α + 0 + 1)))) := hnorm_succ α 0 ha hb hs k
      set ρ := (2 * k + α + 0 + 1) / (2 * k + α + 0 + 3) * ((k + α + 1) * (k + 0 + 1) / ((k + 1) * (k + α + 0 + 1))) with hρd
      have hkk : sqrt (hnorm α 0 (k + 1)) * sqrt (hnorm α 0 (k + 1)) = (sqrt (hnorm α 0 k) * sqrt (hnorm α 0 k)) * ρ := by
        rw [Real.mul_self_sqrt (hp _).le, Real.mul_self_sqrt (hp _).le, hρ]
      have hrec : Cc α 0 (k + 2) * P α 0 x (k + 2) = (x - bnew α 0 k) * P α 0 x (k + 1) - Cc α 0 (k + 1) * ρ * P α 0 x k := by
        rw [P, hρd]
        unfold Cc bnew
        push_cast
        have n1 : (k : ℝ) + 2 ≠ 0 := by linarith
        have n2 : (k : ℝ) + 2 + α ≠ 0 := by linarith
        have n3 : 2 * ((k : ℝ) + 2) + α ≠ 0 := by linarith
        have n4 : 2 * ((k : ℝ) + 2) + α - 1 ≠ 0 := by linarith
        have n5 : 2 * ((k : ℝ) + 2) + α - 2 ≠ 0 := by linarith
        have n6 : 2 * ((k : ℝ) + 1) + α ≠ 0 := by linarith
        have n7 : 2 * ((k : ℝ) + 1) + α - 1 ≠ 0 := by linarith
        have n8 : (k : ℝ) + 1 ≠ 0 := by linarith
        have n9 : (k : ℝ) + α + 1 ≠ 0 := by linarith
        have n10 : 2 * (k : ℝ) + α + 3 ≠ 0 := by linarith
        have n11 : 2 * ((k : ℝ) + 1) + α + 2 ≠ 0 := by linarith
        simp only [add_zero]
        rw [show 2 * ((k : ℝ) + 2) + α - 2 = 2 * (k + 1) + α by ring, show 2 * ((k : ℝ) + 2) + α - 1 = 2 * k + α + 3 by ring, show 2 * ((k : ℝ) + 1) + α - 1 = 2 * k + α + 1 by ring,
          show 2 * ((k : ℝ) + 1) + α + 2 = 2 * (k + 2) + α by ring] at *
        field_simp
        ring
      have hP : P α 0 x (k + 2) = ((x - bnew α 0 k) * P α 0 x (k + 1) - Cc α 0 (k + 1) * ρ * P α 0 x k) / Cc α 0 (k + 2) := by
        rw [← hrec]; field_simp
      rw [show k + 1 + 1 = k + 2 from rfl, hP]
      have s0 := hq k
      have s1 := hq (k + 1)
      have s2 := hq (k + 2)
      set a := sqrt (hnorm α 0 k)
      set b := sqrt (hnorm α 0 (k + 1))
      set c := sqrt (hnorm α 0 (k + 2))
      have hkk' : b * b = a * a * ρ := hkk
      have key : ρ = b * b / (a * a) := by rw [hkk']; field_simp
      rw [key]
      field_simp
      ring
  match n with
  | 0 => exact h0
  | 1 => exact h1
  | n + 2 => exact (inv (n + 1)).2.2

/-- C51 is false for `β ≠ 0`: the degree-1 value differs from the orthonormal polynomial at every point. -/
theorem C51_false_beta (α β x : ℝ) (ha : -1 < α) (hb : -1 < β) (hs : -1 < α + β) (hβ : β ≠ 0) : jacobiPoly x α β 1 ≠ P α β x 1 / sqrt (hnorm α β 1) := by
  have hp := hnorm_pos α β ha hb hs
  have hq : sqrt (hnorm α β 1) ≠ 0 := (Real.sqrt_pos.2 (hp 1)).ne'
  have hg1 : gamma1 α β = hnorm α β 1 := by
    rw [hnorm_succ α β ha hb hs 0, hnorm_zero, gamma1]
    have : α + β + 1 ≠ 0 := by linarith
    have : α + β + 3 ≠ 0 := by linarith
    simp
    field_simp
  rw [jacobiPoly, poly1, hg1, P]
  intro h
  have : β = 0 := by
    field_simp at h
    linarith
  exact hβ this

/-- Non-vacuity: the parameters the triangle basis uses. -/
example : (-1 : ℝ) < 2 * (3 : ℕ) + 1 := by norm_num

/-! ## C74: Lobatto quadrature -/

theorem legendre_one (k : ℕ) : legendre 1 k = 1 ∧ legendre 1 (k + 1) = 1 := by
  induction k with
  | zero => exact ⟨rfl, rfl⟩
  | succ k ih =>
    refine ⟨ih.2, ?_⟩
    rw [legendre, ih.1, ih.2]
    have : ((k : ℝ) + 1 + 1) ≠ 0 := by positivity
    field_simp; ring

theorem legendre_neg (x : ℝ) (k : ℕ) : legendre (-x) k = (-1) ^ k * legendre x k ∧ legendre (-x) (k + 1) = (-1) ^ (k + 1) * legendre x (k + 1) := by
  induction k with
  | zero => exact ⟨by simp [legendre], by simp [legendre]⟩
  | succ k ih =>
    refine ⟨ih.2, ?_⟩
    rw [legendre, ih.1, ih.2, legendre]; ring

theorem lobStep_neg (d : ℕ) (hd : 1 ≤ d) (x : ℝ) : lobStep d (-x) = -lobStep d x := by
  obtain ⟨e, rfl⟩ : ∃ e, d = e + 1 := ⟨d - 1, by omega⟩
  unfold lobStep
  rw [Nat.add_sub_cancel, (legendre_neg x e).1, (legendre_neg x e).2]
  have h1 : ((-1 : ℝ)) ^ (e + 1) ≠ 0 := pow_ne_zero _ (by norm_num)
  have h2 : (-x * ((-1) ^ (e + 1) * legendre x (e + 1)) - (-1) ^ e * legendre x e) / ((-1) ^ (e + 1) * legendre x (e + 1)) = -((x * legendre x (e + 1) - legendre x e) / legendre x (e + 1)) := by
    have : -x * ((-1) ^ (e + 1) * legendre x (e + 1)) - (-1) ^ e * legendre x e = (-1) ^ (e + 1) * (-(x * legendre x (e + 1) - legendre x e)) := by ring
    rw [this, mul_div_mul_left _ _ h1, neg_div]
  rw [h2]; ring

/-- C74.  After every number of sweeps the nodes are symmetric about 0. -/
theorem C74_nodes_symmetric (d : ℕ) (hd : 1 ≤ d) (i : ℕ) (hi : i ≤ d) (k : ℕ) : lobNode d (d - i) k = -lobNode d i k := by
  induction k with
  | zero =>
    have hd0 : (d : ℝ) ≠ 0 := by positivity
    simp only [lobNode, lobInit]
    rw [Nat.cast_sub hi, show π * ((d : ℝ) - i) / d = π - π * i / d by field_simp, cos_pi_sub]
  | succ k ih => rw [lobNode, ih, lobStep_neg d hd]; rfl

/-- C74.  The end nodes are exactly -1 and 1 after every number of sweeps. -/
theorem C74_end_nodes (d : ℕ) (hd : 1 ≤ d) (k : ℕ) : lobNode d 0 k = -1 ∧ lobNode d d k = 1 := by
  have h1 : ∀ k, lobNode d d k = 1 := by
    intro k
    induction k with
    | zero =>
      have hd0 : (d : ℝ) ≠ 0 := by positivity
      simp [lobNode, lobInit, mul_div_cancel_right₀ _ hd0]
    | succ k ih =>
      rw [lobNode, ih, lobStep, (legendre_one d).1, (legendre_one (d - 1)).1]; simp
  refine ⟨?_, h1 k⟩
  have := C74_nodes_symmetric d hd d (le_refl d) k
  rw [Nat.sub_self, h1 k] at this
  exact this

/-- C74.  The weights are symmetric, never negative, and those of the end nodes are `2 / (n (n-1))`, `n = d + 1` nodes. -/
theorem C74_weights (d : ℕ) (hd : 1 ≤ d) (k : ℕ) :
    (∀ i ≤ d, lobWeight d (d - i) k = lobWeight d i k) ∧ (∀ i, 0 ≤ lobWeight d i k) ∧ lobWeight d 0 k = 2 / ((d + 1 : ℝ) * d) ∧ lobWeight d d k = 2 / ((d + 1 : ℝ) * d) := by
  have hsym : ∀ i ≤ d, lobWeight d (d - i) k = lobWeight d i k := by
    intro i hi
    unfold lobWeight
    rw [C74_nodes_symmetric d hd i hi k, (legendre_neg _ d).1]
    have h : ((-1 : ℝ) ^ d * legendre (lobNode d i k) d) * ((-1) ^ d * legendre (lobNode d i k) d) = ((-1) ^ d * (-1) ^ d) * (legendre (lobNode d i k) d * legendre (lobNode d i k) d) := by ring
    rw [h, ← mul_pow]; simp
  have hend : lobWeight d d k = 2 / ((d + 1 : ℝ) * d) := by
    unfold lobWeight
    rw [(C74_end_nodes d hd k).2, (legendre_one d).1]
    have hd0 : (d : ℝ) ≠ 0 := by positivity
    have hd1 : (d : ℝ) + 1 ≠ 0 := by positivity
    field_simp
  refine ⟨hsym, ?_, ?_, hend⟩
  · intro i
    unfold lobWeight
    have : 0 ≤ legendre (lobNode d i k) d * legendre (lobNode d i k) d := mul_self_nonneg _
    positivity
  · rw [← hend, ← hsym d (le_refl d), Nat.sub_self]

/-- C74.  A node the iteration leaves unchanged (the loop's exit condition, in exact arithmetic) is a root of `x P_d - P_{d-1}`, that is of `(1 - x²) P_d'`: a Legendre-Gauss-Lobatto node.  Conversely such roots are never moved. -/
theorem C74_fixed_points (d : ℕ) (x : ℝ) (hP : legendre x d ≠ 0) : lobStep d x = x ↔ x * legendre x d = legendre x (d - 1) := by
  unfold lobStep
  have hd1 : (d : ℝ) + 1 ≠ 0 := by positivity
  constructor
  · intro h
    have h2 : (x * legendre x d - legendre x (d - 1)) / legendre x d * (1 / ((d : ℝ) + 1)) = 0 := by linarith
    have h3 : x * legendre x d - legendre x (d - 1) = 0 := by
      have hne : legendre x d * ((d : ℝ) + 1) ≠ 0 := mul_ne_zero hP hd1
      have h4 : (x * legendre x d - legendre x (d - 1)) / (legendre x d * ((d : ℝ) + 1)) = 0 := by rw [← h2]; field_simp
      rcases div_eq_zero_iff.1 h4 with h5 | h5
      · exact h5
      · exact absurd h5 hne
    linarith
  · intro h
    rw [h]; simp

/-- Non-vacuity: with three nodes the middle node 0 is a fixed point. -/
example : legendre 0 2 ≠ 0 ∧ (0 : ℝ) * legendre 0 2 = legendre 0 (2 - 1) := by
  constructor
  · simp [legendre]
  · simp [legendre]

end Verif.OrthoPoly
