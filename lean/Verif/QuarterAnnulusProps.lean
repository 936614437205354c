import Mathlib.Analysis.SpecialFunctions.Trigonometric.Bounds
import Mathlib.Analysis.Real.Pi.Bounds
import Mathlib.Tactic.Linarith
import Mathlib.Tactic.FieldSimp
import Mathlib.Tactic.Positivity
import Verif.QuarterAnnulus

/-!
# C217: the quarter-annulus mesh
-/

namespace Verif.QuarterAnnulus
open Finset

/-- Twice the signed area of a triangle. -/
def area2 (P Q R : Pt) : ℝ := (Q.1 - P.1) * (R.2 - P.2) - (R.1 - P.1) * (Q.2 - P.2)

/-- Twice the signed area of a triangle of the mesh in parameter space. -/
noncomputable def paramArea2 (V : ℕ → ℕ → Pt) (T : Tri) : ℝ :=
  area2 (V (T 0).1 (T 0).2) (V (T 1).1 (T 1).2) (V (T 2).1 (T 2).2)

/-- The draws come from `[-pert, pert]`. -/
def Draws (pert : ℝ) (rnd : ℕ → ℕ → ℝ × ℝ) : Prop := ∀ a b, |(rnd a b).1| ≤ pert ∧ |(rnd a b).2| ≤ pert

variable {eps pert : ℝ} {nr na : ℕ} {rnd : ℕ → ℕ → ℝ × ℝ}

/-- A vertex is a grid vertex displaced by `x`, `y` cells, and not displaced on the boundary. -/
theorem vertex_form (he : 0 ≤ eps) (hr : 0 < nr) (hn : 0 < na) (hd : Draws pert rnd) (a b : ℕ) : ∃ x y : ℝ,
    vertex eps pert nr na rnd a b = (2 * (a + x) / nr, Real.pi * 0.5 * (b + y) / na) ∧
    |x| ≤ max pert 0 ∧ |y| ≤ max pert 0 ∧ ((a = 0 ∨ nr ≤ a ∨ b = 0 ∨ na ≤ b) → x = 0 ∧ y = 0) := by
  have hr' : (0 : ℝ) < nr := Nat.cast_pos.2 hr
  have hn' : (0 : ℝ) < na := Nat.cast_pos.2 hn
  have h0 : gridVertex nr na a b = (2 * (a + (0 : ℝ)) / nr, Real.pi * 0.5 * (b + (0 : ℝ)) / na) := by
    simp [gridVertex]
  unfold vertex
  split_ifs with hp
  · unfold perturbVertex
    split_ifs with hi
    · refine ⟨(rnd a b).1, (rnd a b).2, ?_, (hd a b).1.trans (le_max_left _ _), (hd a b).2.trans (le_max_left _ _), ?_⟩
      · simp only [gridVertex, Prod.mk.injEq]; constructor <;> ring
      · obtain ⟨h1, h2, h3, h4⟩ := hi
        simp only [gridVertex] at h1 h2 h3 h4
        rintro (rfl | h | rfl | h)
        · simp at h1; linarith
        · have : (2 : ℝ) ≤ 2 * a / nr := by
            rw [le_div_iff₀ hr']; have : (nr : ℝ) ≤ a := Nat.cast_le.2 h; linarith
          linarith
        · simp at h3; linarith
        · have : Real.pi * 0.5 ≤ Real.pi * 0.5 * b / na := by
            rw [le_div_iff₀ hn']
            have : (na : ℝ) ≤ b := Nat.cast_le.2 h
            exact mul_le_mul_of_nonneg_left this (by have := Real.pi_pos; positivity)
          linarith
    · exact ⟨0, 0, h0, by simp, by simp, fun _ => ⟨rfl, rfl⟩⟩
  · exact ⟨0, 0, h0, by simp, by simp, fun _ => ⟨rfl, rfl⟩⟩

/-- Every vertex lies in the parameter rectangle if `pert ≤ 1`. -/
theorem vertex_range (he : 0 ≤ eps) (hr : 0 < nr) (hn : 0 < na) (hp : pert ≤ 1) (hd : Draws pert rnd) (a b : ℕ)
    (ha : a ≤ nr) (hb : b ≤ na) :
    0 ≤ (vertex eps pert nr na rnd a b).1 ∧ (vertex eps pert nr na rnd a b).1 ≤ 2 ∧
    0 ≤ (vertex eps pert nr na rnd a b).2 ∧ (vertex eps pert nr na rnd a b).2 ≤ Real.pi / 2 := by
  have hr' : (0 : ℝ) < nr := Nat.cast_pos.2 hr
  have hn' : (0 : ℝ) < na := Nat.cast_pos.2 hn
  have hpi := Real.pi_pos
  obtain ⟨x, y, hv, hx, hy, h0⟩ := vertex_form he hr hn hd a b
  have hm : max pert 0 ≤ 1 := max_le hp zero_le_one
  have hx1 := abs_le.1 (hx.trans hm)
  have hy1 := abs_le.1 (hy.trans hm)
  have key : 0 ≤ a + x ∧ a + x ≤ nr ∧ 0 ≤ b + y ∧ b + y ≤ na := by
    by_cases h : a = 0 ∨ nr ≤ a ∨ b = 0 ∨ na ≤ b
    · obtain ⟨rfl, rfl⟩ := h0 h
      simp only [add_zero]
      exact ⟨Nat.cast_nonneg _, Nat.cast_le.2 ha, Nat.cast_nonneg _, Nat.cast_le.2 hb⟩
    · simp only [not_or, not_le] at h
      obtain ⟨h1, h2, h3, h4⟩ := h
      have q1 : (1 : ℝ) ≤ a := by exact_mod_cast Nat.one_le_iff_ne_zero.2 h1
      have q2 : (a : ℝ) + 1 ≤ nr := by exact_mod_cast h2
      have q3 : (1 : ℝ) ≤ b := by exact_mod_cast Nat.one_le_iff_ne_zero.2 h3
      have q4 : (b : ℝ) + 1 ≤ na := by exact_mod_cast h4
      exact ⟨by linarith [hx1.1], by linarith [hx1.2], by linarith [hy1.1], by linarith [hy1.2]⟩
  obtain ⟨k1, k2, k3, k4⟩ := key
  rw [hv]
  simp only
  refine ⟨by positivity, ?_, by positivity, ?_⟩
  · rw [div_le_iff₀ hr']; linarith
  · rw [div_le_iff₀ hn']; nlinarith

theorem xyFun_norm (rt : Pt) : (xyFun rt).1 ^ 2 + (xyFun rt).2 ^ 2 = (rt.1 + 1) ^ 2 := by
  unfold xyFun
  have := Real.sin_sq_add_cos_sq rt.2
  simp only
  linear_combination (rt.1 + 1) ^ 2 * this

theorem cell_index (i j : ℕ) (up : Bool) (hi : i < nr) (hj : j < na) (k : Fin 3) :
    (cellTri i j up k).1 ≤ nr ∧ (cellTri i j up k).2 ≤ na := by
  unfold cellTri
  cases up <;> fin_cases k <;> simp <;> omega

theorem conv_range {f l : Fin 3 → ℝ} {lo hi : ℝ} (hl : ∀ k, 0 ≤ l k) (h1 : ∑ k, l k = 1)
    (hf : ∀ k, lo ≤ f k ∧ f k ≤ hi) : lo ≤ ∑ k, l k * f k ∧ ∑ k, l k * f k ≤ hi := by
  rw [Fin.sum_univ_three] at *
  have a := fun k => mul_le_mul_of_nonneg_left (hf k).1 (hl k)
  have b := fun k => mul_le_mul_of_nonneg_left (hf k).2 (hl k)
  constructor
  · have h : (l 0 + l 1 + l 2) * lo = lo := by rw [h1, one_mul]
    linarith [a 0, a 1, a 2]
  · have h : (l 0 + l 1 + l 2) * hi = hi := by rw [h1, one_mul]
    linarith [b 0, b 1, b 2]

/-- Every node of the mesh, of any degree, lies in the closed quarter annulus with radii 1 and 3: the
documented domain. -/
theorem C217_domain (he : 0 ≤ eps) (hr : 0 < nr) (hn : 0 < na) (hp : pert ≤ 1) (hd : Draws pert rnd)
    (i j : ℕ) (hi : i < nr) (hj : j < na) (up : Bool) (l : Fin 3 → ℝ) (hl : ∀ k, 0 ≤ l k) (h1 : ∑ k, l k = 1) :
    let p := node eps pert nr na rnd i j up l
    0 ≤ p.1 ∧ 0 ≤ p.2 ∧ 1 ≤ p.1 ^ 2 + p.2 ^ 2 ∧ p.1 ^ 2 + p.2 ^ 2 ≤ 9 := by
  intro p
  have hv := fun k => vertex_range (eps := eps) (rnd := rnd) he hr hn hp hd _ _ (cell_index i j up hi hj k).1
    (cell_index i j up hi hj k).2
  have ha := conv_range hl h1 fun k => ⟨(hv k).1, (hv k).2.1⟩
  have hb := conv_range hl h1 fun k => ⟨(hv k).2.2.1, (hv k).2.2.2⟩
  obtain ⟨rt, hrt⟩ : ∃ rt, rt = paramAt (vertex eps pert nr na rnd) (cellTri i j up) l := ⟨_, rfl⟩
  have hp' : p = xyFun rt := by rw [hrt]; rfl
  have q1 : 0 ≤ rt.1 ∧ rt.1 ≤ 2 := by rw [hrt]; exact ha
  have q2 : 0 ≤ rt.2 ∧ rt.2 ≤ Real.pi / 2 := by rw [hrt]; exact hb
  have hpi := Real.pi_pos
  rw [hp', xyFun_norm]
  refine ⟨mul_nonneg (by linarith [q1.1]) (Real.cos_nonneg_of_neg_pi_div_two_le_of_le (by linarith [q2.1]) q2.2),
    mul_nonneg (by linarith [q1.1]) (Real.sin_nonneg_of_nonneg_of_le_pi q2.1 (by linarith [q2.2])), ?_, ?_⟩
  · nlinarith [q1.1]
  · nlinarith [q1.1, q1.2]

/-- The perturbation leaves the boundary where it is: boundary vertices lie exactly on the two arcs and
the two coordinate axes, whatever the draws. -/
theorem C217_boundary_vertices (he : 0 ≤ eps) (hr : 0 < nr) (hn : 0 < na) (hd : Draws pert rnd) (a b : ℕ) :
    (xyFun (vertex eps pert nr na rnd 0 b)).1 ^ 2 + (xyFun (vertex eps pert nr na rnd 0 b)).2 ^ 2 = 1 ∧
    (xyFun (vertex eps pert nr na rnd nr b)).1 ^ 2 + (xyFun (vertex eps pert nr na rnd nr b)).2 ^ 2 = 9 ∧
    (xyFun (vertex eps pert nr na rnd a 0)).2 = 0 ∧ (xyFun (vertex eps pert nr na rnd a na)).1 = 0 := by
  have hr' : (nr : ℝ) ≠ 0 := Nat.cast_ne_zero.2 hr.ne'
  have hn' : (na : ℝ) ≠ 0 := Nat.cast_ne_zero.2 hn.ne'
  rw [xyFun_norm, xyFun_norm]
  refine ⟨?_, ?_, ?_, ?_⟩
  · obtain ⟨x, y, hv, _, _, h0⟩ := vertex_form he hr hn hd 0 b
    obtain ⟨rfl, rfl⟩ := h0 (by tauto)
    rw [hv]; simp
  · obtain ⟨x, y, hv, _, _, h0⟩ := vertex_form he hr hn hd nr b
    obtain ⟨rfl, rfl⟩ := h0 (by simp)
    rw [hv]; simp only [add_zero]; rw [mul_div_assoc, div_self hr']; norm_num
  · obtain ⟨x, y, hv, _, _, h0⟩ := vertex_form he hr hn hd a 0
    obtain ⟨rfl, rfl⟩ := h0 (by tauto)
    rw [hv]; simp [xyFun]
  · obtain ⟨x, y, hv, _, _, h0⟩ := vertex_form he hr hn hd a na
    obtain ⟨rfl, rfl⟩ := h0 (by simp)
    rw [hv]; simp only [add_zero, xyFun]
    rw [show Real.pi * 0.5 * na / na = Real.pi / 2 by field_simp; ring, Real.cos_pi_div_two, mul_zero]

/-- The nodes of the inner-arc edges lie exactly on the inner arc, of any degree; likewise on the outer
arc. -/
theorem C217_boundary_nodes (he : 0 ≤ eps) (hr : 0 < nr) (hn : 0 < na) (hd : Draws pert rnd) (i j : ℕ)
    (l : Fin 3 → ℝ) (h1 : ∑ k, l k = 1) :
    (l 1 = 0 → (node eps pert nr na rnd 0 j true l).1 ^ 2 + (node eps pert nr na rnd 0 j true l).2 ^ 2 = 1) ∧
    (l 0 = 0 → i + 1 = nr →
      (node eps pert nr na rnd i j false l).1 ^ 2 + (node eps pert nr na rnd i j false l).2 ^ 2 = 9) ∧
    (l 2 = 0 → (node eps pert nr na rnd i 0 false l).2 = 0) ∧
    (l 0 = 0 → j + 1 = na → (node eps pert nr na rnd i j true l).1 = 0) := by
  have hr' : (nr : ℝ) ≠ 0 := Nat.cast_ne_zero.2 hr.ne'
  have hn' : (na : ℝ) ≠ 0 := Nat.cast_ne_zero.2 hn.ne'
  rw [Fin.sum_univ_three] at h1
  unfold node
  rw [xyFun_norm, xyFun_norm]
  have v0 : ∀ b, (vertex eps pert nr na rnd 0 b).1 = 0 := by
    intro b
    obtain ⟨x, y, hv, _, _, h0⟩ := vertex_form he hr hn hd 0 b
    obtain ⟨rfl, rfl⟩ := h0 (by tauto)
    rw [hv]; simp
  have v1 : ∀ b, (vertex eps pert nr na rnd nr b).1 = 2 := by
    intro b
    obtain ⟨x, y, hv, _, _, h0⟩ := vertex_form he hr hn hd nr b
    obtain ⟨rfl, rfl⟩ := h0 (by simp)
    rw [hv]; simp only [add_zero]; rw [mul_div_assoc, div_self hr', mul_one]
  have v2 : ∀ a, (vertex eps pert nr na rnd a 0).2 = 0 := by
    intro a
    obtain ⟨x, y, hv, _, _, h0⟩ := vertex_form he hr hn hd a 0
    obtain ⟨rfl, rfl⟩ := h0 (by tauto)
    rw [hv]; simp
  have v3 : ∀ a, (vertex eps pert nr na rnd a na).2 = Real.pi / 2 := by
    intro a
    obtain ⟨x, y, hv, _, _, h0⟩ := vertex_form he hr hn hd a na
    obtain ⟨rfl, rfl⟩ := h0 (by simp)
    rw [hv]; simp only [add_zero]; rw [mul_div_assoc, div_self hn', mul_one]; ring
  refine ⟨fun h => ?_, fun h hi => ?_, fun h => ?_, fun h hj => ?_⟩
  · simp [paramAt, cellTri, Fin.sum_univ_three, h, v0]
  · subst hi
    have : l 1 + l 2 = 1 := by linarith
    simp only [paramAt, cellTri, Fin.sum_univ_three, h, v1, if_false, Bool.false_eq_true, Matrix.cons_val_zero,
      Matrix.cons_val_one, Matrix.cons_val, zero_mul, zero_add]
    rw [← add_mul, this]; norm_num
  · simp [paramAt, cellTri, Fin.sum_univ_three, h, v2, xyFun]
  · subst hj
    have : l 1 + l 2 = 1 := by linarith
    simp only [paramAt, cellTri, Fin.sum_univ_three, h, v3, if_true, Matrix.cons_val_zero,
      Matrix.cons_val_one, Matrix.cons_val, zero_mul, zero_add, xyFun]
    rw [← add_mul, this, one_mul, Real.cos_pi_div_two, mul_zero]

/-- With a perturbation below a quarter of a cell no triangle of the parameter mesh is inverted,
whatever the draws. -/
theorem C217_orientation (he : 0 ≤ eps) (hr : 0 < nr) (hn : 0 < na) (hp : pert < 1 / 4) (hd : Draws pert rnd)
    (i j : ℕ) (up : Bool) : 0 < paramArea2 (vertex eps pert nr na rnd) (cellTri i j up) := by
  have hr' : (0 : ℝ) < nr := Nat.cast_pos.2 hr
  have hn' : (0 : ℝ) < na := Nat.cast_pos.2 hn
  have hpi := Real.pi_pos
  obtain ⟨p, hpd⟩ : ∃ p, p = max pert 0 := ⟨_, rfl⟩
  have hp0 : 0 ≤ p := hpd ▸ le_max_right _ _
  have hp4 : p < 1 / 4 := hpd ▸ max_lt hp (by norm_num)
  have hf := fun a b => vertex_form (eps := eps) he hr hn hd a b
  simp only [← hpd] at hf
  -- the same estimate for both triangles: `u`, `v` are the long and short legs at the right angle
  have key : ∀ a1 a2 b1 b2 : ℝ, |a1| ≤ 2 * p → |a2| ≤ 2 * p → |b1| ≤ 2 * p → |b2| ≤ 2 * p →
      0 < (1 + a1) * (1 + a2) - b1 * b2 := by
    intro a1 a2 b1 b2 h1 h2 h3 h4
    have e1 : (1 - 2 * p) * (1 - 2 * p) ≤ (1 + a1) * (1 + a2) :=
      mul_le_mul (by linarith [(abs_le.1 h1).1]) (by linarith [(abs_le.1 h2).1]) (by linarith)
        (by linarith [(abs_le.1 h1).1])
    have e2 : b1 * b2 ≤ (2 * p) * (2 * p) := (le_abs_self _).trans (by
      rw [abs_mul]; exact mul_le_mul h3 h4 (abs_nonneg _) (by linarith))
    nlinarith
  have hdiff : ∀ {s t : ℝ}, |s| ≤ p → |t| ≤ p → |s - t| ≤ 2 * p := by
    intro s t hs ht
    rw [abs_le] at *
    constructor <;> linarith [hs.1, hs.2, ht.1, ht.2]
  cases up with
  | true =>
    obtain ⟨x0, y0, hv0, hx0, hy0, -⟩ := hf i j
    obtain ⟨x1, y1, hv1, hx1, hy1, -⟩ := hf (i + 1) (j + 1)
    obtain ⟨x2, y2, hv2, hx2, hy2, -⟩ := hf i (j + 1)
    have hk := key (x1 - x2) (y2 - y0) (x2 - x0) (y1 - y2) (hdiff hx1 hx2) (hdiff hy2 hy0) (hdiff hx2 hx0)
      (hdiff hy1 hy2)
    have : paramArea2 (vertex eps pert nr na rnd) (cellTri i j true) =
        (2 / nr * (Real.pi * 0.5 / na)) * ((1 + (x1 - x2)) * (1 + (y2 - y0)) - (x2 - x0) * (y1 - y2)) := by
      simp only [paramArea2, cellTri, if_true, Matrix.cons_val_zero, Matrix.cons_val_one, 
        Matrix.cons_val, hv0, hv1, hv2, area2]
      push_cast
      field_simp
      ring
    rw [this]
    exact mul_pos (by positivity) hk
  | false =>
    obtain ⟨x0, y0, hv0, hx0, hy0, -⟩ := hf i j
    obtain ⟨x1, y1, hv1, hx1, hy1, -⟩ := hf (i + 1) j
    obtain ⟨x2, y2, hv2, hx2, hy2, -⟩ := hf (i + 1) (j + 1)
    have hk := key (x1 - x0) (y2 - y1) (x2 - x1) (y1 - y0) (hdiff hx1 hx0) (hdiff hy2 hy1) (hdiff hx2 hx1)
      (hdiff hy1 hy0)
    have : paramArea2 (vertex eps pert nr na rnd) (cellTri i j false) =
        (2 / nr * (Real.pi * 0.5 / na)) * ((1 + (x1 - x0)) * (1 + (y2 - y1)) - (x2 - x1) * (y1 - y0)) := by
      simp only [paramArea2, cellTri, Bool.false_eq_true, if_false, Matrix.cons_val_zero, Matrix.cons_val_one,
        Matrix.cons_val, hv0, hv1, hv2, area2]
      push_cast
      field_simp
      ring
    rw [this]
    exact mul_pos (by positivity) hk

/-- A quarter is sharp: for every larger `pert` some draws invert a triangle of the 3 by 3 mesh. -/
theorem C217_orientation_sharp (he : 0 < eps) (he' : eps < 1 / 4) (hp : 1 / 4 < pert) : ∃ rnd, Draws pert rnd ∧
    paramArea2 (vertex eps pert 3 3 rnd) (cellTri 1 1 true) < 0 := by
  refine ⟨fun a b => if a = 1 ∧ b = 1 then (-pert, pert) else if a = 2 then (-pert, pert) else (pert, -pert), ?_, ?_⟩
  · intro a b
    have : |pert| ≤ pert := by rw [abs_of_pos (by linarith)]
    dsimp only
    split_ifs <;> simp [this]
  · have hpi := Real.pi_gt_three
    have hpe : pert > eps := by linarith
    have hv : ∀ a b : ℕ, (a = 1 ∨ a = 2) → (b = 1 ∨ b = 2) → ∀ rnd, vertex eps pert 3 3 rnd a b =
        (2 * a / 3 + (rnd a b).1 * 2 / 3, Real.pi * 0.5 * b / 3 + (rnd a b).2 * Real.pi * 0.5 / 3) := by
      intro a b ha hb rnd
      unfold vertex perturbVertex
      have hI : Interior eps (gridVertex 3 3 a b) := by
        unfold Interior gridVertex
        rcases ha with rfl | rfl <;> rcases hb with rfl | rfl <;> push_cast <;> refine ⟨?_, ?_, ?_, ?_⟩ <;> norm_num <;> linarith
      rw [if_pos hpe, if_pos hI]
      simp [gridVertex]
    simp only [paramArea2, cellTri, if_true, Matrix.cons_val_zero, Matrix.cons_val_one, 
        Matrix.cons_val]
    rw [hv 1 1 (by simp) (by simp), hv (1 + 1) (1 + 1) (by simp) (by simp), hv 1 (1 + 1) (by simp) (by simp)]
    simp only [area2]
    norm_num
    nlinarith [mul_pos (show 0 < pert - 1 / 4 by linarith) Real.pi_pos]

/-! ### The unperturbed straight-sided mesh -/

/-- Physical signed area (twice) of a straight-sided triangle of the mesh. -/
noncomputable def physArea2 (V : ℕ → ℕ → Pt) (T : Tri) : ℝ :=
  area2 (xyFun (V (T 0).1 (T 0).2)) (xyFun (V (T 1).1 (T 1).2)) (xyFun (V (T 2).1 (T 2).2))

theorem vertex_plain (hp : pert ≤ eps) (rnd : ℕ → ℕ → ℝ × ℝ) : vertex eps pert nr na rnd = gridVertex nr na := by
  funext a b; unfold vertex; rw [if_neg (not_lt.2 hp)]

theorem polar_area (r s θ φ : ℝ) : area2 (xyFun (r, θ)) (xyFun (s, φ)) (xyFun (r, φ)) = (r + 1) * (s - r) * Real.sin (φ - θ) ∧
    area2 (xyFun (r, θ)) (xyFun (s, θ)) (xyFun (s, φ)) = (s + 1) * (s - r) * Real.sin (φ - θ) := by
  unfold area2 xyFun
  rw [Real.sin_sub]
  simp only
  constructor
  · ring
  · ring

/-- Angle of one cell. -/
noncomputable def dθ (na : ℕ) : ℝ := Real.pi / (2 * na)

theorem cell_areas (hr : 0 < nr) (hn : 0 < na) (i j : ℕ) :
    physArea2 (gridVertex nr na) (cellTri i j true) = (2 * i / nr + 1) * (2 / nr) * Real.sin (dθ na) ∧
    physArea2 (gridVertex nr na) (cellTri i j false) = (2 * (i + 1) / nr + 1) * (2 / nr) * Real.sin (dθ na) := by
  have hr' : (nr : ℝ) ≠ 0 := Nat.cast_ne_zero.2 hr.ne'
  have hn' : (na : ℝ) ≠ 0 := Nat.cast_ne_zero.2 hn.ne'
  have hang : Real.pi * 0.5 * ((j + 1 : ℕ) : ℝ) / na - Real.pi * 0.5 * (j : ℝ) / na = dθ na := by
    unfold dθ; push_cast; field_simp; ring
  have hrad : 2 * ((i + 1 : ℕ) : ℝ) / nr - 2 * (i : ℝ) / nr = 2 / nr := by push_cast; field_simp; ring
  have h := polar_area (2 * (i : ℝ) / nr) (2 * ((i + 1 : ℕ) : ℝ) / nr) (Real.pi * 0.5 * (j : ℝ) / na)
    (Real.pi * 0.5 * ((j + 1 : ℕ) : ℝ) / na)
  rw [hang, hrad] at h
  constructor
  · exact h.1
  · have := h.2
    rw [show (2 : ℝ) * ((i : ℝ) + 1) = 2 * ((i + 1 : ℕ) : ℝ) by push_cast; ring]
    exact this

theorem dθ_pos (hn : 0 < na) : 0 < dθ na := by
  have hn' : (0 : ℝ) < na := Nat.cast_pos.2 hn
  have := Real.pi_pos
  unfold dθ; positivity

theorem dθ_lt (hn : 0 < na) : dθ na < Real.pi := by
  have hn' : (1 : ℝ) ≤ na := by exact_mod_cast hn
  have := Real.pi_pos
  unfold dθ; rw [div_lt_iff₀ (by positivity)]; nlinarith

/-- No element of the unperturbed straight-sided mesh is inverted or degenerate. -/
theorem C217_elements_positive (hr : 0 < nr) (hn : 0 < na) (hp : pert ≤ eps) (i j : ℕ) (up : Bool) :
    0 < physArea2 (vertex eps pert nr na rnd) (cellTri i j up) := by
  have hr' : (0 : ℝ) < nr := Nat.cast_pos.2 hr
  have hs := Real.sin_pos_of_pos_of_lt_pi (dθ_pos hn) (dθ_lt hn)
  rw [vertex_plain hp]
  cases up with
  | true => rw [(cell_areas hr hn i j).1]; positivity
  | false => rw [(cell_areas hr hn i j).2]; positivity

/-- Area of the straight-sided mesh. -/
noncomputable def meshArea (V : ℕ → ℕ → Pt) (nr na : ℕ) : ℝ :=
  ∑ i ∈ range nr, ∑ j ∈ range na, (physArea2 V (cellTri i j true) + physArea2 V (cellTri i j false)) / 2

theorem telescope (nr : ℕ) (h : ℝ) (M : ℕ) :
    ∑ i ∈ range M, ((2 * i / nr + 1) * h + (2 * (i + 1) / nr + 1) * h) = h * (2 * M ^ 2 / nr + 2 * M) := by
  induction M with
  | zero => simp
  | succ M ih => rw [sum_range_succ, ih]; push_cast; ring

/-- The area of the straight-sided mesh is that of the inscribed polygonal annulus: it does not depend on
the number of radial cells, never exceeds the exact area `2π`, and converges to it quadratically. -/
theorem C217_area (hr : 0 < nr) (hn : 0 < na) (hp : pert ≤ eps) :
    meshArea (vertex eps pert nr na rnd) nr na = 4 * na * Real.sin (Real.pi / (2 * na)) ∧
    meshArea (vertex eps pert nr na rnd) nr na < 2 * Real.pi ∧
    2 * Real.pi - Real.pi ^ 3 / (12 * na ^ 2) < meshArea (vertex eps pert nr na rnd) nr na := by
  have hr' : (nr : ℝ) ≠ 0 := Nat.cast_ne_zero.2 hr.ne'
  have hn' : (0 : ℝ) < na := Nat.cast_pos.2 hn
  have e : meshArea (vertex eps pert nr na rnd) nr na = 4 * na * Real.sin (dθ na) := by
    rw [vertex_plain hp]
    unfold meshArea
    have : ∀ i ∈ range nr, ∑ j ∈ range na, (physArea2 (gridVertex nr na) (cellTri i j true) +
        physArea2 (gridVertex nr na) (cellTri i j false)) / 2 =
        na * Real.sin (dθ na) / 2 * ((2 * i / nr + 1) * (2 / nr) + (2 * (i + 1) / nr + 1) * (2 / nr)) := by
      intro i _
      rw [sum_congr rfl fun j _ => by rw [(cell_areas hr hn i j).1, (cell_areas hr hn i j).2], sum_const, card_range,
        nsmul_eq_mul]
      ring
    rw [sum_congr rfl this, ← mul_sum, telescope]
    field_simp
    ring
  have hd : 4 * na * dθ na = 2 * Real.pi := by unfold dθ; field_simp; ring
  refine ⟨e, ?_, ?_⟩
  · rw [e, ← hd]
    exact mul_lt_mul_of_pos_left (Real.sin_lt (dθ_pos hn)) (by positivity)
  · have := Real.sin_gt_sub_cube (dθ_pos hn)
    rw [e]
    have h3 : 4 * na * (dθ na - dθ na ^ 3 / 6) = 2 * Real.pi - Real.pi ^ 3 / (12 * na ^ 2) := by
      unfold dθ; field_simp; ring
    rw [← h3]
    exact mul_lt_mul_of_pos_left this (by positivity)

/-! ### Non-vacuity -/

/-- Draws that move every interior vertex. -/
example : Draws (1 / 5) (fun _ _ => (1 / 5, -1 / 5)) := by
  intro a b; constructor <;> norm_num [abs_of_pos, abs_of_neg]

example : (0 : ℝ) ≤ 1 / 1000 ∧ (1 / 5 : ℝ) < 1 / 4 := by norm_num

end Verif.QuarterAnnulus
