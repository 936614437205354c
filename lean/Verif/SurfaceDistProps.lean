import Verif.SurfaceDist
import Mathlib.Tactic.Ring
import Mathlib.Tactic.Linarith
import Mathlib.Tactic.FieldSimp
import Mathlib.Tactic.NormNum
import Mathlib.Tactic.Positivity

/-! # Distance to a surface: property theorems (C73) -/

namespace Verif.SurfaceDist

/-! ## Specification -/

/-- Squared distance from `x` to the point of element `e` at reference coordinate `t`. -/
def d2 (e : Elem) (x : P2) (t : ℝ) : ℝ := dot (e.pos t - x) (e.pos t - x)

/-! ## Lemmas -/

theorem dot_self_nonneg (u : P2) : 0 ≤ dot u u := by unfold dot; nlinarith [mul_self_nonneg u.1, mul_self_nonneg u.2]

theorem loop_succ (e : Elem) (x : P2) (tol ltol : ℝ) (n : ℕ) (xi : ℝ) (hit : Bool) : loop e x tol ltol (n + 1) xi hit =
    if |dot (e.jac xi) (e.pos xi - x)| < tol then .dist (norm (e.pos xi - x))
    else if |dot (e.jac xi) (e.jac xi) + dot (e.hess xi) (e.pos xi - x)| ≤ ltol then .linearSolveFailed
    else
      if (project (xi + stepOf (dot (e.jac xi) (e.pos xi - x)) (dot (e.jac xi) (e.jac xi) + dot (e.hess xi) (e.pos xi - x)))).2 then
        loop e x tol ltol n (project (xi + stepOf (dot (e.jac xi) (e.pos xi - x)) (dot (e.jac xi) (e.jac xi) + dot (e.hess xi) (e.pos xi - x)))).1 hit
      else if hit then .dist (norm (e.pos xi - x))
      else loop e x tol ltol n (project (xi + stepOf (dot (e.jac xi) (e.pos xi - x)) (dot (e.jac xi) (e.jac xi) + dot (e.hess xi) (e.pos xi - x)))).1 true := rfl

theorem project_mem (t : ℝ) : 0 ≤ (project t).1 ∧ (project t).1 ≤ 1 := by
  unfold project
  split
  · simp
  · split
    · simp
    · constructor <;> simp_all

/-! ## C73 -/

/-- C73.  For every element (straight or curved), whatever is returned is the distance from `x` to some point of the element. -/
theorem C73_distance_to_a_point_of_the_element (e : Elem) (x : P2) (tol ltol d : ℝ) (h : solveDistance e x tol ltol = .dist d) :
    ∃ t, 0 ≤ t ∧ t ≤ 1 ∧ 0 ≤ d ∧ d ^ 2 = d2 e x t := by
  have main : ∀ n xi hit, 0 ≤ xi → xi ≤ 1 → loop e x tol ltol n xi hit = .dist d → ∃ t, 0 ≤ t ∧ t ≤ 1 ∧ 0 ≤ d ∧ d ^ 2 = d2 e x t := by
    intro n
    induction n with
    | zero => intro xi hit _ _ h; simp [loop] at h
    | succ n ih =>
      intro xi hit h0 h1 h
      have hret : Res.dist (norm (e.pos xi - x)) = Res.dist d → ∃ t, 0 ≤ t ∧ t ≤ 1 ∧ 0 ≤ d ∧ d ^ 2 = d2 e x t := by
        intro he
        have he' : norm (e.pos xi - x) = d := Res.dist.inj he
        refine ⟨xi, h0, h1, ?_, ?_⟩
        · rw [← he']; exact Real.sqrt_nonneg _
        · rw [← he', norm, Real.sq_sqrt (dot_self_nonneg _)]; rfl
      rw [loop_succ] at h
      split at h
      · exact hret h
      · split at h
        · simp at h
        · split at h
          · exact ih _ _ (project_mem _).1 (project_mem _).2 h
          · split at h
            · exact hret h
            · exact ih _ _ (project_mem _).1 (project_mem _).2 h
  exact main 30 _ _ (by norm_num) (by norm_num) h

theorem seg_grad (a b x : P2) (s t : ℝ) : dot ((segment a b).jac t) ((segment a b).pos t - x) = dot ((segment a b).jac s) ((segment a b).pos s - x) + (t - s) * dot (b - a) (b - a) := by
  simp [segment, dot]; ring

theorem seg_d2 (a b x : P2) (s t : ℝ) : d2 (segment a b) x t = d2 (segment a b) x s + 2 * dot ((segment a b).jac s) ((segment a b).pos s - x) * (t - s) + dot (b - a) (b - a) * (t - s) ^ 2 := by
  simp [segment, d2, dot]; ring

/-- C73.  For a straight element that `LinearSolve` does not regard as singular, the result is the distance to the element: never more than the distance to any of its points, up to `tol / length`
(which is the stopping tolerance). -/
theorem C73_exact_on_straight_elements_partial (a b x : P2) (tol ltol : ℝ) (htol : 0 < tol) (hltol : 0 ≤ ltol) (hlen : ltol < dot (b - a) (b - a)) :
    ∃ d, solveDistance (segment a b) x tol ltol = .dist d ∧ ∀ t, 0 ≤ t → t ≤ 1 → d ^ 2 ≤ d2 (segment a b) x t + tol ^ 2 / dot (b - a) (b - a) := by
  set L := dot (b - a) (b - a) with hL
  have hLpos : 0 < L := lt_of_le_of_lt hltol hlen
  set e := segment a b with he
  set G : ℝ → ℝ := fun t => dot (e.jac t) (e.pos t - x) with hG
  have hH : ∀ t, dot (e.jac t) (e.jac t) + dot (e.hess t) (e.pos t - x) = L := by
    intro t; simp [he, segment, dot, hL]
  have hnotsing : ¬ |L| ≤ ltol := by
    rw [abs_of_pos hLpos]; exact not_le.2 hlen
  have hsq : ∀ t, norm (e.pos t - x) ^ 2 = d2 e x t := fun t => by rw [norm, Real.sq_sqrt (dot_self_nonneg _)]; rfl
  -- accepting a point with a small gradient
  have hacc : ∀ s, |G s| < tol → ∀ t, d2 e x s ≤ d2 e x t + tol ^ 2 / L := by
    intro s hs t
    have h1 := seg_d2 a b x s t
    rw [← he, ← hL] at h1
    have h2 : (G s) ^ 2 ≤ tol ^ 2 := by
      rw [← sq_abs]; exact pow_le_pow_left₀ (abs_nonneg _) hs.le 2
    have h3 : (G s) ^ 2 / L ≤ tol ^ 2 / L := by gcongr
    have h4 : 0 ≤ (L * (t - s) + G s) ^ 2 / L := by positivity
    have h5 : (L * (t - s) + G s) ^ 2 / L = L * (t - s) ^ 2 + 2 * G s * (t - s) + (G s) ^ 2 / L := by field_simp; ring
    rw [h5] at h4
    have h6 : G s = dot (e.jac s) (e.pos s - x) := rfl
    rw [← h6] at h1
    linarith
  have hpos : (0 : ℝ) ≤ tol ^ 2 / L := by positivity
  have hmin : ∀ s, G s = 0 → ∀ t, d2 e x s ≤ d2 e x t + tol ^ 2 / L := fun s hs => hacc s (by rw [hs]; simpa using htol)
  -- boundary optimality
  have hleft : 0 ≤ G 0 → ∀ t, 0 ≤ t → d2 e x 0 ≤ d2 e x t + tol ^ 2 / L := by
    intro hg t ht
    have h1 := seg_d2 a b x 0 t
    rw [← he, ← hL] at h1
    have h6 : G 0 = dot (e.jac 0) (e.pos 0 - x) := rfl
    rw [← h6] at h1
    have : 0 ≤ 2 * G 0 * (t - 0) := by rw [sub_zero]; positivity
    have : 0 ≤ L * (t - 0) ^ 2 := by positivity
    linarith
  have hright : G 1 ≤ 0 → ∀ t, t ≤ 1 → d2 e x 1 ≤ d2 e x t + tol ^ 2 / L := by
    intro hg t ht
    have h1 := seg_d2 a b x 1 t
    rw [← he, ← hL] at h1
    have h6 : G 1 = dot (e.jac 1) (e.pos 1 - x) := rfl
    rw [← h6] at h1
    have : 0 ≤ G 1 * (t - 1) := mul_nonneg_of_nonpos_of_nonpos hg (by linarith)
    have : 0 ≤ L * (t - 1) ^ 2 := by positivity
    linarith
  have hGlin : ∀ s t, G t = G s + (t - s) * L := fun s t => seg_grad a b x s t
  -- the step from any point goes to the same unconstrained minimiser
  set m := 1 / 2 - G (1 / 2) / L with hm
  have hstep : ∀ s, s + -G s / L = m := by
    intro s
    rw [hm, hGlin (1 / 2) s]; field_simp; ring
  have hGm : G m = 0 := by rw [hGlin (1 / 2) m, hm]; field_simp; ring
  have hndesc : ∀ s, ¬ (-G s / L * G s > 0) := by
    intro s hs
    have : -G s / L * G s = -((G s) ^ 2 / L) := by field_simp
    rw [this] at hs
    have : 0 ≤ (G s) ^ 2 / L := by positivity
    linarith
  have hsucc : ∀ n xi hit, loop e x tol ltol (n + 1) xi hit = if |G xi| < tol then .dist (norm (e.pos xi - x)) else
      if (project m).2 then loop e x tol ltol n (project m).1 hit else if hit then .dist (norm (e.pos xi - x)) else loop e x tol ltol n (project m).1 true := by
    intro n xi hit
    rw [loop_succ]
    have hg : dot (e.jac xi) (e.pos xi - x) = G xi := rfl
    simp only [hg, hnotsing, if_false, hH, stepOf, hndesc, hstep]
  rw [solveDistance, show (30 : ℕ) = 28 + 1 + 1 from rfl, hsucc]
  by_cases h1 : |G (1 / 2)| < tol
  · rw [if_pos h1]
    exact ⟨_, rfl, fun t _ _ => by rw [hsq]; exact hacc _ h1 t⟩
  · rw [if_neg h1]
    by_cases hm0 : m < 0
    · have hp : project m = (0, false) := by unfold project; rw [if_pos hm0]
      have hg0 : 0 ≤ G 0 := by
        have := hGlin m 0
        rw [hGm] at this
        have : 0 ≤ (0 - m) * L := mul_nonneg (by linarith) hLpos.le
        linarith
      rw [hp]
      simp only [Bool.false_eq_true, if_false]
      rw [hsucc, hp]
      simp only [Bool.false_eq_true, if_false, if_true, ite_self]
      exact ⟨_, rfl, fun t ht _ => by rw [hsq]; exact hleft hg0 t ht⟩
    · by_cases hm1 : 1 < m
      · have hp : project m = (1, false) := by unfold project; rw [if_neg hm0, if_pos hm1]
        have hg1 : G 1 ≤ 0 := by
          have := hGlin m 1
          rw [hGm] at this
          have : (1 - m) * L ≤ 0 := mul_nonpos_of_nonpos_of_nonneg (by linarith) hLpos.le
          linarith
        rw [hp]
        simp only [Bool.false_eq_true, if_false]
        rw [hsucc, hp]
        simp only [Bool.false_eq_true, if_false, if_true, ite_self]
        exact ⟨_, rfl, fun t _ ht => by rw [hsq]; exact hright hg1 t ht⟩
      · have hp : project m = (m, true) := by unfold project; rw [if_neg hm0, if_neg hm1]
        rw [hp]
        simp only [if_true]
        rw [hsucc, hGm, if_pos (by simpa using htol)]
        exact ⟨_, rfl, fun t _ _ => by rw [hsq]; exact hmin m hGm t⟩

/-- Non-vacuity: the unit segment and the code's tolerances. -/
example : (0 : ℝ) < 1 / 10 ^ 13 ∧ (0 : ℝ) ≤ 1 / 10 ^ 9 ∧ (1 : ℝ) / 10 ^ 9 < dot (((1, 0) : P2) - (0, 0)) ((1, 0) - (0, 0)) := by
  refine ⟨by norm_num, by norm_num, ?_⟩
  simp [dot]; norm_num

/-- C73.  `calcDistance` never underestimates: it returns the distance to some point of the surface. -/
theorem C73_never_underestimates (elems : ℕ → Elem) (efd : ℕ → ℕ) (nearest : P2 → ℕ) (x : P2) (tol ltol d : ℝ) (h : calcDistance elems efd nearest x tol ltol = .dist d) :
    ∃ k t, 0 ≤ t ∧ t ≤ 1 ∧ 0 ≤ d ∧ d ^ 2 = d2 (elems k) x t := ⟨_, C73_distance_to_a_point_of_the_element _ _ _ _ _ h⟩

/-- The property "`calcDistance` is the distance to the surface" is false: two straight elements `(0,0)-(1,0)` and `(1,0)-(1,10)` sharing the node `(1,0)`, which is the node nearest to `(2,2)`; the shared node belongs
to the first element in MFEM's dof-to-element table, so the code returns the distance to the first element, at least `√5`, while the point `(1,2)` of the second element is at distance 1. -/
theorem C73_false_wrong_element (tol ltol : ℝ) (htol : 0 < tol) (hl : 0 ≤ ltol) (hl1 : ltol < 1) :
    let nodes : ℕ → P2 := fun i => if i = 0 then (0, 0) else if i = 1 then (1, 0) else (1, 10)
    let elems : ℕ → Elem := fun k => if k = 0 then segment (nodes 0) (nodes 1) else segment (nodes 1) (nodes 2)
    let x : P2 := (2, 2)
    (∀ i < 3, dot (nodes 1 - x) (nodes 1 - x) ≤ dot (nodes i - x) (nodes i - x)) ∧
    ∃ d, calcDistance elems (fun i => if i ≤ 1 then 0 else 1) (fun _ => 1) x tol ltol = .dist d ∧ 5 ≤ d ^ 2 ∧ d2 (elems 1) x (1 / 5) = 1 := by
  intro nodes elems x
  refine ⟨?_, ?_⟩
  · intro i hi
    have : i = 0 ∨ i = 1 ∨ i = 2 := by omega
    rcases this with rfl | rfl | rfl <;> simp [nodes, x, dot] <;> norm_num
  · obtain ⟨d, hd, -⟩ := C73_exact_on_straight_elements_partial (nodes 0) (nodes 1) x tol ltol htol hl (by simp [nodes, dot]; linarith)
    refine ⟨d, by simpa [calcDistance, elems] using hd, ?_, ?_⟩
    · obtain ⟨t, ht0, ht1, -, h⟩ := C73_distance_to_a_point_of_the_element _ _ _ _ _ hd
      rw [h]
      simp [d2, segment, nodes, x, dot]
      nlinarith
    · simp [d2, elems, segment, nodes, x, dot]; norm_num

/-- On short elements (squared length at most the pivot tolerance of `LinearSolve`) the search throws whenever the centre is not already optimal. -/
theorem C73_false_short_elements (a b x : P2) (tol ltol : ℝ) (hs : dot (b - a) (b - a) ≤ ltol) (hg : tol ≤ |dot (b - a) (a + (1 / 2 : ℝ) • (b - a) - x)|) :
    solveDistance (segment a b) x tol ltol = .linearSolveFailed := by
  rw [solveDistance, show (30 : ℕ) = 29 + 1 from rfl, loop_succ, if_neg, if_pos]
  · have : dot ((segment a b).jac (1 / 2)) ((segment a b).jac (1 / 2)) + dot ((segment a b).hess (1 / 2)) ((segment a b).pos (1 / 2) - x) = dot (b - a) (b - a) := by
      simp [segment, dot]
    rw [this, abs_of_nonneg (dot_self_nonneg _)]; exact hs
  · exact not_lt.2 hg

/-- Such an element exists with the code's tolerances: length `10⁻⁵`, query point at distance about 1 along it. -/
example : dot (((1 / 10 ^ 5, 0) : P2) - (0, 0)) ((1 / 10 ^ 5, 0) - (0, 0)) ≤ 1 / 10 ^ 9 ∧
    1 / 10 ^ 13 ≤ |dot (((1 / 10 ^ 5, 0) : P2) - (0, 0)) ((0, 0) + (1 / 2 : ℝ) • ((1 / 10 ^ 5, 0) - (0, 0)) - (1, 0))| := by
  constructor
  · simp [dot]; norm_num
  · rw [le_abs]; right; simp [dot]; norm_num

end Verif.SurfaceDist
