import Mathlib.Analysis.MeanInequalities
import Mathlib.Algebra.Order.BigOperators.Group.List
import Mathlib.Tactic.Linarith
import Mathlib.Tactic.NormNum
import Mathlib.Tactic.Positivity
import Mathlib.Tactic.Ring
import Verif.LpError

/-!
# Properties of the error norms: C68
-/

set_option linter.dupNamespace false

namespace Verif.LpError

/-! ## Specification -/

/-- The quadrature of `|e|^p` over all ranks, elements and points. -/
noncomputable def quad (p : ℝ) (pts : List (ℝ × ℝ)) : ℝ := (pts.map fun q => q.1 * |q.2| ^ p).sum

/-- Negative quadrature weights can make the quadrature negative: the root keeps the sign. -/
noncomputable def signedRoot (p x : ℝ) : ℝ := if x < 0 then -((-x) ^ (1 / p)) else x ^ (1 / p)

theorem signedRoot_of_nonneg {p x : ℝ} (h : 0 ≤ x) : signedRoot p x = x ^ (1 / p) := by
  simp [signedRoot, not_lt.mpr h]

/-! ## Core -/

theorem cpow_nonneg {x p : ℝ} (h : 0 ≤ x) : cpow x p = some (x ^ p) := by simp [cpow, h]

theorem foldl_pts (p : ℝ) (pts : List (ℝ × ℝ)) (h : ∀ q ∈ pts, 0 ≤ q.2) (a : ℝ) :
    pts.foldl (fun acc q => step (.fin p) acc q.1 q.2) (some a) = some (a + quad p pts) := by
  induction pts generalizing a with
  | nil => simp [quad]
  | cons q qs ih =>
    have hq := h q (List.mem_cons_self ..)
    have hs : step (.fin p) (some a) q.1 q.2 = some (a + q.1 * q.2 ^ p) := by
      simp only [step, cpow_nonneg hq]
    rw [List.foldl_cons, hs]
    rw [ih (fun r hr => h r (List.mem_cons_of_mem _ hr))]
    simp only [quad, List.map_cons, List.sum_cons, abs_of_nonneg hq]
    congr 1; ring

theorem quad_append (p : ℝ) (a b : List (ℝ × ℝ)) : quad p (a ++ b) = quad p a + quad p b := by
  simp [quad]

theorem accumulate_fin (p : ℝ) (elems : List (List (ℝ × ℝ))) (h : ∀ q ∈ elems.flatten, 0 ≤ q.2) :
    accumulate (.fin p) elems = some (quad p elems.flatten) := by
  have key : ∀ (es : List (List (ℝ × ℝ))) (a : ℝ), (∀ q ∈ es.flatten, 0 ≤ q.2) →
      es.foldl (fun acc pts => pts.foldl (fun acc q => step (.fin p) acc q.1 q.2) acc) (some a) =
        some (a + quad p es.flatten) := by
    intro es
    induction es with
    | nil => intro a _; simp [quad]
    | cons e es ih =>
      intro a ha
      rw [List.foldl_cons, foldl_pts p e (fun q hq => ha q (by simp [hq])),
        ih _ (fun q hq => ha q (by
          rw [List.flatten_cons]; exact List.mem_append_right _ hq)), List.flatten_cons, quad_append]
      congr 1; ring
  rw [accumulate, key elems 0 h, zero_add]

theorem root_fin (p x : ℝ) : root (.fin p) (some x) = some (signedRoot p x) := by
  simp only [root, Option.bind_some, signedRoot]
  split
  · rename_i h
    rw [cpow_nonneg (by linarith)]; rfl
  · rename_i h
    rw [cpow_nonneg (not_lt.mp h)]

theorem signedPow_root {p : ℝ} (hp : 0 < p) (x : ℝ) :
    (if signedRoot p x < 0 then (cpow (-signedRoot p x) p).map (- ·) else cpow (signedRoot p x) p)
      = some x := by
  by_cases h : x < 0
  · have hx : 0 < -x := by linarith
    have e : signedRoot p x = -((-x) ^ (1 / p)) := by simp [signedRoot, h]
    have hpos : 0 < (-x) ^ (1 / p) := Real.rpow_pos_of_pos hx _
    rw [e, if_pos (by linarith), neg_neg, cpow_nonneg hpos.le, ← Real.rpow_mul hx.le,
      one_div_mul_cancel hp.ne', Real.rpow_one]
    simp
  · have hx : 0 ≤ x := not_lt.mp h
    have e : signedRoot p x = x ^ (1 / p) := signedRoot_of_nonneg hx
    have hpos : 0 ≤ x ^ (1 / p) := Real.rpow_nonneg hx _
    rw [e, if_neg (not_lt.mpr hpos), cpow_nonneg hpos, ← Real.rpow_mul hx,
      one_div_mul_cancel hp.ne', Real.rpow_one]

theorem globalLpNorm_fin {p : ℝ} (hp : 0 < p) (xs : List ℝ) :
    globalLpNorm (.fin p) (xs.map fun x => some (signedRoot p x)) = some (signedRoot p xs.sum) := by
  have key : (xs.map fun x => some (signedRoot p x)).foldr (sumStep p) (some 0) =
      some xs.sum := by
    induction xs with
    | nil => rfl
    | cons x xs ih =>
      rw [List.map_cons, List.foldr_cons, ih]
      simp only [sumStep, signedPow_root hp, Option.map_some, List.sum_cons]
  simp only [globalLpNorm]
  rw [key, root_fin]

theorem quad_flatten_sum (p : ℝ) (ranks : List (List (List (ℝ × ℝ)))) :
    (ranks.map fun r => quad p r.flatten).sum = quad p ranks.flatten.flatten := by
  induction ranks with
  | nil => simp [quad]
  | cons r rs ih => rw [List.map_cons, List.sum_cons, ih, List.flatten_cons, List.flatten_append,
      quad_append]

/-- Both versions of the Lp error, after the pointwise errors. -/
noncomputable def core (p : Order) (ranks : List (List (List (ℝ × ℝ)))) : Option ℝ :=
  globalLpNorm p (ranks.map fun elems => root p (accumulate p elems))

theorem core_fin {p : ℝ} (hp : 0 < p) (ranks : List (List (List (ℝ × ℝ))))
    (h : ∀ q ∈ ranks.flatten.flatten, 0 ≤ q.2) :
    core (.fin p) ranks = some (signedRoot p (quad p ranks.flatten.flatten)) := by
  have e : (ranks.map fun elems => root (.fin p) (accumulate (.fin p) elems)) =
      (ranks.map fun r => quad p r.flatten).map fun x => some (signedRoot p x) := by
    rw [List.map_map]
    refine List.map_congr_left fun r hr => ?_
    rw [accumulate_fin, root_fin]
    · rfl
    · intro q hq
      refine h q ?_
      obtain ⟨e, he, hqe⟩ := List.mem_flatten.mp hq
      exact List.mem_flatten.mpr ⟨e, List.mem_flatten.mpr ⟨r, hr, he⟩, hqe⟩
  rw [core, e, globalLpNorm_fin hp, quad_flatten_sum]

theorem map3_flatten {α β : Type} (f : α → β) (ranks : List (List (List α))) :
    (ranks.map fun r => r.map fun e => e.map f).flatten.flatten = ranks.flatten.flatten.map f := by
  induction ranks with
  | nil => rfl
  | cons r rs ih =>
    simp only [List.map_cons, List.flatten_cons, List.flatten_append, List.map_append, ih]
    congr 1
    induction r with
    | nil => rfl
    | cons e es ih2 => simp only [List.map_cons, List.flatten_cons, List.map_append, ih2]

theorem calcLpError_eq_core (p : Order) (ranks : List (List (List Pt))) :
    calcLpError p ranks =
      core p (ranks.map fun r => r.map fun e => e.map fun q => (q.w, |q.val - q.exact|)) := by
  simp only [calcLpError, core, List.map_map]; rfl

theorem calcLpErrorVec_eq_core {n : ℕ} (p : Order) (entry : Option (Fin n))
    (ranks : List (List (List (VPt n)))) :
    calcLpErrorVec p entry ranks =
      core p (ranks.map fun r => r.map fun e => e.map fun q => (q.w, vErr entry q)) := by
  simp only [calcLpErrorVec, core, List.map_map]; rfl

/-! ## C68 -/

/-- C68: for a finite order `p > 0` the error is the signed `p`-th root of the quadrature of
`|state - exact|^p` over all points — however the elements are distributed over the ranks. -/
theorem C68_lp_error_value (p : ℝ) (hp : 0 < p) (ranks : List (List (List Pt))) :
    calcLpError (.fin p) ranks = some (signedRoot p
      ((ranks.flatten.flatten.map fun q => q.w * |q.val - q.exact| ^ p).sum)) := by
  rw [calcLpError_eq_core, core_fin hp]
  · rw [map3_flatten, quad, List.map_map]
    congr 4
    funext q
    simp [abs_abs]
  · rw [map3_flatten]
    intro q hq
    obtain ⟨r, _, rfl⟩ := List.mem_map.mp hq
    exact abs_nonneg _

/-- C68: so the result does not depend on the partition into ranks and elements. -/
theorem C68_partition_independent (p : ℝ) (hp : 0 < p) (r1 r2 : List (List (List Pt)))
    (h : r1.flatten.flatten.Perm r2.flatten.flatten) :
    calcLpError (.fin p) r1 = calcLpError (.fin p) r2 := by
  rw [C68_lp_error_value p hp, C68_lp_error_value p hp, (h.map _).sum_eq]

/-- C68: exchanging state and exact solution (the sign of the difference) changes nothing, for
every order. -/
theorem C68_sign_independent (p : Order) (ranks : List (List (List Pt))) :
    calcLpError p (ranks.map fun r => r.map fun e => e.map fun q => ⟨q.w, q.exact, q.val⟩) =
      calcLpError p ranks := by
  rw [calcLpError_eq_core, calcLpError_eq_core]
  congr 1
  simp only [List.map_map]
  refine List.map_congr_left fun r _ => ?_
  simp only [Function.comp, List.map_map]
  refine List.map_congr_left fun e _ => ?_
  simp only [Function.comp, List.map_map]
  refine List.map_congr_left fun q _ => ?_
  simp only [Function.comp, abs_sub_comm]

theorem quad_nonneg {p : ℝ} {pts : List (ℝ × ℝ)} (h : ∀ q ∈ pts, 0 ≤ q.1) : 0 ≤ quad p pts := by
  refine List.sum_nonneg fun y hy => ?_
  obtain ⟨q, hq, rfl⟩ := List.mem_map.mp hy
  exact mul_nonneg (h q hq) (Real.rpow_nonneg (abs_nonneg _) _)

theorem quad_eq_zero {p : ℝ} (hp : 0 < p) {pts : List (ℝ × ℝ)} (h : ∀ q ∈ pts, 0 ≤ q.1) :
    quad p pts = 0 ↔ ∀ q ∈ pts, 0 < q.1 → q.2 = 0 := by
  induction pts with
  | nil => simp [quad]
  | cons q qs ih =>
    have hq := h q (List.mem_cons_self ..)
    have hqs : ∀ r ∈ qs, 0 ≤ r.1 := fun r hr => h r (List.mem_cons_of_mem _ hr)
    have h1 : 0 ≤ q.1 * |q.2| ^ p := mul_nonneg hq (Real.rpow_nonneg (abs_nonneg _) _)
    have h2 := quad_nonneg (p := p) hqs
    have e : quad p (q :: qs) = q.1 * |q.2| ^ p + quad p qs := by simp [quad]
    rw [e, add_eq_zero_iff_of_nonneg h1 h2, ih hqs, List.forall_mem_cons]
    refine and_congr_left fun _ => ?_
    rw [mul_eq_zero, Real.rpow_eq_zero (abs_nonneg _) hp.ne', abs_eq_zero]
    constructor
    · rintro (h0 | h0) hpos
      · exact absurd h0 hpos.ne'
      · exact h0
    · intro h0
      rcases hq.lt_or_eq with hlt | heq
      · exact Or.inr (h0 hlt)
      · exact Or.inl heq.symm

theorem signedRoot_eq_zero {p x : ℝ} (hp : 0 < p) (hx : 0 ≤ x) : signedRoot p x = 0 ↔ x = 0 := by
  rw [signedRoot_of_nonneg hx, Real.rpow_eq_zero hx (by positivity)]

/-- C68: with non-negative quadrature weights the error is non-negative, and zero exactly when
state and exact solution agree at every point of positive weight. -/
theorem C68_zero_iff_agree (p : ℝ) (hp : 0 < p) (ranks : List (List (List Pt)))
    (hw : ∀ q ∈ ranks.flatten.flatten, 0 ≤ q.w) :
    ∃ e, calcLpError (.fin p) ranks = some e ∧ 0 ≤ e ∧
      (e = 0 ↔ ∀ q ∈ ranks.flatten.flatten, 0 < q.w → q.val = q.exact) := by
  refine ⟨_, C68_lp_error_value p hp ranks, ?_⟩
  have e : ((ranks.flatten.flatten.map fun q => q.w * |q.val - q.exact| ^ p).sum) =
      quad p (ranks.flatten.flatten.map fun q => (q.w, q.val - q.exact)) := by
    simp [quad, List.map_map, Function.comp_def]
  have hw' : ∀ q ∈ ranks.flatten.flatten.map (fun q => (q.w, q.val - q.exact)), 0 ≤ q.1 := by
    intro q hq
    obtain ⟨r, hr, rfl⟩ := List.mem_map.mp hq
    exact hw r hr
  rw [e]
  have hq := quad_nonneg (p := p) hw'
  refine ⟨?_, ?_⟩
  · rw [signedRoot_of_nonneg hq]; exact Real.rpow_nonneg hq _
  · rw [signedRoot_eq_zero hp hq, quad_eq_zero hp hw']
    simp only [List.forall_mem_map, sub_eq_zero]

/-- C68: the length version for vector states has the same value, with the Euclidean length. -/
theorem C68_vector_length_value {n : ℕ} (p : ℝ) (hp : 0 < p) (ranks : List (List (List (VPt n)))) :
    calcLpErrorVec (.fin p) none ranks = some (signedRoot p
      ((ranks.flatten.flatten.map fun q =>
        q.w * Real.sqrt (∑ i, (q.val i - q.exact i) ^ 2) ^ p).sum)) := by
  rw [calcLpErrorVec_eq_core, core_fin hp]
  · rw [map3_flatten, quad, List.map_map]
    congr 4
    funext q
    simp [vErr, abs_of_nonneg (Real.sqrt_nonneg _)]
  · rw [map3_flatten]
    intro q hq
    obtain ⟨r, _, rfl⟩ := List.mem_map.mp hq
    exact Real.sqrt_nonneg _

/-- C68 (partial): the error of one entry of a vector state is the scalar error of that entry if
the entry's differences are non-negative everywhere. -/
theorem C68_vector_entry_partial {n : ℕ} (p : ℝ) (hp : 0 < p) (i : Fin n)
    (ranks : List (List (List (VPt n))))
    (hpos : ∀ q ∈ ranks.flatten.flatten, q.exact i ≤ q.val i) :
    calcLpErrorVec (.fin p) (some i) ranks = some (signedRoot p
      ((ranks.flatten.flatten.map fun q => q.w * |q.val i - q.exact i| ^ p).sum)) := by
  rw [calcLpErrorVec_eq_core, core_fin hp]
  · rw [map3_flatten, quad, List.map_map]; rfl
  · rw [map3_flatten]
    intro q hq
    obtain ⟨r, hr, rfl⟩ := List.mem_map.mp hq
    exact sub_nonneg.mpr (hpos r hr)

theorem cpow_neg_one : cpow (-1) 1 = some (-1) := by
  have h : ¬ (0 : ℝ) ≤ -1 := by norm_num
  have hex : ∃ n : ℤ, (1 : ℝ) = n := ⟨1, by norm_num⟩
  simp only [cpow, if_neg h, dif_pos hex]
  have : Classical.choose hex = 1 := by
    have := Classical.choose_spec hex
    exact_mod_cast this.symm
  rw [this]; norm_num

/-- C68 is false for one entry of a vector state: with `p = 1` errors `+1` and `-1` cancel and the
L1 error of a state that disagrees everywhere is 0. -/
theorem C68_false_vector_entry :
    ∃ ranks : List (List (List (VPt 1))),
      (∀ q ∈ ranks.flatten.flatten, 0 < q.w ∧ q.val 0 ≠ q.exact 0) ∧
      calcLpErrorVec (.fin 1) (some 0) ranks = some 0 := by
  refine ⟨[[[⟨1, fun _ => 1, fun _ => 0⟩, ⟨1, fun _ => 0, fun _ => 1⟩]]], ?_, ?_⟩
  · simp
  · have hc1 : cpow (1 : ℝ) 1 = some 1 := by rw [cpow_nonneg (by norm_num)]; norm_num
    have hc0 : cpow (0 : ℝ) 1 = some 0 := by rw [cpow_nonneg (by norm_num)]; norm_num
    simp only [calcLpErrorVec, List.map_cons, List.map_nil, vErr, accumulate, List.foldl_cons,
      List.foldl_nil, sub_zero, zero_sub, step, hc1, cpow_neg_one]
    norm_num [root, globalLpNorm, sumStep, hc0]

/-- C68 is false for one entry in the maximum norm as well: a state below the exact solution
everywhere has error 0. -/
theorem C68_false_vector_entry_max :
    ∃ ranks : List (List (List (VPt 1))),
      (∀ q ∈ ranks.flatten.flatten, 0 < q.w ∧ q.val 0 ≠ q.exact 0) ∧
      calcLpErrorVec .inf (some 0) ranks = some 0 := by
  refine ⟨[[[⟨1, fun _ => 0, fun _ => 7⟩]]], by simp, ?_⟩
  simp [calcLpErrorVec, vErr, accumulate, step, root, globalLpNorm]

/-- Maximum norm: the accumulated value. -/
theorem accumulate_inf (elems : List (List (ℝ × ℝ))) :
    ∃ M, accumulate .inf elems = some M ∧ 0 ≤ M ∧ (∀ q ∈ elems.flatten, q.2 ≤ M) ∧
      (M = 0 ∨ ∃ q ∈ elems.flatten, q.2 = M) := by
  have hpts : ∀ (pts : List (ℝ × ℝ)) (a : ℝ), ∃ M,
      pts.foldl (fun acc q => step .inf acc q.1 q.2) (some a) = some M ∧ a ≤ M ∧
      (∀ q ∈ pts, q.2 ≤ M) ∧ (M = a ∨ ∃ q ∈ pts, q.2 = M) := by
    intro pts
    induction pts with
    | nil => intro a; exact ⟨a, rfl, le_refl _, by simp, Or.inl rfl⟩
    | cons q qs ih =>
      intro a
      obtain ⟨M, h1, h2, h3, h4⟩ := ih (max a q.2)
      refine ⟨M, by rw [List.foldl_cons]; exact h1, (le_max_left _ _).trans h2, ?_, ?_⟩
      · intro r hr
        rcases List.mem_cons.mp hr with rfl | hr
        · exact (le_max_right _ _).trans h2
        · exact h3 r hr
      · rcases h4 with h4 | ⟨r, hr, hrm⟩
        · rcases max_choice a q.2 with hm | hm
          · left; rw [h4, hm]
          · right; exact ⟨q, List.mem_cons_self .., by rw [h4, hm]⟩
        · right; exact ⟨r, List.mem_cons_of_mem _ hr, hrm⟩
  have hel : ∀ (es : List (List (ℝ × ℝ))) (a : ℝ), ∃ M,
      es.foldl (fun acc pts => pts.foldl (fun acc q => step .inf acc q.1 q.2) acc) (some a) = some M ∧
      a ≤ M ∧ (∀ q ∈ es.flatten, q.2 ≤ M) ∧ (M = a ∨ ∃ q ∈ es.flatten, q.2 = M) := by
    intro es
    induction es with
    | nil => intro a; exact ⟨a, rfl, le_refl _, by simp, Or.inl rfl⟩
    | cons e es ih =>
      intro a
      obtain ⟨M1, h1, h2, h3, h4⟩ := hpts e a
      obtain ⟨M, g1, g2, g3, g4⟩ := ih M1
      refine ⟨M, by rw [List.foldl_cons, h1]; exact g1, h2.trans g2, ?_, ?_⟩
      · intro q hq
        rw [List.flatten_cons, List.mem_append] at hq
        rcases hq with hq | hq
        · exact (h3 q hq).trans g2
        · exact g3 q hq
      · rw [List.flatten_cons]
        rcases g4 with g4 | ⟨r, hr, hrm⟩
        · rcases h4 with h4 | ⟨r, hr, hrm⟩
          · left; rw [g4, h4]
          · right; exact ⟨r, List.mem_append_left _ hr, by rw [hrm, g4]⟩
        · right; exact ⟨r, List.mem_append_right _ hr, hrm⟩
  obtain ⟨M, h1, h2, h3, h4⟩ := hel elems 0
  exact ⟨M, h1, h2, h3, h4⟩

/-- C68: the maximum-norm error is the largest pointwise difference over all ranks (0 if there are
no points), so it is zero exactly when state and exact solution agree at all points. -/
theorem C68_max_error_value (ranks : List (List (List Pt))) :
    ∃ M, calcLpError .inf ranks = some M ∧ 0 ≤ M ∧
      (∀ q ∈ ranks.flatten.flatten, |q.val - q.exact| ≤ M) ∧
      (M = 0 ∨ ∃ q ∈ ranks.flatten.flatten, |q.val - q.exact| = M) ∧
      (M = 0 ↔ ∀ q ∈ ranks.flatten.flatten, q.val = q.exact) := by
  have main : ∃ M, calcLpError .inf ranks = some M ∧ 0 ≤ M ∧
      (∀ q ∈ ranks.flatten.flatten, |q.val - q.exact| ≤ M) ∧
      (M = 0 ∨ ∃ q ∈ ranks.flatten.flatten, |q.val - q.exact| = M) := by
    have hloc : ∀ r : List (List Pt), ∃ M,
        accumulate .inf (r.map fun pts => pts.map fun q => (q.w, |q.val - q.exact|)) = some M ∧
        0 ≤ M ∧ (∀ q ∈ r.flatten, |q.val - q.exact| ≤ M) ∧
        (M = 0 ∨ ∃ q ∈ r.flatten, |q.val - q.exact| = M) := by
      intro r
      obtain ⟨M, h1, h2, h3, h4⟩ := accumulate_inf
        (r.map fun pts => pts.map fun q => (q.w, |q.val - q.exact|))
      have hfl : (r.map fun pts => pts.map fun q : Pt => (q.w, |q.val - q.exact|)).flatten =
          r.flatten.map fun q => (q.w, |q.val - q.exact|) := by
        induction r with
        | nil => rfl
        | cons e es ih2 => simp [List.map_flatten]
      rw [hfl] at h3 h4
      refine ⟨M, h1, h2, ?_, ?_⟩
      · intro q hq
        exact h3 _ (List.mem_map.mpr ⟨q, hq, rfl⟩)
      · rcases h4 with h4 | ⟨q, hq, hqm⟩
        · exact Or.inl h4
        · obtain ⟨r', hr', rfl⟩ := List.mem_map.mp hq
          exact Or.inr ⟨r', hr', hqm⟩
    cases ranks with
    | nil => exact ⟨0, rfl, le_refl _, by simp, Or.inl rfl⟩
    | cons r0 rs =>
      obtain ⟨M0, h1, h2, h3, h4⟩ := hloc r0
      simp only [calcLpError, globalLpNorm, List.map_cons, root, h1]
      clear h1
      induction rs with
      | nil =>
        refine ⟨M0, rfl, h2, ?_, ?_⟩
        · simpa using h3
        · simpa using h4
      | cons r1 rs ih =>
        obtain ⟨M, g1, g2, g3, g4⟩ := ih
        obtain ⟨M1, k1, k2, k3, k4⟩ := hloc r1
        refine ⟨max M1 M, by rw [List.map_cons, List.foldr_cons, g1, k1],
          k2.trans (le_max_left _ _), ?_, ?_⟩
        · intro q hq
          simp only [List.flatten_cons, List.flatten_append, List.mem_append] at hq g3
          rcases hq with hq | hq | hq
          · exact (g3 q (Or.inl hq)).trans (le_max_right _ _)
          · exact (k3 q hq).trans (le_max_left _ _)
          · exact (g3 q (Or.inr hq)).trans (le_max_right _ _)
        · simp only [List.flatten_cons, List.flatten_append, List.mem_append] at g4 ⊢
          rcases max_choice M1 M with hm | hm
          · rcases k4 with k4 | ⟨q, hq, hqm⟩
            · left; rw [hm, k4]
            · right; exact ⟨q, Or.inr (Or.inl hq), by rw [hqm, hm]⟩
          · rcases g4 with g4 | ⟨q, hq, hqm⟩
            · left; rw [hm, g4]
            · right
              refine ⟨q, ?_, by rw [hqm, hm]⟩
              rcases hq with hq | hq
              · exact Or.inl hq
              · exact Or.inr (Or.inr hq)
  obtain ⟨M, h1, h2, h3, h4⟩ := main
  refine ⟨M, h1, h2, h3, h4, ?_, ?_⟩
  · rintro rfl q hq
    have := h3 q hq
    exact sub_eq_zero.mp (abs_eq_zero.mp (le_antisymm this (abs_nonneg _)))
  · intro hall
    rcases h4 with h4 | ⟨q, hq, hqm⟩
    · exact h4
    · rw [← hqm, hall q hq, sub_self, abs_zero]

/-! ### calcL2Error -/

theorem l2Local_eq (elems : List (List (ℝ × ℝ))) :
    l2Local elems = signedRoot 2 (quad 2 elems.flatten) := by
  have hpts : ∀ (pts : List (ℝ × ℝ)) (a : ℝ),
      pts.foldl (fun acc q => acc + q.1 * (q.2 * q.2)) a = a + quad 2 pts := by
    intro pts
    induction pts with
    | nil => intro a; simp [quad]
    | cons q qs ih =>
      intro a
      rw [List.foldl_cons, ih]
      simp only [quad, List.map_cons, List.sum_cons, Real.rpow_two, sq_abs]
      ring
  have hel : ∀ (es : List (List (ℝ × ℝ))) (a : ℝ),
      es.foldl (fun acc pts => pts.foldl (fun acc q => acc + q.1 * (q.2 * q.2)) acc) a =
        a + quad 2 es.flatten := by
    intro es
    induction es with
    | nil => intro a; simp [quad]
    | cons e es ih =>
      intro a
      rw [List.foldl_cons, hpts, ih, List.flatten_cons, quad_append]; ring
  simp only [l2Local, hel, zero_add, signedRoot, Real.sqrt_eq_rpow]

theorem l2_core (ranks : List (List (List (ℝ × ℝ)))) :
    globalLpNorm (.fin 2) (ranks.map fun elems => some (l2Local elems)) =
      some (signedRoot 2 (quad 2 ranks.flatten.flatten)) := by
  have e : (ranks.map fun elems => some (l2Local elems)) =
      (ranks.map fun r => quad 2 r.flatten).map fun x => some (signedRoot 2 x) := by
    rw [List.map_map]
    refine List.map_congr_left fun r _ => ?_
    rw [l2Local_eq]; rfl
  rw [e, globalLpNorm_fin (by norm_num), quad_flatten_sum]

/-- C68: `calcL2Error` is `calcLpError` with `p = 2`. -/
theorem C68_l2_error_is_lp_error (ranks : List (List (List Pt))) :
    calcL2Error ranks = calcLpError (.fin 2) ranks := by
  rw [C68_lp_error_value 2 (by norm_num)]
  have e : calcL2Error ranks = globalLpNorm (.fin 2)
      ((ranks.map fun r => r.map fun e => e.map fun q => (q.w, q.val - q.exact)).map
        fun elems => some (l2Local elems)) := by
    simp only [calcL2Error, List.map_map]; rfl
  rw [e, l2_core, map3_flatten, quad, List.map_map]; rfl

/-- C68: the L2 error of one entry of a vector state is right (unlike `calcLpError`'s): it is the
scalar error of that entry; and with no entry it is the error in the Euclidean length. -/
theorem C68_l2_vector_entry {n : ℕ} (ranks : List (List (List (VPt n)))) :
    (∀ i, calcL2ErrorVec (some i) ranks = calcLpError (.fin 2)
      (ranks.map fun r => r.map fun e => e.map fun q => ⟨q.w, q.val i, q.exact i⟩)) ∧
    calcL2ErrorVec none ranks = calcLpErrorVec (.fin 2) none ranks := by
  have e : ∀ entry : Option (Fin n), calcL2ErrorVec entry ranks = some (signedRoot 2
      (quad 2 (ranks.flatten.flatten.map fun q => (q.w, vErr entry q)))) := by
    intro entry
    rw [← map3_flatten, ← l2_core]
    simp only [calcL2ErrorVec, List.map_map]; rfl
  refine ⟨fun i => ?_, ?_⟩
  · rw [e, C68_lp_error_value 2 (by norm_num), map3_flatten, quad, List.map_map, List.map_map]; rfl
  · rw [e, C68_vector_length_value 2 (by norm_num), quad, List.map_map]
    congr 4
    funext q
    simp [vErr]

/-! ### Triangle inequality -/

theorem lp_list_triangle {p : ℝ} (hp : 1 ≤ p) (l : List (ℝ × ℝ × ℝ)) (hw : ∀ q ∈ l, 0 ≤ q.1) :
    (l.map fun q => q.1 * |q.2.1 + q.2.2| ^ p).sum ^ (1 / p) ≤
      (l.map fun q => q.1 * |q.2.1| ^ p).sum ^ (1 / p) +
      (l.map fun q => q.1 * |q.2.2| ^ p).sum ^ (1 / p) := by
  have hp0 : p ≠ 0 := by linarith
  have key : ∀ w a : ℝ, 0 ≤ w → |w ^ (1 / p) * a| ^ p = w * |a| ^ p := by
    intro w a hw
    rw [abs_mul, abs_of_nonneg (Real.rpow_nonneg hw _), Real.mul_rpow (Real.rpow_nonneg hw _)
      (abs_nonneg _), ← Real.rpow_mul hw, one_div_mul_cancel hp0, Real.rpow_one]
  have hs : ∀ g : ℝ × ℝ × ℝ → ℝ, (l.map g).sum = ∑ i : Fin l.length, g l[i] := by
    intro g
    exact (Fin.sum_univ_fun_getElem l g).symm
  have hm := Real.Lp_add_le Finset.univ (fun i : Fin l.length => l[i].1 ^ (1 / p) * l[i].2.1)
    (fun i : Fin l.length => l[i].1 ^ (1 / p) * l[i].2.2) hp
  have hw' : ∀ i : Fin l.length, 0 ≤ l[i].1 := fun i => hw _ (List.getElem_mem _)
  simp only [← mul_add, key _ _ (hw' _)] at hm
  simp only [hs]
  exact hm

/-- C68: for `p ≥ 1` and non-negative weights the errors obey the triangle inequality. -/
theorem C68_triangle_inequality (p : ℝ) (hp : 1 ≤ p) (rs : List (List (List (ℝ × ℝ × ℝ × ℝ))))
    (hw : ∀ q ∈ rs.flatten.flatten, 0 ≤ q.1) :
    ∃ eac eab ebc,
      calcLpError (.fin p) (rs.map fun r => r.map fun e => e.map fun q => ⟨q.1, q.2.1, q.2.2.2⟩) =
        some eac ∧
      calcLpError (.fin p) (rs.map fun r => r.map fun e => e.map fun q => ⟨q.1, q.2.1, q.2.2.1⟩) =
        some eab ∧
      calcLpError (.fin p) (rs.map fun r => r.map fun e => e.map fun q => ⟨q.1, q.2.2.1, q.2.2.2⟩) =
        some ebc ∧ eac ≤ eab + ebc := by
  have hp0 : 0 < p := by linarith
  refine ⟨_, _, _, C68_lp_error_value p hp0 _, C68_lp_error_value p hp0 _,
    C68_lp_error_value p hp0 _, ?_⟩
  simp only [map3_flatten, List.map_map, Function.comp_def]
  generalize rs.flatten.flatten = l at hw ⊢
  have hn : ∀ g : ℝ × ℝ × ℝ × ℝ → ℝ, 0 ≤ (l.map fun q => q.1 * |g q| ^ p).sum := by
    intro g
    refine List.sum_nonneg fun y hy => ?_
    obtain ⟨q, hq, rfl⟩ := List.mem_map.mp hy
    exact mul_nonneg (hw q hq) (Real.rpow_nonneg (abs_nonneg _) _)
  rw [signedRoot_of_nonneg (hn _), signedRoot_of_nonneg (hn _), signedRoot_of_nonneg (hn _)]
  have := lp_list_triangle hp (l.map fun q => (q.1, q.2.1 - q.2.2.1, q.2.2.1 - q.2.2.2)) (by
    intro q hq
    obtain ⟨r, hr, rfl⟩ := List.mem_map.mp hq
    exact hw r hr)
  simpa only [List.map_map, Function.comp_def, sub_add_sub_cancel] using this

/-- Non-vacuity: two ranks, three points, `p = 2`: error `√(9+16) = 5`. -/
example : calcLpError (.fin 2) [[[⟨1, 3, 0⟩, ⟨2, 5, 5⟩]], [[⟨1, 0, 4⟩]]] = some 5 := by
  rw [C68_lp_error_value 2 (by norm_num)]
  have : ((([[[⟨1, 3, 0⟩, ⟨2, 5, 5⟩]], [[⟨1, 0, 4⟩]]] : List (List (List Pt))).flatten.flatten.map
      fun q => q.w * |q.val - q.exact| ^ (2 : ℝ)).sum) = 5 ^ (2 : ℝ) := by
    simp; norm_num
  rw [this, signedRoot_of_nonneg (by positivity), ← Real.rpow_mul (by norm_num)]
  norm_num

end Verif.LpError
