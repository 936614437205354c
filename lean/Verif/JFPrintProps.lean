import Verif.JFPrint
import Verif.OperatorsProps
import Mathlib.LinearAlgebra.Matrix.Notation

/-! # Printed Jacobian: property theorems (C234) -/

set_option linter.unusedSectionVars false

namespace Verif.Operators
open Matrix

variable {n : ℕ}

/-! ### Specification: reading the file -/

/-- Reading comma-separated lines: `row` is the line being read, each `eol` closes one. -/
def parse : List Tok → List ℝ → List (List ℝ)
  | [], _ => []
  | .num x :: r, row => parse r (row ++ [x])
  | .comma :: r, row => parse r row
  | .eol :: r, row => row :: parse r []

/-! ### Auxiliary facts -/

theorem stepSize_pos' (x : Vec n) : 0 < stepSize x := by
  unfold stepSize
  dsimp only
  split_ifs with h
  · exact Real.sqrt_pos.2 (div_pos (by norm_num) (lt_trans (by norm_num) h))
  · norm_num

theorem parse_row (h : ℕ) (y : ℕ → ℝ) (k i : ℕ) (hk : 0 < k) (hi : i + k = h) (rest : List Tok) (row : List ℝ) :
    parse (writeRow h y k i ++ rest) row = (row ++ (List.range' i k).map y) :: parse rest [] := by
  induction k generalizing i row with
  | zero => omega
  | succ k ih =>
    rcases Nat.eq_zero_or_pos k with rfl | hk'
    · have : i = h - 1 := by omega
      simp [writeRow, this, parse]
    · have : i ≠ h - 1 := by omega
      simp only [writeRow, this, ne_eq, not_false_eq_true, if_true, List.cons_append, parse]
      rw [ih (i + 1) hk' (by omega)]
      simp [List.range'_succ]

theorem parse_rows (h : ℕ) (hh : 0 < h) (l : List (ℕ → ℝ)) :
    parse (l.flatMap fun y => writeRow h y h 0) [] = l.map fun y => (List.range h).map y := by
  induction l with
  | nil => rfl
  | cons y l ih =>
    rw [List.flatMap_cons, parse_row h y h 0 hh (by omega), ih]
    simp [List.range_eq_range']

/-! ### Theorems -/

/-- **C234** The file has `n` lines of `n` numbers; line `j` holds the `j`-th difference quotient, whatever the file held before. -/
theorem C234_file (s : JF n) (old : List Tok) :
    parse (s.print old) [] = (List.finRange n).map fun j => (List.finRange n).map fun i => s.printed j i := by
  rcases Nat.eq_zero_or_pos n with rfl | hn
  · rfl
  · have h := parse_rows n hn ((List.finRange n).map fun j => ext (s.printed j))
    rw [List.flatMap_map, List.map_map] at h
    rw [JF.print, h]
    refine List.map_congr_left fun j _ => ?_
    rw [Function.comp, ← List.map_coe_finRange_eq_range, List.map_map]
    refine List.map_congr_left fun i _ => ?_
    simp [ext]

/-- **C234** For an affine residual `A u + c` and a linear explicit part `E`, line `j` entry `i` is `scale A(i,j) + E(i,j)`: the file is the
transpose of the operator's matrix, for every baseline and scale (also zero, where products themselves are wrong, C31). -/
theorem C234_affine (s : JF n) (A : Matrix (Fin n) (Fin n) ℝ) (c : Vec n) (hR : ∀ u, s.res u = A *ᵥ u + c)
    (E : Matrix (Fin n) (Fin n) ℝ) (hE : s.explicit = some fun x => E *ᵥ x) (u : Vec n) (i j : Fin n) :
    (s.setState u).printed j i = effScale s.scale * A i j + E i j := by
  have hp := (stepSize_pos' u).ne'
  have hd : Function.update u j (u j + stepSize u) = u + stepSize u • (Pi.single j (1 : ℝ) : Vec n) := by
    funext k
    by_cases hk : k = j
    · subst hk; simp
    · simp [hk]
  have h1 : (Function.update (0 : Vec n) j 1) = Pi.single j 1 := rfl
  have hq : (1 / stepSize u) • (s.res (Function.update u j (u j + stepSize u)) - s.res u) = fun i => A i j := by
    rw [hR, hR, hd, mulVec_add, mulVec_smul, mulVec_single_one]
    funext k
    simp only [Pi.smul_apply, Pi.sub_apply, Pi.add_apply, smul_eq_mul, col_apply]
    field_simp
    ring
  unfold JF.printed
  simp only [JF.setState, hE, hq, h1, Pi.add_apply, mulVec_single_one, col_apply]
  unfold effScale
  split_ifs <;> simp

/-- **C234** Line `j` is the product of the operator with the `j`-th unit vector (affine residual, scale not negligible). -/
theorem C234_lines_are_products (s : JF n) (A : Matrix (Fin n) (Fin n) ℝ) (c : Vec n) (hR : ∀ u, s.res u = A *ᵥ u + c)
    (E : Matrix (Fin n) (Fin n) ℝ) (hE : s.explicit = some fun x => E *ᵥ x) (hs : tiny < |s.scale|) (u y : Vec n) (j : Fin n) :
    (s.setState u).printed j = (s.setState u).mult (Pi.single j 1) y := by
  funext i
  rw [C234_affine s A c hR E hE, C31_affine_exact_partial s A c hR hs, hE]
  simp

/-- **C234** For a general residual with curvature at most `C` along the coordinate directions every printed entry is within `C eps / 2` of the
entry of the Jacobian (no explicit part, scale one). -/
theorem C234_forward_difference (s : JF n) (he : s.explicit = none) (h1 : s.scale = 1) (u : Vec n) (J : Matrix (Fin n) (Fin n) ℝ) (C : ℝ)
    (hT : ∀ i j, |s.res (Function.update u j (u j + stepSize u)) i - s.res u i - stepSize u * J i j| ≤ C / 2 * stepSize u ^ 2)
    (i j : Fin n) : |(s.setState u).printed j i - J i j| ≤ C / 2 * stepSize u := by
  have hp := stepSize_pos' u
  have h0 : ¬(|s.scale - 1| > tiny) := by rw [h1]; simp [tiny]
  have h : (s.setState u).printed j i - J i j =
      (s.res (Function.update u j (u j + stepSize u)) i - s.res u i - stepSize u * J i j) / stepSize u := by
    unfold JF.printed
    simp only [JF.setState, he, if_neg h0, Pi.smul_apply, Pi.sub_apply, smul_eq_mul]
    field_simp
  rw [h, abs_div, abs_of_pos hp, div_le_iff₀ hp]
  have := hT i j
  nlinarith

/-- **C234** The claim that line `i`, entry `j` is the operator's entry `(i, j)` is false: lines and columns are swapped. -/
theorem C234_layout_false : ¬∀ (s : JF 2) (A : Matrix (Fin 2) (Fin 2) ℝ) (u : Vec 2) (i j : Fin 2), (∀ u, s.res u = A *ᵥ u + 0) →
    s.explicit = (some fun x => (0 : Matrix (Fin 2) (Fin 2) ℝ) *ᵥ x) → s.scale = 1 → (s.setState u).printed i j = A i j := by
  intro h
  let A : Matrix (Fin 2) (Fin 2) ℝ := fun i j => if i = 0 ∧ j = 1 then 1 else 0
  let s : JF 2 := ⟨fun u => A *ᵥ u + 0, some fun x => (0 : Matrix (Fin 2) (Fin 2) ℝ) *ᵥ x, 1, 0, 0⟩
  have h1 := h s A 0 0 1 (fun _ => rfl) rfl rfl
  rw [C234_affine s A 0 (fun _ => rfl) 0 rfl] at h1
  simp [A, s] at h1

/-- **C234** Constructing a sum of operators rejects operators of different sizes … -/
theorem C234_sum_sizes (hA wA hB wB : ℕ) : mkSum hA wA hB wB ≠ none ↔ hA = hB ∧ wA = wB := by
  unfold mkSum; split_ifs with h <;> simp <;> tauto

/-- **C234** … but re-targeting an existing sum accepts anything: operators of different sizes, and a work vector of the wrong size. -/
theorem C234_retarget_false : ¬∀ (s : SumOp) (hA wA hB wB : ℕ), mkSum s.hA s.wA s.hB s.wB = some s →
    ((s.add hA wA hB wB).hA = (s.add hA wA hB wB).hB ∧ (s.add hA wA hB wB).work = (s.add hA wA hB wB).wA) := by
  intro h
  have := h ⟨2, 2, 2, 2, 2⟩ 3 3 4 4 (by simp [mkSum])
  simp [SumOp.add] at this

/-- **C234** … for every sum and every new pair of operators: the sizes are taken over unchecked and the work vector keeps the size
of the operators the sum was made from. -/
theorem C234_retarget_work_false (s : SumOp) (hA wA hB wB : ℕ) : (s.add hA wA hB wB).work = s.work ∧
    (s.add hA wA hB wB).hA = hA ∧ (s.add hA wA hB wB).wA = wA ∧ (s.add hA wA hB wB).hB = hB ∧ (s.add hA wA hB wB).wB = wB :=
  ⟨rfl, rfl, rfl, rfl, rfl⟩

/-- Non-vacuity: the residual `A u` of the counterexample above with explicit part 2, line 1 entry 0. -/
example : ∃ s : JF 2, ∃ A E : Matrix (Fin 2) (Fin 2) ℝ, (∀ u, s.res u = A *ᵥ u + 0) ∧ s.explicit = (some fun x => E *ᵥ x) ∧
    tiny < |s.scale| ∧ A ≠ Aᵀ := by
  refine ⟨⟨fun u => (!![1, 2; 3, 4] : Matrix (Fin 2) (Fin 2) ℝ) *ᵥ u + 0, some fun x => (2 : Matrix (Fin 2) (Fin 2) ℝ) *ᵥ x, 3, 0, 0⟩,
    !![1, 2; 3, 4], 2, fun _ => rfl, rfl, by norm_num [tiny], fun h => ?_⟩
  have := congrFun (congrFun h 0) 1
  norm_num at this

end Verif.Operators
