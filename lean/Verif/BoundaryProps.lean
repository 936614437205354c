import Verif.Boundary

/-!
# Attribute markers: property theorems (C27)

`marker n S` is the 0/1 array of length `n` whose entry for attribute `i` (1-based) is 1 iff `S i`.
-/

namespace Verif.Boundary

/-- Specification: the marker array of a set of attributes. -/
def marker (n : ℕ) (S : ℤ → Prop) [DecidablePred S] : List ℤ :=
  (List.range n).map fun i : ℕ => if S ((i : ℤ) + 1) then 1 else 0

private theorem setAttrs_ok (xs : List ℤ) : ∀ (n : ℕ) (S : ℤ → Prop) [DecidablePred S],
    (∀ x ∈ xs, 1 ≤ x ∧ x ≤ n) → setAttrs xs (marker n S) = .ok (marker n fun i => S i ∨ i ∈ xs) := by
  induction xs with
  | nil => intro n S _ _; simp [setAttrs, marker]
  | cons x xs ih =>
    intro n S _ h
    have hx := h x (by simp)
    have hlen : (marker n S).length = n := by simp [marker]
    simp only [setAttrs, hlen]
    rw [if_pos hx]
    have e : (marker n S).set (x - 1).toNat 1 = marker n fun i => S i ∨ i = x := by
      apply List.ext_getElem
      · simp [marker]
      · intro i h1 h2
        simp only [marker, List.getElem_set, List.getElem_map, List.getElem_range]
        by_cases hi : (x - 1).toNat = i
        · rw [if_pos hi, if_pos (Or.inr (by omega))]
        · rw [if_neg hi]
          have : ¬ ((i : ℤ) + 1 = x) := by omega
          simp [this]
    rw [e, ih n _ (fun y hy => h y (by simp [hy]))]
    congr 1
    unfold marker
    apply List.map_congr_left
    intro i _
    simp only [List.mem_cons, or_assoc]

private theorem setAttrs_ub (xs : List ℤ) : ∀ (a : List ℤ), (∃ x ∈ xs, ¬ (1 ≤ x ∧ x ≤ a.length)) →
    setAttrs xs a = .ub := by
  induction xs with
  | nil => rintro a ⟨x, h, _⟩; simp at h
  | cons y ys ih =>
    rintro a ⟨x, hx, hn⟩
    simp only [setAttrs]
    split_ifs with hy
    · apply ih
      rcases List.mem_cons.mp hx with rfl | hx
      · exact absurd hy hn
      · exact ⟨x, hx, by simpa using hn⟩
    · rfl

private theorem zero_eq_marker (a : List ℤ) : (a.map fun _ => (0 : ℤ)) = marker a.length fun _ => False := by
  apply List.ext_getElem
  · simp [marker]
  · intro i _ _; simp [marker]

private theorem one_eq_marker (a : List ℤ) : (a.map fun _ => (1 : ℤ)) = marker a.length fun _ => True := by
  apply List.ext_getElem
  · simp [marker]
  · intro i _ _; simp [marker]

private theorem mapM_id (xs : List ℤ) : (xs.map some).mapM id = some xs := by
  induction xs with
  | nil => rfl
  | cons x xs ih => simp [ih]

private theorem mapM_id_none (l : List (Option ℤ)) (h : none ∈ l) : l.mapM id = none := by
  induction l with
  | nil => simp at h
  | cons x xs ih =>
    rcases List.mem_cons.mp h with rfl | h'
    · simp
    · cases x <;> simp [ih h']

/-- **C27** A list of attributes within `1..n` marks exactly those attributes, whatever the array held before. -/
theorem C27_list_marks_exactly (xs a : List ℤ) (h : ∀ x ∈ xs, 1 ≤ x ∧ x ≤ a.length) :
    getMFEMBoundaryArray (.arr (xs.map some)) a = .ok (marker a.length fun i => i ∈ xs) := by
  simp only [getMFEMBoundaryArray, mapM_id, attrVecToArray, List.map_map]
  have : (a.map ((fun _ => (0 : ℤ)) ∘ fun _ => (0 : ℤ))) = marker a.length fun _ => False := zero_eq_marker a
  rw [this, setAttrs_ok xs a.length _ h]
  simp

/-- **C27** `"all"` marks every attribute and `"none"` no attribute. -/
theorem C27_all_none (a : List ℤ) :
    getMFEMBoundaryArray (.str "all") a = .ok (marker a.length fun _ => True) ∧
    getMFEMBoundaryArray (.str "none") a = .ok (marker a.length fun _ => False) := by
  refine ⟨?_, ?_⟩
  · simp only [getMFEMBoundaryArray, if_true, List.map_map]
    exact congrArg Res.ok (one_eq_marker a)
  · simp only [getMFEMBoundaryArray, List.map_map]
    rw [if_neg (by decide), if_pos trivial]
    exact congrArg Res.ok (zero_eq_marker a)

/-- **C27** Every other string and every JSON value that is neither string nor array throws a `MISOException`; an array with a
non-numeric element throws nlohmann's type error.  In all these cases the array has already been zeroed. -/
theorem C27_rejects (a : List ℤ) :
    (∀ s, s ≠ "all" → s ≠ "none" → getMFEMBoundaryArray (.str s) a
      = .misoException (marker a.length fun _ => False)) ∧
    (getMFEMBoundaryArray .other a = .misoException (marker a.length fun _ => False)) ∧
    (∀ l, none ∈ l → getMFEMBoundaryArray (.arr l) a = .typeError (marker a.length fun _ => False)) := by
  refine ⟨?_, ?_, ?_⟩
  · intro s h1 h2; simp [getMFEMBoundaryArray, h1, h2, zero_eq_marker a]
  · simp [getMFEMBoundaryArray, zero_eq_marker a]
  · intro l h; simp [getMFEMBoundaryArray, mapM_id_none l h, zero_eq_marker a]

/-- **C27** The result never depends on what the array held, only on its length. -/
theorem C27_independent_of_prior (b : Json) (a a' : List ℤ) (h : a.length = a'.length) :
    getMFEMBoundaryArray b a = getMFEMBoundaryArray b a' := by
  have : (a.map fun _ => (0 : ℤ)) = a'.map fun _ => 0 := by rw [zero_eq_marker, zero_eq_marker, h]
  unfold getMFEMBoundaryArray
  rw [this]

/-- **C27** An attribute outside `1..n` anywhere in the list is an out-of-bounds write: nothing is checked. -/
theorem C27_out_of_range_is_ub (xs a : List ℤ) (h : ∃ x ∈ xs, ¬ (1 ≤ x ∧ x ≤ a.length)) :
    getMFEMBoundaryArray (.arr (xs.map some)) a = .ub := by
  simp only [getMFEMBoundaryArray, mapM_id, attrVecToArray]
  apply setAttrs_ub
  simpa using h

example : getMFEMBoundaryArray (.arr [some 3, some 1, some 3]) [9, 9, 9, 9] = .ok [1, 0, 1, 0] ∧
    getMFEMBoundaryArray (.arr [some 1, some 0]) [9, 9] = .ub ∧
    (∀ x ∈ [3, 1, 3], (1 : ℤ) ≤ x ∧ x ≤ ([9, 9, 9, 9] : List ℤ).length) := by decide

end Verif.Boundary
