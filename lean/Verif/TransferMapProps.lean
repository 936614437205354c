import Verif.TransferMap
import Mathlib.Tactic.Linarith

/-! # Node-wise transfer between meshes, and surface maps: property theorems (C237, C238) -/

namespace Verif.TransferMap

/-! ### Specification -/

/-- Coordinate `d` of node `i` of a mesh with `cnt` nodes in `dim` dimensions, whose nodes are stored in `v`. -/
def nodeCoord (ord : Ord) (dim cnt : ℕ) (v : ℕ → ℝ) (i d : ℕ) : ℝ :=
  match ord with
  | .byNODES => v (d * cnt + i)
  | .byVDIM => v (i * dim + d)

/-- Node `i` as a point; coordinates beyond the dimension are zero. -/
def nodePoint (ord : Ord) (dim cnt : ℕ) (v : ℕ → ℝ) (i : ℕ) : ℕ → ℝ := fun d => if d < dim then nodeCoord ord dim cnt v i d else 0

/-- The output holds the field's value at every node of the new mesh, and is otherwise as before. -/
def Transferred (ord : Ord) (dim cnt : ℕ) (v : ℕ → ℝ) (field : (ℕ → ℝ) → ℝ) (out out' : OutVec) : Prop :=
  out'.size = out.size ∧ (∀ i < cnt, out'.get i = field (nodePoint ord dim cnt v i)) ∧ ∀ i, cnt ≤ i → out'.get i = out.get i

/-- Entry `dim * i + d` of the array is the displacement of node `i` in direction `d`; the memory outside these entries is
as before. -/
def Displaced (dim n : ℕ) (xOld xNew : ℕ → ℕ → ℝ) (a b : PyArray) : Prop :=
  (∀ i < n, ∀ d < dim, b.entry (i * dim + d) = xNew i d - xOld i d) ∧
  ∀ k, (∀ j < n * dim, k ≠ j * a.stride) → b.mem k = a.mem k

/-! ### C238: transfer of a solution -/

theorem copyVals_spec (vals : ℕ → ℝ) : ∀ (n : ℕ) (o : OutVec),
    if n ≤ o.size then ∃ o', copyVals vals n o = some o' ∧ o'.size = o.size ∧ (∀ i < n, o'.get i = vals i) ∧ ∀ i, n ≤ i → o'.get i = o.get i
    else copyVals vals n o = none
  | 0, o => by
    rw [if_pos (Nat.zero_le _)]
    exact ⟨o, rfl, rfl, fun i hi => absurd hi (Nat.not_lt_zero _), fun _ _ => rfl⟩
  | n + 1, o => by
    have ih := copyVals_spec vals n o
    by_cases h : n ≤ o.size
    · rw [if_pos h] at ih
      obtain ⟨o', e, hs, hv, ht⟩ := ih
      by_cases h2 : n + 1 ≤ o.size
      · rw [if_pos h2]
        refine ⟨⟨o'.size, Function.update o'.get n (vals n)⟩, ?_, hs, ?_, ?_⟩
        · simp only [copyVals, e, Option.bind_some, OutVec.set]
          rw [if_pos (by omega)]
        · intro i hi
          by_cases hin : i = n
          · subst hin; simp
          · simp only [Function.update_of_ne hin]
            exact hv i (by omega)
        · intro i hi
          simp only [Function.update_of_ne (show i ≠ n by omega)]
          exact ht i (by omega)
      · rw [if_neg h2]
        simp only [copyVals, e, Option.bind_some, OutVec.set]
        rw [if_neg (by omega)]
    · rw [if_neg h] at ih
      rw [if_neg (by omega)]
      simp only [copyVals, ih, Option.bind_none]

/-- **C238** With GSLIB, and an output with room for the nodes of the new mesh, the output holds the field's value at
every node and is otherwise as before, if the nodes are stored `byNODES`. -/
theorem C238_nodes_partial {dim cnt : ℕ} (hd : 0 < dim) (v : ℕ → ℝ) (field : (ℕ → ℝ) → ℝ) (out : OutVec) (h : cnt ≤ out.size) :
    ∃ out', transferSolution true dim (cnt * dim) v field out = .ok out' ∧ Transferred .byNODES dim cnt v field out out' := by
  have hc : cnt * dim / dim = cnt := Nat.mul_div_cancel _ hd
  have key := copyVals_spec (fun n => field fun d => if d < dim then finderPoint cnt v n d else 0) cnt out
  rw [if_pos h] at key
  obtain ⟨o', e, hs, hv, ht⟩ := key
  refine ⟨o', ?_, hs, hv, ht⟩
  unfold transferSolution
  rw [if_pos rfl]
  simp only [hc, e]

/-- **C238** On a mesh in one dimension the layout does not matter. -/
theorem C238_one_dimension (cnt : ℕ) (v : ℕ → ℝ) (i : ℕ) : nodePoint .byVDIM 1 cnt v i = nodePoint .byNODES 1 cnt v i := by
  funext d
  unfold nodePoint
  split_ifs with h
  · have : d = 0 := by omega
    subst this
    simp [nodeCoord]
  · rfl

/-- **C238** An output shorter than the number of nodes is written out of bounds, and a build without GSLIB throws. -/
theorem C238_errors {dim cnt : ℕ} (hd : 0 < dim) (v : ℕ → ℝ) (field : (ℕ → ℝ) → ℝ) (out : OutVec) :
    (transferSolution true dim (cnt * dim) v field out = .undefined ↔ out.size < cnt) ∧
    transferSolution false dim (cnt * dim) v field out = .throws := by
  refine ⟨?_, rfl⟩
  have hc : cnt * dim / dim = cnt := Nat.mul_div_cancel _ hd
  have key := copyVals_spec (fun n => field fun d => if d < dim then finderPoint cnt v n d else 0) cnt out
  unfold transferSolution
  rw [if_pos rfl]
  simp only [hc]
  by_cases h : cnt ≤ out.size
  · rw [if_pos h] at key
    obtain ⟨o', e, -⟩ := key
    rw [e]
    simp only [reduceCtorEq, false_iff]
    omega
  · rw [if_neg h] at key
    rw [key]
    simp only [true_iff]
    omega

/-- **C238** Where the nodes are stored `byVDIM`, the layout MFEM itself gives a mesh, the values are those of other
points: on two nodes (0,0) and (1,2) in the plane, the field `x` comes out as (0, 0), not as (0, 1). -/
theorem C238_layout_false : ¬∀ (dim cnt : ℕ) (v : ℕ → ℝ) (field : (ℕ → ℝ) → ℝ) (out out' : OutVec), 0 < dim → cnt ≤ out.size →
    transferSolution true dim (cnt * dim) v field out = .ok out' → Transferred .byVDIM dim cnt v field out out' := by
  intro H
  let v : ℕ → ℝ := fun k => if k = 2 then 1 else if k = 3 then 2 else 0
  obtain ⟨o', e, -, hv, -⟩ := C238_nodes_partial (dim := 2) (cnt := 2) (by omega) v (fun x => x 0) ⟨2, fun _ => 0⟩ le_rfl
  have h1 := (H 2 2 v (fun x => x 0) ⟨2, fun _ => 0⟩ o' (by omega) le_rfl e).2.1 1 (by omega)
  rw [hv 1 (by omega)] at h1
  simp [nodePoint, nodeCoord, v] at h1

/-- A case of the hypotheses: three nodes on a line and room for four values. -/
example : (0 : ℕ) < 1 ∧ 3 ≤ (⟨4, fun _ => 0⟩ : OutVec).size := by simp

/-! ### C237: mapping a surface mesh -/

theorem putNode_spec (dim i : ℕ) (u : ℕ → ℝ) (m : ℕ → ℝ) : ∀ D k,
    putNode dim i u D m k = if i * dim ≤ k ∧ k < i * dim + D then u (k - i * dim) else m k
  | 0, k => by rw [if_neg (by omega)]; rfl
  | D + 1, k => by
    unfold putNode
    by_cases h : k = i * dim + D
    · subst h
      rw [Function.update_self, if_pos ⟨by omega, by omega⟩, Nat.add_sub_cancel_left]
    · rw [Function.update_of_ne h, putNode_spec dim i u m D k]
      by_cases h2 : i * dim ≤ k ∧ k < i * dim + D
      · rw [if_pos h2, if_pos ⟨h2.1, by omega⟩]
      · rw [if_neg h2, if_neg (by omega)]

theorem putNodes_spec (dim : ℕ) (u : ℕ → ℕ → ℝ) (m : ℕ → ℝ) : ∀ n,
    (∀ i < n, ∀ d < dim, putNodes dim u n m (i * dim + d) = u i d) ∧ ∀ k, n * dim ≤ k → putNodes dim u n m k = m k
  | 0 => ⟨fun i hi => absurd hi (Nat.not_lt_zero _), fun _ _ => rfl⟩
  | n + 1 => by
    obtain ⟨h1, h2⟩ := putNodes_spec dim u m n
    refine ⟨fun i hi d hd => ?_, fun k hk => ?_⟩
    · unfold putNodes
      rw [putNode_spec]
      by_cases e : i = n
      · subst e
        rw [if_pos ⟨by omega, by omega⟩, Nat.add_sub_cancel_left]
      · have : (i + 1) * dim ≤ n * dim := Nat.mul_le_mul_right _ (by omega)
        rw [Nat.add_mul, Nat.one_mul] at this
        rw [if_neg (by omega)]
        exact h1 i (by omega) d hd
    · rw [Nat.add_mul, Nat.one_mul] at hk
      unfold putNodes
      rw [putNode_spec, if_neg (by omega)]
      exact h2 k (by omega)

/-- **C237** Given a contiguous array of doubles with two or three entries per node, and no failure of EGADS, every
entry becomes the displacement of its node. -/
theorem C237_displacements_partial {dim n : ℕ} (hdim : dim = 2 ∨ dim = 3) (st : List Bool) (hst : ∀ s ∈ st, s = true) (xOld xNew : ℕ → ℕ → ℝ)
    (a : PyArray) (h1 : a.ndim = 1) (hD : a.isDouble = true) (hs : a.stride = 1) (hz : a.size = dim * n) :
    ∃ b, mapSurface st n xOld xNew a = .ok b ∧ Displaced dim n xOld xNew a b := by
  have hall : st.all id = true := List.all_eq_true.2 fun s h => hst s h
  have hext : (a.size - 1) * a.stride + (if a.size = 0 then 0 else 1) = a.size := by
    rw [hs]; split_ifs with h <;> omega
  have hcase : n = 0 ∨ (if a.size = 2 * n then 2 else 3) = dim := by
    rcases hdim with rfl | rfl
    · right; rw [if_pos hz]
    · by_cases hn : n = 0
      · exact Or.inl hn
      · right; rw [if_neg (by omega)]
  rcases hcase with rfl | hdd
  · refine ⟨a, ?_, fun i hi => absurd hi (Nat.not_lt_zero _), fun _ _ => rfl⟩
    unfold mapSurface
    rw [if_neg (not_not.2 h1), if_pos hall]
    simp only [Nat.zero_mul, Nat.not_lt_zero, if_false, hD, if_true, putNodes]
    rw [← hD]
  · refine ⟨{ a with mem := putNodes dim (fun i d => xNew i d - xOld i d) n a.mem }, ?_, ?_, ?_⟩
    · unfold mapSurface
      rw [if_neg (not_not.2 h1), if_pos hall]
      simp only [hdd, hD, if_true, hext]
      rw [if_neg (by rw [hz, Nat.mul_comm]; omega)]
    · intro i hi d hd
      simp only [PyArray.entry, hs, Nat.mul_one]
      exact (putNodes_spec dim _ a.mem n).1 i hi d hd
    · intro k hk
      refine (putNodes_spec dim _ a.mem n).2 k ?_
      by_contra hlt
      exact hk k (by omega) (by rw [hs, Nat.mul_one])

/-- **C237** A contiguous array of doubles of another size is written past its end exactly if it has fewer than three
entries per node (and not two): no size is refused. -/
theorem C237_sizes (n : ℕ) (st : List Bool) (hst : ∀ s ∈ st, s = true) (xOld xNew : ℕ → ℕ → ℝ)
    (a : PyArray) (h1 : a.ndim = 1) (hD : a.isDouble = true) (hs : a.stride = 1) :
    (mapSurface st n xOld xNew a = .undefined ↔ a.size < 3 * n ∧ a.size ≠ 2 * n) ∧ mapSurface st n xOld xNew a ≠ .throws := by
  have hall : st.all id = true := List.all_eq_true.2 fun s h => hst s h
  have hext : (a.size - 1) * a.stride + (if a.size = 0 then 0 else 1) = a.size := by
    rw [hs]; split_ifs with h <;> omega
  unfold mapSurface
  rw [if_neg (not_not.2 h1), if_pos hall]
  simp only [hD, if_true, hext]
  by_cases h2 : a.size = 2 * n
  · rw [if_pos h2, if_neg (by omega)]
    simp [h2]
  · rw [if_neg h2]
    by_cases h3 : a.size < n * 3
    · rw [if_pos h3]; simp only [true_iff, ne_eq, reduceCtorEq, not_false_eq_true, and_true]; omega
    · rw [if_neg h3]; simp only [reduceCtorEq, false_iff, ne_eq, not_false_eq_true, and_true]; omega

/-- **C237** An array of more than one dimension, a failing call of EGADS, and a build without EGADS are reported, and
nothing is written. -/
theorem C237_errors (n : ℕ) (st : List Bool) (xOld xNew : ℕ → ℕ → ℝ) (a : PyArray) :
    (a.ndim ≠ 1 → mapSurface st n xOld xNew a = .throws) ∧ (false ∈ st → mapSurface st n xOld xNew a = .throws) ∧ mapSurfaceNoEgads = .throws := by
  refine ⟨fun h => ?_, fun h => ?_, rfl⟩
  · unfold mapSurface; rw [if_pos h]
  · have : ¬(st.all id = true) := fun e => absurd (List.all_eq_true.1 e false h) (by simp)
    unfold mapSurface
    by_cases h1 : a.ndim ≠ 1
    · rw [if_pos h1]
    · rw [if_neg h1, if_neg this]

/-- **C237** An array that does not hold doubles is accepted, and left as it is. -/
theorem C237_other_types (n : ℕ) (st : List Bool) (xOld xNew : ℕ → ℕ → ℝ) (a b : PyArray) (hD : a.isDouble = false)
    (h : mapSurface st n xOld xNew a = .ok b) : b = a := by
  unfold mapSurface at h
  by_cases h1 : a.ndim ≠ 1
  · rw [if_pos h1] at h; simp at h
  · rw [if_neg h1] at h
    by_cases h2 : st.all id = true
    · rw [if_pos h2] at h
      simp only [hD, Bool.false_eq_true, if_false] at h
      by_cases h3 : a.size < n * (if a.size = 2 * n then 2 else 3)
      · rw [if_pos h3] at h; simp at h
      · rw [if_neg h3] at h
        exact (Res.ok.inj h).symm
    · rw [if_neg h2] at h; simp at h

/-- **C237** So the displacements do not always arrive: not in an array of integers or single-precision numbers, … -/
theorem C237_types_false : ¬∀ (dim n : ℕ) (st : List Bool) (xOld xNew : ℕ → ℕ → ℝ) (a b : PyArray), (dim = 2 ∨ dim = 3) →
    a.ndim = 1 → a.stride = 1 → a.size = dim * n → mapSurface st n xOld xNew a = .ok b → Displaced dim n xOld xNew a b := by
  intro H
  let a : PyArray := ⟨false, 1, 3, 1, fun _ => 0⟩
  have e : mapSurface [] 1 (fun _ _ => 0) (fun _ _ => 1) a = .ok a := by
    unfold mapSurface
    simp [a]
  have h := (H 3 1 [] _ _ a a (Or.inr rfl) rfl rfl rfl e).1 0 (by omega) 0 (by omega)
  simp [PyArray.entry, a] at h

/-- **C237** … and not in a slice of an array: the entries of every second position of an array of six, for one node. -/
theorem C237_slices_false : ¬∀ (dim n : ℕ) (st : List Bool) (xOld xNew : ℕ → ℕ → ℝ) (a b : PyArray), (dim = 2 ∨ dim = 3) →
    a.ndim = 1 → a.isDouble = true → a.size = dim * n → mapSurface st n xOld xNew a = .ok b → Displaced dim n xOld xNew a b := by
  intro H
  let a : PyArray := ⟨true, 1, 3, 2, fun _ => 0⟩
  have e : mapSurface [] 1 (fun _ _ => 0) (fun _ _ => 1) a = .ok { a with mem := putNodes 3 (fun _ _ => 1 - 0) 1 a.mem } := by
    unfold mapSurface
    simp [a]
  have h := (H 3 1 [] _ _ a _ (Or.inr rfl) rfl rfl rfl e).2 1 (by intro j hj; simp only [a]; omega)
  simp [putNodes, putNode, a, Function.update] at h

/-- A case of the hypotheses of `C237_displacements_partial`: one node in space. -/
example : ∃ a : PyArray, a.ndim = 1 ∧ a.isDouble = true ∧ a.stride = 1 ∧ a.size = 3 * 1 := ⟨⟨true, 1, 3, 1, fun _ => 0⟩, rfl, rfl, rfl, rfl⟩

end Verif.TransferMap
