import Verif.KDTreeLemmas

/-!
# k-d tree: property theorems (C01–C05)

Specification vocabulary, independent of the model's helpers:
`sqDist` is the textbook squared Euclidean distance, and `Hist` is the set of objects a client can
produce by calling the public API, together with the list of nodes passed to `add_node` so far
and the list of those that had been added at the time of the last `finalize`.
-/

namespace Verif.KDTree

variable {K : Type} [Field K] [LinearOrder K]

/-- Squared Euclidean distance of the first `dim` coordinates. -/
def sqDist (dim : ℕ) (p q : ℕ → K) : K :=
  ((List.range dim).map fun i => (p i - q i) ^ 2).sum

/-- All histories of API calls: object, nodes added so far, nodes present at last `finalize`. -/
inductive Hist (dim : ℕ) : KD K → List (Node K) → List (Node K) → Prop
  | init : Hist dim KD.empty [] []
  | setSize {k a b} (n : ℕ) : Hist dim k a b → Hist dim (k.setSize n) a b
  | addNode {k a b} (x : Node K) : Hist dim k a b → Hist dim (k.addNode x) (a ++ [x]) b
  | finalize {k k' a b} : Hist dim k a b → Finalize dim k k' → Hist dim k' a a
  | nearest {k a b} (q : ℕ → K) : Hist dim k a b → Hist dim (k.nearest dim q).1 a b

omit [LinearOrder K] in
theorem distance_eq_sqDist (dim : ℕ) (p q : ℕ → K) : distance dim p q = sqDist dim p q := by
  induction dim with
  | zero => simp [distance, sqDist]
  | succ n ih =>
    simp only [distance, ih, sqDist, List.range_succ, List.map_append, List.sum_append,
      List.map_cons, List.map_nil, List.sum_cons, List.sum_nil, add_zero]
    rw [sq]

/-- Invariant behind the property theorems. -/
theorem hist_inv {dim : ℕ} {k : KD K} {a b : List (Node K)} (h : Hist dim k a b) :
    List.Perm a k.nodes ∧ List.Perm b k.root.toList ∧ Inv dim 0 k.root ∧
      (k.root = .leaf → b = []) := by
  induction h with
  | init => exact ⟨.refl _, .refl _, trivial, fun _ => rfl⟩
  | setSize n _ ih =>
    unfold KD.setSize; split_ifs <;> exact ih
  | addNode x _ ih =>
    obtain ⟨h1, h2, h3, h4⟩ := ih
    unfold KD.addNode
    split_ifs <;> exact ⟨h1.append_right _, h2, h3, h4⟩
  | finalize _ hf ih =>
    obtain ⟨h1, h2, h3, h4⟩ := ih
    have hp := hf.tree.toList_perm
    refine ⟨h1.trans hf.nodes, h1.trans hp, hf.tree.inv, ?_⟩
    intro hleaf
    have := h1.trans hp
    rw [hleaf] at this
    exact this.eq_nil
  | nearest q _ ih =>
    unfold KD.nearest
    split
    · exact ih
    · split_ifs <;> exact ih

/-- One query on a valid, non-empty tree, whatever the history. -/
theorem nearest_ok [IsStrictOrderedRing K] {dim : ℕ} (hd : 0 < dim) {k : KD K}
    {a b : List (Node K)} (h : Hist dim k a b) (hb : b ≠ []) (hv : k.dangling = false)
    (q : ℕ → K) :
    ∃ n ∈ b, ∃ v, (k.nearest dim q).2 = .ok n.idx (sqDist dim n.pt q) v ∧
      (∀ y ∈ b, sqDist dim n.pt q ≤ sqDist dim y.pt q) ∧ 1 ≤ v ∧ v ≤ b.length := by
  obtain ⟨_, h2, h3, h4⟩ := hist_inv h
  have hroot : k.root ≠ .leaf := fun e => hb (h4 e)
  have hne : k.root.toList ≠ [] := fun e => hb (List.Perm.eq_nil (e ▸ h2))
  obtain ⟨hg, hall, _, hmem, hsome⟩ :=
    nearestRec_spec dim hd q k.root 0 ⟨none, 0, 0⟩ hd h3 (fun b hb => by cases hb)
  have hvis := nearestRec_visited dim q k.root 0 ⟨none, 0, 0⟩
  have hs := hsome (Or.inr hne)
  obtain ⟨n, hn⟩ := Option.ne_none_iff_exists'.mp hs
  have hnmem : n ∈ k.root.toList := (hmem n hn).resolve_right (by simp)
  refine ⟨n, h2.mem_iff.mpr hnmem, (nearestRec dim q k.root 0 ⟨none, 0, 0⟩).visited, ?_, ?_, ?_, ?_⟩
  · unfold KD.nearest
    cases hr : k.root with
    | leaf => exact absurd hr hroot
    | node l x r =>
      simp only [hv, Bool.false_eq_true, if_false]
      rw [hr] at hn
      simp only [hn]
      rw [← hr, hg n (hr ▸ hn), distance_eq_sqDist]
  · intro y hy
    have := hall y (h2.mem_iff.mp hy)
    rwa [hg n hn, distance_eq_sqDist, distance_eq_sqDist] at this
  · exact hvis.2.2 hne
  · have := hvis.2.1
    rw [h2.length_eq]; simpa using this

/-- **C01** Right after `finalize`, whatever the previous history, whatever permutation
`nth_element` produced, a query returns the label of one of the added nodes, at minimal
distance, and the reported (squared) distance is that minimum. -/
theorem C01_nearest_exact [IsStrictOrderedRing K] {dim : ℕ} (hd : 0 < dim) {k k' : KD K}
    {added built : List (Node K)} (h : Hist dim k added built) (hf : Finalize dim k k')
    (hne : added ≠ []) (q : ℕ → K) :
    ∃ n ∈ added, ∃ v, (k'.nearest dim q).2 = .ok n.idx (sqDist dim n.pt q) v ∧
      ∀ y ∈ added, sqDist dim n.pt q ≤ sqDist dim y.pt q := by
  obtain ⟨n, hn, v, h1, h2, _⟩ := nearest_ok hd (Hist.finalize h hf) hne hf.fresh q
  exact ⟨n, hn, v, h1, h2⟩

/-- **C02 (a)** `finalize` keeps exactly the added nodes: the nodes reachable from the root are a
permutation of the nodes added (no loss, duplication or alteration). -/
theorem C02_finalize_keeps_points {dim : ℕ} {k k' : KD K} {added built : List (Node K)}
    (h : Hist dim k added built) (hf : Finalize dim k k') :
    List.Perm added k'.root.toList ∧ List.Perm added k'.nodes := by
  have := hist_inv (Hist.finalize h hf)
  exact ⟨this.2.1, this.1⟩

/-- **C02 (b)** Querying throws exactly when nothing had been added at the last `finalize`
(in particular when `finalize` was never called), and leaves the object unchanged. -/
theorem C02_query_empty_throws {dim : ℕ} {k : KD K} {added built : List (Node K)}
    (h : Hist dim k added built) (q : ℕ → K) :
    ((k.nearest dim q).2 = .throwEmpty ↔ built = []) ∧
    (built = [] → (k.nearest dim q).1 = k) := by
  obtain ⟨_, h2, _, h4⟩ := hist_inv h
  have hleaf : built = [] → k.root = .leaf := by
    intro hb
    subst hb
    cases hr : k.root with
    | leaf => rfl
    | node l x r =>
      rw [hr] at h2
      have := h2.symm.eq_nil
      simp [Tree.toList] at this
  constructor
  · constructor
    · intro ht
      cases hr : k.root with
      | leaf => exact h4 hr
      | node l x r =>
        unfold KD.nearest at ht
        rw [hr] at ht
        simp only at ht
        split_ifs at ht
        revert ht
        simp only
        split <;> simp
    · intro hb
      unfold KD.nearest; rw [hleaf hb]
  · intro hb
    unfold KD.nearest; rw [hleaf hb]

/-- **C03** A query's full answer (label, distance, visited count, or exception) is the same
whatever queries were issued on the object before. -/
theorem C03_history_independent {dim : ℕ} (k : KD K) (qs : List (ℕ → K)) (q : ℕ → K) :
    ((qs.foldl (fun k q => (k.nearest dim q).1) k).nearest dim q).2 = (k.nearest dim q).2 := by
  have key : ∀ (qs : List (ℕ → K)) (k k0 : KD K), k.root = k0.root → k.dangling = k0.dangling →
      ((qs.foldl (fun k q => (k.nearest dim q).1) k).nearest dim q).2 = (k0.nearest dim q).2 := by
    intro qs
    induction qs with
    | nil =>
      intro k k0 hr hd
      simp only [List.foldl_nil]
      unfold KD.nearest
      rw [hr, hd]
      split
      · rfl
      · split_ifs <;> rfl
    | cons p ps ih =>
      intro k k0 hr hd
      simp only [List.foldl_cons]
      apply ih
      · rw [← hr]; unfold KD.nearest; split
        · rfl
        · split_ifs <;> rfl
      · rw [← hd]; unfold KD.nearest; split
        · rfl
        · split_ifs <;> rfl
  exact key qs k k rfl rfl

/-- **C04** A successful query visits at least one and at most all stored points. -/
theorem C04_visited_bounds [IsStrictOrderedRing K] {dim : ℕ} (hd : 0 < dim) {k : KD K}
    {added built : List (Node K)} (h : Hist dim k added built) (q : ℕ → K)
    {i : ℤ} {d : K} {v : ℕ} (hok : (k.nearest dim q).2 = .ok i d v) :
    1 ≤ v ∧ v ≤ built.length := by
  have hb : built ≠ [] := by
    intro hb
    rw [((C02_query_empty_throws h q).1).mpr hb] at hok
    cases hok
  have hv : k.dangling = false := by
    by_contra hv
    have hv : k.dangling = true := by simpa using hv
    unfold KD.nearest at hok
    split at hok
    · cases hok
    · simp [hv] at hok
  obtain ⟨n, _, v', h1, _, h3, h4⟩ := nearest_ok hd h hb hv q
  rw [hok] at h1
  cases h1
  exact ⟨h3, h4⟩

/-- **C05 (a)** After `finalize`, nodes added while capacity remains are simply not seen by
queries: the answer is the nearest among the nodes present at the last `finalize`. -/
theorem C05_added_later_not_seen [IsStrictOrderedRing K] {dim : ℕ} (hd : 0 < dim) {k : KD K}
    {added built : List (Node K)} (h : Hist dim k added built) (hv : k.dangling = false)
    (hb : built ≠ []) (xs : List (Node K)) (hcap : k.nodes.length + xs.length ≤ k.cap)
    (q : ℕ → K) :
    ((xs.foldl KD.addNode k).nearest dim q).2 = (k.nearest dim q).2 ∧
    ∃ n ∈ built, ∃ v, (k.nearest dim q).2 = .ok n.idx (sqDist dim n.pt q) v ∧
      ∀ y ∈ built, sqDist dim n.pt q ≤ sqDist dim y.pt q := by
  constructor
  · clear h hv hb
    induction xs generalizing k with
    | nil => rfl
    | cons x xs ih =>
      simp only [List.length_cons] at hcap
      have h1 : k.addNode x = { k with nodes := k.nodes ++ [x] } := by
        unfold KD.addNode; rw [if_pos (by omega)]
      rw [List.foldl_cons, h1, ih]
      · unfold KD.nearest; simp only
        split
        · rfl
        · split_ifs <;> rfl
      · simp only [List.length_append, List.length_cons, List.length_nil]; omega
  · obtain ⟨n, hn, v, h1, h2, _⟩ := nearest_ok hd h hb hv q
    exact ⟨n, hn, v, h1, h2⟩

/-- **C05 (b)** If adding a node after a non-trivial `finalize` forces the vector to grow, the
next query is undefined behaviour. -/
theorem C05_growth_is_ub {dim : ℕ} {k : KD K} {added built : List (Node K)}
    (h : Hist dim k added built) (hb : built ≠ []) (hfull : ¬ k.nodes.length < k.cap)
    (x : Node K) (q : ℕ → K) : ((k.addNode x).nearest dim q).2 = .ub := by
  obtain ⟨_, _, _, h4⟩ := hist_inv h
  unfold KD.addNode
  rw [if_neg hfull]
  unfold KD.nearest
  cases hr : k.root with
  | leaf => exact absurd (h4 hr) hb
  | node l y r => simp

/-- **C05 (c)** Calling `finalize` again after any such additions restores exact answers over all
nodes added so far. -/
theorem C05_refinalize_restores [IsStrictOrderedRing K] {dim : ℕ} (hd : 0 < dim) {k k' : KD K}
    {added built : List (Node K)} (h : Hist dim k added built) (xs : List (Node K))
    (hf : Finalize dim (xs.foldl KD.addNode k) k') (hne : added ++ xs ≠ []) (q : ℕ → K) :
    ∃ n ∈ added ++ xs, ∃ v, (k'.nearest dim q).2 = .ok n.idx (sqDist dim n.pt q) v ∧
      ∀ y ∈ added ++ xs, sqDist dim n.pt q ≤ sqDist dim y.pt q := by
  have hh : ∀ (xs : List (Node K)) (k : KD K) (a : List (Node K)), Hist dim k a built →
      Hist dim (xs.foldl KD.addNode k) (a ++ xs) built := by
    intro xs
    induction xs with
    | nil => intro k a h; simpa using h
    | cons x xs ih =>
      intro k a h
      have := ih (k.addNode x) (a ++ [x]) (h.addNode x)
      simpa using this
  exact C01_nearest_exact hd (hh xs k added h) hf hne q

/-! ### Non-vacuity: a concrete six point tree in two dimensions over ℚ. -/

/-- The "wikipedia" data set quoted in `kdtree.hpp:269`. -/
def wikiNodes : List (Node ℚ) :=
  ([(2, 3, 0), (5, 4, 1), (9, 6, 2), (4, 7, 3), (8, 1, 4), (7, 2, 5)] : List (ℚ × ℚ × ℤ)).map
    fun t => ⟨fun i => if i = 0 then t.1 else t.2.1, t.2.2⟩

/-- The object after adding the six points and finalising with a sorting `nth_element`. -/
def wikiTree : KD ℚ :=
  { (wikiNodes.foldl KD.addNode KD.empty) with root := makeTreeSort 2 6 0 wikiNodes }

example : Hist 2 (wikiNodes.foldl KD.addNode KD.empty) wikiNodes ([] : List (Node ℚ)) ∧
    Finalize 2 (wikiNodes.foldl KD.addNode KD.empty) wikiTree ∧ wikiNodes ≠ [] := by
  refine ⟨?_, ⟨.refl _, ?_, rfl, rfl, rfl⟩, by simp [wikiNodes]⟩
  rotate_left
  · exact makeTreeSort_spec 2 6 0 wikiNodes (by simp [wikiNodes])
  exact ((((((Hist.init.addNode _).addNode _).addNode _).addNode _).addNode _).addNode _)

/-- The hypotheses of C05(a) and C05(b) are met by the finalised six point tree
(capacity 7 after growing 0,1,3,7). -/
example : wikiTree.nodes.length + 1 ≤ wikiTree.cap ∧
    ¬ (wikiTree.addNode ⟨fun _ => 0, 7⟩).nodes.length < (wikiTree.addNode ⟨fun _ => 0, 7⟩).cap := by
  simp [wikiTree, wikiNodes, KD.addNode, KD.empty]

end Verif.KDTree
