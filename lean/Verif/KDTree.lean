import Mathlib.Algebra.Order.Field.Basic
import Mathlib.Data.List.Sort

/-!
# Model of `src/utils/kdtree.hpp`

`coord_type` and `double` are both modelled by one linearly ordered field `K` (no rounding).
-/

namespace Verif.KDTree

variable {K : Type} [Field K] [LinearOrder K]

/-- `kdtree::node` without its child pointers: `point_` (coordinates by index) and `mfem_idx_`
(`kdtree.hpp:88-111`).  `point::get(i)` (`kdtree.hpp:44`) is function application. -/
structure Node (K : Type) where
  pt : ℕ → K
  idx : ℤ

/-- `point::distance` (`kdtree.hpp:49-58`): the loop `for i<dim: d = get(i)-pt.get(i); dist += d*d`. -/
def distance (dim : ℕ) (p q : ℕ → K) : K :=
  match dim with
  | 0 => 0
  | n + 1 => distance n p q + (p n - q n) * (p n - q n)

/-- A built tree: `node*` with `left_`/`right_`, `nullptr` is `leaf` (`kdtree.hpp:88-111`). -/
inductive Tree (K : Type) where
  | leaf : Tree K
  | node : Tree K → Node K → Tree K → Tree K

/-- Postcondition of `std::nth_element(first, first+n, last, node_cmp(index))` as called in
`kdtree.hpp:141-142` with the comparison of `kdtree.hpp:123-131`: the range `l` is permuted into
`L ++ x :: R` with `x` at position `n`, nothing in `L` greater than `x` and nothing in `R` less
than `x` in coordinate `index`.  Any such permutation is allowed. -/
structure NthElement (index : ℕ) (l : List (Node K)) (n : ℕ)
    (L : List (Node K)) (x : Node K) (R : List (Node K)) : Prop where
  perm : List.Perm l (L ++ x :: R)
  pos : L.length = n
  left_le : ∀ y ∈ L, ¬ x.pt index < y.pt index
  right_ge : ∀ y ∈ R, ¬ y.pt index < x.pt index

/-- `kdtree::make_tree(begin, end, index)` (`kdtree.hpp:134-148`) on the range `[begin,end)` given
as a list.  A relation because `nth_element` is only specified up to its postcondition.
Simplification: the range is a list value rather than a slice of `nodes_`; the two recursive
calls act on the disjoint slices `L` and `R`. -/
inductive MakeTree (dim : ℕ) : ℕ → List (Node K) → Tree K → Prop
  | nil (index : ℕ) : MakeTree dim index [] .leaf
  | cons (index : ℕ) (l L R : List (Node K)) (x : Node K) (tl tr : Tree K)
      (hne : l ≠ [])
      (hnth : NthElement index l (l.length / 2) L x R)
      (hl : MakeTree dim ((index + 1) % dim) L tl)
      (hr : MakeTree dim ((index + 1) % dim) R tr) :
      MakeTree dim index l (.node tl x tr)

/-- The mutable search fields `best_`, `best_dist_`, `visited_` (`kdtree.hpp:112-119`). -/
structure Search (K : Type) where
  best : Option (Node K)
  bestDist : K
  visited : ℕ

/-- `++visited_; double d = ...; if (best_ == nullptr || d < best_dist_) {...}`
(`kdtree.hpp:157-163`). -/
def visit (dim : ℕ) (q : ℕ → K) (x : Node K) (s : Search K) : Search K :=
  let d := distance dim x.pt q
  match s.best with
  | none => { best := some x, bestDist := d, visited := s.visited + 1 }
  | some _ =>
    if d < s.bestDist then { best := some x, bestDist := d, visited := s.visited + 1 }
    else { s with visited := s.visited + 1 }

/-- The recursive `kdtree::nearest(node*, point, index)` (`kdtree.hpp:151-176`). -/
def nearestRec (dim : ℕ) (q : ℕ → K) : Tree K → ℕ → Search K → Search K
  | .leaf, _, s => s
  | .node l x r, index, s =>
    let s1 := visit dim q x s
    if s1.bestDist = 0 then s1
    else
      let dx := x.pt index - q index
      let index' := (index + 1) % dim
      let s2 := if dx > 0 then nearestRec dim q l index' s1 else nearestRec dim q r index' s1
      if dx * dx ≥ s2.bestDist then s2
      else if dx > 0 then nearestRec dim q r index' s2 else nearestRec dim q l index' s2

/-- The `kdtree` object (`kdtree.hpp:86-119`): `nodes_` with its vector capacity, the tree
hanging off `root_`, and whether the buffer `root_` points into has been reallocated since
(`dangling`), plus the search fields. -/
structure KD (K : Type) where
  nodes : List (Node K)
  cap : ℕ
  root : Tree K
  dangling : Bool
  search : Search K

/-- The default constructed object, `kdtree() = default` (`kdtree.hpp:187`). -/
def KD.empty : KD K := ⟨[], 0, .leaf, false, ⟨none, 0, 0⟩⟩

/-- Result of a query. kdtree.hpp:157-163. -/
inductive Res (K : Type) where
  /-- normal return: `best_->mfem_idx_`, the square of `distance()`, `visited()` -/
  | ok (idx : ℤ) (dist2 : K) (visited : ℕ)
  /-- `std::logic_error("tree is empty")` -/
  | throwEmpty
  /-- dereference of a dangling pointer -/
  | ub

/-- `set_size(n)` : `nodes_.reserve(n)` (`kdtree.hpp:217`).  Reserving beyond the capacity
reallocates, leaving a non-null `root_` dangling. -/
def KD.setSize (k : KD K) (n : ℕ) : KD K :=
  if n > k.cap then
    { k with cap := n, dangling := k.dangling || (match k.root with | .leaf => false | _ => true) }
  else k

/-- `add_node` (`kdtree.hpp:222-225`): `emplace_back`; if size = capacity the buffer is
reallocated (here: to any larger capacity, modelled as doubling plus one). -/
def KD.addNode (k : KD K) (x : Node K) : KD K :=
  if k.nodes.length < k.cap then { k with nodes := k.nodes ++ [x] }
  else { k with
    nodes := k.nodes ++ [x]
    cap := 2 * k.cap + 1
    dangling := k.dangling || (match k.root with | .leaf => false | _ => true) }

/-- `finalize()` (`kdtree.hpp:228`): `root_ = make_tree(0, nodes_.size(), 0)`; `nodes_` ends up
permuted, which is irrelevant for later calls except through `Perm`; the new order is recorded
in `k'.nodes`. -/
structure Finalize (dim : ℕ) (k k' : KD K) : Prop where
  nodes : List.Perm k.nodes k'.nodes
  tree : MakeTree dim 0 k.nodes k'.root
  cap : k'.cap = k.cap
  fresh : k'.dangling = false
  search : k'.search = k.search

/-- public `int nearest(const point_type &pt)` (`kdtree.hpp:250-261`). -/
def KD.nearest (dim : ℕ) (k : KD K) (q : ℕ → K) : KD K × Res K :=
  match k.root with
  | .leaf => (k, .throwEmpty)
  | _ =>
    if k.dangling then (k, .ub)
    else
      let s := nearestRec dim q k.root 0 ⟨none, 0, 0⟩
      ({ k with search := s },
        match s.best with
        | some b => .ok b.idx s.bestDist s.visited
        | none => .ub)

/-- An executable `make_tree` that sorts each range, one admissible `nth_element`; used only to
exhibit concrete trees.  `fuel` bounds the recursion depth. kdtree.hpp:134-148. -/
def makeTreeSort (dim : ℕ) : ℕ → ℕ → List (Node K) → Tree K
  | 0, _, _ => .leaf
  | fuel + 1, index, l =>
    let s := l.insertionSort (fun a b => a.pt index ≤ b.pt index)
    match s.drop (s.length / 2) with
    | [] => .leaf
    | x :: R =>
      .node (makeTreeSort dim fuel ((index + 1) % dim) (s.take (s.length / 2))) x
        (makeTreeSort dim fuel ((index + 1) % dim) R)

end Verif.KDTree
