import Verif.SbpCollection
import Mathlib.Algebra.Order.Field.Basic
import Mathlib.Algebra.Order.Ring.Abs
import Mathlib.Tactic.Linarith
import Mathlib.Tactic.Ring
import Mathlib.Tactic.FieldSimp
import Mathlib.Tactic.NormNum
import Mathlib.Tactic.Positivity
import Mathlib.Tactic.IntervalCases

/-!
# C206, C207: the degrees of freedom of the SBP spaces

Specification: a finite-element space is *continuous* if a degree of freedom that two elements
share sits at one and the same physical point in both, and two elements that share an edge share
all the degrees of freedom on it.  The mesh is any triangulation: `Mesh.WF` only says that the
three vertices of a triangle are different and that two edges have the same number exactly if they
join the same two vertices.
-/

set_option linter.unusedSimpArgs false

namespace Verif.SbpColl

open Verif.Sbp (Table tri0 tri1 tri2 tri3 tri4 tet0 tet1)

/-- What is required of a mesh: vertex numbers in range, three different vertices per triangle,
edge numbers in range and equal exactly for equal (unordered) pairs of end points. -/
structure Mesh.WF (m : Mesh) : Prop where
  vert_lt : ∀ e < m.nt, ∀ i < 3, m.vert e i < m.nv
  vert_ne : ∀ e < m.nt, ∀ i < 3, ∀ j < 3, i ≠ j → m.vert e i ≠ m.vert e j
  edge_lt : ∀ e < m.nt, ∀ i < 3, ∀ j < 3, i ≠ j → m.edge (m.vert e i) (m.vert e j) < m.ne
  edge_comm : ∀ a b, m.edge a b = m.edge b a
  edge_inj : ∀ e < m.nt, ∀ i < 3, ∀ j < 3, i ≠ j → ∀ e' < m.nt, ∀ i' < 3, ∀ j' < 3, i' ≠ j' →
    m.edge (m.vert e i) (m.vert e j) = m.edge (m.vert e' i') (m.vert e' j') →
    (m.vert e i = m.vert e' i' ∧ m.vert e j = m.vert e' j') ∨
    (m.vert e i = m.vert e' j' ∧ m.vert e j = m.vert e' i')

/-! ### The finite tables -/

/-- Integer coordinate of a node. -/
def zc (p l d : ℕ) : ℤ := ((triTable p).x.getD d []).getD l 0

/-- Parameter of inner node `j` of an edge, units of `10^-19`. -/
def zs (p j : ℕ) : ℤ := zc p (3 + j) 0

theorem tbl_vertices : ∀ p < 5, zc p 0 0 = 0 ∧ zc p 0 1 = 0 ∧ zc p 1 0 = 10 ^ 19 ∧ zc p 1 1 = 0 ∧
    zc p 2 0 = 0 ∧ zc p 2 1 = 10 ^ 19 := by decide +kernel

theorem tbl_edges : ∀ p < 5, ∀ j < p,
    zc p (3 + j) 1 = 0 ∧
    |zc p (3 + p + j) 0 - (10 ^ 19 - zs p j)| ≤ 1000 ∧ |zc p (3 + p + j) 1 - zs p j| ≤ 1000 ∧
    zc p (3 + 2 * p + j) 0 = 0 ∧ |zc p (3 + 2 * p + j) 1 - (10 ^ 19 - zs p j)| ≤ 1000 := by
  decide +kernel

/-- The reversed order, with the aborting cases removed. -/
def revL (p : ℕ) : List ℕ := (revOrd p).getD []

theorem tbl_rev : ∀ p < 5, (revL p).length = p ∧ ∀ j < p, (revL p).getD j 0 < p ∧
    (revL p).getD ((revL p).getD j 0) 0 = j ∧
    |zs p ((revL p).getD j 0) - (10 ^ 19 - zs p j)| ≤ 1000 := by decide +kernel

theorem tbl_size : ∀ p < 5, (triTable p).n = (triNodes p).getD 0 ∧
    3 + 3 * p ≤ (triTable p).n ∧ ∀ d < 2, ((triTable p).x.getD d []).length = (triTable p).n := by
  decide +kernel

theorem tbl_distinct : ∀ p < 5, ∀ l < (triTable p).n, ∀ l' < (triTable p).n, l ≠ l' →
    5 * 10 ^ 17 ≤ |zc p l 0 - zc p l' 0| ∨ 5 * 10 ^ 17 ≤ |zc p l 1 - zc p l' 1| := by decide +kernel

/-- The nodes lie in the (closed) reference triangle, up to the printed digits, and the inner nodes
strictly inside. -/
theorem tbl_inside : ∀ p < 5, ∀ l < (triTable p).n, 0 ≤ zc p l 0 ∧ 0 ≤ zc p l 1 ∧
    zc p l 0 + zc p l 1 ≤ 10 ^ 19 ∧
    (3 + 3 * p ≤ l → 10 ^ 17 ≤ zc p l 0 ∧ 10 ^ 17 ≤ zc p l 1 ∧ zc p l 0 + zc p l 1 ≤ 99 * 10 ^ 17) := by
  decide +kernel

/-! ### The collection -/

/-- The data of the two-dimensional continuous collection. -/
theorem coll2 {p : ℕ} {c : Coll} (hc : sbpCollection p 2 = some c) : p < 5 ∧ c.dof .point = 1 ∧
    c.dof .segment = p ∧ c.dof .triangle = (triTable p).n - 3 - 3 * p ∧ c.fwd = List.range p ∧
    c.rev = revL p := by
  have hp : p < 5 := by
    by_contra h
    have : p > 4 ∨ 2 > 3 := Or.inl (by omega)
    rw [sbpCollection, if_pos this] at hc
    exact absurd hc (by simp)
  refine ⟨hp, ?_⟩
  interval_cases p <;>
    (simp only [sbpCollection, revOrd, triNodes] at hc
     norm_num at hc
     subst hc
     refine ⟨rfl, rfl, ?_, rfl, rfl⟩
     decide +kernel)

/-- An aborting constructor is exactly one with unsupported arguments. -/
theorem C206_constructible (p dim : ℕ) :
    ((sbpCollection p dim).isSome ↔ p ≤ 4 ∧ dim ≤ 3 ∧ (dim = 3 → p ≤ 1)) ∧
    ((dsbpCollection p dim).isSome ↔ p ≤ 4 ∧ dim = 2) := by
  constructor
  · by_cases h : p > 4 ∨ dim > 3
    · have : ¬ (p ≤ 4 ∧ dim ≤ 3 ∧ (dim = 3 → p ≤ 1)) := by omega
      simp only [sbpCollection, h, if_true, Option.isSome_none, this]
      simp
    · have h1 : p < 5 := by omega
      have h2 : dim < 4 := by omega
      interval_cases p <;> interval_cases dim <;> decide
  · by_cases h : p > 4 ∨ dim ≠ 2
    · have : ¬ (p ≤ 4 ∧ dim = 2) := by omega
      simp only [dsbpCollection, h, if_true, Option.isSome_none, this]
      simp
    · have h1 : p < 5 := by omega
      have h2 : dim = 2 := by omega
      subst h2
      interval_cases p <;> decide

variable {K : Type*} [Field K] [LinearOrder K] [IsStrictOrderedRing K]

omit [LinearOrder K] [IsStrictOrderedRing K] in
theorem ref_eq (p l d : ℕ) : (refCoord (triTable p) l d : K) = (zc p l d : K) / 10 ^ 19 := rfl

theorem int_bound {a b : ℤ} {n : ℤ} (h : |a - b| ≤ n) :
    |(a : K) / 10 ^ 19 - (b : K) / 10 ^ 19| ≤ (n : K) / 10 ^ 19 := by
  rw [← sub_div, abs_div, abs_of_pos (by positivity : (0 : K) < 10 ^ 19)]
  apply div_le_div_of_nonneg_right _ (by positivity)
  have := (Int.cast_le (R := K)).2 h
  simpa [Int.cast_abs] using this

/-- Edge parameter in `K`. -/
def sK (K : Type*) [Field K] (p j : ℕ) : K := (zs p j : K) / 10 ^ 19

/-- Error of a node on an edge in terms of the reference coordinates. -/
theorem near (X0 X1 X2 x y x' y' t L : K) (hx : |x - x'| ≤ t) (hy : |y - y'| ≤ t)
    (h1 : |X1 - X0| ≤ L) (h2 : |X2 - X0| ≤ L) :
    |(X0 + x * (X1 - X0) + y * (X2 - X0)) - (X0 + x' * (X1 - X0) + y' * (X2 - X0))| ≤ 2 * t * L := by
  have e : (X0 + x * (X1 - X0) + y * (X2 - X0)) - (X0 + x' * (X1 - X0) + y' * (X2 - X0)) =
      (x - x') * (X1 - X0) + (y - y') * (X2 - X0) := by ring
  rw [e]
  refine (abs_add_le _ _).trans ?_
  rw [abs_mul, abs_mul]
  have ht : 0 ≤ t := (abs_nonneg _).trans hx
  have a := mul_le_mul hx h1 (abs_nonneg _) ht
  have b := mul_le_mul hy h2 (abs_nonneg _) ht
  linarith

/-- `L` bounds the extent of triangle `e` in direction `d`. -/
def Extent (m : Mesh) (X : ℕ → ℕ → K) (e d : ℕ) (L : K) : Prop :=
  ∀ i < 3, ∀ j < 3, |X (m.vert e i) d - X (m.vert e j) d| ≤ L

/-- A node of local edge `k`, position `j`, sits at parameter `s_j` from the first local end point
of the edge to the second. -/
theorem edge_local (m : Mesh) (X : ℕ → ℕ → K) {p e d k j : ℕ} {L : K} (hp : p < 5) (hk : k < 3)
    (hj : j < p) (hL : Extent m X e d L) :
    |nodePos m X p e (3 + k * p + j) d -
      (X (m.vert e (triEdge k).1) d + sK K p j *
        (X (m.vert e (triEdge k).2) d - X (m.vert e (triEdge k).1) d))| ≤ 2 / 10 ^ 16 * L := by
  obtain ⟨e0, e1, e1', e2, e2'⟩ := tbl_edges p hp j hj
  have L1 := hL 1 (by norm_num) 0 (by norm_num)
  have L2 := hL 2 (by norm_num) 0 (by norm_num)
  have tt : (2 : K) / 10 ^ 16 * L = 2 * (((1000 : ℤ) : K) / 10 ^ 19) * L := by push_cast; ring
  rw [tt]
  have hz : ∀ x : K, |x - x| ≤ ((1000 : ℤ) : K) / 10 ^ 19 := fun x => by
    rw [sub_self, abs_zero]; positivity
  have conv : ((10 ^ 19 - zs p j : ℤ) : K) / 10 ^ 19 = 1 - sK K p j := by
    unfold sK; push_cast; rw [sub_div]; norm_num
  interval_cases k
  · have := near (X (m.vert e 0) d) (X (m.vert e 1) d) (X (m.vert e 2) d)
      (sK K p j) 0 (sK K p j) 0 _ L (hz _) (hz _) L1 L2
    have e' : nodePos m X p e (3 + 0 * p + j) d = X (m.vert e 0) d + sK K p j *
        (X (m.vert e 1) d - X (m.vert e 0) d) + 0 * (X (m.vert e 2) d - X (m.vert e 0) d) := by
      unfold nodePos
      rw [ref_eq, ref_eq, show 3 + 0 * p + j = 3 + j by omega, e0]
      simp [sK, zs]
    rw [e']
    have e'' : X (m.vert e (triEdge 0).1) d + sK K p j *
        (X (m.vert e (triEdge 0).2) d - X (m.vert e (triEdge 0).1) d) = X (m.vert e 0) d + sK K p j *
        (X (m.vert e 1) d - X (m.vert e 0) d) + 0 * (X (m.vert e 2) d - X (m.vert e 0) d) := by
      simp [triEdge]
    rw [e'']
    exact this
  · have b1 := int_bound (K := K) e1
    have b2 := int_bound (K := K) e1'
    rw [conv] at b1
    have := near (X (m.vert e 0) d) (X (m.vert e 1) d) (X (m.vert e 2) d) _ _ _ _ _ L b1 b2 L1 L2
    have e'' : X (m.vert e (triEdge 1).1) d + sK K p j *
        (X (m.vert e (triEdge 1).2) d - X (m.vert e (triEdge 1).1) d) =
        X (m.vert e 0) d + (1 - sK K p j) * (X (m.vert e 1) d - X (m.vert e 0) d) +
          (zs p j : K) / 10 ^ 19 * (X (m.vert e 2) d - X (m.vert e 0) d) := by
      change X (m.vert e 1) d + sK K p j * (X (m.vert e 2) d - X (m.vert e 1) d) = _
      unfold sK; ring
    rw [e'']
    unfold nodePos
    rw [ref_eq, ref_eq, show 3 + 1 * p + j = 3 + p + j by omega]
    exact this
  · have b2 := int_bound (K := K) e2'
    rw [conv] at b2
    have := near (X (m.vert e 0) d) (X (m.vert e 1) d) (X (m.vert e 2) d) _ _ _ _ _ L
      (hz ((zc p (3 + 2 * p + j) 0 : K) / 10 ^ 19)) b2 L1 L2
    have e'' : X (m.vert e (triEdge 2).1) d + sK K p j *
        (X (m.vert e (triEdge 2).2) d - X (m.vert e (triEdge 2).1) d) =
        X (m.vert e 0) d + (zc p (3 + 2 * p + j) 0 : K) / 10 ^ 19 *
          (X (m.vert e 1) d - X (m.vert e 0) d) +
          (1 - sK K p j) * (X (m.vert e 2) d - X (m.vert e 0) d) := by
      change X (m.vert e 2) d + sK K p j * (X (m.vert e 0) d - X (m.vert e 2) d) = _
      rw [e2]; push_cast; ring
    rw [e'']
    unfold nodePos
    rw [ref_eq, ref_eq]
    exact this

/-- Vertex nodes are exactly at the vertices. -/
theorem vertex_pos (m : Mesh) (X : ℕ → ℕ → K) {p e d l : ℕ} (hp : p < 5) (hl : l < 3) :
    nodePos m X p e l d = X (m.vert e l) d := by
  obtain ⟨a, b, c, c', f, g⟩ := tbl_vertices p hp
  unfold nodePos
  rw [ref_eq, ref_eq]
  interval_cases l
  · rw [a, b]; simp
  · rw [c, c']; push_cast; field_simp; ring
  · rw [f, g]; push_cast; field_simp; ring

theorem triEdge_lt (k : ℕ) : (triEdge k).1 < 3 ∧ (triEdge k).2 < 3 ∧ (triEdge k).1 ≠ (triEdge k).2 := by
  unfold triEdge
  split <;> decide

/-- The order in which a triangle sees an edge is a permutation of the dofs of the edge. -/
theorem order_spec {p : ℕ} {c : Coll} (hc : sbpCollection p 2 = some c) (o : Bool) {j : ℕ}
    (hj : j < p) : (c.segOrder o).getD j 0 < p ∧
      (c.segOrder o).getD ((c.segOrder o).getD j 0) 0 = j := by
  obtain ⟨hp, _, _, _, hf, hr⟩ := coll2 hc
  cases o
  · have := (tbl_rev p hp).2 j hj
    simp only [Coll.segOrder, hr]
    exact ⟨this.1, this.2.1⟩
  · simp only [Coll.segOrder, hf, if_true]
    simp [List.getD, hj]

/-- In terms of the end point with the smaller number and the one with the larger number, the dof
`i` of an edge sits at parameter `s_i`, whatever the triangle. -/
theorem edge_canonical (m : Mesh) (X : ℕ → ℕ → K) {p e d k j : ℕ} {L : K} {c : Coll}
    (hc : sbpCollection p 2 = some c) (hk : k < 3) (hj : j < p) (hL : Extent m X e d L)
    (a b : ℕ) (ha : a = m.vert e (triEdge k).1) (hb : b = m.vert e (triEdge k).2)  :
    |nodePos m X p e (3 + k * p + j) d -
      (X (min a b) d + sK K p ((c.segOrder (decide (a < b))).getD j 0) *
        (X (max a b) d - X (min a b) d))| ≤ 4 / 10 ^ 16 * L := by
  obtain ⟨hp, _, _, _, hf, hr⟩ := coll2 hc
  have h := edge_local m X (k := k) hp hk hj hL
  rw [← ha, ← hb] at h
  have hab : |X a d - X b d| ≤ L := by
    rw [ha, hb]; exact hL _ (triEdge_lt k).1 _ (triEdge_lt k).2.1
  have hL0 : 0 ≤ L := (abs_nonneg _).trans hab
  by_cases hlt : a < b
  · have : (c.segOrder (decide (a < b))).getD j 0 = j := by
      simp [Coll.segOrder, hlt, hf, List.getD, hj]
    rw [this, min_eq_left hlt.le, max_eq_right hlt.le]
    refine h.trans ?_
    apply mul_le_mul_of_nonneg_right _ hL0
    norm_num
  · have hle : b ≤ a := by omega
    have : (c.segOrder (decide (a < b))).getD j 0 = (revL p).getD j 0 := by
      simp [Coll.segOrder, hlt, hr]
    rw [this, min_eq_right hle, max_eq_left hle]
    obtain ⟨_, _, h3⟩ := (tbl_rev p hp).2 j hj
    have h3 := int_bound (K := K) h3
    have conv : ((10 ^ 19 - zs p j : ℤ) : K) / 10 ^ 19 = 1 - sK K p j := by
      unfold sK; push_cast; rw [sub_div]; norm_num
    rw [conv] at h3
    set r := (revL p).getD j 0
    have h3 : |sK K p r - (1 - sK K p j)| ≤ ((1000 : ℤ) : K) / 10 ^ 19 := h3
    have e : nodePos m X p e (3 + k * p + j) d - (X b d + sK K p r * (X a d - X b d)) =
        (nodePos m X p e (3 + k * p + j) d - (X a d + sK K p j * (X b d - X a d))) -
        (sK K p r - (1 - sK K p j)) * (X a d - X b d) := by ring
    rw [e]
    refine (abs_sub _ _).trans ?_
    rw [abs_mul]
    have := mul_le_mul h3 hab (abs_nonneg _) (by positivity)
    have t : ((1000 : ℤ) : K) / 10 ^ 19 * L = 1 / 10 ^ 16 * L := by push_cast; ring
    rw [t] at this
    have q : (2 : K) / 10 ^ 16 * L + 1 / 10 ^ 16 * L ≤ 4 / 10 ^ 16 * L := by
      rw [← add_mul]; apply mul_le_mul_of_nonneg_right _ hL0; norm_num
    linarith

/-! ### Local to global -/

theorem gd_vertex (m : Mesh) {p : ℕ} {c : Coll} (hc : sbpCollection p 2 = some c) {e l : ℕ}
    (hl : l < 3) : globalDof m c e l = m.vert e l := by
  obtain ⟨_, h1, _, _, _, _⟩ := coll2 hc
  simp [globalDof, h1, hl, Nat.mod_one]

theorem gd_edge (m : Mesh) {p : ℕ} {c : Coll} (hc : sbpCollection p 2 = some c) {e k j : ℕ}
    (hk : k < 3) (hj : j < p) : globalDof m c e (3 + k * p + j) =
      m.nv + m.edge (m.vert e (triEdge k).1) (m.vert e (triEdge k).2) * p +
        (c.segOrder (decide (m.vert e (triEdge k).1 < m.vert e (triEdge k).2))).getD j 0 := by
  obtain ⟨_, h1, h2, _, _, _⟩ := coll2 hc
  have hlt : 3 + k * p + j < 3 + 3 * p := by
    have : (k + 1) * p ≤ 3 * p := Nat.mul_le_mul_right p (by omega)
    have e : (k + 1) * p = k * p + p := by ring
    omega
  have hq : (3 + k * p + j - 3) / p = k := by
    rw [show 3 + k * p + j - 3 = j + k * p by omega, Nat.add_mul_div_right _ _ (by omega),
      Nat.div_eq_of_lt hj, zero_add]
  have hm : (3 + k * p + j - 3) % p = j := by
    rw [show 3 + k * p + j - 3 = j + k * p by omega, Nat.add_mul_mod_self_right, Nat.mod_eq_of_lt hj]
  unfold globalDof
  simp only [h1, h2, mul_one]
  rw [if_neg (by omega), if_pos hlt, hq, hm]

theorem gd_inner (m : Mesh) {p : ℕ} {c : Coll} (hc : sbpCollection p 2 = some c) {e l : ℕ}
    (hl : 3 + 3 * p ≤ l) : globalDof m c e l =
      m.nv + m.ne * p + e * c.dof .triangle + (l - (3 + 3 * p)) := by
  obtain ⟨_, h1, h2, _, _, _⟩ := coll2 hc
  unfold globalDof
  simp only [h1, h2, mul_one]
  rw [if_neg (by omega), if_neg (by omega)]
  omega

/-- Every local node is a vertex node, an edge node or an interior node. -/
theorem local_cases (p l : ℕ) : l < 3 ∨ (∃ k j, k < 3 ∧ j < p ∧ l = 3 + k * p + j) ∨ 3 + 3 * p ≤ l := by
  by_cases h : l < 3
  · exact Or.inl h
  by_cases h' : l < 3 + 3 * p
  · right; left
    have hp : 0 < p := by omega
    refine ⟨(l - 3) / p, (l - 3) % p, ?_, Nat.mod_lt _ hp, ?_⟩
    · rw [Nat.div_lt_iff_lt_mul hp]; omega
    · have := Nat.div_add_mod (l - 3) p
      rw [mul_comm] at this
      omega
  · right; right; omega

/-- Range of the three groups. -/
theorem gd_edge_range (m : Mesh) (hm : m.WF) {p : ℕ} {c : Coll} (hc : sbpCollection p 2 = some c)
    {e k j : ℕ} (he : e < m.nt) (hk : k < 3) (hj : j < p) :
    m.nv ≤ globalDof m c e (3 + k * p + j) ∧ globalDof m c e (3 + k * p + j) < m.nv + m.ne * p := by
  rw [gd_edge m hc hk hj]
  have h1 := (order_spec hc (decide (m.vert e (triEdge k).1 < m.vert e (triEdge k).2)) hj).1
  have h2 := hm.edge_lt e he _ (triEdge_lt k).1 _ (triEdge_lt k).2.1 (triEdge_lt k).2.2
  have h3 : (m.edge (m.vert e (triEdge k).1) (m.vert e (triEdge k).2) + 1) * p ≤ m.ne * p :=
    Nat.mul_le_mul_right p h2
  rw [add_mul, one_mul] at h3
  omega

/-- Equal edge dofs: the same edge and the same dof of it. -/
theorem gd_edge_inj (m : Mesh) {p : ℕ} {c : Coll} (hc : sbpCollection p 2 = some c)
    {e k j e' k' j' : ℕ} (hk : k < 3) (hj : j < p) (hk' : k' < 3) (hj' : j' < p)
    (h : globalDof m c e (3 + k * p + j) = globalDof m c e' (3 + k' * p + j')) :
    m.edge (m.vert e (triEdge k).1) (m.vert e (triEdge k).2) =
      m.edge (m.vert e' (triEdge k').1) (m.vert e' (triEdge k').2) ∧
    (c.segOrder (decide (m.vert e (triEdge k).1 < m.vert e (triEdge k).2))).getD j 0 =
    (c.segOrder (decide (m.vert e' (triEdge k').1 < m.vert e' (triEdge k').2))).getD j' 0 := by
  rw [gd_edge m hc hk hj, gd_edge m hc hk' hj'] at h
  have h1 := (order_spec hc (decide (m.vert e (triEdge k).1 < m.vert e (triEdge k).2)) hj).1
  have h2 := (order_spec hc (decide (m.vert e' (triEdge k').1 < m.vert e' (triEdge k').2)) hj').1
  set A := m.edge (m.vert e (triEdge k).1) (m.vert e (triEdge k).2)
  set B := m.edge (m.vert e' (triEdge k').1) (m.vert e' (triEdge k').2)
  have hAB : A = B := by
    rcases lt_trichotomy A B with hh | hh | hh
    · have : (A + 1) * p ≤ B * p := Nat.mul_le_mul_right p hh
      rw [add_mul, one_mul] at this; omega
    · exact hh
    · have : (B + 1) * p ≤ A * p := Nat.mul_le_mul_right p hh
      rw [add_mul, one_mul] at this; omega
  refine ⟨hAB, ?_⟩
  rw [hAB] at h
  omega

/-- C206.  Continuous SBP space of any supported degree on any triangulation with straight edges:
whenever node `l` of triangle `e` and node `l'` of triangle `e'` are the same degree of freedom,
they are at the same physical point, up to `10^-15` of the extent of the two triangles (the digits
printed in the tables); vertex nodes coincide exactly. -/
theorem C206_single_valued (m : Mesh) (hm : m.WF) (X : ℕ → ℕ → K) {p : ℕ} {c : Coll}
    (hc : sbpCollection p 2 = some c) {e e' l l' : ℕ} (he : e < m.nt) (he' : e' < m.nt)
    (hl : l < c.triDof) (hl' : l' < c.triDof) (h : globalDof m c e l = globalDof m c e' l')
    (d : ℕ) (L : K) (hL : Extent m X e d L) (hL' : Extent m X e' d L) :
    |nodePos m X p e l d - nodePos m X p e' l' d| ≤ 1 / 10 ^ 15 * L ∧
    (l < 3 → nodePos m X p e l d = nodePos m X p e' l' d) := by
  obtain ⟨hp, h1, h2, h3, _, _⟩ := coll2 hc
  have hn := (tbl_size p hp).2.1
  have hL0 : 0 ≤ L := (abs_nonneg _).trans (hL 0 (by norm_num) 0 (by norm_num))
  have hpos : 0 ≤ 1 / 10 ^ 15 * L := by positivity
  have htd : c.triDof = 3 + 3 * p + c.dof .triangle := by
    unfold Coll.triDof; rw [h1, h2]; omega
  rcases local_cases p l with v | ⟨k, j, hk, hj, rfl⟩ | v
  · have r := hm.vert_lt e he l v
    have g := gd_vertex m hc (e := e) v
    rcases local_cases p l' with v' | ⟨k', j', hk', hj', rfl⟩ | v'
    · have g' := gd_vertex m hc (e := e') v'
      have : m.vert e l = m.vert e' l' := by rw [← g, ← g', h]
      have q : nodePos m X p e l d = nodePos m X p e' l' d := by
        rw [vertex_pos m X hp v, vertex_pos m X hp v', this]
      exact ⟨by rw [q, sub_self, abs_zero]; exact hpos, fun _ => q⟩
    · have := (gd_edge_range m hm hc he' hk' hj').1
      omega
    · have := gd_inner m hc (e := e') v'
      omega
  · have r := gd_edge_range m hm hc he hk hj
    rcases local_cases p l' with v' | ⟨k', j', hk', hj', rfl⟩ | v'
    · have g' := gd_vertex m hc (e := e') v'
      have := hm.vert_lt e' he' l' v'
      omega
    · refine ⟨?_, fun hc => absurd hc (by omega)⟩
      obtain ⟨hE, hi⟩ := gd_edge_inj m hc hk hj hk' hj' h
      have ab := hm.edge_inj e he _ (triEdge_lt k).1 _ (triEdge_lt k).2.1 (triEdge_lt k).2.2
        e' he' _ (triEdge_lt k').1 _ (triEdge_lt k').2.1 (triEdge_lt k').2.2 hE
      have c1 := edge_canonical m X hc hk hj hL _ _ rfl rfl
      have c2 := edge_canonical m X hc hk' hj' hL' _ _ rfl rfl
      rw [← hi] at c2
      set i := (c.segOrder (decide (m.vert e (triEdge k).1 < m.vert e (triEdge k).2))).getD j 0
      have mm : min (m.vert e (triEdge k).1) (m.vert e (triEdge k).2) =
          min (m.vert e' (triEdge k').1) (m.vert e' (triEdge k').2) ∧
          max (m.vert e (triEdge k).1) (m.vert e (triEdge k).2) =
          max (m.vert e' (triEdge k').1) (m.vert e' (triEdge k').2) := by
        rcases ab with ⟨x, y⟩ | ⟨x, y⟩
        · rw [x, y]; exact ⟨rfl, rfl⟩
        · rw [x, y]; exact ⟨min_comm _ _, max_comm _ _⟩
      rw [← mm.1, ← mm.2] at c2
      set T := X (min (m.vert e (triEdge k).1) (m.vert e (triEdge k).2)) d + sK K p i *
        (X (max (m.vert e (triEdge k).1) (m.vert e (triEdge k).2)) d -
          X (min (m.vert e (triEdge k).1) (m.vert e (triEdge k).2)) d)
      have tr := abs_sub_le (nodePos m X p e (3 + k * p + j) d) T (nodePos m X p e' (3 + k' * p + j') d)
      rw [abs_sub_comm T] at tr
      have q : (4 : K) / 10 ^ 16 * L + 4 / 10 ^ 16 * L ≤ 1 / 10 ^ 15 * L := by
        rw [← add_mul]; apply mul_le_mul_of_nonneg_right _ hL0; norm_num
      linarith
    · have := gd_inner m hc (e := e') v'
      omega
  · have g := gd_inner m hc (e := e) v
    refine ⟨?_, fun hc => absurd hc (by omega)⟩
    rcases local_cases p l' with v' | ⟨k', j', hk', hj', rfl⟩ | v'
    · have g' := gd_vertex m hc (e := e') v'
      have := hm.vert_lt e' he' l' v'
      omega
    · have := gd_edge_range m hm hc he' hk' hj'
      omega
    · have g' := gd_inner m hc (e := e') v'
      have q1 : l - (3 + 3 * p) < c.dof .triangle := by omega
      have q2 : l' - (3 + 3 * p) < c.dof .triangle := by omega
      have hee : e = e' := by
        rcases lt_trichotomy e e' with hh | hh | hh
        · have : (e + 1) * c.dof .triangle ≤ e' * c.dof .triangle := Nat.mul_le_mul_right _ hh
          rw [add_mul, one_mul] at this; omega
        · exact hh
        · have : (e' + 1) * c.dof .triangle ≤ e * c.dof .triangle := Nat.mul_le_mul_right _ hh
          rw [add_mul, one_mul] at this; omega
      subst hee
      have : l = l' := by omega
      rw [this, sub_self, abs_zero]
      exact hpos

/-- C206.  Two triangles that share an edge share every degree of freedom on it: each node of the
first triangle on the edge is a node of the second one on that edge. -/
theorem C206_conforming (m : Mesh) (hm : m.WF) {p : ℕ} {c : Coll} (hc : sbpCollection p 2 = some c)
    {e e' k k' : ℕ} (hk : k < 3) (hk' : k' < 3)
    (hE : (m.vert e (triEdge k).1 = m.vert e' (triEdge k').1 ∧
        m.vert e (triEdge k).2 = m.vert e' (triEdge k').2) ∨
      (m.vert e (triEdge k).1 = m.vert e' (triEdge k').2 ∧
        m.vert e (triEdge k).2 = m.vert e' (triEdge k').1)) {j : ℕ} (hj : j < p) :
    ∃ j' < p, globalDof m c e (3 + k * p + j) = globalDof m c e' (3 + k' * p + j') := by
  set o := c.segOrder (decide (m.vert e (triEdge k).1 < m.vert e (triEdge k).2)) with ho
  set o' := c.segOrder (decide (m.vert e' (triEdge k').1 < m.vert e' (triEdge k').2)) with ho'
  have h1 := (order_spec hc (decide (m.vert e (triEdge k).1 < m.vert e (triEdge k).2)) hj).1
  rw [← ho] at h1
  obtain ⟨h2, h3⟩ := order_spec hc (decide (m.vert e' (triEdge k').1 < m.vert e' (triEdge k').2)) h1
  rw [← ho'] at h2 h3
  refine ⟨o'.getD (o.getD j 0) 0, h2, ?_⟩
  rw [gd_edge m hc hk hj, gd_edge m hc hk' h2, ← ho, ← ho', h3]
  have : m.edge (m.vert e (triEdge k).1) (m.vert e (triEdge k).2) =
      m.edge (m.vert e' (triEdge k').1) (m.vert e' (triEdge k').2) := by
    rcases hE with ⟨x, y⟩ | ⟨x, y⟩
    · rw [x, y]
    · rw [x, y, hm.edge_comm]
  rw [this]

/-- C206.  Within one triangle different nodes are different degrees of freedom, every degree of
freedom is in range, and the element has as many nodes as its operators have rows. -/
theorem C206_element (m : Mesh) (hm : m.WF) {p : ℕ} {c : Coll} (hc : sbpCollection p 2 = some c)
    {e : ℕ} (he : e < m.nt) : c.triDof = (triTable p).n ∧
    (∀ l < c.triDof, globalDof m c e l < totalDofs m c) ∧
    ∀ l < c.triDof, ∀ l' < c.triDof, globalDof m c e l = globalDof m c e l' → l = l' := by
  obtain ⟨hp, h1, h2, h3, _, _⟩ := coll2 hc
  have hn := (tbl_size p hp).2.1
  have htd : c.triDof = 3 + 3 * p + c.dof .triangle := by
    unfold Coll.triDof; rw [h1, h2]; omega
  have htot : totalDofs m c = m.nv + m.ne * p + m.nt * c.dof .triangle := by
    unfold totalDofs; rw [h1, h2, mul_one]
  have hmul : (e + 1) * c.dof .triangle ≤ m.nt * c.dof .triangle := Nat.mul_le_mul_right _ he
  rw [add_mul, one_mul] at hmul
  refine ⟨by omega, ?_, ?_⟩
  · intro l hl
    rcases local_cases p l with v | ⟨k, j, hk, hj, rfl⟩ | v
    · have r := hm.vert_lt e he l v
      have g := gd_vertex m hc (e := e) v
      omega
    · have := gd_edge_range m hm hc he hk hj
      omega
    · have g := gd_inner m hc (e := e) v
      omega
  · intro l hl l' hl' h
    rcases local_cases p l with v | ⟨k, j, hk, hj, rfl⟩ | v
    · have r := hm.vert_lt e he l v
      have g := gd_vertex m hc (e := e) v
      rcases local_cases p l' with v' | ⟨k', j', hk', hj', rfl⟩ | v'
      · have g' := gd_vertex m hc (e := e) v'
        by_contra hne
        exact hm.vert_ne e he l v l' v' hne (by rw [← g, ← g', h])
      · have := (gd_edge_range m hm hc he hk' hj').1
        omega
      · have := gd_inner m hc (e := e) v'
        omega
    · have r := gd_edge_range m hm hc he hk hj
      rcases local_cases p l' with v' | ⟨k', j', hk', hj', rfl⟩ | v'
      · have g' := gd_vertex m hc (e := e) v'
        have := hm.vert_lt e he l' v'
        omega
      · obtain ⟨hE, hi⟩ := gd_edge_inj m hc hk hj hk' hj' h
        have ab := hm.edge_inj e he _ (triEdge_lt k).1 _ (triEdge_lt k).2.1 (triEdge_lt k).2.2
          e he _ (triEdge_lt k').1 _ (triEdge_lt k').2.1 (triEdge_lt k').2.2 hE
        have n01 := hm.vert_ne e he 0 (by norm_num) 1 (by norm_num) (by norm_num)
        have n02 := hm.vert_ne e he 0 (by norm_num) 2 (by norm_num) (by norm_num)
        have n12 := hm.vert_ne e he 1 (by norm_num) 2 (by norm_num) (by norm_num)
        have hkk : k = k' := by
          interval_cases k <;> interval_cases k' <;> simp only [triEdge] at ab <;> omega
        subst hkk
        set o := c.segOrder (decide (m.vert e (triEdge k).1 < m.vert e (triEdge k).2)) with ho
        have a1 := (order_spec hc (decide (m.vert e (triEdge k).1 < m.vert e (triEdge k).2)) hj).2
        have a2 := (order_spec hc (decide (m.vert e (triEdge k).1 < m.vert e (triEdge k).2)) hj').2
        rw [← ho] at a1 a2
        have : j = j' := by rw [← a1, ← a2, hi]
        rw [this]
      · have := gd_inner m hc (e := e) v'
        omega
    · have g := gd_inner m hc (e := e) v
      rcases local_cases p l' with v' | ⟨k', j', hk', hj', rfl⟩ | v'
      · have g' := gd_vertex m hc (e := e) v'
        have := hm.vert_lt e he l' v'
        omega
      · have := gd_edge_range m hm hc he hk' hj'
        omega
      · have g' := gd_inner m hc (e := e) v'
        omega

/-- C206.  Discontinuous space: the element has the same nodes, but triangles never share a degree
of freedom, and each triangle has a block of its own. -/
theorem C206_discontinuous (m : Mesh) {p : ℕ} {c : Coll} (hc : dsbpCollection p 2 = some c)
    {e e' l l' : ℕ} (hl : l < c.triDof) (hl' : l' < c.triDof) :
    c.triDof = (triTable p).n ∧ (e < m.nt → globalDof m c e l < totalDofs m c) ∧
    (globalDof m c e l = globalDof m c e' l' → e = e' ∧ l = l') := by
  have hp : p < 5 := by
    by_contra h
    have : p > 4 ∨ 2 ≠ 2 := Or.inl (by omega)
    rw [dsbpCollection, if_pos this] at hc
    exact absurd hc (by simp)
  have hd : c.dof .point = 0 ∧ c.dof .segment = 0 ∧ c.dof .triangle = (triTable p).n := by
    interval_cases p <;>
      (simp only [dsbpCollection, revOrd, triNodes] at hc
       norm_num at hc
       subst hc
       refine ⟨rfl, rfl, ?_⟩
       decide +kernel)
  obtain ⟨h1, h2, h3⟩ := hd
  have g : ∀ e l, globalDof m c e l = e * c.dof .triangle + l := fun e l => by
    unfold globalDof; simp [h1, h2]
  have t : c.triDof = c.dof .triangle := by unfold Coll.triDof; rw [h1, h2]; rfl
  have t' : totalDofs m c = m.nt * c.dof .triangle := by unfold totalDofs; rw [h1, h2]; omega
  refine ⟨by rw [t, h3], fun he => ?_, fun h => ?_⟩
  · rw [g, t']
    have : (e + 1) * c.dof .triangle ≤ m.nt * c.dof .triangle := Nat.mul_le_mul_right _ he
    rw [add_mul, one_mul] at this; omega
  · rw [g, g] at h
    have hee : e = e' := by
      rcases lt_trichotomy e e' with hh | hh | hh
      · have : (e + 1) * c.dof .triangle ≤ e' * c.dof .triangle := Nat.mul_le_mul_right _ hh
        rw [add_mul, one_mul] at this; omega
      · exact hh
      · have : (e' + 1) * c.dof .triangle ≤ e * c.dof .triangle := Nat.mul_le_mul_right _ hh
        rw [add_mul, one_mul] at this; omega
    subst hee
    exact ⟨rfl, by omega⟩

/-- C206.  Different nodes of an element are at different places: their reference coordinates
differ by at least `0.05`; all nodes lie in the reference triangle, the interior ones off its
boundary. -/
theorem C206_nodes {p : ℕ} (hp : p ≤ 4) {l l' : ℕ} (hl : l < (triTable p).n)
    (hl' : l' < (triTable p).n) :
    (l ≠ l' → 5 / 100 ≤ |(refCoord (triTable p) l 0 : K) - refCoord (triTable p) l' 0| ∨
      5 / 100 ≤ |(refCoord (triTable p) l 1 : K) - refCoord (triTable p) l' 1|) ∧
    0 ≤ (refCoord (triTable p) l 0 : K) ∧ 0 ≤ (refCoord (triTable p) l 1 : K) ∧
    (refCoord (triTable p) l 0 : K) + refCoord (triTable p) l 1 ≤ 1 ∧
    (3 + 3 * p ≤ l → 0 < (refCoord (triTable p) l 0 : K) ∧ 0 < (refCoord (triTable p) l 1 : K) ∧
      (refCoord (triTable p) l 0 : K) + refCoord (triTable p) l 1 < 1) := by
  have hp' : p < 5 := by omega
  obtain ⟨a, b, ab, inn⟩ := tbl_inside p hp' l hl
  have P : (0 : K) < 10 ^ 19 := by positivity
  simp only [ref_eq]
  have c1 : ∀ z : ℤ, 5 * 10 ^ 17 ≤ |z| → (5 : K) / 100 ≤ |(z : K)| / 10 ^ 19 := by
    intro z hz
    rw [le_div_iff₀ P, ← Int.cast_abs]
    have := (Int.cast_le (R := K)).2 hz
    push_cast at this ⊢
    linarith
  refine ⟨fun hne => ?_, ?_, ?_, ?_, fun h => ?_⟩
  · rcases tbl_distinct p hp' l hl l' hl' hne with h | h
    · left
      rw [← sub_div, abs_div, abs_of_pos P, ← Int.cast_sub]
      exact c1 _ h
    · right
      rw [← sub_div, abs_div, abs_of_pos P, ← Int.cast_sub]
      exact c1 _ h
  · exact div_nonneg (by exact_mod_cast a) P.le
  · exact div_nonneg (by exact_mod_cast b) P.le
  · rw [← add_div, div_le_one P]
    exact_mod_cast ab
  · obtain ⟨x, y, z⟩ := inn h
    refine ⟨div_pos (by exact_mod_cast (lt_of_lt_of_le (by norm_num) x)) P,
      div_pos (by exact_mod_cast (lt_of_lt_of_le (by norm_num) y)) P, ?_⟩
    rw [← add_div, div_lt_one P]
    have : zc p l 0 + zc p l 1 < 10 ^ 19 := lt_of_le_of_lt z (by norm_num)
    exact_mod_cast this

/-! ### Tetrahedra -/

/-- Owner of node `l` of the tetrahedron of degree `p`, aborting cases removed. -/
def tetOw (p l : ℕ) : List ℕ := ((sbpCollection p 3).bind fun c => tetOwner c l).getD []

theorem tet_table : ∀ p < 2, ∀ l < (tetTable p).n,
    ((sbpCollection p 3).bind fun c => tetOwner c l).isSome ∧ (tetOw p l).Nodup ∧
    (∀ i ∈ tetOw p l, i < 4) ∧ tetOw p l ≠ [] ∧
    ∀ d < 3, |(((tetTable p).x.getD d []).getD l 0) * ((tetOw p l).length : ℤ) -
      10 ^ 19 * (if d + 1 ∈ tetOw p l then 1 else 0)| ≤ 1000 * ((tetOw p l).length : ℤ) := by
  decide +kernel

theorem tet_sizes : ∀ p < 2, (sbpCollection p 3).map Coll.tetDof = some (tetTable p).n ∧
    (sbpCollection p 3).map Coll.triDof = (sbpCollection p 2).map Coll.triDof ∧
    (sbpCollection p 3).map (fun c => c.dof .tet) = some 0 ∧
    (sbpCollection p 3).map (fun c => c.fwd) = (sbpCollection p 3).map (fun c => c.rev) ∧
    (p = 1 → (sbpCollection p 3).bind (fun c => c.triOrd) = some (List.replicate 6 [0])) := by
  decide +kernel

/-- Sum of `f` over a list. -/
def lsum (f : ℕ → K) : List ℕ → K
  | [] => 0
  | a :: l => f a + lsum f l

omit [LinearOrder K] [IsStrictOrderedRing K] in
theorem lsum_perm {f : ℕ → K} {l l' : List ℕ} (h : l.Perm l') : lsum f l = lsum f l' := by
  induction h with
  | nil => rfl
  | cons a _ ih => simp only [lsum, ih]
  | swap a b l => simp only [lsum]; ring
  | trans _ _ h1 h2 => rw [h1, h2]

omit [LinearOrder K] [IsStrictOrderedRing K] in
theorem lsum_map (f : ℕ → K) (v : ℕ → ℕ) (l : List ℕ) : lsum f (l.map v) = lsum (fun i => f (v i)) l := by
  induction l with
  | nil => rfl
  | cons a l ih => simp only [lsum, List.map_cons, ih]

omit [LinearOrder K] [IsStrictOrderedRing K] in
/-- Barycentric form of a node: the sum over its owner's vertices. -/
theorem owner_sum (f : ℕ → K) (ow : List ℕ) (hn : ow.Nodup) (h4 : ∀ i ∈ ow, i < 4) :
    lsum f ow = ow.length * f 0 + ((if 1 ∈ ow then 1 else 0) * (f 1 - f 0) +
      (if 2 ∈ ow then 1 else 0) * (f 2 - f 0) + (if 3 ∈ ow then 1 else 0) * (f 3 - f 0)) := by
  induction ow with
  | nil => simp [lsum]
  | cons a l ih =>
    have hn' := List.nodup_cons.1 hn
    have ha := h4 a (by simp)
    have := ih hn'.2 (fun i hi => h4 i (by simp [hi]))
    simp only [lsum, this, List.length_cons]
    have hna := hn'.1
    interval_cases a <;> simp [hna] <;> ring

/-- C206.  Tetrahedra, both supported degrees: every node is at the average of the vertices of the
entity that owns it (vertex, edge or face), up to `10^-15` of the extent of the element. -/
theorem C206_tet_owner (X : ℕ → ℕ → K) {p : ℕ} {c : Coll} (hc : sbpCollection p 3 = some c)
    {l : ℕ} (hl : l < c.tetDof) (v : ℕ → ℕ) (d : ℕ) (L : K)
    (hL : ∀ i < 4, |X (v i) d - X (v 0) d| ≤ L) :
    ∃ ow, tetOwner c l = some ow ∧ ow.Nodup ∧ ow ≠ [] ∧ (∀ i ∈ ow, i < 4) ∧
      |tetNodePos X p v l d - lsum (fun w => X w d) (ow.map v) / ow.length| ≤ 3 / 10 ^ 16 * L := by
  have hp : p < 2 := by
    have := (C206_constructible p 3).1
    rw [hc] at this
    have := this.1 rfl
    omega
  have hs := (tet_sizes p hp).1
  rw [hc] at hs
  simp only [Option.map_some, Option.some.injEq] at hs
  obtain ⟨h1, h2, h3, h4, h5⟩ := tet_table p hp l (by omega)
  obtain ⟨ow, how⟩ : ∃ ow, ow = tetOw p l := ⟨_, rfl⟩
  have h1 : tetOwner c l = some ow := by
    rw [hc] at h1
    obtain ⟨w, hw⟩ := Option.isSome_iff_exists.1 h1
    rw [how, tetOw, hc, hw]
    exact hw
  rw [← how] at h2 h3 h4 h5
  refine ⟨ow, h1, h2, h4, h3, ?_⟩
  have hlen : (0 : K) < ow.length := by
    have : 0 < ow.length := List.length_pos_of_ne_nil h4
    exact_mod_cast this
  rw [lsum_map, owner_sum (fun i => X (v i) d) ow h2 h3, add_div, mul_comm, mul_div_assoc,
    div_self hlen.ne', mul_one]
  have key : ∀ d' < 3, |refCoord (tetTable p) l d' - (if d' + 1 ∈ ow then 1 else 0) / (ow.length : K)| ≤
      1 / 10 ^ 16 := by
    intro d' hd'
    have h := h5 d' hd'
    have h := (Int.cast_le (R := K)).2 h
    rw [Int.cast_abs] at h
    have e : refCoord (tetTable p) l d' - (if d' + 1 ∈ ow then 1 else 0) / (ow.length : K) =
        (((((tetTable p).x.getD d' []).getD l 0) * ow.length -
          10 ^ 19 * (if d' + 1 ∈ ow then 1 else 0) : ℤ) : K) / (10 ^ 19 * ow.length) := by
      unfold refCoord
      push_cast
      field_simp
      ring
    rw [e, abs_div, abs_of_pos (by positivity : (0 : K) < 10 ^ 19 * ow.length),
      div_le_iff₀ (by positivity)]
    refine h.trans (le_of_eq ?_)
    push_cast
    ring
  have k0 := key 0 (by norm_num)
  have k1 := key 1 (by norm_num)
  have k2 := key 2 (by norm_num)
  unfold tetNodePos
  set x := (refCoord (tetTable p) l 0 : K)
  set y := (refCoord (tetTable p) l 1 : K)
  set z := (refCoord (tetTable p) l 2 : K)
  set x' : K := (if 0 + 1 ∈ ow then 1 else 0) / (ow.length : K) with hx'
  set y' : K := (if 1 + 1 ∈ ow then 1 else 0) / (ow.length : K) with hy'
  set z' : K := (if 2 + 1 ∈ ow then 1 else 0) / (ow.length : K) with hz'
  have e : (X (v 0) d + x * (X (v 1) d - X (v 0) d) + y * (X (v 2) d - X (v 0) d) +
      z * (X (v 3) d - X (v 0) d)) - (X (v 0) d + ((if 1 ∈ ow then 1 else 0) * (X (v 1) d - X (v 0) d) +
        (if 2 ∈ ow then 1 else 0) * (X (v 2) d - X (v 0) d) +
        (if 3 ∈ ow then 1 else 0) * (X (v 3) d - X (v 0) d)) / ow.length) =
      (x - x') * (X (v 1) d - X (v 0) d) + (y - y') * (X (v 2) d - X (v 0) d) +
        (z - z') * (X (v 3) d - X (v 0) d) := by
    rw [hx', hy', hz']
    ring
  rw [e]
  have m1 := mul_le_mul k0 (hL 1 (by norm_num)) (abs_nonneg _) (by positivity)
  have m2 := mul_le_mul k1 (hL 2 (by norm_num)) (abs_nonneg _) (by positivity)
  have m3 := mul_le_mul k2 (hL 3 (by norm_num)) (abs_nonneg _) (by positivity)
  have a1 := abs_add_le ((x - x') * (X (v 1) d - X (v 0) d) + (y - y') * (X (v 2) d - X (v 0) d))
    ((z - z') * (X (v 3) d - X (v 0) d))
  have a2 := abs_add_le ((x - x') * (X (v 1) d - X (v 0) d)) ((y - y') * (X (v 2) d - X (v 0) d))
  rw [abs_mul] at a1
  rw [abs_mul, abs_mul] at a2
  have q : (3 : K) / 10 ^ 16 * L = 1 / 10 ^ 16 * L + 1 / 10 ^ 16 * L + 1 / 10 ^ 16 * L := by ring
  rw [q]
  linarith

/-- C206.  Hence two tetrahedra that share a vertex, an edge or a face -- with any relative
orientation or rotation -- have the node owned by it at the same place. -/
theorem C206_tet_single_valued (X : ℕ → ℕ → K) {p : ℕ} {c : Coll} (hc : sbpCollection p 3 = some c)
    {l l' : ℕ} (hl : l < c.tetDof) (hl' : l' < c.tetDof) (v v' : ℕ → ℕ) {ow ow' : List ℕ}
    (ho : tetOwner c l = some ow) (ho' : tetOwner c l' = some ow')
    (hsame : (ow.map v).Perm (ow'.map v')) (d : ℕ) (L : K)
    (hL : ∀ i < 4, |X (v i) d - X (v 0) d| ≤ L) (hL' : ∀ i < 4, |X (v' i) d - X (v' 0) d| ≤ L) :
    |tetNodePos X p v l d - tetNodePos X p v' l' d| ≤ 1 / 10 ^ 15 * L := by
  obtain ⟨w, h1, _, _, _, h5⟩ := C206_tet_owner X hc hl v d L hL
  obtain ⟨w', h1', _, _, _, h5'⟩ := C206_tet_owner X hc hl' v' d L hL'
  rw [ho] at h1
  rw [ho'] at h1'
  cases h1
  cases h1'
  have hlen : ow.length = ow'.length := by simpa using hsame.length_eq
  rw [← lsum_perm hsame, ← hlen] at h5'
  have hL0 : 0 ≤ L := (abs_nonneg _).trans (hL 0 (by norm_num))
  have tr := abs_sub_le (tetNodePos X p v l d) (lsum (fun w => X w d) (ow.map v) / ow.length)
    (tetNodePos X p v' l' d)
  rw [abs_sub_comm (lsum (fun w => X w d) (ow.map v) / (ow.length : K))] at tr
  have q : (3 : K) / 10 ^ 16 * L + 3 / 10 ^ 16 * L ≤ 1 / 10 ^ 15 * L := by
    rw [← add_mul]; apply mul_le_mul_of_nonneg_right _ hL0; norm_num
  linarith

/-- C206.  Sizes in three dimensions: the tetrahedron has as many nodes as its operators have rows,
no node is strictly interior, its faces are the triangles of the two-dimensional collection, and
the orientation of an edge or a face does not matter (one dof at most on each). -/
theorem C206_tet_sizes {p : ℕ} {c : Coll} (hc : sbpCollection p 3 = some c) :
    c.tetDof = (tetTable p).n ∧ c.dof .tet = 0 ∧ c.fwd = c.rev ∧
    (∀ c2, sbpCollection p 2 = some c2 → c.triDof = c2.triDof) ∧
    (0 < c.dof .triangle → ∃ o, c.triOrd = some o ∧ o.length = 6 ∧ ∀ r ∈ o, r = [0]) := by
  have hp : p < 2 := by
    have := (C206_constructible p 3).1
    rw [hc] at this
    have := this.1 rfl
    omega
  obtain ⟨h1, h2, h3, h4, h5⟩ := tet_sizes p hp
  rw [hc] at h1 h2 h3 h4 h5
  simp only [Option.map_some, Option.some.injEq, Option.bind_some] at h1 h3 h4 h5
  refine ⟨h1, h3, h4, fun c2 e => ?_, fun hpos => ?_⟩
  · rw [e] at h2
    simpa using h2
  · have hp1 : p = 1 := by
      by_contra hne
      have : p = 0 := by omega
      subst this
      have e0 : (sbpCollection 0 3).map (fun c => c.dof .triangle) = some 0 := by decide
      rw [hc] at e0
      simp at e0
      omega
    exact ⟨_, h5 hp1, by simp, fun r hr => (List.mem_replicate.1 hr).2⟩

/-! ### C207: boundary segments -/

/-- C207 (the documented claim, sbp_fe.cpp:340-341: the segment element has an "ordering consistent
with SBPTriangleElement's edges").  For degrees 0, 1 and 2 the node of a boundary segment and the
node of the adjacent triangle that are the same degree of freedom are at the same point: here the
boundary segment runs along local edge `k` of triangle `e`, and the Lobatto points are those the
tables were computed from (`pts 1` is `1/2` for `p = 1` and the printed inner node for `p = 2`). -/
theorem C207_boundary_partial (m : Mesh) (X : ℕ → ℕ → K) {p : ℕ} (hp2 : p ≤ 2) {c : Coll}
    (hc : sbpCollection p 2 = some c) (pts : ℕ → K) (h0 : pts 0 = 0) (hN : pts (p + 1) = 1)
    (h1 : 1 ≤ p → |pts 1 - refCoord (triTable p) 3 0| ≤ 1 / 10 ^ 16) {e k j : ℕ} (hk : k < 3)
    (hj : j < p) (d : ℕ) (L : K) (hL : Extent m X e d L) (a b : ℕ)
    (ha : a = m.vert e (triEdge k).1) (hb : b = m.vert e (triEdge k).2) :
    bdrDof m c a b (2 + j) = globalDof m c e (3 + k * p + j) ∧
    |bdrNodePos X p pts a b (2 + j) d - nodePos m X p e (3 + k * p + j) d| ≤ 1 / 10 ^ 15 * L ∧
    bdrNodePos X p pts a b 0 d = X a d ∧ bdrNodePos X p pts a b 1 d = X b d := by
  obtain ⟨hp, _, hs, _, _, _⟩ := coll2 hc
  have hab : |X b d - X a d| ≤ L := by
    rw [ha, hb]; exact hL _ (triEdge_lt k).2.1 _ (triEdge_lt k).1
  have hL0 : 0 ≤ L := (abs_nonneg _).trans hab
  refine ⟨?_, ?_, by simp [bdrNodePos, segNode, h0], by simp [bdrNodePos, segNode, hN]⟩
  · rw [gd_edge m hc hk hj, ← ha, ← hb]
    unfold bdrDof
    rw [if_neg (by omega), if_neg (by omega), hs, Nat.add_sub_cancel_left]
  · have hloc := edge_local m X (k := k) hp hk hj hL
    rw [← ha, ← hb] at hloc
    have hseg : |segNode p pts (2 + j) - sK K p j| ≤ 2 / 10 ^ 16 := by
      have h1 := h1 (by omega)
      have hp' : p = 1 ∨ p = 2 := by omega
      rcases hp' with rfl | rfl
      · have : j = 0 := by omega
        subst this
        have e1 : segNode 1 pts (2 + 0) = pts 1 := by simp [segNode]
        rw [e1]
        exact h1.trans (by norm_num)
      · interval_cases j
        · have e1 : segNode 2 pts (2 + 0) = pts 1 := by simp [segNode]
          rw [e1]
          exact h1.trans (by norm_num)
        · have e1 : segNode 2 pts (2 + 1) = 1 - pts 1 := by simp [segNode]
          rw [e1]
          have z0 : zs 2 0 = 2763932022500210600 := by decide +kernel
          have z1 : zs 2 1 = 7236067977499789000 := by decide +kernel
          have r0 : (refCoord (triTable 2) 3 0 : K) = (zs 2 0 : K) / 10 ^ 19 := rfl
          rw [r0, z0] at h1
          rw [sK, z1]
          push_cast at h1 ⊢
          rw [abs_le] at h1 ⊢
          constructor <;> linarith [h1.1, h1.2]
    have e1 : bdrNodePos X p pts a b (2 + j) d - nodePos m X p e (3 + k * p + j) d =
        (segNode p pts (2 + j) - sK K p j) * (X b d - X a d) -
        (nodePos m X p e (3 + k * p + j) d - (X a d + sK K p j * (X b d - X a d))) := by
      unfold bdrNodePos; ring
    rw [e1]
    refine (abs_sub _ _).trans ?_
    rw [abs_mul]
    have m1 := mul_le_mul hseg hab (abs_nonneg _) (by positivity)
    have q : (2 : K) / 10 ^ 16 * L + 2 / 10 ^ 16 * L ≤ 1 / 10 ^ 15 * L := by
      rw [← add_mul]; apply mul_le_mul_of_nonneg_right _ hL0; norm_num
    linarith

/-- The mesh that is one triangle. -/
def oneTri : Mesh where
  nv := 3
  ne := 3
  nt := 1
  vert := fun _ i => i
  edge := fun a b => a + b - 1

/-- Its vertices: `(0,0), (1,0), (0,1)`. -/
def oneTriX (v d : ℕ) : ℚ := if v = d + 1 then 1 else 0

theorem oneTri_wf : oneTri.WF where
  vert_lt := by decide
  vert_ne := by decide
  edge_lt := by decide
  edge_comm := by intro a b; simp [oneTri, add_comm]
  edge_inj := by
    intro e _ i hi j hj hij e' _ i' hi' j' hj' hij' h
    simp only [oneTri] at h ⊢
    omega

/-- C207 fails for degrees 3 and 4.  Whatever the (increasing) Lobatto points are, there is a
boundary segment of the reference triangle with a node whose degree of freedom sits somewhere else
-- more than a tenth of the edge away -- in the triangle. -/
theorem C207_boundary_false (p : ℕ) (hp : p = 3 ∨ p = 4) (pts : ℕ → ℚ)
    (hinc : pts 1 < pts 2) (hhalf : pts 2 ≤ 1 / 2) :
    ∃ c, sbpCollection p 2 = some c ∧ ∃ (m : Mesh) (X : ℕ → ℕ → ℚ) (j : ℕ), m.WF ∧ j < p ∧
      bdrDof m c 0 1 (2 + j) = globalDof m c 0 (3 + j) ∧
      1 / 10 < |bdrNodePos X p pts 0 1 (2 + j) 0 - nodePos m X p 0 (3 + j) 0| := by
  obtain ⟨c, hc⟩ := Option.isSome_iff_exists.1 ((C206_constructible p 2).1.2 (by omega))
  obtain ⟨_, _, hs, _, _, _⟩ := coll2 hc
  refine ⟨c, hc, oneTri, oneTriX, ?_⟩
  have hdof : ∀ j, j < p → bdrDof oneTri c 0 1 (2 + j) = globalDof oneTri c 0 (3 + j) := by
    intro j hj
    have := gd_edge oneTri hc (e := 0) (k := 0) (by norm_num) hj
    rw [show 3 + 0 * p + j = 3 + j by omega] at this
    rw [this]
    unfold bdrDof
    rw [if_neg (by omega), if_neg (by omega), hs, Nat.add_sub_cancel_left]
    rfl
  have hbp : ∀ l, bdrNodePos oneTriX p pts 0 1 l 0 = segNode p pts l := by
    intro l; simp [bdrNodePos, oneTriX]
  have hnp : ∀ l, nodePos oneTri oneTriX p 0 l 0 = (zc p l 0 : ℚ) / 10 ^ 19 := by
    intro l; simp [nodePos, oneTri, oneTriX, ref_eq]
  by_contra hcon
  have hcon : ∀ j < p, |segNode p pts (2 + j) - (zc p (3 + j) 0 : ℚ) / 10 ^ 19| ≤ 1 / 10 := by
    intro j hj
    by_contra hh
    refine hcon ⟨j, oneTri_wf, hj, hdof j hj, ?_⟩
    rw [hbp, hnp]
    exact not_le.1 hh
  rcases hp with rfl | rfl
  · have a0 := hcon 0 (by norm_num)
    have a1 := hcon 1 (by norm_num)
    have s0 : segNode 3 pts (2 + 0) = pts 1 := by simp [segNode]
    have s1 : segNode 3 pts (2 + 1) = 1 - pts 1 := by simp [segNode]
    have z0 : zc 3 (3 + 0) 0 = 5000000000000000000 := by decide +kernel
    have z1 : zc 3 (3 + 1) 0 = 1726731646460114600 := by decide +kernel
    rw [s0, z0, abs_le] at a0
    rw [s1, z1, abs_le] at a1
    push_cast at a0 a1
    linarith [a0.1, a0.2, a1.1, a1.2]
  · have a0 := hcon 0 (by norm_num)
    have a2 := hcon 2 (by norm_num)
    have s0 : segNode 4 pts (2 + 0) = pts 1 := by simp [segNode]
    have s2 : segNode 4 pts (2 + 2) = pts 2 := by simp [segNode]
    have z0 : zc 4 (3 + 0) 0 = 3573842417596775340 := by decide +kernel
    have z2 : zc 4 (3 + 2) 0 = 1174723380352675760 := by decide +kernel
    rw [s0, z0, abs_le] at a0
    rw [s2, z2, abs_le] at a2
    push_cast at a0 a2
    linarith [a0.1, a0.2, a2.1, a2.2]

/-! ### Non-vacuity -/

/-- Two triangles `(0,1,2)` and `(1,2,3)`-rotated that see their common edge in opposite directions. -/
def twoTri : Mesh where
  nv := 4
  ne := 5
  nt := 2
  vert := fun e i => if e = 0 then i else if i = 0 then 3 else if i = 1 then 2 else 1
  edge := fun a b => a + b - 1

example : twoTri.WF where
  vert_lt := by decide
  vert_ne := by decide
  edge_lt := by decide
  edge_comm := by intro a b; simp [twoTri, add_comm]
  edge_inj := by
    intro e he i hi j hj hij e' he' i' hi' j' hj' hij' h
    have h1 : e < 2 := he
    have h2 : e' < 2 := he'
    interval_cases e <;> interval_cases e' <;> interval_cases i <;> interval_cases j <;>
      interval_cases i' <;> interval_cases j' <;> simp [twoTri] at hij hij' h ⊢

/-- At degree 4 the four inner nodes of the common edge appear in a different order in the two
triangles, at the same points. -/
example : (sbpCollection 4 2).map (fun c => (List.range 4).map fun j => globalDof twoTri c 0 (3 + 4 + j)) =
    some [12, 13, 14, 15] ∧
    (sbpCollection 4 2).map (fun c => (List.range 4).map fun j => globalDof twoTri c 1 (3 + 4 + j)) =
    some [13, 12, 15, 14] := by decide

end Verif.SbpColl
