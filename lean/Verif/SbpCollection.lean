import Verif.SbpData

/-!
# The SBP finite-element collections

Model of `SBPCollection` and `DSBPCollection` (/repo/src/common/sbp_fe.cpp:1127-1481,
/repo/src/common/sbp_fe.hpp:274-347): which mesh entity owns how many degrees of freedom, in which
order an element sees the degrees of freedom of an edge, and where (in the reference element) the
nodes sit.

MFEM itself is not in the sandbox.  What is assumed of it (and modelled here) is its documented
numbering: vertex dofs first, then the dofs of edge after edge, (then of face after face), then the
interior dofs of element after element; local edges of a triangle `{0,1},{1,2},{2,0}`, local edges
of a tetrahedron `{0,1},{0,2},{0,3},{1,2},{1,3},{2,3}`, its local faces
`{1,2,3},{0,3,2},{0,1,3},{0,2,1}`; orientation of an edge in an element is `+1` if the first local
vertex has the smaller global number, `-1` otherwise; position `j` on a local edge is dof
`DofOrderForOrientation(SEGMENT, orientation)[j]` of that edge.
-/

namespace Verif.SbpColl

open Verif.Sbp (Table tri0 tri1 tri2 tri3 tri4 tet0 tet1)

/-- `mfem::Geometry::Type`: the values the collections distinguish (`other`: squares, cubes, ...). sbp_fe.cpp:1298-1326. -/
inductive Geom where
  /-- POINT -/
  | point
  /-- SEGMENT -/
  | segment
  /-- TRIANGLE -/
  | triangle
  /-- TETRAHEDRON -/
  | tet
  /-- anything else -/
  | other
  deriving DecidableEq, Repr

/-- Nodes of the triangle element of degree `p`; `none`: `mfem_error`.
sbp_fe.cpp:1225-1246 (and 1429-1450). -/
def triNodes : ℕ → Option ℕ
  | 0 => some 3
  | 1 => some 7
  | 2 => some 12
  | 3 => some 18
  | 4 => some 27
  | _ => none

/-- Nodes of the tetrahedral element of degree `p`; `none`: `mfem_error`. sbp_fe.cpp:1275-1287. -/
def tetNodes : ℕ → Option ℕ
  | 0 => some 4
  | 1 => some 14
  | _ => none

/-- `SegDofOrd[1]`, the order of the nodes of a reversed edge; `none`: `mfem_error`.
sbp_fe.cpp:1168-1172, 1174-1219 (identical in `DSBPCollection`, 1371-1424). -/
def revOrd : ℕ → Option (List ℕ)
  | 0 => some []
  | 1 => some [0]
  | 2 => some [1, 0]
  | 3 => some [0, 2, 1]
  | 4 => some [1, 0, 3, 2]
  | _ => none

/-- A constructed collection: `SBPdof` and `SegDofOrd` (sbp_fe.hpp:281-284, 309-312).  `triOrd`: the
six tables `TriDofOrd` if they are filled in (only for `p = 1`, sbp_fe.cpp:1252-1270). -/
structure Coll where
  /-- degrees of freedom interior to an entity of each geometry -/
  dof : Geom → ℕ
  /-- node order of an edge with positive orientation -/
  fwd : List ℕ
  /-- node order of an edge with negative orientation -/
  rev : List ℕ
  /-- node order of a face in each of the six orientations -/
  triOrd : Option (List (List ℕ))
  /-- whether neighbouring elements share the dofs on their common boundary (`GetContType`) -/
  continuous : Bool

/-- `SBPCollection(p, dim)`; `none`: the constructor aborts (`MFEM_VERIFY`, `mfem_error`).
For `dim = 0` the segment tables stay null pointers (empty lists here). sbp_fe.cpp:1127-1296. -/
def sbpCollection (p dim : ℕ) : Option Coll :=
  if p > 4 ∨ dim > 3 then none
  else do
    let rev ← revOrd p
    let nt ← triNodes p
    let ntet ← if dim ≥ 3 then tetNodes p else some 0
    let tri := nt - 3 - 3 * p
    some
      { dof := fun
          | .point => 1
          | .segment => if dim ≥ 1 then p else 0
          | .triangle => if dim ≥ 2 then tri else 0
          | .tet => if dim ≥ 3 then ntet - 4 - 6 * p - 4 * tri else 0
          | .other => 0
        fwd := if dim ≥ 1 then List.range p else []
        rev := if dim ≥ 1 then rev else []
        triOrd := if dim ≥ 2 ∧ p = 1 then some [[0], [0], [0], [0], [0], [0]] else none
        continuous := true }

/-- `DSBPCollection(p, dim)`; only triangles, and all nodes are interior to the element.  (The
entries of `DSBPdof` for tetrahedra, squares, ... are never initialised; `0` here.)
sbp_fe.cpp:1339-1459. -/
def dsbpCollection (p dim : ℕ) : Option Coll :=
  if p > 4 ∨ dim ≠ 2 then none
  else do
    let rev ← revOrd p
    let nt ← triNodes p
    some
      { dof := fun
          | .triangle => nt
          | _ => 0
        fwd := List.range p
        rev := rev
        triOrd := none
        continuous := false }

/-- `DofOrderForOrientation(SEGMENT, or)`: `(Or > 0) ? SegDofOrd[0] : SegDofOrd[1]`.
sbp_fe.cpp:1314-1326 and 1461-1469. -/
def Coll.segOrder (c : Coll) (aligned : Bool) : List ℕ := if aligned then c.fwd else c.rev

/-- Node table of the triangle of degree `p`. sbp_fe.cpp:655-812. -/
def triTable : ℕ → Table
  | 0 => tri0
  | 1 => tri1
  | 2 => tri2
  | 3 => tri3
  | _ => tri4

/-- Node table of the tetrahedron of degree `p`. sbp_fe.cpp:917-988. -/
def tetTable : ℕ → Table
  | 0 => tet0
  | _ => tet1

/-- A mesh of triangles: the vertex numbers of each triangle and the numbering of the edges
(`edge a b` is the number of the edge between vertices `a` and `b`).  MFEM data, see above. MFEM mesh (not in /repo), see sbp_fe.cpp:1298-1326. -/
structure Mesh where
  /-- number of vertices -/
  nv : ℕ
  /-- number of edges -/
  ne : ℕ
  /-- number of triangles -/
  nt : ℕ
  /-- vertex `i < 3` of triangle `e` -/
  vert : ℕ → ℕ → ℕ
  /-- number of the edge between two vertices -/
  edge : ℕ → ℕ → ℕ

/-- End points of the local edges of a triangle (MFEM: `{0,1},{1,2},{2,0}`). Order of the edge dofs built at sbp_fe.cpp:1225-1250. -/
def triEdge : ℕ → ℕ × ℕ
  | 0 => (0, 1)
  | 1 => (1, 2)
  | _ => (2, 0)

/-- Global dof of local node `l` of triangle `e` (`FiniteElementSpace::GetElementDofs` with the
counts and orders of the collection, see the header). Uses the counts of sbp_fe.cpp:1127-1250. -/
def globalDof (m : Mesh) (c : Coll) (e l : ℕ) : ℕ :=
  let np := c.dof .point
  let ns := c.dof .segment
  let nb := c.dof .triangle
  if l < 3 * np then m.vert e (l / np) * np + l % np
  else if l < 3 * np + 3 * ns then
    let k := (l - 3 * np) / ns
    let j := (l - 3 * np) % ns
    let a := m.vert e (triEdge k).1
    let b := m.vert e (triEdge k).2
    m.nv * np + m.edge a b * ns + (c.segOrder (decide (a < b))).getD j 0
  else m.nv * np + m.ne * ns + e * nb + (l - 3 * np - 3 * ns)

/-- Number of local nodes of a triangle (sbp_fe.cpp:1248-1250, 1451-1453). -/
def Coll.triDof (c : Coll) : ℕ := c.dof .triangle + 3 * c.dof .point + 3 * c.dof .segment

/-- Number of local nodes of a tetrahedron (sbp_fe.cpp:1289-1292). -/
def Coll.tetDof (c : Coll) : ℕ :=
  c.dof .tet + 4 * c.dof .point + 4 * c.dof .triangle + 6 * c.dof .segment

/-- Number of dofs of the space on the mesh (scalar). Uses the counts of sbp_fe.cpp:1127-1250. -/
def totalDofs (m : Mesh) (c : Coll) : ℕ :=
  m.nv * c.dof .point + m.ne * c.dof .segment + m.nt * c.dof .triangle

variable {K : Type*} [Field K]

/-- Reference coordinate `d` of node `l` of a table. sbp_fe.cpp:655-812, 917-988. -/
def refCoord (t : Table) (l d : ℕ) : K := (((t.x.getD d []).getD l 0 : ℤ) : K) / 10 ^ 19

/-- Coordinate `d` of node `l` of the (straight-sided) triangle `e`, degree `p`, with `X v` the
position of vertex `v`: the affine map of the reference triangle `(0,0),(1,0),(0,1)`. Nodes of sbp_fe.cpp:655-812. -/
def nodePos (m : Mesh) (X : ℕ → ℕ → K) (p e l d : ℕ) : K :=
  X (m.vert e 0) d + refCoord (triTable p) l 0 * (X (m.vert e 1) d - X (m.vert e 0) d) +
    refCoord (triTable p) l 1 * (X (m.vert e 2) d - X (m.vert e 0) d)

/-- Node positions of `SBPSegmentElement(p)` on `[0, 1]`, given the Lobatto points `pts` (already
shifted to `[0, 1]`, in increasing order): the end points, then the inner points in pairs from the
outside in, the midpoint last. sbp_fe.cpp:344-378. -/
def segNode (p : ℕ) (pts : ℕ → K) (i : ℕ) : K :=
  let n := p + 2
  if i = 0 then pts 0
  else if i = 1 then pts (n - 1)
  else if n % 2 = 1 ∧ i = n - 1 then pts ((n - 1) / 2)
  else if i % 2 = 0 then pts (i / 2)
  else 1 - pts (i / 2)

/-- Global dof of local node `l` of the boundary segment from vertex `a` to vertex `b`
(`FiniteElementSpace::GetBdrElementDofs`): the two vertices, then the edge. Uses the counts of sbp_fe.cpp:1168-1219. -/
def bdrDof (m : Mesh) (c : Coll) (a b l : ℕ) : ℕ :=
  if l = 0 then a
  else if l = 1 then b
  else m.nv + m.edge a b * c.dof .segment + (c.segOrder (decide (a < b))).getD (l - 2) 0

/-- Coordinate `d` of node `l` of the boundary segment from vertex `a` to vertex `b`. Nodes of sbp_fe.cpp:344-378. -/
def bdrNodePos (X : ℕ → ℕ → K) (p : ℕ) (pts : ℕ → K) (a b l d : ℕ) : K :=
  X a d + segNode p pts l * (X b d - X a d)

/-- End points of the local edges of a tetrahedron (MFEM). Order of the nodes of sbp_fe.cpp:917-988. -/
def tetEdge : ℕ → List ℕ
  | 0 => [0, 1]
  | 1 => [0, 2]
  | 2 => [0, 3]
  | 3 => [1, 2]
  | 4 => [1, 3]
  | _ => [2, 3]

/-- Vertices of the local faces of a tetrahedron (MFEM). Order of the nodes of sbp_fe.cpp:917-988. -/
def tetFace : ℕ → List ℕ
  | 0 => [1, 2, 3]
  | 1 => [0, 3, 2]
  | 2 => [0, 1, 3]
  | _ => [0, 2, 1]

/-- The vertices of the entity that owns local node `l` of a tetrahedron: vertices, then edges
(`DofForGeometry(SEGMENT)` nodes each), then faces, in the MFEM order; `none`: interior. sbp_fe.cpp:1275-1292. -/
def tetOwner (c : Coll) (l : ℕ) : Option (List ℕ) :=
  let ns := c.dof .segment
  let nf := c.dof .triangle
  if l < 4 then some [l]
  else if l < 4 + 6 * ns then some (tetEdge ((l - 4) / ns))
  else if l < 4 + 6 * ns + 4 * nf then some (tetFace ((l - 4 - 6 * ns) / nf))
  else none

/-- Coordinate `d` of node `l` of the straight-sided tetrahedron with vertices `v 0, ..., v 3` at
positions `X (v i)`, degree `p`. Nodes of sbp_fe.cpp:917-988. -/
def tetNodePos (X : ℕ → ℕ → K) (p : ℕ) (v : ℕ → ℕ) (l d : ℕ) : K :=
  X (v 0) d + refCoord (tetTable p) l 0 * (X (v 1) d - X (v 0) d) +
    refCoord (tetTable p) l 1 * (X (v 2) d - X (v 0) d) +
    refCoord (tetTable p) l 2 * (X (v 3) d - X (v 0) d)

end Verif.SbpColl
