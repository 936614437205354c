import Mathlib.Data.Int.Notation
import Mathlib.Logic.Function.Basic
import Mathlib.Data.List.Basic

/-!
# Surface extraction (`src/common/surface_def.hpp:27-157`)

The boundary elements of the volume mesh are a list of (attribute, vertex numbers); the marker array is a predicate on attributes (the array access `bdr_attr_marker[attr-1]` is assumed in range).
-/

namespace Verif.SurfaceMesh

/-- A boundary element (`GetAttribute`, `GetVertices`). surface_def.hpp:40-58. -/
structure BE where
  attr : ℕ
  verts : List ℕ

/-- First loop (`surface_def.hpp:40-58`): `v2v = -1`, then `v2v[v] = 0` for every vertex of every selected element. -/
def mark (marker : ℕ → Bool) (nv : ℕ) (els : List BE) : List ℤ :=
  els.foldl (fun a e => if marker e.attr then e.verts.foldl (fun a v => a.set v 0) a else a) (List.replicate nv (-1))

/-- Second loop (`surface_def.hpp:60-67`): `if (v2v[i] == 0) v2v[i] = nbvt++`. -/
def number : ℕ → List ℤ → List ℤ
  | _, [] => []
  | c, x :: xs => if x = 0 then (c : ℤ) :: number (c + 1) xs else x :: number c xs

/-- `v2v` after both loops. surface_def.hpp:40-67. -/
def v2v (marker : ℕ → Bool) (nv : ℕ) (els : List BE) : List ℤ := number 0 (mark marker nv els)

/-- Vertex copy (`surface_def.hpp:73-83`): `AddVertex` for every `i` with `v2v[i] >= 0`. -/
def copyVerts {P : Type} : List ℤ → List P → List P
  | x :: xs, p :: ps => if 0 ≤ x then p :: copyVerts xs ps else copyVerts xs ps
  | _, _ => []

/-- Element copy (`surface_def.hpp:85-121`): attribute kept, vertices through `v2v` (`AddSegment`; triangles and quads alike). -/
def copyElems (marker : ℕ → Bool) (m : List ℤ) (els : List BE) : List (ℕ × List ℤ) :=
  (els.filter (fun e => marker e.attr)).map (fun e => (e.attr, e.verts.map (fun v => m.getD v (-1))))

/-- The extracted surface mesh before nodes are copied. surface_def.hpp:27-121. -/
def surface {P : Type} (marker : ℕ → Bool) (coords : List P) (els : List BE) : List P × List (ℕ × List ℤ) :=
  let m := v2v marker coords.length els
  (copyVerts m coords, copyElems marker m els)

/-- `bdr_nodes->SetSubVector(bvdofs, v)`. surface_def.hpp:138-153. -/
def setSub {K : Type} (row : List ℤ) (vals : List K) (b : ℤ → K) : ℤ → K :=
  (row.zip vals).foldl (fun b q => Function.update b q.1 q.2) b

/-- Node copy loop (`surface_def.hpp:138-153`), for one coordinate of a linear nodal function (dofs = vertices): for every *volume* boundary-element index `i` that is selected, the values are written to the dofs of
surface element `i`.  `none`: `GetElementVDofs(i)` with `i` beyond the number of surface elements. -/
def copyNodes {K : Type} (marker : ℕ → Bool) (surf : List (ℕ × List ℤ)) (nodes : ℕ → K) : ℕ → List BE → (ℤ → K) → Option (ℤ → K)
  | _, [], b => some b
  | i, e :: es, b =>
    if marker e.attr then
      match surf[i]? with
      | none => none
      | some row => copyNodes marker surf nodes (i + 1) es (setSub row.2 (e.verts.map nodes) b)
    else copyNodes marker surf nodes (i + 1) es b

end Verif.SurfaceMesh
