import Mathlib.Data.Real.Basic
import Mathlib.Logic.Function.Basic

/-! # Node-wise transfer of a field between meshes, and of a surface tessellation to a new body (C237, C238)

The models of `transferSolution` (utils.cpp) and of the Python entry point `mapSurfaceMesh` (meshMotion.cpp).  MFEM's
`FindPointsGSLIB` and EGADS are parameters. -/

namespace Verif.TransferMap

/-- Layout of a vector field's dofs: MFEM's `Ordering::byNODES` and `byVDIM`. -/
inductive Ord | byNODES | byVDIM

/-- The `i`-th point as `FindPointsGSLIB::FindPoints` reads it out of `point_pos`, whose layout it takes to be `byNODES`
(its default, which utils.cpp:750-751 does not change). -/
def finderPoint (cnt : ℕ) (v : ℕ → ℝ) (i d : ℕ) : ℝ := v (d * cnt + i)

/-- The output vector: its size and its entries. -/
structure OutVec where
  size : ℕ
  get : ℕ → ℝ

/-- `out(n) = x`; none: out of bounds. -/
def OutVec.set (o : OutVec) (k : ℕ) (x : ℝ) : Option OutVec := if k < o.size then some ⟨o.size, Function.update o.get k x⟩ else none

/-- The loop `for (n = 0; n < nodes_cnt; n++) out(n) = interp_vals(n)`, utils.cpp:754-757. -/
def copyVals (vals : ℕ → ℝ) : ℕ → OutVec → Option OutVec
  | 0, o => some o
  | n + 1, o => (copyVals vals n o).bind fun o => o.set n (vals n)

/-- How a call ends. -/
inductive Res (α : Type)
  | ok (a : α)
  | throws
  | undefined

/-- `transferSolution`, utils.cpp:728-771: `gslib` is `MFEM_USE_GSLIB`, `vxyz` and `size` the nodes of the new mesh as
stored, `field` the value of `in` at a point of the old mesh, found and interpolated by GSLIB. -/
def transferSolution (gslib : Bool) (dim size : ℕ) (vxyz : ℕ → ℝ) (field : (ℕ → ℝ) → ℝ) (out : OutVec) : Res OutVec :=
  if gslib then
    let cnt := size / dim
    match copyVals (fun n => field fun d => if d < dim then finderPoint cnt vxyz n d else 0) cnt out with
    | some o => .ok o
    | none => .undefined
  else .throws

/-! ### The surface map -/

/-- A Python array of numbers: whether its entries are doubles, its number of dimensions, the size of its first
dimension, the distance between its entries (in doubles) and the memory it lies in. -/
structure PyArray where
  isDouble : Bool
  ndim : ℕ
  size : ℕ
  stride : ℕ
  mem : ℕ → ℝ

/-- Entry `k` of a one-dimensional array. -/
def PyArray.entry (a : PyArray) (k : ℕ) : ℝ := a.mem (k * a.stride)

/-- The writes for node `i` (counted from 0), meshMotion.cpp:143-153: `displacements[i * dim + d]` for `d` below `dim`. -/
def putNode (dim i : ℕ) (u : ℕ → ℝ) : ℕ → (ℕ → ℝ) → ℕ → ℝ
  | 0, m => m
  | d + 1, m => Function.update (putNode dim i u d m) (i * dim + d) (u d)

/-- The loop over the nodes, meshMotion.cpp:139-156. -/
def putNodes (dim : ℕ) (u : ℕ → ℕ → ℝ) : ℕ → (ℕ → ℝ) → ℕ → ℝ
  | 0, m => m
  | n + 1, m => putNode dim n (u n) dim (putNodes dim u n m)

/-- `mapSurfaceMesh`, meshMotion.cpp:16-170, built with EGADS.  The C++ function of the same name (src/utils/EGADS/miso_egads.cpp:103-131) does the
same with the array of an `mfem::Vector`, which holds contiguous doubles.  `status` are the results of the calls of EGADS that are
checked, in order (true: success); `nGlobal`, `xOld` and `xNew` the nodes of the old tessellation and of the mapped one.
A call with an array that does not hold doubles is converted by pybind11's `array_t<double>`: the function works on a
copy, which is dropped.  The pointer `info.ptr` is used without the stride.  Writing past the extent of the array is
undefined. -/
noncomputable def mapSurface (status : List Bool) (nGlobal : ℕ) (xOld xNew : ℕ → ℕ → ℝ) (a : PyArray) : Res PyArray :=
  if a.ndim ≠ 1 then .throws
  else if status.all id then
    let dim := if a.size = 2 * nGlobal then 2 else 3
    let extent := if a.isDouble then (a.size - 1) * a.stride + (if a.size = 0 then 0 else 1) else a.size
    if extent < nGlobal * dim then .undefined
    else if a.isDouble then .ok { a with mem := putNodes dim (fun i d => xNew i d - xOld i d) nGlobal a.mem }
    else .ok a
  else .throws

/-- The same without EGADS, meshMotion.cpp:159-163. -/
def mapSurfaceNoEgads : Res PyArray := .throws

end Verif.TransferMap
