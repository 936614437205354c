import Mathlib.Algebra.BigOperators.Group.Finset.Basic
import Mathlib.Algebra.Field.Basic

/-!
# `BlockJacobiPreconditioner` (`src/common/mfem_extensions.cpp:254-378`) and `JacobianFree::getDiagonalBlock`
(`src/common/matrix_operators.cpp:115-157`)

A vector of length `off nB` is a function `ℕ → K`; block `i` is the segment `off i ≤ m < off (i+1)`, addressed locally by `m - off i`.
-/

namespace Verif.BlockJacobi

variable {K : Type} [Field K]

/-- Block vectors (`mfem::BlockVector`) as functions of the global index:
mfem_extensions.cpp:320-348. -/
abbrev V (K : Type) := ℕ → K

/-- A diagonal solver: what it does with the operator it was given (`SetOperator`) and its action; only the action and its transpose matter here.
mfem_extensions.cpp:266-279, 344-378. -/
structure Solver (K : Type) where
  mult : V K → V K
  multT : V K → V K

/-- `xblock.GetBlock(i)`: the segment of `x`, in local numbering. mfem_extensions.cpp:329-337. -/
def getBlock (off : ℕ → ℕ) (x : V K) (i : ℕ) : V K := fun j => x (off i + j)

/-- Writing a block of the result vector. mfem_extensions.cpp:329-341. -/
def setBlock (off : ℕ → ℕ) (y : V K) (i : ℕ) (b : V K) : V K :=
  fun m => if off i ≤ m ∧ m < off (i + 1) then b (m - off i) else y m

/-- The loop of `Mult` (`mfem_extensions.cpp:331-342`), blocks `0..nB-1` in order: `y` starts at zero; a missing solver copies the block. -/
def multLoop (off : ℕ → ℕ) (op : ℕ → Option (Solver K)) (x : V K) : ℕ → V K
  | 0 => fun _ => 0
  | i + 1 => setBlock off (multLoop off op x i) i
      (match op i with
       | some s => s.mult (getBlock off x i)
       | none => getBlock off x i)

/-- `MultTranspose` (`mfem_extensions.cpp:350-378`). -/
def multTLoop (off : ℕ → ℕ) (op : ℕ → Option (Solver K)) (x : V K) : ℕ → V K
  | 0 => fun _ => 0
  | i + 1 => setBlock off (multTLoop off op x i) i
      (match op i with
       | some s => s.multT (getBlock off x i)
       | none => getBlock off x i)

/-- `SetDiagonalBlock` (`mfem_extensions.cpp:266-279`). -/
def setDiagonalBlock (op : ℕ → Option (Solver K)) (i : ℕ) (s : Option (Solver K)) : ℕ → Option (Solver K) :=
  fun j => if j = i then s else op j

/-- Kinds of operator `SetOperator` distinguishes (`mfem_extensions.cpp:281-318`): a block operator gives its diagonal blocks, a Jacobian-free operator its
`getDiagonalBlock`s; anything else throws. -/
inductive Operand (K : Type)
  | block (diag : ℕ → (ℕ → ℕ → K))
  | jacFree (diag : ℕ → (ℕ → ℕ → K))
  | other

/-- `SetOperator`: `build i` is what the `i`-th solver's `SetOperator` does with a matrix (for a missing solver nothing is called).  `none`: `MISOException`.
mfem_extensions.cpp:281-318. -/
def setOperator (nB : ℕ) (build : ℕ → (ℕ → ℕ → K) → Solver K) (op : ℕ → Option (Solver K)) : Operand K → Option (ℕ → Option (Solver K))
  | .block d | .jacFree d => some fun i => if i < nB then (op i).map fun _ => build i (d i) else op i
  | .other => none

/-- Matrix kinds for `getDiagonalBlock`. matrix_operators.cpp:115-157. -/
inductive MKind | hypre | dense | other
  deriving DecidableEq

/-- Explicit part of a `JacobianFree` operator: absent, a block operator with diagonal blocks, or not a block operator.
matrix_operators.cpp:115-157. -/
inductive Explicit (K : Type)
  | none
  | blocks (diag : ℕ → (ℕ → ℕ → K))
  | notBlock

/-- `JacobianFree::getDiagonalBlock(i)` (`matrix_operators.cpp:115-157`).  `jac` is the residual's freshly assembled block (both residual classes that support
`getJacobianBlock` reassemble on every call), scaled and shifted in place.  `none`: `MISOException`.  Simplification: the cast of the explicit block to the Jacobian's kind is assumed to succeed. -/
def getDiagonalBlock (scale : K) (e : Explicit K) (kind : MKind) (jac : ℕ → ℕ → K) (i : ℕ) : Option (ℕ → ℕ → K) :=
  match e with
  | .notBlock => Option.none
  | .none => if kind = .other then Option.none else some fun a b => jac a b * scale
  | .blocks d => if kind = .other then Option.none else some fun a b => jac a b * scale + d i a b

end Verif.BlockJacobi
