import Verif.Options
import Verif.StateFiles
import Mathlib.Analysis.Real.Sqrt
import Mathlib.Algebra.BigOperators.Group.Finset.Basic

/-!
# Setting up a PDE solver: spaces, fields, materials, mesh (`src/physics/finite_element_vector.cpp`,
`finite_element_state.hpp`, `finite_element_dual.hpp`, `pde_solver.cpp`)

Not modelled: the mesh readers and the finite element collections themselves (MFEM, PUMI); a collection is known by its
kind, degree and dimension.  `FiniteElementCollection::New(name)` (MFEM) is taken to rebuild the collection that carries
the name.
-/

namespace Verif.PdeSetup

open Verif.Options Verif.StateFiles
open scoped BigOperators

/-! ### Finite element collections -/

/-- Kinds of collections a field can be built on: finite_element_vector.cpp:68-98. -/
inductive Kind | csbp | dsbp | nd | rt | h1 | l2
  deriving DecidableEq

/-- A finite element collection: kind, degree, dimension of the mesh. finite_element_vector.cpp:68-98. -/
structure Coll where
  kind : Kind
  degree : ℤ
  dim : ℕ
  deriving DecidableEq

/-- `space_options`: "degree", "basis-type", "GD" (finite_element_vector.cpp:64-67); `none` is an absent key. -/
structure SpaceOpts where
  degree : Option ℤ
  basisType : Option String
  gd : Option Bool

/-- What the constructors leave behind: the collection, the number of components, and the initial values, all zero (`*gf = 0.0`).
finite_element_vector.cpp:35-54; the ordering is always `byVDIM` (line 102). -/
structure Space where
  coll : Coll
  vdim : ℤ
  deriving DecidableEq

/-- The chain of comparisons choosing `fec` (finite_element_vector.cpp:71-98); `none` is a null pointer. -/
def chooseColl (basis : String) (gd : Bool) (order : ℤ) (dim : ℕ) : Option Coll :=
  if basis = "CSBP" ∨ basis = "csbp" then some ⟨.csbp, order, dim⟩
  else if basis = "DSBP" ∨ basis = "dsbp" ∨ gd = true then some ⟨.dsbp, order, dim⟩
  else if basis = "ND" ∨ basis = "nd" ∨ basis = "nedelec" then some ⟨.nd, order, dim⟩
  else if basis = "RT" ∨ basis = "rt" then some ⟨.rt, order, dim⟩
  else if basis = "H1" ∨ basis = "h1" ∨ basis = "CG" ∨ basis = "cg" then some ⟨.h1, order, dim⟩
  else if basis = "L2" ∨ basis = "l2" ∨ basis = "DG" ∨ basis = "dg" then some ⟨.l2, order, dim⟩
  else none

/-- `FiniteElementVector(mesh, Options&&)` (finite_element_vector.cpp:35-54): a null collection becomes `H1_FECollection(order, dim)`. -/
def mkSpace (coll : Option Coll) (order vdim : ℤ) (dim : ℕ) : Space := ⟨coll.getD ⟨.h1, order, dim⟩, vdim⟩

/-- `FiniteElementVector(mesh, space_options, num_states, name)` (finite_element_vector.cpp:56-107). A missing "degree" or
"basis-type" is an access to an absent key of a constant json object: `none`. -/
def fieldSpace (o : SpaceOpts) (vdim : ℤ) (dim : ℕ) : Option Space :=
  match o.degree, o.basisType with
  | some order, some basis => some (mkSpace (chooseColl basis (o.gd.getD false) order dim) order vdim dim)
  | _, _ => none

/-- `snprintf("SBP_%dD_P%d", dim, p)`, `snprintf("DSBP_%dD_P%d", dim, p)` (sbp_fe.cpp:1133,1344). -/
def sbpName (pre : List Char) (dim : ℕ) (p : ℤ) : List Char :=
  pre ++ ['_'] ++ intToString dim ++ ['D', '_', 'P'] ++ intToString p

/-- The digits `atoi` reads, most significant first, and the value accumulated so far (C library; used at
finite_element_vector.cpp:18-19,25-26). -/
def atoiDigits : ℕ → List Char → ℕ
  | acc, [] => acc
  | acc, c :: cs => if c.isDigit then atoiDigits (10 * acc + (c.toNat - 48)) cs else acc

/-- `atoi`: an optional sign, then digits up to the first other character. Simplification: no leading white space, no overflow.
finite_element_vector.cpp:18-19,25-26. -/
def atoi : List Char → ℤ
  | '-' :: cs => -(atoiDigits 0 cs : ℤ)
  | '+' :: cs => atoiDigits 0 cs
  | cs => atoiDigits 0 cs

/-- `copyFEColl` (finite_element_vector.cpp:10-31). -/
def copyColl (c : Coll) : Coll :=
  match c.kind with
  | .csbp => let name := sbpName ['S', 'B', 'P'] c.dim c.degree
    ⟨.csbp, atoi (name.drop 8), (atoi (name.drop 4)).toNat⟩
  | .dsbp => let name := sbpName ['D', 'S', 'B', 'P'] c.dim c.degree
    ⟨.dsbp, atoi (name.drop 9), (atoi (name.drop 5)).toNat⟩
  | _ => c

/-- `FiniteElementVector(mesh, space, name)` (finite_element_vector.cpp:109-122): a deep copy of the given space on a copied
collection. -/
def copySpace (s : Space) : Space := ⟨copyColl s.coll, s.vdim⟩

/-! ### Local and true degrees of freedom of states and duals -/

/-- How the local dofs of all ranks are related to the true dofs on a conforming mesh (`ParFiniteElementSpace`, used at
finite_element_state.hpp:35-51, finite_element_dual.hpp:41-56): local dof `i` is the copy of true dof `glob i`, up to the orientation sign;
`owner t` is the copy the owning rank holds. -/
structure Layout (K : Type) [CommRing K] (L T : ℕ) where
  glob : Fin L → Fin T
  sign : Fin L → K
  owner : Fin T → Fin L
  signSq : ∀ i, sign i * sign i = 1
  owned : ∀ t, glob (owner t) = t
  ownSign : ∀ t, sign (owner t) = 1

variable {K : Type} [CommRing K] {L T : ℕ}

/-- `FiniteElementState::distributeSharedDofs`: `gf.SetFromTrueDofs`, the prolongation. finite_element_state.hpp:35-38. -/
def Layout.stateDistribute (y : Layout K L T) (t : Fin T → K) : Fin L → K := fun i => y.sign i * t (y.glob i)

/-- `FiniteElementState::setTrueVec`: `gf.GetTrueDofs`, the restriction. finite_element_state.hpp:46-49. -/
def Layout.stateTrue (y : Layout K L T) (x : Fin L → K) : Fin T → K := fun t => x (y.owner t)

/-- `FiniteElementDual::distributeSharedDofs`: the transpose of the restriction. finite_element_dual.hpp:41-44. -/
def Layout.dualDistribute (y : Layout K L T) (t : Fin T → K) : Fin L → K :=
  fun i => ∑ s, if y.owner s = i then t s else 0

/-- `FiniteElementDual::setTrueVec`: `ParallelAssemble`, the transpose of the prolongation. finite_element_dual.hpp:51-54. -/
def Layout.dualTrue (y : Layout K L T) (x : Fin L → K) : Fin T → K :=
  fun s => ∑ i, if y.glob i = s then y.sign i * x i else 0

/-! ### Mesh source -/

/-- Where the mesh of a solver comes from: pde_solver.cpp:167-208. -/
inductive Source
  /-- the serial mesh the caller handed over -/
  | given
  /-- MFEM's own reader -/
  | mfem (file : List Char)
  /-- the PUMI reader -/
  | pumi (file : List Char)
  /-- `MISOException` -/
  | throws
  deriving DecidableEq

/-- `mesh_file.substr(rfind('.') + 1)`; `none` if there is no '.': pde_solver.cpp:172-184. -/
def extension (file : List Char) : Option (List Char) :=
  if '.' ∈ file then some (file.reverse.takeWhile (· ≠ '.')).reverse else none

/-- `constructMesh` (pde_solver.cpp:167-224). `smesh` says whether the caller passed a serial mesh. -/
def constructMesh (file : List Char) (smesh : Bool) : Source :=
  match extension file with
  | none => .throws
  | some e =>
    if smesh then .given
    else if e = "mesh".toList then .mfem file
    else if e = "smb".toList ∨ e = "ugrid".toList then .pumi file
    else .throws

/-! ### Materials -/

/-- "material" of a component (pde_solver.cpp:350-365): a name, or an object with a name. -/
inductive Material
  | byName (n : String)
  | inline (n : String) (m : Fields)

/-- `materials[material_name].merge_patch(material)` for one component (pde_solver.cpp:350-365). -/
def addMaterial (lib : Json) : Material → Json
  | .byName _ => lib
  | .inline n m => .obj (lib.members.put n (merge ((lib.members.get n).getD .null) (.obj m)))

/-- Materials of a solver built with a fixed number of states (pde_solver.cpp:340-365): the library, then every component in turn. -/
def solverMaterials (lib : Json) (components : List Material) : Json := components.foldl addMaterial lib

/-- Materials of a solver built with a function for the number of states (the flow solvers; pde_solver.cpp:390-399). -/
def solverMaterialsFun (lib : Json) (_components : List Material) : Json := lib

/-! ### Fields -/

/-- `fields`: name to space. `std::map::emplace` keeps an entry that is already there. pde_solver.cpp:367-457. -/
def emplace (f : String → Option Space) (n : String) (s : Space) : String → Option Space :=
  fun m => if m = n ∧ f n = none then some s else f m

/-- Options of one external field: its space options and "num-states". pde_solver.cpp:443-456. -/
structure External where
  name : String
  opts : SpaceOpts
  numStates : ℤ

/-- The external fields, in turn (pde_solver.cpp:443-456); `none` if the options of one are incomplete. -/
def addExternal (dim : ℕ) : List External → (String → Option Space) → Option (String → Option Space)
  | [], f => some f
  | e :: es, f => match fieldSpace e.opts e.numStates dim with
    | none => none
    | some s => addExternal dim es (emplace f e.name s)

/-- Fields after the `PDESolver` constructor (pde_solver.cpp:367-457): state, Dirichlet values and adjoint on "space-dis", the mesh
coordinates on a copy of the mesh's own space, then the external fields. -/
def solverFields (spaceDis : SpaceOpts) (numStates : ℤ) (mesh : Space) (dim : ℕ) (ext : List External) :
    Option (String → Option Space) :=
  match fieldSpace spaceDis numStates dim with
  | none => none
  | some s => addExternal dim ext
      (emplace (emplace (emplace (emplace (fun _ => none) "state" s) "dirichlet_bc" s) "adjoint" s) "mesh_coords" (copySpace mesh))

/-- `PDESolver::getFieldSize` with `AbstractSolver2::getFieldSize` (pde_solver.cpp:320-333, abstract_solver.cpp:220-228).
`resSize` is `getStateSize()` (`none`: no residual, throws), `size` the number of true dofs of a space.
Result `none` is an exception. -/
def getFieldSize (resSize : Option ℕ) (size : Space → ℕ) (f : String → Option Space) (n : String) : Option ℕ :=
  if n = "state" ∨ n = "residual" ∨ n = "adjoint" then
    match resSize with
    | none => none
    | some k => if k ≠ 0 then some k else some (((f n).map size).getD 0)
  else some (((f n).map size).getD 0)

/-! ### State error -/

/-- What the user may compare the state with (abstract_solver.hpp:437-472, abstract_solver.cpp:53-81, pde_solver.cpp:482-518): a function
filling a vector, a vector, something the field is compared with in the L2 norm (`err` is that error, `calcLpError`), or anything else. -/
inductive Exact (n : ℕ)
  | fill (f : (Fin n → ℝ) → Fin n → ℝ)
  | vector (m : ℕ) (v : Fin m → ℝ)
  | field (err : ℝ)
  | other

/-- Outcome of `calcStateError` on one rank. abstract_solver.cpp:53-81. -/
inductive ErrOut
  | value (x : ℝ)
  | nan
  | throws

/-- `mfem::Vector::Norml2`, the norm of the entries this rank holds: abstract_solver.cpp:63,79. -/
noncomputable def norml2 {n : ℕ} (v : Fin n → ℝ) : ℝ := Real.sqrt (∑ i, v i * v i)

/-- `PDESolver::calcStateError_` on one rank; `work` is the scratch vector left by earlier calls (resized, then handed to the filling
function). The base class handles functions and vectors; for the others it returns NaN and the field is used. Simplification: the
arithmetic itself produces no NaN. abstract_solver.cpp:53-81, pde_solver.cpp:482-518, utils.hpp:286-318. -/
noncomputable def calcStateError {n : ℕ} (ex : Exact n) (work state : Fin n → ℝ) : ErrOut :=
  match ex with
  | .fill f => .value (norml2 fun i => f work i - state i)
  | .vector m v => if h : m = n then .value (norml2 fun i => v (Fin.cast h.symm i) - state i) else .throws
  | .field e => .value e
  | .other => .nan

end Verif.PdeSetup
