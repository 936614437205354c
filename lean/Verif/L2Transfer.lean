import Verif.CommonInteg
import Verif.Losses

/-!
Model of the transfer of a field to a discontinuous representation: `/repo/src/utils/l2_transfer_operator.{hpp,cpp}`,
used for the outputs `flux_density...` and `flux_magnitude...` of the magnetostatic solver
(`/repo/src/physics/electromagnetics/magnetostatic.cpp:208-258`).

`double` is ℝ, a quotient by a norm that is zero is NaN: `none`.  Element vectors are functions on ℕ of which the entries
below the size matter.  MFEM: `GetElementVDofs` + `GetSubVector` + `InvTransformPrimal` (and
`distributeSharedDofs` before) is a linear map `gather` from the true dofs; `TransformDual` + `AddElementVector` (and
`setTrueVec` of the dual vector after) is its transpose.  The dofs of the discontinuous output space have no such maps:
`odof` numbers them.  `DenseMatrix::GradToCurl` of a `ndof × 2` matrix maps the rows `(x, y)` to `(-y, x)`.
Not modelled: `CurlMagnitudeOperator2D` (lines 912-979: used nowhere).
-/

namespace Verif.L2Transfer
open Verif.Sbp Verif.Dense Verif.Diffusion Verif.Force Verif.CommonInteg

variable {ns no dim vd : ℕ}

/-- What the operations read at one node of the output element: the mapping and the reference curls or gradients as for
the curl integrators (the quadrature weight `w` is not used), the scalar and vector shape functions of
the state, and the shape functions of the output; l2_transfer_operator.cpp:20-27, 48-58, 160-165, 360-378. -/
structure TPt (ns no dim : ℕ) extends MPt ns dim where
  shape : Vec ns
  vshape : Mat ns dim
  oshape : Vec no

/-- `el_output_adj * adj_shape` and `output_adj.MultTranspose(shape, output_adj_vec)`: the adjoint field at the point,
l2_transfer_operator.cpp:54-55, 208-209, 441-442, 714-716. -/
noncomputable def adjAt (vd : ℕ) (p : TPt ns no dim) (el : ℕ → ℝ) : Vec vd := fun j => ∑ a, p.oshape a * el (j * no + a)

/-- MFEM's reverse-differentiated maps: what they add to `PointMat_bar` at a point. Called at l2_transfer_operator.cpp:116-123, 311-318, 570-624, 851-895. -/
structure Revs (ns no dim : ℕ) where
  jacRev : Mat dim dim → ℕ → ℕ → ℝ
  adjRev : Mat dim dim → ℕ → ℕ → ℝ
  wRev : ℝ → ℕ → ℕ → ℝ
  sRev : Vec ns → ℕ → ℕ → ℝ
  vRev : Mat ns dim → ℕ → ℕ → ℝ
  oRev : Vec no → ℕ → ℕ → ℝ

/-- One operation, point by point: `val` the value, `sbar` the contribution to `el_state_bar`, `asb` the new value of the
work vector `adj_shape_bar`, `mbar` the final `PointMat_bar`.  The last two take the adjoint `a` at the point.
l2_transfer_operator.hpp:12-55. -/
structure Operation (ns no dim vd : ℕ) where
  val : TPt ns no dim → Vec ns → Vec vd
  sbar : TPt ns no dim → Vec ns → Vec vd → Vec ns → Option (Vec ns)
  asb : TPt ns no dim → Vec ns → (ℕ → ℝ) → Vec no → Vec no
  mbar : Revs ns no dim → TPt ns no dim → Vec ns → Vec vd → Vec no → Option (ℕ → ℕ → ℝ)

/-! ### The loops over the nodes of the output element -/

/-- `el_output(i) = ...`. l2_transfer_operator.cpp:28, 682. -/
noncomputable def setAt (k : ℕ) (x : ℝ) (v : ℕ → ℝ) : ℕ → ℝ := fun q => if q = k then x else v q

/-- `apply`: the value at node `i`, component `j` goes to entry `j * no + i` (a `DenseMatrix` view of `el_output`,
column major), l2_transfer_operator.cpp:12-30, 135-170, 341-391, 631-671.  `out` is the uninitialised `el_output`. -/
noncomputable def Operation.apply (op : Operation ns no dim vd) (pt : ℕ → TPt ns no dim) (u : Vec ns) (out : ℕ → ℝ) : ℕ → ℝ :=
  forN no (fun i out =>
    let v := op.val (pt i) u
    Fin.foldl vd (fun out j => setAt (j * no + i) (v j) out) out) out

/-- `apply_state_bar`, l2_transfer_operator.cpp:32-65, 172-245, 393-475, 673-768. -/
noncomputable def Operation.stateBar (op : Operation ns no dim vd) (pt : ℕ → TPt ns no dim) (el : ℕ → ℝ) (u : Vec ns) :
    Option (Vec ns) :=
  forN no (fun i acc => acc.bind fun bar => op.sbar (pt i) u (adjAt vd (pt i) el) bar) (some zeroV)

/-- `apply_mesh_coords_bar`, l2_transfer_operator.cpp:67-130, 247-334, 477-626, 769-908.  The state of the loop is
`mesh_coords_bar` and the work vector `adj_shape_bar` (`junk` before the loop). -/
noncomputable def Operation.meshBar (op : Operation ns no dim vd) (meshDof : ℕ) (R : ℕ → Revs ns no dim) (junk : Vec no)
    (pt : ℕ → TPt ns no dim) (el : ℕ → ℝ) (u : Vec ns) : Option ((ℕ → ℝ) × Vec no) :=
  forN no (fun i acc => acc.bind fun s =>
    let asb := op.asb (pt i) u el s.2
    (op.mbar (R i) (pt i) u (adjAt vd (pt i) el) asb).map fun P => (scatter meshDof dim P s.1, asb))
    (some (fun _ => 0, junk))

/-! ### The operations -/

/-- `ScalarIdentityOperator`, l2_transfer_operator.cpp:9-131. -/
noncomputable def scalarId : Operation ns no dim 1 where
  val := fun p u _ => dotv p.shape u
  sbar := fun p _ a bar =>
    let funBar : ℝ := 1
    let stateBar := funBar * a 0
    some (axpy stateBar p.shape bar)
  asb := fun p u el _ => axpy (1 * dotv p.shape u) (fun a => el a) zeroV
  mbar := fun R _ u a asb =>
    let stateBar := 1 * a 0
    let shapeBar : Vec ns := axpy stateBar u zeroV
    some fun k j => 0 + R.oRev asb k j + R.sRev shapeBar k j

/-- `IdentityOperator`, l2_transfer_operator.cpp:133-335 (`adj_shape_bar` is not reset in the loop of 290-333). -/
noncomputable def vectorId : Operation ns no dim dim where
  val := fun p u => mulTV p.vshape u
  sbar := fun p _ a bar =>
    let stateVecBar : Vec dim := axpy 1 a zeroV
    some (addMulV p.vshape 1 stateVecBar bar)
  asb := fun p u el old => fun b => old b + ∑ k : Fin dim, el (k * no + b) * axpy 1 (mulTV p.vshape u) zeroV k
  mbar := fun R _ u a asb =>
    let stateVecBar : Vec dim := axpy 1 a zeroV
    let vshapeBar : Mat ns dim := fun r k => zeroM r k + vwt u stateVecBar r k
    some fun k j => 0 + R.oRev asb k j + R.vRev vshapeBar k j

/-- `CurlOperator` in three dimensions, l2_transfer_operator.cpp:337-627 (`adj_shape_bar` is not reset in the loop of
520-625). -/
noncomputable def curl3 : Operation ns no 3 3 where
  val := fun p u k => mulTV (mulABt p.cs p.jac) u k / p.J
  sbar := fun p _ a bar =>
    let cBar : Vec 3 := fun k => axpy 1 a zeroV k / p.J
    some (addMulV (mulABt p.cs p.jac) 1 cBar bar)
  asb := fun p u el old => fun b =>
    old b + ∑ k : Fin 3, el (k * no + b) * axpy (1 / p.J) (mulTV (mulABt p.cs p.jac) u) zeroV k
  mbar := fun R p u a asb =>
    let cVec := mulTV (mulABt p.cs p.jac) u
    let cBar : Vec 3 := axpy (1 / p.J) a zeroV
    let jBar := 0 + -1 * dotv a cVec / p.J ^ 2
    let cdftBar : Mat 3 ns := vwt cBar u
    let jacBar : Mat 3 3 := fun x y => zeroM x y + mulM cdftBar p.cs x y
    some fun k j => 0 + R.wRev jBar k j + R.oRev asb k j + R.jacRev jacBar k j

/-- `DenseMatrix::GradToCurl` on a `ndof × 2` matrix (MFEM), l2_transfer_operator.cpp:371-374. -/
noncomputable def gradToCurl (G : Mat ns 2) : Mat ns 2 := fun r k => if k = 0 then -G r 1 else G r 0

/-- `CurlOperator` in two dimensions, the same lines. l2_transfer_operator.cpp:337-627. -/
noncomputable def curl2 : Operation ns no 2 2 where
  val := fun p u k => mulTV (gradToCurl (mulM p.cs p.adj)) u k / p.J
  sbar := fun p _ a bar =>
    let cBar : Vec 2 := fun k => axpy 1 a zeroV k / p.J
    some (addMulV (gradToCurl (mulM p.cs p.adj)) 1 cBar bar)
  asb := fun p u el old => fun b =>
    old b + ∑ k : Fin 2, el (k * no + b) * axpy (1 / p.J) (mulTV (gradToCurl (mulM p.cs p.adj)) u) zeroV k
  mbar := fun R p u a asb =>
    let cVec := mulTV (gradToCurl (mulM p.cs p.adj)) u
    let cBar : Vec 2 := axpy (1 / p.J) a zeroV
    let jBar := 0 + -1 * dotv a cVec / p.J ^ 2
    let cdftBar : Mat ns 2 := vwt u cBar
    let scratchBar : Mat ns 2 := fun r k => gradToCurl cdftBar r k * -1
    let adjBar : Mat 2 2 := mulAtB p.cs scratchBar
    some fun k j => 0 + R.wRev jBar k j + R.oRev asb k j + R.adjRev adjBar k j

/-- `CurlMagnitudeOperator`, l2_transfer_operator.cpp:628-909. -/
noncomputable def curlMag : Operation ns no dim 1 where
  val := fun p u _ => p.mag u
  sbar := fun p u a bar =>
    let magBar := 1 * a 0
    let normBar := magBar / p.J
    if p.norm u = 0 then none
    else
      let cBar : Vec dim := axpy (normBar / p.norm u) (mulTV p.cdft u) zeroV
      some (addMulV p.cdft 1 cBar bar)
  asb := fun p u el _ => axpy (1 * p.mag u) (fun a => el a) zeroV
  mbar := fun R p u a asb =>
    let magBar := 1 * a 0
    let normBar := magBar / p.J
    let jBar := -magBar * p.norm u / p.J ^ 2
    if p.norm u = 0 then none
    else
      let cBar : Vec dim := axpy (normBar / p.norm u) (mulTV p.cdft u) zeroV
      let mBar : Mat dim dim :=
        if dim = 3 then (fun x y => zeroM x y + mulM (vwt cBar u) p.cs x y) else mulAtB p.cs (vwt u cBar)
      some fun k j => 0 + R.oRev asb k j + R.wRev jBar k j + (if dim = 3 then R.jacRev mBar k j else R.adjRev mBar k j)

/-! ### The operator on the mesh -/

/-- One element of a mesh: its nodes, the map from the true dofs of the state to its coefficients, the numbers of its
output dofs, and the map from the true dofs of the mesh coordinates to its nodes (component-major).
l2_transfer_operator.cpp:1027-1060. -/
structure Elem (dim vd N M X : ℕ) where
  ns : ℕ
  no : ℕ
  op : Operation ns no dim vd
  pt : ℕ → TPt ns no dim
  gather : Mat ns N
  odof : ℕ → Fin M
  meshDof : ℕ
  mgather : ℕ → Fin X → ℝ
  revs : ℕ → Revs ns no dim
  junk : Vec no
  out0 : ℕ → ℝ

variable {N M X : ℕ}

/-- `AddElementVector`: `v[dof k] += el k` for `k < size`. MFEM (not in /repo), called at l2_transfer_operator.cpp:1051, 1111, 1174. -/
noncomputable def addElem (size : ℕ) (dof : ℕ → Fin M) (el : ℕ → ℝ) (v : Vec M) : Vec M :=
  forN size (fun k v q => if q = dof k then v q + el k else v q) v

/-- `L2TransferOperator::apply`, l2_transfer_operator.cpp:1018-1061. -/
noncomputable def transfer (es : List (Elem dim vd N M X)) (u : Vec N) : Vec M :=
  es.foldl (fun gf e => addElem (vd * e.no) e.odof (e.op.apply e.pt (mulV e.gather u) e.out0) gf) zeroV

/-- `L2TransferOperator::vectorJacobianProduct` with respect to `"state"`, l2_transfer_operator.cpp:1071-1123; `u` is
the state of the last `setInputs`. -/
noncomputable def vjpState (es : List (Elem dim vd N M X)) (u : Vec N) (outBar : Vec M) (wrtBar : Vec N) : Option (Vec N) :=
  (es.foldl (fun acc e => acc.bind fun bar =>
    (e.op.stateBar e.pt (fun k => outBar (e.odof k)) (mulV e.gather u)).map fun eb =>
      addMulTV e.gather eb bar) (some zeroV)).map fun scratch => fun q => wrtBar q + scratch q

/-- The same with respect to `"mesh_coords"`, l2_transfer_operator.cpp:1124-1181. -/
noncomputable def vjpMesh (es : List (Elem dim vd N M X)) (u : Vec N) (outBar : Vec M) (wrtBar : Vec X) : Option (Vec X) :=
  (es.foldl (fun acc e => acc.bind fun bar =>
    (e.op.meshBar e.meshDof e.revs e.junk e.pt (fun k => outBar (e.odof k)) (mulV e.gather u)).map fun eb =>
      fun q => bar q + ∑ k ∈ Finset.range (dim * e.meshDof), e.mgather k q * eb.1 k) (some zeroV)).map fun scratch =>
        fun q => wrtBar q + scratch q

/-! ### Creation of the outputs -/

/-- `MagnetostaticSolver::addOutput` for the two flux fields: the names of the registered fields before and after, or the
exception of `fields.at`; magnetostatic.cpp:208-258. -/
def addFlux (fields : List String) (fun_ : String) : Option (List String) :=
  if Losses.startsWith fun_ "flux_density" then
    some (if fun_ ∈ fields then fields else fun_ :: fields)
  else if Losses.startsWith fun_ "flux_magnitude" then
    if fun_ ∈ fields then some fields else none
  else some fields

end Verif.L2Transfer
