import Verif.Diffusion
import Verif.Projector
import Mathlib.LinearAlgebra.Matrix.NonsingularInverse

/-!
Model of the mesh sensitivities of the forms used by the divergence-free projector and the current load,
`/repo/src/physics/mfem_common_integ.cpp:2205-2503, 2734-3236`, and of the mesh-coordinate products of
`IrrotationalProjector`, `DivergenceFreeProjector` and `CurrentLoad`.

The dofs of an element are taken as already transformed (`dof_tr`); the state's and the mesh's element
transformation are the same mapping.  Only square Jacobians (`dim = spaceDim`) are modelled.
-/

namespace Verif.ProjInteg
open Verif.Sbp Verif.Dense Verif.Diffusion

variable {nu nv ndof dim : ℕ}

/-- One quadrature point: `ip.weight`, reference (vector) shape matrices of the state and of the adjoint
element, `AdjugateJacobian()`, `Weight()` (mfem_common_integ.cpp:2286-2300, 2432-2442). -/
structure BPt (nu nv dim : ℕ) where
  w : ℝ
  su : Mat nu dim
  sv : Mat nv dim
  adj : Mat dim dim
  J : ℝ

/-- The state's shape matrix times the adjugate (`dshapedxt`, `vshapedxt`): mfem_common_integ.cpp:2299, 2442. -/
def BPt.dxu (p : BPt nu nv dim) : Mat nu dim := mulM p.su p.adj

/-- The adjoint's shape matrix times the adjugate: mfem_common_integ.cpp:2299, 2439. -/
def BPt.dxv (p : BPt nu nv dim) : Mat nv dim := mulM p.sv p.adj

/-- The point as seen with one element on both sides: mfem_common_integ.cpp:2286-2299. -/
def same (p : QPt ndof dim) : BPt ndof ndof dim := ⟨p.w, p.dshape, p.dshape, p.adj, p.J⟩

/-- Reverse pass of `DiffusionIntegratorMeshSens` at one point, mfem_common_integ.cpp:2289-2337: `adj_jac_bar`
and `trans_weight_bar`. -/
noncomputable def diffRev (p : QPt ndof dim) (u psi : Vec ndof) : Mat dim dim × ℝ :=
  let w := p.w / p.J
  let dtU := mulTV p.dxt u
  let dtPsi := mulTV p.dxt psi
  let dot := dotv dtU dtPsi
  let funBar : ℝ := 1
  let dotBar := funBar * w
  let wBar := funBar * dot
  let dtPsiBar := axpy dotBar dtU zeroV
  let dtUBar := axpy dotBar dtPsi zeroV
  let dxtBar := addVWt 1 psi dtPsiBar (zeroM : Mat ndof dim)
  let dxtBar := addVWt 1 u dtUBar dxtBar
  (mulAtB p.dshape dxtBar, -wBar * p.w / p.J ^ 2)

/-- Reverse pass of `VectorFEWeakDivergenceIntegratorMeshSens` at one point, mfem_common_integ.cpp:2435-2490. -/
noncomputable def wdivRev (p : BPt nu nv dim) (u : Vec nu) (psi : Vec nv) : Mat dim dim × ℝ :=
  let w := p.w / p.J
  let vtU := mulTV p.dxu u
  let dtPsi := mulTV p.dxv psi
  let dot := dotv vtU dtPsi
  let funBar : ℝ := 1
  let dotBar := -funBar * w
  let wBar := -funBar * dot
  let vtUBar := axpy dotBar dtPsi zeroV
  let dtPsiBar := axpy dotBar vtU zeroV
  let dBar := addVWt 1 psi dtPsiBar (zeroM : Mat nv dim)
  let vBar := addVWt 1 u vtUBar (zeroM : Mat nu dim)
  let a := mulAtB p.su vBar
  let b := mulAtB p.sv dBar
  (fun i j => a i j + b i j, -wBar * p.w / p.J ^ 2)

/-- Reverse pass of `VectorFEMassIntegratorMeshSens` at one point, mfem_common_integ.cpp:2802-2850; as in the
code `trans_weight_bar` has no factor `alpha`. -/
noncomputable def massRev (alpha : ℝ) (p : QPt ndof dim) (u psi : Vec ndof) : Mat dim dim × ℝ :=
  let w := alpha * p.w / p.J
  let vtU := mulTV p.dxt u
  let vtPsi := mulTV p.dxt psi
  let dot := dotv vtU vtPsi
  let funBar : ℝ := 1
  let dotBar := funBar * w
  let wBar := funBar * dot
  let vtPsiBar := axpy dotBar vtU zeroV
  let vtUBar := axpy dotBar vtPsi zeroV
  let vBar := addVWt 1 psi vtPsiBar (zeroM : Mat ndof dim)
  let vBar := addVWt 1 u vtUBar vBar
  (mulAtB p.dshape vBar, -wBar * p.w / p.J ^ 2)

/-- Assembly of `mesh_coords_bar` common to the three integrators, mfem_common_integ.cpp:2337-2351, 2488-2502,
2847-2863: `PointMat_bar = 0; WeightRevDiff(PointMat_bar); PointMat_bar *= trans_weight_bar;
AdjugateJacobianRevDiff(adj_jac_bar, PointMat_bar)`.  `wRev i x` is what MFEM's two-argument
`WeightRevDiff(x, ·)` adds; the one-argument form is `x = 1`. -/
noncomputable def assemble (n meshNdof : ℕ) (rev : ℕ → Mat dim dim × ℝ)
    (adjRev : ℕ → Mat dim dim → ℕ → ℕ → ℝ) (wRev : ℕ → ℝ → ℕ → ℕ → ℝ) : ℕ → ℝ :=
  forN n (fun i bar => scatter meshNdof dim
    (fun k j => (0 + wRev i 1 k j) * (rev i).2 + adjRev i (rev i).1 k j) bar) (fun _ => 0)

/-- `DiffusionIntegratorMeshSens::AssembleRHSElementVect`, mfem_common_integ.cpp:2205-2352. -/
noncomputable def diffMesh (n meshNdof : ℕ) (pt : ℕ → QPt ndof dim) (adjRev : ℕ → Mat dim dim → ℕ → ℕ → ℝ)
    (wRev : ℕ → ℝ → ℕ → ℕ → ℝ) (u psi : Vec ndof) : ℕ → ℝ :=
  assemble n meshNdof (fun i => diffRev (pt i) u psi) adjRev wRev

/-- `VectorFEWeakDivergenceIntegratorMeshSens::AssembleRHSElementVect`, mfem_common_integ.cpp:2354-2503. -/
noncomputable def wdivMesh (n meshNdof : ℕ) (pt : ℕ → BPt nu nv dim) (adjRev : ℕ → Mat dim dim → ℕ → ℕ → ℝ)
    (wRev : ℕ → ℝ → ℕ → ℕ → ℝ) (u : Vec nu) (psi : Vec nv) : ℕ → ℝ :=
  assemble n meshNdof (fun i => wdivRev (pt i) u psi) adjRev wRev

/-- `VectorFEMassIntegratorMeshSens::AssembleRHSElementVect`, mfem_common_integ.cpp:2734-2864. -/
noncomputable def massMesh (alpha : ℝ) (n meshNdof : ℕ) (pt : ℕ → QPt ndof dim)
    (adjRev : ℕ → Mat dim dim → ℕ → ℕ → ℝ) (wRev : ℕ → ℝ → ℕ → ℕ → ℝ) (u psi : Vec ndof) : ℕ → ℝ :=
  assemble n meshNdof (fun i => massRev alpha (pt i) u psi) adjRev wRev

/-- Reverse pass of `VectorFEDomainLFIntegratorMeshSens` at one point, mfem_common_integ.cpp:2930-2972: `vec_bar`
and `adj_jac_bar`; `F` is `F.Eval` at the point. -/
noncomputable def lfRev (alpha : ℝ) (p : QPt ndof dim) (F : Vec dim) (psi : Vec ndof) : Vec dim × Mat dim dim :=
  let w := p.w * alpha
  let vtPsi := mulTV p.dxt psi
  let funBar : ℝ := 1
  let dotBar := funBar * w
  let vtPsiBar := axpy dotBar F zeroV
  let vecBar := axpy dotBar vtPsi zeroV
  let vBar := addVWt 1 psi vtPsiBar (zeroM : Mat ndof dim)
  (vecBar, mulAtB p.dshape vBar)

/-- `VectorFEDomainLFIntegratorMeshSens::AssembleRHSElementVect`, mfem_common_integ.cpp:2866-2985; `fRev i vbar` is
what `F.EvalRevDiff(vbar, ·)` adds to `PointMat_bar`. -/
noncomputable def lfMesh (alpha : ℝ) (n meshNdof : ℕ) (pt : ℕ → QPt ndof dim) (F : ℕ → Vec dim)
    (fRev : ℕ → Vec dim → ℕ → ℕ → ℝ) (adjRev : ℕ → Mat dim dim → ℕ → ℕ → ℝ) (psi : Vec ndof) : ℕ → ℝ :=
  forN n (fun i bar =>
    let r := lfRev alpha (pt i) (F i) psi
    scatter meshNdof dim (fun k j => 0 + fRev i r.1 k j + adjRev i r.2 k j) bar) (fun _ => 0)

/-- One quadrature point of the curl load: `ip.weight`, physical curls of the shape functions, `Weight()`
(mfem_common_integ.cpp:3053-3058). -/
structure CurlPt (ndof dim : ℕ) where
  w : ℝ
  cs : Mat ndof dim
  J : ℝ

/-- Reverse pass of `VectorFEDomainLFCurlIntegratorMeshSens` at one point, mfem_common_integ.cpp:3053-3096:
`vec_bar`, `curlshape_bar`, `weight_bar`. -/
noncomputable def curlLfRev (alpha : ℝ) (p : CurlPt ndof dim) (F : Vec dim) (psi : Vec ndof) :
    Vec dim × Mat ndof dim × ℝ :=
  let w := p.w * p.J * alpha
  let ctPsi := mulTV p.cs psi
  let dot := dotv ctPsi F
  let funBar : ℝ := 1
  let dotBar := funBar * w
  let wBar := funBar * dot
  let ctPsiBar := axpy dotBar F zeroV
  let vecBar := axpy dotBar ctPsi zeroV
  let csBar := addVWt 1 psi ctPsiBar (zeroM : Mat ndof dim)
  (vecBar, csBar, wBar * p.w * alpha)

/-- `VectorFEDomainLFCurlIntegratorMeshSens::AssembleRHSElementVect`, mfem_common_integ.cpp:2987-3107; `cRev i B` is
what MFEM's `CalcPhysCurlShapeRevDiff(trans, B, ·)` adds to `PointMat_bar`. -/
noncomputable def curlLfMesh (alpha : ℝ) (n meshNdof : ℕ) (pt : ℕ → CurlPt ndof dim) (F : ℕ → Vec dim)
    (fRev : ℕ → Vec dim → ℕ → ℕ → ℝ) (cRev : ℕ → Mat ndof dim → ℕ → ℕ → ℝ) (wRev : ℕ → ℝ → ℕ → ℕ → ℝ)
    (psi : Vec ndof) : ℕ → ℝ :=
  forN n (fun i bar =>
    let r := curlLfRev alpha (pt i) (F i) psi
    scatter meshNdof dim (fun k j => 0 + fRev i r.1 k j + cRev i r.2.1 k j + wRev i r.2.2 k j) bar) (fun _ => 0)

/-- One quadrature point of the scalar load: `ip.weight`, `CalcPhysShape`, `Weight()`
(mfem_common_integ.cpp:3185-3195). -/
structure ScalPt (ndof : ℕ) where
  w : ℝ
  shape : Vec ndof
  J : ℝ

/-- Reverse pass of `DomainLFIntegratorMeshRevSens` at one point, mfem_common_integ.cpp:3185-3222: `val_bar`,
`shape_bar`, `trans_weight_bar`. -/
noncomputable def scalRev (alpha : ℝ) (p : ScalPt ndof) (val : ℝ) (psi : Vec ndof) : ℝ × Vec ndof × ℝ :=
  let w := alpha * p.w * p.J
  let dot := dotv psi p.shape
  let funBar : ℝ := 1
  let valBar := funBar * dot * w
  let dotBar := funBar * val * w
  let wBar := funBar * val * dot
  let shapeBar := axpy dotBar psi zeroV
  (valBar, shapeBar, wBar * alpha * p.w)

/-- `DomainLFIntegratorMeshRevSens::AssembleRHSElementVect`, mfem_common_integ.cpp:3109-3236; `sRev i s` is what
`CalcPhysShapeRevDiff(trans, s, ·)` adds and `fRev i v` what `F.EvalRevDiff(v, ·)` adds. -/
noncomputable def scalMesh (alpha : ℝ) (n meshNdof dim : ℕ) (pt : ℕ → ScalPt ndof) (val : ℕ → ℝ)
    (sRev : ℕ → Vec ndof → ℕ → ℕ → ℝ) (fRev wRev : ℕ → ℝ → ℕ → ℕ → ℝ) (psi : Vec ndof) : ℕ → ℝ :=
  forN n (fun i bar =>
    let r := scalRev alpha (pt i) (val i) psi
    scatter meshNdof dim (fun k j => 0 + sRev i r.2.1 k j + fRev i r.1 k j + wRev i r.2.2 k j) bar) (fun _ => 0)

/-! ### Quadrature orders -/

/-- Rule of both bilinear forms of the projector: `OrderW + 2 p`, current_load.cpp:205-208,
irrotational_projector.cpp:29-38. -/
def projRule (ow p : ℕ) : ℕ := ow + 2 * p

/-- Default rule of `DiffusionIntegratorMeshSens`, which the projector never overrides:
mfem_common_integ.cpp:2266-2282. -/
def diffSensRule (s : Space) (p dim : ℕ) : ℕ := if s = .Pk then 2 * p - 2 else 2 * p + dim - 1

/-- Default rule of `VectorFEWeakDivergenceIntegratorMeshSens`: mfem_common_integ.cpp:2420-2427. -/
def wdivSensRule (s : Space) (pnd ph1 dim : ℕ) : ℕ :=
  if s = .Pk then pnd + ph1 - 1 else pnd + ph1 + 2 * (dim - 2)

/-- Default rule of `VectorFEMassIntegratorMeshSens`: mfem_common_integ.cpp:2797-2803. -/
def massSensRule (ow p : ℕ) : ℕ := ow + 2 * p

/-- Rule of the scalar load: `mfem::DomainLFIntegrator(Q, 2, -2)`, mfem_common_integ.hpp:1204-1206. -/
def scalRule (p : ℕ) : ℕ := 2 * p - 2

/-- Default rule of `DomainLFIntegratorMeshRevSens`: mfem_common_integ.cpp:3153-3168. -/
def scalSensRule (s : Space) (p dim : ℕ) : ℕ := if s = .Pk then 2 * p - 2 else 2 * p + dim - 1

/-! ### Products with respect to the mesh coordinates -/

section
open Matrix Verif.Projector
variable {n h m : ℕ} (ess : Fin h → Prop) [DecidablePred ess]
  (solve : Matrix (Fin h) (Fin h) ℝ → (Fin h → ℝ) → (Fin h → ℝ))

/-- `IrrotationalProjector::vectorJacobianProduct` with `wrt == "mesh_coords"` (irrotational_projector.cpp:133-202):
`sensD state adjoint` and `sensW state adjoint` are the two domain integrators of `mesh_sens` assembled over
the mesh. -/
noncomputable def irrotVjpMesh (sensD : (Fin h → ℝ) → (Fin h → ℝ) → (Fin m → ℝ)) (sensW : (Fin n → ℝ) → (Fin h → ℝ) → (Fin m → ℝ))
    (F : Forms n h ℝ) (x projBar : Fin n → ℝ) (wrtBar : Fin m → ℝ) : Fin m → ℝ :=
  let psi := solveEss ess solve F.D (-(F.W *ᵥ x))
  let psiBar := solve (Warper.elim ess F.D)ᵀ (Warper.zeroEss ess (-((F.G)ᵀ *ᵥ projBar)))
  wrtBar + (sensD psi psiBar + sensW x psiBar)

/-- `DivergenceFreeProjector::vectorJacobianProduct` with `wrt == "mesh_coords"` (div_free_projector.cpp:38-44). -/
noncomputable def divFreeVjpMesh (sensD : (Fin h → ℝ) → (Fin h → ℝ) → (Fin m → ℝ))
    (sensW : (Fin n → ℝ) → (Fin h → ℝ) → (Fin m → ℝ))
    (F : Forms n h ℝ) (x projBar : Fin n → ℝ) (wrtBar : Fin m → ℝ) : Fin m → ℝ :=
  irrotVjpMesh ess solve sensD sensW F x (-projBar) wrtBar

variable (essL : Fin n → Prop) [DecidablePred essL]
  (solveM : Matrix (Fin n) (Fin n) ℝ → (Fin n → ℝ) → (Fin n → ℝ))

/-- `CurrentLoad::assembleLoad` (current_load.cpp:243-341): `M j = J`, divergence-free part of `j`, times `M`. -/
noncomputable def loadOf (F : Forms n h ℝ) (M : Matrix (Fin n) (Fin n) ℝ) (Jv : Fin n → ℝ) : Fin n → ℝ :=
  M *ᵥ divFreeMult ess solve F (solveM M Jv)

/-- `addLoad` (current_load.cpp:48-57) for the current coordinates. -/
noncomputable def addLoad (F : Forms n h ℝ) (M : Matrix (Fin n) (Fin n) ℝ) (Jv tv : Fin n → ℝ) : Fin n → ℝ :=
  tv - Warper.zeroEss essL (loadOf ess solve solveM F M Jv)

/-- `vectorJacobianProduct(CurrentLoad&, load_bar, "mesh_coords", wrt_bar)` (current_load.cpp:84-176); `sensM state
adjoint` is a mass-matrix mesh sensitivity, `sensJ adjoint` the one of the linear form with its factor `-1`. -/
noncomputable def loadVjpMesh (sensD : (Fin h → ℝ) → (Fin h → ℝ) → (Fin m → ℝ)) (sensW : (Fin n → ℝ) → (Fin h → ℝ) → (Fin m → ℝ))
    (sensM : (Fin n → ℝ) → (Fin n → ℝ) → (Fin m → ℝ)) (sensJ : (Fin n → ℝ) → (Fin m → ℝ))
    (F : Forms n h ℝ) (M : Matrix (Fin n) (Fin n) ℝ) (Jv loadBar : Fin n → ℝ) (wrtBar : Fin m → ℝ) : Fin m → ℝ :=
  let j := solveM M Jv
  let divFree := divFreeMult ess solve F j
  let psiL := Warper.zeroEss essL loadBar
  let psiK := Mᵀ *ᵥ psiL
  let rhs := -(divFreeVjpIn ess solve F psiK 0)
  let psiJ := solveM Mᵀ rhs
  let bar := wrtBar - (sensM j psiJ + sensJ psiJ + sensM divFree psiL)
  bar - divFreeVjpMesh ess solve sensD sensW F j psiK 0

end

end Verif.ProjInteg
