import Verif.MeshMotion

/-!
Model of the older mesh-sensitivity integrators of `/repo/src/physics/mfem_common_integ.cpp:3239-3715`: `TestLFIntegrator`,
`TestLFMeshSensIntegrator`, `DomainResIntegrator`, `MassResIntegrator`, `DiffusionResIntegrator`, `BoundaryNormalResIntegrator`.

MFEM's reverse-mode methods are parameters: `wRev i x` is what `WeightRevDiff` adds to the point matrix for the seed `x` (called without seed
it adds `wRev i 1`), `adjRev i A` what `AdjugateJacobianRevDiff` adds, `jacRev i A` what `JacobianRevDiff` adds, `qRev i x` what the
coefficient's `EvalRevDiff` adds, `orthoRev` is `CalcOrthoRevDiff`.
-/

namespace Verif.LegacyMesh
open Finset Verif.Sbp Verif.Dense Verif.Diffusion

variable {ndof dim : ℕ}

/-- One quadrature point: weight, shape functions, reference gradients of the shape functions, `Weight()`, `AdjugateJacobian()`, value of the
coefficient. mfem_common_integ.cpp:3346-3362, 3403-3416, 3477-3497. -/
structure LPt (ndof dim : ℕ) where
  w : ℝ
  shape : Vec ndof
  dshape : Mat ndof dim
  J : ℝ
  adj : Mat dim dim
  Q : ℝ

/-- `TestLFIntegrator::GetElementEnergy`, mfem_common_integ.cpp:3239-3261. -/
def testEnergy (n : ℕ) (pt : ℕ → LPt ndof dim) : ℝ := forN n (fun i s => s + (pt i).w * (pt i).Q) 0

/-- `TestLFMeshSensIntegrator::AssembleRHSElementVect`, mfem_common_integ.cpp:3263-3302. -/
noncomputable def testMesh (n m : ℕ) (pt : ℕ → LPt ndof dim) (qRev : ℕ → ℝ → ℕ → ℕ → ℝ) : ℕ → ℝ :=
  forN n (fun i => scatter m dim (fun d j => (pt i).w * (0 + qRev i 1 d j))) fun _ => 0

/-- Order of the rules of the two, mfem_common_integ.cpp:3245, 3270. -/
def testRules (order : ℕ) : ℕ × ℕ := (2 * order, 8)

/-- `DomainResIntegrator::AssembleElementVector`, mfem_common_integ.cpp:3304-3368. -/
noncomputable def domainRes (n m : ℕ) (pt : ℕ → LPt ndof dim) (wRev qRev : ℕ → ℝ → ℕ → ℕ → ℝ) (psi : Vec ndof) : ℕ → ℝ :=
  forN n (fun i =>
    let p := pt i
    let weightBar := p.Q * dotv psi p.shape
    let P := fun d j => (0 + wRev i 1 d j) * weightBar
    let qBar := p.J * dotv psi p.shape
    let P := fun d j => P d j + qRev i qBar d j
    scatter m dim (fun d j => p.w * P d j)) fun _ => 0

/-- `MassResIntegrator::AssembleElementVector`, mfem_common_integ.cpp:3370-3435; `hasQ` is `Q != nullptr`. -/
noncomputable def massRes (hasQ : Bool) (n m : ℕ) (pt : ℕ → LPt ndof dim) (wRev : ℕ → ℝ → ℕ → ℕ → ℝ) (u psi : Vec ndof) : ℕ → ℝ :=
  forN n (fun i =>
    let p := pt i
    let deriv := p.w
    let P := fun d j => 0 + wRev i 1 d j
    let deriv := if hasQ then deriv * p.Q else deriv
    let rw_ := deriv * dotv psi p.shape * dotv p.shape u
    let P := fun d j => rw_ * P d j
    scatter m dim P) fun _ => 0

/-- `DiffusionResIntegrator::AssembleElementVector` and `AssembleRHSElementVect` (the same statements), mfem_common_integ.cpp:3437-3524,
3526-3614, for elements of the dimension of the space (`square`). -/
noncomputable def diffusionRes (hasQ : Bool) (n m : ℕ) (pt : ℕ → LPt ndof dim) (wRev : ℕ → ℝ → ℕ → ℕ → ℝ)
    (adjRev : ℕ → Mat dim dim → ℕ → ℕ → ℝ) (u psi : Vec ndof) : ℕ → ℝ :=
  forN n (fun i =>
    let p := pt i
    let K := p.adj
    let w := p.w / p.J
    let dw := -p.w / (p.J * p.J)
    let w := if hasQ then w * p.Q else w
    let dw := if hasQ then dw * p.Q else dw
    let ad := mulTV p.dshape psi
    let av := mulTV K ad
    let bd := mulTV p.dshape u
    let bv := mulTV K bd
    let rw_ := dw * dotv av bv
    let P := fun d j => rw_ * (0 + wRev i 1 d j)
    let jacBar := addVWt w ad bv zeroM
    let jacBar := addVWt w bd av jacBar
    let P := fun d j => P d j + adjRev i jacBar d j
    scatter m dim P) fun _ => 0

/-- One quadrature point of a boundary face: weight, the *element's* shape functions there, the vector coefficient, the Jacobian of the face
and the inverse Jacobian of the element. mfem_common_integ.cpp:3671-3693. -/
structure NPt (ndof d f : ℕ) where
  w : ℝ
  shape : Vec ndof
  Q : Vec d
  J : Mat d f
  inv : Mat d d

/-- `BoundaryNormalResIntegrator::AssembleRHSElementVect` on faces, mfem_common_integ.cpp:3616-3717. -/
noncomputable def bndNormalRes {d f : ℕ} (n m : ℕ) (pt : ℕ → NPt ndof d f) (orthoRev : Mat d f → Vec d → Mat d f)
    (jacRev : ℕ → Mat d d → ℕ → ℕ → ℝ) (psi : Vec ndof) : ℕ → ℝ :=
  forN n (fun i =>
    let p := pt i
    let R := mulM p.inv p.J
    let norBar : Vec d := fun k => p.w * p.Q k * dotv psi p.shape
    let JBar := orthoRev p.J norBar
    let JBarEl : Mat d d := fun a b => ∑ k, JBar a k * R b k
    scatter m d (fun k j => 0 + jacRev i JBarEl k j)) fun _ => 0

/-- The overload for plain element transformations ("DO NOT USE"), mfem_common_integ.hpp:1562-1566: leaves `elvect` as it is. -/
def bndNormalPlain (elvect : ℕ → ℝ) : ℕ → ℝ := elvect

/-- What the constructors of `DomainResIntegrator` set that its rule depends on: `oa`, `ob` and the order of the base class's `IntRule`
(`none` for a null pointer). mfem_common_integ.hpp:1390-1412. -/
structure DRInteg where
  oa : ℕ
  ob : ℕ
  intRule : Option ℕ

/-- Constructor with the two numbers `a`, `b`, mfem_common_integ.hpp:1400-1405. -/
def domainResOfOrders (a b : ℕ) : DRInteg := ⟨a, b, none⟩

/-- Constructor with an integration rule (here its order), which it passes on to nobody, mfem_common_integ.hpp:1408-1412. -/
def domainResOfRule (_ : ℕ) : DRInteg := ⟨1, 1, none⟩

/-- Order of the rule `AssembleElementVector` integrates with, mfem_common_integ.cpp:3317-3322. -/
def DRInteg.ruleOrder (d : DRInteg) (order : ℕ) : ℕ :=
  match d.intRule with
  | some q => q
  | none => d.oa * order + d.ob

end Verif.LegacyMesh
