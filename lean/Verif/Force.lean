import Verif.Diffusion

/-!
Model of the force and torque outputs: `ForceIntegrator3` and `ForceIntegratorMeshSens3`
(`/repo/src/physics/electromagnetics/electromag_integ.cpp:9689-10569`) and the virtual displacement
fields set by `setOptions(ForceFunctional&, ..)` / `setOptions(TorqueFunctional&, ..)`
(`/repo/src/physics/electromagnetics/electromag_outputs.cpp:24-82`).
-/

namespace Verif.Force
open Verif.Sbp Verif.Dense Verif.Diffusion

variable {ndof dim m : ℕ}

/-- One quadrature point: `ip.weight`, `curlshape` (the reference curls in 3-D, the reference gradients
in 2-D), `trans.Jacobian()`, `trans.AdjugateJacobian()`, `trans.InverseJacobian()`, `trans.Weight()` and
the reference gradients `dshape` of the displacement space, electromag_integ.cpp:9761-9822.
Simplification: the displacement field lives on the mesh's nodal space, so that `dshape` is also what
`isotrans.JacobianRevDiff` contracts with. -/
structure FPt (ndof dim m : ℕ) where
  w : ℝ
  cs : Mat ndof dim
  jac : Mat dim dim
  adj : Mat dim dim
  inv : Mat dim dim
  J : ℝ
  dshape : Mat m dim

/-- The magnetic energy density and its derivatives at a point: `calcMagneticEnergy`,
`calcMagneticEnergyDot`, `calcMagneticEnergyDoubleDot` (electromag_integ.cpp:13-90) as functions of the
flux magnitude. -/
structure En where
  e : ℝ → ℝ
  e1 : ℝ → ℝ
  e2 : ℝ → ℝ

/-- The energy density computed by the code from the reluctivity, electromag_integ.cpp:13-90. -/
noncomputable def En.ofNu (ns : ℕ) (xs ws : ℕ → ℝ) (nu dnu d2nu : ℝ → ℝ) : En :=
  ⟨energy ns xs ws nu, energyDot ns xs ws nu dnu, energyDoubleDot ns xs ws nu dnu d2nu⟩

/-- `MultABt(A, B, C)`, electromag_integ.cpp:9771. -/
def mulABt {a b k : ℕ} (A : Mat a k) (B : Mat b k) : Mat a b := fun i j => ∑ l, A i l * B j l

/-- `A.Transpose()`, electromag_integ.cpp:9804. -/
def transpose {a b : ℕ} (A : Mat a b) : Mat b a := fun i j => A j i

/-- `M.Add(c, A)`, electromag_integ.cpp:9802. -/
def addM {a b : ℕ} (c : ℝ) (A M : Mat a b) : Mat a b := fun i j => M i j + c * A i j

/-- `MultVWt(v, w, M)`, electromag_integ.cpp:9800. -/
def vwt {a b : ℕ} (v : Vec a) (w : Vec b) : Mat a b := fun i j => v i * w j

/-- `A.Trace()`, electromag_integ.cpp:9842. -/
def trace {a : ℕ} (A : Mat a a) : ℝ := ∑ i, A i i

/-- `curlshape_dFt`, electromag_integ.cpp:9768-9780. -/
noncomputable def FPt.cdft (p : FPt ndof dim m) : Mat ndof dim :=
  if dim = 3 then mulABt p.cs p.jac else mulM p.cs p.adj

/-- `b_vec`, electromag_integ.cpp:9783. -/
noncomputable def FPt.bvec (p : FPt ndof dim m) (u : Vec ndof) : Vec dim := mulTV p.cdft u

/-- `db_magdJ`, electromag_integ.cpp:9788-9817. -/
noncomputable def FPt.dbdJ (p : FPt ndof dim m) (u : Vec ndof) : Mat dim dim :=
  let b := p.bvec u
  let norm := norm2 b
  if dim = 3 then
    let bhat := mulTV p.cs u
    let BBt := vwt b bhat
    let D := addM (-norm / p.J ^ 2) p.adj zeroM
    let D := transpose D
    addM (1 / (p.J * norm)) BBt D
  else
    let badj := mulV p.adj b
    let a := -1 / (norm * p.J ^ 2)
    addVWt a b badj zeroM

/-- `dBds`: `JacobianRevDiff` followed by the double loop, electromag_integ.cpp:9819-9830.
`dXds(j, k)` is the `k`-th component of the virtual displacement of mesh node `j`. -/
noncomputable def FPt.dBds (p : FPt ndof dim m) (u : Vec ndof) (dXds : Mat m dim) : ℝ :=
  let dBdX : Mat dim m := addABt (p.dbdJ u) p.dshape zeroM
  ∑ j, ∑ k, dBdX k j * dXds j k

/-- `dJds`, electromag_integ.cpp:9839. -/
noncomputable def FPt.dJds (p : FPt ndof dim m) (dXds : Mat m dim) : Mat dim dim := mulAtB dXds p.dshape

/-- `JinvdJdsTrace`, electromag_integ.cpp:9840-9841. -/
noncomputable def FPt.tr (p : FPt ndof dim m) (dXds : Mat m dim) : ℝ := trace (mulM p.inv (p.dJds dXds))

/-- `b_mag`, electromag_integ.cpp:9785. -/
noncomputable def FPt.bmag (p : FPt ndof dim m) (u : Vec ndof) : ℝ := norm2 (p.bvec u) / p.J

/-- `vfun.Normlinf() < 1e-14`, electromag_integ.cpp:9708. -/
noncomputable def tiny (dXds : Mat m dim) : Prop := ∀ j k, |dXds j k| < 1 / 10 ^ 14

open Classical in
/-- `ForceIntegrator3::GetElementEnergy`, electromag_integ.cpp:9689-9848.  `inBody` is
`attrs.count(trans.Attribute) == 1`. -/
noncomputable def force (inBody : Bool) (n : ℕ) (E : ℕ → En) (pt : ℕ → FPt ndof dim m) (dXds : Mat m dim)
    (u : Vec ndof) : ℝ :=
  if inBody then 0 else
  if tiny dXds then 0 else
  forN n (fun i fun_ =>
    let p := pt i
    let w := p.w * p.J
    let f1 := p.dBds u dXds * (E i).e1 (p.bmag u)
    let f2 := (E i).e (p.bmag u) * p.tr dXds
    fun_ - (f1 + f2) * w) 0

/-- The part of the reverse pass common to state gradient and mesh sensitivity: `b_mag_bar`,
electromag_integ.cpp:9982-10001 (10329-10383). -/
noncomputable def bmagBar (E : En) (p : FPt ndof dim m) (u : Vec ndof) (dXds : Mat m dim) : ℝ :=
  let w := p.w * p.J
  let forceBar := 0 - 1 * w
  let force2Bar := 0 - 1 * w
  let energyBar := force2Bar * p.tr dXds
  let bb := 0 + energyBar * E.e1 (p.bmag u)
  let energyDotBar := forceBar * p.dBds u dXds
  bb + energyDotBar * E.e2 (p.bmag u)

/-- `db_magdJ_bar`, electromag_integ.cpp:9993, 10003-10019. -/
noncomputable def dbdJBar (E : En) (p : FPt ndof dim m) (u : Vec ndof) (dXds : Mat m dim) : Mat dim dim :=
  let w := p.w * p.J
  let forceBar := 0 - 1 * w
  let dBdsBar := forceBar * E.e1 (p.bmag u)
  let dBdXBar : Mat dim m := fun k j => 0 + dBdsBar * dXds j k
  mulM dBdXBar p.dshape

/-- Reverse pass at one point of `ForceIntegrator3::AssembleElementVector`,
electromag_integ.cpp:9977-10155. -/
noncomputable def revBody (E : En) (dXds : Mat m dim) (p : FPt ndof dim m) (u : Vec ndof) (bar : Vec ndof) :
    Vec ndof :=
  let b := p.bvec u
  let norm := norm2 b
  let bb := bmagBar E p u dXds
  let D := dbdJBar E p u dXds
  if dim = 3 then
    let bhat := mulTV p.cs u
    let BBt := vwt b bhat
    let BBtBar := addM (1 / (norm * p.J)) D zeroM
    let normBar := 0 - ∑ j, ∑ k, D j k * BBt j k / (norm ^ 2 * p.J)
    let D := transpose D
    let normBar := normBar - ∑ j, ∑ k, D j k * p.adj j k / p.J ^ 2
    let bBar := mulV BBtBar bhat
    let bhatBar := mulTV BBtBar b
    let bar := addMulV p.cs 1 bhatBar bar
    let normBar := normBar + bb / p.J
    let bBar := axpy (normBar / norm) b bBar
    addMulV p.cdft 1 bBar bar
  else
    let badj := mulV p.adj b
    let a := -1 / (norm * p.J ^ 2)
    let bBar := addMulV D a badj zeroV
    let badjBar : Vec dim := fun j => zeroV j + a * mulTV D b j
    let aBar := (∑ j, ∑ k, D j k * p.dbdJ u j k) / a
    let normBar := 0 + aBar / (norm * p.J) ^ 2
    let bBar := addMulTV p.adj badjBar bBar
    let normBar := normBar + bb / p.J
    let bBar := axpy (normBar / norm) b bBar
    addMulV p.cdft 1 bBar bar

open Classical in
/-- `ForceIntegrator3::AssembleElementVector`, electromag_integ.cpp:9850-10157. -/
noncomputable def stateSens (inBody : Bool) (n : ℕ) (E : ℕ → En) (pt : ℕ → FPt ndof dim m) (dXds : Mat m dim)
    (u : Vec ndof) : Vec ndof :=
  if inBody then zeroV else
  if tiny dXds then zeroV else
  forN n (fun i => revBody (E i) dXds (pt i) u) zeroV

/-- What the reverse pass of the mesh sensitivity accumulates at one point. electromag_integ.cpp:10324-10557. -/
structure MeshBar (dim : ℕ) where
  jac : Mat dim dim
  adj : Mat dim dim
  J : ℝ

/-- Reverse pass at one point of `ForceIntegratorMeshSens3::AssembleRHSElementVect`,
electromag_integ.cpp:10324-10557: `jac_bar`, `adj_jac_bar` and `trans_weight_bar` at the end. -/
noncomputable def meshPoint (E : En) (dXds : Mat m dim) (p : FPt ndof dim m) (u : Vec ndof) : MeshBar dim :=
  let w := p.w * p.J
  let b := p.bvec u
  let norm := norm2 b
  let f1 := p.dBds u dXds * E.e1 (p.bmag u)
  let f2 := E.e (p.bmag u) * p.tr dXds
  let force2Bar := 0 - 1 * w
  let wBar := 0 - 1 * (f1 + f2)
  let trBar := force2Bar * E.e (p.bmag u)
  let bb := bmagBar E p u dXds
  let JdBar : Mat dim dim := fun i j => if i = j then trBar else 0
  let invBar := mulABt JdBar (p.dJds dXds)
  let scratch := mulAtB p.inv invBar
  let jacBar : Mat dim dim := fun i j => zeroM i j + (-1) * mulABt scratch p.inv i j
  let D := dbdJBar E p u dXds
  if dim = 3 then
    let bhat := mulTV p.cs u
    let BBt := vwt b bhat
    let BBtBar := addM (1 / (norm * p.J)) D zeroM
    let normBar := 0 - ∑ j, ∑ k, D j k * BBt j k / (norm ^ 2 * p.J)
    let JBar := 0 - ∑ j, ∑ k, D j k * BBt j k / (norm * p.J ^ 2)
    let D := transpose D
    let adjBar := addM (-norm / p.J ^ 2) D zeroM
    let normBar := normBar - ∑ j, ∑ k, D j k * p.adj j k / p.J ^ 2
    let JBar := JBar + ∑ j, ∑ k, 2 * D j k * norm * p.adj j k / p.J ^ 3
    let bBar := mulV BBtBar bhat
    let normBar := normBar + bb / p.J
    let JBar := JBar - bb * norm / p.J ^ 2
    let bBar := axpy (normBar / norm) b bBar
    let cdftBar := vwt bBar u
    let jacBar : Mat dim dim := fun i j => jacBar i j + mulM cdftBar p.cs i j
    ⟨jacBar, adjBar, JBar + wBar * p.w⟩
  else
    let badj := mulV p.adj b
    let a := -1 / (norm * p.J ^ 2)
    let bBar := addMulV D a badj zeroV
    let badjBar : Vec dim := fun j => zeroV j + a * mulTV D b j
    let aBar := (∑ j, ∑ k, D j k * p.dbdJ u j k) / a
    let normBar := 0 + aBar / (norm * p.J) ^ 2
    let JBar := 2 * aBar / (norm * p.J ^ 3)
    let bBar := addMulTV p.adj badjBar bBar
    let adjBar := vwt badjBar b
    let normBar := normBar + bb / p.J
    let JBar := JBar - bb * norm / p.J ^ 2
    let bBar := axpy (normBar / norm) b bBar
    let cdftBar := vwt u bBar
    let scratch := mulAtB p.cs cdftBar
    let adjBar : Mat dim dim := fun i j => adjBar i j + scratch i j
    ⟨jacBar, adjBar, JBar + wBar * p.w⟩

open Classical in
/-- `ForceIntegratorMeshSens3::AssembleRHSElementVect`, electromag_integ.cpp:10159-10569.  `adjRev i`,
`wRev i`, `jacRev i` are what MFEM's `AdjugateJacobianRevDiff`, `WeightRevDiff`, `JacobianRevDiff` add to
`PointMat_bar` at point `i`. -/
noncomputable def meshSens (inBody : Bool) (n : ℕ) (E : ℕ → En) (pt : ℕ → FPt ndof dim m)
    (adjRev : ℕ → Mat dim dim → ℕ → ℕ → ℝ) (wRev : ℕ → ℝ → ℕ → ℕ → ℝ)
    (jacRev : ℕ → Mat dim dim → ℕ → ℕ → ℝ) (dXds : Mat m dim) (u : Vec ndof) : ℕ → ℝ :=
  if inBody then fun _ => 0 else
  if tiny dXds then fun _ => 0 else
  forN n (fun i bar =>
    let r := meshPoint (E i) dXds (pt i) u
    scatter m dim (fun k j => 0 + adjRev i r.adj k j + wRev i r.J k j + jacRev i r.jac k j) bar) (fun _ => 0)

/-! ### Virtual displacement fields -/

/-- The field projected by `setOptions(TorqueFunctional&, ..)`, electromag_outputs.cpp:55-75, for the
normalised `axis`; `spaceDim` is the space dimension. -/
noncomputable def torqueField (spaceDim : ℕ) (axis : ℕ → ℝ) (about x : ℕ → ℝ) : ℕ → ℝ :=
  let r : ℕ → ℝ := fun i => x i - about i
  if spaceDim = 3 then fun i =>
    if i = 0 then axis 1 * r 2 - axis 2 * r 1
    else if i = 1 then axis 2 * r 0 - axis 0 * r 2
    else axis 0 * r 1 - axis 1 * r 0
  else fun i => if i = 0 then -axis 2 * r 1 else axis 2 * r 0

/-- `axis_vector /= axis_vector.Norml2()`, electromag_outputs.cpp:48 (the axis has three entries). -/
noncomputable def unitAxis (axis : ℕ → ℝ) : ℕ → ℝ :=
  fun i => axis i / √(axis 0 ^ 2 + axis 1 ^ 2 + axis 2 ^ 2)

/-- `v = 0; for attr: v.ProjectCoefficient(f, attr)`, electromag_outputs.cpp:33-38, 76-81: node `j` at
position `x j` receives `f (x j)` when some element with that attribute contains it; `nodesOf attr` lists
the nodes of those elements. -/
def projectAttrs {α : Type} (f : α → ℕ → ℝ) (x : ℕ → α) (nodesOf : ℕ → List ℕ) (attrs : List ℕ) : ℕ → ℕ → ℝ :=
  attrs.foldl (fun v attr => (nodesOf attr).foldl (fun v j => Function.update v j (f (x j))) v) (fun _ _ => 0)

end Verif.Force
