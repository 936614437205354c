import Verif.Diffusion

/-!
Model of the face terms of the discontinuous Galerkin diffusion operator,
`/repo/src/physics/electromagnetics/electromag_integ.cpp:450-1752`: `NonlinearDGDiffusionIntegrator`
(weakly imposed boundary values), `DGInteriorFaceDiffusionIntegrator` (element interfaces) and their
mesh sensitivities.
-/

namespace Verif.DGDiffusion
open Verif.Sbp Verif.Dense Verif.Diffusion

variable {P : Type*} {nd nd1 nd2 dim : ℕ}

/-- What one neighbouring element supplies at a face quadrature point: `CalcShape`, `CalcDShape`,
`InverseJacobian()`, `Weight()` and the element integration point (electromag_integ.cpp:502-521). -/
structure Side (P : Type*) (nd dim : ℕ) where
  shape : Vec nd
  dshape : Mat nd dim
  inv : Mat dim dim
  W : ℝ
  eip : P

/-- The face quadrature point: weight, point, normal (`CalcOrtho` or `2 * eip1.x - 1`)
(electromag_integ.cpp:499-516). -/
structure FaceP (P : Type*) (dim : ℕ) where
  w : ℝ
  ip : P
  nor : Vec dim

/-- `dshapedxt`, electromag_integ.cpp:521. -/
def Side.dxt (s : Side P nd dim) : Mat nd dim := mulM s.dshape s.inv
/-- `pointflux`, electromag_integ.cpp:522. -/
def Side.flux (s : Side P nd dim) (u : Vec nd) : Vec dim := mulTV s.dxt u
/-- `dshapedn`, electromag_integ.cpp:527. -/
def Side.dn (s : Side P nd dim) (nor : Vec dim) : Vec nd := mulV s.dxt nor
/-- `model.Eval(*trans.Elem1, eip1, pointflux_norm)`, electromag_integ.cpp:523-525. -/
noncomputable def Side.val (s : Side P nd dim) (nu : P → ℝ → ℝ) (u : Vec nd) : ℝ :=
  nu s.eip (norm2 (s.flux u))

/-- Body of the loop of `NonlinearDGDiffusionIntegrator::AssembleFaceVector`,
electromag_integ.cpp:497-537; `g` is `g.Eval(*trans.Elem1, eip1)`. -/
noncomputable def bndBody (alpha mu : ℝ) (nu : P → ℝ → ℝ) (f : FaceP P dim) (s : Side P nd dim) (g : ℝ)
    (u : Vec nd) (v : Vec nd) : Vec nd :=
  let w := alpha * f.w
  let modelVal := s.val nu u
  let dn := s.dn f.nor
  let v := axpy (-(dotv dn u) * modelVal * w) s.shape v
  let v := axpy (-((dotv s.shape u) - g) * modelVal * w) dn v
  let wq := w * dotv f.nor f.nor * mu / s.W
  axpy (((dotv s.shape u) - g) * modelVal * wq) s.shape v

/-- `NonlinearDGDiffusionIntegrator::AssembleFaceVector`, electromag_integ.cpp:450-538. -/
noncomputable def bndVec (alpha mu : ℝ) (nu : P → ℝ → ℝ) (n : ℕ) (f : ℕ → FaceP P dim)
    (s : ℕ → Side P nd dim) (g : ℕ → ℝ) (u : Vec nd) : Vec nd :=
  forN n (fun i => bndBody alpha mu nu (f i) (s i) (g i) u) zeroV

/-- `pointflux_norm_dot` after scaling with `model_deriv`, electromag_integ.cpp:610-623: the derivative
of the model is evaluated at the integration point `ip` of the *face*. -/
noncomputable def Side.normDot (s : Side P nd dim) (dnu : P → ℝ → ℝ) (ip : P) (u : Vec nd) : Vec nd :=
  let norm := norm2 (s.flux u)
  let d : Vec nd := if |norm| > 1 / 10 ^ 14 then addMulV s.dxt (1 / norm) (s.flux u) zeroV else zeroV
  scale (dnu ip norm) d

/-- Body of the loop of `NonlinearDGDiffusionIntegrator::AssembleFaceGrad`,
electromag_integ.cpp:587-651. -/
noncomputable def bndGradBody (alpha mu : ℝ) (nu dnu : P → ℝ → ℝ) (f : FaceP P dim) (s : Side P nd dim)
    (g : ℝ) (u : Vec nd) (M : Mat nd nd) : Mat nd nd :=
  let w := alpha * f.w
  let modelVal := s.val nu u
  let nDot := s.normDot dnu f.ip u
  let dn := s.dn f.nor
  let M := addVWt (-modelVal * w) s.shape dn M
  let M := addVWt (-(dotv dn u) * w) s.shape nDot M
  let M := addVWt (-modelVal * w) dn s.shape M
  let M := addVWt (-((dotv s.shape u) - g) * w) dn nDot M
  let wq := w * dotv f.nor f.nor * mu / s.W
  let M := addVWt (modelVal * wq) s.shape s.shape M
  addVWt (((dotv s.shape u) - g) * wq) s.shape nDot M

/-- `NonlinearDGDiffusionIntegrator::AssembleFaceGrad`, electromag_integ.cpp:540-653. -/
noncomputable def bndGrad (alpha mu : ℝ) (nu dnu : P → ℝ → ℝ) (n : ℕ) (f : ℕ → FaceP P dim)
    (s : ℕ → Side P nd dim) (g : ℕ → ℝ) (u : Vec nd) : Mat nd nd :=
  forN n (fun i => bndGradBody alpha mu nu dnu (f i) (s i) (g i) u) zeroM

/-- Reverse pass at one point of `NonlinearDGDiffusionIntegratorMeshRevSens`,
electromag_integ.cpp:752-886: `inv_jac_bar`, `el1_trans_weight_bar`, `nor_bar`; `none` when the
division by `ip_flux_norm` at line 870 is a division by zero (the components then are not numbers). -/
noncomputable def bndRev (alpha mu : ℝ) (nu dnu : P → ℝ → ℝ) (f : FaceP P dim) (s : Side P nd dim)
    (g : ℝ) (u psi : Vec nd) : Option (Mat dim dim × ℝ × Vec dim) :=
  let w := alpha * f.w
  let norm := norm2 (s.flux u)
  let modelVal := s.val nu u
  let dn := s.dn f.nor
  let us := dotv u s.shape
  let un := dotv u dn
  let ps := dotv psi s.shape
  let pn := dotv psi dn
  let wq := w * dotv f.nor f.nor * mu / s.W
  let wqBar := 1 * (us - g) * modelVal * ps
  let modelValBar := 1 * (us - g) * wq * ps
  let WBar := wqBar * -w * dotv f.nor f.nor * mu / s.W ^ 2
  let norBar : Vec dim := axpy (wqBar * 2 * w * mu / s.W) f.nor zeroV
  let modelValBar := modelValBar + 1 * -(us - g) * w * pn
  let pnBar := 1 * -(us - g) * modelVal * w
  let modelValBar := modelValBar + 1 * -un * w * ps
  let unBar := 1 * -modelVal * w * ps
  let dnBar : Vec nd := axpy pnBar psi zeroV
  let dnBar := axpy unBar u dnBar
  let norBar := addMulTV s.dxt dnBar norBar
  let dxtBar : Mat nd dim := addVWt 1 dnBar f.nor zeroM
  let normBar := modelValBar * dnu f.ip norm
  if norm = 0 then none
  else
    let fluxBar : Vec dim := axpy (normBar / norm) (s.flux u) zeroV
    let dxtBar := addVWt 1 u fluxBar dxtBar
    some (mulAtB s.dshape dxtBar, WBar, norBar)

/-- Insertion of the face contributions, electromag_integ.cpp:916-928, 1738-1750: `find j` is
`vdofs.Find(vdofs2[j])`. -/
noncomputable def insertFace (nv : ℕ) (find : ℕ → Option ℕ) (faceBar : ℕ → ℝ) (bar : ℕ → ℝ) : ℕ → ℝ :=
  forN nv (fun j bar => match find j with
    | none => bar
    | some idx => addAt idx (faceBar j) bar) bar

/-- The reverse-differentiated mapping routines of MFEM used by the face sensitivities, at point `i`:
`InverseJacobianRevDiff` and `WeightRevDiff` of an element, electromag_integ.cpp:882, 896. -/
structure RevMap (dim : ℕ) where
  invRev : ℕ → Mat dim dim → ℕ → ℕ → ℝ
  wRev : ℕ → ℝ → ℕ → ℕ → ℝ

/-- `NonlinearDGDiffusionIntegratorMeshRevSens::AssembleRHSElementVect`,
electromag_integ.cpp:655-928; `norRev i` is `CalcOrthoRevDiff` followed by `JacobianRevDiff`
(889-893; nothing in one dimension). -/
noncomputable def bndSens (alpha mu : ℝ) (nu dnu : P → ℝ → ℝ) (n m mf : ℕ) (f : ℕ → FaceP P dim)
    (s : ℕ → Side P nd dim) (g : ℕ → ℝ) (r : RevMap dim) (norRev : ℕ → Vec dim → ℕ → ℕ → ℝ)
    (find : ℕ → Option ℕ) (u psi : Vec nd) : Option (ℕ → ℝ) :=
  let acc := forN n (fun i (acc : Option ((ℕ → ℝ) × (ℕ → ℝ))) =>
    acc.bind fun a => (bndRev alpha mu nu dnu (f i) (s i) (g i) u psi).map fun c =>
      (scatter m dim (fun k j => 0 + r.invRev i c.1 k j + r.wRev i c.2.1 k j) a.1,
        scatter mf dim (fun k j => 0 + norRev i c.2.2 k j) a.2)) (some (fun _ => 0, fun _ => 0))
  acc.map fun a => insertFace (dim * mf) find a.2 a.1

/-- Rule of `AssembleFaceVector`/`AssembleFaceGrad` of the boundary terms,
electromag_integ.cpp:479-493, 571-585. -/
def bndRuleOrder (s : Space) (order dim : ℕ) : ℕ := if s = .Pk then 2 * order else 2 * order + dim
/-- Rule of the mesh sensitivity of the boundary terms, electromag_integ.cpp:736-741. -/
def bndSensRuleOrder (_s : Space) (order _dim : ℕ) : ℕ := 2 * order

/-! ### Interfaces -/

/-- Body of the loop of `DGInteriorFaceDiffusionIntegrator::AssembleFaceVector`,
electromag_integ.cpp:983-1045; the state and the result are the pair of the two elements' parts. -/
noncomputable def intBody (alpha mu : ℝ) (nu : P → ℝ → ℝ) (f : FaceP P dim) (s1 : Side P nd1 dim)
    (s2 : Side P nd2 dim) (u1 : Vec nd1) (u2 : Vec nd2) (v : Vec nd1 × Vec nd2) : Vec nd1 × Vec nd2 :=
  let w := alpha * f.w
  let dn1 := s1.dn f.nor
  let dn2 := s2.dn f.nor
  let val1 := s1.val nu u1
  let val2 := s2.val nu u2
  let v1 := axpy (-(val1 * dotv dn1 u1 + val2 * dotv dn2 u2) / 2 * w) s1.shape v.1
  let v2 := axpy ((val1 * dotv dn1 u1 + val2 * dotv dn2 u2) / 2 * w) s2.shape v.2
  let v1 := axpy ((-(dotv s1.shape u1) + dotv s2.shape u2) * val1 / 2 * w) dn1 v1
  let v2 := axpy ((-(dotv s1.shape u1) + dotv s2.shape u2) * val2 / 2 * w) dn2 v2
  let wq := w * dotv f.nor f.nor * mu / 2 * (val1 / s1.W + val2 / s2.W)
  let v1 := axpy ((dotv s1.shape u1 - dotv s2.shape u2) * wq) s1.shape v1
  let v2 := axpy (-(dotv s1.shape u1 - dotv s2.shape u2) * wq) s2.shape v2
  (v1, v2)

/-- `DGInteriorFaceDiffusionIntegrator::AssembleFaceVector`, electromag_integ.cpp:930-1046. -/
noncomputable def intVec (alpha mu : ℝ) (nu : P → ℝ → ℝ) (n : ℕ) (f : ℕ → FaceP P dim)
    (s1 : ℕ → Side P nd1 dim) (s2 : ℕ → Side P nd2 dim) (u1 : Vec nd1) (u2 : Vec nd2) :
    Vec nd1 × Vec nd2 :=
  forN n (fun i => intBody alpha mu nu (f i) (s1 i) (s2 i) u1 u2) (zeroV, zeroV)

/-- The four blocks `elmat11`, `elmat12`, `elmat21`, `elmat22` of one point,
electromag_integ.cpp:1104-1262. -/
noncomputable def intBlocks (alpha mu : ℝ) (nu dnu : P → ℝ → ℝ) (f : FaceP P dim) (s1 : Side P nd1 dim)
    (s2 : Side P nd2 dim) (u1 : Vec nd1) (u2 : Vec nd2) :
    Mat nd1 nd1 × Mat nd1 nd2 × Mat nd2 nd1 × Mat nd2 nd2 :=
  let w := alpha * f.w
  let dn1 := s1.dn f.nor
  let dn2 := s2.dn f.nor
  let nDot1 := s1.normDot dnu f.ip u1
  let nDot2 := s2.normDot dnu f.ip u2
  let val1 := s1.val nu u1
  let val2 := s2.val nu u2
  let M11 : Mat nd1 nd1 := zeroM
  let M12 : Mat nd1 nd2 := zeroM
  let M21 : Mat nd2 nd1 := zeroM
  let M22 : Mat nd2 nd2 := zeroM
  let M11 := addVWt (-val1 * w / 2) s1.shape dn1 M11
  let M11 := addVWt (-(dotv dn1 u1) * w / 2) s1.shape nDot1 M11
  let M12 := addVWt (-val2 * w / 2) s1.shape dn2 M12
  let M12 := addVWt (-(dotv dn2 u2) * w / 2) s1.shape nDot2 M12
  let M22 := addVWt (val2 * w / 2) s2.shape dn2 M22
  let M22 := addVWt ((dotv dn2 u2) * w / 2) s2.shape nDot2 M22
  let M21 := addVWt (val1 * w / 2) s2.shape dn1 M21
  let M21 := addVWt ((dotv dn1 u1) * w / 2) s2.shape nDot1 M21
  let M11 := addVWt (-val1 * w / 2) dn1 s1.shape M11
  let M11 := addVWt ((-(dotv s1.shape u1) + dotv s2.shape u2) * w / 2) dn1 nDot1 M11
  let M12 := addVWt (val1 * w / 2) dn1 s2.shape M12
  let M22 := addVWt (val2 * w / 2) dn2 s2.shape M22
  let M22 := addVWt ((-(dotv s1.shape u1) + dotv s2.shape u2) * w / 2) dn2 nDot2 M22
  let M21 := addVWt (-val2 * w / 2) dn2 s1.shape M21
  let wq := w * dotv f.nor f.nor * mu / 2 * (val1 / s1.W + val2 / s2.W)
  let M11 := addVWt wq s1.shape s1.shape M11
  let M11 := addVWt ((dotv s1.shape u1 - dotv s2.shape u2) * w * dotv f.nor f.nor * mu / 2 / s1.W)
    s1.shape nDot1 M11
  let M12 := addVWt (-wq) s1.shape s2.shape M12
  let M12 := addVWt ((dotv s1.shape u1 - dotv s2.shape u2) * w * dotv f.nor f.nor * mu / 2 / s2.W)
    s1.shape nDot2 M12
  let M22 := addVWt wq s2.shape s2.shape M22
  let M22 := addVWt (-(dotv s1.shape u1 - dotv s2.shape u2) * w * dotv f.nor f.nor * mu / 2 / s2.W)
    s2.shape nDot2 M22
  let M21 := addVWt (-wq) s2.shape s1.shape M21
  let M21 := addVWt (-(dotv s1.shape u1 - dotv s2.shape u2) * w * dotv f.nor f.nor * mu / 2 / s1.W)
    s2.shape nDot1 M21
  (M11, M12, M21, M22)

/-- Entry of a block by integer indices, as the C++ loops access it (electromag_integ.cpp:1268). -/
noncomputable def ent {a b : ℕ} (B : Mat a b) (j k : ℕ) : ℝ :=
  if h : j < a ∧ k < b then B ⟨j, h.1⟩ ⟨k, h.2⟩ else 0

/-- Insertion of the four blocks into `elmat`, electromag_integ.cpp:1264-1289. -/
noncomputable def insertBlocks (B : Mat nd1 nd1 × Mat nd1 nd2 × Mat nd2 nd1 × Mat nd2 nd2)
    (M : ℕ → ℕ → ℝ) : ℕ → ℕ → ℝ :=
  let M := forN nd1 (fun j => forN nd1 (fun k => addAt2 j k (ent B.1 j k))) M
  let M := forN nd1 (fun j => forN nd2 (fun k M =>
    addAt2 (k + nd1) j (ent B.2.2.1 k j) (addAt2 j (k + nd1) (ent B.2.1 j k) M))) M
  forN nd2 (fun j => forN nd2 (fun k => addAt2 (j + nd1) (k + nd1) (ent B.2.2.2 j k))) M

/-- `DGInteriorFaceDiffusionIntegrator::AssembleFaceGrad`, electromag_integ.cpp:1048-1291. -/
noncomputable def intGrad (alpha mu : ℝ) (nu dnu : P → ℝ → ℝ) (n : ℕ) (f : ℕ → FaceP P dim)
    (s1 : ℕ → Side P nd1 dim) (s2 : ℕ → Side P nd2 dim) (u1 : Vec nd1) (u2 : Vec nd2) : ℕ → ℕ → ℝ :=
  forN n (fun i => insertBlocks (intBlocks alpha mu nu dnu (f i) (s1 i) (s2 i) u1 u2)) fun _ _ => 0

/-- `ip_flux_bar` of one side of an interface, electromag_integ.cpp:1635-1655 (guarded; the derivative
is evaluated at the element point). -/
noncomputable def Side.fluxBar (s : Side P nd dim) (dnu : P → ℝ → ℝ) (u : Vec nd) (valBar : ℝ) : Vec dim :=
  let norm := norm2 (s.flux u)
  let normBar := valBar * dnu s.eip norm
  if |norm| > 1 / 10 ^ 14 then axpy (normBar / norm) (s.flux u) zeroV else zeroV

/-- Reverse pass at one point of `DGInteriorFaceDiffusionIntegratorMeshRevSens`,
electromag_integ.cpp:1443-1700: `(inv_jac1_bar, el1_trans_weight_bar)`,
`(inv_jac2_bar, el2_trans_weight_bar)`, `nor_bar`. -/
noncomputable def intRev (alpha mu : ℝ) (nu dnu : P → ℝ → ℝ) (f : FaceP P dim) (s1 : Side P nd1 dim)
    (s2 : Side P nd2 dim) (u1 psi1 : Vec nd1) (u2 psi2 : Vec nd2) :
    (Mat dim dim × ℝ) × (Mat dim dim × ℝ) × Vec dim :=
  let w := alpha * f.w
  let nn := dotv f.nor f.nor
  let dn1 := s1.dn f.nor
  let dn2 := s2.dn f.nor
  let val1 := s1.val nu u1
  let val2 := s2.val nu u2
  let us1 := dotv u1 s1.shape
  let us2 := dotv u2 s2.shape
  let un1 := dotv dn1 u1
  let un2 := dotv dn2 u2
  let ps1 := dotv psi1 s1.shape
  let ps2 := dotv psi2 s2.shape
  let pn1 := dotv psi1 dn1
  let pn2 := dotv psi2 dn2
  let wqBar := 1 * -(us1 - us2) * ps2
  let wqBar := wqBar + 1 * (us1 - us2) * ps1
  let nnBar := wqBar * w * mu / 2 * (val1 / s1.W + val2 / s2.W)
  let val1Bar := wqBar * w * nn * mu / 2 / s1.W
  let val2Bar := wqBar * w * nn * mu / 2 / s2.W
  let W1Bar := -wqBar * w * nn * mu / 2 * (val1 / s1.W ^ 2)
  let W2Bar := -wqBar * w * nn * mu / 2 * (val2 / s2.W ^ 2)
  let norBar : Vec dim := axpy (2 * nnBar) f.nor zeroV
  let val2Bar := val2Bar + 1 * (-us1 + us2) / 2 * w * pn2
  let pn2Bar := 1 * (-us1 + us2) / 2 * val2 * w
  let val1Bar := val1Bar + 1 * (-us1 + us2) / 2 * w * pn1
  let pn1Bar := 1 * (-us1 + us2) / 2 * val1 * w
  let val1Bar := val1Bar + 1 * un1 / 2 * w * ps2
  let val2Bar := val2Bar + 1 * un2 / 2 * w * ps2
  let un1Bar := 1 * val1 / 2 * w * ps2
  let un2Bar := 1 * val2 / 2 * w * ps2
  let val1Bar := val1Bar + -1 * un1 / 2 * w * ps1
  let val2Bar := val2Bar + -1 * un2 / 2 * w * ps1
  let un1Bar := un1Bar + -1 * val1 / 2 * w * ps1
  let un2Bar := un2Bar + -1 * val2 / 2 * w * ps1
  let dn2Bar : Vec nd2 := axpy pn2Bar psi2 zeroV
  let dn1Bar : Vec nd1 := axpy pn1Bar psi1 zeroV
  let dn2Bar := axpy un2Bar u2 dn2Bar
  let dn1Bar := axpy un1Bar u1 dn1Bar
  let dxt2Bar : Mat nd2 dim := addVWt 1 dn2Bar f.nor zeroM
  let norBar := addMulTV s2.dxt dn2Bar norBar
  let dxt1Bar : Mat nd1 dim := addVWt 1 dn1Bar f.nor zeroM
  let norBar := addMulTV s1.dxt dn1Bar norBar
  let dxt2Bar := addVWt 1 u2 (s2.fluxBar dnu u2 val2Bar) dxt2Bar
  let dxt1Bar := addVWt 1 u1 (s1.fluxBar dnu u1 val1Bar) dxt1Bar
  ((mulAtB s1.dshape dxt1Bar, W1Bar), (mulAtB s2.dshape dxt2Bar, W2Bar), norBar)

/-- `DGInteriorFaceDiffusionIntegratorMeshRevSens::AssembleRHSElementVect`,
electromag_integ.cpp:1293-1752; the result is the pair of views `mesh_coords_bar1`,
`mesh_coords_bar2` (the loop over points is split into one loop for each of the three vectors). -/
noncomputable def intSens (alpha mu : ℝ) (nu dnu : P → ℝ → ℝ) (n m1 m2 mf : ℕ) (f : ℕ → FaceP P dim)
    (s1 : ℕ → Side P nd1 dim) (s2 : ℕ → Side P nd2 dim) (r1 r2 : RevMap dim)
    (norRev : ℕ → Vec dim → ℕ → ℕ → ℝ) (find : ℕ → Option ℕ) (u1 psi1 : Vec nd1) (u2 psi2 : Vec nd2) :
    (ℕ → ℝ) × (ℕ → ℝ) :=
  let r := fun i => intRev alpha mu nu dnu (f i) (s1 i) (s2 i) u1 psi1 u2 psi2
  let bar1 := forN n (fun i => scatter m1 dim
    (fun k j => 0 + r1.invRev i (r i).1.1 k j + r1.wRev i (r i).1.2 k j)) fun _ => 0
  let bar2 := forN n (fun i => scatter m2 dim
    (fun k j => 0 + r2.invRev i (r i).2.1.1 k j + r2.wRev i (r i).2.1.2 k j)) fun _ => 0
  let faceBar := forN n (fun i => scatter mf dim (fun k j => 0 + norRev i (r i).2.2 k j)) fun _ => 0
  (insertFace (dim * mf) find faceBar bar1, bar2)

end Verif.DGDiffusion
