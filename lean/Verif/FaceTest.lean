import Verif.DGDiffusion

/-!
Model of the face integrators used to check the mesh sensitivities of boundary and interface terms: `TestBoundaryIntegrator`,
`TestInteriorFaceIntegrator` and their mesh sensitivities (`/repo/src/physics/electromagnetics/electromag_integ.cpp:1753-2737`).
The matrix slot `inv` of `Side` holds `AdjugateJacobian()` here, and `RevMap.invRev` is `AdjugateJacobianRevDiff`.
-/

namespace Verif.DGDiffusion
open Verif.Sbp Verif.Dense Verif.Diffusion

variable {P : Type*} {nd nd1 nd2 dim : ℕ}

/-- Body of the loop of `TestBoundaryIntegrator::AssembleFaceVector`, electromag_integ.cpp:1795-1831. -/
noncomputable def tBndBody (alpha : ℝ) (f : FaceP P dim) (s : Side P nd dim) (u : Vec nd) (v : Vec nd) : Vec nd :=
  let w := alpha * f.w / s.W
  let dn := s.dn f.nor
  let v := axpy (-(dotv dn u) * w) s.shape v
  let v := axpy (-(dotv s.shape u) * w) dn v
  let wq := w * dotv f.nor f.nor
  axpy (dotv s.shape u * wq) s.shape v

/-- `TestBoundaryIntegrator::AssembleFaceVector`, electromag_integ.cpp:1753-1832. -/
noncomputable def tBndVec (alpha : ℝ) (n : ℕ) (f : ℕ → FaceP P dim) (s : ℕ → Side P nd dim) (u : Vec nd) : Vec nd :=
  forN n (fun i => tBndBody alpha (f i) (s i) u) zeroV

/-- Reverse pass at one point of both overloads of `TestBoundaryIntegratorMeshRevSens::AssembleRHSElementVect`,
electromag_integ.cpp:1935-2030, 2147-2245: `adj_jac_bar`, `el1_trans_weight_bar`, `nor_bar`. -/
noncomputable def tBndRev (alpha : ℝ) (f : FaceP P dim) (s : Side P nd dim) (u psi : Vec nd) : Mat dim dim × ℝ × Vec dim :=
  let w := alpha * f.w / s.W
  let nn := dotv f.nor f.nor
  let dn := s.dn f.nor
  let us := dotv u s.shape
  let un := dotv u dn
  let ps := dotv psi s.shape
  let pn := dotv psi dn
  let wqBar := 1 * us * ps
  let wBar := wqBar * nn
  let norBar : Vec dim := axpy (2 * wqBar * w) f.nor zeroV
  let wBar := wBar + 1 * -us * pn
  let pnBar := 1 * -us * w
  let wBar := wBar + 1 * -un * ps
  let unBar := 1 * -w * ps
  let dnBar : Vec nd := axpy pnBar psi zeroV
  let dnBar := axpy unBar u dnBar
  let norBar := addMulTV s.dxt dnBar norBar
  let dxtBar : Mat nd dim := addVWt 1 dnBar f.nor zeroM
  let WBar := wBar * -alpha * f.w / s.W ^ 2
  (mulAtB s.dshape dxtBar, WBar, norBar)

/-- First overload (nodes of the boundary face; only the normal's part is used), electromag_integ.cpp:1834-2044, for `dim > 1`.  `norRev i`
is `CalcOrthoRevDiff` followed by the face's `JacobianRevDiff`.  (In one dimension `PointMat_bar` is used without being set.) -/
noncomputable def tBndFaceSens (alpha : ℝ) (n mf : ℕ) (f : ℕ → FaceP P dim) (s : ℕ → Side P nd dim) (norRev : ℕ → Vec dim → ℕ → ℕ → ℝ)
    (u psi : Vec nd) : ℕ → ℝ :=
  forN n (fun i => scatter mf dim (fun k j => 0 + norRev i (tBndRev alpha (f i) (s i) u psi).2.2 k j)) fun _ => 0

/-- Second overload (nodes of the element; the normal's part is not used), electromag_integ.cpp:2046-2256. -/
noncomputable def tBndElemSens (alpha : ℝ) (n m : ℕ) (f : ℕ → FaceP P dim) (s : ℕ → Side P nd dim) (r : RevMap dim) (u psi : Vec nd) :
    ℕ → ℝ :=
  forN n (fun i => scatter m dim (fun k j => 0 + r.invRev i (tBndRev alpha (f i) (s i) u psi).1 k j +
    r.wRev i (tBndRev alpha (f i) (s i) u psi).2.1 k j)) fun _ => 0

/-- Rule of `TestBoundaryIntegrator`, electromag_integ.cpp:1779-1792 (integers: `2 * order - 1`). -/
def tBndRuleOrder (s : Space) (order dim : ℤ) : ℤ := if s = .Pk then 2 * order - 1 else 2 * order + dim - 1
/-- Rule of both overloads of its mesh sensitivity, electromag_integ.cpp:1914-1928, 2128-2142. -/
def tBndSensRuleOrder (_s : Space) (order _dim : ℤ) : ℤ := 2 * order - 1

/-- Body of the loop of `TestInteriorFaceIntegrator::AssembleFaceVector`, electromag_integ.cpp:2308-2353. -/
noncomputable def tIntBody (alpha : ℝ) (f : FaceP P dim) (s1 : Side P nd1 dim) (s2 : Side P nd2 dim) (u1 : Vec nd1) (u2 : Vec nd2)
    (v : Vec nd1 × Vec nd2) : Vec nd1 × Vec nd2 :=
  let w1 := alpha * f.w / s1.W
  let w2 := alpha * f.w / s2.W
  let dn1 := s1.dn f.nor
  let dn2 := s2.dn f.nor
  let v1 := axpy (-(dotv dn1 u1 + dotv dn2 u2) * w1) s1.shape v.1
  let v2 := axpy ((dotv dn1 u1 + dotv dn2 u2) * w2) s2.shape v.2
  let v1 := axpy ((-(dotv s1.shape u1) + dotv s2.shape u2) * w1) dn1 v1
  let v2 := axpy ((-(dotv s1.shape u1) + dotv s2.shape u2) * w2) dn2 v2
  let wq1 := w1 * dotv f.nor f.nor
  let wq2 := w2 * dotv f.nor f.nor
  let v1 := axpy ((dotv s1.shape u1 - dotv s2.shape u2) * wq1) s1.shape v1
  let v2 := axpy (-(dotv s1.shape u1 - dotv s2.shape u2) * wq2) s2.shape v2
  (v1, v2)

/-- `TestInteriorFaceIntegrator::AssembleFaceVector`, electromag_integ.cpp:2258-2354. -/
noncomputable def tIntVec (alpha : ℝ) (n : ℕ) (f : ℕ → FaceP P dim) (s1 : ℕ → Side P nd1 dim) (s2 : ℕ → Side P nd2 dim)
    (u1 : Vec nd1) (u2 : Vec nd2) : Vec nd1 × Vec nd2 :=
  forN n (fun i => tIntBody alpha (f i) (s1 i) (s2 i) u1 u2) (zeroV, zeroV)

/-- Reverse pass at one point of `TestInteriorFaceIntegratorMeshRevSens::AssembleRHSElementVect`, electromag_integ.cpp:2503-2695. -/
noncomputable def tIntRev (alpha : ℝ) (f : FaceP P dim) (s1 : Side P nd1 dim) (s2 : Side P nd2 dim) (u1 psi1 : Vec nd1)
    (u2 psi2 : Vec nd2) : (Mat dim dim × ℝ) × (Mat dim dim × ℝ) × Vec dim :=
  let w1 := alpha * f.w / s1.W
  let w2 := alpha * f.w / s2.W
  let nn := dotv f.nor f.nor
  let dn1 := s1.dn f.nor
  let dn2 := s2.dn f.nor
  let us1 := dotv u1 s1.shape
  let us2 := dotv u2 s2.shape
  let un1 := dotv dn1 u1
  let un2 := dotv dn2 u2
  let ps1 := dotv psi1 s1.shape
  let ps2 := dotv psi2 s2.shape
  let pn1 := dotv psi1 dn1
  let pn2 := dotv psi2 dn2
  let wq2Bar := 1 * -(us1 - us2) * ps2
  let wq1Bar := 1 * (us1 - us2) * ps1
  let w2Bar := wq2Bar * nn
  let nnBar := wq2Bar * w2
  let w1Bar := wq1Bar * nn
  let nnBar := nnBar + wq1Bar * w1
  let norBar : Vec dim := axpy (2 * nnBar) f.nor zeroV
  let w2Bar := w2Bar + 1 * (-us1 + us2) * pn2
  let pn2Bar := 1 * (-us1 + us2) * w2
  let w1Bar := w1Bar + 1 * (-us1 + us2) * pn1
  let pn1Bar := 1 * (-us1 + us2) * w1
  let w2Bar := w2Bar + 1 * (un1 + un2) * ps2
  let un1Bar := 1 * w2 * ps2
  let un2Bar := 1 * w2 * ps2
  let w1Bar := w1Bar + -1 * (un1 + un2) * ps1
  let un1Bar := un1Bar + -1 * w1 * ps1
  let un2Bar := un2Bar + -1 * w1 * ps1
  let dn2Bar : Vec nd2 := axpy pn2Bar psi2 zeroV
  let dn1Bar : Vec nd1 := axpy pn1Bar psi1 zeroV
  let dn2Bar := axpy un2Bar u2 dn2Bar
  let dn1Bar := axpy un1Bar u1 dn1Bar
  let dxt2Bar : Mat nd2 dim := addVWt 1 dn2Bar f.nor zeroM
  let norBar := addMulTV s2.dxt dn2Bar norBar
  let dxt1Bar : Mat nd1 dim := addVWt 1 dn1Bar f.nor zeroM
  let norBar := addMulTV s1.dxt dn1Bar norBar
  let W2Bar := w2Bar * -alpha * f.w / s2.W ^ 2
  let W1Bar := w1Bar * -alpha * f.w / s1.W ^ 2
  ((mulAtB s1.dshape dxt1Bar, W1Bar), (mulAtB s2.dshape dxt2Bar, W2Bar), norBar)

/-- `TestInteriorFaceIntegratorMeshRevSens::AssembleRHSElementVect`, electromag_integ.cpp:2356-2737; the result is the pair of views
`mesh_coords_bar1`, `mesh_coords_bar2` (the loop over points is split into one loop for each of the three vectors). -/
noncomputable def tIntSens (alpha : ℝ) (n m1 m2 mf : ℕ) (f : ℕ → FaceP P dim) (s1 : ℕ → Side P nd1 dim) (s2 : ℕ → Side P nd2 dim)
    (r1 r2 : RevMap dim) (norRev : ℕ → Vec dim → ℕ → ℕ → ℝ) (find : ℕ → Option ℕ) (u1 psi1 : Vec nd1) (u2 psi2 : Vec nd2) :
    (ℕ → ℝ) × (ℕ → ℝ) :=
  let r := fun i => tIntRev alpha (f i) (s1 i) (s2 i) u1 psi1 u2 psi2
  let bar1 := forN n (fun i => scatter m1 dim (fun k j => 0 + r1.invRev i (r i).1.1 k j + r1.wRev i (r i).1.2 k j)) fun _ => 0
  let bar2 := forN n (fun i => scatter m2 dim (fun k j => 0 + r2.invRev i (r i).2.1.1 k j + r2.wRev i (r i).2.1.2 k j)) fun _ => 0
  let faceBar := forN n (fun i => scatter mf dim (fun k j => 0 + norRev i (r i).2.2 k j)) fun _ => 0
  (insertFace (dim * mf) find faceBar bar1, bar2)

end Verif.DGDiffusion
