import Verif.DGDiffusion

/-!
Model of the thermal interface and boundary conditions: `ThermalContactResistanceIntegrator`,
`InternalConvectionInterfaceIntegrator`, `ConvectionBCIntegrator`, `OutfluxBCIntegrator` and their mesh, `h` and
`fluid_temp` sensitivities (`/repo/src/physics/thermal/thermal_integ.cpp:341-1860`).

Every function picks its own quadrature rule, so the model takes the whole family of rules `IntRules.Get(geometry, ·)` on
a face, together with the element data at their points.  `trans.Weight()` and `trans.Face->Weight()` are the same number.
-/

namespace Verif.ThermalFaces
open Verif.Sbp Verif.Dense Verif.Diffusion Verif.DGDiffusion

variable {n1 n2 nd : ℕ}

/-- A quadrature point of an interface: `ip.weight`, `trans.Weight()` and the shape functions of the two elements,
thermal_integ.cpp:388-401. -/
structure FQ (n1 n2 : ℕ) where
  w : ℝ
  J : ℝ
  s1 : Vec n1
  s2 : Vec n2

/-- A rule on an interface (`ir`, thermal_integ.cpp:379-384). -/
structure FRule (n1 n2 : ℕ) where
  n : ℕ
  pt : ℕ → FQ n1 n2

/-! ### Orders of the rules -/

/-- `2 * std::max(el1.GetOrder(), el2.GetOrder())`: contact residual, Jacobian, mesh sensitivity (thermal_integ.cpp:382,
449, 600); internal convection Jacobian and mesh sensitivity (918, 1057). -/
def plainOrder (p1 p2 : ℕ) : ℕ := 2 * max p1 p2

/-- `2 * std::max(el1.GetOrder(), el2.GetOrder()) + trans.OrderW()`: contact `h` sensitivity (thermal_integ.cpp:748);
internal convection residual, `h` and `fluid_temp` sensitivity (855, 1207, 1325). -/
def curvedOrder (p1 p2 ow : ℕ) : ℕ := 2 * max p1 p2 + ow

/-- Boundary residual and Jacobian: `el1.GetOrder() + el2.GetOrder() + trans.OrderW()` (thermal_integ.cpp:1405, 1446,
1750); on a boundary face MFEM passes the same element twice. -/
def bcOrder (p ow : ℕ) : ℕ := p + p + ow

/-- Boundary sensitivities: `2 * el1.GetOrder() + trans.OrderW()` (thermal_integ.cpp:1514, 1603, 1683, 1828). -/
def bcSensOrder (p ow : ℕ) : ℕ := 2 * p + ow

/-! ### Contact resistance -/

/-- Body of the loop of `AssembleFaceVector`, thermal_integ.cpp:386-409. -/
def contactBody (alpha h : ℝ) (q : FQ n1 n2) (u1 : Vec n1) (u2 : Vec n2) (v : Vec n1 × Vec n2) : Vec n1 × Vec n2 :=
  let w := alpha * q.w * q.J
  let temp1 := dotv u1 q.s1
  let temp2 := dotv u2 q.s2
  let val := h * (temp1 - temp2)
  (axpy (w * val) q.s1 v.1, axpy (-w * val) q.s2 v.2)

/-- `ThermalContactResistanceIntegrator::AssembleFaceVector`, thermal_integ.cpp:354-410. -/
def contactVec (alpha h : ℝ) (R : ℕ → FRule n1 n2) (p1 p2 _ow : ℕ) (u1 : Vec n1) (u2 : Vec n2) : Vec n1 × Vec n2 :=
  let r := R (plainOrder p1 p2)
  forN r.n (fun i => contactBody alpha h (r.pt i) u1 u2) (zeroV, zeroV)

/-- `elmat11`, `elmat12`, `elmat22` of one point and the signs with which they are inserted,
thermal_integ.cpp:478-507. -/
def contactBlocks (alpha h : ℝ) (q : FQ n1 n2) : Mat n1 n1 × Mat n1 n2 × Mat n2 n1 × Mat n2 n2 :=
  let w := alpha * q.w * q.J
  let e11 : Mat n1 n1 := scaleM (w * h) (fun j k => q.s1 j * q.s1 k)
  let e22 : Mat n2 n2 := scaleM (w * h) (fun j k => q.s2 j * q.s2 k)
  let e12 : Mat n1 n2 := scaleM (w * h) (fun j k => q.s1 j * q.s2 k)
  (e11, fun j k => -e12 j k, fun k j => -e12 j k, e22)

/-- `ThermalContactResistanceIntegrator::AssembleFaceGrad`, thermal_integ.cpp:412-508. -/
noncomputable def contactGrad (alpha h : ℝ) (R : ℕ → FRule n1 n2) (p1 p2 _ow : ℕ) : ℕ → ℕ → ℝ :=
  let r := R (plainOrder p1 p2)
  forN r.n (fun i => insertBlocks (contactBlocks alpha h (r.pt i))) fun _ _ => 0

/-- `ThermalContactResistanceIntegratorMeshRevSens::AssembleRHSElementVect`, thermal_integ.cpp:510-691: the part of
element 1 (nothing is added for element 2).  `wRev i` is what `trans.WeightRevDiff` adds to `PointMatFace_bar` at point
`i` of the rule used; `find j` is `vdofs1.Find(vdofs2[j])`; `mf` the number of mesh nodes of the face. -/
noncomputable def contactMesh (alpha h : ℝ) (R : ℕ → FRule n1 n2) (p1 p2 _ow : ℕ) (dim mf : ℕ)
    (wRev : ℕ → ℕ → ℝ → ℕ → ℕ → ℝ) (find : ℕ → Option ℕ) (u1 psi1 : Vec n1) (u2 psi2 : Vec n2) : ℕ → ℝ :=
  let r := R (plainOrder p1 p2)
  let faceBar := forN r.n (fun i bar =>
    let q := r.pt i
    let ps1 := dotv psi1 q.s1
    let ps2 := dotv psi2 q.s2
    let temp1 := dotv u1 q.s1
    let temp2 := dotv u2 q.s2
    let val := h * (temp1 - temp2)
    let wBar := 1 * -val * ps2
    let wBar := wBar + 1 * val * ps1
    let JBar := wBar * alpha * q.w
    scatter mf dim (fun k j => 0 + wRev (plainOrder p1 p2) i JBar k j) bar) (fun _ => 0)
  insertFace (dim * mf) find faceBar (fun _ => 0)

/-- `ThermalContactResistanceIntegratorHRevSens::GetFaceEnergy`, thermal_integ.cpp:693-811. -/
def contactH (alpha : ℝ) (R : ℕ → FRule n1 n2) (p1 p2 ow : ℕ) (u1 psi1 : Vec n1) (u2 psi2 : Vec n2) : ℝ :=
  let r := R (curvedOrder p1 p2 ow)
  forN r.n (fun i fun_ =>
    let q := r.pt i
    let w := alpha * q.w * q.J
    let ps1 := dotv psi1 q.s1
    let ps2 := dotv psi2 q.s2
    let temp1 := dotv u1 q.s1
    let temp2 := dotv u2 q.s2
    let valBar := 1 * -w * ps2
    let valBar := valBar + 1 * w * ps1
    fun_ + valBar * (temp1 - temp2)) 0

/-! ### Internal convection -/

/-- `InternalConvectionInterfaceIntegrator::AssembleFaceVector`, thermal_integ.cpp:828-885. -/
def convVec (alpha h thetaF : ℝ) (R : ℕ → FRule n1 n2) (p1 p2 ow : ℕ) (u1 : Vec n1) (u2 : Vec n2) : Vec n1 × Vec n2 :=
  let r := R (curvedOrder p1 p2 ow)
  forN r.n (fun i v =>
    let q := r.pt i
    let w := alpha * q.w * q.J
    let temp1 := dotv u1 q.s1
    let temp2 := dotv u2 q.s2
    let val1 := h * (temp1 - thetaF)
    let val2 := h * (temp2 - thetaF)
    (axpy (w * val1) q.s1 v.1, axpy (w * val2) q.s2 v.2)) (zeroV, zeroV)

/-- The blocks of one point of `InternalConvectionInterfaceIntegrator::AssembleFaceGrad` (the off-diagonal ones stay
zero), thermal_integ.cpp:947-969. -/
def convBlocks (alpha h : ℝ) (q : FQ n1 n2) : Mat n1 n1 × Mat n1 n2 × Mat n2 n1 × Mat n2 n2 :=
  let w := alpha * q.w * q.J
  (scaleM (w * h) (fun j k => q.s1 j * q.s1 k), zeroM, zeroM, scaleM (w * h) (fun j k => q.s2 j * q.s2 k))

/-- `InternalConvectionInterfaceIntegrator::AssembleFaceGrad`, thermal_integ.cpp:887-970. -/
noncomputable def convGrad (alpha h : ℝ) (R : ℕ → FRule n1 n2) (p1 p2 _ow : ℕ) : ℕ → ℕ → ℝ :=
  let r := R (plainOrder p1 p2)
  forN r.n (fun i => insertBlocks (convBlocks alpha h (r.pt i))) fun _ _ => 0

/-- `InternalConvectionInterfaceIntegratorMeshRevSens::AssembleRHSElementVect`, thermal_integ.cpp:972-1151. -/
noncomputable def convMesh (alpha h thetaF : ℝ) (R : ℕ → FRule n1 n2) (p1 p2 _ow : ℕ) (dim mf : ℕ)
    (wRev : ℕ → ℕ → ℝ → ℕ → ℕ → ℝ) (find : ℕ → Option ℕ) (u1 psi1 : Vec n1) (u2 psi2 : Vec n2) : ℕ → ℝ :=
  let r := R (plainOrder p1 p2)
  let faceBar := forN r.n (fun i bar =>
    let q := r.pt i
    let ps1 := dotv psi1 q.s1
    let ps2 := dotv psi2 q.s2
    let temp1 := dotv u1 q.s1
    let temp2 := dotv u2 q.s2
    let val1 := h * (temp1 - thetaF)
    let val2 := h * (temp2 - thetaF)
    let wBar := 1 * val2 * ps2
    let wBar := wBar + 1 * val1 * ps1
    let JBar := wBar * alpha * q.w
    scatter mf dim (fun k j => 0 + wRev (plainOrder p1 p2) i JBar k j) bar) (fun _ => 0)
  insertFace (dim * mf) find faceBar (fun _ => 0)

/-- `InternalConvectionInterfaceIntegratorHRevSens::GetFaceEnergy`, thermal_integ.cpp:1153-1275. -/
def convH (alpha thetaF : ℝ) (R : ℕ → FRule n1 n2) (p1 p2 ow : ℕ) (u1 psi1 : Vec n1) (u2 psi2 : Vec n2) : ℝ :=
  let r := R (curvedOrder p1 p2 ow)
  forN r.n (fun i fun_ =>
    let q := r.pt i
    let w := alpha * q.w * q.J
    let ps1 := dotv psi1 q.s1
    let ps2 := dotv psi2 q.s2
    let temp1 := dotv u1 q.s1
    let temp2 := dotv u2 q.s2
    let val2Bar := 1 * w * ps2
    let val1Bar := 1 * w * ps1
    let hBar := val2Bar * (temp2 - thetaF)
    let hBar := hBar + val1Bar * (temp1 - thetaF)
    fun_ + hBar) 0

/-- `InternalConvectionInterfaceIntegratorFluidTempRevSens::GetFaceEnergy`, thermal_integ.cpp:1277-1385. -/
def convTheta (alpha h : ℝ) (R : ℕ → FRule n1 n2) (p1 p2 ow : ℕ) (psi1 : Vec n1) (psi2 : Vec n2) : ℝ :=
  let r := R (curvedOrder p1 p2 ow)
  forN r.n (fun i fun_ =>
    let q := r.pt i
    let w := alpha * q.w * q.J
    let ps1 := dotv psi1 q.s1
    let ps2 := dotv psi2 q.s2
    let val2Bar := 1 * w * ps2
    let val1Bar := 1 * w * ps1
    let thetaBar := -val2Bar * h
    let thetaBar := thetaBar - val1Bar * h
    fun_ + thetaBar) 0

/-! ### Boundary conditions -/

/-- A quadrature point of a boundary face, thermal_integ.cpp:1410-1421. -/
structure BQ (nd : ℕ) where
  w : ℝ
  J : ℝ
  shape : Vec nd

/-- A rule on a boundary face (thermal_integ.cpp:1402-1407). -/
structure BRule (nd : ℕ) where
  n : ℕ
  pt : ℕ → BQ nd

/-- `ConvectionBCIntegrator::AssembleFaceVector`, thermal_integ.cpp:1387-1426. -/
def bcVec (alpha h thetaF : ℝ) (R : ℕ → BRule nd) (p ow : ℕ) (u : Vec nd) : Vec nd :=
  let r := R (bcOrder p ow)
  forN r.n (fun i v =>
    let q := r.pt i
    let w := alpha * q.w * q.J
    let val := h * (dotv u q.shape - thetaF)
    axpy (w * val) q.shape v) zeroV

/-- `ConvectionBCIntegrator::AssembleFaceGrad`, thermal_integ.cpp:1428-1465. -/
def bcGrad (alpha h : ℝ) (R : ℕ → BRule nd) (p ow : ℕ) : Mat nd nd :=
  let r := R (bcOrder p ow)
  forN r.n (fun i M =>
    let q := r.pt i
    let w := alpha * q.w * q.J
    addVWt (w * h) q.shape q.shape M) zeroM

/-- `ConvectionBCIntegratorMeshRevSens::AssembleRHSElementVect`, thermal_integ.cpp:1467-1570. -/
noncomputable def bcMesh (alpha h thetaF : ℝ) (R : ℕ → BRule nd) (p ow dim mf : ℕ) (wRev : ℕ → ℕ → ℝ → ℕ → ℕ → ℝ)
    (u psi : Vec nd) : ℕ → ℝ :=
  let r := R (bcSensOrder p ow)
  forN r.n (fun i bar =>
    let q := r.pt i
    let flux := h * (dotv u q.shape - thetaF)
    let adjoint := dotv psi q.shape
    let wBar := 1 * adjoint * flux
    let JBar := wBar * alpha * q.w
    scatter mf dim (fun k j => 0 + wRev (bcSensOrder p ow) i JBar k j) bar) (fun _ => 0)

/-- `ConvectionBCIntegratorHRevSens::GetFaceEnergy`, thermal_integ.cpp:1572-1650. -/
def bcH (alpha thetaF : ℝ) (R : ℕ → BRule nd) (p ow : ℕ) (u psi : Vec nd) : ℝ :=
  let r := R (bcSensOrder p ow)
  forN r.n (fun i fun_ =>
    let q := r.pt i
    let w := alpha * q.w * q.J
    let adjoint := dotv psi q.shape
    let fluxBar := 1 * adjoint * w
    fun_ + fluxBar * (dotv u q.shape - thetaF)) 0

/-- `ConvectionBCIntegratorFluidTempRevSens::GetFaceEnergy`, thermal_integ.cpp:1652-1730. -/
def bcTheta (alpha h : ℝ) (R : ℕ → BRule nd) (p ow : ℕ) (psi : Vec nd) : ℝ :=
  let r := R (bcSensOrder p ow)
  forN r.n (fun i fun_ =>
    let q := r.pt i
    let w := alpha * q.w * q.J
    let adjoint := dotv psi q.shape
    let fluxBar := 1 * adjoint * w
    fun_ + -fluxBar * h) 0

/-- `OutfluxBCIntegrator::AssembleFaceVector`, thermal_integ.cpp:1732-1770. -/
def outVec (alpha flux : ℝ) (R : ℕ → BRule nd) (p ow : ℕ) (_u : Vec nd) : Vec nd :=
  let r := R (bcOrder p ow)
  forN r.n (fun i v =>
    let q := r.pt i
    let w := alpha * q.w * q.J
    axpy (w * flux) q.shape v) zeroV

/-- `OutfluxBCIntegrator::AssembleFaceGrad`, thermal_integ.cpp:1772-1782. -/
def outGrad : Mat nd nd := zeroM

/-- `OutfluxBCIntegratorMeshRevSens::AssembleRHSElementVect`, thermal_integ.cpp:1784-1880. -/
noncomputable def outMesh (alpha flux : ℝ) (R : ℕ → BRule nd) (p ow dim mf : ℕ) (wRev : ℕ → ℕ → ℝ → ℕ → ℕ → ℝ)
    (psi : Vec nd) : ℕ → ℝ :=
  let r := R (bcSensOrder p ow)
  forN r.n (fun i bar =>
    let q := r.pt i
    let adjoint := dotv psi q.shape
    let wBar := 1 * adjoint * flux
    let JBar := wBar * alpha * q.w
    scatter mf dim (fun k j => 0 + wRev (bcSensOrder p ow) i JBar k j) bar) (fun _ => 0)

end Verif.ThermalFaces
