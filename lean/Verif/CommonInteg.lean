import Verif.Force
import Verif.Quotient
import Verif.OutputForms

/-!
Model of the domain and boundary functionals shared by all physics modules,
`/repo/src/physics/mfem_common_integ.cpp`: volume and mass, integral of the state, integral of the magnitude of
the curl, the aggregates of that magnitude, the normal heat flux, and their sensitivities; and of the
outputs built from them, `/repo/src/physics/common_outputs.cpp`.  Not modelled: the mesh sensitivity of the heat flux
(lines 143-150: it aborts) and the demagnetization aggregates (1734-2203: used nowhere, derivatives missing).

`double` is ℝ.  A quotient by a norm that is zero is NaN: `none`.
-/

namespace Verif.CommonInteg
open Verif.Sbp Verif.Dense Verif.Diffusion Verif.Force

variable {ndof dim : ℕ}

/-! ### Magnitude of the curl -/

/-- A quadrature point: `ip.weight`, the reference curls (`CalcCurlShape`, three dimensions) or gradients
(`CalcDShape`, two dimensions), `trans.Jacobian()`, `trans.AdjugateJacobian()` and `trans.Weight()`,
mfem_common_integ.cpp:459-476. -/
structure MPt (ndof dim : ℕ) where
  w : ℝ
  cs : Mat ndof dim
  jac : Mat dim dim
  adj : Mat dim dim
  J : ℝ

/-- `curlshape_dFt`, mfem_common_integ.cpp:468-477, 534-543, 650-659, 1110-1119, 1186-1195, 1292-1301,
1448-1457, 1508-1517, 1638-1647. -/
def MPt.cdft (p : MPt ndof dim) : Mat ndof dim :=
  if dim = 3 then mulABt p.cs p.jac else mulM p.cs p.adj

/-- `curl_mag` before the division by `trans_weight`: `curl_vec.Norml2()`, mfem_common_integ.cpp:478-479.
(`curl_vec = 0.0` and `AddMultTranspose` in lines 1105, 1120 give the same.) -/
noncomputable def MPt.norm (p : MPt ndof dim) (u : Vec ndof) : ℝ := norm2 (mulTV p.cdft u)

/-- `curl_mag`, mfem_common_integ.cpp:480. -/
noncomputable def MPt.mag (p : MPt ndof dim) (u : Vec ndof) : ℝ := p.norm u / p.J

/-- `MagnitudeCurlStateIntegrator::GetElementEnergy`, mfem_common_integ.cpp:421-484. -/
noncomputable def avgEnergy (n : ℕ) (pt : ℕ → MPt ndof dim) (u : Vec ndof) : ℝ :=
  forN n (fun i f =>
    let p := pt i
    let w := p.w * p.J
    f + p.mag u * w) 0

/-- `IECurlMagnitudeAggregateIntegratorNumerator::GetElementEnergy`, mfem_common_integ.cpp:1065-1128;
`M` is `actual_max`. -/
noncomputable def numEnergy (rho M : ℝ) (n : ℕ) (pt : ℕ → MPt ndof dim) (u : Vec ndof) : ℝ :=
  forN n (fun i f =>
    let p := pt i
    let w := p.w * p.J
    let e := Real.exp (rho * (p.mag u / M))
    f + p.mag u * e * w) 0

/-- `IECurlMagnitudeAggregateIntegratorDenominator::GetElementEnergy`, mfem_common_integ.cpp:1404-1466. -/
noncomputable def denEnergy (rho M : ℝ) (n : ℕ) (pt : ℕ → MPt ndof dim) (u : Vec ndof) : ℝ :=
  forN n (fun i f =>
    let p := pt i
    let w := p.w * p.J
    let e := Real.exp (rho * (p.mag u / M))
    f + e * w) 0

/-- First lines of the reverse pass: `curl_mag_bar` and `w_bar`, for the integral of the magnitude:
mfem_common_integ.cpp:549-556, 668-674. -/
noncomputable def avgRev (p : MPt ndof dim) (u : Vec ndof) : ℝ × ℝ :=
  let w := p.w * p.J
  let funBar : ℝ := 1
  (0 + funBar * w, 0 + funBar * p.mag u)

/-- The same for the numerator of the aggregate: mfem_common_integ.cpp:1201-1215, 1310-1324. -/
noncomputable def numRev (rho M : ℝ) (p : MPt ndof dim) (u : Vec ndof) : ℝ × ℝ :=
  let w := p.w * p.J
  let e := Real.exp (rho * (p.mag u / M))
  let funBar : ℝ := 1
  let magBar := 0 + funBar * e * w
  let eBar := 0 + funBar * p.mag u * w
  let wBar := 0 + funBar * p.mag u * e
  (magBar + eBar * rho / M * e, wBar)

/-- The same for the denominator: mfem_common_integ.cpp:1523-1537, 1664-1679. -/
noncomputable def denRev (rho M : ℝ) (p : MPt ndof dim) (u : Vec ndof) : ℝ × ℝ :=
  let w := p.w * p.J
  let e := Real.exp (rho * (p.mag u / M))
  let funBar : ℝ := 1
  let eBar := 0 + funBar * w
  let wBar := 0 + funBar * e
  (0 + eBar * rho / M * e, wBar)

/-- End of the reverse pass with respect to the state, mfem_common_integ.cpp:558-571, 1217-1229, 1539-1551. -/
noncomputable def backVec (p : MPt ndof dim) (u : Vec ndof) (magBar : ℝ) (bar : Vec ndof) : Option (Vec ndof) :=
  let normBar := magBar / p.J
  if p.norm u = 0 then none
  else
    let cBar : Vec dim := axpy (normBar / p.norm u) (mulTV p.cdft u) zeroV
    some (addMulV p.cdft 1 cBar bar)

/-- `AssembleElementVector` of the three integrators, mfem_common_integ.cpp:486-573, 1130-1231, 1468-1553;
`rev` is `avgRev`, `numRev` or `denRev`. -/
noncomputable def magVec (rev : MPt ndof dim → Vec ndof → ℝ × ℝ) (n : ℕ) (pt : ℕ → MPt ndof dim) (u : Vec ndof) :
    Option (Vec ndof) :=
  forN n (fun i acc => acc.bind fun bar => backVec (pt i) u (rev (pt i) u).1 bar) (some zeroV)

/-- End of the reverse pass with respect to the mesh: `jac_bar` (three dimensions) or `adj_bar` (two), and the
final `trans_weight_bar`, mfem_common_integ.cpp:676-719, 1326-1370, 1681-1725. -/
noncomputable def backMesh (p : MPt ndof dim) (u : Vec ndof) (magBar wBar : ℝ) : Option (Mat dim dim × ℝ) :=
  let normBar := magBar / p.J
  let JBar := -magBar * p.norm u / p.J ^ 2
  if p.norm u = 0 then none
  else
    let cBar : Vec dim := axpy (normBar / p.norm u) (mulTV p.cdft u) zeroV
    let mBar : Mat dim dim :=
      if dim = 3 then (fun a b => zeroM a b + mulM (vwt cBar u) p.cs a b) else mulAtB p.cs (vwt u cBar)
    some (mBar, JBar + wBar * p.w)

/-- `AssembleRHSElementVect` of the three mesh sensitivities, mfem_common_integ.cpp:575-729, 1233-1393,
1555-1732.  `jacRev`, `adjRev`, `wRev` are what MFEM's `JacobianRevDiff`, `AdjugateJacobianRevDiff` and
`WeightRevDiff` add to `PointMat_bar`. -/
noncomputable def magMesh (rev : MPt ndof dim → Vec ndof → ℝ × ℝ) (n meshNdof : ℕ) (pt : ℕ → MPt ndof dim)
    (jacRev adjRev : ℕ → Mat dim dim → ℕ → ℕ → ℝ) (wRev : ℕ → ℝ → ℕ → ℕ → ℝ) (u : Vec ndof) : Option (ℕ → ℝ) :=
  forN n (fun i acc => acc.bind fun bar =>
    (backMesh (pt i) u (rev (pt i) u).1 (rev (pt i) u).2).map fun r =>
      scatter meshNdof dim (fun k j =>
        0 + (if dim = 3 then jacRev i r.1 k j else adjRev i r.1 k j) + wRev i r.2 k j) bar) (some fun _ => 0)

/-- Rule of the three integrators and their sensitivities, mfem_common_integ.cpp:441-456, 506-521, 621-636,
1084-1099, 1155-1170, 1273-1288, 1423-1438, 1489-1504, 1610-1625. -/
def magRule (s : Space) (order : ℕ) : ℕ := if s = .Pk then 2 * order - 2 else 2 * order

/-- `calcOutput` of the average and the aggregate of the curl magnitude: quotient of two integrals over the
elements, common_outputs.hpp:233-240, 350-357. -/
noncomputable def ratioOut (num den : ℝ) : ℝ := num / den

/-! ### Volume, mass and integral of the state -/

/-- A quadrature point of the volume and state integrals: `ip.weight`, `trans.Weight()`, `el.CalcShape`.
mfem_common_integ.cpp:165-171, 307-312. -/
structure SPt (ndof : ℕ) where
  w : ℝ
  J : ℝ
  shape : Vec ndof

/-- `VolumeIntegrator::GetElementEnergy`, mfem_common_integ.cpp:153-182, and with the same body
`VolumeIntegratorFillFactorSens::GetElementEnergy`, 265-296.  `rho = none` is the null pointer, `some none` a
pointer to a null pointer, `some (some s)` a coefficient with value `s i` at point `i`. -/
def volEnergy (rho : Option (Option (ℕ → ℝ))) (n : ℕ) (pt : ℕ → SPt ndof) : ℝ :=
  forN n (fun i vol =>
    let val := (pt i).w * (pt i).J
    let val := match rho with
      | some (some s) => val * s i
      | _ => val
    vol + val) 0

/-- Reverse pass of `VolumeIntegratorMeshSens` at a point: `s_bar` and `w_bar`, mfem_common_integ.cpp:220-245. -/
def volRev (rho : Option (Option (ℕ → ℝ))) (p : SPt ndof) (i : ℕ) : ℝ × ℝ :=
  let w := p.w * p.J
  let volBar : ℝ := 1
  let valBar := volBar
  match rho with
  | some (some s) => (valBar * w, 0 + valBar * s i)
  | some none => (0, 0)
  | none => (0, 0 + valBar)

/-- `VolumeIntegratorMeshSens::AssembleRHSElementVect`, mfem_common_integ.cpp:184-263.  `sRev i x` is what
`EvalRevDiff` of the coefficient adds for the seed `x` (called only if there is a coefficient). -/
noncomputable def volMesh (rho : Option (Option (ℕ → ℝ))) (n meshNdof dim : ℕ) (pt : ℕ → SPt ndof)
    (sRev wRev : ℕ → ℝ → ℕ → ℕ → ℝ) : ℕ → ℝ :=
  forN n (fun i bar =>
    let r := volRev rho (pt i) i
    let tBar := r.2 * (pt i).w
    scatter meshNdof dim (fun k j =>
      (match rho with
        | some (some _) => 0 + sRev i r.1 k j
        | _ => 0) + wRev i tBar k j) bar) (fun _ => 0)

/-- `StateIntegrator::GetElementEnergy`, mfem_common_integ.cpp:298-315. -/
def stateEnergy (n : ℕ) (pt : ℕ → SPt ndof) (u : Vec ndof) : ℝ :=
  forN n (fun i f => f + (pt i).w * dotv (pt i).shape u * (pt i).J) 0

/-- `StateIntegrator::AssembleElementVector`, mfem_common_integ.cpp:317-337. -/
def stateVec (n : ℕ) (pt : ℕ → SPt ndof) : Vec ndof :=
  forN n (fun i bar => axpy ((pt i).w * (pt i).J) (pt i).shape bar) zeroV

/-- `StateIntegratorMeshSens::AssembleRHSElementVect`, mfem_common_integ.cpp:339-419. -/
noncomputable def stateMesh (n meshNdof dim : ℕ) (pt : ℕ → SPt ndof) (wRev : ℕ → ℝ → ℕ → ℕ → ℝ) (u : Vec ndof) :
    ℕ → ℝ :=
  forN n (fun i bar =>
    let val := dotv (pt i).shape u
    let funBar : ℝ := 1
    let wBar := funBar * val
    let tBar := wBar * (pt i).w
    scatter meshNdof dim (fun k j => 0 + wRev i tBar k j) bar) (fun _ => 0)

/-- Rules: volume `trans.OrderW()` (mfem_common_integ.cpp:160, 205, 274), state `2 p + OrderW` (303, 324, 378);
`ow` is `trans.OrderW()`. -/
def volRule (ow : ℕ) : ℕ := ow

/-- See `volRule`: mfem_common_integ.cpp:303, 324, 378. -/
def stateRule (order ow : ℕ) : ℕ := 2 * order + ow

/-- Mesh sensitivity of the numerator of the aggregate of a scalar state, mfem_common_integ.cpp:816-893; `tm` is
`true_max`.  The value is `Quotient.ieNum`. -/
noncomputable def ieNumMesh (rho tm : ℝ) (n meshNdof dim : ℕ) (pt : ℕ → SPt ndof)
    (wRev : ℕ → ℝ → ℕ → ℕ → ℝ) (u : Vec ndof) : ℕ → ℝ :=
  forN n (fun i bar =>
    let g := dotv (pt i).shape u
    let e := Real.exp (rho * (g - tm))
    let funBar : ℝ := 1
    let wBar := funBar * g * e
    let tBar := wBar * (pt i).w
    scatter meshNdof dim (fun k j => 0 + wRev i tBar k j) bar) (fun _ => 0)

/-- Mesh sensitivity of the denominator, mfem_common_integ.cpp:979-1054; value `Quotient.ieDen`. -/
noncomputable def ieDenMesh (rho tm : ℝ) (n meshNdof dim : ℕ) (pt : ℕ → SPt ndof)
    (wRev : ℕ → ℝ → ℕ → ℕ → ℝ) (u : Vec ndof) : ℕ → ℝ :=
  forN n (fun i bar =>
    let g := dotv (pt i).shape u
    let e := Real.exp (rho * (g - tm))
    let funBar : ℝ := 1
    let wBar := funBar * e
    let tBar := wBar * (pt i).w
    scatter meshNdof dim (fun k j => 0 + wRev i tBar k j) bar) (fun _ => 0)

/-! ### Mass functional and the fill factor -/

/-- `MassFunctional`: which coefficient `*rho_ptr` points at (common_outputs.hpp:114-120). -/
inductive Dens | rho | drho
  deriving DecidableEq

/-- The integrals a mass functional computes, by the content of `*rho_ptr`: the sum over elements of
`VolumeIntegrator` (value) and of `VolumeIntegratorFillFactorSens` (registered for `fill_factor`); both are
`volEnergy`.  common_outputs.cpp:49-70, mfem_common_integ.hpp:165-204. -/
def massIntegral (rho drho : ℕ → ℕ → ℝ) (d : Dens) (els : List (ℕ × (ℕ → SPt ndof))) : ℝ :=
  (els.mapIdx fun k e => volEnergy (some (some (match d with | .rho => rho k | .drho => drho k))) e.1 e.2).sum

/-- `jacobianVectorProduct(MassFunctional)` with a direction of length one with respect to `fill_factor`:
`*rho_ptr` is left alone.  common_outputs.hpp:88-93, functional_output.cpp:104-124. -/
def massJvpFill (rho drho : ℕ → ℕ → ℝ) (ptr : Dens) (els : List (ℕ × (ℕ → SPt ndof))) (dot : ℝ) : ℝ :=
  massIntegral rho drho ptr els * dot

/-- Scalar `vectorJacobianProduct(MassFunctional)` with respect to `fill_factor`: the pointer before and after,
and the result.  common_outputs.cpp:33-47. -/
def massVjpFill (rho drho : ℕ → ℕ → ℝ) (_ptr : Dens) (els : List (ℕ × (ℕ → SPt ndof))) (outBar : ℝ) : Dens × ℝ :=
  let ptr := Dens.drho
  let bar := massIntegral rho drho ptr els * outBar
  let ptr := Dens.rho
  (ptr, bar)

/-- `jacobianVectorProduct(VolumeFunctional)` with a direction of length one with respect to `fill_factor`.
common_outputs.hpp:40-45, mfem_common_integ.cpp:265-296, functional_output.cpp:104-124. -/
def volJvpFill (els : List (ℕ × (ℕ → SPt ndof))) (dot : ℝ) : ℝ :=
  (els.map fun e => volEnergy none e.1 e.2).sum * dot

/-! ### Normal heat flux -/

/-- A face point: `ip.weight`, the determinant and adjugate of the adjacent element, the face normal
`CalcOrtho(trans.Jacobian())`, reference gradients, `kappa`.  mfem_common_integ.cpp:48-72.
Not modelled: one-dimensional meshes. -/
structure BPt (ndof dim : ℕ) where
  w : ℝ
  J : ℝ
  adj : Mat dim dim
  nor : Vec dim
  dshape : Mat ndof dim
  kappa : ℝ

/-- `dshape1dn`, mfem_common_integ.cpp:67-69. -/
def BPt.dn (p : BPt ndof dim) : Vec ndof := mulV p.dshape (mulV p.adj p.nor)

/-- `BoundaryNormalIntegrator::GetFaceEnergy`, mfem_common_integ.cpp:16-76. -/
noncomputable def fluxEnergy (n : ℕ) (pt : ℕ → BPt ndof dim) (u : Vec ndof) : ℝ :=
  forN n (fun i f =>
    let p := pt i
    let w := p.w / p.J
    f + -p.kappa * dotv p.dn u * w) 0

/-- `BoundaryNormalIntegrator::AssembleFaceVector`, mfem_common_integ.cpp:78-141. -/
noncomputable def fluxVec (n : ℕ) (pt : ℕ → BPt ndof dim) : Vec ndof :=
  forN n (fun i bar =>
    let p := pt i
    let w := p.w / p.J
    axpy (-p.kappa * w) p.dn bar) zeroV

/-- Rule of the heat flux, mfem_common_integ.cpp:40, 102. -/
def fluxRule (order ow : ℕ) : ℕ := order + ow

end Verif.CommonInteg
