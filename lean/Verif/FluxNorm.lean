import Verif.CurlCurl

/-!
Model of the integrals of the flux-density magnitude of a Nédélec potential and their sensitivities:
`BNormIntegrator`, `BNormSquaredIntegrator`, `BNormdJdx`, `nuBNormIntegrator`, `nuBNormdJdx`, `nuFuncIntegrator`
(`/repo/src/physics/electromagnetics/electromag_integ.cpp:5118-5912`), and of `ThermalSensIntegrator` (`:5914-5950`).

`double` is ℝ; a vector with an entry divided by zero is `none`.  Not modelled: the extraction of element
degrees of freedom, the default rules.  The mesh sensitivities are modelled in three dimensions (in two, the reference curls
they use are left over from an earlier call).
-/

namespace Verif.FluxNorm
open Verif.Sbp Verif.Dense Verif.Diffusion Verif.Force Verif.CurlCurl

variable {ndof d : ℕ}

/-- One quadrature point: `ip.weight`, `curlshape_dFt`, `trans.Weight()`, electromag_integ.cpp:5160-5178; `d` is
`dimc`, 3 or 1. -/
structure NPt (ndof d : ℕ) where
  w : ℝ
  cdft : Mat ndof d
  J : ℝ

/-- In three dimensions `curlshape_dFt` is the product with the Jacobian, electromag_integ.cpp:5168-5172. -/
def three (p : CPt ndof) : NPt ndof 3 := ⟨p.w, p.cdft, p.J⟩

/-- In two dimensions it is the reference curl itself, electromag_integ.cpp:5173-5176. -/
def two (w : ℝ) (cs : Mat ndof 1) (J : ℝ) : NPt ndof 1 := ⟨w, cs, J⟩

/-- `BNormIntegrator::GetElementEnergy`, electromag_integ.cpp:5118-5184. -/
noncomputable def bnorm (n : ℕ) (pt : ℕ → NPt ndof d) (u : Vec ndof) : ℝ :=
  forN n (fun i f =>
    let p := pt i
    let w := p.w * p.J
    let b := addMulTV p.cdft u zeroV
    let mag := norm2 b / p.J
    f + mag * w) 0

/-- `BNormIntegrator::AssembleElementVector`, electromag_integ.cpp:5186-5260. -/
noncomputable def bnormState (n : ℕ) (pt : ℕ → NPt ndof d) (u : Vec ndof) : Option (Vec ndof) :=
  forN n (fun i acc => acc.bind fun v =>
    let p := pt i
    let w := p.w / p.J
    let b := addMulTV p.cdft u zeroV
    let mag := norm2 b / p.J
    let temp := mulV p.cdft b
    if mag = 0 then none
    else
      let temp : Vec ndof := fun r => temp r / mag
      let temp := scale w temp
      some fun r => v r + temp r) (some zeroV)

/-- `BNormSquaredIntegrator::GetElementEnergy`, electromag_integ.cpp:5262-5326. -/
noncomputable def bnormSq (n : ℕ) (pt : ℕ → NPt ndof d) (u : Vec ndof) : ℝ :=
  forN n (fun i f =>
    let p := pt i
    let b := addMulTV p.cdft u zeroV
    let mag := norm2 b / p.J
    f + mag * mag * p.w * p.J) 0

/-- `BNormdJdx::AssembleRHSElementVect`, electromag_integ.cpp:5328-5437. -/
noncomputable def bnormMesh (n meshNdof : ℕ) (pt : ℕ → CPt ndof) (jacRev : ℕ → Mat 3 3 → ℕ → ℕ → ℝ) (u : Vec ndof) :
    Option (ℕ → ℝ) :=
  forN n (fun i acc => acc.bind fun bar =>
    let p := pt i
    let w := p.w
    let b := addMulTV p.cdft u zeroV
    let bHat := addMulTV p.cs u zeroV
    if norm2 b = 0 then none
    else
      let BB := scaleM (1 / norm2 b) (vwt b bHat)
      some (scatter meshNdof 3 (fun k j => w * (0 + jacRev i BB k j)) bar)) (some fun _ => 0)

/-- `nuBNormIntegrator::GetElementEnergy`, electromag_integ.cpp:5439-5504; `nu i` is `nu->Eval(trans, ip, ·)`. -/
noncomputable def nuBnorm (nu : ℕ → ℝ → ℝ) (n : ℕ) (pt : ℕ → NPt ndof d) (u : Vec ndof) : ℝ :=
  forN n (fun i f =>
    let p := pt i
    let w := p.w / p.J
    let b := addMulTV p.cdft u zeroV
    f + nu i (norm2 b) * norm2 b * w) 0

/-- `nuBNormIntegrator::AssembleElementVector`, electromag_integ.cpp:5506-5582. -/
noncomputable def nuBnormState (nu dnu : ℕ → ℝ → ℝ) (n : ℕ) (pt : ℕ → NPt ndof d) (u : Vec ndof) : Option (Vec ndof) :=
  forN n (fun i acc => acc.bind fun v =>
    let p := pt i
    let w := p.w / p.J
    let b := addMulTV p.cdft u zeroV
    let mag := norm2 b
    let temp := mulV p.cdft b
    let nuVal := nu i mag
    let dnuDB := dnu i mag
    if mag = 0 then none
    else
      let temp := scale (dnuDB + nuVal / mag) temp
      let temp := scale w temp
      some fun r => v r + temp r) (some zeroV)

/-- `nuBNormdJdx::AssembleRHSElementVect`, electromag_integ.cpp:5584-5727. -/
noncomputable def nuBnormMesh (nu dnu : ℕ → ℝ → ℝ) (n meshNdof : ℕ) (pt : ℕ → CPt ndof)
    (jacRev : ℕ → Mat 3 3 → ℕ → ℕ → ℝ) (wRev : ℕ → ℝ → ℕ → ℕ → ℝ) (u : Vec ndof) : Option (ℕ → ℝ) :=
  forN n (fun i acc => acc.bind fun bar =>
    let p := pt i
    let b := addMulTV p.cdft u zeroV
    let bHat := addMulTV p.cs u zeroV
    let nuVal := nu i (norm2 b)
    let nuDeriv := dnu i (norm2 b)
    if norm2 b = 0 then none
    else
      let dN : Vec 3 := fun k => b k / norm2 b
      let dBdJ := vwt dN bHat
      let P1 : ℕ → ℕ → ℝ := fun k j => (0 + jacRev i dBdJ k j) * (nuVal / p.J)
      let P2 : ℕ → ℕ → ℝ := fun k j => (0 + wRev i 1 k j) * (-nuVal * norm2 b / p.J ^ 2)
      let P3 : ℕ → ℕ → ℝ := fun k j => (0 + jacRev i dBdJ k j) * (norm2 b * nuDeriv / p.J)
      some (scatter meshNdof 3 (fun k j => p.w * (P1 k j + P2 k j + P3 k j)) bar)) (some fun _ => 0)

/-- `nuFuncIntegrator::GetElementEnergy`, electromag_integ.cpp:5734-5800. -/
noncomputable def nuFunc (nu : ℕ → ℝ → ℝ) (n : ℕ) (pt : ℕ → NPt ndof d) (u : Vec ndof) : ℝ :=
  forN n (fun i f =>
    let p := pt i
    let w := p.w / p.J
    let b := addMulTV p.cdft u zeroV
    let mag := norm2 b / p.J
    f + nu i mag * w) 0

/-- `nuFuncIntegrator::AssembleRHSElementVect`, electromag_integ.cpp:5802-5912. -/
noncomputable def nuFuncMesh (nu dnu : ℕ → ℝ → ℝ) (n meshNdof : ℕ) (pt : ℕ → CPt ndof)
    (jacRev : ℕ → Mat 3 3 → ℕ → ℕ → ℝ) (wRev : ℕ → ℝ → ℕ → ℕ → ℝ) (u : Vec ndof) : Option (ℕ → ℝ) :=
  forN n (fun i acc => acc.bind fun bar =>
    let p := pt i
    let b := addMulTV p.cdft u zeroV
    let mag := norm2 b / p.J
    let nuVal := nu i mag
    let bHat := addMulTV p.cs u zeroV
    let nuDeriv := dnu i mag
    if norm2 b * p.J = 0 then none
    else
      let dBdJ := addVWt (1 / (norm2 b * p.J)) b bHat zeroM
      let P : ℕ → ℕ → ℝ := fun k j =>
        ((0 + wRev i 1 k j) * (-norm2 b / p.J ^ 2) + jacRev i dBdJ k j) * (nuDeriv / p.J)
      let P2 : ℕ → ℕ → ℝ := fun k j => (0 + wRev i 1 k j) * (-nuVal / p.J ^ 2)
      some (scatter meshNdof 3 (fun k j => p.w * (P k j + P2 k j)) bar)) (some fun _ => 0)

/-- One point of `ThermalSensIntegrator`: `ip.weight`, `trans.Weight()`, the H1 shape functions and the vector `V`
of derivatives of the heat source with respect to the element's potential. electromag_integ.cpp:5930-5946. -/
structure TPt (nh nd : ℕ) where
  w : ℝ
  J : ℝ
  shape : Vec nh
  V : Vec nd

/-- `ThermalSensIntegrator::AssembleRHSElementVect`, electromag_integ.cpp:5914-5950. -/
noncomputable def thermalSens {nh nd : ℕ} (n : ℕ) (pt : ℕ → TPt nh nd) (psi : Vec nh) : Vec nd :=
  forN n (fun i v =>
    let p := pt i
    let QBar := p.J * dotv psi p.shape
    axpy (p.w * QBar) p.V v) zeroV

end Verif.FluxNorm
