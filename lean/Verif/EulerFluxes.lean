import Mathlib.Analysis.SpecialFunctions.Pow.Real
import Mathlib.Analysis.SpecialFunctions.Trigonometric.Arctan
import Mathlib.Analysis.Real.Sqrt
import Mathlib.Algebra.BigOperators.Fin

/-!
# Model of `src/physics/fluidflow/euler_fluxes.hpp`

Conservative (and entropy) variables are arrays of length `dim + 2` laid out as
`[first, dim momentum-like entries, last]`; the model is a structure with these three parts.
`xdouble` is modelled by `ℝ` (no rounding; the `adouble` instantiation computes the same values).
`dim` is an arbitrary natural number.  Output arrays become return values.
-/

namespace Verif.EulerFluxes

/-- The arrays `q[dim+2]`, `w[dim+2]`, `flux[dim+2]` of `euler_fluxes.hpp`. -/
@[ext] structure State (d : ℕ) where
  rho : ℝ
  mom : Fin d → ℝ
  ener : ℝ

variable {d : ℕ}

/-- `dot<xdouble, dim>` (`src/utils/utils.hpp:90-129`), on `dim`-vectors. -/
def dot (a b : Fin d → ℝ) : ℝ := ∑ i, a i * b i

/-- `dot<xdouble, dim + 2>` (`src/utils/utils.hpp:90-129`), on full arrays. -/
def sdot (a b : State d) : ℝ := a.rho * b.rho + dot a.mom b.mom + a.ener * b.ener

/-- Componentwise combination loops `for (i = 0; i < dim + 2; ++i) ... `.
euler_fluxes.hpp:399-407, 736-758. -/
def State.map2 (f : ℝ → ℝ → ℝ) (a b : State d) : State d :=
  ⟨f a.rho b.rho, fun i => f (a.mom i) (b.mom i), f a.ener b.ener⟩

/-- `euler::gamma` (`euler_fluxes.hpp:22`). -/
noncomputable def gamma : ℝ := 7 / 5
/-- `euler::gami` (`euler_fluxes.hpp:24`). -/
noncomputable def gami : ℝ := gamma - 1

/-- `pressure` (`euler_fluxes.hpp:48-52`). -/
noncomputable def pressure (q : State d) : ℝ :=
  gami * (q.ener - 1 / 2 * dot q.mom q.mom / q.rho)

/-- `dpressdq` (`euler_fluxes.hpp:60-71`), as the array it is meant to fill (the C++ declares the
output `const` and is never instantiated). -/
noncomputable def dpressdq (q : State d) : State d :=
  ⟨gami * (∑ i, q.mom i / q.rho * (q.mom i / q.rho)) * (1 / 2),
   fun i => -gami * (q.mom i / q.rho), gami⟩

/-- `getFreeStreamQ` (`euler_fluxes.hpp:82-103`).  Axis indices are in range (`Fin d`). -/
noncomputable def getFreeStreamQ (mach aoa : ℝ) (iroll ipitch : Fin d) : State d :=
  { rho := 1
    mom := if d = 1 then fun _ => 1 * mach
           else Function.update (Function.update (fun _ => 0) iroll (1 * mach * Real.cos aoa))
                  ipitch (1 * mach * Real.sin aoa)
    ener := 1 / (gamma * gami) + 1 / 2 * mach * mach }

/-- `calcEntropyVars<entvar = false>` (`euler_fluxes.hpp:122-142`). -/
noncomputable def calcEntropyVars (q : State d) : State d :=
  let u : Fin d → ℝ := fun i => q.mom i / q.rho
  let p := pressure q
  let s := Real.log (p / q.rho ^ gamma)
  let fac := 1 / p
  ⟨(gamma - s) / gami - 1 / 2 * dot u u * fac * q.rho, fun i => q.mom i * fac, -q.rho * fac⟩

/-- `calcConservativeVars<entvar = true>` (`euler_fluxes.hpp:154-170`). -/
noncomputable def calcConservativeVars (w : State d) : State d :=
  let u : Fin d → ℝ := fun i => -w.mom i / w.ener
  let Vel2 := ∑ i, u i * u i
  let s := gamma + gami * (1 / 2 * Vel2 * w.ener - w.rho)
  let q0 := (-Real.exp (-s) / w.ener) ^ (1 / gami)
  let p := -q0 / w.ener
  ⟨q0, fun i => q0 * u i, p / gami + 1 / 2 * q0 * Vel2⟩

/-- `calcConservativeVars<entvar>` (`euler_fluxes.hpp:152-179`): identity for conservative input. -/
noncomputable def consOf (entvar : Bool) (u : State d) : State d :=
  if entvar then calcConservativeVars u else u

/-- `entropy<entvar = false>` (`euler_fluxes.hpp:198-200`). -/
noncomputable def entropy (q : State d) : ℝ :=
  -q.rho * Real.log (pressure q / q.rho ^ gamma) / gami

/-- `entropy<entvar = true>` (`euler_fluxes.hpp:189-196`). -/
noncomputable def entropyEnt (w : State d) : ℝ :=
  let Vel2 := dot w.mom w.mom
  let s := -gamma + gami * (w.rho - 1 / 2 * Vel2 / w.ener)
  let rho := (-Real.exp s / w.ener) ^ (1 / gami)
  rho * s / gami

/-- `entropy(q, qe)` (`euler_fluxes.hpp:221-231`), with `calcEntropyVars` on conservative input. -/
noncomputable def entropyRel (q qe : State d) : ℝ :=
  let we := calcEntropyVars qe
  entropy q - entropy qe - we.rho * (q.rho - qe.rho)
    - (∑ i, we.mom i * (q.mom i - qe.mom i)) - we.ener * (q.ener - qe.ener)

/-- `calcEulerFlux` (`euler_fluxes.hpp:240-251`). -/
noncomputable def calcEulerFlux (dir : Fin d → ℝ) (q : State d) : State d :=
  let press := pressure q
  let U0 := dot q.mom dir
  let U := U0 / q.rho
  ⟨U0, fun i => q.mom i * U + dir i * press, (q.ener + press) * U⟩

/-- The wave-decomposition update shared by `calcRoeFaceFlux` (`euler_fluxes.hpp:315-337`) and
`calcBoundaryFlux` (`euler_fluxes.hpp:736-758`): the text of the two functions is the same up to
the names of the reference velocity `u` (`u[i]`, resp. `qbnd[i+1]*fac`); modelled once.
`flux` is the array before line 315 / 736. -/
noncomputable def addWaves (dir u : Fin d → ℝ) (phi H a Un dA l1 l2 l3 : ℝ) (dq flux : State d) :
    State d :=
  let tmp1 := 1 / 2 * (l1 + l2) - l3
  let E1 := tmp1 * gami / (a * a)
  let E2 := tmp1 / (dA * dA)
  let E34 := 1 / 2 * (l1 - l2) / (dA * a)
  let Edq := phi * dq.rho + dq.ener - dot u dq.mom
  let f1 : State d :=
    ⟨flux.rho + E1 * Edq, fun i => flux.mom i + Edq * (E1 * u i + gami * E34 * dir i),
     flux.ener + Edq * (E1 * H + gami * E34 * Un)⟩
  let Edq' := -Un * dq.rho + dot dir dq.mom
  ⟨f1.rho + E34 * Edq', fun i => f1.mom i + Edq' * (E2 * dir i + E34 * u i),
   f1.ener + Edq' * (E2 * Un + E34 * H)⟩

/-- `calcRoeFaceFlux` (`euler_fluxes.hpp:261-338`). -/
noncomputable def calcRoeFaceFlux (dir : Fin d → ℝ) (qL qR : State d) : State d :=
  let satVn : ℝ := 25 / 1000
  let satVl : ℝ := 25 / 1000
  let sqL := √qL.rho
  let sqR := √qR.rho
  let facL := 1 / qL.rho
  let facR := 1 / qR.rho
  let fac := 1 / (sqL + sqR)
  let u : Fin d → ℝ := fun i => (sqL * qL.mom i * facL + sqR * qR.mom i * facR) * fac
  let phi := 1 / 2 * dot u u
  let Un := dot dir u
  let HL := (gamma * qL.ener - 1 / 2 * gami * dot qL.mom qL.mom * facL) * facL
  let HR := (gamma * qR.ener - 1 / 2 * gami * dot qR.mom qR.mom * facR) * facR
  let H := (sqL * HL + sqR * HR) * fac
  let a := √(gami * (H - phi))
  let dA := √(dot dir dir)
  let rhoA := |Un| + dA * a
  let l1 := 1 / 2 * max |Un + dA * a| (satVn * rhoA)
  let l2 := 1 / 2 * max |Un - dA * a| (satVn * rhoA)
  let l3 := 1 / 2 * max |Un| (satVl * rhoA)
  let fL := calcEulerFlux dir qL
  let fR := calcEulerFlux dir qR
  let dq := State.map2 (fun x y => x - y) qL qR
  let favg := State.map2 (fun x y => 1 / 2 * (x + y)) fL fR
  let flux := State.map2 (fun x y => x + l3 * y) favg dq
  addWaves dir u phi H a Un dA l1 l2 l3 dq flux

/-- `logavg` (`euler_fluxes.hpp:346-362`). -/
noncomputable def logavg (aL aR : ℝ) : ℝ :=
  let xi := aL / aR
  let f := (xi - 1) / (xi + 1)
  let u := f * f
  let eps : ℝ := 1 / 1000
  let F := if u < eps then 1 + u * (1 / 3 + u * (1 / 5 + u * (1 / 7 + u / 9)))
           else (Real.log xi / 2) / f
  (aL + aR) / (2 * F)

/-- The parameter vector `z` built from conservative variables
(`euler_fluxes.hpp:377-389`, `479-491`, `1073-1085`). -/
noncomputable def zCons (q : State d) : State d :=
  let p := pressure q
  let z0 := √(q.rho / p)
  ⟨z0, fun i => z0 * q.mom i / q.rho, √(q.rho * p)⟩

/-- The parameter vector `z` built from entropy variables
(`euler_fluxes.hpp:425-444`, `533-552`, `1150-1169`). -/
noncomputable def zEnt (w : State d) : State d :=
  let z0 := √(-w.ener)
  let s := gamma + gami * (1 / 2 * (∑ i, w.mom i * w.mom i) / w.ener - w.rho)
  ⟨z0, fun i => -w.mom i * z0 / w.ener, (-Real.exp (-s) / w.ener) ^ (1 / gami) / z0⟩

/-- `rho_hat` (`euler_fluxes.hpp:391` and duplicates at 446, 493, 554, 1087, 1171). -/
noncomputable def rhoHat (zL zR : State d) : ℝ :=
  1 / 2 * (zL.rho + zR.rho) * logavg zL.ener zR.ener
/-- `p1_hat` (`euler_fluxes.hpp:393` and duplicates). -/
noncomputable def p1Hat (zL zR : State d) : ℝ := (zL.ener + zR.ener) / (zL.rho + zR.rho)
/-- `p2_hat` (`euler_fluxes.hpp:394-398` and duplicates). -/
noncomputable def p2Hat (zL zR : State d) : ℝ :=
  ((gamma + 1) * logavg zL.ener zR.ener / logavg zL.rho zR.rho
    + gami * (zL.ener + zR.ener) / (zL.rho + zR.rho)) / (2 * gamma)
/-- `u_hat` stored in `flux[i+1]` (`euler_fluxes.hpp:404` and duplicates). -/
noncomputable def uHat (zL zR : State d) (i : Fin d) : ℝ :=
  (zL.mom i + zR.mom i) / (zL.rho + zR.rho)
/-- `h_hat` after the loop (`euler_fluxes.hpp:399,402-407` and duplicates). -/
noncomputable def hHat (zL zR : State d) : ℝ :=
  gamma * p2Hat zL zR / (rhoHat zL zR * gami) + ∑ i, 1 / 2 * uHat zL zR i * uHat zL zR i

/-- Coordinate-direction Ismail–Roe flux from `z` (`euler_fluxes.hpp:391-409`, `446-463`). -/
noncomputable def irFluxZ (di : Fin d) (zL zR : State d) : State d :=
  let U := (zL.mom di + zR.mom di) / (zL.rho + zR.rho)
  ⟨rhoHat zL zR * U,
   Function.update (fun i => uHat zL zR i * (rhoHat zL zR * U)) di
     (uHat zL zR di * (rhoHat zL zR * U) + p1Hat zL zR),
   rhoHat zL zR * hHat zL zR * U⟩

/-- The part of the face fluxes after `U` is known (`euler_fluxes.hpp:501-517`, `560-575`). -/
noncomputable def irFaceZ (dir : Fin d → ℝ) (U : ℝ) (zL zR : State d) : State d :=
  ⟨rhoHat zL zR * U, fun i => uHat zL zR i * (rhoHat zL zR * U) + p1Hat zL zR * dir i,
   rhoHat zL zR * hHat zL zR * U⟩

/-- `calcIsmailRoeFlux` (`euler_fluxes.hpp:372-410`). -/
noncomputable def calcIsmailRoeFlux (di : Fin d) (qL qR : State d) : State d :=
  irFluxZ di (zCons qL) (zCons qR)

/-- `calcIsmailRoeFluxUsingEntVars` (`euler_fluxes.hpp:420-464`). -/
noncomputable def calcIsmailRoeFluxUsingEntVars (di : Fin d) (wL wR : State d) : State d :=
  irFluxZ di (zEnt wL) (zEnt wR)

/-- `calcIsmailRoeFaceFlux` (`euler_fluxes.hpp:474-518`). -/
noncomputable def calcIsmailRoeFaceFlux (dir : Fin d → ℝ) (qL qR : State d) : State d :=
  let zL := zCons qL
  let zR := zCons qR
  let U := ∑ i, (zL.rho * qL.mom i / qL.rho + zR.rho * qR.mom i / qR.rho) * dir i
              / (zL.rho + zR.rho)
  irFaceZ dir U zL zR

/-- `calcIsmailRoeFaceFluxUsingEntVars` (`euler_fluxes.hpp:528-576`). -/
noncomputable def calcIsmailRoeFaceFluxUsingEntVars (dir : Fin d → ℝ) (wL wR : State d) : State d :=
  let zL := zEnt wL
  let zR := zEnt wR
  let U := ∑ i, (zL.mom i + zR.mom i) * dir i / (zL.rho + zR.rho)
  irFaceZ dir U zL zR

/-- `calcSpectralRadius<entvar>` (`euler_fluxes.hpp:586-596`). -/
noncomputable def calcSpectralRadius (entvar : Bool) (dir : Fin d → ℝ) (u : State d) : ℝ :=
  let q := consOf entvar u
  let press := pressure q
  let sndsp := √(gamma * press / q.rho)
  let U := dot q.mom dir / q.rho
  let dirNorm := √(dot dir dir)
  |U| + sndsp * dirNorm

/-- `calcdQdWProduct` (`euler_fluxes.hpp:601-635`). -/
noncomputable def calcdQdWProduct (q vec : State d) : State d :=
  let p := pressure q
  let rhoInv := 1 / q.rho
  let h := (q.ener + p) * rhoInv
  let a2 := gamma * p * rhoInv
  ⟨q.rho * vec.rho + (∑ i, q.mom i * vec.mom i) + q.ener * vec.ener,
   fun j =>
     let u := q.mom j * rhoInv
     (u * q.rho * vec.rho + (∑ i, u * q.mom i * vec.mom i) + u * q.ener * vec.ener)
       + p * vec.mom j + p * u * vec.ener,
   q.ener * vec.rho + (∑ i, q.mom i * h * vec.mom i)
     + (q.rho * h * h - a2 * p / gami) * vec.ener⟩

/-- `applyLPSScaling` (`euler_fluxes.hpp:645-662`); `adjJ i` is the row at `adjJ + i*dim`. -/
noncomputable def applyLPSScaling (adjJ : Fin d → Fin d → ℝ) (q vec : State d) : State d :=
  let spect := (∑ i, calcSpectralRadius false (adjJ i) q) / (d : ℝ)
  let mv := calcdQdWProduct q vec
  ⟨mv.rho * spect, fun i => mv.mom i * spect, mv.ener * spect⟩

/-- `applyLPSScalingUsingEntVars` (`euler_fluxes.hpp:672-680`). -/
noncomputable def applyLPSScalingUsingEntVars (adjJ : Fin d → Fin d → ℝ) (w vec : State d) :
    State d :=
  applyLPSScaling adjJ (calcConservativeVars w) vec

/-- `calcBoundaryFlux` (`euler_fluxes.hpp:693-759`); the work array is scratch only. -/
noncomputable def calcBoundaryFlux (dir : Fin d → ℝ) (qbnd q : State d) : State d :=
  let satVn : ℝ := 0
  let satVl : ℝ := 0
  let dA := √(dot dir dir)
  let fac := 1 / qbnd.rho
  let phi := 1 / 2 * dot qbnd.mom qbnd.mom * fac * fac
  let H := gamma * qbnd.ener * fac - gami * phi
  let a := √(gami * (H - phi))
  let Un := dot qbnd.mom dir * fac
  let l1 := Un + dA * a
  let l2 := Un - dA * a
  let l3 := Un
  let rhoA := |Un| + dA * a
  let l1 := 1 / 2 * (max |l1| (satVn * rhoA) - l1)
  let l2 := 1 / 2 * (max |l2| (satVn * rhoA) - l2)
  let l3 := 1 / 2 * (max |l3| (satVl * rhoA) - l3)
  let dq := State.map2 (fun x y => x - y) q qbnd
  let flux0 := calcEulerFlux dir q
  let flux := State.map2 (fun x y => x + l3 * y) flux0 dq
  addWaves dir (fun i => qbnd.mom i * fac) phi H a Un dA l1 l2 l3 dq flux

/-- `calcBoundaryFluxEC` (`euler_fluxes.hpp:770-795`). -/
noncomputable def calcBoundaryFluxEC (dir : Fin d → ℝ) (qbnd q : State d) (entflux : ℝ) : State d :=
  let flux := calcBoundaryFlux dir qbnd q
  let w := calcEntropyVars q
  let psi := dot q.mom dir
  let Aw := calcdQdWProduct q w
  let dF := (sdot w flux - psi - entflux) / sdot w Aw
  State.map2 (fun x y => x - dF * y) flux Aw

/-- `calcControlFlux` (`euler_fluxes.hpp:805-835`), active `#if 1` branch. -/
noncomputable def calcControlFlux (dir : Fin d → ℝ) (q : State d) (vel : ℝ) : State d :=
  let U := -vel * √(dot dir dir)
  let press := pressure q
  ⟨q.rho * U, fun i => q.mom i * U + dir i * press, q.ener * U + press * U⟩

/-- `calcFarFieldFlux<entvar>` (`euler_fluxes.hpp:849-858`). -/
noncomputable def calcFarFieldFlux (entvar : Bool) (dir : Fin d → ℝ) (qbnd q : State d) : State d :=
  calcBoundaryFlux dir qbnd (consOf entvar q)

/-- `calcIsentropicVortexState` (`euler_fluxes.hpp:868-900`), two-dimensional. -/
noncomputable def calcIsentropicVortexState (x : Fin 2 → ℝ) : State 2 :=
  let ri : ℝ := 1
  let Mai : ℝ := 1 / 2
  let rhoi : ℝ := 2
  let prsi : ℝ := 1 / gamma
  let rinv := ri / √(x 0 * x 0 + x 1 * x 1)
  let rho := rhoi * (1 + 1 / 2 * gami * Mai * Mai * (1 - rinv * rinv)) ^ (1 / gami)
  let Ma := √((2 / gami) * ((rhoi / rho) ^ gami * (1 + 1 / 2 * gami * Mai * Mai) - 1))
  let theta := if x 0 > 1 / 10 ^ 15 then Real.arctan (x 1 / x 0) else Real.pi / 2
  let press := prsi * ((1 + 1 / 2 * gami * Mai * Mai) / (1 + 1 / 2 * gami * Ma * Ma))
                        ^ (gamma / gami)
  let a := √(gamma * press / rho)
  ⟨rho, ![-rho * a * Ma * Real.sin theta, rho * a * Ma * Real.cos theta],
   press / gami + 1 / 2 * rho * a * a * Ma * Ma⟩

/-- `calcIsentropicVortexFlux<entvar>` (`euler_fluxes.hpp:910-921`). -/
noncomputable def calcIsentropicVortexFlux (entvar : Bool) (x dir : Fin 2 → ℝ) (q : State 2) :
    State 2 :=
  calcBoundaryFlux dir (calcIsentropicVortexState x) (consOf entvar q)

/-- `projectStateOntoWall` (`euler_fluxes.hpp:930-946`). -/
noncomputable def projectStateOntoWall (dir : Fin d → ℝ) (q : State d) : State d :=
  let fac := 1 / √(dot dir dir)
  let nrm : Fin d → ℝ := fun i => dir i * fac
  let Unrm := ∑ i, nrm i * q.mom i
  ⟨q.rho, fun i => q.mom i - nrm i * Unrm, q.ener⟩

/-- `calcSlipWallFlux<entvar>` (`euler_fluxes.hpp:957-985`; the `#if 0` block is not compiled). -/
noncomputable def calcSlipWallFlux (entvar : Bool) (dir : Fin d → ℝ) (q : State d) : State d :=
  let press := if entvar then
      let Vel2 := dot q.mom q.mom
      let s := gamma + gami * (1 / 2 * Vel2 / q.ener - q.rho);
      (-(-Real.exp (-s) / q.ener) ^ (1 / gami)) / q.ener
    else pressure q
  ⟨0, fun i => dir i * press, 0⟩

/-- `calcIsmailRoeFaceFluxWithDiss` (`euler_fluxes.hpp:1067-1133`); lines 1073-1109 repeat
`calcIsmailRoeFaceFlux`. -/
noncomputable def calcIsmailRoeFaceFluxWithDiss (dir : Fin d → ℝ) (dissCoeff : ℝ)
    (qL qR : State d) : State d :=
  let flux := calcIsmailRoeFaceFlux dir qL qR
  let wL := calcEntropyVars qL
  let wR := calcEntropyVars qR
  let qAve := State.map2 (fun x y => 1 / 2 * (x + y)) qL qR
  let wDiff := State.map2 (fun x y => x - y) wL wR
  let lambda := dissCoeff * calcSpectralRadius false dir qAve
  let dqdw := calcdQdWProduct qAve wDiff
  State.map2 (fun x y => x + lambda * y) flux dqdw

/-- `calcIsmailRoeFaceFluxWithDissUsingEntVars` (`euler_fluxes.hpp:1144-1213`); lines 1150-1189
repeat `calcIsmailRoeFaceFluxUsingEntVars`. -/
noncomputable def calcIsmailRoeFaceFluxWithDissUsingEntVars (dir : Fin d → ℝ) (dissCoeff : ℝ)
    (wL wR : State d) : State d :=
  let flux := calcIsmailRoeFaceFluxUsingEntVars dir wL wR
  let qL := calcConservativeVars wL
  let qR := calcConservativeVars wR
  let qAve := State.map2 (fun x y => 1 / 2 * (x + y)) qL qR
  let wDiff := State.map2 (fun x y => x - y) wL wR
  let lambda := dissCoeff * calcSpectralRadius false dir qAve
  let dqdw := calcdQdWProduct qAve wDiff
  State.map2 (fun x y => x + lambda * y) flux dqdw

/-- `calcFarFieldFlux2<entvar>` (`euler_fluxes.hpp:1215-1270`): `none` models `throw(-1)`. -/
noncomputable def calcFarFieldFlux2 (entvar : Bool) (dir : Fin d → ℝ) (qbnd q : State d) :
    Option (State d) :=
  if entvar then none else
    let U := dot dir qbnd.mom / qbnd.rho
    let f : ℝ → ℝ → ℝ := fun x y => 1 / 2 * U * (x + y) + 1 / 2 * |U| * (x - y)
    let press := pressure q
    let pressBnd := pressure qbnd
    some ⟨f q.rho qbnd.rho, fun i => f (q.mom i) (qbnd.mom i) + dir i * press,
          f q.ener qbnd.ener
            + (1 / 2 * U * (press + pressBnd) + 1 / 2 * |U| * (press - pressBnd))⟩

end Verif.EulerFluxes
