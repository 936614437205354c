import Verif.EulerFluxes

/-!
Model of the viscous point functions, `/repo/src/physics/fluidflow/navier_stokes_fluxes.hpp`, and of
the boundary fluxes of `/repo/src/physics/fluidflow/navier_stokes_integ_def.hpp`.

`xdouble` is `ℝ`.  The column-major array `Dw[dim*(dim+2)]` of derivatives is `Fin d → State d`
(`Dw j` is the derivative in direction `j`).  `d` is arbitrary; the C++ instantiates 1, 2, 3.
-/

namespace Verif.Viscous
open Verif.EulerFluxes

variable {d : ℕ}

/-- `navierstokes::ST`, navier_stokes_fluxes.hpp:16. -/
noncomputable def ST : ℝ := 1986 / 10 / 460

/-- `calcSutherlandViscosity`, navier_stokes_fluxes.hpp:25-32. -/
noncomputable def sutherland (q : State d) : ℝ :=
  let a := √(gamma * pressure q / q.rho)
  let a2 := a * a
  let a3 := a * a * a
  a3 * (1 + ST) / (a2 + ST)

/-- The unit normal `nrm[i] = dir[i]*fac` (navier_stokes_fluxes.hpp:37-43, 171-178, 341-347). -/
noncomputable def unitNrm (dir : Fin d → ℝ) : Fin d → ℝ := fun i => dir i * (1 / √(dot dir dir))

/-- `setZeroNormalDeriv`, navier_stokes_fluxes.hpp:34-56. -/
noncomputable def setZeroNormalDeriv (dir : Fin d → ℝ) (Dw : Fin d → State d) : Fin d → State d :=
  let nrm := unitNrm dir
  fun i => ⟨(Dw i).rho - nrm i * ∑ j, (Dw j).rho * nrm j,
    fun k => (Dw i).mom k - nrm i * ∑ j, (Dw j).mom k * nrm j,
    (Dw i).ener - nrm i * ∑ j, (Dw j).ener * nrm j⟩

/-- `applyCijMatrix`, navier_stokes_fluxes.hpp:70-117; `mv` is the accumulated `mat_vec`. -/
noncomputable def addCij (i j : Fin d) (mu Pr : ℝ) (q vec mv : State d) : State d :=
  let u : Fin d → ℝ := fun k => q.mom k / q.rho
  let RT := pressure q / q.rho
  let RT2k := RT * RT * gamma * mu / (gami * Pr)
  let RTmu := RT * mu
  if i = j then
    let m1 : Fin d → ℝ := fun k => mv.mom k + RTmu * (vec.mom k + u k * vec.ener)
    let m2 := Function.update m1 i (m1 i + RTmu * (vec.mom i + u i * vec.ener) / 3)
    let e1 := mv.ener + ∑ k, RTmu * u k * (vec.mom k + u k * vec.ener)
    let e2 := e1 + RTmu * u i * (vec.mom i + u i * vec.ener) / 3
    ⟨mv.rho, m2, e2 + RT2k * vec.ener⟩
  else
    let m1 := Function.update mv.mom i (mv.mom i - 2 * RTmu * (vec.mom j + u j * vec.ener) / 3)
    let m2 := Function.update m1 j (m1 j + RTmu * (vec.mom i + u i * vec.ener))
    ⟨mv.rho, m2, mv.ener + RTmu * (u j * vec.mom i - 2 * u i * vec.mom j / 3 +
      u i * u j * vec.ener / 3)⟩

/-- The array of zeros that accumulations start from (navier_stokes_fluxes.hpp:136-139, 165-168). -/
def zeroS : State d := ⟨0, fun _ => 0, 0⟩

/-- `for (int k = 0; k < dim; ++k) s = f(s, k);` over the space dimensions
(navier_stokes_fluxes.hpp:140, 182, 184, 231, ...). -/
def forDim {σ : Type*} (d : ℕ) (f : σ → Fin d → σ) (s : σ) : σ := (List.finRange d).foldl f s

/-- `applyViscousScaling`, navier_stokes_fluxes.hpp:128-145. -/
noncomputable def viscousScaling (dd : Fin d) (mu Pr : ℝ) (q : State d) (Dw : Fin d → State d) :
    State d :=
  forDim d (fun mv d2 => addCij dd d2 mu Pr q (Dw d2) mv) zeroS

/-- `calcAdiabaticWallFlux`, navier_stokes_fluxes.hpp:157-196. -/
noncomputable def adiabaticWallFlux (dir : Fin d → ℝ) (mu Pr : ℝ) (q : State d)
    (Dw : Fin d → State d) : State d :=
  let nrm := unitNrm dir
  let DwNrm := ∑ k, (Dw k).ener * nrm k
  forDim d (fun fl dd => forDim d (fun fl d2 =>
    addCij dd d2 (mu * dir dd) Pr q
      ⟨(Dw d2).rho, (Dw d2).mom, (Dw d2).ener - DwNrm * nrm d2⟩ fl) fl) zeroS

/-- The loop `applyCijMatrix(d, d, mu, Pr, qfs, dw, flux)` followed by the scaling and the zeroing of
the last entry, navier_stokes_fluxes.hpp:227-242, 278-293. -/
noncomputable def penalty (fac mu Pr : ℝ) (qfs dw : State d) : State d :=
  let f := forDim d (fun fl dd => addCij dd dd mu Pr qfs dw fl) zeroS
  ⟨f.rho, fun k => f.mom k * fac, 0⟩

/-- `calcNoSlipPenaltyFlux`, navier_stokes_fluxes.hpp:208-243. -/
noncomputable def noSlipPenaltyFlux (dir : Fin d → ℝ) (Jac mu Pr : ℝ) (qfs q : State d) : State d :=
  penalty (√(dot dir dir) / Jac) mu Pr qfs ⟨0, fun k => q.mom k / pressure q, 0⟩

/-- `calcControlPenaltyFlux`, navier_stokes_fluxes.hpp:256-294. -/
noncomputable def controlPenaltyFlux (dir : Fin d → ℝ) (Jac mu Pr uc : ℝ) (qfs q : State d) :
    State d :=
  let dA := √(dot dir dir)
  penalty (dA / Jac) mu Pr qfs ⟨0, fun k => (q.mom k - q.rho * uc * dir k / dA) / pressure q, 0⟩

/-- `calcNoSlipDualFlux` before the projection, navier_stokes_fluxes.hpp:312-337 (the pair of loops
writes column `d2`). -/
noncomputable def dualFlux0 (dir : Fin d → ℝ) (mu Pr : ℝ) (q : State d) : Fin d → State d :=
  let dw : State d := ⟨0, fun k => q.mom k / pressure q, 0⟩
  fun d2 => forDim d (fun fl dd => addCij d2 dd (-mu * dir dd) Pr q dw fl) zeroS

/-- `calcNoSlipDualFlux`, navier_stokes_fluxes.hpp:304-354. -/
noncomputable def noSlipDualFlux (dir : Fin d → ℝ) (mu Pr : ℝ) (q : State d) : Fin d → State d :=
  let f := dualFlux0 dir mu Pr q
  let nrm := unitNrm dir
  let fluxNrm := ∑ k, (f k).ener * nrm k
  fun k => ⟨(f k).rho, (f k).mom, (f k).ener - fluxNrm * nrm k⟩

/-- `mu_Re`: constant viscosity, or Sutherland's law if it is negative, over the Reynolds number
(navier_stokes_integ.hpp:104-109, navier_stokes_integ_def.hpp:121-126, ...). -/
noncomputable def muRe (mu Re : ℝ) (q : State d) : ℝ := (if mu < 0 then sutherland q else mu) / Re

/-- `a -= b`, `a += b` on whole flux vectors (navier_stokes_integ_def.hpp:129, 138). -/
def subS (a b : State d) : State d := State.map2 (fun x y => x - y) a b
/-- `flux_vec += work_vec` (navier_stokes_integ_def.hpp:138). -/
def addS (a b : State d) : State d := State.map2 (fun x y => x + y) a b
/-- `work_vec *= dir(d)` (navier_stokes_integ_def.hpp:382). -/
def scaleS (c : ℝ) (a : State d) : State d := ⟨a.rho * c, fun k => a.mom k * c, a.ener * c⟩

/-- `NoSlipAdiabaticWallBC::calcFlux`, navier_stokes_integ_def.hpp:109-139. -/
noncomputable def noSlipFlux (mu Re Pr : ℝ) (qfs : State d) (dir : Fin d → ℝ) (jac : ℝ) (q : State d)
    (Dw : Fin d → State d) : State d :=
  let flux := calcSlipWallFlux false dir q
  let m := muRe mu Re q
  let flux := subS flux (adiabaticWallFlux dir m Pr q Dw)
  addS flux (noSlipPenaltyFlux dir jac m Pr qfs q)

/-- `for (d) { work_vec = C_d Dw; work_vec *= dir(d); flux_vec -= work_vec; }`,
navier_stokes_integ_def.hpp:377-384, 856-863. -/
noncomputable def subNormalViscous (dir : Fin d → ℝ) (m Pr : ℝ) (q : State d) (Dw : Fin d → State d)
    (flux : State d) : State d :=
  forDim d (fun fl dd => subS fl (scaleS (dir dd) (viscousScaling dd m Pr q Dw))) flux

/-- `ViscousSlipWallBC::calcFlux`, navier_stokes_integ_def.hpp:343-386 (the `#if 1` branch). -/
noncomputable def viscSlipFlux (mu Re Pr : ℝ) (dir : Fin d → ℝ) (q : State d) (Dw : Fin d → State d) :
    State d :=
  subNormalViscous dir (muRe mu Re q) Pr q (setZeroNormalDeriv dir Dw) (calcSlipWallFlux false dir q)

/-- `ViscousInflowBC`, `ViscousOutflowBC`, `ViscousFarFieldBC`: `calcFlux`,
navier_stokes_integ_def.hpp:529-566, 639-671, navier_stokes_integ.hpp:815-827: the inviscid boundary
flux only. -/
noncomputable def viscBndFlux (qb : State d) (dir : Fin d → ℝ) (q : State d) : State d :=
  calcBoundaryFlux dir qb q

/-- `ViscousExactBC::calcFlux`, navier_stokes_integ_def.hpp:830-864. -/
noncomputable def viscExactFlux (mu Re Pr : ℝ) (qexact : State d) (dir : Fin d → ℝ) (q : State d)
    (Dw : Fin d → State d) : State d :=
  subNormalViscous dir (muRe mu Re q) Pr q (setZeroNormalDeriv dir Dw) (calcBoundaryFlux dir qexact q)

/-- `ViscousControlBC::calcFlux`, navier_stokes_integ_def.hpp:1008-1050; `scale` is
`control_scale(len_scale, x_actuator, x)`. -/
noncomputable def viscControlFlux (mu Re Pr control scale : ℝ) (qfs : State d) (dir : Fin d → ℝ)
    (jac : ℝ) (q : State d) (Dw : Fin d → State d) : State d :=
  let uc := control * scale
  let flux := calcControlFlux dir q uc
  if scale < 1 / 10 ^ 4 then
    let m := muRe mu Re q
    let flux := subS flux (adiabaticWallFlux dir m Pr q Dw)
    addS flux (noSlipPenaltyFlux dir jac m Pr qfs q)
  else flux

/-- `SurfaceForce::calcBndryFun`, navier_stokes_integ_def.hpp:1249-1280. -/
noncomputable def surfaceForce (mu Re Pr : ℝ) (qfs : State d) (forceNrm dir : Fin d → ℝ) (jac : ℝ)
    (q : State d) (Dw : Fin d → State d) : ℝ :=
  let flux := calcSlipWallFlux false dir q
  let m := muRe mu Re q
  let flux := subS flux (adiabaticWallFlux dir m Pr q Dw)
  let flux := addS flux (noSlipPenaltyFlux dir jac m Pr qfs q)
  dot forceNrm flux.mom

end Verif.Viscous
