import Verif.EulerFluxes
import Verif.InviscidInteg

/-!
Model of the Euler integrators, `/repo/src/physics/fluidflow/euler_integ_def.hpp`: the point
functions (fluxes, conversions, functionals) that plug into the generic integrators of
`InviscidInteg.lean`, and the element functionals.

The generic integrators see `mfem::Vector`s (`ℕ → ℝ`), the point functions see arrays of length
`dim + 2` laid out as density, momentum, energy (`State dim`); `toState`/`ofState` are the two views of
the same storage.  `entvar` is the template parameter.  `double` is `ℝ`.
-/

namespace Verif.EulerInteg
open Verif.EulerFluxes Verif.Sbp Verif.Inviscid

variable {d : ℕ}

/-- `q.GetData()` read as an array of length `dim + 2` (euler_integ_def.hpp:79, 93-98, ...). -/
def toState (d : ℕ) (v : ℕ → ℝ) : State d := ⟨v 0, fun i => v (i.val + 1), v (d + 1)⟩

/-- `flux.GetData()` written as an array of length `dim + 2` (euler_integ_def.hpp:94, 99, ...). -/
def ofState (s : State d) : ℕ → ℝ :=
  fun n => if n = 0 then s.rho else if h : n - 1 < d then s.mom ⟨n - 1, h⟩ else s.ener

/-- `dir.GetData()` read as an array of length `dim` (euler_integ_def.hpp:460, ...). -/
def toDir (d : ℕ) (v : ℕ → ℝ) : Fin d → ℝ := fun i => v i.val

/-- `calcEntropyVars<double, dim, entvar>`, euler_fluxes.hpp:111-142: identity when the working
variables already are entropy variables. -/
noncomputable def entVarsOf (entvar : Bool) (u : State d) : State d :=
  if entvar then u else calcEntropyVars u

/-- `entropy<double, dim, entvar>`, euler_fluxes.hpp:186-200. -/
noncomputable def entropyOf (entvar : Bool) (u : State d) : ℝ :=
  if entvar then entropyEnt u else entropy u

/-- `Vector * Vector` (MFEM inner product), used at euler_integ_def.hpp:80, 389, ... -/
def vdot (ns : ℕ) (a b : ℕ → ℝ) : ℝ := forN ns (fun n s => s + a n * b n) 0

/-- `EulerIntegrator::calcFlux` (euler_integ.hpp, wrapper of `calcEulerFlux`). -/
noncomputable def eulerFlux (d : ℕ) (dir q : ℕ → ℝ) : ℕ → ℝ :=
  ofState (calcEulerFlux (toDir d dir) (toState d q))

/-- `IsmailRoeIntegrator::calcFlux`, euler_integ_def.hpp:86-102.  The C++ takes any `int di`; it is
only called with `0 ≤ di < dim`. -/
noncomputable def irFlux (d : ℕ) (entvar : Bool) (di : ℕ) (qL qR : ℕ → ℝ) : ℕ → ℝ :=
  if h : di < d then
    ofState (if entvar then calcIsmailRoeFluxUsingEntVars ⟨di, h⟩ (toState d qL) (toState d qR)
      else calcIsmailRoeFlux ⟨di, h⟩ (toState d qL) (toState d qR))
  else fun _ => 0

/-- The loop of `IsmailRoeIntegrator::GetElementEnergy` and `EntStableLPSIntegrator::GetElementEnergy`,
euler_integ_def.hpp:73-82, 160-169. -/
noncomputable def entropyChange (d : ℕ) (entvar : Bool) (N : ℕ) (elfun elres : ℕ → ℝ) : ℝ :=
  forN N (fun i s => s + vdot (d + 2) (ofState (entVarsOf entvar (toState d (row elfun N i))))
    (row elres N i)) 0

/-- `IsmailRoeIntegrator::AssembleElementVector` (inherited, inviscid_integ_def.hpp:139-189) with
`calcFlux` of euler_integ_def.hpp:86-102. -/
noncomputable def irVec (d : ℕ) (entvar : Bool) (e : Elem ℝ) (alpha : ℝ) (adj : ℕ → ℕ → ℕ → ℝ)
    (u : ℕ → ℝ) : ℕ → ℝ :=
  dyadicVec e (d + 2) alpha (irFlux d entvar) adj u

/-- `IsmailRoeIntegrator::GetElementEnergy`, euler_integ_def.hpp:60-83. -/
noncomputable def irEnergy (d : ℕ) (entvar : Bool) (e : Elem ℝ) (alpha : ℝ)
    (adj : ℕ → ℕ → ℕ → ℝ) (u : ℕ → ℝ) : ℝ :=
  entropyChange d entvar e.dof u (irVec d entvar e alpha adj u)

/-- `EntStableLPSIntegrator::convertVars`, euler_integ_def.hpp:173-178. -/
noncomputable def lpsConvert (d : ℕ) (entvar : Bool) (q : ℕ → ℝ) : ℕ → ℝ :=
  ofState (entVarsOf entvar (toState d q))

/-- `EntStableLPSIntegrator::applyScaling`, euler_integ_def.hpp:213-231.  `DenseMatrix` data are
column-major, so the array read as `adjJ + i * dim` is column `i` of the matrix passed in. -/
noncomputable def lpsScale (d : ℕ) (entvar : Bool) (adjJ : ℕ → ℕ → ℝ) (q v : ℕ → ℝ) : ℕ → ℝ :=
  let data : Fin d → Fin d → ℝ := fun i k => adjJ k i
  ofState (if entvar then applyLPSScalingUsingEntVars data (toState d q) (toState d v)
    else applyLPSScaling data (toState d q) (toState d v))

/-- `EntStableLPSIntegrator::AssembleElementVector` (inherited, inviscid_integ_def.hpp:253-306):
`CalcAdjugate(Trans.Jacobian(), adjJt)` is passed, not its transpose (291-292). -/
noncomputable def entLpsVec (d : ℕ) (entvar : Bool) (e : Elem ℝ) (alpha lps : ℝ)
    (adj : ℕ → ℕ → ℕ → ℝ) (u : ℕ → ℝ) : ℕ → ℝ :=
  lpsVec e (d + 2) alpha lps (lpsConvert d entvar) (fun i => lpsScale d entvar (adj i)) u

/-- `EntStableLPSIntegrator::GetElementEnergy`, euler_integ_def.hpp:147-170. -/
noncomputable def entLpsEnergy (d : ℕ) (entvar : Bool) (e : Elem ℝ) (alpha lps : ℝ)
    (adj : ℕ → ℕ → ℕ → ℝ) (u : ℕ → ℝ) : ℝ :=
  entropyChange d entvar e.dof u (entLpsVec d entvar e alpha lps adj u)

/-- `MassIntegrator::convertVars`, euler_integ_def.hpp:341-346. -/
noncomputable def massConvert (d : ℕ) (entvar : Bool) (u : ℕ → ℝ) : ℕ → ℝ :=
  ofState (consOf entvar (toState d u))

/-- `w * flux_vec` with `w = calcEntropyVars<entvar>(q)`: body of `calcBndryFun` of
`IsentropicVortexBC`, `SlipWallBC`, `FarFieldBC` and `ControlBC`, euler_integ_def.hpp:380-390,
454-464, 526-536, 704-713. -/
noncomputable def testedFlux (d : ℕ) (entvar : Bool) (flux : (ℕ → ℝ) → (ℕ → ℝ) → (ℕ → ℝ) → (ℕ → ℝ))
    (x dir q : ℕ → ℝ) : ℝ :=
  vdot (d + 2) (ofState (entVarsOf entvar (toState d q))) (flux x dir q)

/-- `IsentropicVortexBC::calcFlux`, euler_integ_def.hpp:392-400 (two-dimensional). -/
noncomputable def vortexFlux (entvar : Bool) (x dir q : ℕ → ℝ) : ℕ → ℝ :=
  ofState (calcIsentropicVortexFlux entvar (toDir 2 x) (toDir 2 dir) (toState 2 q))

/-- `SlipWallBC::calcFlux`, euler_integ_def.hpp:466-474. -/
noncomputable def slipWallFlux (d : ℕ) (entvar : Bool) (_x dir q : ℕ → ℝ) : ℕ → ℝ :=
  ofState (calcSlipWallFlux entvar (toDir d dir) (toState d q))

/-- `FarFieldBC::calcFlux`, euler_integ_def.hpp:538-549. -/
noncomputable def farFieldFlux (d : ℕ) (entvar : Bool) (qfs : State d) (_x dir q : ℕ → ℝ) : ℕ → ℝ :=
  ofState (calcFarFieldFlux entvar (toDir d dir) qfs (toState d q))

/-- The prescribed entropy flux of `EntropyConserveBC::calcFlux`, euler_integ_def.hpp:628-630. -/
noncomputable def ecEntFlux (dir : Fin d → ℝ) (qb : State d) : ℝ :=
  dot qb.mom dir / qb.rho * entropy qb

/-- `EntropyConserveBC::calcFlux`, euler_integ_def.hpp:619-637, called with a separate output
vector (as `AssembleFaceVector` does); `bc x` is `bc_fun(t, x, work1)`. -/
noncomputable def ecFlux (d : ℕ) (entvar : Bool) (bc : (ℕ → ℝ) → State d) (x dir q : ℕ → ℝ) :
    ℕ → ℝ :=
  ofState (calcBoundaryFluxEC (toDir d dir) (bc x) (consOf entvar (toState d q))
    (ecEntFlux (toDir d dir) (bc x)))

/-- `calcBoundaryFlux` (euler_fluxes.hpp:693-759) when the output array `flux` is the same storage as
`qbnd`: after `calcEulerFlux` overwrites it, the later reads of `qbnd[i+1]` (740, 745, 755) see the
partially updated flux.  All scalars were computed from the original contents. -/
noncomputable def calcBoundaryFluxAliased (dir : Fin d → ℝ) (qbnd q : State d) : State d :=
  let satVn : ℝ := 0
  let satVl : ℝ := 0
  let dA := √(dot dir dir)
  let fac := 1 / qbnd.rho
  let phi := 1 / 2 * dot qbnd.mom qbnd.mom * fac * fac
  let H := gamma * qbnd.ener * fac - gami * phi
  let a := √(gami * (H - phi))
  let Un := dot qbnd.mom dir * fac
  let l1 := Un + dA * a
  let l2 := Un - dA * a
  let l3 := Un
  let rhoA := |Un| + dA * a
  let l1 := 1 / 2 * (max |l1| (satVn * rhoA) - l1)
  let l2 := 1 / 2 * (max |l2| (satVn * rhoA) - l2)
  let l3 := 1 / 2 * (max |l3| (satVl * rhoA) - l3)
  let dq := State.map2 (fun x y => x - y) q qbnd
  let flux0 := calcEulerFlux dir q
  let f1 := State.map2 (fun x y => x + l3 * y) flux0 dq
  let tmp1 := 1 / 2 * (l1 + l2) - l3
  let E1 := tmp1 * gami / (a * a)
  let E2 := tmp1 / (dA * dA)
  let E34 := 1 / 2 * (l1 - l2) / (dA * a)
  let Edq := phi * dq.rho + dq.ener - dot f1.mom dq.mom * fac
  let f2 : State d :=
    ⟨f1.rho + E1 * Edq, fun i => f1.mom i + Edq * (E1 * f1.mom i * fac + gami * E34 * dir i),
     f1.ener + Edq * (E1 * H + gami * E34 * Un)⟩
  let Edq' := -Un * dq.rho + dot dir dq.mom
  ⟨f2.rho + E34 * Edq', fun i => f2.mom i + Edq' * (E2 * dir i + E34 * f2.mom i * fac),
   f2.ener + Edq' * (E2 * Un + E34 * H)⟩

/-- `calcBoundaryFluxEC` (euler_fluxes.hpp:770-795) with `flux` aliasing `qbnd`. -/
noncomputable def calcBoundaryFluxECAliased (dir : Fin d → ℝ) (qbnd q : State d) (entflux : ℝ) :
    State d :=
  let flux := calcBoundaryFluxAliased dir qbnd q
  let w := calcEntropyVars q
  let psi := dot q.mom dir
  let Aw := calcdQdWProduct q w
  let dF := (sdot w flux - psi - entflux) / sdot w Aw
  State.map2 (fun x y => x - dF * y) flux Aw

/-- `EntropyConserveBC::calcBndryFun`, euler_integ_def.hpp:609-617: it passes `work1` both as the
output of `calcFlux` and, inside it, as the boundary state. -/
noncomputable def ecBndryFun (d : ℕ) (entvar : Bool) (bc : (ℕ → ℝ) → State d) (x dir q : ℕ → ℝ) :
    ℝ :=
  let work1 := ofState (calcBoundaryFluxECAliased (toDir d dir) (bc x)
    (consOf entvar (toState d q)) (ecEntFlux (toDir d dir) (bc x)))
  vdot (d + 2) (ofState (entVarsOf entvar (toState d q))) work1

/-- `ControlBC::calcFlux`, euler_integ_def.hpp:715-728; `scale x` is
`control_scale(len_scale, x_actuator, x)`. -/
noncomputable def controlFlux (d : ℕ) (entvar : Bool) (control : ℝ) (scale : (ℕ → ℝ) → ℝ)
    (x dir q : ℕ → ℝ) : ℕ → ℝ :=
  ofState (calcControlFlux (toDir d dir) (consOf entvar (toState d q)) (control * scale x))

/-- `InterfaceIntegrator::calcFlux`, euler_integ_def.hpp:818-840. -/
noncomputable def ifaceFlux (d : ℕ) (entvar : Bool) (diss : ℝ) (dir qL qR : ℕ → ℝ) : ℕ → ℝ :=
  ofState (if entvar then
      calcIsmailRoeFaceFluxWithDissUsingEntVars (toDir d dir) diss (toState d qL) (toState d qR)
    else calcIsmailRoeFaceFluxWithDiss (toDir d dir) diss (toState d qL) (toState d qR))

/-- `InterfaceIntegrator::calcIFaceFun`, euler_integ_def.hpp:803-817. -/
noncomputable def ifaceFun (d : ℕ) (entvar : Bool) (diss : ℝ) (dir qL qR : ℕ → ℝ) : ℝ :=
  vdot (d + 2) (fun n => ofState (entVarsOf entvar (toState d qL)) n -
    ofState (entVarsOf entvar (toState d qR)) n) (ifaceFlux d entvar diss dir qL qR)

/-- `PressureForce::calcBndryFun`, euler_integ_def.hpp:922-930. -/
noncomputable def pressureForce (d : ℕ) (entvar : Bool) (forceNrm : Fin d → ℝ) (_x dir q : ℕ → ℝ) :
    ℝ :=
  dot forceNrm (calcSlipWallFlux entvar (toDir d dir) (toState d q)).mom

/-- `EntropyIntegrator::calcVolFun`, euler_integ_def.hpp:960-965. -/
noncomputable def entropyVolFun (d : ℕ) (entvar : Bool) (_x u : ℕ → ℝ) : ℝ :=
  entropyOf entvar (toState d u)

/-- `euler::rho_ref`, euler_fluxes.hpp:29. -/
noncomputable def rhoRef : ℝ := (1 + 1 / 2 * gami * (2 / 10) * (2 / 10)) ^ (1 / gami)
/-- `euler::press_ref`, euler_fluxes.hpp:33. -/
noncomputable def pressRef : ℝ := (1 + 1 / 2 * gami * (2 / 10) * (2 / 10)) ^ (gamma / gami) / gamma

/-- `BoundaryEntropy::calcBndryFun`, euler_integ_def.hpp:967-979: `pressure` is applied to the state
vector as if it were conservative, whatever `entvar`. -/
noncomputable def boundaryEntropy (d : ℕ) (entvar : Bool) (scale : (ℕ → ℝ) → ℝ) (x dir q : ℕ → ℝ) :
    ℝ :=
  let S := entropyOf entvar (toState d q)
  let press := pressure (toState d q)
  let S := S + rhoRef * (press - pressRef) / pressRef
  let dA := √(dot (toDir d dir) (toDir d dir))
  scale x * S * dA

/-- `SupplyRate::calcBndryFun`, euler_integ_def.hpp:981-996 (`none`: `calcFarFieldFlux2` throws). -/
noncomputable def supplyRate (d : ℕ) (entvar : Bool) (qfs : State d) (_x dir q : ℕ → ℝ) : Option ℝ :=
  (calcFarFieldFlux2 entvar (toDir d dir) qfs (toState d q)).map fun flux =>
    dot (toDir d dir) (toState d q).mom -
      vdot (d + 2) (ofState (entVarsOf entvar (toState d q))) (ofState flux)

/-! ### The flow residual's entropy change -/

/-- One element of the mesh: SBP operators and mapping adjugates at its nodes.
flow_residual.cpp:98-260. -/
structure MeshElem where
  /-- `fes.GetFE(k)` -/
  e : Elem ℝ
  /-- `CalcAdjugate(trans.Jacobian())` at node `i` -/
  adj : ℕ → ℕ → ℕ → ℝ

/-- What `MISONonlinearForm` loops over: elements, interior faces with the numbers of their two
elements, boundary faces with their element. flow_residual.cpp:98-260. -/
structure FlowMesh where
  /-- `GetNE()` -/
  ne : ℕ
  /-- the elements -/
  elem : ℕ → MeshElem
  /-- number of interior faces -/
  nf : ℕ
  /-- interior face -/
  face : ℕ → Face ℝ
  /-- its first element -/
  fL : ℕ → ℕ
  /-- its second element -/
  fR : ℕ → ℕ
  /-- number of boundary faces -/
  nb : ℕ
  /-- boundary face -/
  bface : ℕ → Face ℝ
  /-- its element -/
  bE : ℕ → ℕ

/-- The element vector pair handed to a face integrator: left data followed by right data
(inviscid_integ_def.hpp:627-630). -/
def pairVec (ns NL : ℕ) (uL uR : ℕ → ℝ) : ℕ → ℝ :=
  fun p => if p < NL * ns then uL p else uR (p - NL * ns)

/-- `FlowResidual::calcEntropyChange_` (flow_residual.cpp:445-459): `calcFormOutput` is
`form.nf.GetEnergy` (miso_nonlinearform.cpp:55-61), the sum of `GetElementEnergy` over the domain
integrators and `GetFaceEnergy` over face integrators.  The integrators are those added at
flow_residual.cpp:138-211: Ismail-Roe (`a = 1`), LPS constructed as `(stack, lps_coeff)`, i.e. with
`alpha = lps_coeff` and LPS coefficient `1`, added only if `lps_coeff > 0`; interface terms only for the
discontinuous basis (`dsbp`).  `bfun b` is the boundary condition attached to boundary face `b`;
`u k` is the state on element `k`. -/
noncomputable def calcEntropyChange (d : ℕ) (entvar : Bool) (dsbp : Bool) (lpsCoeff diss : ℝ)
    (m : FlowMesh) (bfun : ℕ → (ℕ → ℝ) → (ℕ → ℝ) → (ℕ → ℝ) → ℝ) (u : ℕ → ℕ → ℝ) : ℝ :=
  let dom := forN m.ne (fun k s => s + irEnergy d entvar (m.elem k).e 1 (m.elem k).adj (u k)) 0
  let dom := if 0 < lpsCoeff then
      forN m.ne (fun k s => s + entLpsEnergy d entvar (m.elem k).e lpsCoeff 1 (m.elem k).adj (u k)) dom
    else dom
  let fac := if dsbp then
      forN m.nf (fun f s => s + faceEnergy (m.face f) (m.elem (m.fL f)).e.dof
        (m.elem (m.fR f)).e.dof (d + 2) (ifaceFun d entvar diss)
        (pairVec (d + 2) (m.elem (m.fL f)).e.dof (u (m.fL f)) (u (m.fR f)))) dom
    else dom
  forN m.nb (fun b s => s + bndEnergy (m.bface b) (m.elem (m.bE b)).e.dof 1 (bfun b) (u (m.bE b))) fac

end Verif.EulerInteg
