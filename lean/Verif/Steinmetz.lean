import Verif.Losses

/-!
Model of the Steinmetz core-loss integrators, `/repo/src/physics/electromagnetics/electromag_integ.cpp:11238-11596`
(classes in `electromag_integ.hpp:3217-3420`).

`double` is ℝ, `pow` is the real power (they agree for positive bases and for zero to a positive power).  Not modelled:
the terminal output of `setInputs`.
-/

namespace Verif.Steinmetz
open Verif.Sbp Verif.Dense Verif.Diffusion Verif.Losses

variable {nd : ℕ}

/-- The scalar members of the integrators. electromag_integ.hpp:3258-3264, 3394-3402. -/
structure Par where
  name : String
  freq : ℝ
  maxFlux : ℝ
  stackLength : ℝ

/-- Initial values of the members: electromag_integ.hpp:3262-3264. -/
def Par.init (name : String) : Par := ⟨name, 1, 1, 1⟩

/-- The key of the peak flux, electromag_integ.cpp:11241-11249, 11525-11533. -/
def fluxKey (name : String) : String :=
  if name ≠ "" then "max_flux_magnitude:" ++ name else "max_flux_magnitude"

/-- `setInputs(SteinmetzLossIntegrator &, inputs)`, electromag_integ.cpp:11238-11252; only scalar inputs. -/
def setInputs (inputs : String → Option ℝ) (p : Par) : Par :=
  let p := { p with freq := (inputs "frequency").getD p.freq }
  { p with maxFlux := (inputs (fluxKey p.name)).getD p.maxFlux }

/-- `setInputs(SteinmetzLossDistributionIntegrator &, inputs)`, electromag_integ.cpp:11518-11537. -/
def setInputsDist (inputs : String → Option ℝ) (p : Par) : Par :=
  let p := { p with freq := (inputs "frequency").getD p.freq }
  let p := { p with maxFlux := (inputs (fluxKey p.name)).getD p.maxFlux }
  { p with stackLength := (inputs "stack_length").getD p.stackLength }

/-- The four coefficients at a point: electromag_integ.cpp:11286-11289. -/
structure Mat4 where
  rho : ℝ
  ks : ℝ
  alpha : ℝ
  beta : ℝ

/-- One quadrature point: `ip.weight`, `trans.Weight()` and the shape functions, electromag_integ.cpp:11278-11284, 11569-11577. -/
structure SPt (nd : ℕ) where
  w : ℝ
  J : ℝ
  shape : Vec nd

/-- `SteinmetzLossIntegrator::GetElementEnergy`, electromag_integ.cpp:11254-11296. -/
noncomputable def energy (p : Par) (c : ℕ → Mat4) (n : ℕ) (pt : ℕ → SPt nd) : ℝ :=
  forN n (fun i f =>
    let w := (pt i).w * (pt i).J
    f + (c i).rho * (c i).ks * p.freq ^ (c i).alpha * p.maxFlux ^ (c i).beta * w) 0

/-- `SteinmetzLossIntegratorFreqSens::GetElementEnergy`, electromag_integ.cpp:11298-11349. -/
noncomputable def freqSens (p : Par) (c : ℕ → Mat4) (n : ℕ) (pt : ℕ → SPt nd) : ℝ :=
  forN n (fun i f =>
    let w := (pt i).w * (pt i).J
    f + (c i).rho * (c i).ks * (c i).alpha * p.freq ^ ((c i).alpha - 1) * p.maxFlux ^ (c i).beta * w) 0

/-- `SteinmetzLossIntegratorMaxFluxSens::GetElementEnergy`, electromag_integ.cpp:11351-11402. -/
noncomputable def fluxSens (p : Par) (c : ℕ → Mat4) (n : ℕ) (pt : ℕ → SPt nd) : ℝ :=
  forN n (fun i f =>
    let w := (pt i).w * (pt i).J
    f + (c i).rho * (c i).ks * p.freq ^ (c i).alpha * (c i).beta * p.maxFlux ^ ((c i).beta - 1) * w) 0

/-- What `EvalRevDiff` of each coefficient adds to `PointMat_bar`: electromag_integ.cpp:11490-11500. -/
structure Rev4 where
  rho : ℝ → ℕ → ℕ → ℝ
  ks : ℝ → ℕ → ℕ → ℝ
  alpha : ℝ → ℕ → ℕ → ℝ
  beta : ℝ → ℕ → ℕ → ℝ

/-- `SteinmetzLossIntegratorMeshSens::AssembleRHSElementVect`, electromag_integ.cpp:11404-11516. -/
noncomputable def meshSens (p : Par) (c : ℕ → Mat4) (r : ℕ → Rev4) (n meshNdof dim : ℕ) (pt : ℕ → SPt nd)
    (wRev : ℕ → ℝ → ℕ → ℕ → ℝ) : ℕ → ℝ :=
  forN n (fun i bar =>
    let w := (pt i).w * (pt i).J
    let c := c i
    let r := r i
    let funBar : ℝ := 1
    let rhoBar := funBar * c.ks * p.freq ^ c.alpha * p.maxFlux ^ c.beta * w
    let ksBar := funBar * c.rho * p.freq ^ c.alpha * p.maxFlux ^ c.beta * w
    let alphaBar := funBar * c.rho * c.ks * p.freq ^ c.alpha * Real.log p.freq * p.maxFlux ^ c.beta * w
    let betaBar := funBar * c.rho * c.ks * p.freq ^ c.alpha * p.maxFlux ^ c.beta * Real.log p.maxFlux * w
    let wBar := funBar * c.rho * c.ks * p.freq ^ c.alpha * p.maxFlux ^ c.beta
    let JBar := wBar * (pt i).w
    scatter meshNdof dim (fun k j => 0 + r.beta betaBar k j + r.alpha alphaBar k j + r.ks ksBar k j +
      r.rho rhoBar k j + wRev i JBar k j) bar) (fun _ => 0)

/-- `SteinmetzLossDistributionIntegrator::AssembleRHSElementVect`, electromag_integ.cpp:11544-11596. -/
noncomputable def dist (p : Par) (c : ℕ → Mat4) (n : ℕ) (pt : ℕ → SPt nd) : Vec nd :=
  forN n (fun i v =>
    let w := (pt i).w * (pt i).J
    let loss := (c i).rho * (c i).ks * p.freq ^ (c i).alpha * p.maxFlux ^ (c i).beta
    axpy (loss * w) (pt i).shape v) zeroV

/-- Default rule of the loss, electromag_integ.cpp:11260-11275. -/
def rule (s : Space) (order : ℕ) : ℕ := if s = .Pk then 2 * order - 2 else 2 * order

/-- Default rule of the distribution, electromag_integ.cpp:11557-11572. -/
def distRule (s : Space) (order : ℕ) : ℕ := if s = .Pk then 2 * order - 1 else 2 * order

end Verif.Steinmetz
