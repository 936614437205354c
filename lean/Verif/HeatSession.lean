import Verif.Dense
import Verif.Quotient

/-!
# The heat-source output between calls: the stored winding volume

`src/physics/electromagnetics/electromag_outputs.cpp:497-580, 582-626, 1499-1545, 1763-1806`,
`electromag_outputs.hpp:561-600`, `electromag_integ.cpp:6221-6229, 7935-7950`,
`src/common/miso_linearform.cpp:17-38, 77-124`, `src/common/abstract_solver.cpp:330-428`.

The DC and the AC loss distributions divide their load by the volume of the winding.  The volume is not an
input: `calcOutput` computes it and stores it in the integrator; `setInputs` and the two derivative calls
use what is stored.

Simplifications: the mesh coordinates are the only field; the other inputs (currents, temperature, flux) are
frozen in the load functions.  Every integrator reads the one mesh (`mesh_coords` is one field shared by all).
-/

namespace Verif.HeatSession

open Verif.Dense Verif.Quotient

variable {N d : ℕ}

/-- One loss distribution: `load u` is the assembled vector for winding volume one (the integrators of
electromag_integ.cpp:6221-7440, 7935-9300 modelled in `Losses`), `grad psi u` what its reverse mesh
sensitivity adds for the seed `psi`, `vol` the volume functional (electromag_outputs.cpp:628-680). -/
structure Body (N d : ℕ) where
  load : (Fin N → ℝ) → Vec d
  grad : Vec d → (Fin N → ℝ) → Fin N → ℝ
  vol : Func N

/-- The heat source: DC losses, AC losses, core losses (electromag_outputs.hpp:602-620); the core losses
have no stored volume. -/
structure Source (N d : ℕ) where
  dc : Body N d
  ac : Body N d
  core : (Fin N → ℝ) → Vec d
  coreGrad : Vec d → (Fin N → ℝ) → Fin N → ℝ

/-- What is kept between calls: the mesh coordinates and the two `winding_volume` members
(electromag_integ.hpp:1868, 2479). -/
structure St (N : ℕ) where
  u : Fin N → ℝ
  vDc : ℝ
  vAc : ℝ

/-- `MISOInputs`, restricted to the two entries that matter here. miso_input.hpp; electromag_outputs.hpp:577-583. -/
structure In (N : ℕ) where
  coords : Option (Fin N → ℝ) := none
  windingVolume : Option ℝ := none

/-- `setInputs(EMHeatSourceOutput &)`, electromag_outputs.hpp:577-583: fields are distributed
(miso_linearform.cpp:17-38), scalars stored in the integrators (electromag_integ.cpp:6221-6229, 7942-7950). -/
def setInputs (s : St N) (i : In N) : St N :=
  { u := i.coords.getD s.u
    vDc := i.windingVolume.getD s.vDc
    vAc := i.windingVolume.getD s.vAc }

/-- `calcOutput(DCLossDistribution &)` and `calcOutput(ACLossDistribution &)`,
electromag_outputs.cpp:582-591, 1495-1506: the volume of the current mesh is stored, then the inputs are set
(a `winding_volume` among them overrides it), then the load is assembled.  Returns the stored volume and
the vector. -/
noncomputable def calcDist (b : Body N d) (s : St N) (i : In N) : ℝ × Vec d :=
  let u := i.coords.getD s.u
  let v0 := b.vol.val u
  let v := i.windingVolume.getD v0
  (v, fun r => b.load u r / v)

/-- `calcOutput(EMHeatSourceOutput &, inputs, out_vec)`, electromag_outputs.cpp:1756-1777 (the ParaView
file it also writes is not modelled). -/
noncomputable def calcOutput (h : Source N d) (s : St N) (i : In N) : St N × Vec d :=
  let s1 := setInputs s i
  let dc := calcDist h.dc s1 i
  let ac := calcDist h.ac s1 i
  ({ s1 with vDc := dc.1, vAc := ac.1 }, fun r => dc.2 r + ac.2 r + h.core s1.u r)

/-- `vectorJacobianProduct(DCLossDistribution &, ., "mesh_coords", .)` and the AC one,
electromag_outputs.cpp:604-626, 1523-1545: the load's own reverse sensitivity, then the reverse sensitivity
with respect to the winding volume (electromag_integ.cpp:7429) times the gradient of the volume. -/
noncomputable def distVjp (b : Body N d) (u : Fin N → ℝ) (v : ℝ) (psi : Vec d) (bar : Fin N → ℝ) : Fin N → ℝ :=
  let bar1 : Fin N → ℝ := fun j => bar j + b.grad psi u j / v
  let volBar : ℝ := -(dotv psi (b.load u) / v) / v
  b.vol.vjp u volBar bar1

/-- `AbstractSolver2::outputVectorJacobianProduct("heat_source", inputs, psi, "mesh_coords", bar)`,
abstract_solver.cpp:406-428, with `vectorJacobianProduct(EMHeatSourceOutput &)`,
electromag_outputs.cpp:1799-1806: set the inputs, add the three parts. -/
noncomputable def meshVjp (h : Source N d) (s : St N) (i : In N) (psi : Vec d) (bar : Fin N → ℝ) :
    St N × (Fin N → ℝ) :=
  let s1 := setInputs s i
  let b1 := distVjp h.dc s1.u s1.vDc psi bar
  let b2 := distVjp h.ac s1.u s1.vAc psi b1
  (s1, fun j => b2 j + h.coreGrad psi s1.u j)

/-- `vectorJacobianProduct(EMHeatSourceOutput &, psi, "winding_volume")`, electromag_outputs.cpp:1789-1797,
through abstract_solver.cpp:419-422: the scalar reverse derivatives of the two distributions are added to
`wrt_bar(0)`. -/
noncomputable def volumeVjp (h : Source N d) (s : St N) (i : In N) (psi : Vec d) (bar : ℝ) : St N × ℝ :=
  let s1 := setInputs s i
  (s1, bar + (-(dotv psi (h.dc.load s1.u) / s1.vDc) / s1.vDc + -(dotv psi (h.ac.load s1.u) / s1.vAc) / s1.vAc))

/-- `AbstractSolver2::outputJacobianVectorProduct("heat_source", inputs, dot, "mesh_coords", outDot)`,
abstract_solver.cpp:375-404, electromag_outputs.cpp:1779-1787, 593-599 and miso_linearform.cpp:77-87: no
integrator of these forms registers a forward sensitivity, so nothing is added. -/
def meshJvp (s : St N) (i : In N) (_dot : Fin N → ℝ) (outDot : Vec d) : St N × Vec d :=
  (setInputs s i, outDot)

/-- A call of the session. abstract_solver.cpp:284-330, 406-428. -/
inductive Op (N d : ℕ) where
  | inputs (i : In N)
  | calc (i : In N)
  | vjp (i : In N) (psi : Vec d)
  | volVjp (i : In N) (psi : Vec d)
  | jvp (i : In N) (dot : Fin N → ℝ)

/-- The inputs of a call. abstract_solver.cpp:284-330, 406-428. -/
def Op.input : Op N d → In N
  | .inputs i | .calc i | .vjp i _ | .volVjp i _ | .jvp i _ => i

/-- The effect of a call on what is stored. abstract_solver.cpp:284-330, 406-428. -/
noncomputable def step (h : Source N d) (s : St N) : Op N d → St N
  | .inputs i => setInputs s i
  | .calc i => (calcOutput h s i).1
  | .vjp i psi => (meshVjp h s i psi 0).1
  | .volVjp i psi => (volumeVjp h s i psi 0).1
  | .jvp i dot => (meshJvp (d := d) s i dot 0).1

/-- A history of calls. abstract_solver.cpp:284-330, 406-428. -/
noncomputable def run (h : Source N d) (s : St N) (ops : List (Op N d)) : St N := ops.foldl (step h) s

end Verif.HeatSession
