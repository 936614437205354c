import Verif.Warper

/-!
# Irrotational and divergence-free projectors (`src/utils/irrotational_projector.cpp`, `src/utils/div_free_projector.cpp`)

Nédélec dofs `Fin n`, H1 dofs `Fin h`.  The assembled forms of a mesh `M` are parameters: `D` (diffusion), `W` (`weak_div`), `G` (discrete gradient).  Serial
(one rank), so `Vector`, `ParGridFunction` and true-dof vectors coincide.  The PCG+AMG solve is a parameter `solve`.
-/

namespace Verif.Projector

open Matrix Verif.Warper

variable {K : Type} {n h : ℕ}

/-- The three forms assembled on one mesh (`irrotational_projector.hpp`, members `diffusion`, `weak_div`, `grad`). -/
structure Forms (n h : ℕ) (K : Type) where
  D : Matrix (Fin h) (Fin h) K
  W : Matrix (Fin h) (Fin n) K
  G : Matrix (Fin n) (Fin h) K

/-- Object state: the assembled forms held by the projector and the `dirty` flag (`irrotational_projector.hpp`).  The scratch members `psi`, `div_x`, `Psi`, `RHS` are overwritten
before every use and are not part of the state. -/
structure St (n h : ℕ) (K : Type) where
  forms : Forms n h K
  dirty : Bool

/-- Constructor (`irrotational_projector.cpp:10-48`): dirty, nothing assembled (the junk forms are a parameter). -/
def construct (junk : Forms n h K) : St n h K := ⟨junk, true⟩

/-- `setInputs(IrrotationalProjector&, …)` / `setInputs(DivergenceFreeProjector&, …)` (`irrotational_projector.cpp:50-57`, `div_free_projector.cpp:7-14`); the argument says whether
the inputs contain `"mesh_coords"`. -/
def setInputs (s : St n h K) (hasMeshCoords : Bool) : St n h K := if hasMeshCoords then { s with dirty := true } else s

/-- `if (dirty) { update(); dirty = false; }` (`irrotational_projector.cpp:61-65, 101-105, 136-140, 204-217`): `update` reassembles the three forms on the current mesh. -/
def refresh (now : Forms n h K) (s : St n h K) : St n h K := if s.dirty then ⟨now, false⟩ else s

section
variable [Field K] (ess : Fin h → Prop) [DecidablePred ess] (solve : Matrix (Fin h) (Fin h) K → Vec h K → Vec h K)

/-- `psi = 0; FormLinearSystem(ess_bdr_tdofs, psi, b, D_mat, Psi, RHS); pcg.Mult(RHS, Psi); RecoverFEMSolution` (`irrotational_projector.cpp:72-89`): with zero essential values the
right-hand side is `b` with essential entries replaced by zero, the matrix `D` with essential rows and columns replaced by those of the identity. -/
def solveEss (D : Matrix (Fin h) (Fin h) K) (b : Vec h K) : Vec h K := solve (elim ess D) (zeroEss ess b)

/-- `IrrotationalProjector::Mult` (`irrotational_projector.cpp:59-93`). -/
def irrotMult (F : Forms n h K) (x : Vec n K) : Vec n K := F.G *ᵥ (solveEss ess solve F.D (-(F.W *ᵥ x)))

/-- `IrrotationalProjector::vectorJacobianProduct` with `wrt == "in"` (`irrotational_projector.cpp:95-133`); the transposed eliminated matrix is used. -/
def irrotVjpIn (F : Forms n h K) (projBar wrtBar : Vec n K) : Vec n K :=
  wrtBar + (F.W)ᵀ *ᵥ (solve (elim ess F.D)ᵀ (zeroEss ess (-((F.G)ᵀ *ᵥ projBar))))

/-- `DivergenceFreeProjector::Mult` (`div_free_projector.cpp:16-21`): `y = irrot(x); y -= x; y *= -1`. -/
def divFreeMult (F : Forms n h K) (x : Vec n K) : Vec n K := -(irrotMult ess solve F x - x)

/-- `DivergenceFreeProjector::vectorJacobianProduct` with `wrt == "in"` (`div_free_projector.cpp:29-36`). -/
def divFreeVjpIn (F : Forms n h K) (projBar wrtBar : Vec n K) : Vec n K := irrotVjpIn ess solve F (-projBar) wrtBar + projBar

/-- Calls a client can make, with the mesh's current forms as part of the world: the mesh may be moved (`move`), the projector told about it (`inputs`), and applied.
irrotational_projector.cpp:50-133. -/
inductive Op (n h : ℕ) (K : Type) where
  | move (F : Forms n h K)
  | inputs (hasMeshCoords : Bool)
  | mult (x : Vec n K)
  | vjpIn (projBar wrtBar : Vec n K)

/-- World: forms of the current mesh, and the projector. irrotational_projector.cpp:10-48. -/
structure World (n h : ℕ) (K : Type) where
  now : Forms n h K
  proj : St n h K

/-- One call; the output is the result vector of `mult`/`vjpIn` on a divergence-free projector.
irrotational_projector.cpp:50-133. -/
def step (w : World n h K) : Op n h K → World n h K × Option (Vec n K)
  | .move F => ({ w with now := F }, none)
  | .inputs b => ({ w with proj := setInputs w.proj b }, none)
  | .mult x => let p := refresh w.now w.proj
    ({ w with proj := p }, some (divFreeMult ess solve p.forms x))
  | .vjpIn pb wb => let p := refresh w.now w.proj
    ({ w with proj := p }, some (divFreeVjpIn ess solve p.forms pb wb))

/-- A history of calls. irrotational_projector.cpp:50-133. -/
def run (w : World n h K) : List (Op n h K) → World n h K
  | [] => w
  | o :: os => run (step ess solve w o).1 os

end

end Verif.Projector
