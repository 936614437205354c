import Verif.PyLayer

/-!
# A gradient inside an optimisation loop

`MISOState` (`miso/miso_state.py`) driven by OpenMDAO in reverse mode: solve, linearise, one adjoint solve per output, products
with respect to the inputs through the bindings (`miso/pyMISO/misoSolver.cpp`).  OpenMDAO itself is not part of /repo: what is used
of it is said at `totalRev`.
-/

namespace Verif.Opt

open Verif.NLForm Verif.Py

variable {n m k : ℕ}

/-- The inputs of the component: entry `j` of the parameter vector belongs to input `blk j`, and `isScalar i` says that the
residual registered a sensitivity under that name for a scalar (otherwise for a field), miso_nonlinearform.hpp:220-253. -/
structure Layout (m k : ℕ) where
  blk : Fin m → Fin k
  isScalar : Fin k → Bool

/-- Number of entries of an input. `wrt_bar.Size()`, misoSolver.cpp:384. -/
def Layout.size (L : Layout m k) (i : Fin k) : ℕ := (Finset.univ.filter fun j => L.blk j = i).card

/-- `vectorJacobianProduct(res_bar, input, wrt_bar)` of the bindings for all inputs of `d_inputs` (misoSolver.cpp:374-397,
miso_state.py:244-251): an accumulator of length one goes to the scalar overload, which adds the product if the name was
registered for a scalar and 0 otherwise (miso_nonlinearform.cpp:257-275); the others go to the vector overload
(miso_nonlinearform.cpp:311-337), which adds nothing for a name registered for a scalar. -/
def paramVjp (f : Form n (Fin m → ℝ)) (L : Layout m k) (G : Matrix (Fin n) (Fin m) ℝ) (b : Vec n) (acc : Fin m → ℝ) (j : Fin m) : ℝ :=
  if L.size (L.blk j) = 1 then
    (if L.isScalar (L.blk j) then acc j + f.vjpScalar (fun i => G i j) b else acc j)
  else (if L.isScalar (L.blk j) then acc j else f.vjpField G b acc j)

/-- One total derivative in reverse mode.  Used of OpenMDAO (LinearRunOnce in reverse mode, trusted): `d_outputs` of the state is
the output's partial derivative `sbar`, `d_residuals` starts at zero; `solve_linear` is called, then reverse `apply_linear`
(miso_state.py:232-251), whose contributions to the inputs are subtracted from the output's own partial derivative `xbar`.
`G p u` are the derivatives the sensitivity integrators assemble, at the inputs and the state in force.  `none`: an exception. -/
noncomputable def totalRev (adjLin : Mat n → Vec n → Vec n → Vec n) (G : (Fin m → ℝ) → Vec n → Matrix (Fin n) (Fin m) ℝ)
    (L : Layout m k) (c : Comp n (Fin m → ℝ)) (xbar : Fin m → ℝ) (sbar : Vec n) : Option (Comp n (Fin m → ℝ) × (Fin m → ℝ)) :=
  match solveLinear adjLin c sbar 0 with
  | none => none
  | some (c', ψ) => some (c', fun j => xbar j -
      (if nonzero ψ then paramVjp c'.solver.form L (G c'.solver.form.p c'.state) ψ 0 j else 0))

end Verif.Opt
