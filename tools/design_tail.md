
## What is modelled

| Part of `/repo/src` | Lean modules |
|---|---|
| `utils/kdtree.hpp`, `utils/utils.cpp` (bisection, secant, quadratic interpolation, boundary arrays) | `KDTree*`, `RootFind*`, `Boundary*` |
| `linesearch`, `relaxed_newton`, `inexact_newton` | `LineSearch*`, `InexactNewton*` |
| `abstract_solver.cpp` (time loop, option merging, output registry), `pde_solver.cpp` (PUMI/PCU life time) | `TimeLoop*`, `Options*`, `Registry*`, `Pcu*` |
| `data_logging.hpp` | `StateFiles*`, `AsciiFiles*` |
| `miso_input.*` | `Inputs*` |
| `matrix_operators`, `ode.*`, `mfem_extensions` (RRK, block Jacobi) | `Operators*`, `Ode*`, `BlockJacobi*` |
| `miso_nonlinearform.*`, `miso_linearform`, loads of the electromagnetic residual, thermal residual, mesh warper, projectors | `NonlinearForm*`, `Loads*`, `Thermal*`, `Warper*`, `Projector*` |
| quotient functionals and aggregates, Lp errors | `Quotient*`, `LpError*` |
| material and state coefficients | `Coefficients*` |
| `surface.hpp`, `surface_def.hpp` | `SurfaceMesh*`, `SurfaceDist*` |
| `orthopoly.cpp`, `sbp_fe.cpp`, `sbp_operators.hpp` (every shipped table, as exact decimal integers generated by `tools/gen_sbp_data.py`) | `OrthoPoly*`, `Sbp*` |
| Euler and Navier–Stokes point fluxes, inviscid and viscous integrators, boundary conditions, functionals, the assembly of the flow residual and its entropy change | `EulerFluxes*`, `EulerEntropyProps` …, `InviscidInteg*`, `EulerInteg*`, `EulerStableProps`, `EulerGlobalProps`, `Viscous*`, `NavierStokes*` |
| flow control residual | `Control*` |

## What is not modelled, and what is assumed instead

* **Floating point.** `double` is an ordered field or ℝ.  No rounding, overflow, NaN (except where
  NaN is itself an outcome: `Registry`, `AsciiFiles`).
* **MFEM** (meshes, finite element spaces, assembly loops, `GetEnergy` summing element, interior face
  and boundary face contributions, `EliminateRowsCols`, quadrature rules, `LinearSolve`): appears as
  parameters or as the small functions whose comment says "(MFEM)".
* **hypre / Krylov solvers**: the result of a linear solve is a parameter; where a theorem needs the
  solve to be exact that is a hypothesis.
* **MPI**: ranks are list elements, reductions are sums or maxima; message passing is not modelled.
* **Adept** (automatic differentiation): the point Jacobians it returns are parameters, and "exact
  Jacobian" theorems about integrators assume them exact at the point in question.
* **nlohmann::json**: the fragment in `Options` and `Boundary`.
* **C++ object model**: memory is modelled only in the properties about aliasing and life time
  (`Inputs`, `KDTree` C05, `Thermal`, `Loads`, `Pcu`).
* EGADS/PUMI geometry, Python bindings, ParaView output, the test and sandbox directories are not
  modelled.

Every `_false` theorem is a defect of the code as read: the negation of the English property, proved
on a concrete witness.  The manifest lists such properties as `partial`.
