import Mathlib.Data.Rat.Defs
import Mathlib.Data.String.Basic

/-!
# Building the linear, nonlinear and adjoint solvers from options (`src/common/mfem_extensions.cpp:392-577`,
the `constructPreconditioner` functions of the residuals, `src/common/abstract_solver.cpp:135-178`)

A solver object is the record of what its setters received; iterating is not modelled here (see `SteadySolve`).  Tolerances are rational numbers.
-/

namespace Verif.SolverSetup

/-- Preconditioners: mfem_extensions.cpp:392-520, magnetostatic_residual.cpp:20-48, thermal_residual.hpp:100-120,
flow_residual.cpp:22-75, mesh_warper.cpp:96-103. -/
inductive Prec
  | euclid
  | ilu (type fill reorder printlevel : ℤ)
  | ams (printlevel : ℤ)
  | amg (printlevel : ℤ)
  | blockIlu (blockSize : ℤ)
  /-- any other `mfem::Solver`, such as the block-Jacobi preconditioner of the flow-control solver -/
  | other
  deriving DecidableEq

/-- Which of them are a `mfem::HypreSolver` (`dynamic_cast` at mfem_extensions.cpp:417,453,489). -/
def Prec.isHypre : Prec → Bool
  | .euclid | .ilu .. | .ams _ | .amg _ => true
  | .blockIlu _ | .other => false

/-- Iterative methods: mfem_extensions.cpp:403-520. -/
inductive Method | gmres | fgmres | pcg | minres
  deriving DecidableEq

/-- What a constructed linear solver holds; `none` means the setter was never called and the library's default applies.
mfem_extensions.cpp:403-510. -/
structure Lin where
  method : Method
  hypre : Bool
  relTol : ℚ
  absTol : Option ℚ
  maxIter : ℤ
  /-- argument of `SetPrintLevel` -/
  print : Option ℤ
  /-- argument of `SetKDim` -/
  kdim : Option ℤ
  prec : Option Prec
  deriving DecidableEq

/-- Linear solver options: "type", "reltol", "abstol" (optional), "maxiter", "printlevel", "kdim" (optional).
mfem_extensions.cpp:397-402. -/
structure LinOpts where
  type : String
  reltol : ℚ
  abstol : Option ℚ
  maxiter : ℤ
  printlevel : ℤ
  kdim : Option ℤ

/-- Outcome of a constructor. mfem_extensions.cpp:392-520. -/
inductive Out (α : Type)
  | ok (a : α)
  /-- `MISOException` -/
  | miso
  /-- `std::bad_cast` from the reference cast to `HypreSolver` -/
  | badCast
  deriving DecidableEq

/-- `SetPreconditioner(dynamic_cast<HypreSolver&>(*prec))` for Hypre solvers, `SetPreconditioner(*prec)` for the others.
mfem_extensions.cpp:415-418 etc. -/
def attach (s : Lin) (prec : Option Prec) : Out Lin :=
  match prec with
  | none => .ok s
  | some p => if s.hypre = true ∧ p.isHypre = false then .badCast else .ok { s with prec := some p }

/-- `kdim != -1` guards `SetKDim`; `kdim` is `value("kdim", -1)`. mfem_extensions.cpp:402,411-414. -/
def kdimSet (o : LinOpts) : Option ℤ := if o.kdim.getD (-1) ≠ -1 then some (o.kdim.getD (-1)) else none

/-- `constructLinearSolver` (mfem_extensions.cpp:392-520). For "fgmres" the print level is only set when positive (to "iterations",
represented by 1). -/
def constructLin (o : LinOpts) (prec : Option Prec) : Out Lin :=
  let abstol := o.abstol.getD 0
  if o.type = "hypregmres" then attach ⟨.gmres, true, o.reltol, some abstol, o.maxiter, some o.printlevel, kdimSet o, none⟩ prec
  else if o.type = "gmres" then attach ⟨.gmres, false, o.reltol, some abstol, o.maxiter, some o.printlevel, kdimSet o, none⟩ prec
  else if o.type = "hyprefgmres" then attach ⟨.fgmres, true, o.reltol, none, o.maxiter, some o.printlevel, kdimSet o, none⟩ prec
  else if o.type = "fgmres" then
    attach ⟨.fgmres, false, o.reltol, some abstol, o.maxiter, if o.printlevel > 0 then some 1 else none, kdimSet o, none⟩ prec
  else if o.type = "hyprepcg" then attach ⟨.pcg, true, o.reltol, some abstol, o.maxiter, some o.printlevel, none, none⟩ prec
  else if o.type = "pcg" then attach ⟨.pcg, false, o.reltol, some abstol, o.maxiter, some o.printlevel, none, none⟩ prec
  else if o.type = "minres" then attach ⟨.minres, false, o.reltol, some abstol, o.maxiter, some o.printlevel, none, none⟩ prec
  else .miso

/-- Preconditioner options ("lin-prec", "adj-prec"): default_options.cpp:80-108. -/
structure PrecOpts where
  type : String
  printlevel : ℤ
  iluType : ℤ
  levFill : ℤ
  iluReorder : ℤ

/-- Preconditioner of the magnetostatic residual (magnetostatic_residual.cpp:20-48): the ILU object is built and destroyed again. -/
def magPrec (o : PrecOpts) : Option Prec :=
  if o.type = "hypreams" then some (.ams o.printlevel)
  else if o.type = "hypreboomeramg" then some (.amg o.printlevel)
  else none

/-- Preconditioner of the thermal residual (thermal_residual.hpp:100-120). -/
def thermalPrec (o : PrecOpts) : Option Prec := if o.type = "hypreboomeramg" then some (.amg o.printlevel) else none

/-- Preconditioner of the mesh warper (mesh_warper.cpp:96-103). -/
def warperPrec (o : PrecOpts) : Option Prec := some (.amg o.printlevel)

/-- Preconditioner of the flow residual (flow_residual.cpp:22-75); `vdim` is the number of flow states. -/
def flowPrec (vdim : ℤ) (o : PrecOpts) : Out Prec :=
  if o.type = "hypreeuclid" then .ok .euclid
  else if o.type = "hypreilu" then .ok (.ilu o.iluType o.levFill o.iluReorder o.printlevel)
  else if o.type = "hypreams" then .ok (.ams o.printlevel)
  else if o.type = "hypreboomeramg" then .ok (.amg o.printlevel)
  else if o.type = "blockilu" then .ok (.blockIlu vdim)
  else .miso

/-- Nonlinear solver options. mfem_extensions.cpp:527-531; "abort" is listed in default_options.cpp:67. -/
structure NonlinOpts where
  type : String
  reltol : ℚ
  abstol : ℚ
  maxiter : ℤ
  printlevel : ℤ
  abort : Bool

/-- Kinds of nonlinear solvers. mfem_extensions.cpp:534-567. -/
inductive NonlinKind | newton | inexact | relaxed
  deriving DecidableEq

/-- What a constructed nonlinear solver holds. mfem_extensions.cpp:569-577. -/
structure Nonlin where
  kind : NonlinKind
  iterativeMode : Bool
  relTol : ℚ
  absTol : ℚ
  maxIter : ℤ
  print : ℤ
  lin : Lin
  deriving DecidableEq

/-- `constructNonlinearSolver` (mfem_extensions.cpp:522-577); `.ok none` is the null pointer for "none". -/
def constructNonlin (o : NonlinOpts) (lin : Lin) : Out (Option Nonlin) :=
  let mk := fun k => Out.ok (some (⟨k, false, o.reltol, o.abstol, o.maxiter, o.printlevel, lin⟩ : Nonlin))
  if o.type = "none" then .ok none
  else if o.type = "newton" then mk .newton
  else if o.type = "inexactnewton" then mk .inexact
  else if o.type = "relaxednewton" then mk .relaxed
  else .miso

/-- The options of a solver that concern its solvers. default_options.cpp:58-108. -/
structure Opts where
  lin : LinOpts
  linPrec : PrecOpts
  nonlin : NonlinOpts
  adj : LinOpts
  adjPrec : PrecOpts

/-- What a solver holds after construction. magnetostatic.cpp:100-108, thermal.cpp:33-41. -/
structure Built where
  lin : Lin
  nonlin : Nonlin
  /-- created by the first adjoint solve (abstract_solver.cpp:153-159) -/
  adj : Option Lin

/-- Outcome of building a solver: `crash` is the dereferenced null pointer. magnetostatic.cpp:100-108. -/
inductive BuildOut
  | ok (b : Built)
  | miso
  | badCast
  | crash

/-- The common part of the solver constructors: linear solver on the residual's preconditioner, nonlinear solver on it, `SetOperator`
on the nonlinear solver. magnetostatic.cpp:100-108, thermal.cpp:33-41, mesh_warper.cpp:295-301, flow_solver.cpp:62-69. -/
def build (o : Opts) (prec : Option Prec) : BuildOut :=
  match constructLin o.lin prec with
  | .miso => .miso
  | .badCast => .badCast
  | .ok l => match constructNonlin o.nonlin l with
    | .miso => .miso
    | .badCast => .badCast
    | .ok none => .crash
    | .ok (some nl) => .ok ⟨l, nl, none⟩

/-- Outcome of preparing the adjoint solver. abstract_solver.cpp:153-159. -/
def adjointSolver (o : Opts) (prec : Option Prec) (b : Built) : Out (Built × Lin) :=
  match b.adj with
  | some a => .ok (b, a)
  | none => match constructLin o.adj prec with
    | .ok a => .ok ({ b with adj := some a }, a)
    | .miso => .miso
    | .badCast => .badCast

/-- The default options (default_options.cpp:58-108). -/
def defaults : Opts where
  lin := ⟨"hyprefgmres", 1 / 10 ^ 12, some (1 / 10 ^ 12), 100, 1, some 100⟩
  linPrec := ⟨"hypreilu", 0, 0, 1, 1⟩
  nonlin := ⟨"newton", 1 / 10 ^ 14, 1 / 10 ^ 14, 100, 1, true⟩
  adj := ⟨"hyprefgmres", 1 / 10 ^ 8, some (1 / 10 ^ 10), 100, 0, some 100⟩
  adjPrec := ⟨"hypreilu", 0, 10, 1, 1⟩

end Verif.SolverSetup
