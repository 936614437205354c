import Verif.Inputs
import Verif.SteadySolve

/-!
# The Python layer: bindings and OpenMDAO components

`miso/pyMISO/py_miso_utils.hpp`, `miso/pyMISO/misoSolver.cpp`, `miso/miso_state.py`, `miso/miso_output.py`,
`miso/mphys/miso_builder.py`.  pybind11, numpy, MPI and OpenMDAO are not part of /repo; what is used of them is said at each
definition.  Memory is the heap of `Inputs.lean`.
-/

namespace Verif.Py

open Verif.Inputs

/-! ### Arguments -/

section bindings

variable {K : Type}

/-- A Python object as the bindings see it.  `float`, `int`: Python's own types (and the ones whose type name starts so);
`array ndim contiguous b`: an array of C doubles whose memory is block `b`; `conv l`: a one-dimensional object of another
type which numpy converts to doubles on demand (a list, a tuple, an array of integers or single-precision numbers), with
contents `l`; `zeroDim x`: a numpy scalar, a bool or a zero-dimensional array. py_miso_utils.hpp:50-130. -/
inductive Obj (K : Type)
  | float (x : K)
  | int (k : ℤ)
  | array (ndim : ℕ) (contiguous : Bool) (b : ℕ)
  | conv (l : List K)
  | zeroDim (x : K)

/-- How a call from Python ends. py_miso_utils.hpp:50-130. -/
inductive Res (α : Type)
  | ok (a : α)
  | raised

/-- The body of the loop of `pyDictToMISOInputs`, py_miso_utils.hpp:104-130, with `npBufferToMFEMVector`,
py_miso_utils.hpp:50-73.  The array made by a conversion lives in the new block `fresh` and is released at the end of the
`else` block (py_miso_utils.hpp:115-128), after its address was stored. -/
def toInput [IntCast K] (h : Heap K) (o : Obj K) (fresh : ℕ) : Res (Heap K × Input K) :=
  match o with
  | .float x => .ok (h, .val x)
  | .int k => .ok (h, .val (k : K))
  | .array ndim contiguous b =>
    if ndim ≠ 1 then .raised
    else if contiguous = false then .raised
    else match h b with
      | none => .raised
      | some l => match l with
        | [x] => .ok (h, .val x)
        | _ => .ok (h, .vec ⟨b, l.length⟩)
  | .conv l => match l with
    | [x] => .ok (h, .val x)
    | _ => .ok (fun c => if c = fresh then none else h c, .vec ⟨fresh, l.length⟩)
  | .zeroDim _ => .raised

/-- `pyDictToMISOInputs`, py_miso_utils.hpp:98-132: `emplace` keeps the first value of a key.  `fresh` is the next unused
address. -/
def toInputs [IntCast K] : Heap K → List (String × Obj K) → ℕ → Res (Heap K × Inputs K)
  | h, [], _ => .ok (h, fun _ => none)
  | h, (k, o) :: d, fresh =>
    match toInput h o fresh with
    | .raised => .raised
    | .ok (h1, i) =>
      match toInputs h1 d (fresh + 1) with
      | .raised => .raised
      | .ok (h2, ins) => .ok (h2, fun k' => if k' = k then some i else ins k')

/-- The contents of a one-dimensional object. py_miso_utils.hpp:50-73. -/
def Obj.read (h : Heap K) : Obj K → Option (List K)
  | .array _ _ b => h b
  | .conv l => some l
  | _ => none

/-- A call with an output vector (`solveForState(state)`, `calcResidual(…, residual)`, `solveForAdjoint(…, adjoint)`,
`calcOutput(…, out_vec)`, …; misoSolver.cpp:141-207,256-271,303-388): the argument is `const py::array_t<double> &`, so an
object of another type is converted to a temporary array, and the result `f old` is written into that. -/
def callOut (h : Heap K) (o : Obj K) (f : List K → List K) (fresh : ℕ) : Res (Heap K) :=
  match o with
  | .array ndim contiguous b =>
    if ndim ≠ 1 then .raised
    else if contiguous = false then .raised
    else match h b with
      | none => .raised
      | some l => .ok fun c => if c = b then some (f l) else h c
  | .conv _ => .ok fun c => if c = fresh then none else h c
  | _ => .raised

end bindings

/-! ### Products -/

open Verif.NLForm

variable {n : ℕ} {P : Type}

/-- What the residual's form knows under a name: the state, a registered sensitivity with respect to a scalar or to a
field, or nothing.  `addDomainSensitivityIntegrator` & co. register a name in the forward and in the reverse map together
(miso_nonlinearform.hpp:220-253). -/
inductive Known
  | state
  | scalar
  | field
  | unknown

/-- `jacobianVectorProduct(wrt_dot, wrt, res_dot)` of the bindings for a solver whose residual is one form
(misoSolver.cpp:341-363; miso_nonlinearform.cpp:209-255): with a residual of length one the scalar overload is used, which
knows no state. -/
def bindJvp (f : Form n P) (k : Known) (wrtDot resDot : Vec n) : Res (Vec n) :=
  if n = 1 then
    match k with
    | .scalar => .raised
    | _ => .ok resDot
  else
    match k with
    | .state => match f.jvpState wrtDot resDot with
      | some r => .ok r.2
      | none => .raised
    | .field => .raised
    | _ => .ok resDot

/-- `vectorJacobianProduct(res_bar, "state", wrt_bar)` of the bindings, misoSolver.cpp:365-387,
miso_nonlinearform.cpp:257-309. -/
def bindVjpState (f : Form n P) (resBar wrtBar : Vec n) : Res (Vec n) :=
  if n = 1 then .ok wrtBar
  else match f.vjpState resBar wrtBar with
    | some r => .ok r.2
    | none => .raised

/-! ### `MISOState` -/

/-- The component: the solver it drives, its buffers `self.vectors` (the inputs and the state) and whether
`self.linear_inputs` was set.  `linear_inputs` holds references to the buffers (miso_state.py:181-186), so its contents are
those of the buffers at the time of use.  (Scalar inputs are references to OpenMDAO's own vector; here they are part of the
buffer, which `OpenMDAO` is assumed to change only between calls.) -/
structure Comp (n : ℕ) (P : Type) where
  solver : Steady.Solver n P
  inputs : P
  state : Vec n
  linearized : Bool

/-- `apply_nonlinear`, miso_state.py:127-150. -/
def applyNonlinear (F : Phys n P) (c : Comp n P) (p : P) (u : Vec n) : Comp n P × Vec n :=
  let r := Steady.calcResidual F c.solver p u
  ({ c with solver := r.1, inputs := p, state := u }, r.2)

/-- `solve_nonlinear`, miso_state.py:152-174: `none` is the exception (inverted mesh); the outputs are then not assigned. -/
noncomputable def solveNonlinear (F : Phys n P) (N : Steady.Newton n) (o : TimeLoop.LogOpts) (inverted : Bool) (c : Comp n P)
    (p : P) (u0 : Vec n) : Comp n P × Option (Vec n) :=
  match Steady.solveForState F N o inverted c.solver p u0 with
  | some (s, u, _) => ({ c with solver := s, inputs := p, state := u }, some u)
  | none => ({ c with solver := { c.solver with form := c.solver.form.setInputs p }, inputs := p, state := u0 }, none)

/-- `linearize`, miso_state.py:176-196. -/
def linearize (F : Phys n P) (c : Comp n P) (p : P) (u : Vec n) : Comp n P :=
  { c with solver := Steady.linearize F c.solver p u, inputs := p, state := u, linearized := true }

/-- `solve_linear` in reverse mode, miso_state.py:272-306: `d_outputs`, `d_residuals` ↦ the new `d_residuals`.  `none` is an
exception (no `linear_inputs`, or no Jacobian).  The norm vanishes exactly when every entry does. -/
noncomputable def solveLinear (adjLin : Mat n → Vec n → Vec n → Vec n) (c : Comp n P) (dOut dRes : Vec n) :
    Option (Comp n P × Vec n) :=
  if Steady.norm2 dOut ≠ 0 then
    if c.linearized then
      match Steady.solveForAdjoint adjLin c.solver c.inputs dOut dRes with
      | some (s, ψ) => some ({ c with solver := s }, ψ)
      | none => none
    else none
  else some (c, dRes)

/-- `solve_linear` in forward mode, miso_state.py:265-270: `d_outputs` afterwards, `none` is the exception. -/
def solveLinearFwd (checkPartials : Bool) (dOut : Vec n) : Option (Vec n) := if checkPartials then some dOut else none

/-- One input of `apply_linear`: its size, and what the solver's two products do to their accumulators. `none`: raises
`NotImplementedError`. miso_state.py:198-262. -/
structure Prod1 (n : ℕ) where
  m : ℕ
  jvp : (Fin m → ℝ) → Vec n → Option (Vec n)
  vjp : Vec n → (Fin m → ℝ) → Option (Fin m → ℝ)

/-- A list of seeds, one per input. miso_state.py:198-262. -/
def Seeds : List (Prod1 n) → Type
  | [] => Unit
  | q :: qs => (Fin q.m → ℝ) × Seeds qs

/-- `np.linalg.norm(v, 2) != 0.0`. miso_state.py:211, 223, 236, 296. -/
noncomputable def nonzero {m : ℕ} (v : Fin m → ℝ) : Bool := decide (Real.sqrt (∑ i, v i * v i) ≠ 0)

/-- Forward `apply_linear`, miso_state.py:198-230: the products with the non-zero seeds, one after the other (the state is the
first), into `d_residuals`.  An exception ends the loop; with `check_partials` it is swallowed (miso_state.py:253-262). -/
noncomputable def applyFwd (check : Bool) : (qs : List (Prod1 n)) → Seeds qs → Vec n → Option (Vec n)
  | [], _, r => some r
  | q :: qs, d, r =>
    if nonzero d.1 then
      match q.jvp d.1 r with
      | some r1 => applyFwd check qs d.2 r1
      | none => if check then some r else none
    else applyFwd check qs d.2 r

/-- The loop of reverse `apply_linear`, miso_state.py:238-251. -/
def applyRevLoop (check : Bool) (bar : Vec n) : (qs : List (Prod1 n)) → Seeds qs → Option (Seeds qs)
  | [], d => some d
  | q :: qs, d =>
    match q.vjp bar d.1 with
    | some d1 => (applyRevLoop check bar qs d.2).map fun ds => (d1, ds)
    | none => if check then some d else none

/-- Reverse `apply_linear`, miso_state.py:232-251. -/
noncomputable def applyRev (check : Bool) (bar : Vec n) (qs : List (Prod1 n)) (d : Seeds qs) : Option (Seeds qs) :=
  if nonzero bar then applyRevLoop check bar qs d else some d

/-! ### `MISOFunctional` on several ranks -/

/-- An input of a functional on `R` ranks.  `dist`: distributed (state, mesh, fields), with the local part of the gradient on
each rank (functional_output.cpp:99-104,121-126).  `scal`: a number, the same on every rank, with the sensitivity, which
`GetEnergy` has already summed over the ranks (functional_output.cpp:107-120). -/
inductive FIn (R : ℕ)
  | dist (g : Fin R → List ℝ)
  | scal (s : ℝ)

/-- A direction or an accumulator for such an input. functional_output.cpp:94-167. -/
inductive FDir (R : ℕ)
  | dist (d : Fin R → List ℝ)
  | scal (d : Fin R → ℝ)

/-- `InnerProduct` on one rank. functional_output.cpp:94-129. -/
def dotL (a b : List ℝ) : ℝ := (List.zipWith (· * ·) a b).sum

/-- `jacobianVectorProduct(FunctionalOutput&, wrt_dot, wrt)` on rank `p`, functional_output.cpp:94-129. -/
def localJvp {R : ℕ} (p : Fin R) : FIn R → FDir R → ℝ
  | .dist g, .dist d => dotL (g p) (d p)
  | .scal s, .scal d => s * d p
  | _, _ => 0

/-- `MPI_Allreduce(MPI_SUM)`; skipped on one rank, miso_output.py:160-168. -/
def allreduce {R : ℕ} (v : Fin R → ℝ) (p : Fin R) : ℝ := if 1 < R then ∑ q, v q else v p

/-- Forward `compute_jacvec_product` of a scalar functional, miso_output.py:140-170: `d_outputs[func]` on rank `p`. -/
def funFwd {R : ℕ} : List (FIn R × FDir R) → (Fin R → ℝ) → Fin R → ℝ
  | [], out => out
  | (i, d) :: rest, out => funFwd rest fun p => out p + allreduce (fun q => localJvp q i d) p

/-- The reverse products on rank `p`, functional_output.cpp:131-167: add the (local part of the) gradient times the seed. -/
def localVjp {R : ℕ} (bar : ℝ) (p : Fin R) : FIn R → FDir R → FDir R
  | .dist g, .dist d => .dist fun q => if q = p then List.zipWith (fun x y => x + bar * y) (d q) (g q) else d q
  | .scal s, .scal d => .scal fun q => if q = p then d q + s * bar else d q
  | _, d => d

/-- Reverse `compute_jacvec_product` of a scalar functional for one input, miso_output.py:171-196: every rank adds. -/
def funRev {R : ℕ} (bar : Fin R → ℝ) (i : FIn R) (d : FDir R) : FDir R :=
  (List.finRange R).foldl (fun d p => localVjp (allreduce bar p) p i d) d

/-- Forward product of a vector-valued output (of the same local length on every rank; otherwise the reduction fails):
`loc q` is the local product on rank `q`, miso_output.py:140-170. -/
def vecFwd {R k : ℕ} (loc out : Fin R → Fin k → ℝ) (p : Fin R) (i : Fin k) : ℝ := out p i + allreduce (fun q => loc q i) p

/-! ### Set-up -/

/-- `_getPhysicsAbbreviation`, miso_builder.py:11-24; `none` is the `RuntimeError`. -/
def abbreviation (type : String) : Option String :=
  if type = "euler" ∨ type = "navierstokes" then some "aero"
  else if type = "magnetostatic" then some "em"
  else if type = "thermal" then some "conduct"
  else none

/-- Names under which the groups connect: surface coordinates (miso_builder.py:67-68,150,168), volume coordinates
(miso_builder.py:40,69,91), state (miso_builder.py:41,92). -/
def meshSurf (type : String) : Option String := (abbreviation type).map fun a => "x_" ++ a
/-- See `meshSurf`. -/
def meshInit (type : String) : Option String := (abbreviation type).map fun a => "x_" ++ a ++ "0"
/-- See `meshSurf`. -/
def meshVol (type : String) : Option String := (abbreviation type).map fun a => "x_" ++ a ++ "_vol"
/-- See `meshSurf`. -/
def stateName (type : String) : Option String := (abbreviation type).map fun a => a ++ "_state"

/-- The set-up of `MISOOutputsGroup` (miso_builder.py:79-128) and of the functionals in it (miso_output.py:19-24):
for each entry (name shown to the user, functional, options) `createOutput(functional, options)`, which throws if that
functional exists already (abstract_solver.cpp:236-247) or is unknown.  Returns the registered (functional, options) and the
promoted names. -/
def setupOutputs {O : Type} (known : String → Bool) : List (String × String × O) → List (String × O) → Res (List (String × O))
  | [], reg => .ok reg
  | (_, f, o) :: rest, reg =>
    if reg.any (fun e => e.1 = f) then .raised
    else if known f then setupOutputs known rest (reg ++ [(f, o)])
    else .raised

/-- The shape of an input of `MISOState` or `MISOFunctional` (miso_state.py:86-97, miso_output.py:58-62): `fields` is the
solver's map of fields, whose size is 0 for a name it does not know (pde_solver.cpp:320-333). -/
def inputShape (fields : String → Option ℕ) (name : String) : ℕ :=
  let s := (fields name).getD 0
  if s = 0 then 1 else s

/-- What the solver does with an input that arrives as a number (miso_nonlinearform.cpp:18-35): fields ignore it, the
integrators take it if they know the name. -/
def takesScalar (integs : List String) (name : String) : Bool := integs.contains name

end Verif.Py
