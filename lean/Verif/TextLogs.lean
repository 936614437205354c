import Verif.TimeLoop

/-!
# The text logs of the flow solvers

`FlowSolver` writes `entropy-log.txt` (flow_solver.cpp:87-129, 188-203), `FlowControlSolver` one file per output
(flow_control_solver.cpp:240-412), from the hooks of the time loop of `solveForState`
(`TimeLoop.lean`).  Only rank 0 touches the files, and each solver writes each file through one stream, so the
model follows one file name and one stream.  `std::ofstream` behaves as in the C++11 standard: `open` on an open
stream fails and leaves it as it was, a successful `open` clears the error flags, nothing else does; output to a
closed or failed stream is dropped; `remove` unlinks the name and leaves an open stream writing to the unlinked
file (POSIX).  `endl` flushes, so a row is on disk when the statement ends.
-/

namespace Verif.TextLogs

/-- A `std::ofstream`: open, still the named file, failed. flow_solver.hpp:55, flow_control_solver.hpp:50. -/
structure Stream where
  isOpen : Bool
  bound : Bool
  fail : Bool

/-- A default-constructed stream. flow_solver.hpp:55. -/
def Stream.fresh : Stream := ⟨false, false, false⟩

/-- The named file (`none`: absent) and the stream that writes it. flow_solver.cpp:87-129. -/
structure Log (R : Type) where
  file : Option (List R)
  s : Stream

variable {R : Type}

/-- `remove(name)`. flow_solver.cpp:105, flow_control_solver.cpp:283. -/
def Log.remove (l : Log R) : Log R := ⟨none, { l.s with bound := false }⟩

/-- `stream.open(name, fstream::app)`. flow_solver.cpp:106. -/
def Log.open (l : Log R) : Log R :=
  if l.s.isOpen then ⟨l.file, { l.s with fail := true }⟩
  else ⟨some (l.file.getD []), ⟨true, true, false⟩⟩

/-- `stream << t << ' ' << value << endl`. flow_solver.cpp:124, 199, flow_control_solver.cpp:323, 407. -/
def Log.row (l : Log R) (r : R) : Log R :=
  if l.s.isOpen && !l.s.fail then
    if l.s.bound then ⟨l.file.map (· ++ [r]), l.s⟩ else l
  else ⟨l.file, { l.s with fail := true }⟩

/-- `stream.close()`. flow_solver.cpp:200, flow_control_solver.cpp:408. -/
def Log.close (l : Log R) : Log R :=
  if l.s.isOpen then ⟨l.file, { l.s with isOpen := false, bound := false }⟩
  else ⟨l.file, { l.s with fail := true }⟩

/-- What the hooks of one call of `solveForState` write: the rows of the iteration hooks that were reached, and the
row of the terminal hook if the call got there (`none`: an exception or the end of the process came first).
abstract_solver.cpp:98-115. -/
structure Run (R : Type) where
  rows : List R
  last : Option R

/-- The iteration hooks and the terminal hook on an opened log. flow_solver.cpp:111-127, 188-203,
flow_control_solver.cpp:294-327, 382-412. -/
def Log.hooks (l : Log R) (r : Run R) : Log R :=
  let l := r.rows.foldl Log.row l
  match r.last with
  | some x => (l.row x).close
  | none => l

/-- One call of `FlowSolver::solveForState` with option `entropy-log`: `derivedPDEInitialHook` removes the file and
opens the stream. flow_solver.cpp:87-109. -/
def flowRun (l : Log R) (r : Run R) : Log R := (l.remove.open).hooks r

/-- The log of one output of `FlowControlSolver`: the stream is an entry of the map `output_log`, absent at first.
flow_control_solver.hpp:50. -/
structure CtlLog (R : Type) where
  file : Option (List R)
  entry : Option Stream

/-- `remove(name); output_log.emplace(name, ofstream(name, app))`: the temporary stream creates the file; it becomes
the entry only if there is none, otherwise it is destroyed. flow_control_solver.cpp:283-287. -/
def CtlLog.init (c : CtlLog R) : Log R :=
  match c.entry with
  | none => ⟨some [], ⟨true, true, false⟩⟩
  | some s => ⟨some [], { s with bound := false }⟩

/-- One call of `FlowControlSolver::solveForState` with option `outputs: each-timestep`; a steady problem is refused
in the initial hook before the files are touched. flow_control_solver.cpp:240-412. -/
def ctlRun (steady : Bool) (c : CtlLog R) (r : Run R) : CtlLog R :=
  if steady then c
  else
    let l := c.init.hooks r
    ⟨l.file, some l.s⟩

variable {K S V : Type} [Field K] [LinearOrder K]

/-- The rows of a complete call: each iteration hook writes the time and the value at the state handed to the
stepper, the terminal hook those of the final state. abstract_solver.cpp:97-115. -/
def solveRun (v : TimeLoop.Solver K S) (value : S → V) (s0 : S) : Run (K × V) :=
  let r := TimeLoop.solve v s0
  ⟨r.iters.map fun i => (i.t, value i.state), some (r.t, value r.state)⟩

/-- The same call cut short in the iteration with index `k` (before its hook). abstract_solver.cpp:97-115. -/
def cutRun (v : TimeLoop.Solver K S) (value : S → V) (s0 : S) (k : ℕ) : Run (K × V) :=
  ⟨(solveRun v value s0).rows.take k, none⟩

/-- The value of an output of `FlowControlSolver`: only the output called "entropy" receives the compound state.
flow_control_solver.cpp:306-319, 390-403. -/
def ctlValue {C F : Type} (name : String) (whole : C × F → V) (flow : F → V) (s : C × F) : V :=
  if name = "entropy" then whole s else flow s.2

/-- File of an output, flow_control_solver.cpp:280-282. -/
def ctlFile (name : String) (sample : ℕ) : String := name ++ "-" ++ toString sample ++ ".txt"

end Verif.TextLogs
