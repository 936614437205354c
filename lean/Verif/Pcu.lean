import Mathlib.Data.Nat.Notation

/-!
# PUMI communication library handling (`src/physics/pde_solver.cpp:97-165`, `pde_solver.hpp:36-55`)

`MISOMesh` objects share two static variables (`pumi_mesh_count`, `PCU_previously_initialized`) and the process-wide PCU library.  The model keeps the live objects and what each holds,
and the trace of library events.  A fault is a client call on an object that does not exist.
-/

namespace Verif.Pcu

/-- Observable library events. pde_solver.cpp:97-165. -/
inductive Ev where
  | init | free            -- `PCU_Comm_Init` / `PCU_Comm_Free` issued by MISO
  | extInit | extFree      -- the same calls issued by another user of the library
  | load                   -- a PUMI mesh is loaded (`loadMdsMesh`)
  | del                    -- a PUMI mesh is destroyed (`pumiDeleter`)
deriving DecidableEq, Repr

/-- World state.  `count : ℤ` in the code; a `ℕ` here, the decrement of the destructor only happens for live objects (proved: `count = objs.length`). `objs`: for each live object its identifier and whether it owns a PUMI mesh.
pde_solver.hpp:36-55. -/
structure St where
  lib : Bool              -- `PCU_Comm_Initialized()`
  count : ℕ               -- `pumi_mesh_count`
  prev : Bool             -- `PCU_previously_initialized`
  objs : List (ℕ × Bool)
  next : ℕ
  trace : List Ev         -- oldest first
deriving Repr

/-- State before any object exists: pde_solver.cpp:98-100. -/
def init0 : St := ⟨false, 0, false, [], 0, []⟩

/-- Does object `i` own a mesh?  `none`: no such object. pde_solver.hpp:36-55. -/
def look (os : List (ℕ × Bool)) (i : ℕ) : Option Bool := (os.find? (fun o => o.1 == i)).map (·.2)

/-- Record whether object `i` owns a mesh: pde_solver.cpp:102-164. -/
def put (os : List (ℕ × Bool)) (i : ℕ) (b : Bool) : List (ℕ × Bool) := os.map (fun o => if o.1 == i then (i, b) else o)

/-- Default constructor (`pde_solver.cpp:102-129`). -/
def ctor (s : St) : St :=
  let prev := if s.lib && s.count == 0 then true else s.prev
  let start := !prev && s.count == 0
  { lib := s.lib || start, count := s.count + 1, prev := prev, objs := (s.next, false) :: s.objs, next := s.next + 1,
    trace := s.trace ++ (if start then [.init] else []) }

/-- Move constructor (`pde_solver.cpp:131-135`): the new object takes the mesh of `i`. -/
def moveCtor (s : St) (i : ℕ) : Option St :=
  match look s.objs i with
  | none => none
  | some b => some { s with count := s.count + 1, objs := (s.next, b) :: put s.objs i false, next := s.next + 1 }

/-- Move assignment `i = std::move(j)` (`pde_solver.cpp:137-145`): the mesh `i` held is destroyed. -/
def moveAssign (s : St) (i j : ℕ) : Option St :=
  match look s.objs i, look s.objs j with
  | some bi, some bj =>
    if i = j then some s
    else some { s with objs := put (put s.objs i bj) j false, trace := s.trace ++ (if bi then [.del] else []) }
  | _, _ => none

/-- Destructor (`pde_solver.cpp:147-164`): the body runs first (decrement, maybe `PCU_Comm_Free`), then the members are destroyed (the PUMI mesh, if any). -/
def dtor (s : St) (i : ℕ) : Option St :=
  match look s.objs i with
  | none => none
  | some b =>
    let count := s.count - 1
    let stop := !s.prev && count == 0
    some { s with lib := if stop then false else s.lib, count := count, objs := s.objs.filter (fun o => !(o.1 == i)),
                  trace := s.trace ++ (if stop then [.free] else []) ++ (if b then [.del] else []) }

/-- Loading a PUMI mesh into object `i` (`pde_solver.cpp:239-251`); a mesh it already holds is destroyed. -/
def load (s : St) (i : ℕ) : Option St :=
  match look s.objs i with
  | none => none
  | some b => some { s with objs := put s.objs i true, trace := s.trace ++ [.load] ++ (if b then [.del] else []) }

/-- Calls by the client and by other users of the PCU library. pde_solver.cpp:97-165. -/
inductive Op where
  | ctor | moveCtor (i : ℕ) | moveAssign (i j : ℕ) | dtor (i : ℕ) | load (i : ℕ)
  | extInit | extFree
deriving DecidableEq, Repr

/-- One call: constructor, copy/move, assignment, destructor: pde_solver.cpp:102-164. -/
def step (s : St) : Op → Option St
  | .ctor => some (ctor s)
  | .moveCtor i => moveCtor s i
  | .moveAssign i j => moveAssign s i j
  | .dtor i => dtor s i
  | .load i => load s i
  | .extInit => some { s with lib := true, trace := s.trace ++ [.extInit] }
  | .extFree => some { s with lib := false, trace := s.trace ++ [.extFree] }

/-- A history; `none` when some call named a dead object. pde_solver.cpp:97-165. -/
def run (s : St) : List Op → Option St
  | [] => some s
  | o :: os => match step s o with
    | none => none
    | some s' => run s' os

end Verif.Pcu
