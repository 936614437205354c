import Mathlib.Logic.Function.Basic
import Mathlib.Data.List.Basic

/-!
# `MISOInputs` (`src/physics/miso_input.hpp`, `src/physics/miso_input.cpp`)

Vectors have reference semantics here, so memory is explicit: a heap of blocks.
Pointers are block base addresses (that is what `Vector::GetData()` and the Python buffers give).
The MFEM operations used (`SetSize`, `NewDataAndSize`, `operator=(const double*)`) are
modelled from MFEM's documented behaviour; MFEM itself is not part of /repo:
`SetSize(s)` keeps the current block if `s` does not exceed its capacity (owned or not), else
frees an owned block and allocates a new one; `NewDataAndSize` frees an owned block and adopts
the pointer without owning it.
-/

set_option linter.dupNamespace false

namespace Verif.Inputs

variable {K : Type}

/-- Memory reachable through `InputVector` and `mfem::Vector`, by block: miso_input.hpp:15-29. -/
abbrev Heap (K : Type) := ℕ → Option (List K)

/-- `InputVector` (`miso_input.hpp:15-23`): a raw pointer and a size. -/
structure InputVector where
  data : ℕ
  size : ℕ
  deriving DecidableEq

/-- `MISOInput = std::variant<double, InputVector>` (`miso_input.hpp:26`). -/
inductive Input (K : Type)
  | val (x : K)
  | vec (v : InputVector)

/-- `MISOInputs` (`miso_input.hpp:29`): the map's contents. -/
abbrev Inputs (K : Type) := String → Option (Input K)

/-- `mfem::Vector`. miso_input.cpp:27-41 (MFEM type). -/
structure Vec where
  data : ℕ
  size : ℕ
  cap : ℕ
  owns : Bool
  deriving DecidableEq

/-- How a setter can end: miso_input.cpp:11-58. -/
inductive Out (α : Type)
  | ok (a : α)
  /-- `std::bad_variant_access` -/
  | badVariant
  /-- `MISOException` -/
  | misoException
  | ub
  deriving DecidableEq

/-- `setValueFromInput` (`miso_input.cpp:6-9`). -/
def setValueFromInput (input : Input K) : Out K :=
  match input with
  | .val x => .ok x
  | .vec _ => .badVariant

/-- `setValueFromInputs` (`miso_input.cpp:11-25`): returns the new content of `value`. -/
def setValueFromInputs (inputs : Inputs K) (key : String) (value : K) (errorIfNotFound : Bool) : Out K :=
  match inputs key with
  | some input => setValueFromInput input
  | none => if errorIfNotFound then .misoException else .ok value

/-- `delete` of an owned block. called from miso_input.cpp:27-41. -/
def freeOwned (h : Heap K) (v : Vec) : Heap K :=
  if v.owns then fun b => if b = v.data then none else h b else h

/-- `Vector::SetSize` (MFEM).  `fresh` is the address `new` returns, `junk n` the content of new memory.
called from miso_input.cpp:27-41. -/
def setSize (h : Heap K) (v : Vec) (s fresh : ℕ) (junk : ℕ → List K) : Heap K × Vec :=
  if s = v.size then (h, v)
  else if s ≤ v.cap then (h, { v with size := s })
  else (fun b => if b = fresh then some (junk s) else freeOwned h v b, ⟨fresh, s, s, true⟩)

/-- `Vector::operator=(const double *src)` (MFEM): copies `size` entries.
called from miso_input.cpp:27-41. -/
def copyFrom (h : Heap K) (v : Vec) (src : ℕ) : Out (Heap K) :=
  match h v.data, h src with
  | some dst, some s =>
    if v.size ≤ dst.length ∧ v.size ≤ s.length then
      .ok fun b => if b = v.data then some (s.take v.size ++ dst.drop v.size) else h b
    else .ub
  | _, _ => if v.size = 0 then .ok h else .ub

/-- `Vector::NewDataAndSize` (MFEM). called from miso_input.cpp:27-41. -/
def newDataAndSize (h : Heap K) (v : Vec) (d s : ℕ) : Heap K × Vec := (freeOwned h v, ⟨d, s, s, false⟩)

/-- `setVectorFromInput` (`miso_input.cpp:27-41`). -/
def setVectorFromInput (h : Heap K) (input : Input K) (v : Vec) (deepCopy : Bool) (fresh : ℕ)
    (junk : ℕ → List K) : Out (Heap K × Vec) :=
  match input with
  | .val _ => .badVariant
  | .vec tmp =>
    if deepCopy then
      let (h1, v1) := setSize h v tmp.size fresh junk
      match copyFrom h1 v1 tmp.data with
      | .ok h2 => .ok (h2, v1)
      | .badVariant => .badVariant
      | .misoException => .misoException
      | .ub => .ub
    else .ok (newDataAndSize h v tmp.data tmp.size)

/-- `setVectorFromInputs` (`miso_input.cpp:43-58`). -/
def setVectorFromInputs (h : Heap K) (inputs : Inputs K) (key : String) (v : Vec)
    (deepCopy errorIfNotFound : Bool) (fresh : ℕ) (junk : ℕ → List K) : Out (Heap K × Vec) :=
  match inputs key with
  | some input => setVectorFromInput h input v deepCopy fresh junk
  | none => if errorIfNotFound then .misoException else .ok (h, v)

/-- Read entry `i` through a pointer. miso_input.cpp:27-41, client side. -/
def rd (h : Heap K) (p i : ℕ) : Option K := (h p).bind (·[i]?)

/-- Write entry `i` through a pointer. miso_input.cpp:27-41, client side. -/
def wr (h : Heap K) (p i : ℕ) (x : K) : Heap K := fun b => if b = p then (h b).map (·.set i x) else h b

end Verif.Inputs
