import Mathlib.Algebra.Notation.Defs
import Mathlib.Data.Nat.Notation

/-!
# The output component of the Python layer as a session

`MISOFunctional` (`/repo/miso/miso_output.py:8-215`): the buffers `self.vectors` a component keeps, what its `compute` and `compute_jacvec_product` hand to the solver, and what
stays behind for the next call.  Modelled: names, buffers, their resizing and copying, the dictionary, the copy of the result.  The solver is a function of the dictionary.
Not modelled here: ranks (see `PyLayer`), tags, printing.
-/

namespace Verif.FuncComp

variable {K : Type}

/-- A dictionary from names to arrays, in order. miso_output.py:21, 107. -/
abbrev Dict (K : Type) := List (String × List K)

/-- `v.resize(n)` of a numpy array: cut, or filled with zeros. miso_output.py:104. -/
def resize [Zero K] (b : List K) (n : ℕ) : List K := b.take n ++ List.replicate (n - b.length) 0

/-- `b[:] = v[:]`: entry by entry; `none`: numpy rejects different shapes. miso_output.py:105, 112. -/
def assign (b v : List K) : Option (List K) := if b.length = v.length then some (List.zipWith (fun _ x => x) b v) else none

/-- Replace the array of a key that is present. miso_output.py:101-105. -/
def put (d : Dict K) (k : String) (v : List K) : Dict K := d.map fun e => if e.1 = k then (k, v) else e

/-- The loop over the inputs: a name with a buffer is resized if its shape changed and copied. miso_output.py:101-105, 120-124. -/
def copyIn [Zero K] : Dict K → Dict K → Option (Dict K)
  | [], vec => some vec
  | (k, v) :: rest, vec =>
    match vec.lookup k with
    | none => copyIn rest vec
    | some b => (assign (if b.length ≠ v.length then resize b v.length else b) v).bind fun b' => copyIn rest (put vec k b')

/-- `dict(zip(...))` and `update(self.vectors)`: the buffers win. miso_output.py:107-108, 126-127. -/
def merged (inputs vec : Dict K) (k : String) : Option (List K) :=
  match vec.lookup k with
  | some v => some v
  | none => inputs.lookup k

/-- A declared input: its name, and the size `setup` finds for its field (0: none). miso_output.py:31-76. -/
structure Dep where
  name : String
  size : ℕ

/-- The buffer `setup` makes for an input: empty for `state` and `mesh_coords`, uninitialised of the size of a field otherwise, none for scalars.
miso_output.py:39-76; `junk`: what the memory holds. -/
def Dep.buffer (junk : ℕ → K) (d : Dep) : Dict K :=
  if d.name = "state" then [("state", [])]
  else if d.name = "mesh_coords" then [("mesh_coords", [])]
  else if 1 < d.size then [(d.name, (List.range d.size).map junk)] else []

/-- `setup`: the buffers of the inputs and of the output. miso_output.py:17-94. -/
def setup (junk : ℕ → K) (deps : List Dep) (func : String) (size : ℕ) : Dict K :=
  deps.flatMap (Dep.buffer junk) ++ [(func, (List.range size).map junk)]

/-- `compute`: the solver writes the output of the dictionary into the buffer of the output, which is copied to OpenMDAO's.  Result: OpenMDAO's output and the buffers. miso_output.py:96-112. -/
def compute [Zero K] (sol : (String → Option (List K)) → List K) (func : String) (vec inputs : Dict K) : Option (List K × Dict K) :=
  (copyIn inputs vec).bind fun vec' =>
    let r := sol (merged inputs vec')
    some (r, put vec' func r)

/-- `compute_jacvec_product`: the products are the solver's, at the dictionary of this call; the buffers of the inputs stay behind. miso_output.py:114-198. -/
def jacvec [Zero K] {P : Type} (prod : (String → Option (List K)) → P) (vec inputs : Dict K) : Option (P × Dict K) :=
  (copyIn inputs vec).bind fun vec' => some (prod (merged inputs vec'), vec')

/-- A call OpenMDAO makes, with the inputs of that moment. miso_output.py:96, 114. -/
inductive Call (K : Type)
  | compute (inputs : Dict K)
  | product (inputs : Dict K)

/-- A history of calls; `none`: one failed. miso_output.py:96-215. -/
def run [Zero K] (sol : (String → Option (List K)) → List K) (func : String) : List (Call K) → Dict K → Option (Dict K)
  | [], vec => some vec
  | .compute i :: cs, vec => (compute sol func vec i).bind fun x => run sol func cs x.2
  | .product i :: cs, vec => (jacvec (fun _ => ()) vec i).bind fun x => run sol func cs x.2

end Verif.FuncComp
