/-!
# Output registry of a solver (`src/common/abstract_solver.cpp:229-438`)

An output object is any type `O` with the interface of `MISOOutput` (`src/common/miso_output.hpp`).
Each operation may change the object, may throw, and for vector operations leaves some content in the result vector
even if it throws.  `addOutput` is virtual; all overrides emplace the constructed output under the given name or throw.
-/

namespace Verif.Registry

/-- The exceptions the calls distinguish: abstract_solver.cpp:229-438. -/
inductive Err
  /-- `std::out_of_range` (e.g. from `std::map::at`) -/
  | outOfRange
  /-- `MISOException` and everything else -/
  | other
  deriving DecidableEq

/-- A scalar `double`: a number or NaN. abstract_solver.cpp:229-438. -/
inductive Val (K : Type)
  | num (x : K)
  | nan
  deriving DecidableEq

/-- Outcome of an API call. abstract_solver.cpp:229-438. -/
inductive Outcome (α : Type)
  | ok (a : α)
  | throws (e : Err)
  deriving DecidableEq

/-- Interface of an output (`miso_output.hpp:49-136`): new object and result or exception. -/
structure Iface (O In Opt K : Type) where
  /-- constructor used by `addOutput` -/
  make : String → Opt → Outcome O
  size : O → Int
  setInputs : O → In → O × Option Err
  setOptions : O → Opt → O × Option Err
  calcScalar : O → In → O × Outcome K
  calcVec : O → In → List K → O × List K × Option Err
  partialScalar : O → String → In → O × Outcome K
  partialVec : O → String → In → List K → O × List K × Option Err
  jvpScalar : O → List K → String → O × Outcome K
  jvpVec : O → List K → String → List K → O × List K × Option Err
  vjpScalar : O → List K → String → O × Outcome K
  vjpVec : O → List K → String → List K → O × List K × Option Err

variable {O In Opt K : Type}

/-- `outputs` (`std::map<std::string, MISOOutput>`).
abstract_solver.hpp, used at abstract_solver.cpp:229-438. -/
abbrev Outs (O : Type) := String → Option O

/-- `outputs.emplace(name, ...)` and in-place update through an iterator:
abstract_solver.cpp:229-246. -/
def Outs.set (s : Outs O) (n : String) (o : O) : Outs O := fun m => if m = n then some o else s m

/-- `createOutput` (`abstract_solver.cpp:229-246`). -/
def createOutput (I : Iface O In Opt K) (s : Outs O) (n : String) (opt : Opt) : Outs O × Outcome Unit :=
  match s n with
  | some _ => (s, .throws .other)
  | none => match I.make n opt with
    | .ok o => (s.set n o, .ok ())
    | .throws e => (s, .throws e)

/-- `getOutputSize` (`abstract_solver.cpp:248-263`). -/
def getOutputSize (I : Iface O In Opt K) (s : Outs O) (n : String) : Outcome Int :=
  match s n with
  | none => .throws .other
  | some o => .ok (I.size o)

/-- `catch (const std::out_of_range &)` around a call with no result (`abstract_solver.cpp:281-285` and others). -/
def swallow : Option Err → Outcome Unit
  | none => .ok ()
  | some .outOfRange => .ok ()
  | some .other => .throws .other

/-- `setOutputOptions` (`abstract_solver.cpp:265-282`). -/
def setOutputOptions (I : Iface O In Opt K) (s : Outs O) (n : String) (opt : Opt) : Outs O × Outcome Unit :=
  match s n with
  | none => (s, .throws .other)
  | some o => let (o', e) := I.setOptions o opt; (s.set n o', swallow e)

/-- Scalar `calcOutput` (`abstract_solver.cpp:284-302`): NaN on `out_of_range`. -/
def calcOutput (I : Iface O In Opt K) (s : Outs O) (n : String) (i : In) : Outs O × Outcome (Val K) :=
  match s n with
  | none => (s, .throws .other)
  | some o =>
    match I.setInputs o i with
    | (o1, some .outOfRange) => (s.set n o1, .ok .nan)
    | (o1, some .other) => (s.set n o1, .throws .other)
    | (o1, none) =>
      match I.calcScalar o1 i with
      | (o2, .ok x) => (s.set n o2, .ok (.num x))
      | (o2, .throws .outOfRange) => (s.set n o2, .ok .nan)
      | (o2, .throws .other) => (s.set n o2, .throws .other)

/-- Common shape of the vector-valued operations (`abstract_solver.cpp:304-330`, `:377-438`): set inputs; if the result vector has
one entry use the scalar form and combine, else the vector form.  Result: registry, vector, outcome. -/
def vecOp (I : Iface O In Opt K) (s : Outs O) (n : String) (i : In) (scalar : O → O × Outcome K)
    (vector : O → List K → O × List K × Option Err) (combine : K → K → K) (out : List K) :
    Outs O × List K × Outcome Unit :=
  match s n with
  | none => (s, out, .throws .other)
  | some o =>
    match I.setInputs o i with
    | (o1, some e) => (s.set n o1, out, swallow (some e))
    | (o1, none) =>
      match out with
      | [x] =>
        match scalar o1 with
        | (o2, .ok y) => (s.set n o2, [combine x y], .ok ())
        | (o2, .throws e) => (s.set n o2, out, swallow (some e))
      | _ =>
        let (o2, out', e) := vector o1 out
        (s.set n o2, out', swallow e)

/-- Vector `calcOutput` (`abstract_solver.cpp:304-330`): `out_vec(0) = ...`. -/
def calcOutputVec (I : Iface O In Opt K) (s : Outs O) (n : String) (i : In) (out : List K) :=
  vecOp I s n i (fun o => I.calcScalar o i) (fun o v => I.calcVec o i v) (fun _ y => y) out

/-- `outputJacobianVectorProduct` (`abstract_solver.cpp:377-405`): `out_dot(0) += ...`. -/
def outputJVP [Add K] (I : Iface O In Opt K) (s : Outs O) (n : String) (i : In) (wrtDot : List K)
    (wrt : String) (outDot : List K) :=
  vecOp I s n i (fun o => I.jvpScalar o wrtDot wrt) (fun o v => I.jvpVec o wrtDot wrt v) (· + ·) outDot

/-- `outputVectorJacobianProduct` (`abstract_solver.cpp:407-435`): `wrt_bar(0) += ...`. -/
def outputVJP [Add K] (I : Iface O In Opt K) (s : Outs O) (n : String) (i : In) (outBar : List K)
    (wrt : String) (wrtBar : List K) :=
  vecOp I s n i (fun o => I.vjpScalar o outBar wrt) (fun o v => I.vjpVec o outBar wrt v) (· + ·) wrtBar

/-- Scalar `calcOutputPartial` (`abstract_solver.cpp:332-353`): `partial += part`, NaN on `out_of_range`. -/
def calcOutputPartial [Add K] (I : Iface O In Opt K) (s : Outs O) (n wrt : String) (i : In) (part : Val K) :
    Outs O × Val K × Outcome Unit :=
  match s n with
  | none => (s, part, .throws .other)
  | some o =>
    match I.setInputs o i with
    | (o1, some .outOfRange) => (s.set n o1, .nan, .ok ())
    | (o1, some .other) => (s.set n o1, part, .throws .other)
    | (o1, none) =>
      match I.partialScalar o1 wrt i with
      | (o2, .ok x) => (s.set n o2, (match part with | .num p => .num (p + x) | .nan => .nan), .ok ())
      | (o2, .throws .outOfRange) => (s.set n o2, .nan, .ok ())
      | (o2, .throws .other) => (s.set n o2, part, .throws .other)

/-- Vector `calcOutputPartial` (`abstract_solver.cpp:355-375`). -/
def calcOutputPartialVec (I : Iface O In Opt K) (s : Outs O) (n wrt : String) (i : In) (part : List K) :
    Outs O × List K × Outcome Unit :=
  match s n with
  | none => (s, part, .throws .other)
  | some o =>
    match I.setInputs o i with
    | (o1, some e) => (s.set n o1, part, swallow (some e))
    | (o1, none) =>
      let (o2, out', e) := I.partialVec o1 wrt i part
      (s.set n o2, out', swallow e)

/-- A client call on the registry. abstract_solver.cpp:229-438. -/
inductive Op (In Opt K : Type)
  | create (n : String) (opt : Opt)
  | size (n : String)
  | setOptions (n : String) (opt : Opt)
  | eval (n : String) (i : In)
  | calcVec (n : String) (i : In) (out : List K)
  | part (n wrt : String) (i : In) (p : Val K)
  | partVec (n wrt : String) (i : In) (p : List K)
  | jvp (n : String) (i : In) (dot : List K) (wrt : String) (out : List K)
  | vjp (n : String) (i : In) (bar : List K) (wrt : String) (out : List K)

/-- The output a call names: abstract_solver.cpp:229-438. -/
def Op.name : Op In Opt K → String
  | .create n _ | .size n | .setOptions n _ | .eval n _ | .calcVec n _ _ | .part n _ _ _ | .partVec n _ _ _
  | .jvp n _ _ _ _ | .vjp n _ _ _ _ => n

/-- Drop the result of a call, keep whether it threw: abstract_solver.cpp:229-438. -/
def void {α : Type} : Outcome α → Outcome Unit
  | .ok _ => .ok ()
  | .throws e => .throws e

/-- Effect of a call on the registry and whether it throws. abstract_solver.cpp:229-438. -/
def run [Add K] (I : Iface O In Opt K) (s : Outs O) : Op In Opt K → Outs O × Outcome Unit
  | .create n opt => createOutput I s n opt
  | .size n => (s, void (getOutputSize I s n))
  | .setOptions n opt => setOutputOptions I s n opt
  | .eval n i => let r := calcOutput I s n i; (r.1, void r.2)
  | .calcVec n i out => let r := calcOutputVec I s n i out; (r.1, r.2.2)
  | .part n wrt i p => let r := calcOutputPartial I s n wrt i p; (r.1, r.2.2)
  | .partVec n wrt i p => let r := calcOutputPartialVec I s n wrt i p; (r.1, r.2.2)
  | .jvp n i d wrt out => let r := outputJVP I s n i d wrt out; (r.1, r.2.2)
  | .vjp n i b wrt out => let r := outputVJP I s n i b wrt out; (r.1, r.2.2)

/-- A history of calls: abstract_solver.cpp:229-438. -/
def runAll [Add K] (I : Iface O In Opt K) (s : Outs O) (ops : List (Op In Opt K)) : Outs O :=
  ops.foldl (fun s op => (run I s op).1) s

end Verif.Registry
