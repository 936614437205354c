import Mathlib.Data.Matrix.Mul
import Mathlib.Logic.Function.Basic
import Verif.Inputs

/-!
# Current densities and magnetostatic loads

`src/physics/electromagnetics/current_source_functions.cpp` (`CurrentDensityCoefficient`, `CurrentDensityCoefficient2D`; the two classes share this code verbatim),
`current_load.cpp`, `magnetostatic_residual.cpp`, `src/common/miso_linearform.cpp`.

`std::map<std::string,double>` = sorted key list plus a value function.  Vectors are `Fin n → K`.
MFEM assembly and the inner (mass, projection) solves are a parameter `Asm`; the inner solves are assumed exact.
-/

namespace Verif.Loads

open Verif.Inputs

variable {K : Type} {n : ℕ}

/-- `mfem::HypreParVector` entries by true dof: current_load.hpp:49-84. -/
abbrev Vec (n : ℕ) (K : Type) := Fin n → K

/-- The state of a current-density coefficient (`current_source_functions.hpp:46-56`, `88-98`).
`gkeys`/`g`: `group_map`; `ckeys`/`c`: `cached_inputs` (iteration order of the `std::map`). -/
structure Density (K : Type) where
  gkeys : List String
  g : String → K
  ckeys : List String
  c : String → K

/-- Range-for over a `std::map`'s keys with a body that may throw (`false`); a throw leaves what has been written so far.
current_source_functions.cpp:673-697. -/
def loop {σ : Type} (f : σ → String → σ × Bool) : List String → σ → σ × Bool
  | [], s => (s, true)
  | k :: ks, s => match f s k with
    | (s', true) => loop f ks s'
    | (s', false) => (s', false)

/-- `cacheCurrentDensity` (`current_source_functions.cpp:649-655`, `984-990`): `cached_inputs.at(group) = coeff.constant`. -/
def Density.cache (d : Density K) : Density K × Bool :=
  loop (fun d k => if k ∈ d.ckeys then ({ d with c := Function.update d.c k (d.g k) }, true) else (d, false)) d.gkeys d

/-- `zeroCurrentDensity` (`current_source_functions.cpp:657-663`, `992-998`). -/
def Density.zero [Zero K] (d : Density K) : Density K :=
  (loop (fun d k => ({ d with g := Function.update d.g k 0 }, true)) d.gkeys d).1

/-- `resetCurrentDensityFromCache` (`current_source_functions.cpp:665-671`, `1000-1006`): `group_map.at(group).constant = value` for every key of `cached_inputs`;
`at` throws `std::out_of_range` for a key that is not a group. -/
def Density.reset (d : Density K) : Density K × Bool :=
  loop (fun d k => if k ∈ d.gkeys then ({ d with g := Function.update d.g k (d.c k) }, true) else (d, false)) d.ckeys d

/-- `"current_density:" + group` (`current_source_functions.cpp:679`). -/
def cdKey (group : String) : String := "current_density:" ++ group

/-- Body of the first loop of `setInputs` (`current_source_functions.cpp:676-685`, `1011-1020`); the `Bool` of the state is `updated`. -/
def setGroup [DecidableEq K] (inputs : Inputs K) (s : Density K × Bool) (k : String) : (Density K × Bool) × Bool :=
  match setValueFromInputs inputs (cdKey k) (s.1.g k) false with
  | .ok x => (({ s.1 with g := Function.update s.1.g k x }, s.2 || decide (x ≠ s.1.g k)), true)
  | _ => (s, false)

/-- Body of the second loop (`current_source_functions.cpp:687-695`, `1022-1030`). -/
def setCached [DecidableEq K] (inputs : Inputs K) (s : Density K × Bool) (k : String) : (Density K × Bool) × Bool :=
  match setValueFromInputs inputs k (s.1.c k) false with
  | .ok x => (({ s.1 with c := Function.update s.1.c k x }, s.2 || decide (x ≠ s.1.c k)), true)
  | _ => (s, false)

/-- `setInputs(CurrentDensityCoefficient&, inputs)` (`current_source_functions.cpp:673-697`, `1008-1032`).
Result: new state, `updated`, and whether it returned normally (`false`: `std::bad_variant_access`). -/
def Density.setInputs [DecidableEq K] (d : Density K) (inputs : Inputs K) : Density K × Bool × Bool :=
  match loop (setGroup inputs) d.gkeys (d, false) with
  | (s, false) => (s.1, s.2, false)
  | (s, true) => match loop (setCached inputs) d.ckeys s with
    | (s', ok) => (s'.1, s'.2, ok)

/-- Constructor (`current_source_functions.cpp:714-982`): every group starts at `1.0` and its cache entry at `0.0`; a `cwStator`/`ccwStator` source adds the keys
`n_slots` and `stack_length` to `cached_inputs` (`emplace`: no effect on an existing key).  `ckeys` is listed groups first
(simplification: `std::map` would sort the keys; only the point at which an exception interrupts a loop depends on it). -/
def Density.new [Zero K] [One K] (groups : List String) (stator : Bool) (slots length : K) : Density K where
  gkeys := groups
  g := fun _ => 1
  ckeys := groups ++ (if stator then ["n_slots", "stack_length"].filter (fun k => k ∉ groups) else [])
  c := fun k => if k ∈ groups then 0 else if k = "n_slots" then slots else length

/-- Assembly: `load C g` is the true-dof load vector for mesh coordinates `C` and group current densities `g`; `stator` records that some element's source is a stator
winding, whose lambda captures references to locals of the constructor (`n_slots`, `stack_length`, `current_source_functions.cpp:732,734,741,767,769,776`)
so that evaluating it is undefined behaviour. -/
structure Asm (n : ℕ) (C K : Type) where
  load : C → (String → K) → Vec n K
  stator : Bool

/-- `CurrentLoad` (`current_load.hpp:49-84`) together with the mesh coordinates it reads. -/
structure CurLoad (n : ℕ) (C K : Type) where
  cur : Density K
  coords : C
  ess : List (Fin n)
  load : Vec n K
  dirty : Bool

/-- How a call can end: current_load.cpp:21-79. -/
inductive Out (σ α : Type)
  | ok (s : σ) (a : α)
  /-- an exception; the object is left in state `s` -/
  | threw (s : σ)
  | ub

variable {C : Type}

/-- `v.SetSubVector(ess, 0.0)`. current_load.cpp:34-46. -/
def zeroEss [Zero K] (ess : List (Fin n)) (v : Vec n K) : Vec n K := fun i => if i ∈ ess then 0 else v i

/-- `CurrentLoad` constructor (`current_load.cpp:178-241`); `junk` is the uninitialised content of `load`. -/
def CurLoad.new [Zero K] [One K] (groups : List String) (stator : Bool) (slots length : K) (C0 : C) (ess : List (Fin n)) (junk : Vec n K) : CurLoad n C K :=
  ⟨Density.new groups stator slots length, C0, ess, junk, true⟩

/-- `setInputs(CurrentLoad&, inputs)` (`current_load.cpp:21-32`).  `coords` is the `"mesh_coords"` entry of the inputs; the caller
(`magnetostatic_residual.cpp:88`, via the nonlinear form) has put it into the mesh before. -/
def CurLoad.setInputs [DecidableEq K] (l : CurLoad n C K) (inputs : Inputs K) (coords : Option C) : Out (CurLoad n C K) Unit :=
  let l0 := { l with coords := coords.getD l.coords }
  match l0.cur.setInputs inputs with
  | (cur, updated, true) => .ok { l0 with cur := cur, dirty := l0.dirty || updated || coords.isSome } ()
  | (cur, _, false) => .threw { l0 with cur := cur }

/-- `setOptions(CurrentLoad&, options)` (`current_load.cpp:34-46`), reduced to the essential dof list the options select (`none`: no `bcs/essential`). -/
def CurLoad.setOptions (l : CurLoad n C K) (ess : Option (List (Fin n))) : CurLoad n C K :=
  { l with ess := ess.getD l.ess }

/-- `CurrentLoad::assembleLoad` (`current_load.cpp:243-341`). -/
def CurLoad.assemble (A : Asm n C K) (l : CurLoad n C K) : Option (CurLoad n C K) :=
  if A.stator then none else some { l with load := A.load l.coords l.cur.g }

/-- `addLoad(CurrentLoad&, tv)` (`current_load.cpp:48-57`). -/
def CurLoad.addLoad [Zero K] [Sub K] (A : Asm n C K) (l : CurLoad n C K) (tv : Vec n K) : Out (CurLoad n C K) (Vec n K) :=
  match (if l.dirty then (l.assemble A).map fun l => { l with dirty := false } else some l) with
  | none => .ub
  | some l1 =>
    let l2 := { l1 with load := zeroEss l1.ess l1.load }
    .ok l2 (tv - l2.load)

/-- Scalar `vectorJacobianProduct(CurrentLoad&, load_bar, wrt)` for `wrt` starting with `"current_density:"` (`current_load.cpp:63-79`). -/
def CurLoad.vjpScalar [Field K] [DecidableEq K] (A : Asm n C K) (l : CurLoad n C K) (loadBar : Vec n K) (wrt : String) : Out (CurLoad n C K) K :=
  match l.cur.cache with
  | (d1, false) => .threw { l with cur := d1 }
  | (d1, true) =>
    match (d1.zero).setInputs (fun k => if k = wrt then some (.val 1) else none) with
    | (d3, _, false) => .threw { l with cur := d3 }
    | (d3, _, true) =>
      match ({ l with cur := d3 } : CurLoad n C K).assemble A with
      | none => .ub
      | some l4 => match l4.cur.reset with
        | (d5, false) => .threw { l4 with cur := d5 }
        | (d5, true) =>
          let l5 := { l4 with cur := d5, dirty := true, load := zeroEss l4.ess l4.load }
          .ok l5 (-(l5.load ⬝ᵥ loadBar))

/-- Vector `vectorJacobianProduct(CurrentLoad&, load_bar, "mesh_coords", wrt_bar)` (`current_load.cpp:84-176`), as far as it changes the load object. -/
def CurLoad.vjpCoords (A : Asm n C K) (l : CurLoad n C K) : Out (CurLoad n C K) Unit :=
  match (if l.dirty then (l.assemble A).map fun l => { l with dirty := false } else some l) with
  | none => .ub
  | some l1 => .ok l1 ()

/-! ### `MagnetostaticResidual` -/

/-- 2D residual (`magnetostatic_residual.cpp:260-384`) for fixed other inputs: `cur` is `current_coeff` (`none`: null pointer, as always in 3D, `:252-259`),
`ess` the essential dofs of the nonlinear form, `lfEss` those of the linear form.  The linear form is `Σ_groups` current term + magnetisation term `mag`. -/
structure Res2D (n : ℕ) (K : Type) where
  cur : Option (Density K)
  ess : List (Fin n)
  lfEss : List (Fin n)
  mag : Vec n K

/-- `addLoad(MISOLinearForm&, tv)` (`miso_linearform.cpp:55-62`): always reassembles.  `L g` is the current part of the linear form. -/
def Res2D.addLoad [Zero K] [Add K] (L : (String → K) → Vec n K) (r : Res2D n K) (tv : Vec n K) : Vec n K :=
  tv + zeroEss r.lfEss ((match r.cur with | some d => L d.g | none => 0) + r.mag)

/-- The unit-density load used by both products (`magnetostatic_residual.cpp:174-189`, `200-213`); `none` is the null-pointer dereference. -/
def Res2D.unitLoad [Field K] [DecidableEq K] (L : (String → K) → Vec n K) (r : Res2D n K) (wrt : String) : Out (Res2D n K) (Vec n K) :=
  match r.cur with
  | none => .ub
  | some d =>
    match d.cache with
    | (d1, false) => .threw { r with cur := some d1 }
    | (d1, true) =>
      match (d1.zero).setInputs (fun k => if k = wrt then some (.val 1) else none) with
      | (d3, _, false) => .threw { r with cur := some d3 }
      | (d3, _, true) =>
        let scratch := ({ r with cur := some d3 } : Res2D n K).addLoad L 0
        match d3.reset with
        | (d5, false) => .threw { r with cur := some d5 }
        | (d5, true) => .ok { r with cur := some d5 } (zeroEss r.ess scratch)

/-- Vector `jacobianVectorProduct` for `"current_density:…"` (`magnetostatic_residual.cpp:169-194`); `wrtDot` is `wrt_dot(0)`. -/
def Res2D.jvp [Field K] [DecidableEq K] (L : (String → K) → Vec n K) (r : Res2D n K) (wrt : String) (wrtDot : K) (resDot : Vec n K) : Out (Res2D n K) (Vec n K) :=
  match r.unitLoad L wrt with
  | .ok r' s => .ok r' (resDot + wrtDot • s)
  | .threw r' => .threw r'
  | .ub => .ub

/-- Scalar `vectorJacobianProduct` for `"current_density:…"` (`magnetostatic_residual.cpp:196-218`). -/
def Res2D.vjp [Field K] [DecidableEq K] (L : (String → K) → Vec n K) (r : Res2D n K) (wrt : String) (resBar : Vec n K) : Out (Res2D n K) K :=
  match r.unitLoad L wrt with
  | .ok r' s => .ok r' (s ⬝ᵥ resBar)
  | .threw r' => .threw r'
  | .ub => .ub

/-- `setInputs(MagnetostaticResidual&, inputs)` restricted to the current coefficient (`magnetostatic_residual.cpp:86-94`). -/
def Res2D.setInputs [DecidableEq K] (r : Res2D n K) (inputs : Inputs K) : Out (Res2D n K) Unit :=
  match r.cur with
  | none => .ok r ()
  | some d => match d.setInputs inputs with
    | (d', _, true) => .ok { r with cur := some d' } ()
    | (d', _, false) => .threw { r with cur := some d' }

/-- Load part of `evaluate(MagnetostaticResidual&, …)` (`magnetostatic_residual.cpp:102-121`): `nl` is what the nonlinear form wrote to `res_vec`. -/
def Res2D.evaluate [Field K] [DecidableEq K] (L : (String → K) → Vec n K) (r : Res2D n K) (inputs : Inputs K) (nl : Vec n K) : Out (Res2D n K) (Vec n K) :=
  match r.setInputs inputs with
  | .ok r' _ => .ok r' (r'.addLoad L nl)
  | .threw r' => .threw r'
  | .ub => .ub

end Verif.Loads
