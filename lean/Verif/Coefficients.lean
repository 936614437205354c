import Mathlib.Algebra.Field.Basic
import Mathlib.Algebra.Module.Basic
import Mathlib.Algebra.BigOperators.Group.Finset.Basic
import Mathlib.Order.Lattice
import Mathlib.Data.Fintype.Basic
import Verif.Inputs

/-!
# Material and mesh dependent coefficients (`src/common/coefficient.hpp`, `src/common/coefficient.cpp`)

`K` stands for `double` (a field; rounding is not modelled), `IP` for integration points,
`X` for the mesh node coordinates (everything of the `ElementTransformation` except the
attribute), `D` for the type of `PointMat_bar` (gradients with respect to the mesh nodes).
Coefficients are MFEM objects with virtual methods; user supplied leaves (`plain`, `state`) are
their methods.  `mfem_error`/`MFEM_ABORT` end the program: the result is then `none`.
-/

set_option linter.dupNamespace false

namespace Verif.Coefficients

open Verif.Inputs (Inputs Input Out setValueFromInputs)

/-- What `ElementTransformation` + `IntegrationPoint` tell a coefficient apart from the node
coordinates: the element attribute and the reference point. coefficient.cpp:23-29. -/
structure Loc (IP : Type) where
  attr : ℤ
  ip : IP

mutual
/-- The coefficient classes of `coefficient.hpp`: `plain` is any `mfem::Coefficient` that is not a
`StateCoefficient` (e.g. `ConstantCoefficient`), `state` any other user `StateCoefficient`
(`coefficient.hpp:26-64`), then `HashinShtrikmanWeightedCoefficient` (249-294),
`dHashinShtrikmanWeightedCoefficient` (296-341), `WeightedAverageCoefficient` (343-386),
`dWeightedAverageCoefficient` (388-433): fields `val1 val2 weight weighted_by`,
`ParameterContinuationCoefficient` (435-463) and `MeshDependentCoefficient` (468-600). -/
inductive Coeff (K IP X D : Type)
  | plain (f : Loc IP → X → K) (rev : K → Loc IP → X → D → Option D)
  | state (f fd fdd : Loc IP → X → K → K) (rev : K → Loc IP → X → K → D → Option D)
  | hs (val1 val2 weight : K) (weightedBy : String)
  | dhs (val1 val2 weight : K) (weightedBy : String)
  | avg (val1 val2 weight : K) (weightedBy : String)
  | davg (val1 val2 weight : K) (weightedBy : String)
  | contin (linear nonlinear : Coeff K IP X D)
  | mesh (map : CMap K IP X D) (dflt : COpt K IP X D)
/-- `std::map<const int, std::unique_ptr<Coefficient>> material_map`: keys are distinct because
`addCoefficient` is the only writer. coefficient.hpp:766-767, 897-898. -/
inductive CMap (K IP X D : Type)
  | nil
  | cons (attr : ℤ) (c : Coeff K IP X D) (rest : CMap K IP X D)
/-- `std::unique_ptr<Coefficient> default_coeff`: possibly null.
coefficient.hpp:766-767, 897-898. -/
inductive COpt (K IP X D : Type)
  | none
  | some (c : Coeff K IP X D)
end

variable {K IP X D : Type}

/-- The constructors of the four weighted coefficients (`coefficient.hpp:252-259`, `299-306`,
`346-351`, `391-398`): the larger value becomes `val1`, the smaller `val2`, `weight(0.5)`. -/
def mkHS [LinearOrder K] [Field K] (v1 v2 : K) (by_ : String) : Coeff K IP X D :=
  .hs (if v1 > v2 then v1 else v2) (if v1 > v2 then v2 else v1) (1 / 2) by_
/-- See `mkHS` (`coefficient.hpp:299-306`). -/
def mkDHS [LinearOrder K] [Field K] (v1 v2 : K) (by_ : String) : Coeff K IP X D :=
  .dhs (if v1 > v2 then v1 else v2) (if v1 > v2 then v2 else v1) (1 / 2) by_
/-- See `mkHS` (`coefficient.hpp:346-351`). -/
def mkAvg [LinearOrder K] [Field K] (v1 v2 : K) (by_ : String) : Coeff K IP X D :=
  .avg (if v1 > v2 then v1 else v2) (if v1 > v2 then v2 else v1) (1 / 2) by_
/-- See `mkHS` (`coefficient.hpp:391-398`). -/
def mkDAvg [LinearOrder K] [Field K] (v1 v2 : K) (by_ : String) : Coeff K IP X D :=
  .davg (if v1 > v2 then v1 else v2) (if v1 > v2 then v2 else v1) (1 / 2) by_

/-- `HashinShtrikmanWeightedCoefficient::Eval` (`coefficient.cpp:23-29`). -/
def hsEval [Field K] (val1 val2 weight : K) : K :=
  val2 * ((1 + weight) * val1 + (1 - weight) * val2) / ((1 - weight) * val1 + (1 + weight) * val2)

/-- `dHashinShtrikmanWeightedCoefficient::Eval` (`coefficient.cpp:36-42`). -/
def dhsEval [Field K] (val1 val2 weight : K) : K :=
  -(2 * val2 * (val2 - val1) * (val1 + val2)) /
    (val1 * (-weight) + val1 + val2 * weight + val2) ^ 2

/-- `WeightedAverageCoefficient::Eval` (`coefficient.cpp:49-53`). -/
def avgEval [Field K] (val1 val2 weight : K) : K := weight * val1 + (1 - weight) * val2

/-- `dWeightedAverageCoefficient::Eval` (`coefficient.cpp:60-64`). -/
def davgEval [Field K] (val1 val2 _weight : K) : K := val1 - val2

/-- `material_map.find(attr)` (e.g. `coefficient.cpp:96`). -/
def CMap.find (a : ℤ) : CMap K IP X D → Option (Coeff K IP X D)
  | .nil => none
  | .cons b c rest => if a = b then some c else rest.find a

section Eval
variable [Field K]
mutual
/-- Two-argument `Eval`: `StateCoefficient` forwards with state 0 (`coefficient.hpp:29-33`),
the weighted coefficients override it (`coefficient.cpp:23-64`), `MeshDependentCoefficient`
dispatches (`coefficient.cpp:90-112`).  `lam` is the static `lambda` (`coefficient.cpp:71`). -/
def Coeff.eval (lam : K) (l : Loc IP) (x : X) : Coeff K IP X D → K
  | .plain f _ => f l x
  | .state f _ _ _ => f l x 0
  | .hs v1 v2 w _ => hsEval v1 v2 w
  | .dhs v1 v2 w _ => dhsEval v1 v2 w
  | .avg v1 v2 w _ => avgEval v1 v2 w
  | .davg v1 v2 w _ => davgEval v1 v2 w
  | .contin lin nonlin => (1 - lam) * lin.eval lam l x + lam * nonlin.evalS lam l x 0
  | .mesh m d => m.eval lam l x (d.eval lam l x)
/-- The `find` dispatch of `MeshDependentCoefficient::Eval` (`coefficient.cpp:96-101`); `e` is the
value used when the attribute is not in the map. -/
def CMap.eval (lam : K) (l : Loc IP) (x : X) (e : K) : CMap K IP X D → K
  | .nil => e
  | .cons b c rest => if l.attr = b then c.eval lam l x else rest.eval lam l x e
/-- The default branch of the same (`coefficient.cpp:102-109`). -/
def COpt.eval (lam : K) (l : Loc IP) (x : X) : COpt K IP X D → K
  | .none => 0
  | .some c => c.eval lam l x
/-- Three-argument `Eval` (`coefficient.hpp:35-37`, `261-266`, `coefficient.cpp:73-80`, `114-153`);
a non-state coefficient is evaluated with the two-argument `Eval` as in the `dynamic_cast`
branches (`coefficient.cpp:125-133`, `137-145`). -/
def Coeff.evalS (lam : K) (l : Loc IP) (x : X) (s : K) : Coeff K IP X D → K
  | .plain f _ => f l x
  | .state f _ _ _ => f l x s
  | .hs v1 v2 w _ => hsEval v1 v2 w
  | .dhs v1 v2 w _ => dhsEval v1 v2 w
  | .avg v1 v2 w _ => avgEval v1 v2 w
  | .davg v1 v2 w _ => davgEval v1 v2 w
  | .contin lin nonlin => (1 - lam) * lin.eval lam l x + lam * nonlin.evalS lam l x s
  | .mesh m d => m.evalS lam l x s (d.evalS lam l x s)
/-- `find` dispatch of the three-argument `Eval` (`coefficient.cpp:121-134`). -/
def CMap.evalS (lam : K) (l : Loc IP) (x : X) (s : K) (e : K) : CMap K IP X D → K
  | .nil => e
  | .cons b c rest => if l.attr = b then c.evalS lam l x s else rest.evalS lam l x s e
/-- Default branch of the three-argument `Eval` (`coefficient.cpp:135-150`). -/
def COpt.evalS (lam : K) (l : Loc IP) (x : X) (s : K) : COpt K IP X D → K
  | .none => 0
  | .some c => c.evalS lam l x s
end

mutual
/-- `EvalStateDeriv` (`coefficient.hpp:268-273` and the like, `coefficient.cpp:82-88`, `155-193`);
0 for a non-state coefficient. -/
def Coeff.deriv (lam : K) (l : Loc IP) (x : X) (s : K) : Coeff K IP X D → K
  | .plain _ _ => 0
  | .state _ fd _ _ => fd l x s
  | .hs _ _ _ _ => 0
  | .dhs _ _ _ _ => 0
  | .avg _ _ _ _ => 0
  | .davg _ _ _ _ => 0
  | .contin _ nonlin => lam * nonlin.deriv lam l x s
  | .mesh m d => m.deriv lam l x s (d.deriv lam l x s)
/-- `find` dispatch of `EvalStateDeriv` (`coefficient.cpp:162-175`). -/
def CMap.deriv (lam : K) (l : Loc IP) (x : X) (s : K) (e : K) : CMap K IP X D → K
  | .nil => e
  | .cons b c rest => if l.attr = b then c.deriv lam l x s else rest.deriv lam l x s e
/-- Default branch of `EvalStateDeriv` (`coefficient.cpp:176-191`). -/
def COpt.deriv (lam : K) (l : Loc IP) (x : X) (s : K) : COpt K IP X D → K
  | .none => 0
  | .some c => c.deriv lam l x s
end

mutual
/-- `EvalState2ndDeriv` (`coefficient.hpp:43-48`: 0 unless overridden — none of the weighted
coefficients nor `ParameterContinuationCoefficient` overrides it; `coefficient.cpp:195-234`). -/
def Coeff.deriv2 (l : Loc IP) (x : X) (s : K) : Coeff K IP X D → K
  | .plain _ _ => 0
  | .state _ _ fdd _ => fdd l x s
  | .hs _ _ _ _ => 0
  | .dhs _ _ _ _ => 0
  | .avg _ _ _ _ => 0
  | .davg _ _ _ _ => 0
  | .contin _ _ => 0
  | .mesh m d => m.deriv2 l x s (d.deriv2 l x s)
/-- `find` dispatch of `EvalState2ndDeriv` (`coefficient.cpp:203-216`). -/
def CMap.deriv2 (l : Loc IP) (x : X) (s : K) (e : K) : CMap K IP X D → K
  | .nil => e
  | .cons b c rest => if l.attr = b then c.deriv2 l x s else rest.deriv2 l x s e
/-- Default branch of `EvalState2ndDeriv` (`coefficient.cpp:217-232`). -/
def COpt.deriv2 (l : Loc IP) (x : X) (s : K) : COpt K IP X D → K
  | .none => 0
  | .some c => c.deriv2 l x s
end

mutual
/-- `EvalRevDiff` with a state (`coefficient.cpp:12-21` aborts unless overridden,
`coefficient.hpp:275-280`: the weighted coefficients leave `PointMat_bar` alone,
`coefficient.cpp:257-292`). -/
def Coeff.rev (q : K) (l : Loc IP) (x : X) (s : K) (G : D) : Coeff K IP X D → Option D
  | .plain _ r => r q l x G
  | .state _ _ _ r => r q l x s G
  | .hs _ _ _ _ => some G
  | .dhs _ _ _ _ => some G
  | .avg _ _ _ _ => some G
  | .davg _ _ _ _ => some G
  | .contin _ _ => none
  | .mesh m d => m.rev q l x s G (d.rev q l x s G)
/-- `find` dispatch of `EvalRevDiff` (`coefficient.cpp:265-277`). -/
def CMap.rev (q : K) (l : Loc IP) (x : X) (s : K) (G : D) (e : Option D) :
    CMap K IP X D → Option D
  | .nil => e
  | .cons b c rest => if l.attr = b then c.rev q l x s G else rest.rev q l x s G e
/-- Default branch of `EvalRevDiff` (`coefficient.cpp:278-291`). -/
def COpt.rev (q : K) (l : Loc IP) (x : X) (s : K) (G : D) : COpt K IP X D → Option D
  | .none => some G
  | .some c => c.rev q l x s G
end

/-- State-less `EvalRevDiff`: `StateCoefficient` forwards with state 0
(`coefficient.hpp:50-56`), `MeshDependentCoefficient` overrides it by calling the state-less
method of the selected coefficient (`coefficient.cpp:236-255`), which forwards in turn. -/
def Coeff.rev0 (q : K) (l : Loc IP) (x : X) (G : D) (c : Coeff K IP X D) : Option D :=
  c.rev q l x 0 G
end Eval

mutual
/-- `setInputs` (`coefficient.cpp:31-34`, `44-47`, `55-58`, `66-69`, `294-312`;
`coefficient.hpp:64`: nothing by default, and `ParameterContinuationCoefficient` does not
forward it).  Entries are visited in order; an exception (`std::get` on a vector) leaves through. -/
def Coeff.setInputs (inp : Inputs K) : Coeff K IP X D → Out (Coeff K IP X D)
  | .plain f r => .ok (.plain f r)
  | .state f fd fdd r => .ok (.state f fd fdd r)
  | .hs v1 v2 w k => match setValueFromInputs inp k w false with
    | .ok w' => .ok (.hs v1 v2 w' k) | .badVariant => .badVariant
    | .misoException => .misoException | .ub => .ub
  | .dhs v1 v2 w k => match setValueFromInputs inp k w false with
    | .ok w' => .ok (.dhs v1 v2 w' k) | .badVariant => .badVariant
    | .misoException => .misoException | .ub => .ub
  | .avg v1 v2 w k => match setValueFromInputs inp k w false with
    | .ok w' => .ok (.avg v1 v2 w' k) | .badVariant => .badVariant
    | .misoException => .misoException | .ub => .ub
  | .davg v1 v2 w k => match setValueFromInputs inp k w false with
    | .ok w' => .ok (.davg v1 v2 w' k) | .badVariant => .badVariant
    | .misoException => .misoException | .ub => .ub
  | .contin lin nonlin => .ok (.contin lin nonlin)
  | .mesh m d => match m.setInputs inp with
    | .ok m' => match d.setInputs inp with
      | .ok d' => .ok (.mesh m' d')
      | .badVariant => .badVariant | .misoException => .misoException | .ub => .ub
    | .badVariant => .badVariant | .misoException => .misoException | .ub => .ub
/-- The loop over `material_map` (`coefficient.cpp:296-303`). -/
def CMap.setInputs (inp : Inputs K) : CMap K IP X D → Out (CMap K IP X D)
  | .nil => .ok .nil
  | .cons b c rest => match c.setInputs inp with
    | .ok c' => match rest.setInputs inp with
      | .ok rest' => .ok (.cons b c' rest')
      | .badVariant => .badVariant | .misoException => .misoException | .ub => .ub
    | .badVariant => .badVariant | .misoException => .misoException | .ub => .ub
/-- The default coefficient (`coefficient.cpp:304-311`). -/
def COpt.setInputs (inp : Inputs K) : COpt K IP X D → Out (COpt K IP X D)
  | .none => .ok .none
  | .some c => match c.setInputs inp with
    | .ok c' => .ok (.some c')
    | .badVariant => .badVariant | .misoException => .misoException | .ub => .ub
end

/-- `MeshDependentCoefficient::addCoefficient` (`coefficient.hpp:484-494`): `map::insert`, and
`mfem_error` (abort) if the key was present. -/
def CMap.add (m : CMap K IP X D) (a : ℤ) (c : Coeff K IP X D) : Option (CMap K IP X D) :=
  match m.find a with
  | some _ => none
  | none => some (.cons a c m)

/-! ## `constructMaterialCoefficient` (`coefficient.cpp:314-485`)

The JSON options are decoded into the shapes the function distinguishes. -/

/-- A component: `component.value("attr", -1)`, `component["attrs"]` and the material's name
(`coefficient.cpp:324-335`). -/
structure Component where
  attr : ℤ
  attrs : List ℤ
  material : String

/-- `materials[material_name][name]` (`coefficient.cpp:364-395`): a number, an object with
`materials` (an array of names, or something else: `none`), `weighted_by` and `weight`, or any
other JSON value. -/
inductive Prop' (K : Type)
  | num (v : K)
  | obj (mats : Option (List String)) (weightedBy weight : String)
  | other

/-- The `materials` object: material name ↦ property name ↦ value. coefficient.cpp:314-420. -/
abbrev Materials (K : Type) := String → Option (String → Option (Prop' K))

/-- Outcome of `constructMaterialCoefficient` (`coefficient.cpp:314-485`). -/
inductive Res (α : Type)
  | ok (a : α)
  /-- `MISOException` -/
  | misoException
  /-- `nlohmann::json::type_error` -/
  | typeError
  /-- `mfem_error`: the process aborts -/
  | abort
  /-- undefined behaviour: `operator[]` of a const JSON object with a missing key,
  `vals[1]` out of range -/
  | ub

/-- An exception or abort leaves the function (`coefficient.cpp:322-485`). -/
def Res.bind {α β : Type} : Res α → (α → Res β) → Res β
  | .ok a, f => f a
  | .misoException, _ => .misoException
  | .typeError, _ => .typeError
  | .abort, _ => .abort
  | .ub, _ => .ub

section Construct
variable [Field K] [LinearOrder K]

/-- `vals.push_back(materials[mat_name][name].get<double>())` for every name
(`coefficient.cpp:392-398`). -/
def readVals (mats : Materials K) (name : String) : List String → Res (List K)
  | [] => .ok []
  | m :: ms => match mats m with
    | none => .ub
    | some props => match props name with
      | none => .ub
      | some (.num v) => (readVals mats name ms).bind fun vs => .ok (v :: vs)
      | some _ => .typeError

/-- The `addCoefficient` calls of one component: `attr`, or every element of `attrs`
(`coefficient.cpp:370-383`, `411-428`, ...). -/
def addAll (m : CMap K IP X D) (c : Coeff K IP X D) : List ℤ → Res (CMap K IP X D)
  | [] => .ok m
  | a :: as => match m.add a c with
    | none => .abort
    | some m' => addAll m' c as

/-- Attributes a component covers (`coefficient.cpp:370-383`). -/
def Component.targets (c : Component) : List ℤ := if c.attr ≠ -1 then [c.attr] else c.attrs

/-- The coefficient for one component (`coefficient.cpp:362-482`): `none` = nothing registered.
`default_val` only reaches `materials[..].value(name, default_val)` (line 368), where the key is
known to be present. -/
def materialCoeff (name : String) (mats : Materials K) (comp : Component) (_default : K) :
    Res (Option (Coeff K IP X D)) :=
  match mats comp.material with
  | none => .ub
  | some props => match props name with
    | none => .ok none
    | some (.num v) => .ok (some (.plain (fun _ _ => v) (fun _ _ _ G => some G)))
    | some (.obj none _ _) => .misoException
    | some (.obj (some names) wby weight) =>
      (readVals mats name names).bind fun vals =>
        if weight = "Hashin-Shtrikman" then
          match vals with | v0 :: v1 :: _ => .ok (some (mkHS v0 v1 wby)) | _ => .ub
        else if weight = "dHashin-Shtrikman" then
          match vals with | v0 :: v1 :: _ => .ok (some (mkDHS v0 v1 wby)) | _ => .ub
        else if weight = "average" then
          match vals with | v0 :: v1 :: _ => .ok (some (mkAvg v0 v1 wby)) | _ => .ub
        else if weight = "daverage" then
          match vals with | v0 :: v1 :: _ => .ok (some (mkDAvg v0 v1 wby)) | _ => .ub
        else .ok none
    | some .other => .ok none

/-- The loop over `components` (`coefficient.cpp:322-483`).  Simplification: a composite with
fewer than two constituents and an empty `attrs` list is `ub` here although the program would not
touch `vals`. -/
def constructLoop (name : String) (mats : Materials K) (dflt : K) :
    List Component → CMap K IP X D → Res (CMap K IP X D)
  | [], m => .ok m
  | c :: cs, m => (materialCoeff name mats c dflt).bind fun oc => match oc with
    | none => constructLoop name mats dflt cs m
    | some co => (addAll m co c.targets).bind fun m' => constructLoop name mats dflt cs m'

/-- `constructMaterialCoefficient` (`coefficient.cpp:314-485`). -/
def constructMaterial (name : String) (comps : List Component) (mats : Materials K) (dflt : K) :
    Res (Coeff K IP X D) :=
  (constructLoop name mats dflt comps .nil).bind fun m => .ok (.mesh m .none)

/-- One component of `constructMaterialTwoStateCoefficient` (`coefficient.cpp:864-903`) for
properties other than `ks`, `alpha`, `beta`: `materials[m].value(name, default_val)`; a present
value that is not a number is a `type_error`. -/
def twoStateVal (name : String) (mats : Materials K) (comp : Component) (dflt : K) : Res K :=
  match mats comp.material with
  | none => .ub
  | some props => match props name with
    | none => .ok dflt
    | some (.num v) => .ok v
    | some _ => .typeError

/-- The loop of `constructMaterialTwoStateCoefficient` (`coefficient.cpp:864-904`) and
`constructMaterialThreeStateCoefficient` (`coefficient.cpp:1593-1633`, the same text). -/
def twoStateLoop (name : String) (mats : Materials K) (dflt : K) :
    List Component → CMap K IP X D → Res (CMap K IP X D)
  | [], m => .ok m
  | c :: cs, m => (twoStateVal name mats c dflt).bind fun v =>
    (addAll m (.plain (fun _ _ => v) (fun _ _ _ G => some G)) c.targets).bind fun m' =>
      twoStateLoop name mats dflt cs m'

/-- `constructMaterialTwoStateCoefficient` (`coefficient.cpp:854-905`). -/
def constructMaterialTwo (name : String) (comps : List Component) (mats : Materials K) (dflt : K) :
    Res (Coeff K IP X D) :=
  (twoStateLoop name mats dflt comps .nil).bind fun m => .ok (.mesh m .none)
end Construct

/-! ## Vector coefficients -/

mutual
/-- Vector coefficients with `ι` components: any non-state `VectorCoefficient`, any
`VectorStateCoefficient` (`coefficient.hpp:1171-1208`), `VectorMeshDependentStateCoefficient`
(`coefficient.hpp:1214-1297`) and `ScalarVectorProductCoefficient` (`coefficient.hpp:1301-1336`). -/
inductive VCoeff (K IP X D ι : Type)
  | plain (f : Loc IP → X → ι → K) (rev : (ι → K) → Loc IP → X → D → Option D)
  | state (f fd : Loc IP → X → K → ι → K) (rev : (ι → K) → Loc IP → X → K → D → Option D)
  | prod (a : Coeff K IP X D) (b : VCoeff K IP X D ι)
  | mesh (map : VMap K IP X D ι) (dflt : VOpt K IP X D ι)
/-- `material_map` of `VectorMeshDependentStateCoefficient` (`coefficient.hpp:1295-1296`). -/
inductive VMap (K IP X D ι : Type)
  | nil
  | cons (attr : ℤ) (c : VCoeff K IP X D ι) (rest : VMap K IP X D ι)
/-- Its `default_coeff` (`coefficient.hpp:1294`): possibly null. -/
inductive VOpt (K IP X D ι : Type)
  | none
  | some (c : VCoeff K IP X D ι)
end

section VEval
variable {ι : Type} [Field K]

mutual
/-- Three-argument vector `Eval` (`coefficient.hpp:1176-1181`, `coefficient.cpp:1857-1881` for
state 0): `Eval(V, T, ip)` of `ScalarVectorProductCoefficient` (`coefficient.cpp:2004-2011`). -/
def VCoeff.eval (lam : K) (l : Loc IP) (x : X) : VCoeff K IP X D ι → ι → K
  | .plain f _ => f l x
  | .state f _ _ => f l x 0
  | .prod a b =>
    let sa := a.eval lam l x
    let V := b.eval lam l x
    fun i => V i * sa
  | .mesh m d => m.eval lam l x (d.eval lam l x)
/-- `find` dispatch (`coefficient.cpp:1865-1873`). -/
def VMap.eval (lam : K) (l : Loc IP) (x : X) (e : ι → K) : VMap K IP X D ι → ι → K
  | .nil => e
  | .cons b c rest => if l.attr = b then c.eval lam l x else rest.eval lam l x e
/-- Default branch (`coefficient.cpp:1874-1881`). -/
def VOpt.eval (lam : K) (l : Loc IP) (x : X) : VOpt K IP X D ι → ι → K
  | .none => fun _ => 0
  | .some c => c.eval lam l x
end

mutual
/-- Vector `Eval` with a state (`coefficient.cpp:1883-1922`, `2013-2037`). -/
def VCoeff.evalS (lam : K) (l : Loc IP) (x : X) (s : K) : VCoeff K IP X D ι → ι → K
  | .plain f _ => f l x
  | .state f _ _ => f l x s
  | .prod a b =>
    let V := b.evalS lam l x s
    fun i => V i * a.evalS lam l x s
  | .mesh m d => m.evalS lam l x s (d.evalS lam l x s)
/-- `find` dispatch (`coefficient.cpp:1892-1904`). -/
def VMap.evalS (lam : K) (l : Loc IP) (x : X) (s : K) (e : ι → K) : VMap K IP X D ι → ι → K
  | .nil => e
  | .cons b c rest => if l.attr = b then c.evalS lam l x s else rest.evalS lam l x s e
/-- Default branch (`coefficient.cpp:1905-1921`). -/
def VOpt.evalS (lam : K) (l : Loc IP) (x : X) (s : K) : VOpt K IP X D ι → ι → K
  | .none => fun _ => 0
  | .some c => c.evalS lam l x s
end

mutual
/-- Vector `EvalStateDeriv` (`coefficient.cpp:1924-1963`, `2039-2083`).  In the product `W` holds
`b`, `W_bar` holds `b'`; `W_bar *= a`, `W *= a'` (0 for a non-state `a`), and the sum is returned. -/
def VCoeff.deriv (lam : K) (l : Loc IP) (x : X) (s : K) : VCoeff K IP X D ι → ι → K
  | .plain _ _ => fun _ => 0
  | .state _ fd _ => fd l x s
  | .prod a b =>
    let W := b.evalS lam l x s
    let Wbar := b.deriv lam l x s
    fun i => 0 + W i * a.deriv lam l x s + Wbar i * a.evalS lam l x s
  | .mesh m d => m.deriv lam l x s (d.deriv lam l x s)
/-- `find` dispatch (`coefficient.cpp:1932-1944`). -/
def VMap.deriv (lam : K) (l : Loc IP) (x : X) (s : K) (e : ι → K) : VMap K IP X D ι → ι → K
  | .nil => e
  | .cons b c rest => if l.attr = b then c.deriv lam l x s else rest.deriv lam l x s e
/-- Default branch (`coefficient.cpp:1945-1962`). -/
def VOpt.deriv (lam : K) (l : Loc IP) (x : X) (s : K) : VOpt K IP X D ι → ι → K
  | .none => fun _ => 0
  | .some c => c.deriv lam l x s
end

variable [Fintype ι]

mutual
/-- Vector `EvalRevDiff` with a state (`coefficient.cpp:1965-2002`, `2085-2145`): in the product
`W_bar = a * V_bar` goes through `b`, then `V_bar · b` through `a`, both accumulating into the
same `PointMat_bar`. -/
def VCoeff.rev (lam : K) (vbar : ι → K) (l : Loc IP) (x : X) (s : K) (G : D) :
    VCoeff K IP X D ι → Option D
  | .plain _ r => r vbar l x G
  | .state _ _ r => r vbar l x s G
  | .prod a b =>
    let W := b.evalS lam l x s
    let aval := a.evalS lam l x s
    let Wbar : ι → K := fun i => 0 + aval * vbar i
    match b.rev lam Wbar l x s G with
    | none => none
    | some G1 => a.rev (∑ i, vbar i * W i) l x s G1
  | .mesh m d => m.rev lam vbar l x s G (d.rev lam vbar l x s G)
/-- `find` dispatch (`coefficient.cpp:1974-1986`). -/
def VMap.rev (lam : K) (vbar : ι → K) (l : Loc IP) (x : X) (s : K) (G : D) (e : Option D) :
    VMap K IP X D ι → Option D
  | .nil => e
  | .cons b c rest => if l.attr = b then c.rev lam vbar l x s G
    else rest.rev lam vbar l x s G e
/-- Default branch (`coefficient.cpp:1987-2001`). -/
def VOpt.rev (lam : K) (vbar : ι → K) (l : Loc IP) (x : X) (s : K) (G : D) :
    VOpt K IP X D ι → Option D
  | .none => some G
  | .some c => c.rev lam vbar l x s G
end
end VEval

end Verif.Coefficients
