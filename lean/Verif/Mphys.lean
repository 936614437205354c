import Verif.PyLayer

/-!
# Wiring of an MPhys scenario (`miso/mphys/miso_builder.py`, `miso/miso_state.py`, `miso/miso_output.py`)

`MISOBuilder` hands MPhys four groups; MPhys promotes the pre-coupling, coupling and post-coupling groups of a scenario to one level.
OpenMDAO (not in /repo) then connects an input to the output of the same promoted name, refuses two outputs of one name, two inputs
(or an input and an output) of one name in one component and two subsystems of one name in one group, and gives an input that nothing
feeds its initial value, 1 in every entry unless `val` was given.  `Option`: `none` is an exception.
-/

namespace Verif.Mphys

/-- The warper the builder was asked for: none, MISO's own, or `"idwarp"`. miso_builder.py:187-192. -/
inductive Warper
  | off
  | miso
  | idwarp
deriving DecidableEq

/-- A key of the `outputs` dictionary with the functional's `depends` (absent = empty): a name, or a pair (name shown, functional).
miso_builder.py:98-117. -/
structure Out where
  prom : String
  func : String
  depends : List String

/-- The arguments of `MISOBuilder` that matter here, miso_builder.py:170-178; `type` is `options["solver-type"]["type"]`. -/
structure Builder where
  type : String
  inputs : List String
  warper : Warper
  outputs : List Out

/-- A variable of a component and the name it is promoted to; `val` tells whether `add_input` was given an initial value.
miso_builder.py:42-48, 71-75, 118-124. -/
structure Port where
  comp : String
  var : String
  prom : String
  out : Bool
  val : Bool := false
deriving DecidableEq

/-- The attribute `self.warper` after `initialize`: missing for `"idwarp"`, miso_builder.py:187-192. -/
def warperAttr (w : Warper) : Option (Option Unit) :=
  match w with
  | .off => some none
  | .miso => some (some ())
  | .idwarp => none

/-- `add_input`/`add_output` refuse a second variable of the same name in one component. miso_state.py:74-123, miso_output.py:27-91. -/
def component (ps : List Port) : Option (List Port) := if (ps.map (·.var)).Nodup then some ps else none

/-- `get_mesh_coordinate_subsystem`, miso_builder.py:128-168, 200-203: the initial surface coordinates; without MISO's warper a
`NotImplementedError`. -/
def meshGroup (b : Builder) : Option (List Port) := do
  let w ← warperAttr b.warper
  let name ← Py.meshInit b.type
  match w with
  | some _ => some [⟨"mesh", name, name, true, true⟩]
  | none => none

/-- `get_pre_coupling_subsystem`, miso_builder.py:50-75, 205-208, with `MISOMeshWarper.setup` (mesh_warper.py:27-38). -/
def preGroup (b : Builder) : Option (List Port) := do
  let w ← warperAttr b.warper
  let i ← Py.meshSurf b.type
  let o ← Py.meshVol b.type
  match w with
  | some _ => component [⟨"mesh_warper", "surf_mesh_coords", i, false, true⟩, ⟨"mesh_warper", "vol_mesh_coords", o, true, true⟩]
  | none => some []

/-- `get_coupling_group_subsystem`, miso_builder.py:25-48, 194-198, with `MISOState.setup` (miso_state.py:66-126). -/
def couplingGroup (b : Builder) : Option (List Port) := do
  let m ← Py.meshVol b.type
  let s ← Py.stateName b.type
  component ([⟨"state", "mesh_coords", m, false, false⟩] ++ b.inputs.map (fun i => ⟨"state", i, i, false, false⟩) ++
    [⟨"state", "state", s, true, true⟩])

/-- The name a functional's input is promoted to, miso_builder.py:92-97, 117. -/
def promoted (m s i : String) : String := if i = "mesh_coords" then m else if i = "state" then s else i

/-- One functional of the outputs group, miso_builder.py:98-124, with `MISOFunctional.setup` (miso_output.py:16-93). -/
def functional (m s : String) (o : Out) : Option (List Port) :=
  component (o.depends.map (fun i => ⟨o.prom, i, promoted m s i, false, false⟩) ++ [⟨o.prom, o.func, o.prom, true, false⟩])

/-- All functionals, in order. miso_builder.py:98-124. -/
def functionals (m s : String) : List Out → Option (List Port)
  | [] => some []
  | o :: os => do
    let a ← functional m s o
    let r ← functionals m s os
    some (a ++ r)

/-- `get_post_coupling_subsystem`, miso_builder.py:77-124, 210-214.  (`createOutput`'s own refusals are `Py.setupOutputs`.) -/
def outputsGroup (b : Builder) : Option (List Port) := do
  let m ← Py.meshVol b.type
  let s ← Py.stateName b.type
  if (b.outputs.map (·.prom)).Nodup then functionals m s b.outputs else none

/-- The scenario: the three groups on one level (MPhys, OpenMDAO; the groups of miso_builder.py:194-214). -/
def scenario (b : Builder) : Option (List Port) := do
  let p ← preGroup b
  let c ← couplingGroup b
  let o ← outputsGroup b
  let ps := p ++ c ++ o
  if ((ps.filter (·.out)).map (·.prom)).Nodup then some ps else none

/-- The output an input reads (OpenMDAO; names from miso_builder.py:42-48, 71-75, 118-124). -/
def source (ps : List Port) (p : Port) : Option Port := ps.find? fun q => q.out && q.prom == p.prom

/-- What an input holds at run time: the value of its source; without one its initial value (`val`, or 1). OpenMDAO; the calls of
`add_input` are miso_state.py:77-96, miso_output.py:37-75. -/
def read {K : Type} [One K] (outVal : Port → ℕ → K) (initVal : Port → ℕ → K) (ps : List Port) (p : Port) : ℕ → K :=
  match source ps p with
  | some q => outVal q
  | none => if p.val then initVal p else fun _ => 1

end Verif.Mphys
