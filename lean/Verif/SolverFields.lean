import Verif.PdeSetup

/-! # The fields of a magnetostatic and of a thermal solver (C240)

Models of the part of the two constructors that sets up fields: magnetostatic.cpp:86-115, thermal.cpp:28-30. -/

namespace Verif.PdeSetup
open Verif.Options

/-- The fields of a solver, and for each the value that all its dofs hold, where it is known.  magnetostatic.cpp:86-115. -/
structure FieldSet where
  space : String → Option Space
  value : String → Option ℝ

/-- Fields a `PDESolver` starts with: all hold zero but the mesh coordinates (finite_element_vector.cpp:52,
pde_solver.cpp:424-442). -/
noncomputable def startFields (f : String → Option Space) : FieldSet :=
  ⟨f, fun n => if n = "mesh_coords" then none else (f n).map fun _ => 0⟩

/-- `fields.emplace(n, …)` with a field that holds zero, magnetostatic.cpp:88-94, 114-116; thermal.cpp:28-30. -/
noncomputable def FieldSet.emplace (f : FieldSet) (n : String) (s : Space) : FieldSet :=
  match f.space n with
  | some _ => f
  | none => ⟨PdeSetup.emplace f.space n s, Function.update f.value n (some 0)⟩

/-- `temp.gridFunc() = 273.15`, magnetostatic.cpp:95-96. -/
noncomputable def FieldSet.setAll (f : FieldSet) (n : String) (x : ℝ) : FieldSet := ⟨f.space, Function.update f.value n (some x)⟩

/-- `dg_field_options`, magnetostatic.cpp:110-113: the degree of the state, discontinuous. -/
def dgOptions (o : SpaceOpts) : SpaceOpts := ⟨o.degree, some "DG", none⟩

/-- Fields after the `MagnetostaticSolver` constructor, magnetostatic.cpp:76-116. -/
noncomputable def magnetostaticFields (o : SpaceOpts) (mesh : Space) (dim : ℕ) (ext : List External) : Option FieldSet :=
  match solverFields o 1 mesh dim ext with
  | none => none
  | some f =>
    let f := startFields f
    let f := if f.space "temperature" = none then f.emplace "temperature" (mkSpace none 1 1 dim) else f
    let f := f.setAll "temperature" 273.15
    match fieldSpace (dgOptions o) 1 dim with
    | none => none
    | some d => some ((f.emplace "flux_magnitude" d).emplace "peak_flux" d)

/-- Fields after the `ThermalSolver` constructor, thermal.cpp:17-30: the load lives on a copy of the state's space. -/
noncomputable def thermalFields (o : SpaceOpts) (mesh : Space) (dim : ℕ) (ext : List External) : Option FieldSet :=
  match solverFields o 1 mesh dim ext with
  | none => none
  | some f => match f "state" with
    | none => none
    | some s => some ((startFields f).emplace "thermal_load" (copySpace s))

end Verif.PdeSetup
