import Verif.Diffusion
import Verif.DGDiffusion
import Verif.ThermalFaces

/-!
# The thermal residual as built from the options

`ThermalResidual::ThermalResidual` (src/physics/thermal/thermal_residual.cpp:159-370), the form it fills
(src/physics/miso_nonlinearform.hpp:215-343) and the inputs of its integrators
(src/physics/thermal/thermal_integ.cpp:341-352, 813-826, thermal_integ.hpp:720-725, 916-919).

The element and face integrals are those of `Diffusion`, `DGDiffusion` and `ThermalFaces`.

MFEM semantics assumed: a domain integrator runs over all elements; an interior face integrator over all
interior faces; a boundary face integrator over the boundary elements with a marked attribute that lie on the
outer boundary; an internal boundary face integrator over the boundary elements with a marked attribute that
lie on interior faces; each local vector is added into the global one.

Simplifications: one rank; the strong boundary conditions (`NonlinearForm`) and the load (`Thermal`) are
elsewhere; attributes lie in the range of the mesh (C27); `bcs` missing is the same as all its entries missing.
-/

namespace Verif.ThermalAssembly

open Verif.Sbp Verif.Dense Verif.Diffusion Verif.DGDiffusion Verif.ThermalFaces

/-! ### Options -/

/-- The JSON value of a boundary condition: an array of attributes, an object with attributes and two
optional numbers, or anything else (thermal_residual.cpp:209-219, 230-239). -/
inductive BcJson where
  | arr (attrs : List ℤ)
  | obj (attrs : List ℤ) (v1 v2 : Option ℝ)
  | other

/-- One named entry of `interfaces`, thermal_residual.cpp:307-311, 327, 351-352. -/
structure Iface where
  name : String
  attrs : List ℤ
  h : ℝ
  fluidTemp : ℝ

/-- The options read by the constructor, thermal_residual.cpp:177-302. -/
structure Opts where
  basis : String
  sipg : Option ℝ
  degree : ℝ
  convection : Option BcJson
  outflux : Option BcJson
  essential : Option BcJson
  weakEssential : Option BcJson
  interfaces : List (String × List Iface)

/-- An integrator of the form, with the attributes it is restricted to. thermal_residual.cpp:159-370. -/
inductive Item where
  | domain
  | interior (mu : ℝ)
  | bdrConvection (h theta : ℝ) (attrs : List ℤ)
  | bdrOutflux (flux : ℝ) (attrs : List ℤ)
  | bdrDirichlet (mu : ℝ) (attrs : List ℤ)
  | faceDiffusion (mu alpha : ℝ) (attrs : List ℤ)
  | contact (h : ℝ) (name : String) (attrs : List ℤ)
  | faceConvection (h theta : ℝ) (name : String) (attrs : List ℤ)

/-- The test of the basis type, thermal_residual.cpp:180-181, 249-250. -/
def isDG (basis : String) : Bool := basis == "L2" || basis == "l2" || basis == "DG" || basis == "dg"

open Classical in
/-- The penalty, thermal_residual.cpp:183-188, 265-270, 290-295, 313-318, 340-345. -/
noncomputable def penalty (o : Opts) : ℝ :=
  let mu := o.sipg.getD (-1)
  if mu < 0 then (o.degree + 1) ^ 2 else mu

/-- Attributes of a convection or outflux entry, thermal_residual.cpp:206-216, 228-237: anything but an array
or an object leaves the list empty. -/
def BcJson.attrs : BcJson → List ℤ
  | .arr a => a
  | .obj a _ _ => a
  | .other => []

/-- First number of the entry, default `1.0`: thermal_residual.cpp:207, 216, 229, 238. -/
def BcJson.first : BcJson → ℝ
  | .obj _ v _ => v.getD 1
  | _ => 1

/-- Second number of the entry, default `1.0`: thermal_residual.cpp:208, 217. -/
def BcJson.second : BcJson → ℝ
  | .obj _ _ v => v.getD 1
  | _ => 1

/-- Entries of the weak Dirichlet conditions, thermal_residual.cpp:252-277, 281-301: only arrays. -/
def dirichletItems (mu : ℝ) : BcJson → Option (List Item)
  | .arr a => some [.bdrDirichlet mu a]
  | _ => none

/-- The two integrators of one interface, thermal_residual.cpp:307-336, 337-368. -/
def ifaceItems (mu : ℝ) (kind : String) (i : Iface) : List Item :=
  if kind = "thermal_contact_resistance" then [.faceDiffusion mu (-1) i.attrs, .contact i.h i.name i.attrs]
  else if kind = "convection" then [.faceDiffusion mu (-1) i.attrs, .faceConvection i.h i.fluidTemp i.name i.attrs]
  else []

/-- `ThermalResidual::ThermalResidual`, thermal_residual.cpp:159-370; `none` is a `MISOException`. -/
noncomputable def construct (o : Opts) : Option (List Item) := do
  let mu := penalty o
  let dg := isDG o.basis
  let dom : List Item := [.domain]
  let int : List Item := if dg then [.interior mu] else []
  let conv : List Item := (o.convection.map fun j => Item.bdrConvection j.first j.second j.attrs).toList
  let out : List Item := (o.outflux.map fun j => Item.bdrOutflux j.first j.attrs).toList
  let ess ← match o.essential with
    | none => some []
    | some j => if dg then dirichletItems mu j else some []
  let weak ← match o.weakEssential with
    | none => some []
    | some j => dirichletItems mu j
  let ifs : List Item := o.interfaces.flatMap fun k => k.2.flatMap (ifaceItems mu k.1)
  some (dom ++ int ++ conv ++ out ++ ess ++ weak ++ ifs)

/-! ### Inputs -/

/-- The name under which an interface looks for a value, thermal_integ.cpp:344-351, 816-825. -/
def key (what name : String) : String := if name = "" then what else what ++ ":" ++ name

/-- `setInputs` of the integrators, thermal_integ.cpp:341-352, 813-826, thermal_integ.hpp:720-725, 916-919. -/
def Item.setInputs (inp : String → Option ℝ) : Item → Item
  | .bdrConvection h t a => .bdrConvection ((inp "h").getD h) ((inp "fluid_temp").getD t) a
  | .bdrOutflux q a => .bdrOutflux ((inp "outflux").getD q) a
  | .contact h n a => .contact ((inp (key "h" n)).getD h) n a
  | .faceConvection h t n a => .faceConvection ((inp (key "h" n)).getD h) ((inp (key "fluid_temp" n)).getD t) n a
  | i => i

/-! ### The discretised domain -/

variable {P : Type*} {N dim : ℕ}

/-- An element: its degrees of freedom, quadrature points, and conductivity (`Diffusion.elemVec`). MFEM mesh (not in /repo), looped over by miso_nonlinearform.cpp:62-70. -/
structure Cell (N dim : ℕ) where
  nd : ℕ
  dof : Fin nd → Fin N
  n : ℕ
  pt : ℕ → QPt nd dim
  nu : ℕ → ℝ → ℝ

/-- An interior face; `attr` is the attribute of the boundary element on it, if there is one. MFEM mesh (not in /repo), looped over by miso_nonlinearform.cpp:62-70. -/
structure IFace (P : Type*) (N dim : ℕ) where
  nd1 : ℕ
  nd2 : ℕ
  dof1 : Fin nd1 → Fin N
  dof2 : Fin nd2 → Fin N
  attr : Option ℤ
  n : ℕ
  f : ℕ → FaceP P dim
  s1 : ℕ → Side P nd1 dim
  s2 : ℕ → Side P nd2 dim
  rule : ℕ → FRule nd1 nd2
  p1 : ℕ
  p2 : ℕ
  ow : ℕ

/-- A face of the outer boundary. MFEM mesh (not in /repo), looped over by miso_nonlinearform.cpp:62-70. -/
structure BFace (P : Type*) (N dim : ℕ) where
  nd : ℕ
  dof : Fin nd → Fin N
  attr : ℤ
  n : ℕ
  f : ℕ → FaceP P dim
  s : ℕ → Side P nd dim
  g : ℕ → ℝ
  rule : ℕ → BRule nd
  p : ℕ
  ow : ℕ

/-- The mesh with the conductivity used on faces. MFEM mesh (not in /repo), looped over by miso_nonlinearform.cpp:62-70. -/
structure Mesh (P : Type*) (N dim : ℕ) where
  cells : List (Cell N dim)
  ifaces : List (IFace P N dim)
  bfaces : List (BFace P N dim)
  kappa : P → ℝ → ℝ

/-- `AddElementVector(vdofs, elvect)` into a zero vector (MFEM). Behind miso_nonlinearform.cpp:62-70. -/
def scatter {nd : ℕ} (dof : Fin nd → Fin N) (v : Vec nd) : Vec N := fun i => ∑ r, if dof r = i then v r else 0

/-- `GetSubVector(vdofs, elfun)` (MFEM). Behind miso_nonlinearform.cpp:62-70. -/
def gather {nd : ℕ} (dof : Fin nd → Fin N) (u : Vec N) : Vec nd := fun r => u (dof r)

/-- The two parts of a face vector go to the two elements (MFEM). Behind miso_nonlinearform.cpp:62-70. -/
def scatter2 {nd1 nd2 : ℕ} (dof1 : Fin nd1 → Fin N) (dof2 : Fin nd2 → Fin N) (v : Vec nd1 × Vec nd2) : Vec N :=
  fun i => scatter dof1 v.1 i + scatter dof2 v.2 i

/-- Sum of the contributions of a list of entities. Behind miso_nonlinearform.cpp:62-70. -/
def assemble {α : Type*} (l : List α) (f : α → Vec N) : Vec N := fun i => (l.map fun a => f a i).sum

/-- Is the interior face one of the marked internal boundaries? (miso_nonlinearform.hpp:327-330) -/
def IFace.marked (F : IFace P N dim) (attrs : List ℤ) : Bool :=
  match F.attr with
  | some a => attrs.contains a
  | none => false

/-- Is the boundary face marked? (miso_nonlinearform.hpp:290-294) -/
def BFace.marked (F : BFace P N dim) (attrs : List ℤ) : Bool := attrs.contains F.attr

/-- The interior penalty terms of one face (electromag_integ.cpp, `DGInteriorFaceDiffusionIntegrator`). -/
noncomputable def IFace.diffusion (F : IFace P N dim) (kappa : P → ℝ → ℝ) (alpha mu : ℝ) (u : Vec N) : Vec N :=
  scatter2 F.dof1 F.dof2 (intVec alpha mu kappa F.n F.f F.s1 F.s2 (gather F.dof1 u) (gather F.dof2 u))

/-- The contribution of an integrator to the residual, `mfem::ParNonlinearForm::Mult` through
src/physics/miso_nonlinearform.cpp:62-70. -/
noncomputable def Item.vec (M : Mesh P N dim) (u : Vec N) : Item → Vec N
  | .domain => assemble M.cells fun c => scatter c.dof (elemVec 1 c.nu c.n c.pt (gather c.dof u))
  | .interior mu => assemble M.ifaces fun F => F.diffusion M.kappa 1 mu u
  | .bdrConvection h t a => assemble (M.bfaces.filter (·.marked a)) fun B =>
      scatter B.dof (bcVec 1 h t B.rule B.p B.ow (gather B.dof u))
  | .bdrOutflux q a => assemble (M.bfaces.filter (·.marked a)) fun B =>
      scatter B.dof (outVec 1 q B.rule B.p B.ow (gather B.dof u))
  | .bdrDirichlet mu a => assemble (M.bfaces.filter (·.marked a)) fun B =>
      scatter B.dof (bndVec 1 mu M.kappa B.n B.f B.s B.g (gather B.dof u))
  | .faceDiffusion mu alpha a => assemble (M.ifaces.filter (·.marked a)) fun F => F.diffusion M.kappa alpha mu u
  | .contact h _ a => assemble (M.ifaces.filter (·.marked a)) fun F =>
      scatter2 F.dof1 F.dof2 (contactVec 1 h F.rule F.p1 F.p2 F.ow (gather F.dof1 u) (gather F.dof2 u))
  | .faceConvection h t _ a => assemble (M.ifaces.filter (·.marked a)) fun F =>
      scatter2 F.dof1 F.dof2 (convVec 1 h t F.rule F.p1 F.p2 F.ow (gather F.dof1 u) (gather F.dof2 u))

/-- `evaluate` without essential rows and load: the sum over the integrators. miso_nonlinearform.cpp:62-70. -/
noncomputable def residual (M : Mesh P N dim) (items : List Item) (u : Vec N) : Vec N :=
  assemble items fun i => i.vec M u

end Verif.ThermalAssembly
