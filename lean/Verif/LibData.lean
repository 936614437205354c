import Verif.MatCoeffs
import Verif.CoreLoss

/-!
# The electromagnetic data of the shipped material library

`/repo/src/common/material_library.cpp`: the blocks `core_loss/CAL2` of Hiperco 50, `Demag` of
Nd2Fe14B and `conductivity/linear` of the wires, as the constructors of `MatCoeffs.lean` read them.
The decimals are taken as real numbers.
-/

namespace Verif.LibData
open Verif.MatCoeffs Verif.CoreLoss

/-- A JSON object given by its entries, material_library.cpp:115. -/
noncomputable def obj (l : List (String × Val)) : Obj := fun k => l.lookup k

/-- `materials["hiperco50"]["core_loss"]["CAL2"]`, material_library.cpp:115-138. -/
noncomputable def hiperco50Cal2 : Obj := obj
  [("T0", .num 293.15),
   ("kh_T0", .arr [0.0997091541786544, -0.129193571991623, 0.0900090637806644, -0.0212834836667556]),
   ("ke_T0", .arr [-5.93693970727006e-06, 0.000117138629373709, -0.000130355460369590, 4.10973552619398e-05]),
   ("T1", .num 473.15),
   ("kh_T1", .arr [0.0895406177349016, -0.0810594723247055, 0.0377588555136910, -0.00511339186996760]),
   ("ke_T1", .arr [1.79301614571386e-05, 7.45159671115992e-07, -1.19410662547280e-06, 3.53133402660246e-07])]

/-- `materials["Nd2Fe14B"]["Demag"]`, material_library.cpp:200-210. -/
noncomputable def ndDemag : Obj := obj
  [("T0", .num 293.15), ("alpha_B_r", .num (-0.12)), ("B_r_T0", .num 1.39), ("alpha_H_ci", .num (-0.57)),
   ("H_ci_T0", .num (-1273.0)), ("alpha_B_knee", .num 0.005522656), ("beta_B_knee", .num (-1.4442405898)),
   ("alpha_H_knee", .num 5.548346445), ("beta_H_knee", .num (-2571.4027913402))]

/-- `materials["Nd2Fe14B"]["max-temp"]`, material_library.cpp:196. -/
noncomputable def ndMaxTemp : ℝ := 583.15

/-- A block `conductivity/linear`, material_library.cpp:268-274. -/
noncomputable def linear (sigma Tref alpha : ℝ) : Obj :=
  obj [("sigma_T_ref", .num sigma), ("T_ref", .num Tref), ("alpha_resistivity", .num alpha)]

/-- The wires: the `linear` block and the constant `sigma`. material_library.cpp:243-278 (copper), 287-321
(aluminum), 330-364 (silver), 374-408 (magnesium), 417-451 (iron); names 478-494. -/
noncomputable def wires : List (String × Obj × ℝ) :=
  [("copperwire", linear 5.6497e7 293.15 3.8e-3, 58.14e6),
   ("aluminumwire", linear 3.77e7 293.15 4.31e-3, 3.77e7),
   ("silverwire", linear 6.3e7 293.15 3.82e-3, 6.3e7),
   ("magnesiumwire", linear 2.28e7 293.15 4.86e-3, 2.28e7),
   ("ironwire", linear 1.03e7 293.15 5.67e-3, 1.03e7)]

/-- The library as the CAL2 coefficients read it: no material has a key `"kh"` or `"ke"`.
cal2_kh_coefficient.cpp:216-225, material_library.cpp:8-494. -/
noncomputable def cal2Lib : Library :=
  ⟨fun _ => none, fun s => if s = "hiperco50" then hiperco50Cal2 else fun _ => none⟩

/-- As the demagnetization constraint reads it. pm_demag_constraint_coeff.cpp:171-284. -/
noncomputable def demagLib : Library :=
  ⟨fun _ => none, fun s => if s = "Nd2Fe14B" then ndDemag else fun _ => none⟩

/-- As the conductivity reads it. conductivity_coefficient.cpp:67-121. -/
noncomputable def condLib : Library :=
  ⟨fun s => (wires.lookup s).map (·.2), fun s => ((wires.lookup s).map (·.1)).getD fun _ => none⟩

/-- Density of Hiperco 50, material_library.cpp:143. -/
noncomputable def hiperco50Rho : ℝ := 8110

end Verif.LibData
