import Verif.Dense
import Verif.MatCoeffs
import Mathlib.Analysis.SpecialFunctions.Complex.Arg

/-!
# Magnetization and current-density source fields

The direction functions of `src/physics/electromagnetics/magnetic_source_functions.cpp` and
`current_source_functions.cpp`, their reverse passes (Adept), and the coefficient built from the options `magnets`.

`double` is ℝ; a division by zero (0/0 = NaN in every case here) is `none`.  Adept is modelled by the reverse sweep through
the statements that are executed: the branch conditions and `round` carry no derivative.  Positions have three components
(`x[2]` is not used by the magnets, so the two-dimensional case is the restriction to the first two).
-/

namespace Verif.Source

open Verif.Dense Verif.MatCoeffs

/-- A point or vector. magnetic_source_functions.cpp:13-31. -/
abbrev V3 := Vec 3

/-- `r / sqrt(r[0] * r[0] + r[1] * r[1])` for the in-plane vector `(p, q)`, magnetic_source_functions.cpp:20-26. -/
noncomputable def unit2 (p q : ℝ) : Option (ℝ × ℝ) :=
  let n := √(p * p + q * q)
  if n = 0 then none else some (p / n, q / n)

/-- Reverse sweep of `unit2`: `a`, `b` are the bars of the two results. Adept (not in /repo), behind magnetic_source_functions.cpp:155-178. -/
noncomputable def unit2Bar (p q a b : ℝ) : Option (ℝ × ℝ) :=
  let n := √(p * p + q * q)
  if n = 0 then none
  else
    let nBar := -a * p / (n * n) - b * q / (n * n)
    let sBar := nBar / (2 * n)
    some (a / n + 2 * p * sBar, b / n + 2 * q * sBar)

/-- `north_magnetization`, magnetic_source_functions.cpp:13-31. -/
noncomputable def north (x : V3) : Option V3 := (unit2 (x 0) (x 1)).map fun r => ![r.1, r.2, 0]
/-- `south_magnetization`, magnetic_source_functions.cpp:33-51. -/
noncomputable def south (x : V3) : Option V3 := (unit2 (x 0) (x 1)).map fun r => ![-r.1, -r.2, 0]
/-- `cw_magnetization`, magnetic_source_functions.cpp:53-71. -/
noncomputable def cw (x : V3) : Option V3 := (unit2 (x 0) (x 1)).map fun r => ![-r.2, r.1, 0]
/-- `ccw_magnetization`, magnetic_source_functions.cpp:73-91. -/
noncomputable def ccw (x : V3) : Option V3 := (unit2 (x 0) (x 1)).map fun r => ![r.2, -r.1, 0]
/-- `x_axis_magnetization`, magnetic_source_functions.cpp:93-106; `x_axis_current`, current_source_functions.cpp:142-148. -/
def xAxis (_ : V3) : Option V3 := some ![1, 0, 0]
/-- `y_axis_magnetization`, magnetic_source_functions.cpp:108-121; `y_axis_current`, current_source_functions.cpp:150-156. -/
def yAxis (_ : V3) : Option V3 := some ![0, 1, 0]
/-- `z_axis_magnetization` for `vdim = 3`, magnetic_source_functions.cpp:123-137 (it aborts otherwise);
`z_axis_current`, current_source_functions.cpp:158-164. -/
def zAxis (_ : V3) : Option V3 := some ![0, 0, 1]

/-- `northMagnetizationSourceRevDiff`, magnetic_source_functions.cpp:155-178. -/
noncomputable def northRev (x b : V3) : Option V3 := (unit2Bar (x 0) (x 1) (b 0) (b 1)).map fun r => ![r.1, r.2, 0]
/-- `southMagnetizationSourceRevDiff`, magnetic_source_functions.cpp:197-239. -/
noncomputable def southRev (x b : V3) : Option V3 := (unit2Bar (x 0) (x 1) (-b 0) (-b 1)).map fun r => ![r.1, r.2, 0]
/-- `cwMagnetizationSourceRevDiff`, magnetic_source_functions.cpp:258-300. -/
noncomputable def cwRev (x b : V3) : Option V3 := (unit2Bar (x 0) (x 1) (b 1) (-b 0)).map fun r => ![r.1, r.2, 0]
/-- `ccwMagnetizationSourceRevDiff`, magnetic_source_functions.cpp:319-354. -/
noncomputable def ccwRev (x b : V3) : Option V3 := (unit2Bar (x 0) (x 1) (-b 1) (b 0)).map fun r => ![r.1, r.2, 0]
/-- The reverse passes of the constant fields, magnetic_source_functions.cpp:372-394,413-430,449-471. -/
def axisRev (_ _ : V3) : Option V3 := some 0

/-! ### Currents -/

/-- `z_axis_current<double, -1>`, current_source_functions.cpp:158-164,486-489. -/
def nzAxis (_ : V3) : Option V3 := some ![0, 0, -1]

/-- `ring_current`, current_source_functions.cpp:166-182. -/
noncomputable def ring (x : V3) : Option V3 := (unit2 (x 0) (x 1)).map fun r => ![-r.2, r.1, 0]
/-- `ringCurrentSourceRevDiff`, current_source_functions.cpp:518-539. -/
noncomputable def ringRev (x b : V3) : Option V3 := (unit2Bar (x 0) (x 1) (b 1) (-b 0)).map fun r => ![r.1, r.2, 0]

/-- `box1_current`, current_source_functions.cpp:184-196. -/
noncomputable def box1 (x : V3) : Option V3 := some ![0, 0, -6 * (x 1 - 1 / 2)]
/-- `box2_current`, current_source_functions.cpp:198-210. -/
noncomputable def box2 (x : V3) : Option V3 := some ![0, 0, 6 * (x 1 - 1 / 2)]
/-- `box1CurrentSourceRevDiff`, current_source_functions.cpp:546-567. -/
noncomputable def box1Rev (_ b : V3) : Option V3 := some ![0, -6 * b 2, 0]
/-- `box2CurrentSourceRevDiff`, current_source_functions.cpp:574-595. -/
noncomputable def box2Rev (_ b : V3) : Option V3 := some ![0, 6 * b 2, 0]

/-- `sgn`, current_source_functions.cpp:231-235. -/
noncomputable def sgn (a : ℝ) : ℝ := (if 0 < a then 1 else 0) - (if a < 0 then 1 else 0)

/-- The branches of `team13_current`: the vector before it is normalised, and the centre of the corner the point belongs to
if its entries depend on the position, current_source_functions.cpp:245-277.  The last `else if` of the code is the only
remaining case for comparable numbers. -/
noncomputable def team13Raw (x y : ℝ) : (ℝ × ℝ) × Bool :=
  if -0.075 ≤ y ∧ y ≤ 0.075 then ((0, sgn x), false)
  else if -0.075 ≤ x ∧ x ≤ 0.075 then ((-sgn y, 0), false)
  else if x > 0.075 ∧ y > 0.075 then ((-(y - 0.075), x - 0.075), true)
  else if x < 0.075 ∧ y > 0.075 then ((-(y - 0.075), x + 0.075), true)
  else if x < 0.075 ∧ y < 0.075 then ((-(y + 0.075), x + 0.075), true)
  else ((-(y + 0.075), x - 0.075), true)

/-- `team13_current`, current_source_functions.cpp:237-283. -/
noncomputable def team13 (x : V3) : Option V3 :=
  let r := (team13Raw (x 0) (x 1)).1
  (unit2 r.1 r.2).map fun r => ![r.1, r.2, 0]

/-- `team13CurrentSourceRevDiff`, current_source_functions.cpp:622-643: in a corner the first entry is minus a shifted `y`,
the second a shifted `x`; on the straight parts the entries are constants. -/
noncomputable def team13Rev (x b : V3) : Option V3 :=
  let r := team13Raw (x 0) (x 1)
  (unit2Bar r.1.1 r.1.2 (b 0) (b 1)).map fun q => if r.2 then ![q.2, -q.1, 0] else 0

/-- `round` of C: halves away from zero, current_source_functions.cpp:32. -/
noncomputable def cround (y : ℝ) : ℤ := if 0 ≤ y then ⌊y + 1 / 2⌋ else ⌈y - 1 / 2⌉

/-- `J / sqrt(J[0] * J[0] + J[1] * J[1] + J[2] * J[2])`, current_source_functions.cpp:68-72. -/
noncomputable def unit3 (v : V3) : Option V3 :=
  let n := √(v 0 * v 0 + v 1 * v 1 + v 2 * v 2)
  if n = 0 then none else some fun i => v i / n

/-- Reverse sweep of `unit3`. Adept (not in /repo), behind current_source_functions.cpp:297-361. -/
noncomputable def unit3Bar (v b : V3) : Option V3 :=
  let n := √(v 0 * v 0 + v 1 * v 1 + v 2 * v 2)
  if n = 0 then none
  else
    let nBar := -b 0 * v 0 / (n * n) - b 1 * v 1 / (n * n) - b 2 * v 2 / (n * n)
    let sBar := nBar / (2 * n)
    some fun i => b i / n + 2 * v i * sBar

/-- The angle of the point (`atan2(x[1], x[0])`) and the slot angle, current_source_functions.cpp:27-29. -/
noncomputable def angle (x : V3) : ℝ := Complex.arg ⟨x 0, x 1⟩
/-- `2 * M_PI / n_slots`, current_source_functions.cpp:29. -/
noncomputable def slotAngle (n : ℕ) : ℝ := 2 * Real.pi / n
/-- `w`, current_source_functions.cpp:32. -/
noncomputable def slot (n : ℕ) (x : V3) : ℤ := cround (angle x / slotAngle n)
/-- `th`, current_source_functions.cpp:33. -/
noncomputable def slotOffset (n : ℕ) (x : V3) : ℝ := angle x - slot n x * slotAngle n

/-- `rx`: the point moved to the end of the stator, current_source_functions.cpp:51-60. -/
noncomputable def endPoint (L : ℝ) (x : V3) : V3 :=
  ![x 0, x 1, x 2 - (if x 2 > L / 2 then L / 2 else 0) - (if x 2 < -L / 2 then -L / 2 else 0)]

/-- `ax`, current_source_functions.cpp:62-65. -/
noncomputable def slotAxis (n : ℕ) (x : V3) : V3 := ![Real.cos (slot n x * slotAngle n), Real.sin (slot n x * slotAngle n), 0]

/-- `rx × ax`, current_source_functions.cpp:68-70. -/
def cross (r a : V3) : V3 := ![r 1 * a 2 - r 2 * a 1, r 2 * a 0 - r 0 * a 2, r 0 * a 1 - r 1 * a 0]

/-- Reverse sweep of `cross` with respect to its first argument. Adept (not in /repo), behind current_source_functions.cpp:297-361. -/
def crossBar (a b : V3) : V3 := ![-b 1 * a 2 + b 2 * a 1, b 0 * a 2 - b 2 * a 0, -b 0 * a 1 + b 1 * a 0]

/-- The point is in the stator body, current_source_functions.cpp:36,98. -/
def InBody (L : ℝ) (x : V3) : Prop := -L / 2 ≤ x 2 ∧ x 2 ≤ L / 2

noncomputable instance (L : ℝ) (x : V3) : Decidable (InBody L x) := Classical.propDecidable _

/-- `ccw_stator_current`, current_source_functions.cpp:80-140.  `n_slots ≥ 1`. -/
noncomputable def ccwStator (n : ℕ) (L : ℝ) (x : V3) : Option V3 :=
  if InBody L x then
    some ![0, 0, if slotOffset n x > 0 then -1 else if slotOffset n x < 0 then 1 else 0]
  else unit3 (cross (endPoint L x) (slotAxis n x))

/-- `cw_stator_current`, current_source_functions.cpp:14-78: the same computation, then `J *= -1`. -/
noncomputable def cwStator (n : ℕ) (L : ℝ) (x : V3) : Option V3 :=
  (if InBody L x then
    some ![0, 0, if slotOffset n x > 0 then -1 else if slotOffset n x < 0 then 1 else 0]
  else unit3 (cross (endPoint L x) (slotAxis n x))).map fun J i => J i * -1

/-- `ccwStatorCurrentSourceRevDiff`, current_source_functions.cpp:336-361. -/
noncomputable def ccwStatorRev (n : ℕ) (L : ℝ) (x b : V3) : Option V3 :=
  if InBody L x then some 0
  else (unit3Bar (cross (endPoint L x) (slotAxis n x)) b).map (crossBar (slotAxis n x))

/-- `cwStatorCurrentSourceRevDiff`, current_source_functions.cpp:297-322. -/
noncomputable def cwStatorRev (n : ℕ) (L : ℝ) (x b : V3) : Option V3 :=
  if InBody L x then some 0
  else (unit3Bar (cross (endPoint L x) (slotAxis n x)) fun i => b i * -1).map (crossBar (slotAxis n x))

/-! ### The coefficient of the magnets -/

/-- The keys below a magnet material and the direction function each one selects,
magnetic_source_functions.cpp:524-700. -/
noncomputable def magnetDir : String → Option (V3 → Option V3)
  | "north" => some north
  | "south" => some south
  | "cw" => some cw
  | "ccw" => some ccw
  | "x" => some xAxis
  | "y" => some yAxis
  | "z" => some zAxis
  | _ => none

/-- The keys below a current group, three-dimensional case, current_source_functions.cpp:724-980.  `n_slots`, `stack_length`:
see the comment in `Loads.lean` on the references the code captures. -/
noncomputable def currentDir (n : ℕ) (L : ℝ) : String → Option (V3 → Option V3)
  | "cwStator" => some (cwStator n L)
  | "ccwStator" => some (ccwStator n L)
  | "x" => some xAxis
  | "y" => some yAxis
  | "z" => some zAxis
  | "-z" => some nzAxis
  | "ring" => some ring
  | "box1" => some box1
  | "box2" => some box2
  | "team13" => some team13
  | _ => none

/-- The option `magnets` (or `current`): material (group) ↦ source ↦ attributes. magnetic_source_functions.cpp:515-704. -/
abbrev Groups := List (String × List (String × List ℤ))

/-- `material_map`: attribute ↦ (material, source). coefficient.cpp:1857-1881. -/
abbrev AttrMap := List (ℤ × String × String)

/-- `addCoefficient` for the attributes of one source: aborts when the key is present, coefficient.hpp:1230-1239. -/
def addAttrs (mat src : String) : List ℤ → AttrMap → Option AttrMap
  | [], m => some m
  | a :: as, m => if m.any (fun e => e.1 = a) then none else addAttrs mat src as ((a, mat, src) :: m)

/-- The sources of one material; unknown ones are skipped, magnetic_source_functions.cpp:522-702. -/
def addSources (known : String → Bool) (mat : String) : List (String × List ℤ) → AttrMap → Option AttrMap
  | [], m => some m
  | (src, as) :: rest, m =>
    (if known src then addAttrs mat src as m else some m).bind fun m => addSources known mat rest m

/-- The constructor loop, magnetic_source_functions.cpp:515-704. -/
def addGroups (known : String → Bool) : Groups → AttrMap → Option AttrMap
  | [], m => some m
  | (mat, srcs) :: rest, m => (addSources known mat srcs m).bind fun m => addGroups known rest m

/-- `material_map.find(attr)`. coefficient.cpp:1857-1881. -/
def find (m : AttrMap) (a : ℤ) : Option (String × String) := (m.find? fun e => e.1 = a).map (·.2)

/-- `MagnetizationCoefficient::Eval(V, trans, ip, state)` on an element with attribute `a` at the point `x`:
magnetic_source_functions.cpp:485-491, coefficient.cpp:1883-1922, 2013-2037. -/
noncomputable def evalMagnet (lib : String → Remnant) (m : AttrMap) (a : ℤ) (x : V3) (T : ℝ) : Option V3 :=
  match find m a with
  | none => some 0
  | some (mat, src) => ((magnetDir src).bind fun f => f x).map fun d i => d i * (lib mat).eval T

/-- `MagnetizationCoefficient::EvalStateDeriv`, magnetic_source_functions.cpp:493-500, coefficient.cpp:1924-1963, 2039-2083. -/
noncomputable def evalMagnetDeriv (lib : String → Remnant) (m : AttrMap) (a : ℤ) (x : V3) (T : ℝ) : Option V3 :=
  match find m a with
  | none => some 0
  | some (mat, src) => ((magnetDir src).bind fun f => f x).map fun d i => 0 + d i * (lib mat).d T + 0 * (lib mat).eval T

/-- `MagnetizationCoefficient::Eval(V, trans, ip)`, magnetic_source_functions.cpp:477-483: every state coefficient below is
evaluated with state zero (coefficient.hpp:29-33, coefficient.cpp:1857-1881, 2004-2011).  This is what the load of the
three-dimensional problem uses, magnetic_load.cpp:12-34. -/
noncomputable def evalMagnetStateless (lib : String → Remnant) (m : AttrMap) (a : ℤ) (x : V3) : Option V3 :=
  match find m a with
  | none => some 0
  | some (mat, src) => ((magnetDir src).bind fun f => f x).map fun d i => d i * (lib mat).eval 0

/-- `getMagnetAttributes` / `getCurrentAttributes`: the attributes the load is integrated over,
magnetostatic_residual.cpp:49-75. -/
def loadAttrs (g : Groups) : List ℤ := g.flatMap fun e => e.2.flatMap fun s => s.2

end Verif.Source
