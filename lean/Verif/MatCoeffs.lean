import Verif.Sbp
import Mathlib.Analysis.SpecialFunctions.Exp
import Mathlib.Analysis.SpecialFunctions.Trigonometric.Basic

/-!
Model of the material laws of the magnetostatic solver: the CAL2 core loss coefficients
(`/repo/src/physics/electromagnetics/cal2_kh_coefficient.cpp`, `cal2_ke_coefficient.cpp`), the permanent
magnet demagnetization constraint (`pm_demag_constraint_coeff.cpp`), conductivity
(`conductivity_coefficient.cpp`), remnant flux (`remnant_flux_coefficient.cpp`), knee flux
(`demag_flux_coefficient.cpp`) and reluctivity (`reluctivity_coefficient.cpp`), and their construction
from the options.

`double` is ℝ; a result that is not finite in IEEE arithmetic because of a division by zero or a negative
power of zero is `none`.  The splines of tinyspline are functions with derivative functions.
-/

namespace Verif.MatCoeffs
open Verif.Sbp

/-- Division of doubles: not finite for a zero divisor (`x/0` is infinite or NaN, and every later use in
these formulas stays non-finite or becomes NaN).  cal2_kh_coefficient.cpp:568 and others. -/
noncomputable def fdiv (a b : ℝ) : Option ℝ := if b = 0 then none else some (a / b)

/-- `std::pow(b, e)` with an integer exponent: a pole for `b = 0`, `e < 0`.  cal2_kh_coefficient.cpp:644. -/
noncomputable def fpow (b : ℝ) (e : ℤ) : Option ℝ := if b = 0 ∧ e < 0 then none else some (b ^ e)

/-- `for (i = 0; i < n; ++i) acc += term(i)`, non-finite as soon as a term is (multiplying an infinite
power by the factor zero gives NaN).  cal2_kh_coefficient.cpp:642-645. -/
noncomputable def fsum (n : ℕ) (term : ℕ → Option ℝ) : Option ℝ :=
  forN n (fun i acc => acc.bind fun a => (term i).map fun t => a + t) (some 0)

/-! ### CAL2 coefficients -/

/-- The data of `PolyVarHysteresisLossCoeff` and `PolyVarEddyCurrentLossCoeff`: two reference
temperatures and the polynomial coefficients at each.  cal2_kh_coefficient.cpp:190-199, 535-542. -/
structure Cal2 where
  T0 : ℝ
  k0 : List ℝ
  T1 : ℝ
  k1 : List ℝ

/-- The loop `k += c[i] * pow(B, i)`, cal2_kh_coefficient.cpp:556-565. -/
noncomputable def polyVal (c : List ℝ) (B : ℝ) : ℝ :=
  forN c.length (fun i acc => acc + c.getD i 0 * B ^ i) 0

/-- The loop `dk += i * c[i] * pow(B, i - 1)`, cal2_kh_coefficient.cpp:641-651. -/
noncomputable def polyDeriv (c : List ℝ) (B : ℝ) : Option ℝ :=
  fsum c.length fun i => (fpow B ((i : ℤ) - 1)).map fun p => (i : ℝ) * c.getD i 0 * p

/-- The loop `d2k += (i - 1) * i * c[i] * pow(B, i - 2)`, cal2_kh_coefficient.cpp:720-730. -/
noncomputable def polyDeriv2 (c : List ℝ) (B : ℝ) : Option ℝ :=
  fsum c.length fun i => (fpow B ((i : ℤ) - 2)).map fun p => ((i : ℝ) - 1) * (i : ℝ) * c.getD i 0 * p

namespace Cal2

/-- `Eval(trans, ip, T, f, B)`, cal2_kh_coefficient.cpp:544-572 and cal2_ke_coefficient.cpp:544-572. -/
noncomputable def eval (k : Cal2) (T _f B : ℝ) : Option ℝ :=
  let kT0 := polyVal k.k0 B
  let kT1 := polyVal k.k1 B
  (fdiv (kT1 - kT0) ((k.T1 - k.T0) * kT0)).map fun D =>
    let kt := 1 + (T - k.T0) * D
    kt * kT0

/-- `EvalDerivS1`: with respect to the temperature.  cal2_kh_coefficient.cpp:574-606. -/
noncomputable def dT (k : Cal2) (_T _f B : ℝ) : Option ℝ :=
  let kT0 := polyVal k.k0 B
  let kT1 := polyVal k.k1 B
  (fdiv (kT1 - kT0) ((k.T1 - k.T0) * kT0)).map fun D => D * kT0

/-- `EvalDerivS2`: with respect to the frequency.  cal2_kh_coefficient.cpp:608-624. -/
noncomputable def df (_k : Cal2) (_T _f _B : ℝ) : Option ℝ := some 0

/-- `EvalDerivS3`: with respect to the flux density.  cal2_kh_coefficient.cpp:626-662. -/
noncomputable def dB (k : Cal2) (T _f B : ℝ) : Option ℝ :=
  (polyDeriv k.k0 B).bind fun d0 => (polyDeriv k.k1 B).bind fun d1 =>
    (fdiv (T - k.T0) (k.T1 - k.T0)).map fun th => d0 + th * (d1 - d0)

/-- `Eval2ndDerivS3`, cal2_kh_coefficient.cpp:705-742. -/
noncomputable def dBB (k : Cal2) (T _f B : ℝ) : Option ℝ :=
  (polyDeriv2 k.k0 B).bind fun d0 => (polyDeriv2 k.k1 B).bind fun d1 =>
    (fdiv (T - k.T0) (k.T1 - k.T0)).map fun th => d0 + th * (d1 - d0)

/-- `Eval2ndDerivS1S3` and `Eval2ndDerivS3S1`, cal2_kh_coefficient.cpp:762-800, 841-881. -/
noncomputable def dTB (k : Cal2) (_T _f B : ℝ) : Option ℝ :=
  (polyDeriv k.k0 B).bind fun d0 => (polyDeriv k.k1 B).bind fun d1 => fdiv (d1 - d0) (k.T1 - k.T0)

/-- `Eval2ndDerivS1`, `Eval2ndDerivS2`, `Eval2ndDerivS1S2`, `…S2S1`, `…S2S3`, `…S3S2`: all return 0.
cal2_kh_coefficient.cpp:664-703, 744-760, 802-839, 883-905. -/
noncomputable def dZero (_k : Cal2) (_T _f _B : ℝ) : Option ℝ := some 0

end Cal2

/-! ### The demagnetization constraint -/

/-- Data of `PMDemagConstraintEqCoeff`, pm_demag_constraint_coeff.cpp:514-534. -/
structure Demag where
  T0 : ℝ
  alphaBr : ℝ
  Br0 : ℝ
  alphaHci : ℝ
  Hci0 : ℝ
  alphaBknee : ℝ
  betaBknee : ℝ
  alphaHknee : ℝ
  betaHknee : ℝ

namespace Demag
variable (m : Demag)

/-- `B_knee`, pm_demag_constraint_coeff.cpp:546-548. -/
noncomputable def Bknee (T : ℝ) : ℝ := m.alphaBknee * T + m.betaBknee
/-- `H_knee`, pm_demag_constraint_coeff.cpp:549-551. -/
noncomputable def Hknee (T : ℝ) : ℝ := m.alphaHknee * T + m.betaHknee
/-- `B_r`, pm_demag_constraint_coeff.cpp:552-553. -/
noncomputable def Br (T : ℝ) : ℝ := m.Br0 * (1 + (m.alphaBr / 100) * (T - m.T0))
/-- `H_ci`, pm_demag_constraint_coeff.cpp:554-555. -/
noncomputable def Hci (T : ℝ) : ℝ := m.Hci0 * (1 + (m.alphaHci / 100) * (T - m.T0))

/-- `Eval(trans, ip, B, T)`, pm_demag_constraint_coeff.cpp:536-564.  The divisors are assumed nonzero in
the theorems. -/
noncomputable def eval (B T : ℝ) : ℝ :=
  ((m.Hknee T / (m.Bknee T - m.Br T)) - ((m.Hknee T - m.Hci T) / m.Bknee T)) * B -
    (m.Hci T + ((m.Br T * m.Hknee T) / (m.Bknee T - m.Br T)))

/-- `EvalDerivS1`: with respect to the flux density.  pm_demag_constraint_coeff.cpp:566-598. -/
noncomputable def dB (_B T : ℝ) : ℝ :=
  (m.Hknee T / (m.Bknee T - m.Br T)) - ((m.Hknee T - m.Hci T) / m.Bknee T)

/-- `SubEq1`, pm_demag_constraint_coeff.cpp:622. -/
noncomputable def sub1 : ℝ := m.alphaBknee - (m.Br0 * m.alphaBr) / 100
/-- `SubEq2`, pm_demag_constraint_coeff.cpp:623. -/
noncomputable def sub2 (T : ℝ) : ℝ := m.Bknee T - m.Br T
/-- `SubEq3`, pm_demag_constraint_coeff.cpp:624. -/
noncomputable def sub3 (T : ℝ) : ℝ := m.Br T / m.Br0

/-- `Eval2ndDerivS1S2`, `Eval2ndDerivS2S1`, pm_demag_constraint_coeff.cpp:721-832. -/
noncomputable def dBT (_B T : ℝ) : ℝ :=
  (m.alphaHknee / m.sub2 T) - ((m.alphaHknee - (m.Hci0 * m.alphaHci / 100)) / m.Bknee T) -
    ((m.sub1 * m.Hknee T) / m.sub2 T ^ 2) + ((m.alphaBknee * (m.Hknee T - m.Hci T)) / m.Bknee T ^ 2)

/-- `EvalDerivS2`: with respect to the temperature.  pm_demag_constraint_coeff.cpp:600-641. -/
noncomputable def dT (B T : ℝ) : ℝ :=
  B * ((m.alphaHknee / m.sub2 T) - ((m.alphaHknee - (m.Hci0 * m.alphaHci / 100)) / m.Bknee T) -
      ((m.sub1 * m.Hknee T) / m.sub2 T ^ 2) + ((m.alphaBknee * (m.Hknee T - m.Hci T)) / m.Bknee T ^ 2)) -
    (m.Hci0 * m.alphaHci) / 100 - ((m.Br0 * m.alphaBr * m.Hknee T) / (100 * m.sub2 T)) -
    (m.Br0 * m.alphaHknee * m.sub3 T) / m.sub2 T + (m.Br0 * m.sub3 T * m.sub1 * m.Hknee T) / m.sub2 T ^ 2

/-- `Eval2ndDerivS1`, pm_demag_constraint_coeff.cpp:643-661. -/
noncomputable def dBB (_m : Demag) (_B _T : ℝ) : ℝ := 0

/-- `Eval2ndDerivS2`, pm_demag_constraint_coeff.cpp:663-719. -/
noncomputable def dTT (B T : ℝ) : ℝ :=
  (m.Br0 * m.alphaHknee * m.sub3 T * m.sub1 * 2) / m.sub2 T ^ 2 -
    ((m.Br0 * m.alphaBr * m.alphaHknee) / (50 * m.sub2 T)) -
    (m.Br0 * m.sub3 T * m.sub1 ^ 2 * m.Hknee T * 2) / m.sub2 T ^ 3 -
    B * ((m.alphaBknee ^ 2 * (m.Hknee T - m.Hci T) * 2) / m.Bknee T ^ 3 -
        (2 * m.sub1 ^ 2 * m.Hknee T) / m.sub2 T ^ 3 -
        (m.alphaBknee * (m.alphaHknee - (m.Hci0 * m.alphaHci) / 100) * 2) / m.Bknee T ^ 2 +
        (m.alphaHknee * m.sub1 * 2) / m.sub2 T ^ 2) +
    ((m.Br0 * m.alphaBr * m.sub1 * m.Hknee T) / (50 * m.sub2 T ^ 2))

end Demag

/-! ### Conductivity, remnant flux, knee flux -/

/-- Data of `LinearTempDepConductivityCoefficient`, conductivity_coefficient.cpp:259-265. -/
structure Cond where
  alpha : ℝ
  Tref : ℝ
  sigmaRef : ℝ

namespace Cond
variable (c : Cond)
/-- `Eval`, conductivity_coefficient.cpp:267-276. -/
noncomputable def eval (T : ℝ) : ℝ := c.sigmaRef / (1 + c.alpha * (T - c.Tref))
/-- `EvalStateDeriv`, conductivity_coefficient.cpp:278-288. -/
noncomputable def d (T : ℝ) : ℝ := (-c.sigmaRef * c.alpha) / (1 + c.alpha * (T - c.Tref)) ^ 2
/-- `EvalState2ndDeriv`, conductivity_coefficient.cpp:290-300. -/
noncomputable def dd (T : ℝ) : ℝ := (2 * c.sigmaRef * c.alpha ^ 2) / (1 + c.alpha * (T - c.Tref)) ^ 3
end Cond

/-- Data of `LinearTempDepRemnantFluxCoefficient`, remnant_flux_coefficient.cpp:205-211. -/
structure Remnant where
  alpha : ℝ
  Tref : ℝ
  BrRef : ℝ

namespace Remnant
variable (c : Remnant)
/-- `Eval`, remnant_flux_coefficient.cpp:213-234. -/
noncomputable def eval (T : ℝ) : ℝ := c.BrRef * (1 + (c.alpha / 100) * (T - c.Tref))
/-- `EvalStateDeriv`, remnant_flux_coefficient.cpp:236-247. -/
noncomputable def d (_T : ℝ) : ℝ := c.BrRef * (c.alpha / 100)
/-- `EvalState2ndDeriv`, remnant_flux_coefficient.cpp:249-258. -/
noncomputable def dd (_c : Remnant) (_T : ℝ) : ℝ := 0
/-- `getAlphaAndT_RefAndB_r_T_Ref`, `constructRemnantFluxCoeff`: defaults for missing keys.
remnant_flux_coefficient.cpp:72-131. -/
noncomputable def construct (opt : String → Option ℝ) : Remnant :=
  ⟨(opt "alpha_B_r").getD (-0.12), (opt "T_ref").getD 293.15, (opt "B_r_T_ref").getD 1.39⟩
end Remnant

/-- `LinearTempDepDemagFluxCoefficient`, demag_flux_coefficient.cpp:272-276. -/
structure Knee where
  alpha : ℝ
  beta : ℝ

namespace Knee
variable (c : Knee)
/-- `Eval`, demag_flux_coefficient.cpp:278-291. -/
noncomputable def eval (T : ℝ) : ℝ := c.alpha * T + c.beta
/-- `EvalStateDeriv`, demag_flux_coefficient.cpp:293-303. -/
noncomputable def d (_T : ℝ) : ℝ := c.alpha
/-- `EvalState2ndDeriv`, demag_flux_coefficient.cpp:305-314. -/
noncomputable def dd (_c : Knee) (_T : ℝ) : ℝ := 0
end Knee

/-! ### Reluctivity -/

/-- `mu_0 = 4e-7 * M_PI`, reluctivity_coefficient.cpp:16. -/
noncomputable def mu0 : ℝ := 4e-7 * Real.pi
/-- `nu0 = 1 / mu_0`, reluctivity_coefficient.cpp:17. -/
noncomputable def nu0 : ℝ := 1 / mu0

/-- `logNuBBSplineReluctivityCoefficient`: `s` is the spline of `log ν`, `ds` and `dds` the splines
obtained with `derive()`.  reluctivity_coefficient.cpp:62-73, 372-385. -/
structure LogNu where
  bmax : ℝ
  s : ℝ → ℝ
  ds : ℝ → ℝ
  dds : ℝ → ℝ

namespace LogNu
variable (c : LogNu)
/-- `Eval`, reluctivity_coefficient.cpp:387-401. -/
noncomputable def eval (b : ℝ) : ℝ := if b ≤ c.bmax then Real.exp (c.s b) else nu0
/-- `EvalStateDeriv`, reluctivity_coefficient.cpp:403-425. -/
noncomputable def d (b : ℝ) : ℝ := if b ≤ c.bmax then Real.exp (c.s b) * c.ds b else 0
/-- `EvalState2ndDeriv`, reluctivity_coefficient.cpp:427-459. -/
noncomputable def dd (b : ℝ) : ℝ :=
  if b ≤ c.bmax then Real.exp (c.s b) * (c.dds b + c.ds b ^ 2) else 0
end LogNu

/-- `BHBSplineReluctivityCoefficient`: `h` is the spline of `H` over the parameter `t = B / b_max`, `dh`
its `derive()`, `hmax` the last control point.  reluctivity_coefficient.cpp:115-124, 481-501. -/
structure BH where
  hmax : ℝ
  bmax : ℝ
  h : ℝ → ℝ
  dh : ℝ → ℝ

namespace BH
variable (c : BH)
/-- `Eval`, reluctivity_coefficient.cpp:503-525. -/
noncomputable def eval (b : ℝ) : ℝ :=
  if b ≤ 1e-14 then c.dh (b / c.bmax) / c.bmax
  else if b ≤ c.bmax then c.h (b / c.bmax) / b
  else (c.hmax - nu0 * c.bmax) / b + nu0
/-- `EvalStateDeriv`, reluctivity_coefficient.cpp:527-545; not finite at `b = 0` (`bmax` is positive). -/
noncomputable def d (b : ℝ) : Option ℝ :=
  if b ≤ c.bmax then
    (fdiv (c.dh (b / c.bmax)) (b * c.bmax)).bind fun x =>
      (fdiv (c.h (b / c.bmax)) (b ^ 2)).map fun y => x - y
  else fdiv (-(c.hmax - nu0 * c.bmax)) (b ^ 2)
end BH

/-! ### Construction from the options -/

/-- The values found under one key of the options (number, array, string).  cal2_kh_coefficient.cpp:227-277. -/
inductive Val | num (x : ℝ) | arr (l : List ℝ) | str (s : String)

/-- A JSON object: key to value.  cal2_kh_coefficient.cpp:227-277. -/
abbrev Obj := String → Option Val

/-- `component["material"]`: a name, or an object with a name and possibly the block of the property in
question (`"core_loss"`, `"Demag"`, `"conductivity"` or `"reluctivity"`).  cal2_kh_coefficient.cpp:280-340. -/
inductive Material
  | name (s : String)
  | obj (s : String) (block : Option Obj)

/-- A component: `component.value("attr", -1)`, `component["attrs"]`, `component["material"]`.
cal2_kh_coefficient.cpp:490-503. -/
structure Component where
  attr : ℤ
  attrs : List ℤ
  material : Material

/-- What a constructor does: build, throw a `MISOException`, throw a JSON type error, abort in
`addCoefficient` (key already present).  coefficient.hpp:484-494. -/
inductive Res (α : Type) | ok (a : α) | miso | typeError | abort

/-- Sequencing; an exception ends the construction.  cal2_kh_coefficient.cpp:227-277. -/
def Res.bind {α β : Type} : Res α → (α → Res β) → Res β
  | .ok a, f => f a
  | .miso, _ => .miso
  | .typeError, _ => .typeError
  | .abort, _ => .abort

/-- The value of a key: from the component's own block if present there, else from the material library;
a missing key is a JSON error (`get<double>` of null).  cal2_kh_coefficient.cpp:236-277. -/
def pick (own lib : Obj) (key : String) : Res Val :=
  match own key with
  | some v => .ok v
  | none => match lib key with
    | some v => .ok v
    | none => .typeError

/-- `get<double>()`: a JSON type error for anything but a number.  cal2_kh_coefficient.cpp:240. -/
def Val.num? : Val → Res ℝ
  | .num x => .ok x
  | _ => .typeError
/-- `get<std::vector<double>>()`, cal2_kh_coefficient.cpp:251. -/
def Val.arr? : Val → Res (List ℝ)
  | .arr l => .ok l
  | _ => .typeError
/-- `get<std::string>()`, conductivity_coefficient.cpp:153. -/
def Val.str? : Val → Res String
  | .str s => .ok s
  | _ => .typeError

/-- A number by key, cal2_kh_coefficient.cpp:236-244. -/
def pickNum (own lib : Obj) (key : String) : Res ℝ := (pick own lib key).bind Val.num?
/-- A vector by key, cal2_kh_coefficient.cpp:247-255. -/
def pickArr (own lib : Obj) (key : String) : Res (List ℝ) := (pick own lib key).bind Val.arr?

/-- `getTsAndKhs` / `getTsAndKes`, with the key prefix `"kh"` or `"ke"`: T0, k_T0, T1, k_T1.
cal2_kh_coefficient.cpp:227-277, cal2_ke_coefficient.cpp:227-277. -/
def getCal2 (pre : String) (own lib : Obj) : Res Cal2 :=
  (pickNum own lib "T0").bind fun T0 => (pickArr own lib (pre ++ "_T0")).bind fun k0 =>
  (pickNum own lib "T1").bind fun T1 => (pickArr own lib (pre ++ "_T1")).bind fun k1 => .ok ⟨T0, k0, T1, k1⟩

/-- `getDemagParams`, pm_demag_constraint_coeff.cpp:171-284. -/
def getDemag (own lib : Obj) : Res Demag :=
  (pickNum own lib "T0").bind fun T0 => (pickNum own lib "alpha_B_r").bind fun aBr =>
  (pickNum own lib "B_r_T0").bind fun Br0 => (pickNum own lib "alpha_H_ci").bind fun aHci =>
  (pickNum own lib "H_ci_T0").bind fun Hci0 => (pickNum own lib "alpha_B_knee").bind fun aBk =>
  (pickNum own lib "beta_B_knee").bind fun bBk => (pickNum own lib "alpha_H_knee").bind fun aHk =>
  (pickNum own lib "beta_H_knee").bind fun bHk => .ok ⟨T0, aBr, Br0, aHci, Hci0, aBk, bBk, aHk, bHk⟩

/-- What the splines of the reluctivity are built from: control points, knots and degree.
reluctivity_coefficient.cpp:153-190. -/
structure SplineData where
  cps : List ℝ
  knots : List ℝ
  degree : ℤ

/-- The coefficient an attribute gets.  cal2_kh_coefficient.cpp:280-340 and the others. -/
inductive Built
  | const (c : ℝ)
  | cal2 (k : Cal2)
  | demag (m : Demag)
  | cond (c : Cond)
  | knee (k : Knee)
  | lognu (d : SplineData)
  | bh (d : SplineData)

/-- The material library as one property reads it: `dflt` is the constant of that property if the library
has one (`materials[name].value("kh", …)`), `block` the nested block.  cal2_kh_coefficient.cpp:216-225. -/
structure Library where
  dflt : String → Option ℝ
  block : String → Obj

/-- `constructCAL2_khCoeff` / `…ke…`; the default value is 1.  cal2_kh_coefficient.cpp:216-225, 280-340. -/
noncomputable def constructCal2 (pre : String) (lib : Library) (c : Component) : Res Built :=
  match c.material with
  | .name s => .ok (.const ((lib.dflt s).getD 1))
  | .obj s none => .ok (.const ((lib.dflt s).getD 1))
  | .obj s (some own) => (getCal2 pre own (lib.block s)).bind fun k => .ok (.cal2 k)

/-- `constructPMDemagConstraintCoeff`; the default is the constant 0.
pm_demag_constraint_coeff.cpp:161-168, 287-368. -/
noncomputable def constructDemag (lib : Library) (c : Component) : Res Built :=
  match c.material with
  | .name _ => .ok (.const 0)
  | .obj _ none => .ok (.const 0)
  | .obj s (some own) => (getDemag own (lib.block s)).bind fun k => .ok (.demag k)

/-- `constructDemagFluxCoeff` with `getDemagParams`; the default is the constant 0, whatever the library holds.
demag_flux_coefficient.cpp:78-84, 86-118, 120-166. -/
noncomputable def constructKnee (lib : Library) (c : Component) : Res Built :=
  match c.material with
  | .name _ => .ok (.const 0)
  | .obj _ none => .ok (.const 0)
  | .obj s (some own) =>
    (pickNum own (lib.block s) "alpha_B_knee").bind fun a =>
    (pickNum own (lib.block s) "beta_B_knee").bind fun b => .ok (.knee ⟨a, b⟩)

/-- `constructConductivityCoeff`; the default is 58.14e6; `model` selects constant or linear.
conductivity_coefficient.cpp:67-79, 81-121, 123-186. -/
noncomputable def constructCond (lib : Library) (c : Component) : Res Built :=
  match c.material with
  | .name s => .ok (.const ((lib.dflt s).getD 58.14e6))
  | .obj s none => .ok (.const ((lib.dflt s).getD 58.14e6))
  | .obj s (some own) =>
    (pick own (fun _ => none) "model").bind fun v => v.str?.bind fun model =>
      if model = "constant" then .ok (.const ((lib.dflt s).getD 58.14e6))
      else if model = "linear" then
        (pickNum own (lib.block s) "alpha_resistivity").bind fun a =>
        (pickNum own (lib.block s) "T_ref").bind fun t =>
        (pickNum own (lib.block s) "sigma_T_ref").bind fun sr => .ok (.cond ⟨a, t, sr⟩)
      else .miso

/-- `get<int>()` of a number: towards zero.  reluctivity_coefficient.cpp:181-190. -/
noncomputable def toInt (x : ℝ) : ℤ := if 0 ≤ x then ⌊x⌋ else ⌈x⌉

/-- A value of the component's block, else of the block `materials[name]["reluctivity"][model]` of the library (`none`: there is no such block); what is missing in the constant library
is a failed assertion of the JSON library.  reluctivity_coefficient.cpp:160-180. -/
def pickNu (own : Obj) (lib : Option Obj) (key : String) : Res Val :=
  match own key with
  | some v => .ok v
  | none => match lib with
    | none => .abort
    | some o => match o key with
      | some v => .ok v
      | none => .abort

/-- The degree: like the others, but 3 if the library's block has none.  reluctivity_coefficient.cpp:181-189. -/
noncomputable def pickDegree (own : Obj) (lib : Option Obj) : Res ℤ :=
  match own "degree" with
  | some v => v.num?.bind fun x => .ok (toInt x)
  | none => match lib with
    | none => .abort
    | some o => match o "degree" with
      | some v => v.num?.bind fun x => .ok (toInt x)
      | none => .ok 3

/-- `getCpsKnotsAndDegree`, reluctivity_coefficient.cpp:151-190. -/
noncomputable def getSpline (own : Obj) (lib : Option Obj) : Res SplineData :=
  (pickNu own lib "cps").bind fun v => v.arr?.bind fun cps =>
  (pickNu own lib "knots").bind fun v => v.arr?.bind fun knots =>
  (pickDegree own lib).bind fun d => .ok ⟨cps, knots, d⟩

/-- `constructLinearReluctivityCoeff`, reluctivity_coefficient.cpp:143-149: `muR` is `materials[name]["mu_r"]`.  (A material the library does not know is not modelled.) -/
noncomputable def linearNu (muR : String → Option ℝ) (s : String) : Built := .const (1 / ((muR s).getD 1 * mu0))

/-- `constructReluctivityCoeff`, reluctivity_coefficient.cpp:192-258: `block s model` is `materials[s]["reluctivity"][model]`. -/
noncomputable def constructNu (muR : String → Option ℝ) (block : String → String → Option Obj) (c : Component) : Res Built :=
  match c.material with
  | .name s => .ok (linearNu muR s)
  | .obj s none => .ok (linearNu muR s)
  | .obj s (some own) =>
    match own "model" with
    | none => .abort
    | some v => v.str?.bind fun model =>
      if model = "linear" then .ok (linearNu muR s)
      else if model = "lognu" then (getSpline own (block s model)).bind fun d => .ok (.lognu d)
      else if model = "bh" then (getSpline own (block s model)).bind fun d => .ok (.bh d)
      else if model = "team13" then .miso
      else .miso

/-- The material map under construction.  coefficient.hpp:484-494. -/
abbrev Map := List (ℤ × Built)

/-- `addCoefficient`: abort if the key is present.  coefficient.hpp:484-494. -/
def addCoeff (m : Map) (a : ℤ) (b : Built) : Res Map :=
  match m.lookup a with
  | some _ => .abort
  | none => .ok ((a, b) :: m)

/-- The loop over `component["attrs"]`, cal2_kh_coefficient.cpp:498-502. -/
def addAttrs (b : Res Built) : List ℤ → Map → Res Map
  | [], m => .ok m
  | a :: l, m => b.bind fun v => (addCoeff m a v).bind fun m' => addAttrs b l m'

/-- The constructors of `ReluctivityCoefficient`/`ConductivityCoefficient`: the loop over the components.
conductivity_coefficient.cpp:230-252. -/
noncomputable def buildPlain (f : Component → Res Built) : List Component → Map → Res Map
  | [], m => .ok m
  | c :: l, m =>
    if c.attr ≠ -1 then
      (f c).bind fun v => (addCoeff m c.attr v).bind fun m' => buildPlain f l m'
    else (addAttrs (f c) c.attrs m).bind fun m' => buildPlain f l m'

/-- The constructors of `CAL2khCoefficient`, `CAL2keCoefficient`, `DemagFluxCoefficient` and
`PMDemagConstraintCoefficient`: in the `attr` branch they call `constructDefault…Coeff(component, …)`,
whose first parameter is a `std::string`; converting a JSON object to a string throws a type error.
cal2_kh_coefficient.cpp:480-533, pm_demag_constraint_coeff.cpp:454-511, demag_flux_coefficient.cpp:217-266. -/
noncomputable def buildDefault (f : Component → Res Built) : List Component → Map → Res Map
  | [], m => .ok m
  | c :: l, m =>
    if c.attr ≠ -1 then .typeError
    else (addAttrs (f c) c.attrs m).bind fun m' => buildDefault f l m'

/-- `ReluctivityCoefficient::Eval` at an element of attribute `a` and flux density `b`: `law` evaluates the spline coefficients; a constant ignores the flux density; without an entry the
coefficient `1 / mu_0` the constructor starts with.  reluctivity_coefficient.cpp:310-315, 345-371. -/
noncomputable def nuAt (law : Built → ℝ → ℝ) (m : Map) (a : ℤ) (b : ℝ) : ℝ :=
  match m.lookup a with
  | some (.const c) => c
  | some v => law v b
  | none => nu0

end Verif.MatCoeffs
