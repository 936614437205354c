/-
Coefficients of two and three states that differ from material to material
(`MeshDependentTwoStateCoefficient`, `MeshDependentThreeStateCoefficient`), the abstract base classes and
the wrappers of the CAL2 loss coefficients and of the demagnetization constraint.
Sources: src/common/coefficient.hpp:68-251, 777-903, 908-1085; src/common/coefficient.cpp:488-850, 907-1582.

A call receives the attribute `a` of the element and the point `p` (element and integration point); a
`double` is a real number.  Simplifications: `material_map` is the list of its pairs (the keys are distinct
because `addCoefficient` reports a duplicate), the node derivative of `EvalRevDiff` is an update of an
abstract matrix type `D`.
-/
import Mathlib.Data.Real.Basic

namespace Verif.MultiState

/-- The virtual methods of `TwoStateCoefficient`, coefficient.hpp:68-125; `eval0` is `Eval(trans, ip)`,
`rev` is `EvalRevDiff`. -/
structure Two (P D : Type) where
  eval0 : ℤ → P → ℝ
  eval : ℤ → P → ℝ → ℝ → ℝ
  d1 : ℤ → P → ℝ → ℝ → ℝ
  d2 : ℤ → P → ℝ → ℝ → ℝ
  d11 : ℤ → P → ℝ → ℝ → ℝ
  d22 : ℤ → P → ℝ → ℝ → ℝ
  d12 : ℤ → P → ℝ → ℝ → ℝ
  d21 : ℤ → P → ℝ → ℝ → ℝ
  rev : ℝ → ℤ → P → D → D

/-- The virtual methods of `ThreeStateCoefficient`, coefficient.hpp:127-249. -/
structure Three (P D : Type) where
  eval0 : ℤ → P → ℝ
  eval : ℤ → P → ℝ → ℝ → ℝ → ℝ
  d1 : ℤ → P → ℝ → ℝ → ℝ → ℝ
  d2 : ℤ → P → ℝ → ℝ → ℝ → ℝ
  d3 : ℤ → P → ℝ → ℝ → ℝ → ℝ
  d11 : ℤ → P → ℝ → ℝ → ℝ → ℝ
  d22 : ℤ → P → ℝ → ℝ → ℝ → ℝ
  d33 : ℤ → P → ℝ → ℝ → ℝ → ℝ
  d12 : ℤ → P → ℝ → ℝ → ℝ → ℝ
  d13 : ℤ → P → ℝ → ℝ → ℝ → ℝ
  d23 : ℤ → P → ℝ → ℝ → ℝ → ℝ
  d21 : ℤ → P → ℝ → ℝ → ℝ → ℝ
  d31 : ℤ → P → ℝ → ℝ → ℝ → ℝ
  d32 : ℤ → P → ℝ → ℝ → ℝ → ℝ
  rev : ℝ → ℤ → P → D → D

/-- A subclass of `TwoStateCoefficient` that overrides only the pure virtual methods: the one without
states is the one at the states 0, 0, the second derivatives are 0.  coefficient.hpp:71-125. -/
def Two.base {P D : Type} (e f g : ℤ → P → ℝ → ℝ → ℝ) (r : ℝ → ℤ → P → D → D) : Two P D where
  eval0 a p := e a p 0 0
  eval := e
  d1 := f
  d2 := g
  d11 _ _ _ _ := 0
  d22 _ _ _ _ := 0
  d12 _ _ _ _ := 0
  d21 _ _ _ _ := 0
  rev := r

/-- The same for `ThreeStateCoefficient`, coefficient.hpp:130-249. -/
def Three.base {P D : Type} (e f g h : ℤ → P → ℝ → ℝ → ℝ → ℝ) (r : ℝ → ℤ → P → D → D) : Three P D where
  eval0 a p := e a p 0 0 0
  eval := e
  d1 := f
  d2 := g
  d3 := h
  d11 _ _ _ _ _ := 0
  d22 _ _ _ _ _ := 0
  d33 _ _ _ _ _ := 0
  d12 _ _ _ _ _ := 0
  d13 _ _ _ _ _ := 0
  d23 _ _ _ _ _ := 0
  d21 _ _ _ _ _ := 0
  d31 _ _ _ _ _ := 0
  d32 _ _ _ _ _ := 0
  rev := r

/-- A pointer to an `mfem::Coefficient`: what `dynamic_cast` to the two abstract classes can find out.
coefficient.cpp:528, 948. -/
inductive Coeff (P D : Type) where
  | plain (e : ℤ → P → ℝ) (r : ℝ → ℤ → P → D → D)
  | two (c : Two P D)
  | three (c : Three P D)

variable {P D : Type}

/-- `coeff->Eval(trans, ip)`, coefficient.hpp:71-75, 130-134. -/
def Coeff.eval0 : Coeff P D → ℤ → P → ℝ
  | .plain e _, a, p => e a p
  | .two c, a, p => c.eval0 a p
  | .three c, a, p => c.eval0 a p

/-- `coeff->EvalRevDiff(Q_bar, trans, ip, PointMat_bar)`, coefficient.cpp:843. -/
def Coeff.rev : Coeff P D → ℝ → ℤ → P → D → D
  | .plain _ r, q, a, p, M => r q a p M
  | .two c, q, a, p, M => c.rev q a p M
  | .three c, q, a, p, M => c.rev q a p M

/-- The data of both mesh dependent classes, coefficient.hpp:896-898, 1075-1077. -/
structure Mesh (P D : Type) where
  map : List (ℤ × Coeff P D)
  dflt : Option (Coeff P D)

/-- `material_map.find(attr)`, coefficient.cpp:524. -/
def find : List (ℤ × Coeff P D) → ℤ → Option (Coeff P D)
  | [], _ => none
  | (k, c) :: l, a => if k = a then some c else find l a

/-- `addCoefficient`: `none` is the call of `mfem_error`.  coefficient.hpp:797-806, 930-939. -/
def Mesh.add (m : Mesh P D) (a : ℤ) (c : Coeff P D) : Option (Mesh P D) :=
  match find m.map a with
  | some _ => none
  | none => some { m with map := m.map ++ [(a, c)] }

/-- `Eval(trans, ip)`, coefficient.cpp:488-512, 907-932. -/
def Mesh.eval0 (m : Mesh P D) (a : ℤ) (p : P) : ℝ :=
  match find m.map a with
  | some c => c.eval0 a p
  | none =>
    match m.dflt with
    | some c => c.eval0 a p
    | none => 0

/-- `EvalRevDiff`, coefficient.cpp:830-850, 1559-1581. -/
def Mesh.rev (m : Mesh P D) (q : ℝ) (a : ℤ) (p : P) (M : D) : D :=
  match find m.map a with
  | some c => c.rev q a p M
  | none =>
    match m.dflt with
    | some c => c.rev q a p M
    | none => M

/-- `Eval(trans, ip, s1, s2)` of `MeshDependentTwoStateCoefficient`, coefficient.cpp:514-557. -/
def Mesh.two_eval (m : Mesh P D) (a : ℤ) (p : P) (s1 s2 : ℝ) : ℝ :=
  match find m.map a with
  | some c =>
    match c with
    | .two t => t.eval a p s1 s2
    | c => c.eval0 a p
  | none =>
    match m.dflt with
    | some c =>
      match c with
      | .two t => t.eval a p s1 s2
      | c => c.eval0 a p
    | none => 0

/-- `EvalDerivS1` of `MeshDependentTwoStateCoefficient`, coefficient.cpp:559-602. -/
def Mesh.two_d1 (m : Mesh P D) (a : ℤ) (p : P) (s1 s2 : ℝ) : ℝ :=
  match find m.map a with
  | some c =>
    match c with
    | .two t => t.d1 a p s1 s2
    | _ => 0
  | none =>
    match m.dflt with
    | some c =>
      match c with
      | .two t => t.d1 a p s1 s2
      | _ => 0
    | none => 0

/-- `EvalDerivS2` of `MeshDependentTwoStateCoefficient`, coefficient.cpp:604-647. -/
def Mesh.two_d2 (m : Mesh P D) (a : ℤ) (p : P) (s1 s2 : ℝ) : ℝ :=
  match find m.map a with
  | some c =>
    match c with
    | .two t => t.d2 a p s1 s2
    | _ => 0
  | none =>
    match m.dflt with
    | some c =>
      match c with
      | .two t => t.d2 a p s1 s2
      | _ => 0
    | none => 0

/-- `Eval2ndDerivS1` of `MeshDependentTwoStateCoefficient`, coefficient.cpp:649-692. -/
def Mesh.two_d11 (m : Mesh P D) (a : ℤ) (p : P) (s1 s2 : ℝ) : ℝ :=
  match find m.map a with
  | some c =>
    match c with
    | .two t => t.d11 a p s1 s2
    | _ => 0
  | none =>
    match m.dflt with
    | some c =>
      match c with
      | .two t => t.d11 a p s1 s2
      | _ => 0
    | none => 0

/-- `Eval2ndDerivS2` of `MeshDependentTwoStateCoefficient`, coefficient.cpp:694-737. -/
def Mesh.two_d22 (m : Mesh P D) (a : ℤ) (p : P) (s1 s2 : ℝ) : ℝ :=
  match find m.map a with
  | some c =>
    match c with
    | .two t => t.d22 a p s1 s2
    | _ => 0
  | none =>
    match m.dflt with
    | some c =>
      match c with
      | .two t => t.d22 a p s1 s2
      | _ => 0
    | none => 0

/-- `Eval2ndDerivS1S2` of `MeshDependentTwoStateCoefficient`, coefficient.cpp:739-782. -/
def Mesh.two_d12 (m : Mesh P D) (a : ℤ) (p : P) (s1 s2 : ℝ) : ℝ :=
  match find m.map a with
  | some c =>
    match c with
    | .two t => t.d12 a p s1 s2
    | _ => 0
  | none =>
    match m.dflt with
    | some c =>
      match c with
      | .two t => t.d12 a p s1 s2
      | _ => 0
    | none => 0

/-- `Eval2ndDerivS2S1` of `MeshDependentTwoStateCoefficient`, coefficient.cpp:784-828. -/
def Mesh.two_d21 (m : Mesh P D) (a : ℤ) (p : P) (s1 s2 : ℝ) : ℝ :=
  match find m.map a with
  | some c =>
    match c with
    | .two t => t.d21 a p s1 s2
    | _ => 0
  | none =>
    match m.dflt with
    | some c =>
      match c with
      | .two t => t.d21 a p s1 s2
      | _ => 0
    | none => 0

/-- `Eval(trans, ip, s1, s2, s3)` of `MeshDependentThreeStateCoefficient`, coefficient.cpp:934-978. -/
def Mesh.three_eval (m : Mesh P D) (a : ℤ) (p : P) (s1 s2 s3 : ℝ) : ℝ :=
  match find m.map a with
  | some c =>
    match c with
    | .three t => t.eval a p s1 s2 s3
    | c => c.eval0 a p
  | none =>
    match m.dflt with
    | some c =>
      match c with
      | .three t => t.eval a p s1 s2 s3
      | c => c.eval0 a p
    | none => 0

/-- `EvalDerivS1` of `MeshDependentThreeStateCoefficient`, coefficient.cpp:980-1026. -/
def Mesh.three_d1 (m : Mesh P D) (a : ℤ) (p : P) (s1 s2 s3 : ℝ) : ℝ :=
  match find m.map a with
  | some c =>
    match c with
    | .three t => t.d1 a p s1 s2 s3
    | _ => 0
  | none =>
    match m.dflt with
    | some c =>
      match c with
      | .three t => t.d1 a p s1 s2 s3
      | _ => 0
    | none => 0

/-- `EvalDerivS2` of `MeshDependentThreeStateCoefficient`, coefficient.cpp:1028-1074. -/
def Mesh.three_d2 (m : Mesh P D) (a : ℤ) (p : P) (s1 s2 s3 : ℝ) : ℝ :=
  match find m.map a with
  | some c =>
    match c with
    | .three t => t.d2 a p s1 s2 s3
    | _ => 0
  | none =>
    match m.dflt with
    | some c =>
      match c with
      | .three t => t.d2 a p s1 s2 s3
      | _ => 0
    | none => 0

/-- `EvalDerivS3` of `MeshDependentThreeStateCoefficient`, coefficient.cpp:1076-1122. -/
def Mesh.three_d3 (m : Mesh P D) (a : ℤ) (p : P) (s1 s2 s3 : ℝ) : ℝ :=
  match find m.map a with
  | some c =>
    match c with
    | .three t => t.d3 a p s1 s2 s3
    | _ => 0
  | none =>
    match m.dflt with
    | some c =>
      match c with
      | .three t => t.d3 a p s1 s2 s3
      | _ => 0
    | none => 0

/-- `Eval2ndDerivS1` of `MeshDependentThreeStateCoefficient`, coefficient.cpp:1124-1170. -/
def Mesh.three_d11 (m : Mesh P D) (a : ℤ) (p : P) (s1 s2 s3 : ℝ) : ℝ :=
  match find m.map a with
  | some c =>
    match c with
    | .three t => t.d11 a p s1 s2 s3
    | _ => 0
  | none =>
    match m.dflt with
    | some c =>
      match c with
      | .three t => t.d11 a p s1 s2 s3
      | _ => 0
    | none => 0

/-- `Eval2ndDerivS2` of `MeshDependentThreeStateCoefficient`, coefficient.cpp:1172-1218. -/
def Mesh.three_d22 (m : Mesh P D) (a : ℤ) (p : P) (s1 s2 s3 : ℝ) : ℝ :=
  match find m.map a with
  | some c =>
    match c with
    | .three t => t.d22 a p s1 s2 s3
    | _ => 0
  | none =>
    match m.dflt with
    | some c =>
      match c with
      | .three t => t.d22 a p s1 s2 s3
      | _ => 0
    | none => 0

/-- `Eval2ndDerivS3` of `MeshDependentThreeStateCoefficient`, coefficient.cpp:1220-1266. -/
def Mesh.three_d33 (m : Mesh P D) (a : ℤ) (p : P) (s1 s2 s3 : ℝ) : ℝ :=
  match find m.map a with
  | some c =>
    match c with
    | .three t => t.d33 a p s1 s2 s3
    | _ => 0
  | none =>
    match m.dflt with
    | some c =>
      match c with
      | .three t => t.d33 a p s1 s2 s3
      | _ => 0
    | none => 0

/-- `Eval2ndDerivS1S2` of `MeshDependentThreeStateCoefficient`, coefficient.cpp:1268-1314. -/
def Mesh.three_d12 (m : Mesh P D) (a : ℤ) (p : P) (s1 s2 s3 : ℝ) : ℝ :=
  match find m.map a with
  | some c =>
    match c with
    | .three t => t.d12 a p s1 s2 s3
    | _ => 0
  | none =>
    match m.dflt with
    | some c =>
      match c with
      | .three t => t.d12 a p s1 s2 s3
      | _ => 0
    | none => 0

/-- `Eval2ndDerivS1S3` of `MeshDependentThreeStateCoefficient`, coefficient.cpp:1316-1362. -/
def Mesh.three_d13 (m : Mesh P D) (a : ℤ) (p : P) (s1 s2 s3 : ℝ) : ℝ :=
  match find m.map a with
  | some c =>
    match c with
    | .three t => t.d13 a p s1 s2 s3
    | _ => 0
  | none =>
    match m.dflt with
    | some c =>
      match c with
      | .three t => t.d13 a p s1 s2 s3
      | _ => 0
    | none => 0

/-- `Eval2ndDerivS2S3` of `MeshDependentThreeStateCoefficient`, coefficient.cpp:1364-1410. -/
def Mesh.three_d23 (m : Mesh P D) (a : ℤ) (p : P) (s1 s2 s3 : ℝ) : ℝ :=
  match find m.map a with
  | some c =>
    match c with
    | .three t => t.d23 a p s1 s2 s3
    | _ => 0
  | none =>
    match m.dflt with
    | some c =>
      match c with
      | .three t => t.d23 a p s1 s2 s3
      | _ => 0
    | none => 0

/-- `Eval2ndDerivS2S1` of `MeshDependentThreeStateCoefficient`, coefficient.cpp:1412-1459. -/
def Mesh.three_d21 (m : Mesh P D) (a : ℤ) (p : P) (s1 s2 s3 : ℝ) : ℝ :=
  match find m.map a with
  | some c =>
    match c with
    | .three t => t.d21 a p s1 s2 s3
    | _ => 0
  | none =>
    match m.dflt with
    | some c =>
      match c with
      | .three t => t.d21 a p s1 s2 s3
      | _ => 0
    | none => 0

/-- `Eval2ndDerivS3S1` of `MeshDependentThreeStateCoefficient`, coefficient.cpp:1461-1508. -/
def Mesh.three_d31 (m : Mesh P D) (a : ℤ) (p : P) (s1 s2 s3 : ℝ) : ℝ :=
  match find m.map a with
  | some c =>
    match c with
    | .three t => t.d31 a p s1 s2 s3
    | _ => 0
  | none =>
    match m.dflt with
    | some c =>
      match c with
      | .three t => t.d31 a p s1 s2 s3
      | _ => 0
    | none => 0

/-- `Eval2ndDerivS3S2` of `MeshDependentThreeStateCoefficient`, coefficient.cpp:1510-1557. -/
def Mesh.three_d32 (m : Mesh P D) (a : ℤ) (p : P) (s1 s2 s3 : ℝ) : ℝ :=
  match find m.map a with
  | some c =>
    match c with
    | .three t => t.d32 a p s1 s2 s3
    | _ => 0
  | none =>
    match m.dflt with
    | some c =>
      match c with
      | .three t => t.d32 a p s1 s2 s3
      | _ => 0
    | none => 0

/-- `MeshDependentTwoStateCoefficient` as a two-state coefficient, coefficient.hpp:780-899. -/
def Mesh.asTwo (m : Mesh P D) : Two P D where
  eval0 := m.eval0
  eval := m.two_eval
  d1 := m.two_d1
  d2 := m.two_d2
  d11 := m.two_d11
  d22 := m.two_d22
  d12 := m.two_d12
  d21 := m.two_d21
  rev := m.rev

/-- `MeshDependentThreeStateCoefficient` as a three-state coefficient, coefficient.hpp:913-1078. -/
def Mesh.asThree (m : Mesh P D) : Three P D where
  eval0 := m.eval0
  eval := m.three_eval
  d1 := m.three_d1
  d2 := m.three_d2
  d3 := m.three_d3
  d11 := m.three_d11
  d22 := m.three_d22
  d33 := m.three_d33
  d12 := m.three_d12
  d13 := m.three_d13
  d23 := m.three_d23
  d21 := m.three_d21
  d31 := m.three_d31
  d32 := m.three_d32
  rev := m.rev

/-- `PMDemagConstraintCoefficient`: every method forwards to the one of the same name of the mesh dependent
coefficient.  pm_demag_constraint_coeff.cpp:372-448. -/
def demagWrapper (m : Mesh P D) : Two P D where
  eval0 := m.eval0
  eval := m.two_eval
  d1 := m.two_d1
  d2 := m.two_d2
  d11 := m.two_d11
  d22 := m.two_d22
  d12 := m.two_d12
  d21 := m.two_d21
  rev := m.rev

/-- `CAL2khCoefficient`, `CAL2keCoefficient`: likewise.  cal2_kh_coefficient.cpp:342-475,
cal2_ke_coefficient.cpp:342-475. -/
def cal2Wrapper (m : Mesh P D) : Three P D where
  eval0 := m.eval0
  eval := m.three_eval
  d1 := m.three_d1
  d2 := m.three_d2
  d3 := m.three_d3
  d11 := m.three_d11
  d22 := m.three_d22
  d33 := m.three_d33
  d12 := m.three_d12
  d13 := m.three_d13
  d23 := m.three_d23
  d21 := m.three_d21
  d31 := m.three_d31
  d32 := m.three_d32
  rev := m.rev

end Verif.MultiState
