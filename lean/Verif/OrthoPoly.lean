import Mathlib.Analysis.SpecialFunctions.Gamma.Basic
import Mathlib.Analysis.SpecialFunctions.Trigonometric.Basic
import Mathlib.Analysis.SpecialFunctions.Pow.Real

/-!
# Orthogonal polynomials and Vandermonde matrices (`src/common/orthopoly.cpp`)

Real arithmetic.  The vector functions act entry by entry, so one entry is modelled.
-/

namespace Verif.OrthoPoly

open Real

/-- `gamma0` (`orthopoly.cpp:72-74`). -/
noncomputable def gamma0 (α β : ℝ) : ℝ := (2 ^ (α + β + 1) / (α + β + 1)) * (Gamma (α + 1) * Gamma (β + 1) / Gamma (α + β + 1))

/-- `gamma1` (`orthopoly.cpp:83`). -/
noncomputable def gamma1 (α β : ℝ) : ℝ := (α + 1) * (β + 1) * gamma0 α β / (α + β + 3)

/-- `poly_0` (`orthopoly.cpp:76-77`). -/
noncomputable def poly0 (α β : ℝ) : ℝ := 1 / sqrt (gamma0 α β)

/-- `poly_1` (`orthopoly.cpp:84-88`): the code initialises with `alpha + beta`. -/
noncomputable def poly1 (α β x : ℝ) : ℝ := ((α + β) + (α + β + 2) * x) * ((1 / 2) / sqrt (gamma1 α β))

/-- `anew` of loop index `i` (`orthopoly.cpp:99-102`). -/
noncomputable def anew (α β : ℝ) (i : ℕ) : ℝ :=
  let h1 := 2 * ((i : ℝ) + 1) + α + β
  (2 / (h1 + 2)) * sqrt ((i + 2) * (i + 2 + α + β) * (i + 2 + α) * (i + 2 + β) / ((h1 + 1) * (h1 + 3)))

/-- `bnew` of loop index `i` (`orthopoly.cpp:103`). -/
noncomputable def bnew (α β : ℝ) (i : ℕ) : ℝ :=
  let h1 := 2 * ((i : ℝ) + 1) + α + β;
  (-((α * α) - (β * β))) / (h1 * (h1 + 2))

/-- State of the loop `(aold, poly_0, poly_1)` after `k` iterations (`orthopoly.cpp:95-114`). -/
noncomputable def jloop (α β x : ℝ) : ℕ → ℝ × ℝ × ℝ
  | 0 => ((2 / (2 + α + β)) * sqrt ((α + 1) * (β + 1) / (α + β + 3)), poly0 α β, poly1 α β x)
  | k + 1 =>
    let s := jloop α β x k
    let p := (1 / anew α β k) * (-s.1 * s.2.1 + (x - bnew α β k) * s.2.2)
    (anew α β k, s.2.2, p)

/-- `jacobiPoly` at one point (`orthopoly.cpp:63-114`). -/
noncomputable def jacobiPoly (x α β : ℝ) : ℕ → ℝ
  | 0 => poly0 α β
  | 1 => poly1 α β x
  | n + 2 => (jloop α β x (n + 1)).2.2

/-- `prorioPoly` on the triangle at one point (`orthopoly.cpp:116-137`). -/
noncomputable def prorio2 (x y : ℝ) (i j : ℕ) : ℝ :=
  let xi := if y ≠ 1 then 2 * (1 + x) / (1 - y) - 1 else -1
  sqrt 2 * jacobiPoly xi 0 0 i * jacobiPoly y (2 * i + 1) 0 j * (1 - y) ^ i

/-- `prorioPoly` on the tetrahedron at one point (`orthopoly.cpp:139-162`). -/
noncomputable def prorio3 (x y z : ℝ) (i j k : ℕ) : ℝ :=
  let xi := if y + z ≠ 0 then -2 * (1 + x) / (y + z) - 1 else -1
  let eta := if z ≠ 1 then 2 * (1 + y) / (1 - z) - 1 else -1
  sqrt 8 * jacobiPoly xi 0 0 i * jacobiPoly eta (2 * i + 1) 0 j * (1 - eta) ^ i * jacobiPoly z (2 * i + 2 * j + 2) 0 k * (1 - z) ^ (i + j)

/-- Column loop of `getVandermondeForSeg` (`orthopoly.cpp:164-177`): the degree used for each column, in column order. -/
def segCols (d : ℕ) : List ℕ := List.range (d + 1)

/-- Column loops of `getVandermondeForTri` (`orthopoly.cpp:179-199`): the indices passed to `prorioPoly`, in column order. -/
def triCols (d : ℕ) : List (ℕ × ℕ) := (List.range (d + 1)).flatMap (fun r => (List.range (r + 1)).map (fun j => (r - j, j)))

/-- Inner two loops of `getVandermondeForTet` for one total degree. orthopoly.cpp:201-225. -/
def tetRow (r : ℕ) : List (ℕ × ℕ × ℕ) := (List.range (r + 1)).flatMap (fun k => (List.range (r - k + 1)).map (fun j => (r - j - k, j, k)))

/-- Column loops of `getVandermondeForTet` (`orthopoly.cpp:201-225`). -/
def tetCols (d : ℕ) : List (ℕ × ℕ × ℕ) := (List.range (d + 1)).flatMap tetRow

/-- Number of columns allocated (`orthopoly.cpp:167, 186, 209`). -/
def segN (d : ℕ) : ℕ := d + 1
/-- Number of columns of the triangle matrix, `(degree+1)(degree+2)/2`: orthopoly.cpp:186. -/
def triN (d : ℕ) : ℕ := (d + 1) * (d + 2) / 2
/-- Number of columns of the tetrahedron matrix, `(degree+1)(degree+2)(degree+3)/6`:
orthopoly.cpp:209. -/
def tetN (d : ℕ) : ℕ := (d + 1) * (d + 2) * (d + 3) / 6

/-- The Vandermonde matrix of the triangle: entry of a point in column `c`; `none`: a column the allocation does not have.
orthopoly.cpp:179-199. -/
noncomputable def vandermondeTri (d : ℕ) (x y : ℝ) (c : ℕ) : Option ℝ := (triCols d)[c]?.map (fun ij => prorio2 x y ij.1 ij.2)

/-! ### Lobatto quadrature (`orthopoly.cpp:11-61`) -/

/-- Columns of `P` at one node (`orthopoly.cpp:34-47`): the Legendre recursion `P_{k+1} = ((2k+1)/(k+1)) x P_k - (k/(k+1)) P_{k-1}`. -/
noncomputable def legendre (x : ℝ) : ℕ → ℝ
  | 0 => 1
  | 1 => x
  | k + 2 => (2 * (k + 1 : ℝ) + 1) / ((k + 1 : ℝ) + 1) * (x * legendre x (k + 1)) + -((k : ℝ) + 1) / ((k + 1 : ℝ) + 1) * legendre x k

/-- One sweep for one node (`orthopoly.cpp:48-55`): `x ← x - (x P_d - P_{d-1}) / P_d / (d+1)`, `num_nodes = d + 1`. -/
noncomputable def lobStep (d : ℕ) (x : ℝ) : ℝ := x - (x * legendre x d - legendre x (d - 1)) / legendre x d * (1 / ((d : ℝ) + 1))

/-- Initial guess (`orthopoly.cpp:14-18`). -/
noncomputable def lobInit (d i : ℕ) : ℝ := -cos (π * i / d)

/-- Node `i` after `k` sweeps. orthopoly.cpp:34-55. -/
noncomputable def lobNode (d i : ℕ) : ℕ → ℝ
  | 0 => lobInit d i
  | k + 1 => lobStep d (lobNode d i k)

/-- Weight (`orthopoly.cpp:57-60`) of node `i`: `P` holds the Legendre values of the nodes of the *previous* sweep. -/
noncomputable def lobWeight (d i k : ℕ) : ℝ := (legendre (lobNode d i k) d * legendre (lobNode d i k) d * ((1 / 2) * ((d : ℝ) + 1) * d))⁻¹

end Verif.OrthoPoly
