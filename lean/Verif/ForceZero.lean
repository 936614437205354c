import Verif.Force

/-!
Model of `ForceIntegrator3::GetElementEnergy` with the divisions of floating-point arithmetic
(`/repo/src/physics/electromagnetics/electromag_integ.cpp:9689-9848`): a number is `some x`, and `none` stands for a value that is
not finite.  A sum, difference or product with a value that is not finite is not finite (`0 · ∞` and `∞ - ∞` are NaN).
-/

namespace Verif.Force
open Verif.Sbp Verif.Dense Verif.Diffusion

variable {ndof dim m : ℕ}

/-- Division, electromag_integ.cpp:9785, 9802, 9809. -/
noncomputable def divN (a b : ℝ) : Option ℝ := if b = 0 then none else some (a / b)

/-- Product with a value that may not be finite, electromag_integ.cpp:9802. -/
noncomputable def mulN (a : Option ℝ) (b : ℝ) : Option ℝ := a.map (· * b)

/-- Sum of two values, electromag_integ.cpp:9828. -/
noncomputable def addN (a b : Option ℝ) : Option ℝ := a.bind fun x => b.map fun y => x + y

/-- `for (i = 0; i < n; ++i) s += f(i);`, electromag_integ.cpp:9824-9830. -/
noncomputable def sumN {n : ℕ} (f : Fin n → Option ℝ) : Option ℝ :=
  (List.finRange n).foldl (fun s i => addN s (f i)) (some 0)

/-- `db_magdJ`, electromag_integ.cpp:9788-9817. -/
noncomputable def FPt.dbdJN (p : FPt ndof dim m) (u : Vec ndof) (i j : Fin dim) : Option ℝ :=
  let b := p.bvec u
  let norm := norm2 b
  if dim = 3 then
    let bhat := mulTV p.cs u
    addN (mulN (divN (-norm) (p.J ^ 2)) (p.adj j i)) (mulN (divN 1 (p.J * norm)) (b i * bhat j))
  else
    let badj := mulV p.adj b
    mulN (mulN (divN (-1) (norm * p.J ^ 2)) (b i)) (badj j)

/-- `dBds`, electromag_integ.cpp:9819-9830. -/
noncomputable def FPt.dBdsN (p : FPt ndof dim m) (u : Vec ndof) (dXds : Mat m dim) : Option ℝ :=
  sumN fun j => sumN fun k => mulN (sumN fun l => mulN (p.dbdJN u k l) (p.dshape j l)) (dXds j k)

open Classical in
/-- `ForceIntegrator3::GetElementEnergy`, electromag_integ.cpp:9689-9848. -/
noncomputable def forceN (inBody : Bool) (n : ℕ) (E : ℕ → En) (pt : ℕ → FPt ndof dim m) (dXds : Mat m dim)
    (u : Vec ndof) : Option ℝ :=
  if inBody then some 0 else
  if tiny dXds then some 0 else
  forN n (fun i fun_ =>
    let p := pt i
    let w := p.w * p.J
    let bmag := divN (norm2 (p.bvec u)) p.J
    let f := bmag.bind fun s => addN (mulN (p.dBdsN u dXds) ((E i).e1 s)) (some ((E i).e s * p.tr dXds))
    addN fun_ (mulN (mulN f w) (-1))) (some 0)

end Verif.Force
