import Mathlib.Algebra.Order.Field.Basic
import Mathlib.Algebra.Order.Group.Abs

/-!
# Model of the root finders and `quadInterp` in `src/utils/utils.cpp`

`double` is an ordered field `K`; the callback `func` is an arbitrary function `K → K`.
-/

namespace Verif.RootFind

variable {K : Type} [Field K] [LinearOrder K]

/-- How a root finder can end. `iters` is the value of the local `iter`. utils.cpp:288-385. -/
inductive Out (K : Type) where
  /-- normal return of `x` after `iters` loop iterations -/
  | ret (x : K) (iters : ℕ)
  /-- an exception is thrown -/
  | throw
  /-- a division by zero occurred; the IEEE inf/NaN continuation is not modelled -/
  | nonfinite
  deriving DecidableEq

/-- The `while` loop and the tail of `bisection` (`utils.cpp:303-331`).
`fuel` is `maxiter - iter`, so `iter < maxiter` is `fuel ≠ 0` and `iter >= maxiter` is
`fuel = 0`; `iter` is the local counter. -/
def bisLoop (f : K → K) (ftol xtol : K) : ℕ → ℕ → K → K → K → K → K → K → Out K
  | 0, _, _, _, _, _, _, _ => .throw
  | fuel + 1, iter, xl, fl, xr, fr, xm, fm =>
    if |fm| > ftol ∧ |xr - xl| > xtol then
      if fm * fl < 0 then
        let xm' := (xl + xm) / 2
        bisLoop f ftol xtol fuel (iter + 1) xl fl xm fm xm' (f xm')
      else if fm * fr < 0 then
        let xm' := (xm + xr) / 2
        bisLoop f ftol xtol fuel (iter + 1) xm fm xr fr xm' (f xm')
      else
        -- `iter++; ... break;` followed by the test `iter >= maxiter`
        if fuel = 0 then .throw else .ret xm (iter + 1)
    else .ret xm iter

/-- `bisection` (`utils.cpp:288-332`).  A non-positive `maxiter` behaves as `0`. -/
def bisection (f : K → K) (xl xr ftol xtol : K) (maxiter : ℤ) : Out K :=
  let fl := f xl
  let fr := f xr
  if fl * fr > 0 then .throw
  else
    let xm := (xl + xr) / 2
    bisLoop f ftol xtol maxiter.toNat 0 xl fl xr fr xm (f xm)

/-- The `while` loop of `secant` (`utils.cpp:358-379`), `fuel = maxiter - iter` (0 if negative).
Result: final `x` and `iter`, or `none` if `f2 - f1 = 0` made the division non-finite.
Simplification: exceptions thrown by the callback itself (swallowed by the code) are not modelled. -/
def secLoop (func : K → K) (ftol xtol : K) : ℕ → ℕ → K → K → K → K → K → K → Option (K × ℕ)
  | 0, iter, _, _, _, _, x, _ => some (x, iter)
  | fuel + 1, iter, x1, f1, x2, f2, x, f =>
    if |f| > ftol then
      if f2 - f1 = 0 then none
      else
        let dx := f2 * (x2 - x1) / (f2 - f1)
        let x' := x - dx
        let f' := func x'
        if |dx| < xtol then some (x', iter + 1)
        else secLoop func ftol xtol fuel (iter + 1) x2 f2 x' f' x' f'
    else some (x, iter)

/-- `secant` (`utils.cpp:334-385`). -/
def secant (func : K → K) (x1 x2 ftol xtol : K) (maxiter : ℤ) : Out K :=
  let f1 := func x1
  let f2 := func x2
  let r :=
    if |f1| < |f2| then secLoop func ftol xtol maxiter.toNat 0 x2 f2 x1 f1 x1 f1
    else secLoop func ftol xtol maxiter.toNat 0 x1 f1 x2 f2 x2 f2
  match r with
  | none => .nonfinite
  | some (x, iter) => if (iter : ℤ) > maxiter then .throw else .ret x iter

/-- `quadInterp` (`utils.cpp:140-151`). -/
def quadInterp (x0 y0 dydx0 x1 y1 : K) : K :=
  let c1 := (2 * x0 * y0 - 2 * x0 * y1 - x0 * x0 * dydx0 + x1 * x1 * dydx0) /
    (x0 * x0 - 2 * x1 * x0 + x1 * x1)
  let c2 := -(y0 - y1 - x0 * dydx0 + x1 * dydx0) / (x0 * x0 - 2 * x1 * x0 + x1 * x1);
  -c1 / (2 * c2)

end Verif.RootFind
