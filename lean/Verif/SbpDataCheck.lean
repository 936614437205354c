import Verif.SbpData
import Verif.SbpProps
import Mathlib.Algebra.Order.Group.Abs
import Mathlib.Data.Int.Cast.Lemmas
import Mathlib.Algebra.Order.Ring.Cast
import Mathlib.Algebra.BigOperators.Fin
import Mathlib.Algebra.Order.Ring.Abs
import Mathlib.Algebra.Order.BigOperators.Group.Finset

/-!
Kernel-evaluated integer checks of the SBP tables, used by `SbpDataProps` for property C89: the shipped SBP operators differentiate and integrate every polynomial of the
advertised degree (up to the rounding of the tabulated decimals), have positive weights and the
skew-symmetry the two-point fluxes rely on.
-/

namespace Verif.Sbp
open Finset

/-! ### Efficient integer checks (evaluated by the kernel) -/

/-- bounded "for all".
checks the tables of sbp_operators.hpp:6-3000 and sbp_fe.cpp:657-988; specification side, no code counterpart. -/
def allBelow : ℕ → (ℕ → Bool) → Bool
  | 0, _ => true
  | n + 1, f => allBelow n f && f n

theorem allBelow_spec {n : ℕ} {f : ℕ → Bool} (h : allBelow n f = true) : ∀ i < n, f i = true := by
  induction n with
  | zero => intro i hi; omega
  | succ n ih =>
    rw [allBelow, Bool.and_eq_true] at h
    intro i hi
    rcases Nat.lt_succ_iff_lt_or_eq.1 hi with h' | rfl
    · exact ih h.1 i h'
    · exact h.2

/-- dot product of two lists.
checks the tables of sbp_operators.hpp:6-3000 and sbp_fe.cpp:657-988; specification side, no code counterpart. -/
def dotZ : List ℤ → List ℤ → ℤ
  | a :: l, b :: m => a * b + dotZ l m
  | _, _ => 0

/-- `x^a` product over directions.
checks the tables of sbp_operators.hpp:6-3000 and sbp_fe.cpp:657-988; specification side, no code counterpart. -/
def monoZ (t : Table) (a : ℕ → ℕ) (i : ℕ) : ℕ → ℤ
  | 0 => 1
  | d + 1 => monoZ t a i d * (t.x.getD d []).getD i 0 ^ a d

/-- total degree over the first `d` directions.
checks the tables of sbp_operators.hpp:6-3000 and sbp_fe.cpp:657-988; specification side, no code counterpart. -/
def degN (a : ℕ → ℕ) : ℕ → ℕ
  | 0 => 0
  | d + 1 => degN a d + a d

/-- product of the factorials of the exponents.
checks the tables of sbp_operators.hpp:6-3000 and sbp_fe.cpp:657-988; specification side, no code counterpart. -/
def expProd (a : ℕ → ℕ) : ℕ → ℕ
  | 0 => 1
  | d + 1 => expProd a d * (a d).factorial

/-- values of a monomial at the nodes, as a list.
checks the tables of sbp_operators.hpp:6-3000 and sbp_fe.cpp:657-988; specification side, no code counterpart. -/
def monoList (t : Table) (a : ℕ → ℕ) : List ℤ := (List.range t.n).map (fun i => monoZ t a i t.dim)

/-- lower the exponent of direction `di`.
checks the tables of sbp_operators.hpp:6-3000 and sbp_fe.cpp:657-988; specification side, no code counterpart. -/
def lower (a : ℕ → ℕ) (di : ℕ) : ℕ → ℕ := fun d => if d = di then a d - 1 else a d

/-- exponents of a 1D/2D/3D monomial.
checks the tables of sbp_operators.hpp:6-3000 and sbp_fe.cpp:657-988; specification side, no code counterpart. -/
def expo (i j k : ℕ) : ℕ → ℕ := fun d => if d = 0 then i else if d = 1 then j else k

/-- derivative condition for one monomial and direction; tolerance `2e-15`.
checks the tables of sbp_operators.hpp:6-3000 and sbp_fe.cpp:657-988; specification side, no code counterpart. -/
def derivOK (t : Table) (di : ℕ) (a : ℕ → ℕ) : Bool :=
  let vals := monoList t a
  allBelow t.n fun i =>
    decide (|dotZ ((t.q.getD di []).getD i []) vals -
      10 ^ 34 * (t.w.getD i 0) * (a di) * monoZ t (lower a di) i t.dim| ≤
      2 * 10 ^ 19 * 10 ^ (19 * degN a t.dim))

/-- row lengths.
checks the tables of sbp_operators.hpp:6-3000 and sbp_fe.cpp:657-988; specification side, no code counterpart. -/
def sizesOK (t : Table) : Bool :=
  allBelow t.dim fun di => allBelow t.n fun i =>
    ((t.q.getD di []).getD i []).length == t.n

/-- exactness of the quadrature for one monomial; tolerance `1e-15`.
checks the tables of sbp_operators.hpp:6-3000 and sbp_fe.cpp:657-988; specification side, no code counterpart. -/
def quadOK (t : Table) (a : ℕ → ℕ) : Bool :=
  decide (|dotZ t.w (monoList t a) * ((degN a t.dim + t.dim).factorial : ℤ) -
      ((expProd a t.dim : ℕ) : ℤ) * 10 ^ (19 * (degN a t.dim + 1))| * 10 ^ 15 ≤
      ((degN a t.dim + t.dim).factorial : ℤ) * 10 ^ (19 * (degN a t.dim + 1)))

/-- all the exponents of total degree at most `p` in `dim` directions.
checks the tables of sbp_operators.hpp:6-3000 and sbp_fe.cpp:657-988; specification side, no code counterpart. -/
def allExpo (dim p : ℕ) (f : (ℕ → ℕ) → Bool) : Bool :=
  allBelow (p + 1) fun i => allBelow (if 2 ≤ dim then p + 1 - i else 1) fun j =>
    allBelow (if 3 ≤ dim then p + 1 - i - j else 1) fun k => f (expo i j k)

/-- the whole check of an element of degree `p`.
checks the tables of sbp_operators.hpp:6-3000 and sbp_fe.cpp:657-988; specification side, no code counterpart. -/
def elemOK (t : Table) (p : ℕ) : Bool :=
  sizesOK t &&
  (allBelow t.dim fun di => allExpo t.dim p (derivOK t di)) &&
  allExpo t.dim (2 * p) (quadOK t) &&
  (allBelow t.n fun i => decide (0 < t.w.getD i 0))

/-- off-diagonal entries are exactly skew-symmetric.
checks the tables of sbp_operators.hpp:6-3000 and sbp_fe.cpp:657-988; specification side, no code counterpart. -/
def skewOK (t : Table) : Bool :=
  allBelow t.dim fun di => allBelow t.n fun i => allBelow i fun j =>
    decide (((t.q.getD di []).getD i []).getD j 0 = -((t.q.getD di []).getD j []).getD i 0)

set_option maxRecDepth 100000 in
theorem tri0_ok : elemOK tri0 0 = true := by decide +kernel
set_option maxRecDepth 100000 in
theorem tri0_ok1 : (allBelow tri0.dim fun di => allExpo tri0.dim 1 (derivOK tri0 di)) = true := by
  decide +kernel
set_option maxRecDepth 100000 in
theorem tri1_ok : elemOK tri1 1 = true := by decide +kernel
set_option maxRecDepth 100000 in
theorem tri2_ok : elemOK tri2 2 = true := by decide +kernel
set_option maxRecDepth 100000 in
theorem tri3_ok : elemOK tri3 3 = true := by decide +kernel
set_option maxRecDepth 100000 in
theorem tri4_ok : elemOK tri4 4 = true := by decide +kernel
set_option maxRecDepth 100000 in
theorem tet0_ok : elemOK tet0 0 = true := by decide +kernel
set_option maxRecDepth 100000 in
theorem tet1_ok : elemOK tet1 1 = true := by decide +kernel

end Verif.Sbp
