import Mathlib.Data.Rat.Defs
import Mathlib.Algebra.Order.Field.Rat
import Mathlib.Algebra.Order.Field.Power
import Mathlib.Tactic.Ring
import Mathlib.Tactic.Linarith
import Mathlib.Tactic.Positivity
import Mathlib.Tactic.NormNum
import Mathlib.Tactic.FieldSimp

/-!
# Text state files (`ASCIILogger`, `src/common/data_logging.hpp:21-68`)

A `double` is a finite value (an exact rational of the form `m·2^e`) or not finite (infinity or NaN).
The sign of zero is not modelled.  Printing and parsing are the correctly
rounded conversions the C library provides, given as relations so that every tie-breaking rule is covered.
-/

namespace Verif.AsciiFiles

/-- The finite IEEE-754 binary64 values (type `double` of `time` and `data`, `data_logging.hpp:27,35`). -/
def IsDouble (x : ℚ) : Prop :=
  ∃ m e : ℤ, |m| < 2 ^ 53 ∧ -1074 ≤ e ∧ e ≤ 971 ∧ x = m * (2 : ℚ) ^ e

/-- A `double` as the streams see it (`data_logging.hpp:37-42`): finite, or one of inf/nan. -/
inductive Val
  | fin (x : ℚ)
  | nonfinite
  deriving DecidableEq

/-- Well-formedness: a finite value is one of the binary64 values (type `double`, `data_logging.hpp:27,35`). -/
def Val.Ok : Val → Prop
  | .fin x => IsDouble x
  | .nonfinite => True

/-- `file << x` under `std::setprecision(digits)` (`data_logging.hpp:37-42`): the decimal with
`digits` significant digits nearest to `x`.  Non-finite values print as `nan`/`inf`. -/
def Prints (digits : ℕ) : Val → Val → Prop
  | .fin x, .fin y => (x = 0 ∧ y = 0) ∨
      ∃ E k : ℤ, (10 : ℚ) ^ E ≤ |x| ∧ |x| < (10 : ℚ) ^ (E + 1) ∧
        y = k * (10 : ℚ) ^ (E + 1 - digits) ∧ |y - x| ≤ (10 : ℚ) ^ (E + 1 - digits) / 2
  | .nonfinite, .nonfinite => True
  | _, _ => False

/-- Text of a file: the printed time, the printed size (exact), the printed entries.
data_logging.hpp:24-43. -/
structure Text where
  time : Val
  size : ℕ
  entries : List Val

/-- `ASCIILogger::saveState` (`data_logging.hpp:24-43`). -/
def Saves (time : Val) (data : List Val) (f : Text) : Prop :=
  Prints 18 time f.time ∧ f.size = data.length ∧ List.Forall₂ (Prints 18) data f.entries

/-- The nearest double to a decimal, as `operator>>` yields (`data_logging.hpp:54,62`). -/
def Nearest (y z : ℚ) : Prop := IsDouble z ∧ ∀ w, IsDouble w → |z - y| ≤ |w - y|

/-- `infile >> v` on one token (`data_logging.hpp:54,62`).  `good` is the stream state before; on success the value is a nearest double;
`nan`/`inf` are not accepted by `num_get`: the value becomes 0 and the stream fails; a failed
stream leaves the value alone. -/
inductive Extract : Bool → Val → Val → Val → Bool → Prop
  | ok {old y z} : Nearest y z → Extract true (.fin y) old (.fin z) true
  | bad {old} : Extract true .nonfinite old (.fin 0) false
  | failed {tok old} : Extract false tok old old false

/-- The loop over entries (`data_logging.hpp:60-63`); `olds` is the (unspecified) content of the vector after
`SetSize`.  If the file has fewer tokens than the vector has entries the remaining entries keep their
content; surplus tokens are ignored. -/
inductive ReadEntries : Bool → List Val → List Val → List Val → Prop
  | eof {g olds} : ReadEntries g [] olds olds
  | surplus {g tok toks} : ReadEntries g (tok :: toks) [] []
  | cons {g g' tok toks old olds v vs} : Extract g tok old v g' → ReadEntries g' toks olds vs →
      ReadEntries g (tok :: toks) (old :: olds) (v :: vs)

/-- `ASCIILogger::readState` (`data_logging.hpp:45-64`): if the time could not be read the size stays 0. -/
inductive Reads (f : Text) (time0 : Val) (junk : ℕ → List Val) : Val → List Val → Prop
  | ok {t vs} : Extract true f.time time0 t true → ReadEntries true f.entries (junk f.size) vs →
      Reads f time0 junk t vs
  | badTime {t} : Extract true f.time time0 t false → Reads f time0 junk t []

end Verif.AsciiFiles
