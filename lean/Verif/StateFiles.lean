import Mathlib.Data.Nat.Digits.Lemmas
import Mathlib.Data.Nat.Digits.Defs

/-!
# State files written and read by the data loggers (`src/common/data_logging.hpp`)

Modelled: the file names, the byte layout of `BinaryLogger`, reading through `std::ifstream`
(including short and missing files).  Not modelled: `create_directory` failures, full disks, unwritable
directories, path normalisation done by the operating system (`a//b` vs `a/b`), so a file is
identified with the exact string passed to the stream constructor.
-/

namespace Verif.StateFiles

/-- `std::to_string` on a natural number, decimal, no leading zeros (`data_logging.hpp:33,51,77,96`). -/
def natToString (n : ℕ) : List Char :=
  if n = 0 then ['0'] else ((Nat.digits 10 n).reverse).map Nat.digitChar

/-- `std::to_string(int)` (`data_logging.hpp:33,51,77,96`). -/
def intToString : ℤ → List Char
  | .ofNat n => natToString n
  | .negSucc n => '-' :: natToString (n + 1)

/-- The two loggers that write plain files, with their `prefix` (`data_logging.hpp:67,110`). -/
inductive Logger | ascii | binary
  deriving DecidableEq

/-- Directory part of the file name: data_logging.hpp:33,51,77,96. -/
def Logger.dir : Logger → List Char
  | .ascii => "ASCIILogger".toList
  | .binary => "BinaryLogger/".toList

/-- The file name (`data_logging.hpp:32-33,50-51,76-77,95-96`). -/
def fileName (l : Logger) (field : List Char) (timestep rank : ℤ) : List Char :=
  l.dir ++ "/".toList ++ field ++ "_".toList ++ intToString timestep ++ "_".toList ++ intToString rank

/-- A `char` of a binary stream: data_logging.hpp:70-107. -/
abbrev Byte := BitVec 8

/-- Little-endian bytes of the low `8*n` bits of `x` (object representation, `reinterpret_cast<const char*>`).
data_logging.hpp:78-86. -/
def leBytes : ℕ → ℕ → List Byte
  | 0, _ => []
  | n + 1, x => BitVec.ofNat 8 x :: leBytes n (x / 256)

/-- Number represented by little-endian bytes. data_logging.hpp:98-106. -/
def leNat : List Byte → ℕ
  | [] => 0
  | b :: bs => b.toNat + 256 * leNat bs

/-- Bytes of a `double` (given by its 64-bit pattern). data_logging.hpp:79-86. -/
def doubleBytes (x : BitVec 64) : List Byte := leBytes 8 x.toNat
/-- Bytes of an `int`. data_logging.hpp:82-83. -/
def intBytes (x : BitVec 32) : List Byte := leBytes 4 x.toNat
/-- The `double` with the given object representation: data_logging.hpp:98-106. -/
def doubleOf (bs : List Byte) : BitVec 64 := BitVec.ofNat 64 (leNat bs)
/-- The `int` with the given object representation: data_logging.hpp:98-106. -/
def intOf (bs : List Byte) : BitVec 32 := BitVec.ofNat 32 (leNat bs)

/-- Contents written by `BinaryLogger::saveState` (`data_logging.hpp:78-86`): time, size, data.
`size` is the `int` held by the vector. -/
def saveBytes (time : BitVec 64) (data : List (BitVec 64)) : List Byte :=
  doubleBytes time ++ intBytes (BitVec.ofNat 32 data.length) ++ data.flatMap doubleBytes

/-- File system: path ↦ contents. data_logging.hpp:78,97. -/
abbrev FS := List Char → Option (List Byte)

/-- `BinaryLogger::saveState` (`data_logging.hpp:70-87`): `std::ofstream` with `out` truncates. -/
def save (fs : FS) (field : List Char) (timestep rank : ℤ) (time : BitVec 64)
    (data : List (BitVec 64)) : FS :=
  fun p => if p = fileName .binary field timestep rank then some (saveBytes time data) else fs p

/-- An input stream: unread bytes and whether the stream is still good.
data_logging.hpp:97-106. -/
structure IStream where
  rest : List Byte
  good : Bool

/-- Opening; a missing file yields a failed stream. data_logging.hpp:97. -/
def openFile (fs : FS) (p : List Char) : IStream :=
  match fs p with
  | some bs => ⟨bs, true⟩
  | none => ⟨[], false⟩

/-- `infile.read(dst, dst.size())`: on a failed stream nothing is stored; on a short stream the bytes that
exist are stored and the stream fails. data_logging.hpp:98-106. -/
def IStream.read (s : IStream) (dst : List Byte) : List Byte × IStream :=
  if s.good then
    (s.rest.take dst.length ++ dst.drop s.rest.length,
      ⟨s.rest.drop dst.length, decide (dst.length ≤ s.rest.length)⟩)
  else (dst, s)

/-- Split a byte list into doubles, `n` of them. data_logging.hpp:103-106. -/
def doublesOf : ℕ → List Byte → List (BitVec 64)
  | 0, _ => []
  | n + 1, bs => doubleOf (bs.take 8) :: doublesOf n (bs.drop 8)

/-- What `loadState` leaves in the vector and returns: data_logging.hpp:89-107. -/
inductive ReadRes
  | ok (time : BitVec 64) (state : List (BitVec 64))
  | ub
  deriving DecidableEq

/-- `BinaryLogger::readState` (`data_logging.hpp:89-107`).  `time0` is the caller's `time` before the call;
`junk n` is the content of the vector after `SetSize(n)` (unspecified by MFEM).  A negative
size is undefined behaviour.  The stream state is never tested by the code. -/
def read (fs : FS) (field : List Char) (timestep rank : ℤ) (time0 : BitVec 64)
    (junk : ℕ → List (BitVec 64)) : ReadRes :=
  let s0 := openFile fs (fileName .binary field timestep rank)
  let (tb, s1) := s0.read (doubleBytes time0)
  let (zb, s2) := s1.read (intBytes 0)
  let size := (intOf zb).toInt
  if size < 0 then .ub
  else
    let n := size.toNat
    let (db, _) := s2.read ((junk n).flatMap doubleBytes)
    .ok (doubleOf tb) (doublesOf n db)

/-- One call of `BinaryLogger::saveState`. data_logging.hpp:70-87. -/
structure SaveCall where
  field : List Char
  timestep : ℤ
  rank : ℤ
  time : BitVec 64
  data : List (BitVec 64)
  deriving DecidableEq

/-- A history of saves (any fields, timesteps, ranks, in any order). data_logging.hpp:70-87. -/
def saves (fs : FS) (h : List SaveCall) : FS :=
  h.foldl (fun fs c => save fs c.field c.timestep c.rank c.time c.data) fs

end Verif.StateFiles
