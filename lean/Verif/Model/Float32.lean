import Verif.Model.Bytes
import Mathlib.Data.Int.Log
import Mathlib.Data.Rat.Floor

/-!
`float` (IEEE 754 binary32), as used by the conversions `(float)p1._x` and `add_vertex(p1x, …)`
of `/repo/src/STLFile.cpp` 47-57, 92-107: round to nearest, ties to even, overflow to
infinity.  Finite numbers are rationals.  Simplification: the sign of a zero is dropped.
-/

namespace CAD.F32

/-- nearest integer of a non-negative number, ties to even -/
def rne (q : ℚ) : ℕ :=
  let f := ⌊q⌋₊
  if q - f < 1 / 2 then f
  else if 1 / 2 < q - f then f + 1
  else if f % 2 = 0 then f else f + 1

/-- exponent of the last place of a positive number, plus 23: `-126` for all subnormal ones -/
def expo (a : ℚ) : ℤ := max (-126) (Int.log 2 a)

/-- the lower 31 bits for a positive number, before the test for overflow: a significand of
`2^24` carries into the exponent -/
def magBits (a : ℚ) : ℕ := (expo a + 126).toNat * 2 ^ 23 + rne (a * 2 ^ (23 - expo a))

/-- the number with these lower 31 bits, all exponents read as finite -/
def magVal (n : ℕ) : ℚ :=
  if n / 2 ^ 23 = 0 then (n % 2 ^ 23 : ℕ) * 2 ^ (-149 : ℤ)
  else (2 ^ 23 + n % 2 ^ 23 : ℕ) * 2 ^ ((n / 2 ^ 23 : ℕ) - 150 : ℤ)

/-- bits of the infinities -/
def infBits : ℕ := 255 * 2 ^ 23

/-- `(float)x` stored in memory -/
def enc (x : ℚ) : List Byte :=
  let n := if x = 0 then 0 else min infBits (magBits |x|)
  leBytes 4 (if x < 0 ∧ n ≠ 0 then 2 ^ 31 + n else n)

/-- the `double` value of a `float` in memory, `none` for infinities and NaN -/
def val (b : List Byte) : Option ℚ :=
  let n := leNat b
  if n % 2 ^ 31 < infBits then some (if n / 2 ^ 31 = 1 then - magVal (n % 2 ^ 31) else magVal (n % 2 ^ 31))
  else none

/-- as `val` where only finite numbers occur -/
def dec (b : List Byte) : ℚ := (val b).getD 0

end CAD.F32
