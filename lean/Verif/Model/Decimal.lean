import Verif.Model.Obj
import Verif.Model.Float32

/-!
The text form of a `double` as `/repo/src/OBJFile.cpp` writes it (`ostream` with its default
precision, that is `%g` with six digits) and reads it (`num_get`).  Numbers are rationals;
the rounding of the number read to the nearest `double` is not modelled.
-/

namespace CAD.Obj

/-- value of decimal digits -/
def natOf (l : List Char) : Nat := l.foldl (fun a ch => 10 * a + (ch.toNat - 48)) 0

/-- exactly `k` digits -/
def padDigits : Nat → Nat → List Char
  | 0, _ => []
  | k + 1, n => padDigits k (n / 10) ++ [Char.ofNat (48 + n % 10)]

/-- `%g` drops zeros at the end -/
def strip (l : List Char) : List Char := (l.reverse.dropWhile (· = '0')).reverse

/-- six significant digits of a positive number: `(m, e)` with `m` of six digits, the number
is about `m * 10^(e-5)` -/
def sixDigits (a : ℚ) : Nat × Int :=
  let e := Int.log 10 a
  let m := F32.rne (a * 10 ^ (5 - e))
  if m = 1000000 then (100000, e + 1) else (m, e)

/-- exponent, at least two digits -/
def expText (e : Int) : List Char :=
  let n := e.natAbs
  ['e', if e < 0 then '-' else '+'] ++ (if n < 10 then '0' :: showNat n else showNat n)

/-- the exponent, if there is one -/
def optExp : Option Int → List Char
  | none => []
  | some e => expText e

/-- number text from the digits before and after the point and the exponent -/
def numText (i f : List Char) (e : Option Int) : List Char :=
  i ++ (if f = [] then [] else '.' :: f) ++ optExp e

/-- `%g` of a positive number -/
def gText (a : ℚ) : List Char :=
  let (m, e) := sixDigits a
  let d := padDigits 6 m
  if e < -4 ∨ 6 ≤ e then numText (d.take 1) (strip (d.drop 1)) (some e)
  else if 0 ≤ e then numText (d.take (e.toNat + 1)) (strip (d.drop (e.toNat + 1))) none
  else numText ['0'] (strip (List.replicate (-e - 1).toNat '0' ++ d)) none

/-- `operator<<(ostream&, double)` -/
def showG (x : ℚ) : List Char :=
  if x = 0 then ['0'] else if x < 0 then '-' :: gText (-x) else gText x

/-- the exponent at the start of a text, `none` when it is malformed -/
def scanExp (r : List Char) : Option (Int × List Char) :=
  if r.head? = some 'e' ∨ r.head? = some 'E' then
    let r := r.tail
    let r' := if r.head? = some '-' ∨ r.head? = some '+' then r.tail else r
    let ds := r'.takeWhile isDigit
    if ds = [] then none
    else some (if r.head? = some '-' then -(natOf ds : Int) else natOf ds, r'.dropWhile isDigit)
  else some (0, r)

/-- the number without sign at the start of a text -/
def scanPos (r : List Char) : Option (ℚ × List Char) :=
  let i := r.takeWhile isDigit
  let r := r.dropWhile isDigit
  let f := if r.head? = some '.' then r.tail.takeWhile isDigit else []
  let r := if r.head? = some '.' then r.tail.dropWhile isDigit else r
  if i ++ f = [] then none
  else match scanExp r with
    | none => none
    | some (e, r) => some ((natOf (i ++ f) : ℚ) * 10 ^ (e - f.length), r)

/-- `num_get` for a `double` -/
def scanG (r : List Char) : Option (ℚ × List Char) :=
  if r.head? = some '-' then (scanPos r.tail).map fun x => (-x.1, x.2)
  else if r.head? = some '+' then scanPos r.tail
  else scanPos r

/-- the text form of the numbers in an OBJ file -/
def codecG : Codec ℚ := ⟨showG, scanG, 0⟩

end CAD.Obj
