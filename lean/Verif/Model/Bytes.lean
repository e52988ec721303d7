import Verif.Model.Mesh

/-!
Machine integers and binary streams as `/repo/src/ImageIoBmp.cpp` and `/repo/src/STLFile.cpp`
use them: 32-bit `int`, little-endian host, `std::fstream` in binary mode.  A signed
overflow is undefined behaviour (`none`).
-/

namespace CAD

abbrev Byte := UInt8

/-- value of an `int` expression; a value outside 32 bits is undefined behaviour -/
def int32 (x : Int) : Res Int := if -2147483648 ≤ x ∧ x ≤ 2147483647 then some x else none

/-- the `n` bytes of an integer in the memory of a little-endian machine -/
def leBytes : Nat → Nat → List Byte
  | 0, _ => []
  | n + 1, x => UInt8.ofNat x :: leBytes n (x / 256)

/-- the number stored in bytes -/
def leNat : List Byte → Nat
  | [] => 0
  | b :: l => b.toNat + 256 * leNat l

/-- `write((char*)&i, 4)` of an `int` (two's complement) -/
def le32 (x : Int) : List Byte := leBytes 4 (x % 4294967296).toNat

/-- `write((char*)&s, 2)` of a `short` -/
def le16 (x : Int) : List Byte := leBytes 2 (x % 65536).toNat

/-- an `int` with these bytes -/
def dec32 (l : List Byte) : Int := if leNat l < 2147483648 then leNat l else leNat l - 4294967296

/-- a `short` with these bytes -/
def dec16 (l : List Byte) : Int := if leNat l < 32768 then leNat l else leNat l - 65536

/-- state of an input stream: the bytes not read yet and `good()` -/
structure IStream where
  rest : List Byte
  ok : Bool

/-- `istream::read(buf, n)`: when the stream is good, up to `n` bytes are copied to the
front of the buffer; when there are less than `n` (or `n` is negative, as in libstdc++)
the stream fails and reads nothing any more.  More bytes than the buffer holds: `none`. -/
def IStream.read (s : IStream) (n : Int) (buf : List Byte) : Res (IStream × List Byte) := do
  assert (n ≤ buf.length)
  if s.ok = true ∧ 0 ≤ n then
    some (⟨s.rest.drop n.toNat, decide (n.toNat ≤ s.rest.length)⟩, s.rest.take n.toNat ++ buf.drop (min n.toNat s.rest.length))
  else some (⟨s.rest, false⟩, buf)

end CAD
