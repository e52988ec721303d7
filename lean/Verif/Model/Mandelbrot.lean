import Verif.Model.Image
import Verif.Model.Geometry

/-! Model of `ImageGenerator::Mandelbrot` in `/repo/src/ImageGenerator.cpp`.

`float` values are elements of an ordered field; `rnd` is applied to the result of every
`float` operation and constant, so that `rnd = id` is exact arithmetic and a rounding
function gives the arithmetic of the machine (overflow to infinity and NaN excluded). -/

namespace CAD
namespace ImageUtil
variable {K : Type} [Field K] [LinearOrder K]

/-- the position of column `w` or row `h`, 25-26: `lo + (n - i) / (float)n * (hi - lo)` -/
def mandelPos (rnd : K → K) (lo hi : K) (n i : Int) : K :=
  rnd (lo + rnd (rnd (rnd ((n - i : Int) : K) / rnd (n : K)) * rnd (hi - lo)))

/-- `fx * fx + fy * fy` 34 -/
def mandelSize (rnd : K → K) (z : K × K) : K := rnd (rnd (z.1 * z.1) + rnd (z.2 * z.2))

/-- one round of the loop on `(fx, fy)`, 36-38 -/
def mandelStep (rnd : K → K) (cx cy : K) (z : K × K) : K × K :=
  let fxy := rnd (z.1 * z.2)
  (rnd (rnd (rnd (z.1 + z.2) * rnd (z.1 - z.2)) + cx), rnd (rnd (fxy + fxy) + cy))

/-- the `while` loop 34-44, result `iterMax`.  Every round but the last decrements `iterMax`,
so the fuel is never used up, see `mandelCount`. -/
def mandelLoop (rnd : K → K) (cx cy : K) : Nat → K × K → Int → Res Int
  | 0, _, _ => none
  | fuel + 1, z, iterMax =>
    if mandelSize rnd z < 4 then
      let z := mandelStep rnd cx cy z
      if iterMax = 0 then some iterMax
      else do
        let iterMax ← int32 (iterMax - 1)
        mandelLoop rnd cx cy fuel z iterMax
    else some iterMax

/-- `iNbIteration - iterMax` after the loop, 28-46.  For a negative `iNbIteration` the loop
can only end by escape or by overflow of `iterMax`. -/
def mandelCount (rnd : K → K) (cx cy : K) (iNbIteration : Int) : Res Int := do
  let fuel := if 0 ≤ iNbIteration then iNbIteration.toNat + 1 else (iNbIteration + 2147483649).toNat
  let iterMax ← mandelLoop rnd cx cy fuel (cx, cy) iNbIteration
  int32 (iNbIteration - iterMax)

/-- the `int` stored for one pixel, 25-46 -/
def mandelColor (rnd : K → K) (width height w h iNbIteration : Int) : Res Int := do
  let cx := mandelPos rnd (rnd (-21 / 10)) (rnd (9 / 10)) width w
  let cy := mandelPos rnd (rnd (-3 / 2)) (rnd (3 / 2)) height h
  let n ← mandelCount rnd cx cy iNbIteration
  int32 (n * 65793)

/-- `Mandelbrot` 16-49; the `int` is stored as four bytes; the sizes do not change in the
loop. -/
def mandelbrot (rnd : K → K) (im : Image) (iWidth iHeight iNbIteration : Int) : Res Image := do
  let im0 ← im.resize iWidth iHeight 4
  loopN im0.w.toNat (fun w im =>
    loopN im0.h.toNat (fun h im => do
      let v ← mandelColor rnd im0.w im0.h w h iNbIteration
      let im ← im.set w h 0 ((le32 v).getD 0 0)
      let im ← im.set w h 1 ((le32 v).getD 1 0)
      let im ← im.set w h 2 ((le32 v).getD 2 0)
      im.set w h 3 ((le32 v).getD 3 0)) im) im0

end ImageUtil
end CAD
