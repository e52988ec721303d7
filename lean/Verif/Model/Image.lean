import Verif.Model.Bytes
import Mathlib.Data.Nat.Bitwise
import Mathlib.Algebra.Order.Floor.Ring
import Mathlib.Data.Rat.Floor

/-!
Model of `/repo/src/Image.h`, `/repo/src/ImageUtil.cpp`, `/repo/src/ImageGenerator.cpp`
(without `Mandelbrot`) and `/repo/src/ImageIoBmp.cpp`.

`assert` failures, accesses outside the buffer and overflows of `int` are `none`.
-/

namespace CAD

/-- `class Image`, Image.h 10-117; a fresh image of size `(w, h, p)` is `resize` of the empty one (13-16) -/
@[ext] structure Image where
  w : Int
  h : Int
  p : Int
  data : List Byte
deriving DecidableEq

namespace Image

/-- `size` 36-39 -/
def size (im : Image) : Res Int := do
  let a ← int32 (im.h * im.w)
  int32 (a * im.p)

/-- `resize` 41-51.  `vector::resize` keeps the common prefix and fills with zeros. -/
def resize (im : Image) (iW iH iP : Int) : Res Image := do
  assert (0 ≤ iW)
  assert (0 ≤ iH)
  assert (0 ≤ iP)
  let n := iW.toNat * iH.toNat * iP.toNat
  return ⟨iW, iH, iP, im.data.take n ++ List.replicate (n - im.data.length) 0⟩

/-- the constructor 13-16 -/
def new (iW iH iP : Int) : Res Image := resize ⟨0, 0, 0, []⟩ iW iH iP

/-- `pixel` 58-80 and the address in `operator()` 82-104, as offset from the start of
the buffer.  The products are `int`s; the sums are pointer arithmetic. -/
def offset (im : Image) (iX iY iP : Int) : Res Int := do
  assert (0 ≤ iX)
  assert (0 ≤ iY)
  assert (0 ≤ iP)
  assert (iX < im.w)
  assert (iY < im.h)
  assert (iP < im.p)
  let a ← int32 (im.p * im.w)
  let a ← int32 (a * iY)
  let b ← int32 (iX * im.p)
  return iP + a + b

/-- reading through `operator()` 82-104 -/
def get (im : Image) (iX iY iP : Int) : Res Byte := do
  let o ← im.offset iX iY iP
  getI im.data o

/-- writing through `operator()` 82-92 -/
def set (im : Image) (iX iY iP : Int) (v : Byte) : Res Image := do
  let o ← im.offset iX iY iP
  let d ← setI im.data o v
  return { im with data := d }

/-- `to_double` 106-112.  The bytes are kept as bytes. -/
def toDouble (im : Image) (img : List Byte) : Res (List Byte) := do
  let n ← im.size
  let img := img.take n.toNat ++ List.replicate (n.toNat - img.length) 0
  loopN im.w.toNat (fun ligne img =>
    loopN im.h.toNat (fun colonne img => do
      let v ← im.get ligne colonne 0
      setI img (colonne + ligne * im.w) v) img) img

end Image

namespace ImageUtil

/-- `convert_to_bw` 12-23.  The sum of three bytes is an `int`. -/
def convertToBw (im imBW : Image) : Res Image := do
  let imBW ← imBW.resize im.w im.h 1
  loopN im.w.toNat (fun i imBW =>
    loopN im.h.toNat (fun j imBW => do
      let a ← im.get i j 0
      let b ← im.get i j 1
      let c ← im.get i j 2
      imBW.set i j 0 (UInt8.ofNat ((a.toNat + b.toNat + c.toNat) / 3))) imBW) imBW

/-- `(unsigned char)(v * dScale + 0.5)` 30: truncation; undefined when the truncated
value does not fit. -/
def scaleByte (v : Byte) (s : ℚ) : Res Byte :=
  let x : ℚ := (v.toNat : ℚ) * s + 1 / 2
  if -1 < x ∧ x < 256 then some (UInt8.ofNat x.floor.toNat) else none

/-- `scale` 25-31; the sizes do not change in the loop -/
def scale (im0 : Image) (s : ℚ) : Res Image :=
  loopN im0.w.toNat (fun i im =>
    loopN im0.h.toNat (fun j im =>
      loopN im0.p.toNat (fun p im => do
        let v ← im.get i j p
        let v ← scaleByte v s
        im.set i j p v) im) im) im0

/-- `ImageGenerator::Shierpinsky` 7-14 (ImageGenerator.cpp): one `int`, four bytes, per pixel;
the four byte stores of the `int` are written one after the other; the sizes do not change
in the loop. -/
def shierpinsky (im : Image) (iWidth iHeight : Int) : Res Image := do
  let im0 ← im.resize iWidth iHeight 4
  loopN im0.w.toNat (fun w im =>
    loopN im0.h.toNat (fun h im => do
      let v : Int := if w &&& h = 0 then 33554431 else 0
      let im ← im.set w h 0 ((le32 v).getD 0 0)
      let im ← im.set w h 1 ((le32 v).getD 1 0)
      let im ← im.set w h 2 ((le32 v).getD 2 0)
      im.set w h 3 ((le32 v).getD 3 0)) im) im0

end ImageUtil

namespace Bmp

/-- swap of R and B in the first `n` pixels of a 4-byte row, 64-69 -/
def swap4 : Nat → List Byte → List Byte
  | n + 1, r :: g :: b :: a :: l => b :: g :: r :: a :: swap4 n l
  | _, l => l

/-- swap of R and B in the first `n` pixels of a 3-byte row, 88-93 -/
def swap3 : Nat → List Byte → List Byte
  | n + 1, r :: g :: b :: l => b :: g :: r :: swap3 n l
  | _, l => l

/-- output row of a 4-plane image 230-236: R and B swapped, alpha 0 -/
def out4 : List Byte → List Byte
  | r :: g :: b :: _ :: l => b :: g :: r :: 0 :: out4 l
  | l => l

/-- output row of a 3-plane image 211-216 -/
def out3 : List Byte → List Byte
  | r :: g :: b :: l => b :: g :: r :: out3 l
  | l => l

/-- `fbmp.read` into a variable of `n` bytes that starts at zero or is not used any more -/
def readVar (s : IStream) (n : Nat) : Res (IStream × List Byte) := s.read n (List.replicate n 0)

/-- the rest of the header after the magic number, 21-47: stream, width, height, bits per pixel -/
def readHeader (s : IStream) : Res (IStream × Int × Int × Int) := do
  let (s, _) ← readVar s 4
  let (s, _) ← readVar s 2
  let (s, _) ← readVar s 2
  let (s, _) ← readVar s 4
  let (s, _) ← readVar s 4
  let (s, iWidth) ← readVar s 4
  let (s, iHeight) ← readVar s 4
  let (s, _) ← readVar s 2
  let (s, sBPP) ← readVar s 2
  let (s, _) ← readVar s 4
  let (s, _) ← readVar s 4
  let (s, _) ← readVar s 4
  let (s, _) ← readVar s 4
  let (s, _) ← readVar s 4
  let (s, _) ← readVar s 4
  return (s, dec32 iWidth, dec32 iHeight, dec16 sBPP)

/-- one row: `pixel(0, y, 0)`, `read` of `n` bytes there, then `sw` on the buffer from there -/
def readRow (n : Int) (sw : List Byte → List Byte) (y : Int) (a : IStream × Image) : Res (IStream × Image) := do
  let off ← a.2.offset 0 y 0
  let (s, row) ← a.1.read n (a.2.data.drop off.toNat)
  return (s, { a.2 with data := a.2.data.take off.toNat ++ sw row })

/-- padding read into the three bytes of `cTmp`; `none`: no padding is read -/
def readPack (pack : Option Int) (a : IStream × Image) : Res (IStream × Image) :=
  match pack with
  | none => some a
  | some k => do
    let (s, _) ← a.1.read k [0, 0, 0]
    return (s, a.2)

/-- the row loops 58-70 (32 bpp), 82-96 (24 bpp), 110-115 (8 bpp): from the last row to the first -/
def readRows (n : Int) (pack : Option Int) (sw : List Byte → List Byte) (iHeight : Int) (a : IStream × Image) :
    Res (IStream × Image) :=
  loopN iHeight.toNat (fun iY a => do
    let a ← readRow n sw (iHeight - iY - 1) a
    readPack pack a) a

/-- 49-120 -/
def readBody (s : IStream) (iWidth iHeight sBPP : Int) (im : Image) : Res (Bool × Image) := do
  let iNbByte := sBPP / 8
  let im ← im.resize iWidth iHeight iNbByte
  if sBPP = 32 then do
    let iLineWidthPerfect ← int32 (iWidth * iNbByte)
    let a ← readRows iLineWidthPerfect none (swap4 iWidth.toNat) iHeight (s, im)
    return (true, a.2)
  else if sBPP = 24 then do
    let iLineWidthPerfect ← int32 (iWidth * iNbByte)
    let t ← int32 (iLineWidthPerfect + 3)
    let iLineWidth := t.tmod 4
    let iPack ← int32 (iLineWidth - iLineWidthPerfect)
    let a ← readRows iLineWidthPerfect (some iPack) (swap3 iWidth.toNat) iHeight (s, im)
    return (true, a.2)
  else if sBPP = 8 then do
    let iLineWidth ← int32 (iWidth + iWidth.tmod 4)
    let iPack := iLineWidth - iWidth
    let s ← loopN (256 * 4) (fun _ s => do
      let (s, _) ← IStream.read s 1 [0, 0, 0]
      return s) s
    let a ← readRows iWidth (some iPack) id iHeight (s, im)
    return (true, a.2)
  else return (false, im)

/-- 16-121: a file that could be opened -/
def readBytes (bytes : List Byte) (im : Image) : Res (Bool × Image) := do
  let (s, magic) ← readVar ⟨bytes, true⟩ 2
  if dec16 magic ≠ 0x4D42 then some (false, im)
  else do
    let (s, w, h, bpp) ← readHeader s
    readBody s w h bpp im

/-- `ImageIoBmp::read` 8-121; `none` for a file that cannot be opened -/
def read (file : Option (List Byte)) (im : Image) : Res (Bool × Image) :=
  match file with
  | none => some (false, im)
  | some bytes => readBytes bytes im

/-- the palette 189-200 -/
def palette : List Byte := (List.range 256).flatMap fun i => [UInt8.ofNat i, UInt8.ofNat i, UInt8.ofNat i, 0]

/-- the row loops 205-252: `out` makes the row written for a row of the image -/
def writeRows (im : Image) (iLineWidthBytes iPack : Int) (out : List Byte → List Byte) (file : List Byte) : Res (List Byte) :=
  loopN im.h.toNat (fun iY file => do
    let off ← im.offset 0 (im.h - iY - 1) 0
    let row := (im.data.drop off.toNat).take iLineWidthBytes.toNat
    assert (row.length = iLineWidthBytes)
    return file ++ out row ++ List.replicate iPack.toNat 0) file

/-- the header 144-187 -/
def header (iWidth iHeight iPlanes iSize iOffsetB iBufferSize : Int) : List Byte :=
  le16 0x4D42 ++ le32 iSize ++ le16 0 ++ le16 0 ++ le32 iOffsetB ++
  le32 40 ++ le32 iWidth ++ le32 iHeight ++ le16 1 ++
  le16 (if iPlanes = 4 then 32 else if iPlanes = 1 then 8 else 24) ++
  le32 0 ++ le32 iBufferSize ++ le32 0xb12 ++ le32 0xb12 ++ le32 0 ++ le32 0

/-- everything `ImageIoBmp::write` puts in the file, 144-252 -/
def writeFile (im : Image) (iLineWidthBytes iPack iSize iOffsetB iBufferSize : Int) : Res (List Byte) :=
  let file := header im.w im.h im.p iSize iOffsetB iBufferSize
  let file := if im.p = 1 then file ++ palette else file
  if im.p = 3 then writeRows im iLineWidthBytes iPack out3 file
  else if im.p = 4 then writeRows im iLineWidthBytes iPack out4 file
  else if im.p = 1 then writeRows im iLineWidthBytes iPack id file
  else some file

/-- `iPaletteSize` 148-150 -/
def paletteSize (iPlanes : Int) : Int := if iPlanes = 1 then 256 * 4 else 0

/-- `ImageIoBmp::write` 123-256 to a file that could be created: the bytes of the file -/
def write (im : Image) : Res (List Byte) := do
  let iLineWidthBytes ← int32 (im.w * im.p)
  let t ← int32 (iLineWidthBytes + 3)
  let iLineWidthBytesPad := t - t.tmod 4
  let iPack := iLineWidthBytesPad - iLineWidthBytes
  let iBufferSize ← int32 (iLineWidthBytesPad * im.h)
  let iSize ← int32 (14 + 40 + paletteSize im.p + iBufferSize)
  let iOffsetB := 14 + 40 + paletteSize im.p
  writeFile im iLineWidthBytes iPack iSize iOffsetB iBufferSize

end Bmp
end CAD
