import Mathlib.Algebra.Order.Floor.Ring
import Verif.Model.Bytes
import Verif.Model.Transform

/-!
Model of `/repo/src/Renderer.cpp`, `/repo/src/RendererCamera.cpp` and
`/repo/src/RendererLight.cpp`.

Numbers are exact except that a depth is converted to `float` when it goes to the depth buffer;
that conversion is a parameter (`rnd`).  The interpolation parameter in `draw_horizontal_line`
is a `float` in the code and exact here.  `asserts` that fail, overflows of `int`, conversions
of infinite or too large numbers to `int` and accesses outside the buffers are `none`.
The index arithmetic `y * _Xmax + x` inside the buffer is not checked for overflow (the
constructor computes `_Xmax * _Ymax` as an `int`).
-/

namespace CAD.Render
variable {K : Type} [Field K] [LinearOrder K] [IsStrictOrderedRing K] [FloorRing K]

/-- truncation towards zero -/
def trunc (x : K) : Int := if 0 ≤ x then ⌊x⌋ else ⌈x⌉

/-- `(int)x` -/
def toInt (x : K) : Res Int := int32 (trunc x)

/-! ### Camera -/

/-- `class RendererCamera`; `rot` is `_rot.apply` -/
structure Camera (K : Type) where
  x : K
  y : K
  z : K
  ahead : K
  zoom : K
  cx : Int
  cy : Int
  rot : P3 K → P3 K

/-- `set_screen` 26-31 -/
def Camera.setScreen (c : Camera K) (width height : Int) (zoom : K) : Camera K :=
  { c with cx := Int.tdiv width 2, cy := Int.tdiv height 2, zoom := zoom }

/-- `set_origin` 20-24 -/
def Camera.setOrigin (c : Camera K) (x y z ahead : K) : Camera K := { c with x := x, y := y, z := z, ahead := ahead }

/-- `set_angles` 16-19 -/
noncomputable def Camera.setAngles (c : Camera ℝ) (yaw pitch roll : ℝ) : Camera ℝ := { c with rot := Transform.euler yaw pitch roll }

/-- `Renderer::set_camera`, Renderer.cpp 14-19, of a renderer of `W` by `H` pixels -/
noncomputable def Camera.setCamera (c : Camera ℝ) (W H : Int) (ox oy oz ahead yaw pitch roll zoom : ℝ) : Camera ℝ :=
  ((c.setOrigin ox oy oz ahead).setAngles yaw pitch roll).setScreen W H zoom

/-- `local_ref` 33-48 -/
def Camera.localRef (c : Camera K) (p : P3 K) : P3 K :=
  let q := c.rot ⟨p.x - c.x, p.y - c.y, p.z - c.z⟩
  ⟨q.x, q.y, q.z + c.ahead⟩

/-- a projected point: screen position and `w = 1/z` -/
structure V (K : Type) where
  x : Int
  y : Int
  w : K
deriving DecidableEq

/-- `project` 50-60; with `z = 0` infinity or NaN is converted to `int` -/
def Camera.project (c : Camera K) (p : P3 K) : Res (V K) := do
  let pc := c.localRef p
  assert (pc.z ≠ 0)
  let sx ← toInt (pc.x * c.zoom / pc.z + c.cx + 1 / 2)
  let sy ← toInt (pc.y * c.zoom / pc.z + c.cy + 1 / 2)
  return ⟨sx, sy, 1 / pc.z⟩

/-! ### Lights -/

/-- the two kinds of lights; the three factors as the constructors 11-16 and 25-31 compute
them -/
inductive Light (K : Type)
  | ambient (r g b : K)
  | diffuse (r g b : K) (direction : P3 K)

/-- channels of a packed colour -/
def red (c : Int) : Int := c / 65536 % 256
def green (c : Int) : Int := c / 256 % 256
def blue (c : Int) : Int := c % 256

/-- constructor of `RendererLightAmbiant`, RendererLight.cpp 11-16 -/
def Light.newAmbient (color : Int) (factor : K) : Light K :=
  .ambient (factor * red color / 256) (factor * green color / 256) (factor * blue color / 256)

/-- constructor of `RendererLightDiffuse`, RendererLight.cpp 25-31 -/
def Light.newDiffuse (color : Int) (factor : K) (direction : P3 K) : Light K :=
  .diffuse (factor * red color / 256) (factor * green color / 256) (factor * blue color / 256) direction

/-- `apply`, RendererLight.cpp 18-23 and 33-42; the normal may be NaN (`none`), then so are
the colours of a diffuse light -/
def Light.apply (c : K × K × K) (normal : Res (P3 K)) : Light K → Res (K × K × K)
  | .ambient r g b => some (c.1 * r, c.2.1 * g, c.2.2 * b)
  | .diffuse r g b d => normal.map fun n =>
      let proj := n.dot d
      let proj := if proj < 0 then 0 else proj
      (c.1 * (r * proj), c.2.1 * (g * proj), c.2.2 * (b * proj))

/-- lines 69-79: one channel -/
def channel (total : K) : Res Int := do
  let i ← toInt (total * 256 + 1 / 2)
  return if i > 255 then 255 else i

/-- `compute_color_with_lights` 53-82; the left shift of a negative number is undefined -/
def shade (lights : List (Light K)) (color : Int) (normal : Res (P3 K)) : Res Int := do
  let c : K × K × K := ((red color : K) / 256, (green color : K) / 256, (blue color : K) / 256)
  let t ← lights.foldlM (fun (a : K × K × K) l => do
    let d ← l.apply c normal
    return (a.1 + d.1, a.2.1 + d.2.1, a.2.2 + d.2.2)) ((0 : K), (0 : K), (0 : K))
  let r ← channel t.1
  let g ← channel t.2.1
  let b ← channel t.2.2
  assert (0 ≤ r)
  assert (0 ≤ g)
  return r * 65536 + g * 256 + b

/-! ### Buffers -/

/-- `_Xmax`, `_Ymax`, `_pixelBuffer`, `_wBuffer` -/
structure Fb (K : Type) where
  W : Int
  H : Int
  pix : List Int
  dep : List K
deriving DecidableEq

/-- `clear` 317-329 -/
def Fb.clear (fb0 : Fb K) (bg : Int) : Res (Fb K) :=
  loopN fb0.H.toNat (fun j fb =>
    loopN fb0.W.toNat (fun i (fb : Fb K) => do
      let p ← setI fb.pix (j * fb0.W + i) bg
      let d ← setI fb.dep (j * fb0.W + i) 0
      return ⟨fb.W, fb.H, p, d⟩) fb) fb0

/-- constructor 21-31; `pix` is the buffer of the caller -/
def Fb.new (pix : List Int) (xm ym : Int) : Res (Fb K) := do
  let n ← int32 (xm * ym)
  assert (0 ≤ n)
  Fb.clear ⟨xm, ym, pix, List.replicate n.toNat 0⟩ 0

/-- 309-313, 370-374, 397-401: compare the depth of a cell with `cmp`, store `store` -/
def Fb.plot (fb : Fb K) (i : Int) (cmp store : K) (color : Int) : Res (Fb K) := do
  let z ← getI fb.dep i
  if z < cmp then
    let d ← setI fb.dep i store
    let p ← setI fb.pix i color
    return ⟨fb.W, fb.H, p, d⟩
  else return fb

/-- lines 274-282: cut a line at the left border -/
def cutLeft (ax : Int) (aw : K) (bx : Int) (bw : K) : Res (Int × K) :=
  if ax < 0 then do
    let d ← int32 (bx - ax)
    let t : K := (bx : K) / d
    assert (0 ≤ t ∧ t ≤ 1)
    return (0, bw * t + (1 - t) * aw)
  else some (ax, aw)

/-- lines 283-291: cut a line at the right border -/
def cutRight (W : Int) (ax : Int) (aw : K) (bx : Int) (bw : K) : Res (Int × K) :=
  if W ≤ bx then do
    let d ← int32 (bx - ax)
    let n ← int32 (bx - (W - 1))
    assert (d ≠ 0)
    let t : K := (n : K) / d
    assert (0 ≤ t ∧ t ≤ 1)
    return (W - 1, aw * t + (1 - t) * bw)
  else some (bx, bw)

/-- `draw_horizontal_line` 259-315 -/
def hline (rnd : K → K) (ax : Int) (aw : K) (bx : Int) (bw : K) (y color : Int) (fb : Fb K) : Res (Fb K) := do
  assert (ax ≤ bx)
  if bx < 0 ∨ fb.W ≤ ax ∨ y < 0 ∨ fb.H ≤ y then return fb
  let (ax, aw) ← cutLeft ax aw bx bw
  let (bx, bw) ← cutRight fb.W ax aw bx bw
  loopN (bx - ax + 1).toNat (fun k (f : Fb K) => do
    let t : K := if ax = bx then 1 else (k : K) / ((bx - ax : Int) : K)
    assert (0 ≤ t ∧ t ≤ 1)
    let w := rnd (bw * t + aw * (1 - t))
    f.plot (y * fb.W + (ax + k)) w w color) fb

/-- the four ends of a trapeze: `(ax, aw)`, `(bx, bw)` in row `ay`, `(cx, cw)`, `(dx, dw)` in
row `cy` -/
structure Trap (K : Type) where
  ax : K
  aw : K
  bx : K
  bw : K
  ay : Int
  cx : K
  cw : K
  dx : K
  dw : K
  cy : Int

/-- lines 210-221 -/
def Trap.cutTop (q : Trap K) : Res (Trap K) :=
  if q.ay < 0 then do
    let d ← int32 (q.cy - q.ay)
    let t : K := (0 - q.ay) / (d : K)
    assert (0 ≤ t ∧ t ≤ 1)
    return { q with ay := 0, ax := q.cx * t + (1 - t) * q.ax, aw := q.cw * t + (1 - t) * q.aw,
                    bx := q.dx * t + (1 - t) * q.bx, bw := q.dw * t + (1 - t) * q.bw }
  else some q

/-- lines 222-233 -/
def Trap.cutBottom (H : Int) (q : Trap K) : Res (Trap K) :=
  if H ≤ q.cy then do
    let d ← int32 (q.cy - q.ay)
    let n ← int32 (q.cy - (H - 1))
    assert (d ≠ 0)
    let t : K := (n : K) / d
    assert (0 ≤ t ∧ t ≤ 1)
    return { q with cy := H - 1, cx := q.ax * t + (1 - t) * q.cx, cw := q.aw * t + (1 - t) * q.cw,
                    dx := q.bx * t + (1 - t) * q.dx, dw := q.bw * t + (1 - t) * q.dw }
  else some q

/-- lines 243-254: one row -/
def Trap.row (rnd : K → K) (q : Trap K) (color : Int) (y : Int) (fb : Fb K) : Res (Fb K) := do
  let n ← int32 (y - q.ay)
  let d ← int32 (q.cy - q.ay)
  let t : K := (n : K) / d
  assert (0 ≤ t ∧ t ≤ 1)
  let p1x ← toInt (q.cx * t + q.ax * (1 - t) + 1 / 2)
  let p1w := q.cw * t + q.aw * (1 - t)
  let p2x ← toInt (q.dx * t + q.bx * (1 - t) + 1 / 2)
  let p2w := q.dw * t + q.bw * (1 - t)
  assert (p1x ≤ p2x)
  hline rnd p1x p1w p2x p2w y color fb

/-- `draw_trapeze` 196-257 -/
def trapeze (rnd : K → K) (q : Trap K) (color : Int) (fb : Fb K) : Res (Bool × Fb K) := do
  assert (q.ax ≤ q.bx)
  assert (q.cx ≤ q.dx)
  assert (q.ay ≤ q.cy)
  if q.cy < 0 ∨ fb.H ≤ q.ay then return (false, fb)
  let q ← q.cutTop
  let q ← q.cutBottom fb.H
  assert (0 ≤ q.ay)
  assert (q.ay ≤ q.cy)
  assert (q.cy < fb.H)
  let fb ← loopN (q.cy - q.ay).toNat (fun k fb => q.row rnd color (q.ay + k) fb) fb
  return (true, fb)

/-- lines 117-123: the back of a facet is seen; `z` of the cross product -/
def backFace (a b c : V K) : Res Bool := do
  let x1 ← int32 (a.x - b.x)
  let y1 ← int32 (a.y - b.y)
  let x2 ← int32 (a.x - c.x)
  let y2 ← int32 (a.y - c.y)
  return decide (((⟨x1, y1, 0⟩ : P3 K).cross ⟨x2, y2, 0⟩).z ≤ 0)

/-- line 117: the test of the back is only made without `bDrawTwoFaces` -/
def hidden (twoFaces : Bool) (a b c : V K) : Res Bool :=
  if twoFaces = false then backFace a b c else some false

/-- lines 126-133 -/
def offScreen (W H : Int) (a b c : V K) : Bool :=
  (a.x ≤ 0 && b.x ≤ 0 && c.x ≤ 0) || (a.y ≤ 0 && b.y ≤ 0 && c.y ≤ 0) ||
  (W ≤ a.x && W ≤ b.x && W ≤ c.x) || (H ≤ a.y && H ≤ b.y && H ≤ c.y)

/-- lines 135-158: order the points by `y` -/
def sortY (a b c : V K) : V K × V K × V K :=
  let (a, b, c) := if b.y ≤ a.y ∧ b.y ≤ c.y then (b, a, c) else if c.y ≤ a.y ∧ c.y ≤ b.y then (c, b, a) else (a, b, c)
  if c.y < b.y then (a, c, b) else (a, b, c)

/-- lines 161-165 -/
def splitT (a b c : V K) : Res K :=
  if c.y ≠ a.y then do
    let n ← int32 (b.y - a.y)
    let d ← int32 (c.y - a.y)
    return (n : K) / (d : K)
  else some 0

/-- lines 160-172: the point `D` of the side `AC` in the row of `B` -/
def splitPoint (a b c : V K) : Res (V K) := do
  let t ← splitT a b c
  assert (0 ≤ t)
  assert (t ≤ 1)
  let dx ← toInt ((c.x : K) * t + (1 - t) * a.x + 1 / 2)
  let dy ← toInt ((c.y : K) * t + (1 - t) * a.y + 1 / 2)
  return ⟨dx, dy, c.w * t + (1 - t) * a.w⟩

/-- lines 160-193 for the ordered points; `color` is the colour with lights -/
def halves (rnd : K → K) (a b c : V K) (color : Res Int) (fb : Fb K) : Res (Bool × Fb K) := do
  let d ← splitPoint a b c
  -- 174-181: exchange D and B, only B gets a new row
  let (b, d) := if d.x < b.x then (⟨d.x, d.y, d.w⟩, ⟨b.x, d.y, b.w⟩) else (b, d)
  assert (b.x ≤ d.x)
  assert (a.y ≤ b.y)
  assert (b.y ≤ c.y)
  let color ← color
  let (b1, fb) ← trapeze rnd ⟨a.x, a.w, a.x, a.w, a.y, b.x, b.w, d.x, d.w, b.y⟩ color fb
  let (b2, fb) ← trapeze rnd ⟨b.x, b.w, d.x, d.w, b.y, c.x, c.w, c.x, c.w, c.y⟩ color fb
  return (b1 || b2, fb)

/-- `draw_triangle_1color` 109-194 after the projection -/
def triangleV (rnd : K → K) (a b c : V K) (color : Res Int) (twoFaces : Bool) (fb : Fb K) : Res (Bool × Fb K) := do
  let back ← hidden twoFaces a b c
  if back then return (false, fb)
  if offScreen fb.W fb.H a b c then return (false, fb)
  let (a, b, c) := sortY a b c
  halves rnd a b c color fb

/-- what a drawing depends on besides the buffers; `normal` is `Triangle3::normal`,
`rnd` the conversion of a `double` to `float` -/
structure Scene (K : Type) where
  camera : Camera K
  lights : List (Light K)
  normal : Tri3 K → Res (P3 K)
  rnd : K → K

/-- `draw_triangle_1color` 109-194 -/
def drawTriangle (sc : Scene K) (t : Tri3 K) (color : Int) (twoFaces : Bool) (fb : Fb K) : Res (Bool × Fb K) := do
  let a ← sc.camera.project t.p1
  let b ← sc.camera.project t.p2
  let c ← sc.camera.project t.p3
  triangleV sc.rnd a b c (shade sc.lights color (sc.normal t)) twoFaces fb

/-- `wEpsilon`, line 342 -/
def wEpsilon : K := 1 / 100000

/-- lines 347-379 -/
def lineV (rnd : K → K) (a b : V K) (color : Int) (fb0 : Fb K) : Res (Fb K) := do
  let dx ← int32 (b.x - a.x)
  let dy ← int32 (b.y - a.y)
  let im := if |dx| > |dy| then |dx| else |dy|
  assert (im ≤ 2147483647)
  if im < 1 then return fb0
  loopN im.toNat (fun i (fb : Fb K) => do
    let fx : K := a.x + i * ((dx : K) / im)
    let fy : K := a.y + i * ((dy : K) / im)
    let fz : K := a.w + i * ((b.w - a.w) / im)
    if 0 ≤ fx ∧ fx < fb0.W ∧ 0 ≤ fy ∧ fy < fb0.H then do
      let x ← toInt fx
      let y ← toInt fy
      fb.plot (x + y * fb0.W) (fz + wEpsilon) (rnd fz) color
    else return fb) fb0

/-- `draw_line` 335-380 -/
def drawLine (sc : Scene K) (p1 p2 : P3 K) (color : Int) (fb : Fb K) : Res (Fb K) := do
  let a ← sc.camera.project p1
  let b ← sc.camera.project p2
  lineV sc.rnd a b color fb

/-- `draw_pixel` 382-402 -/
def drawPixel (sc : Scene K) (p : P3 K) (color : Int) (fb : Fb K) : Res (Fb K) := do
  let v ← sc.camera.project p
  if v.x < 0 ∨ fb.W ≤ v.x ∨ v.y < 0 ∨ fb.H ≤ v.y then return fb
  fb.plot (v.x + v.y * fb.W) v.w (sc.rnd v.w) color

/-- `draw_polyline` 404-411 -/
def drawPolyline (sc : Scene K) (pl : List (P3 K)) (color : Int) (fb : Fb K) : Res (Fb K) :=
  if pl.length < 2 then some fb
  else loopN (pl.length - 1) (fun i fb => do
    let p ← pl[i]?
    let q ← pl[i + 1]?
    drawLine sc p q color fb) fb

/-- the body of the loop of `draw_mesh` 93-105 -/
def drawMeshTriangle (sc : Scene K) (m : Mesh K) (edges : Bool) (color : Int) (i : Nat) (fb : Fb K) : Res (Fb K) := do
  if (← m.isTriangleUnlinked i) = true then return fb
  else
    let t ← m.getTriangle i
    let (drawn, fb) ← drawTriangle sc t color false fb
    if edges ∧ drawn then do
      let fb ← drawLine sc t.p1 t.p2 0 fb
      let fb ← drawLine sc t.p1 t.p3 0 fb
      drawLine sc t.p2 t.p3 0 fb
    else return fb

/-- `draw_mesh` 84-107 -/
def drawMesh (sc : Scene K) (m : Mesh K) (edges : Bool) (color : Int) (fb : Fb K) : Res (Fb K) :=
  let color := if color = -1 then m.getColor else color
  loopN m.nbTriangles.toNat (drawMeshTriangle sc m edges color) fb

end CAD.Render
