import Verif.Model.Renderer
import Verif.Model.Rounded

/-! `/repo/src/Renderer.cpp` in floating point.  The definitions repeat those of
`Model/Renderer` with a rounding after each operation, in the order of the C++ code: `d` for
operations in `double`, `f` for operations in `float` and conversions to it.  Conversions from
`int` to `double` and from `float` to `double` are exact.  Projection and colours do not
influence where the drawing functions write, so they are parameters at the end of the file.
Infinities and NaN among the depths are not considered. -/

namespace CAD.Render

/-- the roundings to `double` and to `float` -/
structure Arith where
  d : ℝ → ℝ
  f : ℝ → ℝ

namespace Arith
variable (A : Arith)

/-- `c * t + (1. - t) * a` in `double` -/
def mix (t a c : ℝ) : ℝ := A.d (A.d (c * t) + A.d (A.d (1 - t) * a))

/-- lines 274-282: cut a line at the left border -/
noncomputable def cutLeft (ax : Int) (aw : ℝ) (bx : Int) (bw : ℝ) : Res (Int × ℝ) :=
  if ax < 0 then do
    let d ← int32 (bx - ax)
    let t := A.d ((bx : ℝ) / d)
    assert (0 ≤ t ∧ t ≤ 1)
    return (0, A.mix t aw bw)
  else some (ax, aw)

/-- lines 283-291: cut a line at the right border; the division is one of `float`s -/
noncomputable def cutRight (W : Int) (ax : Int) (aw : ℝ) (bx : Int) (bw : ℝ) : Res (Int × ℝ) :=
  if W ≤ bx then do
    let d ← int32 (bx - ax)
    let n ← int32 (bx - (W - 1))
    assert (A.f d ≠ 0)
    let t := A.f (A.f n / A.f d)
    assert (0 ≤ t ∧ t ≤ 1)
    return (W - 1, A.mix t bw aw)
  else some (bx, bw)

/-- `draw_horizontal_line` 259-315; `t` and `1.f - t` are `float`s -/
noncomputable def hline (ax : Int) (aw : ℝ) (bx : Int) (bw : ℝ) (y color : Int) (fb : Fb ℝ) : Res (Fb ℝ) := do
  assert (ax ≤ bx)
  if bx < 0 ∨ fb.W ≤ ax ∨ y < 0 ∨ fb.H ≤ y then return fb
  let (ax, aw) ← A.cutLeft ax aw bx bw
  let (bx, bw) ← A.cutRight fb.W ax aw bx bw
  loopN (bx - ax + 1).toNat (fun k (f : Fb ℝ) => do
    let t := if ax = bx then 1 else A.f (A.f k / A.f ((bx - ax : Int) : ℝ))
    assert (0 ≤ t ∧ t ≤ 1)
    let w := A.f (A.d (A.d (bw * t) + A.d (aw * A.f (1 - t))))
    f.plot (y * fb.W + (ax + k)) w w color) fb

/-- lines 210-221 -/
noncomputable def cutTop (q : Trap ℝ) : Res (Trap ℝ) :=
  if q.ay < 0 then do
    let d ← int32 (q.cy - q.ay)
    let t := A.d ((0 - q.ay) / (d : ℝ))
    assert (0 ≤ t ∧ t ≤ 1)
    return { q with ay := 0, ax := A.mix t q.ax q.cx, aw := A.mix t q.aw q.cw,
                    bx := A.mix t q.bx q.dx, bw := A.mix t q.bw q.dw }
  else some q

/-- lines 222-233 -/
noncomputable def cutBottom (H : Int) (q : Trap ℝ) : Res (Trap ℝ) :=
  if H ≤ q.cy then do
    let d ← int32 (q.cy - q.ay)
    let n ← int32 (q.cy - (H - 1))
    assert (d ≠ 0)
    let t := A.d ((n : ℝ) / d)
    assert (0 ≤ t ∧ t ≤ 1)
    return { q with cy := H - 1, cx := A.mix t q.cx q.ax, cw := A.mix t q.cw q.aw,
                    dx := A.mix t q.dx q.bx, dw := A.mix t q.dw q.bw }
  else some q

/-- lines 243-254: one row -/
noncomputable def row (q : Trap ℝ) (color : Int) (y : Int) (fb : Fb ℝ) : Res (Fb ℝ) := do
  let n ← int32 (y - q.ay)
  let d ← int32 (q.cy - q.ay)
  let t := A.d ((n : ℝ) / d)
  assert (0 ≤ t ∧ t ≤ 1)
  let p1x ← toInt (A.d (A.mix t q.ax q.cx + 1 / 2))
  let p1w := A.mix t q.aw q.cw
  let p2x ← toInt (A.d (A.mix t q.bx q.dx + 1 / 2))
  let p2w := A.mix t q.bw q.dw
  assert (p1x ≤ p2x)
  A.hline p1x p1w p2x p2w y color fb

/-- `draw_trapeze` 196-257 -/
noncomputable def trapeze (q : Trap ℝ) (color : Int) (fb : Fb ℝ) : Res (Bool × Fb ℝ) := do
  assert (q.ax ≤ q.bx)
  assert (q.cx ≤ q.dx)
  assert (q.ay ≤ q.cy)
  if q.cy < 0 ∨ fb.H ≤ q.ay then return (false, fb)
  let q ← A.cutTop q
  let q ← A.cutBottom fb.H q
  assert (0 ≤ q.ay)
  assert (q.ay ≤ q.cy)
  assert (q.cy < fb.H)
  let fb ← loopN (q.cy - q.ay).toNat (fun k fb => A.row q color (q.ay + k) fb) fb
  return (true, fb)

/-- lines 117-123: the back of a facet is seen -/
noncomputable def backFace (a b c : V ℝ) : Res Bool := do
  let x1 ← int32 (a.x - b.x)
  let y1 ← int32 (a.y - b.y)
  let x2 ← int32 (a.x - c.x)
  let y2 ← int32 (a.y - c.y)
  return decide (A.d (A.d ((x1 : ℝ) * y2) - A.d ((y1 : ℝ) * x2)) ≤ 0)

/-- line 117 -/
noncomputable def hidden (twoFaces : Bool) (a b c : V ℝ) : Res Bool :=
  if twoFaces = false then A.backFace a b c else some false

/-- lines 161-165 -/
noncomputable def splitT (a b c : V ℝ) : Res ℝ :=
  if c.y ≠ a.y then do
    let n ← int32 (b.y - a.y)
    let d ← int32 (c.y - a.y)
    return A.d ((n : ℝ) / d)
  else some 0

/-- lines 160-172: the point `D` of the side `AC` in the row of `B` -/
noncomputable def splitPoint (a b c : V ℝ) : Res (V ℝ) := do
  let t ← A.splitT a b c
  assert (0 ≤ t)
  assert (t ≤ 1)
  let dx ← toInt (A.d (A.mix t a.x c.x + 1 / 2))
  let dy ← toInt (A.d (A.mix t a.y c.y + 1 / 2))
  return ⟨dx, dy, A.mix t a.w c.w⟩

/-- lines 160-193 for the ordered points -/
noncomputable def halves (a b c : V ℝ) (color : Res Int) (fb : Fb ℝ) : Res (Bool × Fb ℝ) := do
  let d ← A.splitPoint a b c
  let (b, d) := if d.x < b.x then (⟨d.x, d.y, d.w⟩, ⟨b.x, d.y, b.w⟩) else (b, d)
  assert (b.x ≤ d.x)
  assert (a.y ≤ b.y)
  assert (b.y ≤ c.y)
  let color ← color
  let (b1, fb) ← A.trapeze ⟨a.x, a.w, a.x, a.w, a.y, b.x, b.w, d.x, d.w, b.y⟩ color fb
  let (b2, fb) ← A.trapeze ⟨b.x, b.w, d.x, d.w, b.y, c.x, c.w, c.x, c.w, c.y⟩ color fb
  return (b1 || b2, fb)

/-- `draw_triangle_1color` 109-194 after the projection -/
noncomputable def triangleV (a b c : V ℝ) (color : Res Int) (twoFaces : Bool) (fb : Fb ℝ) : Res (Bool × Fb ℝ) := do
  let back ← A.hidden twoFaces a b c
  if back then return (false, fb)
  if offScreen fb.W fb.H a b c then return (false, fb)
  let (a, b, c) := sortY a b c
  A.halves a b c color fb

/-- the variables of the loop of `draw_line` -/
structure Pen where
  fx : ℝ
  fy : ℝ
  fz : ℝ
  fb : Fb ℝ

/-- lines 366-375: the pixel of one step -/
noncomputable def linePlot (W H : Int) (color : Int) (s : Pen) : Res (Fb ℝ) :=
  if 0 ≤ s.fx ∧ s.fx < W ∧ 0 ≤ s.fy ∧ s.fy < H then do
    let x ← toInt s.fx
    let y ← toInt s.fy
    s.fb.plot (x + y * W) (A.d (s.fz + A.d wEpsilon)) (A.f s.fz) color
  else some s.fb

/-- lines 364-379, one step; the sums are accumulated with rounding -/
noncomputable def lineStep (W H : Int) (dx dy dz : ℝ) (color : Int) (s : Pen) : Res Pen := do
  let fb ← A.linePlot W H color s
  return ⟨A.d (s.fx + dx), A.d (s.fy + dy), A.d (s.fz + dz), fb⟩

/-- lines 347-379 -/
noncomputable def lineV (a b : V ℝ) (color : Int) (fb : Fb ℝ) : Res (Fb ℝ) := do
  let dx ← int32 (b.x - a.x)
  let dy ← int32 (b.y - a.y)
  let im := if |dx| > |dy| then |dx| else |dy|
  assert (im ≤ 2147483647)
  if im < 1 then return fb
  let s ← loopN im.toNat (fun _ s => A.lineStep fb.W fb.H (A.d ((dx : ℝ) / im)) (A.d ((dy : ℝ) / im)) (A.d (A.d (b.w - a.w) / im)) color s)
    ⟨a.x, a.y, a.w, fb⟩
  return s.fb

/-- what a drawing depends on besides the buffers: the computed projection of a point
(`RendererCamera::project`) and the computed colour of a triangle
(`compute_color_with_lights`) -/
structure View where
  project : P3 ℝ → Res (V ℝ)
  shade : Int → Tri3 ℝ → Res Int

/-- `local_ref` and `project`, RendererCamera.cpp 33-60; `rot` is the computed rotation -/
noncomputable def project (c : Camera ℝ) (p : P3 ℝ) : Res (V ℝ) := do
  let q := c.rot ⟨A.d (p.x - c.x), A.d (p.y - c.y), A.d (p.z - c.z)⟩
  let z := A.d (q.z + c.ahead)
  assert (z ≠ 0)
  let sx ← toInt (A.d (A.d (A.d (A.d (q.x * c.zoom) / z) + c.cx) + 1 / 2))
  let sy ← toInt (A.d (A.d (A.d (A.d (q.y * c.zoom) / z) + c.cy) + 1 / 2))
  return ⟨sx, sy, A.d (1 / z)⟩

variable (v : View)

/-- `draw_triangle_1color` 109-194 -/
noncomputable def drawTriangle (t : Tri3 ℝ) (color : Int) (twoFaces : Bool) (fb : Fb ℝ) : Res (Bool × Fb ℝ) := do
  let a ← v.project t.p1
  let b ← v.project t.p2
  let c ← v.project t.p3
  A.triangleV a b c (v.shade color t) twoFaces fb

/-- `draw_line` 335-380 -/
noncomputable def drawLine (p1 p2 : P3 ℝ) (color : Int) (fb : Fb ℝ) : Res (Fb ℝ) := do
  let a ← v.project p1
  let b ← v.project p2
  A.lineV a b color fb

/-- `draw_pixel` 382-402 -/
noncomputable def drawPixel (p : P3 ℝ) (color : Int) (fb : Fb ℝ) : Res (Fb ℝ) := do
  let w ← v.project p
  if w.x < 0 ∨ fb.W ≤ w.x ∨ w.y < 0 ∨ fb.H ≤ w.y then return fb
  fb.plot (w.x + w.y * fb.W) w.w (A.f w.w) color

/-- `draw_polyline` 404-411 -/
noncomputable def drawPolyline (pl : List (P3 ℝ)) (color : Int) (fb : Fb ℝ) : Res (Fb ℝ) :=
  if pl.length < 2 then some fb
  else loopN (pl.length - 1) (fun i fb => do
    let p ← pl[i]?
    let q ← pl[i + 1]?
    A.drawLine v p q color fb) fb

/-- the body of the loop of `draw_mesh` 93-105 -/
noncomputable def drawMeshTriangle (m : Mesh ℝ) (edges : Bool) (color : Int) (i : Nat) (fb : Fb ℝ) : Res (Fb ℝ) := do
  if (← m.isTriangleUnlinked i) = true then return fb
  else
    let t ← m.getTriangle i
    let (drawn, fb) ← A.drawTriangle v t color false fb
    if edges ∧ drawn then do
      let fb ← A.drawLine v t.p1 t.p2 0 fb
      let fb ← A.drawLine v t.p1 t.p3 0 fb
      A.drawLine v t.p2 t.p3 0 fb
    else return fb

/-- `draw_mesh` 84-107 -/
noncomputable def drawMesh (m : Mesh ℝ) (edges : Bool) (color : Int) (fb : Fb ℝ) : Res (Fb ℝ) :=
  let color := if color = -1 then m.getColor else color
  loopN m.nbTriangles.toNat (A.drawMeshTriangle v m edges color) fb

end Arith
end CAD.Render
