import Verif.Model.Mesh

/-! Model of `/repo/src/BezierUtil.cpp`, `QuadBezierTriangle.cpp`,
`CubicBezierTriangles.cpp`, `SmoothMesh.cpp` and `SmoothMeshFactory.cpp`. -/

namespace CAD

namespace Bezier
variable {K : Type} [Field K]

/-- `square` BezierUtil.cpp 3-6 -/
def square (a : K) : K := a * a
/-- `cubic` BezierUtil.cpp 8-11 -/
def cubic (a : K) : K := a * a * a
/-- `Bernstein01` BezierUtil.cpp 13-16 -/
def b01 (u : K) : K := 1 - u
/-- `Bernstein11` BezierUtil.cpp 18-21 -/
def b11 (u : K) : K := u
/-- `Bernstein02` BezierUtil.cpp 23-26 -/
def b02 (u : K) : K := square (1 - u)
/-- `Bernstein12` BezierUtil.cpp 28-31 -/
def b12 (u : K) : K := 2 * u * (1 - u)
/-- `Bernstein22` BezierUtil.cpp 33-36 -/
def b22 (u : K) : K := square u
/-- `Bernstein03` BezierUtil.cpp 38-41 -/
def b03 (u : K) : K := cubic (1 - u)
/-- `Bernstein13` BezierUtil.cpp 43-46 -/
def b13 (u : K) : K := 3 * u * square (1 - u)
/-- `Bernstein23` BezierUtil.cpp 48-51 -/
def b23 (u : K) : K := 3 * square u * (1 - u)
/-- `Bernstein33` BezierUtil.cpp 53-56 -/
def b33 (u : K) : K := cubic u

end Bezier

/-- `class QuadBezierTriangle`, QuadBezierTriangle.h 24-30 -/
structure QuadBez (K : Type) where
  p1 : P3 K
  p2 : P3 K
  p3 : P3 K
  c12 : P3 K
  c13 : P3 K
  c23 : P3 K
  w1 : K
  w2 : K
  w3 : K
  w12 : K
  w13 : K
  w23 : K
deriving DecidableEq

namespace QuadBez
variable {K : Type} [Field K]

/-- constructor, QuadBezierTriangle.cpp 6-10; the points are `Point3()`, the origin -/
def new : QuadBez K :=
  ⟨⟨0, 0, 0⟩, ⟨0, 0, 0⟩, ⟨0, 0, 0⟩, ⟨0, 0, 0⟩, ⟨0, 0, 0⟩, ⟨0, 0, 0⟩, 1, 1, 1, 1, 1, 1⟩

/-- `set_points` 15-24 -/
def setPoints (q : QuadBez K) (p1 p2 p3 : P3 K) : QuadBez K :=
  { q with
    p1 := p1
    p2 := p2
    p3 := p3
    c12 := (1 / 2 : K) • (p1 + p2)
    c13 := (1 / 2 : K) • (p1 + p3)
    c23 := (1 / 2 : K) • (p2 + p3) }

/-- `set_control_points` 26-31 -/
def setControlPoints (q : QuadBez K) (c12 c13 c23 : P3 K) : QuadBez K :=
  { q with c12 := c12, c13 := c13, c23 := c23 }

/-- `set_weights` 33-42 -/
def setWeights (q : QuadBez K) (w1 w2 w3 w12 w13 w23 : K) : QuadBez K :=
  { q with w1 := w1, w2 := w2, w3 := w3, w12 := w12, w13 := w13, w23 := w23 }

/-- the sums of `eval` 52-68 for the barycentric coordinates actually used;
`none` when the weight sum is zero (the C++ result is then inf or NaN) -/
def evalBary [DecidableEq K] (q : QuadBez K) (s u v : K) : Res (P3 K) :=
  let p := (q.w1 * s * s) • q.p1 + (q.w2 * u * u) • q.p2 + (q.w3 * v * v) • q.p3 +
    (q.w12 * 2 * s * u) • q.c12 + (q.w13 * 2 * s * v) • q.c13 + (q.w23 * 2 * u * v) • q.c23
  let w := q.w1 * s * s + q.w2 * u * u + q.w3 * v * v +
    q.w12 * 2 * s * u + q.w13 * 2 * s * v + q.w23 * 2 * u * v
  if w = 0 then none else some (p.div w)

/-- `eval` 44-69; products are associated differently from the C++ (exact
arithmetic) -/
def eval [DecidableEq K] (q : QuadBez K) (s u v : K) : Res (P3 K) :=
  let v := if v = -1 then 1 - s - u else v
  q.evalBary s u v

/-- `eval(s, u)` with the default argument `v = -1`, QuadBezierTriangle.h 17 -/
def eval2 [DecidableEq K] (q : QuadBez K) (s u : K) : Res (P3 K) := q.eval s u (-1)

/-- first pair of loops of `add_to_mesh`, 75-87 -/
def addVertices [DecidableEq K] (q : QuadBez K) (n : Int) (m : Mesh K) : Res (Mesh K) :=
  loopN (n + 1).toNat (fun is m =>
    let s := (is : K) / (n : K)
    loopN (n - is + 1).toNat (fun iu m => do
      let p ← q.eval2 s ((iu : K) / (n : K))
      return (m.addVertex p).1) m) m

/-- second pair of loops of `add_to_mesh`, 90-104; the state is the mesh and `pos` -/
def addTriangles (n : Int) (pos : Int) (m : Mesh K) : Res (Mesh K × Int) :=
  loopN n.toNat (fun is (s : Mesh K × Int) => do
    let lineSize := n - is + 1
    let (m, _) ← s.1.addTriangle s.2 (s.2 + 1) (s.2 + lineSize)
    let pos := s.2 + lineSize
    let m ← loopN (lineSize - 4).toNat (fun j m => do
      -- `iu` runs from 1
      let iu : Int := j + 1
      let (m, _) ← m.addTriangle (pos + iu) (pos + iu + lineSize) (pos + iu + lineSize - 1)
      let (m, _) ← m.addTriangle (pos + iu) (pos + iu + 1) (pos + iu + lineSize)
      return m) m
    return (m, pos)) (m, pos)

/-- `add_to_mesh` 71-105.  For `iNbSegments = 0` the C++ evaluates at `0/0`; here
the vertex is then `eval2 0 0` (a field has `0/0 = 0`), so statements are for
`iNbSegments ≥ 1`. -/
def addToMesh [DecidableEq K] (q : QuadBez K) (m : Mesh K) (n : Int) : Res (Mesh K) := do
  let iNbVertices := m.nbVertices
  let m ← q.addVertices n m
  let (m, _) ← addTriangles n iNbVertices m
  return m

/-- `apply_transform` 107-116 -/
def applyTransform (q : QuadBez K) (t : P3 K → P3 K) : QuadBez K :=
  { q with p1 := t q.p1, p2 := t q.p2, p3 := t q.p3, c12 := t q.c12, c13 := t q.c13, c23 := t q.c23 }

end QuadBez

/-- `class CubicBezierTriangles`; the code has no evaluation function. -/
structure CubicBez (K : Type) where
  p1 : P3 K
  p2 : P3 K
  p3 : P3 K
  c12 : P3 K
  c21 : P3 K
  c13 : P3 K
  c31 : P3 K
  c23 : P3 K
  c32 : P3 K
  center : P3 K

namespace CubicBez
variable {K : Type} [Field K]

/-- `set_points` CubicBezierTriangles.cpp 13-18 -/
def setPoints (q : CubicBez K) (p1 p2 p3 : P3 K) : CubicBez K := { q with p1 := p1, p2 := p2, p3 := p3 }

/-- one of the six formulas of `set_normals` 42-58 -/
def edgeControl (p q n : P3 K) : P3 K :=
  let w := (q - p).dot n
  (1 / 3 : K) • (p + p + q - w • n)

/-- `set_normals` 37-64 -/
def setNormals (q : CubicBez K) (n1 n2 n3 : P3 K) : CubicBez K :=
  let c12 := edgeControl q.p1 q.p2 n1
  let c21 := edgeControl q.p2 q.p1 n2
  let c13 := edgeControl q.p1 q.p3 n1
  let c31 := edgeControl q.p3 q.p1 n3
  let c23 := edgeControl q.p2 q.p3 n2
  let c32 := edgeControl q.p3 q.p2 n3
  let e := (1 / 6 : K) • (c12 + c21 + c13 + c31 + c23 + c32)
  let v := (1 / 3 : K) • (q.p1 + q.p2 + q.p3)
  { q with c12 := c12, c21 := c21, c13 := c13, c31 := c31, c23 := c23, c32 := c32
           center := e + (1 / 2 : K) • (e - v) }

end CubicBez

/-- `class SmoothMesh`: the vector `_vst` -/
structure SmoothMesh (K : Type) where
  tris : List (QuadBez K)
deriving DecidableEq

namespace SmoothMesh
variable {K : Type}

/-- constructor, SmoothMesh.cpp 9-10 -/
def new : SmoothMesh K := ⟨[]⟩

/-- `add_triangle` 30-33 -/
def addTriangle (m : SmoothMesh K) (t : QuadBez K) : SmoothMesh K := ⟨m.tris ++ [t]⟩

/-- `triangle` 35-38; out of range is undefined -/
def triangle (m : SmoothMesh K) (i : Int) : Res (QuadBez K) := getI m.tris i

/-- `nb_triangles` 40-43 -/
def nbTriangles (m : SmoothMesh K) : Int := m.tris.length

/-- `clear` 68-71 -/
def clear (_ : SmoothMesh K) : SmoothMesh K := ⟨[]⟩

/-- `add_mesh` 52-58 for two different objects -/
def addMesh (m v : SmoothMesh K) : Res (SmoothMesh K) :=
  loopN v.nbTriangles.toNat (fun i m => do
    let t ← v.triangle i
    return ⟨m.tris ++ [t]⟩) m

/-- `add_mesh` 52-58 for `m.add_mesh(m)`: the bound grows with the vector -/
def addMeshSelf (fuel : Nat) (m : SmoothMesh K) : LoopOut (SmoothMesh K) :=
  loopFuel nbTriangles (fun i m => do
    let t ← m.triangle i
    return ⟨m.tris ++ [t]⟩) fuel 0 m

/-- `operator=` 45-50 for two different objects -/
def assign (m v : SmoothMesh K) : Res (SmoothMesh K) := m.clear.addMesh v

/-- `operator=` 45-50 for `m = m`: `clear` empties the source too -/
def assignSelf (fuel : Nat) (m : SmoothMesh K) : LoopOut (SmoothMesh K) := m.clear.addMeshSelf fuel

/-- `add_to_mesh` 60-66 -/
def addToMesh [Field K] [DecidableEq K] (s : SmoothMesh K) (m : Mesh K) (n : Int) : Res (Mesh K) :=
  loopN s.tris.length (fun i m => do
    let t ← s.triangle i
    t.addToMesh m n) m

/-- `apply_transform` 73-80 -/
def applyTransform [Field K] (s : SmoothMesh K) (t : P3 K → P3 K) : SmoothMesh K :=
  ⟨s.tris.map fun q => q.applyTransform t⟩

variable [Field K]

/-- `add_flat_triangle` 82-87 -/
def addFlatTriangle (m : SmoothMesh K) (p1 p2 p3 : P3 K) : SmoothMesh K :=
  m.addTriangle (QuadBez.new.setPoints p1 p2 p3)

/-- `add_flat_quad` 89-97: the second `set_points` reuses the same object -/
def addFlatQuad (m : SmoothMesh K) (p1 p2 p3 p4 : P3 K) : SmoothMesh K :=
  let st := QuadBez.new.setPoints p1 p2 p3
  let m := m.addTriangle st
  let st := st.setPoints p1 p3 p4
  m.addTriangle st

/-- `add_flat_pentagon` 100-105 -/
def addFlatPentagon (m : SmoothMesh K) (p1 p2 p3 p4 p5 : P3 K) : SmoothMesh K :=
  ((m.addFlatTriangle p1 p2 p3).addFlatTriangle p3 p4 p5).addFlatTriangle p1 p3 p5

/-- `SmoothMeshFactory::create_tetrahedron` 13-26 -/
def createTetrahedron (d : K) (m : SmoothMesh K) : SmoothMesh K :=
  let m := m.clear
  let p0 : P3 K := ⟨d, d, d⟩
  let p1 : P3 K := ⟨-d, -d, d⟩
  let p2 : P3 K := ⟨d, -d, -d⟩
  let p3 : P3 K := ⟨-d, d, -d⟩
  let m := m.addFlatTriangle p0 p1 p2
  let m := m.addFlatTriangle p1 p3 p2
  let m := m.addFlatTriangle p0 p3 p1
  m.addFlatTriangle p0 p2 p3

/-- `SmoothMeshFactory::create_box` 28-51 -/
def createBox (xSize ySize zSize : K) (m : SmoothMesh K) : SmoothMesh K :=
  let m := m.clear
  let x := xSize / 2
  let y := ySize / 2
  let z := zSize / 2
  let p0 : P3 K := ⟨x, y, z⟩
  let p1 : P3 K := ⟨-x, y, z⟩
  let p2 : P3 K := ⟨-x, -y, z⟩
  let p3 : P3 K := ⟨x, -y, z⟩
  let p4 : P3 K := ⟨x, y, -z⟩
  let p5 : P3 K := ⟨-x, y, -z⟩
  let p6 : P3 K := ⟨-x, -y, -z⟩
  let p7 : P3 K := ⟨x, -y, -z⟩
  let m := m.addFlatQuad p0 p1 p2 p3
  let m := m.addFlatQuad p7 p6 p5 p4
  let m := m.addFlatQuad p4 p5 p1 p0
  let m := m.addFlatQuad p3 p2 p6 p7
  let m := m.addFlatQuad p5 p6 p2 p1
  m.addFlatQuad p0 p3 p7 p4

/-- `SmoothMeshFactory::create_octahedron` 54-73 -/
def createOctahedron (d : K) (m : SmoothMesh K) : SmoothMesh K :=
  let m := m.clear
  let p0 : P3 K := ⟨d, 0, 0⟩
  let p1 : P3 K := ⟨0, d, 0⟩
  let p2 : P3 K := ⟨0, 0, d⟩
  let p3 : P3 K := ⟨-d, 0, 0⟩
  let p4 : P3 K := ⟨0, -d, 0⟩
  let p5 : P3 K := ⟨0, 0, -d⟩
  let m := m.addFlatTriangle p0 p1 p2
  let m := m.addFlatTriangle p1 p0 p5
  let m := m.addFlatTriangle p2 p1 p3
  let m := m.addFlatTriangle p0 p2 p4
  let m := m.addFlatTriangle p4 p3 p5
  let m := m.addFlatTriangle p3 p4 p2
  let m := m.addFlatTriangle p5 p3 p1
  m.addFlatTriangle p4 p5 p0

/-- `SmoothMeshFactory::create_dodecahedron` 75-127 -/
noncomputable def createDodecahedron (dSize : ℝ) (m : SmoothMesh ℝ) : SmoothMesh ℝ :=
  let m := m.clear
  let u := dSize
  let t1 := (Real.sqrt 5 + 1) / 2
  let t2 := 1 / t1
  let t1 := t1 * dSize
  let t2 := t2 * dSize
  let p0 : P3 ℝ := ⟨u, u, u⟩
  let p1 : P3 ℝ := ⟨u, u, -u⟩
  let p2 : P3 ℝ := ⟨u, -u, u⟩
  let p3 : P3 ℝ := ⟨u, -u, -u⟩
  let p4 : P3 ℝ := ⟨-u, u, u⟩
  let p5 : P3 ℝ := ⟨-u, u, -u⟩
  let p6 : P3 ℝ := ⟨-u, -u, u⟩
  let p7 : P3 ℝ := ⟨-u, -u, -u⟩
  let p8 : P3 ℝ := ⟨0, t1, t2⟩
  let p9 : P3 ℝ := ⟨0, t1, -t2⟩
  let p10 : P3 ℝ := ⟨0, -t1, t2⟩
  let p11 : P3 ℝ := ⟨0, -t1, -t2⟩
  let p12 : P3 ℝ := ⟨t2, 0, t1⟩
  let p13 : P3 ℝ := ⟨t2, 0, -t1⟩
  let p14 : P3 ℝ := ⟨-t2, 0, t1⟩
  let p15 : P3 ℝ := ⟨-t2, 0, -t1⟩
  let p16 : P3 ℝ := ⟨t1, t2, 0⟩
  let p17 : P3 ℝ := ⟨t1, -t2, 0⟩
  let p18 : P3 ℝ := ⟨-t1, t2, 0⟩
  let p19 : P3 ℝ := ⟨-t1, -t2, 0⟩
  let m := m.addFlatPentagon p0 p12 p2 p17 p16
  let m := m.addFlatPentagon p19 p18 p5 p15 p7
  let m := m.addFlatPentagon p12 p0 p8 p4 p14
  let m := m.addFlatPentagon p13 p3 p11 p7 p15
  let m := m.addFlatPentagon p2 p12 p14 p6 p10
  let m := m.addFlatPentagon p9 p1 p13 p15 p5
  let m := m.addFlatPentagon p18 p19 p6 p14 p4
  let m := m.addFlatPentagon p3 p13 p1 p16 p17
  let m := m.addFlatPentagon p1 p9 p8 p0 p16
  let m := m.addFlatPentagon p19 p7 p11 p10 p6
  let m := m.addFlatPentagon p18 p4 p8 p9 p5
  m.addFlatPentagon p2 p10 p11 p3 p17

/-- `SmoothMeshFactory::create_icosahedron` 130-179 -/
noncomputable def createIcosahedron (dSize : ℝ) (m : SmoothMesh ℝ) : SmoothMesh ℝ :=
  let m := m.clear
  let u := dSize
  let t := (Real.sqrt 5 - 1) / 2 * dSize
  let p0 : P3 ℝ := ⟨u, 0, t⟩
  let p1 : P3 ℝ := ⟨u, 0, -t⟩
  let p2 : P3 ℝ := ⟨-u, 0, t⟩
  let p3 : P3 ℝ := ⟨-u, 0, -t⟩
  let p4 : P3 ℝ := ⟨0, t, u⟩
  let p5 : P3 ℝ := ⟨0, -t, u⟩
  let p6 : P3 ℝ := ⟨0, t, -u⟩
  let p7 : P3 ℝ := ⟨0, -t, -u⟩
  let p8 : P3 ℝ := ⟨t, u, 0⟩
  let p9 : P3 ℝ := ⟨-t, u, 0⟩
  let p10 : P3 ℝ := ⟨t, -u, 0⟩
  let p11 : P3 ℝ := ⟨-t, -u, 0⟩
  let m := m.addFlatTriangle p0 p1 p8
  let m := m.addFlatTriangle p0 p10 p1
  let m := m.addFlatTriangle p2 p3 p11
  let m := m.addFlatTriangle p2 p9 p3
  let m := m.addFlatTriangle p4 p5 p0
  let m := m.addFlatTriangle p4 p2 p5
  let m := m.addFlatTriangle p6 p7 p3
  let m := m.addFlatTriangle p6 p1 p7
  let m := m.addFlatTriangle p8 p9 p4
  let m := m.addFlatTriangle p8 p6 p9
  let m := m.addFlatTriangle p10 p11 p7
  let m := m.addFlatTriangle p10 p5 p11
  let m := m.addFlatTriangle p0 p8 p4
  let m := m.addFlatTriangle p3 p7 p11
  let m := m.addFlatTriangle p10 p0 p5
  let m := m.addFlatTriangle p9 p6 p3
  let m := m.addFlatTriangle p1 p6 p8
  let m := m.addFlatTriangle p2 p11 p5
  let m := m.addFlatTriangle p2 p4 p9
  m.addFlatTriangle p1 p10 p7

/-- one block of `SmoothMeshFactory::create_sphere` -/
def spherePatch (p1 p2 p3 c12 c13 c23 : P3 K) : QuadBez K :=
  (QuadBez.new.setPoints p1 p2 p3).setControlPoints c12 c13 c23

/-- `SmoothMeshFactory::create_sphere` 181-241 -/
def createSphere (d : K) (m : SmoothMesh K) : SmoothMesh K :=
  let m := m.clear
  let m := m.addTriangle (spherePatch ⟨d, 0, 0⟩ ⟨0, d, 0⟩ ⟨0, 0, d⟩ ⟨d, d, 0⟩ ⟨d, 0, d⟩ ⟨0, d, d⟩)
  let m := m.addTriangle (spherePatch ⟨-d, 0, 0⟩ ⟨0, d, 0⟩ ⟨0, 0, d⟩ ⟨-d, d, 0⟩ ⟨-d, 0, d⟩ ⟨0, d, d⟩)
  let m := m.addTriangle (spherePatch ⟨d, 0, 0⟩ ⟨0, -d, 0⟩ ⟨0, 0, d⟩ ⟨d, -d, 0⟩ ⟨d, 0, d⟩ ⟨0, -d, d⟩)
  let m := m.addTriangle (spherePatch ⟨d, 0, 0⟩ ⟨0, d, 0⟩ ⟨0, 0, -d⟩ ⟨d, d, 0⟩ ⟨d, 0, -d⟩ ⟨0, d, -d⟩)
  let m := m.addTriangle (spherePatch ⟨-d, 0, 0⟩ ⟨0, -d, 0⟩ ⟨0, 0, d⟩ ⟨-d, -d, 0⟩ ⟨-d, 0, d⟩ ⟨0, -d, d⟩)
  let m := m.addTriangle (spherePatch ⟨-d, 0, 0⟩ ⟨0, -d, 0⟩ ⟨0, 0, -d⟩ ⟨-d, -d, 0⟩ ⟨-d, 0, -d⟩ ⟨0, -d, -d⟩)
  let m := m.addTriangle (spherePatch ⟨-d, 0, 0⟩ ⟨0, d, 0⟩ ⟨0, 0, -d⟩ ⟨-d, d, 0⟩ ⟨-d, 0, -d⟩ ⟨0, d, -d⟩)
  m.addTriangle (spherePatch ⟨d, 0, 0⟩ ⟨0, -d, 0⟩ ⟨0, 0, -d⟩ ⟨d, -d, 0⟩ ⟨d, 0, -d⟩ ⟨0, -d, -d⟩)

end SmoothMesh
end CAD
