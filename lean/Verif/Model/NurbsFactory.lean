import Verif.Model.NurbsSurface
import Verif.Model.Mesh
import Verif.Model.Transform

/-! Model of `/repo/src/NurbsFactory.cpp`, `NurbsSolid.cpp`, `NurbsUtil.cpp` and of
`NurbsCurve::to_polyline`.  `r2` is `sqrt(2.)`, `tol` the default tolerance of
`NurbsCurve::is_closed`. -/

namespace CAD
namespace Nurbs
variable {K : Type} [Field K] [LinearOrder K]

/-- `class NurbsSolid`: `_surfaces`; `clear` 14-17 is `[]`, `add_surface` 29-32 is
`· ++ [ns]` -/
abbrev Solid (K : Type) := List (Surface K)

/-- `NurbsSolid::add_surface` 29-32 -/
def Solid.add (n : Solid K) (s : Surface K) : Solid K := n ++ [s]

/-- `NurbsSolid::apply_transform` 34-39 -/
def Solid.applyTransform (n : Solid K) (t : P3 K → P3 K) : Solid K := n.map (·.mapPoints t)

/-- `create_circle` 15-33 -/
def createCircle (r2 r : K) (nc : Curve K) : Res (Curve K) := do
  let nc := nc.clear
  let points : List (P3 K) := [r • ⟨1, 0, 0⟩, r • ⟨1, 1, 0⟩, r • ⟨0, 1, 0⟩, r • ⟨-1, 1, 0⟩, r • ⟨-1, 0, 0⟩, r • ⟨-1, -1, 0⟩,
    r • ⟨0, -1, 0⟩, r • ⟨1, -1, 0⟩, r • ⟨1, 0, 0⟩]
  let weights := [1, 1 / r2, 1, 1 / r2, 1, 1 / r2, 1, 1 / r2, 1]
  let nc ← nc.setDegree 2
  let nc ← nc.setKnots knotsCircle
  return (nc.setWeights weights).setPoints points

/-- `create_curve_from_points` 55-63 -/
def createCurveFromPoints (points : List (P3 K)) (degree : Int) (nc : Curve K) : Res (Curve K) := do
  let nc ← nc.clear.setDegree degree
  let nc ← (nc.setPoints points).setUniform
  return nc.setEqualsWeights

/-- `create_disk` 35-53; the profile is made by the same calls as in
`create_curve_from_points` on a new curve -/
def createDisk (tol r2 r : K) (ns : Surface K) : Res (Surface K) := do
  let ns := ns.clear
  let nc ← Curve.new.setDegree 1
  let nc ← (nc.setPoints [⟨0, 0, 0⟩, ⟨r, 0, 0⟩]).setUniform
  let nc := nc.setEqualsWeights
  revolve tol r2 nc ns

/-- `p.y() = -p.y()` -/
def mirrorY (p : P3 K) : P3 K := ⟨p.x, -p.y, p.z⟩

/-- the literal knots of `create_sphere` 80 -/
def knotsHalf : List K := [0, 0, 0, 1 / 2, 1 / 2, 1, 1, 1]

/-- the profile of `create_sphere` 70-84 -/
def sphereProfile (r2 r : K) : Res (Curve K) := do
  let points : List (P3 K) := [r • ⟨0, 0, -1⟩, r • ⟨0, 1, -1⟩, r • ⟨0, 1, 0⟩, r • ⟨0, 1, 1⟩, r • ⟨0, 0, 1⟩]
  let nc ← Curve.new.setDegree 2
  let nc := (nc.setPoints points).setWeights [1, 1 / r2, 1, 1 / r2, 1]
  nc.setKnots knotsHalf

/-- `create_sphere` (surface) 65-94 -/
def createSphere (tol r2 r : K) (ns : Surface K) : Res (Surface K) := do
  let ns := ns.clear
  let nc ← sphereProfile r2 r
  let ns ← revolve tol r2 nc ns
  return ns.mapPoints mirrorY

/-- `create_torus` (surface) 96-117 -/
def createTorus (tol r2 major minor : K) (ns : Surface K) : Res (Surface K) := do
  let ns := ns.clear
  let nc ← createCircle r2 minor Curve.new
  let nc := nc.mapPoints fun p => ⟨p.x + major, -p.z, p.y⟩
  revolve tol r2 nc ns

/-- `create_cylinder` 119-156: the three surfaces of the solid -/
def createCylinder (tol r2 r h : K) : Res (Solid K) := do
  let s1 ← createDisk tol r2 r Surface.new
  let s1 := s1.mapPoints fun p => ⟨p.x, -p.y, p.z - h / 2⟩
  let s3 ← createDisk tol r2 r Surface.new
  let s3 := s3.mapPoints fun p => ⟨p.x, p.y, p.z + h / 2⟩
  let nc ← createCurveFromPoints [⟨r, 0, -h / 2⟩, ⟨r, 0, h / 2⟩] 1 Curve.new
  let s2 ← revolve tol r2 nc Surface.new
  let s2 := s2.mapPoints mirrorY
  return Solid.add (Solid.add (Solid.add [] s1) s2) s3

/-- `create_torus` (solid) 158-170 -/
def createTorusSolid (tol r2 major minor : K) : Res (Solid K) := do
  let ns ← createTorus tol r2 major minor Surface.new
  return Solid.add [] (ns.mapPoints mirrorY)

/-- `create_sphere` (solid) 172-178 -/
def createSphereSolid (tol r2 r : K) : Res (Solid K) := do
  let ns ← createSphere tol r2 r Surface.new
  return Solid.add [] ns

/-- `create_quad` 185-193 -/
def createQuad (tol : K) (p1 p2 p3 p4 : P3 K) (ns : Surface K) : Res (Surface K) := do
  let n1 ← createCurveFromPoints [p1, p2] 1 Curve.new
  let n2 ← createCurveFromPoints [p4, p3] 1 Curve.new
  createRuled tol n1 n2 ns

/-- `create_triangle` 180-183 -/
def createTriangle (tol : K) (p1 p2 p3 : P3 K) (ns : Surface K) : Res (Surface K) := createQuad tol p1 p2 p3 p3 ns

/-- `create_box` 195-230 -/
def createBox (tol x y z : K) : Res (Solid K) := do
  let ns : Surface K := Surface.new
  let p1 : P3 K := ⟨x / 2, y / 2, z / 2⟩
  let p2 : P3 K := ⟨x / 2, -y / 2, z / 2⟩
  let p3 : P3 K := ⟨-x / 2, -y / 2, z / 2⟩
  let p4 : P3 K := ⟨-x / 2, y / 2, z / 2⟩
  let p5 : P3 K := ⟨x / 2, y / 2, -z / 2⟩
  let p6 : P3 K := ⟨x / 2, -y / 2, -z / 2⟩
  let p7 : P3 K := ⟨-x / 2, -y / 2, -z / 2⟩
  let p8 : P3 K := ⟨-x / 2, y / 2, -z / 2⟩
  let n : Solid K := []
  let ns ← createQuad tol p1 p4 p3 p2 ns
  let n := n.add ns
  let ns ← createQuad tol p5 p6 p7 p8 ns
  let n := n.add ns
  let ns ← createQuad tol p1 p2 p6 p5 ns
  let n := n.add ns
  let ns ← createQuad tol p3 p4 p8 p7 ns
  let n := n.add ns
  let ns ← createQuad tol p3 p7 p6 p2 ns
  let n := n.add ns
  let ns ← createQuad tol p1 p5 p8 p4 ns
  return n.add ns

/-! ### NurbsUtil.cpp -/

/-- the points of `NurbsUtil::create_from_z` 19-32; the index `idx` of the C++ is the
number of points pushed so far -/
def zPoints (z : List K) (iSizeX iSizeY : Int) : Res (List (P3 K)) :=
  loopN iSizeX.toNat (fun x (l : List (P3 K)) =>
    loopN iSizeY.toNat (fun y (l : List (P3 K)) => do
      let h ← getI z l.length
      return l ++ [⟨(x : K), (y : K), h⟩]) l) []

/-- `NurbsUtil::create_from_z` 15-39 -/
def createFromZ (z : List K) (iSizeX iSizeY iDegree : Int) (n : Surface K) : Res (Surface K) := do
  let n := n.clear
  let points ← zPoints z iSizeX iSizeY
  let n ← n.setDegree iDegree iDegree
  let n := n.setPoints points iSizeX iSizeY
  let n ← n.setUniformU
  let n ← n.setUniformV
  n.setEqualsWeights

/-- `NurbsUtil::create_from_mesh` 41-54.  An index outside the mesh fails the assert of
`Mesh::get_triangle`. -/
def createFromMesh (tol : K) (m : Mesh K) : Res (Solid K) :=
  loopN m.nbTriangles.toNat (fun i (n : Solid K) => do
    let t ← m.getTriangle i
    let s ← createTriangle tol t.p1 t.p2 t.p3 Surface.new
    return n.add s) []

/-- the vertices of `NurbsUtil::to_mesh` 92-102.  The surface is `const`, its scratch
vectors change.  `quot` is the division of 97-98. -/
def toMeshVerticesBy (o : EvalOps K) (quot : K → K → Res K) (U V : Int) (a : Surface K × Mesh K) : Res (Surface K × Mesh K) :=
  loopN (V + 1).toNat (fun v a =>
    loopN (U + 1).toNat (fun u (a : Surface K × Mesh K) => do
      let du1 ← quot (u : K) (U : K)
      let dv1 ← quot (v : K) (V : K)
      let r ← a.1.evaluateBy o du1 dv1
      return (r.1, (a.2.addVertex r.2).1)) a) a

/-- `iEndU`, `iEndV` of 108-115 -/
def wrap (closed : Bool) (u n : Int) : Int := if closed = true ∧ u = n - 1 then 0 else u + 1

/-- the quads of `NurbsUtil::to_mesh` 104-123 -/
def toMeshQuads (cu cv : Bool) (start U V : Int) (m : Mesh K) : Res (Mesh K) :=
  loopN V.toNat (fun v m =>
    loopN U.toNat (fun u m =>
      m.addQuad (start + u + (U + 1) * v) (start + wrap cu u U + (U + 1) * v)
        (start + wrap cu u U + (U + 1) * wrap cv v V) (start + u + (U + 1) * wrap cv v V)) m) m

/-- `NurbsUtil::to_mesh` 77-124, whatever the arithmetic.  The test of 89 multiplies `iNbPointsU` with itself. -/
def toMeshBy (o : EvalOps K) (quot : K → K → Res K) (n : Surface K) (m : Mesh K) (iNbSegments : Int) (bClearMesh : Bool) :
    Res (Surface K × Mesh K) := do
  let m := if bClearMesh then m.clear else m
  let start := m.nbVertices
  let U := iNbSegments * n.nbU
  let V := iNbSegments * n.nbV
  if U * U = 0 then return (n, m)
  let a ← toMeshVerticesBy o quot U V (n, m)
  let m ← toMeshQuads n.closedU n.closedV start U V a.2
  return (a.1, m)

/-- `NurbsUtil::to_mesh` 77-124 with exact numbers -/
def toMesh (n : Surface K) (m : Mesh K) (iNbSegments : Int) (bClearMesh : Bool) : Res (Surface K × Mesh K) :=
  toMeshBy exactOps divR n m iNbSegments bClearMesh

/-- `NurbsUtil::to_mesh` (solid) 126-133, whatever the arithmetic -/
def toMeshSolidBy (o : EvalOps K) (quot : K → K → Res K) (ns : Solid K) (m : Mesh K) (iNbSegments : Int) : Res (Mesh K) :=
  ns.foldlM (fun m f => do
    let a ← toMeshBy o quot f m iNbSegments false
    return a.2) m.clear

/-- `NurbsUtil::to_mesh` (solid) 126-133 with exact numbers -/
def toMeshSolid (ns : Solid K) (m : Mesh K) (iNbSegments : Int) : Res (Mesh K) := toMeshSolidBy exactOps divR ns m iNbSegments

/-- `NurbsUtil::to_controlpoints_mesh` 56-75 -/
noncomputable def toControlpointsMesh (n : Surface ℝ) (m : Mesh ℝ) : Res (Mesh ℝ) :=
  loopN (n.nbU - 1).toNat (fun u m =>
    loopN (n.nbV - 1).toNat (fun v m => do
      let p1 ← getI n.points (v * n.nbU + u)
      let p2 ← getI n.points (v * n.nbU + (u + 1))
      let p3 ← getI n.points ((v + 1) * n.nbU + (u + 1))
      let p4 ← getI n.points ((v + 1) * n.nbU + u)
      m.addQuadPts p1 p2 p3 p4 true) m) m.clear

/-- the loop of `NurbsCurve::to_polyline` 272-276; `t` grows by `step` (`t += deltaT`) until it
exceeds 1, `none` also when the fuel runs out -/
def polyLoopBy (o : EvalOps K) (step : K → K) : Nat → K → Curve K × List (P3 K) → Res (Curve K × List (P3 K))
  | 0, _, _ => none
  | fuel + 1, t, a =>
    if t ≤ 1 then do
      let r ← a.1.evaluateBy o t
      polyLoopBy o step fuel (step t) (r.1, a.2 ++ [r.2])
    else some a

/-- `NurbsCurve::to_polyline` 264-277, whatever the arithmetic.  The loop makes at most
`10 n + 1` steps; the fuel `10 n + 2` is enough. -/
def toPolylineBy (o : EvalOps K) (step : K → K) (c : Curve K) : Res (Curve K × List (P3 K)) :=
  if c.points = [] then some (c, [])
  else polyLoopBy o step (10 * c.points.length + 2) 0 (c, [])

/-- `NurbsCurve::to_polyline` 264-277 with exact numbers -/
def toPolyline (c : Curve K) : Res (Curve K × List (P3 K)) :=
  toPolylineBy exactOps (fun t => t + 1 / ((c.points.length : K) * 10)) c

end Nurbs
end CAD
